import Verif.Spec.Map
import Verif.Prim
/-!
# `keysplit_adapter`, keysplit_adapter.hpp

The adapter is modelled over an arbitrary class of hash tables.  `find_or_insert` and `reserve` do not exist in it, and `empty()`
cannot be instantiated (it applies `.` to a pointer, keysplit_adapter.hpp:68), so they are left out.
-/
namespace SC

/-- What the adapter uses of the class `map_type`: the constructor with a key width, and the calls; `step` runs a call and gives the answer. -/
structure MapClass (M : Type) where
  new : (width : Nat) → M
  step : M → MapOp → Res (M × Ans)
  size : M → Nat

/-- template arguments `max_bits` and `m_length` -/
structure KsCfg where
  maxBits : Nat
  len : Nat

/-- `m_interval`, keysplit_adapter.hpp:20 -/
def KsCfg.interval (c : KsCfg) : Nat := ceilDiv c.maxBits c.len

/-- the slot of a key, the first two lines of keysplit_adapter.hpp:86-91, 93-98, 100-105, 107-112 (for 64-bit keys the result is at most
63, so the conversion to `uint_fast8_t` does not change it) -/
def KsCfg.slot (c : KsCfg) (k : Nat) : Nat :=
  let w := bitWidth k
  if w = 0 then 0 else (w - 1) / c.interval

/-- key width of table `i`, keysplit_adapter.hpp:54 -/
def KsCfg.width (c : KsCfg) (i : Nat) : Nat := min ((i + 1) * c.interval) c.maxBits

/-- `max_key()`, keysplit_adapter.hpp:35, for a 64-bit `key_type` -/
def KsCfg.maxKey (c : KsCfg) : Nat := min (W64 - 1) ((W64 - 1) >>> (64 - c.maxBits))

variable {M : Type}

/-- the constructor, keysplit_adapter.hpp:52-56: `m_maps` -/
def KsCfg.new (mc : MapClass M) (c : KsCfg) : Nat → M := fun i => mc.new (c.width i)

/-- the calls of the adapter -/
inductive KsOp
  /-- `operator[](k)` as a value -/
  | get (k : Nat)
  /-- `operator[](k) = v` -/
  | assign (k v : Nat)
  | find (k : Nat)
  | count (k : Nat)
  | erase (k : Nat)
  | size
  | shrink
  | clear
  deriving DecidableEq

/-- the corresponding call of a hash table -/
def KsOp.call : KsOp → MapOp
  | .get k => .get k
  | .assign k v => .assign k v
  | .find k => .find k
  | .count k => .count k
  | .erase k => .erase k
  | .size => .size
  | .shrink => .shrink
  | .clear => .clear

/-- a call that is passed on to the table for the key -/
def KsCfg.route (mc : MapClass M) (c : KsCfg) (ms : Nat → M) (k : Nat) (op : MapOp) : Res ((Nat → M) × Ans) :=
  if c.slot k < c.len then do
    let (m, a) ← mc.step (ms (c.slot k)) op
    return (upd ms (c.slot k) m, a)
  else .error .oob

/-- a call for all tables in turn; the first argument is the number of tables left, the second the next one -/
def ksAll (mc : MapClass M) (op : MapOp) : Nat → Nat → (Nat → M) → Res (Nat → M)
  | 0, _, ms => .ok ms
  | n + 1, i, ms => do
    let (m, _) ← mc.step (ms i) op
    ksAll mc op n (i + 1) (upd ms i m)

/-- `size()`, keysplit_adapter.hpp:74-77 (the sum does not wrap around, it counts stored elements) -/
def KsCfg.size (mc : MapClass M) (c : KsCfg) (ms : Nat → M) : Nat := (List.range c.len).foldl (fun s i => s + mc.size (ms i)) 0

/-- the calls: `erase` 86-91, `find` 93-98, `operator[]` 100-105, `count` 107-112, `shrink_to_fit` 40-44, `clear` 46-50, `size` 74-77.
`find` returns an iterator of one of the tables; comparing it with `end()`, which belongs to table 0, gives the same as comparing it with `end()`
of its own table, because iterators that are not valid are all equal (iterator.hpp:131-134). -/
def KsCfg.step (mc : MapClass M) (c : KsCfg) (ms : Nat → M) : KsOp → Res ((Nat → M) × Ans)
  | .get k => c.route mc ms k (.get k)
  | .assign k v => c.route mc ms k (.assign k v)
  | .find k => c.route mc ms k (.find k)
  | .count k => c.route mc ms k (.count k)
  | .erase k => c.route mc ms k (.erase k)
  | .size => .ok (ms, .num (c.size mc ms))
  | .shrink => do
    let ms ← ksAll mc .shrink c.len 0 ms
    return (ms, .none)
  | .clear => do
    let ms ← ksAll mc .clear c.len 0 ms
    return (ms, .none)

/-- a sequence of calls -/
def KsCfg.run (mc : MapClass M) (c : KsCfg) (ms : Nat → M) : List KsOp → Res ((Nat → M) × List Ans)
  | [] => .ok (ms, [])
  | op :: ops => do
    let (ms, a) ← c.step mc ms op
    let (ms, as) ← c.run mc ms ops
    return (ms, a :: as)

end SC
