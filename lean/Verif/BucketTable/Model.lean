import Verif.Spec.Map
import Verif.Sep.Store
import Verif.Bucket.Plain
/-!
# `bucket_table`, bucket_table.hpp

A single bucket with the interface of a map.  The value bucket must be a class with `operator[]`, that is `plain_bucket` or
`class_bucket`; these ignore the width arguments, so that it does not matter that `shrink_to_fit` passes the key width
(bucket_table.hpp:187).

`debug` distinguishes the two builds: with `debug` the assertions are executed and `m_plainkeys` is a copy of the keys.  The
assertions here are `DCHECK`s, which are not defined by the library (dcheck.hpp only defines `DDCHECK`), but by the program that
includes bucket_table.hpp; as for `DDCHECK` a failing assertion is the fault `exc`.
-/
namespace SC
variable {A VB : Type}

/-- template arguments; `A` and `VB` are the types of the buckets, `knull` and `vnull` their tests `m_data == nullptr`;
`kbits` and `vbits` are the numbers of bits of `key_type` and `value_type`; `strat` is `incremental_resize` or
`arbitrary_resize_bucket`; `debug` is set if the code is compiled without `NDEBUG` -/
structure BtCfg (A VB : Type) where
  kops : BucketOps A
  vops : BucketOps VB
  knull : A → Bool
  vnull : VB → Bool
  kbits : Nat
  vbits : Nat
  strat : Strategy
  debug : Bool := false

/-- the members, bucket_table.hpp:172-180; `len` is `m_length` of `arbitrary_resize_bucket` (30); `plain` is `m_plainkeys` (172),
which only exists in debug builds -/
structure BTab (A VB : Type) where
  keys : A
  vals : VB
  elems : Nat
  len : Nat
  width : Nat
  plain : PlainB := none

/-- the members after `bucket_table(width)`, 231-232 -/
def BTab.new (c : BtCfg A VB) (width : Nat) : BTab A VB :=
  { keys := c.kops.empty, vals := c.vops.empty, elems := 0, len := 0, width := width }

/-- `bucket_table(width)`, 231-235; `m_width` has 8 bits -/
def BTab.make (c : BtCfg A VB) (width : Nat) : Res (BTab A VB) := do
  ddcheck c.debug (width ≤ c.kbits)
  return BTab.new c (width % 256)

/-- `m_resize_strategy.size(m_elements)`, 36-38 and size.hpp:17-19; also `capacity()`, 193-195 -/
def BTab.capacity (c : BtCfg A VB) (t : BTab A VB) : Nat := match c.strat with
  | .incremental => t.elems
  | .arbitrary => t.len

/-- `m_resize_strategy.needs_resize(newsize)`, 39-41 and size.hpp:24 -/
def BTab.needsResize (c : BtCfg A VB) (t : BTab A VB) (newsize : Nat) : Bool := match c.strat with
  | .incremental => true
  | .arbitrary => decide (t.len ≤ newsize)

/-- `m_resize_strategy.size_after_increment(newsize)`, 43-46 and size.hpp:21-23 -/
def btGrow (st : Strategy) (newsize : Nat) : Nat := match st with
  | .incremental => newsize
  | .arbitrary => arbResize newsize % 2 ^ 32

/-- `shrink_to_fit()`, 183-190 -/
def BTab.shrink (c : BtCfg A VB) (t : BTab A VB) : Res (BTab A VB) := do
  if c.knull t.keys then return t
  if t.capacity c > t.elems then
    let ks ← c.kops.resize t.keys t.elems t.elems t.width
    let vs ← c.vops.resize t.vals t.elems t.elems c.vbits
    return { t with keys := ks, vals := vs, len := t.elems }
  return t

/-- `clear()`, 201-206; the resize strategy keeps its length -/
def BTab.clear (c : BtCfg A VB) (t : BTab A VB) : BTab A VB :=
  { t with keys := c.kops.clear t.keys, vals := c.vops.clear t.vals, elems := 0, plain := none }

/-- the loop of `locate` over `m_plainkeys`, 311-320; `n` iterations are left -/
def BTab.scan (c : BtCfg A VB) (t : BTab A VB) (k i : Nat) : Nat → Res Nat
  | 0 => .ok NPOS
  | n + 1 => do
    let r ← c.kops.read t.keys i t.width
    let p ← cellRead t.plain i
    ddcheck true (r = p)
    if p = k then return i
    BTab.scan c t k (i + 1) n

/-- `plain_position`, 310-321 -/
def BTab.plainPos (c : BtCfg A VB) (t : BTab A VB) (k : Nat) : Res Nat := if c.debug then t.scan c k 0 t.elems else .ok NPOS

/-- `locate(key)`, 309-332 -/
def BTab.locate (c : BtCfg A VB) (t : BTab A VB) (k : Nat) : Res Nat := do
  let p ← t.plainPos c k
  let pos ← c.kops.find t.keys k t.elems t.width
  ddcheck c.debug (pos = p)
  ddcheck c.debug (pos ≠ NPOS → pos < t.elems)
  return pos

/-- navigators: `key()`, 75-78 -/
def BTab.keyAt (c : BtCfg A VB) (t : BTab A VB) (i : Nat) : Res Nat := do
  ddcheck c.debug (i < t.elems)
  c.kops.read t.keys i t.width

/-- navigators: `value()`, 79-82 -/
def BTab.valueAt (c : BtCfg A VB) (t : BTab A VB) (i : Nat) : Res Nat := do
  ddcheck c.debug (i < t.elems)
  c.vops.read t.vals i c.vbits

/-- writing through `value_ref()`, 83-86, or through the reference from `operator[]` -/
def BTab.writeValue (c : BtCfg A VB) (t : BTab A VB) (i v : Nat) : Res (BTab A VB) := do
  ddcheck c.debug (i < t.elems)
  let vs ← c.vops.write t.vals i v c.vbits
  return { t with vals := vs }

/-- `invalid()`, 87-89 -/
def BTab.invalid (t : BTab A VB) (i : Nat) : Bool := decide (t.elems ≤ i)

/-- iterators: `update()`, 116-119; the pair read is kept in the iterator -/
def BTab.update (c : BtCfg A VB) (t : BTab A VB) (i : Nat) : Res (Nat × Nat) := do
  ddcheck c.debug (i < t.elems)
  let k ← t.keyAt c i
  let v ← t.valueAt c i
  return (k, v)

/-- construction of an iterator at position `i`, 122-125; the result is the pair it holds -/
def BTab.iter (c : BtCfg A VB) (t : BTab A VB) (i : Nat) : Res (Option (Nat × Nat)) := do
  if t.invalid i then return none
  let p ← t.update c i
  return some p

/-- `find(key)`, 303-307: the position of the iterator and the pair it holds -/
def BTab.find (c : BtCfg A VB) (t : BTab A VB) (k : Nat) : Res (Nat × Option (Nat × Nat)) := do
  if c.knull t.keys then return (NPOS, none)
  let pos ← t.locate c k
  let p ← t.iter c pos
  return (pos, p)

/-- `operator==` of navigators of the same table, 96-100 -/
def BTab.navEq (t : BTab A VB) (i j : Nat) : Bool :=
  if !t.invalid j && !t.invalid i then j == i else t.invalid j == t.invalid i

/-- `m_plainkeys[i] = key`, 373 -/
def BTab.plainWrite (c : BtCfg A VB) (t : BTab A VB) (i k : Nat) : Res PlainB :=
  if c.debug then cellWrite t.plain i k else .ok t.plain

/-- writing a new last element, 371-377; the number of elements has been increased before -/
def BTab.put (c : BtCfg A VB) (t : BTab A VB) (k v : Nat) : Res (BTab A VB × Nat) := do
  ddcheck c.debug (t.elems ≤ t.capacity c)
  let p ← t.plainWrite c (t.elems - 1) k
  let ks ← c.kops.write t.keys (t.elems - 1) k t.width
  let vs ← c.vops.write t.vals (t.elems - 1) v c.vbits
  return ({ t with keys := ks, vals := vs, plain := p }, t.elems - 1)

/-- `m_plainkeys` after `malloc`, 346 -/
def BtCfg.plainInit (c : BtCfg A VB) : Res PlainB := if c.debug then plainInitialize 1 else .ok none

/-- `m_plainkeys` after `realloc` to `n` entries, 362 -/
def BTab.plainGrow (c : BtCfg A VB) (t : BTab A VB) (n : Nat) : Res PlainB :=
  if c.debug then plainResize t.plain n else .ok t.plain

/-- `find_or_insert(key, value)`, 342-378; `m_elements` has 32 bits; `INITIAL_BUCKET_SIZE` is 1; the assertions `m_data == nullptr`
belong to `initialize` of the buckets (bucket.hpp:90, 241, 326, 415) -/
def BTab.insert (c : BtCfg A VB) (t : BTab A VB) (k v : Nat) : Res (BTab A VB × Nat) := do
  ddcheck c.debug (k ≤ 2 ^ t.width - 1)
  if c.knull t.keys then
    ddcheck c.debug (c.knull t.keys)
    let ks ← c.kops.init 1 t.width
    ddcheck c.debug (c.vnull t.vals)
    let vs ← c.vops.init 1 c.vbits
    let p ← c.plainInit
    BTab.put c { t with keys := ks, vals := vs, elems := 1, len := 1, plain := p } k v
  else
    let pos ← t.locate c k
    if pos ≠ NPOS then
      ddcheck c.debug (pos < t.elems)
      return (t, pos)
    let elems := (t.elems + 1) % 2 ^ 32
    let p ← t.plainGrow c elems
    if t.needsResize c elems then
      ddcheck c.debug (c.strat = .arbitrary → arbResize elems ≤ 2 ^ 32 - 1)
      let new := btGrow c.strat elems
      let ks ← c.kops.resize t.keys (elems - 1) new t.width
      let vs ← c.vops.resize t.vals (elems - 1) new c.vbits
      let t := { t with keys := ks, vals := vs, elems := elems, len := new, plain := p }
      ddcheck c.debug (t.elems ≤ t.capacity c)
      BTab.put c t k v
    else
      let t := { t with elems := elems, plain := p }
      ddcheck c.debug (t.elems ≤ t.capacity c)
      BTab.put c t k v

/-- `operator[](key) const`, 334-341 -/
def BTab.at (c : BtCfg A VB) (t : BTab A VB) (k : Nat) : Res Nat := do
  ddcheck c.debug (k ≤ 2 ^ t.width - 1)
  ddcheck c.debug (c.knull t.keys = false)
  let pos ← t.locate c k
  ddcheck c.debug (pos ≠ NPOS)
  ddcheck c.debug (pos < t.elems)
  c.vops.read t.vals pos c.vbits

/-- `m_plainkeys[i-1] = m_plainkeys[i]`, 401 -/
def BTab.plainMove (c : BtCfg A VB) (t : BTab A VB) (i : Nat) : Res PlainB :=
  if c.debug then do
    let x ← cellRead t.plain i
    cellWrite t.plain (i - 1) x
  else .ok t.plain

/-- the loop of `erase`, 399-403; `n` iterations are left -/
def BTab.shift (c : BtCfg A VB) (t : BTab A VB) (i : Nat) : Nat → Res (BTab A VB)
  | 0 => .ok t
  | n + 1 => do
    let k ← c.kops.read t.keys i t.width
    let ks ← c.kops.write t.keys (i - 1) k t.width
    let p ← t.plainMove c i
    let v ← c.vops.read t.vals i c.vbits
    let vs ← c.vops.write t.vals (i - 1) v c.vbits
    BTab.shift c { t with keys := ks, vals := vs, plain := p } (i + 1) n

/-- `erase(key)`, 392-410 -/
def BTab.erase (c : BtCfg A VB) (t : BTab A VB) (k : Nat) : Res (BTab A VB × Nat) := do
  if c.knull t.keys then return (t, 0)
  let pos ← t.locate c k
  if pos = NPOS then return (t, 0)
  let t ← t.shift c (pos + 1) (t.elems - (pos + 1))
  ddcheck c.debug (0 < t.elems)
  let t := { t with elems := t.elems - 1 }
  if t.elems = 0 then return (t.clear c, 1)
  return (t, 1)

/-- One call by a user, including reading what the returned navigator or iterator refers to.  `count` is 387-389, `size` 221-223, `empty`
218.  There is no `reserve`. -/
def BTab.step (c : BtCfg A VB) (t : BTab A VB) : MapOp → Res (BTab A VB × Ans)
  | .insert k v => do
    let (t, n) ← t.insert c k v
    let k' ← t.keyAt c n
    let x ← t.valueAt c n
    return (t, .pair k' x)
  | .get k => do
    let (t, n) ← t.insert c k 0
    let x ← t.valueAt c n
    return (t, .num x)
  | .assign k v => do
    let (t, n) ← t.insert c k 0
    let t ← t.writeValue c n v
    return (t, .none)
  | .find k => do
    let (n, p) ← t.find c k
    if t.navEq n NPOS then return (t, .absent)
    let (k', x) ← p.elim (.error .uninit) .ok
    return (t, .pair k' x)
  | .count k => do
    let (n, _) ← t.find c k
    return (t, .num (if t.navEq n NPOS then 0 else 1))
  | .erase k => do
    let (t, n) ← t.erase c k
    return (t, .num n)
  | .size => .ok (t, .num t.elems)
  | .empty => .ok (t, .bool (t.elems == 0))
  | .reserve _ => .error .undef
  | .shrink => do
    let t ← t.shrink c
    return (t, .none)
  | .clear => .ok (t.clear c, .none)

/-- a sequence of calls -/
def BTab.run (c : BtCfg A VB) (t : BTab A VB) : List MapOp → Res (BTab A VB × List Ans)
  | [] => .ok (t, [])
  | op :: ops => do
    let (t, a) ← t.step c op
    let (t, as) ← BTab.run c t ops
    return (t, a :: as)

/-- `for(auto it = begin(); it != end(); ++it) use(*it)`, from position `i` on, where the iterator holds the pair `p`: 127-136.
`operator++` contains the same assertion twice (66, 128). -/
def BTab.visit (c : BtCfg A VB) (t : BTab A VB) : (fuel i : Nat) → (p : Option (Nat × Nat)) → Res (List (Nat × Nat))
  | 0, _, _ => .error .fuel
  | fuel + 1, i, p => do
    if t.navEq i NPOS then return []
    let e ← p.elim (.error .uninit) .ok
    ddcheck c.debug (i < t.elems)
    let p' ← t.iter c ((i + 1) % W64)
    let l ← BTab.visit c t fuel ((i + 1) % W64) p'
    return e :: l

/-- `begin()` and the loop, 286-288 -/
def BTab.pairs (c : BtCfg A VB) (t : BTab A VB) : Res (List (Nat × Nat)) := do
  let p ← t.iter c 0
  t.visit c (t.elems + 1) 0 p

/-- `for(auto it = rbegin_nav(); it != rend_nav(); --it) use(it)`, from position `i` on: 70-74, 298-301 -/
def BTab.visitBack (c : BtCfg A VB) (t : BTab A VB) : (fuel i : Nat) → Res (List (Nat × Nat))
  | 0, _ => .error .fuel
  | fuel + 1, i => do
    if t.navEq i NPOS then return []
    let k ← t.keyAt c i
    let v ← t.valueAt c i
    ddcheck c.debug (i < t.elems)
    let l ← BTab.visitBack c t fuel ((i + W64 - 1) % W64)
    return (k, v) :: l

/-- `rbegin_nav()`: `m_elements-1` is computed with 32 bits -/
def BTab.pairsBack (c : BtCfg A VB) (t : BTab A VB) : Res (List (Nat × Nat)) :=
  t.visitBack c (t.elems + 1) ((t.elems + 2 ^ 32 - 1) % 2 ^ 32)

end SC
