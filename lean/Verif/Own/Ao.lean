import Verif.Own.BtProofs
/-!
# `array_overflow` as it lies in memory

The object has two pointers.  All functions that allocate, release or hand over memory are modelled as they are written.  The class declares neither a
destructor nor copy or move functions, so the compiler generates the destructor and both move functions, which treat the members one after the other.
Simplifications: keys and values are numbers; `m_bucketfull`, an object that manages its own memory, is not modelled; no debug build.
-/
namespace SC.Own

/-- the object: `m_keys.m_data`, `m_values.m_data`, `m_elements`, overflow.hpp:70-73 -/
structure AoObj where
  keys : Ptr
  vals : Ptr
  elems : Nat
  deriving DecidableEq

/-- Statements about one object.  `renew` is `x = array_overflow(…, …)`: a temporary object is constructed, assigned to `x` and destroyed.  `find` is
`find(key)`, then `valid_position`, and then reading the value at the position.  `at i` reads key and value at position `i`. -/
inductive AoOp
  | renew
  | insert (k v : Nat)
  | find (k : Nat)
  | at (i : Nat)
  | set (i v : Nat)
  | erase (i : Nat)
  | size
  | clear
  | save
  | load (l : List (Nat × Nat))
  deriving DecidableEq

/-- answers; `file` is what was written to a stream -/
inductive AoAns
  | none
  | absent
  | num (n : Nat)
  | pair (a b : Nat)
  | file (l : List (Nat × Nat))
  deriving DecidableEq

namespace Ao

/-- `m_length`, overflow.hpp:72, and `ARRAY_OVERFLOW_LENGTH`, overflow.hpp:4-6 -/
abbrev length : Nat := 256

/-- the object before the body of the constructor is executed: the default member initialisers, overflow.hpp:73 and bucket.hpp:198 -/
def new : AoObj := { keys := none, vals := none, elems := 0 }

variable (junk : Nat → Nat → Nat)

/-- `plain_bucket::initialize(n)`, bucket.hpp:240-244: the new block has the contents `junk`; the old pointer is overwritten -/
def initBlock (h : Heap) (n : Nat) : Ptr × Heap :=
  (some (h.alloc .malloc (.data ((List.range n).map (junk h.next)))).1, (h.alloc .malloc (.data ((List.range n).map (junk h.next)))).2)

/-- constructor, overflow.hpp:82-85 -/
def construct (h : Heap) : AoObj × Heap :=
  let (ks, h) := initBlock junk h length
  let (vs, h) := initBlock junk h length
  ({ new with keys := ks, vals := vs }, h)

/-- generated destructor: the members in reverse order, bucket.hpp:285 -/
def destroy (h : Heap) (t : AoObj) : Res Heap := do
  let (_, h) ← h.clearMember .malloc t.vals
  let (_, h) ← h.clearMember .malloc t.keys
  return h

/-- Generated move constructor: new object and source.  `m_elements` is copied. -/
def moveFrom (o : AoObj) : AoObj × AoObj :=
  let (tk, ok) := moveMember o.keys
  let (tv, ov) := moveMember o.vals
  ({ keys := tk, vals := tv, elems := o.elems }, { o with keys := ok, vals := ov })

/-- Generated move assignment for two different objects: target and source.  `m_elements` is copied. -/
def moveAssign (h : Heap) (t o : AoObj) : Res (AoObj × AoObj × Heap) := do
  let (tk, ok, h) ← h.assignMember .malloc t.keys o.keys
  let (tv, ov, h) ← h.assignMember .malloc t.vals o.vals
  return ({ keys := tk, vals := tv, elems := o.elems }, { o with keys := ok, vals := ov }, h)

/-- `a = std::move(a)` -/
def selfMove (h : Heap) (t : AoObj) : Res (AoObj × Heap) := do
  let (ks, h) ← h.selfAssignMember .malloc t.keys
  let (vs, h) ← h.selfAssignMember .malloc t.vals
  return ({ t with keys := ks, vals := vs }, h)

/-- `std::swap(a, b)`, as in separate_chaining_table.hpp:376 and group_chaining.hpp:766 -/
def swap (h : Heap) (a b : AoObj) : Res (AoObj × AoObj × Heap) := do
  let (tmp, a) := moveFrom a
  let (a, b, h) ← moveAssign h a b
  let (b, tmp, h) ← moveAssign h b tmp
  let h ← destroy h tmp
  return (a, b, h)

/-- `std::swap(a, a)` -/
def selfSwap (h : Heap) (a : AoObj) : Res (AoObj × Heap) := do
  let (tmp, a) := moveFrom a
  let (a, h) ← selfMove h a
  let (a, tmp, h) ← moveAssign h a tmp
  let h ← destroy h tmp
  return (a, h)

/-- `x = array_overflow(…, …)` -/
def renew (h : Heap) (t : AoObj) : Res (AoObj × Heap) := do
  let (tmp, h) := construct junk h
  let (t, tmp, h) ← moveAssign h t tmp
  let h ← destroy h tmp
  return (t, h)

/-- `insert(bucket, key, value)`, overflow.hpp:130-136 -/
def insert (h : Heap) (t : AoObj) (k v : Nat) : Res (AoObj × Heap × Nat) := do
  let h ← h.setWord t.keys t.elems k
  let h ← h.setWord t.vals t.elems v
  return ({ t with elems := (t.elems + 1) % W64 }, h, t.elems)

/-- the loop of `plain_bucket::find`, bucket.hpp:278-283; `n` iterations are left -/
def scan (h : Heap) (p : Ptr) (k i : Nat) : Nat → Res Nat
  | 0 => .ok NPOS
  | n + 1 => do
    let x ← h.word p i
    if x = k then return i else scan h p k (i + 1) n

/-- `find(key)`, overflow.hpp:147-149: all `m_length` cells are looked at -/
def find (h : Heap) (t : AoObj) (k : Nat) : Res Nat := scan h t.keys k 0 length

/-- the loop of `erase`, overflow.hpp:117-120, for the current value of `i` -/
def eraseLoop (t : AoObj) (pos : Nat) : Nat → Heap → Res Heap
  | 0, h => if 0 < pos then .error .oob else .ok h
  | i + 1, h => if i + 1 < pos then do
      let x ← h.word t.keys (i + 1)
      let h ← h.setWord t.keys i x
      let y ← h.word t.vals (i + 1)
      let h ← h.setWord t.vals i y
      eraseLoop t pos i h
    else .ok h

/-- `erase(position)`, overflow.hpp:115-122 -/
def erase (h : Heap) (t : AoObj) (pos : Nat) : Res (AoObj × Heap) := do
  let h ← eraseLoop t pos t.elems h
  return ({ t with elems := (t.elems + W64 - 1) % W64 }, h)

/-- `clear()`, overflow.hpp:111-114 -/
def clear (h : Heap) (t : AoObj) : Res (AoObj × Heap) := do
  let (ks, h) ← h.clearMember .malloc t.keys
  let (vs, h) ← h.clearMember .malloc t.vals
  return ({ t with keys := ks, vals := vs }, h)

/-- `plain_bucket::serialize(os, n)`, bucket.hpp:208-212: the first `n` cells -/
def cells (h : Heap) (p : Ptr) (n : Nat) : Res (List Nat) :=
  if n = 0 then .ok []
  else do
    let xs ← h.data p
    if n ≤ xs.length then return xs.take n else .error .oob

/-- `serialize(os)`, overflow.hpp:102-106 -/
def save (h : Heap) (t : AoObj) : Res (List (Nat × Nat)) := do
  let ks ← cells h t.keys t.elems
  let vs ← cells h t.vals t.elems
  return ks.zip vs

/-- `plain_bucket::deserialize(is, n)`, bucket.hpp:202-207: `initialize`, and then all cells of the block are read from the stream -/
def loadBlock (h : Heap) (xs : List Nat) : Res (Ptr × Heap) := do
  let (p, h) := initBlock junk h xs.length
  let h ← h.put p (.data xs)
  return (p, h)

/-- `deserialize(is)`, overflow.hpp:97-101, for a stream that holds the pairs `l` -/
def load (h : Heap) (t : AoObj) (l : List (Nat × Nat)) : Res (AoObj × Heap) := do
  let t := { t with elems := l.length }
  let (ks, h) ← loadBlock junk h (l.map Prod.fst)
  let (vs, h) ← loadBlock junk h (l.map Prod.snd)
  return ({ t with keys := ks, vals := vs }, h)

/-- one statement; `valid_position` is overflow.hpp:80, `key` and `operator[]` are overflow.hpp:150-161, `size` is overflow.hpp:77 -/
def call (h : Heap) (t : AoObj) : AoOp → Res (AoObj × Heap × AoAns)
  | .renew => do
    let (t, h) ← renew junk h t
    return (t, h, .none)
  | .insert k v => do
    let (t, h, n) ← insert h t k v
    return (t, h, .num n)
  | .find k => do
    let n ← find h t k
    if n < t.elems then do
      let x ← h.word t.vals n
      return (t, h, .pair n x)
    else return (t, h, .absent)
  | .at i => do
    let k ← h.word t.keys i
    let x ← h.word t.vals i
    return (t, h, .pair k x)
  | .set i v => do
    let h ← h.setWord t.vals i v
    return (t, h, .none)
  | .erase i => do
    let (t, h) ← erase h t i
    return (t, h, .none)
  | .size => .ok (t, h, .num t.elems)
  | .clear => do
    let (t, h) ← clear h t
    return (t, h, .none)
  | .save => do
    let l ← save h t
    return (t, h, .file l)
  | .load l => do
    let (t, h) ← load junk h t l
    return (t, h, .none)

/-- the class -/
def cls : ObjClass AoObj AoOp AoAns :=
  { new := new, call := call junk, swap := swap, moveAssign := moveAssign, selfSwap := selfSwap, selfMove := selfMove, destroy := destroy }

end Ao
end SC.Own
