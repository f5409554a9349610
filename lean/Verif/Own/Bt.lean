import Verif.Own.Obj
import Verif.Own.Model
import Verif.BucketTable.Model
/-!
# `bucket_table` as it lies in memory

The object has two pointers.  All functions that allocate, release or hand over memory are modelled as they are written.  Simplifications: a block
of a bucket for `n` entries is an array of `n` numbers (packed buckets: C07-C13), unwritten entries are 0; keys have at most `m_width` bits; all tables of
a program have the same `m_width` (bucket_table.hpp:250, 261 demand it); no debug array.
-/
namespace SC.Own

/-- template arguments: allocation functions of key and value buckets, bits of a value, `incremental_resize` or `arbitrary_resize_bucket` -/
structure BtMem where
  kmem : BkMem
  vmem : BkMem
  vbits : Nat
  strat : Strategy

/-- the object: `m_keys.m_data`, `m_values.m_data`, `m_elements`, `m_resize_strategy.m_length`, bucket_table.hpp:174-180, 30 -/
structure BtObj where
  keys : Ptr
  vals : Ptr
  elems : Nat
  len : Nat
  deriving DecidableEq

/-! ## Bucket objects that are members -/

/-- `initialize(n, …)`, bucket.hpp:89-96, 240-244, 325-329, 414-419 -/
def Heap.initMember (h : Heap) (how : Alloc) (n : Nat) : Ptr × Heap :=
  (some (h.alloc how (.data (List.replicate n 0))).1, (h.alloc how (.data (List.replicate n 0))).2)

/-- `clear()`, bucket.hpp:79-85, 221-227, 316-321, 403-410; gives the null pointer -/
def Heap.clearMember (h : Heap) (how : Alloc) (p : Ptr) : Res (Ptr × Heap) := do
  let h ← h.free how p
  return (none, h)

/-- `resize(oldsize, n, …)`: the first `oldsize` entries move to a new block, the old one is released, bucket.hpp:16-29 and 116-120, 253-256, 331-340, 421-427 -/
def Heap.resizeMember (h : Heap) (how : Alloc) (p : Ptr) (oldsize n : Nat) : Res (Ptr × Heap) := match p with
  | none => if how = .malloc then .ok (h.initMember how n) else .error .null
  | some b => do
    let xs ← h.data (some b)
    if oldsize ≤ xs.length then do
      let (a, h) := h.alloc how (.data ((xs.take oldsize ++ List.replicate (n - oldsize) 0).take n))
      let h ← h.free how (some b)
      return (some a, h)
    else .error .oob

/-- `find(x, n, …)`: the first of the first `n` entries that is `x` -/
def Heap.findMember (h : Heap) (p : Ptr) (x n : Nat) : Res Nat :=
  if n = 0 then .ok NPOS
  else do
    let xs ← h.data p
    if n ≤ xs.length then return posOf (xs.take n) x else .error .oob

/-- Move constructor of the bucket classes, bucket.hpp:165-170, 287-292, 344-349, 492-497: pointers of the new object and of the source. -/
def moveMember (src : Ptr) : Ptr × Ptr := (src, none)

/-- Move assignment of the bucket classes, bucket.hpp:172-178, 299-305, 351-357, 499-505: pointers of target and source. -/
def Heap.assignMember (h : Heap) (how : Alloc) (dst src : Ptr) : Res (Ptr × Ptr × Heap) := do
  let (_, h) ← h.clearMember how dst
  return (src, none, h)

/-- `std::swap` of two bucket objects: a temporary object takes over the first one, and is destroyed at the end -/
def Heap.swapMember (h : Heap) (how : Alloc) (a b : Ptr) : Res (Ptr × Ptr × Heap) := do
  let (tmp, a) := moveMember a
  let (a, b, h) ← h.assignMember how a b
  let (b, tmp, h) ← h.assignMember how b tmp
  let (_, h) ← h.clearMember how tmp
  return (a, b, h)

/-- `p = std::move(p)`: the block is released first, so nothing is left to move -/
def Heap.selfAssignMember (h : Heap) (how : Alloc) (p : Ptr) : Res (Ptr × Heap) := h.clearMember how p

/-- `std::swap` of a bucket object with itself -/
def Heap.selfSwapMember (h : Heap) (how : Alloc) (p : Ptr) : Res (Ptr × Heap) := do
  let (tmp, p) := moveMember p
  let (p, h) ← h.selfAssignMember how p
  let (p, tmp, h) ← h.assignMember how p tmp
  let (_, h) ← h.clearMember how tmp
  return (p, h)

namespace Bt
variable (c : BtMem)

/-- constructor, bucket_table.hpp:231-235, with the member initialisers -/
def new : BtObj := { keys := none, vals := none, elems := 0, len := 0 }

/-- `m_resize_strategy.size(m_elements)`, bucket_table.hpp:36-38 and size.hpp:17-19 -/
def capacity (t : BtObj) : Nat := match c.strat with
  | .incremental => t.elems
  | .arbitrary => t.len

/-- `m_resize_strategy.needs_resize(newsize)`, bucket_table.hpp:39-41 and size.hpp:24 -/
def needsResize (t : BtObj) (newsize : Nat) : Bool := match c.strat with
  | .incremental => true
  | .arbitrary => decide (t.len ≤ newsize)

/-- `shrink_to_fit()`, bucket_table.hpp:183-190 -/
def shrink (h : Heap) (t : BtObj) : Res (BtObj × Heap) :=
  if t.keys = none then .ok (t, h)
  else if capacity c t > t.elems then do
    let (ks, h) ← h.resizeMember c.kmem.how t.keys t.elems t.elems
    let (vs, h) ← h.resizeMember c.vmem.how t.vals t.elems t.elems
    return ({ t with keys := ks, vals := vs, len := t.elems }, h)
  else .ok (t, h)

/-- `clear()`, bucket_table.hpp:201-206 -/
def clear (h : Heap) (t : BtObj) : Res (BtObj × Heap) := do
  let (ks, h) ← h.clearMember c.kmem.how t.keys
  let (vs, h) ← h.clearMember c.vmem.how t.vals
  return ({ t with keys := ks, vals := vs, elems := 0 }, h)

/-- `locate(key)`, bucket_table.hpp:309-332 -/
def locate (h : Heap) (t : BtObj) (k : Nat) : Res Nat := h.findMember t.keys k t.elems

/-- `find(key)`, bucket_table.hpp:303-307 -/
def find (h : Heap) (t : BtObj) (k : Nat) : Res Nat := if t.keys = none then .ok NPOS else locate h t k

/-- writing a new last element, bucket_table.hpp:374-377 -/
def put (h : Heap) (t : BtObj) (k v : Nat) : Res (BtObj × Heap × Nat) := do
  let h ← h.setWord t.keys (t.elems - 1) k
  let h ← h.setWord t.vals (t.elems - 1) (v % 2 ^ c.vbits)
  return (t, h, t.elems - 1)

/-- `find_or_insert(key, value)`, bucket_table.hpp:342-378: the position -/
def insert (h : Heap) (t : BtObj) (k v : Nat) : Res (BtObj × Heap × Nat) :=
  if t.keys = none then
    let (ks, h) := h.initMember c.kmem.how 1
    let (vs, h) := h.initMember c.vmem.how 1
    put c h { keys := ks, vals := vs, elems := 1, len := 1 } k v
  else do
    let pos ← locate h t k
    if pos ≠ NPOS then return (t, h, pos)
    else
      let elems := (t.elems + 1) % 2 ^ 32
      if needsResize c t elems then do
        let (ks, h) ← h.resizeMember c.kmem.how t.keys (elems - 1) (btGrow c.strat elems)
        let (vs, h) ← h.resizeMember c.vmem.how t.vals (elems - 1) (btGrow c.strat elems)
        put c h { keys := ks, vals := vs, elems := elems, len := btGrow c.strat elems } k v
      else put c h { t with elems := elems } k v

/-- the loop of `erase`, bucket_table.hpp:399-403; `n` iterations are left -/
def shift (h : Heap) (t : BtObj) (i : Nat) : Nat → Res Heap
  | 0 => .ok h
  | n + 1 => do
    let k ← h.word t.keys i
    let h ← h.setWord t.keys (i - 1) k
    let v ← h.word t.vals i
    let h ← h.setWord t.vals (i - 1) v
    shift h t (i + 1) n

/-- `erase(key)`, bucket_table.hpp:392-410 -/
def erase (h : Heap) (t : BtObj) (k : Nat) : Res (BtObj × Heap × Nat) :=
  if t.keys = none then .ok (t, h, 0)
  else do
    let pos ← locate h t k
    if pos = NPOS then return (t, h, 0)
    else do
      let h ← shift h t (pos + 1) (t.elems - (pos + 1))
      let t := { t with elems := t.elems - 1 }
      if t.elems = 0 then do
        let (t, h) ← clear c h t
        return (t, h, 1)
      else return (t, h, 1)

/-- `~bucket_table()`, bucket_table.hpp:384, followed by the destructors of `m_values` and `m_keys` -/
def destroy (h : Heap) (t : BtObj) : Res Heap := do
  let (t, h) ← clear c h t
  let (_, h) ← h.clearMember c.vmem.how t.vals
  let (_, h) ← h.clearMember c.kmem.how t.keys
  return h

/-- `a.swap(b)`, bucket_table.hpp:260-268, for two different tables -/
def swap (h : Heap) (a b : BtObj) : Res (BtObj × BtObj × Heap) := do
  let (ak, bk, h) ← h.swapMember c.kmem.how a.keys b.keys
  let (av, bv, h) ← h.swapMember c.vmem.how a.vals b.vals
  return ({ keys := ak, vals := av, elems := b.elems, len := b.len }, { keys := bk, vals := bv, elems := a.elems, len := a.len }, h)

/-- move assignment, bucket_table.hpp:249-259, for two different tables: target and source.  `m_length` of the source keeps its value. -/
def moveAssign (h : Heap) (t o : BtObj) : Res (BtObj × BtObj × Heap) := do
  let (t, h) ← clear c h t
  let (tk, ok, h) ← h.assignMember c.kmem.how t.keys o.keys
  let (tv, ov, h) ← h.assignMember c.vmem.how t.vals o.vals
  return ({ keys := tk, vals := tv, elems := o.elems, len := o.len }, { o with keys := ok, vals := ov, elems := 0 }, h)

/-- `a.swap(a)`, bucket_table.hpp:260-268 -/
def selfSwap (h : Heap) (a : BtObj) : Res (BtObj × Heap) := do
  let (ks, h) ← h.selfSwapMember c.kmem.how a.keys
  let (vs, h) ← h.selfSwapMember c.vmem.how a.vals
  return ({ a with keys := ks, vals := vs }, h)

/-- `a = std::move(a)`, bucket_table.hpp:249-259 -/
def selfMove (h : Heap) (t : BtObj) : Res (BtObj × Heap) := do
  let (t, h) ← clear c h t
  let (ks, h) ← h.selfAssignMember c.kmem.how t.keys
  let (vs, h) ← h.selfAssignMember c.vmem.how t.vals
  return ({ t with keys := ks, vals := vs, elems := 0 }, h)

/-- One call by a user, including reading what the returned navigator or iterator refers to; positions at least `m_elements` are equal to `end()`
(bucket_table.hpp:87-100). -/
def call (h : Heap) (t : BtObj) : MapOp → Res (BtObj × Heap × Ans)
  | .insert k v => do
    let (t, h, n) ← insert c h t k v
    let k' ← h.word t.keys n
    let x ← h.word t.vals n
    return (t, h, .pair k' x)
  | .get k => do
    let (t, h, n) ← insert c h t k 0
    let x ← h.word t.vals n
    return (t, h, .num x)
  | .assign k v => do
    let (t, h, n) ← insert c h t k 0
    let h ← h.setWord t.vals n (v % 2 ^ c.vbits)
    return (t, h, .none)
  | .find k => do
    let n ← find h t k
    if t.elems ≤ n then return (t, h, .absent)
    else do
      let k' ← h.word t.keys n
      let x ← h.word t.vals n
      return (t, h, .pair k' x)
  | .count k => do
    let n ← find h t k
    return (t, h, .num (if t.elems ≤ n then 0 else 1))
  | .erase k => do
    let (t, h, n) ← erase c h t k
    return (t, h, .num n)
  | .size => .ok (t, h, .num t.elems)
  | .empty => .ok (t, h, .bool (t.elems == 0))
  | .reserve _ => .error .undef
  | .shrink => do
    let (t, h) ← shrink c h t
    return (t, h, .none)
  | .clear => do
    let (t, h) ← clear c h t
    return (t, h, .none)

/-- the class -/
def cls : ObjClass BtObj MapOp Ans :=
  { new := new, call := call c, swap := swap c, moveAssign := moveAssign c, selfSwap := selfSwap c, selfMove := selfMove c, destroy := destroy c }

end Bt
end SC.Own
