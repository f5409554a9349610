import Verif.Own.Prog
import Verif.Own.Model
/-!
# Ownership in `compact_chaining_map`

The map as it lies in memory, as for `separate_chaining_table` in `Own.Model`.  Simplifications: the hash function is any function that chooses a
bucket; the memory of a bucket holds the keys instead of quotients (the quotient and the bucket determine the key, C03), the values lie in the same
block and are not shown; no debug arrays.
-/
namespace SC.Own

/-- Template arguments and parameters: key width, `max_bucket_size()`, hash function, bits of an entry for a given number of buckets
(`remainder_width` and `value_width()`), bits of `storage_type`.  `rel` is the function that releases the memory: `delete[]` in the code
(compact:124, 142), although all of it is allocated with `malloc` and `realloc`.  `zeroNull` tells what `realloc(p, 0)` does: release the block and
give null, or give a new block; this is up to the C library. -/
structure CCfg where
  kw : Nat
  maxSize : Nat
  hash : Nat → Nat → Nat
  width : Nat → Nat
  sb : Nat
  rel : Alloc
  zeroNull : Bool

/-- The object: `m_storage`, `m_bucketsizes`, `m_buckets`, `m_elements`, compact:100-105 -/
structure CTab where
  store : Ptr
  sizes : Ptr
  lg : Nat
  elems : Nat
  deriving DecidableEq

namespace Compact

/-- constructor, compact:212-222 with the member initialisers 100-105 -/
def new : CTab := { store := none, sizes := none, lg := 0, elems := 0 }

/-- `bucket_count()`, compact:198-201 -/
def bucketCount (t : CTab) : Nat := if t.lg = 0 then 0 else 2 ^ t.lg

variable (c : CCfg)

/-- `clear(bucket)`, compact:122-133 -/
def clearOne (h : Heap) (t : CTab) (b : Nat) : Res Heap := do
  let h ← h.clearBucket c.rel t.store b
  h.setWord t.sizes b 0

/-- `clear_structure()`, compact:140-150; `m_storage` keeps its value -/
def clearStructure (h : Heap) (t : CTab) : Res (CTab × Heap) := do
  let h ← h.free c.rel t.store
  let h ← h.free .malloc t.sizes
  return ({ t with sizes := none, lg := 0, elems := 0 }, h)

/-- one round of the loop in `clear()`, compact:158-161 -/
def clearNonempty (t : CTab) (h : Heap) (b : Nat) : Res Heap := do
  if (← h.word t.sizes b) = 0 then return h else clearOne c h t b

/-- `clear()`, compact:155-164 -/
def clear (h : Heap) (t : CTab) : Res (CTab × Heap) :=
  if t.sizes ≠ none then do
    let h ← (List.range (bucketCount t)).foldlM (clearNonempty c t) h
    clearStructure c h t
  else .ok (t, h)

/-- `~compact_chaining_map()`, compact:622 -/
def destroy (h : Heap) (t : CTab) : Res Heap := do
  let (_, h) ← clear c h t
  return h

/-- `reserve` on a map without buckets, compact:302-320 -/
def reserveEmpty (h : Heap) (t : CTab) (bits : Nat) : CTab × Heap :=
  let n := 2 ^ bits
  let store := h.alloc .malloc (.objs (List.replicate n none))
  let sizes := store.2.alloc .malloc (.data (List.replicate n 0))
  ({ t with store := some store.1, sizes := some sizes.1, lg := bits }, sizes.2)

/-- `a.swap(b)`, compact:260-275, for two different maps -/
def swap (h : Heap) (a b : CTab) : Res (CTab × CTab × Heap) :=
  .ok ({ store := b.store, sizes := b.sizes, lg := b.lg, elems := b.elems }, { store := a.store, sizes := a.sizes, lg := a.lg, elems := a.elems }, h)

/-- move assignment, compact:241-259, for two different maps.  Gives target and source; the source keeps `m_buckets` and `m_elements`. -/
def moveAssign (h : Heap) (t o : CTab) : Res (CTab × CTab × Heap) := do
  let (_, h) ← clear c h t
  return ({ store := o.store, sizes := o.sizes, lg := o.lg, elems := o.elems }, { o with store := none, sizes := none }, h)

/-- `x = std::move(x)`, compact:241-259: what is left after `clear()` is moved to itself, then the pointers are set to null -/
def selfMove (h : Heap) (t : CTab) : Res (CTab × Heap) := do
  let (t, h) ← clear c h t
  return ({ t with store := none, sizes := none }, h)

/-- words of memory of a bucket with `n` entries, compact:483-484 -/
def words (lg n : Nat) : Nat := ceilDiv (n * c.width lg) c.sb

/-- `realloc_bucket(bucket, oldsize, …)`, compact:479-488, for a bucket that has `size` entries now -/
def reallocBucket (h : Heap) (t : CTab) (b old size : Nat) : Res Heap :=
  if words c t.lg old ≠ words c t.lg size then
    if words c t.lg size = 0 ∧ c.zeroNull then h.clearBucket .malloc t.store b else h.resizeBucket .malloc t.store b
  else .ok h

/-- `find_or_insert` as a parameter -/
abbrev Ins := Heap → CTab → Nat → Res (CTab × Heap)

/-- insert the first `n` entries of bucket `b` of `t` into `tmp`, compact:331-340 -/
def moveEntries (ins : Ins) (t : CTab) (b : Nat) : Nat → CTab × Heap → Res (CTab × Heap)
  | 0, s => .ok s
  | n + 1, s => do
    let (tmp, h) ← moveEntries ins t b n s
    let k ← h.readBucket t.store b n
    ins h tmp k

/-- one round of the loop over the buckets, compact:329-342 -/
def moveBucket (ins : Ins) (t : CTab) (s : CTab × Heap) (b : Nat) : Res (CTab × Heap) := do
  let n ← s.2.word t.sizes b
  if n = 0 then return s
  else do
    let (tmp, h) ← moveEntries ins t b n s
    let h ← clearOne c h t b
    return (tmp, h)

/-- `reserve(reserve)`, compact:297-346 -/
def reserveWith (ins : Ins) (h : Heap) (t : CTab) (n : Nat) : Res (CTab × Heap) := do
  let bits ← reserveBits n
  if t.lg = 0 then return reserveEmpty h t bits
  else do
    let (tmp, h) := reserveEmpty h new bits
    let (tmp, h) ← (List.range (bucketCount t)).foldlM (moveBucket c ins t) (tmp, h)
    let (t, h) ← clearStructure c h t
    let (t, tmp, h) ← swap h t tmp
    let h ← destroy c h tmp
    return (t, h)

/-- the end of `find_or_insert`, compact:593-600, with `enlarge_storage`, compact:490-521: the entry is appended to bucket `b` of size `n` -/
def push (h : Heap) (t : CTab) (b n k : Nat) : Res Heap := do
  let h ← h.setWord t.sizes b ((n + 1) % 256)
  let h ← reallocBucket c h t b n ((n + 1) % 256)
  h.writeBucket t.store b n k

/-- `find_or_insert(key, value)`, compact:568-614; the first argument bounds the depth of the recursion -/
def insert : Nat → Ins
  | 0, _, _, _ => .error .fuel
  | f + 1, h, t, k => do
    let (t, h) ← (if t.lg = 0 then do
        let bits ← reserveBits (min (c.kw - 1) 16)
        return reserveEmpty h t bits
      else return (t, h) : Res (CTab × Heap))
    let b := c.hash t.lg k
    let n ← h.word t.sizes b
    match ← h.findBucket t.store b k n with
    | some _ => return (t, h)
    | none =>
      if n = c.maxSize then do
        let m ← shl64 1 (t.lg + 1)
        let (t, h) ← reserveWith c (insert f) h t m
        insert f h t k
      else do
        let h ← push c h t b n k
        return ({ t with elems := t.elems + 1 }, h)

/-- `find(key)` and `count(key)`, compact:408-417, 625-627: only reads -/
def find (h : Heap) (t : CTab) (k : Nat) : Res (Option Nat) :=
  if t.lg = 0 then .ok none
  else do
    let n ← h.word t.sizes (c.hash t.lg k)
    h.findBucket t.store (c.hash t.lg k) k n

/-- `erase(key)`, compact:629-714 and 719-724: the entries behind the deleted one move down, then the memory shrinks -/
def erase (h : Heap) (t : CTab) (k : Nat) : Res (CTab × Heap) :=
  if t.lg = 0 then .ok (t, h)
  else do
    let b := c.hash t.lg k
    let n ← h.word t.sizes b
    match ← h.findBucket t.store b k n with
    | none => return (t, h)
    | some i => do
      let h ← h.eraseBucket t.store b i
      let h ← h.setWord t.sizes b ((n + 255) % 256)
      let h ← reallocBucket c h t b n ((n + 255) % 256)
      let h ← (if (n + 255) % 256 = 0 then clearOne c h t b else .ok h : Res Heap)
      return ({ t with elems := t.elems - 1 }, h)

/-- calls on a map -/
inductive Op
  | insert (k : Nat)
  | find (k : Nat)
  | erase (k : Nat)
  | clear
  | reserve (n : Nat)

/-- a call; `f` bounds the depth of the recursion -/
def call (f : Nat) (h : Heap) (t : CTab) : Op → Res (CTab × Heap)
  | .insert k => insert c f h t k
  | .find k => do
    let _ ← find c h t k
    return (t, h)
  | .erase k => erase c h t k
  | .clear => clear c h t
  | .reserve n => reserveWith c (insert c f) h t n

/-- the class -/
def cls : TabClass CTab Op := { new := new, call := call c, swap := swap, moveAssign := moveAssign c, selfMove := selfMove c, destroy := destroy c }

end Compact
end SC.Own
