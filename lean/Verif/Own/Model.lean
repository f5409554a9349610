import Verif.Own.Heap
import Verif.Sep.Store
/-!
# Ownership in `separate_chaining_table`

The table as it lies in memory: an object with pointers.  All functions that allocate, release or hand over memory are modelled as they are
written.  Simplifications: the hash function is any function that chooses a bucket, and a key bucket stores the keys themselves instead of
quotients (the quotient and the bucket determine the key, C03); there is no overflow table (`dummy_overflow`), no debug array `m_plainkeys`.
-/
namespace SC.Own

/-- Template arguments: allocation functions of the key and value bucket classes, `value_array_manager` (or else `value_dummy_manager`), resize
strategy, `max_bucket_size()`, key width, hash function. -/
structure MCfg where
  kmem : BkMem
  vmem : BkMem
  hasVals : Bool
  strat : Strategy
  maxSize : Nat
  kw : Nat
  hash : Nat → Nat → Nat

/-- The object: `m_keys`, `m_value_manager.m_values`, `m_bucketsizes`, `m_resize_strategy.m_maxbucketsizes`, `m_buckets`, `m_elements`,
sep:162-177, 85 and size.hpp:40.  `vals` is null for `value_dummy_manager`, `caps` for `incremental_resize`. -/
structure MTab where
  keys : Ptr
  vals : Ptr
  sizes : Ptr
  caps : Ptr
  lg : Nat
  elems : Nat
  deriving DecidableEq

/-- constructor, sep:317-327 with the member initialisers 162-172 -/
def MTab.new : MTab := { keys := none, vals := none, sizes := none, caps := none, lg := 0, elems := 0 }

/-- `bucket_count()`, sep:303-306 -/
def MTab.bucketCount (t : MTab) : Nat := if t.lg = 0 then 0 else 2 ^ t.lg

variable (c : MCfg)

/-- a call on a value bucket; nothing happens for `null_value_bucket`, sep:21-45 -/
def MCfg.onVals (h : Heap) (f : Heap → Res Heap) : Res Heap := if c.hasVals then f h else .ok h

/-- `m_resize_strategy.assign(size, bucket)`, size.hpp:26 and 58-62 -/
def MCfg.assign (h : Heap) (t : MTab) (size b : Nat) : Res Heap := match c.strat with
  | .incremental => .ok h
  | .arbitrary => h.setWord t.caps b size

/-- `m_resize_strategy.needs_resize(newsize, bucket)`, size.hpp:24 and 73-75 -/
def MCfg.needsResize (h : Heap) (t : MTab) (size b : Nat) : Res Bool := match c.strat with
  | .incremental => .ok true
  | .arbitrary => do return decide ((← h.word t.caps b) ≤ size)

/-- `m_resize_strategy.can_shrink(size, bucket)`, size.hpp:25 and 91 -/
def MCfg.canShrink (h : Heap) (t : MTab) (size b : Nat) : Res Bool := match c.strat with
  | .incremental => .ok true
  | .arbitrary => do return decide (size < (← h.word t.caps b))

/-- `m_resize_strategy.clear()`, size.hpp:27 and 83-88; `caps` is null for `incremental_resize` -/
def clearCaps (h : Heap) (t : MTab) : Res (MTab × Heap) := do
  let h ← h.free .malloc t.caps
  return ({ t with caps := none }, h)

/-- `clear(bucket)`, sep:215-222 -/
def clearOne (h : Heap) (t : MTab) (b : Nat) : Res Heap := do
  let h ← c.onVals h (·.clearBucket c.vmem.how t.vals b)
  let h ← h.clearBucket c.kmem.how t.keys b
  let h ← h.setWord t.sizes b 0
  c.assign h t 0 b

/-- `clear_structure()`, sep:229-238; `m_keys` keeps its value -/
def clearStructure (h : Heap) (t : MTab) : Res (MTab × Heap) := do
  let h ← h.deleteArr c.kmem.how t.keys
  let h ← h.free .malloc t.sizes
  clearCaps h { t with sizes := none, lg := 0, elems := 0 }

/-- one round of the loop in `clear()`, sep:246-249 -/
def clearNonempty (t : MTab) (h : Heap) (b : Nat) : Res Heap := do
  if (← h.word t.sizes b) = 0 then return h else clearOne c h t b

/-- `clear()`, sep:243-255 -/
def clear (h : Heap) (t : MTab) : Res (MTab × Heap) :=
  if t.sizes ≠ none then do
    let h ← (List.range t.bucketCount).foldlM (clearNonempty c t) h
    clearStructure c h t
  else .ok (t, h)

/-- `~separate_chaining_table()`, sep:701, followed by the destructors of the members: `arbitrary_resize`, size.hpp:93-95, and
`value_array_manager`, sep:99-103 -/
def destroy (h : Heap) (t : MTab) : Res Heap := do
  let (t, h) ← clear c h t
  let (t, h) ← clearCaps h t
  h.deleteArr c.vmem.how t.vals

/-- an allocation that only some instantiations do; otherwise the pointer keeps its value -/
def Heap.allocIf (h : Heap) (b : Bool) (old : Ptr) (how : Alloc) (x : Cell) : Ptr × Heap :=
  if b then (some (h.alloc how x).1, (h.alloc how x).2) else (old, h)

/-- `reserve` on a table without buckets, sep:421-431: `m_resize_strategy.allocate` (size.hpp:67-72), `new key_bucket_type[]`,
`m_value_manager.resize` (sep:104-106; it overwrites the pointer), `m_bucketsizes` -/
def reserveEmpty (h : Heap) (t : MTab) (bits : Nat) : MTab × Heap :=
  let n := 2 ^ bits
  let caps := h.allocIf (decide (c.strat = .arbitrary)) t.caps .malloc (.data (List.replicate n 0))
  let keys := caps.2.alloc .new (.objs (List.replicate n none))
  let vals := keys.2.allocIf c.hasVals t.vals .new (.objs (List.replicate n none))
  let sizes := vals.2.alloc .malloc (.data (List.replicate n 0))
  ({ t with keys := some keys.1, vals := vals.1, sizes := some sizes.1, caps := caps.1, lg := bits }, sizes.2)

/-- move constructor of `value_array_manager`, sep:89: the source keeps its pointer.  Gives the pointers of the new object and of the source. -/
def valsMove (src : Ptr) : Ptr × Ptr := (src, src)

/-- move assignment of `value_array_manager`, sep:90-94: the old array of the target is not released.  Gives target and source. -/
def valsAssign (_dst src : Ptr) : Ptr × Ptr := (src, none)

/-- move constructor of `arbitrary_resize`, size.hpp:46-51 -/
def capsMove (src : Ptr) : Ptr × Ptr := (src, none)

/-- move assignment of `arbitrary_resize`, size.hpp:52-57 -/
def capsAssign (_dst src : Ptr) : Ptr × Ptr := (src, none)

/-- `std::swap` of two `value_array_manager`s: move construction, two move assignments, destruction of the temporary object (sep:99-103) -/
def swapVals (how : Alloc) (h : Heap) (p q : Ptr) : Res (Ptr × Ptr × Heap) := do
  let (tmp, p) := valsMove p
  let (p, q) := valsAssign p q
  let (q, tmp) := valsAssign q tmp
  let h ← h.deleteArr how tmp
  return (p, q, h)

/-- `std::swap` of two `arbitrary_resize`s; the temporary object is destroyed (size.hpp:93-95) -/
def swapCaps (h : Heap) (p q : Ptr) : Res (Ptr × Ptr × Heap) := do
  let (tmp, p) := capsMove p
  let (p, q) := capsAssign p q
  let (q, tmp) := capsAssign q tmp
  let h ← h.free .malloc tmp
  return (p, q, h)

/-- `a.swap(b)`, sep:363-377, for two different tables -/
def swap (h : Heap) (a b : MTab) : Res (MTab × MTab × Heap) := do
  let (av, bv, h) ← swapVals c.vmem.how h a.vals b.vals
  let (ac, bc, h) ← swapCaps h a.caps b.caps
  return ({ keys := b.keys, vals := av, sizes := b.sizes, caps := ac, lg := b.lg, elems := b.elems },
    { keys := a.keys, vals := bv, sizes := a.sizes, caps := bc, lg := a.lg, elems := a.elems }, h)

/-- move constructor, sep:329-344: only `m_bucketsizes` of the source is set to null here.  Gives the new table and the source. -/
def moveCtor (o : MTab) : MTab × MTab :=
  let (v, ov) := valsMove o.vals
  let (k, ok) := capsMove o.caps
  ({ keys := o.keys, vals := v, sizes := o.sizes, caps := k, lg := o.lg, elems := o.elems },
    { o with vals := ov, sizes := none, caps := ok })

/-- move assignment, sep:346-362, for two different tables.  Gives target and source. -/
def moveAssign (h : Heap) (t o : MTab) : Res (MTab × MTab × Heap) := do
  let (t, h) ← clear c h t
  let (v, ov) := valsAssign t.vals o.vals
  let (k, ok) := capsAssign t.caps o.caps
  return ({ keys := o.keys, vals := v, sizes := o.sizes, caps := k, lg := o.lg, elems := o.elems },
    { o with vals := ov, sizes := none, caps := ok }, h)

/-- `x.swap(x)`, sep:363-377: the members are moved to a temporary object, to themselves, and back -/
def selfSwap (h : Heap) (t : MTab) : Res (MTab × Heap) := do
  let (tmp, v) := valsMove t.vals
  let (v, tmp) := valsAssign (valsAssign v v).2 tmp
  let h ← h.deleteArr c.vmem.how tmp
  let (tmp, k) := capsMove t.caps
  let (k, tmp) := capsAssign (capsAssign k k).2 tmp
  let h ← h.free .malloc tmp
  return ({ t with vals := v, caps := k }, h)

/-- `x = std::move(x)`, sep:346-362: what is left after `clear()` is moved to itself; source and target of the moves are the same pointers -/
def selfMove (h : Heap) (t : MTab) : Res (MTab × Heap) := do
  let (t, h) ← clear c h t
  return ({ t with vals := (valsAssign t.vals t.vals).2, sizes := none, caps := (capsAssign t.caps t.caps).2 }, h)

/-- A value read from a value bucket; `null_value_bucket::read` gives a constant, sep:21-45. -/
def readValue (h : Heap) (t : MTab) (b i : Nat) : Res Nat := if c.hasVals then h.readBucket t.vals b i else .ok 0

/-- `find_or_insert` as a parameter -/
abbrev Ins := Heap → MTab → Nat → Nat → Res (MTab × Heap)

/-- insert the first `n` entries of bucket `b` of `t` into `tmp`, sep:447-453 -/
def moveEntries (ins : Ins) (t : MTab) (b : Nat) : Nat → MTab × Heap → Res (MTab × Heap)
  | 0, s => .ok s
  | n + 1, s => do
    let (tmp, h) ← moveEntries ins t b n s
    let k ← h.readBucket t.keys b n
    let v ← readValue c h t b n
    ins h tmp k v

/-- one round of the loop over the buckets, sep:444-455 -/
def moveBucket (ins : Ins) (t : MTab) (s : MTab × Heap) (b : Nat) : Res (MTab × Heap) := do
  let n ← s.2.word t.sizes b
  if n = 0 then return s
  else do
    let (tmp, h) ← moveEntries c ins t b n s
    let h ← clearOne c h t b
    return (tmp, h)

/-- `reserve(reserve)`, sep:416-468 -/
def reserveWith (ins : Ins) (h : Heap) (t : MTab) (n : Nat) : Res (MTab × Heap) := do
  let bits ← reserveBits n
  if t.lg = 0 then return reserveEmpty c h t bits
  else do
    let (tmp, h) := reserveEmpty c h MTab.new bits
    let (tmp, h) ← (List.range t.bucketCount).foldlM (moveBucket c ins t) (tmp, h)
    let (t, h) ← clearStructure c h t
    let (t, tmp, h) ← swap c h t tmp
    let h ← destroy c h tmp
    return (t, h)

/-- the end of `find_or_insert`, sep:646-683: the entry is appended to bucket `b` of size `n` -/
def push (h : Heap) (t : MTab) (b n k v : Nat) : Res Heap := do
  let h ← (if n = 0 then do
      let h ← h.setWord t.sizes b 1
      let h ← h.initBucket c.kmem.how t.keys b
      let h ← c.onVals h (·.initBucket c.vmem.how t.vals b)
      c.assign h t 1 b
    else do
      let h ← h.setWord t.sizes b ((n + 1) % 256)
      if ← c.needsResize h t ((n + 1) % 256) b then do
        let h ← c.assign h t (arbResize ((n + 1) % 256) % 256) b
        let h ← h.resizeBucket c.kmem.how t.keys b
        c.onVals h (·.resizeBucket c.vmem.how t.vals b)
      else return h : Res Heap)
  let h ← h.writeBucket t.keys b n k
  c.onVals h (·.writeBucket t.vals b n v)

/-- `find_or_insert(key, value)`, sep:610-684; the first argument bounds the depth of the recursion -/
def insert : Nat → Ins
  | 0, _, _, _, _ => .error .fuel
  | f + 1, h, t, k, v => do
    let (t, h) ← (if t.lg = 0 then do
        let bits ← reserveBits (min (c.kw - 1) 16)
        return reserveEmpty c h t bits
      else return (t, h) : Res (MTab × Heap))
    let b := c.hash t.lg k
    let n ← h.word t.sizes b
    match ← h.findBucket t.keys b k n with
    | some _ => return (t, h)
    | none =>
      if n = c.maxSize then do
        let m ← shl64 1 (t.lg + 1)
        let (t, h) ← reserveWith c (insert f) h t m
        insert f h t k v
      else do
        let h ← push c h t b n k v
        return ({ t with elems := t.elems + 1 }, h)

/-- `erase(key)`, sep:708-751 and 755-760 -/
def erase (h : Heap) (t : MTab) (k : Nat) : Res (MTab × Heap) :=
  if t.lg = 0 then .ok (t, h)
  else do
    let b := c.hash t.lg k
    let n ← h.word t.sizes b
    match ← h.findBucket t.keys b k n with
    | none => return (t, h)
    | some i => do
      let h ← h.eraseBucket t.keys b i
      let h ← c.onVals h (·.eraseBucket t.vals b i)
      let h ← h.setWord t.sizes b ((n + 255) % 256)
      let h ← (if (n + 255) % 256 = 0 then clearOne c h t b else .ok h : Res Heap)
      return ({ t with elems := t.elems - 1 }, h)

/-- `shrink_to_fit(bucket)`, sep:181-193 -/
def shrinkOne (t : MTab) (h : Heap) (b : Nat) : Res Heap := do
  let n ← h.word t.sizes b
  if n = 0 then return h
  else if ← c.canShrink h t n b then do
    let h ← h.resizeBucket c.kmem.how t.keys b
    let h ← c.onVals h (·.resizeBucket c.vmem.how t.vals b)
    c.assign h t n b
  else return h

/-- `shrink_to_fit()`, sep:196-202 -/
def shrink (h : Heap) (t : MTab) : Res (MTab × Heap) :=
  if t.lg = 0 then .ok (t, h)
  else do
    let h ← (List.range t.bucketCount).foldlM (shrinkOne c t) h
    return (t, h)

/-- `arr[b].deserialize(is, …)` with the entries `xs` in the stream, bucket.hpp:98-103, 202-207, 379-387 -/
def Heap.loadBucket (h : Heap) (how : Alloc) (arr : Ptr) (b : Nat) (xs : List Nat) : Res Heap :=
  let (a, h) := h.alloc how (.data xs)
  h.setObj arr b (some a)

/-- one round of the loop in `deserialize`, sep:828-831; `bs` are the buckets in the stream -/
def loadOne (t : MTab) (bs : List (List (Nat × Nat))) (h : Heap) (b : Nat) : Res Heap := do
  let n ← h.word t.sizes b
  if n = 0 then return h
  else do
    let xs := bs.getD b []
    let h ← h.loadBucket c.kmem.load t.keys b (xs.map Prod.fst)
    c.onVals h (·.loadBucket c.vmem.load t.vals b (xs.map Prod.snd))

/-- `deserialize`, sep:809-848, with the number `bits` of buckets and the buckets `bs` in the stream; `m_elements` is the number of entries.
`reserve` has no entries to move. -/
def load (h : Heap) (t : MTab) (bits : Nat) (bs : List (List (Nat × Nat))) : Res (MTab × Heap) := do
  let (t, h) ← clear c h t
  let m ← shl64 1 bits
  let (t, h) ← reserveWith c (fun _ _ _ _ => .error .fuel) h t m
  let t := { t with elems := (bs.map List.length).sum }
  if t.lg = 0 then return (t, h)
  else do
    let h ← h.put t.sizes (.data (bs.map List.length))
    let h ← (List.range t.bucketCount).foldlM (loadOne c t bs) h
    return (t, h)

/-- the entries of bucket `b`, read through the pointers -/
def bucketEntries (h : Heap) (t : MTab) (b : Nat) : Res (List (Nat × Nat)) := do
  let n ← h.word t.sizes b
  (List.range n).mapM (fun i => do
    let k ← h.readBucket t.keys b i
    let v ← readValue c h t b i
    return (k, v))

/-- what iteration over the table gives: the entries of all buckets (iterator.hpp, sep:470-538) -/
def entries (h : Heap) (t : MTab) : Res (List (Nat × Nat)) := do
  let xs ← (List.range t.bucketCount).mapM (bucketEntries c h t)
  return xs.flatten

end SC.Own
