import Verif.Table.Tab
import Verif.Bucket.Size
/-!
# The bucket storage of `separate_chaining_table`
-/
namespace SC

/-- the resize strategies of size.hpp: `incremental_resize` (12-28) and `arbitrary_resize` (34-104) -/
inductive Strategy
  | incremental
  | arbitrary
  deriving DecidableEq

/-- One bucket: `m_keys[b]`, `m_value_manager[b]`, `m_bucketsizes[b]` and `m_resize_strategy.m_maxbucketsizes[b]`
(the last exists for `arbitrary_resize` only). -/
structure SepBucket (KB VB : Type) where
  keys : KB
  vals : VB
  size : Nat
  cap : Nat

/-- The arrays of a table, sep:162-172; they are allocated together and have the same length `n`. -/
structure SepStore (KB VB : Type) where
  n : Nat
  bkt : Nat → SepBucket KB VB

/-- template arguments: bucket types of keys and values, resize strategy, `SEPARATE_MAX_BUCKET_SIZE` -/
structure SepCfg (KB VB : Type) where
  kops : BucketOps KB
  vops : BucketOps VB
  strat : Strategy
  maxBucket : Nat

variable {KB VB : Type}

/-- `max_bucket_size()`, sep:294-300 (255 without `SEPARATE_MAX_BUCKET_SIZE`) -/
def SepCfg.maxSize (p : SepCfg KB VB) : Nat := min p.maxBucket 255

/-- `needs_resize(newsize, bucket)`, size.hpp:24 and 73-75 -/
def Strategy.needsResize (st : Strategy) (cap newsize : Nat) : Bool := match st with
  | .incremental => true
  | .arbitrary => decide (cap ≤ newsize)

/-- `size_after_increment(newsize, bucket)`, size.hpp:21-23 and 77-82 (the result is also stored) -/
def Strategy.sizeAfterIncrement (st : Strategy) (newsize : Nat) : Nat := match st with
  | .incremental => newsize
  | .arbitrary => arbResize newsize % 256

/-- `can_shrink(current_size, bucket)`, size.hpp:25 and 91 -/
def Strategy.canShrink (st : Strategy) (cap current : Nat) : Bool := match st with
  | .incremental => true
  | .arbitrary => decide (current < cap)

/-- `size(current_size, bucket)`, size.hpp:17-19 and 63-66 -/
def Strategy.size (st : Strategy) (cap current : Nat) : Nat := match st with
  | .incremental => current
  | .arbitrary => cap

/-- access to the `b`-th entry of the arrays -/
def SepStore.get (s : SepStore KB VB) (b : Nat) : Res (SepBucket KB VB) :=
  if b < s.n then .ok (s.bkt b) else .error .oob

/-- replace the `b`-th entry of the arrays -/
def SepStore.set (s : SepStore KB VB) (b : Nat) (x : SepBucket KB VB) : SepStore KB VB :=
  { s with bkt := upd s.bkt b x }

/-- `clear(bucket)`, sep:215-222 -/
def SepCfg.clearBucket (p : SepCfg KB VB) (x : SepBucket KB VB) : SepBucket KB VB :=
  { keys := p.kops.clear x.keys, vals := p.vops.clear x.vals, size := 0, cap := 0 }

/-- Insertion into a bucket that is not full, sep:655-683.  (`INITIAL_BUCKET_SIZE` is 1, size.hpp:13 and 37.) -/
def SepCfg.pushBucket (p : SepCfg KB VB) (d : Dim) (x : SepBucket KB VB) (q v : Nat) : Res (SepBucket KB VB) := do
  let x ← (if x.size = 0 then do
      let ks ← p.kops.init 1 d.kw
      let vs ← p.vops.init 1 d.vw
      return { keys := ks, vals := vs, size := 1, cap := 1 }
    else
      let size := (x.size + 1) % 256
      if p.strat.needsResize x.cap size then do
        let new := p.strat.sizeAfterIncrement size
        let ks ← p.kops.resize x.keys (size - 1) new d.qw
        let vs ← p.vops.resize x.vals (size - 1) new d.vw
        return { keys := ks, vals := vs, size := size, cap := new }
      else return { x with size := size } : Res (SepBucket KB VB))
  let ks ← p.kops.write x.keys (x.size - 1) q d.qw
  let vs ← p.vops.write x.vals (x.size - 1) v d.vw
  return { x with keys := ks, vals := vs }

/-- Erasure from a bucket, sep:731-749. -/
def SepCfg.eraseBucket (p : SepCfg KB VB) (d : Dim) (x : SepBucket KB VB) (i : Nat) : Res (SepBucket KB VB) := do
  let ks ← p.kops.erase x.keys i x.size d.qw
  let vs ← p.vops.erase x.vals i x.size d.vw
  let x := { x with keys := ks, vals := vs, size := (x.size + 255) % 256 }
  return if x.size = 0 then p.clearBucket x else x

/-- `shrink_to_fit(bucket)`, sep:181-193 -/
def SepCfg.shrinkBucket (p : SepCfg KB VB) (d : Dim) (x : SepBucket KB VB) : Res (SepBucket KB VB) :=
  if x.size = 0 then .ok x
  else if p.strat.canShrink x.cap x.size then do
    let ks ← p.kops.resize x.keys x.size x.size d.qw
    let vs ← p.vops.resize x.vals x.size x.size d.vw
    return { x with keys := ks, vals := vs, cap := x.size }
  else .ok x

/-- The bucket storage of `separate_chaining_table`. -/
def SepCfg.ops (p : SepCfg KB VB) : StoreOps (SepStore KB VB) where
  -- sep:425-429: `m_resize_strategy.allocate`, `new key_bucket_type[]`, `m_value_manager.resize`, `m_bucketsizes`
  alloc d := .ok { n := 2 ^ d.tb, bkt := fun _ => { keys := p.kops.empty, vals := p.vops.empty, size := 0, cap := 0 } }
  -- sep:313-315
  size s _ b := do
    let x ← s.get b
    return x.size
  -- sep:553-585; the quotient is passed as `storage_type`
  locate s d b q := do
    let x ← s.get b
    p.kops.find x.keys q x.size d.qw
  -- sep:632
  full s _ b := do
    let x ← s.get b
    return x.size == p.maxSize
  push s d b q v := do
    let x ← s.get b
    let x ← p.pushBucket d x q v
    return s.set b x
  -- sep:260-263
  quotientAt s d b i := do
    let x ← s.get b
    p.kops.read x.keys i d.qw
  -- sep:268-269
  valueAt s d b i := do
    let x ← s.get b
    p.vops.read x.vals i d.vw
  -- sep:690-694
  writeValue s d b i v := do
    let x ← s.get b
    let vs ← p.vops.write x.vals i v d.vw
    return s.set b { x with vals := vs }
  eraseAt s d b i := do
    let x ← s.get b
    let x ← p.eraseBucket d x i
    return s.set b x
  shrink s d b := do
    let x ← s.get b
    let x ← p.shrinkBucket d x
    return s.set b x

/-- `capacity()`, sep:205-212 -/
def SepCfg.capacity (p : SepCfg KB VB) {O : Type} (t : Tab (SepStore KB VB) O) : Res Nat :=
  (List.range t.bucketCount).foldlM (fun a b => do
    let x ← t.store.get b
    return a + p.strat.size x.cap x.size) 0

/-- `max_size()`, sep:290-292 -/
def SepCfg.maxTableSize (p : SepCfg KB VB) {O : Type} (t : Tab (SepStore KB VB) O) : Nat := p.maxSize * t.bucketCount % W64

end SC
