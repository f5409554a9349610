import Verif.Table.Tab
import Verif.Bucket.Varwidth
/-!
# The bucket storage of `compact_chaining_map`

A bucket with `n` entries is one bit array: `n` quotients of `qw` bits, then `n` values of `vw` bits.  `VarCfg.sb` is
`storage_bitwidth`, the bit size of `storage_type`.  The copies kept for debugging (`ON_DEBUG`) are not modelled.
-/
namespace SC

/-- one bucket: `m_storage[b]` and `m_bucketsizes[b]` -/
structure CmpBucket where
  stor : VarB
  size : Nat

/-- the arrays `m_storage` and `m_bucketsizes`, cmp:100-101; they are allocated together -/
structure CmpStore where
  n : Nat
  bkt : Nat → CmpBucket

/-- `read_compact_int(storage, bitposition, bitwidth)`, cmp:18-24 -/
def cmpRead (c : VarCfg) (b : VarB) (pos w : Nat) : Res Nat := do
  let m ← deref b
  readInt c.strict m (pos / c.sb * c.sb) (pos % c.sb) w

/-- `write_compact_int(storage, bitposition, bitwidth, value)`, cmp:9-17 -/
def cmpWrite (c : VarCfg) (b : VarB) (pos w v : Nat) : Res VarB := do
  let m ← deref b
  let m ← writeInt c.strict m (pos / c.sb * c.sb) v (pos % c.sb) w
  return some m

/-- `for(j = i; j < i + n; ++j) write(to(j), read(from(j)))`: the loops of `erase`, cmp:657-659 and 675-690 -/
def cmpLoop (c : VarCfg) (w : Nat) (src dst : Nat → Nat) (i : Nat) : Nat → VarB → Res VarB
  | 0, b => .ok b
  | n + 1, b => do
    let v ← cmpRead c b (src i) w
    let b ← cmpWrite c b (dst i) w v
    cmpLoop c w src dst (i + 1) n b

/-- the loop of `enlarge_storage`, cmp:503-510, over `old - i = n-1, ..., 0` -/
def cmpShift (c : VarCfg) (qw vw old new : Nat) : Nat → VarB → Res VarB
  | 0, b => .ok b
  | n + 1, b => do
    let v ← cmpRead c b (old * qw + n * vw) vw
    let b ← cmpWrite c b (new * qw + n * vw) vw v
    cmpShift c qw vw old new n b

/-- `quotient_at(bucket, position, quotient_width)`, cmp:419-432 -/
def CmpBucket.quotientAt (c : VarCfg) (x : CmpBucket) (d : Dim) (i : Nat) : Res Nat := cmpRead c x.stor (i * d.qw) d.qw

/-- `value_at(bucket, position)`, cmp:438-449 -/
def CmpBucket.valueAt (c : VarCfg) (x : CmpBucket) (d : Dim) (i : Nat) : Res Nat :=
  cmpRead c x.stor (x.size * d.qw + i * d.vw) d.vw

/-- `write_quotient(bucket, position, quotient_width, quotient)`, cmp:451-462 -/
def CmpBucket.writeQuotient (c : VarCfg) (x : CmpBucket) (d : Dim) (i q : Nat) : Res CmpBucket := do
  let b ← cmpWrite c x.stor (i * d.qw) d.qw q
  return { x with stor := b }

/-- `write_value(bucket, position, value)`, cmp:465-475 -/
def CmpBucket.writeValue (c : VarCfg) (x : CmpBucket) (d : Dim) (i v : Nat) : Res CmpBucket := do
  let b ← cmpWrite c x.stor (x.size * d.qw + i * d.vw) d.vw v
  return { x with stor := b }

/-- `realloc_bucket(bucket, oldsize, quotient_bitwidth)`, cmp:479-488; `m_bucketsizes` has been changed already.  The result of `realloc(p, 0)`
is taken to be the null pointer; it is passed to `delete []` immediately afterwards (cmp:711-713 and 122-133). -/
def CmpBucket.realloc (c : VarCfg) (x : CmpBucket) (d : Dim) (old : Nat) : CmpBucket :=
  if ceilDiv (old * (d.qw + d.vw)) c.sb ≠ ceilDiv (x.size * (d.qw + d.vw)) c.sb then
    if ceilDiv (x.size * (d.qw + d.vw)) c.sb = 0 then { x with stor := none }
    else match x.stor with
      | some m => { x with stor := some (reallocBits c.junk m (varBits c.sb x.size (d.qw + d.vw))) }
      | none => { x with stor := some (mallocBits c.junk (varBits c.sb x.size (d.qw + d.vw))) }
  else x

/-- `enlarge_storage(bucket, quotient_bitwidth)`, cmp:490-522 -/
def CmpBucket.enlarge (c : VarCfg) (x : CmpBucket) (d : Dim) : Res CmpBucket := do
  let old := x.size
  let x := { x with size := (x.size + 1) % 256 }
  let x := x.realloc c d (x.size - 1)
  let b ← cmpShift c d.qw d.vw old x.size old x.stor
  return { x with stor := b }

/-- insertion into a bucket that is not full, cmp:593-597 -/
def CmpBucket.push (c : VarCfg) (x : CmpBucket) (d : Dim) (q v : Nat) : Res CmpBucket := do
  let y ← x.enlarge c d
  let y ← y.writeQuotient c d x.size q
  y.writeValue c d x.size v

/-- `clear(bucket)`, cmp:122-133 -/
def CmpBucket.clear (_x : CmpBucket) : CmpBucket := { stor := none, size := 0 }

/-- erasure from a bucket, cmp:632-715 -/
def CmpBucket.erase (c : VarCfg) (x : CmpBucket) (d : Dim) (pos : Nat) : Res CmpBucket := do
  -- quotients, cmp:657-659
  let b ← cmpLoop c d.qw (fun i => i * d.qw) (fun i => (i - 1) * d.qw) (pos + 1) (x.size - (pos + 1)) x.stor
  -- values, cmp:675-683 and 684-691
  let b ← cmpLoop c d.vw (fun i => x.size * d.qw + i * d.vw) (fun i => (x.size - 1) * d.qw + i * d.vw) 0 pos b
  let b ← cmpLoop c d.vw (fun i => x.size * d.qw + i * d.vw) (fun i => (x.size - 1) * d.qw + (i - 1) * d.vw)
    (pos + 1) (x.size - (pos + 1)) b
  let x := { stor := b, size := (x.size + 255) % 256 : CmpBucket }
  let x := x.realloc c d (x.size + 1)
  return if x.size = 0 then x.clear else x

/-- the loop of `locate(bucket, quotient)`, cmp:525-552; `n` iterations left -/
def CmpBucket.locate (c : VarCfg) (x : CmpBucket) (d : Dim) (q i : Nat) : Nat → Res Nat
  | 0 => .ok NPOS
  | n + 1 => do
    let r ← x.quotientAt c d i
    if r = q then return i
    CmpBucket.locate c x d q (i + 1) n

/-- access to the `b`-th entry of the arrays -/
def CmpStore.get (s : CmpStore) (b : Nat) : Res CmpBucket := if b < s.n then .ok (s.bkt b) else .error .oob

/-- replace the `b`-th entry of the arrays -/
def CmpStore.set (s : CmpStore) (b : Nat) (x : CmpBucket) : CmpStore := { s with bkt := upd s.bkt b x }

/-- the bucket storage of `compact_chaining_map` -/
def cmpOps (c : VarCfg) : StoreOps CmpStore where
  -- cmp:309-317
  alloc d := .ok { n := 2 ^ d.tb, bkt := fun _ => { stor := none, size := 0 } }
  -- cmp:208-210
  size s _ b := do
    let x ← s.get b
    return x.size
  locate s d b q := do
    let x ← s.get b
    CmpBucket.locate c x d q 0 x.size
  -- cmp:583, `max_bucket_size()`, cmp:193-195
  full s _ b := do
    let x ← s.get b
    return x.size == 255
  push s d b q v := do
    let x ← s.get b
    let x ← x.push c d q v
    return s.set b x
  quotientAt s d b i := do
    let x ← s.get b
    x.quotientAt c d i
  valueAt s d b i := do
    let x ← s.get b
    x.valueAt c d i
  writeValue s d b i v := do
    let x ← s.get b
    let x ← x.writeValue c d i v
    return s.set b x
  eraseAt s d b i := do
    let x ← s.get b
    let x ← x.erase c d i
    return s.set b x
  -- cmp:113
  shrink s _ _ := .ok s

end SC
