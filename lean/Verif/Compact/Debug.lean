import Verif.Bucket.Copy
import Verif.Compact.StoreLemmas
import Verif.Sep.Debug
/-!
# The bucket storage of `compact_chaining_map` in a debug build

Without `NDEBUG` the map keeps for each bucket a copy of its keys, a copy of its values, an array of 64-bit words with the
quotients followed by the values, and the number of bits of its storage.  These are compared again and again with what is
stored in the compact representation.
-/
namespace SC

/-- One bucket of a debug build: `m_storage` and `m_bucketsizes`, the pointers `m_plainkeys`, `m_plainvalues`,
`m_large_storage` and the number `m_storagesizes`, cmp:96-102.  Arrays allocated with `realloc` are released with `delete []`
(cmp:123, 481); the model does not distinguish the allocators here. -/
structure CmpDbgBucket where
  base : CmpBucket
  keys : PlainB
  vals : PlainB
  large : PlainB
  bits : Nat

/-- the arrays of a debug build, cmp:301-317; they are allocated together -/
structure CmpDbg where
  n : Nat
  bkt : Nat → CmpDbgBucket

/-- Template arguments -/
structure CmpDbgCfg where
  v : VarCfg
  /-- `hash_mapping_t(key_width)` -/
  hash : Nat → HashMapping
  /-- the test of `remainder_width`, hash.hpp:57 -/
  remOK : (kw tb : Nat) → Bool
  /-- bits of `key_type` -/
  kbits : Nat

/-- `for(j = i; j < i + n; ++j) a[j - off] = a[j]`: cmp:668-673, and 650-653 with `off = 1` -/
def cellDown (off : Nat) (b : PlainB) (i : Nat) : Nat → Res PlainB
  | 0 => .ok b
  | n + 1 => do
    let x ← cellRead b i
    let b ← cellWrite b (i - off) x
    cellDown off b (i + 1) n

/-- `for(j = i + n; j > i; --j) a[j] = a[j - 1]`: cmp:499-501 -/
def cellUp (b : PlainB) (i : Nat) : Nat → Res PlainB
  | 0 => .ok b
  | n + 1 => do
    let x ← cellRead b (i + n)
    let b ← cellWrite b (i + n + 1) x
    cellUp b i n

/-- `clear(bucket)`, cmp:122-133 -/
def CmpDbgBucket.clear (x : CmpDbgBucket) : CmpDbgBucket :=
  { base := x.base.clear, keys := none, vals := none, large := none, bits := 0 }

/-- the test of lines 420 and 454 -/
def cmpRoom (c : CmpDbgCfg) (x : CmpDbgBucket) (d : Dim) (i : Nat) : Res Unit :=
  ddcheck true (i * d.qw / c.v.sb + i * d.qw % c.v.sb < c.v.sb * ceilDiv (x.base.size * d.qw) c.v.sb)

/-- `quotient_at(bucket, position, quotient_width)`, cmp:419-432 -/
def CmpDbgBucket.quotientAt (c : CmpDbgCfg) (x : CmpDbgBucket) (d : Dim) (i : Nat) : Res Nat := do
  cmpRoom c x d i
  ddcheck true (i * d.qw + d.qw ≤ x.bits)
  let r ← x.base.quotientAt c.v d i
  let ret := r % 2 ^ c.kbits
  let r ← x.base.quotientAt c.v d i
  ddcheck true (ret = r)
  let l ← cellRead x.large i
  ddcheck true (ret = l)
  return ret

/-- `value_at(bucket, position)`, cmp:438-449 -/
def CmpDbgBucket.valueAt (c : CmpDbgCfg) (x : CmpDbgBucket) (d : Dim) (i : Nat) : Res Nat := do
  ddcheck true (c.remOK d.kw d.tb = true)
  ddcheck true (x.base.size * d.qw + i * d.vw + d.vw ≤ x.bits)
  let ret ← x.base.valueAt c.v d i
  let l ← cellRead x.large (x.base.size + i)
  ddcheck true (ret = l)
  let p ← cellRead x.vals i
  ddcheck true (ret = p)
  return ret

/-- `write_quotient(bucket, position, quotient_width, quotient)`, cmp:451-462 -/
def CmpDbgBucket.writeQuotient (c : CmpDbgCfg) (x : CmpDbgBucket) (d : Dim) (i q : Nat) : Res CmpDbgBucket := do
  let lg ← cellWrite x.large i q
  let l ← cellRead lg i
  ddcheck true (l = q)
  cmpRoom c x d i
  ddcheck true (mostSignificantBit q ≤ (d.qw : Int))
  ddcheck true (i * d.qw + d.qw ≤ x.bits)
  ddcheck true (c.v.sb < 255)
  let y ← x.base.writeQuotient c.v d i q
  let r ← y.quotientAt c.v d i
  ddcheck true (r = q)
  return { x with base := y, large := lg }

/-- `write_value(bucket, position, value)`, cmp:465-475; `value_type` is `size_t` -/
def CmpDbgBucket.writeValue (c : CmpDbgCfg) (x : CmpDbgBucket) (d : Dim) (i v : Nat) : Res CmpDbgBucket := do
  let lg ← cellWrite x.large (x.base.size + i) v
  ddcheck true (c.remOK d.kw d.tb = true)
  ddcheck true (x.base.size * d.qw + i * d.vw + d.vw ≤ x.bits)
  ddcheck true (c.v.sb < 255)
  let y ← x.base.writeValue c.v d i v
  let l ← cellRead lg (x.base.size + i)
  ddcheck true (l = v)
  let pv ← cellWrite x.vals i v
  return { x with base := y, large := lg, vals := pv }

/-- `realloc_bucket(bucket, oldsize, quotient_bitwidth)`, cmp:479-488 -/
def CmpDbgBucket.realloc (c : CmpDbgCfg) (x : CmpDbgBucket) (d : Dim) (old : Nat) : Res CmpDbgBucket := do
  let lg ← plainResize x.large (2 * x.base.size)
  return { x with base := x.base.realloc c.v d old, large := lg, bits := varBits c.v.sb x.base.size (d.qw + d.vw) }

/-- the loop of `enlarge_storage`, cmp:503-511, see `cmpShift` -/
def cmpDbgShift (c : CmpDbgCfg) (d : Dim) (bits old new : Nat) : Nat → VarB → Res VarB
  | 0, b => .ok b
  | n + 1, b => do
    let v ← cmpRead c.v b (old * d.qw + n * d.vw) d.vw
    ddcheck true (new * d.qw + n * d.vw + d.vw ≤ bits)
    ddcheck true (c.v.sb < 255)
    let b ← cmpWrite c.v b (new * d.qw + n * d.vw) d.vw v
    cmpDbgShift c d bits old new n b

/-- the loop of lines 514-517, `n` iterations left -/
def CmpDbgBucket.reread (c : CmpDbgCfg) (x : CmpDbgBucket) (d : Dim) (i : Nat) : Nat → Res Unit
  | 0 => .ok ()
  | n + 1 => do
    let _ ← x.quotientAt c d i
    let _ ← x.valueAt c d i
    CmpDbgBucket.reread c x d (i + 1) n

/-- `enlarge_storage(bucket, quotient_bitwidth)`, cmp:490-522 -/
def CmpDbgBucket.enlarge (c : CmpDbgCfg) (x : CmpDbgBucket) (d : Dim) : Res CmpDbgBucket := do
  let old := x.base.size
  ddcheck true (old < 255)
  let x := { x with base := { x.base with size := (x.base.size + 1) % 256 } }
  let x ← x.realloc c d (x.base.size - 1)
  let lg ← cellUp x.large old old
  let b ← cmpDbgShift c d x.bits old x.base.size old x.base.stor
  let x := { x with base := { x.base with stor := b }, large := lg }
  x.reread c d 0 old
  let ks ← plainResize x.keys x.base.size
  let vs ← plainResize x.vals x.base.size
  return { x with keys := ks, vals := vs }

/-- the loops that compare a bucket with its copies: cmp:607-612, 642-647, 702-707; `n` iterations left -/
def CmpDbgBucket.verify (c : CmpDbgCfg) (x : CmpDbgBucket) (d : Dim) (b i : Nat) : Nat → Res Unit
  | 0 => .ok ()
  | n + 1 => do
    let q ← x.quotientAt c d i
    let k ← (c.hash d.kw).invMap q b d.tb
    let k' ← cellRead x.keys i
    ddcheck true (k % 2 ^ c.kbits = k')
    let v ← x.valueAt c d i
    let v' ← cellRead x.vals i
    ddcheck true (v = v')
    CmpDbgBucket.verify c x d b (i + 1) n

/-- insertion into a bucket that is not full, cmp:589-613.  The key is obtained from the quotient: the caller has tested that
`inv_map` gives the key (cmp:572). -/
def CmpDbgBucket.push (c : CmpDbgCfg) (x : CmpDbgBucket) (d : Dim) (b q v : Nat) : Res CmpDbgBucket := do
  dbgWidth c.remOK d
  let k ← (c.hash d.kw).invMap q b d.tb
  let y ← x.enlarge c d
  let y ← y.writeQuotient c d x.base.size q
  let y ← y.writeValue c d x.base.size v
  let ks ← (plainOps c.kbits).write y.keys x.base.size k d.kw
  let vs ← cellWrite y.vals x.base.size v
  let y := { y with keys := ks, vals := vs }
  y.verify c d b 0 y.base.size
  return y

/-- the loop of lines 657-659 for the positions from `i` on, `n` iterations left -/
def CmpDbgBucket.closeGap (c : CmpDbgCfg) (d : Dim) (i : Nat) : Nat → CmpDbgBucket → Res CmpDbgBucket
  | 0, x => .ok x
  | n + 1, x => do
    let q ← x.quotientAt c d i
    let x ← x.writeQuotient c d (i - 1) q
    CmpDbgBucket.closeGap c d (i + 1) n x

/-- the loops of lines 675-690, see `cmpLoop` -/
def cmpDbgLoop (c : CmpDbgCfg) (d : Dim) (bits : Nat) (src dst : Nat → Nat) (i : Nat) : Nat → VarB → Res VarB
  | 0, b => .ok b
  | n + 1, b => do
    let v ← cmpRead c.v b (src i) d.vw
    ddcheck true (dst i + d.vw ≤ bits)
    ddcheck true (c.v.sb < 255)
    let b ← cmpWrite c.v b (dst i) d.vw v
    cmpDbgLoop c d bits src dst (i + 1) n b

/-- erasure from a bucket, cmp:629-715 -/
def CmpDbgBucket.erase (c : CmpDbgCfg) (x : CmpDbgBucket) (d : Dim) (b pos : Nat) : Res CmpDbgBucket := do
  dbgWidth c.remOK d
  let sz := x.base.size
  x.verify c d b 0 sz
  let ks ← plainErase x.keys pos sz
  let vs ← plainErase x.vals pos sz
  let x ← CmpDbgBucket.closeGap c d (pos + 1) (sz - (pos + 1)) { x with keys := ks, vals := vs }
  let lg ← cellDown 1 x.large sz pos
  let lg ← cellDown 2 lg (sz + pos + 1) (sz - (pos + 1))
  let st ← cmpDbgLoop c d x.bits (fun i => sz * d.qw + i * d.vw) (fun i => (sz - 1) * d.qw + i * d.vw) 0 pos x.base.stor
  let st ← cmpDbgLoop c d x.bits (fun i => sz * d.qw + i * d.vw) (fun i => (sz - 1) * d.qw + (i - 1) * d.vw)
    (pos + 1) (sz - (pos + 1)) st
  ddcheck true (0 < sz)
  let x : CmpDbgBucket := { x with base := { stor := st, size := (sz + 255) % 256 }, large := lg }
  let x ← x.realloc c d (x.base.size + 1)
  x.verify c d b 0 x.base.size
  return if x.base.size = 0 then x.clear else x

/-- the loop of `locate(bucket, quotient)`, cmp:534-543; `n` iterations left -/
def CmpDbgBucket.scan (c : CmpDbgCfg) (x : CmpDbgBucket) (d : Dim) (b q i : Nat) : Nat → Res Nat
  | 0 => .ok NPOS
  | n + 1 => do
    let r ← x.quotientAt c d i
    let k ← (c.hash d.kw).invMap r b d.tb
    let k' ← cellRead x.keys i
    ddcheck true (k % 2 ^ c.kbits = k')
    if r = q then return i else CmpDbgBucket.scan c x d b q (i + 1) n

/-- access to the `b`-th entry of the arrays -/
def CmpDbg.get (s : CmpDbg) (b : Nat) : Res CmpDbgBucket := if b < s.n then .ok (s.bkt b) else .error .oob

/-- replace the `b`-th entry of the arrays -/
def CmpDbg.set (s : CmpDbg) (b : Nat) (x : CmpDbgBucket) : CmpDbg := { s with bkt := upd s.bkt b x }

/-- an empty bucket, cmp:309-316 -/
def CmpDbgBucket.none : CmpDbgBucket := ⟨⟨Option.none, 0⟩, Option.none, Option.none, Option.none, 0⟩

/-- The storage functions of a debug build.  `quotientAt` serves `reserve` (cmp:332-334), which compares with `m_plainkeys`,
and `navigator::key` (iterator.hpp:54), which does not; the model compares in both cases. -/
def CmpDbgCfg.ops (c : CmpDbgCfg) : StoreOps CmpDbg where
  -- cmp:301-317
  alloc d := .ok { n := 2 ^ d.tb, bkt := fun _ => CmpDbgBucket.none }
  -- cmp:208-210
  size s _ b := do
    let x ← s.get b
    return x.base.size
  -- cmp:525-552
  locate s d b q := do
    dbgWidth c.remOK d
    ddcheck true (mostSignificantBit q ≤ (d.qw : Int))
    let x ← s.get b
    let pos ← x.scan c d b q 0 x.base.size
    ddcheck true (pos ≠ NPOS → pos < x.base.size)
    return pos
  -- cmp:583
  full s _ b := do
    let x ← s.get b
    return x.base.size == 255
  push s d b q v := do
    let x ← s.get b
    let x ← x.push c d b q v
    return s.set b x
  -- cmp:325-334
  quotientAt s d b i := do
    dbgWidth c.remOK d
    let x ← s.get b
    let q ← x.quotientAt c d i
    let k ← (c.hash d.kw).invMap q b d.tb
    let k' ← cellRead x.keys i
    ddcheck true (k % 2 ^ c.kbits = k')
    return q
  valueAt s d b i := do
    let x ← s.get b
    x.valueAt c d i
  writeValue s d b i v := do
    let x ← s.get b
    let x ← x.writeValue c d i v
    return s.set b x
  eraseAt s d b i := do
    let x ← s.get b
    let x ← x.erase c d b i
    return s.set b x
  -- cmp:113
  shrink s _ _ := .ok s

/-! ## Loops over cells -/

theorem cellDown_eq {off : Nat} (ho : 1 ≤ off) : ∀ (n i : Nat) (L : Cells), off ≤ i →
    (∀ j, i ≤ j → j < i + n → ∃ v, L[j]? = some (some v)) →
    ∃ L', cellDown off (some L) i n = .ok (some L') ∧ L'.length = L.length ∧
      ∀ j, L'[j]? = if i - off ≤ j ∧ j < i - off + n then L[j + off]? else L[j]? := by
  intro n
  induction n with
  | zero => intro i L _ _; exact ⟨L, rfl, rfl, fun j => by rw [if_neg (by omega)]⟩
  | succ n ih =>
    intro i L hi hv
    obtain ⟨v, h1⟩ := hv i (by omega) (by omega)
    have hl := getElem?_lt h1
    obtain ⟨L', e1, e2, e3⟩ := ih (i + 1) (L.set (i - off) (some v)) (by omega) (by
      intro j h2 h3
      rw [List.getElem?_set, if_neg (by omega)]
      exact hv j (by omega) (by omega))
    refine ⟨L', ?_, by rw [e2, List.length_set], ?_⟩
    · simp only [cellDown, cellRead_get h1, ok_bind, cellWrite_lt (show i - off < L.length by omega), e1]
    · intro j
      rw [e3 j]
      by_cases c1 : i + 1 - off ≤ j ∧ j < i + 1 - off + n
      · rw [if_pos c1, if_pos (by omega), List.getElem?_set, if_neg (by omega)]
      · rw [if_neg c1, List.getElem?_set]
        by_cases c2 : i - off = j
        · rw [if_pos c2, if_pos (by omega), if_pos (by omega), ← c2, Nat.sub_add_cancel hi, h1]
        · rw [if_neg c2, if_neg (by omega)]

theorem cellUp_eq : ∀ (n i : Nat) (L : Cells), i + n < L.length → (∀ j, i ≤ j → j < i + n → ∃ v, L[j]? = some (some v)) →
    ∃ L', cellUp (some L) i n = .ok (some L') ∧ L'.length = L.length ∧
      ∀ j, L'[j]? = if i + 1 ≤ j ∧ j < i + 1 + n then L[j - 1]? else L[j]? := by
  intro n
  induction n with
  | zero => intro i L _ _; exact ⟨L, rfl, rfl, fun j => by rw [if_neg (by omega)]⟩
  | succ n ih =>
    intro i L hl hv
    obtain ⟨v, h1⟩ := hv (i + n) (by omega) (by omega)
    obtain ⟨L', e1, e2, e3⟩ := ih i (L.set (i + n + 1) (some v)) (by rw [List.length_set]; omega) (by
      intro j h2 h3
      rw [List.getElem?_set, if_neg (by omega)]
      exact hv j (by omega) (by omega))
    refine ⟨L', ?_, by rw [e2, List.length_set], ?_⟩
    · simp only [cellUp, cellRead_get h1, ok_bind, cellWrite_lt (show i + n + 1 < L.length by omega), e1]
    · intro j
      rw [e3 j]
      by_cases c1 : i + 1 ≤ j ∧ j < i + 1 + n
      · rw [if_pos c1, if_pos (by omega), List.getElem?_set, if_neg (by omega)]
      · rw [if_neg c1, List.getElem?_set]
        by_cases c2 : i + n + 1 = j
        · rw [if_pos c2, if_pos (by omega), if_pos (by omega), ← c2, ← h1]; rfl
        · rw [if_neg c2, if_neg (by omega)]

end SC
