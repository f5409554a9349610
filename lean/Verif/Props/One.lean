import Verif.Table.Pad
import Verif.Props.Debug
import Verif.Props.Limits
/-!
# `SEPARATE_MAX_BUCKET_SIZE` = 1: C121

The README allows the values 1 to 255.  C15 and the properties that follow from it need at least 2.
-/
namespace SC
variable {KB VB : Type}

/-- the key buckets with cells of a fixed type -/
inductive IsCellBucket : (B : Type) → BucketOps B → (W : Nat) → Prop
  | plain {s : Nat} (h : s = 8 ∨ s = 16 ∨ s = 32 ∨ s = 64) : IsCellBucket PlainB (plainOps s) s
  | class {s : Nat} (h : s = 8 ∨ s = 16 ∨ s = 32 ∨ s = 64) : IsCellBucket PlainB (classOps s) s
  | avx {s : Nat} (h : s = 8 ∨ s = 16 ∨ s = 32 ∨ s = 64) : IsCellBucket PlainB (avxOps s) s

theorem IsCellBucket.isKey {B : Type} {ops : BucketOps B} {W : Nat} (h : IsCellBucket B ops W) : IsKeyBucket B ops W := by
  cases h with
  | plain h => exact .plain h
  | «class» h => exact .class h
  | avx h => exact .avx h

theorem IsCellBucket.ignores {B : Type} {ops : BucketOps B} {W : Nat} (h : IsCellBucket B ops W) : ops.IgnoresWidth := by
  cases h <;> exact ⟨⟨_, rfl⟩, ⟨_, rfl⟩, ⟨_, rfl⟩, ⟨_, rfl⟩, _, rfl⟩

theorem IsCellBucket.pos {B : Type} {ops : BucketOps B} {W : Nat} (h : IsCellBucket B ops W) : 8 ≤ W := by
  cases h <;> omega

/-- The instantiations of `separate_chaining_table` covered for every `SEPARATE_MAX_BUCKET_SIZE` from 1 on: key buckets with cells
of a fixed type, a bijective hash function, keys of at most 63 bits. -/
structure OneOK (p : SepCfg KB VB) (hk : HashKind) (tr : Nat → Nat → Nat) (W kw vw : Nat) : Prop where
  keys : IsCellBucket KB p.kops W
  vals : IsValueBucket VB p.vops tr
  max : 1 ≤ p.maxBucket
  bij : hk.quotienting
  kw_le : kw ≤ 63
  hash : hk.Supports kw W (sepIni kw)
  vw_pos : 1 ≤ vw
  vw_le : vw ≤ 64

/-- valid arguments: a table may have as many buckets as there are keys -/
abbrev OneValid (hk : HashKind) (W kw : Nat) (op : MapOp) : Prop := ValidOp kw (hk.lo kw W) kw (fun _ => True) op

/-- the parameters of the correctness argument, up to as many buckets as there are keys -/
def onePar (p : SepCfg KB VB) (hk : HashKind) (KRep : KB → Nat → Nat → List Nat → Prop)
    (VRep : VB → Nat → Nat → List Nat → Prop) (tr : Nat → Nat → Nat) (W kw vw : Nat) : Par (SepStore KB VB) Unit :=
  { sepPar p hk KRep VRep DummyRep tr (tr vw) true W kw vw with hi := kw }

theorem one_hash {hk : HashKind} {W kw maxE : Nat} (hq : hk.quotienting) (hkw : kw ≤ 63) (hS : hk.Supports kw W (sepIni kw))
    (hW : 1 ≤ W) (hm : 1 ≤ maxE) :
    HashOK (hk.mapping kw).pad kw W (hk.lo kw W) kw (hk.grow kw maxE 1) maxE 1 ∧ hk.lo kw W ≤ sepIni kw ∧ sepIni kw ≤ kw ∧
      hk.grow kw maxE 1 < 65 := by
  have h3 : 3 ≤ kw := by cases hk <;> exact hS.1
  obtain ⟨hi1, hi2⟩ := ini_bounds (I := 16) h3 (by omega)
  have hi1 : 1 ≤ sepIni kw := hi1
  have hi2 : sepIni kw < kw := hi2
  have hl1 : 2 ^ Nat.log2 maxE ≤ maxE := Nat.log2_self_le (by omega)
  have hroom : 2 ^ (kw - (kw - Nat.log2 (maxE / 1))) ≤ maxE := by
    rw [Nat.div_one]
    exact Nat.le_trans (Nat.pow_le_pow_right (by omega) (by omega)) hl1
  cases hk with
  | xorshift sbits =>
    obtain ⟨_, h2, h3', h4⟩ := hS
    refine ⟨hashOK_pad (lawful_xorshift (by omega) h2) hkw (Nat.le_max_left _ _) ?_ hW ?_ ?_ ?_ hroom, ?_, ?_, ?_⟩ <;>
      (try simp only [HashKind.lo, HashKind.width, HashKind.grow]) <;> omega
  | multiplicative sbits =>
    obtain ⟨_, h2, h3', h4⟩ := hS
    refine ⟨hashOK_pad (lawful_multiplicative (by omega) h2) hkw (Nat.le_max_left _ _) ?_ hW ?_ ?_ ?_ hroom, ?_, ?_, ?_⟩ <;>
      (try simp only [HashKind.lo, HashKind.width, HashKind.grow]) <;> omega
  | splitMix => exact hq.elim

theorem OneOK.laws {p : SepCfg KB VB} {hk : HashKind} {tr : Nat → Nat → Nat} {W kw vw : Nat} (h : OneOK p hk tr W kw vw) :
    ∃ KRep VRep, Laws (sepMap p hk).pad (onePar p hk KRep VRep tr W kw vw) ∧ hk.grow kw p.maxSize 1 < 65 := by
  obtain ⟨knorm, KRep, h1, h2, h3⟩ := h.keys.isKey.lawful
  obtain ⟨⟨VRep, h4⟩, h5⟩ := h.vals.lawful
  have hM : 1 ≤ p.maxSize := by have := h.max; unfold SepCfg.maxSize; omega
  have h8 := h.keys.pos
  have hkw : 3 ≤ kw := by have := h.hash; cases hk <;> exact this.1
  obtain ⟨a1, a2, a3, a4⟩ := one_hash h.bij h.kw_le h.hash (by omega) hM
  refine ⟨KRep, VRep, ?_, a4⟩
  have e : (sepMap p hk).pad.ops = p.ops := via_qw h.keys.ignores _
  refine laws_of ?_ (lawful_dummy (tr vw)) a1 h.vw_pos h.vw_le (by simp [Cfg.pad, sepTable]) (by simp [Cfg.pad, sepTable])
    (by simp [Cfg.pad, sepTable]) (by simp [Cfg.pad, sepTable]) (h5 vw) (h5 vw) (show 2 ≤ kw by omega) (by simp [Cfg.pad, sepTable]) rfl a2 a3
  rw [e]
  exact (lawful_sep h1 h2 h4 h3 true).weaken

/-! ## C121 -/

/-- The part of **C121** that holds: for every `SEPARATE_MAX_BUCKET_SIZE` from 1 on, in a build without assertions, with key buckets
whose cells have a fixed type, a bijective hash function and keys of at most 63 bits, every sequence of valid calls on a new table
runs without fault and gives the answers of a finite map - also when the table gets as many buckets as there are keys and quotients
without bits.  Missing are debug builds, where this fails (`C121_debug_false`), `varwidth_bucket` for keys, SplitMix and 64-bit keys. -/
theorem C121_bucket_size_one_partial {p : SepCfg KB VB} {hk : HashKind} {tr : Nat → Nat → Nat} {W kw vw : Nat}
    (h : OneOK p hk tr W kw vw) (ops : List MapOp) (hops : ∀ op ∈ ops, OneValid hk W kw op) :
    ∃ t, Tab.run (sepMap p hk) (Tab.new (sepMap p hk) kw vw) ops = .ok (t, FMap.empty.run (tr vw) ops) := by
  obtain ⟨KRep, VRep, L, hg⟩ := h.laws
  obtain ⟨t, l, h1, _, _⟩ := Tab.run_new L hg ops (fun op hop =>
    ValidOp.opOK (P := onePar p hk KRep VRep tr W kw vw) L.hi_lt L.lo_pos (fun _ _ => rfl) rfl (hops op hop))
  refine ⟨t, ?_⟩
  rw [← run_pad rfl]
  exact h1

/-- 3-bit keys, buckets for one entry -/
abbrev oneCfg : SepCfg PlainB PlainB := { exCfg with maxBucket := 1 }

theorem oneOK : OneOK oneCfg (.xorshift 16) (fun _ v => v % 2 ^ 32) 16 3 20 where
  keys := .plain (by simp)
  vals := .plain (by simp)
  max := by decide
  bij := trivial
  kw_le := by decide
  hash := by simp only [HashKind.Supports]; decide +kernel
  vw_pos := by decide
  vw_le := by decide

/-- all keys are inserted, one is erased, the others are looked up -/
def oneOps : List MapOp := (List.range 8).map (fun k => .insert k (k + 100)) ++ [.erase 5] ++ (List.range 8).map .find

theorem oneOps_valid : ∀ op ∈ oneOps, OneValid (.xorshift 16) 16 3 op := by decide +kernel

/-- the history of the example does lead to quotients without bits -/
example : (match Tab.run (sepMap oneCfg (.xorshift 16)) (Tab.new (sepMap oneCfg (.xorshift 16)) 3 20) oneOps with
    | .ok (t, _) => t.bucketCount == 8 && t.size == 7 && ((HashKind.xorshift 16).mapping 3).remainderWidth t.tb == 0
    | .error _ => false) = true := by decide +kernel

example : ∃ t, Tab.run (sepMap oneCfg (.xorshift 16)) (Tab.new (sepMap oneCfg (.xorshift 16)) 3 20) oneOps =
    .ok (t, FMap.empty.run (fun v => v % 2 ^ 32) oneOps) := C121_bucket_size_one_partial oneOK oneOps oneOps_valid

/-- 40-bit keys with the greatest number of buckets that `reserve` may be given -/
example : OneValid (.multiplicative 64) 64 40 (.reserve (2 ^ 40)) := by
  simp only [OneValid, ValidOp, HashKind.lo]; decide +kernel

/-- **C121** is false in a debug build: an assertion fails once all quotients have no bits. -/
theorem C121_debug_false :
    ¬ ∀ ops : List MapOp, (∀ op ∈ ops, DbgValid .arbitrary (.xorshift 16) 16 3 20 op) →
      ∃ r, Tab.run (dbgMap (dbgPlain 16 12345) (dbgOps (dbgPlain 32 678)) (fun b => b.data.isNone) .arbitrary 1 (.xorshift 16) 64)
        (Tab.new (dbgMap (dbgPlain 16 12345) (dbgOps (dbgPlain 32 678)) (fun b => b.data.isNone) .arbitrary 1 (.xorshift 16) 64) 3 20) ops = .ok r := by
  intro hall
  obtain ⟨r, hr⟩ := hall ((List.range 5).map (fun k => MapOp.insert k 0)) (by decide +kernel)
  have h : (match Tab.run (dbgMap (dbgPlain 16 12345) (dbgOps (dbgPlain 32 678)) (fun b => b.data.isNone) .arbitrary 1 (.xorshift 16) 64)
      (Tab.new (dbgMap (dbgPlain 16 12345) (dbgOps (dbgPlain 32 678)) (fun b => b.data.isNone) .arbitrary 1 (.xorshift 16) 64) 3 20)
      ((List.range 5).map (fun k => MapOp.insert k 0)) with
    | .ok _ => false
    | .error e => decide (e = .exc)) = true := by decide +kernel
  rw [hr] at h
  cases h

end SC
