import Verif.Table.HashLaws
import Verif.Table.Run
/-!
# The hash mappings offered by the library, and valid arguments
-/
namespace SC

/-- the `hash_mapping_t` template arguments: `bijective_hash_adapter` over one of the two bijective functions, with a
`storage_type` of `sbits` bits, or `hash_mapping_adapter` over SplitMix -/
inductive HashKind
  | xorshift (sbits : Nat)
  | multiplicative (sbits : Nat)
  | splitMix

/-- `hash_mapping_t(key_width)` -/
def HashKind.mapping : HashKind → Nat → HashMapping
  | .xorshift sbits, kw => bijectiveHashAdapter SC.xorshift sbits kw
  | .multiplicative sbits, kw => bijectiveHashAdapter SC.multiplicative sbits kw
  | .splitMix, kw => hashMappingAdapter SC.splitMix kw

/-- width of the values of the hash function -/
def HashKind.width : HashKind → Nat → Nat
  | .splitMix, _ => 64
  | _, kw => kw

/-- logarithm of the least number of buckets for which quotients fit into `W` bits and the `storage_type` -/
def HashKind.lo : HashKind → (kw W : Nat) → Nat
  | .xorshift sbits, kw, W => max 1 (kw - min W sbits)
  | .multiplicative sbits, kw, W => max 1 (kw - min W sbits)
  | .splitMix, _, _ => 1

/-- logarithm of the number of buckets beyond which a table is not enlarged automatically, if `cl` buckets hold up to
`maxE` entries -/
def HashKind.grow (hk : HashKind) (kw maxE cl : Nat) : Nat := hk.width kw - Nat.log2 (maxE / cl)

/-- The key width is supported: at least 3 and at most 64, and the quotients that occur with `2^ini` buckets fit into `W` bits and the
`storage_type`. -/
def HashKind.Supports : HashKind → (kw W ini : Nat) → Prop
  | .xorshift sbits, kw, W, ini => 3 ≤ kw ∧ kw ≤ 64 ∧ kw ≤ W + ini ∧ kw ≤ sbits + ini
  | .multiplicative sbits, kw, W, ini => 3 ≤ kw ∧ kw ≤ 64 ∧ kw ≤ W + ini ∧ kw ≤ sbits + ini
  | .splitMix, kw, W, _ => 3 ≤ kw ∧ kw ≤ 64 ∧ kw ≤ W

theorem HashKind.hashOK {hk : HashKind} {kw W ini maxE cl : Nat} (h : hk.Supports kw W ini) (hini1 : 1 ≤ ini)
    (hini2 : ini < kw) (hcl : 1 ≤ cl) (hm : 2 * cl ≤ maxE) :
    HashOK (hk.mapping kw) kw W (hk.lo kw W) (hk.width kw - 1) (hk.grow kw maxE cl) maxE cl ∧
      hk.lo kw W ≤ ini ∧ ini ≤ hk.width kw - 1 ∧ hk.grow kw maxE cl < 65 := by
  have hdiv : 2 ≤ maxE / cl := (Nat.le_div_iff_mul_le (by omega)).mpr (by omega)
  have hl1 : 2 ^ Nat.log2 (maxE / cl) ≤ maxE / cl := Nat.log2_self_le (by omega)
  have hl : 1 ≤ Nat.log2 (maxE / cl) := by
    rcases Nat.eq_zero_or_pos (Nat.log2 (maxE / cl)) with h | h
    · have := Nat.lt_log2_self (n := maxE / cl); rw [h] at this; omega
    · exact h
  have hr : cl * 2 ^ Nat.log2 (maxE / cl) ≤ maxE :=
    Nat.le_trans (Nat.mul_le_mul_left _ hl1) (Nat.mul_div_le maxE cl)
  have hroom : ∀ w, cl * 2 ^ (w - (w - Nat.log2 (maxE / cl))) ≤ maxE := by
    intro w
    refine Nat.le_trans (Nat.mul_le_mul_left _ (Nat.pow_le_pow_right (by omega) ?_)) hr
    omega
  cases hk with
  | xorshift sbits =>
    obtain ⟨h1, h2, h3, h4⟩ := h
    refine ⟨hashOK_bijective (lawful_xorshift (by omega) h2) h2 (Nat.le_max_left _ _) ?_ ?_ ?_ ?_ (hroom kw), ?_, ?_, ?_⟩ <;>
      simp only [HashKind.lo, HashKind.width, HashKind.grow] <;> omega
  | multiplicative sbits =>
    obtain ⟨h1, h2, h3, h4⟩ := h
    refine ⟨hashOK_bijective (lawful_multiplicative (by omega) h2) h2 (Nat.le_max_left _ _) ?_ ?_ ?_ ?_ (hroom kw), ?_, ?_, ?_⟩ <;>
      simp only [HashKind.lo, HashKind.width, HashKind.grow] <;> omega
  | splitMix =>
    obtain ⟨h1, h2, h3⟩ := h
    refine ⟨hashOK_splitMix (by omega) h2 h3 ?_ (hroom 64), ?_, ?_, ?_⟩ <;>
      simp only [HashKind.lo, HashKind.width, HashKind.grow] <;> omega

/-- Valid arguments of the public functions: keys are at most `max_key()`; `reserve(n)` is called with
`1 ≤ n ≤ 2^hi` (so that a bijective hash function leaves at least one bit for the quotient), and - only relevant for
narrow storage types - with enough buckets for the quotients to fit.  `vals` restricts the values. -/
def ValidOp (kw lo hi : Nat) (vals : Nat → Prop) : MapOp → Prop
  | .insert k v => k < 2 ^ kw ∧ vals v
  | .get k => k < 2 ^ kw
  | .assign k v => k < 2 ^ kw ∧ vals v
  | .find k => k < 2 ^ kw
  | .count k => k < 2 ^ kw
  | .erase k => k < 2 ^ kw
  | .reserve n => 1 ≤ n ∧ n ≤ 2 ^ hi ∧ (n = 1 ∨ 2 ^ (lo - 1) < n)
  | _ => True

instance (kw lo hi : Nat) (vals : Nat → Prop) [DecidablePred vals] (op : MapOp) : Decidable (ValidOp kw lo hi vals op) := by
  cases op <;> unfold ValidOp <;> infer_instance

theorem ValidOp.opOK {S O : Type} {P : Par S O} {op : MapOp} {vals : Nat → Prop} (hhi : P.hi < 64) (hlo : 1 ≤ P.lo)
    (hv : ∀ v, vals v → P.normO v = P.norm P.vw v) (h0 : P.normO 0 = P.norm P.vw 0)
    (h : ValidOp P.kw P.lo P.hi vals op) (h1 : op ≠ .reserve 1 ∨ P.one = true := by exact .inr rfl) : OpOK P op := by
  cases op with
  | insert k v => exact ⟨h.1, hv v h.2⟩
  | get k => exact ⟨h, h0⟩
  | assign k v => exact ⟨h.1, hv v h.2, h0⟩
  | find k => exact h
  | count k => exact h
  | erase k => exact h
  | reserve n =>
    have hone := h1
    obtain ⟨h1, h2, h3⟩ := h
    have h63 : n ≤ 2 ^ 63 := Nat.le_trans h2 (Nat.pow_le_pow_right (by omega) (by omega))
    refine ⟨ceilLog n, reserveBits_ceilLog h1 h63, ?_, (ceilLog_le_iff h1).mpr h2⟩
    rcases h3 with rfl | h3
    · exact .inl ⟨by decide, hone.resolve_left (fun e => e rfl)⟩
    · right
      apply Nat.le_of_not_lt
      intro hlt
      have := (ceilLog_le_iff (r := P.lo - 1) h1).mp (by omega)
      omega
  | size => trivial
  | empty => trivial
  | shrink => trivial
  | clear => trivial

/-- bounds of the initial number of buckets -/
theorem ini_bounds {kw I : Nat} (h : 3 ≤ kw) (hI : 2 ≤ I) :
    1 ≤ ceilLog (min (kw - 1) I) ∧ ceilLog (min (kw - 1) I) < kw := by
  have h1 : 2 ≤ min (kw - 1) I := by omega
  constructor
  · apply Nat.le_of_not_lt
    intro hlt
    have := (ceilLog_le_iff (r := 0) (show 1 ≤ min (kw - 1) I by omega)).mp (by omega)
    simp at this; omega
  · have := (ceilLog_le_iff (r := kw - 1) (show 1 ≤ min (kw - 1) I by omega)).mpr (by
      have : kw - 1 < 2 ^ (kw - 1) := Nat.lt_two_pow_self
      omega)
    omega

end SC
