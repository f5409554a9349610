import Verif.Hash.Mapping
import Verif.Hash.BijectiveLemmas
/-! # Lemmas about the hash mappings -/
namespace SC

/-! ## SplitMix -/

theorem xorshift_inj {s x y : Nat} (hs : 1 ≤ s) (h : x ^^^ (x >>> s) = y ^^^ (y >>> s)) : x = y := by
  have h1 : (x ^^^ y) = (x ^^^ y) >>> s := by
    rw [Nat.shiftRight_xor_distrib]
    apply Nat.eq_of_testBit_eq
    intro i
    have := congrArg (fun n => n.testBit i) h
    simp only [Nat.testBit_xor] at this ⊢
    revert this
    cases x.testBit i <;> cases y.testBit i <;> cases (x >>> s).testBit i <;>
      cases (y >>> s).testBit i <;> simp
  have h2 : x ^^^ y = 0 := by
    apply Classical.byContradiction
    intro h0
    have : (x ^^^ y) >>> s < x ^^^ y := by
      rw [Nat.shiftRight_eq_div_pow]
      exact Nat.div_lt_self (by omega) (Nat.one_lt_two_pow (by omega))
    omega
  apply Nat.eq_of_testBit_eq
  intro i
  have := congrArg (fun n => n.testBit i) h2
  simpa [Nat.testBit_xor] using this

theorem mul_mod_inj {p q x y : Nat} (hpq : p * q % 2 ^ 64 = 1 % 2 ^ 64) (hx : x < 2 ^ 64) (hy : y < 2 ^ 64)
    (h : x * p % W64 = y * p % W64) : x = y := by
  have h1 := mul_inv_mod hpq hx
  have h2 := mul_inv_mod hpq hy
  rw [← h1, ← h2]
  have h' : x * p % 2 ^ 64 = y * p % 2 ^ 64 := h
  rw [h']

theorem splitMix_inj {x y : Nat} (hx : x < 2 ^ 64) (hy : y < 2 ^ 64) (h : splitMix x = splitMix y) :
    x = y := by
  unfold splitMix at h
  have h := xorshift_inj (by omega) h
  have lt : ∀ a : Nat, a % W64 < 2 ^ 64 := fun a => Nat.mod_lt _ (by decide)
  have h := mul_mod_inj (q := 3573116690164977347) (by decide) (xorshift_lt (lt _)) (xorshift_lt (lt _)) h
  have h := xorshift_inj (by omega) h
  have h := mul_mod_inj (q := 10871156337175269513) (by decide) (xorshift_lt hx) (xorshift_lt hy) h
  exact xorshift_inj (by omega) h

theorem splitMix_lt (x : Nat) : splitMix x < 2 ^ 64 := by
  unfold splitMix
  exact xorshift_lt (Nat.mod_lt _ (by decide))

/-! ## Lawful hash mappings -/

/-- What the table needs from a hash mapping for keys of `kw` bits and `2^tb` buckets. -/
structure LawfulMapping (H : HashMapping) (kw tb : Nat) : Prop where
  map_ok : ∀ k, k < 2 ^ kw → ∃ q b, H.map k tb = .ok (q, b) ∧ b < 2 ^ tb ∧
    q < 2 ^ H.remainderWidth tb ∧ H.invMap q b tb = .ok k
  width_pos : 1 ≤ H.remainderWidth tb
  width_le : H.remainderWidth tb ≤ 64

theorem shr64_max {b : Nat} (h1 : 1 ≤ b) (h2 : b ≤ 64) : shr64 (W64 - 1) (64 - b) = .ok (2 ^ b - 1) := by
  have := hashMask_eq h1 h2
  unfold hashMask at this
  rwa [if_neg (by omega)] at this

theorem adapter_map {f : Nat → Nat} {kw tb k : Nat} (h1 : 1 ≤ tb) (h2 : tb ≤ 64) :
    (hashMappingAdapter f kw).map k tb = .ok (k, f k % 2 ^ tb) := by
  simp only [hashMappingAdapter, if_neg (show ¬ 64 < tb by omega), shr64_max h1 h2, ok_bind, pure_eq_ok,
    Nat.and_two_pow_sub_one_eq_mod]

theorem lawful_adapter {f : Nat → Nat} {kw tb : Nat} (hk1 : 1 ≤ kw) (hk : kw ≤ 64) (h1 : 1 ≤ tb) (h2 : tb ≤ 64) :
    LawfulMapping (hashMappingAdapter f kw) kw tb where
  map_ok := fun k hk => ⟨k, f k % 2 ^ tb, adapter_map h1 h2, Nat.mod_lt _ (Nat.two_pow_pos tb), hk, rfl⟩
  width_pos := hk1
  width_le := hk

theorem bij_map {f : BijHash} {sbits w tb k h : Nat} (htb : tb < 64) (hh : f.hash w k = .ok h) :
    (bijectiveHashAdapter f sbits w).map k tb = .ok (h / 2 ^ tb % 2 ^ sbits, h % 2 ^ tb) := by
  have e1 : (1 <<< tb) % W64 = 2 ^ tb := by
    rw [Nat.shiftLeft_eq, Nat.one_mul]
    exact Nat.mod_eq_of_lt (Nat.pow_lt_pow_right (by omega) htb)
  have e2 : (2 ^ tb + W64 - 1) % W64 = 2 ^ tb - 1 := by
    have : 2 ^ tb < W64 := Nat.pow_lt_pow_right (by omega) htb
    have h0 := Nat.two_pow_pos tb
    rw [show 2 ^ tb + W64 - 1 = (2 ^ tb - 1) + W64 by omega, Nat.add_mod_right]
    exact Nat.mod_eq_of_lt (by omega)
  simp only [bijectiveHashAdapter, hh, ok_bind, shr64, shl64, htb, if_true, pure_eq_ok, e1, e2,
    Nat.and_two_pow_sub_one_eq_mod, Nat.shiftRight_eq_div_pow]

theorem bij_invMap {f : BijHash} {sbits w tb q b h k : Nat} (htb : tb < 64) (hh : h < 2 ^ 64)
    (hq : q = h / 2 ^ tb) (hb : b = h % 2 ^ tb) (hk : f.hashInv w h = .ok k) :
    (bijectiveHashAdapter f sbits w).invMap q b tb = .ok k := by
  have e0 : q * 2 ^ tb + b = h := by rw [hq, hb, Nat.mul_comm]; exact Nat.div_add_mod h (2 ^ tb)
  have e1 : (q <<< tb) % W64 = q * 2 ^ tb := by
    rw [Nat.shiftLeft_eq]; exact Nat.mod_eq_of_lt (show _ < 2 ^ 64 by omega)
  simp only [bijectiveHashAdapter, shl64, htb, if_true, ok_bind, e1, e0]
  rw [Nat.mod_eq_of_lt hh]; exact hk

theorem bij_remainderWidth {f : BijHash} {sbits w tb : Nat} (hw : w ≤ 64) (htb : tb ≤ w) :
    (bijectiveHashAdapter f sbits w).remainderWidth tb = w - tb := by
  simp only [bijectiveHashAdapter]; omega

theorem div_lt_quot {h w tb : Nat} (hh : h < 2 ^ w) (htb : tb ≤ w) : h / 2 ^ tb < 2 ^ (w - tb) := by
  rw [Nat.div_lt_iff_lt_mul (Nat.two_pow_pos tb), ← Nat.pow_add]
  rwa [Nat.sub_add_cancel htb]

theorem lawful_bijective {f : BijHash} {sbits w tb : Nat} (hf : LawfulBij f w) (hw : w ≤ 64)
    (htb : tb < w) (hs : w - tb ≤ sbits) :
    LawfulMapping (bijectiveHashAdapter f sbits w) w tb where
  map_ok := by
    intro k hk
    obtain ⟨h, hh, hlt, hinv⟩ := hf.left k hk
    have hq := div_lt_quot hlt (Nat.le_of_lt htb)
    have hqs : h / 2 ^ tb % 2 ^ sbits = h / 2 ^ tb :=
      Nat.mod_eq_of_lt (Nat.lt_of_lt_of_le hq (Nat.pow_le_pow_right (by omega) hs))
    refine ⟨h / 2 ^ tb, h % 2 ^ tb, ?_, Nat.mod_lt _ (Nat.two_pow_pos tb), ?_, ?_⟩
    · rw [bij_map (by omega) hh, hqs]
    · rw [bij_remainderWidth hw (by omega)]; exact hq
    · exact bij_invMap (by omega) (Nat.lt_of_lt_of_le hlt (Nat.pow_le_pow_right (by omega) hw)) rfl rfl hinv
  width_pos := by rw [bij_remainderWidth hw (by omega)]; omega
  width_le := by rw [bij_remainderWidth hw (by omega)]; omega

theorem bij_narrow_collision {f : BijHash} {sbits w tb : Nat} (hf : LawfulBij f w) (hw : w ≤ 64)
    (htb : tb < w) (hs : sbits < w - tb) :
    ∃ k₁ k₂, k₁ < 2 ^ w ∧ k₂ < 2 ^ w ∧ k₁ ≠ k₂ ∧
      (bijectiveHashAdapter f sbits w).map k₁ tb = (bijectiveHashAdapter f sbits w).map k₂ tb ∧
      ∃ r, (bijectiveHashAdapter f sbits w).map k₁ tb = .ok r := by
  have h2 : 2 ^ (sbits + tb) < 2 ^ w := Nat.pow_lt_pow_right (by omega) (by omega)
  obtain ⟨k₁, _, hk₁, e₁⟩ := hf.right 0 (Nat.two_pow_pos w)
  obtain ⟨k₂, _, hk₂, e₂⟩ := hf.right (2 ^ (sbits + tb)) h2
  refine ⟨k₁, k₂, hk₁, hk₂, ?_, ?_, ?_⟩
  · intro h
    rw [h, e₂] at e₁
    have h0 := Nat.two_pow_pos (sbits + tb)
    simp at e₁
  · rw [bij_map (by omega) e₁, bij_map (by omega) e₂]
    simp [Nat.pow_add, Nat.mul_div_cancel _ (Nat.two_pow_pos tb)]
  · exact ⟨_, bij_map (by omega) e₁⟩

end SC
