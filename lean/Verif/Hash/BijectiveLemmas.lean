import Verif.Hash.Bijective
/-! # Lemmas about the bijective hash functions -/
namespace SC

theorem xorshift_lt {w s x : Nat} (hx : x < 2 ^ w) : x ^^^ (x >>> s) < 2 ^ w := by
  apply Nat.xor_lt_two_pow hx
  exact Nat.lt_of_le_of_lt (Nat.shiftRight_le x s) hx

theorem xorshift_invol {w s x : Nat} (hs : w ≤ 2 * s) (hx : x < 2 ^ w) :
    (x ^^^ (x >>> s)) ^^^ ((x ^^^ (x >>> s)) >>> s) = x := by
  rw [Nat.shiftRight_xor_distrib, ← Nat.shiftRight_add]
  have : x >>> (s + s) = 0 := by
    apply Nat.shiftRight_eq_zero
    exact Nat.lt_of_lt_of_le hx (Nat.pow_le_pow_right (by omega) (by omega))
  rw [this]; simp [Nat.xor_assoc]

theorem hashMask_eq {bits : Nat} (h1 : 1 ≤ bits) (h2 : bits ≤ 64) :
    hashMask bits = .ok (2 ^ bits - 1) := by
  have h3 : ∀ b : Fin 65, 1 ≤ b.val → hashMask b.val = .ok (2 ^ b.val - 1) := by decide
  exact h3 ⟨bits, by omega⟩ h1

theorem and_mask {bits y : Nat} (h2 : bits ≤ 64) :
    (y % W64) &&& (2 ^ bits - 1) = y % 2 ^ bits := by
  rw [Nat.and_two_pow_sub_one_eq_mod]
  exact Nat.mod_mod_of_dvd _ (Nat.pow_dvd_pow 2 h2)

/-- The complete constant table: in every row `w >= 1` and stage `n`, the two constants are
inverse to each other modulo `2^w`. -/
theorem primeTable_inverse : ∀ w : Fin 65, 1 ≤ w.val → ∀ n : Fin 3, ∃ p q,
    primeAt w.val n.val = .ok p ∧ invPrimeAt w.val n.val = .ok q ∧ p * q % 2 ^ w.val = 1 % 2 ^ w.val := by
  have key : ∀ w : Fin 65, 1 ≤ w.val → ∀ n : Fin 3,
      (match primeAt w.val n.val, invPrimeAt w.val n.val with
      | .ok p, .ok q => decide (p * q % 2 ^ w.val = 1 % 2 ^ w.val)
      | _, _ => false) = true := by decide +kernel
  intro w hw n
  have := key w hw n
  split at this
  · next p q hp hq => exact ⟨p, q, hp, hq, by simpa using this⟩
  · cases this

theorem mul_inv_mod {w p q x : Nat} (h : p * q % 2 ^ w = 1 % 2 ^ w) (hx : x < 2 ^ w) :
    (x * p % 2 ^ w) * q % 2 ^ w = x := by
  rw [Nat.mod_mul_mod, Nat.mul_assoc, ← Nat.mul_mod_mod, h, Nat.mul_mod_mod, Nat.mul_one,
    Nat.mod_eq_of_lt hx]

theorem xorshift_stage_facts {w : Nat} (h1 : 1 ≤ w) (h2 : w ≤ 64) (n : Fin 3) {x : Nat} (hx : x < 2 ^ w) :
    ∃ y, xorshiftStage w n.val x = .ok y ∧ y < 2 ^ w ∧ xorshiftStageInv w n.val y = .ok x := by
  obtain ⟨p, q, hp, hq, hpq⟩ := primeTable_inverse ⟨w, by omega⟩ h1 n
  simp only at hp hq hpq
  have hsh : xorshiftShift w + n.val < 64 := by unfold xorshiftShift; omega
  have hs2 : w ≤ 2 * (xorshiftShift w + n.val) := by unfold xorshiftShift; omega
  refine ⟨(x ^^^ (x >>> (xorshiftShift w + n.val))) * p % 2 ^ w, ?_, Nat.mod_lt _ (Nat.two_pow_pos w), ?_⟩
  · simp only [xorshiftStage, shr64, hsh, hp, hashMask_eq h1 h2, if_true, ok_bind, pure_eq_ok, and_mask h2]
  · simp only [xorshiftStageInv, hq, hashMask_eq h1 h2, ok_bind, pure_eq_ok, and_mask h2,
      mul_inv_mod hpq (xorshift_lt hx), shr64, hsh, if_true, xorshift_invol hs2 hx]

theorem xorshift_stageInv_facts {w : Nat} (h1 : 1 ≤ w) (h2 : w ≤ 64) (n : Fin 3) {x : Nat} (hx : x < 2 ^ w) :
    ∃ y, xorshiftStageInv w n.val x = .ok y ∧ y < 2 ^ w ∧ xorshiftStage w n.val y = .ok x := by
  obtain ⟨p, q, hp, hq, hpq⟩ := primeTable_inverse ⟨w, by omega⟩ h1 n
  simp only at hp hq hpq
  have hsh : xorshiftShift w + n.val < 64 := by unfold xorshiftShift; omega
  have hs2 : w ≤ 2 * (xorshiftShift w + n.val) := by unfold xorshiftShift; omega
  have hz : x * q % 2 ^ w < 2 ^ w := Nat.mod_lt _ (Nat.two_pow_pos w)
  refine ⟨(x * q % 2 ^ w) ^^^ ((x * q % 2 ^ w) >>> (xorshiftShift w + n.val)), ?_, xorshift_lt hz, ?_⟩
  · simp only [xorshiftStageInv, hq, hashMask_eq h1 h2, ok_bind, pure_eq_ok, and_mask h2, shr64, hsh, if_true]
  · rw [Nat.mul_comm] at hpq
    simp only [xorshiftStage, shr64, hsh, hp, hashMask_eq h1 h2, if_true, ok_bind, pure_eq_ok,
      xorshift_invol hs2 hz, and_mask h2, mul_inv_mod hpq hx]

/-- What a user expects from a bijective hash function of `w` bits. -/
structure LawfulBij (f : BijHash) (w : Nat) : Prop where
  left : ∀ x, x < 2 ^ w → ∃ y, f.hash w x = .ok y ∧ y < 2 ^ w ∧ f.hashInv w y = .ok x
  right : ∀ y, y < 2 ^ w → ∃ x, f.hashInv w y = .ok x ∧ x < 2 ^ w ∧ f.hash w x = .ok y

theorem lawful_xorshift {w : Nat} (h1 : 1 ≤ w) (h2 : w ≤ 64) : LawfulBij xorshift w := by
  constructor
  · intro x hx
    obtain ⟨a, ha, hla, hai⟩ := xorshift_stage_facts h1 h2 0 hx
    obtain ⟨b, hb, hlb, hbi⟩ := xorshift_stage_facts h1 h2 1 hla
    obtain ⟨c, hc, hlc, hci⟩ := xorshift_stage_facts h1 h2 2 hlb
    simp only [Fin.val_zero, Fin.val_one, Fin.val_two] at *
    exact ⟨c, by simp [xorshift, xorshiftHash, ha, hb, hc], hlc,
      by simp [xorshift, xorshiftHashInv, hai, hbi, hci]⟩
  · intro x hx
    obtain ⟨a, ha, hla, hai⟩ := xorshift_stageInv_facts h1 h2 2 hx
    obtain ⟨b, hb, hlb, hbi⟩ := xorshift_stageInv_facts h1 h2 1 hla
    obtain ⟨c, hc, hlc, hci⟩ := xorshift_stageInv_facts h1 h2 0 hlb
    simp only [Fin.val_zero, Fin.val_one, Fin.val_two] at *
    exact ⟨c, by simp [xorshift, xorshiftHashInv, ha, hb, hc], hlc,
      by simp [xorshift, xorshiftHash, hai, hbi, hci]⟩

theorem mult_consts : primeAt 63 0 = .ok 9223372036854775291 ∧
    invPrimeAt 63 0 = .ok 3657236494304118067 ∧
    9223372036854775291 * 3657236494304118067 % 2 ^ 64 = 1 := by decide +kernel

theorem mod_pow_of_mod64 {a w : Nat} (h : a % 2 ^ 64 = 1) (hw : w ≤ 64) : a % 2 ^ w = 1 % 2 ^ w := by
  rw [← Nat.mod_mod_of_dvd a (Nat.pow_dvd_pow 2 hw), h]

theorem lawful_multiplicative {w : Nat} (h1 : 1 ≤ w) (h2 : w ≤ 64) : LawfulBij multiplicative w := by
  obtain ⟨hp, hq, hpq⟩ := mult_consts
  have hpq' := mod_pow_of_mod64 hpq h2
  have hqp' : 3657236494304118067 * 9223372036854775291 % 2 ^ w = 1 % 2 ^ w := by
    rw [Nat.mul_comm]; exact hpq'
  constructor
  · intro x hx
    refine ⟨x * 9223372036854775291 % 2 ^ w, ?_, Nat.mod_lt _ (Nat.two_pow_pos w), ?_⟩
    · simp only [multiplicative, multHash, hp, hashMask_eq h1 h2, ok_bind, pure_eq_ok, and_mask h2]
    · simp only [multiplicative, multHashInv, hq, hashMask_eq h1 h2, ok_bind, pure_eq_ok, and_mask h2,
        mul_inv_mod hpq' hx]
  · intro x hx
    refine ⟨x * 3657236494304118067 % 2 ^ w, ?_, Nat.mod_lt _ (Nat.two_pow_pos w), ?_⟩
    · simp only [multiplicative, multHashInv, hq, hashMask_eq h1 h2, ok_bind, pure_eq_ok, and_mask h2]
    · simp only [multiplicative, multHash, hp, hashMask_eq h1 h2, ok_bind, pure_eq_ok, and_mask h2,
        mul_inv_mod hqp' hx]

end SC
