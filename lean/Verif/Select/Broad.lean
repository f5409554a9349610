import Verif.Select.Lemmas
import Mathlib.Order.Basic
import Mathlib.Data.Nat.Find
/-!
# Correctness of the broadword version of `select64`
-/
namespace SC

theorem mask80 : ∀ v, v < 256 → v &&& 0x80 = if 128 ≤ v then 128 else 0 := by decide +kernel

theorem testBit_128 : ∀ b, b < 8 → (128 : Nat).testBit b = decide (b = 7) := by decide

theorem shl_byte {S : Nat → Nat} (hS : ∀ k, S k < 256) {j : Nat} (hj : j < 8) :
    (pk S 0 8 * 2 ^ 8) % W64 / 256 ^ j % 256 = if j = 0 then 0 else S (j - 1) := by
  let T : Nat → Nat := fun k => match k with
    | 0 => 0
    | k + 1 => S k
  have hT : ∀ k, T k < 256 := fun k => by cases k with
    | zero => simp [T]
    | succ k => exact hS k
  have e : (pk S 0 8 * 2 ^ 8) % W64 = pk T 0 8 := by
    have hp := Nat.lt_of_lt_of_eq (pk_lt (j := 0) (n := 8) hT) (show 256 ^ 8 = W64 by decide)
    have : pk S 0 8 * 2 ^ 8 = pk T 0 8 + W64 * S 7 := by
      rw [show W64 = 18446744073709551616 from rfl]
      simp only [pk, T, Nat.zero_add, Nat.reduceAdd, Nat.mul_zero, Nat.add_zero]
      omega
    rw [this, Nat.add_mul_mod_self_left, Nat.mod_eq_of_lt hp]
  rw [e]
  have := pk_div (j := 0) hT hj
  rw [Nat.zero_add] at this
  rw [this]
  cases j with
  | zero => rfl
  | succ k => simp [T]

theorem sub_wrap {i p : Nat} (h : p < i) (hi : i ≤ 64) : sub64 i p % 2 ^ 32 = i - p := by
  unfold sub64; rw [show W64 = 18446744073709551616 from rfl]; omega

theorem index_wrap {y : Nat} (h : 1 ≤ y) (hy : y ≤ 64) : (dec32 y <<< 8) % 2 ^ 32 = (y - 1) * 256 := by
  unfold dec32; rw [Nat.shiftLeft_eq]; omega

/-- C39 for the version without BMI2 instructions -/
theorem select64broad_spec {x i : Nat} (hx : x < 2 ^ 64) (h1 : 1 ≤ i) (h2 : i ≤ popcount x) :
    ∃ r, select64broad x i = .ok r ∧ r < 64 ∧ IsSelect x.testBit (i - 1) r := by
  have h64 : i ≤ 64 := Nat.le_trans h2 (rank_le _ _)
  -- prefix sums of the numbers of ones in the bytes
  obtain ⟨S, hS⟩ : ∃ S : Nat → Nat, ∀ k, S k = if k < 8 then rank x.testBit (8 * (k + 1)) else rank x.testBit 64 :=
    ⟨_, fun _ => rfl⟩
  have hS7 : i ≤ S 7 := by simp only [hS, if_pos (show 7 < 8 by omega), Nat.reduceAdd, Nat.reduceMul]; unfold popcount at h2; exact h2
  have hSle : ∀ k, S k ≤ 64 := by
    intro k
    simp only [hS]; split
    · have := rank_le x.testBit (8 * (k + 1)); omega
    · exact rank_le _ _
  have hbyte : ∀ k, rank x.testBit (8 * (k + 1)) = rank x.testBit (8 * k) + rank (byte x k).testBit 8 := by
    intro k; rw [Nat.mul_add]; exact rank_byte x k (Nat.le_refl 8)
  have hpre : byteSums x = pk S 0 8 := by
    rw [byteSums_eq hx]
    apply mul_prefix
    · simp only [hS, if_pos (show 0 < 8 by omega)]; rw [hbyte 0]; simp [rank]
    · intro k
      have hz : ∀ k, 8 ≤ k → rank (byte x k).testBit 8 = 0 := by
        intro k hk
        have : byte x k = 0 := by
          unfold byte
          rw [Nat.div_eq_of_lt]
          calc x < 256 ^ 8 := Nat.lt_of_lt_of_eq hx (by decide)
            _ ≤ 256 ^ k := Nat.pow_le_pow_right (by omega) hk
        rw [this]; decide
      simp only [hS]
      by_cases hk : k + 1 < 8
      · rw [if_pos hk, if_pos (by omega), hbyte (k + 1)]
      · rw [if_neg hk, hz (k + 1) (by omega)]
        by_cases hk' : k < 8
        · have e7 : k = 7 := by omega
          subst e7; simp only [if_pos hk', Nat.reduceAdd, Nat.reduceMul, Nat.add_zero]
        · rw [if_neg hk', Nat.add_zero]
    · intro k; have := hSle k; omega
  -- the first byte whose prefix sum reaches i
  have hex : ∃ j, i ≤ S j := ⟨7, hS7⟩
  obtain ⟨j, hj, hmin⟩ : ∃ j, i ≤ S j ∧ ∀ k, k < j → S k < i :=
    ⟨Nat.find hex, Nat.find_spec hex, fun k hk => by have := Nat.find_min hex hk; omega⟩
  have hj8 : j < 8 := by
    rcases Nat.lt_or_ge j 8 with h | h
    · exact h
    · have := hmin 7 (by omega)
      omega
  have hSlt : ∀ k, S k < 256 := fun k => by have := hSle k; omega
  have hS0 : ∀ k, S k + (128 - i) < 256 := fun k => by have := hSle k; omega
  have hb : add64 (pk S 0 8) (pk (fun _ => 128 - i) 0 8) &&& 0x8080808080808080 =
      pk (fun k => if i ≤ S k then 128 else 0) 0 8 := by
    have hm : (0x8080808080808080 : Nat) = pk (fun _ => 0x80) 0 8 := by decide
    rw [add64, pk_add, Nat.mod_eq_of_lt (Nat.lt_of_lt_of_eq (pk_lt hS0) (by decide)), hm, pk_and hS0 (fun _ => by omega)]
    apply pk_congr
    intro k _ _
    rw [mask80 _ (hS0 k)]
    have : (128 ≤ S k + (128 - i)) ↔ i ≤ S k := by omega
    simp only [this]
  have hflt : ∀ k, (if i ≤ S k then 128 else 0) < 256 := fun k => by split <;> omega
  have hctz : ctz64 (pk (fun k => if i ≤ S k then 128 else 0) 0 8) = .ok (8 * j + 7) := by
    apply ctz64_eq (by omega)
    · rw [testBit_pk hflt hj8 (by omega), Nat.zero_add, if_pos hj]; decide
    · intro p hp
      have e : p = 8 * (p / 8) + p % 8 := by omega
      rw [e, testBit_pk hflt (by omega) (by omega), Nat.zero_add]
      split
      · rename_i hc
        rw [testBit_128 _ (by omega)]
        by_cases hpj : p / 8 < j
        · have := hmin _ hpj; omega
        · simp; omega
      · simp
  have hz : (8 * j + 7) >>> 3 = j := by rw [Nat.shiftRight_eq_div_pow]; omega
  have hz' : j <<< 3 = 8 * j := by rw [Nat.shiftLeft_eq]; omega
  have h256 : 2 ^ (8 * j) = 256 ^ j := by rw [Nat.pow_mul]
  have hand : ∀ y, y &&& 0xFF = y % 256 := fun y => Nat.and_two_pow_sub_one_eq_mod y 8
  -- the prefix sum of the bytes in front
  have hprev : ((pk S 0 8 <<< 8) % W64) >>> (8 * j) &&& 0xFF = rank x.testBit (8 * j) := by
    rw [hand, Nat.shiftRight_eq_div_pow, h256, Nat.shiftLeft_eq]
    rw [shl_byte hSlt hj8]
    cases j with
    | zero => simp [rank]
    | succ k => rw [if_neg (by omega), Nat.add_sub_cancel]; simp only [hS]; rw [if_pos (by omega)]
  have hx8 : (x >>> (8 * j)) &&& 0xFF = byte x j := by
    rw [hand, Nat.shiftRight_eq_div_pow, h256]; rfl
  have hSj : S j = rank x.testBit (8 * j) + rank (byte x j).testBit 8 := by
    simp only [hS, if_pos hj8]; exact hbyte j
  have hlow : rank x.testBit (8 * j) < i := by
    cases j with
    | zero => simp only [rank]; omega
    | succ k => have := hmin k (by omega); simp only [hS] at this; rw [if_pos (by omega)] at this; exact this
  obtain ⟨r, hr, hr8, hsel⟩ := ltSel_spec (k := i - rank x.testBit (8 * j) - 1) (byte_lt x j) (by omega)
  refine ⟨8 * j + r, ?_, by omega, ?_, ?_⟩
  · unfold select64broad
    rw [hpre, psOverflow_eq i h64, ok_bind]
    simp only [hb, hctz]
    rw [ok_bind]
    simp only [hz, hz', hprev, hx8, sub_wrap hlow h64]
    rw [index_wrap (show 1 ≤ i - rank x.testBit (8 * j) by omega) (by omega), hr, ok_bind]
    rfl
  · rw [← byte_testBit x j hr8]; exact hsel.1
  · rw [rank_byte x j (by omega), hsel.2]; omega

end SC
