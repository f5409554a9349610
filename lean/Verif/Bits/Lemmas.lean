import Verif.Bits.Mem
/-! # Lemmas about bit memory -/
namespace SC

theorem testBit_readBits (m : Bits) (pos len i : Nat) :
    (readBits m pos len).testBit i = (decide (i < len) && m (pos + i)) := by
  induction len generalizing pos i with
  | zero => simp [readBits]
  | succ len ih =>
    unfold readBits
    cases i with
    | zero =>
      rw [Nat.testBit_zero]
      cases m pos <;> simp [Nat.add_mul_mod_self_left]
    | succ i =>
      rw [Nat.testBit_succ]
      have : ((m pos).toNat + 2 * readBits m (pos + 1) len) / 2 = readBits m (pos + 1) len := by
        have := Bool.toNat_lt (m pos)
        omega
      rw [this, ih]
      simp [show pos + 1 + i = pos + (i + 1) by omega]

theorem readBits_lt (m : Bits) (pos len : Nat) : readBits m pos len < 2 ^ len := by
  apply Nat.lt_pow_two_of_testBit
  intro i hi
  rw [testBit_readBits]
  simp; omega

theorem readBits_congr {m m' : Bits} {p p' len : Nat} (h : ∀ i, i < len → m (p + i) = m' (p' + i)) :
    readBits m p len = readBits m' p' len := by
  apply Nat.eq_of_testBit_eq
  intro i
  rw [testBit_readBits, testBit_readBits]
  by_cases hi : i < len
  · simp [hi, h i hi]
  · simp [hi]

theorem readBits_write_same (m : Bits) (pos len x : Nat) :
    readBits (writeBits m pos len x) pos len = x % 2 ^ len := by
  apply Nat.eq_of_testBit_eq
  intro i
  rw [testBit_readBits, Nat.testBit_mod_two_pow]
  by_cases hi : i < len
  · simp [writeBits, hi]
  · simp [hi]

theorem readBits_write_disjoint (m : Bits) {pos len x p n : Nat} (h : p + n ≤ pos ∨ pos + len ≤ p) :
    readBits (writeBits m pos len x) p n = readBits m p n := by
  apply readBits_congr
  intro i hi
  simp only [writeBits]
  rw [if_neg (by omega)]

/-- copy `n` bits from address `R` to address `W` (as if through a temporary) -/
def copyBits (m : Bits) (W R n : Nat) : Bits :=
  fun i => if W ≤ i ∧ i < W + n then m (i - W + R) else m i

theorem write_read_eq_copy (m : Bits) (W R n : Nat) :
    writeBits m W n (readBits m R n) = copyBits m W R n := by
  funext i
  simp only [writeBits, copyBits]
  split
  · next h =>
    rw [testBit_readBits]
    have : i - W < n := by omega
    simp [this, Nat.add_comm]
  · rfl

theorem copyBits_zero (m : Bits) (W R : Nat) : copyBits m W R 0 = m := by
  funext i; simp only [copyBits]; rw [if_neg (by omega)]

theorem copyBits_up (m : Bits) {W R a b : Nat} (h : W ≤ R) :
    copyBits (copyBits m W R a) (W + a) (R + a) b = copyBits m W R (a + b) := by
  funext i
  simp only [copyBits]
  by_cases h1 : W + a ≤ i ∧ i < W + a + b
  · rw [if_pos h1, if_neg (by omega), if_pos (by omega)]
    congr 1; omega
  · rw [if_neg h1]
    by_cases h2 : W ≤ i ∧ i < W + a
    · rw [if_pos h2, if_pos (by omega)]
    · rw [if_neg h2, if_neg (by omega)]

theorem copyBits_down (m : Bits) {W R a b : Nat} (h : R ≤ W) :
    copyBits (copyBits m (W + a) (R + a) b) W R a = copyBits m W R (a + b) := by
  funext i
  simp only [copyBits]
  by_cases h1 : W ≤ i ∧ i < W + a
  · rw [if_pos h1, if_neg (by omega), if_pos (by omega)]
  · rw [if_neg h1]
    by_cases h2 : W + a ≤ i ∧ i < W + a + b
    · rw [if_pos h2, if_pos (by omega)]
      congr 1; omega
    · rw [if_neg h2, if_neg (by omega)]

/-- When an access of `len` bits at `base+off` is certainly not a fault. -/
def Acc (strict : Bool) (alloc base off len : Nat) : Prop :=
  strict = false ∨ (64 ∣ base ∧ 64 ∣ alloc ∧ off < 64 ∧ 0 < len ∧ base + off + len ≤ alloc)

theorem guardB_ok {st : Bool} {b : Buf} {hi : Nat} (h : st = false ∨ hi ≤ b.alloc) :
    guardB st b hi = .ok () := by
  unfold guardB
  rcases h with h | h
  · simp [h]
  · simp [Nat.not_lt.mpr h]

theorem readInt_ok {st : Bool} {b : Buf} {base off len : Nat} (h : Acc st b.alloc base off len) :
    readInt st b base off len = .ok (readBits b.bits (base + off) len) := by
  unfold readInt
  have h1 : guardB st b (base + 64) = .ok () := by
    apply guardB_ok
    rcases h with h | ⟨h1, h2, h3, h4, h5⟩
    · exact Or.inl h
    · right; omega
  rw [h1]
  simp only [ok_bind]
  split
  · next hgt =>
    have h2 : guardB st b (base + 128) = .ok () := by
      apply guardB_ok
      rcases h with h | ⟨h1, h2, h3, h4, h5⟩
      · exact Or.inl h
      · right; omega
    rw [h2]; rfl
  · rfl

theorem writeInt_ok {st : Bool} {b : Buf} {base x off len : Nat} (h : Acc st b.alloc base off len) :
    writeInt st b base x off len = .ok { b with bits := writeBits b.bits (base + off) len x } := by
  unfold writeInt
  have h1 : guardB st b (base + 64) = .ok () := by
    apply guardB_ok
    rcases h with h | ⟨h1, h2, h3, h4, h5⟩
    · exact Or.inl h
    · right; omega
  rw [h1]
  simp only [ok_bind]
  split
  · next hgt =>
    have h2 : guardB st b (base + 128) = .ok () := by
      apply guardB_ok
      rcases h with h | ⟨h1, h2, h3, h4, h5⟩
      · exact Or.inl h
      · right; omega
    rw [h2]; rfl
  · rfl

theorem advance_pos (c : Cursor) (len : Nat) : (c.advance len).base + (c.advance len).off = c.base + c.off + len := by
  unfold Cursor.advance; split <;> simp <;> omega

theorem advance_acc {st : Bool} {alloc len n : Nat} {c : Cursor} (hlen : len ≤ 64) (hn : 0 < n)
    (h : Acc st alloc c.base c.off (len + n)) :
    Acc st alloc (c.advance len).base (c.advance len).off n := by
  rcases h with h | ⟨h1, h2, h3, h4, h5⟩
  · exact Or.inl h
  · right
    unfold Cursor.advance
    split <;> simp only <;> refine ⟨by omega, h2, by omega, hn, by omega⟩

theorem Acc.mono {st : Bool} {alloc base off len n : Nat} (h : Acc st alloc base off len) (h0 : 0 < n) (hn : n ≤ len) :
    Acc st alloc base off n := by
  rcases h with h | ⟨h1, h2, h3, h4, h5⟩
  · exact Or.inl h
  · exact Or.inr ⟨h1, h2, h3, h0, by omega⟩

end SC
