import Verif.Select.Model
import Verif.Bits.Lemmas
/-!
# Correctness of `select64`
-/
namespace SC

/-! ## rank -/

theorem rank_congr {p q : Nat → Bool} {n : Nat} (h : ∀ i, i < n → p i = q i) : rank p n = rank q n := by
  induction n with
  | zero => rfl
  | succ n ih => simp only [rank]; rw [ih (fun i hi => h i (by omega)), h n (by omega)]

theorem rank_add (p : Nat → Bool) (a b : Nat) : rank p (a + b) = rank p a + rank (fun i => p (a + i)) b := by
  induction b with
  | zero => rfl
  | succ b ih => rw [← Nat.add_assoc]; simp only [rank, ih]; omega

theorem rank_le (p : Nat → Bool) (n : Nat) : rank p n ≤ n := by
  induction n with
  | zero => simp [rank]
  | succ n ih => simp only [rank]; have := Bool.toNat_le (p n); omega

theorem rank_mono (p : Nat → Bool) {a b : Nat} (h : a ≤ b) : rank p a ≤ rank p b := by
  obtain ⟨c, rfl⟩ := Nat.exists_eq_add_of_le h
  rw [rank_add]; omega

theorem rank_lt (p : Nat → Bool) {r n : Nat} (h : p r = true) (hr : r < n) : rank p r < rank p n := by
  have h1 : rank p (r + 1) ≤ rank p n := rank_mono p hr
  simp only [rank, h, Bool.toNat_true] at h1
  omega

/-- the position of the `k`-th one is unique -/
theorem IsSelect.unique {p : Nat → Bool} {k r s : Nat} (h : IsSelect p k r) (h' : IsSelect p k s) : r = s := by
  rcases Nat.lt_trichotomy r s with hl | hl | hl
  · have := rank_lt p h.1 hl; have := h.2; have := h'.2; omega
  · exact hl
  · have := rank_lt p h'.1 hl; have := h.2; have := h'.2; omega

/-- there is a `k`-th one if there are more than `k` ones -/
theorem exists_select {p : Nat → Bool} {k n : Nat} (h : k < rank p n) : ∃ r, r < n ∧ IsSelect p k r := by
  induction n with
  | zero => simp [rank] at h
  | succ n ih =>
    by_cases hk : k < rank p n
    · obtain ⟨r, hr, hs⟩ := ih hk
      exact ⟨r, by omega, hs⟩
    · refine ⟨n, by omega, ?_⟩
      simp only [rank] at h
      cases hp : p n with
      | false => rw [hp] at h; simp at h; omega
      | true => rw [hp] at h; simp at h; exact ⟨hp, by omega⟩

/-! ## external functions -/

theorem firstBit_eq {p : Nat → Bool} {i n r : Nat} (hi : i ≤ r) (hr : r < i + n) (hp : p r = true)
    (hlt : ∀ j, i ≤ j → j < r → p j = false) : firstBit p i n = some r := by
  induction n generalizing i with
  | zero => omega
  | succ n ih =>
    simp only [firstBit]
    by_cases h : i = r
    · subst h; simp [hp]
    · rw [hlt i (Nat.le_refl _) (by omega)]
      simp only [Bool.false_eq_true, if_false]
      exact ih (by omega) (by omega) (fun j h1 h2 => hlt j (by omega) h2)

theorem ctz64_eq {x r : Nat} (hr : r < 64) (hx : x.testBit r = true) (hlt : ∀ j, j < r → x.testBit j = false) :
    ctz64 x = .ok r := by
  unfold ctz64
  rw [firstBit_eq (Nat.zero_le _) (by omega) hx (fun j _ h => hlt j h)]

/-- C39 for the version with BMI2 instructions -/
theorem select64bmi_spec {x i : Nat} (h1 : 1 ≤ i) (h2 : i ≤ popcount x) :
    ∃ r, select64bmi x i = .ok r ∧ r < 64 ∧ IsSelect x.testBit (i - 1) r := by
  have h64 : i ≤ 64 := Nat.le_trans h2 (rank_le _ _)
  obtain ⟨r, hr, hs⟩ := exists_select (p := x.testBit) (k := i - 1) (n := 64) (by unfold popcount at h2; omega)
  refine ⟨r, ?_, hr, hs⟩
  have e : dec32 i = i - 1 := by unfold dec32; omega
  have hone : (1 <<< (i - 1)) % W64 = 2 ^ (i - 1) := by
    rw [Nat.one_shiftLeft, Nat.mod_eq_of_lt (Nat.pow_lt_pow_right (by omega) (by omega))]
  simp only [select64bmi, e, shl64, if_pos (show i - 1 < 64 by omega), hone, ok_bind]
  have hb : ∀ j, j < 64 → (pdep64 (2 ^ (i - 1)) x).testBit j =
      (x.testBit j && decide (i - 1 = rank x.testBit j)) := by
    intro j hj
    unfold pdep64
    rw [testBit_readBits]
    simp [hj, Nat.testBit_two_pow]
  refine ctz64_eq hr ?_ ?_
  · rw [hb r hr, hs.1, hs.2]; simp
  · intro j hj
    rw [hb j (by omega)]
    cases hx : x.testBit j with
    | false => rfl
    | true =>
      have := rank_lt x.testBit hx hj
      have := hs.2
      simp; omega

/-! ## bytes -/

theorem and_cat {a c : Nat} (b d : Nat) (ha : a < 256) (hc : c < 256) :
    (a + 256 * b) &&& (c + 256 * d) = (a &&& c) + 256 * (b &&& d) := by
  have hac : a &&& c < 2 ^ 8 := Nat.and_lt_two_pow _ hc
  apply Nat.eq_of_testBit_eq
  intro i
  have e : ∀ u v : Nat, u + 256 * v = 2 ^ 8 * v + u := fun u v => by omega
  rw [Nat.testBit_and, e, e, e, Nat.testBit_two_pow_mul_add _ ha, Nat.testBit_two_pow_mul_add _ hc,
    Nat.testBit_two_pow_mul_add _ hac]
  split <;> simp

/-- number whose `n` bytes are `f j`, `f (j+1)`, ... -/
def pk (f : Nat → Nat) (j : Nat) : Nat → Nat
  | 0 => 0
  | n + 1 => f j + 256 * pk f (j + 1) n

theorem pk_congr {f g : Nat → Nat} {j n : Nat} (h : ∀ k, j ≤ k → k < j + n → f k = g k) : pk f j n = pk g j n := by
  induction n generalizing j with
  | zero => rfl
  | succ n ih =>
    simp only [pk]
    rw [h j (by omega) (by omega), ih (fun k h1 h2 => h k (by omega) (by omega))]

theorem pk_lt {f : Nat → Nat} {j n : Nat} (h : ∀ k, f k < 256) : pk f j n < 256 ^ n := by
  induction n generalizing j with
  | zero => simp [pk]
  | succ n ih =>
    simp only [pk]
    have := h j; have := @ih (j + 1)
    rw [Nat.pow_succ]; omega

theorem pk_add (f g : Nat → Nat) (j n : Nat) : pk f j n + pk g j n = pk (fun k => f k + g k) j n := by
  induction n generalizing j with
  | zero => rfl
  | succ n ih => simp only [pk]; rw [← ih]; omega

theorem pk_sub {f g : Nat → Nat} (h : ∀ k, g k ≤ f k) (j n : Nat) :
    pk g j n ≤ pk f j n ∧ pk f j n - pk g j n = pk (fun k => f k - g k) j n := by
  induction n generalizing j with
  | zero => simp [pk]
  | succ n ih =>
    simp only [pk]
    have hi := ih (j + 1); have := h j
    rw [← hi.2]; omega

/-- bytes of a number -/
def byte (x j : Nat) : Nat := x / 256 ^ j % 256

theorem byte_lt (x j : Nat) : byte x j < 256 := Nat.mod_lt _ (by omega)

theorem pk_byte (x j n : Nat) : pk (byte x) j n = x / 256 ^ j % 256 ^ n := by
  induction n generalizing j with
  | zero => simp [pk, Nat.mod_one]
  | succ n ih =>
    simp only [pk, ih, byte]
    rw [Nat.pow_succ, Nat.pow_succ, ← Nat.div_div_eq_div_mul, Nat.mul_comm (256 ^ n) 256, Nat.mod_mul]

theorem pk_bytes {x : Nat} (hx : x < 2 ^ 64) : x = pk (byte x) 0 8 := by
  rw [pk_byte]; simp; omega

theorem pk_and {f g : Nat → Nat} (hf : ∀ k, f k < 256) (hg : ∀ k, g k < 256) (j n : Nat) :
    pk f j n &&& pk g j n = pk (fun k => f k &&& g k) j n := by
  induction n generalizing j with
  | zero => simp [pk]
  | succ n ih => simp only [pk]; rw [and_cat _ _ (hf j) (hg j), ih]

/-- shifting to the right by less than a byte moves the low bits of the next byte into the high bits of the byte -/
theorem pk_shr (f : Nat → Nat) {s : Nat} (hs : s ≤ 8) (j n : Nat) :
    pk f j n / 2 ^ s = pk (fun k => f k / 2 ^ s + 2 ^ (8 - s) * ((if k + 1 < j + n then f (k + 1) else 0) % 2 ^ s)) j n := by
  induction n generalizing j with
  | zero => simp [pk]
  | succ n ih =>
    have hpos : 0 < 2 ^ s := Nat.two_pow_pos s
    have h256 : 256 = 2 ^ s * 2 ^ (8 - s) := by rw [← Nat.pow_add, show s + (8 - s) = 8 by omega]
    have hB : pk f (j + 1) n % 2 ^ s = (if j + 1 < j + (n + 1) then f (j + 1) else 0) % 2 ^ s := by
      cases n with
      | zero => simp [pk]
      | succ n =>
        rw [if_pos (by omega)]; simp only [pk]
        rw [h256, Nat.mul_assoc, Nat.add_mul_mod_self_left]
    simp only [pk]
    rw [← hB]
    have e := ih (j + 1)
    have e' : pk (fun k => f k / 2 ^ s + 2 ^ (8 - s) * ((if k + 1 < j + (n + 1) then f (k + 1) else 0) % 2 ^ s)) (j + 1) n
        = pk f (j + 1) n / 2 ^ s := by
      rw [e]; apply pk_congr; intro k _ _; rw [show j + (n + 1) = j + 1 + n by omega]
    rw [e']
    have : (f j + 256 * pk f (j + 1) n) / 2 ^ s = f j / 2 ^ s + 2 ^ (8 - s) * pk f (j + 1) n := by
      rw [h256, Nat.mul_assoc, Nat.add_mul_div_left _ _ hpos]
    rw [this]
    generalize pk f (j + 1) n = B
    have hd := Nat.div_add_mod B (2 ^ s)
    calc f j / 2 ^ s + 2 ^ (8 - s) * B = f j / 2 ^ s + 2 ^ (8 - s) * (2 ^ s * (B / 2 ^ s) + B % 2 ^ s) := by rw [hd]
      _ = f j / 2 ^ s + 2 ^ (8 - s) * (B % 2 ^ s) + 256 * (B / 2 ^ s) := by
        rw [h256, Nat.mul_add, ← Nat.mul_assoc, Nat.mul_comm (2 ^ (8 - s)) (2 ^ s)]; omega

theorem testBit_pk {f : Nat → Nat} (hf : ∀ k, f k < 256) {j n k b : Nat} (hk : k < n) (hb : b < 8) :
    (pk f j n).testBit (8 * k + b) = (f (j + k)).testBit b := by
  induction n generalizing j k with
  | zero => omega
  | succ n ih =>
    simp only [pk]
    have e : ∀ u v : Nat, u + 256 * v = 2 ^ 8 * v + u := fun u v => by omega
    rw [e, Nat.testBit_two_pow_mul_add _ (hf j)]
    cases k with
    | zero => simp [hb]
    | succ k =>
      rw [if_neg (by omega), show 8 * (k + 1) + b - 8 = 8 * k + b by omega, ih (by omega),
        show j + 1 + k = j + (k + 1) by omega]

theorem pk_div {f : Nat → Nat} (hf : ∀ k, f k < 256) {j n k : Nat} (hk : k < n) :
    pk f j n / 256 ^ k % 256 = f (j + k) := by
  induction n generalizing j k with
  | zero => omega
  | succ n ih =>
    simp only [pk]
    cases k with
    | zero => have := hf j; simp; omega
    | succ k =>
      rw [Nat.pow_succ, Nat.mul_comm (256 ^ k) 256, ← Nat.div_div_eq_div_mul]
      have h1 : (f j + 256 * pk f (j + 1) n) / 256 = pk f (j + 1) n := by have := hf j; omega
      rw [h1, ih (by omega), show j + 1 + k = j + (k + 1) by omega]

/-! ## broadword version -/

/-- `ps_overflow[i]` has the bytes `128-i` -/
theorem psOverflow_eq : ∀ i, i ≤ 64 → tableAt psOverflow i = .ok (pk (fun _ => 128 - i) 0 8) := by
  have h : ∀ i, i < 65 → tableAt psOverflow i = .ok (pk (fun _ => 128 - i) 0 8) := by decide +kernel
  exact fun i hi => h i (by omega)

/-- what an entry of `lt_sel` has to satisfy -/
def ltOK (idx y : Nat) : Bool :=
  !decide (idx / 256 < rank (idx % 256).testBit 8) ||
    (decide (y < 8) && (idx % 256).testBit y && decide (rank (idx % 256).testBit y = idx / 256))

theorem ltSel_all : ltSel.length = 2048 ∧ (ltSel.zipIdx.all fun e => ltOK e.2 e.1) = true := by decide +kernel

/-- `lt_sel[k*256+v]` is the position of the `k`-th one in the byte `v` -/
theorem ltSel_spec {k v : Nat} (hv : v < 256) (hk : k < rank v.testBit 8) :
    ∃ r, tableAt ltSel (k * 256 + v) = .ok r ∧ r < 8 ∧ IsSelect v.testBit k r := by
  obtain ⟨hlen, hall⟩ := ltSel_all
  have h8 := rank_le v.testBit 8
  have hi : k * 256 + v < ltSel.length := by omega
  refine ⟨ltSel[k * 256 + v], ?_, ?_⟩
  · simp [tableAt, List.getElem?_eq_getElem hi]
  · rw [List.all_eq_true] at hall
    have hm : (ltSel[k * 256 + v], k * 256 + v) ∈ ltSel.zipIdx := by
      rw [List.mem_zipIdx_iff_getElem?]; exact List.getElem?_eq_getElem hi
    have := hall _ hm
    simp only [ltOK] at this
    rw [show (k * 256 + v) / 256 = k by omega, show (k * 256 + v) % 256 = v by omega] at this
    simp [hk] at this
    exact ⟨this.1.1, this.1.2, this.2⟩

theorem byte_testBit (x j : Nat) {b : Nat} (hb : b < 8) : (byte x j).testBit b = x.testBit (8 * j + b) := by
  unfold byte
  rw [show (256 : Nat) = 2 ^ 8 from rfl, Nat.testBit_mod_two_pow, ← Nat.pow_mul, ← Nat.shiftRight_eq_div_pow,
    Nat.testBit_shiftRight]
  simp [hb]

theorem rank_byte (x j : Nat) {r : Nat} (hr : r ≤ 8) :
    rank x.testBit (8 * j + r) = rank x.testBit (8 * j) + rank (byte x j).testBit r := by
  rw [rank_add]
  congr 1
  apply rank_congr
  intro i hi
  rw [byte_testBit x j (by omega)]

/-- the three steps of counting the ones of a byte -/
def g1 (a : Nat) : Nat := a - ((a / 2) &&& 0x55)
def g2 (a : Nat) : Nat := (g1 a &&& 0x33) + ((g1 a / 4) &&& 0x33)

theorem g1_facts : ∀ a, a < 256 → (∀ c, c < 2 → (a / 2 + 128 * c) &&& 0x55 = (a / 2) &&& 0x55) ∧
    (a / 2) &&& 0x55 ≤ a ∧ g1 a < 256 := by decide +kernel

theorem g2_facts : ∀ a, a < 256 → (∀ c, c < 4 → (g1 a / 4 + 64 * c) &&& 0x33 = (g1 a / 4) &&& 0x33) ∧
    g2 a ≤ 68 ∧ g2 a % 16 ≤ 4 ∧ (∀ c, c < 5 → (g2 a + (g2 a / 16 + 16 * c)) &&& 0x0F = rank a.testBit 8) ∧
    rank a.testBit 8 ≤ 8 := by decide +kernel

theorem step1 {x : Nat} (hx : x < 2 ^ 64) :
    sub64 x ((x >>> 1) &&& 0x5555555555555555) = pk (fun k => g1 (byte x k)) 0 8 := by
  have hm : (0x5555555555555555 : Nat) = pk (fun _ => 0x55) 0 8 := by decide
  have h1 : (x >>> 1) &&& 0x5555555555555555 = pk (fun k => (byte x k / 2) &&& 0x55) 0 8 := by
    conv => lhs; rw [pk_bytes hx]
    rw [Nat.shiftRight_eq_div_pow, pk_shr _ (by omega), hm, pk_and _ (fun _ => by omega)]
    · apply pk_congr
      intro k _ _
      exact (g1_facts _ (byte_lt x k)).1 _ (Nat.mod_lt _ (by omega))
    · intro k
      have := byte_lt x k
      omega
  rw [h1, sub64]
  obtain ⟨hle, hs⟩ := pk_sub (f := byte x) (g := fun k => (byte x k / 2) &&& 0x55)
    (fun k => (g1_facts _ (byte_lt x k)).2.1) 0 8
  rw [← pk_bytes hx] at hle hs
  have : x + W64 - pk (fun k => (byte x k / 2) &&& 0x55) 0 8 = pk (fun k => g1 (byte x k)) 0 8 + W64 := by
    simp only [g1]; rw [← hs]; omega
  rw [this, Nat.add_mod_right, Nat.mod_eq_of_lt]
  exact Nat.lt_of_lt_of_eq (pk_lt fun k => (g1_facts _ (byte_lt x k)).2.2) (by decide)

theorem step2 (x : Nat) :
    add64 (pk (fun k => g1 (byte x k)) 0 8 &&& 0x3333333333333333)
      ((pk (fun k => g1 (byte x k)) 0 8 >>> 2) &&& 0x3333333333333333) = pk (fun k => g2 (byte x k)) 0 8 := by
  have hm : (0x3333333333333333 : Nat) = pk (fun _ => 0x33) 0 8 := by decide
  have hg : ∀ k, g1 (byte x k) < 256 := fun k => (g1_facts _ (byte_lt x k)).2.2
  unfold add64
  rw [Nat.shiftRight_eq_div_pow, pk_shr _ (by omega), hm, pk_and hg (fun _ => by omega),
    pk_and _ (fun _ => by omega), pk_add]
  · rw [Nat.mod_eq_of_lt]
    · apply pk_congr
      intro k _ _
      simp only [g2]
      congr 1
      exact (g2_facts _ (byte_lt x k)).1 _ (Nat.mod_lt _ (by omega))
    · refine Nat.lt_of_lt_of_eq (pk_lt fun k => ?_) (show 256 ^ 8 = W64 by decide)
      rw [show g1 (byte x k) / 2 ^ 2 = g1 (byte x k) / 4 from rfl]
      have h1 := (g2_facts _ (byte_lt x k)).1 _ (Nat.mod_lt
        (if k + 1 < 0 + 8 then g1 (byte x (k + 1)) else 0) (show 4 > 0 by omega))
      have h2 := (g2_facts _ (byte_lt x k)).2.1
      simp only [g2] at h2
      show (g1 (byte x k) &&& 0x33) + ((g1 (byte x k) / 4 + 64 * _) &&& 0x33) < 256
      rw [h1]; omega
  · intro k
    have := hg k
    show g1 (byte x k) / 4 + 64 * (_ % 4) < 256
    omega

theorem step3 (x : Nat) :
    add64 (pk (fun k => g2 (byte x k)) 0 8) (pk (fun k => g2 (byte x k)) 0 8 >>> 4) &&& 0x0F0F0F0F0F0F0F0F =
      pk (fun k => rank (byte x k).testBit 8) 0 8 := by
  have hm : (0x0F0F0F0F0F0F0F0F : Nat) = pk (fun _ => 0x0F) 0 8 := by decide
  have hc : ∀ k, (if k + 1 < 0 + 8 then g2 (byte x (k + 1)) else 0) % 2 ^ 4 < 5 := by
    intro k
    have := (g2_facts _ (byte_lt x (k + 1))).2.2.1
    split <;> omega
  have hlt : ∀ k, g2 (byte x k) + (g2 (byte x k) / 2 ^ 4 +
      2 ^ (8 - 4) * ((if k + 1 < 0 + 8 then g2 (byte x (k + 1)) else 0) % 2 ^ 4)) < 256 := by
    intro k
    have := (g2_facts _ (byte_lt x k)).2.1
    have := hc k
    omega
  unfold add64
  rw [Nat.shiftRight_eq_div_pow, pk_shr _ (by omega), pk_add, Nat.mod_eq_of_lt, hm, pk_and hlt (fun _ => by omega)]
  · apply pk_congr
    intro k _ _
    exact (g2_facts _ (byte_lt x k)).2.2.2.1 _ (hc k)
  · exact Nat.lt_of_lt_of_eq (pk_lt hlt) (by decide)

/-- multiplication with `0x0101010101010101` computes prefix sums -/
theorem mul_prefix {c S : Nat → Nat} (h0 : S 0 = c 0) (hs : ∀ k, S (k + 1) = S k + c (k + 1))
    (hlt : ∀ k, S k < 256) : (0x0101010101010101 * pk c 0 8) % W64 = pk S 0 8 := by
  have hp := Nat.lt_of_lt_of_eq (pk_lt (j := 0) (n := 8) hlt) (show 256 ^ 8 = 18446744073709551616 by decide)
  have h1 := hs 0; have h2 := hs 1; have h3 := hs 2; have h4 := hs 3; have h5 := hs 4; have h6 := hs 5; have h7 := hs 6
  simp only [pk, Nat.zero_add, Nat.reduceAdd, Nat.mul_zero, Nat.add_zero] at *
  rw [show W64 = 18446744073709551616 from rfl]
  have e : 0x0101010101010101 * (c 0 + 256 * (c 1 + 256 * (c 2 + 256 * (c 3 + 256 * (c 4 + 256 * (c 5 + 256 * (c 6 +
      256 * c 7))))))) = S 0 + 256 * (S 1 + 256 * (S 2 + 256 * (S 3 + 256 * (S 4 + 256 * (S 5 + 256 * (S 6 +
      256 * S 7)))))) + 18446744073709551616 * ((c 1 + c 2 + c 3 + c 4 + c 5 + c 6 + c 7) +
      256 * ((c 2 + c 3 + c 4 + c 5 + c 6 + c 7) + 256 * ((c 3 + c 4 + c 5 + c 6 + c 7) + 256 * ((c 4 + c 5 + c 6 + c 7) +
      256 * ((c 5 + c 6 + c 7) + 256 * ((c 6 + c 7) + 256 * c 7)))))) := by omega
  rw [e, Nat.add_mul_mod_self_left, Nat.mod_eq_of_lt hp]

theorem byteSums_eq {x : Nat} (hx : x < 2 ^ 64) :
    byteSums x = (0x0101010101010101 * pk (fun k => rank (byte x k).testBit 8) 0 8) % W64 := by
  unfold byteSums
  simp only [step1 hx, step2, step3]

end SC
