import Verif.Compact.Store
import Verif.Bucket.VarwidthLemmas
/-! # The compact bucket storage is lawful -/
namespace SC

/-- the bucket holds the (quotient, value) pairs `xs` -/
structure CmpBRep (c : VarCfg) (qw vw : Nat) (x : CmpBucket) (xs : List (Nat × Nat)) : Prop where
  size : x.size = xs.length
  le : xs.length ≤ 255
  empty : xs = [] → x.stor = none
  stor : xs ≠ [] → ∃ m, x.stor = some m ∧ m.alloc = varBits c.sb xs.length (qw + vw) ∧
    ∀ i (h : i < xs.length), readBits m.bits (i * qw) qw = xs[i].1 ∧
      readBits m.bits (xs.length * qw + i * vw) vw = xs[i].2

/-- the storage holds the buckets `c` -/
structure CmpRep (c : VarCfg) (s : CmpStore) (d : Dim) (cont : Cont) : Prop where
  n : s.n = 2 ^ d.tb
  bkt : ∀ b < 2 ^ d.tb, CmpBRep c d.qw d.vw (s.bkt b) (cont b)

theorem cmpRead_eq {c : VarCfg} (hc : c.good) {m : Buf} {pos w : Nat} (hd : c.sb ∣ m.alloc) (hw : 0 < w)
    (h : pos + w ≤ m.alloc) : cmpRead c (some m) pos w = .ok (readBits m.bits pos w) := by
  unfold cmpRead deref
  simp only [ok_bind]
  rw [readInt_ok (acc_at hc hd hw h), pos_split]

theorem cmpWrite_eq {c : VarCfg} (hc : c.good) {m : Buf} {pos w v : Nat} (hd : c.sb ∣ m.alloc) (hw : 0 < w)
    (h : pos + w ≤ m.alloc) :
    cmpWrite c (some m) pos w v = .ok (some { m with bits := writeBits m.bits pos w v }) := by
  unfold cmpWrite deref
  simp only [ok_bind]
  rw [writeInt_ok (acc_at hc hd hw h), pos_split]
  rfl

/-- The loops of `erase` copy their area towards the front. -/
theorem cmpLoop_eq {c : VarCfg} (hc : c.good) {w : Nat} (hw : 0 < w) {src dst : Nat → Nat} :
    ∀ (n i R W : Nat) (m : Buf), c.sb ∣ m.alloc → (∀ j < n, src (i + j) = R + j * w ∧ dst (i + j) = W + j * w) →
    W ≤ R → R + n * w ≤ m.alloc →
    cmpLoop c w src dst i n (some m) = .ok (some { m with bits := copyBits m.bits W R (n * w) }) := by
  intro n
  induction n with
  | zero => intro i R W m _ _ _ _; simp [cmpLoop, copyBits_zero]
  | succ n ih =>
    intro i R W m hd hsd hle hal
    obtain ⟨h1, h2⟩ := hsd 0 (by omega)
    simp only [Nat.add_zero, Nat.zero_mul] at h1 h2
    rw [Nat.succ_mul] at hal
    simp only [cmpLoop, h1, h2]
    rw [cmpRead_eq hc hd hw (by omega), ok_bind, cmpWrite_eq hc hd hw (by omega), ok_bind, write_read_eq_copy]
    rw [ih (i + 1) (R + w) (W + w) { m with bits := copyBits m.bits W R w } hd ?_ (by omega) (by show _ ≤ m.alloc; omega)]
    · simp only
      rw [copyBits_up _ hle, Nat.succ_mul, Nat.add_comm]
    · intro j hj
      obtain ⟨h3, h4⟩ := hsd (j + 1) (by omega)
      rw [Nat.succ_mul] at h3 h4
      rw [show i + 1 + j = i + (j + 1) by omega, h3, h4]
      omega

/-- The loop of `enlarge_storage` copies its area towards the back. -/
theorem cmpShift_eq {c : VarCfg} (hc : c.good) {qw vw old new : Nat} (hw : 0 < vw) (hle : old * qw ≤ new * qw) :
    ∀ (n : Nat) (m : Buf), c.sb ∣ m.alloc → new * qw + n * vw ≤ m.alloc →
    cmpShift c qw vw old new n (some m) =
      .ok (some { m with bits := copyBits m.bits (new * qw) (old * qw) (n * vw) }) := by
  intro n
  induction n with
  | zero => intro m _ _; simp [cmpShift, copyBits_zero]
  | succ n ih =>
    intro m hd hal
    rw [Nat.succ_mul] at hal
    simp only [cmpShift]
    rw [cmpRead_eq hc hd hw (by omega), ok_bind, cmpWrite_eq hc hd hw (by omega), ok_bind, write_read_eq_copy]
    rw [ih { m with bits := copyBits m.bits (new * qw + n * vw) (old * qw + n * vw) vw } hd (by show _ ≤ m.alloc; omega)]
    simp only
    rw [copyBits_down _ hle, Nat.succ_mul]

variable {c : VarCfg} {d : Dim} {x : CmpBucket} {xs : List (Nat × Nat)}

theorem entry_room {i n qw vw : Nat} (h : i < n) :
    i * qw + qw ≤ n * qw ∧ i * vw + vw ≤ n * vw ∧ n * (qw + vw) = n * qw + n * vw :=
  ⟨idx_end h, idx_end h, Nat.mul_add _ _ _⟩

theorem cmp_quotientAt (hc : c.good) (hq : 1 ≤ d.qw) (h : CmpBRep c d.qw d.vw x xs) {i : Nat} (hi : i < xs.length) :
    x.quotientAt c d i = .ok xs[i].1 := by
  obtain ⟨m, h1, h2, h3⟩ := h.stor (List.ne_nil_of_length_pos (by omega))
  obtain ⟨r1, r2, r3⟩ := entry_room (qw := d.qw) (vw := d.vw) hi
  have hv := varBits_ge xs.length (d.qw + d.vw) hc.pos
  unfold CmpBucket.quotientAt
  rw [h1, cmpRead_eq hc (by rw [h2]; exact Nat.dvd_mul_right _ _) hq (by rw [h2]; omega), (h3 i hi).1]

theorem cmp_valueAt (hc : c.good) (hw : 1 ≤ d.vw) (h : CmpBRep c d.qw d.vw x xs) {i : Nat} (hi : i < xs.length) :
    x.valueAt c d i = .ok xs[i].2 := by
  obtain ⟨m, h1, h2, h3⟩ := h.stor (List.ne_nil_of_length_pos (by omega))
  obtain ⟨r1, r2, r3⟩ := entry_room (qw := d.qw) (vw := d.vw) hi
  have hv := varBits_ge xs.length (d.qw + d.vw) hc.pos
  unfold CmpBucket.valueAt
  rw [h1, h.size, cmpRead_eq hc (by rw [h2]; exact Nat.dvd_mul_right _ _) hw (by rw [h2]; omega), (h3 i hi).2]

theorem cmp_writeValue (hc : c.good) (hw : 1 ≤ d.vw) (h : CmpBRep c d.qw d.vw x xs) {i : Nat} (hi : i < xs.length) (v : Nat) :
    ∃ y, x.writeValue c d i v = .ok y ∧ CmpBRep c d.qw d.vw y (xs.set i (xs[i].1, v % 2 ^ d.vw)) := by
  have hne : xs ≠ [] := List.ne_nil_of_length_pos (by omega)
  obtain ⟨m, h1, h2, h3⟩ := h.stor hne
  obtain ⟨r1, r2, r3⟩ := entry_room (qw := d.qw) (vw := d.vw) hi
  have hv := varBits_ge xs.length (d.qw + d.vw) hc.pos
  unfold CmpBucket.writeValue
  rw [h1, h.size, cmpWrite_eq hc (by rw [h2]; exact Nat.dvd_mul_right _ _) hw (by rw [h2]; omega)]
  refine ⟨_, rfl, by simp, by simpa using h.le, ?_, ?_⟩
  · intro he
    exact absurd (by simpa using he) hne
  · intro _
    refine ⟨_, rfl, by simp only [List.length_set]; exact h2, ?_⟩
    intro j hj
    simp only [List.length_set] at hj ⊢
    obtain ⟨s1, s2, s3⟩ := entry_room (qw := d.qw) (vw := d.vw) hj
    rw [List.getElem_set]
    by_cases hij : i = j
    · subst hij
      rw [if_pos rfl, readBits_write_same, readBits_write_disjoint _ (.inl (by omega))]
      exact ⟨(h3 i hi).1, rfl⟩
    · rw [if_neg hij, readBits_write_disjoint _ (.inl (by omega)), readBits_write_disjoint]
      · exact h3 j hj
      · rcases entry_disjoint (w := d.vw) hij with h | h
        · right; omega
        · left; omega

/-- what `realloc_bucket` gives for a bucket that is not empty afterwards -/
theorem cmp_realloc (hc : c.good) {n : Nat} {b : VarB} (hq : 1 ≤ d.qw) {old : Nat} (hn : 1 ≤ n)
    (h0 : old = 0 → b = none) (h1 : old ≠ 0 → ∃ m, b = some m ∧ m.alloc = varBits c.sb old (d.qw + d.vw)) :
    ∃ m', CmpBucket.realloc c { stor := b, size := n } d old = { stor := some m', size := n } ∧
      m'.alloc = varBits c.sb n (d.qw + d.vw) ∧
      ∀ m, b = some m → ∀ i, i < old * (d.qw + d.vw) → i < n * (d.qw + d.vw) → m'.bits i = m.bits i := by
  have hpos : 0 < n * (d.qw + d.vw) := Nat.mul_pos (by omega) (by omega)
  have hcp : 0 < ceilDiv (n * (d.qw + d.vw)) c.sb := by
    have := ceilDiv_mul_ge (n * (d.qw + d.vw)) hc.pos
    rcases Nat.eq_zero_or_pos (ceilDiv (n * (d.qw + d.vw)) c.sb) with h | h
    · rw [h] at this; omega
    · exact h
  unfold CmpBucket.realloc
  simp only
  by_cases hne : ceilDiv (old * (d.qw + d.vw)) c.sb ≠ ceilDiv (n * (d.qw + d.vw)) c.sb
  · rw [if_pos hne, if_neg (by omega)]
    cases b with
    | none => exact ⟨_, rfl, rfl, by simp⟩
    | some m =>
      refine ⟨_, rfl, rfl, ?_⟩
      intro m' hm' i hi1 hi2
      cases hm'
      have ho : old ≠ 0 := by rintro rfl; simp at hi1
      obtain ⟨m'', e1, e2⟩ := h1 ho
      cases e1
      have g1 := varBits_ge old (d.qw + d.vw) hc.pos
      have g2 := varBits_ge n (d.qw + d.vw) hc.pos
      simp only [reallocBits]
      rw [if_pos (by omega)]
  · rw [if_neg hne]
    have heq : ceilDiv (old * (d.qw + d.vw)) c.sb = ceilDiv (n * (d.qw + d.vw)) c.sb := Decidable.not_not.mp hne
    have ho : old ≠ 0 := by
      rintro rfl
      rw [Nat.zero_mul] at heq
      have : ceilDiv 0 c.sb = 0 := by
        unfold ceilDiv
        have := hc.pos
        exact Nat.div_eq_of_lt (by omega)
      omega
    obtain ⟨m, rfl, e2⟩ := h1 ho
    refine ⟨m, rfl, ?_, ?_⟩
    · rw [e2]; unfold varBits; rw [heq]
    · intro m' hm' i _ _; cases hm'; rfl

theorem cmp_push (hc : c.good) (hq : 1 ≤ d.qw) (hw : 1 ≤ d.vw) (h : CmpBRep c d.qw d.vw x xs) (hlt : xs.length < 255)
    {q : Nat} (hq2 : q < 2 ^ d.qw) (v : Nat) :
    ∃ y, x.push c d q v = .ok y ∧ CmpBRep c d.qw d.vw y (xs ++ [(q, v % 2 ^ d.vw)]) := by
  have hsz : (x.size + 1) % 256 = xs.length + 1 := by rw [h.size]; omega
  obtain ⟨m1, e1, e2, e3⟩ := cmp_realloc (d := d) (n := xs.length + 1) (b := x.stor) hc hq (old := xs.length) (by omega)
    (fun h0 => h.empty (List.eq_nil_of_length_eq_zero h0))
    (fun h0 => by
      obtain ⟨m, g1, g2, _⟩ := h.stor (by rintro rfl; simp at h0)
      exact ⟨m, g1, g2⟩)
  have hv := varBits_ge (xs.length + 1) (d.qw + d.vw) hc.pos
  have hd : c.sb ∣ m1.alloc := by rw [e2]; exact Nat.dvd_mul_right _ _
  have hlen : (xs.length + 1) * (d.qw + d.vw) = xs.length * d.qw + d.qw + (xs.length * d.vw + d.vw) := by
    rw [Nat.mul_add, Nat.succ_mul, Nat.succ_mul]
  have hqs : (xs.length + 1) * d.qw = xs.length * d.qw + d.qw := Nat.succ_mul _ _
  have henl : x.enlarge c d = .ok ⟨some { m1 with
      bits := copyBits m1.bits ((xs.length + 1) * d.qw) (xs.length * d.qw) (xs.length * d.vw) }, xs.length + 1⟩ := by
    unfold CmpBucket.enlarge
    rw [h.size] at hsz ⊢
    simp only [hsz, Nat.add_sub_cancel]
    rw [e1]
    simp only
    rw [cmpShift_eq hc hw (by omega) _ _ hd (by omega)]
    rfl
  unfold CmpBucket.push CmpBucket.writeQuotient CmpBucket.writeValue
  rw [henl]
  simp only [ok_bind, h.size]
  rw [cmpWrite_eq hc (by exact hd) hq (by show _ ≤ m1.alloc; omega)]
  simp only [ok_bind, pure_eq_ok]
  rw [cmpWrite_eq hc (by exact hd) hw (by show _ ≤ m1.alloc; omega)]
  refine ⟨_, rfl, by simp, by simp; omega, by simp, ?_⟩
  intro _
  refine ⟨_, rfl, by simp only [List.length_append, List.length_singleton]; exact e2, ?_⟩
  intro i hi
  simp only [List.length_append, List.length_singleton] at hi ⊢
  rw [List.getElem_append]
  by_cases hi' : i < xs.length
  · rw [dif_pos hi']
    obtain ⟨m, g1, g2, g3⟩ := h.stor (List.ne_nil_of_length_pos (by omega))
    obtain ⟨r1, r2, r3⟩ := entry_room (qw := d.qw) (vw := d.vw) hi'
    rw [← (g3 i hi').1, ← (g3 i hi').2]
    rw [readBits_write_disjoint _ (.inl (by omega)), readBits_write_disjoint _ (.inl (by omega)),
      readBits_write_disjoint _ (.inl (by omega)), readBits_write_disjoint _ (.inr (by omega))]
    constructor
    · apply readBits_congr
      intro j hj
      simp only [copyBits]
      rw [if_neg (by omega), e3 m g1 _ (by omega) (by omega)]
    · apply readBits_congr
      intro j hj
      simp only [copyBits]
      rw [if_pos (by omega), e3 m g1 _ (by omega) (by omega)]
      congr 1; omega
  · have : i = xs.length := by omega
    subst this
    rw [dif_neg hi']
    simp only [Nat.sub_self, List.getElem_cons_zero]
    rw [readBits_write_same, readBits_write_disjoint _ (.inl (by omega)), readBits_write_same, Nat.mod_eq_of_lt hq2]
    exact ⟨rfl, rfl⟩

theorem cmp_erase (hc : c.good) (hq : 1 ≤ d.qw) (hw : 1 ≤ d.vw) (h : CmpBRep c d.qw d.vw x xs) {p : Nat}
    (hp : p < xs.length) : ∃ y, x.erase c d p = .ok y ∧ CmpBRep c d.qw d.vw y (xs.eraseIdx p) := by
  obtain ⟨m, h1, h2, h3⟩ := h.stor (List.ne_nil_of_length_pos (by omega))
  have hle := h.le
  have hv := varBits_ge xs.length (d.qw + d.vw) hc.pos
  have hd : c.sb ∣ m.alloc := by rw [h2]; exact Nat.dvd_mul_right _ _
  have hsz : (x.size + 255) % 256 = xs.length - 1 := by rw [h.size]; omega
  obtain ⟨k, hk⟩ : ∃ k, xs.length = k + 1 := ⟨xs.length - 1, by omega⟩
  have hks : xs.length - 1 = k := by omega
  have hkp : xs.length - (p + 1) = k - p := by omega
  have hA : (k + 1) * (d.qw + d.vw) = k * d.qw + d.qw + (k * d.vw + d.vw) := by
    rw [Nat.mul_add, Nat.succ_mul, Nat.succ_mul]
  have hB : (k + 1) * d.qw = k * d.qw + d.qw := Nat.succ_mul _ _
  have hC : (p + 1) * d.qw = p * d.qw + d.qw := Nat.succ_mul _ _
  have hD : (p + 1) * d.vw = p * d.vw + d.vw := Nat.succ_mul _ _
  have hE : p * d.qw + (k - p) * d.qw = k * d.qw := by rw [← Nat.add_mul]; congr 1; omega
  have hF : p * d.vw + (k - p) * d.vw = k * d.vw := by rw [← Nat.add_mul]; congr 1; omega
  have hN : xs.length * d.qw = (k + 1) * d.qw := by rw [hk]
  rw [hk] at hv
  have hal : m.alloc = varBits c.sb (k + 1) (d.qw + d.vw) := by rw [h2, hk]
  unfold CmpBucket.erase
  rw [hsz, h.size, h1, hks, hkp, hk]
  rw [cmpLoop_eq hc hq (k - p) (p + 1) ((p + 1) * d.qw) (p * d.qw) m hd
    (by
      intro j _
      refine ⟨by rw [Nat.add_mul (p + 1)], ?_⟩
      rw [show p + 1 + j - 1 = p + j by omega, Nat.add_mul])
    (by omega) (by omega)]
  simp only [ok_bind]
  rw [cmpLoop_eq hc hw p 0 ((k + 1) * d.qw) (k * d.qw) _ (by exact hd) (by intro j _; simp) (by omega) (by show _ ≤ m.alloc; omega)]
  simp only [ok_bind]
  rw [cmpLoop_eq hc hw (k - p) (p + 1) ((k + 1) * d.qw + (p + 1) * d.vw) (k * d.qw + p * d.vw) _ (by exact hd)
    (by
      intro j _
      refine ⟨by rw [Nat.add_mul (p + 1)]; omega, ?_⟩
      rw [show p + 1 + j - 1 = p + j by omega, Nat.add_mul]; omega)
    (by omega) (by show _ ≤ m.alloc; omega)]
  simp only [ok_bind, pure_eq_ok]
  generalize hm3 : ({ alloc := m.alloc, bits := _ } : Buf) = m3
  have hal3 : m3.alloc = varBits c.sb (k + 1) (d.qw + d.vw) := by rw [← hm3]; exact hal
  have hlen : (xs.eraseIdx p).length = k := by rw [List.length_eraseIdx_of_lt hp]; omega
  -- what can be read afterwards
  have hread : ∀ i, (hi : i < k) → readBits m3.bits (i * d.qw) d.qw = ((xs.eraseIdx p)[i]'(by omega)).1 ∧
      readBits m3.bits (k * d.qw + i * d.vw) d.vw = ((xs.eraseIdx p)[i]'(by omega)).2 := by
    intro i hi
    obtain ⟨r1, r2, r3⟩ := entry_room (qw := d.qw) (vw := d.vw) hi
    rw [List.getElem_eraseIdx]
    by_cases hip : i < p
    · rw [dif_pos hip]
      obtain ⟨s1, s2, s3⟩ := entry_room (qw := d.qw) (vw := d.vw) hip
      have := h3 i (by omega)
      rw [← this.1, ← this.2, ← hm3]
      constructor
      · apply readBits_congr
        intro j hj
        simp only [copyBits]
        rw [if_neg (by omega), if_neg (by omega), if_neg (by omega)]
      · apply readBits_congr
        intro j hj
        simp only [copyBits]
        rw [if_neg (by omega), if_pos (by omega), if_neg (by omega)]
        congr 1; omega
    · rw [dif_neg hip]
      have := h3 (i + 1) (by omega)
      rw [← this.1, ← this.2, ← hm3]
      have t1 : p * d.qw ≤ i * d.qw := Nat.mul_le_mul_right _ (by omega)
      have t2 : p * d.vw ≤ i * d.vw := Nat.mul_le_mul_right _ (by omega)
      have t3 : (i + 1) * d.qw = i * d.qw + d.qw := Nat.succ_mul _ _
      have t4 : (i + 1) * d.vw = i * d.vw + d.vw := Nat.succ_mul _ _
      constructor
      · apply readBits_congr
        intro j hj
        simp only [copyBits]
        rw [if_neg (by omega), if_neg (by omega), if_pos (by omega)]
        congr 1; omega
      · apply readBits_congr
        intro j hj
        simp only [copyBits]
        rw [if_pos (by omega), if_neg (by omega), if_neg (by omega)]
        congr 1; omega
  by_cases hk0 : k = 0
  · subst hk0
    have he : xs.eraseIdx p = [] := List.eq_nil_of_length_eq_zero hlen
    refine ⟨_, rfl, ?_⟩
    have hr : (CmpBucket.realloc c { stor := some m3, size := 0 } d (0 + 1)).size = 0 := by
      unfold CmpBucket.realloc
      simp only
      split
      · split <;> rfl
      · rfl
    rw [if_pos hr, he]
    exact ⟨rfl, by simp, fun _ => rfl, fun h => absurd rfl h⟩
  · obtain ⟨m4, g1, g2, g3⟩ := cmp_realloc (d := d) (n := k) (b := some m3) hc hq (old := k + 1) (by omega) (by omega)
      (fun _ => ⟨m3, rfl, hal3⟩)
    rw [g1]
    refine ⟨_, rfl, ?_⟩
    rw [if_neg hk0]
    refine ⟨hlen.symm, by omega, by intro he; rw [he] at hlen; simp at hlen; omega, ?_⟩
    intro _
    refine ⟨m4, rfl, by rw [hlen]; exact g2, ?_⟩
    intro i hi
    rw [hlen] at hi
    obtain ⟨r1, r2, r3⟩ := entry_room (qw := d.qw) (vw := d.vw) hi
    rw [← (hread i hi).1, ← (hread i hi).2, hlen]
    constructor
    · apply readBits_congr
      intro j hj
      exact g3 m3 rfl _ (by omega) (by omega)
    · apply readBits_congr
      intro j hj
      exact g3 m3 rfl _ (by omega) (by omega)

theorem cmp_locate (hc : c.good) (hq : 1 ≤ d.qw) (h : CmpBRep c d.qw d.vw x xs) (q : Nat) :
    ∀ (n i : Nat), i + n = xs.length → CmpBucket.locate c x d q i n =
      .ok (if q ∈ (xs.drop i).map Prod.fst then i + ((xs.drop i).map Prod.fst).idxOf q else NPOS) := by
  intro n
  induction n with
  | zero =>
    intro i hi
    rw [List.drop_of_length_le (by omega)]
    simp [CmpBucket.locate]
  | succ n ih =>
    intro i hi
    have hlt : i < xs.length := by omega
    simp only [CmpBucket.locate]
    rw [cmp_quotientAt hc hq h hlt, List.drop_eq_getElem_cons hlt]
    simp only [ok_bind, List.map_cons]
    by_cases he : xs[i].1 = q
    · rw [if_pos he]
      simp [he]
    · rw [if_neg he, ih (i + 1) (by omega)]
      by_cases hm : q ∈ (xs.drop (i + 1)).map Prod.fst
      · rw [if_pos hm, if_pos (List.mem_cons_of_mem _ hm), List.idxOf_cons, beq_eq_false_iff_ne.mpr he]
        simp; omega
      · rw [if_neg hm, if_neg]
        intro hm'
        rcases List.mem_cons.mp hm' with h | h
        · exact he h.symm
        · exact hm h

theorem CmpRep.get {s : CmpStore} {cont : Cont} (h : CmpRep c s d cont) {b : Nat} (hb : b < 2 ^ d.tb) :
    s.get b = .ok (s.bkt b) := by
  unfold CmpStore.get; rw [h.n, if_pos hb]

theorem CmpRep.set {s : CmpStore} {cont : Cont} (h : CmpRep c s d cont) {b : Nat} {y : CmpBucket} {ys : List (Nat × Nat)}
    (hy : CmpBRep c d.qw d.vw y ys) : CmpRep c (s.set b y) d (upd cont b ys) where
  n := h.n
  bkt := by
    intro b' hb'
    show CmpBRep c d.qw d.vw (upd s.bkt b y b') _
    by_cases hbb : b' = b
    · subst hbb; rw [upd_same, upd_same]; exact hy
    · rw [upd_other _ _ hbb, upd_other _ _ hbb]; exact h.bkt b' hb'

theorem lawful_cmp (hc : c.good) : LawfulStore (cmpOps c) (fun w v => v % 2 ^ w) (CmpRep c) 255 1 64 where
  alloc := fun d => ⟨_, rfl, fun _ _ => ⟨rfl, fun _ _ => ⟨rfl, by simp, fun _ => rfl, fun h => absurd rfl h⟩⟩⟩
  size := by
    intro s d cont b _ h hb
    simp only [cmpOps, h.get hb, ok_bind, pure_eq_ok, (h.bkt b hb).size]
  locate := by
    intro s d cont b q hd h hb _
    simp only [cmpOps, h.get hb, ok_bind]
    rw [(h.bkt b hb).size, cmp_locate hc hd.qw_pos (h.bkt b hb) q _ 0 (by omega), List.drop_zero, Nat.zero_add]
    rfl
  full := by
    intro s d cont b _ h hb
    refine ⟨_, by simp only [cmpOps, h.get hb, ok_bind, pure_eq_ok]; rfl, ?_⟩
    intro hf
    have hf : (s.bkt b).size = 255 := by simpa using hf
    refine ⟨[b], by simp, by simp, by simp, by simpa using hb, ?_⟩
    rw [(h.bkt b hb).size] at hf
    simp; omega
  push := by
    intro s d cont b q v hd h hb hq hf _
    have hB := h.bkt b hb
    have hlt : (cont b).length < 255 := by
      simp only [cmpOps, h.get hb, ok_bind, pure_eq_ok, Except.ok.injEq, beq_eq_false_iff_ne] at hf
      have := hB.le
      have := hB.size
      omega
    obtain ⟨y, h1, h2⟩ := cmp_push hc hd.qw_pos hd.vw_pos hB hlt hq v
    exact ⟨_, by simp only [cmpOps, h.get hb, ok_bind, h1, pure_eq_ok], h.set h2⟩
  quotientAt := by
    intro s d cont b i hd h hb hi
    simp only [cmpOps, h.get hb, ok_bind]
    exact cmp_quotientAt hc hd.qw_pos (h.bkt b hb) hi
  valueAt := by
    intro s d cont b i hd h hb hi
    simp only [cmpOps, h.get hb, ok_bind]
    exact cmp_valueAt hc hd.vw_pos (h.bkt b hb) hi
  writeValue := by
    intro s d cont b i v hd h hb hi _
    obtain ⟨y, h1, h2⟩ := cmp_writeValue hc hd.vw_pos (h.bkt b hb) hi v
    exact ⟨_, by simp only [cmpOps, h.get hb, ok_bind, h1, pure_eq_ok], h.set h2⟩
  eraseAt := by
    intro s d cont b i hd h hb hi
    obtain ⟨y, h1, h2⟩ := cmp_erase hc hd.qw_pos hd.vw_pos (h.bkt b hb) hi
    exact ⟨_, by simp only [cmpOps, h.get hb, ok_bind, h1, pure_eq_ok], h.set h2⟩
  shrink := fun s d cont b _ h _ => ⟨s, rfl, h⟩
  len := by
    intro s d cont b _ h hb
    have := (h.bkt b hb).le
    have : (255 : Nat) < NPOS := by decide
    omega

end SC
