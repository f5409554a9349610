import Verif.Bits.Lemmas
import Verif.Bucket.Varwidth
import Verif.Bucket.PlainLemmas
/-! # Variable-width buckets are lawful -/
namespace SC

theorem ceilDiv_mul_ge (a : Nat) {b : Nat} (hb : 0 < b) : a ≤ b * ceilDiv a b := by
  unfold ceilDiv
  have := Nat.div_add_mod (a + b - 1) b
  have := Nat.mod_lt (a + b - 1) hb
  omega

theorem ceilDiv_le_of {a b c : Nat} (hb : 0 < b) (h : a ≤ b * c) : ceilDiv a b ≤ c := by
  unfold ceilDiv
  have : a + b - 1 < b * (c + 1) := by rw [Nat.mul_succ]; omega
  exact Nat.le_of_lt_succ (Nat.div_lt_of_lt_mul this)

theorem ceilDiv_mono {a a' b : Nat} (h : a ≤ a') : ceilDiv a b ≤ ceilDiv a' b :=
  Nat.div_le_div_right (by omega)

theorem varBits_ge (n w : Nat) {sb : Nat} (h : 0 < sb) : n * w ≤ varBits sb n w := ceilDiv_mul_ge _ h

/-- legal block sizes; in strict mode only 64-bit blocks are covered -/
def VarCfg.good (c : VarCfg) : Prop :=
  (c.sb = 8 ∨ c.sb = 16 ∨ c.sb = 32 ∨ c.sb = 64) ∧ (c.strict = false ∨ c.sb = 64)

theorem VarCfg.good.pos {c : VarCfg} (h : c.good) : 0 < c.sb := by
  rcases h.1 with h | h | h | h <;> omega

/-- Abstraction of variable-width buckets. -/
def VarRep (c : VarCfg) (b : VarB) (w cap : Nat) (xs : List Nat) : Prop :=
  ∃ m : Buf, b = some m ∧ c.sb ∣ m.alloc ∧ cap * w ≤ m.alloc ∧ xs.length ≤ cap ∧
    ∀ i (h : i < xs.length), readBits m.bits (i * w) w = xs[i]

theorem acc_at {c : VarCfg} (hc : c.good) {alloc pos len : Nat} (hd : c.sb ∣ alloc) (hlen : 0 < len)
    (h : pos + len ≤ alloc) : Acc c.strict alloc (pos / c.sb * c.sb) (pos % c.sb) len := by
  rcases hc.2 with h1 | h1
  · exact Or.inl h1
  · right
    rw [h1] at hd ⊢
    have := Nat.div_add_mod pos 64
    refine ⟨Nat.dvd_mul_left _ _, hd, Nat.mod_lt _ (by decide), hlen, by omega⟩

theorem pos_split (pos sb : Nat) : pos / sb * sb + pos % sb = pos := by
  have := Nat.div_add_mod pos sb
  rw [Nat.mul_comm] at this; omega

theorem idx_end {i n w : Nat} (h : i < n) : i * w + w ≤ n * w := by
  have : (i + 1) * w ≤ n * w := Nat.mul_le_mul_right _ h
  rw [Nat.succ_mul] at this; exact this

theorem varWrite_eq {c : VarCfg} (hc : c.good) {m : Buf} {i x w : Nat} (hd : c.sb ∣ m.alloc) (hw : 0 < w)
    (h : i * w + w ≤ m.alloc) :
    varWrite c (some m) i x w = .ok (some { m with bits := writeBits m.bits (i * w) w x }) := by
  unfold varWrite deref
  simp only [ok_bind]
  rw [writeInt_ok (acc_at hc hd hw h), pos_split]
  rfl

theorem varRead_eq {c : VarCfg} (hc : c.good) {m : Buf} {i w : Nat} (hd : c.sb ∣ m.alloc) (hw : 0 < w)
    (h : i * w + w ≤ m.alloc) :
    varRead c (some m) i w = .ok (readBits m.bits (i * w) w) := by
  unfold varRead deref
  simp only [ok_bind]
  rw [readInt_ok (acc_at hc hd hw h), pos_split]

theorem entry_disjoint {i j w : Nat} (h : i ≠ j) : i * w + w ≤ j * w ∨ j * w + w ≤ i * w := by
  rcases Nat.lt_or_gt_of_ne h with h | h
  · exact Or.inl (idx_end h)
  · exact Or.inr (idx_end h)

theorem firstEntry_eq (m : Bits) (w key : Nat) (ys : List Nat) : ∀ (i : Nat),
    (∀ j (h : j < ys.length), readBits m ((i + j) * w) w = ys[j]) →
    firstEntry m w key i ys.length = if key ∈ ys then some (i + ys.idxOf key) else none := by
  induction ys with
  | nil => intro i _; rfl
  | cons y ys ih =>
    intro i h
    have h0 := h 0 (by simp)
    simp only [Nat.add_zero, List.getElem_cons_zero] at h0
    simp only [List.length_cons, firstEntry, h0]
    by_cases hy : y = key
    · subst hy; simp
    · rw [if_neg hy, ih (i + 1) ?_]
      · by_cases hk : key ∈ ys
        · simp [hk, List.idxOf_cons, beq_eq_false_iff_ne.mpr hy]; omega
        · simp [hk, show ¬ key = y from fun e => hy e.symm]
      · intro j hj
        have := h (j + 1) (by simpa using hj)
        simp only [List.getElem_cons_succ] at this
        rw [← this]; congr 2; omega

theorem varScan_eq {c : VarCfg} {m : Buf} (key : Nat) {w : Nat} (hw : 0 < w) (hw64 : w ≤ 64) (ys : List Nat) :
    ∀ (i : Nat) (cur : Cursor), cur.base + cur.off = i * w →
    (ys ≠ [] → Acc c.strict m.alloc cur.base cur.off (ys.length * w)) →
    (∀ j (h : j < ys.length), readBits m.bits ((i + j) * w) w = ys[j]) →
    varScan c m key w i cur ys.length = .ok (if key ∈ ys then i + ys.idxOf key else NPOS) := by
  induction ys with
  | nil => intro i cur _ _ _; simp [varScan]
  | cons y ys ih =>
    intro i cur hcur hacc h
    have h0 := h 0 (by simp)
    simp only [Nat.add_zero, List.getElem_cons_zero] at h0
    have hA := hacc (by simp)
    simp only [List.length_cons, Nat.succ_mul] at hA
    simp only [List.length_cons, varScan, readIntAndMove]
    rw [readInt_ok (hA.mono hw (by omega)), hcur, h0]
    simp only [ok_bind, pure_eq_ok]
    by_cases hy : y = key
    · subst hy; simp
    · rw [if_neg hy, ih (i + 1) _ ?_ ?_ ?_]
      · by_cases hk : key ∈ ys
        · simp [hk, List.idxOf_cons, beq_eq_false_iff_ne.mpr hy]; omega
        · simp [hk, show ¬ key = y from fun e => hy e.symm]
      · rw [advance_pos, hcur, Nat.succ_mul]
      · intro hne
        apply advance_acc hw64
        · exact Nat.mul_pos (List.length_pos_iff.mpr hne) hw
        · rw [Nat.add_comm]; exact hA
      · intro j hj
        have := h (j + 1) (by simpa using hj)
        simp only [List.getElem_cons_succ] at this
        rw [← this]; congr 2; omega

theorem varFind_eq {c : VarCfg} (hc : c.good) {b : VarB} {w cap : Nat} {xs : List Nat} (hw : 1 ≤ w) (hw64 : w ≤ 64)
    (h : VarRep c b w cap xs) (key : Nat) : varFind c b key xs.length w = .ok (posOf xs key) := by
  obtain ⟨m, rfl, hd, hcap, hlen, hx⟩ := h
  have hle : xs.length * w ≤ m.alloc := Nat.le_trans (Nat.mul_le_mul_right _ hlen) hcap
  unfold varFind
  by_cases h1 : xs.length > 0 ∧ w < 64
  · rw [if_pos h1]
    unfold deref broadsearch
    simp only [ok_bind]
    rw [guardB_ok]
    · simp only [ok_bind, pure_eq_ok]
      rw [firstEntry_eq m.bits w key xs 0 (by simpa using hx)]
      unfold posOf
      split <;> simp
    · rcases hc.2 with h2 | h2
      · exact Or.inl h2
      · right
        rw [h2] at hd
        obtain ⟨k, hk⟩ := hd
        rw [hk] at hle ⊢
        exact Nat.mul_le_mul_left _ (ceilDiv_le_of (by decide) hle)
  · rw [if_neg h1]
    by_cases h2 : xs.length = 0
    · rw [if_pos h2, List.length_eq_zero_iff.mp h2, posOf_nil]
    · rw [if_neg h2]
      unfold deref
      simp only [ok_bind]
      rw [varScan_eq key hw hw64 xs 0 ⟨0, 0⟩ (by simp) ?_ (by simpa using hx)]
      · simp [posOf]
      · intro _
        have := acc_at hc (pos := 0) hd (Nat.mul_pos (by omega : 0 < xs.length) hw) (by simpa using hle)
        simpa using this

theorem moveChunks_eq {st : Bool} (n : Nat) : ∀ (m : Buf) (rd wr : Cursor),
    wr.base + wr.off ≤ rd.base + rd.off →
    (0 < n → Acc st m.alloc rd.base rd.off (n * 64)) → (0 < n → Acc st m.alloc wr.base wr.off (n * 64)) →
    ∃ rd' wr', moveChunks st m rd wr n =
      .ok ({ m with bits := copyBits m.bits (wr.base + wr.off) (rd.base + rd.off) (n * 64) }, rd', wr') ∧
      rd'.base + rd'.off = rd.base + rd.off + n * 64 ∧ wr'.base + wr'.off = wr.base + wr.off + n * 64 ∧
      (∀ k, 0 < k → Acc st m.alloc rd.base rd.off (n * 64 + k) → Acc st m.alloc rd'.base rd'.off k) ∧
      (∀ k, 0 < k → Acc st m.alloc wr.base wr.off (n * 64 + k) → Acc st m.alloc wr'.base wr'.off k) := by
  induction n with
  | zero =>
    intro m rd wr _ _ _
    exact ⟨rd, wr, by simp [moveChunks, copyBits_zero], by simp, by simp, by simp, by simp⟩
  | succ n ih =>
    intro m rd wr hle hr hw
    have hr := hr (by omega)
    have hw := hw (by omega)
    simp only [moveChunks, readIntAndMove, writeIntAndMove]
    rw [readInt_ok (hr.mono (by decide) (by omega))]
    simp only [ok_bind, pure_eq_ok]
    rw [writeInt_ok (hw.mono (by decide) (by omega))]
    simp only [ok_bind]
    rw [write_read_eq_copy]
    obtain ⟨rd', wr', h1, h2, h3, h4, h5⟩ := ih { m with bits := copyBits m.bits (wr.base + wr.off) (rd.base + rd.off) 64 }
      (rd.advance 64) (wr.advance 64) (by rw [advance_pos, advance_pos]; omega)
      (fun hn => advance_acc (by decide) (by omega) (by rw [show 64 + n * 64 = (n + 1) * 64 by omega]; exact hr))
      (fun hn => advance_acc (by decide) (by omega) (by rw [show 64 + n * 64 = (n + 1) * 64 by omega]; exact hw))
    refine ⟨rd', wr', ?_, ?_, ?_, ?_, ?_⟩
    · rw [h1]
      simp only [advance_pos]
      rw [copyBits_up _ hle, show 64 + n * 64 = (n + 1) * 64 by omega]
    · rw [h2, advance_pos]; omega
    · rw [h3, advance_pos]; omega
    · intro k hk ha
      apply h4 k hk
      apply advance_acc (by decide) (by omega)
      rw [show 64 + (n * 64 + k) = (n + 1) * 64 + k by omega]; exact ha
    · intro k hk ha
      apply h5 k hk
      apply advance_acc (by decide) (by omega)
      rw [show 64 + (n * 64 + k) = (n + 1) * 64 + k by omega]; exact ha

/-- Moving `nbits` bits towards the front in 64-bit chunks copies them, although the areas overlap. -/
theorem moveBits_eq {st : Bool} {m : Buf} {rd wr : Cursor} {nbits : Nat} (hle : wr.base + wr.off ≤ rd.base + rd.off)
    (hr : 0 < nbits → Acc st m.alloc rd.base rd.off nbits) (hw : 0 < nbits → Acc st m.alloc wr.base wr.off nbits) :
    moveBits st m rd wr nbits =
      .ok { m with bits := copyBits m.bits (wr.base + wr.off) (rd.base + rd.off) nbits } := by
  have hdm := Nat.div_add_mod nbits 64
  obtain ⟨rd', wr', h1, h2, h3, h4, h5⟩ := moveChunks_eq (st := st) (nbits / 64) m rd wr hle
    (fun h => (hr (by omega)).mono (by omega) (by omega)) (fun h => (hw (by omega)).mono (by omega) (by omega))
  unfold moveBits
  rw [h1]
  simp only [ok_bind]
  by_cases hrem : nbits - nbits / 64 * 64 > 0
  · rw [if_pos hrem]
    have ar := h4 (nbits - nbits / 64 * 64) hrem (by
      rw [show nbits / 64 * 64 + (nbits - nbits / 64 * 64) = nbits by omega]; exact hr (by omega))
    have aw := h5 (nbits - nbits / 64 * 64) hrem (by
      rw [show nbits / 64 * 64 + (nbits - nbits / 64 * 64) = nbits by omega]; exact hw (by omega))
    simp only [readIntAndMove, writeIntAndMove]
    rw [readInt_ok (by exact ar)]
    simp only [ok_bind, pure_eq_ok]
    rw [writeInt_ok (by exact aw)]
    simp only [ok_bind]
    rw [write_read_eq_copy, h2, h3, copyBits_up _ hle]
    congr 3; omega
  · rw [if_neg hrem]
    simp only [pure_eq_ok]
    congr 3; omega

theorem varErase_eq {c : VarCfg} (hc : c.good) {m : Buf} {pos len w : Nat} (hd : c.sb ∣ m.alloc) (hw : 0 < w)
    (hp : pos < len) (hroom : c.strict = false ∨ (len + 1) * w ≤ m.alloc) :
    varErase c (some m) pos len w =
      .ok (some { m with bits := copyBits m.bits (pos * w) ((pos + 1) * w) ((len - pos) * w) }) := by
  unfold varErase deref
  simp only [ok_bind]
  have hpos : 0 < (len - pos) * w := Nat.mul_pos (by omega) hw
  have e : (pos + 1) * w + (len - pos) * w = (len + 1) * w := by rw [← Nat.add_mul]; congr 1; omega
  have e2 : pos * w + (len - pos) * w = len * w := by rw [← Nat.add_mul]; congr 1; omega
  rw [moveBits_eq]
  · simp only [pos_split, ok_bind, pure_eq_ok]
  · simp only [pos_split]; exact Nat.mul_le_mul_right _ (by omega)
  · intro _
    rcases hroom with h | h
    · exact Or.inl h
    · exact acc_at hc hd hpos (by omega)
  · intro _
    rcases hroom with h | h
    · exact Or.inl h
    · exact acc_at hc hd hpos (by rw [e2]; rw [Nat.succ_mul] at h; omega)

theorem read_after_erase {m : Bits} {w len p i : Nat} (hi : i < len - 1) (hp : p < len) :
    readBits (copyBits m (p * w) ((p + 1) * w) ((len - p) * w)) (i * w) w
      = if i < p then readBits m (i * w) w else readBits m ((i + 1) * w) w := by
  by_cases h : i < p
  · rw [if_pos h]
    apply readBits_congr
    intro j hj
    have := idx_end (w := w) h
    simp only [copyBits]
    rw [if_neg (by omega)]
  · rw [if_neg h]
    apply readBits_congr
    intro j hj
    have h1 : p * w ≤ i * w := Nat.mul_le_mul_right _ (by omega)
    have h2 := idx_end (w := w) (show i < len by omega)
    have e2 : p * w + (len - p) * w = len * w := by rw [← Nat.add_mul]; congr 1; omega
    simp only [copyBits]
    rw [if_pos (by omega)]
    congr 1
    simp only [Nat.succ_mul]; omega

theorem varErase_rep {c : VarCfg} (hc : c.good) {b : VarB} {w cap : Nat} {xs : List Nat} {p : Nat} (hw : 1 ≤ w)
    (h : VarRep c b w cap xs) (hp : p < xs.length)
    (hroom : c.strict = false ∨ xs.length < cap) :
    ∃ b', varErase c b p xs.length w = .ok b' ∧ VarRep c b' w cap (xs.eraseIdx p) := by
  obtain ⟨m, rfl, hd, hcap, hlen, hx⟩ := h
  refine ⟨_, varErase_eq hc hd hw hp ?_, _, rfl, hd, hcap, ?_, ?_⟩
  · rcases hroom with h | h
    · exact Or.inl h
    · exact Or.inr (Nat.le_trans (Nat.mul_le_mul_right _ h) hcap)
  · rw [List.length_eraseIdx_of_lt hp]; omega
  · intro i hi
    rw [List.length_eraseIdx_of_lt hp] at hi
    rw [read_after_erase hi hp, List.getElem_eraseIdx]
    by_cases h : i < p
    · rw [if_pos h, dif_pos h, hx]
    · rw [if_neg h, dif_neg h, hx]

/-! ## serialisation -/

theorem memBytes_length (m : Bits) (n : Nat) : (memBytes m n).length = n := by simp [memBytes]

theorem bytesMem_memBytes (m junk : Bits) {n i : Nat} (h : i < 8 * n) : bytesMem junk (memBytes m n) i = m i := by
  unfold bytesMem memBytes
  have : i / 8 < n := by omega
  simp only [List.getElem?_map, List.getElem?_range this, Option.map_some]
  rw [testBit_readBits]
  have : i % 8 < 8 := Nat.mod_lt _ (by decide)
  simp only [this, decide_true, Bool.true_and]
  congr 1; omega

theorem lawful_var_strict {c : VarCfg} (hc : c.good) :
    LawfulBucket (varOps c) (fun w x => x % 2 ^ w) (VarRep c) c.strict where
  init := by
    intro len w w' _ h2 _
    refine ⟨_, rfl, _, rfl, Nat.dvd_mul_right _ _, ?_, by simp, by simp⟩
    exact Nat.le_trans (Nat.mul_le_mul_left _ h2) (varBits_ge len w hc.pos)
  resize := by
    intro b w cap xs new hw _ ⟨m, hb, hd, hcap, hlen, hx⟩ hnew _
    subst hb
    have hxm : xs.length * w ≤ m.alloc := Nat.le_trans (Nat.mul_le_mul_right _ hlen) hcap
    simp only [varOps, varResize]
    by_cases h : ceilDiv (xs.length * w) c.sb < ceilDiv (new * w) c.sb
    · rw [if_pos h]
      have hv := varBits_ge new w hc.pos
      refine ⟨_, rfl, _, rfl, Nat.dvd_mul_right _ _, hv, hnew, ?_⟩
      intro i hi
      rw [← hx i hi]
      apply readBits_congr
      intro j hj
      have := idx_end (w := w) hi
      have : xs.length * w ≤ new * w := Nat.mul_le_mul_right _ hnew
      simp only [reallocBits]
      rw [if_pos (by omega)]
    · rw [if_neg h]
      refine ⟨_, rfl, m, rfl, hd, ?_, hnew, hx⟩
      obtain ⟨k, hk⟩ := hd
      have h1 := ceilDiv_mul_ge (new * w) hc.pos
      have h2 : ceilDiv (xs.length * w) c.sb ≤ k := ceilDiv_le_of hc.pos (by rw [← hk]; exact hxm)
      have h3 : c.sb * ceilDiv (new * w) c.sb ≤ c.sb * k := Nat.mul_le_mul_left _ (by omega)
      omega
  write_new := by
    intro b w cap xs x hw _ ⟨m, hb, hd, hcap, hlen, hx⟩ hlt _
    subst hb
    have hroom : xs.length * w + w ≤ m.alloc := Nat.le_trans (idx_end hlt) hcap
    refine ⟨_, varWrite_eq hc hd hw hroom, _, rfl, hd, hcap, by simp; omega, ?_⟩
    intro i hi
    simp only [List.length_append, List.length_singleton] at hi
    rw [List.getElem_append]
    by_cases h : i < xs.length
    · rw [dif_pos h, readBits_write_disjoint _ (entry_disjoint (by omega)), hx i h]
    · have : i = xs.length := by omega
      subst this
      rw [dif_neg h, readBits_write_same]
      simp
  write_old := by
    intro b w cap xs x i hw _ ⟨m, hb, hd, hcap, hlen, hx⟩ hlt _
    subst hb
    have hroom : i * w + w ≤ m.alloc := Nat.le_trans (idx_end (by omega)) hcap
    refine ⟨_, varWrite_eq hc hd hw hroom, _, rfl, hd, hcap, by simpa using hlen, ?_⟩
    intro j hj
    simp only [List.length_set] at hj
    rw [List.getElem_set]
    by_cases h : i = j
    · subst h; rw [if_pos rfl, readBits_write_same]
    · rw [if_neg h, readBits_write_disjoint _ (entry_disjoint (fun e => h e.symm)), hx j hj]
  read := by
    intro b w cap xs i hw _ ⟨m, hb, hd, hcap, hlen, hx⟩ hi
    subst hb
    have hroom : i * w + w ≤ m.alloc := Nat.le_trans (idx_end (by omega)) hcap
    simp only [varOps]
    rw [varRead_eq hc hd hw hroom, hx i hi]
  erase := by
    intro b w cap xs p hw _ h hp hs
    apply varErase_rep hc hw h hp
    cases hst : c.strict with
    | false => exact Or.inl rfl
    | true => exact Or.inr (hs hst)
  cap_ge := fun b w cap xs ⟨m, _, _, _, h, _⟩ => h
  serialize := by
    intro b w cap xs rest hw _ ⟨m, hb, hd, hcap, hlen, hx⟩ _
    subst hb
    have h8 : 8 ∣ varBits c.sb xs.length w := by
      have : 8 ∣ c.sb := by rcases hc.1 with h | h | h | h <;> rw [h] <;> decide
      exact Nat.dvd_trans this (Nat.dvd_mul_right _ _)
    have hxm : xs.length * w ≤ m.alloc := Nat.le_trans (Nat.mul_le_mul_right _ hlen) hcap
    have hle : varBits c.sb xs.length w ≤ m.alloc := by
      obtain ⟨k, hk⟩ := hd
      rw [hk] at hxm ⊢
      exact Nat.mul_le_mul_left _ (ceilDiv_le_of hc.pos hxm)
    refine ⟨memBytes m.bits (varBits c.sb xs.length w / 8), some ⟨varBits c.sb xs.length w, bytesMem c.junk (memBytes m.bits (varBits c.sb xs.length w / 8))⟩,
      ?_, ?_, _, rfl, Nat.dvd_mul_right _ _, varBits_ge _ _ hc.pos, Nat.le_refl _, ?_⟩
    · simp only [varOps, varSerialize, deref, ok_bind]
      rw [guardB_ok (Or.inr hle)]; rfl
    · simp only [varOps, varDeserialize]
      rw [takeBytes_append _ _ (memBytes_length _ _)]; rfl
    · intro i hi
      rw [← hx i hi]
      apply readBits_congr
      intro j hj
      apply bytesMem_memBytes
      have := idx_end (w := w) hi
      have := varBits_ge xs.length w hc.pos
      rw [Nat.mul_div_cancel' h8]; omega

theorem lawful_var {c : VarCfg} (hc : c.good) (hflat : c.strict = false) :
    LawfulBucket (varOps c) (fun w x => x % 2 ^ w) (VarRep c) := by
  have := lawful_var_strict hc
  rw [hflat] at this; exact this

theorem lawful_var_find {c : VarCfg} (hc : c.good) :
    LawfulFind (varOps c) (fun w x => x % 2 ^ w) (VarRep c) where
  find := fun b w cap xs x hw hw64 h _ => varFind_eq hc hw hw64 h x
  find_empty := by intro b w x; simp [varOps, varFind]

/-! ## the over-read of `erase` -/

theorem readInt_oob {b : Buf} {base off len : Nat} (hb : 64 ∣ base) (ha : 64 ∣ b.alloc)
    (h : b.alloc < base + off + len) (hoff : off < 64) (hlen : len ≤ 64) : readInt true b base off len = .error .oob := by
  unfold readInt guardB
  by_cases h1 : b.alloc < base + 64
  · simp [h1]
  · by_cases h2 : off + len > 64
    · have : b.alloc < base + 128 := by omega
      simp [h1, h2, this]
    · omega

theorem advance_aligned {c : Cursor} {n : Nat} (h1 : 64 ∣ c.base) (h2 : c.off < 64) (hn : n ≤ 64) :
    64 ∣ (c.advance n).base ∧ (c.advance n).off < 64 := by
  unfold Cursor.advance
  split
  · exact ⟨by simp only; omega, by simp only; omega⟩
  · exact ⟨h1, by simp only; omega⟩

theorem readInt_cases (b : Buf) (base off len : Nat) :
    (∃ v, readInt true b base off len = .ok v) ∨ readInt true b base off len = .error .oob := by
  unfold readInt guardB
  by_cases h1 : b.alloc < base + 64
  · simp [h1]
  · by_cases h2 : off + len > 64
    · by_cases h3 : b.alloc < base + 128 <;> simp [h1, h2, h3]
    · simp [h1, h2]

theorem writeInt_cases (b : Buf) (base x off len : Nat) :
    (∃ b', writeInt true b base x off len = .ok b' ∧ b'.alloc = b.alloc) ∨ writeInt true b base x off len = .error .oob := by
  unfold writeInt guardB
  by_cases h1 : b.alloc < base + 64
  · simp [h1]
  · by_cases h2 : off + len > 64
    · by_cases h3 : b.alloc < base + 128 <;> simp [h1, h2, h3]
    · simp [h1, h2]

theorem moveChunks_cases (n : Nat) : ∀ (m : Buf) (rd wr : Cursor), 64 ∣ rd.base → rd.off < 64 →
    (∃ m' rd' wr', moveChunks true m rd wr n = .ok (m', rd', wr') ∧ m'.alloc = m.alloc ∧ 64 ∣ rd'.base ∧ rd'.off < 64 ∧
      rd'.base + rd'.off = rd.base + rd.off + n * 64 ∧ (0 < n → 64 ∣ m.alloc → rd.base + rd.off + n * 64 ≤ m.alloc)) ∨
    moveChunks true m rd wr n = .error .oob := by
  induction n with
  | zero => intro m rd wr h1 h2; exact Or.inl ⟨m, rd, wr, rfl, rfl, h1, h2, by simp, by simp⟩
  | succ n ih =>
    intro m rd wr h1 h2
    simp only [moveChunks, readIntAndMove, writeIntAndMove]
    rcases readInt_cases m rd.base rd.off 64 with ⟨v, hv⟩ | hv
    · rw [hv]
      simp only [ok_bind, pure_eq_ok]
      rcases writeInt_cases m wr.base v wr.off 64 with ⟨m', hm', ha⟩ | hm'
      · rw [hm']
        simp only [ok_bind]
        obtain ⟨a1, a2⟩ := advance_aligned (n := 64) h1 h2 (by decide)
        rcases ih m' (rd.advance 64) (wr.advance 64) a1 a2 with ⟨m2, rd2, wr2, e1, e2, e3, e4, e5, e6⟩ | e
        · left
          refine ⟨m2, rd2, wr2, e1, by rw [e2, ha], e3, e4, ?_, ?_⟩
          · rw [e5, advance_pos]; omega
          · intro _ hd
            cases n with
            | zero =>
              rcases Nat.lt_or_ge m.alloc (rd.base + rd.off + 64) with hlt | hge
              · rw [readInt_oob h1 hd hlt h2 (by decide)] at hv; cases hv
              · omega
            | succ n =>
              have := e6 (by omega) (by rw [ha]; exact hd)
              rw [advance_pos, ha] at this; omega
        · exact Or.inr e
      · rw [hm']; simp
    · rw [hv]; simp

/-- `erase` with 64-bit blocks reads behind the allocation if there is no room for another entry. -/
theorem varErase_oob {c : VarCfg} (hsb : c.sb = 64) (hst : c.strict = true) {m : Buf} {pos len w : Nat}
    (hd : 64 ∣ m.alloc) (hw : 0 < w) (hp : pos < len) (hfull : m.alloc < (len + 1) * w) :
    varErase c (some m) pos len w = .error .oob := by
  unfold varErase deref moveBits
  rw [hst, hsb]
  simp only [ok_bind]
  have e : (pos + 1) * w + (len - pos) * w = (len + 1) * w := by rw [← Nat.add_mul]; congr 1; omega
  have hps := pos_split ((pos + 1) * w) 64
  generalize hN : (len - pos) * w = N at *
  have hNpos : 0 < N := by rw [← hN]; exact Nat.mul_pos (by omega) hw
  have hdm := Nat.div_add_mod N 64
  rcases moveChunks_cases (N / 64) m ⟨(pos + 1) * w / 64 * 64, (pos + 1) * w % 64⟩ ⟨pos * w / 64 * 64, pos * w % 64⟩
    (Nat.dvd_mul_left _ _) (Nat.mod_lt _ (by decide)) with ⟨m2, rd2, wr2, e1, e2, e3, e4, e5, e6⟩ | h
  · rw [e1]
    simp only at e5 e6
    simp only [ok_bind]
    by_cases hrem : N - N / 64 * 64 > 0
    · rw [if_pos hrem]
      simp only [readIntAndMove]
      rw [readInt_oob e3 (by rw [e2]; exact hd) (by rw [e2]; omega) e4 (by omega)]
      rfl
    · have := e6 (by omega) hd
      omega
  · rw [h]; rfl

end SC
