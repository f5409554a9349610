import Verif.Group.Debug
/-! # The packed arrays of a debug build pass their assertions -/
namespace SC

theorem HoldsP.insert {p : PlainB} {xs : List Nat} (h : HoldsP p xs) {idx : Nat} (hi : idx ≤ xs.length) (key : Nat) :
    ∃ p1 p2 p3, plainResize p (xs.length + 1) = .ok p1 ∧ cellUp p1 idx (xs.length - idx) = .ok p2 ∧ cellWrite p2 idx key = .ok p3 ∧
      HoldsP p3 (xs.insertIdx idx key) := by
  obtain ⟨L, e1, e2, e3⟩ := h.resize (n := xs.length + 1) (by omega)
  obtain ⟨L', u1, u2, u3⟩ := cellUp_eq (xs.length - idx) idx L (by omega) (fun j _ h2 => ⟨_, e3 j (by omega)⟩)
  refine ⟨_, _, _, e1, u1, cellWrite_lt (by omega), _, rfl, ?_⟩
  intro i hil
  rw [List.length_insertIdx_of_le_length hi] at hil
  rw [List.getElem?_set, List.getElem_insertIdx]
  by_cases h1 : idx = i
  · subst h1
    rw [if_pos rfl, if_pos (by omega)]
    simp
  · rw [if_neg h1, u3]
    by_cases h2 : i < idx
    · rw [if_neg (by omega), dif_pos h2]; exact e3 i (by omega)
    · rw [if_pos (by omega), dif_neg h2, dif_neg (by omega)]; exact e3 (i - 1) (by omega)

theorem HoldsP.erase {p : PlainB} {xs : List Nat} (h : HoldsP p xs) {idx : Nat} (hi : idx < xs.length) :
    ∃ p1 p2, cellDown 1 p (idx + 1) (xs.length - (idx + 1)) = .ok p1 ∧
      (if xs.length - 1 > 0 then plainResize p1 (xs.length - 1) else .ok p1 : Res PlainB) = .ok p2 ∧ HoldsP p2 (xs.eraseIdx idx) := by
  obtain ⟨L, rfl, hL⟩ := h
  obtain ⟨L', u1, u2, u3⟩ := cellDown_eq (off := 1) (by omega) (xs.length - (idx + 1)) (idx + 1) L (by omega)
    (fun j _ h2 => ⟨_, hL j (by omega)⟩)
  have hH : HoldsP (some L') (xs.eraseIdx idx) := by
    refine ⟨_, rfl, fun i hil => ?_⟩
    rw [List.length_eraseIdx_of_lt hi] at hil
    rw [u3, List.getElem_eraseIdx]
    by_cases h1 : i < idx
    · rw [if_neg (by omega), dif_pos h1]; exact hL i (by omega)
    · rw [if_pos (by omega), dif_neg h1]; exact hL (i + 1) (by omega)
  refine ⟨some L', ?_⟩
  by_cases h0 : xs.length - 1 > 0
  · obtain ⟨L2, e1, _, e3⟩ := hH.resize (n := xs.length - 1) (by rw [List.length_eraseIdx_of_lt hi])
    exact ⟨_, u1, by rw [if_pos h0]; exact e1, _, rfl, e3⟩
  · exact ⟨_, u1, by rw [if_neg h0], hH⟩

theorem HoldsP.scan {p : PlainB} {xs : List Nat} (h : HoldsP p xs) (key : Nat) : ∀ (n i : Nat), i + n ≤ xs.length →
    key ∉ (xs.drop i).take n → scanFrom p key i n = .ok NPOS := by
  intro n
  induction n with
  | zero => intro _ _ _; rfl
  | succ n ih =>
    intro i hi hk
    have hi' : i < xs.length := by omega
    rw [List.drop_eq_getElem_cons hi', List.take_succ_cons, List.mem_cons, not_or] at hk
    simp only [scanFrom, h.read hi', ok_bind]
    rw [if_neg (fun e => hk.1 e.symm)]
    exact ih (i + 1) (by omega) hk.2

/-! ## The members for debugging -/

/-- the members for debugging describe the entries `ps` -/
structure CoreOK (x : CoreDbg) (w : Nat) (ps : List Nat) : Prop where
  width : x.width = w
  length : x.length = ps.length
  blocks : ps.length * w ≤ 64 * x.blocks
  top : x.blocks ≤ w * 2 ^ 33
  plain : HoldsP x.plain ps

variable {c : GrpCfg} {sp : Bool} {x : CoreDbg} {w : Nat} {xs ps : List Nat}

theorem room_ok {i w n : Nat} (hw : 1 ≤ w) (hi : i < n) : i * w / 64 + i * w % 64 < 64 * ceilDiv (n * w) 64 := by
  have h1 := ceilDiv_mul_ge (n * w) (show 0 < 64 by omega)
  have h2 : i * w + w ≤ n * w := idx_end hi
  generalize i * w = a at *
  omega

theorem CoreOK.readRaw (h : CoreOK x w ps) (hw : 1 ≤ w) (hr : CoreRep sp x.data w xs) (hl : xs.length = ps.length) {i : Nat}
    (hi : i < xs.length) : x.readRaw c i w = .ok xs[i] := by
  unfold CoreDbg.readRaw
  rw [ddcheck_ok h.width, ok_bind, h.length, ddcheck_ok (by omega), ok_bind, ddcheck_ok (room_ok hw (by omega)), ok_bind,
    coreRead_eq hw hr hi]

theorem CoreOK.read (h : CoreOK x w ps) (hw : 1 ≤ w) (hr : CoreRep sp x.data w xs) (hl : xs.length = ps.length) {i : Nat}
    (hi : i < xs.length) (he : ps[i] = xs[i]) : x.read c i w = .ok xs[i] := by
  unfold CoreDbg.read
  rw [ddcheck_ok h.width, ok_bind, h.readRaw hw hr hl hi, ok_bind, h.plain.read (by omega), ok_bind, ddcheck_ok he]
  rfl

theorem CoreOK.read_bad (h : CoreOK x w ps) (hw : 1 ≤ w) (hr : CoreRep sp x.data w xs) (hl : xs.length = ps.length) {i : Nat}
    (hi : i < xs.length) (he : ps[i] ≠ xs[i]) : x.read c i w = .error .exc := by
  unfold CoreDbg.read
  rw [ddcheck_ok h.width, ok_bind, h.readRaw hw hr hl hi, ok_bind, h.plain.read (by omega), ok_bind, ddcheck_fails he, error_bind]

theorem CoreOK.verify (h : CoreOK x w ps) (hw : 1 ≤ w) (hr : CoreRep sp x.data w xs) (hl : xs.length = ps.length) :
    ∀ (n i : Nat) (_ : i + n ≤ xs.length), (∀ j (_ : j < i + n), ps[j] = xs[j]) → CoreDbg.verify c x w i n = .ok () := by
  intro n
  induction n with
  | zero => intro i _ _; rfl
  | succ n ih =>
    intro i hi he
    simp only [CoreDbg.verify]
    rw [h.plain.read (by omega), ok_bind, h.read hw hr hl (by omega) (he i (by omega)), ok_bind, ddcheck_ok (he i (by omega)), ok_bind,
      ih (i + 1) (by omega) (fun j hj => he j (by omega))]

theorem CoreOK.verify_bad (h : CoreOK x w ps) (hw : 1 ≤ w) (hr : CoreRep sp x.data w xs) (hl : xs.length = ps.length) {k : Nat}
    (hk : k < xs.length) (he : ps[k] ≠ xs[k]) :
    ∀ (n i : Nat), i + n ≤ xs.length → i ≤ k → k < i + n → CoreDbg.verify c x w i n = .error .exc := by
  intro n
  induction n with
  | zero => intro i _ _ _; omega
  | succ n ih =>
    intro i hi h1 h2
    simp only [CoreDbg.verify]
    rw [h.plain.read (by omega), ok_bind]
    by_cases hx : ps[i] = xs[i]
    · have : i ≠ k := by rintro rfl; exact he hx
      rw [h.read hw hr hl (by omega) hx, ok_bind, ddcheck_ok hx, ok_bind, ih (i + 1) (by omega) (by omega) (by omega)]
    · rw [h.read_bad hw hr hl (by omega) hx, error_bind]

theorem CoreOK.reread (h : CoreOK x w xs) (hw : 1 ≤ w) (hr : CoreRep sp x.data w xs) :
    ∀ (n i : Nat), i + n ≤ xs.length → CoreDbg.reread c x w i n = .ok () := by
  intro n
  induction n with
  | zero => intro i _; rfl
  | succ n ih =>
    intro i hi
    simp only [CoreDbg.reread]
    rw [h.read hw hr rfl (show i < xs.length by omega) rfl, ok_bind, ih (i + 1) (by omega)]

/-! ## Initialization and erasure -/

theorem CoreOK.init (hp : x.plain = none) (hd : x.data = none) (w : Nat) :
    ∃ y, x.init w = .ok y ∧ CoreRep sp y.data w [] ∧ CoreOK y w [] := by
  unfold CoreDbg.init
  rw [ddcheck_ok (by rw [hp]; rfl), ok_bind, ddcheck_ok (by rw [hd]; rfl), ok_bind]
  exact ⟨_, rfl, coreInit_rep sp w, rfl, rfl, by simp, by show (w + 64 - 1) / 64 ≤ w * 2 ^ 33; omega, _, rfl, by simp⟩

theorem CoreOK.erase (h : CoreOK x w xs) (hw : 1 ≤ w) (hr : CoreRep sp x.data w xs) (hs : c.strict = true → sp = true) {i : Nat} (hi : i < xs.length) :
    ∃ y, x.erase c i w xs.length = .ok y ∧ CoreRep sp y.data w (xs.eraseIdx i) ∧ CoreOK y w (xs.eraseIdx i) := by
  obtain ⟨b', e1, e2⟩ := coreErase_eq (c := c) hw hr hs hi
  obtain ⟨p1, p2, u1, u2, u3⟩ := h.plain.erase hi
  obtain ⟨L, hL, _⟩ := h.plain
  have hl := List.length_eraseIdx_of_lt hi
  have hok : CoreOK ⟨b', x.width, xs.length - 1, x.blocks, p2⟩ w (xs.eraseIdx i) := by
    refine ⟨h.width, hl.symm, ?_, h.top, u3⟩
    rw [hl]
    exact Nat.le_trans (Nat.mul_le_mul_right _ (by omega)) h.blocks
  refine ⟨⟨b', x.width, xs.length - 1, x.blocks, p2⟩, ?_, e2, hok⟩
  unfold CoreDbg.erase
  rw [ddcheck_ok h.width, ok_bind, ddcheck_ok (by rw [hL]; rfl), ok_bind, ddcheck_ok h.length.symm, ok_bind, e1, ok_bind, u1, ok_bind,
    u2, ok_bind]
  simp only []
  rw [hok.verify hw e2 rfl (xs.length - 1) 0 (by omega) (fun _ _ => rfl), ok_bind]
  rfl

/-! ## Insertion -/

/-- the assertions in the loop hold -/
theorem shiftChunksDbg_eq (st : Bool) {blocks : Nat} : ∀ (n : Nat) (m : Buf) (rd wr : Cursor) (readPos : Nat), n * 64 ≤ readPos →
    wr.off < 64 → wr.base + wr.off + 64 ≤ 64 * blocks → shiftChunksDbg st blocks m rd wr readPos n = shiftChunks st m rd wr n := by
  intro n
  induction n with
  | zero => intro _ _ _ _ _ _ _; rfl
  | succ n ih =>
    intro m rd wr readPos h1 h2 h3
    simp only [shiftChunksDbg, shiftChunks]
    have hm : (wr.moveLeft 64).off < 64 ∧ (wr.moveLeft 64).base + (wr.moveLeft 64).off + 64 ≤ 64 * blocks := by
      unfold Cursor.moveLeft
      rw [if_pos h2]
      simp only
      omega
    congr 1; funext v
    rw [ddcheck_ok h3, ok_bind]
    congr 1; funext m'
    rw [ddcheck_ok (by omega), ok_bind]
    exact ih m' _ _ _ (by omega) hm.1 hm.2

/-- the assertions on the positions hold -/
theorem coreInsertDbg_eq {idx w len blocks : Nat} (hi : idx ≤ len) (hb : (len + 1) * w ≤ 64 * blocks) (b : VarB) (key : Nat) :
    coreInsertDbg c blocks (len + 1) b idx key w len = coreInsert c b idx key w len := by
  have e1 : (len + 1) * w = len * w + w := Nat.succ_mul _ _
  have e2 : (idx + 1) * w = idx * w + w := Nat.succ_mul _ _
  have e3 : idx * w + (len - idx) * w = len * w := by rw [← Nat.add_mul]; congr 1; omega
  have hb' : len * w + w ≤ 64 * blocks := by omega
  unfold coreInsertDbg coreInsert
  simp only []
  congr 1; funext m
  rw [e1, e2]
  generalize hN : (len - idx) * w = N at *
  generalize idx * w = I at *
  generalize len * w = L at *
  have hchunk : (if N / 64 > 0 then do
      ddcheck true (L - 64 + 64 ≤ L + w)
      ddcheck true (L + w - 64 + 64 ≤ L + w)
      shiftChunksDbg c.strict blocks m ⟨(L - 64) / 64 * 64, (L - 64) % 64⟩ ⟨(L + w - 64) / 64 * 64, (L + w - 64) % 64⟩ L (N / 64)
      else .ok m) = (if N / 64 > 0 then
      shiftChunks c.strict m ⟨(L - 64) / 64 * 64, (L - 64) % 64⟩ ⟨(L + w - 64) / 64 * 64, (L + w - 64) % 64⟩ (N / 64)
      else .ok m) := by
    by_cases h : N / 64 > 0
    · rw [if_pos h, if_pos h, ddcheck_ok (by omega), ok_bind, ddcheck_ok (by omega), ok_bind]
      exact shiftChunksDbg_eq _ _ _ _ _ _ (by omega) (Nat.mod_lt _ (by omega)) (by simp only; omega)
    · rw [if_neg h, if_neg h]
  rw [hchunk]
  congr 1; funext m1
  rw [ddcheck_ok (show I / 64 * 64 + I % 64 + w ≤ 64 * blocks by omega)]
  simp only [ok_bind]
  congr 1
  by_cases h : len > 0 ∧ L - N / 64 * 64 > I
  · rw [if_pos h, if_pos h]
    congr 1; funext v
    rw [ddcheck_ok (by omega), ok_bind]
  · rw [if_neg h, if_neg h]

/-- an insertion up to the comparisons at its end -/
theorem CoreOK.insert_core (h : CoreOK x w xs) (hw : 1 ≤ w) (hr : CoreRep sp x.data w xs) {idx : Nat} (hi : idx ≤ xs.length)
    (hlen : xs.length < 2 ^ 32) (key : Nat) : ∃ y, x.insert c idx key w xs.length = (do
        y.verify c w 0 xs.length
        return y) ∧ CoreRep true y.data w (xs.insertIdx idx (key % 2 ^ w)) ∧ CoreOK y w (xs.insertIdx idx key) := by
  obtain ⟨b', e1, e2⟩ := coreInsert_eq (c := c) hw hr hi key
  obtain ⟨p1, p2, p3, u1, u2, u3, u4⟩ := h.plain.insert hi key
  obtain ⟨L, hL, _⟩ := h.plain
  have hl := List.length_insertIdx_of_le_length hi key
  have hb : (xs.length + 1) * w ≤ 64 * ceilDiv (w * (xs.length + 2)) 64 := by
    have h1 := ceilDiv_mul_ge (w * (xs.length + 2)) (show 0 < 64 by omega)
    have h2 : (xs.length + 1) * w ≤ w * (xs.length + 2) := by
      rw [Nat.mul_comm w]; exact Nat.mul_le_mul_right _ (by omega)
    omega
  have ht : ceilDiv (w * (xs.length + 2)) 64 ≤ w * 2 ^ 33 := by
    have h1 : w * (xs.length + 2) ≤ w * 2 ^ 33 := Nat.mul_le_mul_left _ (by omega)
    unfold ceilDiv
    omega
  refine ⟨⟨b', x.width, xs.length + 1, ceilDiv (w * (xs.length + 2)) 64, p3⟩, ?_, e2, h.width, hl.symm, by rw [hl]; exact hb, ht, u4⟩
  unfold CoreDbg.insert
  rw [ddcheck_ok h.width, ok_bind, ddcheck_ok (by rw [hL]; rfl), ok_bind, ddcheck_ok h.length.symm, ok_bind, u1, ok_bind, u2, ok_bind,
    u3, ok_bind]
  simp only []
  rw [coreInsertDbg_eq hi hb, e1, ok_bind]

theorem CoreOK.insert (h : CoreOK x w xs) (hw : 1 ≤ w) (hr : CoreRep sp x.data w xs) {idx : Nat} (hi : idx ≤ xs.length)
    (hlen : xs.length < 2 ^ 32) {key : Nat} (hk : key < 2 ^ w) : ∃ y, x.insert c idx key w xs.length = .ok y ∧
      CoreRep true y.data w (xs.insertIdx idx key) ∧ CoreOK y w (xs.insertIdx idx key) := by
  obtain ⟨y, e1, e2, e3⟩ := h.insert_core (c := c) hw hr hi hlen key
  rw [Nat.mod_eq_of_lt hk] at e2
  refine ⟨y, ?_, e2, e3⟩
  rw [e1, e3.verify hw e2 rfl xs.length 0 (by rw [List.length_insertIdx_of_le_length hi]; omega) (fun _ _ => rfl)]
  rfl

/-- an entry that does not fit is detected at once, unless it is the last one -/
theorem CoreOK.insert_wide (h : CoreOK x w xs) (hw : 1 ≤ w) (hr : CoreRep sp x.data w xs) {idx : Nat} (hi : idx ≤ xs.length)
    (hlen : xs.length < 2 ^ 32) {key : Nat} (hk : 2 ^ w ≤ key) : x.insert c idx key w xs.length = .error .exc ∨
      (idx = xs.length ∧ ∃ y, x.insert c idx key w xs.length = .ok y ∧
        CoreRep true y.data w (xs.insertIdx idx (key % 2 ^ w)) ∧ CoreOK y w (xs.insertIdx idx key)) := by
  obtain ⟨y, e1, e2, e3⟩ := h.insert_core (c := c) hw hr hi hlen key
  have h1 := List.length_insertIdx_of_le_length hi key
  have h2 := List.length_insertIdx_of_le_length hi (key % 2 ^ w)
  have hm : key % 2 ^ w < 2 ^ w := Nat.mod_lt _ (Nat.two_pow_pos _)
  by_cases hlt : idx < xs.length
  · left
    rw [e1, e3.verify_bad hw e2 (by omega) (k := idx) (by omega) (by
      rw [List.getElem_insertIdx_self (by omega), List.getElem_insertIdx_self (by omega)]; omega) xs.length 0 (by omega) (by omega)
      (by omega), error_bind]
  · right
    refine ⟨by omega, y, ?_, e2, e3⟩
    rw [e1, e3.verify hw e2 (by omega) xs.length 0 (by omega) (by
      intro j hj
      rw [List.getElem_insertIdx_of_lt (by omega), List.getElem_insertIdx_of_lt (by omega)])]
    rfl

/-! ## Writing and searching -/

theorem CoreOK.write (h : CoreOK x w xs) (hw : 1 ≤ w) (hr : CoreRep sp x.data w xs) {i : Nat} (hi : i < xs.length) {v : Nat}
    (hv : v < 2 ^ w) : ∃ y, x.write c i v w = .ok y ∧ CoreRep sp y.data w (xs.set i v) ∧ CoreOK y w (xs.set i v) := by
  obtain ⟨b', e1, e2⟩ := coreWrite_eq (c := c) hw hr hi v
  rw [Nat.mod_eq_of_lt hv] at e2
  obtain ⟨p', u1, u2⟩ := h.plain.set hi v
  have hok : CoreOK ⟨b', x.width, x.length, x.blocks, p'⟩ w (xs.set i v) :=
    ⟨h.width, by rw [List.length_set]; exact h.length, by rw [List.length_set]; exact h.blocks, h.top, u2⟩
  have hi' : i < (xs.set i v).length := by rw [List.length_set]; exact hi
  have hrd := hok.read (c := c) hw e2 rfl hi' rfl
  simp only [List.getElem_set_self] at hrd
  refine ⟨_, ?_, e2, hok⟩
  have hraw : CoreDbg.writeRaw c { x with plain := p' } i v w = .ok b' := by
    unfold CoreDbg.writeRaw
    simp only []
    rw [ddcheck_ok h.width, ok_bind, ddcheck_ok (msb_le_of_lt hv), ok_bind, h.length, ddcheck_ok hi, ok_bind, ddcheck_ok (room_ok hw hi),
      ok_bind, e1]
  unfold CoreDbg.write
  rw [ddcheck_ok h.width, ok_bind, ddcheck_ok (msb_le_of_lt hv), ok_bind, ddcheck_ok (by rw [h.length]; exact hi), ok_bind,
    h.plain.read hi, ok_bind, h.read hw hr rfl hi rfl, ok_bind, ddcheck_ok rfl, ok_bind, u1, ok_bind, hraw, ok_bind]
  simp only []
  rw [hrd, ok_bind, ddcheck_ok rfl, ok_bind, hok.reread hw e2 x.length 0 (by rw [List.length_set, h.length]; omega), ok_bind]
  rfl

theorem coreScanDbg_eq {st : Bool} {m : Buf} {plain : PlainB} {blocks key lo cnt : Nat} (hw : 0 < w) (hw64 : w ≤ 64) (ys : List Nat) :
    ∀ (i : Nat) (cur : Cursor), cur.base + cur.off = i * w →
    (ys ≠ [] → Acc st m.alloc cur.base cur.off (ys.length * w)) →
    (∀ j (h : j < ys.length), readBits m.bits ((i + j) * w) w = ys[j] ∧ cellRead plain (i + j) = .ok ys[j]) →
    (i + ys.length) * w ≤ 64 * blocks → (key ∉ ys → scanFrom plain key lo cnt = .ok NPOS) →
    coreScanDbg st m plain blocks key w lo cnt i cur ys.length = .ok (if key ∈ ys then i + ys.idxOf key else NPOS) := by
  induction ys with
  | nil =>
    intro i cur _ _ _ _ hs
    simp only [List.length_nil, coreScanDbg]
    rw [hs (by simp), ok_bind, ddcheck_ok rfl, ok_bind, if_neg (by simp), pure_eq_ok]
  | cons y ys ih =>
    intro i cur hcur hacc h hb hs
    have h0 := h 0 (by simp)
    simp only [Nat.add_zero, List.getElem_cons_zero] at h0
    have hA := hacc (by simp)
    simp only [List.length_cons, Nat.succ_mul] at hA
    have hb1 : i * w + w ≤ 64 * blocks := by
      have : (i + 1) * w ≤ (i + (y :: ys).length) * w := Nat.mul_le_mul_right _ (by simp)
      rw [Nat.succ_mul] at this
      omega
    simp only [List.length_cons, coreScanDbg, readIntAndMove]
    rw [ddcheck_ok (by rw [hcur]; exact hb1), ok_bind, readInt_ok (hA.mono hw (by omega)), hcur, h0.1]
    simp only [ok_bind, pure_eq_ok]
    rw [h0.2, ok_bind, ddcheck_ok rfl, ok_bind]
    by_cases hy : y = key
    · subst hy; simp
    · have hy' : ¬ key = y := fun e => hy e.symm
      rw [if_neg hy, ih (i + 1) _ ?_ ?_ ?_ ?_ ?_]
      · by_cases hk : key ∈ ys
        · simp [hk, List.idxOf_cons, beq_eq_false_iff_ne.mpr hy]; omega
        · simp [hk, hy']
      · rw [advance_pos, hcur, Nat.succ_mul]
      · intro hne
        apply advance_acc hw64
        · exact Nat.mul_pos (List.length_pos_iff.mpr hne) hw
        · rw [Nat.add_comm]; exact hA
      · intro j hj
        have := h (j + 1) (by simpa using hj)
        simp only [List.getElem_cons_succ] at this
        rw [show i + 1 + j = i + (j + 1) by omega]; exact this
      · rw [show i + 1 + ys.length = i + (y :: ys).length by simp; omega]; exact hb
      · intro hk
        exact hs (by simp [hk, hy'])

theorem CoreOK.find (h : CoreOK x w xs) (hw : 1 ≤ w) (hw64 : w ≤ 64) (hr : CoreRep sp x.data w xs) {lo hi : Nat} (hlh : lo < hi)
    (hhi : hi ≤ xs.length) (key : Nat) : x.find c lo key hi w =
      .ok (if key ∈ (xs.drop lo).take (hi - lo) then lo + ((xs.drop lo).take (hi - lo)).idxOf key else NPOS) := by
  obtain ⟨m, e, hd, ha, _, hx⟩ := hr
  have hlen : ((xs.drop lo).take (hi - lo)).length = hi - lo := by
    rw [List.length_take, List.length_drop]; omega
  have hmul : lo * w + (hi - lo) * w ≤ xs.length * w := by
    rw [← Nat.add_mul]; exact Nat.mul_le_mul_right _ (by omega)
  unfold CoreDbg.find
  rw [ddcheck_ok h.width, ok_bind, ddcheck_ok hlh, ok_bind, h.length, ddcheck_ok hhi, ok_bind, e]
  simp only [deref, ok_bind]
  have := coreScanDbg_eq (st := c.strict) (m := m) (plain := x.plain) (blocks := x.blocks) (key := key) (lo := lo) (cnt := hi - lo) hw hw64
    ((xs.drop lo).take (hi - lo)) lo ⟨(lo * w) / 64 * 64, (lo * w) % 64⟩ (pos_split _ _)
    (fun _ => acc64 _ hd (by rw [hlen]; exact Nat.mul_pos (by omega) hw) (by rw [hlen]; omega))
    (fun j hj => by
      rw [hlen] at hj
      rw [List.getElem_take, List.getElem_drop]
      exact ⟨hx (lo + j) (by omega), h.plain.read (by omega)⟩)
    (by rw [hlen]; exact Nat.le_trans (Nat.mul_le_mul_right _ (by omega)) h.blocks)
    (h.plain.scan key (hi - lo) lo (by omega))
  rw [hlen] at this
  exact this

end SC
