import Verif.Group.DebugCore
/-!
# The tests of the border of a group in a debug build
-/
namespace SC

/-- the tests in the loop of `find_group_position` hold if the array of ends has the right entry -/
theorem Border.findLoopDbg_eq {bmi : Bool} {b : Border} {blen : Nat} (hl : b.len = blen) {arr : List Nat} {g a p : Nat}
    (ha : arr[g]? = some a) (hp : p = a + g) : ∀ (f i rem sum : Nat), b.findLoop bmi f i rem sum = .ok p →
    b.findLoopDbg bmi blen arr g f i rem sum = .ok p := by
  intro f
  induction f with
  | zero => intro i rem sum h; simp only [Border.findLoop] at h; exact absurd h (by simp)
  | succ f ih =>
    intro i rem sum h
    simp only [Border.findLoop] at h
    simp only [Border.findLoopDbg]
    by_cases hi : i < b.len
    · rw [Border.get_ok hi, ok_bind] at h ⊢
      rw [ddcheck_ok (by omega), ok_bind]
      by_cases hr : popcount (b.w i) ≤ rem
      · rw [if_pos hr] at h ⊢
        exact ih _ _ _ h
      · rw [if_neg hr] at h ⊢
        obtain ⟨r, h1, h2⟩ := bind_eq_ok h
        rw [pure_eq_ok, Except.ok.injEq] at h2
        rw [h1, ok_bind]
        simp only [vecGet, ha, ok_bind]
        rw [ddcheck_ok (by omega), ok_bind, pure_eq_ok, h2]
    · unfold Border.get at h
      rw [if_neg hi, error_bind] at h
      exact absurd h (by simp)

/-- the sum of the numbers of ones -/
theorem Border.ones_eq {b : Border} : ∀ (n i sum : Nat), i + n ≤ b.len → sum = rank b.bit (64 * i) →
    b.ones i sum n = .ok (rank b.bit (64 * (i + n))) := by
  intro n
  induction n with
  | zero => intro i sum _ h; rw [h]; rfl
  | succ n ih =>
    intro i sum hi hs
    simp only [Border.ones]
    rw [Border.get_ok (by omega), ok_bind, ih (i + 1) _ (by omega) (by rw [rank_word, hs]), show i + 1 + n = i + (n + 1) by omega]

theorem rank_zeros {p : Nat → Bool} {n : Nat} : ∀ m, (∀ j, n ≤ j → j < n + m → p j = false) → rank p (n + m) = rank p n := by
  intro m
  induction m with
  | zero => intro _; rfl
  | succ m ih =>
    intro h
    rw [← Nat.add_assoc, rank, h (n + m) (by omega) (by omega), ih (fun j h1 h2 => h j h1 (by omega))]
    rfl

/-- the number of ones in a border -/
theorem BorderRep.ones {b : Border} {bpg size : Nat} {lens : Nat → Nat} (h : BorderRep b bpg size lens)
    (ht : b.Tail (size + 1 + bpg)) : b.ones 0 0 b.len = .ok (bpg + 1) := by
  rw [Border.ones_eq b.len 0 0 (by omega) rfl, Nat.zero_add]
  refine congrArg Except.ok ?_
  have hs := h.sel bpg (Nat.le_refl _)
  have hc := ceilDiv_mul_ge (size + 1 + bpg) (show 0 < 64 by omega)
  have hl := h.len
  have hp : pre lens (bpg + 1) = size := by
    have := h.total
    simp only [pre]
    have := h.out bpg (Nat.le_refl _)
    omega
  rw [hp] at hs
  have e : 64 * b.len = size + bpg + 1 + (64 * b.len - (size + bpg + 1)) := by omega
  rw [e, rank_zeros _ (fun j h1 h2 => ht j (by omega) (by omega)), rank, hs.1, hs.2]
  rfl

theorem and_two_pow_ne {x k : Nat} (h : x.testBit k = true) : x &&& 2 ^ k ≠ 0 := by
  intro h0
  have : (x &&& 2 ^ k).testBit k = true := by rw [Nat.testBit_and, h]; simp
  rw [h0] at this
  simp at this

theorem and_two_pow_eq {x k : Nat} (h : x.testBit k = false) : x &&& 2 ^ k = 0 := by
  apply Nat.eq_of_testBit_eq
  intro j
  rw [Nat.testBit_and, Nat.zero_testBit, Nat.testBit_two_pow]
  by_cases hj : k = j
  · subst hj; simp [h]
  · simp [hj]

/-- the tests in front of the changes hold if a zero is in front of the one -/
theorem Border.eraseHeadDbg_eq {b : Border} {e : Nat} (he0 : 0 < e) (hz : b.bit (e - 1) = false) (ho : b.bit e = true) :
    b.eraseHeadDbg e (b.w (e / 64)) = b.eraseHead e (b.w (e / 64)) := by
  unfold Border.eraseHeadDbg Border.eraseHead
  unfold Border.bit at hz ho
  by_cases hm : e % 64 = 0
  · rw [if_pos hm, if_pos hm]
    by_cases hi : e / 64 = 0
    · rw [if_pos hi, if_pos hi]
    · rw [if_neg hi, if_neg hi]
      unfold Border.get
      by_cases hl : e / 64 - 1 < b.len
      · rw [if_pos hl, ok_bind, ok_bind]
        rw [show (e - 1) / 64 = e / 64 - 1 by omega, show (e - 1) % 64 = 63 by omega] at hz
        rw [hm] at ho
        rw [ddcheck_ok (and_two_pow_eq hz), ok_bind, ddcheck_ok (by rw [and_one, ho]; rfl), ok_bind]
      · rw [if_neg hl]; rfl
  · rw [if_neg hm, if_neg hm]
    rw [show (e - 1) / 64 = e / 64 by omega] at hz
    rw [ddcheck_ok (and_two_pow_ne ho), ok_bind, ddcheck_ok (and_two_pow_eq hz), ok_bind]

/-- `erase` of a debug build changes the border as `erase` of a release build -/
theorem BorderRep.eraseDbg {b : Border} {bpg size : Nat} {lens : Nat → Nat} (h : BorderRep b bpg size lens) {g : Nat} (hg : g < bpg)
    (hn : 0 < lens g) {b' : Border} (hb : b.erase bpg size (pre lens (g + 1) + g) = .ok b') :
    b.eraseDbg (ceilDiv (size + 1 + bpg) 64) bpg size (pre lens (g + 1) + g) = .ok (b', ceilDiv (size - 1 + 1 + bpg) 64) := by
  have hle := h.pre_le (g + 1)
  have hpg : lens g ≤ pre lens (g + 1) := by simp only [pre]; omega
  have hz := h.zero hg hn
  have ho := (h.sel g (by omega)).1
  have hc := ceilDiv_mul_ge (size + 1 + bpg) (show 0 < 64 by omega)
  have hl := h.len
  obtain ⟨e, he⟩ : ∃ e, e = pre lens (g + 1) + g := ⟨_, rfl⟩
  have hlb : e < size + 1 + bpg ∧ 0 < e := by omega
  rw [← he] at hz ho hb ⊢
  have hsz : 0 < size := by omega
  have hn1 : ceilDiv (size - 1 + 1 + bpg) 64 = (if ceilDiv (size - 1 + 1 + bpg) 64 < ceilDiv (size + 1 + bpg) 64
      then ceilDiv (size + 1 + bpg) 64 - 1 else ceilDiv (size + 1 + bpg) 64) := by
    unfold ceilDiv; split <;> omega
  unfold Border.eraseDbg
  unfold Border.erase at hb
  simp only [] at hb ⊢
  rw [ddcheck_ok trivial, ok_bind, ddcheck_ok (by omega), ok_bind]
  have hel : e / 64 < b.len := by omega
  rw [Border.get_ok hel, ok_bind] at hb ⊢
  rw [Border.eraseHeadDbg_eq hlb.2 hz ho]
  obtain ⟨b1, q1, hb⟩ := bind_eq_ok hb
  rw [q1, ok_bind]
  obtain ⟨lo, q2, hb⟩ := bind_eq_ok hb
  rw [q2, ok_bind]
  obtain ⟨cu, q3, hb⟩ := bind_eq_ok hb
  rw [q3, ok_bind]
  obtain ⟨b2, q4, hb⟩ := bind_eq_ok hb
  rw [q4, ok_bind]
  obtain ⟨b3, q5, hb⟩ := bind_eq_ok hb
  rw [q5, ok_bind, ddcheck_ok hn1, ok_bind]
  rw [pure_eq_ok, Except.ok.injEq] at hb
  rw [hb, ← hn1]
  rfl

/-! ## Borders in groups -/

/-- the border of the group, the array of ends and the other members describe the buckets `cs` -/
structure EndsRep (x : GroupDbg) (bpg : Nat) (cs : Cont) : Prop where
  size : x.size = (flat cs bpg).length
  lt : (flat cs bpg).length < 2 ^ 32
  out : ∀ g, bpg ≤ g → cs g = []
  border : ∃ b, x.border = some b ∧ BorderRep b bpg (flat cs bpg).length (fun g => (cs g).length) ∧
    b.Tail ((flat cs bpg).length + 1 + bpg)
  blen : x.blen = ceilDiv ((flat cs bpg).length + 1 + bpg) 64
  arr : x.arr = (List.range bpg).map fun g => (flat cs (g + 1)).length
  gs : x.gs = bpg

variable {c : GrpCfg} {x : GroupDbg} {bpg : Nat} {cs : Cont}

theorem EndsRep.arrAt (h : EndsRep x bpg cs) {g : Nat} (hg : g < bpg) : x.arr[g]? = some (flat cs (g + 1)).length := by
  rw [h.arr]; simp [hg]

theorem EndsRep.vec (h : EndsRep x bpg cs) {g : Nat} (hg : g < bpg) : vecGet x.arr g = .ok (flat cs (g + 1)).length := by
  unfold vecGet; rw [h.arrAt hg]

theorem EndsRep.pos (h : EndsRep x bpg cs) (hb : bpg ≤ 255) {g : Nat} (hg : g < bpg) :
    x.pos c g = .ok ((flat cs (g + 1)).length + g) := by
  obtain ⟨b, h1, h2, _⟩ := h.border
  unfold GroupDbg.pos GroupDbg.getBorder
  rw [h1]
  simp only [ok_bind]
  have hf := h2.find c.bmi (g := g) (by omega) (by omega)
  unfold Border.find at hf
  have hm : g % 256 = g := Nat.mod_eq_of_lt (by omega)
  rw [hm] at hf ⊢
  rw [← flat_length] at hf
  exact Border.findLoopDbg_eq (by rw [h2.len, h.blen]) (h.arrAt hg) rfl _ _ _ _ hf

theorem EndsRep.start (h : EndsRep x bpg cs) (hb : bpg ≤ 255) {g : Nat} (hg : g < bpg) :
    x.start c g = .ok ((flat cs g).length + g) := by
  unfold GroupDbg.start
  by_cases h0 : g = 0
  · subst h0; rfl
  · rw [if_neg h0, h.pos hb (by omega), ok_bind]
    have h1 := flat_le (cs := cs) (show g ≤ bpg by omega)
    have h2 := h.lt
    rw [show g - 1 + 1 = g by omega, pure_eq_ok]
    congr 1
    rw [W64_eq, Nat.mod_eq_of_lt] <;> omega

theorem EndsRep.bucketsize (h : EndsRep x bpg cs) (hb : bpg ≤ 255) {g : Nat} (hg : g < bpg) :
    x.bucketsize c g = .ok (cs g).length := by
  have h1 := flat_le (cs := cs) (show g + 1 ≤ bpg by omega)
  have h2 := h.lt
  have h3 := flat_succ (cs := cs) (g := g)
  unfold GroupDbg.bucketsize
  by_cases h0 : x.size = 0
  · have := h.size
    simp only [h0, if_true, pure_eq_ok]
    refine congrArg Except.ok ?_
    omega
  · simp only [h0, if_false]
    by_cases hg0 : g = 0
    · subst hg0
      have h4 : (flat cs 0).length = 0 := rfl
      rw [if_pos rfl, ok_bind, h.pos hb hg, ok_bind, ddcheck_ok (by rw [W64_eq]; omega), ok_bind, ok_bind, h.vec hg, ok_bind, if_pos rfl,
        ok_bind]
      have e : sub64 (sub64 ((flat cs (0 + 1)).length + 0) 0) 0 = (cs 0).length := by
        rw [sub64_eq (a := (flat cs (0 + 1)).length + 0) (by omega) (by rw [W64_eq]; omega),
          sub64_eq (by omega) (by rw [W64_eq]; omega)]
        omega
      rw [e, ddcheck_ok (by rw [sub64_eq (by omega) (by rw [W64_eq]; omega)]; omega), ok_bind, pure_eq_ok]
    · rw [if_neg hg0, h.pos hb (show g - 1 < bpg by omega), ok_bind, pure_eq_ok, ok_bind, h.pos hb hg, ok_bind]
      rw [show g - 1 + 1 = g by omega]
      rw [sub64_eq (b := g - 1) (by omega) (by rw [W64_eq]; omega), ddcheck_ok (by rw [W64_eq, Nat.mod_eq_of_lt] <;> omega), ok_bind,
        ok_bind, h.vec hg, ok_bind, if_neg hg0, h.vec (show g - 1 < bpg by omega), ok_bind, show g - 1 + 1 = g by omega]
      have e : sub64 (sub64 ((flat cs (g + 1)).length + g) g) ((flat cs g).length + (g - 1) - (g - 1)) = (cs g).length := by
        rw [sub64_eq (a := (flat cs (g + 1)).length + g) (by omega) (by rw [W64_eq]; omega),
          sub64_eq (by omega) (by rw [W64_eq]; omega)]
        omega
      rw [e, ddcheck_ok (by rw [sub64_eq (by omega) (by rw [W64_eq]; omega)]; omega), ok_bind, pure_eq_ok]

theorem EndsRep.checkEnds (h : EndsRep x bpg cs) (hb : bpg ≤ 255) : ∀ (n i : Nat), i + n ≤ bpg →
    x.checkEnds c i n = .ok () := by
  intro n
  induction n with
  | zero => intro _ _; rfl
  | succ n ih =>
    intro i hi
    have h1 := flat_le (cs := cs) (show i + 1 ≤ bpg by omega)
    have h2 := h.lt
    simp only [GroupDbg.checkEnds]
    rw [h.vec (by omega), ok_bind, h.pos hb (by omega), ok_bind,
      ddcheck_ok (by rw [sub64_eq (by omega) (by rw [W64_eq]; omega)]; omega), ok_bind, ih (i + 1) (by omega)]

/-- the two tests at the end of `push_back` and `erase` -/
theorem EndsRep.checks (h : EndsRep x bpg cs) (hb : bpg ≤ 255) : x.checkEnds c 0 x.arr.length = .ok () ∧
    ∀ b, x.border = some b → b.ones 0 0 x.blen = .ok (bpg + 1) := by
  have ha : x.arr.length = bpg := by rw [h.arr]; simp
  refine ⟨by rw [ha]; exact h.checkEnds hb bpg 0 (by omega), fun b hx => ?_⟩
  obtain ⟨b', h1, h2, h3⟩ := h.border
  rw [hx, Option.some.injEq] at h1
  subst h1
  have := h2.ones h3
  rw [h2.len] at this
  rw [h.blen]
  exact this

theorem lens_upd (cs : Cont) (g : Nat) (ys : List (Nat × Nat)) :
    (fun k => (upd cs g ys k).length) = upd (fun k => (cs k).length) g ys.length := by
  funext k
  simp only [upd]
  split <;> rfl

/-- the ends after the change of a bucket -/
theorem flat_upd_length {n g : Nat} (ys : List (Nat × Nat)) :
    (flat (upd cs g ys) n).length + (if g < n then (cs g).length else 0) = (flat cs n).length + if g < n then ys.length else 0 := by
  rw [flat_length, flat_length, lens_upd]
  have := pre_upd (f := fun k => (cs k).length) (g := g) (x := ys.length) n
  split at this <;> rename_i hn
  · rw [if_pos hn, if_pos hn]; exact this
  · rw [if_neg hn, if_neg hn, this]

theorem EndsRep.push (h : EndsRep x bpg cs) (hb : bpg ≤ 255) {g : Nat} (hg : g < bpg)
    (hlt : (flat cs bpg).length + 1 < 2 ^ 32) (q : Nat × Nat) (ks vs : CoreDbg) :
    ∃ y, GroupDbg.pushBorder c { x with size := (x.size + 1) % 2 ^ 32, keys := ks, vals := vs } bpg g
      ((flat cs (g + 1)).length + g) = .ok y ∧ y.keys = ks ∧ y.vals = vs ∧ EndsRep y bpg (upd cs g (cs g ++ [q])) := by
  obtain ⟨b, b1, b2, b3⟩ := h.border
  obtain ⟨b', q1, q2, q3⟩ := b2.push_tail c hg
  rw [← flat_length] at q1
  have hf : ∀ n, (flat (upd cs g (cs g ++ [q])) n).length = (flat cs n).length + if g < n then 1 else 0 := by
    intro n
    have := flat_upd_length (cs := cs) (n := n) (g := g) (cs g ++ [q])
    rw [List.length_append, List.length_singleton] at this
    split at this <;> rename_i hn
    · rw [if_pos hn]; omega
    · rw [if_neg hn]; omega
  have hfb := hf bpg
  rw [if_pos hg] at hfb
  have hsz : (x.size + 1) % 2 ^ 32 = (flat cs bpg).length + 1 := by rw [h.size, Nat.mod_eq_of_lt hlt]
  have hbl : ceilDiv ((flat cs bpg).length + 1 + 1 + bpg) 64 =
      (if ceilDiv ((flat cs bpg).length + 1 + 1 + bpg) 64 > ceilDiv ((flat cs bpg).length + 1 + bpg) 64 then x.blen + 1 else x.blen) := by
    rw [h.blen]; unfold ceilDiv; split <;> omega
  obtain ⟨y, hy⟩ : ∃ y : GroupDbg, y = ⟨(flat cs bpg).length + 1, ks, vs, some b',
    ceilDiv ((flat cs bpg).length + 1 + 1 + bpg) 64, x.arr.mapIdx (fun i a => if g ≤ i then a + 1 else a), x.gs⟩ := ⟨_, rfl⟩
  have hR : EndsRep y bpg (upd cs g (cs g ++ [q])) := by
    refine ⟨by rw [hy, hfb], by rw [hfb]; exact hlt, ?_, ⟨b', by rw [hy], ?_, ?_⟩, by rw [hy, hfb], ?_, by rw [hy]; exact h.gs⟩
    · intro k hk; rw [upd_other _ _ (by omega)]; exact h.out k hk
    · rw [hfb, lens_upd, List.length_append, List.length_singleton]; exact q2
    · rw [hfb]; exact q3 b3
    · rw [hy]
      show x.arr.mapIdx _ = _
      rw [h.arr]
      apply List.ext_getElem
      · simp
      · intro i h1 h2
        simp only [List.getElem_mapIdx, List.getElem_map, List.getElem_range]
        rw [hf]
        by_cases hi : g ≤ i
        · rw [if_pos hi, if_pos (by omega)]
        · rw [if_neg hi, if_neg (by omega)]; rfl
  obtain ⟨k1, k2⟩ := hR.checks (c := c) hb
  have k3 := k2 b' (by rw [hy])
  have hyb : y.blen = ceilDiv ((flat cs bpg).length + 1 + 1 + bpg) 64 := by rw [hy]
  refine ⟨y, ?_, by rw [hy], by rw [hy], hR⟩
  unfold GroupDbg.pushBorder
  simp only [hsz]
  rw [← hbl, ddcheck_ok rfl, ok_bind]
  simp only [GroupDbg.getBorder, b1, ok_bind]
  have hya : (x.arr.mapIdx (fun i a => if g ≤ i then a + 1 else a)).length = y.arr.length := by rw [hy]
  rw [q1, ok_bind, ← hy, hya, k1, ok_bind, ← hyb, k3, ok_bind, ddcheck_ok rfl, ok_bind, pure_eq_ok]

theorem EndsRep.erase (h : EndsRep x bpg cs) {g : Nat} (hg : g < bpg) {i : Nat} (hi : i < (cs g).length)
    (ks vs : CoreDbg) :
    ∃ b b' blen y, x.getBorder = .ok b ∧ b.eraseDbg x.blen bpg x.size ((flat cs (g + 1)).length + g) = .ok (b', blen) ∧
      y = ⟨(x.size + 2 ^ 32 - 1) % 2 ^ 32, ks, vs, some b', blen, x.arr.mapIdx (fun i a => if g ≤ i then sub64 a 1 else a), x.gs⟩ ∧
      EndsRep y bpg (upd cs g ((cs g).eraseIdx i)) := by
  obtain ⟨b, b1, b2, b3⟩ := h.border
  obtain ⟨b', q1, q2, q3⟩ := b2.erase_tail hg (by show 0 < (cs g).length; omega)
  have q4 := b2.eraseDbg hg (by show 0 < (cs g).length; omega) q1
  rw [← flat_length] at q4
  have hle := flat_le (cs := cs) (show g + 1 ≤ bpg by omega)
  have hlt := h.lt
  have hsu := flat_succ (cs := cs) (g := g)
  have hf : ∀ n, (flat (upd cs g ((cs g).eraseIdx i)) n).length = (flat cs n).length - if g < n then 1 else 0 := by
    intro n
    have := flat_upd_length (cs := cs) (n := n) (g := g) ((cs g).eraseIdx i)
    rw [List.length_eraseIdx_of_lt hi] at this
    split at this <;> rename_i hn
    · rw [if_pos hn]
      omega
    · rw [if_neg hn]; omega
  have hfb := hf bpg
  rw [if_pos hg] at hfb
  have hsz : (x.size + 2 ^ 32 - 1) % 2 ^ 32 = (flat cs bpg).length - 1 := by
    rw [h.size]; omega
  refine ⟨b, b', _, _, by unfold GroupDbg.getBorder; rw [b1], by rw [h.blen, h.size]; exact q4, rfl, ?_⟩
  refine ⟨by rw [hfb]; exact hsz, by rw [hfb]; omega, ?_, ⟨b', rfl, ?_, ?_⟩, by rw [hfb], ?_, h.gs⟩
  · intro k hk; rw [upd_other _ _ (by omega)]; exact h.out k hk
  · rw [hfb, lens_upd, List.length_eraseIdx_of_lt hi]; exact q2
  · rw [hfb]
    have := q3 b3
    rw [show (flat cs bpg).length - 1 + 1 + bpg = (flat cs bpg).length + bpg by omega]
    exact this
  · show x.arr.mapIdx _ = _
    rw [h.arr]
    apply List.ext_getElem
    · simp
    · intro k h1 h2
      simp only [List.getElem_mapIdx, List.getElem_map, List.getElem_range]
      have hk : k < bpg := by simpa using h2
      rw [hf]
      by_cases hi : g ≤ k
      · have e1 := flat_le (cs := cs) (show k + 1 ≤ bpg by omega)
        have e2 := flat_le (cs := cs) (show g + 1 ≤ k + 1 by omega)
        rw [if_pos hi, if_pos (by omega), sub64_eq (by omega) (by rw [W64_eq]; omega)]
      · rw [if_neg hi, if_neg (by omega)]; rfl

end SC
