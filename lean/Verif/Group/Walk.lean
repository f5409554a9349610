import Verif.Group.Table
/-!
# `begin()`, `rbegin_nav()` and `reserve` of `group_chaining_table` on reachable tables
-/
namespace SC
variable {c : GrpCfg} {hk : HashKind} {kw vw : Nat} {sp : Bool} {P : Par GrpStore Unit}

theorem scanUp_first {S O : Type} {g : Cfg S O} {P : Par S O} (L : Laws g P) {t : Tab S O} {c : Cont}
    {o : List (Nat × Nat × Nat)} {full : Nat → Bool} (h : Live g P t c o full) :
    ∀ n b b', b + n = 2 ^ t.tb → b ≤ b' → b' ≤ 2 ^ t.tb → (∀ y, b ≤ y → y < b' → c y = []) → (b' < 2 ^ t.tb → c b' ≠ []) →
      t.scanUp g n b = .ok b' := by
  intro n
  induction n with
  | zero => intro b b' h1 h2 h3 _ _; rw [show b' = b by omega]; rfl
  | succ n ih =>
    intro b b' h1 h2 h3 h4 h5
    have hs := L.store.size _ _ _ b (h.good L) h.rep (show b < 2 ^ t.tb by omega)
    by_cases hb : b = b'
    · subst hb
      have : (c b).length ≠ 0 := fun e => h5 (by omega) (List.eq_nil_of_length_eq_zero e)
      simp only [Tab.scanUp, hs, ok_bind, if_neg this]; rfl
    · simp only [Tab.scanUp, hs, ok_bind, h4 b (by omega) (by omega), List.length_nil, if_true]
      exact ih (b + 1) b' (by omega) (by omega) h3 (fun y hy1 hy2 => h4 y (by omega) hy2) h5

section
variable (L : Laws (grpMap c hk) (grpPar sp hk kw vw)) {t : Tab GrpStore Unit} {cont : Cont} {full : Nat → Bool}

theorem grpCover (h : Live (grpMap c hk) (grpPar sp hk kw vw) t cont [] full) : 2 ^ t.tb < t.store.n * t.bpg := by
  have hr : GrpRep sp t.store (t.dim (grpMap c hk)) cont := h.rep
  rw [hr.n]
  show 2 ^ t.tb < (2 ^ t.tb / t.bpg + 1) * t.bpg
  have h1 := Nat.div_add_mod (2 ^ t.tb) t.bpg
  have h2 := Nat.mod_lt (2 ^ t.tb) h.bpg_pos
  rw [Nat.add_mul, Nat.one_mul, Nat.mul_comm]
  omega

include L

theorem grpCount_eq (h : Live (grpMap c hk) (grpPar sp hk kw vw) t cont [] full) : grpCount t = t.store.n := by
  have hr : GrpRep sp t.store (t.dim (grpMap c hk)) cont := h.rep
  have := h.tb_pos L
  unfold grpCount
  rw [if_neg (by omega), h.bc L, hr.n]; rfl

/-- `begin()` is the navigator the loop over the buckets would give. -/
theorem Live.grpBegin (h : Live (grpMap c hk) (grpPar sp hk kw vw) t cont [] full) :
    grpBegin c t = t.beginNav (grpMap c hk) := by
  have hr : GrpRep sp t.store (t.dim (grpMap c hk)) cont := h.rep
  have ho : (grpMap c hk).ov.size t.ovf = 0 := by rw [h.osize L]; rfl
  have hb := h.bpg_le
  have hn := grpCount_eq L h
  have hcov := grpCover h
  have hpos := Nat.two_pow_pos t.tb
  rcases grpFirst_ok (c := c) (show (t.dim (grpMap c hk)).bpg ≤ 255 from Nat.le_trans hb (by omega)) hr t.store.n 0 (by omega) with
    ⟨b, h1, h2, h3⟩ | ⟨h1, h2⟩
  · have hlt : b < 2 ^ t.tb := Nat.lt_of_not_le (fun hge => h2 (hr.out b hge))
    have hs := scanUp_first L h (2 ^ t.tb) 0 b (by omega) (by omega) (by omega) (fun y hy1 hy2 => h3 y (by omega) hy2) (fun _ => h2)
    have h1' : grpFirst c t.store t.bpg t.store.n 0 = .ok (some b) := h1
    simp only [SC.grpBegin, hn, h1', ok_bind, Tab.beginNav, h.bc L, hs, if_pos hlt]
  · have hs := scanUp_first L h (2 ^ t.tb) 0 (2 ^ t.tb) (by omega) (by omega) (by omega) (fun y _ hy2 => h2 y (by omega)
      (Nat.lt_trans hy2 hcov)) (fun hlt => absurd hlt (Nat.lt_irrefl _))
    have h1' : grpFirst c t.store t.bpg t.store.n 0 = .ok none := h1
    simp only [SC.grpBegin, hn, h1', ok_bind, Tab.beginNav, h.bc L, hs, Nat.lt_irrefl, if_false, ho]

/-- `rbegin_nav()`: the last bucket that is not empty, and its size as position -/
theorem Live.grpRbegin (h : Live (grpMap c hk) (grpPar sp hk kw vw) t cont [] full) (hne : t.elems ≠ 0) :
    ∃ b, grpRbegin c t = .ok ⟨b, (cont b).length⟩ ∧ b < 2 ^ t.tb ∧ cont b ≠ [] ∧ ∀ x, b < x → x < 2 ^ t.tb → cont x = [] := by
  have hr : GrpRep sp t.store (t.dim (grpMap c hk)) cont := h.rep
  have hb := h.bpg_le
  have hn := grpCount_eq L h
  have hcov := grpCover h
  have hpos := Nat.two_pow_pos t.tb
  rcases grpLast_ok (c := c) (show (t.dim (grpMap c hk)).bpg ≤ 255 from Nat.le_trans hb (by omega)) hr t.store.n (Nat.le_refl _) with
    ⟨b, h1, h2, h3, h4⟩ | ⟨h1, h2⟩
  · have h1' : grpLast c t.store t.bpg t.store.n = .ok (some (b, (cont b).length)) := h1
    refine ⟨b, ?_, Nat.lt_of_not_le (fun hge => h3 (hr.out b hge)), h3, fun x hx1 hx2 => h4 x hx1 (Nat.lt_trans hx2 hcov)⟩
    simp only [SC.grpRbegin, h.bc L, if_neg (show ¬ 2 ^ t.tb = 0 by omega), hn, h1', ok_bind]
    rfl
  · exfalso
    apply hne
    rw [h.elems]
    simp only [ents, stored, List.map_nil, List.append_nil, List.length_eq_zero_iff, List.flatMap_eq_nil_iff]
    intro b hb
    have : b < 2 ^ t.tb := by simpa using hb
    rw [h2 b (Nat.lt_trans this hcov)]; rfl

/-- ... and the end if there are no entries -/
theorem Live.grpRbegin_empty (h : Live (grpMap c hk) (grpPar sp hk kw vw) t cont [] full) (he : t.elems = 0) :
    SC.grpRbegin c t = .ok Nav.end_ := by
  have hr : GrpRep sp t.store (t.dim (grpMap c hk)) cont := h.rep
  have hb := h.bpg_le
  have hn := grpCount_eq L h
  have hpos := Nat.two_pow_pos t.tb
  rw [h.elems] at he
  simp only [ents, stored, List.map_nil, List.append_nil, List.length_eq_zero_iff, List.flatMap_eq_nil_iff] at he
  rcases grpLast_ok (c := c) (show (t.dim (grpMap c hk)).bpg ≤ 255 from Nat.le_trans hb (by omega)) hr t.store.n (Nat.le_refl _) with
    ⟨b, h1, h2, h3, h4⟩ | ⟨h1, h2⟩
  · have hlt : b < 2 ^ t.tb := Nat.lt_of_not_le (fun hge => h3 (hr.out b hge))
    have := he b (by simpa using hlt)
    simp only [bEnts, List.map_eq_nil_iff] at this
    exact absurd this h3
  · have h1' : grpLast c t.store t.bpg t.store.n = .ok none := h1
    simp only [SC.grpRbegin, h.bc L, if_neg (show ¬ 2 ^ t.tb = 0 by omega), hn, h1', ok_bind]
    rfl

end

/-! ## `reserve` -/

theorem foldlM_same {α β : Type} {f g : β → α → Res β} : ∀ {l : List α} {x : β}, (∀ a ∈ l, ∀ y, f y a = g y a) →
    l.foldlM f x = l.foldlM g x := by
  intro l
  induction l with
  | nil => intro x _; rfl
  | cons a l ih =>
    intro x h
    simp only [List.foldlM_cons, h a (by simp) x]
    congr 1
    funext y
    exact ih (fun b hb => h b (by simp [hb]))

theorem foldlM_skip {α β : Type} {f : β → α → Res β} : ∀ {l : List α} {x : β}, (∀ a ∈ l, ∀ y, f y a = .ok y) →
    l.foldlM f x = .ok x := by
  intro l
  induction l with
  | nil => intro x _; rfl
  | cons a l ih =>
    intro x h
    simp only [List.foldlM_cons, h a (by simp) x, ok_bind]
    exact ih (fun b hb => h b (by simp [hb]))

section
variable (L : Laws (grpMap c hk) (grpPar sp hk kw vw)) {t : Tab GrpStore Unit} {cont : Cont} {full : Nat → Bool}
  {ins : Tab GrpStore Unit → Nat → Nat → Res (Tab GrpStore Unit × Nav)}
include L

/-- one bucket -/
theorem grpMoveBucket_eq (h : Live (grpMap c hk) (grpPar sp hk kw vw) t cont [] full) {i j : Nat} (hj : j < t.store.n)
    (hi : i < t.bpg) (tmp : Tab GrpStore Unit) :
    grpMoveBucket c hk ins t (t.store.grp j) j tmp i =
      if j * t.bpg + i < 2 ^ t.tb then t.moveBucket (grpMap c hk) ins tmp (j * t.bpg + i) else .ok tmp := by
  have hr : GrpRep sp t.store (t.dim (grpMap c hk)) cont := h.rep
  have hsl : SlotRep sp (t.store.grp j) t.bpg _ _ (localCont t.bpg cont j) := hr.grp j hj
  have hbs := hsl.bsize (c := c) (Nat.le_trans h.bpg_le (by omega)) hi
  have hloc : localCont t.bpg cont j i = cont (j * t.bpg + i) := by unfold localCont; rw [if_pos hi]
  rw [hloc] at hbs
  have hdiv : (j * t.bpg + i) / t.bpg = j := by
    rw [Nat.mul_comm, Nat.mul_add_div h.bpg_pos, Nat.div_eq_of_lt hi, Nat.add_zero]
  have hmod : (j * t.bpg + i) % t.bpg = i := by
    rw [Nat.mul_comm, Nat.mul_add_mod, Nat.mod_eq_of_lt hi]
  by_cases hb : j * t.bpg + i < 2 ^ t.tb
  · rw [if_pos hb]
    have hsz := L.store.size _ _ _ _ (h.good L) h.rep hb
    simp only [grpMoveBucket, hbs, ok_bind, Tab.moveBucket, hsz]
    apply foldlM_same
    intro p hp y
    have hp : p < (cont (j * t.bpg + i)).length := by simpa using hp
    have hq := L.store.quotientAt _ _ _ _ p (h.good L) h.rep hb hp
    have hv := L.store.valueAt _ _ _ _ p (h.good L) h.rep hb hp
    have hg : t.store.get j = .ok (t.store.grp j) := by unfold GrpStore.get; rw [if_pos hj]
    have hq' : (t.store.grp j).readKey c i p ((t.hash (grpMap c hk)).remainderWidth t.tb) = .ok (cont (j * t.bpg + i))[p].1 := by
      rw [← hq]
      show _ = (do
        let x ← t.store.get ((j * t.bpg + i) / t.bpg)
        x.readKey c ((j * t.bpg + i) % t.bpg) p ((t.hash (grpMap c hk)).remainderWidth t.tb))
      rw [hdiv, hmod, hg, ok_bind]
    have hv' : (t.store.grp j).readValue c i p t.vw = .ok (cont (j * t.bpg + i))[p].2 := by
      rw [← hv]
      show _ = (do
        let x ← t.store.get ((j * t.bpg + i) / t.bpg)
        x.readValue c ((j * t.bpg + i) % t.bpg) p t.vw)
      rw [hdiv, hmod, hg, ok_bind]
    simp only [hq, hv, hq', hv', ok_bind, Nat.add_comm i]
  · rw [if_neg hb]
    rw [hr.out _ (Nat.le_of_not_lt hb)] at hbs
    simp only [grpMoveBucket, hbs, ok_bind, List.length_nil, List.range_zero, List.foldlM_nil]
    rfl

theorem grpMoveGroup_eq (h : Live (grpMap c hk) (grpPar sp hk kw vw) t cont [] full) {j : Nat} (hj : j < t.store.n)
    (tmp : Tab GrpStore Unit) :
    grpMoveGroup c hk ins t tmp j = (List.range t.bpg).foldlM (fun tmp i =>
      if j * t.bpg + i < 2 ^ t.tb then t.moveBucket (grpMap c hk) ins tmp (j * t.bpg + i) else .ok tmp) tmp := by
  have hr : GrpRep sp t.store (t.dim (grpMap c hk)) cont := h.rep
  have hsl : SlotRep sp (t.store.grp j) t.bpg _ _ (localCont t.bpg cont j) := hr.grp j hj
  have hg : t.store.get j = .ok (t.store.grp j) := by unfold GrpStore.get; rw [if_pos hj]
  by_cases h0 : (t.store.grp j).size = 0
  · simp only [grpMoveGroup, hg, ok_bind, if_pos h0, pure_eq_ok]
    symm
    apply foldlM_skip
    intro i hi y
    have hi : i < t.bpg := by simpa using hi
    have he := hsl.empty h0 hi
    unfold localCont at he
    rw [if_pos hi] at he
    by_cases hb : j * t.bpg + i < 2 ^ t.tb
    · rw [if_pos hb]
      have hsz := L.store.size _ _ _ _ (h.good L) h.rep hb
      rw [he] at hsz
      simp only [Tab.moveBucket, hsz, ok_bind, List.length_nil, List.range_zero, List.foldlM_nil]
      rfl
    · rw [if_neg hb]
  · simp only [grpMoveGroup, hg, ok_bind, if_neg h0]
    apply foldlM_same
    intro i hi y
    exact grpMoveBucket_eq L h hj (by simpa using hi) y

theorem grpMove_eq (h : Live (grpMap c hk) (grpPar sp hk kw vw) t cont [] full) (tmp : Tab GrpStore Unit) : ∀ n, n ≤ t.store.n →
    (List.range n).foldlM (fun tmp j => grpMoveGroup c hk ins t tmp j) tmp =
      (List.range (n * t.bpg)).foldlM (fun tmp b => if b < 2 ^ t.tb then t.moveBucket (grpMap c hk) ins tmp b else .ok tmp) tmp := by
  intro n
  induction n with
  | zero => intro _; simp
  | succ n ih =>
    intro hn
    rw [List.range_succ, List.foldlM_append, ih (by omega), Nat.add_mul, Nat.one_mul, List.range_add, List.foldlM_append]
    congr 1
    funext y
    rw [List.foldlM_cons, grpMoveGroup_eq L h (show n < t.store.n by omega), List.foldlM_map]
    simp only [List.foldlM_nil]
    cases List.foldlM (fun tmp i => if n * t.bpg + i < 2 ^ t.tb then t.moveBucket (grpMap c hk) ins tmp (n * t.bpg + i) else .ok tmp) y
      (List.range t.bpg) <;> rfl

/-- `reserve` as it is written, group by group, does what the common control flow does. -/
theorem Live.grpReserve (h : Live (grpMap c hk) (grpPar sp hk kw vw) t cont [] full) (n nkw : Nat) :
    SC.grpReserve c hk t n nkw = t.reserve (grpMap c hk) n nkw := by
  have ho : (grpMap c hk).ov.size t.ovf = 0 := by rw [h.osize L]; rfl
  have htb := h.tb_pos L
  have hn := grpCount_eq L h
  have hcov := grpCover h
  unfold SC.grpReserve Tab.reserve Tab.reserveWith
  congr 1
  funext bits
  rw [if_neg (show ¬ t.tb = 0 by omega), if_neg (show ¬ t.tb = 0 by omega)]
  show (Tab.reserveEmpty _ _ _ >>= _) = (Tab.reserveEmpty _ _ _ >>= _)
  congr 1
  funext tmp
  rw [hn, grpMove_eq L h tmp _ (Nat.le_refl _), h.bc L, show t.store.n * t.bpg = 2 ^ t.tb + (t.store.n * t.bpg - 2 ^ t.tb) by omega,
    List.range_add, List.foldlM_append]
  rw [foldlM_same (l := List.range (2 ^ t.tb)) (g := fun tmp b => t.moveBucket (grpMap c hk) (Tab.findOrInsert (grpMap c hk) depth) tmp b)
    (fun b hb y => by rw [if_pos (by simpa using hb)])]
  congr 1
  funext y
  rw [foldlM_skip (fun b hb z => by
    obtain ⟨i, _, rfl⟩ := List.mem_map.mp hb
    rw [if_neg (by omega)])]
  rfl

end

end SC
