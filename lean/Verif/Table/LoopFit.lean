import Verif.Table.Sweep
import Verif.Table.Forward
import Verif.Table.FitRun
/-!
# Loops that change the table, in tables that demand values of at most `value_width()` bits

What the body of a loop does matters only for the elements that are visited, so the values it assigns need to fit only for those.
-/
namespace SC

variable {S O : Type} {g : Cfg S O}

theorem sweep_congr {a a' : Nat → Nat → LoopAct} : ∀ (f : Nat) (t t' : Tab S O) (n : Nav) (l : List (Nat × Nat)),
    Tab.sweep g a f t n = .ok (t', l) → (∀ e ∈ l, a e.1 e.2 = a' e.1 e.2) → Tab.sweep g a' f t n = .ok (t', l) := by
  intro f
  induction f with
  | zero => intro t t' n l h; cases h
  | succ f ih =>
    intro t t' n l h he
    unfold Tab.sweep at h ⊢
    obtain ⟨x, h1, h⟩ := bind_eq_ok h
    rw [h1, ok_bind]
    cases x with
    | true => exact h
    | false =>
      simp only [Bool.false_eq_true, if_false] at h ⊢
      obtain ⟨k, h2, h⟩ := bind_eq_ok h
      obtain ⟨v, h3, h⟩ := bind_eq_ok h
      obtain ⟨t1, h4, h⟩ := bind_eq_ok h
      obtain ⟨n1, h5, h⟩ := bind_eq_ok h
      obtain ⟨⟨t2, l2⟩, h6, h⟩ := bind_eq_ok h
      cases h
      rw [he (k, v) (by simp)] at h4
      rw [h2, ok_bind, h3, ok_bind, h4, ok_bind, h5, ok_bind, ih t1 t2 n1 l2 h6 (fun e h => he e (by simp [h]))]
      rfl

theorem update_congr {a a' : Nat → Nat → Nat} : ∀ (f : Nat) (t t' : Tab S O) (n : Nav) (l : List (Nat × Nat)),
    Tab.update g a f t n = .ok (t', l) → (∀ e ∈ l, a e.1 e.2 = a' e.1 e.2) → Tab.update g a' f t n = .ok (t', l) := by
  intro f
  induction f with
  | zero => intro t t' n l h; cases h
  | succ f ih =>
    intro t t' n l h he
    unfold Tab.update at h ⊢
    obtain ⟨x, h1, h⟩ := bind_eq_ok h
    rw [h1, ok_bind]
    cases x with
    | true => exact h
    | false =>
      simp only [Bool.false_eq_true, if_false] at h ⊢
      obtain ⟨k, h2, h⟩ := bind_eq_ok h
      obtain ⟨v, h3, h⟩ := bind_eq_ok h
      obtain ⟨t1, h4, h⟩ := bind_eq_ok h
      obtain ⟨n1, h5, h⟩ := bind_eq_ok h
      obtain ⟨⟨t2, l2⟩, h6, h⟩ := bind_eq_ok h
      cases h
      rw [he (k, v) (by simp)] at h4
      rw [h2, ok_bind, h3, ok_bind, h4, ok_bind, h5, ok_bind, ih t1 t2 n1 l2 h6 (fun e h => he e (by simp [h]))]
      rfl

theorem forward_congr {mode : AfterErase} {a a' : Nat → Nat → LoopAct} : ∀ (f : Nat) (t t' : Tab S O) (n : Nav) (l : List (Nat × Nat)),
    Tab.forward g mode a f t n = .ok (t', l) → (∀ e ∈ l, a e.1 e.2 = a' e.1 e.2) → Tab.forward g mode a' f t n = .ok (t', l) := by
  intro f
  induction f with
  | zero => intro t t' n l h; cases h
  | succ f ih =>
    intro t t' n l h he
    unfold Tab.forward at h ⊢
    obtain ⟨x, h1, h⟩ := bind_eq_ok h
    rw [h1, ok_bind]
    cases x with
    | true => exact h
    | false =>
      simp only [Bool.false_eq_true, if_false] at h ⊢
      obtain ⟨k, h2, h⟩ := bind_eq_ok h
      obtain ⟨v, h3, h⟩ := bind_eq_ok h
      obtain ⟨t1, h4, h⟩ := bind_eq_ok h
      obtain ⟨n1, h5, h⟩ := bind_eq_ok h
      obtain ⟨⟨t2, l2⟩, h6, h⟩ := bind_eq_ok h
      cases h
      rw [he (k, v) (by simp)] at h4 h5
      rw [h2, ok_bind, h3, ok_bind, h4, ok_bind, h5, ok_bind, ih t1 t2 n1 l2 h6 (fun e h => he e (by simp [h]))]
      rfl

/-- what a loop does to a sequence of pairs depends on the body for these pairs only -/
theorem forwardPairs_act (mode : AfterErase) {β tr tr' : Nat → Nat} {act act' : Nat → Nat → LoopAct} :
    ∀ (N : Nat) (l : List (Nat × Nat)), l.length ≤ N → (∀ x ∈ l, (act x.1 x.2).result tr x.2 = (act' x.1 x.2).result tr' x.2) →
      forwardPairs mode β tr act l = forwardPairs mode β tr' act' l ∧ ∀ e ∈ (forwardPairs mode β tr act l).1, e ∈ l := by
  intro N
  induction N with
  | zero =>
    intro l hl _
    have : l = [] := List.eq_nil_of_length_eq_zero (by omega)
    subst this
    simp [forwardPairs]
  | succ N ih =>
    intro l hl h
    cases l with
    | nil => simp [forwardPairs]
    | cons e r =>
      rw [List.length_cons] at hl
      obtain ⟨ihr, ihm⟩ := ih r (by omega) (fun x hx => h x (by simp [hx]))
      have he := h e (by simp)
      cases hr : (act e.1 e.2).result tr e.2 with
      | some v =>
        rw [forwardPairs_some hr, forwardPairs_some (he.symm.trans hr), ← ihr]
        exact ⟨rfl, fun x hx => by
          rcases List.mem_cons.mp hx with rfl | hx
          · simp
          · exact List.mem_cons_of_mem _ (ihm x hx)⟩
      | none =>
        by_cases hm : if sameNext β e r then mode ≠ .step else mode ≠ .stay
        · rw [forwardPairs_none hr hm, forwardPairs_none (he.symm.trans hr) hm, ← ihr]
          exact ⟨rfl, fun x hx => by
            rcases List.mem_cons.mp hx with rfl | hx
            · simp
            · exact List.mem_cons_of_mem _ (ihm x hx)⟩
        · by_cases hs : sameNext β e r = true
          · rw [if_pos hs] at hm
            have hm : mode = .step := by cases mode <;> simp_all
            subst hm
            cases r with
            | nil => cases hs
            | cons e' r =>
              obtain ⟨ihr, ihm⟩ := ih r (by rw [List.length_cons] at hl; omega) (fun x hx => h x (by simp [hx]))
              rw [forwardPairs_skip hr hs, forwardPairs_skip (he.symm.trans hr) hs, ← ihr]
              exact ⟨rfl, fun x hx => by
                rcases List.mem_cons.mp hx with rfl | hx
                · simp
                · exact List.mem_cons_of_mem _ (List.mem_cons_of_mem _ (ihm x hx))⟩
          · rw [if_neg hs] at hm
            have hs : sameNext β e r = false := by simpa using hs
            have hm : mode = .stay := by cases mode <;> simp_all
            subst hm
            rw [forwardPairs_stop hr hs, forwardPairs_stop (he.symm.trans hr) hs]
            exact ⟨rfl, fun x hx => by simp at hx; simp [hx]⟩

/-- the body fits the table: the values that it assigns to the elements of `l` have at most `vw` bits -/
def BodyFits (vw : Nat) (act : Nat → Nat → LoopAct) (l : List (Nat × Nat)) : Prop := ∀ e ∈ l, ∀ x, act e.1 e.2 = .assign x → x < 2 ^ vw

/-- the body without assignments of values that do not fit -/
def clip (vw : Nat) (act : Nat → Nat → LoopAct) (k v : Nat) : LoopAct :=
  match act k v with
  | .assign x => if x < 2 ^ vw then .assign x else .keep
  | a => a

theorem clip_eq {vw : Nat} {act : Nat → Nat → LoopAct} {l : List (Nat × Nat)} (h : BodyFits vw act l) {e : Nat × Nat} (he : e ∈ l) :
    clip vw act e.1 e.2 = act e.1 e.2 := by
  unfold clip
  cases ha : act e.1 e.2 with
  | keep => rfl
  | erase => rfl
  | assign x => simp only [if_pos (h e he x ha)]

theorem clip_result {tr : Nat → Nat → Nat} {vw : Nat} {act : Nat → Nat → LoopAct} {l : List (Nat × Nat)} (h : BodyFits vw act l) {e : Nat × Nat}
    (he : e ∈ l) : (clip vw act e.1 e.2).result (fitNorm tr vw) e.2 = (act e.1 e.2).result (tr vw) e.2 := by
  rw [clip_eq h he]
  cases ha : act e.1 e.2 with
  | keep => rfl
  | erase => rfl
  | assign x => simp only [LoopAct.result, fit_eq (h e he x ha)]

theorem clip_sweepPairs {tr : Nat → Nat → Nat} {vw : Nat} {act : Nat → Nat → LoopAct} {l : List (Nat × Nat)} (h : BodyFits vw act l) :
    sweepPairs (fitNorm tr vw) (clip vw act) l = sweepPairs (tr vw) act l := by
  unfold sweepPairs
  induction l with
  | nil => rfl
  | cons e l ih => rw [List.filterMap_cons, List.filterMap_cons, clip_result h (by simp), ih (fun e he => h e (by simp [he]))]

variable {P : Par S O} {tr : Nat → Nat → Nat} {valid : MapOp → Prop} {t : Tab S O} {m : FMap}

theorem clip_fits (h1 : P.norm = fitNorm tr) (h2 : P.normO = fitNormO tr P.vw) (act : Nat → Nat → LoopAct) : ActFits P (clip P.vw act) := by
  intro k v x h
  rw [h1, h2]
  refine fit_iff.mpr ?_
  unfold clip at h
  split at h
  · split at h
    · cases h; assumption
    · cases h
  · next hne => exact absurd h (hne x)

theorem HoldsPairs.fit {kw vw lo hi : Nat} {l : List (Nat × Nat)} {t0 : Tab S O} (h : HoldsPairs g (fitNorm tr vw) kw valid l t0 t)
    (hv : ∀ op, valid op → ValidOp kw lo hi (fun v => v < 2 ^ vw) op) : HoldsPairs g (tr vw) kw valid l t0 t := by
  obtain ⟨a1, a2, a3, m, a4, a5, a6⟩ := h
  refine ⟨a1, a2, a3, m, a4, a5, fun ops hops => ?_⟩
  obtain ⟨t', h'⟩ := a6 ops hops
  refine ⟨t', ?_⟩
  rw [← (FMap.run_congr (f := fitNorm tr vw) (g := tr vw) (fit_eq (Nat.two_pow_pos _)) (fun v hv => fit_eq hv) ops m
    (fun op hop => hv op (hops op hop))).1]
  exact h'

section
variable (L : Laws g P) (h1 : P.norm = fitNorm tr) (h2 : P.normO = fitNormO tr P.vw) (hno : NoOverflow P) (hg : P.grow < 65)
  (hv : ∀ op, valid op → OpOK P op) {lo hi : Nat} (hw : ∀ op, valid op → ValidOp P.kw lo hi (fun v => v < 2 ^ P.vw) op) (h : Sem g P t m)
include L h1 h2 hno hg hv hw h

theorem fit_sweep (hne : t.size ≠ 0) {act : Nat → Nat → LoopAct} (hfit : ∀ l, t.pairs g = .ok l → BodyFits P.vw act l) :
    SweepSpec g (tr P.vw) P.kw valid act t := by
  obtain ⟨l, t', a1, a2, a3⟩ := fact_sweep L (clip_fits h1 h2 act) hno hg hv h hne
  have hb := hfit l a1
  rw [h1, clip_sweepPairs hb] at a3
  refine ⟨l, t', a1, ?_, a3.fit hw⟩
  obtain ⟨n, b1, b2⟩ := bind_eq_ok a2
  unfold Tab.sweepAll
  rw [b1, ok_bind]
  exact sweep_congr _ _ _ _ _ b2 (fun e he => clip_eq hb (by simpa using he))

theorem fit_sweepFrom {act : Nat → Nat → LoopAct} (hfit : ∀ l, t.pairs g = .ok l → BodyFits P.vw act l) :
    SweepFromSpec g (tr P.vw) P.kw valid act t := by
  obtain ⟨l, a1, a2⟩ := fact_sweepFrom L (clip_fits h1 h2 act) hno hg hv h
  have hb := hfit l a1
  refine ⟨l, a1, fun j e hj => ?_⟩
  obtain ⟨n, t', b1, b2, b3⟩ := a2 j e hj
  rw [h1, clip_sweepPairs (fun e he => hb e (List.mem_of_mem_take he))] at b3
  exact ⟨n, t', b1, sweep_congr _ _ _ _ _ b2 (fun e he => clip_eq hb (List.mem_of_mem_take (by simpa using he))), b3.fit hw⟩

theorem fit_eraseForward (mode : AfterErase) {act : Nat → Nat → LoopAct} (hfit : ∀ l, t.pairs g = .ok l → BodyFits P.vw act l) :
    EraseForwardSpec g (tr P.vw) P.kw valid mode act t := by
  obtain ⟨l, t', a1, a2, a3⟩ := fact_eraseForward L (clip_fits h1 h2 act) hno hg hv h mode
  have hb := hfit l a1
  obtain ⟨c1, c2⟩ := forwardPairs_act mode (β := bucketOf g t) (tr := fitNorm tr P.vw) (tr' := tr P.vw) (act := clip P.vw act) (act' := act)
    l.length l (Nat.le_refl _) (fun e he => clip_result hb he)
  rw [h1] at a2 a3
  rw [c1] at a3
  refine ⟨l, t', a1, ?_, a3.fit hw⟩
  rw [← c1]
  obtain ⟨n, b1, b2⟩ := bind_eq_ok a2
  unfold Tab.forwardAll
  rw [b1, ok_bind]
  exact forward_congr _ _ _ _ _ b2 (fun e he => clip_eq hb (c2 e he))

theorem fit_update {f : Nat → Nat → Nat} (hfit : ∀ l, t.pairs g = .ok l → ∀ e ∈ l, f e.1 e.2 < 2 ^ P.vw) :
    UpdateSpec g (tr P.vw) P.kw valid f t := by
  obtain ⟨l, t', a1, a2, a3⟩ := fact_update L (f := fun k v => if f k v < 2 ^ P.vw then f k v else 0) (fun k v => by
    rw [h1, h2]
    refine fit_iff.mpr ?_
    split
    · assumption
    · exact Nat.two_pow_pos _) hno hg hv h
  have hb := hfit l a1
  have e : l.map (fun e => (e.1, P.norm P.vw (if f e.1 e.2 < 2 ^ P.vw then f e.1 e.2 else 0))) = l.map (fun e => (e.1, tr P.vw (f e.1 e.2))) :=
    List.map_congr_left fun e he => by rw [if_pos (hb e he), h1, fit_eq (hb e he)]
  rw [e, h1] at a3
  refine ⟨l, t', a1, ?_, a3.fit hw⟩
  obtain ⟨n, b1, b2⟩ := bind_eq_ok a2
  unfold Tab.updateAll
  rw [b1, ok_bind]
  exact update_congr _ _ _ _ _ b2 (fun e he => if_pos (hb e he))

end

end SC
