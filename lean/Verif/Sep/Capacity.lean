import Verif.Sep.Table
import Verif.Table.Facts
/-! # Bucket sizes and capacity of `separate_chaining_table` -/
namespace SC
variable {KB VB O : Type} {p : SepCfg KB VB} {KRep : KB → Nat → Nat → List Nat → Prop}
  {VRep : VB → Nat → Nat → List Nat → Prop} {tight : Bool}

/-- `bucket_size(b)`, sep:313-315, for all buckets -/
def sepBucketSizes (t : Tab (SepStore KB VB) O) : Res (List Nat) :=
  (List.range t.bucketCount).mapM (fun b => do
    let x ← t.store.get b
    return x.size)

theorem mapM_ok {α β : Type} {f : α → Res β} {h : α → β} : ∀ {l : List α}, (∀ a ∈ l, f a = .ok (h a)) →
    l.mapM f = .ok (l.map h) := by
  intro l
  induction l with
  | nil => intro _; rfl
  | cons a l ih =>
    intro hl
    rw [List.mapM_cons, hl a (by simp), ih (fun a ha => hl a (by simp [ha]))]
    rfl

theorem length_stored (H : HashMapping) (tb : Nat) (c : Cont) :
    (stored H tb c).length = ((List.range (2 ^ tb)).map (fun b => (c b).length)).sum := by
  unfold stored
  rw [List.length_flatMap]
  simp [bEnts]

theorem sum_le_mul {M : Nat} : ∀ {l : List Nat}, (∀ x ∈ l, x ≤ M) → l.sum ≤ M * l.length := by
  intro l
  induction l with
  | nil => intro _; simp
  | cons a l ih =>
    intro h
    have h1 := h a (by simp)
    have h2 := ih (fun x hx => h x (by simp [hx]))
    rw [List.sum_cons, List.length_cons, Nat.mul_succ]; omega

theorem capacity_fold {s : SepStore KB VB} : ∀ {bs : List Nat} {a : Nat}, (∀ b ∈ bs, b < s.n) →
    bs.foldlM (fun a b => do
      let x ← s.get b
      return a + p.strat.size x.cap x.size) a = (.ok (a + (bs.map (fun b => p.strat.size (s.bkt b).cap (s.bkt b).size)).sum) : Res Nat) := by
  intro bs
  induction bs with
  | nil => intro a _; rfl
  | cons b bs ih =>
    intro a h
    have : s.get b = .ok (s.bkt b) := by unfold SepStore.get; rw [if_pos (h b (by simp))]
    rw [List.foldlM_cons]
    simp only [this, ok_bind, pure_eq_ok]
    refine Eq.trans (ih (fun b hb => h b (by simp [hb]))) ?_
    simp [Nat.add_assoc]

/-- the stored capacity of a bucket equals its size -/
def SepCfg.Snug (p : SepCfg KB VB) (x : SepBucket KB VB) : Prop := p.strat.size x.cap x.size = x.size

theorem snug_shrink {qw vw : Nat} {d : Dim} {x y : SepBucket KB VB} {xs : List (Nat × Nat)}
    (h : SepBRep p KRep VRep true qw vw x xs) (hy : p.shrinkBucket d x = .ok y) : p.Snug y := by
  unfold SepCfg.shrinkBucket at hy
  unfold SepCfg.Snug
  by_cases h0 : x.size = 0
  · rw [if_pos h0] at hy
    cases hy
    have hx : xs = [] := List.eq_nil_of_length_eq_zero (by rw [← h.size]; exact h0)
    cases hst : p.strat with
    | incremental => rfl
    | arbitrary => show x.cap = x.size; rw [h0, h.cap0 hx]
  · rw [if_neg h0] at hy
    by_cases hc : p.strat.canShrink x.cap x.size = true
    · rw [if_pos hc] at hy
      cases hk : p.kops.resize x.keys x.size x.size d.qw with
      | error e => rw [hk] at hy; simp at hy
      | ok ks =>
        cases hv : p.vops.resize x.vals x.size x.size d.vw with
        | error e => rw [hk, hv] at hy; simp at hy
        | ok vs =>
          rw [hk, hv] at hy
          simp only [ok_bind, pure_eq_ok] at hy
          cases hy
          cases p.strat <;> rfl
    · rw [if_neg hc] at hy
      cases hy
      cases hst : p.strat with
      | incremental => rfl
      | arbitrary =>
        rw [hst] at hc
        simp only [Strategy.canShrink, decide_eq_true_eq] at hc
        have := h.cap rfl hst
        have := h.size
        show x.cap = x.size
        omega

variable {hk : HashKind} {tr : Nat → Nat → Nat} {W kw vw : Nat} {P : Par (SepStore KB VB) Unit}

/-- the representation behind the parameters -/
theorem SepParOK.rep (hP : SepParOK p hk tr W kw vw tight P) : ∃ KRep VRep, ∀ s d c, P.Rep s d c → SepRep p KRep VRep tight s d c := by
  obtain ⟨KRep, VRep, rfl⟩ := hP.par
  exact ⟨KRep, VRep, fun s d c h => h⟩

theorem SepParOK.noOverflow (hP : SepParOK p hk tr W kw vw tight P) : NoOverflow P := by
  obtain ⟨KRep, VRep, rfl⟩ := hP.par
  intro o n l full h
  exact h.1

/-- all buckets are snug after `shrink_to_fit()` -/
theorem shrink_snug (hP : SepParOK p hk tr W kw vw true P) {c : Cont} {o : List (Nat × Nat × Nat)} {full : Nat → Bool} :
    ∀ (bs : List Nat) {t t' : Tab (SepStore KB VB) Unit}, Live (sepMap p hk) P t c o full → (∀ b ∈ bs, b < 2 ^ t.tb) →
    bs.foldlM (fun t b => do
      let s ← (sepMap p hk).ops.shrink t.store (t.dim (sepMap p hk)) b
      return { t with store := s }) t = .ok t' →
    ∀ b, (b ∈ bs ∨ p.Snug (t.store.bkt b)) → p.Snug (t'.store.bkt b) := by
  obtain ⟨KRep, VRep, hrep⟩ := hP.rep
  have L := hP.laws
  intro bs
  induction bs with
  | nil =>
    intro t t' _ _ he b hb
    simp only [List.foldlM_nil, pure_eq_ok, Except.ok.injEq] at he
    subst he
    simpa using hb
  | cons a bs ih =>
    intro t t' h hbs he b hb
    rw [List.foldlM_cons] at he
    have ha : a < 2 ^ t.tb := hbs a (by simp)
    obtain ⟨s1, h1, h2⟩ := L.store.shrink _ _ _ a (h.good L) h.rep ha
    rw [h1] at he
    simp only [ok_bind, pure_eq_ok] at he
    have hlive : Live (sepMap p hk) P { t with store := s1 } c o full := {
      tkw := h.tkw, tvw := h.tvw, bpg_pos := h.bpg_pos, bpg_le := h.bpg_le, lo := h.lo, hi := h.hi
      rep := h2, orep := h.orep, cok := h.cok, ofull := h.ofull, vals := h.vals, ovals := h.ovals, elems := h.elems }
    refine ih hlive (fun b hb => hbs b (by simp [hb])) he b ?_
    have hr := hrep _ _ _ h.rep
    -- what `shrink` did
    have hget := hr.get (b := a) ha
    have e1 : p.ops.shrink t.store (t.dim (sepMap p hk)) a = .ok s1 := h1
    simp only [SepCfg.ops, hget, ok_bind] at e1
    cases hy : p.shrinkBucket (t.dim (sepMap p hk)) (t.store.bkt a) with
    | error e => rw [hy] at e1; simp at e1
    | ok y =>
      rw [hy] at e1
      simp only [ok_bind, pure_eq_ok] at e1
      cases e1
      have hsn : p.Snug y := snug_shrink (hr.bkt a ha) hy
      by_cases hba : b = a
      · right
        subst hba
        show p.Snug (upd t.store.bkt b y b)
        rw [upd_same]; exact hsn
      · rcases hb with hb | hb
        · left; simpa [hba] using hb
        · right
          show p.Snug (upd t.store.bkt a y b)
          rw [upd_other _ _ hba]; exact hb

theorem sem_cases {t : Tab (SepStore KB VB) Unit} {m : FMap} (hP : SepParOK p hk tr W kw vw tight P) (h : Sem (sepMap p hk) P t m) :
    (t.tb = 0 ∧ t.size = 0) ∨ ∃ c full, Live (sepMap p hk) P t c [] full := by
  obtain ⟨l, h, _⟩ := h
  rcases h with ⟨_, _, _, _, h5, h6, _⟩ | ⟨c, o, full, hl, _⟩
  · exact .inl ⟨h5, h6⟩
  · have : o = [] := hP.noOverflow _ _ _ _ hl.orep
    subst this
    exact .inr ⟨c, full, hl⟩

theorem Live.size_sum {S O : Type} {g : Cfg S O} {P : Par S O} {t : Tab S O} {c : Cont} {full : Nat → Bool}
    (h : Live g P t c [] full) : t.size = ((List.range (2 ^ t.tb)).map (fun b => (c b).length)).sum := by
  rw [← length_stored (g.hash P.kw)]
  show t.elems = _
  rw [h.elems]; simp [ents]

theorem fact_occupancy {t : Tab (SepStore KB VB) Unit} {m : FMap} (hP : SepParOK p hk tr W kw vw true P)
    (h : Sem (sepMap p hk) P t m) :
    ∃ ns, sepBucketSizes t = .ok ns ∧ ns.length = t.bucketCount ∧ (∀ n ∈ ns, n ≤ p.maxSize) ∧ ns.sum = t.size ∧
      (t.bucketCount ≤ 2 ^ 56 → t.size ≤ p.maxTableSize t) := by
  obtain ⟨KRep, VRep, hrep⟩ := hP.rep
  rcases sem_cases hP h with ⟨h1, h2⟩ | ⟨c, full, hl⟩
  · refine ⟨[], ?_, by simp [Tab.bucketCount, h1], by simp, by simp [h2], by simp [h2]⟩
    simp only [sepBucketSizes, Tab.bucketCount, h1, if_true]; rfl
  · have hr := hrep _ _ _ hl.rep
    have hbc := hl.bc hP.laws
    have hsum := hl.size_sum
    have hle : ∀ n ∈ (List.range (2 ^ t.tb)).map (fun b => (c b).length), n ≤ p.maxSize := by
      intro n hn
      obtain ⟨b, hb, rfl⟩ := List.mem_map.mp hn
      have hb : b < 2 ^ t.tb := by simpa using hb
      exact (hr.bkt b hb).le
    refine ⟨(List.range (2 ^ t.tb)).map (fun b => (c b).length), ?_, by simp [hbc], hle, hsum.symm, ?_⟩
    · unfold sepBucketSizes
      rw [hbc]
      apply mapM_ok
      intro b hb
      have hb : b < 2 ^ t.tb := by simpa using hb
      rw [hr.get (b := b) hb, ok_bind, pure_eq_ok, (hr.bkt b hb).size]
    · intro hb
      have := sum_le_mul hle
      have hM : p.maxSize * 2 ^ t.tb ≤ 255 * 2 ^ 56 :=
        Nat.mul_le_mul (by unfold SepCfg.maxSize; omega) (by rw [← hbc]; exact hb)
      unfold SepCfg.maxTableSize
      rw [hbc, hsum, Nat.mod_eq_of_lt (Nat.lt_of_le_of_lt hM (by decide))]
      simpa using this

theorem capacity_eq {t : Tab (SepStore KB VB) Unit} {c : Cont} {full : Nat → Bool} (hP : SepParOK p hk tr W kw vw tight P)
    (hl : Live (sepMap p hk) P t c [] full) :
    p.capacity t = .ok ((List.range (2 ^ t.tb)).map
      (fun b => p.strat.size (t.store.bkt b).cap (t.store.bkt b).size)).sum := by
  obtain ⟨KRep, VRep, hrep⟩ := hP.rep
  have hn : t.store.n = 2 ^ t.tb := (hrep _ _ _ hl.rep).n
  unfold SepCfg.capacity
  rw [hl.bc hP.laws, capacity_fold (by intro b hb; rw [hn]; simpa using hb), Nat.zero_add]

theorem sum_le_sum {f h : Nat → Nat} : ∀ {l : List Nat}, (∀ x ∈ l, f x ≤ h x) → (l.map f).sum ≤ (l.map h).sum := by
  intro l
  induction l with
  | nil => intro _; simp
  | cons a l ih =>
    intro hl
    have h1 := hl a (by simp)
    have h2 := ih (fun x hx => hl x (by simp [hx]))
    simp only [List.map_cons, List.sum_cons]; omega

theorem fact_capacity {t : Tab (SepStore KB VB) Unit} {m : FMap} (hP : SepParOK p hk tr W kw vw true P)
    (h : Sem (sepMap p hk) P t m) : ∃ n, p.capacity t = .ok n ∧ t.size ≤ n := by
  obtain ⟨KRep, VRep, hrep⟩ := hP.rep
  rcases sem_cases hP h with ⟨h1, h2⟩ | ⟨c, full, hl⟩
  · exact ⟨0, by simp only [SepCfg.capacity, Tab.bucketCount, h1, if_true]; rfl, by omega⟩
  · have hr := hrep _ _ _ hl.rep
    refine ⟨_, capacity_eq hP hl, ?_⟩
    rw [hl.size_sum]
    apply sum_le_sum
    intro b hb
    have hb : b < 2 ^ t.tb := by simpa using hb
    have hx := hr.bkt b hb
    cases hst : p.strat with
    | incremental => exact Nat.le_of_eq hx.size.symm
    | arbitrary => exact hx.cap rfl hst

/-- with `incremental_resize`, `capacity()` is `size()` in any case -/
theorem fact_capacity_incremental {t : Tab (SepStore KB VB) Unit} {m : FMap} (hP : SepParOK p hk tr W kw vw tight P)
    (h : Sem (sepMap p hk) P t m) (hst : p.strat = .incremental) : p.capacity t = .ok t.size := by
  obtain ⟨KRep, VRep, hrep⟩ := hP.rep
  rcases sem_cases hP h with ⟨h1, h2⟩ | ⟨c, full, hl⟩
  · rw [h2]; simp only [SepCfg.capacity, Tab.bucketCount, h1, if_true]; rfl
  · have hr := hrep _ _ _ hl.rep
    rw [capacity_eq hP hl, hl.size_sum]
    congr 2
    apply List.map_congr_left
    intro b hb
    have hb : b < 2 ^ t.tb := by simpa using hb
    rw [hst]
    exact (hr.bkt b hb).size

theorem fact_shrink_capacity {t : Tab (SepStore KB VB) Unit} {m : FMap} (hP : SepParOK p hk tr W kw vw true P)
    (h : Sem (sepMap p hk) P t m) :
    ∃ t', t.shrink (sepMap p hk) = .ok t' ∧ Sem (sepMap p hk) P t' m ∧ p.capacity t' = .ok t'.size := by
  have L := hP.laws
  obtain ⟨t', h1, h2⟩ := fact_shrink L h
  refine ⟨t', h1, h2, ?_⟩
  rcases sem_cases hP h with ⟨h3, h4⟩ | ⟨c, full, hl⟩
  · have : t' = t := by simp only [Tab.shrink, h3, if_true, pure_eq_ok, Except.ok.injEq] at h1; exact h1.symm
    subst this
    rw [h4]
    simp only [SepCfg.capacity, Tab.bucketCount, h3, if_true]; rfl
  · have ht : ¬ t.tb = 0 := by have := hl.tb_pos L; omega
    obtain ⟨t'', g1, g2, g3⟩ := hl.shrinkFold L (List.range t.bucketCount) (by intro b hb; rw [hl.bc L] at hb; simpa using hb)
    have h1' := h1
    simp only [Tab.shrink, if_neg ht] at h1'
    have e : t'' = t' := Except.ok.inj (g1.symm.trans h1')
    subst e
    have hsn := shrink_snug hP (List.range t.bucketCount) hl (by intro b hb; rw [hl.bc L] at hb; simpa using hb) g1
    obtain ⟨KRep, VRep, hrep⟩ := hP.rep
    have hr := hrep _ _ _ g2.rep
    rw [capacity_eq hP g2, g2.size_sum]
    congr 2
    apply List.map_congr_left
    intro b hb
    have hb : b < 2 ^ t''.tb := by simpa using hb
    rw [hsn b (.inl (by rw [hl.bc L, ← g3]; simpa using hb))]
    exact (hr.bkt b hb).size

end SC
