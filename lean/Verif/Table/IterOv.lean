import Verif.Table.Facts
/-!
# Forward iteration with an overflow table in use
-/
namespace SC
variable {S O : Type} {g : Cfg S O} {P : Par S O}

/-- following the overflow table from position `i` -/
theorem visit_over (L : Laws g P) {t : Tab S O} {c : Cont} {o : List (Nat × Nat × Nat)} {full : Nat → Bool}
    (h : Live g P t c o full) : ∀ (es : List (Nat × Nat × Nat)) (f i : Nat), (∀ e ∈ es, e ∈ o) → OvWalk g.ov t.ovf i es →
    es.length < f → t.visit g f ⟨2 ^ t.tb, i⟩ = .ok (es.map (fun e => e.2)) := by
  have hbc := h.bc L
  intro es
  induction es with
  | nil =>
    intro f i _ hw hf
    obtain ⟨f', rfl⟩ : ∃ f', f = f' + 1 := ⟨f - 1, by omega⟩
    have hinv : t.invalid g ⟨2 ^ t.tb, i⟩ = .ok true := by
      have hw' : g.ov.validPosition t.ovf i = false := hw
      simp [Tab.invalid, hbc, hw']
    simp only [Tab.visit, navEq_true (h.tb_lt L) hinv, ok_bind, if_true, pure_eq_ok]
    rfl
  | cons e es ih =>
    intro f i hm hw hf
    obtain ⟨hi, hv, hw⟩ := hw
    subst hi
    obtain ⟨f', rfl⟩ : ∃ f', f = f' + 1 := ⟨f - 1, by omega⟩
    have heo := hm e (by simp)
    obtain ⟨r1, r2, r3⟩ := h.loc_read L (n := ⟨2 ^ t.tb, e.1⟩) (k := e.2.1) (v := e.2.2) (.inr ⟨e.1, rfl, heo⟩)
    have hs : 0 < g.ov.size t.ovf := by rw [h.osize L]; exact List.length_pos_of_mem heo
    have hnext : t.next g ⟨2 ^ t.tb, e.1⟩ = .ok ⟨2 ^ t.tb, g.ov.nextPosition t.ovf e.1⟩ := by
      simp only [Tab.next, hbc, hs, and_self, if_true]
    simp only [Tab.visit, navEq_false (h.tb_lt L) r3, ok_bind, r1, r2, hnext]
    rw [ih f' _ (fun x hx => hm x (by simp [hx])) hw (by simp at hf; omega)]
    rfl

/-- forward loop from an entry of a bucket, if the loop from position 0 of the overflow table visits `ol` -/
theorem visit_ok_over (L : Laws g P) {t : Tab S O} {c : Cont} {o : List (Nat × Nat × Nat)} {full : Nat → Bool}
    (h : Live g P t c o full) {ol : List (Nat × Nat)} (hol : ∀ f, ol.length < f → t.visit g f ⟨2 ^ t.tb, 0⟩ = .ok ol) :
    ∀ (f : Nat) (b i : Nat), b < 2 ^ t.tb → (hi : i < (c b).length) →
    ((bEnts (g.hash P.kw) t.tb b (c b)).drop i ++ entsFrom (g.hash P.kw) t.tb c (b + 1) (2 ^ t.tb - (b + 1)) ++ ol).length < f →
    t.visit g f ⟨b, i⟩ = .ok ((bEnts (g.hash P.kw) t.tb b (c b)).drop i ++
      entsFrom (g.hash P.kw) t.tb c (b + 1) (2 ^ t.tb - (b + 1)) ++ ol) := by
  have hbc := h.bc L
  intro f
  induction f with
  | zero => intro b i _ _ hf; omega
  | succ f ih =>
    intro b i hb hi hf
    obtain ⟨r1, r2, r3⟩ := h.loc_read L (h.loc L hb hi)
    have hsz := L.store.size _ _ _ b (h.good L) h.rep hb
    have hlen := L.store.len _ _ _ b (h.good L) h.rep hb
    have hlt : i + 1 < W64 := by show _ < 2 ^ 64; have : NPOS = 2 ^ 64 - 1 := rfl; omega
    have hd : (bEnts (g.hash P.kw) t.tb b (c b)).drop i =
        (invKey (g.hash P.kw) t.tb b (c b)[i].1, (c b)[i].2) :: (bEnts (g.hash P.kw) t.tb b (c b)).drop (i + 1) := by
      rw [List.drop_eq_getElem_cons (by simpa [bEnts] using hi)]
      simp [bEnts]
    rw [hd] at hf ⊢
    simp only [Tab.visit, navEq_false (h.tb_lt L) r3, ok_bind, r1, r2]
    have hnb : ¬ (0 < g.ov.size t.ovf ∧ b = 2 ^ t.tb) := by omega
    have hnext : t.next g ⟨b, i⟩ = if (c b).length ≤ i + 1 then (do
        let b ← t.scanUp g (t.bucketCount - (b + 1)) (b + 1)
        return ⟨b, 0⟩) else .ok ⟨b, i + 1⟩ := by
      simp only [Tab.next, hbc, if_neg hnb, ddcheck_ok hb, hsz, ok_bind, Nat.mod_eq_of_lt hlt]
      rfl
    rw [hnext]
    by_cases hl : (c b).length ≤ i + 1
    · rw [if_pos hl]
      have hnil : (bEnts (g.hash P.kw) t.tb b (c b)).drop (i + 1) = [] := by
        apply List.drop_eq_nil_of_le; simp only [bEnts, List.length_map]; omega
      rw [hnil] at hf ⊢
      obtain ⟨b', s1, s2, s3, s4⟩ := scanUp_ok L h (2 ^ t.tb - (b + 1)) (b + 1) (by omega)
      rw [hbc, s1]
      rw [s4] at hf ⊢
      simp only [ok_bind, List.cons_append, List.nil_append, pure_eq_ok]
      by_cases hb' : b' < 2 ^ t.tb
      · have hne : 0 < (c b').length := List.length_pos_iff.mpr (s3 hb')
        have e : entsFrom (g.hash P.kw) t.tb c b' (2 ^ t.tb - b') = (bEnts (g.hash P.kw) t.tb b' (c b')).drop 0 ++
            entsFrom (g.hash P.kw) t.tb c (b' + 1) (2 ^ t.tb - (b' + 1)) := by
          rw [show 2 ^ t.tb - b' = (2 ^ t.tb - (b' + 1)) + 1 by omega, entsFrom_succ]; simp
        rw [e] at hf ⊢
        rw [ih b' 0 hb' hne (by simp only [List.cons_append, List.nil_append, List.length_cons] at hf; omega)]
        rfl
      · have : b' = 2 ^ t.tb := by omega
        subst this
        have : entsFrom (g.hash P.kw) t.tb c (2 ^ t.tb) (2 ^ t.tb - 2 ^ t.tb) = [] := by simp [entsFrom]
        rw [this] at hf ⊢
        rw [hol f (by simp at hf; omega)]
        rfl
    · rw [if_neg hl]
      simp only [ok_bind]
      rw [ih b (i + 1) hb (by omega) (by simp only [List.cons_append, List.length_cons] at hf; omega)]
      rfl

/-- The forward loop visits the pairs in the buckets and then what the loop from position 0 of the overflow table visits. -/
theorem Live.pairs_over (L : Laws g P) {t : Tab S O} {c : Cont} {o : List (Nat × Nat × Nat)} {full : Nat → Bool}
    (h : Live g P t c o full) {ol : List (Nat × Nat)} (hol : ∀ f, ol.length < f → t.visit g f ⟨2 ^ t.tb, 0⟩ = .ok ol)
    (hlen : ol.length ≤ o.length) : t.pairs g = .ok (stored (g.hash P.kw) t.tb c ++ ol) := by
  have hbc := h.bc L
  have he : t.elems = (stored (g.hash P.kw) t.tb c).length + o.length := by rw [h.elems]; simp [ents]
  have hf : (stored (g.hash P.kw) t.tb c ++ ol).length < t.size + 1 := by
    rw [Tab.size, he, List.length_append]; omega
  obtain ⟨b, s1, s2, s3, s4⟩ := scanUp_ok L h (2 ^ t.tb) 0 (by omega)
  rw [entsFrom_all] at s4
  by_cases hb : b < 2 ^ t.tb
  · have hne : 0 < (c b).length := List.length_pos_iff.mpr (s3 hb)
    have e : entsFrom (g.hash P.kw) t.tb c b (2 ^ t.tb - b) = (bEnts (g.hash P.kw) t.tb b (c b)).drop 0 ++
        entsFrom (g.hash P.kw) t.tb c (b + 1) (2 ^ t.tb - (b + 1)) := by
      rw [show 2 ^ t.tb - b = (2 ^ t.tb - (b + 1)) + 1 by omega, entsFrom_succ]; simp
    have hbeg : t.beginNav g = .ok ⟨b, 0⟩ := by simp only [Tab.beginNav, hbc, s1, ok_bind, if_pos hb]; rfl
    simp only [Tab.pairs, hbeg, ok_bind]
    rw [s4, e] at hf ⊢
    exact visit_ok_over L h hol _ b 0 hb hne hf
  · have hst : stored (g.hash P.kw) t.tb c = [] := by
      rw [s4, show 2 ^ t.tb - b = 0 by omega]; simp [entsFrom]
    rw [hst] at hf ⊢
    rw [List.nil_append] at hf ⊢
    by_cases hs : 0 < g.ov.size t.ovf
    · have hbeg : t.beginNav g = .ok ⟨2 ^ t.tb, 0⟩ := by
        simp only [Tab.beginNav, hbc, s1, ok_bind, if_neg hb, if_pos hs]; rfl
      simp only [Tab.pairs, hbeg, ok_bind]
      exact hol _ hf
    · have hbeg : t.beginNav g = .ok Nav.end_ := by
        simp only [Tab.beginNav, hbc, s1, ok_bind, if_neg hb, if_neg hs]; rfl
      have : ol = [] := by
        rw [h.osize L] at hs
        exact List.eq_nil_of_length_eq_zero (by omega)
      subst this
      simp only [Tab.pairs, hbeg, ok_bind, Tab.visit, navEq_true (h.tb_lt L) (invalid_end (h.tb_lt L)), if_true, pure_eq_ok]

end SC
