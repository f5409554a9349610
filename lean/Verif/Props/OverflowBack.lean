import Verif.Props.Overflow
/-!
# Overflow tables: backward iteration (C64) and `clear` (C65)
-/
namespace SC

variable {KB VB : Type} {p : SepCfg KB VB} {hk : HashKind} {tr : Nat → Nat → Nat} {W kw vw : Nat} {c : MapEnv}

/-! ## C64 -/

theorem MapOv.prev_spec (c : MapEnv) (o : MapOv) : ∀ p, o.prev c (p + 1) ≤ p ∧
    (∀ i, o.prev c (p + 1) < i → i ≤ p → o.head c i = none) ∧ (0 < o.prev c (p + 1) → (o.head c (o.prev c (p + 1))).isSome = true) := by
  intro p
  induction p with
  | zero =>
    rw [MapOv.prev, if_neg (by omega)]
    exact ⟨Nat.le_refl _, fun i h1 h2 => by omega, fun h => by omega⟩
  | succ p ih =>
    rw [MapOv.prev]
    by_cases h : 0 < p + 1 ∧ (o.head c (p + 1)).isNone = true
    · rw [if_pos h]
      refine ⟨by omega, fun i h1 h2 => ?_, ih.2.2⟩
      by_cases e : i = p + 1
      · subst e; simpa using h.2
      · exact ih.2.1 i h1 (by omega)
    · rw [if_neg h]
      refine ⟨Nat.le_refl _, fun i h1 h2 => by omega, fun _ => ?_⟩
      cases hh : o.head c (p + 1) with
      | none => simp [hh] at h
      | some x => rfl

theorem MapRep.mem_of_head {o : MapOv} {n : Nat} {l : List (Nat × Nat × Nat)} {full : Nat → Bool} (h : MapRep c o n l full) {q : Nat}
    (hq : (o.head c q).isSome = true) : ∃ e ∈ l, e.1 = q := by
  apply Classical.byContradiction
  intro hn
  rw [h.head_out (fun a ha e => hn ⟨a, ha, e⟩)] at hq
  cases hq

/-- the backward loop from an element `e` of the overflow table: it visits `e` and the elements at smaller positions, and nothing else -/
theorem visitBack_map {S : Type} {g : Cfg S MapOv} {P : Par S MapOv} (L : Laws g P) (hg : SameMoves g.ov c) (hP : P.RepO = MapRep c)
    {t : Tab S MapOv} {ct : Cont} {o : List (Nat × Nat × Nat)} {full : Nat → Bool} (h : Live g P t ct o full) :
    ∀ (m : Nat) (l₁ l₂ : List (Nat × Nat × Nat)) (e : Nat × Nat × Nat) (f : Nat), l₁.length = m → o = l₁ ++ e :: l₂ → l₁.length + 1 < f →
      t.visitBack g f ⟨2 ^ t.tb, e.1⟩ = .ok ((e :: l₁.reverse).map (fun e => e.2)) := by
  have hbc := h.bc L
  have hrep : MapRep c t.ovf (2 ^ t.tb) o full := by rw [← hP]; exact h.orep
  have stop : ∀ (f : Nat) (n : Nav), 0 < f → t.invalid g n = .ok true → t.visitBack g f n = .ok [] := by
    intro f n hf hn
    obtain ⟨f', rfl⟩ : ∃ f', f = f' + 1 := ⟨f - 1, by omega⟩
    simp only [Tab.visitBack, navEq_true (h.tb_lt L) hn, ok_bind, if_true, pure_eq_ok]
  intro m
  induction m with
  | zero =>
    intro l₁ l₂ e f hm ho hf
    have : l₁ = [] := List.eq_nil_of_length_eq_zero hm
    subst this
    rw [List.nil_append] at ho
    obtain ⟨f', rfl⟩ : ∃ f', f = f' + 1 := ⟨f - 1, by omega⟩
    have heo : e ∈ o := by rw [ho]; simp
    have hs : 0 < g.ov.size t.ovf := by rw [h.osize L]; exact List.length_pos_of_mem heo
    obtain ⟨r1, r2, r3⟩ := h.loc_read L (n := ⟨2 ^ t.tb, e.1⟩) (k := e.2.1) (v := e.2.2) (.inr ⟨e.1, rfl, heo⟩)
    have hsmall : ∀ a ∈ o, e.1 ≤ a.1 := by
      intro a ha
      have hso := hrep.sorted
      rw [ho, List.pairwise_cons] at hso
      rw [ho, List.mem_cons] at ha
      rcases ha with rfl | ha
      · exact Nat.le_refl _
      · exact Nat.le_of_lt (hso.1 a ha)
    simp only [Tab.visitBack, navEq_false (h.tb_lt L) r3, ok_bind, r1, r2]
    have key : ∃ n, t.prev g ⟨2 ^ t.tb, e.1⟩ = .ok n ∧ t.invalid g n = .ok true := by
      by_cases h0 : 0 < e.1
      · obtain ⟨q, hq⟩ : ∃ q, e.1 = q + 1 := ⟨e.1 - 1, by omega⟩
        obtain ⟨s1, s2, s3⟩ := MapOv.prev_spec c t.ovf q
        have hprev : t.prev g ⟨2 ^ t.tb, e.1⟩ = .ok ⟨2 ^ t.tb, t.ovf.prev c e.1⟩ := by
          have hd : g.ov.previousPosition t.ovf e.1 = t.ovf.prev c e.1 := by rw [hg.2.2]; rfl
          simp only [Tab.prev, hbc, hs, and_self, if_true, h0, hd]
        refine ⟨_, hprev, ?_⟩
        have hnone : t.ovf.head c (t.ovf.prev c e.1) = none :=
          hrep.head_out (fun a ha => by have := hsmall a ha; rw [hq] at this ⊢; omega)
        have hv : g.ov.validPosition t.ovf (t.ovf.prev c e.1) = false := by rw [hg.1]; simp [mapOverflow, hnone]
        simp [Tab.invalid, hbc, hv]
      · have hb : (2 ^ t.tb + W64 - 1) % W64 = 2 ^ t.tb - 1 := by
          have h1 : 2 ^ t.tb < 2 ^ 64 := Nat.pow_lt_pow_right (by omega) (h.tb_lt L)
          have h2 := Nat.two_pow_pos t.tb
          have h3 : W64 = 2 ^ 64 := rfl
          generalize 2 ^ t.tb = N at h1 h2 ⊢
          rw [h3]
          omega
        have h2 := Nat.two_pow_pos t.tb
        have hlast : 2 ^ t.tb - 1 < 2 ^ t.tb := Nat.sub_lt h2 Nat.one_pos
        have hsz := L.store.size _ _ _ (2 ^ t.tb - 1) (h.good L) h.rep hlast
        have hlen := L.store.len _ _ _ (2 ^ t.tb - 1) (h.good L) h.rep hlast
        have hp : (0 + W64 - 1) % W64 = NPOS := rfl
        refine ⟨⟨2 ^ t.tb - 1, NPOS⟩, ?_, ?_⟩
        · have : e.1 = 0 := by omega
          simp only [Tab.prev, hbc, hs, and_self, if_true, this, Nat.lt_irrefl, if_false, hb, hsz, ok_bind, Nat.zero_min, hp]
          rfl
        · have hne : ¬ (2 ^ t.tb - 1 = 2 ^ t.tb) := Nat.ne_of_lt hlast
          have hle : ¬ (2 ^ t.tb ≤ 2 ^ t.tb - 1) := Nat.not_le.mpr hlast
          have : (ct (2 ^ t.tb - 1)).length ≤ NPOS := by omega
          simp only [Tab.invalid, hbc, hne, false_and, and_false, if_false, hle, hsz, ok_bind, this, decide_true, pure_eq_ok]
    obtain ⟨n, hn1, hn2⟩ := key
    simp only [hn1, ok_bind, stop f' n (by omega) hn2]
    rfl
  | succ m ih =>
    intro l₁ l₂ e f hm ho hf
    obtain ⟨l', e', rfl⟩ : ∃ l' e', l₁ = l' ++ [e'] := by
      rcases List.eq_nil_or_concat l₁ with rfl | ⟨l', e', rfl⟩
      · cases hm
      · exact ⟨l', e', by simp⟩
    obtain ⟨f', rfl⟩ : ∃ f', f = f' + 1 := ⟨f - 1, by omega⟩
    have heo : e ∈ o := by rw [ho]; simp
    have heo' : e' ∈ o := by rw [ho]; simp
    have hs : 0 < g.ov.size t.ovf := by rw [h.osize L]; exact List.length_pos_of_mem heo
    obtain ⟨r1, r2, r3⟩ := h.loc_read L (n := ⟨2 ^ t.tb, e.1⟩) (k := e.2.1) (v := e.2.2) (.inr ⟨e.1, rfl, heo⟩)
    have hso := hrep.sorted
    rw [ho, List.pairwise_append] at hso
    obtain ⟨p1, p2, p3⟩ := hso
    rw [List.pairwise_append] at p1
    rw [List.pairwise_cons] at p2
    have hlt : e'.1 < e.1 := p3 e' (by simp) e (by simp)
    have hbetween : ∀ a ∈ o, e'.1 < a.1 → e.1 ≤ a.1 := by
      intro a ha h1
      rw [ho] at ha
      simp only [List.mem_append, List.mem_cons, List.not_mem_nil, or_false] at ha
      rcases ha with (ha | rfl) | rfl | ha
      · have := p1.2.2 a ha e' (by simp); omega
      · omega
      · omega
      · have := p2.1 a ha; omega
    obtain ⟨q, hq⟩ : ∃ q, e.1 = q + 1 := ⟨e.1 - 1, by omega⟩
    obtain ⟨s1, s2, s3⟩ := MapOv.prev_spec c t.ovf q
    have hpq : t.ovf.prev c e.1 = e'.1 := by
      rw [hq]
      rcases Nat.lt_trichotomy (t.ovf.prev c (q + 1)) e'.1 with h1 | h1 | h1
      · have := s2 e'.1 h1 (by omega)
        rw [hrep.head_in heo'] at this
        cases this
      · exact h1
      · obtain ⟨a, ha1, ha2⟩ := hrep.mem_of_head (s3 (by omega))
        have := hbetween a ha1 (by omega)
        omega
    have hprev : t.prev g ⟨2 ^ t.tb, e.1⟩ = .ok ⟨2 ^ t.tb, e'.1⟩ := by
      have h0 : 0 < e.1 := by omega
      have hd : g.ov.previousPosition t.ovf e.1 = e'.1 := by rw [hg.2.2]; exact hpq
      simp only [Tab.prev, hbc, hs, and_self, if_true, h0, hd]
    simp only [Tab.visitBack, navEq_false (h.tb_lt L) r3, ok_bind, r1, r2, hprev]
    rw [ih l' (e :: l₂) e' f' (by simp at hm; exact hm) (by rw [ho]; simp) (by simp at hf ⊢; omega)]
    simp

theorem Inv.pairsBack_map {S : Type} {g : Cfg S MapOv} {P : Par S MapOv} (L : Laws g P) (hg : SameMoves g.ov c)
    (hP : P.RepO = MapRep c) {t : Tab S MapOv} {l : List (Nat × Nat)} (h : Inv g P t l) (hs : 0 < g.ov.size t.ovf) :
    ∃ l', t.pairsBack g = .ok l' ∧ (l'.map Prod.fst).Nodup ∧
      ∀ k v, (k, v) ∈ l' ↔ (k, v) ∈ l ∧ g.ov.validPosition t.ovf (g.ov.size t.ovf) = true ∧
        ∃ q ≤ g.ov.size t.ovf, g.ov.find t.ovf k = .ok q := by
  rcases h with ⟨h1, h2, h3, h4, h5, h6, rfl, hst, n, full, h7⟩ | ⟨ct, o, full, hl, hp⟩
  · rw [L.ovf.size _ _ _ _ h7] at hs
    simp at hs
  · have hbc := hl.bc L
    have hrep : MapRep c t.ovf (2 ^ t.tb) o full := by rw [← hP]; exact hl.orep
    have hsz := hl.osize L
    have hnd := ents_nodup (hl.map_ok L) hl.cok
    have hr : t.rbeginNav g = .ok ⟨2 ^ t.tb, g.ov.size t.ovf⟩ := by simp only [Tab.rbeginNav, hs, if_true, hbc]
    unfold ents at hnd hp
    rw [List.map_append] at hnd
    by_cases hv : g.ov.validPosition t.ovf (g.ov.size t.ovf) = true
    · have hh : (t.ovf.head c (g.ov.size t.ovf)).isSome = true := by
        rw [hg.1] at hv
        simp only [mapOverflow, Bool.and_eq_true] at hv ⊢
        exact hv.2
      obtain ⟨e, he1, he2⟩ := hrep.mem_of_head hh
      obtain ⟨l₁, l₂, ho⟩ := List.append_of_mem he1
      have hlen : t.elems = (stored (g.hash P.kw) t.tb ct).length + o.length := by rw [hl.elems]; simp [ents]
      have hlo := congrArg List.length ho
      simp only [List.length_append, List.length_cons] at hlo
      have hb := visitBack_map L hg hP hl l₁.length l₁ l₂ e (t.size + 1) rfl ho (by rw [Tab.size, hlen]; omega)
      rw [he2] at hb
      have hso := hrep.sorted
      rw [ho, List.pairwise_append] at hso
      obtain ⟨p1, p2, p3⟩ := hso
      rw [List.pairwise_cons] at p2
      refine ⟨_, by simp only [Tab.pairsBack, hr, ok_bind]; exact hb, ?_, ?_⟩
      · have h2 := (List.nodup_append.mp hnd).2.1
        rw [ho] at h2
        have e3 : ((e :: l₁.reverse).map (fun e => e.2)).map Prod.fst = (((l₁ ++ [e]).map (fun e => e.2)).map Prod.fst).reverse := by simp
        rw [e3, List.Nodup, List.pairwise_reverse]
        have h3 : (((l₁ ++ [e]).map (fun e => e.2)).map Prod.fst).Nodup := by
          refine h2.sublist ?_
          simp
        exact h3.imp (fun h => h.symm)
      · intro k v
        have hmem : (k, v) ∈ (e :: l₁.reverse).map (fun e => e.2) ↔ ∃ a ∈ o, a.1 ≤ e.1 ∧ a.2 = (k, v) := by
          simp only [List.mem_map, List.mem_cons, List.mem_reverse]
          constructor
          · rintro ⟨a, rfl | ha, ha2⟩
            · exact ⟨a, he1, Nat.le_refl _, ha2⟩
            · exact ⟨a, by rw [ho]; simp [ha], Nat.le_of_lt (p3 a ha e (by simp)), ha2⟩
          · rintro ⟨a, ha, hle, ha2⟩
            rw [ho, List.mem_append, List.mem_cons] at ha
            rcases ha with ha | rfl | ha
            · exact ⟨a, .inr ha, ha2⟩
            · exact ⟨a, .inl rfl, ha2⟩
            · have := p2.1 a ha; omega
        rw [hmem, hp.mem_iff, List.mem_append]
        obtain ⟨q, hq, hcase⟩ := hl.ofind L k
        constructor
        · rintro ⟨a, ha, hle, ha2⟩
          refine ⟨.inr (List.mem_map.mpr ⟨a, ha, ha2⟩), hv, q, ?_, hq⟩
          rcases hcase with ⟨_, hno⟩ | ⟨_, v', hv'⟩
          · exact absurd (by rw [ha2]) (hno a ha)
          · have : q = a.1 := by have h5 := hrep.pos _ hv'; rw [hrep.pos a ha, ha2]; exact h5
            omega
        · rintro ⟨hkv, -, q', hq', hf⟩
          rw [hq] at hf
          cases hf
          rcases hcase with ⟨rfl, hno⟩ | ⟨_, v', hv'⟩
          · exfalso
            have : g.ov.size t.ovf < NPOS := by
              rw [← he2]; exact L.ovf.pos _ _ _ _ _ hl.orep he1
            omega
          · have hkk : (k, v') ∈ o.map (fun e => e.2) := List.mem_map.mpr ⟨_, hv', rfl⟩
            rcases hkv with hkv | hkv
            · exact absurd rfl ((List.nodup_append.mp hnd).2.2 k (List.mem_map_of_mem (f := Prod.fst) hkv) k
                (List.mem_map_of_mem (f := Prod.fst) hkk))
            · obtain ⟨a, ha1, ha2⟩ := List.mem_map.mp hkv
              have : a.1 = q := by have h5 := hrep.pos _ hv'; rw [hrep.pos a ha1, ha2]; exact h5.symm
              exact ⟨a, ha1, by omega, ha2⟩
    · have hv' : g.ov.validPosition t.ovf (g.ov.size t.ovf) = false := by simpa using hv
      refine ⟨[], ?_, by simp, fun k v => by simp [hv']⟩
      have hinv : t.invalid g ⟨2 ^ t.tb, g.ov.size t.ovf⟩ = .ok true := by simp [Tab.invalid, hbc, hv']
      simp only [Tab.pairsBack, hr, ok_bind, Tab.visitBack, navEq_true (hl.tb_lt L) hinv, if_true, pure_eq_ok]

/-- The part of **C64** that holds, and exactly what is missing: if the overflow table is in use, the backward loop terminates and visits no key
twice, but it visits no pair that is in a bucket.  It visits pairs only if position `size()` of the overflow table happens to be occupied (it starts there), namely those
of the overflow table at positions up to `size()`. -/
theorem C64_backward_overflow_partial (h : SepOK p hk tr W kw vw) (hc : c.good) (hf : OvFits c (tr vw)) {ops : List MapOp}
    (hops : ∀ op ∈ ops, OvValid c (tr vw) hk W kw op) {t : Tab (SepStore KB VB) MapOv} {as : List Ans}
    (ht : Tab.run (sepMapOv p hk c) (Tab.new (sepMapOv p hk c) kw vw) ops = .ok (t, as)) (hs : 0 < (mapOverflow c).size t.ovf) :
    ∃ l, t.pairsBack (sepMapOv p hk c) = .ok l ∧ (l.map Prod.fst).Nodup ∧
      ∀ k v, (k, v) ∈ l ↔ (FMap.empty.after (tr vw) ops).get k = some v ∧
        (mapOverflow c).validPosition t.ovf ((mapOverflow c).size t.ovf) = true ∧
        ∃ q ≤ (mapOverflow c).size t.ovf, (mapOverflow c).find t.ovf k = .ok q := by
  obtain ⟨P, t', l, L, h1, h2, h3, h4, h5⟩ := sep_ov_run h hc hf hops
  rw [ht] at h1
  cases h1
  obtain ⟨l', q1, q2, q3⟩ := h2.pairsBack_map L ⟨rfl, rfl, rfl⟩ h4 hs
  refine ⟨l', q1, q2, ?_⟩
  intro k v
  rw [h3.get]
  exact q3 k v

/-- the other case: an empty overflow table does no harm -/
theorem C64_backward_unused_partial (h : SepOK p hk tr W kw vw) (hc : c.good) (hf : OvFits c (tr vw)) {ops : List MapOp}
    (hops : ∀ op ∈ ops, OvValid c (tr vw) hk W kw op) {t : Tab (SepStore KB VB) MapOv} {as : List Ans}
    (ht : Tab.run (sepMapOv p hk c) (Tab.new (sepMapOv p hk c) kw vw) ops = .ok (t, as)) (hs : (mapOverflow c).size t.ovf = 0) (hne : t.size ≠ 0) :
    ∃ l, t.pairs (sepMapOv p hk c) = .ok l ∧ t.pairsBack (sepMapOv p hk c) = .ok l.reverse ∧
      ∀ k v, (k, v) ∈ l ↔ (FMap.empty.after (tr vw) ops).get k = some v := by
  obtain ⟨P, t', l, L, h1, h2, h3, h4, h5⟩ := sep_ov_run h hc hf hops
  rw [ht] at h1
  cases h1
  rcases h2 with ⟨g1, g2, g3, g4, g5, g6, g7⟩ | ⟨ct, o, full, hl, hp⟩
  · exact absurd g6 hne
  · have : o = [] := List.eq_nil_of_length_eq_zero (by rw [← hl.osize L]; exact hs)
    subst this
    obtain ⟨n, q1, q2⟩ := hl.visit_begin L (show t.elems < t.size + 1 by simp [Tab.size])
    obtain ⟨n', q1', q2'⟩ := hl.visit_rbegin L hne (show t.elems < t.size + 1 by simp [Tab.size])
    refine ⟨stored ((sepMapOv p hk c).hash P.kw) t.tb ct, by simp only [Tab.pairs, q1, ok_bind, q2], by simp only [Tab.pairsBack, q1', ok_bind, q2'], fun k v => ?_⟩
    rw [h3.get, hp.mem_iff]
    simp [ents]

/-- **C64** is false: in the example the backward loop visits none of 59 pairs. -/
theorem C64_backward_overflow_false :
    ¬ ∀ (ops : List MapOp) (t : Tab (SepStore PlainB PlainB) MapOv) (as : List Ans) (k v : Nat) (l : List (Nat × Nat)),
      (∀ op ∈ ops, OvValid ovEx (fun v => v % 2 ^ 32) (.xorshift 16) 16 10 op) →
      Tab.run (sepMapOv exCfg (.xorshift 16) ovEx) (Tab.new (sepMapOv exCfg (.xorshift 16) ovEx) 10 20) ops = .ok (t, as) →
      t.lookup (sepMapOv exCfg (.xorshift 16) ovEx) k = .ok (some (k, v)) →
      t.pairsBack (sepMapOv exCfg (.xorshift 16) ovEx) = .ok l → (k, v) ∈ l := by
  intro hall
  have h : (match Tab.run (sepMapOv exCfg (.xorshift 16) ovEx) (Tab.new (sepMapOv exCfg (.xorshift 16) ovEx) 10 20) ovExOps with
    | .ok (t, _) => match t.lookup (sepMapOv exCfg (.xorshift 16) ovEx) 34, t.pairsBack (sepMapOv exCfg (.xorshift 16) ovEx) with
      | .ok r, .ok l => r == some (34, 7) && !l.contains (34, 7)
      | _, _ => false
    | .error _ => false) = true := by decide +kernel
  cases hr : Tab.run (sepMapOv exCfg (.xorshift 16) ovEx) (Tab.new (sepMapOv exCfg (.xorshift 16) ovEx) 10 20) ovExOps with
  | error e => rw [hr] at h; cases h
  | ok r =>
    rw [hr] at h
    simp only at h
    cases h1 : r.1.lookup (sepMapOv exCfg (.xorshift 16) ovEx) 34 with
    | error e => rw [h1] at h; cases h
    | ok x =>
      cases h2 : r.1.pairsBack (sepMapOv exCfg (.xorshift 16) ovEx) with
      | error e => rw [h1, h2] at h; cases h
      | ok l =>
        rw [h1, h2] at h
        simp only [Bool.and_eq_true, beq_iff_eq] at h
        obtain ⟨h3, h4⟩ := h
        have := hall ovExOps r.1 r.2 34 7 l ovExOps_valid hr (by rw [h1, h3]) h2
        simp [this] at h4

/-- the hypotheses of `C64_backward_overflow_partial` hold for the example -/
example : ∃ t as l, Tab.run (sepMapOv exCfg (.xorshift 16) ovEx) (Tab.new (sepMapOv exCfg (.xorshift 16) ovEx) 10 20) ovExOps =
    .ok (t, as) ∧ t.pairsBack (sepMapOv exCfg (.xorshift 16) ovEx) = .ok l ∧ (l.map Prod.fst).Nodup := by
  obtain ⟨t, as, ht, _, h2⟩ := ovExAfter
  obtain ⟨l, h1, h2, _⟩ := C64_backward_overflow_partial exOK ovEx_good ovEx_fits ovExOps_valid ht (by show 0 < t.ovf.items.length; omega)
  exact ⟨t, as, l, ht, h1, h2⟩

/-! ## C65 -/

/-- The part of **C65** that holds: with `map_overflow`, a table after `clear()` behaves like a new one. -/
theorem C65_clear_overflow_partial (h : SepOK p hk tr W kw vw) (hc : c.good) (hf : OvFits c (tr vw)) {ops : List MapOp}
    (hops : ∀ op ∈ ops, OvValid c (tr vw) hk W kw op) {t : Tab (SepStore KB VB) MapOv} {as : List Ans}
    (ht : Tab.run (sepMapOv p hk c) (Tab.new (sepMapOv p hk c) kw vw) ops = .ok (t, as)) (ops' : List MapOp)
    (hops' : ∀ op ∈ ops', OvValid c (tr vw) hk W kw op) :
    ClearSpec (sepMapOv p hk c) (tr vw) kw t ops' ∧ (mapOverflow c).size (t.clear (sepMapOv p hk c)).ovf = 0 := by
  obtain ⟨P, t', l, L, h1, h2, h3, h4, h5, h6, h7, h8⟩ := sep_ov_run h hc hf hops
  rw [ht] at h1
  cases h1
  have := fact_clear L h7 ⟨l, h2, h3⟩ ops' (fun op hop => h8 op (hops' op hop))
  rw [h6, h5] at this
  exact ⟨this, rfl⟩

example : ∃ t as, Tab.run (sepMapOv exCfg (.xorshift 16) ovEx) (Tab.new (sepMapOv exCfg (.xorshift 16) ovEx) 10 20) ovExOps = .ok (t, as) ∧
    ClearSpec (sepMapOv exCfg (.xorshift 16) ovEx) (fun v => v % 2 ^ 32) 10 t ovExOps := by
  obtain ⟨t, as, ht, _⟩ := ovExAfter
  exact ⟨t, as, ht, (C65_clear_overflow_partial exOK ovEx_good ovEx_fits ovExOps_valid ht ovExOps ovExOps_valid).1⟩

/-- **C65** is false for `array_overflow`, in every state: `clear()` releases both arrays but keeps the number of elements, and every later
insertion and search in the overflow table follows a null pointer. -/
theorem C65_array_clear_false {a : ArrEnv} {o : ArrOv} (_ : ArrReach a o) (k v : Nat) :
    (arrOverflow a).size ((arrOverflow a).clear o) = (arrOverflow a).size o ∧
    (arrOverflow a).find ((arrOverflow a).clear o) k = .error .null ∧
    ∀ b < o.nbits, (arrOverflow a).insert ((arrOverflow a).clear o) b k v = .error .null := by
  refine ⟨rfl, rfl, fun b hb => ?_⟩
  simp only [arrOverflow, plainOps, if_pos hb]
  rfl

example : ∃ o, ArrReach arrEx o ∧ (arrOverflow arrEx).size ((arrOverflow arrEx).clear o) = 3 := by
  obtain ⟨o, h1, h2, _⟩ := arrEx_reach
  exact ⟨o, h1, (C65_array_clear_false h1 0 0).1.trans h2⟩

/-- the map of the examples, with `array_overflow` -/
abbrev sepMapArr : Cfg (SepStore PlainB PlainB) ArrOv := sepTable exCfg (.xorshift 16) (arrOverflow ⟨16, 32, fun b _ _ => b⟩)

/-- The consequence for a table: four keys that go to the same bucket of three entries are inserted; after `clear()` a search in the table that
has only one element is a null pointer access, and so is a fourth insertion. -/
theorem C65_table_clear_false : ∃ ks : List Nat, ks.length = 4 ∧ (∀ k ∈ ks, k < 2 ^ 10) ∧
    (∃ t as, Tab.run sepMapArr (Tab.new sepMapArr 10 20) (ks.map (fun k => .insert k 1) ++ [.clear, .insert 1 1]) = .ok (t, as) ∧ t.size = 1 ∧
      t.find sepMapArr 1 = .error .null) ∧
    Tab.run sepMapArr (Tab.new sepMapArr 10 20) (ks.map (fun k => .insert k 1) ++ [.clear] ++ ks.map (fun k => .insert k 1)) = .error .null := by
  refine ⟨[0, 3, 20, 37], rfl, by decide, ?_, ?_⟩
  · have h : (match Tab.run sepMapArr (Tab.new sepMapArr 10 20) ([0, 3, 20, 37].map (fun k => .insert k 1) ++ [.clear, .insert 1 1]) with
      | .ok (t, _) => t.size == 1 && (match t.find sepMapArr 1 with | .error .null => true | _ => false)
      | .error _ => false) = true := by decide +kernel
    cases hr : Tab.run sepMapArr (Tab.new sepMapArr 10 20) ([0, 3, 20, 37].map (fun k => .insert k 1) ++ [.clear, .insert 1 1]) with
    | error e => rw [hr] at h; cases h
    | ok r =>
      rw [hr] at h
      simp only [Bool.and_eq_true, beq_iff_eq] at h
      refine ⟨r.1, r.2, rfl, h.1, ?_⟩
      have h2 := h.2
      split at h2
      · assumption
      · cases h2
  · have h : (match Tab.run sepMapArr (Tab.new sepMapArr 10 20) ([0, 3, 20, 37].map (fun k => .insert k 1) ++ [.clear] ++
        [0, 3, 20, 37].map (fun k => .insert k 1)) with
      | .ok _ => false
      | .error e => e == .null) = true := by decide +kernel
    split at h
    · cases h
    · next e he => rw [he, beq_iff_eq.mp h]

end SC
