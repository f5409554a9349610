import Verif.Table.Laws
/-!
# Correctness of the functions that do not rehash
-/
namespace SC
variable {S O : Type} {g : Cfg S O} {P : Par S O}

theorem Inv.new (L : Laws g P) : Inv g P (Tab.new g P.kw P.vw) [] := by
  obtain ⟨full, h⟩ := L.ovf.new P.kw P.vw
  exact .inl ⟨rfl, rfl, L.ibpg_pos, L.ibpg_le, rfl, rfl, rfl, L.fresh, 0, full, h⟩

theorem Inv.clear (L : Laws g P) {t : Tab S O} {l : List (Nat × Nat)} (h : Inv g P t l) : Inv g P (t.clear g) [] := by
  rcases h with ⟨h1, h2, h3, h4, h5, h6, rfl, hst, n, full, h7⟩ | ⟨c, o, full, hl, hp⟩
  · obtain ⟨full', h8⟩ := L.ovf.clear _ _ _ _ h7
    exact .inl ⟨h1, h2, h3, h4, rfl, rfl, rfl, L.fresh, 0, full', h8⟩
  · obtain ⟨full', h8⟩ := L.ovf.clear _ _ _ _ hl.orep
    exact .inl ⟨hl.tkw, hl.tvw, hl.bpg_pos, hl.bpg_le, rfl, rfl, rfl, L.fresh, 0, full', h8⟩

/-- `find` on a table with buckets -/
theorem Live.find (L : Laws g P) {t : Tab S O} {c : Cont} {o : List (Nat × Nat × Nat)} {full : Nat → Bool}
    (h : Live g P t c o full) {k : Nat} (hk : k < 2 ^ P.kw) :
    ∃ n, t.find g k = .ok n ∧ ((∃ v, Loc g P t c o n k v) ∨
      (n = Nav.end_ ∧ k ∉ (ents (g.hash P.kw) t.tb c o).map Prod.fst)) := by
  obtain ⟨q, b, hm, hb⟩ := h.mapk L hk
  obtain ⟨pos, hpos, hcase⟩ := h.locate L hk hm
  obtain ⟨p, hp, hpc⟩ := h.ofind L k
  have ht : ¬ t.tb = 0 := by have := h.tb_pos L; omega
  have hfirst : ∃ p', (if 0 < g.ov.size t.ovf then g.ov.find t.ovf k else .ok NPOS : Res Nat) = .ok p' ∧
      ((p' = NPOS ∧ ∀ e ∈ o, e.2.1 ≠ k) ∨ (p' ≠ NPOS ∧ ∃ v, (p', k, v) ∈ o)) := by
    by_cases hs : 0 < g.ov.size t.ovf
    · rw [if_pos hs]; exact ⟨p, hp, hpc⟩
    · rw [if_neg hs]
      refine ⟨NPOS, rfl, .inl ⟨rfl, ?_⟩⟩
      rw [h.osize L] at hs
      have : o = [] := List.eq_nil_of_length_eq_zero (by omega)
      subst this; simp
  obtain ⟨p', hp', hcase'⟩ := hfirst
  unfold Tab.find
  simp only [if_neg ht, hp', ok_bind, h.hash, hm, h.checkMap L hk hm, hpos]
  rcases hcase' with ⟨rfl, ho⟩ | ⟨hne, v, hv⟩
  · simp only [ne_eq, not_true_eq_false, if_false]
    rcases hcase with ⟨rfl, hq⟩ | ⟨hne, v, hv⟩
    · refine ⟨_, by rw [if_pos rfl]; rfl, .inr ⟨rfl, (h.not_mem L hk hm).mpr ⟨hq, ho⟩⟩⟩
    · exact ⟨_, by rw [if_neg hne]; rfl, .inl ⟨v, hv⟩⟩
  · refine ⟨_, by rw [if_pos hne]; rfl, .inl ⟨v, .inr ⟨p', by rw [h.bc L], hv⟩⟩⟩

/-- `locate(key)` on a table with buckets -/
theorem Live.locateKey (L : Laws g P) {t : Tab S O} {c : Cont} {o : List (Nat × Nat × Nat)} {full : Nat → Bool}
    (h : Live g P t c o full) {k : Nat} (hk : k < 2 ^ P.kw) :
    ∃ n, t.locate g k = .ok n ∧ ((n.pos ≠ NPOS ∧ ∃ v, Loc g P t c o n k v) ∨
      (n.pos = NPOS ∧ k ∉ (ents (g.hash P.kw) t.tb c o).map Prod.fst)) := by
  obtain ⟨q, b, hm, hb⟩ := h.mapk L hk
  obtain ⟨pos, hpos, hcase⟩ := h.locate L hk hm
  obtain ⟨p, hp, hpc⟩ := h.ofind L k
  have hcons := L.ovf.consult _ _ _ _ b h.orep hb
  have ht : ¬ t.tb = 0 := by have := h.tb_pos L; omega
  have hfirst : ∃ p', (if full b = true ∧ 0 < g.ov.size t.ovf then g.ov.find t.ovf k else .ok NPOS : Res Nat) = .ok p' ∧
      ((p' = NPOS ∧ ∀ e ∈ o, e.2.1 ≠ k) ∨ (p' ≠ NPOS ∧ ∃ v, (p', k, v) ∈ o)) := by
    by_cases hs : full b = true ∧ 0 < g.ov.size t.ovf
    · rw [if_pos hs]; exact ⟨p, hp, hpc⟩
    · rw [if_neg hs]
      refine ⟨NPOS, rfl, .inl ⟨rfl, ?_⟩⟩
      rintro e he rfl
      exact hs ⟨h.ofull e he q b hm, by rw [h.osize L]; exact List.length_pos_of_mem he⟩
  obtain ⟨p', hp', hcase'⟩ := hfirst
  unfold Tab.locate
  simp only [if_neg ht, ok_bind, h.hash, hm, h.checkMap L hk hm, hcons, hp', hpos]
  rcases hcase' with ⟨rfl, ho⟩ | ⟨hne, v, hv⟩
  · simp only [ne_eq, not_true_eq_false, if_false]
    refine ⟨_, rfl, ?_⟩
    rcases hcase with ⟨rfl, hq⟩ | ⟨hne, v, hv⟩
    · exact .inr ⟨rfl, (h.not_mem L hk hm).mpr ⟨hq, ho⟩⟩
    · exact .inl ⟨hne, v, hv⟩
  · refine ⟨_, by rw [if_pos hne]; rfl, .inl ⟨hne, v, .inr ⟨p', by rw [h.bc L], hv⟩⟩⟩

/-- overwriting through a navigator -/
theorem Live.writeValue (L : Laws g P) {t : Tab S O} {c : Cont} {o : List (Nat × Nat × Nat)} {full : Nat → Bool}
    (h : Live g P t c o full) {n : Nav} {k v x : Nat} (hl : Loc g P t c o n k v) (hx : P.normO x = P.norm P.vw x) :
    ∃ t' c' o', t.writeValue g n x = .ok t' ∧ Live g P t' c' o' full ∧ t'.tb = t.tb ∧
      Loc g P t' c' o' n k (P.norm P.vw x) ∧
      ∃ R, (ents (g.hash P.kw) t.tb c o).Perm ((k, v) :: R) ∧
        (ents (g.hash P.kw) t.tb c' o').Perm ((k, P.norm P.vw x) :: R) := by
  rcases hl with ⟨q, b, i, hi, rfl, hb, hm, he, hk⟩ | ⟨p, rfl, hp⟩
  · obtain ⟨s', h1, h2⟩ := L.store.writeValue _ _ _ _ _ x (h.good L) h.rep hb hi (by rw [show (t.dim g).vw = P.vw from h.tvw]; exact hx)
    have hdv : (t.dim g).vw = P.vw := h.tvw
    rw [hdv] at h2
    obtain ⟨R, hR1, hR2⟩ := ents_set (H := g.hash P.kw) (k := k) (v := P.norm P.vw x) c o hb hi
      (by rw [he]; exact (invKey_of_map (h.map_ok L) hk hm).1)
    rw [he] at hR1
    have hset : (c b).set i ((c b)[i].1, P.norm P.vw x) = (c b).set i (q, P.norm P.vw x) := by rw [he]
    refine ⟨{ t with store := s' }, upd c b ((c b).set i ((c b)[i].1, P.norm P.vw x)), o, ?_, ?_, rfl, ?_, R, hR1, hR2⟩
    · simp only [Tab.writeValue, h.bc L, if_neg (show ¬ b = 2 ^ t.tb by omega), ddcheck_ok hb, h1, ok_bind]
      rfl
    · exact {
        tkw := h.tkw, tvw := h.tvw, bpg_pos := h.bpg_pos, bpg_le := h.bpg_le, lo := h.lo, hi := h.hi
        rep := h2
        orep := h.orep
        cok := h.cok.set hi
        ofull := h.ofull
        vals := by
          intro b' hb' e he
          by_cases hbb : b' = b
          · subst hbb
            rw [upd_same] at he
            rcases List.mem_or_eq_of_mem_set he with he | rfl
            · exact h.vals b' hb' e he
            · exact L.norm_idem x
          · rw [upd_other _ _ hbb] at he; exact h.vals b' hb' e he
        ovals := h.ovals
        elems := by
          show t.elems = _
          rw [hR2.length_eq, h.elems, hR1.length_eq]; simp }
    · left
      refine ⟨q, b, i, by simpa using hi, rfl, hb, hm, ?_, hk⟩
      simp [he]
  · obtain ⟨l₁, l₂, rfl⟩ := List.append_of_mem hp
    obtain ⟨o', h1, h2⟩ := L.ovf.write _ _ _ _ x l₁ l₂ p k v h.orep rfl hx
    rw [hx] at h2
    have hmap : ((l₁ ++ (p, k, P.norm P.vw x) :: l₂).map (fun e => e.2.1)) =
        ((l₁ ++ (p, k, v) :: l₂).map (fun e => e.2.1)) := by simp
    have hmid : ∀ y, (ents (g.hash P.kw) t.tb c (l₁ ++ (p, k, y) :: l₂)).Perm
        ((k, y) :: ents (g.hash P.kw) t.tb c (l₁ ++ l₂)) := by
      intro y
      unfold ents
      simp only [List.map_append, List.map_cons]
      rw [← List.append_assoc, ← List.append_assoc]
      exact List.perm_middle
    refine ⟨{ t with ovf := o' }, c, _, ?_, ?_, rfl, .inr ⟨p, rfl, by simp⟩, _, hmid v, hmid _⟩
    · simp only [Tab.writeValue, h.bc L, if_true, h1, ok_bind]; rfl
    · exact {
        tkw := h.tkw, tvw := h.tvw, bpg_pos := h.bpg_pos, bpg_le := h.bpg_le, lo := h.lo, hi := h.hi
        rep := h.rep
        orep := h2
        cok := h.cok.ovf (by rw [hmap]; exact List.Sublist.refl _)
        ofull := by
          intro e he q b hm
          simp only [List.mem_append, List.mem_cons] at he
          rcases he with he | rfl | he
          · exact h.ofull e (by simp [he]) q b hm
          · exact h.ofull (p, k, v) (by simp) q b hm
          · exact h.ofull e (by simp [he]) q b hm
        vals := h.vals
        ovals := by
          intro e he
          simp only [List.mem_append, List.mem_cons] at he
          rcases he with he | rfl | he
          · exact h.ovals e (by simp [he])
          · exact L.norm_idem x
          · exact h.ovals e (by simp [he])
        elems := by
          show t.elems = _
          rw [(hmid _).length_eq, h.elems, (hmid v).length_eq]; simp }

/-- the entry of a bucket as a located pair -/
theorem Live.loc {t : Tab S O} {c : Cont} {o : List (Nat × Nat × Nat)} {full : Nat → Bool} (L : Laws g P)
    (h : Live g P t c o full) {b i : Nat} (hb : b < 2 ^ t.tb) (hi : i < (c b).length) :
    Loc g P t c o ⟨b, i⟩ (invKey (g.hash P.kw) t.tb b (c b)[i].1) (c b)[i].2 := by
  obtain ⟨h1, h2, _⟩ := map_of_mem (h.map_ok L) h.cok hb (List.getElem_mem hi)
  exact .inl ⟨(c b)[i].1, b, i, hi, rfl, hb, h2, rfl, h1⟩

/-- erasing from a bucket -/
theorem Live.eraseAt (L : Laws g P) {t : Tab S O} {c : Cont} {o : List (Nat × Nat × Nat)} {full : Nat → Bool}
    (h : Live g P t c o full) {b i : Nat} (hb : b < 2 ^ t.tb) (hi : i < (c b).length) :
    ∃ t', t.eraseNav g ⟨b, i⟩ = .ok (t', 1) ∧ Live g P t' (upd c b ((c b).eraseIdx i)) o full ∧ t'.tb = t.tb := by
  obtain ⟨s', h1, h2⟩ := L.store.eraseAt _ _ _ _ _ (h.good L) h.rep hb hi
  have hR := ents_erase (H := g.hash P.kw) (k := invKey (g.hash P.kw) t.tb b (c b)[i].1) c o hb hi rfl
  have hlen := L.store.len _ _ _ _ (h.good L) h.rep hb
  refine ⟨{ t with store := s', elems := t.elems - 1 }, ?_, ?_, rfl⟩
  · simp only [Tab.eraseNav, h.bc L, if_neg (show ¬ i = NPOS by omega),
      and_false, if_false, ddcheck_ok hb, h1, ok_bind, show ¬ b = 2 ^ t.tb by omega]
    rfl
  · exact {
      tkw := h.tkw, tvw := h.tvw, bpg_pos := h.bpg_pos, bpg_le := h.bpg_le, lo := h.lo, hi := h.hi
      rep := h2
      orep := h.orep
      cok := h.cok.erase
      ofull := h.ofull
      vals := by
        intro b' hb' e he
        by_cases hbb : b' = b
        · subst hbb
          rw [upd_same] at he
          exact h.vals b' hb' e (List.mem_of_mem_eraseIdx he)
        · rw [upd_other _ _ hbb] at he; exact h.vals b' hb' e he
      ovals := h.ovals
      elems := by
        show t.elems - 1 = _
        rw [h.elems, ← hR.length_eq]; simp }

/-- erasing through a navigator -/
theorem Live.eraseNav (L : Laws g P) {t : Tab S O} {c : Cont} {o : List (Nat × Nat × Nat)} {full : Nat → Bool}
    (h : Live g P t c o full) {n : Nav} {k v : Nat} (hl : Loc g P t c o n k v) :
    ∃ t' c' o', t.eraseNav g n = .ok (t', 1) ∧ Live g P t' c' o' full ∧ t'.tb = t.tb ∧
      ((k, v) :: ents (g.hash P.kw) t.tb c' o').Perm (ents (g.hash P.kw) t.tb c o) := by
  rcases hl with ⟨q, b, i, hi, rfl, hb, hm, he, hk⟩ | ⟨p, rfl, hp⟩
  · obtain ⟨t', h1, h2, h3⟩ := h.eraseAt L hb hi
    have hR := ents_erase (H := g.hash P.kw) (k := k) c o hb hi (by rw [he]; exact (invKey_of_map (h.map_ok L) hk hm).1)
    rw [he] at hR
    exact ⟨t', upd c b ((c b).eraseIdx i), o, h1, h2, h3, hR⟩
  · obtain ⟨l₁, l₂, rfl⟩ := List.append_of_mem hp
    obtain ⟨o', l', h1, hl', h2⟩ := L.ovf.erase _ _ _ _ l₁ l₂ (p, k, v) h.orep rfl
    have hpos : p < NPOS := L.ovf.pos _ _ _ _ (p, k, v) h.orep hp
    have hs : 0 < g.ov.size t.ovf := by rw [h.osize L]; simp; omega
    have hmid : (ents (g.hash P.kw) t.tb c (l₁ ++ (p, k, v) :: l₂)).Perm
        ((k, v) :: ents (g.hash P.kw) t.tb c l') := by
      unfold ents
      rw [show l'.map (fun e => e.2) = (l₁ ++ l₂).map (fun e => e.2) from hl']
      simp only [List.map_append, List.map_cons]
      rw [← List.append_assoc, ← List.append_assoc]
      exact List.perm_middle
    have hold : ∀ e ∈ l', ∃ e' ∈ l₁ ++ (p, k, v) :: l₂, e'.2 = e.2 := by
      intro e he
      have h3 : e.2 ∈ (l₁ ++ l₂).map Prod.snd := by rw [← hl']; exact List.mem_map.mpr ⟨e, he, rfl⟩
      obtain ⟨e', he', hee⟩ := List.mem_map.mp h3
      refine ⟨e', ?_, hee⟩
      rcases List.mem_append.mp he' with h4 | h4 <;> simp [h4]
    refine ⟨{ t with ovf := o', elems := t.elems - 1 }, c, l', ?_, ?_, rfl, hmid.symm⟩
    · simp only [Tab.eraseNav, h.bc L, if_neg (show ¬ p = NPOS by omega), hs, and_self, if_true, h1, ok_bind]; rfl
    · exact {
        tkw := h.tkw, tvw := h.tvw, bpg_pos := h.bpg_pos, bpg_le := h.bpg_le, lo := h.lo, hi := h.hi
        rep := h.rep
        orep := h2
        cok := h.cok.ovf (by
          have e : l'.map (fun e => e.2.1) = (l₁ ++ l₂).map (fun e => e.2.1) := by
            have := congrArg (List.map Prod.fst) hl'
            simpa [Function.comp_def] using this
          rw [e]; simp)
        ofull := by
          intro e he q b hm
          obtain ⟨e', he', hee⟩ := hold e he
          rw [← hee] at hm
          exact h.ofull e' he' q b hm
        vals := h.vals
        ovals := by
          intro e he
          obtain ⟨e', he', hee⟩ := hold e he
          rw [← hee]
          exact h.ovals e' he'
        elems := by
          show t.elems - 1 = _
          rw [h.elems, hmid.length_eq]; simp }

/-- `erase(key)` -/
theorem Inv.erase (L : Laws g P) {t : Tab S O} {l : List (Nat × Nat)} (h : Inv g P t l) {k : Nat} (hk : k < 2 ^ P.kw) :
    (∃ t' v l', t.erase g k = .ok (t', 1) ∧ l.Perm ((k, v) :: l') ∧ Inv g P t' l' ∧ t'.tb = t.tb) ∨
    (t.erase g k = .ok (t, 0) ∧ k ∉ l.map Prod.fst) := by
  rcases h with ⟨h1, h2, h3, h4, h5, h6, rfl, hst, n, full, h7⟩ | ⟨c, o, full, hl, hp⟩
  · right; simp [Tab.erase, h5]
  · have ht : ¬ t.tb = 0 := by have := hl.tb_pos L; omega
    obtain ⟨n, hn, hcase⟩ := hl.locateKey L hk
    rcases hcase with ⟨hne, v, hloc⟩ | ⟨he, hnm⟩
    · left
      obtain ⟨t', c', o', e1, e2, e3, e4⟩ := hl.eraseNav L hloc
      refine ⟨t', v, ents (g.hash P.kw) t.tb c' o', ?_, hp.trans e4.symm, .inr ⟨c', o', full, e2, ?_⟩, e3⟩
      · simp only [Tab.erase, if_neg ht, hn, ok_bind]; exact e1
      · rw [e3]
    · right
      refine ⟨?_, ?_⟩
      · simp only [Tab.erase, if_neg ht, hn, ok_bind, Tab.eraseNav, he, if_true]; rfl
      · rw [(hp.map Prod.fst).mem_iff]; exact hnm

theorem invalid_end {t : Tab S O} (h : t.tb < 64) : t.invalid g Nav.end_ = .ok true := by
  have hlt : t.bucketCount < NPOS := by
    unfold Tab.bucketCount
    split
    · decide
    · have : 2 ^ t.tb ≤ 2 ^ 63 := Nat.pow_le_pow_right (by omega) (by omega)
      have : (2 : Nat) ^ 63 < NPOS := by decide
      omega
  unfold Tab.invalid
  have : ¬ NPOS = t.bucketCount := by omega
  simp only [Nav.end_, this, false_and, and_false, if_false]
  simp [Nat.le_of_lt hlt]

/-- `find` and dereferencing: the iterator is valid exactly if the key is stored, and gives key and value -/
theorem Inv.find (L : Laws g P) {t : Tab S O} {l : List (Nat × Nat)} (h : Inv g P t l) {k : Nat} (hk : k < 2 ^ P.kw) :
    (∃ n v, t.find g k = .ok n ∧ (k, v) ∈ l ∧ t.navEq g n Nav.end_ = .ok false ∧ t.keyAt g n = .ok k ∧
      t.valueAt g n = .ok v) ∨
    (t.find g k = .ok Nav.end_ ∧ t.navEq g Nav.end_ Nav.end_ = .ok true ∧ k ∉ l.map Prod.fst) := by
  rcases h with ⟨h1, h2, h3, h4, h5, h6, rfl, hst, n, full, h7⟩ | ⟨c, o, full, hl, hp⟩
  · right
    refine ⟨by simp [Tab.find, h5], ?_, by simp⟩
    simp [Tab.navEq, invalid_end (show t.tb < 64 by omega)]
  · have htb : t.tb < 64 := Nat.lt_of_le_of_lt hl.hi L.hi_lt
    obtain ⟨n, hn, hcase⟩ := hl.find L hk
    rcases hcase with ⟨v, hloc⟩ | ⟨rfl, hnm⟩
    · left
      obtain ⟨e1, e2, e3⟩ := hl.loc_read L hloc
      refine ⟨n, v, hn, hp.mem_iff.mpr (hl.loc_mem L hloc).1, ?_, e1, e2⟩
      simp [Tab.navEq, invalid_end htb, e3]
    · right
      refine ⟨hn, ?_, ?_⟩
      · simp [Tab.navEq, invalid_end htb]
      · rw [(hp.map Prod.fst).mem_iff]; exact hnm

/-- `count` -/
theorem Inv.count (L : Laws g P) {t : Tab S O} {l : List (Nat × Nat)} (h : Inv g P t l) {k : Nat} (hk : k < 2 ^ P.kw) :
    t.count g k = .ok (if k ∈ l.map Prod.fst then 1 else 0) := by
  rcases h.find L hk with ⟨n, v, h1, h2, h3, _, _⟩ | ⟨h1, h2, h3⟩
  · have : k ∈ l.map Prod.fst := List.mem_map.mpr ⟨_, h2, rfl⟩
    simp [Tab.count, h1, h3, this]
  · simp [Tab.count, h1, h2, h3]

/-- `shrink_to_fit` -/
theorem Live.shrinkFold (L : Laws g P) {c : Cont} {o : List (Nat × Nat × Nat)} {full : Nat → Bool} :
    ∀ (bs : List Nat) {t : Tab S O}, Live g P t c o full → (∀ b ∈ bs, b < 2 ^ t.tb) →
    ∃ t', bs.foldlM (fun t b => do
      let s ← g.ops.shrink t.store (t.dim g) b
      return { t with store := s }) t = .ok t' ∧ Live g P t' c o full ∧ t'.tb = t.tb := by
  intro bs
  induction bs with
  | nil => intro t h _; exact ⟨t, rfl, h, rfl⟩
  | cons b bs ih =>
    intro t h hb
    obtain ⟨s', h1, h2⟩ := L.store.shrink _ _ _ b (h.good L) h.rep (hb b (by simp))
    have hl : Live g P { t with store := s' } c o full := { h with rep := h2 }
    obtain ⟨t', h3, h4, h5⟩ := ih hl (fun b' hb' => hb b' (by simp [hb']))
    refine ⟨t', ?_, h4, h5⟩
    simp only [List.foldlM_cons, h1, ok_bind, pure_eq_ok]
    exact h3

theorem Inv.shrink (L : Laws g P) {t : Tab S O} {l : List (Nat × Nat)} (h : Inv g P t l) :
    ∃ t', t.shrink g = .ok t' ∧ Inv g P t' l ∧ t'.tb = t.tb := by
  rcases h with h | ⟨c, o, full, hl, hp⟩
  · exact ⟨t, by simp [Tab.shrink, h.2.2.2.2.1], .inl h, rfl⟩
  · have ht : ¬ t.tb = 0 := by have := hl.tb_pos L; omega
    obtain ⟨t', h1, h2, h3⟩ := hl.shrinkFold L (List.range t.bucketCount) (by intro b hb; rw [hl.bc L] at hb; simpa using hb)
    refine ⟨t', by simp only [Tab.shrink, if_neg ht]; exact h1, .inr ⟨c, o, full, h2, by rw [h3]; exact hp⟩, h3⟩

end SC
