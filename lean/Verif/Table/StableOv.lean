import Verif.Table.Stable
/-!
# Navigators of tables with an overflow table that outlive calls

As `Table/Stable`; elements of the overflow table have the number of buckets as first component of their navigator.
-/
namespace SC
variable {S O : Type}

/-- How long a navigator of a table with an overflow table can be used.  (`reserve` is missing: it moves elements between the buckets and the
overflow table.) -/
structure StableOvSpec (g : Cfg S O) (kw : Nat) (valid : MapOp → Prop) (t : Tab S O) : Prop where
  /-- through the place of a key, the key and its value are read -/
  reads : ∀ k n, k < 2 ^ kw → Placed g t k n → t.keyAt g n = .ok k ∧ ∃ v, t.lookup g k = .ok (some (k, v)) ∧ t.valueAt g n = .ok v
  /-- any number of lookups, insertions, assignments and `shrink_to_fit()`, as long as the number of buckets is the same in the end -/
  calls : ∀ ops t' as k n, (∀ op ∈ ops, valid op ∧ Growing op) → t.run g ops = .ok (t', as) → t'.bucketCount = t.bucketCount →
    k < 2 ^ kw → Placed g t k n → Placed g t' k n
  /-- erasing another key: only what is behind it in the same bucket moves, by one position; nothing moves in the overflow table -/
  erase : ∀ k' t' r gone k n, k' < 2 ^ kw → t.erase g k' = .ok (t', r) → t.find g k' = .ok gone → k < 2 ^ kw → k ≠ k' →
    Placed g t k n → Placed g t' k (if n.bucket = t.bucketCount then n else n.without gone)

variable {g : Cfg S O} {P : Par S O}

/-- the keys in the overflow table keep their positions -/
def KeepO (o o' : List (Nat × Nat × Nat)) : Prop := ∀ p k v, (p, k, v) ∈ o → ∃ v', (p, k, v') ∈ o'

theorem KeepO.refl (o : List (Nat × Nat × Nat)) : KeepO o o := fun _ _ v h => ⟨v, h⟩

theorem KeepO.trans {o o' o'' : List (Nat × Nat × Nat)} (h : KeepO o o') (h' : KeepO o' o'') : KeepO o o'' := by
  intro p k v hm
  obtain ⟨v', h1⟩ := h p k v hm
  exact h' p k v' h1

/-- the place of a key in the buckets or the overflow table -/
def AtOv (H : HashMapping) (tb : Nat) (c : Cont) (o : List (Nat × Nat × Nat)) (k : Nat) (n : Nav) : Prop :=
  At H tb c k n ∨ ∃ p v, n = ⟨2 ^ tb, p⟩ ∧ (p, k, v) ∈ o

theorem AtOv.keep {H : HashMapping} {tb : Nat} {c c' : Cont} {o o' : List (Nat × Nat × Nat)} {k : Nat} {n : Nav} (h : AtOv H tb c o k n)
    (hc : KeepQ tb c c') (ho : KeepO o o') : AtOv H tb c' o' k n := by
  rcases h with h | ⟨p, v, rfl, h⟩
  · exact .inl (h.keep hc)
  · obtain ⟨v', h'⟩ := ho _ _ _ h
    exact .inr ⟨p, v', rfl, h'⟩

theorem AtOv.of_loc {t : Tab S O} {c : Cont} {o : List (Nat × Nat × Nat)} {k v : Nat} {n : Nav} (h : Loc g P t c o n k v) :
    AtOv (g.hash P.kw) t.tb c o k n := by
  rcases h with ⟨q, b, i, hi, rfl, hb, hm, he, _⟩ | ⟨p, rfl, hp⟩
  · exact .inl ⟨q, hi, hb, hm, by rw [he]⟩
  · exact .inr ⟨p, v, rfl, hp⟩

theorem AtOv.loc {t : Tab S O} {c : Cont} {o : List (Nat × Nat × Nat)} {k : Nat} {n : Nav} (hk : k < 2 ^ P.kw)
    (h : AtOv (g.hash P.kw) t.tb c o k n) : ∃ v, Loc g P t c o n k v := by
  rcases h with ⟨q, hi, hb, hm, he⟩ | ⟨p, v, rfl, hp⟩
  · exact ⟨((c n.bucket)[n.pos]).2, .inl ⟨q, n.bucket, n.pos, hi, rfl, hb, hm, by rw [← he], hk⟩⟩
  · exact ⟨v, .inr ⟨p, rfl, hp⟩⟩

/-- a key has one place -/
theorem AtOv.unique {kw tb : Nat} {H : HashMapping} {c : Cont} {o : List (Nat × Nat × Nat)} {k : Nat} {n n' : Nav} (hc : COK H kw tb c o)
    (h : AtOv H tb c o k n) (h' : AtOv H tb c o k n') : n = n' := by
  have excl : ∀ {m : Nav} {p v : Nat}, At H tb c k m → (p, k, v) ∈ o → False := by
    rintro m p v ⟨q, hi, hb, hm, he⟩ hp
    obtain ⟨_, q', b', hm', hq'⟩ := hc.osrc _ hp
    have hm' : H.map k tb = .ok (q', b') := hm'
    rw [hm] at hm'
    cases hm'
    exact hq' (List.mem_map.mpr ⟨_, List.getElem_mem hi, he⟩)
  rcases h with h | ⟨p, v, rfl, hp⟩
  · rcases h' with h' | ⟨p', v', rfl, hp'⟩
    · obtain ⟨q, hi, hb, hm, he⟩ := h
      obtain ⟨q', hi', hb', hm', he'⟩ := h'
      rw [hm] at hm'
      have e1 : n.bucket = n'.bucket := congrArg Prod.snd (Except.ok.inj hm')
      have e2 : q = q' := congrArg Prod.fst (Except.ok.inj hm')
      obtain ⟨nb, np⟩ := n
      obtain ⟨nb', np'⟩ := n'
      simp only at *
      subst e1 e2
      have : np = np' := (List.getElem_inj (i := np) (j := np') (h₀ := by simpa using hi) (h₁ := by simpa using hi') (hc.nodup _ hb)).mp (by
        rw [List.getElem_map, List.getElem_map, he, he'])
      rw [this]
    · exact (excl h hp').elim
  · rcases h' with h' | ⟨p', v', rfl, hp'⟩
    · exact (excl h' hp).elim
    · obtain ⟨i, hi, e1⟩ := List.mem_iff_getElem.mp hp
      obtain ⟨j, hj, e2⟩ := List.mem_iff_getElem.mp hp'
      have : i = j := (List.getElem_inj (i := i) (j := j) (h₀ := by simpa using hi) (h₁ := by simpa using hj) hc.okeys).mp (by
        rw [List.getElem_map, List.getElem_map, e1, e2])
      subst this
      rw [e1] at e2
      cases e2
      rfl

theorem Live.placed_ov (L : Laws g P) {t : Tab S O} {c : Cont} {o : List (Nat × Nat × Nat)} {full : Nat → Bool} (h : Live g P t c o full)
    {k : Nat} {n : Nav} (hk : k < 2 ^ P.kw) : Placed g t k n ↔ AtOv (g.hash P.kw) t.tb c o k n := by
  have htb := h.tb_lt L
  obtain ⟨n', hn, hcase⟩ := h.find L hk
  constructor
  · rintro ⟨h1, h2⟩
    rw [h1] at hn
    cases hn
    rcases hcase with ⟨v, hloc⟩ | ⟨rfl, _⟩
    · exact AtOv.of_loc hloc
    · rw [navEq_true htb (invalid_end htb)] at h2; cases h2
  · intro ha
    obtain ⟨v, hloc⟩ := ha.loc hk
    obtain ⟨_, _, hv⟩ := h.loc_read L hloc
    refine ⟨?_, navEq_false htb hv⟩
    rcases hcase with ⟨v', hloc'⟩ | ⟨_, hnm⟩
    · rw [hn, (AtOv.of_loc hloc').unique h.cok ha]
    · exact absurd (List.mem_map.mpr ⟨_, (h.loc_mem L hloc).1, rfl⟩) hnm

/-- a table in which a key is found has buckets -/
theorem Placed.liveOv {t : Tab S O} {l : List (Nat × Nat)} (h : Inv g P t l) {k : Nat} {n : Nav} (hp : Placed g t k n) :
    ∃ c o full, Live g P t c o full ∧ l.Perm (ents (g.hash P.kw) t.tb c o) := by
  rcases h with ⟨_, _, _, _, h5, _, _, _, m, full, h7⟩ | h
  · obtain ⟨h1, h2⟩ := hp
    unfold Tab.find at h1
    rw [if_pos h5] at h1
    cases h1
    rw [navEq_true (by omega) (invalid_end (by omega))] at h2
    cases h2
  · exact h

/-- `find_or_insert` that leaves the number of buckets alone: nothing that is stored moves -/
theorem ins_same_ov (L : Laws g P) {f : Nat} {t t' : Tab S O} {c : Cont} {o : List (Nat × Nat × Nat)} {full : Nat → Bool}
    (h : Live g P t c o full) {k v : Nat} {n : Nav} (hk : k < 2 ^ P.kw) (hv : P.normO v = P.norm P.vw v) (hf : P.grow - t.tb < f)
    (hi : Tab.findOrInsert g f t k v = .ok (t', n)) (hb' : t'.tb = t.tb) :
    ∃ c' o' full', Live g P t' c' o' full' ∧ KeepQ t.tb c c' ∧ KeepO o o' ∧ ∃ x, Loc g P t' c' o' n k x := by
  have hinv : Inv g P t (ents (g.hash P.kw) t.tb c o) := .inr ⟨c, o, full, h, .refl _⟩
  obtain ⟨f, rfl⟩ : ∃ f', f = f' + 1 := ⟨f - 1, by omega⟩
  have htb := h.tb_pos L
  obtain ⟨q, b, hm, hb⟩ := h.mapk L hk
  obtain ⟨pos, hpos, hcase⟩ := h.locate L hk hm
  have hq := (invKey_of_map (h.map_ok L) hk hm).2.2.1
  have hcons := L.ovf.consult _ _ _ _ b h.orep hb
  unfold Tab.findOrInsert at hi
  have hkw1 : 1 < t.kw := by rw [h.tkw]; exact L.kw_gt
  simp only [ddcheck_ok hkw1, if_neg (show ¬ t.tb = 0 by omega), ok_bind, h.hash, hm, h.checkMap L hk hm, hpos] at hi
  rcases hcase with ⟨rfl, hq'⟩ | ⟨hne, x, hloc⟩
  rotate_left
  · rw [if_pos hne] at hi
    cases hi
    exact ⟨c, o, full, h, KeepQ.refl _ _, KeepO.refl _, x, hloc⟩
  simp only [ne_eq, not_true_eq_false, if_false, hcons, ok_bind] at hi
  obtain ⟨p, hpp, hpc⟩ := h.ofind L k
  have hfirst : ∃ p', (if full b = true then g.ov.find t.ovf k else .ok NPOS : Res Nat) = .ok p' ∧
      ((p' = NPOS ∧ ∀ e ∈ o, e.2.1 ≠ k) ∨ (p' ≠ NPOS ∧ ∃ v, (p', k, v) ∈ o)) := by
    by_cases hs : full b = true
    · rw [if_pos hs]; exact ⟨p, hpp, hpc⟩
    · rw [if_neg hs]
      refine ⟨NPOS, rfl, .inl ⟨rfl, ?_⟩⟩
      rintro e he rfl
      exact hs (h.ofull e he q b hm)
  obtain ⟨p', hp', hcase'⟩ := hfirst
  rw [hp'] at hi
  simp only [ok_bind] at hi
  rcases hcase' with ⟨rfl, ho⟩ | ⟨hne, x, hx⟩
  rotate_left
  · rw [if_pos hne] at hi
    cases hi
    exact ⟨c, o, full, h, KeepQ.refl _ _, KeepO.refl _, x, .inr ⟨p', by rw [h.bc L], hx⟩⟩
  simp only [not_true_eq_false, if_false] at hi
  obtain ⟨r, hr, _⟩ := L.store.full _ _ _ _ (h.good L) h.rep hb
  rw [hr] at hi
  simp only [ok_bind] at hi
  cases r with
  | false =>
    have hqd : q < 2 ^ (t.dim g).qw := by
      show q < 2 ^ (t.hash g).remainderWidth t.tb
      rw [h.hash]; exact hq
    obtain ⟨s', hs1, hs2⟩ := L.store.push _ _ _ _ q v (h.good L) h.rep hb hqd hr (by rw [show (t.dim g).vw = P.vw from h.tvw]; exact hv)
    have hdv : (t.dim g).vw = P.vw := h.tvw
    rw [hdv] at hs2
    have hsz := L.store.size _ _ _ _ (h.good L) h.rep hb
    have hpush := ents_push (H := g.hash P.kw) (k := k) (v := P.norm P.vw v) c o hb (invKey_of_map (h.map_ok L) hk hm).1
    simp only [Bool.false_eq_true, if_false, hsz, ok_bind, hs1, pure_eq_ok] at hi
    cases hi
    refine ⟨_, o, full, ?_, KeepQ.push t.tb c b (q, P.norm P.vw v), KeepO.refl _, P.norm P.vw v,
      .inl ⟨q, b, (c b).length, by simp, rfl, hb, hm, by simp, hk⟩⟩
    exact {
      tkw := h.tkw, tvw := h.tvw, bpg_pos := h.bpg_pos, bpg_le := h.bpg_le, lo := h.lo, hi := h.hi
      rep := hs2
      orep := h.orep
      cok := h.cok.push hk hm (h.map_ok L) hq' ho
      ofull := h.ofull
      vals := by
        intro b' hb' e he
        by_cases hbb : b' = b
        · subst hbb
          rw [upd_same] at he
          rcases List.mem_append.mp he with he | he
          · exact h.vals b' hb' e he
          · simp only [List.mem_singleton] at he
            subst he
            exact L.norm_idem v
        · rw [upd_other _ _ hbb] at he; exact h.vals b' hb' e he
      ovals := h.ovals
      elems := by
        show t.elems + 1 = _
        rw [hpush.length_eq, h.elems]; simp }
  | true =>
    have hgrow : t.tb < P.grow := by
      rcases Nat.lt_or_ge t.tb P.grow with h1 | h1
      · exact h1
      · rw [h.not_full L h1 hk hm hq'] at hr; exact absurd hr (by simp)
    have hov : ∃ o1 p1, (if g.ov.size t.ovf < g.ov.capacity t.ovf then g.ov.insert t.ovf b k v
        else .ok (t.ovf, NPOS) : Res (O × Nat)) = .ok (o1, p1) ∧
        ((p1 = NPOS ∧ ∃ full', Live g P { t with ovf := o1 } c o full') ∨
         (p1 ≠ NPOS ∧ ∃ full' o', o'.Perm ((p1, k, P.norm P.vw v) :: o) ∧
            Live g P { t with ovf := o1, elems := t.elems + 1 } c o' full')) := by
      by_cases hcap : g.ov.size t.ovf < g.ov.capacity t.ovf
      · rw [if_pos hcap]
        rcases L.ovf.insert _ _ _ _ b k v h.orep hb hcap ho hv with
          ⟨o1, full1, g1, g2, g3⟩ | ⟨o1, full1, p1, o', g1, g2, g3, g4, g5, g6⟩
        · exact ⟨o1, NPOS, g1, .inl ⟨rfl, full1, { h with
            orep := g2, ofull := fun e he q b hm => g3 _ (h.ofull e he q b hm) }⟩⟩
        · refine ⟨o1, p1, g1, .inr ⟨g2, full1, o', by rw [← hv]; exact g3, ?_⟩⟩
          rw [hv] at g3
          exact {
            tkw := h.tkw, tvw := h.tvw, bpg_pos := h.bpg_pos, bpg_le := h.bpg_le, lo := h.lo, hi := h.hi
            rep := h.rep
            orep := g4
            cok := h.cok.ovf_insert g3 hk hm hq' ho
            ofull := by
              intro e he q2 b2 hm2
              rcases List.mem_cons.mp (g3.mem_iff.mp he) with rfl | he
              · have hm2 : (g.hash P.kw).map k t.tb = .ok (q2, b2) := hm2
                rw [hm] at hm2
                have : b = b2 := congrArg Prod.snd (Except.ok.inj hm2)
                rw [← this]; exact g5
              · exact g6 _ (h.ofull e he q2 b2 hm2)
            vals := h.vals
            ovals := by
              intro e he
              rcases List.mem_cons.mp (g3.mem_iff.mp he) with rfl | he
              · exact L.norm_idem v
              · exact h.ovals e he
            elems := by
              show t.elems + 1 = _
              have h1 := h.elems
              have h2 := (g3.map (fun e => e.2)).length_eq
              simp only [ents, List.length_append, List.length_map, List.length_cons] at h1 h2 ⊢
              show _ = (stored (g.hash P.kw) t.tb c).length + o'.length
              omega }
      · rw [if_neg hcap]
        exact ⟨t.ovf, NPOS, rfl, .inl ⟨rfl, full, h⟩⟩
    obtain ⟨o1, p1, ho1, hcase1⟩ := hov
    simp only [if_true, ho1, ok_bind] at hi
    rcases hcase1 with ⟨rfl, full', hl'⟩ | ⟨hne, full', o', hperm, hl'⟩
    · exfalso
      simp only [not_true_eq_false, if_false] at hi
      have hsh : shl64 1 (t.tb + 1) = .ok (2 ^ (t.tb + 1)) := by
        have hlt : t.tb + 1 < 64 := by have := L.grow_le; have := L.hi_lt; omega
        unfold shl64
        rw [if_pos hlt, Nat.shiftLeft_eq, Nat.one_mul]
        exact congrArg _ (Nat.mod_eq_of_lt (Nat.pow_lt_pow_right (by omega) hlt))
      rw [hsh] at hi
      simp only [ok_bind] at hi
      have hinv' : Inv g P { t with ovf := o1 } (ents (g.hash P.kw) t.tb c o) := .inr ⟨c, o, full', hl', .refl _⟩
      obtain ⟨t2, g1, g2, g3, g4⟩ := reserveWith_ok L L (Tab.findOrInsert g f) (ins_ok L f) hl' (n := 2 ^ (t.tb + 1))
        (r := t.tb + 1) (nkw := 0) (reserveBits_pow (by have := L.grow_le; have := L.hi_lt; omega))
        (by have := h.lo; omega) (by have := L.grow_le; omega) (by simp) rfl (by omega)
        (fun e he => ⟨hinv'.key_lt L he, hinv'.val_norm he⟩)
      have g1' : Tab.reserveWith g (Tab.findOrInsert g f)
        { kw := t.kw, vw := t.vw, tb := t.tb, elems := t.elems, bpg := t.bpg, store := t.store, ovf := o1 }
        (2 ^ (t.tb + 1)) 0 = .ok t2 := g1
      simp only [g1', ok_bind] at hi
      obtain ⟨t3, n3, k1, _, k6, _⟩ := ins_ok L f t2 _ k v g2 hk hv (.inr ⟨by omega, by omega⟩)
      rw [hi] at k1
      cases k1
      omega
    · simp only [hne, not_false_eq_true, if_true, pure_eq_ok] at hi
      cases hi
      refine ⟨c, o', full', hl', KeepQ.refl _ _, fun p k v hp => ⟨v, hperm.mem_iff.mpr (by simp [hp])⟩, P.norm P.vw v,
        .inr ⟨p1, by rw [show ({ t with ovf := o1 } : Tab S O).bucketCount = t.bucketCount from rfl, h.bc L], hperm.mem_iff.mpr (by simp)⟩⟩

/-- overwriting through a navigator moves nothing -/
theorem Live.write_keep (L : Laws g P) {t t' : Tab S O} {c : Cont} {o : List (Nat × Nat × Nat)} {full : Nat → Bool}
    (h : Live g P t c o full) {n : Nav} {k v x : Nat} (hl : Loc g P t c o n k v) (hx : P.normO x = P.norm P.vw x)
    (hw : t.writeValue g n x = .ok t') : ∃ c' o', Live g P t' c' o' full ∧ KeepQ t.tb c c' ∧ KeepO o o' := by
  rcases hl with ⟨q, b, i, hi, rfl, hb, hm, he, hk⟩ | ⟨p, rfl, hp⟩
  · obtain ⟨t1, h1, h2, _⟩ := h.writeAt1 L hb hi hx
    rw [hw] at h1
    cases h1
    exact ⟨_, o, h2, KeepQ.set _ _ hi _, KeepO.refl _⟩
  · obtain ⟨l₁, l₂, rfl⟩ := List.append_of_mem hp
    obtain ⟨o', h1, h2⟩ := L.ovf.write _ _ _ _ x l₁ l₂ p k v h.orep rfl hx
    rw [hx] at h2
    simp only [Tab.writeValue, h.bc L, if_true, h1, ok_bind, pure_eq_ok] at hw
    cases hw
    have hmap : ((l₁ ++ (p, k, P.norm P.vw x) :: l₂).map (fun e => e.2.1)) = ((l₁ ++ (p, k, v) :: l₂).map (fun e => e.2.1)) := by simp
    refine ⟨c, l₁ ++ (p, k, P.norm P.vw x) :: l₂, ?_, KeepQ.refl _ _, ?_⟩
    · exact {
        tkw := h.tkw, tvw := h.tvw, bpg_pos := h.bpg_pos, bpg_le := h.bpg_le, lo := h.lo, hi := h.hi
        rep := h.rep
        orep := h2
        cok := h.cok.ovf (by rw [hmap]; exact List.Sublist.refl _)
        ofull := by
          intro e he q b hm
          simp only [List.mem_append, List.mem_cons] at he
          rcases he with he | rfl | he
          · exact h.ofull e (by simp [he]) q b hm
          · exact h.ofull (p, k, v) (by simp) q b hm
          · exact h.ofull e (by simp [he]) q b hm
        vals := h.vals
        ovals := by
          intro e he
          simp only [List.mem_append, List.mem_cons] at he
          rcases he with he | rfl | he
          · exact h.ovals e (by simp [he])
          · exact L.norm_idem x
          · exact h.ovals e (by simp [he])
        elems := by
          show t.elems = _
          rw [h.elems]; simp [ents] }
    · intro p' k' v' hm
      simp only [List.mem_append, List.mem_cons] at hm
      rcases hm with hm | hm | hm
      · exact ⟨v', by simp [hm]⟩
      · cases hm; exact ⟨P.norm P.vw x, by simp⟩
      · exact ⟨v', by simp [hm]⟩

/-- what every call that removes nothing and is no `reserve` does, if the number of buckets stays the same -/
theorem Live.step_keep_ov (L : Laws g P) (hg : P.grow < 65) {t t' : Tab S O} {c : Cont} {o : List (Nat × Nat × Nat)} {full : Nat → Bool}
    (h : Live g P t c o full) {op : MapOp} (hop : OpOK P op) (hq : Growing op) {a : Ans} (hs : t.step g op = .ok (t', a))
    (hb : t'.tb = t.tb) : ∃ c' o' full', Live g P t' c' o' full' ∧ KeepQ t.tb c c' ∧ KeepO o o' := by
  have ins : ∀ {k v : Nat} {t1 : Tab S O} {n : Nav}, k < 2 ^ P.kw → P.normO v = P.norm P.vw v → t.insert g k v = .ok (t1, n) →
      t1.tb = t.tb → ∃ c' o' full', Live g P t1 c' o' full' ∧ KeepQ t.tb c c' ∧ KeepO o o' ∧ ∃ x, Loc g P t1 c' o' n k x := by
    intro k v t1 n hk hv hi ht
    exact ins_same_ov L h hk hv (by show _ < 65; omega) hi ht
  have same : t' = t → ∃ c' o' full', Live g P t' c' o' full' ∧ KeepQ t.tb c c' ∧ KeepO o o' := by
    rintro rfl
    exact ⟨c, o, full, h, KeepQ.refl _ _, KeepO.refl _⟩
  cases op with
  | insert k v =>
    obtain ⟨⟨t1, n⟩, h1, hs⟩ := bind_eq_ok hs
    obtain ⟨_, _, hs⟩ := bind_eq_ok hs
    obtain ⟨_, _, hs⟩ := bind_eq_ok hs
    cases hs
    obtain ⟨c', o', full', g1, g2, g3, _⟩ := ins hop.1 hop.2 h1 hb
    exact ⟨c', o', full', g1, g2, g3⟩
  | get k =>
    obtain ⟨⟨t1, n⟩, h1, hs⟩ := bind_eq_ok hs
    obtain ⟨_, _, hs⟩ := bind_eq_ok hs
    cases hs
    obtain ⟨c', o', full', g1, g2, g3, _⟩ := ins hop.1 hop.2 h1 hb
    exact ⟨c', o', full', g1, g2, g3⟩
  | assign k v =>
    obtain ⟨⟨t1, n⟩, h1, hs⟩ := bind_eq_ok hs
    obtain ⟨t2, h2, hs⟩ := bind_eq_ok hs
    cases hs
    have e : t'.tb = t1.tb := by
      unfold Tab.writeValue at h2
      split at h2
      · obtain ⟨_, _, h2⟩ := bind_eq_ok h2; cases h2; rfl
      · obtain ⟨_, _, h2⟩ := bind_eq_ok h2
        obtain ⟨_, _, h2⟩ := bind_eq_ok h2; cases h2; rfl
    obtain ⟨c', o', full', g1, g2, g3, x, g4⟩ := ins hop.1 hop.2.2 h1 (by omega)
    obtain ⟨c2, o2, k1, k2, k3⟩ := g1.write_keep L g4 hop.2.1 h2
    exact ⟨c2, o2, full', k1, g2.trans (by rw [show t.tb = t1.tb by omega]; exact k2), g3.trans k3⟩
  | find k =>
    obtain ⟨n, _, hs⟩ := bind_eq_ok hs
    obtain ⟨e, _, hs⟩ := bind_eq_ok hs
    refine same ?_
    split at hs
    · cases hs; rfl
    · obtain ⟨_, _, hs⟩ := bind_eq_ok hs
      obtain ⟨_, _, hs⟩ := bind_eq_ok hs
      cases hs; rfl
  | count k =>
    obtain ⟨_, _, hs⟩ := bind_eq_ok hs
    cases hs
    exact same rfl
  | size => cases hs; exact same rfl
  | empty => cases hs; exact same rfl
  | shrink =>
    obtain ⟨t1, h1, hs⟩ := bind_eq_ok hs
    cases hs
    have ht : ¬ t.tb = 0 := by have := h.tb_pos L; omega
    obtain ⟨t2, g1, g2, g3⟩ := h.shrinkFold L (List.range t.bucketCount) (by intro b hb; rw [h.bc L] at hb; simpa using hb)
    have h1 : (if t.tb = 0 then _ else _ : Res (Tab S O)) = .ok t' := h1
    rw [if_neg ht, g1] at h1
    cases h1
    exact ⟨c, o, full, g2, KeepQ.refl _ _, KeepO.refl _⟩
  | erase k => cases hq
  | reserve n => cases hq
  | clear => cases hq

/-- calls that remove nothing and are no `reserve` never reduce the number of buckets -/
theorem run_mono (L : Laws g P) (hg : P.grow < 65) : ∀ (ops : List MapOp) {t t' : Tab S O} {l : List (Nat × Nat)} {m : FMap} {as : List Ans},
    Inv g P t l → Abs l m → (∀ op ∈ ops, OpOK P op ∧ Growing op) → t.run g ops = .ok (t', as) → t.tb ≤ t'.tb := by
  intro ops
  induction ops with
  | nil => intro t t' l m as _ _ _ hr; cases hr; exact Nat.le_refl _
  | cons op ops ih =>
    intro t t' l m as h ha hops hr
    obtain ⟨⟨t1, a⟩, h1, hr⟩ := bind_eq_ok hr
    obtain ⟨⟨t2, as'⟩, h2, hr⟩ := bind_eq_ok hr
    cases hr
    obtain ⟨ho, hq⟩ := hops op (by simp)
    have := step_mono L hg h ho hq h1
    obtain ⟨t3, l', g1, g2, g3⟩ := Tab.step_ok L hg h ha op ho
    rw [h1] at g1
    cases g1
    have := ih g2 g3 (fun x hx => hops x (by simp [hx])) h2
    omega

theorem run_keep_ov (L : Laws g P) (hg : P.grow < 65) : ∀ (ops : List MapOp) {t t' : Tab S O} {c : Cont} {o : List (Nat × Nat × Nat)}
    {full : Nat → Bool} {as : List Ans}, Live g P t c o full → (∀ op ∈ ops, OpOK P op ∧ Growing op) → t.run g ops = .ok (t', as) →
    t'.tb = t.tb → ∃ c' o' full', Live g P t' c' o' full' ∧ KeepQ t.tb c c' ∧ KeepO o o' := by
  intro ops
  induction ops with
  | nil => intro t t' c o full as h _ hr _; cases hr; exact ⟨c, o, full, h, KeepQ.refl _ _, KeepO.refl _⟩
  | cons op ops ih =>
    intro t t' c o full as h hops hr hb
    obtain ⟨⟨t1, a⟩, h1, hr⟩ := bind_eq_ok hr
    obtain ⟨⟨t2, as'⟩, h2, hr⟩ := bind_eq_ok hr
    cases hr
    obtain ⟨ho, hq⟩ := hops op (by simp)
    obtain ⟨m, hm⟩ := Abs.ofPairs (l := ents (g.hash P.kw) t.tb c o) (ents_nodup (h.map_ok L) h.cok)
    have hinv : Inv g P t (ents (g.hash P.kw) t.tb c o) := .inr ⟨c, o, full, h, .refl _⟩
    have m1 := step_mono L hg hinv ho hq h1
    obtain ⟨t3, l', g1, g2, g3⟩ := Tab.step_ok L hg hinv hm op ho
    rw [h1] at g1
    cases g1
    have m2 := run_mono L hg ops g2 g3 (fun x hx => hops x (by simp [hx])) h2
    obtain ⟨c1, o1, full1, k1, k2, k3⟩ := h.step_keep_ov L hg ho hq h1 (by omega)
    obtain ⟨c2, o2, full2, k4, k5, k6⟩ := ih k1 (fun x hx => hops x (by simp [hx])) h2 (by omega)
    exact ⟨c2, o2, full2, k4, k2.trans (by rw [show t.tb = t1.tb by omega]; exact k5), k3.trans k6⟩

/-- erasing moves nothing else in the overflow table -/
def SteadyErase (ov : OverflowOps O) (Rep : O → Nat → List (Nat × Nat × Nat) → (Nat → Bool) → Prop) : Prop :=
  ∀ o n l full l₁ l₂ e, Rep o n l full → l = l₁ ++ e :: l₂ → ∃ o', ov.erase o e.1 = .ok o' ∧ Rep o' n (l₁ ++ l₂) full

theorem Live.eraseOv (L : Laws g P) (hst : SteadyErase g.ov P.RepO) {t : Tab S O} {c : Cont} {full : Nat → Bool}
    {l₁ l₂ : List (Nat × Nat × Nat)} {p k v : Nat} (h : Live g P t c (l₁ ++ (p, k, v) :: l₂) full) :
    ∃ t', t.eraseNav g ⟨2 ^ t.tb, p⟩ = .ok (t', 1) ∧ Live g P t' c (l₁ ++ l₂) full ∧ t'.tb = t.tb := by
  obtain ⟨o', h1, h2⟩ := hst _ _ _ _ l₁ l₂ (p, k, v) h.orep rfl
  have hpos : p < NPOS := L.ovf.pos _ _ _ _ (p, k, v) h.orep (by simp)
  have hs : 0 < g.ov.size t.ovf := by rw [h.osize L]; simp; omega
  refine ⟨{ t with ovf := o', elems := t.elems - 1 }, ?_, ?_, rfl⟩
  · simp only [Tab.eraseNav, h.bc L, if_neg (show ¬ p = NPOS by omega), hs, and_self, if_true, h1, ok_bind]; rfl
  · have hsub : ∀ e ∈ l₁ ++ l₂, e ∈ l₁ ++ (p, k, v) :: l₂ := by
      intro e he
      rcases List.mem_append.mp he with he | he <;> simp [he]
    exact {
      tkw := h.tkw, tvw := h.tvw, bpg_pos := h.bpg_pos, bpg_le := h.bpg_le, lo := h.lo, hi := h.hi
      rep := h.rep
      orep := h2
      cok := h.cok.ovf (by simp)
      ofull := fun e he => h.ofull e (hsub e he)
      vals := h.vals
      ovals := fun e he => h.ovals e (hsub e he)
      elems := by
        show t.elems - 1 = _
        rw [h.elems]; simp [ents]; omega }

/-- erasing another element -/
theorem fact_erase_stable_ov (L : Laws g P) (hst : SteadyErase g.ov P.RepO) {t t' : Tab S O} {m : FMap} (h : Sem g P t m) {r : Nat} {k k' : Nat}
    {n n' : Nav} (hk : k < 2 ^ P.kw) (hk' : k' < 2 ^ P.kw) (hne : k' ≠ k) (hr : t.erase g k' = .ok (t', r)) (hp : Placed g t k n)
    (hf : t.find g k' = .ok n') : Placed g t' k (if n.bucket = t.bucketCount then n else n.without n') := by
  obtain ⟨l, h, ha⟩ := h
  obtain ⟨c, o, full, hl, _⟩ := hp.liveOv h
  have htb := hl.tb_lt L
  have ht : ¬ t.tb = 0 := by have := hl.tb_pos L; omega
  have hpow : 2 ^ t.tb < NPOS := by
    have := Nat.pow_le_pow_right (show 0 < 2 by omega) (show t.tb ≤ 63 by omega)
    have : (2 : Nat) ^ 63 < NPOS := by decide
    omega
  rw [hl.bc L]
  have hat := (hl.placed_ov L hk).mp hp
  obtain ⟨n1, f1, f2⟩ := hl.find L hk'
  rw [hf] at f1
  cases f1
  obtain ⟨n2, e1, e2⟩ := hl.locateKey L hk'
  simp only [Tab.erase, if_neg ht, e1, ok_bind] at hr
  rcases e2 with ⟨e2, v, hloc⟩ | ⟨e2, hnm⟩
  rotate_left
  · -- nothing is erased
    rcases f2 with ⟨v, hloc⟩ | ⟨rfl, _⟩
    · exact absurd (List.mem_map.mpr ⟨_, (hl.loc_mem L hloc).1, rfl⟩) hnm
    · have : t' = t := by simp only [Tab.eraseNav, e2, if_true] at hr; cases hr; rfl
      subst this
      split
      · exact hp
      · have : n.without Nav.end_ = n := by
          unfold Nav.without Nav.end_
          rw [if_neg]
          rintro ⟨h1, _⟩
          simp only at h1
          rcases hat with ⟨_, _, hb, _⟩ | ⟨_, _, rfl, _⟩
          · omega
          · simp only at h1; omega
        rw [this]; exact hp
  · have e3 : n2 = n' := by
      rcases f2 with ⟨v', hloc'⟩ | ⟨_, hnm⟩
      · exact (AtOv.of_loc hloc).unique hl.cok (AtOv.of_loc hloc')
      · exact absurd (List.mem_map.mpr ⟨_, (hl.loc_mem L hloc).1, rfl⟩) hnm
    subst e3
    rcases hloc with ⟨q', b, i, hi, rfl, hb, hm, he, _⟩ | ⟨p, rfl, hp'⟩
    · -- erased from a bucket
      obtain ⟨t2, g1, g2, g3⟩ := hl.eraseAt L hb hi
      rw [hr] at g1
      cases g1
      refine (g2.placed_ov L hk).mpr ?_
      rw [g3]
      rcases hat with ⟨q, j1, j2, j3, j4⟩ | ⟨p, v, rfl, hpo⟩
      rotate_left
      · rw [if_pos rfl]
        exact .inr ⟨p, v, rfl, hpo⟩
      rw [if_neg (by omega)]
      refine .inl ?_
      unfold Nav.without
      by_cases hbb : n.bucket = b
      · obtain ⟨nb, np⟩ := n
        simp only at hbb j1 j2 j3 j4
        subst hbb
        have hqq : i ≠ np := by
          rintro rfl
          rw [he] at j4
          simp only at j4
          subst j4
          have i1 := (invKey_of_map (hl.map_ok L) hk j3).1
          have i2 := (invKey_of_map (hl.map_ok L) hk' hm).1
          exact hne (i2.symm.trans i1)
        by_cases hlt : i < np
        · rw [if_pos ⟨rfl, hlt⟩]
          refine ⟨q, ?_, j2, j3, ?_⟩
          · simp only [upd_same, List.length_eraseIdx_of_lt hi]; omega
          · simp only [upd_same]
            rw [List.getElem_eraseIdx_of_ge _ (by omega), ← j4]
            congr 1
            congr 1
            omega
        · rw [if_neg (by simp; omega)]
          refine ⟨q, ?_, j2, j3, ?_⟩
          · simp only [upd_same, List.length_eraseIdx_of_lt hi]; omega
          · simp only [upd_same]
            rw [List.getElem_eraseIdx_of_lt _ (by omega), ← j4]
      · rw [if_neg (by simp [Ne.symm hbb])]
        refine ⟨q, by rw [upd_other _ _ hbb]; exact j1, j2, j3, ?_⟩
        rw [← j4]
        congr 1
        exact List.getElem_of_eq (upd_other _ _ hbb) _
    · -- erased from the overflow table
      obtain ⟨l₁, l₂, rfl⟩ := List.append_of_mem hp'
      obtain ⟨t2, g1, g2, g3⟩ := hl.eraseOv L hst
      rw [hr] at g1
      cases g1
      refine (g2.placed_ov L hk).mpr ?_
      rw [g3]
      rcases hat with hat | ⟨p1, v1, rfl, hpo⟩
      · obtain ⟨q, j1, j2, j3, j4⟩ := hat
        rw [if_neg (by omega)]
        have : n.without ⟨2 ^ t.tb, p⟩ = n := by
          unfold Nav.without
          rw [if_neg]
          rintro ⟨h1, _⟩
          simp only at h1
          omega
        rw [this]
        exact .inl ⟨q, j1, j2, j3, j4⟩
      · rw [if_pos rfl]
        refine .inr ⟨p1, v1, rfl, ?_⟩
        simp only [List.mem_append, List.mem_cons] at hpo ⊢
        rcases hpo with hpo | hpo | hpo
        · exact .inl hpo
        · cases hpo; exact absurd rfl hne
        · exact .inr hpo

theorem fact_stableOvSpec (L : Laws g P) (hst : SteadyErase g.ov P.RepO) (hg : P.grow < 65) {valid : MapOp → Prop}
    (hv : ∀ op, valid op → OpOK P op) {t : Tab S O} {m : FMap} (h : Sem g P t m) : StableOvSpec g P.kw valid t where
  reads := by
    rintro k n hk ⟨h1, h2⟩
    have h0 := h
    obtain ⟨l, h, ha⟩ := h
    rcases h.find L hk with ⟨n', v, g1, g2, _, g4, g5⟩ | ⟨g1, g2, _⟩
    · rw [h1] at g1
      cases g1
      exact ⟨g4, v, by rw [h0.lookup L hk, (ha.get k v).mpr g2]; rfl, g5⟩
    · rw [h1] at g1
      cases g1
      rw [h2] at g2; cases g2
  calls := by
    intro ops t' as k n hops hr hb hk hp
    obtain ⟨l, h, ha⟩ := h
    obtain ⟨c, o, full, hl, _⟩ := hp.liveOv h
    have ht := hl.tb_pos L
    have hops' : ∀ op ∈ ops, OpOK P op ∧ Growing op := fun op ho => ⟨hv _ (hops op ho).1, (hops op ho).2⟩
    have m1 := run_mono L hg ops h ha hops' hr
    have e : t'.tb = t.tb := by
      unfold Tab.bucketCount at hb
      rw [if_neg (by omega), if_neg (by omega)] at hb
      exact (Nat.pow_right_inj (by omega)).mp hb
    obtain ⟨c', o', full', g1, g2, g3⟩ := run_keep_ov L hg ops hl hops' hr e
    have := ((hl.placed_ov L hk).mp hp).keep g2 g3
    rw [← e] at this
    exact (g1.placed_ov L hk).mpr this
  erase := fun _ _ _ _ _ _ hk' hr hf hk hne hp => fact_erase_stable_ov L hst h hk hk' (Ne.symm hne) hr hp hf

end SC
