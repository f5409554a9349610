import Verif.Table.IterOv
import Verif.Table.Sweep
/-!
# Assigning to all elements in a forward loop, with an overflow table in use
-/
namespace SC
variable {S O : Type}

/-! ## Specification -/

/-- The loop that assigns `f(key, value)` to every element visits the pairs `l` that a loop without assignments visits, gives the keys of these their new
values and leaves all others as they are in the map `m`; sizes stay, and later calls see the new map. -/
def UpdateOvSpec (g : Cfg S O) (tr : Nat → Nat) (kw : Nat) (valid : MapOp → Prop) (f : Nat → Nat → Nat) (m : FMap) (t : Tab S O) : Prop :=
  ∃ l t', t.pairs g = .ok l ∧ t.updateAll g f = .ok (t', l) ∧ t'.size = t.size ∧ t'.bucketCount = t.bucketCount ∧
    ∃ m' : FMap, (∀ k v, (k, v) ∈ l → m'.get k = some (tr (f k v))) ∧ (∀ k, k ∉ l.map Prod.fst → m'.get k = m.get k) ∧
      (∀ k < 2 ^ kw, t'.lookup g k = .ok ((m'.get k).map (fun v => (k, v)))) ∧
      ∀ ops, (∀ op ∈ ops, valid op) → ∃ t'', Tab.run g t' ops = .ok (t'', m'.run tr ops)

/-! ## Proof -/

variable {g : Cfg S O} {P : Par S O}

/-- assign to all keys of a list -/
def FMap.putAll (w : Nat → Nat → Nat) (m : FMap) : List (Nat × Nat) → FMap
  | [] => m
  | e :: l => (m.put e.1 (w e.1 e.2)).putAll w l

theorem FMap.putAll_other {w : Nat → Nat → Nat} {k : Nat} : ∀ {l : List (Nat × Nat)} {m : FMap}, k ∉ l.map Prod.fst →
    (m.putAll w l).get k = m.get k
  | [], _, _ => rfl
  | e :: l, m, h => by
    rw [List.map_cons, List.mem_cons, not_or] at h
    rw [FMap.putAll, FMap.putAll_other h.2]
    simp [FMap.put, h.1]

theorem FMap.putAll_mem {w : Nat → Nat → Nat} {k v : Nat} : ∀ {l : List (Nat × Nat)} {m : FMap}, (l.map Prod.fst).Nodup → (k, v) ∈ l →
    (m.putAll w l).get k = some (w k v)
  | e :: l, m, hn, h => by
    rw [List.map_cons, List.nodup_cons] at hn
    rw [FMap.putAll]
    rcases List.mem_cons.mp h with rfl | h
    · rw [FMap.putAll_other hn.1]
      simp [FMap.put]
    · exact FMap.putAll_mem hn.2 h

/-- a table with `2^tb` buckets that holds the map `m` -/
def Done (g : Cfg S O) (P : Par S O) (tb : Nat) (full : Nat → Bool) (t : Tab S O) (m : FMap) : Prop :=
  t.tb = tb ∧ ∃ c o, Live g P t c o full ∧ Abs (ents (g.hash P.kw) tb c o) m

theorem Live.writeOv (L : Laws g P) {t : Tab S O} {c : Cont} {l₁ l₂ : List (Nat × Nat × Nat)} {full : Nat → Bool} {p k v x : Nat}
    (h : Live g P t c (l₁ ++ (p, k, v) :: l₂) full) (hx : P.normO x = P.norm P.vw x) :
    ∃ t', t.writeValue g ⟨2 ^ t.tb, p⟩ x = .ok t' ∧ Live g P t' c (l₁ ++ (p, k, P.norm P.vw x) :: l₂) full ∧ t'.tb = t.tb ∧
      ∃ R, (ents (g.hash P.kw) t.tb c (l₁ ++ (p, k, v) :: l₂)).Perm ((k, v) :: R) ∧
        (ents (g.hash P.kw) t.tb c (l₁ ++ (p, k, P.norm P.vw x) :: l₂)).Perm ((k, P.norm P.vw x) :: R) := by
  obtain ⟨o', h1, h2⟩ := L.ovf.write _ _ _ _ x l₁ l₂ p k v h.orep rfl hx
  rw [hx] at h2
  have hmap : ((l₁ ++ (p, k, P.norm P.vw x) :: l₂).map (fun e => e.2.1)) =
      ((l₁ ++ (p, k, v) :: l₂).map (fun e => e.2.1)) := by simp
  have hmid : ∀ y, (ents (g.hash P.kw) t.tb c (l₁ ++ (p, k, y) :: l₂)).Perm
      ((k, y) :: ents (g.hash P.kw) t.tb c (l₁ ++ l₂)) := by
    intro y
    unfold ents
    simp only [List.map_append, List.map_cons]
    rw [← List.append_assoc, ← List.append_assoc]
    exact List.perm_middle
  refine ⟨{ t with ovf := o' }, ?_, ?_, rfl, _, hmid v, hmid _⟩
  · simp only [Tab.writeValue, h.bc L, if_true, h1, ok_bind]; rfl
  · exact {
      tkw := h.tkw, tvw := h.tvw, bpg_pos := h.bpg_pos, bpg_le := h.bpg_le, lo := h.lo, hi := h.hi
      rep := h.rep
      orep := h2
      cok := h.cok.ovf (by rw [hmap]; exact List.Sublist.refl _)
      ofull := by
        intro e he q b hm
        simp only [List.mem_append, List.mem_cons] at he
        rcases he with he | rfl | he
        · exact h.ofull e (by simp [he]) q b hm
        · exact h.ofull (p, k, v) (by simp) q b hm
        · exact h.ofull e (by simp [he]) q b hm
      vals := h.vals
      ovals := by
        intro e he
        simp only [List.mem_append, List.mem_cons] at he
        rcases he with he | rfl | he
        · exact h.ovals e (by simp [he])
        · exact L.norm_idem x
        · exact h.ovals e (by simp [he])
      elems := by
        show t.elems = _
        rw [(hmid _).length_eq, h.elems, (hmid v).length_eq]; simp }

theorem OvWalk.rest {ov : OverflowOps O} {o : O} : ∀ {l₁ l₂ : List (Nat × Nat × Nat)} {e : Nat × Nat × Nat} {i : Nat},
    OvWalk ov o i (l₁ ++ e :: l₂) → OvWalk ov o (ov.nextPosition o e.1) l₂
  | [], _, _, _, h => by obtain ⟨h1, _, h3⟩ := h; rw [← h1]; exact h3
  | _ :: _, _, _, _, h => OvWalk.rest h.2.2

/-- the loop in the overflow table from position `i` on -/
theorem update_over (L : Laws g P) {f : Nat → Nat → Nat} (hA : ∀ k v, P.normO (f k v) = P.norm P.vw (f k v)) {c : Cont} {full : Nat → Bool} :
    ∀ (es : List (Nat × Nat × Nat)) (fuel i : Nat) (t : Tab S O) (l₁ : List (Nat × Nat × Nat)) (m : FMap), Live g P t c (l₁ ++ es) full →
      Abs (ents (g.hash P.kw) t.tb c (l₁ ++ es)) m → OvWalk g.ov t.ovf i es → es.length < fuel →
      ∃ t', Tab.update g f fuel t ⟨2 ^ t.tb, i⟩ = .ok (t', es.map (fun e => e.2)) ∧
        Done g P t.tb full t' (m.putAll (fun k v => P.norm P.vw (f k v)) (es.map (fun e => e.2))) := by
  intro es
  induction es with
  | nil =>
    intro fuel i t l₁ m h ha hw hf
    obtain ⟨fuel, rfl⟩ : ∃ f', fuel = f' + 1 := ⟨fuel - 1, by omega⟩
    have hinv : t.invalid g ⟨2 ^ t.tb, i⟩ = .ok true := by
      have hw' : g.ov.validPosition t.ovf i = false := hw
      simp [Tab.invalid, h.bc L, hw']
    refine ⟨t, ?_, rfl, c, _, h, ha⟩
    simp only [Tab.update, navEq_true (h.tb_lt L) hinv, ok_bind, if_true, pure_eq_ok]
    rfl
  | cons e es ih =>
    intro fuel i t l₁ m h ha hw hf
    obtain ⟨p, k, v⟩ := e
    obtain ⟨hi, hv, hw⟩ := hw
    have hi : i = p := hi
    subst i
    obtain ⟨fuel, rfl⟩ : ∃ f', fuel = f' + 1 := ⟨fuel - 1, by omega⟩
    obtain ⟨r1, r2, r3⟩ := h.loc_read L (n := ⟨2 ^ t.tb, p⟩) (k := k) (v := v) (.inr ⟨p, rfl, by simp⟩)
    obtain ⟨t1, w1, w2, w3, R, w4, w5⟩ := h.writeOv L (hA k v)
    have ha1 := (ha.put_old (v := P.norm P.vw (f k v)) w4 (ents_nodup (h.map_ok L) h.cok)).perm w5
    have hs : 0 < g.ov.size t1.ovf := by rw [w2.osize L, List.length_append, List.length_cons]; omega
    have hnext : t1.next g ⟨2 ^ t.tb, p⟩ = .ok ⟨2 ^ t.tb, g.ov.nextPosition t1.ovf p⟩ := by
      simp only [Tab.next, w2.bc L, w3, hs, and_self, if_true]
    have hw1 : OvWalk g.ov t1.ovf (g.ov.nextPosition t1.ovf p) es := OvWalk.rest (e := (p, k, P.norm P.vw (f k v))) (L.ovf.walk _ _ _ _ w2.orep)
    rw [← w3] at ha1
    have e1 : l₁ ++ (p, k, P.norm P.vw (f k v)) :: es = (l₁ ++ [(p, k, P.norm P.vw (f k v))]) ++ es := by simp
    rw [e1] at w2 ha1
    obtain ⟨t', q1, q2⟩ := ih fuel _ t1 _ _ w2 ha1 hw1 (by simp at hf; omega)
    rw [w3] at q1 q2
    refine ⟨t', ?_, q2⟩
    simp only [Tab.update, navEq_false (h.tb_lt L) r3, ok_bind, r1, r2, w1, hnext, q1]
    rfl

theorem writeValue_ovf {t t' : Tab S O} {b i x : Nat} (hb : ¬ b = t.bucketCount) (h : t.writeValue g ⟨b, i⟩ x = .ok t') : t'.ovf = t.ovf := by
  simp only [Tab.writeValue, if_neg hb] at h
  obtain ⟨_, _, h⟩ := bind_eq_ok h
  obtain ⟨_, _, h⟩ := bind_eq_ok h
  cases h
  rfl

/-- the loop from an entry of a bucket, if the loop from position 0 of the overflow table visits `ol` -/
theorem update_ok_over (L : Laws g P) {f : Nat → Nat → Nat} (hA : ∀ k v, P.normO (f k v) = P.norm P.vw (f k v)) {o : List (Nat × Nat × Nat)}
    {full : Nat → Bool} {tb : Nat} {ov : O} {ol : List (Nat × Nat)}
    (hol : ∀ (t : Tab S O) c m fuel, Live g P t c o full → t.tb = tb → t.ovf = ov → Abs (ents (g.hash P.kw) tb c o) m → ol.length < fuel →
      ∃ t', Tab.update g f fuel t ⟨2 ^ tb, 0⟩ = .ok (t', ol) ∧ Done g P tb full t' (m.putAll (fun k v => P.norm P.vw (f k v)) ol)) :
    ∀ (fuel : Nat) (t : Tab S O) (c : Cont) (m : FMap) (b i : Nat), Live g P t c o full → t.tb = tb → t.ovf = ov →
      Abs (ents (g.hash P.kw) tb c o) m → b < 2 ^ tb → i < (c b).length →
      ((bEnts (g.hash P.kw) tb b (c b)).drop i ++ entsFrom (g.hash P.kw) tb c (b + 1) (2 ^ tb - (b + 1)) ++ ol).length < fuel →
      ∃ t', Tab.update g f fuel t ⟨b, i⟩ = .ok (t', (bEnts (g.hash P.kw) tb b (c b)).drop i ++
          entsFrom (g.hash P.kw) tb c (b + 1) (2 ^ tb - (b + 1)) ++ ol) ∧
        Done g P tb full t' (m.putAll (fun k v => P.norm P.vw (f k v)) ((bEnts (g.hash P.kw) tb b (c b)).drop i ++
          entsFrom (g.hash P.kw) tb c (b + 1) (2 ^ tb - (b + 1)) ++ ol)) := by
  intro fuel
  induction fuel with
  | zero => intro t c m b i _ _ _ _ _ _ hf; omega
  | succ fuel ih =>
    intro t c m b i h htb hov ha hb hi hf
    subst htb
    obtain ⟨r1, r2, r3⟩ := h.loc_read L (h.loc L hb hi)
    have hd : (bEnts (g.hash P.kw) t.tb b (c b)).drop i =
        (invKey (g.hash P.kw) t.tb b (c b)[i].1, (c b)[i].2) :: (bEnts (g.hash P.kw) t.tb b (c b)).drop (i + 1) := by
      rw [List.drop_eq_getElem_cons (by simpa [bEnts] using hi)]
      simp [bEnts]
    have hx := hA (invKey (g.hash P.kw) t.tb b (c b)[i].1) (c b)[i].2
    obtain ⟨t1, w1, w2, w3⟩ := h.writeAt1 L hb hi hx
    obtain ⟨R, p1, p2⟩ := ents_set (H := g.hash P.kw) (v := P.norm P.vw (f (invKey (g.hash P.kw) t.tb b (c b)[i].1) (c b)[i].2)) c o hb hi rfl
    have hov1 : t1.ovf = ov := by rw [← hov]; exact writeValue_ovf (by rw [h.bc L]; omega) w1
    have ha1 := (ha.put_old (v := P.norm P.vw (f (invKey (g.hash P.kw) t.tb b (c b)[i].1) (c b)[i].2)) p1
      (ents_nodup (h.map_ok L) h.cok)).perm p2
    generalize hc1 : upd c b ((c b).set i ((c b)[i].1, P.norm P.vw (f (invKey (g.hash P.kw) t.tb b (c b)[i].1) (c b)[i].2))) = c1 at w2 ha1
    have hcb : c1 b = (c b).set i ((c b)[i].1, P.norm P.vw (f (invKey (g.hash P.kw) t.tb b (c b)[i].1) (c b)[i].2)) := by rw [← hc1, upd_same]
    have hlen : (c1 b).length = (c b).length := by rw [hcb, List.length_set]
    have hrest : entsFrom (g.hash P.kw) t.tb c1 (b + 1) (2 ^ t.tb - (b + 1)) = entsFrom (g.hash P.kw) t.tb c (b + 1) (2 ^ t.tb - (b + 1)) :=
      entsFrom_congr' (fun x hx => by rw [← hc1, upd_other _ _ (by omega)])
    have hdrop : (bEnts (g.hash P.kw) t.tb b (c1 b)).drop (i + 1) = (bEnts (g.hash P.kw) t.tb b (c b)).drop (i + 1) := by
      unfold bEnts
      rw [hcb, ← List.map_drop, ← List.map_drop, List.drop_set_of_lt (by omega)]
    have hb1 : b < 2 ^ t1.tb := by rw [w3]; exact hb
    have hsz := L.store.size _ _ _ b (w2.good L) w2.rep hb1
    have hl1 := L.store.len _ _ _ b (w2.good L) w2.rep hb1
    have hbc := w2.bc L
    rw [w3] at hbc
    have hlt : i + 1 < W64 := by show _ < 2 ^ 64; have : NPOS = 2 ^ 64 - 1 := rfl; omega
    have hnb : ¬ (0 < g.ov.size t1.ovf ∧ b = 2 ^ t.tb) := by omega
    have hnext : t1.next g ⟨b, i⟩ = if (c b).length ≤ i + 1 then (do
        let b ← t1.scanUp g (2 ^ t.tb - (b + 1)) (b + 1)
        return ⟨b, 0⟩) else .ok ⟨b, i + 1⟩ := by
      simp only [Tab.next, hbc, if_neg hnb, ddcheck_ok hb, hsz, ok_bind, Nat.mod_eq_of_lt hlt, hlen]
      rfl
    rw [hd] at hf ⊢
    by_cases hl : (c b).length ≤ i + 1
    · rw [if_pos hl] at hnext
      have hnil : (bEnts (g.hash P.kw) t.tb b (c b)).drop (i + 1) = [] := by
        apply List.drop_eq_nil_of_le; simp only [bEnts, List.length_map]; omega
      rw [hnil] at hf ⊢
      obtain ⟨b', s1, s2, s3, s4⟩ := scanUp_ok L w2 (2 ^ t.tb - (b + 1)) (b + 1) (by rw [w3]; omega)
      rw [s1] at hnext
      rw [w3] at s2 s3 s4
      rw [← hrest, s4] at hf ⊢
      by_cases hb' : b' < 2 ^ t.tb
      · have hne : 0 < (c1 b').length := List.length_pos_iff.mpr (s3 hb')
        have e : entsFrom (g.hash P.kw) t.tb c1 b' (2 ^ t.tb - b') = (bEnts (g.hash P.kw) t.tb b' (c1 b')).drop 0 ++
            entsFrom (g.hash P.kw) t.tb c1 (b' + 1) (2 ^ t.tb - (b' + 1)) := by
          rw [show 2 ^ t.tb - b' = (2 ^ t.tb - (b' + 1)) + 1 by omega, entsFrom_succ]; simp
        rw [e] at hf ⊢
        obtain ⟨t', q1, q2⟩ := ih t1 c1 _ b' 0 w2 w3 hov1 ha1 hb' hne
          (by simp only [List.cons_append, List.nil_append, List.length_cons] at hf; omega)
        refine ⟨t', ?_, q2⟩
        simp only [Tab.update, navEq_false (h.tb_lt L) r3, ok_bind, r1, r2, w1, hnext, pure_eq_ok, q1]
        rfl
      · have : b' = 2 ^ t.tb := by omega
        subst this
        have : entsFrom (g.hash P.kw) t.tb c1 (2 ^ t.tb) (2 ^ t.tb - 2 ^ t.tb) = [] := by simp [entsFrom]
        rw [this] at hf ⊢
        obtain ⟨t', q1, q2⟩ := hol t1 c1 _ fuel w2 w3 hov1 ha1 (by simp at hf; omega)
        refine ⟨t', ?_, q2⟩
        simp only [Tab.update, navEq_false (h.tb_lt L) r3, ok_bind, r1, r2, w1, hnext, pure_eq_ok, q1]
        rfl
    · rw [if_neg hl] at hnext
      rw [← hdrop, ← hrest] at hf ⊢
      obtain ⟨t', q1, q2⟩ := ih t1 c1 _ b (i + 1) w2 w3 hov1 ha1 hb (by omega)
        (by simp only [List.cons_append, List.length_cons] at hf; omega)
      refine ⟨t', ?_, q2⟩
      simp only [Tab.update, navEq_false (h.tb_lt L) r3, ok_bind, r1, r2, w1, hnext, q1]
      rfl

/-- The loop visits the pairs in the buckets and then what the loop from position 0 of the overflow table visits. -/
theorem Live.update_over (L : Laws g P) {f : Nat → Nat → Nat} (hA : ∀ k v, P.normO (f k v) = P.norm P.vw (f k v)) {t : Tab S O} {c : Cont}
    {o : List (Nat × Nat × Nat)} {full : Nat → Bool} {m : FMap} (h : Live g P t c o full) (ha : Abs (ents (g.hash P.kw) t.tb c o) m)
    {ol : List (Nat × Nat)} (hol : ∀ (t1 : Tab S O) c m fuel, Live g P t1 c o full → t1.tb = t.tb → t1.ovf = t.ovf →
      Abs (ents (g.hash P.kw) t.tb c o) m → ol.length < fuel →
      ∃ t', Tab.update g f fuel t1 ⟨2 ^ t.tb, 0⟩ = .ok (t', ol) ∧ Done g P t.tb full t' (m.putAll (fun k v => P.norm P.vw (f k v)) ol))
    (hlen : ol.length ≤ o.length) :
    ∃ t', t.updateAll g f = .ok (t', stored (g.hash P.kw) t.tb c ++ ol) ∧
      Done g P t.tb full t' (m.putAll (fun k v => P.norm P.vw (f k v)) (stored (g.hash P.kw) t.tb c ++ ol)) := by
  have hbc := h.bc L
  have he : t.elems = (stored (g.hash P.kw) t.tb c).length + o.length := by rw [h.elems]; simp [ents]
  have hf : (stored (g.hash P.kw) t.tb c ++ ol).length < t.size + 1 := by
    rw [Tab.size, he, List.length_append]; omega
  obtain ⟨b, s1, s2, s3, s4⟩ := scanUp_ok L h (2 ^ t.tb) 0 (by omega)
  rw [entsFrom_all] at s4
  by_cases hb : b < 2 ^ t.tb
  · have hne : 0 < (c b).length := List.length_pos_iff.mpr (s3 hb)
    have e : entsFrom (g.hash P.kw) t.tb c b (2 ^ t.tb - b) = (bEnts (g.hash P.kw) t.tb b (c b)).drop 0 ++
        entsFrom (g.hash P.kw) t.tb c (b + 1) (2 ^ t.tb - (b + 1)) := by
      rw [show 2 ^ t.tb - b = (2 ^ t.tb - (b + 1)) + 1 by omega, entsFrom_succ]; simp
    have hbeg : t.beginNav g = .ok ⟨b, 0⟩ := by simp only [Tab.beginNav, hbc, s1, ok_bind, if_pos hb]; rfl
    simp only [Tab.updateAll, hbeg, ok_bind]
    rw [s4, e] at hf ⊢
    exact update_ok_over L hA hol _ t c m b 0 h rfl rfl ha hb hne hf
  · have hst : stored (g.hash P.kw) t.tb c = [] := by
      rw [s4, show 2 ^ t.tb - b = 0 by omega]; simp [entsFrom]
    rw [hst] at hf ⊢
    rw [List.nil_append] at hf ⊢
    by_cases hs : 0 < g.ov.size t.ovf
    · have hbeg : t.beginNav g = .ok ⟨2 ^ t.tb, 0⟩ := by
        simp only [Tab.beginNav, hbc, s1, ok_bind, if_neg hb, if_pos hs]; rfl
      simp only [Tab.updateAll, hbeg, ok_bind]
      exact hol t c m _ h rfl rfl ha hf
    · have hbeg : t.beginNav g = .ok Nav.end_ := by
        simp only [Tab.beginNav, hbc, s1, ok_bind, if_neg hb, if_neg hs]; rfl
      have : ol = [] := by
        rw [h.osize L] at hs
        exact List.eq_nil_of_length_eq_zero (by omega)
      subst this
      refine ⟨t, ?_, rfl, c, o, h, ha⟩
      simp only [Tab.updateAll, hbeg, ok_bind, Tab.update, navEq_true (h.tb_lt L) (invalid_end (h.tb_lt L)), if_true, pure_eq_ok]

end SC
