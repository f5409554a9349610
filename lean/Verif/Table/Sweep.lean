import Verif.Table.Bidi
/-!
# Iterating backwards while changing the table

A loop from `rbegin_nav()` to `rend_nav()` whose body leaves the current element alone, erases it or assigns a new value to it.
-/
namespace SC

/-- what the body of the loop does with an element -/
inductive LoopAct
  | keep
  /-- `map.erase(nav)` -/
  | erase
  /-- `nav = x` -/
  | assign (x : Nat)
  deriving DecidableEq, Repr

/-- the value an element has afterwards, if it is still there -/
def LoopAct.result (tr : Nat → Nat) (v : Nat) : LoopAct → Option Nat
  | .keep => some v
  | .erase => none
  | .assign x => some (tr x)

/-- the pairs that remain -/
def sweepPairs (tr : Nat → Nat) (act : Nat → Nat → LoopAct) (l : List (Nat × Nat)) : List (Nat × Nat) :=
  l.filterMap (fun e => ((act e.1 e.2).result tr e.2).map (fun v => (e.1, v)))

variable {S O : Type}

/-- the body of the loop -/
def Tab.act (g : Cfg S O) (t : Tab S O) (n : Nav) : LoopAct → Res (Tab S O)
  | .keep => .ok t
  | .erase => do
    let (t, _) ← t.eraseNav g n
    return t
  | .assign x => t.writeValue g n x

/-- the loop `for(auto nav = n; nav != rend_nav(); --nav) { ... }` whose body does `act key value` with the current element (sep:762-767 `erase`
of a navigator, iterator.hpp:78-81 assignment through a navigator); the visited pairs are returned in order -/
def Tab.sweep (g : Cfg S O) (act : Nat → Nat → LoopAct) : Nat → Tab S O → Nav → Res (Tab S O × List (Nat × Nat))
  | 0, _, _ => .error .fuel
  | f + 1, t, n => do
    let e ← t.navEq g n Nav.end_
    if e then return (t, [])
    let k ← t.keyAt g n
    let v ← t.valueAt g n
    let t ← t.act g n (act k v)
    let n ← t.prev g n
    let (t, l) ← Tab.sweep g act f t n
    return (t, (k, v) :: l)

/-- the loop from `rbegin_nav()` on -/
def Tab.sweepAll (g : Cfg S O) (act : Nat → Nat → LoopAct) (t : Tab S O) : Res (Tab S O × List (Nat × Nat)) := do
  let n ← t.rbeginNav g
  Tab.sweep g act (t.size + 1) t n

/-- the loop `for(auto nav = n; nav != end_nav(); ++nav) nav = f(nav.key(), nav.value());` (iterator.hpp:78-81 assignment through a
navigator, 84-100 `++`) -/
def Tab.update (g : Cfg S O) (f : Nat → Nat → Nat) : Nat → Tab S O → Nav → Res (Tab S O × List (Nat × Nat))
  | 0, _, _ => .error .fuel
  | fuel + 1, t, n => do
    let e ← t.navEq g n Nav.end_
    if e then return (t, [])
    let k ← t.keyAt g n
    let v ← t.valueAt g n
    let t ← t.writeValue g n (f k v)
    let n ← t.next g n
    let (t, l) ← Tab.update g f fuel t n
    return (t, (k, v) :: l)

/-- the loop from `begin_nav()` on -/
def Tab.updateAll (g : Cfg S O) (f : Nat → Nat → Nat) (t : Tab S O) : Res (Tab S O × List (Nat × Nat)) := do
  let n ← t.beginNav g
  Tab.update g f (t.size + 1) t n

/-! ## Specification -/

/-- the table `t` has the pairs `l` in this order, its buckets are those of `t0`, `find` and `size()` answer accordingly, and so does
everything called afterwards -/
def HoldsPairs (g : Cfg S O) (tr : Nat → Nat) (kw : Nat) (valid : MapOp → Prop) (l : List (Nat × Nat)) (t0 t : Tab S O) : Prop :=
  t.pairs g = .ok l ∧ t.size = l.length ∧ t.bucketCount = t0.bucketCount ∧
  ∃ m : FMap, (∀ k v, m.get k = some v ↔ (k, v) ∈ l) ∧ (∀ k < 2 ^ kw, t.lookup g k = .ok ((m.get k).map (fun v => (k, v)))) ∧
    ∀ ops, (∀ op ∈ ops, valid op) → ∃ t', Tab.run g t ops = .ok (t', m.run tr ops)

/-- The loop from `rbegin_nav()` on visits every pair once, in reverse order, and leaves exactly the pairs that its body leaves. -/
def SweepSpec (g : Cfg S O) (tr : Nat → Nat) (kw : Nat) (valid : MapOp → Prop) (act : Nat → Nat → LoopAct) (t : Tab S O) : Prop :=
  ∃ l t', t.pairs g = .ok l ∧ t.sweepAll g act = .ok (t', l.reverse) ∧ HoldsPairs g tr kw valid (sweepPairs tr act l) t t'

/-- The loop from `find(key)` backwards, for the element at index `j`: it visits the elements up to index `j`, changes them as its body
says, and leaves the others. -/
def SweepFromSpec (g : Cfg S O) (tr : Nat → Nat) (kw : Nat) (valid : MapOp → Prop) (act : Nat → Nat → LoopAct) (t : Tab S O) : Prop :=
  ∃ l, t.pairs g = .ok l ∧ ∀ j e, l[j]? = some e → ∃ n t', t.find g e.1 = .ok n ∧
    Tab.sweep g act (j + 2) t n = .ok (t', (l.take (j + 1)).reverse) ∧
    HoldsPairs g tr kw valid (sweepPairs tr act (l.take (j + 1)) ++ l.drop (j + 1)) t t'

/-- The forward loop that assigns `f key value` to every element visits every pair once and leaves every key with its new value. -/
def UpdateSpec (g : Cfg S O) (tr : Nat → Nat) (kw : Nat) (valid : MapOp → Prop) (f : Nat → Nat → Nat) (t : Tab S O) : Prop :=
  ∃ l t', t.pairs g = .ok l ∧ t.updateAll g f = .ok (t', l) ∧ HoldsPairs g tr kw valid (l.map (fun e => (e.1, tr (f e.1 e.2)))) t t'

/-! ## Proof -/

variable {g : Cfg S O} {P : Par S O}

theorem Live.writeAt1 (L : Laws g P) {t : Tab S O} {c : Cont} {o : List (Nat × Nat × Nat)} {full : Nat → Bool}
    (h : Live g P t c o full) {b i : Nat} (hb : b < 2 ^ t.tb) (hi : i < (c b).length) {x : Nat} (hx : P.normO x = P.norm P.vw x) :
    ∃ t', t.writeValue g ⟨b, i⟩ x = .ok t' ∧ Live g P t' (upd c b ((c b).set i ((c b)[i].1, P.norm P.vw x))) o full ∧
      t'.tb = t.tb := by
  obtain ⟨s', h1, h2⟩ := L.store.writeValue _ _ _ _ _ x (h.good L) h.rep hb hi (by rw [show (t.dim g).vw = P.vw from h.tvw]; exact hx)
  have hdv : (t.dim g).vw = P.vw := h.tvw
  rw [hdv] at h2
  obtain ⟨R, hR1, hR2⟩ := ents_set (H := g.hash P.kw) (k := invKey (g.hash P.kw) t.tb b (c b)[i].1) (v := P.norm P.vw x) c o hb hi rfl
  refine ⟨{ t with store := s' }, ?_, ?_, rfl⟩
  · simp only [Tab.writeValue, h.bc L, if_neg (show ¬ b = 2 ^ t.tb by omega), ddcheck_ok hb, h1, ok_bind]
    rfl
  · exact {
      tkw := h.tkw, tvw := h.tvw, bpg_pos := h.bpg_pos, bpg_le := h.bpg_le, lo := h.lo, hi := h.hi
      rep := h2
      orep := h.orep
      cok := h.cok.set hi
      ofull := h.ofull
      vals := by
        intro b' hb' e he
        by_cases hbb : b' = b
        · subst hbb
          rw [upd_same] at he
          rcases List.mem_or_eq_of_mem_set he with he | rfl
          · exact h.vals b' hb' e he
          · exact L.norm_idem x
        · rw [upd_other _ _ hbb] at he; exact h.vals b' hb' e he
      ovals := h.ovals
      elems := by
        show t.elems = _
        rw [hR2.length_eq, h.elems, hR1.length_eq]; simp }

/-- the values that the body of the loop assigns can be stored -/
def ActFits (P : Par S O) (act : Nat → Nat → LoopAct) : Prop := ∀ k v x, act k v = .assign x → P.normO x = P.norm P.vw x

/-- what happens to an entry of bucket `b` -/
def actEntry (H : HashMapping) (tb : Nat) (tr : Nat → Nat) (act : Nat → Nat → LoopAct) (b : Nat) (e : Nat × Nat) : Option (Nat × Nat) :=
  ((act (invKey H tb b e.1) e.2).result tr e.2).map (fun v => (e.1, v))

/-- the buckets when the loop, started at entry `i` of bucket `b`, has ended -/
def swept (F : Nat → Nat × Nat → Option (Nat × Nat)) (c : Cont) (b i : Nat) : Cont := fun x =>
  if x < b then (c x).filterMap (F x)
  else if x = b then ((c b).take (i + 1)).filterMap (F b) ++ (c b).drop (i + 1)
  else c x

/-- the buckets after the first iteration -/
def stepped (F : Nat → Nat × Nat → Option (Nat × Nat)) (c : Cont) (b i : Nat) (h : i < (c b).length) : Cont :=
  upd c b ((c b).take i ++ ((F b (c b)[i]).toList ++ (c b).drop (i + 1)))

theorem act_ok (L : Laws g P) {act : Nat → Nat → LoopAct} (hA : ActFits P act) {t : Tab S O} {c : Cont} {full : Nat → Bool} (h : Live g P t c [] full) {b i : Nat} (hb : b < 2 ^ t.tb)
    (hi : i < (c b).length) :
    ∃ t', t.act g ⟨b, i⟩ (act (invKey (g.hash P.kw) t.tb b (c b)[i].1) (c b)[i].2) = .ok t' ∧
      Live g P t' (stepped (actEntry (g.hash P.kw) t.tb (P.norm P.vw) act) c b i hi) [] full ∧ t'.tb = t.tb := by
  unfold stepped actEntry
  cases hact : act (invKey (g.hash P.kw) t.tb b (c b)[i].1) (c b)[i].2 with
  | keep =>
    refine ⟨t, rfl, ?_, rfl⟩
    have : (c b).take i ++ ([(c b)[i]] ++ (c b).drop (i + 1)) = c b := by
      simp
    simp only [LoopAct.result, Option.map_some, Option.toList_some]
    rw [this, upd_self]
    exact h
  | erase =>
    obtain ⟨t', h1, h2, h3⟩ := h.eraseAt L hb hi
    refine ⟨t', by simp only [Tab.act, h1, ok_bind, pure_eq_ok], ?_, h3⟩
    simp only [LoopAct.result, Option.map_none, Option.toList_none, List.nil_append]
    rw [← List.eraseIdx_eq_take_drop_succ]
    exact h2
  | assign x =>
    obtain ⟨t', h1, h2, h3⟩ := h.writeAt1 L hb hi (hA _ _ x hact)
    refine ⟨t', h1, ?_, h3⟩
    simp only [LoopAct.result, Option.map_some, Option.toList_some]
    rw [List.set_eq_take_append_cons_drop, if_pos hi] at h2
    exact h2

theorem sweep_end (L : Laws g P) {t : Tab S O} {c : Cont} {full : Nat → Bool} (h : Live g P t c [] full) {act : Nat → Nat → LoopAct}
    {f i : Nat} (hf : 0 < f) : Tab.sweep g act f t ⟨NPOS, i⟩ = .ok (t, []) := by
  have ho : g.ov.size t.ovf = 0 := by rw [h.osize L]; rfl
  have : 2 ^ t.tb ≤ 2 ^ 63 := Nat.pow_le_pow_right (by omega) (by have := h.tb_lt L; omega)
  obtain ⟨f', rfl⟩ : ∃ f', f = f' + 1 := ⟨f - 1, by omega⟩
  have hi : t.invalid g ⟨NPOS, i⟩ = .ok true := invalid_beyond ho (by
    rw [h.bc L]; show 2 ^ t.tb ≤ NPOS; have : (2 : Nat) ^ 63 < NPOS := by decide
    omega)
  simp only [Tab.sweep, navEq_true (h.tb_lt L) hi, ok_bind, if_true, pure_eq_ok]

theorem swept_stepped_same {F : Nat → Nat × Nat → Option (Nat × Nat)} {c : Cont} {b i : Nat} (hi : i < (c b).length) {i' : Nat} (he : i' + 1 = i) :
    swept F (stepped F c b i hi) b i' = swept F c b i := by
  have hl : ((c b).take i).length = i := by rw [List.length_take]; omega
  funext x
  unfold swept stepped
  by_cases h1 : x < b
  · rw [if_pos h1, if_pos h1, upd_other _ _ (by omega)]
  · rw [if_neg h1, if_neg h1]
    by_cases h2 : x = b
    · rw [if_pos h2, if_pos h2, upd_same, he, List.take_append_of_le_length (by omega), List.drop_append_of_le_length (by omega),
        List.take_of_length_le (by omega), List.drop_of_length_le (by omega), List.take_succ_eq_append_getElem hi, List.filterMap_append]
      simp only [List.nil_append, List.append_assoc]
      congr 1
    · rw [if_neg h2, if_neg h2, upd_other _ _ h2]

theorem stepped_zero {F : Nat → Nat × Nat → Option (Nat × Nat)} {c : Cont} {b : Nat} (hi : 0 < (c b).length) (x : Nat) :
    stepped F c b 0 hi x = if x = b then ((c b).take 1).filterMap (F b) ++ (c b).drop 1 else c x := by
  unfold stepped
  by_cases h2 : x = b
  · subst h2
    rw [if_pos rfl, upd_same, List.take_succ_eq_append_getElem hi, List.filterMap_append]
    simp only [List.take_zero, List.filterMap_nil, List.nil_append]
    congr 1
  · rw [if_neg h2, upd_other _ _ h2]

theorem swept_stepped_lower {F : Nat → Nat × Nat → Option (Nat × Nat)} {c : Cont} {b : Nat} (hi : 0 < (c b).length) {b' i' : Nat} (hlt : b' < b)
    (hlast : i' + 1 = (c b').length) (hempty : ∀ x, b' < x → x < b → c x = []) :
    swept F (stepped F c b 0 hi) b' i' = swept F c b 0 := by
  funext x
  unfold swept
  by_cases h1 : x < b'
  · rw [if_pos h1, if_pos (by omega), stepped_zero, if_neg (by omega)]
  · rw [if_neg h1]
    by_cases h2 : x = b'
    · subst h2
      rw [if_pos rfl, if_pos hlt, stepped_zero, if_neg (by omega), List.take_of_length_le (by omega), List.drop_of_length_le (by omega),
        List.append_nil]
    · rw [if_neg h2, stepped_zero]
      by_cases h3 : x < b
      · rw [if_pos h3, if_neg (by omega), hempty x (by omega) h3]; rfl
      · rw [if_neg h3]

theorem swept_stepped_end {F : Nat → Nat × Nat → Option (Nat × Nat)} {c : Cont} {b : Nat} (hi : 0 < (c b).length)
    (hempty : ∀ x < b, c x = []) : stepped F c b 0 hi = swept F c b 0 := by
  funext x
  rw [stepped_zero]
  unfold swept
  by_cases h3 : x < b
  · rw [if_pos h3, if_neg (by omega), hempty x h3]; rfl
  · rw [if_neg h3]

theorem sweep_ok (L : Laws g P) {act : Nat → Nat → LoopAct} (hA : ActFits P act) : ∀ (f : Nat) (t : Tab S O) (c : Cont) (full : Nat → Bool) (b i : Nat),
    Live g P t c [] full → b < 2 ^ t.tb → i < (c b).length → (entsUpTo (g.hash P.kw) t.tb c b i).length < f →
    ∃ t', Tab.sweep g act f t ⟨b, i⟩ = .ok (t', (entsUpTo (g.hash P.kw) t.tb c b i).reverse) ∧
      Live g P t' (swept (actEntry (g.hash P.kw) t.tb (P.norm P.vw) act) c b i) [] full ∧ t'.tb = t.tb := by
  intro f
  induction f with
  | zero => intro t c full b i _ _ _ hf; omega
  | succ f ih =>
    intro t c full b i h hb hi hf
    obtain ⟨r1, r2, r3⟩ := h.loc_read L (h.loc L hb hi)
    obtain ⟨t1, e1, e2, e3⟩ := act_ok L hA h hb hi
    generalize hc1 : stepped (actEntry (g.hash P.kw) t.tb (P.norm P.vw) act) c b i hi = c1 at e2
    have hl : ((c b).take i).length = i := by rw [List.length_take]; omega
    have hc1b : c1 b = (c b).take i ++ ((actEntry (g.hash P.kw) t.tb (P.norm P.vw) act b (c b)[i]).toList ++ (c b).drop (i + 1)) := by
      rw [← hc1]; exact upd_same _ _ _
    have hc1o : ∀ x, x ≠ b → c1 x = c x := fun x hx => by rw [← hc1]; exact upd_other _ _ hx
    have hi1 : i ≤ (c1 b).length := by rw [hc1b, List.length_append]; omega
    have hrest : entsFrom (g.hash P.kw) t1.tb c1 0 b ++ (bEnts (g.hash P.kw) t1.tb b (c1 b)).take i =
        entsFrom (g.hash P.kw) t.tb c 0 b ++ (bEnts (g.hash P.kw) t.tb b (c b)).take i := by
      rw [e3, entsFrom_congr (c' := c) (fun x hx => hc1o x (by omega))]
      congr 1
      unfold bEnts
      rw [← List.map_take, ← List.map_take, hc1b, List.take_append_of_le_length (by omega), List.take_take, Nat.min_self]
    rw [entsUpTo_step hi, List.length_append, List.length_singleton, ← hrest] at hf
    rw [entsUpTo_step hi, List.reverse_append, List.reverse_singleton, ← hrest]
    simp only [Tab.sweep, navEq_false (h.tb_lt L) r3, ok_bind, r1, r2, e1]
    rcases prev_ok L e2 (show b < 2 ^ t1.tb by rw [e3]; exact hb) hi1 with
      ⟨b', i', h1, h2, h3, h4, h5, h6, h7⟩ | ⟨i', h1, h2, h3, h4⟩
    · rw [h4] at hf
      rw [h1, h4]
      simp only [ok_bind]
      obtain ⟨t', k1, k2, k3⟩ := ih t1 c1 full b' i' e2 (by rw [e3]; omega) h3 (by omega)
      rw [k1]
      refine ⟨t', rfl, ?_, by rw [k3, e3]⟩
      rw [e3] at k2
      by_cases hbb : b' = b
      · subst hbb
        rw [← hc1, swept_stepped_same hi (h7 rfl)] at k2
        exact k2
      · obtain ⟨g1, g2⟩ := h6 (by omega)
        subst g1
        rw [← hc1, swept_stepped_lower hi (show b' < b by omega) (by rw [g2, hc1o b' hbb])
          (fun x hx1 hx2 => by rw [← hc1o x (by omega)]; exact h5 x hx1 hx2)] at k2
        exact k2
    · rw [h4] at hf
      rw [h1, h4]
      simp only [ok_bind]
      rw [sweep_end L e2 (show 0 < f by omega)]
      subst h2
      refine ⟨t1, rfl, ?_, e3⟩
      rw [← hc1, swept_stepped_end hi (fun x hx => by rw [← hc1o x (by omega)]; exact h3 x hx)] at e2
      exact e2

theorem bEnts_filterMap (H : HashMapping) (tb : Nat) (tr : Nat → Nat) (act : Nat → Nat → LoopAct) (b : Nat) (xs : List (Nat × Nat)) :
    bEnts H tb b (xs.filterMap (actEntry H tb tr act b)) = sweepPairs tr act (bEnts H tb b xs) := by
  induction xs with
  | nil => rfl
  | cons e xs ih =>
    unfold bEnts sweepPairs actEntry at *
    simp only [List.filterMap_cons, List.map_cons]
    cases h : (act (invKey H tb b e.1) e.2).result tr e.2 with
    | none => simpa [h] using ih
    | some v => simpa [h] using ih

theorem stored_split {H : HashMapping} {tb : Nat} {c : Cont} {b : Nat} (i : Nat) (hb : b < 2 ^ tb) :
    stored H tb c = entsUpTo H tb c b i ++ ((bEnts H tb b (c b)).drop (i + 1) ++ entsFrom H tb c (b + 1) (2 ^ tb - (b + 1))) := by
  rw [← entsFrom_all, show 2 ^ tb = b + ((2 ^ tb - (b + 1)) + 1) by omega, entsFrom_split, entsFrom_succ]
  unfold entsUpTo
  rw [show b + ((2 ^ tb - (b + 1)) + 1) - (b + 1) = 2 ^ tb - (b + 1) by omega, List.append_assoc, ← List.append_assoc (List.take _ _),
    List.take_append_drop]

theorem entsUpTo_length {H : HashMapping} {tb : Nat} {c : Cont} {b i : Nat} (hi : i < (c b).length) :
    (entsUpTo H tb c b i).length = (entsFrom H tb c 0 b).length + i + 1 := by
  unfold entsUpTo bEnts
  rw [List.length_append, List.length_take, List.length_map]
  omega

theorem entsFrom_congr' {H : HashMapping} {tb : Nat} {c c' : Cont} {b n : Nat} (h : ∀ x, b ≤ x → c x = c' x) :
    entsFrom H tb c b n = entsFrom H tb c' b n := by
  unfold entsFrom
  have : ∀ l : List Nat, (∀ x ∈ l, b ≤ x) → l.flatMap (fun x => bEnts H tb x (c x)) = l.flatMap (fun x => bEnts H tb x (c' x)) := by
    intro l hl
    induction l with
    | nil => rfl
    | cons x l ih => rw [List.flatMap_cons, List.flatMap_cons, ih (fun y hy => hl y (by simp [hy])), h x (hl x (by simp))]
  exact this _ (fun x hx => by simp at hx; omega)

theorem stored_swept {H : HashMapping} {tb : Nat} {tr : Nat → Nat} {act : Nat → Nat → LoopAct} {c : Cont} {b : Nat} (i : Nat)
    (hb : b < 2 ^ tb) :
    stored H tb (swept (actEntry H tb tr act) c b i) =
      sweepPairs tr act (entsUpTo H tb c b i) ++ ((bEnts H tb b (c b)).drop (i + 1) ++ entsFrom H tb c (b + 1) (2 ^ tb - (b + 1))) := by
  have e1 : entsFrom H tb (swept (actEntry H tb tr act) c b i) 0 b = sweepPairs tr act (entsFrom H tb c 0 b) := by
    have : ∀ (l : List Nat), (∀ x ∈ l, x < b) →
        l.flatMap (fun x => bEnts H tb x (swept (actEntry H tb tr act) c b i x)) =
        sweepPairs tr act (l.flatMap (fun x => bEnts H tb x (c x))) := by
      intro l hl
      induction l with
      | nil => rfl
      | cons x l ih =>
        rw [List.flatMap_cons, List.flatMap_cons, ih (fun y hy => hl y (by simp [hy]))]
        have e : swept (actEntry H tb tr act) c b i x = (c x).filterMap (actEntry H tb tr act x) := by
          unfold swept; rw [if_pos (hl x (by simp))]
        rw [e, bEnts_filterMap]
        unfold sweepPairs
        rw [List.filterMap_append]
    exact this _ (fun x hx => by simp at hx; omega)
  have e2 : bEnts H tb b (swept (actEntry H tb tr act) c b i b) =
      sweepPairs tr act ((bEnts H tb b (c b)).take (i + 1)) ++ (bEnts H tb b (c b)).drop (i + 1) := by
    have : swept (actEntry H tb tr act) c b i b = ((c b).take (i + 1)).filterMap (actEntry H tb tr act b) ++ (c b).drop (i + 1) := by
      unfold swept; rw [if_neg (Nat.lt_irrefl b), if_pos rfl]
    rw [this]
    have := bEnts_filterMap H tb tr act b ((c b).take (i + 1))
    unfold bEnts at this ⊢
    rw [List.map_append, this, List.map_take, List.map_drop]
  have e3 : entsFrom H tb (swept (actEntry H tb tr act) c b i) (b + 1) (2 ^ tb - (b + 1)) = entsFrom H tb c (b + 1) (2 ^ tb - (b + 1)) :=
    entsFrom_congr' (fun x hx => by unfold swept; rw [if_neg (by omega), if_neg (by omega)])
  rw [← entsFrom_all, show 2 ^ tb = b + ((2 ^ tb - (b + 1)) + 1) by omega, entsFrom_split, entsFrom_succ, e1, e2, e3]
  unfold entsUpTo sweepPairs
  rw [List.filterMap_append, show b + ((2 ^ tb - (b + 1)) + 1) - (b + 1) = 2 ^ tb - (b + 1) by omega]
  simp only [List.append_assoc]

/-- the loop from an element on, in terms of the sequence of all pairs -/
theorem Live.sweep_at (L : Laws g P) {act : Nat → Nat → LoopAct} (hA : ActFits P act) {t : Tab S O} {c : Cont} {full : Nat → Bool} (h : Live g P t c [] full) {b i j : Nat} (hb : b < 2 ^ t.tb)
    (hi : i < (c b).length) (hj : j = (entsFrom (g.hash P.kw) t.tb c 0 b).length + i) {f : Nat} (hf : j + 1 < f) :
    ∃ t' c', Tab.sweep g act f t ⟨b, i⟩ = .ok (t', ((stored (g.hash P.kw) t.tb c).take (j + 1)).reverse) ∧ Live g P t' c' [] full ∧ t'.tb = t.tb ∧
      stored (g.hash P.kw) t'.tb c' = sweepPairs (P.norm P.vw) act ((stored (g.hash P.kw) t.tb c).take (j + 1)) ++
        (stored (g.hash P.kw) t.tb c).drop (j + 1) := by
  have hl := entsUpTo_length (H := g.hash P.kw) (tb := t.tb) hi
  obtain ⟨t', k1, k2, k3⟩ := sweep_ok L hA f t c full b i h hb hi (by omega)
  refine ⟨t', _, ?_, k2, k3, ?_⟩
  · rw [k1, stored_split i hb, List.take_left' (by omega)]
  · rw [k3, stored_swept i hb, stored_split i hb, List.take_left' (by omega), List.drop_left' (by omega)]

theorem Live.sweep_rbegin (L : Laws g P) {act : Nat → Nat → LoopAct} (hA : ActFits P act) {t : Tab S O} {c : Cont} {full : Nat → Bool} (h : Live g P t c [] full)
    (hne : t.elems ≠ 0) :
    ∃ t' c', t.sweepAll g act = .ok (t', (stored (g.hash P.kw) t.tb c).reverse) ∧ Live g P t' c' [] full ∧ t'.tb = t.tb ∧
      stored (g.hash P.kw) t'.tb c' = sweepPairs (P.norm P.vw) act (stored (g.hash P.kw) t.tb c) := by
  obtain ⟨b, i, h1, h2, h3, h4, h5⟩ := h.rbegin L hne
  have he : t.elems = (stored (g.hash P.kw) t.tb c).length := by rw [h.elems]; simp [ents]
  have hi : i < (c b).length := by omega
  have hl := entsUpTo_length (H := g.hash P.kw) (tb := t.tb) hi
  rw [h5] at hl
  obtain ⟨t', c', k1, k2, k3, k4⟩ := h.sweep_at L hA h2 hi rfl (f := t.size + 1) (by show _ < t.elems + 1; omega)
  rw [List.take_of_length_le (by omega)] at k1 k4
  rw [List.drop_of_length_le (by omega), List.append_nil] at k4
  exact ⟨t', c', by simp only [Tab.sweepAll, h1, ok_bind, k1], k2, k3, k4⟩

theorem stored_set {H : HashMapping} {tb : Nat} {c : Cont} {b i : Nat} (hb : b < 2 ^ tb) (hi : i < (c b).length) (v : Nat) :
    stored H tb (upd c b ((c b).set i ((c b)[i].1, v))) =
      (stored H tb c).set ((entsFrom H tb c 0 b).length + i) (invKey H tb b (c b)[i].1, v) := by
  rw [← entsFrom_all, ← entsFrom_all, show 2 ^ tb = b + ((2 ^ tb - (b + 1)) + 1) by omega, entsFrom_split, entsFrom_succ, entsFrom_split,
    entsFrom_succ, List.set_append_right _ _ (by omega), Nat.add_sub_cancel_left, List.set_append_left _ _ (by simpa [bEnts] using hi),
    upd_same, entsFrom_congr (c' := c) (fun x hx => upd_other _ _ (by omega)), entsFrom_congr' (c' := c) (fun x hx => upd_other _ _ (by omega))]
  congr 2
  unfold bEnts
  rw [List.map_set]

theorem update_ok (L : Laws g P) {f : Nat → Nat → Nat} (hA : ∀ k v, P.normO (f k v) = P.norm P.vw (f k v)) : ∀ (fuel : Nat) (t : Tab S O) (c : Cont) (full : Nat → Bool) (n : Nav) (j : Nat),
    Live g P t c [] full → AtIdx P g t c n j → (stored (g.hash P.kw) t.tb c).length - j < fuel →
    ∃ t' c', Tab.update g f fuel t n = .ok (t', (stored (g.hash P.kw) t.tb c).drop j) ∧ Live g P t' c' [] full ∧ t'.tb = t.tb ∧
      stored (g.hash P.kw) t'.tb c' = (stored (g.hash P.kw) t.tb c).take j ++
        ((stored (g.hash P.kw) t.tb c).drop j).map (fun e => (e.1, P.norm P.vw (f e.1 e.2))) := by
  intro fuel
  induction fuel with
  | zero => intro t c full n j _ _ hf; omega
  | succ fuel ih =>
    intro t c full n j h hn hf
    rcases hn.read L h with ⟨e, h1, h2, h3, h4⟩ | ⟨h1, h2⟩
    · rcases hn with ⟨b, i, rfl, hb, hi, hj⟩ | ⟨hj, hn⟩
      · have hs := stored_at (H := g.hash P.kw) (tb := t.tb) hb hi
        rw [← hj, h1] at hs
        have hs := Option.some.inj hs
        obtain ⟨t1, e1, e2, e3⟩ := h.writeAt1 L hb hi (hA e.1 e.2)
        have est := stored_set (H := g.hash P.kw) (tb := t.tb) hb hi (P.norm P.vw (f e.1 e.2))
        generalize hc1 : upd c b ((c b).set i ((c b)[i].1, P.norm P.vw (f e.1 e.2))) = c1 at e2 est
        rw [← hj, show invKey (g.hash P.kw) t.tb b (c b)[i].1 = e.1 by rw [hs]] at est
        have hlen : (c1 b).length = (c b).length := by rw [← hc1, upd_same, List.length_set]
        have hjl : j < (stored (g.hash P.kw) t.tb c).length := (List.getElem?_eq_some_iff.mp h1).1
        have hat : AtIdx P g t1 c1 ⟨b, i⟩ j := by
          refine .inl ⟨b, i, rfl, by rw [e3]; exact hb, by omega, ?_⟩
          rw [hj, e3, entsFrom_congr (c' := c1) (fun x hx => by rw [← hc1, upd_other _ _ (by omega)])]
        obtain ⟨n', q1, q2⟩ := hat.next L e2 (by rw [e3, est, List.length_set]; exact hjl)
        obtain ⟨t', c', k1, k2, k3, k4⟩ := ih t1 c1 full n' (j + 1) e2 q2 (by rw [e3, est, List.length_set]; omega)
        have hd : (stored (g.hash P.kw) t.tb c).drop j = e :: (stored (g.hash P.kw) t.tb c).drop (j + 1) := by
          rw [List.drop_eq_getElem_cons hjl, (List.getElem?_eq_some_iff.mp h1).2]
        have hds : ((stored (g.hash P.kw) t.tb c).set j (e.1, P.norm P.vw (f e.1 e.2))).drop (j + 1) = (stored (g.hash P.kw) t.tb c).drop (j + 1) :=
          List.drop_set_of_lt (by omega)
        rw [e3, est, hds] at k1 k4
        refine ⟨t', c', ?_, k2, by rw [k3, e3], ?_⟩
        · simp only [Tab.update, navEq_false (h.tb_lt L) h2, ok_bind, h3, h4, e1, q1, k1, hd]
          rfl
        · rw [k4, hd, List.map_cons, List.take_succ_eq_append_getElem (by rw [List.length_set]; exact hjl), List.getElem_set_self,
            List.take_set_of_le (by omega), List.append_assoc]
          rfl
      · rw [hj, List.getElem?_eq_none (Nat.le_refl _)] at h1; cases h1
    · refine ⟨t, c, ?_, h, rfl, ?_⟩
      · rw [h1, List.drop_length]
        simp only [Tab.update, navEq_true (h.tb_lt L) h2, ok_bind, if_true, pure_eq_ok]
      · rw [h1, List.drop_length, List.take_length]; simp

theorem Abs.ofPairs : ∀ {l : List (Nat × Nat)}, (l.map Prod.fst).Nodup → ∃ m : FMap, Abs l m
  | [], _ => ⟨_, Abs.empty⟩
  | e :: l, h => by
    rw [List.map_cons, List.nodup_cons] at h
    obtain ⟨m, hm⟩ := Abs.ofPairs h.2
    refine ⟨⟨fun k => if k = e.1 then some e.2 else m.get k, m.size + 1⟩, ⟨?_, by rw [List.length_cons, hm.size]⟩⟩
    intro k v
    show (if k = e.1 then some e.2 else m.get k) = some v ↔ _
    by_cases hk : k = e.1
    · subst hk
      rw [if_pos rfl, List.mem_cons, Prod.ext_iff]
      constructor
      · intro hv; exact .inl ⟨rfl, (Option.some.inj hv).symm⟩
      · rintro (hv | hv)
        · exact congrArg some hv.2.symm
        · exact absurd (List.mem_map_of_mem (f := Prod.fst) hv) h.1
    · rw [if_neg hk, hm.get, List.mem_cons, Prod.ext_iff]
      simp [hk]

theorem Live.holds (L : Laws g P) (hg : P.grow < 65) {valid : MapOp → Prop} (hv : ∀ op, valid op → OpOK P op) {t t0 : Tab S O} {c : Cont}
    {full : Nat → Bool} (h : Live g P t c [] full) (ht : t.tb = t0.tb) :
    HoldsPairs g (P.norm P.vw) P.kw valid (stored (g.hash P.kw) t.tb c) t0 t := by
  obtain ⟨n, h1, h2⟩ := h.visit_begin L (show t.elems < t.size + 1 by simp [Tab.size])
  have e : ents (g.hash P.kw) t.tb c [] = stored (g.hash P.kw) t.tb c := by simp [ents]
  have hi : Inv g P t (stored (g.hash P.kw) t.tb c) := .inr ⟨c, [], full, h, by rw [e]⟩
  obtain ⟨m, hm⟩ := Abs.ofPairs (hi.nodup L)
  refine ⟨by simp only [Tab.pairs, h1, ok_bind, h2], by show t.elems = _; rw [h.elems, e], by simp [Tab.bucketCount, ht], m, hm.get, ?_, ?_⟩
  · intro k hk
    exact Sem.lookup L ⟨_, hi, hm⟩ hk
  · intro ops hops
    obtain ⟨t', l', h3, _⟩ := Tab.run_ok L hg ops hi hm (fun op hop => hv op (hops op hop))
    exact ⟨t', h3⟩

variable {valid : MapOp → Prop} {t : Tab S O} {m : FMap}

theorem fact_sweep (L : Laws g P) {act : Nat → Nat → LoopAct} (hA : ActFits P act) (hno : NoOverflow P) (hg : P.grow < 65) (hv : ∀ op, valid op → OpOK P op) (h : Sem g P t m)
    (hne : t.size ≠ 0) : SweepSpec g (P.norm P.vw) P.kw valid act t := by
  rcases h.bidi L hno with ⟨h0, _⟩ | ⟨c, full, hl, hp⟩
  · obtain ⟨l, h, _⟩ := h
    rcases h with ⟨_, _, _, _, _, h6, _⟩ | ⟨c, o, full, hl, _⟩
    · exact absurd h6 hne
    · have := hl.tb_pos L; omega
  · obtain ⟨t', c', k1, k2, k3, k4⟩ := hl.sweep_rbegin L hA hne
    refine ⟨_, t', hp, k1, ?_⟩
    rw [← k4]
    exact k2.holds L hg hv k3

theorem fact_sweepFrom (L : Laws g P) {act : Nat → Nat → LoopAct} (hA : ActFits P act) (hno : NoOverflow P) (hg : P.grow < 65) (hv : ∀ op, valid op → OpOK P op) (h : Sem g P t m) : SweepFromSpec g (P.norm P.vw) P.kw valid act t := by
  rcases h.bidi L hno with ⟨_, h0, _⟩ | ⟨c, full, hl, hp⟩
  · exact ⟨[], h0, fun j e hj => by simp at hj⟩
  · refine ⟨_, hp, ?_⟩
    intro j e hj
    have hmem : e ∈ stored (g.hash P.kw) t.tb c := List.mem_of_getElem? hj
    obtain ⟨b, hb, hbe⟩ := List.mem_flatMap.mp hmem
    have hb : b < 2 ^ t.tb := by simpa using hb
    obtain ⟨x, hx, hxe⟩ := List.mem_map.mp hbe
    obtain ⟨h1, h2, _⟩ := map_of_mem (hl.map_ok L) hl.cok hb hx
    have hk : e.1 < 2 ^ P.kw := by rw [← hxe]; exact h1
    obtain ⟨n, hn, hcase⟩ := hl.find L hk
    have en : ents (g.hash P.kw) t.tb c [] = stored (g.hash P.kw) t.tb c := by simp [ents]
    have hnd := ents_nodup (hl.map_ok L) hl.cok
    rw [en] at hnd hcase
    rcases hcase with ⟨v, hloc⟩ | ⟨_, hnm⟩
    · rcases hloc with ⟨q, b', i, hi, rfl, hb', hm, hq, _⟩ | ⟨p, _, hp⟩
      · have hs := stored_at (H := g.hash P.kw) (tb := t.tb) hb' hi
        have hkey : invKey (g.hash P.kw) t.tb b' (c b')[i].1 = e.1 := by
          rw [hq]; exact (invKey_of_map (hl.map_ok L) hk hm).1
        have hj2 : j = (entsFrom (g.hash P.kw) t.tb c 0 b').length + i := by
          obtain ⟨l1, e1⟩ := List.getElem?_eq_some_iff.mp hj
          obtain ⟨l2, e2⟩ := List.getElem?_eq_some_iff.mp hs
          have q1 : ((stored (g.hash P.kw) t.tb c).map Prod.fst)[j]'(by simpa using l1) = e.1 := by rw [List.getElem_map, e1]
          have q2 : ((stored (g.hash P.kw) t.tb c).map Prod.fst)[(entsFrom (g.hash P.kw) t.tb c 0 b').length + i]'(by simpa using l2) = e.1 := by
            rw [List.getElem_map, e2]; exact hkey
          exact (List.getElem_inj hnd).mp (q1.trans q2.symm)
        obtain ⟨t', c', k1, k2, k3, k4⟩ := hl.sweep_at L hA hb' hi hj2 (f := j + 2) (by omega)
        refine ⟨_, t', hn, k1, ?_⟩
        rw [← k4]
        exact k2.holds L hg hv k3
      · simp at hp
    · exact absurd (List.mem_map_of_mem (f := Prod.fst) hmem) hnm

theorem fact_update (L : Laws g P) {f : Nat → Nat → Nat} (hA : ∀ k v, P.normO (f k v) = P.norm P.vw (f k v)) (hno : NoOverflow P) (hg : P.grow < 65) (hv : ∀ op, valid op → OpOK P op) (h : Sem g P t m) : UpdateSpec g (P.norm P.vw) P.kw valid f t := by
  rcases h.bidi L hno with ⟨h0, h1, h2, h3⟩ | ⟨c, full, hl, hp⟩
  · refine ⟨[], t, h1, ?_, h1, ?_⟩
    · simp only [Tab.updateAll, h2, ok_bind, Tab.update, h3, if_true, pure_eq_ok]
    · obtain ⟨l, hi, ha⟩ := h
      have hi0 : Inv g P t [] := by
        rcases hi with ⟨q1, q2, q3, q4, q5, q6, rfl, q7⟩ | ⟨c, o, full, hl, _⟩
        · exact .inl ⟨q1, q2, q3, q4, q5, q6, rfl, q7⟩
        · have := hl.tb_pos L; omega
      refine ⟨hi0.size, rfl, FMap.empty, Abs.empty.get, fun k hk => Sem.lookup L ⟨_, hi0, Abs.empty⟩ hk, fun ops hops => ?_⟩
      obtain ⟨t', l', h4, _⟩ := Tab.run_ok L hg ops hi0 Abs.empty (fun op hop => hv op (hops op hop))
      exact ⟨t', h4⟩
  · have he : t.elems = (stored (g.hash P.kw) t.tb c).length := by rw [hl.elems]; simp [ents]
    obtain ⟨n, h1, h2⟩ := AtIdx.begin L hl
    obtain ⟨t', c', k1, k2, k3, k4⟩ := update_ok L hA (t.size + 1) t c full n 0 hl h2 (by show _ < t.elems + 1; omega)
    rw [List.drop_zero] at k1 k4
    rw [List.take_zero, List.nil_append] at k4
    refine ⟨_, t', hp, by simp only [Tab.updateAll, h1, ok_bind, k1], ?_⟩
    rw [← k4]
    exact k2.holds L hg hv k3

end SC
