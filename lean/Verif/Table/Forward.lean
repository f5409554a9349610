import Verif.Table.Sweep
/-!
# Iterating forwards while erasing elements

`erase(nav)` returns the number of erased elements and leaves the navigator where it was, on the place of the erased element.  A loop from
`begin_nav()` to `end_nav()` that erases elements can be written in three ways.
-/
namespace SC

/-- how the loop goes on after an erasure -/
inductive AfterErase
  /-- `++nav` after every iteration: `for(auto nav = begin_nav(); nav != end_nav(); ++nav) if(..) erase(nav);` -/
  | step
  /-- `++nav` only if nothing was erased: `while(nav != end_nav()) { if(..) erase(nav); else ++nav; }` -/
  | stay
  /-- in addition `++nav` if the navigator has become invalid:
  `while(nav != end_nav()) { if(..) { erase(nav); if(nav == end_nav()) ++nav; } else ++nav; }` -/
  | recheck
  deriving DecidableEq, Repr

variable {S O : Type}

/-- the navigator for the next iteration, `t` is the table after the body of the loop (iterator.hpp:84-100 `++`, 131-134 `==`) -/
def Tab.advance (g : Cfg S O) (t : Tab S O) (n : Nav) (mode : AfterErase) : LoopAct → Res Nav
  | .erase => match mode with
    | .step => t.next g n
    | .stay => .ok n
    | .recheck => do
      let e ← t.navEq g n Nav.end_
      if e then t.next g n else return n
  | _ => t.next g n

/-- The loop from `n` on whose body does `act key value` with the current element (sep:762-767, cmp:726-731, grp:1296-1302 `erase` of a navigator;
iterator.hpp:78-81 assignment through a navigator); the visited pairs are returned in order. -/
def Tab.forward (g : Cfg S O) (mode : AfterErase) (act : Nat → Nat → LoopAct) : Nat → Tab S O → Nav → Res (Tab S O × List (Nat × Nat))
  | 0, _, _ => .error .fuel
  | f + 1, t, n => do
    let e ← t.navEq g n Nav.end_
    if e then return (t, [])
    let k ← t.keyAt g n
    let v ← t.valueAt g n
    let t ← t.act g n (act k v)
    let n ← t.advance g n mode (act k v)
    let (t, l) ← Tab.forward g mode act f t n
    return (t, (k, v) :: l)

/-- the loop from `begin_nav()` on -/
def Tab.forwardAll (g : Cfg S O) (mode : AfterErase) (act : Nat → Nat → LoopAct) (t : Tab S O) : Res (Tab S O × List (Nat × Nat)) := do
  let n ← t.beginNav g
  Tab.forward g mode act (t.size + 1) t n

/-! ## Specification -/

/-- is there a next pair, and is it in the same bucket? -/
def sameNext (β : Nat → Nat) (e : Nat × Nat) : List (Nat × Nat) → Bool
  | [] => false
  | e' :: _ => β e'.1 == β e.1

/-- What the loop does to the pairs of the table: the visited pairs and the pairs that are left.  `β` gives the bucket of a key. -/
def forwardPairs (mode : AfterErase) (β : Nat → Nat) (tr : Nat → Nat) (act : Nat → Nat → LoopAct) :
    List (Nat × Nat) → List (Nat × Nat) × List (Nat × Nat)
  | [] => ([], [])
  | e :: r =>
    match (act e.1 e.2).result tr e.2 with
    | some v => (e :: (forwardPairs mode β tr act r).1, (e.1, v) :: (forwardPairs mode β tr act r).2)
    | none =>
      if sameNext β e r then
        match mode, r with
        -- the next element of the bucket is skipped
        | .step, e' :: r => (e :: (forwardPairs mode β tr act r).1, e' :: (forwardPairs mode β tr act r).2)
        | _, r => (e :: (forwardPairs mode β tr act r).1, (forwardPairs mode β tr act r).2)
      else
        match mode with
        -- the loop ends
        | .stay => ([e], r)
        | _ => (e :: (forwardPairs mode β tr act r).1, (forwardPairs mode β tr act r).2)

/-- the bucket in which `find` finds a key -/
def bucketOf (g : Cfg S O) (t : Tab S O) (k : Nat) : Nat :=
  match t.find g k with
  | .ok n => n.bucket
  | .error _ => 0

/-- the forward loop does exactly what `forwardPairs` says -/
def EraseForwardSpec (g : Cfg S O) (tr : Nat → Nat) (kw : Nat) (valid : MapOp → Prop) (mode : AfterErase) (act : Nat → Nat → LoopAct) (t : Tab S O) : Prop :=
  ∃ l t', t.pairs g = .ok l ∧ t.forwardAll g mode act = .ok (t', (forwardPairs mode (bucketOf g t) tr act l).1) ∧
    HoldsPairs g tr kw valid (forwardPairs mode (bucketOf g t) tr act l).2 t t'

theorem forwardPairs_some {mode : AfterErase} {β tr : Nat → Nat} {act : Nat → Nat → LoopAct} {e : Nat × Nat} {r : List (Nat × Nat)} {v : Nat}
    (h : (act e.1 e.2).result tr e.2 = some v) :
    forwardPairs mode β tr act (e :: r) = (e :: (forwardPairs mode β tr act r).1, (e.1, v) :: (forwardPairs mode β tr act r).2) := by
  conv => lhs; unfold forwardPairs
  simp only [h]

theorem forwardPairs_none {mode : AfterErase} {β tr : Nat → Nat} {act : Nat → Nat → LoopAct} {e : Nat × Nat} {r : List (Nat × Nat)}
    (h : (act e.1 e.2).result tr e.2 = none) (hm : if sameNext β e r then mode ≠ .step else mode ≠ .stay) :
    forwardPairs mode β tr act (e :: r) = (e :: (forwardPairs mode β tr act r).1, (forwardPairs mode β tr act r).2) := by
  conv => lhs; unfold forwardPairs
  simp only [h]
  cases hs : sameNext β e r <;> rw [hs] at hm <;> cases mode <;> cases r <;> simp at hm ⊢

theorem forwardPairs_skip {β tr : Nat → Nat} {act : Nat → Nat → LoopAct} {e e' : Nat × Nat} {r : List (Nat × Nat)}
    (h : (act e.1 e.2).result tr e.2 = none) (hm : sameNext β e (e' :: r) = true) :
    forwardPairs .step β tr act (e :: e' :: r) = (e :: (forwardPairs .step β tr act r).1, e' :: (forwardPairs .step β tr act r).2) := by
  conv => lhs; unfold forwardPairs
  simp only [h, hm, if_true]

theorem forwardPairs_stop {β tr : Nat → Nat} {act : Nat → Nat → LoopAct} {e : Nat × Nat} {r : List (Nat × Nat)}
    (h : (act e.1 e.2).result tr e.2 = none) (hm : sameNext β e r = false) : forwardPairs .stay β tr act (e :: r) = ([e], r) := by
  unfold forwardPairs
  simp [h, hm]

/-- the loop that checks the navigator after an erasure is right: it visits every element once, in order, and leaves what its body leaves -/
theorem forwardPairs_recheck (β tr : Nat → Nat) (act : Nat → Nat → LoopAct) (l : List (Nat × Nat)) :
    forwardPairs .recheck β tr act l = (l, sweepPairs tr act l) := by
  induction l with
  | nil => rfl
  | cons e r ih =>
    unfold sweepPairs at ih ⊢
    cases h : (act e.1 e.2).result tr e.2 with
    | some v => rw [forwardPairs_some h, ih, List.filterMap_cons, h]; rfl
    | none => rw [forwardPairs_none h (by split <;> decide), ih, List.filterMap_cons, h]; rfl

/-! ## Proof -/

variable {g : Cfg S O} {P : Par S O}

/-- `++` from any place of a bucket, also from one behind its last element -/
theorem next_at (L : Laws g P) {t : Tab S O} {c : Cont} {full : Nat → Bool} (h : Live g P t c [] full) {b i : Nat} (hb : b < 2 ^ t.tb)
    (hi : i + 1 < W64) :
    ∃ n, t.next g ⟨b, i⟩ = .ok n ∧ AtIdx P g t c n (if i + 1 < (c b).length then (entsFrom (g.hash P.kw) t.tb c 0 b).length + i + 1
      else (entsFrom (g.hash P.kw) t.tb c 0 b).length + (c b).length) := by
  have ho : g.ov.size t.ovf = 0 := by rw [h.osize L]; rfl
  have hbc := h.bc L
  have hsz := L.store.size _ _ _ b (h.good L) h.rep hb
  have hnext : t.next g ⟨b, i⟩ = if (c b).length ≤ i + 1 then (do
      let b ← t.scanUp g (t.bucketCount - (b + 1)) (b + 1)
      return ⟨b, 0⟩) else .ok ⟨b, i + 1⟩ := by
    simp only [Tab.next, ho, Nat.lt_irrefl, false_and, if_false, hbc, ddcheck_ok hb, hsz, ok_bind, Nat.mod_eq_of_lt hi]
    rfl
  rw [hnext]
  by_cases hl : (c b).length ≤ i + 1
  · rw [if_pos hl, if_neg (by omega)]
    obtain ⟨b', s1, s2, s3, s4⟩ := scanUp_ok L h (2 ^ t.tb - (b + 1)) (b + 1) (by omega)
    rw [hbc, s1]
    have e0 : (entsFrom (g.hash P.kw) t.tb c 0 b).length + (c b).length = (entsFrom (g.hash P.kw) t.tb c 0 (b + 1)).length := by
      rw [entsFrom_last, List.length_append]; simp only [bEnts, List.length_map]
    have e1 := congrArg List.length (entsFrom_split (H := g.hash P.kw) (tb := t.tb) (c := c) (b := b + 1) (n := 2 ^ t.tb - (b + 1)))
    have e2 := congrArg List.length (entsFrom_split (H := g.hash P.kw) (tb := t.tb) (c := c) (b := b') (n := 2 ^ t.tb - b'))
    rw [show b + 1 + (2 ^ t.tb - (b + 1)) = 2 ^ t.tb by omega, List.length_append] at e1
    rw [show b' + (2 ^ t.tb - b') = 2 ^ t.tb by omega, List.length_append] at e2
    have e3 := congrArg List.length s4
    refine ⟨⟨b', 0⟩, rfl, ?_⟩
    by_cases hb' : b' < 2 ^ t.tb
    · exact .inl ⟨b', 0, rfl, hb', List.length_pos_iff.mpr (s3 hb'), by omega⟩
    · have : b' = 2 ^ t.tb := by omega
      subst this
      refine .inr ⟨?_, .inl rfl⟩
      rw [← entsFrom_all]; omega
  · rw [if_neg hl, if_pos (by omega)]
    exact ⟨_, rfl, .inl ⟨b, i + 1, rfl, hb, by omega, by omega⟩⟩

/-- the sequence of pairs around an entry -/
theorem stored_around {H : HashMapping} {tb : Nat} {c : Cont} {b i : Nat} (hb : b < 2 ^ tb) (hi : i < (c b).length) :
    (stored H tb c).take ((entsFrom H tb c 0 b).length + i) = entsFrom H tb c 0 b ++ bEnts H tb b ((c b).take i) ∧
    (stored H tb c).drop ((entsFrom H tb c 0 b).length + i + 1) =
      bEnts H tb b ((c b).drop (i + 1)) ++ entsFrom H tb c (b + 1) (2 ^ tb - (b + 1)) := by
  have e : stored H tb c = entsFrom H tb c 0 b ++ (bEnts H tb b (c b) ++ entsFrom H tb c (b + 1) (2 ^ tb - (b + 1))) := by
    rw [← entsFrom_all]
    conv => lhs; rw [show 2 ^ tb = b + ((2 ^ tb - (b + 1)) + 1) by omega, entsFrom_split, entsFrom_succ]
  have hl : (bEnts H tb b (c b)).length = (c b).length := by simp [bEnts]
  rw [e]
  constructor
  · rw [List.take_length_add_append, List.take_append_of_le_length (by omega)]
    simp [bEnts]
  · rw [Nat.add_assoc, List.drop_length_add_append, List.drop_append_of_le_length (by omega)]
    simp [bEnts]

/-- replacing an entry by some others -/
theorem stored_splice {H : HashMapping} {tb : Nat} {c : Cont} {b i : Nat} (hb : b < 2 ^ tb) (hi : i < (c b).length) (xs : List (Nat × Nat)) :
    stored H tb (upd c b ((c b).take i ++ (xs ++ (c b).drop (i + 1)))) =
      (stored H tb c).take ((entsFrom H tb c 0 b).length + i) ++ (bEnts H tb b xs ++ (stored H tb c).drop ((entsFrom H tb c 0 b).length + i + 1)) := by
  obtain ⟨h1, h2⟩ := stored_around (H := H) hb hi
  rw [h1, h2, ← entsFrom_all, show 2 ^ tb = b + ((2 ^ tb - (b + 1)) + 1) by omega, entsFrom_split, entsFrom_succ, upd_same,
    entsFrom_congr (c' := c) (fun x hx => upd_other _ _ (by omega)), entsFrom_congr' (c' := c) (fun x hx => upd_other _ _ (by omega)),
    show b + ((2 ^ tb - (b + 1)) + 1) - (b + 1) = 2 ^ tb - (b + 1) by omega]
  simp [bEnts]

/-- the bucket function of the specification -/
def IsBucket (P : Par S O) (g : Cfg S O) (tb : Nat) (β : Nat → Nat) : Prop :=
  ∀ k < 2 ^ P.kw, ∀ q b, (g.hash P.kw).map k tb = .ok (q, b) → β k = b

theorem sameNext_iff (L : Laws g P) {t : Tab S O} {c : Cont} {full : Nat → Bool} (h : Live g P t c [] full) {β : Nat → Nat}
    (hβ : IsBucket P g t.tb β) {b i : Nat} (hb : b < 2 ^ t.tb) (hi : i < (c b).length) :
    sameNext β (invKey (g.hash P.kw) t.tb b (c b)[i].1, (c b)[i].2)
      ((stored (g.hash P.kw) t.tb c).drop ((entsFrom (g.hash P.kw) t.tb c 0 b).length + i + 1)) = decide (i + 1 < (c b).length) := by
  have key : ∀ b' < 2 ^ t.tb, ∀ x ∈ c b', β (invKey (g.hash P.kw) t.tb b' x.1) = b' := by
    intro b' hb' x hx
    obtain ⟨h1, h2, _⟩ := map_of_mem (h.map_ok L) h.cok hb' hx
    exact hβ _ h1 _ _ h2
  have k1 := key b hb _ (List.getElem_mem hi)
  rw [(stored_around hb hi).2]
  by_cases hl : i + 1 < (c b).length
  · rw [List.drop_eq_getElem_cons hl]
    have k2 := key b hb _ (List.getElem_mem hl)
    simp only [bEnts, List.map_cons, List.cons_append, sameNext, k1, k2, beq_self_eq_true, hl, decide_true]
  · rw [List.drop_of_length_le (by omega), decide_eq_false hl]
    show sameNext β _ (entsFrom _ _ _ _ _) = false
    cases hr : entsFrom (g.hash P.kw) t.tb c (b + 1) (2 ^ t.tb - (b + 1)) with
    | nil => rfl
    | cons e' r =>
      have hm : e' ∈ entsFrom (g.hash P.kw) t.tb c (b + 1) (2 ^ t.tb - (b + 1)) := by rw [hr]; exact List.mem_cons_self
      unfold entsFrom at hm
      obtain ⟨b', hb', hm⟩ := List.mem_flatMap.mp hm
      obtain ⟨x, hx, rfl⟩ := List.mem_map.mp hm
      have hb'' : b + 1 ≤ b' ∧ b' < 2 ^ t.tb := by
        rw [List.mem_range'_1] at hb'; omega
      have k2 := key b' hb''.2 x hx
      simp only [sameNext, k1, k2, beq_eq_false_iff_ne]
      omega

theorem forward_end (L : Laws g P) {t : Tab S O} {c : Cont} {full : Nat → Bool} (h : Live g P t c [] full) {mode : AfterErase}
    {act : Nat → Nat → LoopAct} {f : Nat} {n : Nav} (hn : t.invalid g n = .ok true) (hf : 0 < f) :
    Tab.forward g mode act f t n = .ok (t, []) := by
  obtain ⟨f', rfl⟩ : ∃ f', f = f' + 1 := ⟨f - 1, by omega⟩
  simp only [Tab.forward, navEq_true (h.tb_lt L) hn, ok_bind, if_true, pure_eq_ok]

theorem forward_ok (L : Laws g P) {act : Nat → Nat → LoopAct} (hA : ActFits P act) (mode : AfterErase) (β : Nat → Nat) :
    ∀ (f : Nat) (t : Tab S O) (c : Cont) (full : Nat → Bool) (n : Nav) (j : Nat),
    Live g P t c [] full → AtIdx P g t c n j → IsBucket P g t.tb β → (stored (g.hash P.kw) t.tb c).length - j < f →
    ∃ t' c', Tab.forward g mode act f t n = .ok (t', (forwardPairs mode β (P.norm P.vw) act ((stored (g.hash P.kw) t.tb c).drop j)).1) ∧
      Live g P t' c' [] full ∧ t'.tb = t.tb ∧
      stored (g.hash P.kw) t'.tb c' = (stored (g.hash P.kw) t.tb c).take j ++
        (forwardPairs mode β (P.norm P.vw) act ((stored (g.hash P.kw) t.tb c).drop j)).2 := by
  intro f
  induction f with
  | zero => intro t c full n j _ _ _ hf; omega
  | succ f ih =>
    intro t c full n j h hn hβ hf
    rcases hn with ⟨b, i, rfl, hb, hi, rfl⟩ | hend
    · generalize hj : (entsFrom (g.hash P.kw) t.tb c 0 b).length + i = j at hf ⊢
      have hs := stored_at (H := g.hash P.kw) (tb := t.tb) hb hi
      have hsame := sameNext_iff L h hβ hb hi
      obtain ⟨r1, r2, r3⟩ := h.loc_read L (h.loc L hb hi)
      obtain ⟨t1, a1, a2, a3⟩ := act_ok L hA h hb hi
      have est := stored_splice (H := g.hash P.kw) hb hi
        (actEntry (g.hash P.kw) t.tb (P.norm P.vw) act b (c b)[i]).toList
      have hlenS := L.store.len _ _ _ b (h.good L) h.rep hb
      have hW : i + 1 < W64 := by show _ < 2 ^ 64; have : NPOS = 2 ^ 64 - 1 := rfl; omega
      unfold stepped at a2
      rw [hj] at hs hsame est
      generalize hST : stored (g.hash P.kw) t.tb c = ST at *
      have hjl : j < ST.length := (List.getElem?_eq_some_iff.mp hs).1
      have hd : ST.drop j = (invKey (g.hash P.kw) t.tb b (c b)[i].1, (c b)[i].2) :: ST.drop (j + 1) := by
        rw [List.drop_eq_getElem_cons hjl, (List.getElem?_eq_some_iff.mp hs).2]
      have htl : (ST.take j).length = j := by rw [List.length_take]; omega
      have hcl : ((c b).take i).length = i := by rw [List.length_take]; omega
      generalize hc1 : upd c b ((c b).take i ++ ((actEntry (g.hash P.kw) t.tb (P.norm P.vw) act b (c b)[i]).toList ++ (c b).drop (i + 1))) = c1 at a2 est
      have hc1b : c1 b = (c b).take i ++ ((actEntry (g.hash P.kw) t.tb (P.norm P.vw) act b (c b)[i]).toList ++ (c b).drop (i + 1)) := by
        rw [← hc1]; exact upd_same _ _ _
      have hoff : (entsFrom (g.hash P.kw) t1.tb c1 0 b).length + i = j := by
        rw [← hj, a3, entsFrom_congr (c' := c) (fun x hx => by rw [← hc1, upd_other _ _ (by omega)])]
      have hb1 : b < 2 ^ t1.tb := by rw [a3]; exact hb
      have hβ1 : IsBucket P g t1.tb β := by rw [a3]; exact hβ
      rw [hd]
      cases hres : (act (invKey (g.hash P.kw) t.tb b (c b)[i].1) (c b)[i].2).result (P.norm P.vw) (c b)[i].2 with
      | some v =>
        rw [forwardPairs_some hres]
        have hadv : t1.advance g ⟨b, i⟩ mode (act (invKey (g.hash P.kw) t.tb b (c b)[i].1) (c b)[i].2) = t1.next g ⟨b, i⟩ := by
          cases ha : act (invKey (g.hash P.kw) t.tb b (c b)[i].1) (c b)[i].2 with
          | erase => rw [ha] at hres; cases hres
          | keep => rfl
          | assign x => rfl
        have hF : actEntry (g.hash P.kw) t.tb (P.norm P.vw) act b (c b)[i] = some ((c b)[i].1, v) := by
          unfold actEntry; rw [hres]; rfl
        rw [hF] at est hc1b
        have est : stored (g.hash P.kw) t1.tb c1 = ST.take j ++ ((invKey (g.hash P.kw) t.tb b (c b)[i].1, v) :: ST.drop (j + 1)) := by
          rw [a3, est]; rfl
        have hlen1 : (c1 b).length = (c b).length := by
          rw [hc1b]; simp only [List.length_append, Option.toList_some, List.length_singleton, List.length_drop, hcl]; omega
        have hat : AtIdx P g t1 c1 ⟨b, i⟩ j := .inl ⟨b, i, rfl, hb1, by omega, hoff.symm⟩
        have hl1 : (stored (g.hash P.kw) t1.tb c1).length = ST.length := by
          rw [est]; simp only [List.length_append, List.length_cons, List.length_drop, htl]; omega
        obtain ⟨n', q1, q2⟩ := hat.next L a2 (by omega)
        obtain ⟨t', c', k1, k2, k3, k4⟩ := ih t1 c1 full n' (j + 1) a2 q2 hβ1 (by omega)
        have ed : (stored (g.hash P.kw) t1.tb c1).drop (j + 1) = ST.drop (j + 1) := by
          rw [est, List.drop_append, List.drop_of_length_le (by omega), htl, show j + 1 - j = 1 by omega]; rfl
        have et : (stored (g.hash P.kw) t1.tb c1).take (j + 1) = ST.take j ++ [(invKey (g.hash P.kw) t.tb b (c b)[i].1, v)] := by
          rw [est, List.take_append, List.take_of_length_le (by omega), htl, show j + 1 - j = 1 by omega]; rfl
        rw [ed] at k1 k4
        rw [et] at k4
        refine ⟨t', c', ?_, k2, by rw [k3, a3], ?_⟩
        · simp only [Tab.forward, navEq_false (h.tb_lt L) r3, ok_bind, r1, r2, a1, hadv, q1, k1]
          rfl
        · rw [k4, List.append_assoc]; rfl
      | none =>
        have ha : act (invKey (g.hash P.kw) t.tb b (c b)[i].1) (c b)[i].2 = .erase := by
          cases ha : act (invKey (g.hash P.kw) t.tb b (c b)[i].1) (c b)[i].2 with
          | erase => rfl
          | keep => rw [ha] at hres; cases hres
          | assign x => rw [ha] at hres; cases hres
        have hF : actEntry (g.hash P.kw) t.tb (P.norm P.vw) act b (c b)[i] = none := by
          unfold actEntry; rw [hres]; rfl
        rw [hF] at est hc1b
        have est : stored (g.hash P.kw) t1.tb c1 = ST.take j ++ ST.drop (j + 1) := by
          rw [a3, est]; rfl
        have hlen1 : (c1 b).length + 1 = (c b).length := by
          rw [hc1b]; simp only [List.length_append, Option.toList_none, List.length_nil, List.length_drop, hcl]; omega
        have hl1 : (stored (g.hash P.kw) t1.tb c1).length + 1 = ST.length := by
          rw [est]; simp only [List.length_append, List.length_drop, htl]; omega
        obtain ⟨n', q1, q2⟩ := next_at L a2 hb1 hW
        have ed : (stored (g.hash P.kw) t1.tb c1).drop j = ST.drop (j + 1) := by
          rw [est, List.drop_append, List.drop_of_length_le (by omega), htl, Nat.sub_self]; rfl
        have et : (stored (g.hash P.kw) t1.tb c1).take j = ST.take j := by
          rw [est, List.take_append, List.take_of_length_le (by omega), htl, Nat.sub_self, List.take_zero, List.append_nil]
        -- going on at index `j` after the erasure
        have go : ∀ n'' , t1.advance g ⟨b, i⟩ mode .erase = .ok n'' → AtIdx P g t1 c1 n'' j →
            ∃ t' c', Tab.forward g mode act (f + 1) t ⟨b, i⟩ = .ok (t', (invKey (g.hash P.kw) t.tb b (c b)[i].1, (c b)[i].2) ::
                (forwardPairs mode β (P.norm P.vw) act (ST.drop (j + 1))).1) ∧ Live g P t' c' [] full ∧ t'.tb = t.tb ∧
              stored (g.hash P.kw) t'.tb c' = ST.take j ++ (forwardPairs mode β (P.norm P.vw) act (ST.drop (j + 1))).2 := by
          intro n'' hadv hat
          obtain ⟨t', c', k1, k2, k3, k4⟩ := ih t1 c1 full n'' j a2 hat hβ1 (by omega)
          rw [ed] at k1 k4
          rw [et] at k4
          rw [ha] at a1
          refine ⟨t', c', ?_, k2, by rw [k3, a3], k4⟩
          simp only [Tab.forward, navEq_false (h.tb_lt L) r3, ok_bind, r1, r2, ha, a1, hadv, k1]
          rfl
        have inv1 : i < (c1 b).length → t1.invalid g ⟨b, i⟩ = .ok false := fun hlt => (a2.loc_read L (a2.loc L hb1 hlt)).2.2
        have inv2 : ¬ i < (c1 b).length → t1.invalid g ⟨b, i⟩ = .ok true := by
          intro hlt
          have ho : g.ov.size t1.ovf = 0 := by rw [a2.osize L]; rfl
          have hsz := L.store.size _ _ _ b (a2.good L) a2.rep hb1
          simp only [Tab.invalid, ho, Nat.lt_irrefl, false_and, if_false, a2.bc L, if_neg (show ¬ 2 ^ t1.tb ≤ b by omega), hsz, ok_bind]
          rw [decide_eq_true (show (c1 b).length ≤ i by omega)]
          rfl
        by_cases hl : i + 1 < (c b).length
        · rw [decide_eq_true hl] at hsame
          have hat : AtIdx P g t1 c1 ⟨b, i⟩ j := .inl ⟨b, i, rfl, hb1, by omega, hoff.symm⟩
          cases mode with
          | stay =>
            rw [forwardPairs_none hres (by rw [if_pos hsame]; decide)]
            exact go ⟨b, i⟩ rfl hat
          | recheck =>
            rw [forwardPairs_none hres (by rw [if_pos hsame]; decide)]
            exact go ⟨b, i⟩ (by simp only [Tab.advance, navEq_false (a2.tb_lt L) (inv1 (by omega)), ok_bind]; rfl) hat
          | step =>
            -- the element that has moved to the place of the erased one is skipped
            have q2' : AtIdx P g t1 c1 n' (j + 1) := by
              by_cases h2 : i + 1 < (c1 b).length
              · rw [if_pos h2, show (entsFrom (g.hash P.kw) t1.tb c1 0 b).length + i + 1 = j + 1 by omega] at q2; exact q2
              · rw [if_neg h2, show (entsFrom (g.hash P.kw) t1.tb c1 0 b).length + (c1 b).length = j + 1 by omega] at q2; exact q2
            obtain ⟨t', c', k1, k2, k3, k4⟩ := ih t1 c1 full n' (j + 1) a2 q2' hβ1 (by omega)
            have hjl2 : j + 1 < ST.length := by
              have e := congrArg List.length (stored_around (H := g.hash P.kw) (tb := t.tb) hb hi).2
              rw [hj, hST] at e
              simp only [List.length_drop, List.length_append, bEnts, List.length_map] at e
              omega
            have hd2 : ST.drop (j + 1) = ST[j + 1] :: ST.drop (j + 2) := List.drop_eq_getElem_cons hjl2
            have ed2 : (stored (g.hash P.kw) t1.tb c1).drop (j + 1) = ST.drop (j + 2) := by
              have := congrArg (List.drop 1) ed
              rw [List.drop_drop, List.drop_drop] at this
              exact this
            have et2 : (stored (g.hash P.kw) t1.tb c1).take (j + 1) = ST.take j ++ [ST[j + 1]] := by
              rw [est, hd2, List.take_append, List.take_of_length_le (by omega), htl, show j + 1 - j = 1 by omega]; rfl
            rw [ed2] at k1 k4
            rw [et2] at k4
            rw [ha] at a1
            rw [hd2] at hsame ⊢
            rw [forwardPairs_skip hres hsame]
            refine ⟨t', c', ?_, k2, by rw [k3, a3], ?_⟩
            · simp only [Tab.forward, navEq_false (h.tb_lt L) r3, ok_bind, r1, r2, ha, a1, Tab.advance, q1, k1]
              rfl
            · rw [k4, List.append_assoc]; rfl
        · rw [decide_eq_false hl] at hsame
          rw [if_neg (by omega), show (entsFrom (g.hash P.kw) t1.tb c1 0 b).length + (c1 b).length = j by omega] at q2
          cases mode with
          | step =>
            rw [forwardPairs_none hres (by rw [if_neg (by rw [hsame]; decide)]; decide)]
            exact go n' q1 q2
          | recheck =>
            rw [forwardPairs_none hres (by rw [if_neg (by rw [hsame]; decide)]; decide)]
            exact go n' (by simp only [Tab.advance, navEq_true (a2.tb_lt L) (inv2 (by omega)), ok_bind, if_true, q1]) q2
          | stay =>
            have hf1 : 0 < f := by omega
            rw [ha] at a1
            rw [forwardPairs_stop hres hsame]
            refine ⟨t1, c1, ?_, a2, a3, est⟩
            simp only [Tab.forward, navEq_false (h.tb_lt L) r3, ok_bind, r1, r2, ha, a1, Tab.advance, forward_end L a2 (inv2 (by omega)) hf1]
            rfl
    · rcases AtIdx.read L h (.inr hend) with ⟨e, h1, _⟩ | ⟨h1, h2⟩
      · rw [hend.1, List.getElem?_eq_none (Nat.le_refl _)] at h1; cases h1
      · refine ⟨t, c, ?_, h, rfl, ?_⟩
        · rw [h1, List.drop_length, forward_end L h h2 (by omega)]; rfl
        · rw [h1, List.drop_length, List.take_length]; simp [forwardPairs]

variable {valid : MapOp → Prop} {t : Tab S O} {m : FMap}

theorem Live.isBucket (L : Laws g P) {c : Cont} {full : Nat → Bool} (h : Live g P t c [] full) :
    ∃ β, IsBucket P g t.tb β ∧ ∀ e ∈ stored (g.hash P.kw) t.tb c, β e.1 = bucketOf g t e.1 := by
  refine ⟨fun k => match (g.hash P.kw).map k t.tb with | .ok r => r.2 | .error _ => 0, fun k _ q b hm => by simp only [hm], ?_⟩
  intro e he
  obtain ⟨b, hb, hbe⟩ := List.mem_flatMap.mp he
  have hb : b < 2 ^ t.tb := by simpa using hb
  obtain ⟨x, hx, rfl⟩ := List.mem_map.mp hbe
  obtain ⟨h1, h2, _⟩ := map_of_mem (h.map_ok L) h.cok hb hx
  simp only [h2]
  obtain ⟨n, hn, hcase⟩ := h.find L h1
  rcases hcase with ⟨v, ⟨q, b', i, hi, rfl, hb', hm, _⟩ | ⟨p, _, hp⟩⟩ | ⟨_, hnm⟩
  · rw [h2] at hm
    simp only [bucketOf, hn]
    exact congrArg Prod.snd (Except.ok.inj hm)
  · simp at hp
  · have en : ents (g.hash P.kw) t.tb c [] = stored (g.hash P.kw) t.tb c := by simp [ents]
    rw [en] at hnm
    exact absurd (List.mem_map_of_mem (f := Prod.fst) he) hnm

theorem sameNext_congr {β β' : Nat → Nat} {e : Nat × Nat} {r : List (Nat × Nat)} (h : ∀ x ∈ e :: r, β x.1 = β' x.1) :
    sameNext β e r = sameNext β' e r := by
  cases r with
  | nil => rfl
  | cons e' r => simp only [sameNext, h e' (by simp), h e (by simp)]

theorem forwardPairs_congr (mode : AfterErase) {β β' tr : Nat → Nat} {act : Nat → Nat → LoopAct} :
    ∀ (N : Nat) (l : List (Nat × Nat)), l.length ≤ N → (∀ x ∈ l, β x.1 = β' x.1) → forwardPairs mode β tr act l = forwardPairs mode β' tr act l := by
  intro N
  induction N with
  | zero =>
    intro l hl _
    have : l = [] := List.eq_nil_of_length_eq_zero (by omega)
    subst this
    simp only [forwardPairs]
  | succ N ih =>
    intro l hl h
    cases l with
    | nil => simp only [forwardPairs]
    | cons e r =>
      rw [List.length_cons] at hl
      have ihr := ih r (by omega) (fun x hx => h x (by simp [hx]))
      have hsn := sameNext_congr h
      cases hr : (act e.1 e.2).result tr e.2 with
      | some v => rw [forwardPairs_some hr, forwardPairs_some hr, ihr]
      | none =>
        by_cases hm : if sameNext β e r then mode ≠ .step else mode ≠ .stay
        · rw [forwardPairs_none hr hm, forwardPairs_none hr (by rw [← hsn]; exact hm), ihr]
        · by_cases hs : sameNext β e r = true
          · rw [if_pos hs] at hm
            have hm : mode = .step := by cases mode <;> simp_all
            subst hm
            cases r with
            | nil => cases hs
            | cons e' r =>
              rw [forwardPairs_skip hr hs, forwardPairs_skip hr (by rw [← hsn]; exact hs),
                ih r (by rw [List.length_cons] at hl; omega) (fun x hx => h x (by simp [hx]))]
          · rw [if_neg hs] at hm
            have hs : sameNext β e r = false := by simpa using hs
            have hm : mode = .stay := by cases mode <;> simp_all
            subst hm
            rw [forwardPairs_stop hr hs, forwardPairs_stop hr (by rw [← hsn]; exact hs)]

theorem fact_eraseForward (L : Laws g P) {act : Nat → Nat → LoopAct} (hA : ActFits P act) (hno : NoOverflow P) (hg : P.grow < 65) (hv : ∀ op, valid op → OpOK P op)
    (h : Sem g P t m) (mode : AfterErase) : EraseForwardSpec g (P.norm P.vw) P.kw valid mode act t := by
  rcases h.bidi L hno with ⟨h0, h1, h2, h3⟩ | ⟨c, full, hl, hp⟩
  · refine ⟨[], t, h1, ?_, ?_⟩
    · simp only [Tab.forwardAll, h2, ok_bind, Tab.forward, h3, if_true, pure_eq_ok, forwardPairs]
    · rw [show (forwardPairs mode (bucketOf g t) (P.norm P.vw) act []).2 = [] by simp only [forwardPairs]]
      refine ⟨h1, ?_⟩
      obtain ⟨l, hi, ha⟩ := h
      have hi0 : Inv g P t [] := by
        rcases hi with ⟨q1, q2, q3, q4, q5, q6, rfl, q7⟩ | ⟨c, o, full, hl, _⟩
        · exact .inl ⟨q1, q2, q3, q4, q5, q6, rfl, q7⟩
        · have := hl.tb_pos L; omega
      refine ⟨hi0.size, rfl, FMap.empty, Abs.empty.get, fun k hk => Sem.lookup L ⟨_, hi0, Abs.empty⟩ hk, fun ops hops => ?_⟩
      obtain ⟨t', l', h4, _⟩ := Tab.run_ok L hg ops hi0 Abs.empty (fun op hop => hv op (hops op hop))
      exact ⟨t', h4⟩
  · have he : t.elems = (stored (g.hash P.kw) t.tb c).length := by rw [hl.elems]; simp [ents]
    obtain ⟨n, h1, h2⟩ := AtIdx.begin L hl
    obtain ⟨β, hβ, hβ'⟩ := hl.isBucket L
    obtain ⟨t', c', k1, k2, k3, k4⟩ := forward_ok L hA mode β (t.size + 1) t c full n 0 hl h2 hβ (by show _ < t.elems + 1; omega)
    rw [List.drop_zero, forwardPairs_congr mode _ _ (Nat.le_refl _) hβ'] at k1 k4
    rw [List.take_zero, List.nil_append] at k4
    refine ⟨_, t', hp, by simp only [Tab.forwardAll, h1, ok_bind, k1], ?_⟩
    rw [← k4]
    exact k2.holds L hg hv k3

/-- the loop that checks the navigator after an erasure visits every element once and leaves what it should -/
theorem EraseForwardSpec.recheck {tr : Nat → Nat} {kw : Nat} {act : Nat → Nat → LoopAct} (h : EraseForwardSpec g tr kw valid .recheck act t) :
    ∃ l t', t.pairs g = .ok l ∧ t.forwardAll g .recheck act = .ok (t', l) ∧ HoldsPairs g tr kw valid (sweepPairs tr act l) t t' := by
  obtain ⟨l, t', h1, h2, h3⟩ := h
  rw [forwardPairs_recheck] at h2 h3
  exact ⟨l, t', h1, h2, h3⟩

end SC
