import Verif.Own.Proofs
/-!
# The calls keep the ownership
-/
namespace SC.Own
variable {c : MCfg} {K : Keys} {V : LV} {t : MTab} {h : Heap} {R : Foot} {i lg : Nat}

/-- `find` in bucket `i` -/
theorem find_ok (hI : h.Is (V.foot c + R)) (p : V.Ptrs c t) (w : V.WF c K lg) {n : Nat} (hn : V.ss[i]? = some n) (k : Nat) :
    ∃ r b, h.findBucket t.keys i k n = .ok r ∧ V.ks[i]? = some b ∧ (∀ j, r = some j → j < n) ∧ (r = none → k ∉ bkKeys b) := by
  obtain ⟨_, ⟨b, h1, h2⟩, _⟩ := w.slot i n hn
  have i1 : h.Is (arrFoot V.kp c.kmem.how V.ks + (valFoot c V.vp V.vs + pt V.sp .malloc (.data V.ss) + capFoot c V.cp V.cs + R)) :=
    hI.cast (by rw [LV.foot_eq]; ac_rfl)
  obtain ⟨r, r1, r2, r3⟩ := findBucket_step h1 h2 k i1
  exact ⟨r, b, by rw [p.keys]; exact r1, h1, r2, r3⟩

/-! ## One part of a table changes -/

theorem sizeStep (hI : h.Is (V.foot c + R)) (hi : i < V.ss.length) (n : Nat) :
    ∃ h', h.setWord (some V.sp) i n = .ok h' ∧ h'.Is (({ V with ss := V.ss.set i n } : LV).foot c + R) := by
  have i1 : h.Is (pt V.sp .malloc (.data V.ss) + (arrFoot V.kp c.kmem.how V.ks + valFoot c V.vp V.vs + capFoot c V.cp V.cs + R)) :=
    hI.cast (by rw [LV.foot_eq]; ac_rfl)
  obtain ⟨h', h1, h2⟩ := i1.setWord hi n
  exact ⟨h', h1, h2.cast (by simp only [LV.foot_eq]; ac_rfl)⟩

theorem keysStep {f : Heap → Res Heap} {b : Bk → Prop}
    (hf : ∀ (h : Heap) (R : Foot), h.Is (arrFoot V.kp c.kmem.how V.ks + R) →
      ∃ h' y, f h = .ok h' ∧ h'.Is (arrFoot V.kp c.kmem.how (V.ks.set i y) + R) ∧ b y)
    (hI : h.Is (V.foot c + R)) : ∃ h' y, f h = .ok h' ∧ h'.Is (({ V with ks := V.ks.set i y } : LV).foot c + R) ∧ b y := by
  obtain ⟨h', y, h1, h2, h3⟩ := hf h (valFoot c V.vp V.vs + pt V.sp .malloc (.data V.ss) + capFoot c V.cp V.cs + R)
    (hI.cast (by rw [LV.foot_eq]; ac_rfl))
  exact ⟨h', y, h1, h2.cast (by simp only [LV.foot_eq]; ac_rfl), h3⟩

theorem valsStep {f : Heap → Res Heap} {b : Bk → Prop}
    (hf : c.hasVals = true → ∀ (h : Heap) (R : Foot), h.Is (arrFoot V.vp c.vmem.how V.vs + R) →
      ∃ h' y, f h = .ok h' ∧ h'.Is (arrFoot V.vp c.vmem.how (V.vs.set i y) + R) ∧ b y)
    (hI : h.Is (V.foot c + R)) :
    ∃ h' y, c.onVals h f = .ok h' ∧ h'.Is (({ V with vs := V.vs.set i y } : LV).foot c + R) ∧ (c.hasVals = true → b y) := by
  obtain ⟨h', y, h1, h2, h3⟩ := onVals_ok (V := V) (i := i) hf
    (R := arrFoot V.kp c.kmem.how V.ks + pt V.sp .malloc (.data V.ss) + capFoot c V.cp V.cs + R) (hI.cast (by rw [LV.foot_eq]; ac_rfl))
  exact ⟨h', y, h1, h2.cast (by simp only [LV.foot_eq]; ac_rfl), h3⟩

theorem capsStep (hI : h.Is (V.foot c + R)) (p : V.Ptrs c t) (hi : c.strat = .arbitrary → i < V.cs.length) (n : Nat) :
    ∃ h' cs, c.assign h t n i = .ok h' ∧ h'.Is (({ V with cs := cs } : LV).foot c + R) ∧ cs.length = V.cs.length := by
  have i1 : h.Is (capFoot c V.cp V.cs + (arrFoot V.kp c.kmem.how V.ks + valFoot c V.vp V.vs + pt V.sp .malloc (.data V.ss) + R)) :=
    hI.cast (by rw [LV.foot_eq]; ac_rfl)
  obtain ⟨h', cs, h1, h2, h3⟩ := assign_ok i1 p hi n
  exact ⟨h', cs, h1, h2.cast (by simp only [LV.foot_eq]; ac_rfl), h3⟩

theorem capRead (hI : h.Is (V.foot c + R)) (p : V.Ptrs c t) (hi : c.strat = .arbitrary → i < V.cs.length) (n : Nat) :
    (∃ r, c.needsResize h t n i = .ok r) ∧ ∃ r, c.canShrink h t n i = .ok r :=
  capWord_ok (hI.cast (F' := capFoot c V.cp V.cs + (arrFoot V.kp c.kmem.how V.ks + valFoot c V.vp V.vs + pt V.sp .malloc (.data V.ss) + R))
    (by rw [LV.foot_eq]; ac_rfl)) p hi n

/-- a step with entries that do not matter -/
theorem hasN_step {P : Bk → Prop} {r : Res Heap} {F : Bk → Foot} (hs : ∃ h' y, r = .ok h' ∧ h'.Is (F y) ∧ P y) {Q : Bk → Prop} (hPQ : ∀ y, P y → Q y) :
    ∃ h' y, r = .ok h' ∧ h'.Is (F y) ∧ Q y := by
  obtain ⟨h', y, h1, h2, h3⟩ := hs
  exact ⟨h', y, h1, h2, hPQ y h3⟩

/-- the end of `find_or_insert` -/
theorem push_ok (hI : h.Is (V.foot c + R)) (p : V.Ptrs c t) (w : V.WF c K lg) (hmax : c.maxSize ≤ 255) {n : Nat} (hn : V.ss[i]? = some n)
    (hlt : n ≠ c.maxSize) {k : Nat} (v : Nat) (hk : K.key k) (hp : c.hash lg k = i) {b : Bk} (h1 : V.ks[i]? = some b) (hnew : k ∉ bkKeys b) :
    ∃ h', push c h t i n k v = .ok h' ∧ Live c K t lg h' R := by
  obtain ⟨h0, ⟨b', h1', h2⟩, h3⟩ := w.slot i n hn
  cases h1.symm.trans h1'
  have hi : i < 2 ^ lg := by rw [← w.ss]; exact lt_of_get hn
  have e1 : (n + 1) % 256 = n + 1 := by omega
  have hcs : c.strat = .arbitrary → i < V.cs.length := fun e => by rw [w.cs e]; exact hi
  -- after the first part bucket `i` has `n` entries
  have first : ∃ h1 y y' cs, (if n = 0 then do
      let h ← h.setWord t.sizes i 1
      let h ← h.initBucket c.kmem.how t.keys i
      let h ← c.onVals h (·.initBucket c.vmem.how t.vals i)
      c.assign h t 1 i
    else do
      let h ← h.setWord t.sizes i ((n + 1) % 256)
      if ← c.needsResize h t ((n + 1) % 256) i then do
        let h ← c.assign h t (arbResize ((n + 1) % 256) % 256) i
        let h ← h.resizeBucket c.kmem.how t.keys i
        c.onVals h (·.resizeBucket c.vmem.how t.vals i)
      else return h : Res Heap) = .ok h1 ∧ Has (bkKeys b) y ∧ (c.hasVals = true → HasN n y') ∧ cs.length = V.cs.length ∧
      h1.Is ((V.upd i y y' (n + 1) cs).foot c + R) := by
    rw [e1, p.sizes, p.keys]
    by_cases hn0 : n = 0
    · subst hn0
      rw [if_pos rfl]
      obtain ⟨ha, a1, a2⟩ := sizeStep hI (lt_of_get hn) 1
      cases h2.zero
      obtain ⟨hb, y, b1, b2, b3⟩ := keysStep (V := { V with ss := V.ss.set i 1 }) (b := Has []) (init_step h1) a2
      obtain ⟨hc, y', c1, c2, c3⟩ := valsStep (V := { V with ss := V.ss.set i 1, ks := V.ks.set i y }) (b := HasN 0) (i := i)
        (f := fun h => h.initBucket c.vmem.how t.vals i)
        (fun hv h R hI => by
          obtain ⟨b', d1, d2⟩ := h3 hv
          cases d2.zero
          rw [p.vals, if_pos hv]
          exact hasN_step (F := fun y => arrFoot V.vp c.vmem.how (V.vs.set i y) + R) (init_step d1 h R hI) (fun y e => ⟨_, e, rfl⟩)) b2
      obtain ⟨hd, cs, d1, d2, d3⟩ := capsStep (V := { V with ss := V.ss.set i 1, ks := V.ks.set i y, vs := V.vs.set i y' }) c2
        (t := t) ⟨p.keys, p.vals, p.sizes, p.caps⟩ hcs 1
      refine ⟨hd, y, y', cs, ?_, b3, c3, d3, d2⟩
      simp only at b1
      rw [a1, ok_bind, b1, ok_bind, c1, ok_bind, d1]
    · rw [if_neg hn0]
      obtain ⟨ha, a1, a2⟩ := sizeStep hI (lt_of_get hn) (n + 1)
      obtain ⟨⟨r, r1⟩, _⟩ := capRead (V := { V with ss := V.ss.set i (n + 1) }) (t := t) a2 ⟨p.keys, p.vals, p.sizes, p.caps⟩ hcs (n + 1)
      rw [a1, ok_bind, r1, ok_bind]
      cases r with
      | false =>
        simp only [Bool.false_eq_true, if_false]
        refine ⟨ha, b, V.vs.getD i none, V.cs, rfl, h2.has hn0, fun hv => ?_, rfl, a2.cast ?_⟩
        · obtain ⟨b', d1, d2⟩ := h3 hv
          rw [List.getD_eq_getElem?_getD, d1]
          exact d2.hasN hn0
        · have e2 : V.ks.set i b = V.ks := set_get h1
          have e3 : V.vs.set i (V.vs.getD i none) = V.vs := set_getD V.vs i
          simp only [LV.upd, e2, e3]
      | true =>
        simp only [if_true]
        obtain ⟨hb, cs, b1, b2, b3⟩ := capsStep (V := { V with ss := V.ss.set i (n + 1) }) (t := t) a2 ⟨p.keys, p.vals, p.sizes, p.caps⟩ hcs
          (arbResize (n + 1) % 256)
        obtain ⟨hc, y, c1, c2, c3⟩ := keysStep (V := { V with ss := V.ss.set i (n + 1), cs := cs }) (b := Has (bkKeys b)) (resize_step h1 (h2.has hn0)) b2
        obtain ⟨hd, y', d1, d2, d3⟩ := valsStep (V := { V with ss := V.ss.set i (n + 1), cs := cs, ks := V.ks.set i y }) (b := HasN n) (i := i)
          (f := fun h => h.resizeBucket c.vmem.how t.vals i)
          (fun hv h R hI => by
            obtain ⟨b', d1, d2⟩ := h3 hv
            rw [p.vals, if_pos hv]
            exact hasN_step (F := fun y => arrFoot V.vp c.vmem.how (V.vs.set i y) + R) (resize_step d1 (d2.has hn0) h R hI) (fun y e => ⟨_, e, d2.len⟩)) c2
        refine ⟨hd, y, y', cs, ?_, c3, d3, b3, d2⟩
        simp only at c1
        rw [b1, ok_bind, c1, ok_bind, d1]
  obtain ⟨ha, y, y', cs, a1, a2, a3, a4, a5⟩ := first
  unfold push
  rw [a1, ok_bind, p.keys]
  have hlen := h2.len
  obtain ⟨hb, z, b1, b2, b3⟩ := keysStep (V := V.upd i y y' (n + 1) cs) (b := Has (bkKeys b ++ [k]))
    (append_step (l := V.ks.set i y) (i := i) (List.getElem?_set_self (lt_of_get h1)) a2 k) a5
  obtain ⟨hc, z', c1, c2, c3⟩ := valsStep (V := { V.upd i y y' (n + 1) cs with ks := (V.ks.set i y).set i z }) (b := HasN (n + 1)) (i := i)
    (f := fun h => h.writeBucket t.vals i n v)
    (fun hv h R hI => by
      obtain ⟨b', d1, d2⟩ := h3 hv
      obtain ⟨xs, x1, x2⟩ := a3 hv
      rw [p.vals, if_pos hv]
      subst x2
      exact hasN_step (F := fun z => arrFoot V.vp c.vmem.how ((V.vs.set i y').set i z) + R)
        (append_step (l := V.vs.set i y') (List.getElem?_set_self (lt_of_get d1)) x1 v h R hI) (fun y e => ⟨_, e, by simp⟩)) b2
  have hz : Slot (n + 1) z := by
    have := b3.slot (by simp)
    rwa [List.length_append, List.length_singleton, hlen] at this
  refine ⟨hc, ?_, V.upd i z z' (n + 1) cs, p.upd, w.upd hz (fun hv => (c3 hv).slot (by omega)) (by omega) a4 ?_, c2.cast ?_⟩
  · simp only [LV.upd] at b1
    rw [hlen] at b1
    rw [b1, ok_bind, c1]
  · rw [b3.keys]
    exact (w.holds i b h1).snoc hk hp hnew
  · simp only [LV.upd, List.set_set]

/-- reading an entry -/
theorem read_ok (hI : h.Is (V.foot c + R)) (p : V.Ptrs c t) (w : V.WF c K lg) {n j : Nat} (hn : V.ss[i]? = some n) (hj : j < n) :
    (∃ k, h.readBucket t.keys i j = .ok k ∧ K.key k) ∧ ∃ v, readValue c h t i j = .ok v := by
  obtain ⟨_, ⟨b, h1, h2⟩, h3⟩ := w.slot i n hn
  constructor
  · have hh := w.holds i b h1
    have hl := h2.len
    obtain ⟨a, e⟩ := h2.has (by omega)
    generalize bkKeys b = xs at e hh hl
    subst e
    subst hl
    have i1 : h.Is (arrFoot V.kp c.kmem.how V.ks + (valFoot c V.vp V.vs + pt V.sp .malloc (.data V.ss) + capFoot c V.cp V.cs + R)) :=
      hI.cast (by rw [LV.foot_eq]; ac_rfl)
    rw [p.keys]
    exact ⟨_, i1.bk_word h1 hj, hh.key _ (List.getElem_mem _)⟩
  · unfold readValue
    cases hv : c.hasVals with
    | false => exact ⟨0, by simp⟩
    | true =>
      obtain ⟨b', d1, d2⟩ := h3 hv
      have hl := d2.len
      obtain ⟨a, e⟩ := d2.has (by omega)
      generalize bkKeys b' = xs at e hl
      subst e
      subst hl
      have i1 : h.Is (arrFoot V.vp c.vmem.how V.vs + (arrFoot V.kp c.kmem.how V.ks + pt V.sp .malloc (.data V.ss) + capFoot c V.cp V.cs + R)) :=
        hI.cast (by rw [LV.foot_eq, valFoot, if_pos hv]; ac_rfl)
      rw [p.vals, if_pos hv, if_pos rfl]
      exact ⟨_, i1.bk_word d1 hj⟩

/-! ## Calls -/

/-- The blocks after a call: those of the table and the others; `L` got lost.  The table has at least `2 ^ low` buckets. -/
def After (c : MCfg) (K : Keys) (low : Nat) (R : Foot) (clean : Prop) (s : MTab × Heap) : Prop :=
  ∃ (W : View) (L : Foot), W.Of c K s.1 ∧ W.Usable s.1 ∧ s.2.Is (W.foot c + (L + R)) ∧ (clean → W.Clean s.1 ∧ L = 0) ∧ low ≤ s.1.lg

/-- what is needed of `find_or_insert` in `reserve` -/
def InsOK (c : MCfg) (K : Keys) (f : Nat) (ins : Ins) : Prop := ∀ (h : Heap) (t : MTab) (k v : Nat) (R : Foot) (W : View), W.Of c K t → W.Usable t →
  h.Is (W.foot c + R) → K.key k → Safe (K.Deep f t.lg) (ins h t k v) (After c K t.lg R (W.Clean t ∧ 3 ≤ c.kw))

/-- after some calls on `tmp`, while `t` keeps its arrays -/
def During (c : MCfg) (K : Keys) (low : Nat) (t : MTab) (R : Foot) (clean : Prop) (s : MTab × Heap) : Prop :=
  ∃ (V : LV) (W : View) (L : Foot), V.Ptrs c t ∧ V.WF c K t.lg ∧ W.Of c K s.1 ∧ W.Usable s.1 ∧ s.2.Is (V.foot c + (W.foot c + (L + R))) ∧
    (clean → W.Clean s.1 ∧ L = 0) ∧ low ≤ s.1.lg

variable {f low : Nat}

theorem moveEntries_ok {ins : Ins} (hins : InsOK c K f ins) {clean : Prop} (hclean : clean → 3 ≤ c.kw) {n : Nat} (p : V.Ptrs c t) (w : V.WF c K t.lg)
    (hn : V.ss[i]? = some n) : ∀ (m : Nat), m ≤ n → ∀ (s : MTab × Heap) (W : View) (L : Foot), W.Of c K s.1 → W.Usable s.1 →
    s.2.Is (V.foot c + (W.foot c + (L + R))) → (clean → W.Clean s.1 ∧ L = 0) → low ≤ s.1.lg →
    Safe (K.Deep f low) (moveEntries c ins t i m s) (fun s => ∃ (W : View) (L : Foot), W.Of c K s.1 ∧ W.Usable s.1 ∧
      s.2.Is (V.foot c + (W.foot c + (L + R))) ∧ (clean → W.Clean s.1 ∧ L = 0) ∧ low ≤ s.1.lg) := by
  intro m
  induction m with
  | zero => intro _ s W L h1 h2 h3 h4 h5; exact ⟨W, L, h1, h2, h3, h4, h5⟩
  | succ m ih =>
    intro hm s W L h1 h2 h3 h4 h5
    simp only [moveEntries]
    refine (ih (by omega) s W L h1 h2 h3 h4 h5).bind ?_
    rintro ⟨tmp, h⟩ ⟨W1, L1, a1, a2, a3, a4, a5⟩
    obtain ⟨⟨k, e1, e3⟩, v, e2⟩ := read_ok a3 p w hn (show m < n by omega)
    simp only at e1 e2 a1 a2 a3 a4 a5 ⊢
    rw [e1, ok_bind, e2, ok_bind]
    refine ((hins h tmp k v (V.foot c + (L1 + R)) W1 a1 a2 (a3.cast (by ac_rfl)) e3).weaken (fun hd => hd.mono a5)).mono ?_
    rintro s' ⟨W2, L2, b1, b2, b3, b4, b5⟩
    refine ⟨W2, L2 + L1, b1, b2, b3.cast (by ac_rfl), fun hc => ?_, Nat.le_trans a5 b5⟩
    obtain ⟨d1, d2⟩ := a4 hc
    obtain ⟨d3, d4⟩ := b4 ⟨d1, hclean hc⟩
    exact ⟨d3, by rw [d4, d2]; simp⟩

theorem moveBucket_ok {ins : Ins} (hins : InsOK c K f ins) {clean : Prop} (hclean : clean → 3 ≤ c.kw) (hi : i < 2 ^ t.lg) {s : MTab × Heap}
    (hs : During c K low t R clean s) : Safe (K.Deep f low) (moveBucket c ins t s i) (During c K low t R clean) := by
  obtain ⟨V, W, L, p, w, h1, h2, h3, h4, h5⟩ := hs
  obtain ⟨n, hn⟩ := w.size hi
  simp only [moveBucket, size_ok h3 p hn, ok_bind]
  by_cases h0 : n = 0
  · rw [if_pos h0]; exact ⟨V, W, L, p, w, h1, h2, h3, h4, h5⟩
  · rw [if_neg h0]
    refine (moveEntries_ok hins hclean p w hn n (Nat.le_refl _) s W L h1 h2 h3 h4 h5).bind ?_
    rintro ⟨tmp, h⟩ ⟨W1, L1, a1, a2, a3, a4, a5⟩
    obtain ⟨h', b', cs, b1, b2, b3⟩ := clearOne_ok a3 p w hi
    simp only at b1 ⊢
    rw [b1, ok_bind]
    exact ⟨_, W1, L1, p.upd, b3, a1, a2, b2, a4, a5⟩

theorem View.Of.novals {W : View} (hO : W.Of c K t) (hv : c.hasVals = false) : t.vals = none := by
  cases W with
  | live V => rw [hO.1.vals, hv]; rfl
  | idle v => rw [hO.2.2.1, hO.2.2.2 hv]; rfl

theorem View.Of.nocaps {W : View} (hO : W.Of c K t) (hv : c.strat = .incremental) : t.caps = none := by
  cases W with
  | live V => rw [hO.1.caps, hv]
  | idle v => exact hO.2.1

/-- `reserve` on a table without buckets: if there are blocks, they are lost -/
theorem reserveEmpty_after {W : View} (hO : W.Of c K t) (hI : h.Is (W.foot c + R)) (h0 : t.lg = 0) {bits : Nat} (hbits : bits ≤ K.top) :
    After c K bits R (W.Clean t ∧ bits ≠ 0) (reserveEmpty c h t bits) := by
  obtain ⟨V, p, w, i1, e, _⟩ := reserveEmpty_ok hI hO.novals hO.nocaps hbits
  refine ⟨.live V, W.foot c, ⟨p, by rw [e]; exact w⟩, trivial, i1, fun ⟨hc, hb⟩ => ⟨by rw [View.Clean, e]; exact hb, ?_⟩, by rw [e]⟩
  cases W with
  | live V => exact absurd h0 hc
  | idle v => rw [show v = none from hc]; rfl

theorem View.Of.new : (View.idle none).Of c K MTab.new := ⟨rfl, rfl, rfl, fun _ => rfl⟩

/-- `reserve` -/
theorem reserveWith_ok (g : K.Limit) {ins : Ins} (hins : InsOK c K f ins) {W : View} (hO : W.Of c K t) (hU : W.Usable t) (hI : h.Is (W.foot c + R)) {n : Nat}
    (hn : K.Room n) (hlow : low = 0 ∨ 2 ^ low ≤ n) :
    Safe (K.Deep f low) (reserveWith c ins h t n) (After c K low R (W.Clean t ∧ 3 ≤ c.kw ∧ 2 ≤ n)) := by
  unfold reserveWith
  refine ((reserveBits_safe g hn).weaken (fun hd => hd.1)).bind (fun bits hbits => ?_)
  have hlb : low ≤ bits := by
    rcases hlow with e | e
    · omega
    · exact (Nat.pow_le_pow_iff_right (by omega)).mp (Nat.le_trans e hbits.2.2)
  by_cases h0 : t.lg = 0
  · rw [if_pos h0]
    obtain ⟨W1, L1, a1, a2, a3, a4, a5⟩ := reserveEmpty_after hO hI h0 hbits.2.1
    exact ⟨W1, L1, a1, a2, a3, fun ⟨e1, _, e2⟩ => a4 ⟨e1, hbits.1 e2⟩, Nat.le_trans hlb a5⟩
  · rw [if_neg h0]
    cases W with
    | idle v => exact absurd hU h0
    | live V =>
      obtain ⟨p, w⟩ := hO
      have st := reserveEmpty_after (R := V.foot c + R) (View.Of.new (c := c) (K := K)) (h := h) (hI.cast (by simp [View.foot])) rfl hbits.2.1
      generalize reserveEmpty c h MTab.new bits = r at st
      obtain ⟨tmp, h1⟩ := r
      simp only
      have hd : During c K low t R (3 ≤ c.kw ∧ 2 ≤ n) (tmp, h1) := by
        obtain ⟨W1, L1, a1, a2, a3, a4, a5⟩ := st
        exact ⟨V, W1, L1, p, w, a1, a2, a3.cast (by ac_rfl), fun ⟨_, e2⟩ => a4 ⟨rfl, hbits.1 e2⟩, Nat.le_trans hlb a5⟩
      refine (Safe.foldlM _ _ _ (fun s b hb hs => moveBucket_ok hins (fun e => e.1) (bucketCount_lt hb) hs) hd).bind ?_
      rintro ⟨tmp2, h2⟩ ⟨V2, W2, L2, p2, w2, b1, b2, b3, b4, b5⟩
      simp only at b1 b2 b3 b4 b5 ⊢
      obtain ⟨h3, c1, c2⟩ := clearStructure_ok p2 b3
      rw [c1, ok_bind]
      simp only
      rw [swap_eq, ok_bind]
      simp only
      -- the temporary object holds the array of value buckets now
      have od : (View.idle (if c.hasVals then some (V2.vp, V2.vs) else none)).Of c K
          { t with sizes := none, caps := none, lg := 0, elems := 0 } := by
        refine ⟨rfl, rfl, ?_, fun e => by simp [e]⟩
        simp only [p2.vals]
        cases c.hasVals <;> rfl
      obtain ⟨h4, d1, d2⟩ := destroy_ok od (R := W2.foot c + (L2 + R)) (c2.cast (by unfold valFoot; cases c.hasVals <;> rfl))
      rw [d1, ok_bind]
      exact ⟨W2, L2, b1, b2, d2, fun ⟨_, e⟩ => b4 e, b5⟩

/-- a bucket that is full: the number of buckets can still be doubled -/
theorem full_lt (g : c.Good K) (w : V.WF c K lg) {n k : Nat} (hn : V.ss[i]? = some n) (hm : n = c.maxSize) (hk : K.key k) (hp : c.hash lg k = i) {b : Bk}
    (hb : V.ks[i]? = some b) (hnew : k ∉ bkKeys b) (hs : K.sure) : lg < K.top := by
  obtain ⟨_, ⟨b', h1, h2⟩, _⟩ := w.slot i n hn
  cases hb.symm.trans h1
  have hle := w.le
  by_cases e : lg = K.top
  · subst e
    exact absurd (g.spread hs) ((w.holds i b hb).full hs hk hp hnew (h2.len.trans hm))
  · omega

/-- `find_or_insert` -/
theorem insert_ok (g : c.Good K) : ∀ f, InsOK c K f (insert c f) := by
  intro f
  induction f with
  | zero => intro h t k v R W _ _ _ _; exact ⟨fun hd => absurd hd.2.1 (Nat.lt_irrefl 0), .inl rfl⟩
  | succ f ih =>
    intro h t k v R W hO hU hI hk
    simp only [insert]
    have first : Safe (K.Deep (f + 1) t.lg) (if t.lg = 0 then do
        let bits ← reserveBits (min (c.kw - 1) 16)
        return reserveEmpty c h t bits
      else return (t, h) : Res (MTab × Heap))
      (fun s => ∃ (V : LV) (L : Foot), V.Ptrs c s.1 ∧ V.WF c K s.1.lg ∧ s.2.Is (V.foot c + (L + R)) ∧
        (W.Clean t ∧ 3 ≤ c.kw → s.1.lg ≠ 0 ∧ L = 0) ∧ t.lg ≤ s.1.lg) := by
      by_cases h0 : t.lg = 0
      · rw [if_pos h0]
        have hroom : K.Room (min (c.kw - 1) 16) := by
          have : min (c.kw - 1) 16 ≤ 16 := Nat.min_le_right _ _
          exact ⟨by omega, fun hs => ⟨by have := (g.first hs).1; omega, (g.first hs).2⟩⟩
        refine ((reserveBits_safe g.limit hroom).weaken (fun hd => hd.1)).bind (fun bits hbits => ?_)
        obtain ⟨V, p, w, i1, e, _⟩ := reserveEmpty_ok hI hO.novals hO.nocaps hbits.2.1
        refine ⟨V, W.foot c, p, by rw [e]; exact w, i1, fun ⟨hc, hk⟩ => ⟨by rw [e]; exact hbits.1 (by omega), ?_⟩, by omega⟩
        cases W with
        | live V => exact absurd h0 hc
        | idle v => rw [show v = none from hc]; rfl
      · rw [if_neg h0]
        cases W with
        | idle v => exact absurd hU h0
        | live V => exact ⟨V, 0, hO.1, hO.2, hI.cast (by simp [View.foot]), fun _ => ⟨h0, rfl⟩, Nat.le_refl _⟩
    refine first.bind ?_
    rintro ⟨t1, h1⟩ ⟨V, L, p, w, i1, hcl, hle⟩
    simp only at p w i1 hcl hle ⊢
    obtain ⟨n, hn⟩ := w.size (g.hash_lt t1.lg k w.le hk)
    obtain ⟨r, b, r1, hb, _, r3⟩ := find_ok i1 p w hn k
    rw [size_ok i1 p hn, ok_bind, r1, ok_bind]
    cases r with
    | some j => exact ⟨.live V, L, ⟨p, w⟩, trivial, i1, hcl, hle⟩
    | none =>
      simp only
      by_cases hm : n = c.maxSize
      · rw [if_pos hm]
        have hlt := full_lt g w hn hm hk rfl hb (r3 rfl)
        refine ((shl64_safe g.limit hlt).weaken (fun hd => hd.1)).bind (fun m hm => ?_)
        have deep : K.Deep (f + 1) t.lg → K.Deep f (t1.lg + 1) := fun hd => (hd.mono hle).step (hlt hd.1) (Nat.le_refl _)
        refine ((reserveWith_ok g.limit ih (low := t1.lg + 1) (W := .live V) ⟨p, w⟩ trivial i1 hm.1 (.inr (by rw [hm.2]))).weaken deep).bind ?_
        rintro ⟨t2, h2⟩ ⟨W2, L2, a1, a2, a3, a4, a5⟩
        refine ((ih h2 t2 k v (L2 + (L + R)) W2 a1 a2 a3 hk).weaken (fun hd => (deep hd).mono a5)).mono ?_
        rintro s ⟨W3, L3, b1, b2, b3, b4, b5⟩
        simp only at a5 b5
        refine ⟨W3, L3 + L2 + L, b1, b2, b3.cast (by ac_rfl), fun hc => ?_, by omega⟩
        obtain ⟨d1, d2⟩ := hcl hc
        obtain ⟨d3, d4⟩ := a4 ⟨d1, hc.2, by
          rw [hm.2, Nat.pow_succ]
          have := Nat.one_le_two_pow (n := t1.lg)
          omega⟩
        obtain ⟨d5, d6⟩ := b4 ⟨d3, hc.2⟩
        exact ⟨d5, by rw [d2, d4, d6]; simp⟩
      · rw [if_neg hm]
        obtain ⟨h2, a1, V2, a2, a3, a4⟩ := push_ok i1 p w g.max hn hm v hk rfl hb (r3 rfl)
        rw [a1, ok_bind]
        exact ⟨.live V2, L, ⟨⟨a2.keys, a2.vals, a2.sizes, a2.caps⟩, a3⟩, trivial, a4, hcl, hle⟩

end SC.Own
