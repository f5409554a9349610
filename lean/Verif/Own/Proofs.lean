import Verif.Own.Step
import Verif.Own.Model
import Verif.Table.Laws
/-!
# The blocks of a table
-/
namespace SC.Own

/-- assumptions on the template arguments: the hash function gives the number of a bucket, at most 255 entries in a bucket.  If calls have to return,
then the keys have at least three bits (C33), and with the greatest number of buckets no bucket gets more keys than it has room for. -/
structure MCfg.Good (c : MCfg) (K : Keys) : Prop where
  limit : K.Limit
  hash_lt : ∀ lg k, lg ≤ K.top → K.key k → c.hash lg k < 2 ^ lg
  max : c.maxSize ≤ 255
  first : K.sure → 3 ≤ c.kw ∧ min (c.kw - 1) 16 ≤ 2 ^ K.top
  spread : K.sure → Spread (c.hash K.top) K.key c.maxSize

theorem MCfg.Good.any {c : MCfg} (h : ∀ lg k, c.hash lg k < 2 ^ lg) (hm : c.maxSize ≤ 255) : c.Good .any :=
  ⟨⟨Nat.le_refl _, fun _ => rfl⟩, fun lg k _ _ => h lg k, hm, False.elim, False.elim⟩

/-- the arrays of a table: addresses and contents -/
structure LV where
  kp : Nat
  vp : Nat
  sp : Nat
  cp : Nat
  ks : List Bk
  vs : List Bk
  ss : List Nat
  cs : List Nat

def valFoot (c : MCfg) (vp : Nat) (vs : List Bk) : Foot := if c.hasVals then arrFoot vp c.vmem.how vs else 0

def capFoot (c : MCfg) (cp : Nat) (cs : List Nat) : Foot := match c.strat with
  | .incremental => 0
  | .arbitrary => pt cp .malloc (.data cs)

def LV.foot (c : MCfg) (V : LV) : Foot :=
  arrFoot V.kp c.kmem.how V.ks + valFoot c V.vp V.vs + pt V.sp .malloc (.data V.ss) + capFoot c V.cp V.cs

/-- contents of the arrays that belong together -/
structure LV.WF (c : MCfg) (K : Keys) (V : LV) (lg : Nat) : Prop where
  ks : V.ks.length = 2 ^ lg
  vs : c.hasVals = true → V.vs.length = 2 ^ lg
  ss : V.ss.length = 2 ^ lg
  cs : c.strat = .arbitrary → V.cs.length = 2 ^ lg
  slot : ∀ i n : Nat, V.ss[i]? = some n → n ≤ c.maxSize ∧ (∃ b, V.ks[i]? = some b ∧ Slot n b) ∧
    (c.hasVals = true → ∃ b, V.vs[i]? = some b ∧ Slot n b)
  le : lg ≤ K.top
  holds : ∀ (i : Nat) (b : Bk), V.ks[i]? = some b → Holds K (c.hash lg) i (bkKeys b)

/-- the object `t` points to the arrays -/
structure LV.Ptrs (c : MCfg) (V : LV) (t : MTab) : Prop where
  keys : t.keys = some V.kp
  vals : t.vals = if c.hasVals then some V.vp else none
  sizes : t.sizes = some V.sp
  caps : t.caps = match c.strat with | .incremental => none | .arbitrary => some V.cp

/-- replace bucket `i` -/
def LV.upd (V : LV) (i : Nat) (b b' : Bk) (n : Nat) (cs : List Nat) : LV :=
  { V with ks := V.ks.set i b, vs := V.vs.set i b', ss := V.ss.set i n, cs := cs }

variable {c : MCfg} {K : Keys} {V : LV} {t : MTab} {h : Heap} {R : Foot} {i lg : Nat}

theorem LV.WF.upd (w : V.WF c K lg) {b b' : Bk} {n : Nat} {cs : List Nat} (hb : Slot n b) (hb' : c.hasVals = true → Slot n b')
    (hn : n ≤ c.maxSize) (hcs : cs.length = V.cs.length) (hh : Holds K (c.hash lg) i (bkKeys b)) : (V.upd i b b' n cs).WF c K lg where
  ks := by simp [LV.upd, w.ks]
  vs hv := by simp [LV.upd, w.vs hv]
  ss := by simp [LV.upd, w.ss]
  cs ha := by simp [LV.upd, hcs, w.cs ha]
  slot := by
    intro j m hj
    simp only [LV.upd] at hj ⊢
    by_cases e : i = j
    · subst e
      have hi : i < V.ss.length := by simpa using lt_of_get hj
      rw [List.getElem?_set_self hi] at hj
      cases hj
      refine ⟨hn, ⟨b, List.getElem?_set_self (by rw [w.ks, ← w.ss]; exact hi), hb⟩, fun hv => ⟨b', List.getElem?_set_self ?_, hb' hv⟩⟩
      rw [w.vs hv, ← w.ss]; exact hi
    · rw [List.getElem?_set_ne e] at hj
      obtain ⟨h1, ⟨x, h2, h3⟩, h4⟩ := w.slot j m hj
      refine ⟨h1, ⟨x, by rw [List.getElem?_set_ne e]; exact h2, h3⟩, fun hv => ?_⟩
      obtain ⟨y, h5, h6⟩ := h4 hv
      exact ⟨y, by rw [List.getElem?_set_ne e]; exact h5, h6⟩
  le := w.le
  holds := holds_set w.holds hh

theorem LV.Ptrs.upd (p : V.Ptrs c t) {b b' : Bk} {n : Nat} {cs : List Nat} : (V.upd i b b' n cs).Ptrs c t := ⟨p.keys, p.vals, p.sizes, p.caps⟩

theorem LV.WF.size (w : V.WF c K lg) (hi : i < 2 ^ lg) : ∃ n, V.ss[i]? = some n := ⟨_, List.getElem?_eq_getElem (by rw [w.ss]; exact hi)⟩

/-- `m_resize_strategy.assign` -/
theorem assign_ok (hI : h.Is (capFoot c V.cp V.cs + R)) (p : V.Ptrs c t) (hi : c.strat = .arbitrary → i < V.cs.length) (n : Nat) :
    ∃ h' cs, c.assign h t n i = .ok h' ∧ h'.Is (capFoot c V.cp cs + R) ∧ cs.length = V.cs.length := by
  have pc := p.caps
  unfold MCfg.assign
  unfold capFoot at hI ⊢
  cases hs : c.strat with
  | incremental => rw [hs] at hI; exact ⟨h, V.cs, rfl, hI, rfl⟩
  | arbitrary =>
    rw [hs] at hI pc
    simp only at hI pc ⊢
    rw [pc]
    obtain ⟨h', h1, h2⟩ := hI.setWord (i := i) (hi hs) n
    exact ⟨h', _, h1, h2, by simp⟩

theorem capWord_ok (hI : h.Is (capFoot c V.cp V.cs + R)) (p : V.Ptrs c t) (hi : c.strat = .arbitrary → i < V.cs.length) (n : Nat) :
    (∃ r, c.needsResize h t n i = .ok r) ∧ ∃ r, c.canShrink h t n i = .ok r := by
  have pc := p.caps
  unfold MCfg.needsResize MCfg.canShrink
  unfold capFoot at hI
  cases hs : c.strat with
  | incremental => exact ⟨⟨true, rfl⟩, true, rfl⟩
  | arbitrary =>
    rw [hs] at hI pc
    simp only at hI pc ⊢
    rw [pc]
    have : h.word (some V.cp) i = .ok (V.cs[i]'(hi hs)) := hI.word (List.getElem?_eq_getElem _)
    rw [this]
    exact ⟨⟨_, rfl⟩, _, rfl⟩

/-- a call on value bucket `i` that changes it to `b` -/
theorem onVals_ok {f : Heap → Res Heap} {b : Bk → Prop}
    (hf : c.hasVals = true → ∀ (h : Heap) (R : Foot), h.Is (arrFoot V.vp c.vmem.how V.vs + R) →
      ∃ h' y, f h = .ok h' ∧ h'.Is (arrFoot V.vp c.vmem.how (V.vs.set i y) + R) ∧ b y)
    (hI : h.Is (valFoot c V.vp V.vs + R)) :
    ∃ h' y, c.onVals h f = .ok h' ∧ h'.Is (valFoot c V.vp (V.vs.set i y) + R) ∧ (c.hasVals = true → b y) := by
  unfold MCfg.onVals
  unfold valFoot at hI ⊢
  cases hv : c.hasVals with
  | false =>
    rw [hv] at hI
    exact ⟨h, none, by simp, by simpa using hI, by simp⟩
  | true =>
    rw [hv] at hI
    simp only [if_true] at hI ⊢
    obtain ⟨h', y, h1, h2, h3⟩ := hf hv h R hI
    exact ⟨h', y, h1, h2, fun _ => h3⟩

theorem LV.foot_eq (c : MCfg) (V : LV) :
    V.foot c = arrFoot V.kp c.kmem.how V.ks + valFoot c V.vp V.vs + pt V.sp .malloc (.data V.ss) + capFoot c V.cp V.cs := rfl

theorem size_ok (hI : h.Is (V.foot c + R)) (p : V.Ptrs c t) {n : Nat} (hn : V.ss[i]? = some n) : h.word t.sizes i = .ok n := by
  rw [p.sizes]
  have : h.Is (pt V.sp .malloc (.data V.ss) + (arrFoot V.kp c.kmem.how V.ks + valFoot c V.vp V.vs + capFoot c V.cp V.cs + R)) :=
    hI.cast (by rw [LV.foot_eq]; ac_rfl)
  exact this.word hn

/-- `clear(bucket)` -/
theorem clearOne_ok (hI : h.Is (V.foot c + R)) (p : V.Ptrs c t) (w : V.WF c K lg) (hi : i < 2 ^ lg) :
    ∃ h' b' cs, clearOne c h t i = .ok h' ∧ h'.Is ((V.upd i none b' 0 cs).foot c + R) ∧ (V.upd i none b' 0 cs).WF c K lg := by
  obtain ⟨n, hn⟩ := w.size hi
  obtain ⟨h0, ⟨bk, h1, h2⟩, h3⟩ := w.slot i n hn
  have v1 := onVals_ok (c := c) (V := V) (i := i) (h := h) (f := fun h => h.clearBucket c.vmem.how t.vals i) (b := fun y => y = none)
    (R := arrFoot V.kp c.kmem.how V.ks + pt V.sp .malloc (.data V.ss) + capFoot c V.cp V.cs + R)
    (fun hv h R hI => by
      obtain ⟨y, h4, _⟩ := h3 hv
      rw [p.vals, if_pos hv]
      obtain ⟨h', h5, h6⟩ := hI.clearBucket h4
      exact ⟨h', none, h5, h6, rfl⟩)
    (hI.cast (by rw [LV.foot_eq]; ac_rfl))
  obtain ⟨ha, y, a1, a2, a3⟩ := v1
  have a4 : ha.Is (arrFoot V.kp c.kmem.how V.ks + (valFoot c V.vp (V.vs.set i y) + pt V.sp .malloc (.data V.ss) + capFoot c V.cp V.cs + R)) :=
    a2.cast (by ac_rfl)
  obtain ⟨hb, b1, b2⟩ := a4.clearBucket h1
  have b3 : hb.Is (pt V.sp .malloc (.data V.ss) + (arrFoot V.kp c.kmem.how (V.ks.set i none) + valFoot c V.vp (V.vs.set i y) + capFoot c V.cp V.cs + R)) :=
    b2.cast (by ac_rfl)
  obtain ⟨hc, c1, c2⟩ := b3.setWord (i := i) (by rw [w.ss]; exact hi) 0
  have c3 : hc.Is (capFoot c V.cp V.cs + (arrFoot V.kp c.kmem.how (V.ks.set i none) + valFoot c V.vp (V.vs.set i y) + pt V.sp .malloc (.data (V.ss.set i 0)) + R)) :=
    c2.cast (by ac_rfl)
  obtain ⟨hd, cs, d1, d2, d3⟩ := assign_ok c3 p (fun e => by rw [w.cs e]; exact hi) 0
  refine ⟨hd, y, cs, ?_, d2.cast ?_, w.upd rfl (fun hv => by rw [a3 hv]; rfl) (Nat.zero_le _) d3 Holds.nil⟩
  · simp only [clearOne, a1, ok_bind, p.keys, b1, p.sizes, c1, d1]
  · simp only [LV.foot_eq, LV.upd]; ac_rfl

/-- `t` has arrays for `2 ^ lg` buckets -/
def Live (c : MCfg) (K : Keys) (t : MTab) (lg : Nat) (h : Heap) (R : Foot) : Prop := ∃ V : LV, V.Ptrs c t ∧ V.WF c K lg ∧ h.Is (V.foot c + R)

/-- a loop of steps that succeed -/
theorem foldlM_ok {α β : Type} (P : α → Prop) {f : α → β → Res α} : ∀ (l : List β) (a : α),
    (∀ a b, b ∈ l → P a → ∃ a', f a b = .ok a' ∧ P a') → P a → ∃ a', l.foldlM f a = .ok a' ∧ P a' := by
  intro l
  induction l with
  | nil => intro a _ h; exact ⟨a, rfl, h⟩
  | cons b l ih =>
    intro a hf h
    obtain ⟨a1, h1, h2⟩ := hf a b (by simp) h
    obtain ⟨a2, h3, h4⟩ := ih a1 (fun a b hb => hf a b (by simp [hb])) h2
    exact ⟨a2, by rw [List.foldlM_cons, h1, ok_bind, h3], h4⟩

theorem Live.clearOne (hL : Live c K t lg h R) (hi : i < 2 ^ lg) : ∃ h', clearOne c h t i = .ok h' ∧ Live c K t lg h' R := by
  obtain ⟨V, p, w, hI⟩ := hL
  obtain ⟨h', b', cs, h1, h2, h3⟩ := clearOne_ok hI p w hi
  exact ⟨h', h1, _, p.upd, h3, h2⟩

theorem bucketCount_lt {b : Nat} (hb : b ∈ List.range t.bucketCount) : b < 2 ^ t.lg := by
  rw [List.mem_range, MTab.bucketCount] at hb
  split at hb
  · omega
  · exact hb

/-- `clear_structure()`: everything but the array of value buckets is released -/
theorem clearStructure_ok (p : V.Ptrs c t) (hI : h.Is (V.foot c + R)) :
    ∃ h', clearStructure c h t = .ok ({ t with sizes := none, caps := none, lg := 0, elems := 0 }, h') ∧ h'.Is (valFoot c V.vp V.vs + R) := by
  have i1 : h.Is (arrFoot V.kp c.kmem.how V.ks + (pt V.sp .malloc (.data V.ss) + (capFoot c V.cp V.cs + (valFoot c V.vp V.vs + R)))) :=
    hI.cast (by rw [LV.foot_eq]; ac_rfl)
  obtain ⟨h1, a1, a2⟩ := i1.deleteArr
  obtain ⟨h2, b1, b2⟩ := a2.free
  have pc := p.caps
  have : ∃ h', h2.free .malloc t.caps = .ok h' ∧ h'.Is (valFoot c V.vp V.vs + R) := by
    unfold capFoot at b2
    cases hs : c.strat with
    | incremental =>
      rw [hs] at b2 pc
      rw [pc]
      exact ⟨h2, rfl, b2.cast (by simp)⟩
    | arbitrary =>
      rw [hs] at b2 pc
      rw [pc]
      exact b2.free
  obtain ⟨h3, c1, c2⟩ := this
  exact ⟨h3, by simp only [clearStructure, p.keys, a1, ok_bind, p.sizes, b1, clearCaps, c1, pure_eq_ok], c2⟩

/-- a table: with arrays, or without (after construction, `clear()` or a move), perhaps with an array of value buckets that was left over -/
inductive View
  | live (V : LV)
  | idle (v : Option (Nat × List Bk))

def View.foot (c : MCfg) : View → Foot
  | .live V => V.foot c
  | .idle none => 0
  | .idle (some (a, vs)) => arrFoot a c.vmem.how vs

/-- the object `t` owns the blocks of the view -/
def View.Of (c : MCfg) (K : Keys) (t : MTab) : View → Prop
  | .live V => V.Ptrs c t ∧ V.WF c K t.lg
  | .idle v => t.sizes = none ∧ t.caps = none ∧ t.vals = v.map Prod.fst ∧ (c.hasVals = false → v = none)

/-- the table can be used: it was not moved from -/
def View.Usable (t : MTab) : View → Prop
  | .live _ => True
  | .idle _ => t.lg = 0

/-- nothing gets lost if the table gets new arrays -/
def View.Clean (t : MTab) : View → Prop
  | .live _ => t.lg ≠ 0
  | .idle v => v = none

theorem clear_ok {W : View} (hO : W.Of c K t) (hI : h.Is (W.foot c + R)) :
    ∃ t' h' v, clear c h t = .ok (t', h') ∧ (View.idle v).Of c K t' ∧ h'.Is ((View.idle v).foot c + R) ∧ (W.Usable t → t'.lg = 0) ∧
      (W.Clean t → c.hasVals = false → v = none) ∧ (∀ v', W = .idle v' → v = v') := by
  cases W with
  | idle v =>
    refine ⟨t, h, v, by simp [clear, hO.1], hO, hI, id, fun e _ => e, fun v' e => by cases e; rfl⟩
  | live V =>
    obtain ⟨p, w⟩ := hO
    obtain ⟨h1, a1, V1, p1, w1, a2⟩ := foldlM_ok (fun h => Live c K t t.lg h R) (f := clearNonempty c t) (List.range t.bucketCount) h
      (fun h b hb hL => by
        have hb := bucketCount_lt hb
        obtain ⟨V, p, w, hI⟩ := hL
        obtain ⟨n, hn⟩ := w.size hb
        simp only [clearNonempty, size_ok hI p hn, ok_bind]
        by_cases h0 : n = 0
        · rw [if_pos h0]; exact ⟨h, rfl, V, p, w, hI⟩
        · rw [if_neg h0]; exact Live.clearOne ⟨V, p, w, hI⟩ hb) ⟨V, p, w, hI⟩
    obtain ⟨h2, b1, b2⟩ := clearStructure_ok p1 a2
    have pv := p1.vals
    have e1 : clear c h t = .ok ({ t with sizes := none, caps := none, lg := 0, elems := 0 }, h2) := by
      have : t.sizes ≠ none := by rw [p.sizes]; exact Option.some_ne_none _
      rw [clear, if_pos this, a1, ok_bind, b1]
    refine ⟨_, h2, if c.hasVals then some (V1.vp, V1.vs) else none, e1, ⟨rfl, rfl, ?_, ?_⟩, b2.cast ?_, fun _ => rfl, ?_, fun v' e => by cases e⟩
    · simp only [pv]; split <;> rfl
    · intro e; simp [e]
    · unfold valFoot; cases c.hasVals <;> rfl
    · intro _ e; simp [e]

/-- the destructor releases exactly the blocks of the table -/
theorem destroy_ok {W : View} (hO : W.Of c K t) (hI : h.Is (W.foot c + R)) : ∃ h', destroy c h t = .ok h' ∧ h'.Is R := by
  obtain ⟨t', h1, v, a1, a2, a3, _⟩ := clear_ok hO hI
  obtain ⟨_, b2, b3, _⟩ := a2
  simp only [destroy, a1, ok_bind, clearCaps, b2, Heap.free, pure_eq_ok, b3]
  cases v with
  | none => exact ⟨h1, rfl, a3.cast (by simp [View.foot])⟩
  | some y => exact a3.deleteArr

theorem Heap.Is.allocIf {F : Foot} (hI : h.Is F) (b : Bool) (old : Ptr) (how : Alloc) (x : Cell) : ∃ a,
    (h.allocIf b old how x).1 = (if b then some a else old) ∧ (h.allocIf b old how x).2.Is ((if b then pt a how x else 0) + F) := by
  cases b with
  | false => exact ⟨0, rfl, hI.cast (by simp)⟩
  | true => exact ⟨(h.alloc how x).1, rfl, hI.alloc how x⟩

/-- what `reserve` allocates for a table without buckets -/
theorem reserveEmpty_ok {F : Foot} (hI : h.Is F) (hv : c.hasVals = false → t.vals = none) (hc : c.strat = .incremental → t.caps = none) {bits : Nat} (hbits : bits ≤ K.top) :
    ∃ V : LV, V.Ptrs c (reserveEmpty c h t bits).1 ∧ V.WF c K bits ∧ (reserveEmpty c h t bits).2.Is (V.foot c + F) ∧
      (reserveEmpty c h t bits).1.lg = bits ∧ ∀ j, j < 2 ^ bits → V.ks[j]? = some none ∧ V.vs[j]? = some none := by
  have wf : ∀ kp vp sp cp, LV.WF c K ⟨kp, vp, sp, cp, List.replicate (2 ^ bits) none, List.replicate (2 ^ bits) none,
      List.replicate (2 ^ bits) 0, List.replicate (2 ^ bits) 0⟩ bits := by
    intro kp vp sp cp
    refine ⟨by simp, fun _ => by simp, by simp, fun _ => by simp, ?_, hbits, fun i b hb => ?_⟩
    case refine_2 =>
      simp only [List.getElem?_replicate] at hb
      split at hb
      · cases hb; exact Holds.nil
      · cases hb
    intro i n hn
    simp only [List.getElem?_replicate] at hn ⊢
    split at hn
    · next e =>
      cases hn
      exact ⟨Nat.zero_le _, ⟨none, by simp [e], rfl⟩, fun _ => ⟨none, by simp [e], rfl⟩⟩
    · cases hn
  have e0 : ∀ (a : Nat) (how : Alloc) n, arrFoot a how (List.replicate n none) = pt a .new (.objs (List.replicate n none)) := by
    intro a how n
    have : ((List.replicate n (none : Bk)).map (bkFoot how)).sum = 0 := by
      induction n with
      | zero => rfl
      | succ n ih => rw [List.replicate_succ, List.map_cons, List.sum_cons, ih]; rfl
    rw [arrFoot, this]
    simp
  obtain ⟨a0, b0, i0⟩ := hI.allocIf (decide (c.strat = .arbitrary)) t.caps .malloc (.data (List.replicate (2 ^ bits) 0))
  unfold reserveEmpty
  simp only
  generalize h.allocIf (decide (c.strat = .arbitrary)) t.caps .malloc (.data (List.replicate (2 ^ bits) 0)) = r0 at b0 i0 ⊢
  have i1 := i0.alloc .new (.objs (List.replicate (2 ^ bits) none))
  generalize r0.2.alloc .new (.objs (List.replicate (2 ^ bits) none)) = r1 at i1 ⊢
  obtain ⟨a2, b2, i2⟩ := i1.allocIf c.hasVals t.vals .new (.objs (List.replicate (2 ^ bits) none))
  generalize r1.2.allocIf c.hasVals t.vals .new (.objs (List.replicate (2 ^ bits) none)) = r2 at b2 i2 ⊢
  have i3 := i2.alloc .malloc (.data (List.replicate (2 ^ bits) 0))
  generalize r2.2.alloc .malloc (.data (List.replicate (2 ^ bits) 0)) = r3 at i3 ⊢
  refine ⟨⟨r1.1, a2, r3.1, a0, _, _, _, _⟩, ⟨rfl, ?_, rfl, ?_⟩, wf _ _ _ _, i3.cast ?_, trivial, fun j hj => ⟨by simp [hj], by simp [hj]⟩⟩
  · simp only [b2]
    cases hh : c.hasVals <;> simp [hv, hh]
  · simp only [b0]
    cases hs : c.strat <;> simp [hc, hs]
  · simp only [LV.foot_eq, e0, valFoot, capFoot]
    cases c.strat <;> cases c.hasVals <;>
      simp only [reduceCtorEq, decide_true, decide_false, if_true, if_false, Bool.false_eq_true, add_zero, zero_add] <;> ac_rfl

/-- `swap` exchanges the objects and releases nothing -/
theorem swap_eq (c : MCfg) (h : Heap) (a b : MTab) : swap c h a b = .ok (b, a, h) := rfl

end SC.Own
