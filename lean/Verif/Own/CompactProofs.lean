import Verif.Own.Compact
import Verif.Own.Hash
import Verif.Own.Step
/-!
# `compact_chaining_map` keeps the ownership

With `rel = .malloc` nothing goes wrong; with another function the only additional fault is the release with the wrong function.
-/
namespace SC.Own.Compact

/-- assumptions on the template arguments: keys of at least three bits (C33), the hash function gives the number of a bucket, at most 255 entries in
a bucket, an entry has at least one bit.  If calls have to return, then with the greatest number of buckets no bucket gets more keys than it has room
for. -/
structure _root_.SC.Own.CCfg.Good (c : CCfg) (K : Keys) : Prop where
  kw : 3 ≤ c.kw
  limit : K.Limit
  hash_lt : ∀ lg k, lg ≤ K.top → K.key k → c.hash lg k < 2 ^ lg
  max : c.maxSize ≤ 255
  width : ∀ lg, lg ≤ K.top → 0 < c.width lg
  sb : 0 < c.sb
  first : K.sure → min (c.kw - 1) 16 ≤ 2 ^ K.top
  spread : K.sure → Spread (c.hash K.top) K.key c.maxSize

theorem _root_.SC.Own.CCfg.Good.any {c : CCfg} (kw : 3 ≤ c.kw) (h : ∀ lg k, c.hash lg k < 2 ^ lg) (hm : c.maxSize ≤ 255) (hw : ∀ lg, 0 < c.width lg)
    (hs : 0 < c.sb) : c.Good .any :=
  ⟨kw, ⟨Nat.le_refl _, fun _ => rfl⟩, fun lg k _ _ => h lg k, hm, fun lg _ => hw lg, hs, False.elim, False.elim⟩

/-- the library's hash functions -/
theorem _root_.SC.Own.CCfg.Good.hash {c : CCfg} (hk : HashKind) (h3 : 3 ≤ c.kw) (h64 : c.kw ≤ 64) (h2 : 2 ≤ c.maxSize) (hmax : c.maxSize ≤ 255)
    (hh : c.hash = hk.place c.kw) (hw : ∀ lg, lg < hk.width c.kw → 0 < c.width lg) (hs : 0 < c.sb) : c.Good (hk.keys c.kw) where
  kw := h3
  limit := keys_limit hk h3 h64
  hash_lt lg k hlg hk' := by rw [hh]; exact place_lt hk h3 h64 hlg hk'
  max := hmax
  width lg hlg := hw lg (by
    have h1 := (keys_top hk h3 h64).1
    have e : (hk.keys c.kw).top = hk.width c.kw - 1 := rfl
    omega)
  sb := hs
  first _ := by
    have h1 := (keys_top hk h3 h64).1
    have := Nat.lt_two_pow_self (n := (hk.keys c.kw).top)
    omega
  spread _ := by rw [hh]; exact (place_spread hk h3 h64).mono h2

/-- possible faults; `Q` is the assumption under which the recursion ends -/
def Err (c : CCfg) (Q : Prop) (e : Fault) : Prop := (¬ Q ∧ (e = .fuel ∨ e = .shift)) ∨ (c.rel ≠ .malloc ∧ e = .undef)

/-- possible faults of the destructor -/
def DErr (c : CCfg) (e : Fault) : Prop := c.rel ≠ .malloc ∧ e = .undef

/-- the arrays of a map: addresses and contents -/
structure CV where
  ap : Nat
  sp : Nat
  ks : List Bk
  ss : List Nat

def CV.foot (V : CV) : Foot := arrFoot V.ap .malloc V.ks .malloc + pt V.sp .malloc (.data V.ss)

structure CV.WF (c : CCfg) (K : Keys) (V : CV) (lg : Nat) : Prop where
  ks : V.ks.length = 2 ^ lg
  ss : V.ss.length = 2 ^ lg
  slot : ∀ i n : Nat, V.ss[i]? = some n → n ≤ c.maxSize ∧ ∃ b, V.ks[i]? = some b ∧ Slot n b
  le : lg ≤ K.top
  holds : ∀ (i : Nat) (b : Bk), V.ks[i]? = some b → Holds K (c.hash lg) i (bkKeys b)

/-- the object `t` points to the arrays -/
structure CV.Ptrs (V : CV) (t : CTab) : Prop where
  store : t.store = some V.ap
  sizes : t.sizes = some V.sp

variable {c : CCfg} {K : Keys} {Q : Prop} {V : CV} {t : CTab} {h : Heap} {R : Foot} {i lg : Nat}

theorem safe_out {α : Type} {r : Res α} {P : α → Prop} (h : Safe Q r P) : Out (Err c Q) r P := by
  cases r with
  | ok x => exact h
  | error e => exact .inl h

theorem err_weaken {α : Type} {r : Res α} {P : α → Prop} {Q' : Prop} (h : Out (Err c Q) r P) (hQ : Q' → Q) : Out (Err c Q') r P :=
  Out.weaken h (fun _ he => he.elim (fun a => .inl ⟨fun q => a.1 (hQ q), a.2⟩) .inr)

theorem CV.WF.upd (w : V.WF c K lg) (b : Bk) (n : Nat) (hb : Slot n b) (hn : n ≤ c.maxSize) (hh : Holds K (c.hash lg) i (bkKeys b)) :
    CV.WF c K { V with ks := V.ks.set i b, ss := V.ss.set i n } lg where
  ks := by simp [w.ks]
  ss := by simp [w.ss]
  slot := by
    intro j m hj
    simp only at hj ⊢
    by_cases e : i = j
    · subst e
      have hi : i < V.ss.length := by simpa using lt_of_get hj
      rw [List.getElem?_set_self hi] at hj
      cases hj
      exact ⟨hn, b, List.getElem?_set_self (by rw [w.ks, ← w.ss]; exact hi), hb⟩
    · rw [List.getElem?_set_ne e] at hj
      obtain ⟨h1, x, h2, h3⟩ := w.slot j m hj
      exact ⟨h1, x, by rw [List.getElem?_set_ne e]; exact h2, h3⟩
  le := w.le
  holds := holds_set w.holds hh

theorem CV.WF.size (w : V.WF c K lg) (hi : i < 2 ^ lg) : ∃ n, V.ss[i]? = some n := ⟨_, List.getElem?_eq_getElem (by rw [w.ss]; exact hi)⟩

theorem size_ok (hI : h.Is (V.foot + R)) (p : V.Ptrs t) {n : Nat} (hn : V.ss[i]? = some n) : h.word t.sizes i = .ok n := by
  rw [p.sizes]
  have : h.Is (pt V.sp .malloc (.data V.ss) + (arrFoot V.ap .malloc V.ks .malloc + R)) := hI.cast (by rw [CV.foot]; ac_rfl)
  exact this.word hn

theorem sizeStep (hI : h.Is (V.foot + R)) (p : V.Ptrs t) (hi : i < V.ss.length) (n : Nat) :
    ∃ h', h.setWord t.sizes i n = .ok h' ∧ h'.Is (({ V with ss := V.ss.set i n } : CV).foot + R) := by
  rw [p.sizes]
  have i1 : h.Is (pt V.sp .malloc (.data V.ss) + (arrFoot V.ap .malloc V.ks .malloc + R)) := hI.cast (by rw [CV.foot]; ac_rfl)
  obtain ⟨h', h1, h2⟩ := i1.setWord hi n
  exact ⟨h', h1, h2.cast (by simp only [CV.foot]; ac_rfl)⟩

/-- `find` in bucket `i` -/
theorem find_ok (hI : h.Is (V.foot + R)) (p : V.Ptrs t) (w : V.WF c K lg) {n : Nat} (hn : V.ss[i]? = some n) (k : Nat) :
    ∃ r b, h.findBucket t.store i k n = .ok r ∧ V.ks[i]? = some b ∧ (∀ j, r = some j → j < n) ∧ (r = none → k ∉ bkKeys b) := by
  obtain ⟨_, b, h1, h2⟩ := w.slot i n hn
  have i1 : h.Is (arrFoot V.ap .malloc V.ks .malloc + (pt V.sp .malloc (.data V.ss) + R)) := hI.cast (by rw [CV.foot]; ac_rfl)
  obtain ⟨r, r1, r2, r3⟩ := findBucket_step h1 h2 k i1
  exact ⟨r, b, by rw [p.store]; exact r1, h1, r2, r3⟩

variable {E : Fault → Prop}

theorem err_undef (hr : c.rel ≠ .malloc) : Err c Q .undef := .inr ⟨hr, rfl⟩

/-- a bucket is released, perhaps with the wrong function -/
theorem clearBucket_out (hE : c.rel ≠ .malloc → E .undef) (hI : h.Is (arrFoot arr .malloc l .malloc + R)) {b : Bk} (hb : l[i]? = some b) :
    Out E (h.clearBucket c.rel (some arr) i) (fun h' => h'.Is (arrFoot arr .malloc (l.set i none) .malloc + R)) := by
  by_cases hr : c.rel = .malloc
  · rw [hr]; exact .of_ok (hI.clearBucket hb)
  · cases b with
    | none =>
      have : h.clearBucket c.rel (some arr) i = h.clearBucket .malloc (some arr) i := by simp only [Heap.clearBucket, hI.arr_obj hb, ok_bind]; rfl
      rw [this]
      exact .of_ok (hI.clearBucket hb)
    | some y =>
      obtain ⟨S, s1, -⟩ := arrFoot_split .malloc arr .malloc hb
      have i1 : h.Is (pt y.1 .malloc (.data y.2) + (pt arr .malloc (.objs (l.map (Option.map Prod.fst))) + S + R)) :=
        hI.cast (by rw [s1, bkFoot]; ac_rfl)
      have : h.clearBucket c.rel (some arr) i = .error .undef := by
        simp only [Heap.clearBucket, hI.arr_obj hb, ok_bind, Option.map_some, Heap.free, i1.look, if_neg (Ne.symm hr), error_bind]
      rw [this]
      exact hE hr

/-- `clear(bucket)` -/
theorem clearOne_ok (hE : c.rel ≠ .malloc → E .undef) (hI : h.Is (V.foot + R)) (p : V.Ptrs t) (hi : i < V.ss.length) {b : Bk} (hb : V.ks[i]? = some b) :
    Out E (clearOne c h t i) (fun h' => h'.Is (({ V with ks := V.ks.set i none, ss := V.ss.set i 0 } : CV).foot + R)) := by
  unfold clearOne
  rw [p.store]
  refine (clearBucket_out hE (R := pt V.sp .malloc (.data V.ss) + R) (hI.cast (by rw [CV.foot]; ac_rfl)) hb).bind (fun h1 a => ?_)
  exact .of_ok (sizeStep (V := { V with ks := V.ks.set i none }) (t := t) (i := i) (a.cast (by simp only [CV.foot]; ac_rfl)) ⟨p.store, p.sizes⟩ hi 0)

/-- `t` has arrays for `2 ^ lg` buckets -/
def Live (c : CCfg) (K : Keys) (t : CTab) (R : Foot) (h : Heap) : Prop := ∃ V : CV, V.Ptrs t ∧ V.WF c K t.lg ∧ h.Is (V.foot + R)

theorem bucketCount_lt {b : Nat} (hb : b ∈ List.range (bucketCount t)) : b < 2 ^ t.lg := by
  rw [List.mem_range, bucketCount] at hb
  split at hb
  · omega
  · exact hb

theorem Live.clearOne (hE : c.rel ≠ .malloc → E .undef) (hL : Live c K t R h) (hi : i < 2 ^ t.lg) : Out E (clearOne c h t i) (Live c K t R) := by
  obtain ⟨V, p, w, hI⟩ := hL
  obtain ⟨n, hn⟩ := w.size hi
  obtain ⟨_, b, h1, _⟩ := w.slot i n hn
  exact (clearOne_ok hE hI p (lt_of_get hn) h1).mono (fun h' a => ⟨{ V with ks := V.ks.set i none, ss := V.ss.set i 0 }, ⟨p.store, p.sizes⟩, w.upd none 0 rfl (Nat.zero_le _) .nil, a⟩)

theorem Live.clearNonempty (hE : c.rel ≠ .malloc → E .undef) (hL : Live c K t R h) (hi : i < 2 ^ t.lg) : Out E (clearNonempty c t h i) (Live c K t R) := by
  obtain ⟨V, p, w, hI⟩ := hL
  obtain ⟨n, hn⟩ := w.size hi
  simp only [Compact.clearNonempty, size_ok hI p hn, ok_bind]
  by_cases h0 : n = 0
  · rw [if_pos h0]; exact ⟨V, p, w, hI⟩
  · rw [if_neg h0]; exact Live.clearOne hE ⟨V, p, w, hI⟩ hi

/-- no bucket has memory -/
def CV.AllNone (V : CV) : Prop := ∀ b ∈ V.ks, b = none

theorem sum_none : ∀ {l : List Bk}, (∀ b ∈ l, b = none) → (l.map (bkFoot how)).sum = 0 := by
  intro l
  induction l with
  | nil => intro _; rfl
  | cons x l ih =>
    intro hl
    rw [List.map_cons, List.sum_cons, ih (fun b hb => hl b (List.mem_cons_of_mem _ hb)), hl x List.mem_cons_self]
    rfl

/-- `clear_structure()` when all buckets are released -/
theorem clearStructure_ok (hE : c.rel ≠ .malloc → E .undef) (p : V.Ptrs t) (hn : V.AllNone) (hI : h.Is (V.foot + R)) :
    Out E (clearStructure c h t) (fun s => s.1 = { t with sizes := none, lg := 0, elems := 0 } ∧ s.2.Is R ∧ c.rel = .malloc) := by
  have i1 : h.Is (pt V.ap .malloc (.objs (V.ks.map (Option.map Prod.fst))) + (pt V.sp .malloc (.data V.ss) + R)) :=
    hI.cast (by rw [CV.foot, arrFoot, sum_none hn]; simp only [add_zero]; ac_rfl)
  unfold clearStructure
  rw [p.store, p.sizes]
  by_cases hr : c.rel = .malloc
  · rw [hr]
    obtain ⟨h1, a1, a2⟩ := i1.free
    obtain ⟨h2, b1, b2⟩ := a2.free
    rw [a1, ok_bind, b1]
    exact ⟨rfl, b2, rfl⟩
  · have : h.free c.rel (some V.ap) = .error .undef := by simp only [Heap.free, i1.look, if_neg (Ne.symm hr)]
    rw [this]
    exact hE hr

/-- a map: with arrays, or without (after construction, `clear()` or a move) -/
abbrev View := Option CV

def View.foot : View → Foot
  | some V => V.foot
  | none => 0

/-- the object `t` owns the blocks of the view; a map with arrays that counts as a map without buckets has no entries -/
def View.Of (c : CCfg) (K : Keys) (t : CTab) : View → Prop
  | some V => V.Ptrs t ∧ V.WF c K t.lg ∧ (t.lg = 0 → V.AllNone)
  | none => t.sizes = none

/-- the map can be used: it was not moved from -/
def View.Usable (t : CTab) : View → Prop
  | some _ => True
  | none => t.lg = 0

/-- nothing gets lost if the map gets new arrays -/
def View.Clean (t : CTab) : View → Prop
  | some _ => t.lg ≠ 0
  | none => True

/-- the buckets below `m` are released -/
def Cleared (c : CCfg) (K : Keys) (t : CTab) (R : Foot) (m : Nat) (h : Heap) : Prop :=
  ∃ V : CV, V.Ptrs t ∧ V.WF c K t.lg ∧ h.Is (V.foot + R) ∧ ∀ i < m, V.ks[i]? = some none

theorem Cleared.step (hE : c.rel ≠ .malloc → E .undef) {m : Nat} (hL : Cleared c K t R m h) (hm : m < 2 ^ t.lg) : Out E (Compact.clearNonempty c t h m) (Cleared c K t R (m + 1)) := by
  obtain ⟨V, p, w, hI, hc⟩ := hL
  obtain ⟨n, hn⟩ := w.size hm
  obtain ⟨_, b, h1, h2⟩ := w.slot m n hn
  simp only [Compact.clearNonempty, size_ok hI p hn, ok_bind]
  by_cases h0 : n = 0
  · rw [if_pos h0]
    refine ⟨V, p, w, hI, fun i hi => ?_⟩
    by_cases e : i = m
    · subst e
      rw [h1]
      cases b with
      | none => rfl
      | some y => exact absurd h0 h2.1
    · exact hc i (by omega)
  · rw [if_neg h0]
    refine (clearOne_ok hE hI p (lt_of_get hn) h1).mono (fun h' a => ⟨{ V with ks := V.ks.set m none, ss := V.ss.set m 0 }, ⟨p.store, p.sizes⟩, w.upd none 0 rfl (Nat.zero_le _) .nil, a, fun i hi => ?_⟩)
    by_cases e : i = m
    · subst e
      exact List.getElem?_set_self (lt_of_get h1)
    · rw [List.getElem?_set_ne (Ne.symm e)]
      exact hc i (by omega)

theorem Cleared.loop (hE : c.rel ≠ .malloc → E .undef) : ∀ {m : Nat}, m ≤ 2 ^ t.lg → Live c K t R h → Out E ((List.range m).foldlM (Compact.clearNonempty c t) h) (Cleared c K t R m) := by
  intro m
  induction m with
  | zero => rintro _ ⟨V, p, w, hI⟩; exact ⟨V, p, w, hI, fun i hi => absurd hi (Nat.not_lt_zero i)⟩
  | succ m ih =>
    intro hm hL
    rw [List.range_succ, List.foldlM_append]
    refine (ih (by omega) hL).bind (fun h1 a => ?_)
    simp only [List.foldlM_cons, List.foldlM_nil]
    exact (a.step hE (by omega)).bind (fun h2 b => b)

theorem clear_ok (hE : c.rel ≠ .malloc → E .undef) {W : View} (hO : W.Of c K t) (hI : h.Is (W.foot + R)) :
    Out E (clear c h t) (fun s => s.1.sizes = none ∧ s.2.Is R ∧ (W.Usable t → s.1.lg = 0) ∧ (W ≠ none → c.rel = .malloc)) := by
  unfold clear
  cases W with
  | none =>
    rw [if_neg (not_not.mpr (show t.sizes = none from hO))]
    exact ⟨hO, hI.cast (by simp [View.foot]), id, fun e => absurd rfl e⟩
  | some V =>
    obtain ⟨p, w, o⟩ := hO
    rw [if_pos (by rw [p.sizes]; exact Option.some_ne_none _)]
    by_cases h0 : t.lg = 0
    · rw [bucketCount, if_pos h0]
      refine (clearStructure_ok hE p (o h0) hI).mono (fun s a => ?_)
      rw [a.1]; exact ⟨rfl, a.2.1, fun _ => rfl, fun _ => a.2.2⟩
    · rw [bucketCount, if_neg h0]
      refine (Cleared.loop hE (Nat.le_refl _) ⟨V, p, w, hI⟩).bind (fun h2 ⟨V2, p2, w2, i2, hc⟩ => ?_)
      refine (clearStructure_ok hE p2 (fun b hb => ?_) i2).mono (fun s a => ?_)
      · obtain ⟨i, hi, e⟩ := List.getElem_of_mem hb
        have := hc i (by rw [← w2.ks]; exact hi)
        rw [List.getElem?_eq_getElem hi, e] at this
        exact Option.some.inj this
      · rw [a.1]; exact ⟨rfl, a.2.1, fun _ => rfl, fun _ => a.2.2⟩

/-- the destructor releases exactly the blocks of the map -/
theorem destroy_ok {W : View} (hO : W.Of c K t) (hI : h.Is (W.foot + R)) : Out (Err c Q) (destroy c h t) (fun h' => h'.Is R) :=
  (clear_ok err_undef hO hI).bind (fun _ a => a.2.1)

/-- what `reserve` allocates for a map without buckets -/
theorem reserveEmpty_ok {F : Foot} (hI : h.Is F) (t : CTab) {bits : Nat} (hbits : bits ≤ K.top) : ∃ V : CV, V.Ptrs (reserveEmpty h t bits).1 ∧ V.WF c K bits ∧ V.AllNone ∧
    (reserveEmpty h t bits).2.Is (V.foot + F) ∧ (reserveEmpty h t bits).1.lg = bits := by
  unfold reserveEmpty
  simp only
  have i1 := hI.alloc .malloc (.objs (List.replicate (2 ^ bits) none))
  generalize h.alloc .malloc (.objs (List.replicate (2 ^ bits) none)) = r1 at i1 ⊢
  have i2 := i1.alloc .malloc (.data (List.replicate (2 ^ bits) 0))
  generalize r1.2.alloc .malloc (.data (List.replicate (2 ^ bits) 0)) = r2 at i2 ⊢
  have an : ∀ b ∈ List.replicate (2 ^ bits) (none : Bk), b = none := fun b hb => (List.mem_replicate.mp hb).2
  refine ⟨⟨r1.1, r2.1, List.replicate (2 ^ bits) none, List.replicate (2 ^ bits) 0⟩, ⟨rfl, rfl⟩, ⟨by simp, by simp, ?_, hbits, ?_⟩, an, i2.cast ?_, trivial⟩
  · intro i n hn
    simp only [List.getElem?_replicate] at hn ⊢
    split at hn
    · next e => cases hn; exact ⟨Nat.zero_le _, none, by simp [e], rfl⟩
    · cases hn
  · intro i b hb
    rw [an b (List.mem_of_getElem? hb)]
    exact .nil
  · rw [CV.foot, arrFoot, sum_none an, List.map_replicate, Option.map_none, add_zero]
    ac_rfl

theorem words_zero (g : c.Good K) (lg : Nat) : words c lg 0 = 0 := by
  have := g.sb
  simp only [words, ceilDiv, Nat.zero_mul, Nat.zero_add]
  exact Nat.div_eq_of_lt (by omega)

theorem words_pos (g : c.Good K) {lg : Nat} (hlg : lg ≤ K.top) {n : Nat} (hn : n ≠ 0) : words c lg n ≠ 0 := by
  have h1 := g.sb
  have h2 : 0 < n * c.width lg := Nat.mul_pos (by omega) (g.width lg hlg)
  have : 0 < words c lg n := Nat.div_pos (by omega) h1
  omega

theorem storeStep {f : Heap → Res Heap} {b : Bk → Prop}
    (hf : ∀ (h : Heap) (R : Foot), h.Is (arrFoot V.ap .malloc V.ks .malloc + R) →
      ∃ h' y, f h = .ok h' ∧ h'.Is (arrFoot V.ap .malloc (V.ks.set i y) .malloc + R) ∧ b y)
    (hI : h.Is (V.foot + R)) : ∃ h' y, f h = .ok h' ∧ h'.Is (({ V with ks := V.ks.set i y } : CV).foot + R) ∧ b y := by
  obtain ⟨h', y, h1, h2, h3⟩ := hf h (pt V.sp .malloc (.data V.ss) + R) (hI.cast (by rw [CV.foot]; ac_rfl))
  exact ⟨h', y, h1, h2.cast (by simp only [CV.foot]; ac_rfl), h3⟩

/-- the memory of bucket `i` grows from `n` to `n + 1` entries -/
theorem grow_ok (g : c.Good K) (hlg : t.lg ≤ K.top) (hI : h.Is (V.foot + R)) (p : V.Ptrs t) {b : Bk} {n : Nat} (hb : V.ks[i]? = some b) (hs : Slot n b) :
    ∃ h' y, reallocBucket c h t i n (n + 1) = .ok h' ∧ h'.Is (({ V with ks := V.ks.set i y } : CV).foot + R) ∧ Has (bkKeys b) y := by
  unfold reallocBucket
  rw [p.store]
  by_cases h0 : n = 0
  · subst h0
    cases hs.zero
    rw [if_pos (by rw [words_zero g]; exact (words_pos g hlg (by omega)).symm), if_neg (fun e => words_pos g hlg (by omega) e.1)]
    refine storeStep (f := fun h => h.resizeBucket .malloc (some V.ap) i) (b := Has []) (fun h R hI => ?_) hI
    obtain ⟨h', y, h1, h2, h3⟩ := init_step hb h R hI
    exact ⟨h', y, by simp only [Heap.resizeBucket, hI.arr_obj hb, ok_bind, Option.map_none, if_true, h1], h2, h3⟩
  · split
    · rw [if_neg (fun e => words_pos g hlg (by omega) e.1)]
      exact storeStep (f := fun h => h.resizeBucket .malloc (some V.ap) i) (b := Has (bkKeys b)) (resize_step hb (hs.has h0)) hI
    · exact ⟨h, b, rfl, hI.cast (by rw [set_get hb]), hs.has h0⟩

/-- the memory of bucket `i` shrinks to the entries `xs` -/
theorem shrink_ok (g : c.Good K) (hlg : t.lg ≤ K.top) (hI : h.Is (V.foot + R)) (p : V.Ptrs t) {b : Bk} {xs : List Nat} (hb : V.ks[i]? = some b) (hs : Has xs b) :
    ∃ h' y, reallocBucket c h t i (xs.length + 1) xs.length = .ok h' ∧ h'.Is (({ V with ks := V.ks.set i y } : CV).foot + R) ∧ (xs.length ≠ 0 → Has xs y) := by
  unfold reallocBucket
  rw [p.store]
  split
  · split
    · next e =>
      refine storeStep (f := fun h => h.clearBucket .malloc (some V.ap) i) (b := fun y => xs.length ≠ 0 → Has xs y) (fun h R hI => ?_) hI
      obtain ⟨h', h1, h2⟩ := hI.clearBucket hb
      exact ⟨h', _, h1, h2, fun e' => absurd e.1 (words_pos g hlg e')⟩
    · refine storeStep (f := fun h => h.resizeBucket .malloc (some V.ap) i) (b := fun y => xs.length ≠ 0 → Has xs y) (fun h R hI => ?_) hI
      obtain ⟨h', y, h1, h2, h3⟩ := resize_step hb hs h R hI
      exact ⟨h', y, h1, h2, fun _ => h3⟩
  · exact ⟨h, _, rfl, hI.cast (by rw [set_get hb]), fun _ => hs⟩

/-- the end of `find_or_insert` -/
theorem push_ok (g : c.Good K) (hI : h.Is (V.foot + R)) (p : V.Ptrs t) (w : V.WF c K t.lg) {n : Nat} (hn : V.ss[i]? = some n) (hlt : n ≠ c.maxSize)
    {k : Nat} (hk : K.key k) (hp : c.hash t.lg k = i) {b : Bk} (h1 : V.ks[i]? = some b) (hnew : k ∉ bkKeys b) :
    ∃ h', push c h t i n k = .ok h' ∧ Live c K t R h' := by
  obtain ⟨h0, b', h1', h2⟩ := w.slot i n hn
  cases h1.symm.trans h1'
  have hmax := g.max
  have e1 : (n + 1) % 256 = n + 1 := by omega
  have hlen := h2.len
  obtain ⟨ha, a1, a2⟩ := sizeStep hI p (lt_of_get hn) (n + 1)
  obtain ⟨hb, y, b1, b2, b3⟩ := grow_ok (V := { V with ss := V.ss.set i (n + 1) }) g w.le a2 ⟨p.store, p.sizes⟩ h1 h2
  obtain ⟨hc, z, c1, c2, c3⟩ := storeStep (V := { V with ss := V.ss.set i (n + 1), ks := V.ks.set i y }) (i := i) (b := Has (bkKeys b ++ [k]))
    (f := fun h => h.writeBucket (some V.ap) i (bkKeys b).length k)
    (append_step (l := V.ks.set i y) (List.getElem?_set_self (lt_of_get h1)) b3 k) b2
  have hz : Slot (n + 1) z := by
    have := c3.slot (by simp)
    rwa [List.length_append, List.length_singleton, hlen] at this
  refine ⟨hc, ?_, { V with ks := V.ks.set i z, ss := V.ss.set i (n + 1) }, ⟨p.store, p.sizes⟩, w.upd z (n + 1) hz (by omega) ?_,
    c2.cast (by simp only [List.set_set])⟩
  · rw [hlen] at c1
    simp only [push, e1, a1, ok_bind, b1]
    rw [p.store]
    exact c1
  · rw [c3.keys]
    exact (w.holds i b h1).snoc hk hp hnew

theorem read_ok (hI : h.Is (V.foot + R)) (p : V.Ptrs t) (w : V.WF c K lg) {n j : Nat} (hn : V.ss[i]? = some n) (hj : j < n) :
    ∃ k, h.readBucket t.store i j = .ok k ∧ K.key k := by
  obtain ⟨_, b, h1, h2⟩ := w.slot i n hn
  have hh := w.holds i b h1
  have hl := h2.len
  obtain ⟨a, e⟩ := h2.has (by omega)
  generalize bkKeys b = xs at e hh hl
  subst e
  subst hl
  have i1 : h.Is (arrFoot V.ap .malloc V.ks .malloc + (pt V.sp .malloc (.data V.ss) + R)) := hI.cast (by rw [CV.foot]; ac_rfl)
  rw [p.store]
  exact ⟨_, i1.bk_word h1 hj, hh.key _ (List.getElem_mem _)⟩

/-! ## Calls -/

/-- The blocks after a call: those of the map and the others; `L` got lost.  The map has at least `2 ^ low` buckets. -/
def After (c : CCfg) (K : Keys) (low : Nat) (R : Foot) (clean : Prop) (s : CTab × Heap) : Prop :=
  ∃ (W : View) (L : Foot), W.Of c K s.1 ∧ W.Usable s.1 ∧ s.2.Is (W.foot + (L + R)) ∧ (clean → W.Clean s.1 ∧ L = 0) ∧ low ≤ s.1.lg

/-- what is needed of `find_or_insert` in `reserve` -/
def InsOK (c : CCfg) (K : Keys) (f : Nat) (ins : Ins) : Prop := ∀ (h : Heap) (t : CTab) (k : Nat) (R : Foot) (W : View), W.Of c K t → W.Usable t →
  h.Is (W.foot + R) → K.key k → Out (Err c (K.Deep f t.lg)) (ins h t k) (After c K t.lg R (W.Clean t))

/-- after some calls on `tmp`, while `t` keeps its arrays; the buckets below `m` of `t` are released -/
def During (c : CCfg) (K : Keys) (low : Nat) (t : CTab) (R : Foot) (clean : Prop) (m : Nat) (s : CTab × Heap) : Prop :=
  ∃ (V : CV) (W : View) (L : Foot), V.Ptrs t ∧ V.WF c K t.lg ∧ (∀ i < m, V.ks[i]? = some none) ∧ W.Of c K s.1 ∧ W.Usable s.1 ∧
    s.2.Is (V.foot + (W.foot + (L + R))) ∧ (clean → W.Clean s.1 ∧ L = 0) ∧ low ≤ s.1.lg

variable {f low : Nat}

theorem moveEntries_ok {ins : Ins} (hins : InsOK c K f ins) {clean : Prop} {n : Nat} (p : V.Ptrs t) (w : V.WF c K t.lg)
    (hn : V.ss[i]? = some n) : ∀ (m : Nat), m ≤ n → ∀ (s : CTab × Heap) (W : View) (L : Foot), W.Of c K s.1 → W.Usable s.1 →
    s.2.Is (V.foot + (W.foot + (L + R))) → (clean → W.Clean s.1 ∧ L = 0) → low ≤ s.1.lg →
    Out (Err c (K.Deep f low)) (moveEntries ins t i m s) (fun s => ∃ (W : View) (L : Foot), W.Of c K s.1 ∧ W.Usable s.1 ∧
      s.2.Is (V.foot + (W.foot + (L + R))) ∧ (clean → W.Clean s.1 ∧ L = 0) ∧ low ≤ s.1.lg) := by
  intro m
  induction m with
  | zero => intro _ s W L h1 h2 h3 h4 h5; exact ⟨W, L, h1, h2, h3, h4, h5⟩
  | succ m ih =>
    intro hm s W L h1 h2 h3 h4 h5
    simp only [moveEntries]
    refine (ih (by omega) s W L h1 h2 h3 h4 h5).bind ?_
    rintro ⟨tmp, h⟩ ⟨W1, L1, a1, a2, a3, a4, a5⟩
    obtain ⟨k, e1, e3⟩ := read_ok a3 p w hn (show m < n by omega)
    simp only at e1 a1 a2 a3 a4 a5 ⊢
    rw [e1, ok_bind]
    refine (err_weaken (hins h tmp k (V.foot + (L1 + R)) W1 a1 a2 (a3.cast (by ac_rfl)) e3) (fun hd => hd.mono a5)).mono ?_
    rintro s' ⟨W2, L2, b1, b2, b3, b4, b5⟩
    refine ⟨W2, L2 + L1, b1, b2, b3.cast (by ac_rfl), fun hc => ?_, Nat.le_trans a5 b5⟩
    obtain ⟨d1, d2⟩ := a4 hc
    obtain ⟨d3, d4⟩ := b4 d1
    exact ⟨d3, by rw [d4, d2]; simp⟩

theorem moveBucket_ok {ins : Ins} (hins : InsOK c K f ins) {clean : Prop} {m : Nat} (hm : m < 2 ^ t.lg) {s : CTab × Heap}
    (hs : During c K low t R clean m s) : Out (Err c (K.Deep f low)) (moveBucket c ins t s m) (During c K low t R clean (m + 1)) := by
  obtain ⟨V, W, L, p, w, hc, h1, h2, h3, h4, h5⟩ := hs
  obtain ⟨n, hn⟩ := w.size hm
  obtain ⟨_, b, k1, k2⟩ := w.slot m n hn
  simp only [moveBucket, size_ok h3 p hn, ok_bind]
  by_cases h0 : n = 0
  · rw [if_pos h0]
    refine ⟨V, W, L, p, w, fun i hi => ?_, h1, h2, h3, h4, h5⟩
    by_cases e : i = m
    · subst e
      rw [k1]
      subst h0
      rw [k2.zero]
    · exact hc i (by omega)
  · rw [if_neg h0]
    refine (moveEntries_ok hins p w hn n (Nat.le_refl _) s W L h1 h2 h3 h4 h5).bind ?_
    rintro ⟨tmp, h⟩ ⟨W1, L1, a1, a2, a3, a4, a5⟩
    refine (clearOne_ok err_undef a3 p (lt_of_get hn) k1).bind (fun h' b2 => ?_)
    refine ⟨{ V with ks := V.ks.set m none, ss := V.ss.set m 0 }, W1, L1, ⟨p.store, p.sizes⟩, w.upd none 0 rfl (Nat.zero_le _) .nil, fun i hi => ?_, a1, a2, b2,
      a4, a5⟩
    by_cases e : i = m
    · subst e
      exact List.getElem?_set_self (lt_of_get k1)
    · rw [List.getElem?_set_ne (Ne.symm e)]
      exact hc i (by omega)

theorem moveBuckets_ok {ins : Ins} (hins : InsOK c K f ins) {clean : Prop} {s : CTab × Heap} (hs : During c K low t R clean 0 s) : ∀ {m : Nat}, m ≤ 2 ^ t.lg →
    Out (Err c (K.Deep f low)) ((List.range m).foldlM (moveBucket c ins t) s) (During c K low t R clean m) := by
  intro m
  induction m with
  | zero => intro _; exact hs
  | succ m ih =>
    intro hm
    rw [List.range_succ, List.foldlM_append]
    refine (ih (by omega)).bind (fun s1 a => ?_)
    simp only [List.foldlM_cons, List.foldlM_nil]
    exact (moveBucket_ok hins (by omega) a).bind (fun s2 b => b)

/-- `reserve` on a map without buckets: if there are blocks, they are lost -/
theorem reserveEmpty_after {W : View} (hI : h.Is (W.foot + R)) (h0 : t.lg = 0) {bits : Nat} (hbits : bits ≤ K.top) :
    After c K bits R (W.Clean t ∧ bits ≠ 0) (reserveEmpty h t bits) := by
  obtain ⟨V, p, w, an, i1, e⟩ := reserveEmpty_ok (c := c) hI t hbits
  refine ⟨some V, W.foot, ⟨p, by rw [e]; exact w, fun _ => an⟩, trivial, i1, fun ⟨hc, hb⟩ => ⟨by rw [View.Clean, e]; exact hb, ?_⟩, by rw [e]⟩
  cases W with
  | some V => exact absurd h0 hc
  | none => rfl

/-- `reserve` -/
theorem reserveWith_ok (g : K.Limit) {ins : Ins} (hins : InsOK c K f ins) {W : View} (hO : W.Of c K t) (hU : W.Usable t) (hI : h.Is (W.foot + R)) {n : Nat}
    (hn : K.Room n) (hlow : low = 0 ∨ 2 ^ low ≤ n) : Out (Err c (K.Deep f low)) (reserveWith c ins h t n) (After c K low R (W.Clean t ∧ 2 ≤ n)) := by
  unfold reserveWith
  refine (safe_out ((reserveBits_safe g hn).weaken (fun hd => hd.1))).bind (fun bits hbits => ?_)
  have hlb : low ≤ bits := by
    rcases hlow with e | e
    · omega
    · exact (Nat.pow_le_pow_iff_right (by omega)).mp (Nat.le_trans e hbits.2.2)
  by_cases h0 : t.lg = 0
  · rw [if_pos h0]
    obtain ⟨W1, L1, a1, a2, a3, a4, a5⟩ := reserveEmpty_after (c := c) hI h0 hbits.2.1
    exact ⟨W1, L1, a1, a2, a3, fun ⟨e1, e2⟩ => a4 ⟨e1, hbits.1 e2⟩, Nat.le_trans hlb a5⟩
  · rw [if_neg h0]
    cases W with
    | none => exact absurd hU h0
    | some V =>
      obtain ⟨p, w, o⟩ := hO
      have st := reserveEmpty_after (c := c) (t := new) (W := none) (R := V.foot + R) (h := h) (hI.cast (by simp [View.foot])) rfl hbits.2.1
      generalize reserveEmpty h new bits = r at st
      obtain ⟨tmp, h1⟩ := r
      simp only
      have hd : During c K low t R (2 ≤ n) 0 (tmp, h1) := by
        obtain ⟨W1, L1, a1, a2, a3, a4, a5⟩ := st
        exact ⟨V, W1, L1, p, w, fun i hi => absurd hi (Nat.not_lt_zero i), a1, a2, a3.cast (by ac_rfl), fun e2 => a4 ⟨trivial, hbits.1 e2⟩, Nat.le_trans hlb a5⟩
      rw [bucketCount, if_neg h0]
      refine (moveBuckets_ok hins hd (Nat.le_refl _)).bind ?_
      rintro ⟨tmp2, h2⟩ ⟨V2, W2, L2, p2, w2, hc, b1, b2, b3, b4, b5⟩
      simp only at b1 b2 b3 b4 b5 ⊢
      refine (clearStructure_ok err_undef p2 (fun b hb => ?_) b3).bind ?_
      · obtain ⟨i, hi, e⟩ := List.getElem_of_mem hb
        have := hc i (by rw [← w2.ks]; exact hi)
        rw [List.getElem?_eq_getElem hi, e] at this
        exact Option.some.inj this
      · rintro ⟨t3, h3⟩ ⟨rfl, i3, _⟩
        simp only [swap, ok_bind]
        refine (destroy_ok (K := K) (W := none) (t := ⟨t.store, none, 0, 0⟩) (R := W2.foot + (L2 + R)) rfl (i3.cast (by simp [View.foot]))).bind (fun h4 i4 => ?_)
        exact ⟨W2, L2, b1, b2, i4, fun ⟨_, e⟩ => b4 e, b5⟩

/-- a bucket that is full: the number of buckets can still be doubled -/
theorem full_lt (g : c.Good K) (w : V.WF c K lg) {n k : Nat} (hn : V.ss[i]? = some n) (hm : n = c.maxSize) (hk : K.key k) (hp : c.hash lg k = i) {b : Bk}
    (hb : V.ks[i]? = some b) (hnew : k ∉ bkKeys b) (hs : K.sure) : lg < K.top := by
  obtain ⟨_, b', h1, h2⟩ := w.slot i n hn
  cases hb.symm.trans h1
  have hle := w.le
  by_cases e : lg = K.top
  · subst e
    exact absurd (g.spread hs) ((w.holds i b hb).full hs hk hp hnew (h2.len.trans hm))
  · omega

/-- `find_or_insert` -/
theorem insert_ok (g : c.Good K) : ∀ f, InsOK c K f (insert c f) := by
  intro f
  induction f with
  | zero => intro h t k R W _ _ _ _; exact .inl ⟨fun hd => absurd hd.2.1 (Nat.lt_irrefl 0), .inl rfl⟩
  | succ f ih =>
    intro h t k R W hO hU hI hk
    simp only [insert]
    have first : Out (Err c (K.Deep (f + 1) t.lg)) (if t.lg = 0 then do
        let bits ← reserveBits (min (c.kw - 1) 16)
        return reserveEmpty h t bits
      else return (t, h) : Res (CTab × Heap))
      (fun s => ∃ (V : CV) (L : Foot), V.Ptrs s.1 ∧ V.WF c K s.1.lg ∧ s.2.Is (V.foot + (L + R)) ∧ s.1.lg ≠ 0 ∧ (W.Clean t → L = 0) ∧ t.lg ≤ s.1.lg) := by
      by_cases h0 : t.lg = 0
      · rw [if_pos h0]
        have h3 := g.kw
        have hroom : K.Room (min (c.kw - 1) 16) := by
          have : min (c.kw - 1) 16 ≤ 16 := Nat.min_le_right _ _
          exact ⟨by omega, fun hs => ⟨by omega, g.first hs⟩⟩
        refine (safe_out ((reserveBits_safe g.limit hroom).weaken (fun hd => hd.1))).bind (fun bits hbits => ?_)
        obtain ⟨V, p, w, _, i1, e⟩ := reserveEmpty_ok (c := c) hI t hbits.2.1
        refine ⟨V, W.foot, p, by rw [e]; exact w, i1, by rw [e]; exact hbits.1 (by omega), fun hc => ?_, by omega⟩
        cases W with
        | some V => exact absurd h0 hc
        | none => rfl
      · rw [if_neg h0]
        cases W with
        | none => exact absurd hU h0
        | some V => exact ⟨V, 0, hO.1, hO.2.1, hI.cast (by simp [View.foot]), h0, fun _ => rfl, Nat.le_refl _⟩
    refine first.bind ?_
    rintro ⟨t1, h1⟩ ⟨V, L, p, w, i1, hlg, hcl, hle⟩
    simp only at p w i1 hlg hcl hle ⊢
    obtain ⟨n, hn⟩ := w.size (g.hash_lt t1.lg k w.le hk)
    obtain ⟨r, b, r1, hb, _, r3⟩ := find_ok i1 p w hn k
    rw [size_ok i1 p hn, ok_bind, r1, ok_bind]
    cases r with
    | some j => exact ⟨some V, L, ⟨p, w, fun e => absurd e hlg⟩, trivial, i1, fun e => ⟨hlg, hcl e⟩, hle⟩
    | none =>
      simp only
      by_cases hm : n = c.maxSize
      · rw [if_pos hm]
        have hlt := full_lt g w hn hm hk rfl hb (r3 rfl)
        refine (safe_out ((shl64_safe g.limit hlt).weaken (fun hd => hd.1))).bind (fun m hm => ?_)
        have deep : K.Deep (f + 1) t.lg → K.Deep f (t1.lg + 1) := fun hd => (hd.mono hle).step (hlt hd.1) (Nat.le_refl _)
        refine (err_weaken (reserveWith_ok g.limit ih (low := t1.lg + 1) (W := some V) ⟨p, w, fun e => absurd e hlg⟩ trivial i1 hm.1 (.inr (by rw [hm.2])))
          deep).bind ?_
        rintro ⟨t2, h2⟩ ⟨W2, L2, a1, a2, a3, a4, a5⟩
        refine (err_weaken (ih h2 t2 k (L2 + (L + R)) W2 a1 a2 a3 hk) (fun hd => (deep hd).mono a5)).mono ?_
        rintro s ⟨W3, L3, b1, b2, b3, b4, b5⟩
        simp only at a5 b5
        refine ⟨W3, L3 + L2 + L, b1, b2, b3.cast (by ac_rfl), fun hc => ?_, by omega⟩
        obtain ⟨d3, d4⟩ := a4 ⟨hlg, by
          rw [hm.2, Nat.pow_succ]
          have := Nat.one_le_two_pow (n := t1.lg)
          omega⟩
        obtain ⟨d5, d6⟩ := b4 d3
        exact ⟨d5, by rw [hcl hc, d4, d6]; simp⟩
      · rw [if_neg hm]
        obtain ⟨h2, a1, V2, a2, a3, a4⟩ := push_ok g i1 p w hn hm hk rfl hb (r3 rfl)
        rw [a1, ok_bind]
        exact ⟨some V2, L, ⟨⟨a2.store, a2.sizes⟩, a3, fun e => absurd e hlg⟩, trivial, a4, fun e => ⟨hlg, hcl e⟩, hle⟩

/-- `erase(key)` -/
theorem erase_ok (g : c.Good K) {W : View} (hO : W.Of c K t) (hU : W.Usable t) (hI : h.Is (W.foot + R)) {k : Nat} (hk : K.key k) :
    Out (Err c Q) (erase c h t k) (After c K 0 R (W.Clean t)) := by
  unfold erase
  by_cases h0 : t.lg = 0
  · rw [if_pos h0]; exact ⟨W, 0, hO, hU, hI.cast (by simp), fun e => ⟨e, rfl⟩, Nat.zero_le _⟩
  · rw [if_neg h0]
    cases W with
    | none => exact absurd hU h0
    | some V =>
      obtain ⟨p, w, o⟩ := hO
      have hi := g.hash_lt t.lg k w.le hk
      generalize c.hash t.lg k = b at hi
      obtain ⟨n, hn⟩ := w.size hi
      obtain ⟨r, bk, r1, h1, r2, _⟩ := find_ok hI p w hn k
      simp only [size_ok hI p hn, ok_bind, r1]
      cases r with
      | none => exact ⟨some V, 0, ⟨p, w, o⟩, trivial, hI.cast (by simp [View.foot]), fun e => ⟨e, rfl⟩, Nat.zero_le _⟩
      | some j =>
        have hj := r2 j rfl
        obtain ⟨hmax, bk', h1', h2⟩ := w.slot b n hn
        cases h1.symm.trans h1'
        have hmax2 := g.max
        have hlen := h2.len
        have hx := (w.holds b bk h1).eraseIdx j
        have hel : ((bkKeys bk).eraseIdx j).length + 1 = n := by
          rw [List.length_eraseIdx, if_pos (by omega)]
          omega
        have e1 : (n + 255) % 256 = ((bkKeys bk).eraseIdx j).length := by omega
        have hbk := h2.has (by omega)
        obtain ⟨ha, y, a1, a2, a3⟩ := storeStep (i := b) (f := fun h => h.eraseBucket (some V.ap) b j) (b := Has ((bkKeys bk).eraseIdx j))
          (erase_step h1 hbk (by omega)) hI
        generalize (bkKeys bk).eraseIdx j = xs at hx hel e1 a3
        subst hel
        simp only [e1]
        obtain ⟨hb, b1, b2⟩ := sizeStep (t := t) (i := b) a2 ⟨p.store, p.sizes⟩ (lt_of_get hn) xs.length
        have gy : (V.ks.set b y)[b]? = some y := List.getElem?_set_self (lt_of_get h1)
        obtain ⟨hc, z, c1, c2, c3⟩ := shrink_ok (t := t) (i := b) g w.le b2 ⟨p.store, p.sizes⟩ gy a3
        have a1' : h.eraseBucket t.store b j = .ok ha := by rw [p.store]; exact a1
        rw [a1', ok_bind, b1, ok_bind, c1, ok_bind]
        by_cases hm0 : xs.length = 0
        · rw [if_pos hm0]
          have gz : ((V.ks.set b y).set b z)[b]? = some z := List.getElem?_set_self (by simpa using lt_of_get h1)
          refine (clearOne_ok err_undef c2 (t := t) ⟨p.store, p.sizes⟩ (by simpa using lt_of_get hn) gz).bind (fun hd d2 => ?_)
          refine ⟨some { V with ks := V.ks.set b none, ss := V.ss.set b 0 }, 0, ⟨⟨p.store, p.sizes⟩, w.upd none 0 rfl (Nat.zero_le _) .nil, fun e => absurd e h0⟩, trivial,
            d2.cast (by simp [View.foot, List.set_set]), fun e => ⟨e, rfl⟩, Nat.zero_le _⟩
        · rw [if_neg hm0, ok_bind]
          exact ⟨some { V with ks := V.ks.set b z, ss := V.ss.set b xs.length }, 0,
            ⟨⟨p.store, p.sizes⟩, w.upd z xs.length ((c3 hm0).slot hm0) (by omega) (by rw [(c3 hm0).keys]; exact hx), fun e => absurd e h0⟩, trivial,
            c2.cast (by simp [View.foot, List.set_set]), fun e => ⟨e, rfl⟩, Nat.zero_le _⟩

/-- `find(key)` -/
theorem find_safe (g : c.Good K) {W : View} (hO : W.Of c K t) (hU : W.Usable t) (hI : h.Is (W.foot + R)) {k : Nat} (hk : K.key k) : ∃ r, find c h t k = .ok r := by
  unfold find
  by_cases h0 : t.lg = 0
  · exact ⟨_, by rw [if_pos h0]⟩
  · rw [if_neg h0]
    cases W with
    | none => exact absurd hU h0
    | some V =>
      obtain ⟨n, hn⟩ := hO.2.1.size (g.hash_lt t.lg k hO.2.1.le hk)
      obtain ⟨r, _, r1, _⟩ := find_ok hI hO.1 hO.2.1 hn k
      exact ⟨r, by rw [size_ok hI hO.1 hn, ok_bind, r1]⟩

/-- the program uses its keys, and `reserve` takes a 64 bit number -/
def Op.Valid (K : Keys) : Op → Prop
  | .insert k => K.key k
  | .find k => K.key k
  | .erase k => K.key k
  | .reserve n => K.Room n
  | .clear => True

/-- calls that lose no memory -/
def Op.Keeps : Op → Prop
  | .reserve n => 2 ≤ n
  | _ => True

/-- the class respects ownership -/
def laws (g : c.Good K) (f : Nat) : TabLaws (cls c) f (Err c (K.Deep f 0)) (DErr c) false (Op.Valid K) Op.Keeps where
  View := View
  foot := View.foot
  Of W t := W.Of c K t
  Usable W t := W.Usable t
  Clean W t := W.Clean t
  new := ⟨none, rfl, rfl, trivial, rfl⟩
  call h t op W R hO hU hI hv := by
    cases op with
    | insert k =>
      refine (err_weaken (insert_ok g f h t k R W hO hU hI hv) (fun hd => hd.mono (Nat.zero_le _))).mono ?_
      rintro s ⟨W', L, a1, a2, a3, a4, _⟩
      exact ⟨W', L, a1, a2, a3, fun e _ => a4 e⟩
    | find k =>
      obtain ⟨r, hr⟩ := find_safe g hO hU hI hv
      simp only [cls, call, hr, ok_bind]
      exact ⟨W, 0, hO, hU, hI.cast (by simp), fun e _ => ⟨e, rfl⟩⟩
    | erase k =>
      refine (erase_ok g hO hU hI hv).mono ?_
      rintro s ⟨W', L, a1, a2, a3, a4, _⟩
      exact ⟨W', L, a1, a2, a3, fun e _ => a4 e⟩
    | clear =>
      refine (clear_ok err_undef hO hI).mono (fun s a => ?_)
      exact ⟨none, 0, a.1, a.2.2.1 hU, a.2.1.cast (by simp [View.foot]), fun _ _ => ⟨trivial, rfl⟩⟩
    | reserve n =>
      refine (reserveWith_ok g.limit (insert_ok g f) hO hU hI hv (.inl rfl)).mono ?_
      rintro s ⟨W', L, a1, a2, a3, a4, _⟩
      exact ⟨W', L, a1, a2, a3, fun e e2 => a4 ⟨e, e2⟩⟩
  swap h a b := rfl
  moveAssign h t o W W' R hO hO' hI := by
    refine (clear_ok err_undef hO hI).bind (fun s a => ?_)
    refine ⟨W', none, ?_, rfl, a.2.1.cast (by simp [View.foot]), ?_, fun e => Bool.noConfusion e, fun _ e => ⟨?_, trivial⟩⟩
    · cases W' with
      | none => exact hO'
      | some V => exact ⟨⟨hO'.1.store, hO'.1.sizes⟩, hO'.2⟩
    · cases W' with
      | none => exact id
      | some V => exact id
    · cases W' with
      | none => trivial
      | some V => exact e
  selfMove h t W R hO hI := (clear_ok err_undef hO hI).bind (fun s a =>
    ⟨none, rfl, a.2.1.cast (by simp [View.foot]), fun e => a.2.2.1 e, fun _ => trivial⟩)
  destroy h t W R hO hI := (clear_ok (E := DErr c) (fun hr => ⟨hr, rfl⟩) hO hI).bind (fun _ a => a.2.1)
  sub e h := .inr h

/-- a map with arrays cannot be released with the wrong function -/
theorem destroy_undef (hr : c.rel ≠ .malloc) (hO : View.Of c K t (some V)) (hI : h.Is (V.foot + R)) : destroy c h t = .error .undef := by
  have hd : Out (· = Fault.undef) (destroy c h t) (fun _ => False) :=
    (clear_ok (E := (· = Fault.undef)) (fun _ => rfl) hO hI).bind (fun s a => absurd (a.2.2.2 (Option.some_ne_none _)) hr)
  cases h1 : destroy c h t with
  | ok x => rw [h1] at hd; exact hd.elim
  | error e => rw [h1] at hd; rw [show e = Fault.undef from hd]

end SC.Own.Compact
