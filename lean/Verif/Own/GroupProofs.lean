import Verif.Own.Group
import Verif.Own.Hash
import Verif.Own.Step
/-!
# `group_chaining_table` keeps the ownership
-/
namespace SC.Own.Grp

/-- assumptions on the parameters: keys of at least three bits (C33), the hash function gives the number of a bucket, at most 255 entries in a group.  If
calls have to return, then with the greatest number of buckets no group gets more keys than it has room for. -/
structure _root_.SC.Own.GCfg.Good (c : GCfg) (K : Keys) : Prop where
  kw : 3 ≤ c.kw
  limit : K.Limit
  hash_lt : ∀ lg k, lg ≤ K.top → K.key k → c.hash lg k < 2 ^ lg
  max : c.maxSize ≤ 255
  first : K.sure → min (c.kw - 1) 8 ≤ 2 ^ K.top
  spread : K.sure → ∀ bpg, 0 < bpg → bpg ≤ 64 → Spread (fun k => c.hash K.top k / bpg) K.key c.maxSize

theorem _root_.SC.Own.GCfg.Good.any {c : GCfg} (kw : 3 ≤ c.kw) (h : ∀ lg k, c.hash lg k < 2 ^ lg) (hm : c.maxSize ≤ 255) : c.Good .any :=
  ⟨kw, ⟨Nat.le_refl _, fun _ => rfl⟩, fun lg k _ _ => h lg k, hm, False.elim, False.elim⟩

/-- the library's hash functions: a group of 64 buckets gets at most 128 keys -/
theorem _root_.SC.Own.GCfg.Good.hash {c : GCfg} (hk : HashKind) (h3 : 3 ≤ c.kw) (h64 : c.kw ≤ 64) (h2 : 128 ≤ c.maxSize) (hmax : c.maxSize ≤ 255)
    (hh : c.hash = hk.place c.kw) : c.Good (hk.keys c.kw) where
  kw := h3
  limit := keys_limit hk h3 h64
  hash_lt lg k hlg hk' := by rw [hh]; exact place_lt hk h3 h64 hlg hk'
  max := hmax
  first _ := by
    have h1 := (keys_top hk h3 h64).1
    have := Nat.lt_two_pow_self (n := (hk.keys c.kw).top)
    omega
  spread _ bpg h0 h1 := by rw [hh]; exact ((place_spread hk h3 h64).group h0).mono (by omega)

/-- possible faults; `Q` is the assumption under which the recursion ends -/
def Err (Q : Prop) (e : Fault) : Prop := ¬ Q ∧ (e = .fuel ∨ e = .shift)

/-- the arrays of a table: addresses and contents -/
structure GV where
  gp : Nat
  sp : Nat
  ks : List Bk
  ss : List Nat

def GV.foot (V : GV) : Foot := arrFoot V.gp .malloc V.ks + pt V.sp .new (.data V.ss)

/-- the three blocks of a group with `n` entries -/
structure Blocks (n : Nat) (v k b : Bk) : Prop where
  zero : n = 0 → v = none ∧ k = none ∧ b = none
  vs : n ≠ 0 → HasN n v
  ks : Slot n k
  bs : n ≠ 0 → Has [] b

/-- group `i` of `V` has `n` entries -/
def GV.At (V : GV) (i n : Nat) : Prop :=
  ∃ v k b, V.ks[vslot i]? = some v ∧ V.ks[kslot i]? = some k ∧ V.ks[bslot i]? = some b ∧ Blocks n v k b

/-- contents of the arrays that belong together; `place` gives the group of a key -/
structure GV.WF (c : GCfg) (K : Keys) (place : Nat → Nat) (V : GV) (m : Nat) : Prop where
  ks : V.ks.length = 3 * m
  ss : V.ss.length = m
  slot : ∀ i n : Nat, V.ss[i]? = some n → n ≤ c.maxSize ∧ V.At i n
  holds : ∀ (i : Nat) (b : Bk), V.ks[kslot i]? = some b → Holds K place i (bkKeys b)

/-- the object `t` points to the arrays -/
structure GV.Ptrs (V : GV) (t : GTab) : Prop where
  groups : t.groups = some V.gp
  sizes : t.sizes = some V.sp

variable {c : GCfg} {K : Keys} {Q : Prop} {place : Nat → Nat} {V V' : GV} {t : GTab} {h : Heap} {R : Foot} {i m n : Nat} {xs : List Nat}

theorem safe_out {α : Type} {r : Res α} {P : α → Prop} (h : Safe Q r P) : Out (Err Q) r P := h

theorem err_weaken {α : Type} {r : Res α} {P : α → Prop} {Q' : Prop} (h : Out (Err Q) r P) (hQ : Q' → Q) : Out (Err Q') r P :=
  Out.weaken h (fun _ a => ⟨fun q => a.1 (hQ q), a.2⟩)

/-- other groups are not touched -/
def Frame (V V' : GV) (i : Nat) : Prop :=
  V'.ks.length = V.ks.length ∧ ∀ s, s ≠ vslot i → s ≠ kslot i → s ≠ bslot i → V'.ks[s]? = V.ks[s]?

theorem Frame.refl (V : GV) (i : Nat) : Frame V V i := ⟨rfl, fun _ _ _ _ => rfl⟩

theorem Frame.set (f : Frame V V' i) {s : Nat} (b : Bk) (hs : s = vslot i ∨ s = kslot i ∨ s = bslot i) : Frame V { V' with ks := V'.ks.set s b } i := by
  refine ⟨by simp [f.1], fun r h1 h2 h3 => ?_⟩
  rw [List.getElem?_set_ne (by rintro rfl; rcases hs with e | e | e <;> contradiction)]
  exact f.2 r h1 h2 h3

theorem Frame.size (f : Frame V V' i) (ss : List Nat) : Frame V { V' with ss := ss } i := f

/-- the invariant after a change of group `i` -/
theorem GV.WF.upd (w : V.WF c K place m) (f : Frame V V' i) (hs : V'.ss = V.ss.set i n) (hn : n ≤ c.maxSize) (hat : V'.At i n)
    (hh : ∀ b, V'.ks[kslot i]? = some b → Holds K place i (bkKeys b)) : V'.WF c K place m where
  ks := by rw [f.1, w.ks]
  ss := by rw [hs, List.length_set, w.ss]
  slot := by
    intro j k hj
    rw [hs] at hj
    by_cases e : i = j
    · subst e
      rw [List.getElem?_set_self (by simpa using lt_of_get hj)] at hj
      cases hj
      exact ⟨hn, hat⟩
    · rw [List.getElem?_set_ne e] at hj
      obtain ⟨h1, v, k, b, h2, h3, h4, h5⟩ := w.slot j _ hj
      refine ⟨h1, v, k, b, ?_, ?_, ?_, h5⟩
      · rw [f.2 (vslot j) (by simp only [vslot]; omega) (by simp only [vslot, kslot]; omega) (by simp only [vslot, bslot]; omega)]; exact h2
      · rw [f.2 (kslot j) (by simp only [vslot, kslot]; omega) (by simp only [kslot]; omega) (by simp only [kslot, bslot]; omega)]; exact h3
      · rw [f.2 (bslot j) (by simp only [vslot, bslot]; omega) (by simp only [kslot, bslot]; omega) (by simp only [bslot]; omega)]; exact h4
  holds := by
    intro j b hb
    by_cases e : i = j
    · subst e
      exact hh b hb
    · rw [f.2 (kslot j) (by simp only [vslot, kslot]; omega) (by simp only [kslot]; omega) (by simp only [kslot, bslot]; omega)] at hb
      exact w.holds j b hb

theorem GV.WF.size (w : V.WF c K place m) (hi : i < m) : ∃ n, V.ss[i]? = some n := ⟨_, List.getElem?_eq_getElem (by rw [w.ss]; exact hi)⟩

theorem Blocks.none : Blocks 0 .none .none .none := ⟨fun _ => ⟨rfl, rfl, rfl⟩, fun e => absurd rfl e, rfl, fun e => absurd rfl e⟩

theorem Blocks.of {v k b : Bk} (h0 : xs.length ≠ 0) (hv : HasN xs.length v) (hk : Has xs k) (hb : Has [] b) : Blocks xs.length v k b :=
  ⟨fun e => absurd e h0, fun _ => hv, hk.slot h0, fun _ => hb⟩

/-! ## Steps -/

theorem arr (hI : h.Is (V.foot + R)) : h.Is (arrFoot V.gp .malloc V.ks + (pt V.sp .new (.data V.ss) + R)) := hI.cast (by rw [GV.foot]; ac_rfl)

theorem size_ok (hI : h.Is (V.foot + R)) (p : V.Ptrs t) (hn : V.ss[i]? = some n) : h.word t.sizes i = .ok n := by
  rw [p.sizes]
  have : h.Is (pt V.sp .new (.data V.ss) + (arrFoot V.gp .malloc V.ks + R)) := hI.cast (by rw [GV.foot]; ac_rfl)
  exact this.word hn

theorem sizeStep (hI : h.Is (V.foot + R)) (p : V.Ptrs t) (hi : i < V.ss.length) (n : Nat) :
    ∃ h', h.setWord t.sizes i n = .ok h' ∧ h'.Is (({ V with ss := V.ss.set i n } : GV).foot + R) := by
  rw [p.sizes]
  have i1 : h.Is (pt V.sp .new (.data V.ss) + (arrFoot V.gp .malloc V.ks + R)) := hI.cast (by rw [GV.foot]; ac_rfl)
  obtain ⟨h', h1, h2⟩ := i1.setWord hi n
  exact ⟨h', h1, h2.cast (by simp only [GV.foot]; ac_rfl)⟩

/-- a step that concerns only slot `s` -/
theorem slotStep {s : Nat} {f : Heap → Res Heap} {b : Bk → Prop}
    (hf : ∀ (h : Heap) (R : Foot), h.Is (arrFoot V.gp .malloc V.ks + R) → ∃ h' y, f h = .ok h' ∧ h'.Is (arrFoot V.gp .malloc (V.ks.set s y) + R) ∧ b y)
    (hI : h.Is (V.foot + R)) : ∃ h' y, f h = .ok h' ∧ h'.Is (({ V with ks := V.ks.set s y } : GV).foot + R) ∧ b y := by
  obtain ⟨h', y, h1, h2, h3⟩ := hf h (pt V.sp .new (.data V.ss) + R) (arr hI)
  exact ⟨h', y, h1, h2.cast (by simp only [GV.foot]; ac_rfl), h3⟩

theorem clearStep {s : Nat} {b : Bk} (hI : h.Is (V.foot + R)) (p : V.Ptrs t) (hb : V.ks[s]? = some b) :
    ∃ h', h.clearBucket .malloc t.groups s = .ok h' ∧ h'.Is (({ V with ks := V.ks.set s none } : GV).foot + R) := by
  obtain ⟨h', y, h1, h2, rfl⟩ := slotStep (s := s) (f := fun h => h.clearBucket .malloc t.groups s) (b := fun y => y = none) (fun h R hI => by
    obtain ⟨h', h1, h2⟩ := hI.clearBucket hb
    rw [p.groups]
    exact ⟨h', none, h1, h2, rfl⟩) hI
  exact ⟨h', h1, h2⟩

theorem newStep {s : Nat} (hI : h.Is (V.foot + R)) (p : V.Ptrs t) (hb : V.ks[s]? = some none) (xs : List Nat) :
    ∃ h' y, h.loadBucket .malloc t.groups s xs = .ok h' ∧ h'.Is (({ V with ks := V.ks.set s y } : GV).foot + R) ∧ Has xs y :=
  slotStep (s := s) (f := fun h => h.loadBucket .malloc t.groups s xs) (b := Has xs) (fun h R hI => by
    obtain ⟨h', h1, a, h2⟩ := hI.newBucket hb xs
    rw [p.groups]
    exact ⟨h', _, h1, h2, a, rfl⟩) hI

theorem initStep {s : Nat} (hI : h.Is (V.foot + R)) (p : V.Ptrs t) (hb : V.ks[s]? = some none) :
    ∃ h' y, h.initBucket .malloc t.groups s = .ok h' ∧ h'.Is (({ V with ks := V.ks.set s y } : GV).foot + R) ∧ Has [] y := newStep hI p hb []

theorem resizeStep {s : Nat} {b : Bk} (hI : h.Is (V.foot + R)) (p : V.Ptrs t) (hb : V.ks[s]? = some b) (hn : Has xs b) :
    ∃ h' y, h.resizeBucket .malloc t.groups s = .ok h' ∧ h'.Is (({ V with ks := V.ks.set s y } : GV).foot + R) ∧ Has xs y := by
  rw [p.groups]
  exact slotStep (f := fun h => h.resizeBucket .malloc (some V.gp) s) (resize_step hb hn) hI

theorem appendStep {s : Nat} {b : Bk} (hI : h.Is (V.foot + R)) (p : V.Ptrs t) (hb : V.ks[s]? = some b) (hn : Has xs b) (x : Nat) :
    ∃ h' y, h.writeBucket t.groups s xs.length x = .ok h' ∧ h'.Is (({ V with ks := V.ks.set s y } : GV).foot + R) ∧ Has (xs ++ [x]) y := by
  rw [p.groups]
  exact slotStep (f := fun h => h.writeBucket (some V.gp) s xs.length x) (append_step hb hn x) hI

theorem eraseStep {s j : Nat} {b : Bk} (hI : h.Is (V.foot + R)) (p : V.Ptrs t) (hb : V.ks[s]? = some b) (hn : Has xs b) (hj : j < xs.length) :
    ∃ h' y, h.eraseBucket t.groups s j = .ok h' ∧ h'.Is (({ V with ks := V.ks.set s y } : GV).foot + R) ∧ Has (xs.eraseIdx j) y := by
  rw [p.groups]
  exact slotStep (f := fun h => h.eraseBucket (some V.gp) s j) (erase_step hb hn hj) hI

theorem obj_ok {s : Nat} {b : Bk} (hI : h.Is (V.foot + R)) (p : V.Ptrs t) (hb : V.ks[s]? = some b) : h.obj t.groups s = .ok (b.map Prod.fst) := by
  rw [p.groups]
  exact (arr hI).arr_obj hb

theorem data_ok {s : Nat} {b : Bk} (hI : h.Is (V.foot + R)) (p : V.Ptrs t) (hb : V.ks[s]? = some b) (hn : Has xs b) :
    ∃ a, h.obj t.groups s = .ok (some a) ∧ h.data (some a) = .ok xs := by
  obtain ⟨a, rfl⟩ := hn
  exact ⟨a, obj_ok hI p hb, (arr hI).bk_data hb⟩

theorem read_ok {s j : Nat} {b : Bk} (hI : h.Is (V.foot + R)) (p : V.Ptrs t) (hb : V.ks[s]? = some b) (hn : Has xs b) (hj : j < xs.length) :
    h.readBucket t.groups s j = .ok xs[j] := by
  obtain ⟨a, h1, h2⟩ := data_ok hI p hb hn
  simp only [Heap.readBucket, h1, ok_bind, Heap.word, h2, List.getElem?_eq_getElem hj]
  rfl

theorem findGroup_ok (hI : h.Is (V.foot + R)) (p : V.Ptrs t) (hat : V.At i n) (k : Nat) :
    ∃ r b, findGroup h t i n k = .ok r ∧ V.ks[kslot i]? = some b ∧ (∀ j, r = some j → j < n) ∧ (r = none → k ∉ bkKeys b) := by
  obtain ⟨v, q, b, -, h2, h3, bl⟩ := hat
  obtain ⟨r, r1, r2, r3⟩ := findBucket_step h2 bl.ks k (arr hI)
  refine ⟨r, q, ?_, h2, r2, r3⟩
  unfold findGroup
  by_cases h0 : n = 0
  · rw [if_pos h0]
    rw [Heap.findBucket, if_pos h0] at r1
    exact r1
  · obtain ⟨a', e4, e5⟩ := data_ok hI p h3 (bl.bs h0)
    rw [if_neg h0, e4, ok_bind, e5, ok_bind, p.groups]
    exact r1

/-- the slots of a group are different -/
theorem slots (i : Nat) : vslot i ≠ kslot i ∧ vslot i ≠ bslot i ∧ kslot i ≠ bslot i := by simp only [vslot, kslot, bslot]; omega

/-- `m_groups[i].clear()` for any contents of the slots -/
theorem clearSlots {v k b : Bk} (hI : h.Is (V.foot + R)) (p : V.Ptrs t) (hi : i < V.ss.length) (s1 : V.ks[vslot i]? = some v) (s2 : V.ks[kslot i]? = some k)
    (s3 : V.ks[bslot i]? = some b) : ∃ h' V', clearGroup t h i = .ok h' ∧ h'.Is (GV.foot V' + R) ∧ GV.Ptrs V' t ∧ Frame V V' i ∧ V'.ss = V.ss.set i 0 ∧
      V'.ks[vslot i]? = some none ∧ V'.ks[kslot i]? = some none ∧ V'.ks[bslot i]? = some none := by
  obtain ⟨n1, n2, n3⟩ := slots i
  obtain ⟨h1, a1, a2⟩ := clearStep hI p s3
  obtain ⟨h2, b1, b2⟩ := clearStep (t := t) (s := kslot i) (b := k) a2 ⟨p.groups, p.sizes⟩ (by rw [List.getElem?_set_ne n3.symm]; exact s2)
  obtain ⟨h3, c1, c2⟩ := clearStep (t := t) (s := vslot i) (b := v) b2 ⟨p.groups, p.sizes⟩
    (by simp only; rw [List.getElem?_set_ne n1.symm, List.getElem?_set_ne n2.symm]; exact s1)
  obtain ⟨h4, d1, d2⟩ := sizeStep (t := t) (i := i) c2 ⟨p.groups, p.sizes⟩ hi 0
  have l1 := lt_of_get s1
  have l2 := lt_of_get s2
  have l3 := lt_of_get s3
  refine ⟨h4, _, by simp only [clearGroup, a1, ok_bind, b1, c1, d1], d2, ⟨p.groups, p.sizes⟩,
    (((((Frame.refl V i).set none (.inr (.inr rfl))).set none (.inr (.inl rfl))).set none (.inl rfl)).size _), rfl, ?_, ?_, ?_⟩
  · exact List.getElem?_set_self (by simpa using l1)
  · simp only; rw [List.getElem?_set_ne n1, List.getElem?_set_self (by simpa using l2)]
  · simp only; rw [List.getElem?_set_ne n2, List.getElem?_set_ne n3, List.getElem?_set_self l3]

theorem holds_none (h : V.ks[kslot i]? = some none) : ∀ b, V.ks[kslot i]? = some b → Holds K place i (bkKeys b) := by
  intro b hb
  cases h.symm.trans hb
  exact .nil

theorem holds_has {b : Bk} (h : V.ks[kslot i]? = some b) (hx : Has xs b) (hh : Holds K place i xs) : ∀ b, V.ks[kslot i]? = some b → Holds K place i (bkKeys b) := by
  intro b' hb
  cases h.symm.trans hb
  rw [hx.keys]
  exact hh

/-- `m_groups[i].clear()` -/
theorem clearGroup_ok (hI : h.Is (V.foot + R)) (p : V.Ptrs t) (w : V.WF c K place m) (hn : V.ss[i]? = some n) :
    ∃ h' V', clearGroup t h i = .ok h' ∧ h'.Is (GV.foot V' + R) ∧ GV.Ptrs V' t ∧ GV.WF c K place V' m ∧ V'.ss = V.ss.set i 0 ∧
      V'.ks[vslot i]? = some none ∧ V'.ks[kslot i]? = some none ∧ V'.ks[bslot i]? = some none := by
  obtain ⟨_, v, k, b, s1, s2, s3, _⟩ := w.slot i n hn
  obtain ⟨h', V', a1, a2, a3, a4, a5, a6, a7, a8⟩ := clearSlots hI p (lt_of_get hn) s1 s2 s3
  exact ⟨h', V', a1, a2, a3, w.upd a4 a5 (Nat.zero_le _) ⟨_, _, _, a6, a7, a8, .none⟩ (holds_none a7), a5, a6, a7, a8⟩

/-- number of groups of a table with arrays -/
def groups (t : GTab) : Nat := 2 ^ t.lg / t.bpg + 1

theorem groupCount_le (t : GTab) : groupCount t ≤ groups t := by
  unfold groupCount groups bucketCount
  split
  · exact Nat.zero_le _
  · split
    · rw [Nat.zero_div]; exact Nat.succ_le_succ (Nat.zero_le _)
    · exact Nat.le_refl _

/-- the group of a key -/
def spot (c : GCfg) (t : GTab) (k : Nat) : Nat := c.hash t.lg k / t.bpg

/-- number of buckets, and buckets in a group (`sdsl::bits` works with 64 bits) -/
structure Fit (K : Keys) (t : GTab) : Prop where
  le : t.lg ≤ K.top
  pos : 0 < t.bpg
  word : t.bpg ≤ 64

variable {E : Fault → Prop}

/-- `t` has arrays -/
def Live (c : GCfg) (K : Keys) (t : GTab) (R : Foot) (h : Heap) : Prop := ∃ V : GV, V.Ptrs t ∧ V.WF c K (spot c t) (groups t) ∧ h.Is (V.foot + R)

theorem Live.clearGroup (hL : Live c K t R h) (hi : i < groups t) : Out E (Grp.clearGroup t h i) (Live c K t R) := by
  obtain ⟨V, p, w, hI⟩ := hL
  obtain ⟨n, hn⟩ := w.size hi
  obtain ⟨h', V', a1, a2, a3, a4, _⟩ := clearGroup_ok hI p w hn
  exact .of_ok ⟨h', a1, V', a3, a4, a2⟩

theorem Live.clearNonempty (hL : Live c K t R h) (hi : i < groups t) : Out E (Grp.clearNonempty t h i) (Live c K t R) := by
  obtain ⟨V, p, w, hI⟩ := hL
  obtain ⟨n, hn⟩ := w.size hi
  simp only [Grp.clearNonempty, size_ok hI p hn, ok_bind]
  by_cases h0 : n = 0
  · rw [if_pos h0]; exact ⟨V, p, w, hI⟩
  · rw [if_neg h0]; exact Live.clearGroup ⟨V, p, w, hI⟩ hi

/-- a table: with arrays, or without -/
abbrev View := Option GV

def View.foot : View → Foot
  | some V => V.foot
  | none => 0

/-- the object `t` owns the blocks of the view -/
def View.Of (c : GCfg) (K : Keys) (t : GTab) : View → Prop
  | some V => V.Ptrs t ∧ V.WF c K (spot c t) (groups t) ∧ Fit K t
  | none => t.groups = none ∧ t.lg = 0 ∧ Fit K t

theorem View.Of.fit {W : View} (h : W.Of c K t) : Fit K t := by
  cases W with
  | some V => exact h.2.2
  | none => exact h.2.2

/-- nothing gets lost if the table gets new arrays -/
def View.Clean (t : GTab) : View → Prop
  | some _ => t.lg ≠ 0
  | none => True

/-- what `clear_structure()` leaves -/
def cleared (t : GTab) : GTab := { t with groups := none, sizes := none, lg := 0, elems := 0 }

theorem cleared_of (c : GCfg) {t : GTab} (h : Fit K t) : View.Of c K (cleared t) none := ⟨rfl, rfl, ⟨Nat.zero_le _, h.pos, h.word⟩⟩

/-- `clear_structure()` -/
theorem clearStructure_ok {W : View} (hO : W.Of c K t) (hI : h.Is (W.foot + R)) : Out E (clearStructure h t) (fun s => s.1 = cleared t ∧ s.2.Is R) := by
  unfold clearStructure
  cases W with
  | none => rw [if_neg (not_not.mpr hO.1)]; exact ⟨rfl, hI.cast (by simp [View.foot])⟩
  | some V =>
    obtain ⟨p, _⟩ := hO
    rw [if_pos (by rw [p.groups]; exact Option.some_ne_none _), p.groups, p.sizes]
    obtain ⟨h1, a1, a2⟩ := (arr hI).deleteArr
    obtain ⟨h2, b1, b2⟩ := a2.free
    rw [a1, ok_bind, b1]
    exact ⟨rfl, b2⟩

theorem clear_ok {W : View} (hO : W.Of c K t) (hI : h.Is (W.foot + R)) : Out E (clear h t) (fun s => s.1 = cleared t ∧ s.2.Is R) := by
  unfold clear
  cases W with
  | none =>
    rw [show groupCount t = 0 by unfold groupCount; rw [if_pos hO.1]]
    exact clearStructure_ok (c := c) (W := none) hO hI
  | some V =>
    refine (Out.foldlM (P := Live c K t R) (List.range (groupCount t)) ⟨V, hO.1, hO.2.1, hI⟩ (fun s x hx hs => hs.clearNonempty ?_)).bind ?_
    · have := groupCount_le t
      rw [List.mem_range] at hx
      omega
    · rintro h' ⟨V', p, w, hI'⟩
      exact clearStructure_ok (c := c) (W := some V') ⟨p, w, hO.2.2⟩ hI'

theorem destroy_ok {W : View} (hO : W.Of c K t) (hI : h.Is (W.foot + R)) : Out E (destroy h t) (fun h' => h'.Is R) :=
  (clear_ok hO hI).bind (fun _ a => a.2)

theorem sum_none : ∀ {l : List Bk}, (∀ b ∈ l, b = none) → (l.map (bkFoot how)).sum = 0 := by
  intro l
  induction l with
  | nil => intro _; rfl
  | cons x l ih =>
    intro hl
    rw [List.map_cons, List.sum_cons, ih (fun b hb => hl b (List.mem_cons_of_mem _ hb)), hl x List.mem_cons_self]
    rfl

/-- what `reserve` allocates for a table without buckets -/
theorem reserveEmpty_ok {F : Foot} (hI : h.Is F) (t : GTab) (bits : Nat) (place : Nat → Nat) : ∃ V : GV, V.Ptrs (reserveEmpty h t bits).1 ∧
    V.WF c K place (groups (reserveEmpty h t bits).1) ∧ (reserveEmpty h t bits).2.Is (V.foot + F) ∧ (reserveEmpty h t bits).1.lg = bits ∧
    (reserveEmpty h t bits).1.bpg = t.bpg := by
  unfold reserveEmpty groups
  simp only
  generalize 2 ^ bits / t.bpg + 1 = n
  have i1 := hI.alloc .new (.objs (List.replicate (3 * n) none))
  generalize h.alloc .new (.objs (List.replicate (3 * n) none)) = r1 at i1 ⊢
  have i2 := i1.alloc .new (.data (List.replicate n 0))
  generalize r1.2.alloc .new (.data (List.replicate n 0)) = r2 at i2 ⊢
  have an : ∀ b ∈ List.replicate (3 * n) (none : Bk), b = none := fun b hb => (List.mem_replicate.mp hb).2
  refine ⟨⟨r1.1, r2.1, List.replicate (3 * n) none, List.replicate n 0⟩, ⟨rfl, rfl⟩, ⟨by simp, by simp, ?_, ?_⟩, i2.cast ?_, trivial, trivial⟩
  · intro i m hm
    simp only [List.getElem?_replicate] at hm
    split at hm
    · next e =>
      cases hm
      refine ⟨Nat.zero_le _, none, none, none, ?_, ?_, ?_, .none⟩ <;>
        simp only [List.getElem?_replicate, vslot, kslot, bslot] <;> rw [if_pos (by omega)]
    · cases hm
  · intro i b hb
    rw [an b (List.mem_of_getElem? hb)]
    exact .nil
  · rw [GV.foot, arrFoot, sum_none an, List.map_replicate, Option.map_none, add_zero]
    ac_rfl

/-! ## Calls -/

/-- The blocks after a call: those of the table and the others; `L` got lost.  The table has at least `2 ^ low` buckets. -/
def After (c : GCfg) (K : Keys) (low : Nat) (R : Foot) (clean : Prop) (s : GTab × Heap) : Prop :=
  ∃ (W : View) (L : Foot), W.Of c K s.1 ∧ s.2.Is (W.foot + (L + R)) ∧ (clean → W.Clean s.1 ∧ L = 0) ∧ low ≤ s.1.lg

/-- what is needed of `find_or_insert` in `reserve` -/
def InsOK (c : GCfg) (K : Keys) (f : Nat) (ins : Ins) : Prop := ∀ (h : Heap) (t : GTab) (k v : Nat) (R : Foot) (W : View), W.Of c K t →
  h.Is (W.foot + R) → K.key k → Out (Err (K.Deep f t.lg)) (ins h t k v) (After c K t.lg R (W.Clean t))

/-- after some calls on `tmp`, while `t` keeps its arrays -/
def During (c : GCfg) (K : Keys) (low : Nat) (t : GTab) (R : Foot) (clean : Prop) (s : GTab × Heap) : Prop :=
  ∃ (V : GV) (W : View) (L : Foot), V.Ptrs t ∧ V.WF c K (spot c t) (groups t) ∧ W.Of c K s.1 ∧ s.2.Is (V.foot + (W.foot + (L + R))) ∧
    (clean → W.Clean s.1 ∧ L = 0) ∧ low ≤ s.1.lg

variable {f low : Nat}

theorem moveEntries_ok {ins : Ins} (hins : InsOK c K f ins) {clean : Prop} (p : V.Ptrs t) (w : V.WF c K place m) (hn : V.ss[i]? = some n) : ∀ (m : Nat), m ≤ n →
    ∀ (s : GTab × Heap) (W : View) (L : Foot), W.Of c K s.1 → s.2.Is (V.foot + (W.foot + (L + R))) → (clean → W.Clean s.1 ∧ L = 0) → low ≤ s.1.lg →
    Out (Err (K.Deep f low)) (moveEntries ins t i m s) (fun s => ∃ (W : View) (L : Foot), W.Of c K s.1 ∧ s.2.Is (V.foot + (W.foot + (L + R))) ∧
      (clean → W.Clean s.1 ∧ L = 0) ∧ low ≤ s.1.lg) := by
  intro m
  induction m with
  | zero => intro _ s W L h1 h3 h4 h5; exact ⟨W, L, h1, h3, h4, h5⟩
  | succ m ih =>
    intro hm s W L h1 h3 h4 h5
    simp only [moveEntries]
    refine (ih (by omega) s W L h1 h3 h4 h5).bind ?_
    rintro ⟨tmp, h⟩ ⟨W1, L1, a1, a3, a4, a5⟩
    simp only at a1 a3 a4 a5 ⊢
    obtain ⟨v, q, b, s1, s2, s3, bl⟩ := (w.slot i n hn).2
    obtain ⟨a, e1, e2⟩ := data_ok a3 p s3 (bl.bs (by omega))
    have hl := bl.ks.len
    have e3 := read_ok (j := m) a3 p s2 (bl.ks.has (by omega)) (by omega)
    obtain ⟨ys, y1, y2⟩ := bl.vs (by omega)
    have e4 := read_ok (j := m) a3 p s1 y1 (by omega)
    have hk := (w.holds i q s2).key _ (List.getElem_mem (show m < (bkKeys q).length by omega))
    rw [e1, ok_bind, e2, ok_bind, e3, ok_bind, e4, ok_bind]
    refine (err_weaken (hins h tmp _ _ (V.foot + (L1 + R)) W1 a1 (a3.cast (by ac_rfl)) hk) (fun hd => hd.mono a5)).mono ?_
    rintro s' ⟨W2, L2, b1, b3, b4, b5⟩
    refine ⟨W2, L2 + L1, b1, b3.cast (by ac_rfl), fun hc => ?_, Nat.le_trans a5 b5⟩
    obtain ⟨d1, d2⟩ := a4 hc
    obtain ⟨d3, d4⟩ := b4 d1
    exact ⟨d3, by rw [d4, d2]; simp⟩

theorem moveGroup_ok {ins : Ins} (hins : InsOK c K f ins) {clean : Prop} (hi : i < groups t) {s : GTab × Heap} (hs : During c K low t R clean s) :
    Out (Err (K.Deep f low)) (moveGroup ins t s i) (During c K low t R clean) := by
  obtain ⟨V, W, L, p, w, h1, h3, h4, h5⟩ := hs
  obtain ⟨n, hn⟩ := w.size hi
  simp only [moveGroup, size_ok h3 p hn, ok_bind]
  by_cases h0 : n = 0
  · rw [if_pos h0]; exact ⟨V, W, L, p, w, h1, h3, h4, h5⟩
  · rw [if_neg h0]
    refine (moveEntries_ok hins p w hn n (Nat.le_refl _) s W L h1 h3 h4 h5).bind ?_
    rintro ⟨tmp, h⟩ ⟨W1, L1, a1, a3, a4, a5⟩
    obtain ⟨h', V', b1, b2, b3, b4, _⟩ := clearGroup_ok a3 p w hn
    simp only at b1 ⊢
    rw [b1]
    exact ⟨V', W1, L1, b3, b4, a1, b2, a4, a5⟩

/-- `reserve` on a table without buckets: if there are blocks, they are lost -/
theorem reserveEmpty_after {W : View} (hf : Fit K t) (hI : h.Is (W.foot + R)) (h0 : t.lg = 0) {bits : Nat} (hbits : bits ≤ K.top) :
    After c K bits R (W.Clean t ∧ bits ≠ 0) (reserveEmpty h t bits) := by
  obtain ⟨V, p, w, i1, e, e'⟩ := reserveEmpty_ok (c := c) hI t bits (spot c (reserveEmpty h t bits).1)
  refine ⟨some V, W.foot, ⟨p, w, ⟨by rw [e]; exact hbits, by rw [e']; exact hf.pos, by rw [e']; exact hf.word⟩⟩, i1,
    fun ⟨hc, hb⟩ => ⟨by rw [View.Clean, e]; exact hb, ?_⟩, by rw [e]⟩
  cases W with
  | some V => exact absurd h0 hc
  | none => rfl

/-- `reserve` -/
theorem reserveWith_ok (g : K.Limit) {ins : Ins} (hins : t.lg ≠ 0 → InsOK c K f ins) {W : View} (hO : W.Of c K t) (hI : h.Is (W.foot + R)) {n : Nat}
    (hn : K.Room n) (hlow : low = 0 ∨ 2 ^ low ≤ n) (hs : Q → K.sure) (hd : t.lg ≠ 0 → Q → K.Deep f low) :
    Out (Err Q) (reserveWith ins h t n) (fun s => After c K low R (W.Clean t ∧ 2 ≤ n) s ∧
      (t.lg = 0 → 2 ^ s.1.lg < 2 * n ∧ n ≤ 2 ^ s.1.lg ∧ s.1.bpg = t.bpg)) := by
  unfold reserveWith
  refine (safe_out ((reserveBits_tight g hn).weaken hs)).bind (fun bits hbits => ?_)
  have hlb : low ≤ bits := by
    rcases hlow with e | e
    · omega
    · exact (Nat.pow_le_pow_iff_right (by omega)).mp (Nat.le_trans e hbits.2.2.1)
  by_cases h0 : t.lg = 0
  · rw [if_pos h0]
    obtain ⟨W1, L1, a1, a3, a4, a5⟩ := reserveEmpty_after (c := c) hO.fit hI h0 hbits.2.1
    exact ⟨⟨W1, L1, a1, a3, fun ⟨e1, e2⟩ => a4 ⟨e1, hbits.1 e2⟩, Nat.le_trans hlb a5⟩, fun _ => ⟨hbits.2.2.2, hbits.2.2.1, rfl⟩⟩
  · rw [if_neg h0]
    cases W with
    | none => exact absurd hO.2.1 h0
    | some V =>
      obtain ⟨p, w, hf⟩ := hO
      have st := reserveEmpty_after (c := c) (t := { new with bpg := 64 }) (W := none) (R := V.foot + R) (h := h)
        ⟨Nat.zero_le _, by decide, by decide⟩ (hI.cast (by simp [View.foot])) rfl hbits.2.1
      generalize reserveEmpty h { new with bpg := 64 } bits = r at st
      obtain ⟨tmp, h1⟩ := r
      simp only
      have hdu : During c K low t R (2 ≤ n) (tmp, h1) := by
        obtain ⟨W1, L1, a1, a3, a4, a5⟩ := st
        exact ⟨V, W1, L1, p, w, a1, a3.cast (by ac_rfl), fun e2 => a4 ⟨trivial, hbits.1 e2⟩, Nat.le_trans hlb a5⟩
      refine (Out.foldlM (P := During c K low t R (2 ≤ n)) (List.range (groupCount t)) hdu
        (fun s x hx hs => err_weaken (moveGroup_ok (hins h0) ?_ hs) (hd h0))).bind ?_
      · have := groupCount_le t
        rw [List.mem_range] at hx
        omega
      · rintro ⟨tmp2, h2⟩ ⟨V2, W2, L2, p2, w2, b1, b3, b4, b5⟩
        simp only at b1 b3 b4 b5 ⊢
        refine (clearStructure_ok (c := c) (W := some V2) ⟨p2, w2, hf⟩ b3).bind ?_
        rintro ⟨t3, h3⟩ ⟨e3, i3⟩
        simp only at e3
        subst e3
        simp only [swap, ok_bind]
        refine (destroy_ok (c := c) (W := none) (t := cleared t) (R := W2.foot + (L2 + R)) (cleared_of c hf) (i3.cast (by simp [View.foot]))).bind (fun h4 i4 => ?_)
        exact ⟨⟨W2, L2, b1, i4, fun ⟨_, e⟩ => b4 e, b5⟩, fun e => absurd e h0⟩

theorem insertCore_ok {s : Nat} {b : Bk} (hI : h.Is (V.foot + R)) (p : V.Ptrs t) (hb : V.ks[s]? = some b) (hn : Has xs b) (w x : Nat) :
    ∃ h' y, insertCore c h t s w xs.length x = .ok h' ∧ h'.Is (({ V with ks := V.ks.set s y } : GV).foot + R) ∧ Has (xs ++ [x]) y := by
  unfold insertCore
  split
  · obtain ⟨h1, y, a1, a2, a3⟩ := resizeStep hI p hb hn
    obtain ⟨h2, z, b1, b2, b3⟩ := appendStep (t := t) (s := s) (b := y) a2 ⟨p.groups, p.sizes⟩ (List.getElem?_set_self (lt_of_get hb)) a3 x
    exact ⟨h2, z, by rw [a1, ok_bind, b1], b2.cast (by simp only [List.set_set]), b3⟩
  · exact appendStep hI p hb hn x

/-- after `initialize`, or when the group has entries -/
def Ready (xs : List Nat) (V : GV) (i : Nat) : Prop :=
  ∃ v k b, V.ks[vslot i]? = some v ∧ V.ks[kslot i]? = some k ∧ V.ks[bslot i]? = some b ∧ HasN xs.length v ∧ Has xs k ∧ Has [] b

theorem initGroup_ok (hI : h.Is (V.foot + R)) (p : V.Ptrs t) (hn : V.ss[i]? = some 0) (hat : V.At i 0) :
    ∃ h' V', initGroup h t i = .ok h' ∧ h'.Is (GV.foot V' + R) ∧ GV.Ptrs V' t ∧ Frame V V' i ∧ V'.ss = V.ss ∧ Ready [] V' i := by
  obtain ⟨v, k, b, s1, s2, s3, bl⟩ := hat
  obtain ⟨rfl, rfl, rfl⟩ := bl.zero rfl
  obtain ⟨n1, n2, n3⟩ := slots i
  obtain ⟨h1, x, a1, a2, a3⟩ := initStep hI p s2
  obtain ⟨h2, y, b1, b2, b3⟩ := initStep (t := t) (s := vslot i) a2 ⟨p.groups, p.sizes⟩ (by rw [List.getElem?_set_ne n1.symm]; exact s1)
  obtain ⟨h3, c1, c2⟩ := sizeStep (t := t) (i := i) b2 ⟨p.groups, p.sizes⟩ (lt_of_get hn) 0
  obtain ⟨h4, z, d1, d2, d3⟩ := initStep (t := t) (s := bslot i) c2 ⟨p.groups, p.sizes⟩
    (by simp only; rw [List.getElem?_set_ne n2, List.getElem?_set_ne n3]; exact s3)
  have l1 := lt_of_get s1
  have l2 := lt_of_get s2
  have l3 := lt_of_get s3
  refine ⟨h4, _, by simp only [initGroup, a1, ok_bind, b1, c1, d1], d2, ⟨p.groups, p.sizes⟩,
    ((((Frame.refl V i).set x (.inr (.inl rfl))).set y (.inl rfl)).size _).set z (.inr (.inr rfl)), set_get hn, y, x, z, ?_, ?_, ?_, ⟨_, b3, rfl⟩, a3, d3⟩
  · simp only
    rw [List.getElem?_set_ne n2.symm, List.getElem?_set_self (by simpa using l1)]
  · simp only
    rw [List.getElem?_set_ne n3.symm, List.getElem?_set_ne n1, List.getElem?_set_self l2]
  · exact List.getElem?_set_self (by simpa using l3)

/-- `push_back` -/
theorem push_ok (hI : h.Is (V.foot + R)) (p : V.Ptrs t) (hi : i < V.ss.length) (hr : Ready xs V i) (hn : xs.length < 255) (k v : Nat) :
    ∃ h' V', push c h t i xs.length k v = .ok h' ∧ h'.Is (GV.foot V' + R) ∧ GV.Ptrs V' t ∧ Frame V V' i ∧ V'.ss = V.ss.set i (xs.length + 1) ∧
      Ready (xs ++ [k]) V' i := by
  obtain ⟨bv, bk, bb, s1, s2, s3, r1, r2, r3⟩ := hr
  obtain ⟨n1, n2, n3⟩ := slots i
  have l1 := lt_of_get s1
  have l2 := lt_of_get s2
  have l3 := lt_of_get s3
  have e1 : (xs.length + 1) % 2 ^ 32 = xs.length + 1 := by omega
  obtain ⟨a, x1, x2⟩ := data_ok hI p s3 r3
  obtain ⟨ys, y1, y2⟩ := r1
  obtain ⟨h1, x, a1, a2, a3⟩ := insertCore_ok (c := c) hI p s2 r2 (c.width t.lg) k
  obtain ⟨h2, y, b1, b2, b3⟩ := insertCore_ok (c := c) (t := t) (s := vslot i) (b := bv) a2 ⟨p.groups, p.sizes⟩
    (by rw [List.getElem?_set_ne n1.symm]; exact s1) y1 c.vw v
  rw [y2] at b1
  have b4 : HasN (xs ++ [k]).length y := ⟨_, b3, by simp [y2]⟩
  obtain ⟨h3, c1, c2⟩ := sizeStep (t := t) (i := i) b2 ⟨p.groups, p.sizes⟩ hi (xs.length + 1)
  have g3 : ((V.ks.set (kslot i) x).set (vslot i) y)[bslot i]? = some bb := by
    rw [List.getElem?_set_ne n2, List.getElem?_set_ne n3]; exact s3
  have g2 : ((V.ks.set (kslot i) x).set (vslot i) y)[kslot i]? = some x := by
    rw [List.getElem?_set_ne n1, List.getElem?_set_self l2]
  have g1 : ((V.ks.set (kslot i) x).set (vslot i) y)[vslot i]? = some y := List.getElem?_set_self (by simpa using l1)
  have fr := (((Frame.refl V i).set x (.inr (.inl rfl))).set y (.inl rfl)).size (V.ss.set i (xs.length + 1))
  unfold push
  simp only [x1, ok_bind, x2, a1, b1, e1, c1]
  split
  · obtain ⟨h4, z, d1, d2, d3⟩ := resizeStep (t := t) (s := bslot i) c2 ⟨p.groups, p.sizes⟩ g3 r3
    refine ⟨h4, _, d1, d2, ⟨p.groups, p.sizes⟩, fr.set z (.inr (.inr rfl)), rfl, y, x, z, ?_, ?_, ?_, b4, a3, d3⟩
    · simp only; rw [List.getElem?_set_ne n2.symm]; exact g1
    · simp only; rw [List.getElem?_set_ne n3.symm]; exact g2
    · exact List.getElem?_set_self (by simpa using l3)
  · exact ⟨h3, _, rfl, c2, ⟨p.groups, p.sizes⟩, fr, rfl, y, x, bb, g1, g2, g3, b4, a3, r3⟩

theorem group_lt (g : c.Good K) (hf : Fit K t) {k : Nat} (hk : K.key k) : spot c t k < groups t := by
  have := Nat.div_le_div_right (c := t.bpg) (Nat.le_of_lt (g.hash_lt t.lg k hf.le hk))
  unfold groups spot
  omega

/-- a group that is full: the number of buckets can still be doubled -/
theorem full_lt (g : c.Good K) (hf : Fit K t) (w : V.WF c K (spot c t) m) {k : Nat} (hn : V.ss[i]? = some n) (hm : n = c.maxSize) (hk : K.key k) (hp : spot c t k = i)
    {b : Bk} (hb : V.ks[kslot i]? = some b) (hnew : k ∉ bkKeys b) (hs : K.sure) : t.lg < K.top := by
  obtain ⟨_, _, b', _, _, h1, _, bl⟩ := w.slot i n hn
  cases hb.symm.trans h1
  have hle := hf.le
  by_cases e : t.lg = K.top
  · have := g.spread hs t.bpg hf.pos hf.word
    rw [← e] at this
    exact absurd this ((w.holds i b hb).full hs hk hp hnew (bl.ks.len.trans hm))
  · omega

/-- `find_or_insert` -/
theorem insert_ok (g : c.Good K) : ∀ f, InsOK c K f (insert c f) := by
  intro f
  induction f with
  | zero => intro h t k v R W _ _ _; exact ⟨fun hd => absurd hd.2.1 (Nat.lt_irrefl 0), .inl rfl⟩
  | succ f ih =>
    intro h t k v R W hO hI hk
    simp only [insert]
    have first : Out (Err (K.Deep (f + 1) t.lg)) (if t.lg = 0 then do
        let bits ← reserveBits (min (c.kw - 1) 8)
        return reserveEmpty h t bits
      else return (t, h) : Res (GTab × Heap))
      (fun s => ∃ (V : GV) (L : Foot), V.Ptrs s.1 ∧ V.WF c K (spot c s.1) (groups s.1) ∧ Fit K s.1 ∧ s.2.Is (V.foot + (L + R)) ∧ s.1.lg ≠ 0 ∧
        (W.Clean t → L = 0) ∧ t.lg ≤ s.1.lg) := by
      by_cases h0 : t.lg = 0
      · rw [if_pos h0]
        have h3 := g.kw
        have hroom : K.Room (min (c.kw - 1) 8) := by
          have : min (c.kw - 1) 8 ≤ 8 := Nat.min_le_right _ _
          exact ⟨by omega, fun hs => ⟨by omega, g.first hs⟩⟩
        refine (safe_out ((reserveBits_safe g.limit hroom).weaken (fun hd => hd.1))).bind (fun bits hbits => ?_)
        obtain ⟨V, p, w, i1, e, e'⟩ := reserveEmpty_ok (c := c) hI t bits (spot c (reserveEmpty h t bits).1)
        have hf := hO.fit
        refine ⟨V, W.foot, p, w, ⟨by rw [e]; exact hbits.2.1, by rw [e']; exact hf.pos, by rw [e']; exact hf.word⟩, i1,
          by rw [e]; exact hbits.1 (by omega), fun hc => ?_, by omega⟩
        cases W with
        | some V => exact absurd h0 hc
        | none => rfl
      · rw [if_neg h0]
        cases W with
        | none => exact absurd hO.2.1 h0
        | some V => exact ⟨V, 0, hO.1, hO.2.1, hO.2.2, hI.cast (by simp [View.foot]), h0, fun _ => rfl, Nat.le_refl _⟩
    refine first.bind ?_
    rintro ⟨t1, h1⟩ ⟨V, L, p, w, hf, i1, hlg, hcl, hle⟩
    simp only at p w hf i1 hlg hcl hle ⊢
    have hlt := group_lt g hf hk
    have hp : spot c t1 k = c.hash t1.lg k / t1.bpg := rfl
    rw [← hp]
    clear hp
    generalize hp : spot c t1 k = i at hlt ⊢
    obtain ⟨n, hn⟩ := w.size hlt
    obtain ⟨hmax, hat⟩ := w.slot i n hn
    obtain ⟨r, bk, r1, hbk, _, r3⟩ := findGroup_ok i1 p hat k
    rw [size_ok i1 p hn, ok_bind, r1, ok_bind]
    cases r with
    | some j => exact ⟨some V, L, ⟨p, w, hf⟩, i1, fun e => ⟨hlg, hcl e⟩, hle⟩
    | none =>
      simp only
      by_cases hm : n = c.maxSize
      · rw [if_pos hm]
        have hlt := full_lt g hf w hn hm hk hp hbk (r3 rfl)
        refine (safe_out ((shl64_safe g.limit hlt).weaken (fun hd => hd.1))).bind (fun m hm => ?_)
        have deep : K.Deep (f + 1) t.lg → K.Deep f (t1.lg + 1) := fun hd => (hd.mono hle).step (hlt hd.1) (Nat.le_refl _)
        refine (reserveWith_ok g.limit (fun _ => ih) (low := t1.lg + 1) (W := some V) ⟨p, w, hf⟩ i1 hm.1 (.inr (by rw [hm.2])) (fun hd => hd.1) (fun _ => deep)).bind ?_
        rintro ⟨t2, h2⟩ ⟨⟨W2, L2, a1, a3, a4, a5⟩, _⟩
        refine (err_weaken (ih h2 t2 k v (L2 + (L + R)) W2 a1 a3 hk) (fun hd => (deep hd).mono a5)).mono ?_
        rintro s ⟨W3, L3, b1, b3, b4, b5⟩
        simp only at a5 b5
        refine ⟨W3, L3 + L2 + L, b1, b3.cast (by ac_rfl), fun hc => ?_, by omega⟩
        obtain ⟨d3, d4⟩ := a4 ⟨hlg, by
          rw [hm.2, Nat.pow_succ]
          have := Nat.one_le_two_pow (n := t1.lg)
          omega⟩
        obtain ⟨d5, d6⟩ := b4 d3
        exact ⟨d5, by rw [hcl hc, d4, d6]; simp⟩
      · rw [if_neg hm]
        have hlt2 : n < 255 := by have := g.max; omega
        have ready : ∃ h2 V2, (do
            if (← h1.obj t1.groups (bslot i)) = none then initGroup h1 t1 i else return h1 : Res Heap) = .ok h2 ∧ h2.Is (GV.foot V2 + (L + R)) ∧
            GV.Ptrs V2 t1 ∧ Frame V V2 i ∧ V2.ss = V.ss ∧ Ready (bkKeys bk) V2 i ∧ (bkKeys bk).length = n := by
          obtain ⟨bv, bk', bb, s1, s2, s3, bl⟩ := hat
          cases hbk.symm.trans s2
          by_cases h0 : n = 0
          · subst h0
            have hat : V.At i 0 := ⟨bv, bk, bb, s1, s2, s3, bl⟩
            obtain ⟨rfl, rfl, rfl⟩ := bl.zero rfl
            obtain ⟨h2, V2, a1, a2, a3, a4, a5, a6⟩ := initGroup_ok i1 p hn hat
            refine ⟨h2, V2, ?_, a2, a3, a4, a5, a6, rfl⟩
            rw [obj_ok i1 p s3, ok_bind, Option.map_none, if_pos rfl, a1]
          · obtain ⟨a, x1, _⟩ := data_ok i1 p s3 (bl.bs h0)
            refine ⟨h1, V, ?_, i1, p, Frame.refl V i, rfl, ⟨bv, bk, bb, s1, s2, s3, by rw [bl.ks.len]; exact bl.vs h0, bl.ks.has h0, bl.bs h0⟩, bl.ks.len⟩
            rw [x1, ok_bind, if_neg (Option.some_ne_none _)]
            rfl
        obtain ⟨h2, V2, a1, a2, a3, a4, a5, a6, a7⟩ := ready
        obtain ⟨h3, V3, b1, b2, b3, b4, b5, v', k', b', q1, q2, q3, q4, q5, q6⟩ :=
          push_ok (c := c) a2 a3 (by rw [a5]; exact lt_of_get hn) a6 (by omega) k v
        rw [a7] at b1
        have fr : Frame V V3 i := ⟨b4.1.trans a4.1, fun s e1 e2 e3 => (b4.2 s e1 e2 e3).trans (a4.2 s e1 e2 e3)⟩
        have hl : (bkKeys bk ++ [k]).length = n + 1 := by simp [a7]
        have hbl : Blocks (bkKeys bk ++ [k]).length v' k' b' := .of (by simp) q4 q5 q6
        rw [hl] at hbl
        refine Out.of_ok ⟨({ t1 with elems := t1.elems + 1 }, h3), ?_, some V3, L, ⟨⟨b3.groups, b3.sizes⟩, ?_, ⟨hf.le, hf.pos, hf.word⟩⟩, b2,
          fun e => ⟨hlg, hcl e⟩, hle⟩
        · rw [← bind_assoc, a1, ok_bind, b1, ok_bind]
          rfl
        · exact w.upd fr (by rw [b5, a5, a7]) (show n + 1 ≤ c.maxSize by omega) ⟨v', k', b', q1, q2, q3, hbl⟩
            (holds_has q2 q5 ((w.holds i bk hbk).snoc hk hp (r3 rfl)))

/-- `find(key)` -/
theorem find_safe (g : c.Good K) {W : View} (hO : W.Of c K t) (hI : h.Is (W.foot + R)) {k : Nat} (hk : K.key k) : ∃ r, find c h t k = .ok r := by
  unfold find
  by_cases h0 : t.lg = 0
  · exact ⟨_, by rw [if_pos h0]⟩
  · rw [if_neg h0]
    cases W with
    | none => exact absurd hO.2.1 h0
    | some V =>
      have hlt := group_lt g hO.2.2 hk
      unfold spot at hlt
      generalize c.hash t.lg k / t.bpg = i at hlt ⊢
      obtain ⟨n, hn⟩ := hO.2.1.size hlt
      obtain ⟨r, _, r1, _⟩ := findGroup_ok hI hO.1 (hO.2.1.slot i n hn).2 k
      exact ⟨r, by simp only [size_ok hI hO.1 hn, ok_bind, r1]⟩

/-- `erase(key)` -/
theorem erase_ok (g : c.Good K) {W : View} (hO : W.Of c K t) (hI : h.Is (W.foot + R)) {k : Nat} (hk : K.key k) :
    Out (Err Q) (erase c h t k) (After c K 0 R (W.Clean t)) := by
  unfold erase
  by_cases h0 : t.lg = 0
  · rw [if_pos h0]; exact ⟨W, 0, hO, hI.cast (by simp), fun e => ⟨e, rfl⟩, Nat.zero_le _⟩
  · rw [if_neg h0]
    cases W with
    | none => exact absurd hO.2.1 h0
    | some V =>
      obtain ⟨p, w, hf⟩ := hO
      have hlt := group_lt g hf hk
      unfold spot at hlt
      generalize c.hash t.lg k / t.bpg = i at hlt ⊢
      obtain ⟨n, hn⟩ := w.size hlt
      obtain ⟨hmax, hat⟩ := w.slot i n hn
      obtain ⟨r, bk, r1, s2, r2, _⟩ := findGroup_ok hI p hat k
      simp only [size_ok hI p hn, ok_bind, r1]
      cases r with
      | none => exact ⟨some V, 0, ⟨p, w, hf⟩, hI.cast (by simp [View.foot]), fun e => ⟨e, rfl⟩, Nat.zero_le _⟩
      | some j =>
        have hj := r2 j rfl
        have hmax2 := g.max
        obtain ⟨bv, bk', bb, s1, s2', s3, bl⟩ := hat
        cases s2.symm.trans s2'
        obtain ⟨ys, r1, y1⟩ := bl.vs (by omega)
        have r2 := bl.ks.has (by omega)
        have r3 := bl.bs (by omega)
        have hlen := bl.ks.len
        have hx := (w.holds i bk s2).eraseIdx j
        have hel : ((bkKeys bk).eraseIdx j).length + 1 = n := by
          rw [List.length_eraseIdx, if_pos (by omega)]
          omega
        have hyl : (ys.eraseIdx j).length = ((bkKeys bk).eraseIdx j).length := by
          rw [List.length_eraseIdx, List.length_eraseIdx, if_pos (by omega), if_pos (by omega)]
          omega
        obtain ⟨n1, n2, n3⟩ := slots i
        have l1 := lt_of_get s1
        have l2 := lt_of_get s2
        have l3 := lt_of_get s3
        obtain ⟨h1, x, a1, a2, a3⟩ := eraseStep hI p s2 r2 (show j < (bkKeys bk).length by omega)
        obtain ⟨h2, y, b1, b2, b3⟩ := eraseStep (t := t) (s := vslot i) (b := bv) a2 ⟨p.groups, p.sizes⟩ (by rw [List.getElem?_set_ne n1.symm]; exact s1) r1
          (show j < ys.length by omega)
        have b4 : HasN ((bkKeys bk).eraseIdx j).length y := ⟨_, b3, hyl⟩
        generalize (bkKeys bk).eraseIdx j = xs at hx hel a3 b4
        clear hyl
        obtain ⟨m, hm⟩ : ∃ m, xs.length = m := ⟨_, rfl⟩
        rw [hm] at hel
        subst hel
        have e1 : (m + 1 + (2 ^ 32 - 1)) % 2 ^ 32 = m := by omega
        simp only [e1]
        obtain ⟨h3, c1, c2⟩ := sizeStep (t := t) (i := i) b2 ⟨p.groups, p.sizes⟩ (lt_of_get hn) m
        have g3 : ((V.ks.set (kslot i) x).set (vslot i) y)[bslot i]? = some bb := by
          rw [List.getElem?_set_ne n2, List.getElem?_set_ne n3]; exact s3
        have g2 : ((V.ks.set (kslot i) x).set (vslot i) y)[kslot i]? = some x := by
          rw [List.getElem?_set_ne n1, List.getElem?_set_self l2]
        have g1 : ((V.ks.set (kslot i) x).set (vslot i) y)[vslot i]? = some y := List.getElem?_set_self (by simpa using l1)
        have fr := (((Frame.refl V i).set x (.inr (.inl rfl))).set y (.inl rfl)).size (V.ss.set i m)
        have shrink : ∃ h4 V4, (if ceilDiv (m + 1 + t.bpg) c.sb < ceilDiv (m + 1 + 1 + t.bpg) c.sb then h3.resizeBucket .malloc t.groups (bslot i)
            else pure h3 : Res Heap) = .ok h4 ∧ h4.Is (GV.foot V4 + R) ∧ GV.Ptrs V4 t ∧ Frame V V4 i ∧ V4.ss = V.ss.set i m ∧ Ready xs V4 i := by
          split
          · obtain ⟨h4, z, d1, d2, d3⟩ := resizeStep (t := t) (s := bslot i) c2 ⟨p.groups, p.sizes⟩ g3 r3
            refine ⟨h4, _, d1, d2, ⟨p.groups, p.sizes⟩, fr.set z (.inr (.inr rfl)), rfl, y, x, z, ?_, ?_, ?_, b4, a3, d3⟩
            · simp only; rw [List.getElem?_set_ne n2.symm]; exact g1
            · simp only; rw [List.getElem?_set_ne n3.symm]; exact g2
            · exact List.getElem?_set_self (by simpa using l3)
          · exact ⟨h3, _, rfl, c2, ⟨p.groups, p.sizes⟩, fr, rfl, y, x, bb, g1, g2, g3, b4, a3, r3⟩
        obtain ⟨h4, V4, d1, d2, d3, d4, d5, v', k', b', q1, q2, q3, q4, q5, q6⟩ := shrink
        rw [a1, ok_bind, b1, ok_bind, c1, ok_bind, d1, ok_bind]
        by_cases hm0 : m = 0
        · rw [if_pos hm0]
          subst hm0
          obtain ⟨h5, V5, f1, f2, f3, f4, f5, f6, f7, f8⟩ := clearSlots (i := i) d2 d3 (by rw [d5, List.length_set]; exact lt_of_get hn) q1 q2 q3
          rw [f1, ok_bind]
          have fr5 : Frame V V5 i := ⟨f4.1.trans d4.1, fun s e1 e2 e3 => (f4.2 s e1 e2 e3).trans (d4.2 s e1 e2 e3)⟩
          refine ⟨some V5, 0, ⟨⟨f3.groups, f3.sizes⟩, ?_, ⟨hf.le, hf.pos, hf.word⟩⟩, f2.cast (by simp [View.foot]), fun e => ⟨e, rfl⟩, Nat.zero_le _⟩
          exact w.upd (n := 0) fr5 (by rw [f5, d5, List.set_set]) (Nat.zero_le _) ⟨_, _, _, f6, f7, f8, .none⟩ (holds_none f7)
        · rw [if_neg hm0]
          have hbl : Blocks xs.length v' k' b' := .of (by omega) q4 q5 q6
          rw [hm] at hbl
          refine ⟨some V4, 0, ⟨⟨d3.groups, d3.sizes⟩, ?_, ⟨hf.le, hf.pos, hf.word⟩⟩, d2.cast (by simp [View.foot]), fun e => ⟨e, rfl⟩, Nat.zero_le _⟩
          exact w.upd d4 d5 (by omega) ⟨v', k', b', q1, q2, q3, hbl⟩ (holds_has q2 q5 hx)

/-- the groups in a stream that `serialize` has written -/
structure Image (c : GCfg) (K : Keys) (bits bpg : Nat) (gs : List (List (Nat × Nat))) : Prop where
  max : ∀ xs ∈ gs, xs.length ≤ c.maxSize
  le : K.sure → bits ≤ K.top
  pos : 0 < bpg
  word : bpg ≤ 64
  holds : ∀ (i : Nat) (xs : List (Nat × Nat)), gs[i]? = some xs → Holds K (fun k => c.hash bits k / bpg) i (xs.map Prod.fst)

theorem image_any {bits bpg : Nat} {gs : List (List (Nat × Nat))} : Image c .any bits bpg gs ↔ (∀ xs ∈ gs, xs.length ≤ c.maxSize) ∧ 0 < bpg ∧ bpg ≤ 64 :=
  ⟨fun h => ⟨h.max, h.pos, h.word⟩, fun h => ⟨h.1, False.elim, h.2.1, h.2.2, fun _ _ _ => ⟨fun _ _ => trivial, False.elim, False.elim⟩⟩⟩

/-- one group is read back -/
theorem loadGroup_ok {gs : List (List (Nat × Nat))} (hgs : ∀ xs ∈ gs, xs.length ≤ c.maxSize)
    (hh : ∀ (i : Nat) (xs : List (Nat × Nat)), gs[i]? = some xs → Holds K (spot c t) i (xs.map Prod.fst)) (hL : Live c K t R h) (hi : i < groups t) :
    Out E (loadGroup t gs h i) (Live c K t R) := by
  obtain ⟨V, p, w, hI⟩ := hL
  obtain ⟨n, hn⟩ := w.size hi
  obtain ⟨h1, V1, a1, a2, a3, a4, a5, a6, a7, a8⟩ := clearGroup_ok hI p w hn
  have hx : (gs.getD i []).length ≤ c.maxSize := by
    rw [List.getD_eq_getElem?_getD]
    cases e : gs[i]? with
    | none => exact Nat.zero_le _
    | some xs => exact hgs xs (List.mem_of_getElem? e)
  have hx' : Holds K (spot c t) i ((gs.getD i []).map Prod.fst) := by
    rw [List.getD_eq_getElem?_getD]
    cases e : gs[i]? with
    | none => exact .nil
    | some xs => exact hh i xs e
  obtain ⟨n1, n2, n3⟩ := slots i
  have l1 := lt_of_get a6
  have l2 := lt_of_get a7
  have l3 := lt_of_get a8
  unfold loadGroup
  simp only [a1, ok_bind]
  generalize gs.getD i [] = xs at hx hx' ⊢
  obtain ⟨h2, b1, b2⟩ := sizeStep (t := t) (i := i) a2 a3 (by rw [a5, List.length_set]; exact lt_of_get hn) xs.length
  rw [b1, ok_bind]
  by_cases h0 : xs.length = 0
  · rw [if_pos h0]
    refine ⟨{ V1 with ss := V1.ss.set i xs.length }, ⟨a3.groups, a3.sizes⟩, ?_, b2⟩
    exact a4.upd (n := xs.length) ((Frame.refl V1 i).size _) rfl hx ⟨_, _, _, a6, a7, a8, by rw [h0]; exact .none⟩ (holds_none a7)
  · rw [if_neg h0]
    obtain ⟨h3, z, c1, c2, c3⟩ := newStep (t := t) (s := bslot i) b2 ⟨a3.groups, a3.sizes⟩ a8 []
    obtain ⟨h4, x, d1, d2, d3⟩ := newStep (t := t) (s := kslot i) c2 ⟨a3.groups, a3.sizes⟩ (by simp only; rw [List.getElem?_set_ne n3.symm]; exact a7)
      (xs.map Prod.fst)
    obtain ⟨h5, y, e1, e2, e3⟩ := newStep (t := t) (s := vslot i) d2 ⟨a3.groups, a3.sizes⟩
      (by simp only; rw [List.getElem?_set_ne n1.symm, List.getElem?_set_ne n2.symm]; exact a6) (xs.map Prod.snd)
    rw [c1, ok_bind, d1, ok_bind, e1]
    have hbl : Blocks (xs.map Prod.fst).length y x z := .of (by rw [List.length_map]; exact h0) ⟨_, e3, by simp⟩ d3 c3
    rw [List.length_map] at hbl
    have gx : (((V1.ks.set (bslot i) z).set (kslot i) x).set (vslot i) y)[kslot i]? = some x := by
      rw [List.getElem?_set_ne n1, List.getElem?_set_self (by simpa using l2)]
    refine ⟨{ V1 with ss := V1.ss.set i xs.length, ks := ((V1.ks.set (bslot i) z).set (kslot i) x).set (vslot i) y }, ⟨a3.groups, a3.sizes⟩, ?_, e2⟩
    refine a4.upd (i := i) (n := xs.length) (((((Frame.refl V1 i).size _).set z (.inr (.inr rfl))).set x (.inr (.inl rfl))).set y (.inl rfl)) rfl hx
      ⟨y, x, z, ?_, gx, ?_, hbl⟩ (holds_has gx d3 hx')
    · exact List.getElem?_set_self (by simpa using l1)
    · simp only; rw [List.getElem?_set_ne n2, List.getElem?_set_ne n3, List.getElem?_set_self l3]

/-- `deserialize` -/
theorem load_ok (g : K.Limit) {W : View} (hO : W.Of c K t) (hI : h.Is (W.foot + R)) {bits bpg : Nat} {gs : List (List (Nat × Nat))}
    (hg : Image c K bits bpg gs) : Out (Err K.sure) (load h t bits bpg gs) (After c K 0 R (bits ≠ 0)) := by
  unfold load
  refine (clear_ok hO hI).bind ?_
  rintro ⟨t1, h1⟩ ⟨e1, i1⟩
  simp only at e1 i1
  subst e1
  simp only
  have hf : Fit K { cleared t with elems := (gs.map List.length).sum, bpg := bpg } := ⟨Nat.zero_le _, hg.pos, hg.word⟩
  split
  · exact ⟨none, 0, ⟨rfl, rfl, hf⟩, i1.cast (by simp [View.foot]), fun _ => ⟨trivial, rfl⟩, Nat.zero_le _⟩
  · refine (safe_out (shl_safe g hg.le)).bind (fun m hm => ?_)
    refine (reserveWith_ok (c := c) (W := none) (R := R) (f := 0) (low := 0) g (fun e => absurd rfl e) ⟨rfl, rfl, hf⟩ (i1.cast (by simp [View.foot])) hm.1 (.inl rfl) id
      (fun e => absurd rfl e)).bind ?_
    rintro ⟨t2, h2⟩ ⟨⟨W2, L2, a1, a3, a4, _⟩, a5⟩
    obtain ⟨c1, c2, c3⟩ := a5 rfl
    simp only at a1 a3 a4 c1 c2 c3 ⊢
    have lg : t2.lg = bits := by
      rw [hm.2] at c1 c2
      have h1 := (Nat.pow_le_pow_iff_right (a := 2) (by omega)).mp c2
      rw [← Nat.pow_succ'] at c1
      have h2 := (Nat.pow_lt_pow_iff_right (a := 2) (by omega)).mp c1
      omega
    have hh : ∀ (i : Nat) (xs : List (Nat × Nat)), gs[i]? = some xs → Holds K (spot c t2) i (xs.map Prod.fst) := by
      intro i xs hi
      have := hg.holds i xs hi
      unfold spot
      rw [lg, c3]
      exact this
    have clean : bits ≠ 0 → W2.Clean t2 ∧ L2 = 0 := fun hb => a4 ⟨trivial, by
      obtain ⟨b, rfl⟩ : ∃ b, bits = b + 1 := ⟨bits - 1, by omega⟩
      rw [hm.2, Nat.pow_succ]
      have := Nat.one_le_two_pow (n := b)
      omega⟩
    cases W2 with
    | none =>
      rw [show groupCount t2 = 0 by unfold groupCount; rw [if_pos a1.1]]
      exact ⟨none, L2, a1, a3, clean, Nat.zero_le _⟩
    | some V =>
      refine (Out.foldlM (P := Live c K t2 (L2 + R)) (List.range (groupCount t2)) ⟨V, a1.1, a1.2.1, a3⟩ (fun s x hx hs => loadGroup_ok hg.max hh hs ?_)).bind ?_
      · have := groupCount_le t2
        rw [List.mem_range] at hx
        omega
      · rintro h' ⟨V', p, w, hI'⟩
        exact ⟨some V', L2, ⟨p, w, a1.2.2⟩, hI', clean, Nat.zero_le _⟩

/-- the program uses its keys, `reserve` takes a 64 bit number, and the stream holds groups as they were written -/
def Op.Valid (c : GCfg) (K : Keys) : Op → Prop
  | .insert k _ => K.key k
  | .find k => K.key k
  | .erase k => K.key k
  | .reserve n => K.Room n
  | .load bits bpg gs => Image c K bits bpg gs
  | .clear => True

/-- calls that lose no memory -/
def Op.Keeps : Op → Prop
  | .reserve n => 2 ≤ n
  | .load bits _ _ => bits ≠ 0
  | _ => True

/-- the class respects ownership; tables that were moved from can be used -/
def laws (g : c.Good K) (f : Nat) : TabLaws (cls c) f (Err (K.Deep f 0)) (fun _ => False) true (Op.Valid c K) Op.Keeps where
  View := View
  foot := View.foot
  Of W t := W.Of c K t
  Usable _ _ := True
  Clean W t := W.Clean t
  new := ⟨none, ⟨rfl, rfl, ⟨Nat.zero_le _, show 0 < 3 by decide, show 3 ≤ 64 by decide⟩⟩, trivial, trivial, rfl⟩
  call h t op W R hO _ hI hv := by
    have conv : ∀ {clean : Prop} {low : Nat} {s : GTab × Heap}, After c K low R clean s → (W.Clean t → Op.Keeps op → clean) →
        ∃ W' L, View.Of c K s.1 W' ∧ True ∧ s.2.Is (View.foot W' + (L + R)) ∧ (W.Clean t → Op.Keeps op → View.Clean s.1 W' ∧ L = 0) :=
      fun ⟨W', L, a1, a3, a4, _⟩ hc => ⟨W', L, a1, trivial, a3, fun e1 e2 => a4 (hc e1 e2)⟩
    cases op with
    | insert k v => exact (err_weaken (insert_ok g f h t k v R W hO hI hv) (fun hd => hd.mono (Nat.zero_le _))).mono (fun s a => conv a (fun e _ => e))
    | find k =>
      obtain ⟨r, hr⟩ := find_safe g hO hI hv
      simp only [cls, call, hr, ok_bind]
      exact ⟨W, 0, hO, trivial, hI.cast (by simp), fun e _ => ⟨e, rfl⟩⟩
    | erase k => exact (erase_ok g hO hI hv).mono (fun s a => conv a (fun e _ => e))
    | clear =>
      refine (clear_ok hO hI).mono (fun s a => ?_)
      rw [a.1]
      exact ⟨none, 0, cleared_of c hO.fit, trivial, a.2.cast (by simp [View.foot]), fun _ _ => ⟨trivial, rfl⟩⟩
    | reserve n => exact (reserveWith_ok g.limit (fun _ => insert_ok g f) hO hI hv (.inl rfl) (fun hd => hd.1) (fun _ => id)).mono (fun s a => conv a.1 (fun e1 e2 => ⟨e1, e2⟩))
    | load bits bpg gs => exact (err_weaken (load_ok g.limit hO hI hv) (fun hd => hd.1)).mono (fun s a => conv a (fun _ e2 => e2))
  swap h a b := rfl
  moveAssign h t o W W' R hO hO' hI := by
    refine (clear_ok hO hI).bind ?_
    rintro ⟨t1, h1⟩ ⟨e1, i1⟩
    simp only at e1 i1
    subst e1
    refine ⟨W', none, hO', cleared_of c hO.fit, i1.cast (by simp [View.foot]), fun _ => trivial, fun _ => trivial, fun _ e => ⟨e, trivial⟩⟩
  selfMove h t W R hO hI := (clear_ok hO hI).mono (fun s a => by
    rw [a.1]
    exact ⟨none, cleared_of c hO.fit, a.2.cast (by simp [View.foot]), fun _ => trivial, fun _ => trivial⟩)
  destroy h t W R hO hI := destroy_ok hO hI
  sub e h := h.elim

end SC.Own.Grp
