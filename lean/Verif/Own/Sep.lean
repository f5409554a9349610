import Mathlib.Algebra.Order.Group.Multiset
import Mathlib.Data.Multiset.MapFold
import Verif.Own.Heap
/-!
# Reasoning about the heap

`h.Is F`: the blocks of the heap are exactly those in `F`.  Every function changes its part of `F` and leaves the rest `R` alone.
-/
namespace SC.Own

/-- a set of blocks with their addresses -/
abbrev Foot := Multiset (Nat × Blk)

/-- the blocks of the heap are exactly those in `F` -/
structure Heap.Is (h : Heap) (F : Foot) : Prop where
  nodup : (F.map Prod.fst).Nodup
  mem : ∀ a b, h.mem a = some b ↔ (a, b) ∈ F
  lt : ∀ x ∈ F, x.1 < h.next

/-- one block -/
def pt (a : Nat) (how : Alloc) (x : Cell) : Foot := {(a, ⟨how, x⟩)}

variable {h : Heap} {F R : Foot} {a i j : Nat} {how : Alloc} {x : Cell}

theorem Heap.Is.cast (hI : h.Is F) {F' : Foot} (e : F = F') : h.Is F' := e ▸ hI

theorem Heap.Is.empty : Heap.empty.Is 0 := ⟨by simp, by simp [Heap.empty], by simp⟩

theorem Heap.Is.look (hI : h.Is (pt a how x + R)) : h.mem a = some ⟨how, x⟩ := (hI.mem a _).mpr (by simp [pt])

theorem Heap.Is.fresh (hI : h.Is F) : ∀ b, (h.next, b) ∉ F := fun b hb => by have := hI.lt _ hb; omega

theorem Heap.Is.other (hI : h.Is (pt a how x + R)) {y : Nat × Blk} (hy : y ∈ R) : y.1 ≠ a := by
  have := hI.nodup
  simp only [pt, Multiset.singleton_add, Multiset.map_cons, Multiset.nodup_cons] at this
  intro e
  exact this.1 (Multiset.mem_map.mpr ⟨y, hy, e⟩)

theorem Heap.Is.alloc (hI : h.Is F) (how : Alloc) (x : Cell) : (h.alloc how x).2.Is (pt (h.alloc how x).1 how x + F) where
  nodup := by
    simp only [pt, Heap.alloc, Multiset.singleton_add, Multiset.map_cons, Multiset.nodup_cons]
    refine ⟨fun hm => ?_, hI.nodup⟩
    obtain ⟨y, h1, h2⟩ := Multiset.mem_map.mp hm
    have := hI.lt y h1
    omega
  mem := by
    intro b y
    simp only [Heap.alloc, pt, Multiset.singleton_add, Multiset.mem_cons]
    by_cases hb : b = h.next
    · subst hb
      rw [upd_same]
      constructor
      · intro e; cases e; exact .inl rfl
      · rintro (e | e)
        · cases e; rfl
        · exact absurd e (hI.fresh _)
    · rw [upd_other _ _ hb, hI.mem]
      constructor
      · exact .inr
      · rintro (e | e)
        · cases e; exact absurd rfl hb
        · exact e
  lt := by
    intro y hy
    simp only [Heap.alloc, pt, Multiset.singleton_add, Multiset.mem_cons] at hy ⊢
    rcases hy with e | e
    · subst e; simp
    · have := hI.lt y e; omega

theorem Heap.Is.free (hI : h.Is (pt a how x + R)) : ∃ h', h.free how (some a) = .ok h' ∧ h'.Is R := by
  refine ⟨{ h with mem := upd h.mem a none }, by simp only [Heap.free, hI.look, if_true], ?_, ?_, ?_⟩
  · have := hI.nodup
    simp only [pt, Multiset.singleton_add, Multiset.map_cons, Multiset.nodup_cons] at this
    exact this.2
  · intro b y
    by_cases hb : b = a
    · subst hb
      simp only [upd_same]
      constructor
      · intro e; cases e
      · intro e; exact absurd rfl (hI.other e)
    · simp only [upd_other _ _ hb, hI.mem]
      simp [pt, hb]
  · intro y hy
    exact hI.lt y (by simp [hy])

theorem Heap.Is.put (hI : h.Is (pt a how x + R)) (y : Cell) : ∃ h', h.put (some a) y = .ok h' ∧ h'.Is (pt a how y + R) := by
  refine ⟨{ h with mem := upd h.mem a (some ⟨how, y⟩) }, by simp only [Heap.put, hI.look], ?_, ?_, ?_⟩
  · have := hI.nodup
    simp only [pt, Multiset.map_add, Multiset.map_singleton] at this ⊢
    exact this
  · intro b z
    by_cases hb : b = a
    · subst hb
      simp only [upd_same, pt, Multiset.singleton_add, Multiset.mem_cons]
      constructor
      · intro e; cases e; exact .inl rfl
      · rintro (e | e)
        · cases e; rfl
        · exact absurd rfl (hI.other e)
    · simp only [upd_other _ _ hb, hI.mem]
      simp [pt, hb]
  · intro z hz
    simp only [pt, Multiset.singleton_add, Multiset.mem_cons] at hz
    rcases hz with e | e
    · subst e; exact hI.lt (a, ⟨how, x⟩) (by simp [pt])
    · exact hI.lt z (by simp [e])

theorem Heap.Is.data {xs : List Nat} (hI : h.Is (pt a how (.data xs) + R)) : h.data (some a) = .ok xs := by
  simp [Heap.data, Heap.get, hI.look]

theorem Heap.Is.objs {ps : List Ptr} (hI : h.Is (pt a how (.objs ps) + R)) : h.objs (some a) = .ok ps := by
  simp [Heap.objs, Heap.get, hI.look]

theorem Heap.Is.word {xs : List Nat} (hI : h.Is (pt a how (.data xs) + R)) {n : Nat} (hn : xs[i]? = some n) : h.word (some a) i = .ok n := by
  simp [Heap.word, hI.data, hn]

theorem Heap.Is.setWord {xs : List Nat} (hI : h.Is (pt a how (.data xs) + R)) (hi : i < xs.length) (n : Nat) :
    ∃ h', h.setWord (some a) i n = .ok h' ∧ h'.Is (pt a how (.data (xs.set i n)) + R) := by
  obtain ⟨h', h1, h2⟩ := hI.put (.data (xs.set i n))
  exact ⟨h', by simp only [Heap.setWord, hI.data, ok_bind, hi, if_true, h1], h2⟩

theorem Heap.Is.obj {ps : List Ptr} (hI : h.Is (pt a how (.objs ps) + R)) {p : Ptr} (hp : ps[i]? = some p) : h.obj (some a) i = .ok p := by
  simp [Heap.obj, hI.objs, hp]

theorem Heap.Is.setObj {ps : List Ptr} (hI : h.Is (pt a how (.objs ps) + R)) (hi : i < ps.length) (p : Ptr) :
    ∃ h', h.setObj (some a) i p = .ok h' ∧ h'.Is (pt a how (.objs (ps.set i p)) + R) := by
  obtain ⟨h', h1, h2⟩ := hI.put (.objs (ps.set i p))
  exact ⟨h', by simp only [Heap.setObj, hI.objs, ok_bind, hi, if_true, h1], h2⟩

/-! ## Arrays of bucket objects -/

/-- a bucket: address and entries, or no memory -/
abbrev Bk := Option (Nat × List Nat)

/-- the block of a bucket -/
def bkFoot (how : Alloc) : Bk → Foot
  | none => 0
  | some (a, xs) => pt a how (.data xs)

/-- the array at `arr`, allocated with `ah`, and the buckets `l` in it -/
def arrFoot (arr : Nat) (how : Alloc) (l : List Bk) (ah : Alloc := .new) : Foot :=
  pt arr ah (.objs (l.map (Option.map Prod.fst))) + (l.map (bkFoot how)).sum

theorem sum_set {α : Type} (f : α → Foot) : ∀ (l : List α) (i : Nat) (b : α), l[i]? = some b →
    ∃ S, (l.map f).sum = f b + S ∧ ∀ y, ((l.set i y).map f).sum = f y + S := by
  intro l
  induction l with
  | nil => intro i b h; simp at h
  | cons x l ih =>
    intro i b h
    cases i with
    | zero =>
      simp only [List.getElem?_cons_zero, Option.some.injEq] at h
      subst h
      exact ⟨(l.map f).sum, by simp, by simp⟩
    | succ i =>
      simp only [List.getElem?_cons_succ] at h
      obtain ⟨S, h1, h2⟩ := ih i b h
      refine ⟨f x + S, ?_, ?_⟩
      · simp only [List.map_cons, List.sum_cons, h1]; ac_rfl
      · intro y
        simp only [List.set_cons_succ, List.map_cons, List.sum_cons, h2]; ac_rfl

variable {arr : Nat} {l : List Bk} {ah : Alloc}

/-- take out bucket `i`, and put another one in its place -/
theorem arrFoot_split (how : Alloc) (arr : Nat) (ah : Alloc) {b : Bk} (hb : l[i]? = some b) : ∃ S,
    arrFoot arr how l ah = pt arr ah (.objs (l.map (Option.map Prod.fst))) + (bkFoot how b + S) ∧
    ∀ y : Bk, arrFoot arr how (l.set i y) ah = pt arr ah (.objs ((l.map (Option.map Prod.fst)).set i (y.map Prod.fst))) + (bkFoot how y + S) := by
  obtain ⟨S, h1, h2⟩ := sum_set (bkFoot how) l i b hb
  exact ⟨S, by rw [arrFoot, h1], fun y => by rw [arrFoot, h2, List.map_set]⟩

theorem lt_of_get {α : Type} {l : List α} {b : α} (hb : l[i]? = some b) : i < l.length := (List.getElem?_eq_some_iff.mp hb).1

theorem Heap.Is.arr_obj (hI : h.Is (arrFoot arr how l ah + R)) {b : Bk} (hb : l[i]? = some b) : h.obj (some arr) i = .ok (b.map Prod.fst) := by
  have : h.Is (pt arr ah (.objs (l.map (Option.map Prod.fst))) + ((l.map (bkFoot how)).sum + R)) := hI.cast (by rw [arrFoot, add_assoc])
  exact this.obj (by rw [List.getElem?_map, hb]; rfl)

theorem Heap.Is.bk_data (hI : h.Is (arrFoot arr how l ah + R)) {xs : List Nat} (hb : l[i]? = some (some (a, xs))) :
    h.data (some a) = .ok xs := by
  obtain ⟨S, h1, _⟩ := arrFoot_split how arr ah hb
  have : h.Is (pt a how (.data xs) + (pt arr ah (.objs (l.map (Option.map Prod.fst))) + S + R)) :=
    hI.cast (by rw [h1, bkFoot]; ac_rfl)
  exact this.data

theorem Heap.Is.bk_word (hI : h.Is (arrFoot arr how l ah + R)) {xs : List Nat} (hb : l[i]? = some (some (a, xs))) (hj : j < xs.length) :
    h.readBucket (some arr) i j = .ok xs[j] := by
  simp [Heap.readBucket, hI.arr_obj hb, Heap.word, hI.bk_data hb, hj]

/-- a new block for bucket `i`, which had none -/
theorem Heap.Is.newBucket (hI : h.Is (arrFoot arr how l ah + R)) (hb : l[i]? = some none) (xs : List Nat) :
    ∃ h', (h.alloc how (.data xs)).2.setObj (some arr) i (some (h.alloc how (.data xs)).1) = .ok h' ∧
      ∃ a, h'.Is (arrFoot arr how (l.set i (some (a, xs))) ah + R) := by
  obtain ⟨S, h1, h2⟩ := arrFoot_split how arr ah hb
  have i1 := hI.alloc how (.data xs)
  generalize h.alloc how (.data xs) = r at i1 ⊢
  have i2 : r.2.Is (pt arr ah (.objs (l.map (Option.map Prod.fst))) + (pt r.1 how (.data xs) + S + R)) :=
    i1.cast (by rw [h1]; simp only [bkFoot, zero_add]; ac_rfl)
  obtain ⟨h', h3, h4⟩ := i2.setObj (i := i) (by simpa using lt_of_get hb) (some r.1)
  refine ⟨h', h3, r.1, h4.cast ?_⟩
  rw [h2]
  simp only [bkFoot, Option.map_some]
  ac_rfl

theorem Heap.Is.initBucket (hI : h.Is (arrFoot arr how l ah + R)) (hb : l[i]? = some none) :
    ∃ h' a, h.initBucket how (some arr) i = .ok h' ∧ h'.Is (arrFoot arr how (l.set i (some (a, []))) ah + R) := by
  obtain ⟨h', h1, a, h2⟩ := hI.newBucket hb []
  exact ⟨h', a, h1, h2⟩

theorem Heap.Is.clearBucket (hI : h.Is (arrFoot arr how l ah + R)) {b : Bk} (hb : l[i]? = some b) :
    ∃ h', h.clearBucket how (some arr) i = .ok h' ∧ h'.Is (arrFoot arr how (l.set i none) ah + R) := by
  obtain ⟨S, h1, h2⟩ := arrFoot_split how arr ah hb
  have fr : ∃ h', h.free how (b.map Prod.fst) = .ok h' ∧ h'.Is (pt arr ah (.objs (l.map (Option.map Prod.fst))) + (S + R)) := by
    cases b with
    | none => exact ⟨h, rfl, hI.cast (by rw [h1]; simp only [bkFoot, zero_add]; ac_rfl)⟩
    | some y =>
      have : h.Is (pt y.1 how (.data y.2) + (pt arr ah (.objs (l.map (Option.map Prod.fst))) + (S + R))) :=
        hI.cast (by rw [h1]; simp only [bkFoot]; ac_rfl)
      exact this.free
  obtain ⟨h3, h4, h5⟩ := fr
  obtain ⟨h6, h7, h8⟩ := h5.setObj (i := i) (by simpa using lt_of_get hb) none
  refine ⟨h6, by simp only [Heap.clearBucket, hI.arr_obj hb, ok_bind, h4, h7], h8.cast ?_⟩
  rw [h2]
  simp only [bkFoot, zero_add, Option.map_none]
  ac_rfl

theorem Heap.Is.resizeBucket (hI : h.Is (arrFoot arr how l ah + R)) {xs : List Nat} (hb : l[i]? = some (some (a, xs))) :
    ∃ h' a', h.resizeBucket how (some arr) i = .ok h' ∧ h'.Is (arrFoot arr how (l.set i (some (a', xs))) ah + R) := by
  obtain ⟨S, h1, h2⟩ := arrFoot_split how arr ah hb
  have i1 := hI.alloc how (.data xs)
  have e1 : h.resizeBucket how (some arr) i = (do
      let h1 ← (h.alloc how (.data xs)).2.free how (some a)
      h1.setObj (some arr) i (some (h.alloc how (.data xs)).1)) := by
    simp only [Heap.resizeBucket, hI.arr_obj hb, ok_bind, Option.map_some, hI.bk_data hb]
  rw [e1]
  generalize h.alloc how (.data xs) = r at i1 ⊢
  have i2 : r.2.Is (pt a how (.data xs) + (pt arr ah (.objs (l.map (Option.map Prod.fst))) + (pt r.1 how (.data xs) + S + R))) :=
    i1.cast (by rw [h1]; simp only [bkFoot]; ac_rfl)
  obtain ⟨h3, h4, h5⟩ := i2.free
  obtain ⟨h', h6, h7⟩ := h5.setObj (i := i) (by simpa using lt_of_get hb) (some r.1)
  refine ⟨h', r.1, by rw [h4, ok_bind, h6], h7.cast ?_⟩
  rw [h2]
  simp only [bkFoot, Option.map_some]
  ac_rfl

/-- the entries of bucket `i` are replaced -/
theorem Heap.Is.putBucket (hI : h.Is (arrFoot arr how l ah + R)) {xs : List Nat} (hb : l[i]? = some (some (a, xs))) (ys : List Nat) :
    ∃ h', h.put (some a) (.data ys) = .ok h' ∧ h'.Is (arrFoot arr how (l.set i (some (a, ys))) ah + R) := by
  obtain ⟨S, h1, h2⟩ := arrFoot_split how arr ah hb
  have i2 : h.Is (pt a how (.data xs) + (pt arr ah (.objs (l.map (Option.map Prod.fst))) + S + R)) :=
    hI.cast (by rw [h1]; simp only [bkFoot]; ac_rfl)
  obtain ⟨h', h3, h4⟩ := i2.put (.data ys)
  refine ⟨h', h3, h4.cast ?_⟩
  rw [h2]
  have : (l.map (Option.map Prod.fst)).set i (Option.map Prod.fst (some (a, ys))) = l.map (Option.map Prod.fst) := by
    apply List.ext_getElem?
    intro m
    rw [List.getElem?_set]
    split
    · next e =>
      subst e
      rw [if_pos (by simpa using lt_of_get hb), List.getElem?_map, hb]
      rfl
    · rfl
  rw [this]
  simp only [bkFoot]
  ac_rfl

theorem Heap.Is.appendBucket (hI : h.Is (arrFoot arr how l ah + R)) {xs : List Nat} (hb : l[i]? = some (some (a, xs))) (y : Nat) :
    ∃ h', h.writeBucket (some arr) i xs.length y = .ok h' ∧ h'.Is (arrFoot arr how (l.set i (some (a, xs ++ [y]))) ah + R) := by
  obtain ⟨h', h1, h2⟩ := hI.putBucket hb (xs ++ [y])
  exact ⟨h', by simp only [Heap.writeBucket, hI.arr_obj hb, ok_bind, Option.map_some, hI.bk_data hb, if_true, h1], h2⟩

theorem Heap.Is.eraseBucket (hI : h.Is (arrFoot arr how l ah + R)) {xs : List Nat} (hb : l[i]? = some (some (a, xs))) (hj : j < xs.length) :
    ∃ h', h.eraseBucket (some arr) i j = .ok h' ∧ h'.Is (arrFoot arr how (l.set i (some (a, xs.eraseIdx j))) ah + R) := by
  obtain ⟨h', h1, h2⟩ := hI.putBucket hb (xs.eraseIdx j)
  exact ⟨h', by simp only [Heap.eraseBucket, hI.arr_obj hb, ok_bind, Option.map_some, hI.bk_data hb, hj, if_true, h1], h2⟩

theorem Heap.Is.destroyObjs (how : Alloc) : ∀ (l : List Bk) {h : Heap} {R : Foot}, h.Is ((l.map (bkFoot how)).sum + R) →
    ∃ h', h.destroyObjs how (l.map (Option.map Prod.fst)) = .ok h' ∧ h'.Is R := by
  intro l
  induction l with
  | nil => intro h R hI; exact ⟨h, rfl, hI.cast (by simp)⟩
  | cons b l ih =>
    intro h R hI
    obtain ⟨h1, h2, h3⟩ := ih (R := bkFoot how b + R) (hI.cast (by simp only [List.map_cons, List.sum_cons]; ac_rfl))
    simp only [List.map_cons, Heap.destroyObjs, h2, ok_bind]
    cases b with
    | none => exact ⟨h1, rfl, h3.cast (by simp [bkFoot])⟩
    | some y => exact h3.free

theorem Heap.Is.deleteArr (hI : h.Is (arrFoot arr how l + R)) : ∃ h', h.deleteArr how (some arr) = .ok h' ∧ h'.Is R := by
  have i1 : h.Is (pt arr .new (.objs (l.map (Option.map Prod.fst))) + ((l.map (bkFoot how)).sum + R)) := hI.cast (by rw [arrFoot, add_assoc])
  obtain ⟨h1, h2, h3⟩ := Heap.Is.destroyObjs how l (R := pt arr .new (.objs (l.map (Option.map Prod.fst))) + R) (hI.cast (by rw [arrFoot]; ac_rfl))
  obtain ⟨h4, h5, h6⟩ := h3.free
  exact ⟨h4, by simp only [Heap.deleteArr, i1.look, i1.objs, ok_bind, h2, h5], h6⟩

end SC.Own
