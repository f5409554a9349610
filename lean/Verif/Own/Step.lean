import Verif.Own.Keys
/-!
# One bucket of an array of buckets changes
-/
namespace SC.Own
variable {i : Nat}

/-- memory of a bucket of size `n` -/
def Slot (n : Nat) : Bk → Prop
  | none => n = 0
  | some (_, xs) => n ≠ 0 ∧ xs.length = n

/-- the bucket has memory with the entries `xs` -/
def Has (xs : List Nat) (b : Bk) : Prop := ∃ a, b = some (a, xs)

theorem Slot.len {n : Nat} {b : Bk} (h : Slot n b) : (bkKeys b).length = n := by
  cases b with
  | none => exact (show n = 0 from h).symm
  | some y => exact h.2

theorem Slot.has {n : Nat} {b : Bk} (h : Slot n b) (h0 : n ≠ 0) : Has (bkKeys b) b := by
  cases b with
  | none => exact absurd h h0
  | some y => exact ⟨y.1, rfl⟩

theorem Slot.zero {b : Bk} (h : Slot 0 b) : b = none := by
  cases b with
  | none => rfl
  | some y => exact absurd rfl h.1

theorem Has.slot {xs : List Nat} {b : Bk} (h : Has xs b) (h0 : xs.length ≠ 0) : Slot xs.length b := by
  obtain ⟨a, rfl⟩ := h
  exact ⟨h0, rfl⟩

theorem Has.keys {xs : List Nat} {b : Bk} (h : Has xs b) : bkKeys b = xs := by
  obtain ⟨a, rfl⟩ := h
  rfl

/-- the bucket has memory with `n` entries -/
def HasN (n : Nat) (b : Bk) : Prop := ∃ xs, Has xs b ∧ xs.length = n

theorem Slot.hasN {n : Nat} {b : Bk} (h : Slot n b) (h0 : n ≠ 0) : HasN n b := ⟨_, h.has h0, h.len⟩

theorem HasN.slot {n : Nat} {b : Bk} (h : HasN n b) (h0 : n ≠ 0) : Slot n b := by
  obtain ⟨xs, h1, rfl⟩ := h
  exact h1.slot h0

variable {arr : Nat} {how : Alloc} {l : List Bk} {b : Bk} {xs : List Nat}

/-- an entry is appended to bucket `i` -/
theorem append_step (hb : l[i]? = some b) (hn : Has xs b) (x : Nat) (h : Heap) (R : Foot) (hI : h.Is (arrFoot arr how l ah + R)) :
    ∃ h' y, h.writeBucket (some arr) i xs.length x = .ok h' ∧ h'.Is (arrFoot arr how (l.set i y) ah + R) ∧ Has (xs ++ [x]) y := by
  obtain ⟨a, rfl⟩ := hn
  obtain ⟨h', h1, h2⟩ := hI.appendBucket hb x
  exact ⟨h', _, h1, h2, a, rfl⟩

theorem init_step (hb : l[i]? = some none) (h : Heap) (R : Foot) (hI : h.Is (arrFoot arr how l ah + R)) :
    ∃ h' y, h.initBucket how (some arr) i = .ok h' ∧ h'.Is (arrFoot arr how (l.set i y) ah + R) ∧ Has [] y := by
  obtain ⟨h', a, h1, h2⟩ := hI.initBucket hb
  exact ⟨h', _, h1, h2, a, rfl⟩

theorem resize_step (hb : l[i]? = some b) (hn : Has xs b) (h : Heap) (R : Foot) (hI : h.Is (arrFoot arr how l ah + R)) :
    ∃ h' y, h.resizeBucket how (some arr) i = .ok h' ∧ h'.Is (arrFoot arr how (l.set i y) ah + R) ∧ Has xs y := by
  obtain ⟨a, rfl⟩ := hn
  obtain ⟨h', a', h1, h2⟩ := hI.resizeBucket hb
  exact ⟨h', _, h1, h2, a', rfl⟩

theorem erase_step {j : Nat} (hb : l[i]? = some b) (hn : Has xs b) (hj : j < xs.length) (h : Heap) (R : Foot) (hI : h.Is (arrFoot arr how l ah + R)) :
    ∃ h' y, h.eraseBucket (some arr) i j = .ok h' ∧ h'.Is (arrFoot arr how (l.set i y) ah + R) ∧ Has (xs.eraseIdx j) y := by
  obtain ⟨a, rfl⟩ := hn
  obtain ⟨h', h1, h2⟩ := hI.eraseBucket hb hj
  exact ⟨h', _, h1, h2, a, rfl⟩

theorem clear_step (hb : l[i]? = some b) (h : Heap) (R : Foot) (hI : h.Is (arrFoot arr how l ah + R)) :
    ∃ h' y, h.clearBucket how (some arr) i = .ok h' ∧ h'.Is (arrFoot arr how (l.set i y) ah + R) ∧ y = none := by
  obtain ⟨h', h1, h2⟩ := hI.clearBucket hb
  exact ⟨h', _, h1, h2, rfl⟩

/-- `find` in a bucket with the entries `bkKeys b` -/
theorem findBucket_step (hb : l[i]? = some b) {n : Nat} (hs : Slot n b) (k : Nat) {h : Heap} {R : Foot} (hI : h.Is (arrFoot arr how l ah + R)) :
    ∃ r, h.findBucket (some arr) i k n = .ok r ∧ (∀ j, r = some j → j < n) ∧ (r = none → k ∉ bkKeys b) := by
  unfold Heap.findBucket
  by_cases h0 : n = 0
  · subst h0
    rw [hs.zero]
    exact ⟨none, by rw [if_pos rfl], by simp, fun _ => by simp [bkKeys]⟩
  · rw [if_neg h0]
    obtain ⟨a, e⟩ := hs.has h0
    have hl := hs.len
    generalize bkKeys b = xs at e hl ⊢
    subst e
    subst hl
    simp only [hI.arr_obj hb, ok_bind, Option.map_some, hI.bk_data hb]
    rw [if_pos (Nat.le_refl _), List.take_length]
    refine ⟨_, rfl, fun j hj => ?_, fun hj => ?_⟩
    · exact (List.idxOf?_eq_some_iff.mp hj).1
    · exact List.idxOf?_eq_none_iff.mp hj

theorem set_get {α : Type} {l : List α} {b : α} (hb : l[i]? = some b) : l.set i b = l := by
  obtain ⟨h1, h2⟩ := List.getElem?_eq_some_iff.mp hb
  rw [← h2, List.set_getElem_self]

theorem set_getD {α : Type} {d : α} (l : List α) (i : Nat) : l.set i (l.getD i d) = l := by
  by_cases hi : i < l.length
  · exact set_get (by rw [List.getD_eq_getElem?_getD, List.getElem?_eq_getElem hi]; rfl)
  · rw [List.set_eq_of_length_le (by omega)]

/-- what is known about the buckets of an array stays so if one bucket is replaced -/
theorem holds_set {K : Keys} {place : Nat → Nat} (hl : ∀ (j : Nat) (b : Bk), l[j]? = some b → Holds K place j (bkKeys b)) {b : Bk}
    (hb : Holds K place i (bkKeys b)) : ∀ (j : Nat) (y : Bk), (l.set i b)[j]? = some y → Holds K place j (bkKeys y) := by
  intro j y hy
  by_cases e : i = j
  · subst e
    rw [List.getElem?_set_self (by simpa using lt_of_get hy)] at hy
    cases hy
    exact hb
  · rw [List.getElem?_set_ne e] at hy
    exact hl j y hy

end SC.Own
