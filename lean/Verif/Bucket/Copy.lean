import Verif.Bucket.Plain
/-!
# The plain copies of arrays in debug builds
-/
namespace SC

theorem cellRead_get {L : Cells} {i v : Nat} (h : L[i]? = some (some v)) : cellRead (some L) i = .ok v := by
  simp [cellRead, h]

theorem cellWrite_lt {L : Cells} {i v : Nat} (h : i < L.length) : cellWrite (some L) i v = .ok (some (L.set i (some v))) := by
  simp [cellWrite, h]

theorem getElem?_lt {L : Cells} {i : Nat} {o : Option Nat} (h : L[i]? = some o) : i < L.length := by
  rcases Nat.lt_or_ge i L.length with h' | h'
  · exact h'
  · rw [List.getElem?_eq_none h'] at h; cases h

/-- the plain copy holds `xs` -/
def HoldsP (p : PlainB) (xs : List Nat) : Prop := ∃ L : Cells, p = some L ∧ ∀ i (h : i < xs.length), L[i]? = some (some xs[i])

theorem HoldsP.read {p : PlainB} {xs : List Nat} (h : HoldsP p xs) {i : Nat} (hi : i < xs.length) : cellRead p i = .ok xs[i] := by
  obtain ⟨L, rfl, hL⟩ := h
  exact cellRead_get (hL i hi)

theorem HoldsP.resize {p : PlainB} {xs : List Nat} (h : HoldsP p xs) {n : Nat} (hn : xs.length ≤ n) :
    ∃ L : Cells, plainResize p n = .ok (some L) ∧ L.length = n ∧ ∀ i (h : i < xs.length), L[i]? = some (some xs[i]) := by
  obtain ⟨L, rfl, hL⟩ := h
  refine ⟨_, rfl, by simp; omega, fun i hi => ?_⟩
  have := getElem?_lt (hL i hi)
  rw [List.getElem?_append_left (by rw [List.length_take]; omega), List.getElem?_take, if_pos (by omega)]
  exact hL i hi

theorem HoldsP.set {p : PlainB} {xs : List Nat} (h : HoldsP p xs) {i : Nat} (hi : i < xs.length) (v : Nat) :
    ∃ p', cellWrite p i v = .ok p' ∧ HoldsP p' (xs.set i v) := by
  obtain ⟨L, rfl, hL⟩ := h
  have hl := getElem?_lt (hL i hi)
  refine ⟨_, cellWrite_lt hl, _, rfl, fun j hj => ?_⟩
  rw [List.length_set] at hj
  rw [List.getElem?_set, List.getElem_set]
  by_cases h1 : i = j
  · subst h1; rw [if_pos rfl, if_pos hl, if_pos rfl]
  · rw [if_neg h1, if_neg h1]; exact hL j hj

theorem HoldsP.take {p : PlainB} {xs : List Nat} (h : HoldsP p xs) (n : Nat) : HoldsP p (xs.take n) := by
  obtain ⟨L, rfl, hL⟩ := h
  refine ⟨L, rfl, fun i hi => ?_⟩
  rw [List.length_take] at hi
  rw [List.getElem_take]
  exact hL i (by omega)

/-- writing behind the last entry -/
theorem HoldsP.append {p : PlainB} {ys : List Nat} (h : ys = [] ∧ p = some [none] ∨ ∃ L : Cells, p = some L ∧ L.length = ys.length + 1 ∧
    ∀ i (h : i < ys.length), L[i]? = some (some ys[i])) (k : Nat) : ∃ p', cellWrite p ys.length k = .ok p' ∧ HoldsP p' (ys ++ [k]) := by
  have main : ∃ L : Cells, p = some L ∧ L.length = ys.length + 1 ∧ ∀ i (h : i < ys.length), L[i]? = some (some ys[i]) := by
    rcases h with ⟨rfl, rfl⟩ | h
    · exact ⟨[none], rfl, rfl, by simp⟩
    · exact h
  obtain ⟨L, rfl, h1, h2⟩ := main
  refine ⟨_, cellWrite_lt (by omega), _, rfl, fun i hi => ?_⟩
  rw [List.length_append, List.length_singleton] at hi
  rw [List.getElem?_set]
  by_cases e : ys.length = i
  · subst e
    rw [if_pos rfl, if_pos (by omega)]
    simp
  · rw [if_neg e, List.getElem_append_left (by omega)]
    exact h2 i (by omega)

end SC
