/-!
# Specification: a growable array of `bits`-wide entries with a capacity

Independent of the model.  `Arr.step` is `none` when the caller violates the interface (position out of
range, no room, request smaller than the contents).
-/
namespace SC.Spec

/-- the entries and the number of entries there is room for -/
structure Arr where
  xs : List Nat
  cap : Nat

inductive ArrOp where
  /-- provide room for `n` entries -/
  | grow (n : Nat)
  /-- append an entry -/
  | push (x : Nat)
  /-- overwrite entry `i` -/
  | set (i x : Nat)
  /-- remove entry `i` -/
  | erase (i : Nat)
  /-- read entry `i` -/
  | get (i : Nat)
  /-- index of the first entry equal to `x`, or 2^64-1 -/
  | find (x : Nat)

/-- `r` is the smallest index at which `xs` contains `x`, or 2^64-1 if there is none -/
def IsFirstMatch (xs : List Nat) (x r : Nat) : Prop :=
  (∃ h : r < xs.length, xs[r] = x ∧ ∀ j (hj : j < r), xs[j] ≠ x) ∨ (x ∉ xs ∧ r = 2 ^ 64 - 1)

/-- index of the first entry equal to `x`, counting from `i` -/
def firstFrom (x : Nat) : Nat → List Nat → Nat
  | _, [] => 2 ^ 64 - 1
  | i, y :: ys => if y = x then i else firstFrom x (i + 1) ys

/-- One operation.  `bits` is the width of an entry; with `spare`, erasing is allowed only while there is an
unused entry.  The second component is the answer (0 for operations without one). -/
def Arr.step (bits : Nat) (spare : Bool) (a : Arr) : ArrOp → Option (Arr × Nat)
  | .grow n => if a.xs.length ≤ n ∧ 0 < n then some (⟨a.xs, n⟩, 0) else none
  | .push x => if a.xs.length < a.cap then some (⟨a.xs ++ [x % 2 ^ bits], a.cap⟩, 0) else none
  | .set i x => if i < a.xs.length then some (⟨a.xs.set i (x % 2 ^ bits), a.cap⟩, 0) else none
  | .erase i => if i < a.xs.length ∧ (spare = true → a.xs.length < a.cap) then some (⟨a.xs.eraseIdx i, a.cap⟩, 0) else none
  | .get i => (a.xs[i]?).map (fun v => (a, v))
  | .find x => if x < 2 ^ bits then some (a, firstFrom x 0 a.xs) else none

/-- the answers to a sequence of operations, `none` if one of them violates the interface -/
def Arr.run (bits : Nat) (spare : Bool) (a : Arr) : List ArrOp → Option (List Nat)
  | [] => some []
  | op :: ops => match a.step bits spare op with
    | none => none
    | some (a, r) => (Arr.run bits spare a ops).map (r :: ·)

end SC.Spec
