import Verif.Spec.Map
/-!
# Several tables

What a program with several tables should do: each table has a key width, a value width and a finite map of its own.
-/
namespace SC

/-- statements of a program with tables `x0`, `x1`, ... -/
inductive TCmd
  /-- construct `xi` with a key width and a value width -/
  | create (i kw vw : Nat)
  /-- call a function of `xi` -/
  | call (i : Nat) (op : MapOp)
  /-- `xi.swap(xj)` -/
  | swap (i j : Nat)
  /-- `xi = std::move(xj)` -/
  | moveAssign (i j : Nat)
  /-- construct `xi` from `std::move(xj)` -/
  | moveConstruct (i j : Nat)

/-- the tables; `none`: does not exist, or was moved from -/
abbrev Tables := Nat → Option (Nat × Nat × FMap)

/-- replace one table -/
def Tables.set (s : Tables) (i : Nat) (x : Option (Nat × Nat × FMap)) : Tables := fun j => if j = i then x else s j

/-- The tables and the answer after a statement; `tr vw v` is what is stored of the value `v`.  A table that is moved to itself counts as
moved from. -/
def Tables.cmd (tr : Nat → Nat → Nat) (s : Tables) : TCmd → Tables × List Ans
  | .create i kw vw => (s.set i (some (kw, vw, FMap.empty)), [])
  | .call i op => match s i with
    | none => (s, [])
    | some (kw, vw, m) => (s.set i (some (kw, vw, (m.step (tr vw) op).1)), [(m.step (tr vw) op).2])
  | .swap i j => ((s.set i (s j)).set j (s i), [])
  | .moveAssign i j => ((s.set i (s j)).set j none, [])
  | .moveConstruct i j => ((s.set i (s j)).set j none, [])

/-- the answers of a program -/
def Tables.run (tr : Nat → Nat → Nat) (s : Tables) : List TCmd → List Ans
  | [] => []
  | c :: prog => (s.cmd tr c).2 ++ Tables.run tr (s.cmd tr c).1 prog

/-- the tables after a program -/
def Tables.after (tr : Nat → Nat → Nat) (s : Tables) : List TCmd → Tables
  | [] => s
  | c :: prog => Tables.after tr (s.cmd tr c).1 prog

/-- Functions are only called for tables that exist and were not moved from, with arguments allowed by their key width; tables are created
with allowed widths. -/
def Tables.Valid (tr : Nat → Nat → Nat) (widths : Nat → Nat → Prop) (args : Nat → MapOp → Prop) (s : Tables) : List TCmd → Prop
  | [] => True
  | c :: prog => (match c with
      | .create _ kw vw => widths kw vw
      | .call i op => ∃ kw vw m, s i = some (kw, vw, m) ∧ args kw op
      | _ => True) ∧ Tables.Valid tr widths args (s.cmd tr c).1 prog

end SC
