import Verif.Spec.Tables
/-!
# Several tables and files

What a program should do that writes tables to files and reads them back: a file is a queue of tables.
-/
namespace SC

/-- statements of a program with tables `x0`, `x1`, … and streams `f0`, `f1`, … -/
inductive FCmd
  /-- a statement about tables only -/
  | tab (c : TCmd)
  /-- `xi.serialize(ff)` -/
  | write (i f : Nat)
  /-- `xi.deserialize(ff)` -/
  | read (i f : Nat)

/-- tables, the objects that were constructed (and perhaps moved from), and the tables that were written to each stream and not yet read -/
structure Disk where
  tabs : Tables
  made : Nat → Bool
  files : Nat → List (Nat × Nat × FMap)

/-- nothing exists -/
def Disk.empty : Disk := { tabs := fun _ => none, made := fun _ => false, files := fun _ => [] }

/-- the objects that exist after a statement -/
def madeAfter (made : Nat → Bool) : TCmd → Nat → Bool
  | .create i _ _ => fun k => k == i || made k
  | .call _ _ => made
  | .swap i j => fun k => if k = j then made i else if k = i then made j else made k
  | .moveAssign i j => fun k => if made i && made j then made k else if k = j then false else if k = i then made j else made k
  | .moveConstruct i j => fun k => if k = i then made j else made k

/-- Tables, files and answer after a statement.  Reading replaces the table, with its widths, by the first one in the stream. -/
def Disk.cmd (tr : Nat → Nat → Nat) (d : Disk) : FCmd → Disk × List Ans
  | .tab c => ({ d with tabs := (d.tabs.cmd tr c).1, made := madeAfter d.made c }, (d.tabs.cmd tr c).2)
  | .write i f => match d.tabs i with
    | none => (d, [])
    | some x => ({ d with files := fun k => if k = f then d.files k ++ [x] else d.files k }, [])
  | .read i f => match d.files f with
    | [] => (d, [])
    | x :: q => ({ d with tabs := d.tabs.set i (some x), files := fun k => if k = f then q else d.files k }, [])

/-- the answers of a program -/
def Disk.run (tr : Nat → Nat → Nat) (d : Disk) : List FCmd → List Ans
  | [] => []
  | c :: prog => (d.cmd tr c).2 ++ Disk.run tr (d.cmd tr c).1 prog

/-- tables and files after a program -/
def Disk.after (tr : Nat → Nat → Nat) (d : Disk) : List FCmd → Disk
  | [] => d
  | c :: prog => Disk.after tr (d.cmd tr c).1 prog

/-- As `Tables.Valid`; a table that is written was not moved from and has less than `2^64` elements; an object that is read exists - it may have been moved
from - and something was written to the stream that has not been read yet. -/
def Disk.Valid (tr : Nat → Nat → Nat) (widths : Nat → Nat → Prop) (args : Nat → MapOp → Prop) (d : Disk) : List FCmd → Prop
  | [] => True
  | c :: prog => (match c with
      | .tab (.create _ kw vw) => widths kw vw
      | .tab (.call i op) => ∃ kw vw m, d.tabs i = some (kw, vw, m) ∧ args kw op
      | .tab _ => True
      | .write i _ => ∃ kw vw m, d.tabs i = some (kw, vw, m) ∧ m.size < 2 ^ 64
      | .read i f => d.made i = true ∧ d.files f ≠ []) ∧ Disk.Valid tr widths args (d.cmd tr c).1 prog

end SC
