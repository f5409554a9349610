/-!
# Specification: a row of buckets

A bucket is a list of (quotient, value) pairs.  Independent of the model.
-/
namespace SC.Spec

/-- the buckets of a group -/
abbrev Buckets := Nat → List (Nat × Nat)

inductive GOp where
  /-- append a pair to bucket `g` -/
  | push (g q v : Nat)
  /-- remove pair `i` of bucket `g` -/
  | erase (g i : Nat)
  /-- replace the value of pair `i` of bucket `g` -/
  | write (g i v : Nat)

/-- may the operation be used, with `n` buckets? -/
def GOp.OK (n : Nat) (cs : Buckets) : GOp → Prop
  | .push g _ _ => g < n
  | .erase g i => g < n ∧ i < (cs g).length
  | .write g i _ => g < n ∧ i < (cs g).length

/-- One operation; quotients are cut to `qw` bits and values to `vw` bits. -/
def Buckets.step (qw vw : Nat) (cs : Buckets) : GOp → Buckets
  | .push g q v => fun j => if j = g then cs j ++ [(q % 2 ^ qw, v % 2 ^ vw)] else cs j
  | .erase g i => fun j => if j = g then (cs j).eraseIdx i else cs j
  | .write g i v => fun j => if j = g then (cs j).modify i (fun e => (e.1, v % 2 ^ vw)) else cs j

/-- all operations may be used one after the other -/
def Buckets.Valid (n qw vw : Nat) : Buckets → List GOp → Prop
  | _, [] => True
  | cs, op :: ops => op.OK n cs ∧ Buckets.Valid n qw vw (cs.step qw vw op) ops

/-- the buckets after a sequence of operations -/
def Buckets.after (qw vw : Nat) : Buckets → List GOp → Buckets
  | cs, [] => cs
  | cs, op :: ops => Buckets.after qw vw (cs.step qw vw op) ops

/-- no pairs -/
def Buckets.empty : Buckets := fun _ => []

/-- the number of pairs in the buckets in front of bucket `g` -/
def Buckets.begin (cs : Buckets) (g : Nat) : Nat := ((List.range g).map (fun i => (cs i).length)).sum

/-! ## A packed array -/

/-- calls on a packed array of entries with `w` bits -/
inductive AOp where
  | insert (i x : Nat)
  | erase (i : Nat)
  | write (i x : Nat)

/-- may the operation be used on an array with `n` entries? -/
def AOp.OK (n : Nat) : AOp → Prop
  | .insert i _ => i ≤ n
  | .erase i => i < n
  | .write i _ => i < n

/-- what the operation does to the list of entries -/
def AOp.apply (w : Nat) (xs : List Nat) : AOp → List Nat
  | .insert i x => xs.take i ++ x % 2 ^ w :: xs.drop i
  | .erase i => xs.take i ++ xs.drop (i + 1)
  | .write i x => xs.set i (x % 2 ^ w)

/-- all operations may be used one after the other -/
def AOp.Valid (w : Nat) : List Nat → List AOp → Prop
  | _, [] => True
  | xs, op :: ops => op.OK xs.length ∧ AOp.Valid w (op.apply w xs) ops

/-- the entries after a sequence of operations -/
def AOp.after (w : Nat) : List Nat → List AOp → List Nat
  | xs, [] => xs
  | xs, op :: ops => AOp.after w (op.apply w xs) ops

end SC.Spec
