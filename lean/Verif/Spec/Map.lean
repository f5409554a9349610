/-!
# What a hash map should do

A finite map from numbers to numbers, given by its lookup function and the number of its keys.  Nothing here depends
on the model of the code.
-/
namespace SC

structure FMap where
  get : Nat → Option Nat
  size : Nat

def FMap.empty : FMap := ⟨fun _ => none, 0⟩

/-- overwrite the value of a key -/
def FMap.put (m : FMap) (k v : Nat) : FMap :=
  { get := fun x => if x = k then some v else m.get x
    size := if (m.get k).isSome then m.size else m.size + 1 }

/-- remove a key -/
def FMap.del (m : FMap) (k : Nat) : FMap :=
  { get := fun x => if x = k then none else m.get x
    size := if (m.get k).isSome then m.size - 1 else m.size }

/-- the public operations -/
inductive MapOp
  /-- `find_or_insert(key, value)` -/
  | insert (k v : Nat)
  /-- `m[key]` as a value -/
  | get (k : Nat)
  /-- `m[key] = value` -/
  | assign (k v : Nat)
  | find (k : Nat)
  | count (k : Nat)
  /-- `erase(key)` -/
  | erase (k : Nat)
  | size
  | empty
  /-- `reserve(n)` -/
  | reserve (n : Nat)
  | shrink
  | clear
  deriving DecidableEq, Repr

/-- what the caller sees -/
inductive Ans
  | none
  | num (n : Nat)
  | bool (b : Bool)
  /-- key and value behind the returned navigator or iterator -/
  | pair (k v : Nat)
  /-- `end()` -/
  | absent
  deriving DecidableEq, Repr

/-- one operation on a finite map; `tr` is what a value is truncated to when it is stored -/
def FMap.step (tr : Nat → Nat) (m : FMap) : MapOp → FMap × Ans
  | .insert k v => match m.get k with
    | some x => (m, .pair k x)
    | none => (m.put k (tr v), .pair k (tr v))
  | .get k => match m.get k with
    | some x => (m, .num x)
    | none => (m.put k (tr 0), .num (tr 0))
  | .assign k v => (m.put k (tr v), .none)
  | .find k => match m.get k with
    | some x => (m, .pair k x)
    | none => (m, .absent)
  | .count k => (m, .num (if (m.get k).isSome then 1 else 0))
  | .erase k => (m.del k, .num (if (m.get k).isSome then 1 else 0))
  | .size => (m, .num m.size)
  | .empty => (m, .bool (m.size == 0))
  | .reserve _ => (m, .none)
  | .shrink => (m, .none)
  | .clear => (FMap.empty, .none)

/-- the answers to a sequence of operations -/
def FMap.run (tr : Nat → Nat) (m : FMap) : List MapOp → List Ans
  | [] => []
  | op :: ops => (m.step tr op).2 :: FMap.run tr (m.step tr op).1 ops

/-- the map after a sequence of operations -/
def FMap.after (tr : Nat → Nat) (m : FMap) : List MapOp → FMap
  | [] => m
  | op :: ops => FMap.after tr (m.step tr op).1 ops

end SC
