import Verif.Spec.Map
/-!
# Several objects

What a program with several objects of the same class should do, if each object has a value of its own.
-/
namespace SC

/-- statements of a program; a statement about an object that does not exist does nothing -/
inductive OCmd (Op : Type)
  /-- construct another object -/
  | new
  /-- call a function of object `i` -/
  | call (i : Nat) (op : Op)
  /-- `xi.swap(xj)` -/
  | swap (i j : Nat)
  /-- `xi = std::move(xj)` -/
  | moveAssign (i j : Nat)
  /-- the destructor of object `i` -/
  | destroy (i : Nat)

/-- the values a class of objects can have: the initial value, and what a call does and answers -/
structure ObjSpec (M Op A : Type) where
  init : M
  step : M → Op → M × A

variable {M Op A : Type}

/-- Values of the objects and answers after a statement.  An object that was moved from has the initial value, also
if it is moved to itself. -/
def ObjSpec.cmd (S : ObjSpec M Op A) (ms : List M) : OCmd Op → List M × List A
  | .new => (ms ++ [S.init], [])
  | .call i op => match ms[i]? with
    | none => (ms, [])
    | some m => (ms.set i (S.step m op).1, [(S.step m op).2])
  | .swap i j => match ms[i]?, ms[j]? with
    | some a, some b => ((ms.set i b).set j a, [])
    | _, _ => (ms, [])
  | .moveAssign i j => match ms[i]?, ms[j]? with
    | some _, some b => ((ms.set i b).set j S.init, [])
    | _, _ => (ms, [])
  | .destroy i => (ms.eraseIdx i, [])

/-- values and answers after a program -/
def ObjSpec.exec (S : ObjSpec M Op A) (ms : List M) : List (OCmd Op) → List M × List A
  | [] => (ms, [])
  | c :: prog =>
    let r := S.cmd ms c
    let q := S.exec r.1 prog
    (q.1, r.2 ++ q.2)

/-- every call of the program satisfies its precondition, which may depend on the value of the object -/
def ObjSpec.Valid (S : ObjSpec M Op A) (P : M → Op → Prop) (ms : List M) : List (OCmd Op) → Prop
  | [] => True
  | c :: prog => (match c with
      | .call i op => match ms[i]? with
        | some m => P m op
        | none => True
      | _ => True) ∧ S.Valid P (S.cmd ms c).1 prog

instance ObjSpec.decValid (S : ObjSpec M Op A) (P : M → Op → Prop) [∀ m op, Decidable (P m op)] :
    ∀ (ms : List M) (prog : List (OCmd Op)), Decidable (S.Valid P ms prog)
  | _, [] => .isTrue trivial
  | ms, .call i op :: prog => by
    have := ObjSpec.decValid S P (S.cmd ms (.call i op)).1 prog
    unfold ObjSpec.Valid
    refine @instDecidableAnd _ _ ?_ this
    simp only
    cases ms[i]? <;> simp only <;> infer_instance
  | ms, .new :: prog => @instDecidableAnd _ _ (.isTrue trivial) (ObjSpec.decValid S P (S.cmd ms .new).1 prog)
  | ms, .swap i j :: prog => @instDecidableAnd _ _ (.isTrue trivial) (ObjSpec.decValid S P (S.cmd ms (.swap i j)).1 prog)
  | ms, .moveAssign i j :: prog => @instDecidableAnd _ _ (.isTrue trivial) (ObjSpec.decValid S P (S.cmd ms (.moveAssign i j)).1 prog)
  | ms, .destroy i :: prog => @instDecidableAnd _ _ (.isTrue trivial) (ObjSpec.decValid S P (S.cmd ms (.destroy i)).1 prog)

/-- objects that are finite maps; `tr` is what storing does to a value -/
def mapObjects (tr : Nat → Nat) : ObjSpec FMap MapOp Ans := { init := FMap.empty, step := FMap.step tr }

end SC
