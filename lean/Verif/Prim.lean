/-!
# Primitive notions shared by all parts of the model

* `Fault`, `Res`: outcomes of C++ code.  Everything that is not a normal return is a `Fault`.
* `math.hpp`.
-/
namespace SC

/-- Abnormal outcomes of the modelled C++ code. -/
inductive Fault where
  /-- undefined behaviour: null pointer dereferenced -/
  | null
  /-- undefined behaviour: access outside of an allocation -/
  | oob
  /-- undefined behaviour: read of memory that was never written -/
  | uninit
  /-- undefined behaviour: shift of a 64-bit integer by 64 or more -/
  | shift
  /-- undefined behaviour: block released twice -/
  | doubleFree
  /-- undefined behaviour: builtin function called outside of its domain -/
  | undef
  /-- a C++ exception was thrown -/
  | exc
  /-- the recursion budget of the model is exhausted (more than 64 nested table doublings) -/
  | fuel
  deriving DecidableEq, Repr

/-- Result of a modelled C++ function: a value or a fault. -/
abbrev Res (α : Type) := Except Fault α

/-- is the result a normal return? -/
def Res.isOk {α : Type} : Res α → Bool
  | .ok _ => true
  | .error _ => false

instance {α : Type} [DecidableEq α] : DecidableEq (Res α) := fun a b =>
  match a, b with
  | .ok x, .ok y => if h : x = y then isTrue (by rw [h]) else isFalse (by simp [h])
  | .error x, .error y => if h : x = y then isTrue (by rw [h]) else isFalse (by simp [h])
  | .ok _, .error _ => isFalse (by simp)
  | .error _, .ok _ => isFalse (by simp)

@[simp] theorem ok_bind {α β : Type} (a : α) (f : α → Res β) : (Except.ok a >>= f) = f a := rfl
@[simp] theorem error_bind {α β : Type} (e : Fault) (f : α → Res β) :
    ((Except.error e : Res α) >>= f) = .error e := rfl
@[simp] theorem pure_eq_ok {α : Type} (a : α) : (pure a : Res α) = .ok a := rfl
@[simp] theorem ok_map {α β : Type} (a : α) (f : α → β) :
    (f <$> (Except.ok a : Res α)) = .ok (f a) := rfl

/-- The range of `uint64_t`/`size_t`. -/
abbrev W64 : Nat := 2 ^ 64

/-- `static_cast<size_t>(-1ULL)` -/
abbrev NPOS : Nat := 2 ^ 64 - 1

/-- `x >> s` on `uint64_t`; shifting by 64 or more is undefined. -/
def shr64 (x s : Nat) : Res Nat := if s < 64 then .ok (x >>> s) else .error .shift

/-- `x << s` on `uint64_t`; shifting by 64 or more is undefined. -/
def shl64 (x s : Nat) : Res Nat := if s < 64 then .ok ((x <<< s) % W64) else .error .shift

/-- `most_significant_bit`, math.hpp:6-8: index of the highest set bit, -1 for 0.
The builtin `__builtin_clzll` is expressed through `Nat.log2`. -/
def mostSignificantBit (x : Nat) : Int := if x = 0 then -1 else (Nat.log2 x : Int)

/-- `bit_width`, math.hpp:12-14: number of bits to represent `x`, 1 for 0. -/
def bitWidth (x : Nat) : Nat := if x = 0 then 1 else Nat.log2 x + 1

/-- `ceil_div`, math.hpp:19-21.  All uses are with small arguments, so the wrap-around of the sum
is not modelled. -/
def ceilDiv (a b : Nat) : Nat := (a + b - 1) / b

/-- function update, used for arrays indexed by bucket number -/
def upd {α : Type} (f : Nat → α) (i : Nat) (x : α) : Nat → α := fun j => if j = i then x else f j

@[simp] theorem upd_same {α : Type} (f : Nat → α) (i : Nat) (x : α) : upd f i x i = x := by simp [upd]
theorem upd_other {α : Type} (f : Nat → α) {i j : Nat} (x : α) (h : j ≠ i) : upd f i x j = f j := by
  simp [upd, h]

end SC
