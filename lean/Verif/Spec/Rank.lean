/-!
# Rank and select

Specification of counting and finding ones in a bit sequence.
-/
namespace SC

/-- number of ones among the first `n` bits -/
def rank (p : Nat → Bool) : Nat → Nat
  | 0 => 0
  | n + 1 => rank p n + (p n).toNat

/-- `r` is the position of the `k`-th one, counted from 0 -/
def IsSelect (p : Nat → Bool) (k r : Nat) : Prop := p r = true ∧ rank p r = k

end SC
