import Verif.Prim
/-!
# The assertions of debug builds, dcheck.hpp
-/
namespace SC

/-- `DDCHECK(p)`, `DDCHECK_EQ(a,b)`, ... (dcheck.hpp:10-36): in a debug build a failed test throws `std::runtime_error`;
in a release build nothing is evaluated -/
def ddcheck (on : Bool) (p : Prop) [Decidable p] : Res Unit := if on = true ∧ ¬ p then .error .exc else .ok ()

theorem ddcheck_ok {on : Bool} {p : Prop} [Decidable p] (h : p) : ddcheck on p = .ok () := by
  unfold ddcheck; rw [if_neg (fun h' => h'.2 h)]

theorem ddcheck_off {p : Prop} [Decidable p] : ddcheck false p = .ok () := by
  unfold ddcheck; rw [if_neg (fun h' => by cases h'.1)]

theorem ddcheck_fails {p : Prop} [Decidable p] (h : ¬ p) : ddcheck true p = .error .exc := by
  unfold ddcheck; rw [if_pos ⟨rfl, h⟩]

end SC
