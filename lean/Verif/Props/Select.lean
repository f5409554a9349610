import Verif.Select.Broad
/-!
# Properties of `select64`: C39
-/
namespace SC

/-- **C39**: `select64(x, i)`, in the version with and in the version without BMI2 instructions, returns the position of
the `i`-th one of `x`, counted from 1: a position below 64 that holds a one and has `i-1` ones in front of it. -/
theorem C39_select64 (bmi : Bool) {x i : Nat} (hx : x < 2 ^ 64) (h1 : 1 ≤ i) (h2 : i ≤ rank x.testBit 64) :
    ∃ r, select64 bmi x i = .ok r ∧ r < 64 ∧ IsSelect x.testBit (i - 1) r := by
  cases bmi with
  | true => exact select64bmi_spec h1 h2
  | false => exact select64broad_spec hx h1 h2

example : ∃ r, select64 false 0xF00000000000A001 7 = .ok r ∧ r < 64 ∧ IsSelect (Nat.testBit 0xF00000000000A001) 6 r :=
  C39_select64 false (by decide) (by decide) (by decide +kernel)

example : ∃ r, select64 true (2 ^ 64 - 1) 64 = .ok r ∧ r < 64 ∧ IsSelect (Nat.testBit (2 ^ 64 - 1)) 63 r :=
  C39_select64 true (by decide) (by decide) (by decide +kernel)

/-- **C39**: the two versions agree; the result depends on the bits only. -/
theorem C39_versions_agree {x i : Nat} (hx : x < 2 ^ 64) (h1 : 1 ≤ i) (h2 : i ≤ rank x.testBit 64) :
    select64 true x i = select64 false x i := by
  obtain ⟨r, hr, _, hs⟩ := C39_select64 true hx h1 h2
  obtain ⟨r', hr', _, hs'⟩ := C39_select64 false hx h1 h2
  rw [hr, hr', hs.unique hs']

example : select64 true 0x8000000000000001 2 = select64 false 0x8000000000000001 2 :=
  C39_versions_agree (by decide) (by decide) (by decide +kernel)

end SC
