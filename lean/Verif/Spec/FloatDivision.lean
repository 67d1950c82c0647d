import Verif.Spec.Floats

/-! # Specification of the rounding errors of the division of polynomials -/

set_option autoImplicit false

namespace Abstalg

/-- How far a coefficient of `quo * d + rem` can be from the coefficient of the dividend: at most `m` products contribute to it
besides one with the leading coefficient `a` of the divisor, and `s` is the sum of the absolute values of all that is added. -/
def divisionBound (F : FloatFormat) (m : ℕ) (s a : ℚ) : ℚ :=
  ((1 + unitRoundoff F) ^ (m + 1) - 1) * s + (m + |a|) * (1 + unitRoundoff F) ^ m * (2 ^ F.emin / 2)

end Abstalg
