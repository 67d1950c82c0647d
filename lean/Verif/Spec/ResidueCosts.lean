import Verif.Spec.Counted

/-! # Numbers of calls of the field of coefficients by the methods on residues of polynomials (used by C98) -/

set_option autoImplicit false

namespace Abstalg

/-- `extended_gcd` of polynomials of lengths `a` and `b ≤ a`. -/
def extendedGcdCost (a b : Nat) : Call → Nat :=
  table [(.one, 2), (.isZero, 2 * a * b + 1), (.zero, 3 * a * b), (.div, a + b), (.neg, 2 * a * b), (.mul, 2 * a * b), (.add, 3 * a * b)]

/-- The product of two residues of length at most `d`, modulo a polynomial of length `d + 1`. -/
def residueMulCost (d : Nat) : Call → Nat :=
  table [(.zero, 2), (.isZero, d + 1), (.div, d - 1), (.neg, d - 1), (.mul, d * d + (d - 1) * d), (.add, d * d + (d - 1) * d)]

/-- The inverse: an `extended_gcd`, a `try_inv` of a constant, and a product with it. -/
def residueInvCost (d : Nat) : Call → Nat :=
  table [(.one, 2), (.isZero, 2 * (d + 1) * d + d + 2), (.zero, 3 * (d + 1) * d + 2), (.div, 2 * d + 2),
    (.neg, 2 * (d + 1) * d + 1), (.mul, 2 * (d + 1) * d + 2 * d + 1), (.add, 3 * (d + 1) * d + 2 * d + 1), (.tryInv, 1)]

/-- Each method of residues of length at most `d`, modulo a polynomial of length `d + 1`. -/
def residueCost (d : Nat) : Call → Call → Nat
  | .equals => table [(.equals, d)]
  | .zero | .isZero => table []
  | .add | .addAssign | .double => table [(.add, d), (.isZero, d), (.zero, d)]
  | .neg => table [(.neg, d)]
  | .sub => table [(.neg, d), (.add, d), (.isZero, d), (.zero, d)]
  | .one => table [(.one, 2), (.isZero, 1)]
  | .int => table [(.one, 2), (.isZero, 2), (.add, 1), (.zero, 1)]
  | .mul | .mulAssign | .square => residueMulCost d
  | .inv | .tryInv => residueInvCost d
  | .div | .tryDiv => fun c => residueInvCost d c + residueMulCost d c

end Abstalg
