import Verif.Spec.Machine
import Mathlib.Algebra.Polynomial.FieldDivision

/-! # Specification: the numbers that occur in a division of polynomials over machine integers

The division of `f` by `g` finds the coefficients of the quotient `Q` from the highest one down. The step for the coefficient
`k` negates it, multiplies it with the coefficients of `g` below the highest one, and adds the products to what is left of `f`. -/

set_option autoImplicit false

namespace Abstalg

open Polynomial

/-- All numbers in the steps for the coefficients of `Q` from `i` on are representable. -/
def DivFits (w : ℕ) (f g Q : ℤ[X]) (i : ℕ) : Prop :=
  ∀ k, i ≤ k → InRange w (Q.coeff k) ∧ InRange w (-Q.coeff k) ∧ ∀ j < g.natDegree,
    InRange w (g.coeff j * -Q.coeff k) ∧
    InRange w (f.coeff (k + j) - ∑ l ∈ Finset.Icc k (k + j), g.coeff (k + j - l) * Q.coeff l)

/-- The quotient is `Q`, and all numbers on the way are representable. -/
def DividesWithin (w : ℕ) (f g Q : ℤ[X]) : Prop := f = g * Q ∧ DivFits w f g Q 0

/-- The division comes to the coefficients of `Q` from `i` on, with representable numbers, and then finds that there is no
quotient: the next number is not divisible by the leading coefficient, or all steps are made and something is left. -/
def StuckWithin (w : ℕ) (f g : ℤ[X]) : Prop :=
  ∃ Q i, DivFits w f g Q i ∧ (∀ l < i, Q.coeff l = 0) ∧ (∀ k, i + g.natDegree ≤ k → (f - g * Q).coeff k = 0) ∧
    f - g * Q ≠ 0 ∧ (i ≠ 0 → ¬ g.leadingCoeff ∣ (f - g * Q).coeff (i - 1 + g.natDegree))

end Abstalg
