import Verif.Spec.Contracts
import Mathlib.RingTheory.Localization.FractionRing

/-! # Specification: fractions in lowest terms -/

set_option autoImplicit false

universe u v

namespace Abstalg

/-- The pair `e` is a fraction in lowest terms whose denominator is the canonical
representative of its associate class, and its value in the field of fractions `K` is `k`. -/
def FracRep {E : Type} {R : Type u} {K : Type v} [EuclideanDomain R] [NormalizationMonoid R] [Field K] [Algebra R K]
    (rep : E → R → Prop) (e : E × E) (k : K) : Prop :=
  ∃ x y, rep e.1 x ∧ rep e.2 y ∧ y ≠ 0 ∧ IsCoprime x y ∧ normalize y = y ∧
    k = algebraMap R K x / algebraMap R K y

end Abstalg
