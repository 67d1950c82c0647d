import Verif.Spec.Contracts
import Mathlib.Algebra.Ring.Hom.Defs

/-! # Specification: residue classes -/

set_option autoImplicit false

universe u v

namespace Abstalg

/-- A Euclidean domain whose remainders are canonical: congruent elements have the same
remainder, and one is reduced modulo every non-unit.  The integers, the polynomials over a
field and all fields are such. -/
class CanonicalRem (R : Type u) [EuclideanDomain R] : Prop where
  mod_eq : ∀ {m x y : R}, m ≠ 0 → m ∣ x - y → x % m = y % m
  one_div : ∀ {m : R}, m ≠ 0 → ¬ IsUnit m → 1 / m = 0

/-- `φ` exhibits `S` as the factor ring of `R` by the ideal generated by `μ`. -/
structure IsFactor {R : Type u} {S : Type v} [CommRing R] [CommRing S] (φ : R →+* S) (μ : R) : Prop where
  surjective : Function.Surjective φ
  ker : ∀ x, φ x = 0 ↔ μ ∣ x

/-- The object `e` is a member of the quotient of the base by `μ` and represents the residue
class `s`: it is a base member that is reduced modulo `μ` and lies in the class. -/
def ResidueRep {E : Type} {R : Type u} {S : Type v} [EuclideanDomain R] [CommRing S] (rep : E → R → Prop) (φ : R →+* S) (μ : R)
    (e : E) (s : S) : Prop :=
  ∃ x, rep e x ∧ x / μ = 0 ∧ φ x = s

end Abstalg
