import Verif.Spec.Contracts
import Mathlib.Algebra.GroupWithZero.Associated

/-! # Specification of the divisibility order

The elements stand for classes of associated elements, ordered by divisibility; this is
`Associates R` of Mathlib. -/

set_option autoImplicit false

universe u

namespace Abstalg

/-- The object `a` represents a canonical element `x = normalize x` of the class `c`. -/
def AssocRep {E : Type} {R : Type u} [CommRing R] [IsDomain R] [NormalizationMonoid R]
    (rep : E → R → Prop) (a : E) (c : Associates R) : Prop :=
  ∃ x, rep a x ∧ normalize x = x ∧ Associates.mk x = c

end Abstalg
