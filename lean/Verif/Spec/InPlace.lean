import Verif.Model.Traits

/-! # Specification of the in-place methods

An in-place method and the corresponding pure one are the same computation: they return the same
object, panic together or diverge together. -/

set_option autoImplicit false

namespace Abstalg

variable {E : Type}

/-- `mul_assign` and `square` agree with `mul`. -/
structure InPlaceMul (A : SemigroupOps E) : Prop where
  mulAssign : ∀ a b, A.mulAssign a b = A.mul a b
  square : ∀ a, A.square a = A.mul a a

/-- `add_assign` and `double` agree with `add`. -/
structure InPlaceAdd (A : CommutativeMonoidOps E) : Prop where
  addAssign : ∀ a b, A.addAssign a b = A.add a b
  double : ∀ a, A.double a = A.add a a

/-- `neg_assign` and `sub_assign` agree with `neg` and `sub`. -/
structure InPlaceNeg [Cfg] (A : AbelianGroupOps E) : Prop where
  negAssign : ∀ a, A.negAssign a = A.neg a
  subAssign : ∀ a b, A.subAssign a b = A.sub a b

end Abstalg
