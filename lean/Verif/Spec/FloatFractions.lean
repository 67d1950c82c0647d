import Verif.Spec.Floats

/-! # Specification of fractions of floats -/

set_option autoImplicit false

namespace Abstalg

open FloatFormat

/-- The computation returns the fraction of the correctly rounded value of `x` and one; it panics if that
value overflows. -/
def RoundedFraction {F : FloatFormat} (c : Res (F.Val × F.Val)) (x : ℚ) : Prop :=
  (Overflows F x → c = .panic) ∧
    (¬ Overflows F x → ∃ p y, c = .ok p ∧ FloatRep p.1 y ∧ RoundsTo F x y ∧ FloatRep p.2 1)

end Abstalg
