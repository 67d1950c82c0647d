import Verif.Spec.Floats
import Verif.Model.CheckedInts

/-! # Machine integers as floats (used by C87) -/

set_option autoImplicit false

namespace Abstalg

/-- The float has the value of the machine integer. -/
def IntFloat {F : FloatFormat} {w : ℕ} [Width w] (n : SInt w) (a : F.Val) : Prop := FloatRep a n.1

end Abstalg
