import Verif.Spec.Simulation

/-! # When two objects stand for the same element -/

set_option autoImplicit false

universe u

namespace Abstalg

/-- `a` and `b` represent the same element, in representations that may differ. -/
def Same {E F : Type} {R : Type u} (rep : E → R → Prop) (rep' : F → R → Prop) (a : E) (b : F) : Prop :=
  ∃ x, rep a x ∧ rep' b x

end Abstalg
