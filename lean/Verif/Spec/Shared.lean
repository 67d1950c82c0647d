import Verif.Spec.Stateful
import Verif.Model.Shared

/-! # Specification: others keep the states of a shared base sound -/

set_option autoImplicit false

namespace Abstalg.Stateful

/-- The base is in a state with `I`, and all that the others are going to do leads from states with `I` to such states. -/
def Safe {σ : Type} (I : σ → Prop) (p : Shared σ) : Prop := I p.1 ∧ ∀ n s, I s → I (p.2 n s)

end Abstalg.Stateful
