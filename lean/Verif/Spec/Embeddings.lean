import Verif.Spec.Contracts

/-! # Embedded structures (used by C88)

The part of an implementation of `S` that implements a smaller structure `R`. -/

set_option autoImplicit false

universe u v

namespace Abstalg

/-- The object stands for the image of `x`. -/
def RepVia {E : Type} {R : Type u} {S : Type v} (rep : E → S → Prop) (φ : R → S) (a : E) (x : R) : Prop := rep a (φ x)

end Abstalg
