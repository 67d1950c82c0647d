import Verif.Spec.Contracts

/-! # Structures inside larger ones (used by C91)

An implementation of `R` taken as one of the image of `R` in `S`. -/

set_option autoImplicit false

universe u v

namespace Abstalg

/-- The object stands for an element whose image is `s`. -/
def RepImage {E : Type} {R : Type u} {S : Type v} (rep : E → R → Prop) (φ : R → S) (a : E) (s : S) : Prop :=
  ∃ x, rep a x ∧ φ x = s

end Abstalg
