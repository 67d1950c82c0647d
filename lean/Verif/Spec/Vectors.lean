import Verif.Spec.Contracts

/-! # Specification of vectors

Vectors of length `n` are functions on `Fin n`, the operations of Mathlib on them being
coordinate-wise. -/

set_option autoImplicit false

universe u

namespace Abstalg

/-- The vector `v` has `n` entries, the entry at `i` represents `f i`. -/
def VecRep {E : Type} {R : Type u} (rep : E → R → Prop) {n : ℕ} (v : List E)
    (f : Fin n → R) : Prop :=
  ∃ h : v.length = n, ∀ i : Fin n, rep (v[i.1]'(h ▸ i.2)) (f i)

/-- The vector of `n` booleans is the indicator of the set `s` of points. -/
def SetRep {n : ℕ} (v : List Bool) (s : Set (Fin n)) : Prop :=
  ∃ h : v.length = n, ∀ i : Fin n, v[i.1]'(h ▸ i.2) = true ↔ i ∈ s

end Abstalg
