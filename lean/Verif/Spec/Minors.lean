import Mathlib.LinearAlgebra.Matrix.Determinant.Basic

/-! # Specification: bounds for the minors of a matrix -/

set_option autoImplicit false

universe u

namespace Abstalg

/-- All minors of the matrix, of any size, are at most `H` in absolute value. -/
def MinorsWithin {n : ℕ} {κ : Type u} (H : ℤ) (M : Matrix (Fin n) κ ℤ) : Prop :=
  ∀ m (ρ : Fin m → Fin n) (γ : Fin m → κ), |(M.submatrix ρ γ).det| ≤ H

end Abstalg
