import Verif.Spec.Polynomials
import Mathlib.Algebra.Polynomial.Coeff
import Mathlib.Data.List.Forall2

/-! # Polynomials given by a list of coefficients -/

set_option autoImplicit false

universe u

namespace Abstalg

open Polynomial

/-- The polynomial with the given list of coefficients, in ascending order. -/
noncomputable def polyOf {R : Type u} [Semiring R] : List R → R[X]
  | [] => 0
  | a :: l => C a + X * polyOf l

theorem polyOf_coeff {R : Type u} [Semiring R] (l : List R) (i : ℕ) :
    (polyOf l).coeff i = l[i]?.getD 0 := by
  induction l generalizing i with
  | nil => simp [polyOf]
  | cons a l ih =>
    cases i with
    | zero => simp [polyOf]
    | succ i => simp [polyOf, ih]

/-- A list of objects represents the polynomial with the coefficients they represent. -/
theorem polyOf_rep {E : Type} {R : Type u} [Semiring R] {rep : E → R → Prop} {v : List E}
    {l : List R} (h : List.Forall₂ rep v l) (h0 : l.getLast? ≠ some 0) :
    RingPolyRep rep v (polyOf l) := by
  have hl := h.length_eq
  refine ⟨fun i hi => ?_, fun i hi => ?_, fun hv => ?_⟩
  · rw [polyOf_coeff, List.getElem?_eq_getElem (hl ▸ hi), Option.getD_some]
    exact List.forall₂_iff_get.1 h |>.2 i hi (hl ▸ hi)
  · rw [polyOf_coeff, List.getElem?_eq_none (hl ▸ hi), Option.getD_none]
  · rw [polyOf_coeff, hl, ← List.getLast?_eq_getElem?]
    cases hx : l.getLast? with
    | none =>
      rw [List.getLast?_eq_none_iff] at hx
      subst hx
      exact absurd (List.length_eq_zero_iff.1 hl) hv
    | some x =>
      intro h1
      rw [Option.getD_some] at h1
      exact h0 (by rw [hx, h1])

end Abstalg
