import Verif.Spec.Contracts
import Mathlib.Algebra.Polynomial.Basic
import Mathlib.Data.Finsupp.Defs

/-! # Specification: polynomials as coefficient vectors -/

set_option autoImplicit false

universe u v

namespace Abstalg

/-- The vector holds the coefficients of `p` in ascending order, up to the last one that is not
zero; `coef p i` is the `i`-th coefficient of `p`. -/
def PolyRep {E : Type} {R : Type u} {M : Type v} [Zero R] (rep : E → R → Prop) (coef : M → ℕ → R) (v : List E) (p : M) : Prop :=
  (∀ i (h : i < v.length), rep v[i] (coef p i)) ∧ (∀ i, v.length ≤ i → coef p i = 0) ∧
    (v ≠ [] → coef p (v.length - 1) ≠ 0)

/-- Polynomials over an abelian group are the finitely supported sequences. -/
abbrev SeqRep {E : Type} {R : Type u} [Zero R] (rep : E → R → Prop) : List E → (ℕ →₀ R) → Prop :=
  PolyRep rep fun f i => f i

/-- Polynomials over a ring. -/
abbrev RingPolyRep {E : Type} {R : Type u} [Semiring R] (rep : E → R → Prop) : List E → Polynomial R → Prop :=
  PolyRep rep Polynomial.coeff

/-- The vector holds the coefficients of `p` in ascending order, possibly followed by zeros. -/
def CoefRep {E : Type} {R : Type u} [Semiring R] (rep : E → R → Prop) (v : List E) (p : Polynomial R) : Prop :=
  (∀ i (h : i < v.length), rep v[i] (p.coeff i)) ∧ ∀ i, v.length ≤ i → p.coeff i = 0

/-- The last coefficient held by the vector is zero. -/
def ZeroLast {E : Type} {R : Type u} [Semiring R] (v : List E) (p : Polynomial R) : Prop :=
  v ≠ [] ∧ p.coeff (v.length - 1) = 0

end Abstalg
