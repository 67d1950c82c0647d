import Verif.Spec.Floats
import Mathlib.Algebra.Ring.Int.Units

/-! # Specification: floats up to signs -/

set_option autoImplicit false

namespace Abstalg

open FloatFormat

/-- `x` or its negative. -/
def bySign (n : Bool) (x : ℚ) : ℚ := if n then -x else x

/-- For `n = false`: the two floats are the same number, where the two zeros are one number and NaN corresponds
to itself. For `n = true`: the second is the negative of the first. -/
inductive SignRel {F : FloatFormat} (n : Bool) : F.Val → F.Val → Prop
  | nan : SignRel n .nan .nan
  | inf (s : Bool) : SignRel n (.inf s) (.inf (s ^^ n))
  | number {a b : F.Val} {x : ℚ} : FloatRep a x → FloatRep b (bySign n x) → SignRel n a b

/-- The second float is the first one times the sign `u`; the two zeros count as one number. -/
def SignedBy {F : FloatFormat} (u : ℤˣ) (a b : F.Val) : Prop := SignRel (decide (u = -1)) a b

/-- Lists of equal length whose entries are related, by a relation that may depend on the index. -/
def IRel {α β : Type} (r : ℕ → α → β → Prop) (v : List α) (w : List β) : Prop :=
  v.length = w.length ∧ ∀ k a b, v[k]? = some a → w[k]? = some b → r k a b

/-- Polynomials whose coefficients of index `k` are related by the sign `u s ^ k`: for `s = -1` the second is
`u` times the first one at `-x`. -/
def SignedPoly {F : FloatFormat} (u s : ℤˣ) : List F.Val → List F.Val → Prop := IRel fun k => SignedBy (u * s ^ k)

/-- Matrices whose entries in row `i` and column `j` are related by the sign `ρ i κ j`. -/
def SignedMat {F : FloatFormat} {n : ℕ} (ρ κ : Fin n → ℤˣ) (M N : Fin n → Fin n → F.Val) : Prop :=
  ∀ i j, SignedBy (ρ i * κ j) (M i j) (N i j)

end Abstalg
