import Verif.Spec.Order
import Verif.Spec.Floats
import Mathlib.Data.List.FinRange
import Mathlib.Data.Matrix.Basic

/-! # Factors of a matrix, computed with the operations of a base without laws -/

set_option autoImplicit false

namespace Abstalg

universe u

variable {E : Type} [Cfg] {n : ℕ}

/-- `t` is what is left of `a` when the products of the pairs are taken away one by one: for a pair `(u, l)`
the product of `u` with the negative of `l` is added, but nothing is done if `l` is zero. -/
inductive Eliminates (base : FieldOps E) : E → List (E × E) → E → Prop
  | done (a) : Eliminates base a [] a
  | skip {a u l ps t} : base.isZero l = .ok true → Eliminates base a ps t → Eliminates base a ((u, l) :: ps) t
  | step {a u l ps t} (m q a') : base.isZero l = .ok false → base.neg l = .ok m → base.mul u m = .ok q →
      base.addAssign a q = .ok a' → Eliminates base a' ps t → Eliminates base a ((u, l) :: ps) t

/-- The pairs `(U k j, L r k)` for the columns `k` of the list that come before `r`, `j` and `c`. -/
def factorPairs {R : Type u} (l : List (Fin n)) (c : ℕ) (L U : Fin n → Fin n → R) (r j : Fin n) : List (R × R) :=
  (l.filter fun k => decide (k < r ∧ k < j ∧ k.1 < c)).map fun k => (U k j, L r k)

/-- The rows of `A`, in the order `σ`, are factored into `L` (column by column) and `U` (row by row); the
elimination ends before column `c`, and what is left of the rows from `c` on is in `L`. -/
structure Factors (base : FieldOps E) (A : Fin n → Fin n → E) (c : ℕ) (σ : Equiv.Perm (Fin n)) (L U : Fin n → Fin n → E) : Prop where
  lower : ∀ r j, (j ≤ r ∨ c ≤ r.1) → Eliminates base (A (σ r) j) (factorPairs (List.finRange n) c L U r j) (L r j)
  upper : ∀ r j, r < j → r.1 < c → ∃ t i, Eliminates base (A (σ r) j) (factorPairs (List.finRange n) c L U r j) t ∧
    base.inv (L r r) = .ok i ∧ base.mulAssign t i = .ok (U r j)
  pivot : ∀ r : Fin n, r.1 < c → base.isZero (L r r) = .ok false

/-- The left factor: zero above the diagonal, in the rows before `c`. -/
def lowerFactor {R : Type u} [Zero R] (c : ℕ) (l : Fin n → Fin n → R) : Matrix (Fin n) (Fin n) R :=
  fun r k => if k ≤ r ∨ c ≤ r.1 then l r k else 0

/-- The right factor: one on the diagonal, zero below it, and zero besides the diagonal in the rows from `c` on. -/
def upperFactor {R : Type u} [Zero R] [One R] (c : ℕ) (u : Fin n → Fin n → R) : Matrix (Fin n) (Fin n) R :=
  fun k j => if k = j then 1 else if k < j ∧ k.1 < c then u k j else 0

/-- The inverses of the numbers of the format are not far below the least normal number: the power of two after the largest
number has an inverse in the format, and half of the least positive number is at most `4 * unitRoundoff` times that inverse. -/
def InvertibleRange (F : FloatFormat) : Prop :=
  F.emin + F.prec + F.emax ≤ 0 ∧ F.emin + 2 * F.prec + F.emax ≤ 3

/-- How far the entry in row `r` and column `j` of a product of computed factors can be from the entry of the matrix: `s` is the
sum of the absolute values of the products, `p` the pivot of the row. -/
def factorBound (F : FloatFormat) (r j : ℕ) (s p : ℚ) : ℚ :=
  ((1 + unitRoundoff F) ^ (min r j + 5) - 1) * s + (min r j + |p|) * (1 + unitRoundoff F) ^ (min r j + 4) * (2 ^ F.emin / 2)

/-- How far the computed product of the numbers can be from the exact product: a relative error for each product and an absolute
one, which the later factors scale. -/
def productBound (F : FloatFormat) (l : List ℚ) : ℚ :=
  ((1 + unitRoundoff F) ^ l.length - 1) * |l.prod| +
    (1 + unitRoundoff F) ^ l.length * (2 ^ F.emin / 2) * (l.tails.tail.map fun t => |t.prod|).sum

end Abstalg
