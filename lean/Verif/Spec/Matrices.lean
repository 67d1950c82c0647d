import Verif.Spec.Contracts
import Mathlib.LinearAlgebra.Matrix.Determinant.Basic
import Mathlib.LinearAlgebra.Matrix.Notation

/-! # Specification of matrices

Square matrices of size `n` are stored row by row in a vector. -/

set_option autoImplicit false

universe u

namespace Abstalg

/-- The entry of `v` in row `i` and column `j` represents `M i j`; the vector may have
further entries. -/
def MatPrefix {E : Type} {R : Type u} (rep : E → R → Prop) {n : ℕ} (v : List E)
    (M : Matrix (Fin n) (Fin n) R) : Prop :=
  ∀ i j : Fin n, ∃ a, v[i.1 * n + j.1]? = some a ∧ rep a (M i j)

/-- The vector `v` has `n * n` entries and represents the matrix `M`. -/
def MatRep {E : Type} {R : Type u} (rep : E → R → Prop) {n : ℕ} (v : List E)
    (M : Matrix (Fin n) (Fin n) R) : Prop :=
  v.length = n * n ∧ MatPrefix rep v M

/-- The leading principal minor of size `k`. -/
def leadingMinor {K : Type u} [CommRing K] {n : ℕ} (M : Matrix (Fin n) (Fin n) K) (k : ℕ)
    (hk : k ≤ n) : K :=
  (M.submatrix (Fin.castLE hk) (Fin.castLE hk)).det

/-- The minor with rows `0, ..., c - 1, r` and columns `0, ..., c`. -/
def borderedMinor {K : Type u} [CommRing K] {n : ℕ} (M : Matrix (Fin n) (Fin n) K) (c r : Fin n) :
    K :=
  (M.submatrix (fun i : Fin (c.1 + 1) => if i.1 < c.1 then ⟨i.1, by omega⟩ else r)
    (Fin.castLE (by omega) : Fin (c.1 + 1) → Fin n)).det

/-- The order in which the rows of `M` become pivots in Gauss elimination with the first possible
pivot, stated with minors only: after `c` steps `σ i` is the row of `M` in place `i`. In step `c`
place `c` is exchanged with the first place `r` not before it for which the minor of the rows in
places `0, ..., c - 1, r` and the first columns is not zero. -/
inductive PivotOrder {K : Type u} [CommRing K] {n : ℕ} (M : Matrix (Fin n) (Fin n) K) :
    ℕ → Equiv.Perm (Fin n) → Prop
  | start : PivotOrder M 0 1
  | step {c r : Fin n} {σ : Equiv.Perm (Fin n)} (h : PivotOrder M c.1 σ) (hcr : c ≤ r)
      (hr : borderedMinor (M.submatrix σ id) c r ≠ 0)
      (hmin : ∀ i, c ≤ i → i < r → borderedMinor (M.submatrix σ id) c i = 0) :
      PivotOrder M (c.1 + 1) (σ * Equiv.swap c r)

end Abstalg
