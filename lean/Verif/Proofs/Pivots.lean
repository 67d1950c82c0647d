import Verif.Spec.Matrices
import Mathlib.LinearAlgebra.Matrix.ToLinearEquiv
import Mathlib.LinearAlgebra.Matrix.Block
import Mathlib.LinearAlgebra.Vandermonde
import Mathlib.LinearAlgebra.Matrix.Charpoly.Basic
import Mathlib.LinearAlgebra.Matrix.Charpoly.Coeff
import Mathlib.LinearAlgebra.Matrix.Adjugate
import Mathlib.Algebra.Order.AbsoluteValue.Basic

/-! # Leading minors that do not vanish -/

set_option autoImplicit false

universe u v

namespace Abstalg

variable {K : Type u} [Field K] {n : ℕ} {M : Matrix (Fin n) (Fin n) K}

/-- The quadratic form of a leading submatrix is that of the matrix on vectors ending in zeros. -/
theorem exists_extension (k : ℕ) (hk : k ≤ n) (y : Fin k → K) : ∃ x : Fin n → K, (x = 0 → y = 0) ∧
    x ⬝ᵥ M.mulVec x = y ⬝ᵥ (M.submatrix (Fin.castLE hk) (Fin.castLE hk)).mulVec y := by
  let P : Matrix (Fin n) (Fin k) K := (1 : Matrix (Fin n) (Fin n) K).submatrix id (Fin.castLE hk)
  have hP : M.submatrix (Fin.castLE hk) (Fin.castLE hk) = P.transpose * M * P := by
    have h2 : P.transpose = (1 : Matrix (Fin n) (Fin n) K).submatrix (Fin.castLE hk) id := by
      rw [Matrix.transpose_submatrix, Matrix.transpose_one]
    rw [h2, show M = M.submatrix id id from rfl, ← Matrix.submatrix_mul _ _ _ _ _ Function.bijective_id,
      ← Matrix.submatrix_mul _ _ _ _ _ Function.bijective_id, Matrix.one_mul, Matrix.mul_one]
    rfl
  refine ⟨P.mulVec y, fun h2 => ?_, ?_⟩
  · funext i
    have h3 := congrFun h2 (Fin.castLE hk i)
    rw [Matrix.mulVec, dotProduct, Finset.sum_eq_single i] at h3
    · rw [show P (Fin.castLE hk i) i = 1 from Matrix.one_apply_eq _, one_mul] at h3
      exact h3
    · intro j _ hj
      have : Fin.castLE hk i ≠ Fin.castLE hk j := fun h => hj (Fin.castLE_injective hk h).symm
      rw [show P (Fin.castLE hk i) j = 0 from Matrix.one_apply_ne this, zero_mul]
    · intro hi
      exact absurd (Finset.mem_univ i) hi
  · rw [Matrix.mulVec_mulVec, Matrix.dotProduct_mulVec, Matrix.vecMul_mulVec, ← Matrix.dotProduct_mulVec,
      ← Matrix.mul_assoc, ← hP]

/-- The leading minors of a matrix whose quadratic form vanishes only at zero. -/
theorem leadingMinor_ne_zero_of_anisotropic (h : ∀ x : Fin n → K, x ≠ 0 → x ⬝ᵥ M.mulVec x ≠ 0) (k : ℕ) (hk : k ≤ n) :
    leadingMinor M k hk ≠ 0 := by
  intro h0
  obtain ⟨y, hy, h1⟩ := Matrix.exists_mulVec_eq_zero_iff.2 h0
  obtain ⟨x, h2, h3⟩ := exists_extension (M := M) k hk y
  rw [h1, dotProduct_zero] at h3
  exact h x (fun h4 => hy (h2 h4)) h3

/-- The leading minors of a positive definite matrix, which need not be symmetric. -/
theorem leadingMinor_pos [LinearOrder K] [IsStrictOrderedRing K] (h : ∀ x : Fin n → K, x ≠ 0 → 0 < x ⬝ᵥ M.mulVec x)
    (k : ℕ) (hk : k ≤ n) : 0 < leadingMinor M k hk := by
  have h0 := leadingMinor_ne_zero_of_anisotropic (M := M) fun x hx => (h x hx).ne'
  induction k with
  | zero => simp [leadingMinor]
  | succ k ih =>
    have h1 := ih (by omega)
    set N := M.submatrix (Fin.castLE hk) (Fin.castLE hk) with hN
    let y : Fin (k + 1) → K := fun i => N.adjugate i (Fin.last k)
    have h2 : y (Fin.last k) = leadingMinor M k (by omega) := by
      show N.adjugate _ _ = _
      rw [Matrix.adjugate_fin_succ_eq_det_submatrix, ← two_mul, pow_mul, neg_one_sq, one_pow, one_mul, Fin.succAbove_last]
      rfl
    have h3 : N.mulVec y = fun i => N.det * (1 : Matrix (Fin (k + 1)) (Fin (k + 1)) K) i (Fin.last k) := by
      funext i
      have := congrFun (congrFun (Matrix.mul_adjugate N) i) (Fin.last k)
      rw [Matrix.mul_apply] at this
      exact this
    have h4 : y ⬝ᵥ N.mulVec y = leadingMinor M k (by omega) * leadingMinor M (k + 1) hk := by
      rw [h3, dotProduct, Finset.sum_eq_single (Fin.last k), Matrix.one_apply_eq, mul_one, h2]
      · rfl
      · intro i _ hi
        rw [Matrix.one_apply_ne hi, mul_zero, mul_zero]
      · intro hi
        exact absurd (Finset.mem_univ _) hi
    obtain ⟨x, h5, h6⟩ := exists_extension (M := M) (k + 1) hk y
    have h7 := h x fun hx => h1.ne' (by rw [← h2, h5 hx]; rfl)
    rw [h6, h4] at h7
    exact (pos_iff_pos_of_mul_pos h7).1 h1

/-- A matrix with strictly dominant diagonal is not singular. -/
theorem det_ne_zero_of_dominant {S : Type v} [Field S] [LinearOrder S] [IsStrictOrderedRing S]
    (abv : AbsoluteValue K S) (h : ∀ i, ∑ j ∈ Finset.univ.erase i, abv (M i j) < abv (M i i)) : M.det ≠ 0 := by
  intro h0
  obtain ⟨y, hy, h1⟩ := Matrix.exists_mulVec_eq_zero_iff.2 h0
  obtain ⟨l, hl⟩ := Function.ne_iff.1 hy
  have : Nonempty (Fin n) := ⟨l⟩
  obtain ⟨i, hi⟩ := Finite.exists_max fun i => abv (y i)
  have h2 : 0 < abv (y i) := lt_of_lt_of_le (abv.pos hl) (hi l)
  have h3 : M i i * y i = -∑ j ∈ Finset.univ.erase i, M i j * y j := by
    have h4 := congrFun h1 i
    rw [Matrix.mulVec, dotProduct, ← Finset.add_sum_erase _ _ (Finset.mem_univ i), Pi.zero_apply] at h4
    exact eq_neg_of_add_eq_zero_left h4
  have h5 : abv (M i i) * abv (y i) ≤ (∑ j ∈ Finset.univ.erase i, abv (M i j)) * abv (y i) := by
    rw [← abv.map_mul, h3, abv.map_neg, Finset.sum_mul]
    refine (abv.sum_le _ _).trans (Finset.sum_le_sum fun j _ => ?_)
    rw [abv.map_mul]
    exact mul_le_mul_of_nonneg_left (hi j) (abv.nonneg _)
  exact absurd (le_of_mul_le_mul_right h5 h2) (not_le.2 (h i))

theorem leadingMinor_ne_zero_of_dominant {S : Type v} [Field S] [LinearOrder S] [IsStrictOrderedRing S]
    (abv : AbsoluteValue K S) (h : ∀ i, ∑ j ∈ Finset.univ.erase i, abv (M i j) < abv (M i i)) (k : ℕ) (hk : k ≤ n) :
    leadingMinor M k hk ≠ 0 := by
  refine det_ne_zero_of_dominant abv fun i => lt_of_le_of_lt ?_ (h (Fin.castLE hk i))
  have h1 : ∑ j ∈ Finset.univ.erase i, abv (M.submatrix (Fin.castLE hk) (Fin.castLE hk) i j) =
      ∑ j ∈ (Finset.univ.erase i).map (Fin.castLEEmb hk), abv (M (Fin.castLE hk i) j) := by
    rw [Finset.sum_map]
    rfl
  rw [h1]
  refine Finset.sum_le_sum_of_subset_of_nonneg (fun j hj => ?_) fun j _ _ => abv.nonneg _
  obtain ⟨l, hl, rfl⟩ := Finset.mem_map.1 hj
  exact Finset.mem_erase.2 ⟨fun h => (Finset.mem_erase.1 hl).1 (Fin.castLE_injective hk h), Finset.mem_univ _⟩

theorem leadingMinor_transpose (k : ℕ) (hk : k ≤ n) : leadingMinor M.transpose k hk = leadingMinor M k hk := by
  unfold leadingMinor
  rw [← Matrix.det_transpose, Matrix.transpose_submatrix, Matrix.transpose_transpose]

/-- The leading minors of a product of a lower and an upper triangular matrix. -/
theorem leadingMinor_mul_triangular {L U : Matrix (Fin n) (Fin n) K} (hL : ∀ i j, i < j → L i j = 0)
    (hU : ∀ i j, j < i → U i j = 0) (k : ℕ) (hk : k ≤ n) :
    leadingMinor (L * U) k hk = ∏ i : Fin k, L (Fin.castLE hk i) (Fin.castLE hk i) * U (Fin.castLE hk i) (Fin.castLE hk i) := by
  have h1 : (L * U).submatrix (Fin.castLE hk) (Fin.castLE hk) =
      L.submatrix (Fin.castLE hk) (Fin.castLE hk) * U.submatrix (Fin.castLE hk) (Fin.castLE hk) := by
    ext i j
    rw [Matrix.submatrix_apply, Matrix.mul_apply, Matrix.mul_apply]
    have h2 : ∑ t : Fin k, L (Fin.castLE hk i) (Fin.castLE hk t) * U (Fin.castLE hk t) (Fin.castLE hk j) =
        ∑ t ∈ Finset.univ.map (Fin.castLEEmb hk), L (Fin.castLE hk i) t * U t (Fin.castLE hk j) := by
      rw [Finset.sum_map]
      rfl
    refine Eq.trans ?_ h2.symm
    refine (Finset.sum_subset (Finset.subset_univ _) fun t _ ht => ?_).symm
    rw [hL _ _, zero_mul]
    by_contra hlt
    exact ht (Finset.mem_map.2 ⟨⟨t.1, lt_of_le_of_lt (not_lt.1 hlt) i.2⟩, Finset.mem_univ _, rfl⟩)
  unfold leadingMinor
  have h3 : (L.submatrix (Fin.castLE hk) (Fin.castLE hk)).det = ∏ i : Fin k, L (Fin.castLE hk i) (Fin.castLE hk i) :=
    Matrix.det_of_isLowerTriangular _ fun i j hij => hL _ _ hij
  have h4 : (U.submatrix (Fin.castLE hk) (Fin.castLE hk)).det = ∏ i : Fin k, U (Fin.castLE hk i) (Fin.castLE hk i) :=
    Matrix.det_of_isUpperTriangular fun i j hij => hU _ _ hij
  rw [h1, Matrix.det_mul, h3, h4, Finset.prod_mul_distrib]

/-- The leading minors of a Vandermonde matrix. -/
theorem leadingMinor_vandermonde (a : Fin n → K) (k : ℕ) (hk : k ≤ n) :
    leadingMinor (Matrix.vandermonde a) k hk = (Matrix.vandermonde fun i => a (Fin.castLE hk i)).det := rfl

/-- The leading minors of the characteristic matrix are characteristic polynomials. -/
theorem leadingMinor_charmatrix (k : ℕ) (hk : k ≤ n) :
    leadingMinor M.charmatrix k hk = (M.submatrix (Fin.castLE hk) (Fin.castLE hk)).charpoly := by
  unfold leadingMinor Matrix.charpoly
  congr 1
  ext i j : 1
  rw [Matrix.submatrix_apply, Matrix.charmatrix_apply, Matrix.charmatrix_apply, Matrix.diagonal_apply,
    Matrix.diagonal_apply, Matrix.submatrix_apply]
  simp only [(Fin.castLE_injective hk).eq_iff]

theorem leadingMinor_map {R S : Type u} [CommRing R] [CommRing S] (f : R →+* S) (A : Matrix (Fin n) (Fin n) R) (k : ℕ)
    (hk : k ≤ n) : leadingMinor (A.map f) k hk = f (leadingMinor A k hk) := by
  unfold leadingMinor
  rw [RingHom.map_det]
  rfl

end Abstalg
