import Verif.Proofs.Pivots
import Verif.Props.Matrices
import Verif.Props.Towers
import Mathlib.Algebra.Order.AbsoluteValue.Euclidean
import Mathlib.Tactic.Positivity
import Mathlib.Tactic.Linarith

/-! # Matrices whose determinant is returned with the right sign: C90 -/

set_option linter.unusedSectionVars false

set_option autoImplicit false

universe u v

namespace Abstalg

open Polynomial

section

variable [Cfg] {E : Type} {R : Type u} [Field R] {mp : Prop} {rep : E → R → Prop} (n : ℕ)
  {base : FieldOps E} {v w : List E} {M N : Matrix (Fin n) (Fin n) R}

/-- A rational matrix of size two and the fraction returned as its determinant. -/
theorem qq_determinant {a b c d q : ℚ} {w : List (ℤ × ℤ)} (hd : a * d - b * c = q)
    (h : Returns False (MatrixRing.determinant ReducedFractions.QQ 2 w) (QRep · (!![a, b; c, d]).det)) :
    MatrixRing.determinant ReducedFractions.QQ 2 w = .ok (q.num, q.den) := by
  obtain ⟨e, he, h1, h2⟩ := returns_false_iff.1 h
  rw [Matrix.det_fin_two_of, hd] at h1 h2
  rw [he]
  exact congrArg _ (Prod.ext h1 h2)

/-- C90: if every entry of the diagonal exceeds the sum of the others of its row, in an absolute value,
then `determinant` returns the determinant. -/
theorem C90_dominant_rows {S : Type v} [Field S] [LinearOrder S] [IsStrictOrderedRing S] (abv : AbsoluteValue R S)
    (h : FieldSpec mp base rep) (hv : MatRep rep v M)
    (hd : ∀ i, ∑ j ∈ Finset.univ.erase i, abv (M i j) < abv (M i i)) :
    Returns mp (MatrixRing.determinant base n v) (rep · M.det) :=
  C41_no_swap n h hv fun k hk => leadingMinor_ne_zero_of_dominant abv hd k hk.le

/-- The matrix `[[3, 1], [1, 2]]` of determinant `5`. -/
example : MatrixRing.determinant ReducedFractions.QQ 2 [(3, 1), (1, 1), (1, 1), (2, 1)] = .ok (5, 1) := by
  refine qq_determinant (a := 3) (b := 1) (c := 1) (d := 2) (q := 5) (by norm_num)
    (C90_dominant_rows 2 AbsoluteValue.abs C26_rationals ⟨rfl, fun i j => ?_⟩ fun i => ?_)
  · fin_cases i <;> fin_cases j <;> exact ⟨_, rfl, by simp [QRep]⟩
  · fin_cases i <;> simp [Finset.sum_erase_eq_sub, AbsoluteValue.abs]

/-- C90: the same for columns. -/
theorem C90_dominant_columns {S : Type v} [Field S] [LinearOrder S] [IsStrictOrderedRing S] (abv : AbsoluteValue R S)
    (h : FieldSpec mp base rep) (hv : MatRep rep v M)
    (hd : ∀ j, ∑ i ∈ Finset.univ.erase j, abv (M i j) < abv (M j j)) :
    Returns mp (MatrixRing.determinant base n v) (rep · M.det) :=
  C41_no_swap n h hv fun k hk => by
    rw [← leadingMinor_transpose]
    exact leadingMinor_ne_zero_of_dominant (M := M.transpose) abv hd k hk.le

/-- The matrix `[[3, 5], [1, 6]]`: its columns are dominated by the diagonal, its rows are not. -/
example : MatrixRing.determinant ReducedFractions.QQ 2 [(3, 1), (5, 1), (1, 1), (6, 1)] = .ok (13, 1) := by
  refine qq_determinant (a := 3) (b := 5) (c := 1) (d := 6) (q := 13) (by norm_num)
    (C90_dominant_columns 2 AbsoluteValue.abs C26_rationals ⟨rfl, fun i j => ?_⟩ fun i => ?_)
  · fin_cases i <;> fin_cases j <;> exact ⟨_, rfl, by simp [QRep]⟩
  · fin_cases i <;> simp [Finset.sum_erase_eq_sub, AbsoluteValue.abs] <;> norm_num

/-- C90: such a matrix is inverted. -/
theorem C90_dominant_inverse {S : Type v} [Field S] [LinearOrder S] [IsStrictOrderedRing S] (abv : AbsoluteValue R S)
    (h : FieldSpec mp base rep) (hv : MatRep rep v M)
    (hd : (∀ i, ∑ j ∈ Finset.univ.erase i, abv (M i j) < abv (M i i)) ∨
      ∀ j, ∑ i ∈ Finset.univ.erase j, abv (M i j) < abv (M j j)) :
    Returns mp ((MatrixRing.ops base n).tryInv v) fun r =>
      ∃ w N, r = some w ∧ MatRep rep w N ∧ M * N = 1 ∧ N * M = 1 := by
  refine (C40_try_inv n h hv).mono ?_
  rintro (_ | w) hw
  · refine absurd ((Matrix.isUnit_iff_isUnit_det M).2 (isUnit_iff_ne_zero.2 ?_)) hw
    rcases hd with hd | hd
    · exact det_ne_zero_of_dominant abv hd
    · rw [← Matrix.det_transpose]
      exact det_ne_zero_of_dominant (M := M.transpose) abv hd
  · obtain ⟨N, hN⟩ := hw
    exact ⟨w, N, rfl, hN⟩

example : ∃ w, (MatrixRing.ops ReducedFractions.QQ 2).tryInv [(3, 1), (1, 1), (1, 1), (2, 1)] = .ok (some w) := by
  obtain ⟨r, h1, w, N, rfl, -⟩ := returns_false_iff.1 (C90_dominant_inverse (M := !![(3 : ℚ), 1; 1, 2]) 2
    AbsoluteValue.abs C26_rationals (v := [(3, 1), (1, 1), (1, 1), (2, 1)]) (by
      refine ⟨rfl, fun i j => ?_⟩
      fin_cases i <;> fin_cases j <;> exact ⟨_, rfl, by simp⟩) (.inl fun i => by
      fin_cases i <;> simp [Finset.sum_erase_eq_sub, AbsoluteValue.abs] ))
  exact ⟨w, h1⟩

/-- C90: if the quadratic form of the matrix vanishes only at the zero vector then `determinant` returns
the determinant. -/
theorem C90_anisotropic (h : FieldSpec mp base rep) (hv : MatRep rep v M)
    (hd : ∀ x : Fin n → R, x ≠ 0 → x ⬝ᵥ M.mulVec x ≠ 0) :
    Returns mp (MatrixRing.determinant base n v) (rep · M.det) :=
  C41_no_swap n h hv fun k hk => leadingMinor_ne_zero_of_anisotropic hd k hk.le

/-- C90: for a positive definite matrix over an ordered field, symmetric or not, the result is the
determinant and it is positive. -/
theorem C90_positive [LinearOrder R] [IsStrictOrderedRing R] (h : FieldSpec mp base rep) (hv : MatRep rep v M)
    (hd : ∀ x : Fin n → R, x ≠ 0 → 0 < x ⬝ᵥ M.mulVec x) :
    Returns mp (MatrixRing.determinant base n v) (rep · M.det) ∧ 0 < M.det :=
  ⟨C90_anisotropic n h hv fun x hx => (hd x hx).ne', by
    have := leadingMinor_pos hd n le_rfl
    rwa [leadingMinor, show M.submatrix (Fin.castLE le_rfl) (Fin.castLE le_rfl) = M from rfl] at this⟩

/-- The matrix `[[1, 3], [-2, 1]]` has the form `x² + x y + y²` and is dominated by no diagonal. -/
example : MatrixRing.determinant ReducedFractions.QQ 2 [(1, 1), (3, 1), (-2, 1), (1, 1)] = .ok (7, 1) := by
  refine qq_determinant (a := 1) (b := 3) (c := -2) (d := 1) (q := 7) (by norm_num)
    (C90_positive 2 C26_rationals ⟨rfl, fun i j => ?_⟩ fun x hx => ?_).1
  · fin_cases i <;> fin_cases j <;> exact ⟨_, rfl, by simp⟩
  · have h0 : x 0 ≠ 0 ∨ x 1 ≠ 0 := by
      by_contra! h0
      exact hx (funext fun i => by fin_cases i <;> [exact h0.1; exact h0.2])
    have h1 : x ⬝ᵥ (!![(1 : ℚ), 3; -2, 1]).mulVec x = (x 0 + x 1 / 2) ^ 2 + 3 / 4 * x 1 ^ 2 := by
      simp [dotProduct, Matrix.mulVec, Fin.sum_univ_two]
      ring
    rw [h1]
    by_cases h2 : x 1 = 0
    · have := h0.resolve_right (not_not.2 h2)
      rw [h2, zero_div, add_zero]
      positivity
    · positivity

/-- C90: the product of a lower and an upper triangular matrix has the product of the entries of both
diagonals as its determinant, and this is returned. -/
theorem C90_lower_upper (h : FieldSpec mp base rep) {L U : Matrix (Fin n) (Fin n) R} (hv : MatRep rep v (L * U))
    (hL : ∀ i j, i < j → L i j = 0) (hU : ∀ i j, j < i → U i j = 0) :
    Returns mp (MatrixRing.determinant base n v) (rep · (∏ i, L i i * U i i)) := by
  have h1 : (L * U).det = ∏ i, L i i * U i i := leadingMinor_mul_triangular hL hU n le_rfl
  rw [← h1]
  by_cases h0 : (L * U).det = 0
  · refine (C41_zero_iff n h hv).mono fun e he => ?_
    rw [h0]
    exact he.2 h0
  · refine C41_no_swap n h hv fun k hk => ?_
    rw [leadingMinor_mul_triangular hL hU, Finset.prod_ne_zero_iff]
    rw [h1] at h0
    exact fun i _ => Finset.prod_ne_zero_iff.1 h0 _ (Finset.mem_univ _)

/-- The matrix `[[2, 1], [4, 5]]` is the product of `[[1, 0], [2, 1]]` and `[[2, 1], [0, 3]]`. -/
example : Returns False (MatrixRing.determinant ReducedFractions.QQ 2 [(2, 1), (1, 1), (4, 1), (5, 1)]) (QRep · 6) := by
  have h1 : MatRep QRep [(2, 1), (1, 1), (4, 1), (5, 1)] (!![(1 : ℚ), 0; 2, 1] * !![(2 : ℚ), 1; 0, 3]) := by
    rw [show !![(1 : ℚ), 0; 2, 1] * !![(2 : ℚ), 1; 0, 3] = !![(2 : ℚ), 1; 4, 5] by
      ext i j; fin_cases i <;> fin_cases j <;> simp [Matrix.mul_apply, Fin.sum_univ_two] <;> norm_num]
    refine ⟨rfl, fun i j => ?_⟩
    fin_cases i <;> fin_cases j <;> exact ⟨_, rfl, by simp [QRep]⟩
  have := C90_lower_upper 2 C26_rationals h1 (by intro i j h; fin_cases i <;> fin_cases j <;> simp_all)
    (by intro i j h; fin_cases i <;> fin_cases j <;> simp_all)
  rwa [show (∏ i : Fin 2, (!![(1 : ℚ), 0; 2, 1]) i i * (!![(2 : ℚ), 1; 0, 3]) i i) = 6 by
    simp [Fin.prod_univ_two]; norm_num] at this

/-- C90: for the matrix of the powers of the entries of a vector, distinct or not, the result is the
product of the differences. -/
theorem C90_vandermonde (h : FieldSpec mp base rep) {a : Fin n → R} (hv : MatRep rep v (Matrix.vandermonde a)) :
    Returns mp (MatrixRing.determinant base n v) (rep · (∏ i : Fin n, ∏ j ∈ Finset.Ioi i, (a j - a i))) := by
  rw [← Matrix.det_vandermonde]
  by_cases h0 : (Matrix.vandermonde a).det = 0
  · refine (C41_zero_iff n h hv).mono fun e he => ?_
    rw [h0]
    exact he.2 h0
  · refine C41_no_swap n h hv fun k hk => ?_
    rw [leadingMinor_vandermonde, Matrix.det_vandermonde_ne_zero_iff]
    exact fun i j hij => Fin.castLE_injective hk.le (Matrix.det_vandermonde_ne_zero_iff.1 h0 hij)

/-- The powers of `2, 5`. -/
example : Returns False (MatrixRing.determinant ReducedFractions.QQ 2 [(1, 1), (2, 1), (1, 1), (5, 1)]) (QRep · 3) := by
  have := C90_vandermonde (a := ![(2 : ℚ), 5]) 2 C26_rationals (v := [(1, 1), (2, 1), (1, 1), (5, 1)]) (by
    refine ⟨rfl, fun i j => ?_⟩
    fin_cases i <;> fin_cases j <;> exact ⟨_, rfl, by simp [Matrix.vandermonde_apply]⟩)
  rwa [show (∏ i : Fin 2, ∏ j ∈ Finset.Ioi i, ((![(2 : ℚ), 5]) j - (![(2 : ℚ), 5]) i)) = 3 by
    rw [← Matrix.det_vandermonde, Matrix.det_fin_two]; simp [Matrix.vandermonde_apply]; norm_num] at this

/-- C90: a matrix of polynomials, taken as fractions with denominator one, whose leading minors do not
vanish has a polynomial as its determinant, and this is returned. -/
theorem C90_polynomial_entries (h : FieldSpec mp base rep) (P : Matrix (Fin n) (Fin n) R[X])
    (hm : ∀ k (hk : k < n), leadingMinor P k hk.le ≠ 0) :
    Returns mp (ReducedFractions.new (PolynomialAlgebra.euclidean base)) fun A => ∀ v : List (List E × List E),
      MatRep (fun e (p : R[X]) => RingPolyRep rep e.1 p ∧ RingPolyRep rep e.2 1) v P →
      Returns mp (MatrixRing.determinant A n v) fun e => RingPolyRep rep e.1 P.det ∧ RingPolyRep rep e.2 1 := by
  refine (C82_rational_functions h).mono fun A hA v hv => ?_
  have h1 : MatRep (fun (e : List E × List E) (r : RatFunc R) => RingPolyRep rep e.1 r.num ∧ RingPolyRep rep e.2 r.denom)
      v (P.map (algebraMap R[X] (RatFunc R))) := by
    refine ⟨hv.1, fun i j => ?_⟩
    obtain ⟨e, h2, h3, h4⟩ := hv.2 i j
    refine ⟨e, h2, ?_, ?_⟩
    · rw [Matrix.map_apply, RatFunc.num_algebraMap]; exact h3
    · rw [Matrix.map_apply, RatFunc.denom_algebraMap]; exact h4
  refine (C41_no_swap n hA h1 fun k hk => ?_).mono fun e he => ?_
  · rw [leadingMinor_map]
    exact fun h2 => hm k hk ((map_eq_zero_iff _ (RatFunc.algebraMap_injective R)).1 h2)
  · have h2 : (P.map (algebraMap R[X] (RatFunc R))).det = algebraMap R[X] (RatFunc R) P.det :=
      ((algebraMap R[X] (RatFunc R)).map_det P).symm
    rwa [h2, RatFunc.num_algebraMap, RatFunc.denom_algebraMap] at he

/-- C90: the characteristic polynomial of a matrix over a field is the `determinant` of `x - M` over the
rational functions, returned with denominator one. -/
theorem C90_characteristic_polynomial (h : FieldSpec mp base rep) (M : Matrix (Fin n) (Fin n) R) :
    Returns mp (ReducedFractions.new (PolynomialAlgebra.euclidean base)) fun A => ∀ v : List (List E × List E),
      MatRep (fun e (p : R[X]) => RingPolyRep rep e.1 p ∧ RingPolyRep rep e.2 1) v M.charmatrix →
      Returns mp (MatrixRing.determinant A n v) fun e =>
        RingPolyRep rep e.1 M.charpoly ∧ RingPolyRep rep e.2 1 :=
  C90_polynomial_entries n h M.charmatrix fun k hk => by
    rw [leadingMinor_charmatrix]
    exact (Matrix.charpoly_monic _).ne_zero

/-- C90: and `x - M` is inverted over the rational functions for every `M`. -/
theorem C90_resolvent (h : FieldSpec mp base rep) (M : Matrix (Fin n) (Fin n) R) :
    Returns mp (ReducedFractions.new (PolynomialAlgebra.euclidean base)) fun A => ∀ v : List (List E × List E),
      MatRep (fun e (p : R[X]) => RingPolyRep rep e.1 p ∧ RingPolyRep rep e.2 1) v M.charmatrix →
      Returns mp ((MatrixRing.ops A n).tryInv v) fun r => ∃ w, r = some w ∧
        MatRep (fun e (r : RatFunc R) => RingPolyRep rep e.1 r.num ∧ RingPolyRep rep e.2 r.denom) w
          (M.charmatrix.adjugate.map fun p => algebraMap R[X] (RatFunc R) p / algebraMap R[X] (RatFunc R) M.charpoly) := by
  refine (C82_rational_functions h).mono fun A hA v hv => ?_
  have h1 : MatRep (fun (e : List E × List E) (r : RatFunc R) => RingPolyRep rep e.1 r.num ∧ RingPolyRep rep e.2 r.denom)
      v (M.charmatrix.map (algebraMap R[X] (RatFunc R))) := by
    refine ⟨hv.1, fun i j => ?_⟩
    obtain ⟨e, h2, h3, h4⟩ := hv.2 i j
    refine ⟨e, h2, ?_, ?_⟩
    · rw [Matrix.map_apply, RatFunc.num_algebraMap]; exact h3
    · rw [Matrix.map_apply, RatFunc.denom_algebraMap]; exact h4
  have h0 : algebraMap R[X] (RatFunc R) M.charpoly ≠ 0 :=
    fun h2 => (Matrix.charpoly_monic M).ne_zero ((map_eq_zero_iff _ (RatFunc.algebraMap_injective R)).1 h2)
  have h3 : M.charmatrix.map (algebraMap R[X] (RatFunc R)) * (M.charmatrix.adjugate.map fun p =>
      algebraMap R[X] (RatFunc R) p / algebraMap R[X] (RatFunc R) M.charpoly) = 1 := by
    have h4 : (M.charmatrix.adjugate.map fun p => algebraMap R[X] (RatFunc R) p / algebraMap R[X] (RatFunc R) M.charpoly) =
        (algebraMap R[X] (RatFunc R) M.charpoly)⁻¹ • M.charmatrix.adjugate.map (algebraMap R[X] (RatFunc R)) := by
      ext i j : 1
      rw [Matrix.map_apply, Matrix.smul_apply, Matrix.map_apply, smul_eq_mul, div_eq_inv_mul]
    rw [h4, Matrix.mul_smul, ← Matrix.map_mul, Matrix.mul_adjugate]
    ext i j : 1
    rw [Matrix.smul_apply, Matrix.map_apply, Matrix.smul_apply, smul_eq_mul, smul_eq_mul, map_mul,
      show M.charmatrix.det = M.charpoly from rfl, ← mul_assoc, inv_mul_cancel₀ h0, one_mul, Matrix.one_apply,
      Matrix.one_apply]
    split <;> simp
  refine (C40_try_inv n hA h1).mono ?_
  rintro (_ | w) hw
  · exact absurd (IsUnit.of_mul_eq_one _ h3) hw
  · obtain ⟨N, h5, h6, h7⟩ := hw
    refine ⟨w, rfl, ?_⟩
    have : N = _ := left_inv_eq_right_inv h7 h3
    rwa [← this]

/-- The matrix `[[0, 1], [1, 0]]`, whose own determinant gets the wrong sign: `x - M` is `[[x, -1], [-1, x]]`
and its determinant `x² - 1` has the right one. -/
example : Returns False (ReducedFractions.new (PolynomialAlgebra.euclidean ReducedFractions.QQ)) fun A =>
    Returns False (MatrixRing.determinant A 2 [([(0, 1), (1, 1)], [(1, 1)]), ([(-1, 1)], [(1, 1)]),
      ([(-1, 1)], [(1, 1)]), ([(0, 1), (1, 1)], [(1, 1)])]) fun e =>
        RingPolyRep QRep e.1 (X ^ 2 - 1 : ℚ[X]) ∧ RingPolyRep QRep e.2 1 := by
  have hr : ∀ {a b : ℤ} {q : ℚ}, q.num = a → (q.den : ℤ) = b → QRep (a, b) q := fun h1 h2 => ⟨h1.symm, h2.symm⟩
  have hx : RingPolyRep QRep [(0, 1), (1, 1)] (X : ℚ[X]) := by
    have : RingPolyRep QRep [(0, 1), (1, 1)] (polyOf [0, 1]) :=
      polyOf_rep (.cons (hr rfl rfl) (.cons (hr rfl rfl) .nil)) (by decide +kernel)
    simpa [polyOf] using this
  have h1 : RingPolyRep QRep [(1, 1)] (1 : ℚ[X]) := by
    have : RingPolyRep QRep [(1, 1)] (polyOf [1]) := polyOf_rep (.cons (hr rfl rfl) .nil) (by decide +kernel)
    simpa [polyOf] using this
  have hm : RingPolyRep QRep [(-1, 1)] (-1 : ℚ[X]) := by
    have : RingPolyRep QRep [(-1, 1)] (polyOf [-1]) := polyOf_rep (.cons (hr rfl rfl) .nil) (by decide +kernel)
    simpa [polyOf] using this
  refine (C90_characteristic_polynomial 2 C26_rationals !![(0 : ℚ), 1; 1, 0]).mono fun A hA => ?_
  have := hA [([(0, 1), (1, 1)], [(1, 1)]), ([(-1, 1)], [(1, 1)]), ([(-1, 1)], [(1, 1)]),
    ([(0, 1), (1, 1)], [(1, 1)])] ⟨rfl, fun i j => ?_⟩
  · rwa [show (!![(0 : ℚ), 1; 1, 0]).charpoly = X ^ 2 - 1 by
      rw [Matrix.charpoly_fin_two]; simp [Matrix.trace_fin_two, Matrix.det_fin_two]; ring] at this
  · fin_cases i <;> fin_cases j
    · exact ⟨_, rfl, by simpa [Matrix.charmatrix_apply] using hx, h1⟩
    · exact ⟨_, rfl, by simpa [Matrix.charmatrix_apply] using hm, h1⟩
    · exact ⟨_, rfl, by simpa [Matrix.charmatrix_apply] using hm, h1⟩
    · exact ⟨_, rfl, by simpa [Matrix.charmatrix_apply] using hx, h1⟩

end

end Abstalg
