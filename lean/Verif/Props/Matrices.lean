import Verif.Proofs.Groups
import Verif.Proofs.DetSign
import Verif.Proofs.MatrixElim
import Verif.Props.Fractions
import Verif.Props.Vectors
import Verif.Model.MultiplicativeGroup

/-! # Matrices: C38-C41, C57, C58 -/

set_option linter.unusedSectionVars false

set_option autoImplicit false

universe u

namespace Abstalg

/-- The representation of the rational numbers. -/
abbrev QRep (a : ℤ × ℤ) (q : ℚ) : Prop := a.1 = q.num ∧ a.2 = q.den

/-- The matrix `[[0, 1], [1, 0]]` over `QQ`, used in examples. -/
theorem swapMatrix_rep : MatRep QRep [(0, 1), (1, 1), (1, 1), (0, 1)] !![(0 : ℚ), 1; 1, 0] := by
  refine ⟨rfl, fun i j => ?_⟩
  fin_cases i <;> fin_cases j <;> exact ⟨_, rfl, rfl, rfl⟩

theorem swapMatrix_isUnit : IsUnit (!![(0 : ℚ), 1; 1, 0]) :=
  IsUnit.of_mul_eq_one (!![(0 : ℚ), 1; 1, 0]) (by ext i j; fin_cases i <;> fin_cases j <;> simp)

section

variable [Cfg] {E : Type} {R : Type u} [Field R] {mp : Prop} {rep : E → R → Prop} (n : ℕ)
  {base : FieldOps E} {v w : List E} {M N : Matrix (Fin n) (Fin n) R}

/-- C39: the operations are those of the ring of matrices over the field. -/
theorem C39_matrix_ring (h : FieldSpec mp base rep) :
    UnitaryRingSpec mp (MatrixRing.ops base n) (MatRep (n := n) rep) :=
  MatrixRing.spec h

/-- The product of `[[1, 1], [0, 1]]` and `[[0, 1], [1, 1]]` over the field with two elements is
`[[1, 0], [1, 1]]`. -/
example : FieldSpec False TwoElementAlgebra.field TwoElementAlgebra.FRep ∧
    MatRep TwoElementAlgebra.FRep [true, true, false, true] !![(1 : ZMod 2), 1; 0, 1] ∧
    (MatrixRing.ops TwoElementAlgebra.field 2).mul [true, true, false, true]
      [false, true, true, true] = .ok [true, false, true, true] := by
  refine ⟨TwoElementAlgebra.spec, ⟨rfl, fun i j => ?_⟩, rfl⟩
  fin_cases i <;> fin_cases j <;> exact ⟨_, rfl, rfl⟩

/-- C39: the members are the vectors of `n * n` members of the base. -/
theorem C39_contains {dom : E → Prop} (h : ContainsExact mp base.toDomainOps rep dom) :
    ContainsExact mp (MatrixRing.ops base n).toDomainOps (MatRep (n := n) rep)
      fun v => ∀ a, a ∈ v → dom a := by
  intro v hd
  have := C36_contains (n * n) h v hd
  refine this.iff ⟨?_, ?_⟩
  · rintro ⟨f, hf⟩
    refine ⟨fun i j => f (finProdFinEquiv (i, j)), matRep_iff.2 ?_⟩
    rwa [show flatten (fun i j : Fin n => f (finProdFinEquiv (i, j))) = f from
      funext fun k => congrArg f (finProdFinEquiv.apply_symm_apply k)]
  · rintro ⟨M, hM⟩
    exact ⟨_, matRep_iff.1 hM⟩

/-- Vectors of the right and of the wrong length over the field with two elements. -/
example : (MatrixRing.ops TwoElementAlgebra.field 2).contains [true, false, true, true] = .ok true ∧
    (MatrixRing.ops TwoElementAlgebra.field 2).contains [true, false, true] = .ok false :=
  ⟨rfl, rfl⟩

/-- C39: every matrix is represented if every element of the field is. -/
theorem C39_surjective (h : ∀ x : R, ∃ a, rep a x) (M : Matrix (Fin n) (Fin n) R) :
    ∃ v : List E, MatRep rep v M := by
  obtain ⟨v, hv⟩ := C36_surjective (n * n) h (flatten M)
  exact ⟨v, matRep_iff.2 hv⟩

example : ∃ v : List (ℤ × ℤ), MatRep QRep v !![(1 / 2 : ℚ), -1; 3, 0] :=
  C39_surjective 2 (fun x => ⟨(x.num, x.den), rfl, rfl⟩) _

/-- C39: `transpose` is the transposed matrix; it panics on vectors of the wrong length. -/
theorem C39_transpose (hv : MatRep rep v M) :
    Returns mp (MatrixRing.transpose n v) (MatRep rep · M.transpose) :=
  MatrixRing.transpose_spec hv

/-- A two by two matrix. -/
example : MatrixRing.transpose 2 [1, 2, 3, 4] = .ok [1, 3, 2, 4] := rfl

/-- C39: the constructor accepts a size iff its square fits in `usize`. -/
theorem C39_new (base : FieldOps E) :
    MatrixRing.new base n = if n * n ≤ usizeMax then .ok (MatrixRing.ops base n) else .panic := by
  unfold MatrixRing.new
  by_cases h : n * n ≤ usizeMax <;> simp [h, Res.assert]

example (base : FieldOps E) : MatrixRing.new base 3 = .ok (MatrixRing.ops base 3) := by
  rw [C39_new, if_pos]
  have := Nat.pow_le_pow_right (n := 2) (by decide) (Cfg.ptrBits_ge)
  simp only [usizeMax]
  omega

/-- C40: `try_inv` returns the two-sided inverse iff there is one; with or without debug
assertions it does not panic. -/
theorem C40_try_inv (h : FieldSpec mp base rep) (hv : MatRep rep v M) :
    Returns mp ((MatrixRing.ops base n).tryInv v) fun
      | some w => ∃ N : Matrix (Fin n) (Fin n) R, MatRep rep w N ∧ M * N = 1 ∧ N * M = 1
      | none => ¬ IsUnit M :=
  MatrixRing.tryInv_spec h hv

/-- Over the field with two elements `[[1, 1], [0, 1]]` is its own inverse and `[[1, 1], [1, 1]]` is
singular. -/
example : (MatrixRing.ops TwoElementAlgebra.field 2).invertible [true, true, false, true] =
      .ok true ∧
    (MatrixRing.ops TwoElementAlgebra.field 2).tryInv [true, true, true, true] = .ok none ∧
    (MatrixRing.ops TwoElementAlgebra.field 2).invertible [true, true, true, true] = .ok false :=
  ⟨rfl, rfl, rfl⟩

/-- C40: `invertible` decides whether there is an inverse. -/
theorem C40_invertible (h : FieldSpec mp base rep) (hv : MatRep rep v M) :
    Decides mp ((MatrixRing.ops base n).invertible v) (∃ N, M * N = 1 ∧ N * M = 1) :=
  (MatrixRing.invertible_spec h hv.grid).iff isUnit_iff_exists

example : (MatrixRing.ops ReducedFractions.QQ 2).invertible [(0, 1), (1, 1), (1, 1), (0, 1)] = .ok true := by
  obtain ⟨b, h1, h2⟩ := returns_false_iff.1 (C40_invertible 2 C26_rationals swapMatrix_rep)
  rw [h1, h2.2 ⟨!![(0 : ℚ), 1; 1, 0], by ext i j; fin_cases i <;> fin_cases j <;> simp,
    by ext i j; fin_cases i <;> fin_cases j <;> simp⟩]

/-- C40: `try_inv` and `invertible` agree. -/
theorem C40_agree (h : FieldSpec False base rep) (hv : MatRep rep v M) :
    (MatrixRing.ops base n).invertible v =
      ((MatrixRing.ops base n).tryInv v).bind fun o => .ok o.isSome := by
  obtain ⟨o, ho, ho'⟩ := returns_false_iff.1 (C40_try_inv n h hv)
  obtain ⟨b, hb, hb'⟩ := returns_false_iff.1 (C40_invertible n h hv)
  rw [ho, hb]
  cases o with
  | some w =>
    obtain ⟨N, -, h1, h2⟩ := ho'
    rw [hb'.2 ⟨N, h1, h2⟩]; rfl
  | none =>
    have : b = false := by
      by_contra hb
      exact ho' (isUnit_iff_exists.2 (hb'.1 (by simpa using hb)))
    rw [this]; rfl

example : (MatrixRing.ops ReducedFractions.QQ 2).invertible [(0, 1), (1, 1), (1, 1), (0, 1)] =
    ((MatrixRing.ops ReducedFractions.QQ 2).tryInv [(0, 1), (1, 1), (1, 1), (0, 1)]).bind fun o => .ok o.isSome :=
  C40_agree 2 C26_rationals swapMatrix_rep

/-- C41: the result is the determinant up to sign. -/
theorem C41_up_to_sign (h : FieldSpec mp base rep) (hv : MatRep rep v M) :
    Returns mp (MatrixRing.determinant base n v) fun e => rep e M.det ∨ rep e (-M.det) := by
  refine (MatrixRing.determinant_spec h hv.grid).mono ?_
  rintro e ⟨y, he, rfl | rfl, -⟩
  · exact .inl he
  · exact .inr he

/-- At the matrix `[[0, 1], [1, 0]]` the result is `1` or `-1`. -/
example : ∃ e, MatrixRing.determinant ReducedFractions.QQ 2 [(0, 1), (1, 1), (1, 1), (0, 1)] = .ok e ∧ (QRep e (-1) ∨ QRep e 1) := by
  obtain ⟨e, h1, h2⟩ := returns_false_iff.1 (C41_up_to_sign 2 C26_rationals swapMatrix_rep)
  rw [show (!![(0 : ℚ), 1; 1, 0]).det = -1 by simp [Matrix.det_fin_two], neg_neg] at h2
  exact ⟨e, h1, h2⟩

/-- C41: the result is zero exactly for singular matrices. -/
theorem C41_zero_iff (h : FieldSpec mp base rep) (hv : MatRep rep v M) :
    Returns mp (MatrixRing.determinant base n v) fun e => rep e 0 ↔ M.det = 0 := by
  refine (MatrixRing.determinant_spec h hv.grid).mono ?_
  rintro e ⟨y, he, hy, -⟩
  have : rep e 0 ↔ y = 0 := ⟨fun h0 => h.rep_unique he h0, fun h0 => h0 ▸ he⟩
  rw [this]
  rcases hy with rfl | rfl
  · rfl
  · rw [neg_eq_zero]

example : ∃ e, MatrixRing.determinant ReducedFractions.QQ 2 [(0, 1), (1, 1), (1, 1), (0, 1)] = .ok e ∧ ¬ QRep e 0 := by
  obtain ⟨e, h1, h2⟩ := returns_false_iff.1 (C41_zero_iff 2 C26_rationals swapMatrix_rep)
  refine ⟨e, h1, fun h => ?_⟩
  have := h2.1 h
  simp [Matrix.det_fin_two] at this

/-- C41: the result is the determinant if all proper leading minors are nonzero, so that no row
exchange is needed. -/
theorem C41_no_swap (h : FieldSpec mp base rep) (hv : MatRep rep v M)
    (hm : ∀ k (hk : k < n), leadingMinor M k hk.le ≠ 0) :
    Returns mp (MatrixRing.determinant base n v) (rep · M.det) := by
  refine (MatrixRing.determinant_spec h hv.grid).mono ?_
  rintro e ⟨y, he, -, hy⟩
  rwa [hy hm] at he

/-- The hypothesis holds at the matrix `[[1, 2], [3, 4]]`. -/
example : (∀ k (hk : k < 2), leadingMinor !![(1 : ℚ), 2; 3, 4] k hk.le ≠ 0) ∧
    (!![(1 : ℚ), 2; 3, 4]).det = -2 := by
  refine ⟨fun k hk => ?_, by norm_num [Matrix.det_fin_two]⟩
  unfold leadingMinor
  obtain rfl | rfl : k = 0 ∨ k = 1 := by omega
  · simp
  · simp

/-- C41: the result is the determinant over fields of characteristic two. -/
theorem C41_char_two [CharP R 2] (h : FieldSpec mp base rep) (hv : MatRep rep v M) :
    Returns mp (MatrixRing.determinant base n v) (rep · M.det) := by
  refine (C41_up_to_sign n h hv).mono fun e he => ?_
  rwa [CharTwo.neg_eq, or_self] at he

/-- The field with two elements. -/
example : CharP (ZMod 2) 2 ∧ MatrixRing.determinant TwoElementAlgebra.field 2
    [false, true, true, true] = .ok true :=
  ⟨inferInstance, rfl⟩

/-- C41: if the pivot of the first column is not in the first row and no further exchange is needed
then the result is the negative of the determinant. -/
theorem C41_one_swap (h : FieldSpec False base rep) (hv : MatRep rep v M) {r c : Fin n}
    (hc : c.1 = 0) (hr : r ≠ c) (hp : M r c ≠ 0) (hz : ∀ i : Fin n, i < r → M i c = 0)
    (hm : ∀ k (hk : k < n),
      leadingMinor (M.submatrix (Equiv.swap c r) id) k hk.le ≠ 0) :
    Returns False (MatrixRing.determinant base n v) (rep · (-M.det)) :=
  MatrixRing.determinant_swap h hv.grid hc hr hp hz hm

/-- The hypotheses hold at the matrix `[[0, 1], [1, 0]]` with `r = 1`, `c = 0`. -/
example : (∀ i : Fin 2, i < 1 → !![(0 : ℚ), 1; 1, 0] i 0 = 0) ∧ ∀ k (hk : k < 2),
    leadingMinor ((!![(0 : ℚ), 1; 1, 0]).submatrix (Equiv.swap (0 : Fin 2) 1) id) k hk.le ≠ 0 := by
  refine ⟨fun i hi => ?_, fun k hk => ?_⟩
  · obtain rfl : i = 0 := by omega
    rfl
  · unfold leadingMinor
    obtain rfl | rfl : k = 0 ∨ k = 1 := by omega
    · simp
    · simp

/-- C41: for every two by two matrix with a zero in the upper left corner and a nonzero entry below
the result is the negative of the determinant. -/
theorem C41_two_by_two {M : Matrix (Fin 2) (Fin 2) R} (h : FieldSpec False base rep)
    (hv : MatRep rep v M) (h0 : M 0 0 = 0) (h1 : M 1 0 ≠ 0) :
    Returns False (MatrixRing.determinant base 2 v) (rep · (-M.det)) := by
  refine C41_one_swap 2 (r := 1) (c := 0) h hv rfl (by decide) h1 (fun i hi => ?_) fun k hk => ?_
  · obtain rfl : i = 0 := by omega
    exact h0
  · unfold leadingMinor
    obtain rfl | rfl : k = 0 ∨ k = 1 := by omega
    · simp
    · rw [Matrix.det_fin_one]
      simpa using h1

example : (!![(0 : ℚ), 1; 1, 0]) 0 0 = 0 ∧ (!![(0 : ℚ), 1; 1, 0]) 1 0 ≠ 0 ∧
    (!![(0 : ℚ), 1; 1, 0]).det = -1 := by simp [Matrix.det_fin_two]

/-- C41: for every matrix either the determinant is zero, and so is the result, or Gauss elimination
with the first possible pivots goes through and the result is the determinant times the sign of the
permutation of the rows: the determinant of the matrix with permuted rows. -/
theorem C41_exact (h : FieldSpec mp base rep) (hv : MatRep rep v M) :
    Returns mp (MatrixRing.determinant base n v) fun e => M.det = 0 ∧ rep e 0 ∨
      ∃ σ, PivotOrder M n σ ∧ rep e (Equiv.Perm.sign σ * M.det) ∧ rep e (M.submatrix σ id).det := by
  refine (MatrixRing.determinant_sign h hv.grid).mono ?_
  rintro e (he | ⟨σ, h1, h2⟩)
  · exact .inl he
  · exact .inr ⟨σ, h1, h2, by rw [Matrix.det_permute]; exact h2⟩

/-- The permutation is determined by the matrix. -/
theorem C41_pivot_order_unique {σ τ : Equiv.Perm (Fin n)} (h1 : PivotOrder M n σ)
    (h2 : PivotOrder M n τ) : σ = τ :=
  MatrixRing.PivotOrder.unique h1 h2

/-- C41: with the order of the pivots given the result is the determinant times its sign. -/
theorem C41_exact_sign (h : FieldSpec mp base rep) (hv : MatRep rep v M) {σ : Equiv.Perm (Fin n)}
    (hσ : PivotOrder M n σ) :
    Returns mp (MatrixRing.determinant base n v) (rep · (Equiv.Perm.sign σ * M.det)) := by
  refine (MatrixRing.determinant_sign h hv.grid).mono ?_
  rintro e (⟨h0, he⟩ | ⟨τ, h1, h2⟩)
  · rwa [h0, mul_zero]
  · rwa [MatrixRing.PivotOrder.unique hσ h1]

/-- The order of the pivots of a three by three matrix for which two exchanges are made, so that the
result is right. -/
theorem cyclicMatrix_pivots : PivotOrder !![(0 : ℚ), 1, 0; 0, 0, 1; 1, 0, 0] 3
    (1 * Equiv.swap 0 2 * Equiv.swap 1 2 * Equiv.swap 2 2) := by
  refine .step (c := 2) (r := 2) (.step (c := 1) (r := 2) (.step (c := 0) (r := 2) .start ?_ ?_ ?_)
    ?_ ?_ ?_) ?_ ?_ ?_
  · decide
  · simp [borderedMinor]
  · intro i _ hi
    fin_cases i <;> simp_all [borderedMinor]
  · decide
  · simp [borderedMinor, Matrix.det_fin_two]
  · intro i hi hi'
    obtain rfl : i = 1 := by omega
    simp [borderedMinor, Matrix.det_fin_two, Equiv.swap_apply_def]
  · decide
  · simp [borderedMinor, Matrix.det_fin_three, Equiv.swap_apply_def]
  · intro i hi hi'
    omega

example : Equiv.Perm.sign (1 * Equiv.swap 0 2 * Equiv.swap 1 2 * Equiv.swap 2 2 : Equiv.Perm (Fin 3)) = 1 ∧
    (!![(0 : ℚ), 1, 0; 0, 0, 1; 1, 0, 0]).det = 1 := by
  refine ⟨by decide, by simp [Matrix.det_fin_three]⟩

/-- C41: over a field of characteristic other than two the result is right exactly if the
determinant is zero or the number of exchanges is even. -/
theorem C41_right_iff (h : FieldSpec mp base rep) (hv : MatRep rep v M) (h2 : (2 : R) ≠ 0) :
    Returns mp (MatrixRing.determinant base n v) fun e => rep e M.det ↔
      M.det = 0 ∨ ∃ σ, PivotOrder M n σ ∧ Equiv.Perm.sign σ = 1 := by
  refine (MatrixRing.determinant_sign h hv.grid).mono ?_
  rintro e (⟨h0, he⟩ | ⟨σ, h1, h3⟩)
  · rw [h0]; exact ⟨fun _ => .inl rfl, fun _ => he⟩
  · refine ⟨fun h4 => ?_, ?_⟩
    · rcases Int.units_eq_one_or (Equiv.Perm.sign σ) with h5 | h5
      · exact .inr ⟨σ, h1, h5⟩
      · rw [h5] at h3
        have h6 := h.rep_unique h4 h3
        have h7 : 2 * M.det = 0 := by
          have : M.det = -M.det := by simpa using h6
          linear_combination this
        exact .inl ((mul_eq_zero.1 h7).resolve_left h2)
    · rintro (h4 | ⟨τ, h4, h5⟩)
      · rw [h4, mul_zero] at h3; rwa [h4]
      · rw [MatrixRing.PivotOrder.unique h1 h4, h5] at h3
        simpa using h3

example : ∃ e, MatrixRing.determinant ReducedFractions.QQ 2 [(0, 1), (1, 1), (1, 1), (0, 1)] = .ok e ∧
    ¬ QRep e (!![(0 : ℚ), 1; 1, 0]).det := by
  obtain ⟨e, he, h1⟩ := returns_false_iff.1
    (C41_right_iff 2 C26_rationals swapMatrix_rep (by norm_num))
  refine ⟨e, he, fun h2 => ?_⟩
  have hp : PivotOrder !![(0 : ℚ), 1; 1, 0] 2 (1 * Equiv.swap 0 1 * Equiv.swap 1 1) := by
    refine .step (c := 1) (r := 1) (.step (c := 0) (r := 1) .start ?_ ?_ ?_) ?_ ?_ ?_
    · decide
    · simp [borderedMinor]
    · intro i _ hi
      obtain rfl : i = 0 := by omega
      simp [borderedMinor]
    · decide
    · simp [borderedMinor, Matrix.det_fin_two]
    · intro i hi hi'; omega
  rcases h1.1 h2 with h3 | ⟨σ, h3, h4⟩
  · simp [Matrix.det_fin_two] at h3
  · rw [MatrixRing.PivotOrder.unique h3 hp] at h4
    exact absurd h4 (by decide)

/-- C41: the full claim is false over every field of characteristic other than two: the matrix
`[[0, 1], [1, 0]]` of determinant `-1` gives `1`. -/
theorem C41_full_claim_false (h : FieldSpec False base rep) (h2 : (2 : R) ≠ 0) {z o : E}
    (hz : rep z 0) (ho : rep o 1) :
    ∃ M : Matrix (Fin 2) (Fin 2) R, MatRep rep [z, o, o, z] M ∧ M.det = -1 ∧
      Returns False (MatrixRing.determinant base 2 [z, o, o, z]) fun e =>
        rep e 1 ∧ ¬ rep e M.det := by
  have hv : MatRep rep [z, o, o, z] !![(0 : R), 1; 1, 0] := by
    refine ⟨rfl, fun i j => ?_⟩
    fin_cases i <;> fin_cases j
    · exact ⟨z, rfl, hz⟩
    · exact ⟨o, rfl, ho⟩
    · exact ⟨o, rfl, ho⟩
    · exact ⟨z, rfl, hz⟩
  have hd : (!![(0 : R), 1; 1, 0]).det = -1 := by simp [Matrix.det_fin_two]
  refine ⟨_, hv, hd, (C41_two_by_two h hv rfl (by simp)).mono fun e he => ?_⟩
  rw [hd, neg_neg] at he
  refine ⟨he, fun he' => h2 ?_⟩
  rw [hd] at he'
  have : (1 : R) = -1 := h.rep_unique he he'
  rw [← one_add_one_eq_two]
  nth_rewrite 1 [this]
  exact neg_add_cancel 1

example : FieldSpec False ReducedFractions.QQ QRep ∧ (2 : ℚ) ≠ 0 ∧ QRep (0, 1) 0 ∧ QRep (1, 1) 1 :=
  ⟨C26_rationals, by norm_num, ⟨rfl, rfl⟩, ⟨rfl, rfl⟩⟩

end

section length

variable [Cfg] {E : Type} (n : ℕ) {v w : List E} (base : FieldOps E)

/-- C38: vectors of the wrong length are not contained. -/
theorem C38_matrix_contains (h : v.length ≠ n * n) :
    (MatrixRing.ops base n).contains v = .ok false :=
  C38_contains (n * n) base.toDomainOps h

example (base : FieldOps E) (a : E) : (MatrixRing.ops base 2).contains [a, a, a] = .ok false :=
  C38_matrix_contains 2 base (by simp)

/-- C38: binary operations panic if an operand has the wrong length, whatever the base. -/
theorem C38_matrix_binary (h : v.length ≠ n * n ∨ w.length ≠ n * n) :
    (MatrixRing.ops base n).equals v w = .panic ∧ (MatrixRing.ops base n).add v w = .panic ∧
    (MatrixRing.ops base n).addAssign v w = .panic ∧ (MatrixRing.ops base n).sub v w = .panic ∧
    (MatrixRing.ops base n).subAssign v w = .panic ∧ (MatrixRing.ops base n).mul v w = .panic ∧
    (MatrixRing.ops base n).mulAssign v w = .panic := by
  obtain ⟨h1, -, h2, h3, -⟩ := C38_binary (n * n) h
  have hm : MatrixRing.mul base n v w = .panic := by
    unfold MatrixRing.mul
    rw [show (v.length == n * n && w.length == n * n) = false by
      rcases h with h | h <;> simp [h]]
    rfl
  exact ⟨h1 base.toDomainOps, (h2 base.toCommutativeMonoidOps).1, (h2 base.toCommutativeMonoidOps).2,
    (h3 base.toAbelianGroupOps).1, (h3 base.toAbelianGroupOps).2, hm, hm⟩

example (base : FieldOps E) (a : E) : (MatrixRing.ops base 2).mul [a, a, a, a] [a, a, a] = .panic :=
  (C38_matrix_binary 2 base (.inr (by simp))).2.2.2.2.2.1

/-- C38: unary operations panic if the operand has the wrong length, whatever the base; `is_one`
first computes the identity, so that it never returns. -/
theorem C38_matrix_unary (h : v.length ≠ n * n) :
    (MatrixRing.ops base n).isZero v = .panic ∧ (MatrixRing.ops base n).double v = .panic ∧
    (MatrixRing.ops base n).neg v = .panic ∧ (MatrixRing.ops base n).negAssign v = .panic ∧
    (MatrixRing.ops base n).square v = .panic ∧ MatrixRing.transpose n v = .panic ∧
    ∀ b, (MatrixRing.ops base n).isOne v ≠ .ok b := by
  obtain ⟨-, -, -, h1, h2, -⟩ := C38_unary (n * n) h
  refine ⟨(h1 base.toCommutativeMonoidOps).1, (h1 base.toCommutativeMonoidOps).2,
    (h2 base.toAbelianGroupOps).1, (h2 base.toAbelianGroupOps).2,
    (C38_matrix_binary n base (.inl h)).2.2.2.2.2.1, MatrixRing.transpose_panics h, fun b hb => ?_⟩
  change (MatrixRing.int base n 1 >>= fun o => (MatrixRing.ops base n).equals v o) = .ok b at hb
  cases hi : MatrixRing.int base n 1 with
  | ok o =>
    rw [hi, ok_bind, (C38_matrix_binary n base (.inl h)).1] at hb
    cases hb
  | panic => rw [hi] at hb; cases hb
  | diverge => rw [hi] at hb; cases hb

/-- A vector of length three where two by two matrices are expected. -/
example : (MatrixRing.ops TwoElementAlgebra.field 2).add [true, true, true]
      [true, true, true, true] = .panic ∧
    (MatrixRing.ops TwoElementAlgebra.field 2).neg [true, true, true] = .panic ∧
    MatrixRing.transpose 2 [true, true, true] = .panic :=
  ⟨rfl, rfl, rfl⟩

/-- C38: `times` with an unsigned or signed multiplier checks the length in its loop only: with zero it
returns the zero matrix for every vector; with another number it panics for vectors of the wrong length, as
soon as it has computed the zero matrix. -/
theorem C38_matrix_multiples (h : v.length ≠ n * n) :
    (∀ k : ℕ, (MatrixRing.ops base n).utimes k v = if k = 0 then (MatrixRing.ops base n).zero
      else (MatrixRing.ops base n).zero.bind fun _ => .panic) ∧
    ∀ k : ℤ, (MatrixRing.ops base n).times k v = if k = 0 then (MatrixRing.ops base n).zero
      else if k < 0 then .panic else (MatrixRing.ops base n).zero.bind fun _ => .panic :=
  ⟨fun k => utimes_panics _ (fun _ => (C38_matrix_binary n base (.inr h)).2.2.1)
      (C38_matrix_unary n base h).2.1 k,
    fun k => powerDefault_panics _ (fun _ => (C38_matrix_binary n base (.inr h)).2.2.1)
      (C38_matrix_unary n base h).2.1 (C38_matrix_unary n base h).2.2.1 k⟩

/-- A vector of length three where two by two matrices are expected. -/
example : (MatrixRing.ops TwoElementAlgebra.field 2).times 0 [true, true, true] =
      .ok [false, false, false, false] ∧
    (MatrixRing.ops TwoElementAlgebra.field 2).times 2 [true, true, true] = .panic :=
  ⟨(C38_matrix_multiples 2 TwoElementAlgebra.field (v := [true, true, true]) (by decide)).2 0,
    (C38_matrix_multiples 2 TwoElementAlgebra.field (v := [true, true, true]) (by decide)).2 2⟩

/-- C58: `determinant` ignores surplus entries, whatever the base. -/
theorem C58_determinant (hv : v.length = n * n) (s : List E) :
    MatrixRing.determinant base n (v ++ s) = MatrixRing.determinant base n v :=
  MatrixRing.determinant_append s hv

example (base : FieldOps E) (a b c d e : E) : MatrixRing.determinant base 2 [a, b, c, d, e] =
    MatrixRing.determinant base 2 [a, b, c, d] := C58_determinant 2 base (v := [a, b, c, d]) rfl [e]

/-- C58: so does `invertible`, whatever the base. -/
theorem C58_invertible (hv : v.length = n * n) (s : List E) :
    (MatrixRing.ops base n).invertible (v ++ s) = (MatrixRing.ops base n).invertible v := by
  simp only [MatrixRing.ops, C58_determinant n base hv s]

/-- The matrix `[[1, 1], [0, 1]]` with a surplus entry. -/
example : MatrixRing.determinant TwoElementAlgebra.field 2 [true, true, false, true, false] =
      .ok true ∧
    (MatrixRing.ops TwoElementAlgebra.field 2).invertible [true, true, false, true, false] =
      .ok true :=
  ⟨rfl, rfl⟩

variable {R : Type u} [Field R] {rep : E → R → Prop} {M : Matrix (Fin n) (Fin n) R} {base}

/-- C58: the multiplicative group of the matrix ring contains overlong vectors although the ring
does not. -/
theorem C58_multiplicative_group (h : FieldSpec False base rep) (hv : MatRep rep v M)
    (hM : IsUnit M) {s : List E} (hs : s ≠ []) :
    (MultiplicativeGroup.ops (MatrixRing.ops base n).toMonoidOps).contains (v ++ s) = .ok true ∧
    (MatrixRing.ops base n).contains (v ++ s) = .ok false := by
  constructor
  · show (MatrixRing.ops base n).invertible (v ++ s) = .ok true
    rw [C58_invertible n base hv.1]
    obtain ⟨b, hb, hb'⟩ := returns_false_iff.1 (MatrixRing.invertible_spec h hv.grid)
    rw [hb, hb'.2 hM]
  · refine C38_matrix_contains n base ?_
    rw [List.length_append, hv.1]
    have := List.length_pos_iff.2 hs
    omega

example : IsUnit (!![(0 : ℚ), 1; 1, 0]) ∧ (MatrixRing.ops ReducedFractions.QQ 2).contains
      [(0, 1), (1, 1), (1, 1), (0, 1), (7, 1)] = .ok false :=
  ⟨swapMatrix_isUnit, (C58_multiplicative_group 2 C26_rationals swapMatrix_rep swapMatrix_isUnit
    (s := [(7, 1)]) (by simp)).2⟩

/-- C58: on overlong vectors starting with an invertible matrix `try_inv` panics with debug
assertions and returns the inverse of the matrix without them. -/
theorem C58_try_inv (h : FieldSpec False base rep) (hv : MatRep rep v M) (hM : IsUnit M)
    {s : List E} (hs : s ≠ []) :
    (Cfg.debugAssertions = true → (MatrixRing.ops base n).tryInv (v ++ s) = .panic) ∧
    (Cfg.debugAssertions = false → Returns False ((MatrixRing.ops base n).tryInv (v ++ s)) fun o =>
      ∃ w N, o = some w ∧ MatRep rep w N ∧ M * N = 1 ∧ N * M = 1) := by
  have hg : Grid rep (n * n + s.length) (v ++ s) M := by
    refine ⟨by simp [hv.1], by omega, fun i j => ?_⟩
    obtain ⟨a, ha, ha'⟩ := hv.2 i j
    exact ⟨a, by rw [List.getElem?_append_left (hv.1.symm ▸ flat_lt i.2 j.2), ha], ha'⟩
  obtain ⟨o, ho, ho'⟩ := returns_false_iff.1 (MatrixRing.one_spec (n := n) h)
  obtain ⟨p, hp, hp'⟩ := returns_false_iff.1 (MatrixRing.invLoop_spec h M n 0 (Nat.zero_add n) hg
    ho'.grid (fun i j hj => absurd hj (Nat.not_lt_zero _)) (one_mul M).symm (by simp))
  cases p with
  | none =>
    rw [Matrix.isUnit_iff_isUnit_det, show M.det = 0 from hp'] at hM
    exact absurd hM not_isUnit_zero
  | some p =>
    obtain ⟨u, w⟩ := p
    obtain ⟨N, hu, hw, hN⟩ := hp'
    rw [← List.range_eq_range'] at hp
    have key : (MatrixRing.ops base n).tryInv (v ++ s) =
        (debugAssert (MatrixRing.isOne base n u) >>= fun _ => pure (some w)) := by
      show MatrixRing.tryInv base n (v ++ s) = _
      unfold MatrixRing.tryInv
      rw [ho, ok_bind, hp]
      rfl
    rw [key]
    refine ⟨fun hd => ?_, fun hd => ?_⟩
    · have hl : u.length ≠ n * n := by
        rw [hu.length]
        have := List.length_pos_iff.2 hs
        omega
      unfold debugAssert MatrixRing.isOne
      rw [if_pos hd, ho, ok_bind]
      have := (C38_matrix_binary (w := o) n base (.inl hl)).1
      change (MatrixRing.domain base n).equals u o = _ at this
      rw [this]
      rfl
    · unfold debugAssert
      rw [hd]
      exact ⟨w, N, rfl, hw.matRep, mul_eq_one_comm.1 hN, hN⟩

example (hd : Cfg.debugAssertions = true) : (MatrixRing.ops ReducedFractions.QQ 2).tryInv
    [(0, 1), (1, 1), (1, 1), (0, 1), (7, 1)] = .panic :=
  (C58_try_inv 2 C26_rationals swapMatrix_rep swapMatrix_isUnit (s := [(7, 1)]) (by simp)).1 hd

end length

section examples

variable [Cfg]

/-- C41 at the matrix `[[0, 1], [1, 0]]` over `QQ`: the result is 1 and not -1. -/
theorem C41_rationals : MatrixRing.determinant ReducedFractions.QQ 2
    [(0, 1), (1, 1), (1, 1), (0, 1)] = .ok (1, 1) := by
  obtain ⟨e, he, h1, h2⟩ := returns_false_iff.1
    (C41_two_by_two C26_rationals swapMatrix_rep rfl (by simp))
  rw [he]
  rw [show -(!![(0 : ℚ), 1; 1, 0]).det = 1 by simp [Matrix.det_fin_two]] at h1 h2
  exact congrArg _ (Prod.ext h1 h2)

/-- C40 at the matrix `[[0, 1], [1, 0]]`, which is invertible. -/
example : ∃ w, (MatrixRing.ops ReducedFractions.QQ 2).tryInv [(0, 1), (1, 1), (1, 1), (0, 1)] =
    .ok (some w) := by
  have hM : (!![(0 : ℚ), 1; 1, 0]) * !![(0 : ℚ), 1; 1, 0] = 1 := by
    ext i j; fin_cases i <;> fin_cases j <;> simp
  obtain ⟨o, ho, ho'⟩ := returns_false_iff.1 (C40_try_inv 2 C26_rationals swapMatrix_rep)
  cases o with
  | none => exact absurd (IsUnit.of_mul_eq_one _ hM) ho'
  | some w => exact ⟨w, ho⟩

/-- C58 at the matrix `[[0, 1], [1, 0]]` with a surplus entry. -/
example : (MatrixRing.ops ReducedFractions.QQ 2).contains
      [(0, 1), (1, 1), (1, 1), (0, 1), (7, 1)] = .ok false ∧
    (MultiplicativeGroup.ops (MatrixRing.ops ReducedFractions.QQ 2).toMonoidOps).contains
      [(0, 1), (1, 1), (1, 1), (0, 1), (7, 1)] = .ok true := by
  have hM : (!![(0 : ℚ), 1; 1, 0]) * !![(0 : ℚ), 1; 1, 0] = 1 := by
    ext i j; fin_cases i <;> fin_cases j <;> simp
  exact (C58_multiplicative_group 2 C26_rationals swapMatrix_rep (IsUnit.of_mul_eq_one _ hM)
    (s := [(7, 1)]) (by simp)).symm

end examples

/-- C57: matrices of fractions of checked machine integers: an operation may panic but never
returns a wrong result. -/
theorem C57_checked_matrices [Cfg] {w : ℕ} [Width w] (n : ℕ) :
    UnitaryRingSpec True (MatrixRing.ops (ReducedFractions.ops (CheckedInts.euclidean w)) n)
      (MatRep (n := n) fun (a : SInt w × SInt w) (q : ℚ) => a.1.1 = q.num ∧ a.2.1 = q.den) :=
  C39_matrix_ring n C57_checked_fractions

/-- In eight bits the sum of the entries `1/127` and `1/126` panics, as its denominator overflows. -/
example [Cfg] : (MatrixRing.ops (ReducedFractions.ops (CheckedInts.euclidean 8)) 1).add
    [(SInt.lit 1 (by decide), SInt.lit 127 (by decide))]
    [(SInt.lit 1 (by decide), SInt.lit 126 (by decide))] = .panic := rfl

/-- C57: the same for vectors of such fractions. -/
theorem C57_checked_fraction_vectors [Cfg] {w : ℕ} [Width w] (n : ℕ) :
    UnitaryRingSpec True
      (VectorAlgebra.unitaryRing n (ReducedFractions.ops (CheckedInts.euclidean w)).toUnitaryRingOps)
      (VecRep (n := n) fun (a : SInt w × SInt w) (q : ℚ) => a.1.1 = q.num ∧ a.2.1 = q.den) :=
  C36_unitary_ring n C57_checked_fractions.toUnitaryRingSpec

/-- A vector of two fractions. -/
example [Cfg] : (VectorAlgebra.unitaryRing 2
      (ReducedFractions.ops (CheckedInts.euclidean 8)).toUnitaryRingOps).neg
      [(SInt.lit 1 (by decide), SInt.lit 2 (by decide)), (SInt.lit (-128) (by decide), SInt.lit 1 (by decide))] =
    .panic := rfl

/-- C57: the determinant of such a matrix is correct up to sign if it is returned. -/
theorem C57_checked_determinant [Cfg] {w : ℕ} [Width w] (n : ℕ) {v : List (SInt w × SInt w)}
    {M : Matrix (Fin n) (Fin n) ℚ}
    (hv : MatRep (fun a q => a.1.1 = q.num ∧ a.2.1 = q.den) v M) :
    Returns True (MatrixRing.determinant (ReducedFractions.ops (CheckedInts.euclidean w)) n v)
      fun e => (e.1.1 = M.det.num ∧ e.2.1 = M.det.den) ∨
        (e.1.1 = (-M.det).num ∧ e.2.1 = (-M.det).den) :=
  C41_up_to_sign n C57_checked_fractions hv

/-- The hypothesis holds for the matrix `[[0, 1], [1, 0]]`. -/
example : MatRep (fun (a : SInt 8 × SInt 8) (q : ℚ) => a.1.1 = q.num ∧ a.2.1 = q.den)
    [(SInt.lit 0 (by decide), SInt.lit 1 (by decide)), (SInt.lit 1 (by decide), SInt.lit 1 (by decide)),
      (SInt.lit 1 (by decide), SInt.lit 1 (by decide)), (SInt.lit 0 (by decide), SInt.lit 1 (by decide))]
    !![(0 : ℚ), 1; 1, 0] := by
  refine ⟨rfl, fun i j => ?_⟩
  fin_cases i <;> fin_cases j <;> exact ⟨_, rfl, rfl, rfl⟩

end Abstalg
