import Verif.Proofs.Embeddings
import Verif.Props.Matrices
import Verif.Props.Vectors
import Verif.Props.Polynomials
import Verif.Props.Towers
import Verif.Props.Permutations
import Verif.Proofs.BlockMatrices
import Mathlib.LinearAlgebra.Matrix.Block
import Mathlib.RingTheory.Norm.Defs
import Mathlib.FieldTheory.Finite.GaloisField

/-! # Embedded structures: C88 -/

set_option autoImplicit false

universe u v

namespace Abstalg

open Polynomial

variable [Cfg] {mp : Prop} {E : Type} {R : Type u} {S : Type v}

/-! ## Every implementation of a structure implements its substructures -/

section general

variable {rep : E → S → Prop}

omit [Cfg] in
/-- C88: the objects of a monoid that stand for elements of a submonoid, all of whose units have their inverses in it. -/
theorem C88_monoid [Monoid R] [Monoid S] {A : MonoidOps E} (h : MonoidSpec mp A rep) (φ : R →* S)
    (hφ : Function.Injective φ) (hu : ∀ x, IsUnit (φ x) → IsUnit x) : MonoidSpec mp A fun a x => rep a (φ x) :=
  h.via φ hφ hu

/-- C88: groups. -/
theorem C88_group [Group R] [Group S] {A : GroupOps E} (h : GroupSpec mp A rep) (φ : R →* S)
    (hφ : Function.Injective φ) : GroupSpec mp A fun a x => rep a (φ x) :=
  h.via φ hφ

/-- C88: abelian groups. -/
theorem C88_abelian_group [AddCommGroup R] [AddCommGroup S] {A : AbelianGroupOps E}
    (h : AbelianGroupSpec mp A rep) (φ : R →+ S) (hφ : Function.Injective φ) :
    AbelianGroupSpec mp A fun a x => rep a (φ x) :=
  h.via φ hφ

/-- C88: rings. -/
theorem C88_ring [Ring R] [Ring S] {A : UnitaryRingOps E} (h : UnitaryRingSpec mp A rep) (φ : R →+* S)
    (hφ : Function.Injective φ) (hu : ∀ x, IsUnit (φ x) → IsUnit x) :
    UnitaryRingSpec mp A fun a x => rep a (φ x) :=
  h.via φ hφ hu

/-- C88: fields. -/
theorem C88_field [Field R] [Field S] {A : FieldOps E} (h : FieldSpec mp A rep) (φ : R →+* S) :
    FieldSpec mp A fun a x => rep a (φ x) :=
  h.via φ

end general

/-! ## Constants -/

section constants

/-- C88: constant vectors. -/
theorem C88_constant_vectors [Ring R] {rep : E → R → Prop} {base : UnitaryRingOps E} (n : ℕ) (hn : 0 < n)
    (h : UnitaryRingSpec mp base rep) :
    UnitaryRingSpec mp (VectorAlgebra.unitaryRing n base) (fun v (x : R) => VecRep rep v (fun _ : Fin n => x)) ∧
    ∀ {a x}, rep a x → VecRep rep (VectorAlgebra.diagonal n a) (fun _ : Fin n => x) :=
  ⟨C88_ring (C36_unitary_ring n h) (Pi.constRingHom (Fin n) R) (fun _ _ hxy => congrFun hxy ⟨0, hn⟩)
    fun _ hx => Pi.isUnit_iff.1 hx ⟨0, hn⟩, fun ha => C36_diagonal n ha⟩

/-- C88: constant polynomials. -/
theorem C88_constant_polynomials [CommRing R] [IsDomain R] {rep : E → R → Prop} {base : UnitaryRingOps E}
    (h : UnitaryRingSpec mp base rep) :
    UnitaryRingSpec mp (PolynomialAlgebra.unitaryRing base) (fun v (x : R) => RingPolyRep rep v (C x)) ∧
    (∀ {a x}, rep a x → x ≠ 0 → RingPolyRep rep [a] (C x)) ∧ RingPolyRep rep [] (C 0) := by
  refine ⟨C88_ring (C30_polynomial_ring h) C C_injective fun x hx => isUnit_C.1 hx, fun {a x} ha hx => ?_, ?_⟩
  · refine ⟨fun i hi => ?_, fun i hi => ?_, fun _ => ?_⟩
    · obtain rfl : i = 0 := by simpa using hi
      simpa using ha
    · rw [coeff_C, if_neg (by simp at hi; omega)]
    · simpa using hx
  · exact ⟨fun i hi => absurd hi (by simp), fun i _ => by simp, fun h => absurd rfl h⟩

/-- C88: polynomials in a power of the variable. -/
theorem C88_polynomials_expand [CommRing R] [IsDomain R] {rep : E → R → Prop} {base : UnitaryRingOps E}
    (h : UnitaryRingSpec mp base rep) (k : ℕ) (hk : 0 < k) :
    UnitaryRingSpec mp (PolynomialAlgebra.unitaryRing base) fun v (f : R[X]) => RingPolyRep rep v (expand R k f) := by
  refine C88_ring (C30_polynomial_ring h) (expand R k).toRingHom (expand_injective hk) fun f hf => ?_
  obtain ⟨r, hr, h1⟩ := isUnit_iff.1 hf
  refine isUnit_iff.2 ⟨r, hr, expand_injective hk ?_⟩
  rw [expand_C]
  exact h1

/-- C88: the constants in an extension of the field by a root of an irreducible polynomial. -/
theorem C88_constant_residues [Field R] [DecidableEq R] {rep : E → R → Prop} {base : FieldOps E}
    (h : FieldSpec mp base rep) {S : Type v} [Field S] {φ : R[X] →+* S} {μ : R[X]} (hφ : IsFactor φ μ) (h0 : μ ≠ 0)
    {m : List E} (hm : RingPolyRep rep m μ) :
    FieldSpec mp (QuotientField.ops (PolynomialAlgebra.euclidean base) m)
      (fun v (x : R) => ResidueRep (RingPolyRep rep) φ μ v (φ (C x))) ∧
    ∀ {v x}, RingPolyRep rep v (C x) → ResidueRep (RingPolyRep rep) φ μ v (φ (C x)) := by
  refine ⟨C88_field (C21_quotient_field_any hφ (C34_polynomial_euclidean h) hm h0) (φ.comp C), fun {v x} hv =>
    ⟨_, hv, ?_, rfl⟩⟩
  have h1 : 0 < μ.degree := degree_pos_of_ne_zero_of_nonunit h0 fun hu => by
    have h2 := (hφ.ker 1).2 hu.dvd
    rw [map_one] at h2
    exact one_ne_zero h2
  exact (Polynomial.div_eq_zero_iff h0).2 (lt_of_le_of_lt degree_C_le h1)

/-- C88: the integers among the rational numbers. -/
theorem C88_integers :
    AbelianGroupSpec False ReducedFractions.QQ.toAbelianGroupOps (fun (a : ℤ × ℤ) (n : ℤ) => a.1 = n ∧ a.2 = 1) ∧
    SemigroupSpec False ReducedFractions.QQ.toSemigroupOps (fun (a : ℤ × ℤ) (n : ℤ) => a.1 = n ∧ a.2 = 1) := by
  have h1 := C26_rationals.toAbelianGroupSpec.via (Int.castAddHom ℚ) Int.cast_injective
  have h2 := C26_rationals.toSemigroupSpec.via (Int.castRingHom ℚ).toMonoidHom.toMulHom Int.cast_injective
  have key {φ : ℤ → ℚ} (hφ : ∀ n, φ n = n) : RepVia (fun (a : ℤ × ℤ) (q : ℚ) => a.1 = q.num ∧ a.2 = q.den) φ =
      fun a n => a.1 = n ∧ a.2 = 1 := by
    funext a n
    unfold RepVia
    rw [hφ]
    rfl
  rw [key (φ := ⇑(Int.castAddHom ℚ)) fun _ => rfl] at h1
  rw [key (φ := ⇑(Int.castRingHom ℚ).toMonoidHom.toMulHom) fun _ => rfl] at h2
  exact ⟨h1, h2⟩

end constants

/-! ## Matrices -/

section matrices

variable [Field R] {rep : E → R → Prop} {base : FieldOps E} {n : ℕ} {v : List E} {M : Matrix (Fin n) (Fin n) R}

/-- C88: diagonal matrices compute like vectors. -/
theorem C88_diagonal_matrices (h : FieldSpec mp base rep) :
    UnitaryRingSpec mp (MatrixRing.ops base n) fun v (f : Fin n → R) => MatRep rep v (Matrix.diagonal f) :=
  C88_ring (C39_matrix_ring n h) (Matrix.diagonalRingHom (Fin n) R) Matrix.diagonal_injective
    fun _ hf => Matrix.isUnit_diagonal.1 hf

/-- C88: scalar matrices compute like their entries. -/
theorem C88_scalar_matrices (h : FieldSpec mp base rep) (hn : 0 < n) :
    UnitaryRingSpec mp (MatrixRing.ops base n) fun v (x : R) => MatRep rep v (Matrix.scalar (Fin n) x) :=
  have : Nonempty (Fin n) := ⟨⟨0, hn⟩⟩
  C88_ring (C39_matrix_ring n h) (Matrix.scalar (Fin n)) (fun _ _ hxy => Matrix.scalar_inj.1 hxy)
    fun _ hx => Pi.isUnit_iff.1 (Matrix.isUnit_diagonal.1 hx) ⟨0, hn⟩

/-- C88: the matrices of the multiplications in a field extension with a basis compute in the extension, and their
determinants are the norms, up to sign. -/
theorem C88_extension_matrices {L : Type v} [Field L] [Algebra R L] (b : Module.Basis (Fin n) R L)
    (h : FieldSpec mp base rep) :
    UnitaryRingSpec mp (MatrixRing.ops base n) (fun v (x : L) => MatRep rep v (Algebra.leftMulMatrix b x)) ∧
    ∀ {v x}, MatRep rep v (Algebra.leftMulMatrix b x) → Returns mp (MatrixRing.determinant base n v) fun e =>
      rep e (Algebra.norm R x) ∨ rep e (-Algebra.norm R x) := by
  refine ⟨C88_ring (C39_matrix_ring n h) (Algebra.leftMulMatrix b).toRingHom (Algebra.leftMulMatrix_injective b)
    fun x hx => ?_, fun {v x} hv => ?_⟩
  · rw [isUnit_iff_ne_zero]
    rintro rfl
    have := b.index_nonempty
    have h1 : Algebra.leftMulMatrix b (0 : L) = 0 := map_zero _
    exact not_isUnit_zero (M₀ := Matrix (Fin n) (Fin n) R) (h1 ▸ hx)
  · rw [Algebra.norm_eq_matrix_det b]
    exact C41_up_to_sign n h hv

/-- C88: the determinant of a triangular matrix is right. -/
theorem C88_triangular_determinant (h : FieldSpec mp base rep) (hv : MatRep rep v M)
    (hM : (∀ i j, j < i → M i j = 0) ∨ ∀ i j, i < j → M i j = 0) :
    Returns mp (MatrixRing.determinant base n v) (rep · (∏ i, M i i)) := by
  have hd : M.det = ∏ i, M i i := by
    rcases hM with hM | hM
    · exact Matrix.det_of_isUpperTriangular fun i j hij => hM i j hij
    · exact Matrix.det_of_isLowerTriangular M fun i j hij => hM i j hij
  by_cases h0 : M.det = 0
  · refine (C41_zero_iff n h hv).mono fun e he => ?_
    rw [← hd, h0]
    exact he.2 h0
  · rw [← hd]
    refine C41_no_swap n h hv fun k hk => ?_
    have h1 : leadingMinor M k hk.le = ∏ i : Fin k, M (Fin.castLE hk.le i) (Fin.castLE hk.le i) := by
      unfold leadingMinor
      rcases hM with hM | hM
      · exact Matrix.det_of_isUpperTriangular fun i j hij => hM _ _ hij
      · exact Matrix.det_of_isLowerTriangular _ fun i j hij => hM _ _ hij
    rw [h1, Finset.prod_ne_zero_iff]
    rw [hd, ← ne_eq, Finset.prod_ne_zero_iff] at h0
    exact fun i _ => h0 _ (Finset.mem_univ _)

/-- C88: the inverse of an upper triangular matrix is upper triangular with the inverse diagonal; it is found exactly
if no entry of the diagonal is zero. -/
theorem C88_triangular_inverse (h : FieldSpec mp base rep) (hv : MatRep rep v M) (hM : ∀ i j, j < i → M i j = 0) :
    Returns mp ((MatrixRing.ops base n).tryInv v) fun
      | some w => ∃ N : Matrix (Fin n) (Fin n) R, MatRep rep w N ∧ M * N = 1 ∧ (∀ i j, j < i → N i j = 0) ∧
          ∀ i, M i i * N i i = 1
      | none => ∃ i, M i i = 0 := by
  have hd : M.det = ∏ i, M i i := Matrix.det_of_isUpperTriangular fun i j hij => hM i j hij
  refine (C40_try_inv n h hv).mono fun o ho => ?_
  cases o with
  | none =>
    simp only at ho ⊢
    rw [Matrix.isUnit_iff_isUnit_det, isUnit_iff_ne_zero, not_not, hd, Finset.prod_eq_zero_iff] at ho
    obtain ⟨i, -, hi⟩ := ho
    exact ⟨i, hi⟩
  | some w =>
    obtain ⟨N, h1, h2, h3⟩ := ho
    let : Invertible M := ⟨N, h3, h2⟩
    have h4 : N = M⁻¹ := by rw [Matrix.inv_eq_right_inv h2]
    have h5 : ∀ i j, j < i → N i j = 0 := fun i j hij => by
      rw [h4]
      exact Matrix.blockTriangular_inv_of_blockTriangular (b := id) (fun i j hij => hM i j hij) hij
    refine ⟨N, h1, h2, h5, fun i => ?_⟩
    have h6 := congrFun (congrFun h2 i) i
    rw [Matrix.mul_apply, Finset.sum_eq_single i, Matrix.one_apply_eq] at h6
    · exact h6
    · intro k _ hk
      rcases lt_or_gt_of_ne hk with hk | hk
      · rw [hM i k hk, zero_mul]
      · rw [h5 k i hk, mul_zero]
    · intro hi
      exact absurd (Finset.mem_univ i) hi

/-- C88: sums, differences and products of upper triangular matrices. -/
theorem C88_triangular_ring {w : List E} {N : Matrix (Fin n) (Fin n) R} (h : FieldSpec mp base rep)
    (hv : MatRep rep v M) (hw : MatRep rep w N) (hM : ∀ i j, j < i → M i j = 0) (hN : ∀ i j, j < i → N i j = 0) :
    Returns mp ((MatrixRing.ops base n).mul v w) (fun u => ∃ P : Matrix (Fin n) (Fin n) R, MatRep rep u P ∧
      (∀ i j, j < i → P i j = 0) ∧ ∀ i, P i i = M i i * N i i) := by
  refine ((C39_matrix_ring n h).mul hv hw).mono fun u hu => ⟨_, hu, fun i j hij => ?_, fun i => ?_⟩
  · exact Matrix.BlockTriangular.mul (b := id) (fun i j hij => hM i j hij) (fun i j hij => hN i j hij) hij
  · rw [Matrix.mul_apply, Finset.sum_eq_single i]
    · intro k _ hk
      rcases lt_or_gt_of_ne hk with hk | hk
      · rw [hM i k hk, zero_mul]
      · rw [hN k i hk, mul_zero]
    · intro hi
      exact absurd (Finset.mem_univ i) hi

/-- C88: on block triangular matrices `determinant` is the product of its results on the blocks of the diagonal. -/
theorem C88_block_determinant {m : ℕ} {u w : List E} {M : Matrix (Fin (m + n)) (Fin (m + n)) R}
    (h : FieldSpec mp base rep) (hv : MatRep rep v M) (h0 : ∀ i j, M (Fin.natAdd m i) (Fin.castAdd n j) = 0)
    (hu : MatRep rep u (M.submatrix (Fin.castAdd n) (Fin.castAdd n)))
    (hw : MatRep rep w (M.submatrix (Fin.natAdd m) (Fin.natAdd m))) {a b : E} {y z : R} (ha : rep a y) (hb : rep b z)
    (h1 : MatrixRing.determinant base m u = .ok a) (h2 : MatrixRing.determinant base n w = .ok b) :
    Returns mp (MatrixRing.determinant base (m + n) v) (rep · (y * z)) := by
  have h3 := C41_exact m h hu
  have h4 := C41_exact n h hw
  rw [h1] at h3
  rw [h2] at h4
  have hd := det_blocks h0
  have hz (h5 : M.det = 0) (h6 : y * z = 0) : Returns mp (MatrixRing.determinant base (m + n) v) (rep · (y * z)) := by
    refine (C41_zero_iff _ h hv).mono fun e he => ?_
    rw [h6]
    exact he.2 h5
  rcases h3 with ⟨h5, h6⟩ | ⟨σ, h5, h6, h7⟩
  · exact hz (by rw [hd, h5, zero_mul]) (by rw [h.rep_unique ha h6, zero_mul])
  · rcases h4 with ⟨h8, h9⟩ | ⟨τ, h8, h9, h10⟩
    · exact hz (by rw [hd, h8, mul_zero]) (by rw [h.rep_unique hb h9, mul_zero])
    · obtain rfl := h.rep_unique ha h6
      obtain rfl := h.rep_unique hb h9
      by_cases h11 : (M.submatrix (Fin.castAdd n) (Fin.castAdd n)).det = 0
      · exact hz (by rw [hd, h11, zero_mul]) (by rw [h11, mul_zero, zero_mul])
      · have h12 := PivotOrder.right h0 h5.left (by
          rw [h.rep_unique h7 h6]
          exact mul_ne_zero (by
            rcases Int.units_eq_one_or (Equiv.Perm.sign σ) with h | h <;> simp [h]) h11) h8
        have h13 := C41_exact_sign _ h hv h12
        rw [map_mul, sign_permLeft, sign_permRight, hd] at h13
        refine h13.mono fun e he => ?_
        convert he using 1
        push_cast
        ring

end matrices

/-! ## Permutations -/

section permutations

/-- C88: Permutations computes in every finite group: an element stands for the multiplication by it from the right. -/
theorem C88_cayley {G : Type u} [Group G] {size : UInt32} (e : G ≃ Fin size.toNat) :
    GroupSpec False (Permutations.ops size) fun v (g : G) =>
      ∃ h : v.length = size.toNat, ∀ x : G, (v[(e x).1]'((e x).2.trans_le h.ge)).toNat = (e (x * g)).1 := by
  have h1 := C88_group (C42_group size) (φ := ({
    toFun := fun g => .op ((e.symm.trans (Equiv.mulRight g)).trans e)
    map_one' := by
      rw [← MulOpposite.op_one]
      exact congrArg MulOpposite.op (Equiv.ext fun i => by simp)
    map_mul' := fun g h => by
      rw [← MulOpposite.op_mul]
      exact congrArg MulOpposite.op (Equiv.ext fun i => by simp [mul_assoc]) } : G →* (Equiv.Perm (Fin size.toNat))ᵐᵒᵖ))
    fun g g' hg => by
      have := congrArg (fun σ => σ.unop (e 1)) hg
      simpa using this
  convert h1 using 3 with v g
  unfold PermRep
  refine exists_congr fun hl => ⟨fun h i => ?_, fun h x => ?_⟩
  · have := h (e.symm i)
    simpa using this
  · have := h (e x)
    simpa using this

end permutations

/-! ## Examples -/

omit [Cfg] in
/-- Constant polynomials over the integers. -/
example : UnitaryRingSpec False Integers.unitaryRing ZRep ∧
    (PolynomialAlgebra.unitaryRing Integers.unitaryRing).mul [3] [-4] = .ok [-12] ∧
    (PolynomialAlgebra.unitaryRing Integers.unitaryRing).add [3] [-3] = .ok [] :=
  ⟨Integers.euclidean_spec.toUnitaryRingSpec, rfl, rfl⟩

/-- Integers as rational numbers. -/
example : Returns False (ReducedFractions.QQ.mul (6, 1) (-7, 1)) fun c => c.1 = 6 * -7 ∧ c.2 = 1 :=
  C88_integers.2.mul ⟨rfl, rfl⟩ ⟨rfl, rfl⟩

/-- The diagonal matrix with the entries 2, 3. -/
example : Returns False ((MatrixRing.ops ReducedFractions.QQ 2).mul [(2, 1), (0, 1), (0, 1), (3, 1)]
    [(2, 1), (0, 1), (0, 1), (3, 1)]) (MatRep QRep · (Matrix.diagonal (![2, 3] * ![2, 3]))) := by
  have h : MatRep QRep [((2 : ℤ), (1 : ℤ)), (0, 1), (0, 1), (3, 1)] (Matrix.diagonal ![(2 : ℚ), 3]) := by
    refine ⟨rfl, fun i j => ?_⟩
    fin_cases i <;> fin_cases j <;> exact ⟨_, rfl, by simp [QRep]⟩
  exact (C88_diagonal_matrices C26_rationals).mul h h

/-- The field with four elements as matrices of booleans: there is a basis, and a matrix of order three. -/
example : Nonempty (Module.Basis (Fin 2) (ZMod 2) (GaloisField 2 2)) ∧
    FieldSpec False TwoElementAlgebra.field TwoElementAlgebra.FRep ∧
    (MatrixRing.ops TwoElementAlgebra.field 2).mul [false, true, true, true] [false, true, true, true] =
      .ok [true, true, true, false] ∧
    (MatrixRing.ops TwoElementAlgebra.field 2).mul [true, true, true, false] [false, true, true, true] =
      .ok [true, false, false, true] :=
  ⟨⟨(Module.finBasis (ZMod 2) (GaloisField 2 2)).reindex
    (finCongr (GaloisField.finrank 2 (by decide)))⟩, TwoElementAlgebra.spec, rfl, rfl⟩

/-- An upper triangular matrix. -/
example : Returns False (MatrixRing.determinant ReducedFractions.QQ 2 [(2, 1), (7, 1), (0, 1), (3, 1)]) (QRep · 6) := by
  have h : MatRep QRep [((2 : ℤ), (1 : ℤ)), (7, 1), (0, 1), (3, 1)] !![(2 : ℚ), 7; 0, 3] := by
    refine ⟨rfl, fun i j => ?_⟩
    fin_cases i <;> fin_cases j <;> exact ⟨_, rfl, by simp [QRep]⟩
  have := C88_triangular_determinant C26_rationals h (.inl fun i j hij => by
    fin_cases i <;> fin_cases j <;> simp_all)
  rw [Fin.prod_univ_two, show !![(2 : ℚ), 7; 0, 3] 0 0 * !![(2 : ℚ), 7; 0, 3] 1 1 = 6 by norm_num] at this
  exact this

/-- Two blocks of size two and one. -/
example : MatrixRing.determinant TwoElementAlgebra.field 2 [false, true, true, false] = .ok true ∧
    MatrixRing.determinant TwoElementAlgebra.field 1 [true] = .ok true ∧
    MatrixRing.determinant TwoElementAlgebra.field 3
      [false, true, true, true, false, true, false, false, true] = .ok true :=
  ⟨rfl, rfl, rfl⟩

omit [Cfg] in
/-- The cyclic group of order three. -/
example : Nonempty (Multiplicative (ZMod 3) ≃ Fin (3 : UInt32).toNat) := ⟨Multiplicative.toAdd⟩

/-- The even permutations of four points. -/
example : GroupSpec False (Permutations.ops 4) fun a (σ : (Equiv.Perm.sign (α := Fin (4 : UInt32).toNat)).ker.op) =>
    PermRep (n := (4 : UInt32).toNat) a σ.1 :=
  C88_group (C42_group 4) (Subgroup.subtype _) (Subgroup.subtype_injective _)

/-- The even integers as an abelian group, and the positive units of the integers as a monoid. -/
example : AbelianGroupSpec False Integers.euclidean.toAbelianGroupOps (fun a (x : AddSubgroup.zmultiples (2 : ℤ)) => a = (x : ℤ)) :=
  C88_abelian_group Integers.euclidean_spec.toAbelianGroupSpec (AddSubgroup.subtype _) (AddSubgroup.subtype_injective _)
example : MonoidSpec False Integers.euclidean.toMonoidOps (fun a (x : ℤˣ) => a = (x : ℤ)) :=
  C88_monoid Integers.euclidean_spec.toMonoidSpec (Units.coeHom ℤ) Units.val_injective fun x _ => Group.isUnit x

/-- The field with two elements in itself, and the integers among the polynomials. -/
example : FieldSpec False TwoElementAlgebra.field fun a (x : ZMod 2) => TwoElementAlgebra.FRep a (RingHom.id _ x) :=
  C88_field TwoElementAlgebra.spec (RingHom.id _)
example : UnitaryRingSpec False (PolynomialAlgebra.unitaryRing Integers.unitaryRing) fun v (x : ℤ) => RingPolyRep ZRep v (C x) :=
  C88_ring (C30_polynomial_ring Integers.euclidean_spec.toUnitaryRingSpec) C C_injective fun _ h => isUnit_C.1 h

/-- Constant vectors of integers. -/
example : Returns False ((VectorAlgebra.unitaryRing 3 Integers.unitaryRing).mul [5, 5, 5] [7, 7, 7])
    fun v => VecRep ZRep v fun _ : Fin 3 => 5 * 7 :=
  have h := C88_constant_vectors 3 (by decide) (base := Integers.unitaryRing) Integers.euclidean_spec.toUnitaryRingSpec
  h.1.mul (h.2 rfl) (h.2 rfl)

/-- The square of `x^2 + 3` is a polynomial in `x^2`. -/
example : (PolynomialAlgebra.unitaryRing Integers.unitaryRing).mul [3, 0, 1] [3, 0, 1] = .ok [9, 0, 6, 0, 1] := rfl
example := C88_polynomials_expand (Integers.euclidean_spec.toUnitaryRingSpec) 2 (by decide)

/-- Constants in the field with four elements. -/
example [Fact (Irreducible (X ^ 2 + X + 1 : (ZMod 2)[X]))] {m : List Bool} (hm : RingPolyRep TwoElementAlgebra.FRep m (X ^ 2 + X + 1)) :=
  (C88_constant_residues TwoElementAlgebra.spec (φ := AdjoinRoot.mk (X ^ 2 + X + 1 : (ZMod 2)[X])) ⟨AdjoinRoot.mk_surjective, fun _ => AdjoinRoot.mk_eq_zero⟩
    (Irreducible.ne_zero Fact.out) hm).1

/-- Scalar matrices over the field with two elements. -/
example := C88_scalar_matrices (n := 3) TwoElementAlgebra.spec (by decide)

/-- The field with four elements as matrices. -/
example := C88_extension_matrices ((Module.finBasis (ZMod 2) (GaloisField 2 2)).reindex (finCongr (GaloisField.finrank 2 (by decide))))
  TwoElementAlgebra.spec

omit [Cfg] in
/-- The inverse of an upper triangular matrix. -/
example : letI : Cfg := ⟨true, true, 64, by decide⟩
    (MatrixRing.ops TwoElementAlgebra.field 2).tryInv [true, true, false, true] = .ok (some [true, true, false, true]) ∧
    (MatrixRing.ops TwoElementAlgebra.field 2).tryInv [true, true, false, false] = .ok none := ⟨rfl, rfl⟩
example := have h : MatRep TwoElementAlgebra.FRep [true, true, false, true] !![(1 : ZMod 2), 1; 0, 1] :=
    ⟨rfl, fun i j => by fin_cases i <;> fin_cases j <;> exact ⟨_, rfl, rfl⟩⟩
  have h' : ∀ i j, j < i → !![(1 : ZMod 2), 1; 0, 1] i j = 0 := fun i j => by fin_cases i <;> fin_cases j <;> simp
  And.intro (C88_triangular_inverse TwoElementAlgebra.spec h h') (C88_triangular_ring TwoElementAlgebra.spec h h h' h')

end Abstalg
