import Verif.Proofs.Generated
import Verif.Props.Quotient
import Verif.Props.Polynomials
import Verif.Props.Fractions
import Verif.Props.Matrices
import Mathlib.FieldTheory.Minpoly.Field
import Mathlib.LinearAlgebra.Matrix.Notation

/-! # Residues of polynomials inside larger structures: C91 -/

set_option linter.unusedSectionVars false

set_option autoImplicit false

universe u v

namespace Abstalg

open Polynomial

/-- C91: an implementation of a ring implements its image in a larger ring in which no further elements
have inverses. -/
theorem C91_image [Cfg] {E : Type} {R : Type u} {S : Type v} [Ring R] [Ring S] {mp : Prop} {rep : E → R → Prop}
    {A : UnitaryRingOps E} (h : UnitaryRingSpec mp A rep) (φ : R →+* S) (hφ : Function.Injective φ)
    (hu : ∀ x, IsUnit (φ x) → IsUnit x) : UnitaryRingSpec mp A (RepImage rep φ) :=
  h.image φ hφ hu

/-- The rational numbers inside the pairs of rational numbers. -/
example [Cfg] : UnitaryRingSpec False ReducedFractions.QQ.toUnitaryRingOps
    (RepImage QRep fun q : ℚ => (q, q)) :=
  C91_image C26_rationals.toUnitaryRingSpec ((RingHom.id ℚ).prod (RingHom.id ℚ)) (fun _ _ h => congrArg Prod.fst h)
    fun _ hx => (Prod.isUnit_iff.1 hx).1

section

variable [Cfg] {E : Type} {F : Type u} [Field F] {mp : Prop} {rep : E → F → Prop} {base : FieldOps E}

theorem residueRep_mk {μ p : F[X]} (h0 : μ ≠ 0) (hp : p.degree < μ.degree) {w : List E} :
    ResidueRep (RingPolyRep rep) (Ideal.Quotient.mk (Ideal.span {μ})) μ w (Ideal.Quotient.mk _ p) ↔ RingPolyRep rep w p := by
  constructor
  · rintro ⟨x, h1, h2, h3⟩
    rw [Polynomial.div_eq_zero_iff h0] at h2
    rw [Ideal.Quotient.eq, Ideal.mem_span_singleton] at h3
    rwa [← eq_of_dvd_sub h2 hp h3]
  · exact fun h1 => ⟨p, h1, (Polynomial.div_eq_zero_iff h0).2 hp, rfl⟩

theorem quotient_X_pow (h : FieldSpec mp base rep) {n : ℕ} (hn : 0 < n) {m : List E} (hm : RingPolyRep rep m (X ^ n)) :
    UnitaryRingSpec mp (QuotientRing.ops (PolynomialAlgebra.euclidean base) m)
      (ResidueRep (RingPolyRep rep) (Ideal.Quotient.mk (Ideal.span {(X : F[X]) ^ n})) (X ^ n)) := by
  classical
  refine C18_quotient_ring_any (mk_span_isFactor _) (PolynomialAlgebra.euclidean_spec h) hm (pow_ne_zero n X_ne_zero) fun hu => ?_
  have := natDegree_eq_zero_of_isUnit hu
  rw [natDegree_X_pow] at this
  omega

theorem residueRep_trunc {n : ℕ} {f : PowerSeries F} {w : List E} :
    ResidueRep (RingPolyRep rep) (Ideal.Quotient.mk (Ideal.span {(X : F[X]) ^ n})) (X ^ n) w
      (Ideal.Quotient.mk _ (PowerSeries.trunc n f)) ↔ RingPolyRep rep w (PowerSeries.trunc n f) :=
  residueRep_mk (pow_ne_zero n X_ne_zero) (by rw [degree_X_pow]; exact PowerSeries.degree_trunc_lt f n)

variable {n : ℕ} {m : List E} {f g : PowerSeries F} {v w : List E}

/-- C91: modulo `x^n` the polynomials are power series up to `x^n`: the beginning of the sum, the
difference, the product, the multiples. -/
theorem C91_series (h : FieldSpec mp base rep) (hn : 0 < n) (hm : RingPolyRep rep m (X ^ n))
    (hv : RingPolyRep rep v (PowerSeries.trunc n f))
    (hw : RingPolyRep rep w (PowerSeries.trunc n g)) :
    let Q := QuotientRing.ops (PolynomialAlgebra.euclidean base) m
    Returns mp (Q.add v w) (RingPolyRep rep · (PowerSeries.trunc n (f + g))) ∧
    Returns mp (Q.sub v w) (RingPolyRep rep · (PowerSeries.trunc n (f - g))) ∧
    Returns mp (Q.neg v) (RingPolyRep rep · (PowerSeries.trunc n (-f))) ∧
    Returns mp (Q.mul v w) (RingPolyRep rep · (PowerSeries.trunc n (f * g))) ∧
    Returns mp (Q.square v) (RingPolyRep rep · (PowerSeries.trunc n (f ^ 2))) ∧
    (∀ k : ℤ, k ≠ isizeMin → Returns mp (Q.times k v) (RingPolyRep rep · (PowerSeries.trunc n (k • f)))) ∧
    Decides mp (Q.equals v w) (∀ i < n, PowerSeries.coeff i f = PowerSeries.coeff i g) := by
  intro Q
  obtain ⟨τ, hτ⟩ := exists_trunc_hom (F := F) n hn
  have hQ := quotient_X_pow h hn hm
  have h1 := residueRep_trunc.2 hv
  have h2 := residueRep_trunc.2 hw
  rw [← hτ] at h1 h2
  refine ⟨(hQ.add h1 h2).mono fun e he => ?_, (hQ.sub h1 h2).mono fun e he => ?_, (hQ.neg h1).mono fun e he => ?_,
    (hQ.mul h1 h2).mono fun e he => ?_, (hQ.square h1).mono fun e he => ?_, fun k hk => (hQ.times k hk h1).mono fun e he => ?_,
    (hQ.equals h1 h2).iff ?_⟩
  · rw [← map_add, hτ] at he; exact residueRep_trunc.1 he
  · rw [← map_sub, hτ] at he; exact residueRep_trunc.1 he
  · rw [← map_neg, hτ] at he; exact residueRep_trunc.1 he
  · rw [← map_mul, hτ] at he; exact residueRep_trunc.1 he
  · rw [← map_mul, hτ, ← sq] at he; exact residueRep_trunc.1 he
  · rw [← map_zsmul, hτ] at he; exact residueRep_trunc.1 he
  · rw [hτ, hτ, Ideal.Quotient.eq, Ideal.mem_span_singleton, X_pow_dvd_iff]
    refine forall_congr' fun i => imp_congr_right fun hi => ?_
    rw [coeff_sub, PowerSeries.coeff_trunc, PowerSeries.coeff_trunc, if_pos hi, if_pos hi, sub_eq_zero]

/-- C91: `try_inv` returns the beginning of the inverse series; there is none exactly if the constant
coefficient is zero. -/
theorem C91_series_inverse (h : FieldSpec mp base rep) (hn : 0 < n) (hm : RingPolyRep rep m (X ^ n))
    (hv : RingPolyRep rep v (PowerSeries.trunc n f)) :
    Returns mp ((QuotientRing.ops (PolynomialAlgebra.euclidean base) m).tryInv v) fun
      | some w => PowerSeries.constantCoeff f ≠ 0 ∧ RingPolyRep rep w (PowerSeries.trunc n f⁻¹)
      | none => PowerSeries.constantCoeff f = 0 := by
  obtain ⟨τ, hτ⟩ := exists_trunc_hom (F := F) n hn
  have hQ := quotient_X_pow h hn hm
  have h1 := residueRep_trunc.2 hv
  rw [← hτ] at h1
  refine (hQ.tryInv h1).mono fun o ho => ?_
  cases o with
  | none =>
    by_contra hc
    exact ho (((PowerSeries.isUnit_iff_constantCoeff (φ := f)).2 (isUnit_iff_ne_zero.2 hc)).map τ)
  | some w =>
    obtain ⟨y, h2, h3, h4⟩ := ho
    have hc : PowerSeries.constantCoeff f ≠ 0 := by
      intro hc
      obtain ⟨y, rfl⟩ := Ideal.Quotient.mk_surjective y
      rw [hτ, ← map_mul, ← map_one (Ideal.Quotient.mk _), Ideal.Quotient.eq, Ideal.mem_span_singleton, X_pow_dvd_iff] at h3
      have := h3 0 hn
      rw [coeff_sub, mul_coeff_zero, PowerSeries.coeff_trunc, if_pos hn, PowerSeries.coeff_zero_eq_constantCoeff_apply, hc,
        zero_mul, coeff_one_zero, zero_sub, neg_eq_zero] at this
      exact one_ne_zero this
    refine ⟨hc, residueRep_trunc.1 ?_⟩
    have h5 : y = τ f⁻¹ := by
      refine left_inv_eq_right_inv h4 ?_
      rw [← map_mul, PowerSeries.mul_inv_cancel f hc, map_one]
    rwa [← hτ, ← h5]

/-- The series `1 - x` modulo `x^3` over the field with two elements; its inverse begins with `1 + x + x^2`. -/
example : RingPolyRep TwoElementAlgebra.FRep [true, true] (PowerSeries.trunc 3 (1 + PowerSeries.X : PowerSeries (ZMod 2))) ∧
    RingPolyRep TwoElementAlgebra.FRep [false, false, false, true] (X ^ 3 : (ZMod 2)[X]) ∧
    (QuotientRing.ops (PolynomialAlgebra.euclidean TwoElementAlgebra.field) [false, false, false, true]).mul
      [true, true] [true, true, true] = .ok [true] := by
  refine ⟨?_, ?_, rfl⟩
  · have : RingPolyRep TwoElementAlgebra.FRep [true, true] (polyOf [1, 1]) :=
      polyOf_rep (by simp [TwoElementAlgebra.FRep]) (by decide)
    rwa [show (PowerSeries.trunc 3 (1 + PowerSeries.X : PowerSeries (ZMod 2))) = polyOf [1, 1] by
      rw [map_add, PowerSeries.trunc_one, PowerSeries.trunc_X]; simp [polyOf]]
  · have : RingPolyRep TwoElementAlgebra.FRep [false, false, false, true] (polyOf [0, 0, 0, 1]) :=
      polyOf_rep (by simp [TwoElementAlgebra.FRep]) (by decide)
    rwa [show (X ^ 3 : (ZMod 2)[X]) = polyOf [0, 0, 0, 1] by simp [polyOf]; ring]

/-- C91: modulo `x^2` the polynomials are the dual numbers, a value with a derivative. -/
theorem C91_dual_numbers (h : FieldSpec mp base rep) {m : List E} (hm : RingPolyRep rep m (X ^ 2)) :
    UnitaryRingSpec mp (QuotientRing.ops (PolynomialAlgebra.euclidean base) m)
      fun w (s : DualNumber F) => RingPolyRep rep w (C s.fst + C s.snd * X) := by
  classical
  have h0 : (X : F[X]) ^ 2 ≠ 0 := pow_ne_zero 2 X_ne_zero
  have := C18_quotient_ring_any dual_isFactor (PolynomialAlgebra.euclidean_spec h) hm h0 fun hu => by
    have := natDegree_eq_zero_of_isUnit hu
    rw [natDegree_X_pow] at this
    omega
  rwa [show ResidueRep (RingPolyRep rep) (aeval (DualNumber.eps : DualNumber F) : F[X] →ₐ[F] DualNumber F).toRingHom (X ^ 2) =
    fun w (s : DualNumber F) => RingPolyRep rep w (C s.fst + C s.snd * X) from ?_] at this
  funext w s
  refine propext ⟨?_, fun h1 => ⟨_, h1, ?_, ?_⟩⟩
  · rintro ⟨g, h1, h2, h3⟩
    rw [Polynomial.div_eq_zero_iff h0, degree_X_pow] at h2
    have h3 : aeval (DualNumber.eps : DualNumber F) g = s := h3
    rw [aeval_eps] at h3
    have h4 : C s.fst + C s.snd * X = g := by
      rw [← h3]
      ext d
      rcases d with _ | _ | d
      · simp
      · simp
      · have : g.coeff (d + 2) = 0 := (degree_lt_iff_coeff_zero g 2).1 h2 (d + 2) (by omega)
        rw [this, coeff_add, coeff_C_succ, coeff_C_mul, coeff_X, if_neg (by omega), mul_zero, add_zero]
    rwa [h4]
  · rw [Polynomial.div_eq_zero_iff h0, degree_X_pow, add_comm]
    exact degree_linear_lt
  · show aeval _ _ = s
    rw [aeval_eps]
    ext <;> simp

/-- C91: in particular `try_inv` returns `1/a` with the derivative `-b/a²`. -/
theorem C91_dual_inverse (h : FieldSpec mp base rep) {m : List E} (hm : RingPolyRep rep m (X ^ 2)) {a b : F}
    (hv : RingPolyRep rep v (C a + C b * X)) :
    Returns mp ((QuotientRing.ops (PolynomialAlgebra.euclidean base) m).tryInv v) fun
      | some w => a ≠ 0 ∧ RingPolyRep rep w (C a⁻¹ + C (-b / a ^ 2) * X)
      | none => a = 0 := by
  have hQ := C91_dual_numbers h hm
  refine (hQ.tryInv (a := v) (x := TrivSqZeroExt.inl a + TrivSqZeroExt.inr b) (by simpa using hv)).mono fun o ho => ?_
  cases o with
  | none =>
    by_contra ha
    refine ho (IsUnit.of_mul_eq_one (TrivSqZeroExt.inl a⁻¹ + TrivSqZeroExt.inr (-b / a ^ 2)) ?_)
    ext
    · simp [ha]
    · simp
      field_simp
      ring
  | some w =>
    obtain ⟨y, h1, h2, -⟩ := ho
    have h3 := congrArg TrivSqZeroExt.fst h2
    have h4 := congrArg TrivSqZeroExt.snd h2
    simp at h3 h4
    have ha : a ≠ 0 := left_ne_zero_of_mul_eq_one h3
    refine ⟨ha, ?_⟩
    have h5 : y.fst = a⁻¹ := eq_inv_of_mul_eq_one_right h3
    have h6 : y.snd = -b / a ^ 2 := by
      rw [h5] at h4
      field_simp
      field_simp at h4
      linear_combination h4
    rwa [h5, h6] at h1

example : RingPolyRep TwoElementAlgebra.FRep [false, false, true] (X ^ 2 : (ZMod 2)[X]) ∧
    RingPolyRep TwoElementAlgebra.FRep [true, true] (C (1 : ZMod 2) + C 1 * X) := by
  constructor
  · have : RingPolyRep TwoElementAlgebra.FRep [false, false, true] (polyOf [0, 0, 1]) :=
      polyOf_rep (by simp [TwoElementAlgebra.FRep]) (by decide)
    rwa [show (X ^ 2 : (ZMod 2)[X]) = polyOf [0, 0, 1] by simp [polyOf]; ring]
  · have : RingPolyRep TwoElementAlgebra.FRep [true, true] (polyOf [1, 1]) :=
      polyOf_rep (by simp [TwoElementAlgebra.FRep]) (by decide)
    rwa [show (C (1 : ZMod 2) + C 1 * X) = polyOf [1, 1] by simp [polyOf]]

/-- C91: the remainder by a power of `x - a` is the Taylor polynomial at `a`. -/
theorem C91_taylor (h : FieldSpec mp base rep) {p : F[X]} {a : F} {k : ℕ} {m : List E} (hv : RingPolyRep rep v p)
    (hm : RingPolyRep rep m ((X - C a) ^ k)) :
    Returns mp ((PolynomialAlgebra.euclidean base).rem v m)
      (RingPolyRep rep · (∑ i ∈ Finset.range k, C ((hasseDeriv i p).eval a) * (X - C a) ^ i)) := by
  classical
  have := (PolynomialAlgebra.euclidean_spec h).rem hv hm (pow_ne_zero k (X_sub_C_ne_zero a))
  rwa [mod_pow_X_sub_C] at this

/-- C91: for the square this is the tangent. -/
theorem C91_tangent (h : FieldSpec mp base rep) {p : F[X]} {a : F} {m : List E} (hv : RingPolyRep rep v p)
    (hm : RingPolyRep rep m ((X - C a) ^ 2)) :
    Returns mp ((PolynomialAlgebra.euclidean base).rem v m)
      (RingPolyRep rep · (C (p.eval a) + C (p.derivative.eval a) * (X - C a))) := by
  have := C91_taylor h hv hm
  rwa [Finset.sum_range_succ, Finset.sum_range_one, hasseDeriv_zero', hasseDeriv_one', pow_zero, mul_one, pow_one] at this

/-- The tangent of `1 + x^3` at one over the field with two elements is `1 + x`. -/
example : RingPolyRep TwoElementAlgebra.FRep [true, false, true] ((X - C (1 : ZMod 2)) ^ 2) ∧
    (PolynomialAlgebra.euclidean TwoElementAlgebra.field).rem [true, false, false, true] [true, false, true] =
      .ok [true, true] := by
  refine ⟨?_, rfl⟩
  have : RingPolyRep TwoElementAlgebra.FRep [true, false, true] (polyOf [1, 0, 1]) :=
    polyOf_rep (by simp [TwoElementAlgebra.FRep]) (by decide)
  rwa [show (X - C (1 : ZMod 2)) ^ 2 = polyOf [1, 0, 1] from ?_]
  have h : (2 : (ZMod 2)[X]) = 0 := by
    rw [← C_ofNat]; exact congrArg C (by decide) |>.trans C_0
  simp only [polyOf, map_one, map_zero]
  linear_combination -X * h

/-- C91: let `α` be an element of an algebra, commutative or not, whose relations are the multiples of
`μ`.  Then the polynomials modulo `μ` compute in the algebra: a vector stands for the value of its
polynomial at `α`, and `try_inv` finds an inverse if there is one in the algebra. -/
theorem C91_generated (h : FieldSpec mp base rep) {A : Type v} [Ring A] [Algebra F A] [Nontrivial A] {α : A} {μ : F[X]}
    (h0 : μ ≠ 0) (hμ : ∀ g : F[X], aeval α g = 0 ↔ μ ∣ g) {m : List E} (hm : RingPolyRep rep m μ) :
    UnitaryRingSpec mp (QuotientRing.ops (PolynomialAlgebra.euclidean base) m)
      fun w (s : A) => ∃ g : F[X], RingPolyRep rep w g ∧ g.degree < μ.degree ∧ aeval α g = s := by
  classical
  obtain ⟨ψ, h1, h2⟩ := exists_eval_hom hμ
  have hu : ¬ IsUnit μ := fun hu => by
    have := (hμ 1).2 hu.dvd
    rw [map_one] at this
    exact one_ne_zero this
  have h3 := (C18_quotient_ring_any (mk_span_isFactor μ) (PolynomialAlgebra.euclidean_spec h) hm h0 hu).image ψ h1 fun x hx => by
    obtain ⟨g, rfl⟩ := Ideal.Quotient.mk_surjective x
    rw [h2] at hx
    exact isUnit_mk_of_isUnit h0 hμ hx
  rwa [show RepImage (ResidueRep (RingPolyRep rep) (Ideal.Quotient.mk (Ideal.span {μ})) μ) ψ =
    fun w (s : A) => ∃ g : F[X], RingPolyRep rep w g ∧ g.degree < μ.degree ∧ aeval α g = s from ?_] at h3
  funext w s
  refine propext ⟨?_, ?_⟩
  · rintro ⟨_, ⟨g, h4, h5, rfl⟩, rfl⟩
    exact ⟨g, h4, (Polynomial.div_eq_zero_iff h0).1 h5, (h2 g).symm⟩
  · rintro ⟨g, h4, h5, rfl⟩
    exact ⟨_, ⟨g, h4, (Polynomial.div_eq_zero_iff h0).2 h5, rfl⟩, h2 g⟩

/-- C91: in particular with the minimal polynomial of an element, such as a matrix. -/
theorem C91_minimal_polynomial (h : FieldSpec mp base rep) {A : Type v} [Ring A] [Algebra F A] [Nontrivial A] {α : A}
    (hα : IsIntegral F α) {m : List E} (hm : RingPolyRep rep m (minpoly F α)) :
    UnitaryRingSpec mp (QuotientRing.ops (PolynomialAlgebra.euclidean base) m)
      fun w (s : A) => ∃ g : F[X], RingPolyRep rep w g ∧ g.degree < (minpoly F α).degree ∧ aeval α g = s :=
  C91_generated h (minpoly.ne_zero hα) (fun _ => (minpoly.dvd_iff).symm) hm

/-- The matrix `[[0, 1], [0, 0]]` with the relation `x^2`: the matrices `[[a, b], [0, a]]`. -/
example : UnitaryRingSpec False (QuotientRing.ops (PolynomialAlgebra.euclidean TwoElementAlgebra.field) [false, false, true])
    fun w (s : Matrix (Fin 2) (Fin 2) (ZMod 2)) => ∃ g : (ZMod 2)[X], RingPolyRep TwoElementAlgebra.FRep w g ∧
      g.degree < (X ^ 2 : (ZMod 2)[X]).degree ∧ aeval !![(0 : ZMod 2), 1; 0, 0] g = s := by
  refine C91_generated TwoElementAlgebra.spec (pow_ne_zero 2 X_ne_zero) (fun g => ?_) ?_
  · obtain ⟨q, hq⟩ := dual_eq g
    have h1 : aeval !![(0 : ZMod 2), 1; 0, 0] g = !![g.coeff 0, g.coeff 1; 0, g.coeff 0] := by
      conv_lhs => rw [hq]
      simp only [map_add, map_mul, map_pow, aeval_X, aeval_C]
      rw [show !![(0 : ZMod 2), 1; 0, 0] ^ 2 = 0 by decide, zero_mul, zero_add]
      ext i j
      fin_cases i <;> fin_cases j <;> simp [Matrix.algebraMap_eq_diagonal, Matrix.mul_apply, Matrix.diagonal]
    rw [h1, X_pow_dvd_iff]
    constructor
    · intro h d hd
      obtain rfl | rfl : d = 0 ∨ d = 1 := by omega
      · exact congrFun (congrFun h 0) 0
      · exact congrFun (congrFun h 0) 1
    · intro h
      rw [h 0 (by decide), h 1 (by decide)]
      ext i j
      fin_cases i <;> fin_cases j <;> rfl
  · have : RingPolyRep TwoElementAlgebra.FRep [false, false, true] (polyOf [0, 0, 1]) :=
      polyOf_rep (by simp [TwoElementAlgebra.FRep]) (by decide)
    rwa [show (X ^ 2 : (ZMod 2)[X]) = polyOf [0, 0, 1] by simp [polyOf]; ring]

end

end Abstalg
