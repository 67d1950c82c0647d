import Verif.Props.Quotient
import Verif.Props.Polynomials
import Verif.Props.Fractions
import Mathlib.FieldTheory.RatFunc.Basic
import Mathlib.FieldTheory.IntermediateField.Adjoin.Algebra
import Mathlib.RingTheory.Coprime.Lemmas
import Mathlib.RingTheory.Ideal.Quotient.Operations
import Mathlib.Algebra.Group.Pi.Units
import Mathlib.Analysis.Complex.Basic

/-! # Structures built on one another: C82 -/

set_option linter.unusedSectionVars false

set_option autoImplicit false

universe u v w

namespace Abstalg

open Polynomial

section rational

variable [Cfg] {E : Type} {F : Type u} [Field F] {mp : Prop} {rep : E → F → Prop}
  {base : FieldOps E}

theorem fracRep_ratFunc [DecidableEq F] (e : List E × List E) (r : RatFunc F) :
    FracRep (RingPolyRep rep) e r ↔ RingPolyRep rep e.1 r.num ∧ RingPolyRep rep e.2 r.denom := by
  constructor
  · rintro ⟨f, g, hf, hg, h0, hc, hn, h⟩
    obtain ⟨h1, h2⟩ := frac_unique h0 r.denom_ne_zero hc r.isCoprime_num_denom hn
      r.monic_denom.normalize_eq_self (by
        rw [← RatFunc.num_div_denom r, ReducedFractions.map_div_eq_iff r.denom_ne_zero h0] at h
        exact h.symm)
    exact ⟨h1 ▸ hf, h2 ▸ hg⟩
  · rintro ⟨hf, hg⟩
    exact ⟨_, _, hf, hg, r.denom_ne_zero, r.isCoprime_num_denom, r.monic_denom.normalize_eq_self,
      (RatFunc.num_div_denom r).symm⟩

/-- C82: the fractions of the polynomials over a field are the rational functions, each
represented by its numerator and its monic denominator. -/
theorem C82_rational_functions (h : FieldSpec mp base rep) :
    Returns mp (ReducedFractions.new (PolynomialAlgebra.euclidean base)) fun A =>
      FieldSpec mp A fun (e : List E × List E) (r : RatFunc F) =>
        RingPolyRep rep e.1 r.num ∧ RingPolyRep rep e.2 r.denom := by
  classical
  have := C26_fraction_field (PolynomialAlgebra.euclidean_spec h) (RatFunc F)
  rwa [show (fun (e : List E × List E) (k : RatFunc F) => ∃ x y, RingPolyRep rep e.1 x ∧
      RingPolyRep rep e.2 y ∧ y ≠ 0 ∧ IsCoprime x y ∧ normalize y = y ∧
      k = algebraMap F[X] (RatFunc F) x / algebraMap F[X] (RatFunc F) y) = fun e r =>
      RingPolyRep rep e.1 r.num ∧ RingPolyRep rep e.2 r.denom from
    funext fun e => funext fun r => propext (fracRep_ratFunc e r)] at this

/-- C82: `reduce` brings a quotient of polynomials to this form. -/
theorem C82_rational_reduce (h : FieldSpec mp base rep) {v w : List E} {f g : F[X]}
    (hf : RingPolyRep rep v f) (hg : RingPolyRep rep w g) :
    (g ≠ 0 → Returns mp (ReducedFractions.reduce (PolynomialAlgebra.euclidean base) (v, w)) fun e =>
      RingPolyRep rep e.1 (algebraMap F[X] (RatFunc F) f / algebraMap F[X] (RatFunc F) g).num ∧
      RingPolyRep rep e.2 (algebraMap F[X] (RatFunc F) f / algebraMap F[X] (RatFunc F) g).denom) ∧
    (g = 0 → Panics (ReducedFractions.reduce (PolynomialAlgebra.euclidean base) (v, w))) := by
  classical
  constructor
  · intro h0
    exact (ReducedFractions.reduce_spec (K := RatFunc F) (PolynomialAlgebra.euclidean_spec h) hf hg
      h0).mono fun e he => (fracRep_ratFunc e _).1 he
  · rintro rfl
    exact C27_zero_denominator (PolynomialAlgebra.euclidean_spec h) hg

/-- Over the rational numbers `(-1 + x^2)/(2 + 2x)` is brought to `(-1/2 + x/2)/1`, of which the
numerator and the denominator are those of the rational function. -/
example : ReducedFractions.reduce (PolynomialAlgebra.euclidean ReducedFractions.QQ)
    ([(-1, 1), (0, 1), (1, 1)], [(2, 1), (2, 1)]) = .ok ([(-1, 2), (1, 2)], [(1, 1)]) := by
  have hr : ∀ {n : ℤ} {d : ℕ} {q : ℚ}, q.num = n → q.den = d →
      n = q.num ∧ (d : ℤ) = q.den := by rintro _ _ _ rfl rfl; exact ⟨rfl, rfl⟩
  have hu : ∀ {a b : ℤ × ℤ} {q : ℚ}, (a.1 = q.num ∧ a.2 = q.den) → (b.1 = q.num ∧ b.2 = q.den) →
      a = b := fun h1 h2 => Prod.ext (h1.1.trans h2.1.symm) (h1.2.trans h2.2.symm)
  have h1 : RingPolyRep (fun (a : ℤ × ℤ) (q : ℚ) => a.1 = q.num ∧ a.2 = q.den)
      [(-1, 1), (0, 1), (1, 1)] (polyOf [-1, 0, 1]) :=
    polyOf_rep (.cons (hr rfl rfl) (.cons (hr rfl rfl) (.cons (hr rfl rfl) .nil))) (by decide +kernel)
  have h2 : RingPolyRep (fun (a : ℤ × ℤ) (q : ℚ) => a.1 = q.num ∧ a.2 = q.den)
      [(2, 1), (2, 1)] (polyOf [2, 2]) :=
    polyOf_rep (.cons (hr rfl rfl) (.cons (hr rfl rfl) .nil)) (by decide +kernel)
  have h3 : RingPolyRep (fun (a : ℤ × ℤ) (q : ℚ) => a.1 = q.num ∧ a.2 = q.den)
      [(-1, 2), (1, 2)] (polyOf [-1/2, 1/2]) :=
    polyOf_rep (.cons (hr (by decide +kernel) (by decide +kernel))
      (.cons (hr (by decide +kernel) (by decide +kernel)) .nil)) (by decide +kernel)
  have h4 : RingPolyRep (fun (a : ℤ × ℤ) (q : ℚ) => a.1 = q.num ∧ a.2 = q.den)
      [(1, 1)] (1 : ℚ[X]) := by
    have : RingPolyRep (fun (a : ℤ × ℤ) (q : ℚ) => a.1 = q.num ∧ a.2 = q.den) [(1, 1)] (polyOf [1]) :=
      polyOf_rep (.cons (hr rfl rfl) .nil) (by decide +kernel)
    simpa [polyOf] using this
  have h0 : (polyOf [2, 2] : ℚ[X]) ≠ 0 := fun h => by
    have := congrArg (eval 0) h
    simp [polyOf] at this
  have he : (polyOf [-1, 0, 1] : ℚ[X]) = polyOf [-1/2, 1/2] * polyOf [2, 2] := by
    have h : (C (1/2) * C 2 : ℚ[X]) = 1 := by rw [← C_mul]; norm_num
    simp only [polyOf, map_neg, map_one, map_zero, neg_div]
    linear_combination (1 - X ^ 2) * h
  obtain ⟨e, h5, h6, h7⟩ := returns_false_iff.1 ((C82_rational_reduce C26_rationals h1 h2).1 h0)
  rw [he, map_mul, mul_div_assoc, div_self (by simpa using h0), mul_one] at h6 h7
  rw [RatFunc.num_algebraMap] at h6
  rw [RatFunc.denom_algebraMap] at h7
  rw [h5]
  exact congrArg _ (Prod.ext 
    (C35_unique (rep := fun (a : ℤ × ℤ) (q : ℚ) => a.1 = q.num ∧ a.2 = q.den) hu h6 h3)
    (C35_unique (rep := fun (a : ℤ × ℤ) (q : ℚ) => a.1 = q.num ∧ a.2 = q.den) hu h7 h4))

end rational

section adjoin

variable [Cfg] {E : Type} {F : Type u} [Field F] {mp : Prop} {rep : E → F → Prop}
  {base : FieldOps E} {K : Type v} [Field K] [Algebra F K]

open IntermediateField

theorem adjoin_isFactor {α : K} (hα : IsIntegral F α) :
    IsFactor (aeval (AdjoinSimple.gen F α) : F[X] →ₐ[F] F⟮α⟯).toRingHom (minpoly F α) where
  surjective := by
    rintro ⟨s, hs⟩
    have h1 : s ∈ F⟮α⟯.toSubalgebra := hs
    rw [adjoin_simple_toSubalgebra_of_isAlgebraic hα.isAlgebraic,
      Algebra.adjoin_singleton_eq_range_aeval] at h1
    obtain ⟨g, hg⟩ := h1
    refine ⟨g, Subtype.ext ?_⟩
    show ((aeval (AdjoinSimple.gen F α) g : F⟮α⟯) : K) = s
    rw [← aeval_coe, AdjoinSimple.coe_gen]
    exact hg
  ker := fun g => by
    rw [minpoly.dvd_iff]
    show aeval (AdjoinSimple.gen F α) g = 0 ↔ _
    rw [← ZeroMemClass.coe_eq_zero, ← aeval_coe, AdjoinSimple.coe_gen]

/-- C82: the polynomials over a field modulo the minimal polynomial of an element `α` of a larger
field are the field generated by `α`: a vector represents the value of its polynomial at `α`. -/
theorem C82_simple_extension (h : FieldSpec mp base rep) {α : K} (hα : IsIntegral F α)
    {v : List E} (hv : RingPolyRep rep v (minpoly F α)) :
    FieldSpec mp (QuotientField.ops (PolynomialAlgebra.euclidean base) v)
      fun w (s : F⟮α⟯) => ∃ g : F[X],
        RingPolyRep rep w g ∧ g.degree < (minpoly F α).degree ∧ aeval α g = (s : K) := by
  classical
  have h0 := minpoly.ne_zero hα
  have := C21_quotient_field_any (adjoin_isFactor hα) (PolynomialAlgebra.euclidean_spec h) hv h0
  rwa [show ResidueRep (RingPolyRep rep) (aeval (AdjoinSimple.gen F α) : F[X] →ₐ[F] F⟮α⟯).toRingHom
      (minpoly F α) = fun w (s : F⟮α⟯) => ∃ g : F[X],
        RingPolyRep rep w g ∧ g.degree < (minpoly F α).degree ∧ aeval α g = (s : K) from ?_] at this
  funext w s
  simp only [ResidueRep, Polynomial.div_eq_zero_iff h0]
  refine propext (exists_congr fun g => and_congr_right fun _ => and_congr_right fun _ => ?_)
  show aeval (AdjoinSimple.gen F α) g = s ↔ _
  rw [← Subtype.coe_inj, ← aeval_coe, AdjoinSimple.coe_gen]

/-- The imaginary unit over the rational numbers, with minimal polynomial `1 + x^2`: the inverse of
`1 + i` is `1/2 - i/2`. -/
example : (QuotientField.ops (PolynomialAlgebra.euclidean ReducedFractions.QQ)
    [(1, 1), (0, 1), (1, 1)]).inv [(1, 1), (1, 1)] = .ok [(1, 2), (-1, 2)] := by
  have hr : ∀ {n : ℤ} {d : ℕ} {q : ℚ}, q.num = n → q.den = d →
      n = q.num ∧ (d : ℤ) = q.den := by rintro _ _ _ rfl rfl; exact ⟨rfl, rfl⟩
  have hu : ∀ {a b : ℤ × ℤ} {q : ℚ}, (a.1 = q.num ∧ a.2 = q.den) → (b.1 = q.num ∧ b.2 = q.den) →
      a = b := fun h1 h2 => Prod.ext (h1.1.trans h2.1.symm) (h1.2.trans h2.2.symm)
  have h1 : RingPolyRep (fun (a : ℤ × ℤ) (q : ℚ) => a.1 = q.num ∧ a.2 = q.den)
      [(1, 1), (0, 1), (1, 1)] (polyOf [1, 0, 1]) :=
    polyOf_rep (.cons (hr rfl rfl) (.cons (hr rfl rfl) (.cons (hr rfl rfl) .nil))) (by decide +kernel)
  have h2 : RingPolyRep (fun (a : ℤ × ℤ) (q : ℚ) => a.1 = q.num ∧ a.2 = q.den)
      [(1, 1), (1, 1)] (polyOf [1, 1]) :=
    polyOf_rep (.cons (hr rfl rfl) (.cons (hr rfl rfl) .nil)) (by decide +kernel)
  have h3 : RingPolyRep (fun (a : ℤ × ℤ) (q : ℚ) => a.1 = q.num ∧ a.2 = q.den)
      [(1, 2), (-1, 2)] (polyOf [1/2, -1/2]) :=
    polyOf_rep (.cons (hr (by decide +kernel) (by decide +kernel))
      (.cons (hr (by decide +kernel) (by decide +kernel)) .nil)) (by decide +kernel)
  have hd := h1.natDegree
  have hm : (polyOf [1, 0, 1] : ℚ[X]) = minpoly ℚ Complex.I := by
    refine minpoly.eq_of_irreducible_of_monic ?_ ?_ ?_
    · refine irreducible_of_degree_le_three_of_not_isRoot (by rw [hd]; decide) fun x hx => ?_
      simp only [polyOf, IsRoot, eval_add, eval_mul, eval_C, eval_X, eval_zero] at hx
      nlinarith [sq_nonneg x]
    · simp [polyOf]
    · rw [Monic, leadingCoeff, hd]
      simp [polyOf_coeff]
  rw [hm] at h1
  have hi : IsIntegral ℚ Complex.I := by
    by_contra hn
    rw [minpoly.eq_zero hn] at hm
    rw [hm, natDegree_zero] at hd
    revert hd
    decide
  have hdm : (minpoly ℚ Complex.I).natDegree = 2 := by rw [← hm, hd]; rfl
  have hF := C82_simple_extension C26_rationals hi h1
  have hs : (1 + Complex.I : ℂ) ∈ ℚ⟮Complex.I⟯ :=
    add_mem (one_mem _) (mem_adjoin_simple_self ℚ Complex.I)
  obtain ⟨w, h4, g, h5, h6, h7⟩ := returns_false_iff.1 <| hF.inv (a := [(1, 1), (1, 1)])
    (x := ⟨1 + Complex.I, hs⟩) ⟨_, h2, by
      rw [degree_eq_natDegree (minpoly.ne_zero hi), hdm]
      refine (degree_lt_iff_coeff_zero _ _).2 fun i hi => h2.2.1 i (by exact_mod_cast hi),
      by simp [polyOf]⟩ (fun h => by
        have := congrArg Complex.re (congrArg Subtype.val h)
        simp at this)
  rw [h4]
  refine congrArg _ (C35_unique
    (rep := fun (a : ℤ × ℤ) (q : ℚ) => a.1 = q.num ∧ a.2 = q.den) hu h5 ?_)
  rw [show g = polyOf [1/2, -1/2] from ?_]
  · exact h3
  · by_contra hn
    have h8 : ((polyOf [1/2, -1/2] : ℚ[X])).degree < (minpoly ℚ Complex.I).degree := by
      rw [degree_eq_natDegree (minpoly.ne_zero hi), hdm]
      exact (degree_lt_iff_coeff_zero _ _).2 fun i hi => h3.2.1 i (by exact_mod_cast hi)
    have h9 := minpoly.degree_le_of_ne_zero ℚ Complex.I (sub_ne_zero.2 hn) (by
      rw [map_sub, h7]
      push_cast
      simp only [polyOf, map_add, map_mul, aeval_C, aeval_X, map_zero]
      rw [sub_eq_zero]
      refine inv_eq_of_mul_eq_one_right ?_
      simp
      ring_nf
      norm_num)
    exact absurd ((degree_sub_le _ _).trans_lt (max_lt h6 h8)) (not_lt.2 h9)

end adjoin

section chinese

variable [Cfg] {E : Type} {R : Type u} [EuclideanDomain R] [NormalizationMonoid R]
  [CanonicalRem R] {mp : Prop} {rep : E → R → Prop} {base : EuclideanDomainOps E}
  {ι : Type v} [Fintype ι] {S : ι → Type w} [∀ i, CommRing (S i)]

theorem pi_isFactor {φ : ∀ i, R →+* S i} {μ : ι → R} (hφ : ∀ i, IsFactor (φ i) (μ i))
    (hc : ∀ i j, i ≠ j → IsCoprime (μ i) (μ j)) : IsFactor (RingHom.pi φ) (∏ i, μ i) where
  surjective := fun s => by
    choose x hx using fun i => (hφ i).surjective (s i)
    obtain ⟨r, hr⟩ := Ideal.exists_forall_sub_mem_ideal (I := fun i => Ideal.span {μ i})
      (fun i j hij => (Ideal.isCoprime_span_singleton_iff _ _).2 (hc i j hij)) x
    refine ⟨r, funext fun i => ?_⟩
    show φ i r = s i
    rw [← hx i, ← sub_eq_zero, ← map_sub, (hφ i).ker]
    exact Ideal.mem_span_singleton.1 (hr i)
  ker := fun x => by
    constructor
    · intro h
      exact Fintype.prod_dvd_of_coprime (fun i j hij => hc i j hij)
        fun i => ((hφ i).ker x).1 (congrFun h i)
    · intro h
      exact funext fun i => ((hφ i).ker x).2 ((Finset.dvd_prod_of_mem μ (Finset.mem_univ i)).trans h)

/-- C82: the quotient by a product of pairwise coprime elements is the product of the quotients. -/
theorem C82_chinese_remainder (h : EuclideanSpec mp base rep) {φ : ∀ i, R →+* S i} {μ : ι → R}
    (hφ : ∀ i, IsFactor (φ i) (μ i)) (hc : ∀ i j, i ≠ j → IsCoprime (μ i) (μ j))
    {m : E} (hm : rep m (∏ i, μ i)) (h0 : ∏ i, μ i ≠ 0) (hu : ¬ IsUnit (∏ i, μ i)) :
    UnitaryRingSpec mp (QuotientRing.ops base m) fun e (s : ∀ i, S i) =>
      ∃ x, rep e x ∧ x / (∏ i, μ i) = 0 ∧ ∀ i, φ i x = s i := by
  have := C18_quotient_ring_any (pi_isFactor hφ hc) h hm h0 hu
  rwa [show ResidueRep rep (RingHom.pi φ) (∏ i, μ i) = fun e (s : ∀ i, S i) =>
      ∃ x, rep e x ∧ x / (∏ i, μ i) = 0 ∧ ∀ i, φ i x = s i from ?_] at this
  funext e s
  simp only [ResidueRep, funext_iff]
  rfl

/-- C82: the integers modulo a product of pairwise coprime numbers. -/
theorem C82_integer_residues {n : ι → ℕ} (hc : ∀ i j, i ≠ j → Nat.Coprime (n i) (n j))
    (h2 : 2 ≤ ∏ i, n i) :
    UnitaryRingSpec False (QuotientRing.ops Integers.euclidean ((∏ i, n i : ℕ) : ℤ))
      fun a (s : ∀ i, ZMod (n i)) => 0 ≤ a ∧ a < (∏ i, n i : ℕ) ∧ ∀ i, (a : ZMod (n i)) = s i := by
  have hp : ∏ i, (n i : ℤ) = ((∏ i, n i : ℕ) : ℤ) := by push_cast; rfl
  have := C82_chinese_remainder (S := fun i => ZMod (n i)) Integers.euclidean_spec
    (φ := fun i => Int.castRingHom (ZMod (n i))) (μ := fun i => (n i : ℤ))
    (fun i => zmod_isFactor (n i)) (fun i j hij => Nat.isCoprime_iff_coprime.2 (hc i j hij))
    (m := ((∏ i, n i : ℕ) : ℤ)) (by rw [hp]; rfl) (by rw [hp]; omega)
    (by rw [hp, Int.isUnit_iff]; omega)
  rwa [show (fun e (s : ∀ i, ZMod (n i)) => ∃ x : ℤ, ZRep e x ∧ x / (∏ i, (n i : ℤ)) = 0 ∧
      ∀ i, Int.castRingHom (ZMod (n i)) x = s i) = fun (a : ℤ) s =>
      0 ≤ a ∧ a < (∏ i, n i : ℕ) ∧ ∀ i, (a : ZMod (n i)) = s i from ?_] at this
  funext a s
  refine propext ⟨?_, fun h => ⟨a, rfl, ?_, h.2.2⟩⟩
  · rintro ⟨x, rfl, h1, h3⟩
    rw [hp] at h1
    have h4 := Int.emod_add_mul_ediv a ((∏ i, n i : ℕ) : ℤ)
    rw [h1, mul_zero, add_zero] at h4
    exact ⟨h4 ▸ Int.emod_nonneg a (by omega), h4 ▸ Int.emod_lt_of_pos a (by omega), h3⟩
  · rw [hp]
    exact Int.ediv_eq_zero_of_lt h.1 h.2.1

/-- The integers modulo 15, where 7 stands for the classes of 1 modulo three and 2 modulo five. -/
example : UnitaryRingSpec False (QuotientRing.ops Integers.euclidean (15 : ℤ))
      (fun a (s : ∀ i : Fin 2, ZMod (![3, 5] i)) =>
        0 ≤ a ∧ a < 15 ∧ ∀ i, (a : ZMod (![3, 5] i)) = s i) ∧
    ((7 : ℤ) : ZMod 3) = 1 ∧ ((7 : ℤ) : ZMod 5) = 2 :=
  ⟨C82_integer_residues (n := ![3, 5]) (by decide) (by decide), by decide, by decide⟩

end chinese

section values

variable [Cfg] {E : Type} {F : Type u} [Field F] {mp : Prop} {rep : E → F → Prop}
  {base : FieldOps E}

/-- C82: the remainder by `x - a` is the value at `a`. -/
theorem C82_remainder (h : FieldSpec mp base rep) {v m : List E} {f : F[X]} {a : F}
    (hf : RingPolyRep rep v f) (hm : RingPolyRep rep m (X - C a)) :
    Returns mp ((PolynomialAlgebra.euclidean base).rem v m) (RingPolyRep rep · (C (f.eval a))) ∧
    Decides mp ((PolynomialAlgebra.euclidean base).divisible v m) (f.eval a = 0) := by
  classical
  have hE := PolynomialAlgebra.euclidean_spec h
  have h1 := hE.rem hf hm (X_sub_C_ne_zero a)
  rw [mod_X_sub_C_eq_C_eval] at h1
  exact ⟨h1, (hE.divisible hf hm).iff dvd_iff_isRoot⟩

/-- The value of `1 + x + x^2` at one over the field with two elements. -/
example : RingPolyRep TwoElementAlgebra.FRep [true, true] (X - C (1 : ZMod 2)) ∧
    (PolynomialAlgebra.euclidean TwoElementAlgebra.field).rem [true, true, true] [true, true] =
      .ok [true] := by
  refine ⟨?_, rfl⟩
  have : RingPolyRep TwoElementAlgebra.FRep [true, true] (polyOf [1, 1]) :=
    polyOf_rep (by simp [TwoElementAlgebra.FRep]) (by decide)
  rwa [show (polyOf [1, 1] : (ZMod 2)[X]) = X - C 1 from ?_] at this
  have h : (1 : (ZMod 2)[X]) = -1 := by
    rw [← C_1, ← C_neg]; congr 1
  simp only [polyOf, map_one]
  linear_combination h

theorem eval_isFactor (a : F) : IsFactor (evalRingHom a) (X - C a) where
  surjective := fun x => ⟨C x, eval_C⟩
  ker := fun _ => dvd_iff_isRoot.symm

/-- C82: the polynomials modulo the product of the `x - a` for distinct points `a` are the functions
on these points: a vector of at most that many coefficients represents the values of its
polynomial. -/
theorem C82_interpolation (h : FieldSpec mp base rep) {ι : Type v} [Fintype ι] [Nonempty ι]
    {a : ι → F} (ha : Function.Injective a) {m : List E}
    (hm : RingPolyRep rep m (∏ i, (X - C (a i)))) :
    UnitaryRingSpec mp (QuotientRing.ops (PolynomialAlgebra.euclidean base) m)
      fun w (s : ι → F) => ∃ g : F[X],
        RingPolyRep rep w g ∧ g.degree < (Fintype.card ι : WithBot ℕ) ∧ ∀ i, g.eval (a i) = s i := by
  classical
  have h0 : ∏ i, (X - C (a i)) ≠ 0 := Finset.prod_ne_zero_iff.2 fun i _ => X_sub_C_ne_zero _
  have hd : (∏ i, (X - C (a i))).degree = (Fintype.card ι : WithBot ℕ) := by
    rw [degree_prod]
    simp
  have := C82_chinese_remainder (S := fun _ : ι => F) (PolynomialAlgebra.euclidean_spec h)
    (fun i => eval_isFactor (a i)) (fun i j hij => isCoprime_X_sub_C_of_isUnit_sub
      (sub_ne_zero.2 (ha.ne hij)).isUnit) hm h0 (by
        rw [isUnit_iff_degree_eq_zero, hd]
        exact_mod_cast Fintype.card_ne_zero)
  simpa only [Polynomial.div_eq_zero_iff h0, hd, coe_evalRingHom] using this

/-- C82: a polynomial has an inverse there exactly if it vanishes at none of the points. -/
theorem C82_interpolation_inverse (h : FieldSpec mp base rep) {ι : Type v} [Fintype ι] [Nonempty ι]
    {a : ι → F} (ha : Function.Injective a) {m : List E}
    (hm : RingPolyRep rep m (∏ i, (X - C (a i)))) {w : List E} {g : F[X]}
    (hw : RingPolyRep rep w g) (hd : g.degree < (Fintype.card ι : WithBot ℕ)) :
    Returns mp ((QuotientRing.ops (PolynomialAlgebra.euclidean base) m).tryInv w) fun
      | some u => ∃ f : F[X], RingPolyRep rep u f ∧ f.degree < (Fintype.card ι : WithBot ℕ) ∧
          ∀ i, f.eval (a i) = (g.eval (a i))⁻¹ ∧ g.eval (a i) ≠ 0
      | none => ∃ i, g.eval (a i) = 0 := by
  have hR := C82_interpolation h ha hm
  refine (hR.tryInv (a := w) (x := fun i => g.eval (a i)) ⟨g, hw, hd, fun _ => rfl⟩).mono
    fun o ho => ?_
  cases o with
  | none =>
    by_contra hn
    push Not at hn
    exact ho (Pi.isUnit_iff.2 fun i => (hn i).isUnit)
  | some u =>
    obtain ⟨y, ⟨f, hf, hfd, hv⟩, h1, -⟩ := ho
    refine ⟨f, hf, hfd, fun i => ?_⟩
    have h2 : g.eval (a i) * f.eval (a i) = 1 := by rw [hv]; exact congrFun h1 i
    exact ⟨eq_inv_of_mul_eq_one_right h2, left_ne_zero_of_mul_eq_one h2⟩

/-- Over the field with two elements the polynomials modulo `x + x^2` are the functions on both
elements; `x` vanishes at zero, so has no inverse. -/
example : RingPolyRep TwoElementAlgebra.FRep [false, true, true]
      (∏ i : ZMod 2, (X - C (id i))) ∧ Function.Injective (id : ZMod 2 → ZMod 2) := by
  refine ⟨?_, fun _ _ h => h⟩
  have : RingPolyRep TwoElementAlgebra.FRep [false, true, true] (polyOf [0, 1, 1]) :=
    polyOf_rep (by simp [TwoElementAlgebra.FRep]) (by decide)
  rwa [show (polyOf [0, 1, 1] : (ZMod 2)[X]) = ∏ i : ZMod 2, (X - C (id i)) from ?_] at this
  have h : (1 : (ZMod 2)[X]) = -1 := by
    rw [← C_1, ← C_neg]; congr 1
  rw [show (∏ i : ZMod 2, (X - C (id i)) : (ZMod 2)[X]) = (X - C 0) * (X - C 1) from
    Fin.prod_univ_two _]
  simp only [polyOf, map_one, map_zero]
  linear_combination X * h

end values

end Abstalg
