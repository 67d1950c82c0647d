import Verif.Spec.Generated
import Verif.Spec.Quotient
import Verif.Proofs.Basic
import Mathlib.Algebra.Polynomial.Taylor
import Mathlib.Algebra.Polynomial.FieldDivision
import Mathlib.Algebra.DualNumber
import Mathlib.RingTheory.PowerSeries.Trunc
import Mathlib.RingTheory.PowerSeries.Inverse
import Mathlib.RingTheory.Coprime.Lemmas
import Mathlib.RingTheory.Ideal.Quotient.Operations
import Mathlib.Algebra.Algebra.Basic

/-! # Structures inside larger ones, residues of polynomials -/

set_option autoImplicit false

universe u v

namespace Abstalg

open Polynomial

section image

variable [Cfg] {E : Type} {R : Type u} {S : Type v} {mp : Prop} {rep : E → R → Prop}

omit [Cfg] in
theorem RepImage.of {φ : R → S} {a : E} {x : R} {s : S} (h : rep a x) (hs : φ x = s) : RepImage rep φ a s := ⟨x, h, hs⟩

omit [Cfg] in
theorem DomainSpec.image {A : DomainOps E} (h : DomainSpec mp A rep) {φ : R → S} (hφ : Function.Injective φ) :
    DomainSpec mp A (RepImage rep φ) where
  rep_unique := by
    rintro a _ _ ⟨x, h1, rfl⟩ ⟨y, h2, rfl⟩
    rw [h.rep_unique h1 h2]
  contains := by
    rintro a _ ⟨x, h1, rfl⟩
    exact h.contains h1
  equals := by
    rintro a b _ _ ⟨x, h1, rfl⟩ ⟨y, h2, rfl⟩
    exact (h.equals h1 h2).iff hφ.eq_iff.symm

omit [Cfg] in
theorem MonoidSpec.image [Monoid R] [Monoid S] {A : MonoidOps E} (h : MonoidSpec mp A rep) (φ : R →* S)
    (hφ : Function.Injective φ) (hu : ∀ x, IsUnit (φ x) → IsUnit x) : MonoidSpec mp A (RepImage rep φ) where
  toDomainSpec := h.toDomainSpec.image hφ
  mul := by
    rintro a b _ _ ⟨x, h1, rfl⟩ ⟨y, h2, rfl⟩
    exact (h.mul h1 h2).mono fun c hc => .of hc (map_mul φ x y)
  mulAssign := by
    rintro a b _ _ ⟨x, h1, rfl⟩ ⟨y, h2, rfl⟩
    exact (h.mulAssign h1 h2).mono fun c hc => .of hc (map_mul φ x y)
  square := by
    rintro a _ ⟨x, h1, rfl⟩
    exact (h.square h1).mono fun c hc => .of hc (map_mul φ x x)
  one := h.one.mono fun c hc => .of hc (map_one φ)
  isOne := by
    rintro a _ ⟨x, h1, rfl⟩
    exact (h.isOne h1).iff (map_eq_one_iff φ hφ).symm
  tryInv := by
    rintro a _ ⟨x, h1, rfl⟩
    refine (h.tryInv h1).mono fun o ho => ?_
    cases o with
    | none => exact fun hx => ho (hu x hx)
    | some b =>
      obtain ⟨y, h2, h3, h4⟩ := ho
      exact ⟨φ y, .of h2 rfl, by rw [← map_mul, h3, map_one], by rw [← map_mul, h4, map_one]⟩
  invertible := by
    rintro a _ ⟨x, h1, rfl⟩
    exact (h.invertible h1).iff ⟨fun hx => hx.map φ, hu x⟩

omit [Cfg] in
theorem CommutativeMonoidSpec.image [AddCommMonoid R] [AddCommMonoid S] {A : CommutativeMonoidOps E}
    (h : CommutativeMonoidSpec mp A rep) (φ : R →+ S) (hφ : Function.Injective φ) :
    CommutativeMonoidSpec mp A (RepImage rep φ) where
  toDomainSpec := h.toDomainSpec.image hφ
  zero := h.zero.mono fun c hc => .of hc (map_zero φ)
  isZero := by
    rintro a _ ⟨x, h1, rfl⟩
    exact (h.isZero h1).iff (map_eq_zero_iff φ hφ).symm
  add := by
    rintro a b _ _ ⟨x, h1, rfl⟩ ⟨y, h2, rfl⟩
    exact (h.add h1 h2).mono fun c hc => .of hc (map_add φ x y)
  addAssign := by
    rintro a b _ _ ⟨x, h1, rfl⟩ ⟨y, h2, rfl⟩
    exact (h.addAssign h1 h2).mono fun c hc => .of hc (map_add φ x y)
  double := by
    rintro a _ ⟨x, h1, rfl⟩
    exact (h.double h1).mono fun c hc => .of hc (map_add φ x x)
  utimes := by
    rintro n a _ ⟨x, h1, rfl⟩
    exact (h.utimes n h1).mono fun c hc => .of hc (map_nsmul φ n x)

theorem AbelianGroupSpec.image [AddCommGroup R] [AddCommGroup S] {A : AbelianGroupOps E}
    (h : AbelianGroupSpec mp A rep) (φ : R →+ S) (hφ : Function.Injective φ) :
    AbelianGroupSpec mp A (RepImage rep φ) where
  toCommutativeMonoidSpec := h.toCommutativeMonoidSpec.image φ hφ
  neg := by
    rintro a _ ⟨x, h1, rfl⟩
    exact (h.neg h1).mono fun c hc => .of hc (map_neg φ x)
  negAssign := by
    rintro a _ ⟨x, h1, rfl⟩
    exact (h.negAssign h1).mono fun c hc => .of hc (map_neg φ x)
  sub := by
    rintro a b _ _ ⟨x, h1, rfl⟩ ⟨y, h2, rfl⟩
    exact (h.sub h1 h2).mono fun c hc => .of hc (map_sub φ x y)
  subAssign := by
    rintro a b _ _ ⟨x, h1, rfl⟩ ⟨y, h2, rfl⟩
    exact (h.subAssign h1 h2).mono fun c hc => .of hc (map_sub φ x y)
  times := by
    rintro n hn a _ ⟨x, h1, rfl⟩
    exact (h.times n hn h1).mono fun c hc => .of hc (map_zsmul φ n x)

theorem UnitaryRingSpec.image [Ring R] [Ring S] {A : UnitaryRingOps E} (h : UnitaryRingSpec mp A rep) (φ : R →+* S)
    (hφ : Function.Injective φ) (hu : ∀ x, IsUnit (φ x) → IsUnit x) : UnitaryRingSpec mp A (RepImage rep φ) :=
  { h.toSemiRingSpec.toMonoidSpec.image φ.toMonoidHom hφ hu, h.toAbelianGroupSpec.image φ.toAddMonoidHom hφ with
    int := fun n hn => (h.int n hn).mono fun _ hc => .of hc (map_intCast φ n) }

end image

section polynomials

variable {F : Type u} [Field F]

theorem mk_span_isFactor {R : Type u} [CommRing R] (μ : R) : IsFactor (Ideal.Quotient.mk (Ideal.span {μ})) μ where
  surjective := Ideal.Quotient.mk_surjective
  ker := fun x => by rw [Ideal.Quotient.eq_zero_iff_mem, Ideal.mem_span_singleton]

/-- A remainder is determined by its degree and its class. -/
theorem eq_of_dvd_sub {μ p q : F[X]} (hp : p.degree < μ.degree) (hq : q.degree < μ.degree) (h : μ ∣ p - q) : p = q :=
  sub_eq_zero.1 (eq_zero_of_dvd_of_degree_lt h ((degree_sub_le _ _).trans_lt (max_lt hp hq)))

/-- The truncation of power series as a homomorphism to the residues modulo `x^n`. -/
theorem exists_trunc_hom (n : ℕ) (hn : 0 < n) : ∃ τ : PowerSeries F →+* F[X] ⧸ Ideal.span {(X : F[X]) ^ n},
    ∀ f, τ f = Ideal.Quotient.mk _ (PowerSeries.trunc n f) :=
  ⟨{ toFun := fun f => Ideal.Quotient.mk _ (PowerSeries.trunc n f)
     map_one' := by
      obtain ⟨k, rfl⟩ : ∃ k, n = k + 1 := ⟨n - 1, by omega⟩
      rw [PowerSeries.trunc_one, map_one]
     map_zero' := by rw [map_zero, map_zero]
     map_add' := fun f g => by rw [map_add, map_add]
     map_mul' := fun f g => by
      rw [← map_mul, Ideal.Quotient.eq, Ideal.mem_span_singleton, X_pow_dvd_iff]
      intro d hd
      rw [coeff_sub, PowerSeries.coeff_trunc, if_pos hd, PowerSeries.coeff_mul_eq_coeff_trunc_mul_trunc f g hd,
        ← Polynomial.coe_mul, Polynomial.coeff_coe, sub_self] }, fun _ => rfl⟩

/-- The remainder modulo a power of `x - a` is the Taylor polynomial. -/
theorem mod_pow_X_sub_C (p : F[X]) (a : F) (n : ℕ) :
    p % (X - C a) ^ n = ∑ k ∈ Finset.range n, C ((hasseDeriv k p).eval a) * (X - C a) ^ k := by
  have h0 : (X - C a) ^ n ≠ 0 := pow_ne_zero n (X_sub_C_ne_zero a)
  have hd : ((X - C a) ^ n).degree = (n : WithBot ℕ) := by rw [degree_pow, degree_X_sub_C, nsmul_one]
  refine eq_of_dvd_sub (μ := (X - C a) ^ n) (EuclideanDomain.mod_lt p h0) ?_ ?_
  · rw [hd]
    refine (degree_sum_le _ _).trans_lt ((Finset.sup_lt_iff (WithBot.bot_lt_coe n)).2 fun k hk => ?_)
    rw [← smul_eq_C_mul]
    refine (degree_smul_le _ _).trans_lt ?_
    rw [degree_pow, degree_X_sub_C, nsmul_one]
    exact WithBot.coe_lt_coe.2 (Finset.mem_range.1 hk)
  · have h1 : (X - C a) ^ n ∣ p - ∑ k ∈ Finset.range n, C ((hasseDeriv k p).eval a) * (X - C a) ^ k := by
      have h2 : X ^ n ∣ taylor a (p - ∑ k ∈ Finset.range n, C ((hasseDeriv k p).eval a) * (X - C a) ^ k) := by
        rw [X_pow_dvd_iff]
        intro d hd
        rw [map_sub, map_sum, coeff_sub, finsetSum_coeff, Finset.sum_eq_single d]
        · rw [taylor_mul, taylor_C, taylor_pow, map_sub, taylor_X, taylor_C, add_sub_cancel_right, coeff_C_mul,
            coeff_X_pow_self, mul_one, taylor_coeff, sub_self]
        · intro k _ hk
          rw [taylor_mul, taylor_C, taylor_pow, map_sub, taylor_X, taylor_C, add_sub_cancel_right, coeff_C_mul,
            coeff_X_pow, if_neg (Ne.symm hk), mul_zero]
        · intro h3
          exact absurd (Finset.mem_range.2 hd) h3
      obtain ⟨q, hq⟩ := h2
      have h3 := congrArg (taylor (-a)) hq
      rw [taylor_taylor, neg_add_cancel, taylor_zero, taylor_mul, taylor_pow, taylor_X, C_neg, ← sub_eq_add_neg] at h3
      exact ⟨_, h3⟩
    have h4 := EuclideanDomain.div_add_mod p ((X - C a) ^ n)
    rw [show p % (X - C a) ^ n = p - (X - C a) ^ n * (p / (X - C a) ^ n) by rw [eq_sub_iff_add_eq', h4], sub_right_comm]
    exact dvd_sub h1 ⟨_, rfl⟩

theorem dual_eq (g : F[X]) : ∃ q : F[X], g = X ^ 2 * q + (C (g.coeff 1) * X + C (g.coeff 0)) := by
  refine ⟨g.divX.divX, ?_⟩
  conv_lhs => rw [← divX_mul_X_add g, ← divX_mul_X_add g.divX]
  rw [coeff_divX]
  ring

theorem aeval_eps (g : F[X]) : aeval (DualNumber.eps : DualNumber F) g =
    TrivSqZeroExt.inl (g.coeff 0) + TrivSqZeroExt.inr (g.coeff 1) := by
  obtain ⟨q, hq⟩ := dual_eq g
  conv_lhs => rw [hq]
  simp only [map_add, map_mul, map_pow, aeval_X, aeval_C, DualNumber.eps_pow_two, zero_mul, zero_add]
  rw [add_comm]
  ext <;> simp [TrivSqZeroExt.algebraMap_eq_inl]

theorem dual_isFactor : IsFactor (aeval (DualNumber.eps : DualNumber F) : F[X] →ₐ[F] DualNumber F).toRingHom (X ^ 2) where
  surjective := fun s => ⟨C s.snd * X + C s.fst, by
    show aeval _ _ = _
    rw [aeval_eps]
    ext <;> simp⟩
  ker := fun g => by
    show aeval _ _ = _ ↔ _
    rw [aeval_eps, X_pow_dvd_iff]
    constructor
    · intro h d hd
      obtain rfl | rfl : d = 0 ∨ d = 1 := by omega
      · simpa using congrArg TrivSqZeroExt.fst h
      · simpa using congrArg TrivSqZeroExt.snd h
    · intro h
      rw [h 0 (by decide), h 1 (by decide)]
      ext <;> simp

/-- The residues modulo the polynomial that generates the relations of `α`. -/
theorem exists_eval_hom {A : Type v} [Ring A] [Algebra F A] {α : A} {μ : F[X]} (hμ : ∀ g : F[X], aeval α g = 0 ↔ μ ∣ g) :
    ∃ ψ : (F[X] ⧸ Ideal.span {μ}) →+* A, Function.Injective ψ ∧ ∀ g, ψ (Ideal.Quotient.mk _ g) = aeval α g := by
  refine ⟨Ideal.Quotient.lift _ (aeval α : F[X] →ₐ[F] A).toRingHom fun g hg => (hμ g).2 (Ideal.mem_span_singleton.1 hg), ?_,
    fun g => rfl⟩
  rw [injective_iff_map_eq_zero]
  intro x hx
  obtain ⟨g, rfl⟩ := Ideal.Quotient.mk_surjective x
  rw [Ideal.Quotient.eq_zero_iff_mem, Ideal.mem_span_singleton]
  exact (hμ g).1 hx

/-- A polynomial whose value is a unit of the algebra is invertible modulo the relations. -/
theorem isUnit_mk_of_isUnit {A : Type v} [Ring A] [Algebra F A] {α : A} {μ : F[X]} (h0 : μ ≠ 0)
    (hμ : ∀ g : F[X], aeval α g = 0 ↔ μ ∣ g) {g : F[X]} (hg : IsUnit (aeval α g)) :
    IsUnit (Ideal.Quotient.mk (Ideal.span {μ}) g) := by
  have h1 : IsCoprime g μ := by
    classical
    rw [← EuclideanDomain.gcd_isUnit_iff]
    obtain ⟨e, he⟩ := EuclideanDomain.gcd_dvd_right g μ
    obtain ⟨k, hk⟩ := EuclideanDomain.gcd_dvd_left g μ
    set d := EuclideanDomain.gcd g μ
    have h2 : aeval α g * aeval α e = 0 := by
      rw [← map_mul, hμ]
      exact ⟨k, by rw [he]; conv_lhs => rw [hk]
                   ring⟩
    have h3 : aeval α e = 0 := by rwa [hg.mul_right_eq_zero] at h2
    obtain ⟨q, hq⟩ := (hμ e).1 h3
    refine IsUnit.of_mul_eq_one q (mul_left_cancel₀ h0 ?_)
    have he0 : e ≠ 0 := by
      rintro rfl
      exact h0 (by rw [he, mul_zero])
    calc μ * (d * q) = d * (μ * q) := by ring
      _ = d * e := by rw [← hq]
      _ = μ * 1 := by rw [mul_one, ← he]
  obtain ⟨a, b, hab⟩ := h1
  refine IsUnit.of_mul_eq_one (Ideal.Quotient.mk _ a) ?_
  rw [← map_mul, ← map_one (Ideal.Quotient.mk (Ideal.span {μ})), Ideal.Quotient.eq, Ideal.mem_span_singleton]
  exact ⟨-b, by rw [← hab]; ring⟩

end polynomials

end Abstalg
