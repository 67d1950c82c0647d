import Verif.Spec.Divisibility
import Verif.Model.DivisibilityOrder
import Verif.Proofs.Basic

/-! # The divisibility order -/

set_option linter.unusedSectionVars false

set_option autoImplicit false

universe u

namespace Abstalg

section math

variable {R : Type u}

theorem IsGcd.isGLB [CommRing R] [IsDomain R] {x y g : R} (h : IsGcd x y g) :
    IsGLB {Associates.mk x, Associates.mk y} (Associates.mk g) := by
  refine ⟨?_, fun c hc => ?_⟩
  · rintro _ (rfl | rfl)
    · exact Associates.mk_le_mk_iff_dvd.2 h.1
    · exact Associates.mk_le_mk_iff_dvd.2 h.2.1
  · obtain ⟨d, rfl⟩ := Associates.mk_surjective c
    exact Associates.mk_le_mk_iff_dvd.2 (h.2.2 d
      (Associates.mk_le_mk_iff_dvd.1 (hc (by simp))) (Associates.mk_le_mk_iff_dvd.1 (hc (by simp))))

theorem IsLcm.isLUB [CommRing R] [IsDomain R] {x y m : R} (h : IsLcm x y m) :
    IsLUB {Associates.mk x, Associates.mk y} (Associates.mk m) := by
  refine ⟨?_, fun c hc => ?_⟩
  · rintro _ (rfl | rfl)
    · exact Associates.mk_le_mk_iff_dvd.2 h.1
    · exact Associates.mk_le_mk_iff_dvd.2 h.2.1
  · obtain ⟨d, rfl⟩ := Associates.mk_surjective c
    exact Associates.mk_le_mk_iff_dvd.2 (h.2.2 d
      (Associates.mk_le_mk_iff_dvd.1 (hc (by simp))) (Associates.mk_le_mk_iff_dvd.1 (hc (by simp))))

theorem associates_mk_normalize [CommRing R] [IsDomain R] [NormalizationMonoid R] (x : R) :
    Associates.mk (normalize x) = Associates.mk x :=
  Associates.mk_eq_mk_iff_associated.2 (normalize_associated x)

variable [EuclideanDomain R]

theorem IsGcd.bezout {x y g : R} (h : IsGcd x y g) : ∃ s t, x * s + y * t = g := by
  classical
  obtain ⟨c, hc⟩ := h.2.2 _ (EuclideanDomain.gcd_dvd_left x y) (EuclideanDomain.gcd_dvd_right x y)
  refine ⟨EuclideanDomain.gcdA x y * c, EuclideanDomain.gcdB x y * c, ?_⟩
  rw [hc, EuclideanDomain.gcd_eq_gcd_ab]
  ring

/-- Meets distribute over joins in the divisibility order. -/
theorem isGcd_lcm_dvd {a b c l d g₁ g₂ m : R} (hl : IsLcm b c l) (hd : IsGcd a l d)
    (h₁ : IsGcd a b g₁) (h₂ : IsGcd a c g₂) (hm : IsLcm g₁ g₂ m) : d ∣ m := by
  classical
  have key : d * EuclideanDomain.gcd g₁ g₂ ∣ g₁ * g₂ := by
    set g := EuclideanDomain.gcd g₁ g₂ with hg
    have e1 : g ∣ g₁ := EuclideanDomain.gcd_dvd_left _ _
    have e2 : g ∣ g₂ := EuclideanDomain.gcd_dvd_right _ _
    have ga : g ∣ a := e1.trans h₁.1
    have gb : g ∣ b := e1.trans h₁.2.1
    have gc : g ∣ c := e2.trans h₂.2.1
    have hbc : d * g ∣ b * c := by
      by_cases h0 : EuclideanDomain.gcd b c = 0
      · rw [(EuclideanDomain.gcd_eq_zero_iff.1 h0).1, zero_mul]
        exact dvd_zero _
      · obtain ⟨u, hu⟩ := EuclideanDomain.gcd_dvd_left b c
        obtain ⟨v, hv⟩ := EuclideanDomain.gcd_dvd_right b c
        have h1 : l ∣ EuclideanDomain.gcd b c * u * v := by
          refine hl.2.2 _ ⟨v, by rw [← hu]⟩ ⟨u, ?_⟩
          calc EuclideanDomain.gcd b c * u * v = (EuclideanDomain.gcd b c * v) * u := by ring
            _ = c * u := by rw [← hv]
        have h2 : b * c = EuclideanDomain.gcd b c * u * v * EuclideanDomain.gcd b c := by
          calc b * c = (EuclideanDomain.gcd b c * u) * (EuclideanDomain.gcd b c * v) := by
                rw [← hu, ← hv]
            _ = _ := by ring
        rw [h2]
        exact mul_dvd_mul (hd.2.1.trans h1) (EuclideanDomain.dvd_gcd gb gc)
    obtain ⟨s, t, hst⟩ := h₁.bezout
    obtain ⟨p, q, hpq⟩ := h₂.bezout
    have : g₁ * g₂ = a * a * (s * p) + a * c * (s * q) + a * b * (t * p) + b * c * (t * q) := by
      rw [← hst, ← hpq]; ring
    rw [this]
    exact dvd_add (dvd_add (dvd_add ((mul_dvd_mul hd.1 ga).mul_right _)
      ((mul_dvd_mul hd.1 gc).mul_right _)) ((mul_dvd_mul hd.1 gb).mul_right _)) (hbc.mul_right _)
  by_cases h0 : EuclideanDomain.gcd g₁ g₂ = 0
  · have := (EuclideanDomain.gcd_eq_zero_iff.1 h0).1
    have h0 : g₁ ∣ m := hm.1
    rw [this, zero_dvd_iff] at h0
    rw [h0]
    exact dvd_zero _
  · refine (mul_dvd_mul_iff_right h0).1 (key.trans ?_)
    rw [EuclideanDomain.gcd_eq_gcd_ab g₁ g₂, mul_add]
    refine dvd_add ?_ ?_
    · rw [← mul_assoc, mul_comm m g₁]
      exact (mul_dvd_mul_left _ hm.2.1).mul_right _
    · rw [← mul_assoc]
      exact (mul_dvd_mul_right hm.1 _).mul_right _

theorem isGcd_euclidean [DecidableEq R] (x y : R) : IsGcd x y (EuclideanDomain.gcd x y) :=
  ⟨EuclideanDomain.gcd_dvd_left x y, EuclideanDomain.gcd_dvd_right x y,
    fun _ h1 h2 => EuclideanDomain.dvd_gcd h1 h2⟩

theorem isLcm_euclidean [DecidableEq R] (x y : R) : IsLcm x y (EuclideanDomain.lcm x y) :=
  ⟨EuclideanDomain.dvd_lcm_left x y, EuclideanDomain.dvd_lcm_right x y,
    fun _ h1 h2 => EuclideanDomain.lcm_dvd h1 h2⟩

theorem associates_exists_isGLB (p q : Associates R) : ∃ z, IsGLB {p, q} z := by
  classical
  obtain ⟨x, rfl⟩ := Associates.mk_surjective p
  obtain ⟨y, rfl⟩ := Associates.mk_surjective q
  exact ⟨_, (isGcd_euclidean x y).isGLB⟩

theorem associates_exists_isLUB (p q : Associates R) : ∃ z, IsLUB {p, q} z := by
  classical
  obtain ⟨x, rfl⟩ := Associates.mk_surjective p
  obtain ⟨y, rfl⟩ := Associates.mk_surjective q
  exact ⟨_, (isLcm_euclidean x y).isLUB⟩

/-- The classes of associated elements of a Euclidean domain form a lattice. -/
noncomputable abbrev associatesLattice : Lattice (Associates R) where
  __ := (inferInstance : PartialOrder (Associates R))
  sup p q := (associates_exists_isLUB p q).choose
  le_sup_left p q := (associates_exists_isLUB p q).choose_spec.1 (by simp)
  le_sup_right p q := (associates_exists_isLUB p q).choose_spec.1 (by simp)
  sup_le p q r h1 h2 := (associates_exists_isLUB p q).choose_spec.2 (by
    rintro _ (rfl | rfl) <;> assumption)
  inf p q := (associates_exists_isGLB p q).choose
  inf_le_left p q := (associates_exists_isGLB p q).choose_spec.1 (by simp)
  inf_le_right p q := (associates_exists_isGLB p q).choose_spec.1 (by simp)
  le_inf p q r h1 h2 := (associates_exists_isGLB q r).choose_spec.2 (by
    rintro _ (rfl | rfl) <;> assumption)

/-- This lattice is distributive. -/
noncomputable abbrev associatesDistrib : DistribLattice (Associates R) :=
  letI := associatesLattice (R := R)
  DistribLattice.ofInfSupLe fun p q r => by
    classical
    obtain ⟨a, rfl⟩ := Associates.mk_surjective p
    obtain ⟨b, rfl⟩ := Associates.mk_surjective q
    obtain ⟨c, rfl⟩ := Associates.mk_surjective r
    have hsup : ∀ x y : R, Associates.mk x ⊔ Associates.mk y =
        Associates.mk (EuclideanDomain.lcm x y) := fun x y =>
      (associates_exists_isLUB _ _).choose_spec.unique (isLcm_euclidean x y).isLUB
    have hinf : ∀ x y : R, Associates.mk x ⊓ Associates.mk y =
        Associates.mk (EuclideanDomain.gcd x y) := fun x y =>
      (associates_exists_isGLB _ _).choose_spec.unique (isGcd_euclidean x y).isGLB
    rw [hsup, hinf, hinf, hinf, hsup, Associates.mk_le_mk_iff_dvd]
    exact isGcd_lcm_dvd (isLcm_euclidean b c) (isGcd_euclidean _ _) (isGcd_euclidean _ _)
      (isGcd_euclidean _ _) (isLcm_euclidean _ _)

end math

namespace DivisibilityOrder

variable [Cfg] {E : Type} {R : Type u} {mp : Prop} {rep : E → R → Prop}

section

variable [CommRing R] [IsDomain R] [NormalizationMonoid R] {base : IntegralDomainOps E}

theorem contains_spec (h : IntegralDomainSpec mp base rep) {a : E} {x : R} (ha : rep a x) :
    Decides mp ((domain base).contains a) (normalize x = x) := by
  refine Decides.bindD (h.isZero ha) (fun h0 => ?_) fun h0 => ?_
  · exact decides_ok (by simp [h0])
  · refine Returns.bind (h.associateCoef ha h0) fun u hu => (h.isOne hu).iff ?_
    rw [normalize_apply]
    constructor
    · intro h1
      rw [h1, mul_one]
    · intro h1
      have := mul_left_cancel₀ h0 (h1.trans (mul_one x).symm)
      exact this

theorem assocRep_unique (h : IntegralDomainSpec mp base rep) {a : E} {x : R} (ha : rep a x)
    {c : Associates R} (hc : AssocRep rep a c) : normalize x = x ∧ Associates.mk x = c := by
  obtain ⟨y, hy, h1, h2⟩ := hc
  rw [h.rep_unique ha hy]
  exact ⟨h1, h2⟩

theorem eq_of_mk_eq {x y : R} (hx : normalize x = x) (hy : normalize y = y) :
    x = y ↔ Associates.mk x = Associates.mk y := by
  constructor
  · rintro rfl; rfl
  · intro h
    rw [← hx, ← hy]
    exact normalize_eq_normalize_iff.2
      (Associates.mk_eq_mk_iff_associated.1 h).dvd_dvd

theorem domain_spec (h : IntegralDomainSpec mp base rep) :
    DomainSpec mp (domain base) (AssocRep rep) where
  rep_unique := by
    rintro a c d ⟨x, hx, -, rfl⟩ ⟨y, hy, -, rfl⟩
    rw [h.rep_unique hx hy]
  contains := by
    rintro a c ⟨x, hx, h1, -⟩
    exact (contains_spec h hx).mono fun b hb => hb.2 h1
  equals := by
    rintro a b c d ⟨x, hx, h1, rfl⟩ ⟨y, hy, h2, rfl⟩
    exact (h.equals hx hy).iff (eq_of_mk_eq h1 h2)

theorem leq_spec (h : IntegralDomainSpec mp base rep) {a b : E} {c d : Associates R}
    (ha : AssocRep rep a c) (hb : AssocRep rep b d) :
    Decides mp ((boundedOrder base).leq a b) (c ≤ d) := by
  obtain ⟨x, hx, h1, rfl⟩ := ha
  obtain ⟨y, hy, h2, rfl⟩ := hb
  exact (h.divisible hy hx).iff Associates.mk_le_mk_iff_dvd.symm

theorem partialOrder_spec (h : IntegralDomainSpec mp base rep) :
    PartialOrderSpec mp (boundedOrder base).toPartialOrderOps (AssocRep rep) where
  toDomainSpec := domain_spec h
  leq := leq_spec h
  lessThan := fun ha hb => by
    have := lessThan_default (rep := AssocRep rep) (domain_spec h).equals (leq_spec h) ha hb
    exact this
  comparable := fun ha hb => by
    have := comparable_default (rep := AssocRep rep) (leq_spec h) ha hb
    exact this

theorem boundedOrder_spec (h : IntegralDomainSpec mp base rep) :
    BoundedOrderSpec mp (boundedOrder base) (AssocRep rep) where
  toPartialOrderSpec := partialOrder_spec h
  max := h.zero.mono fun a ha => ⟨Associates.mk 0, ⟨0, ha, normalize_zero, rfl⟩, fun c => by
    obtain ⟨x, rfl⟩ := Associates.mk_surjective c
    exact Associates.mk_le_mk_iff_dvd.2 (dvd_zero x)⟩
  min := h.one.mono fun a ha => ⟨Associates.mk 1, ⟨1, ha, normalize_one, rfl⟩, fun c => by
    obtain ⟨x, rfl⟩ := Associates.mk_surjective c
    exact Associates.mk_le_mk_iff_dvd.2 (one_dvd x)⟩

end

theorem lattice_spec [EuclideanDomain R] [NormalizationMonoid R] {base : EuclideanDomainOps E}
    (h : EuclideanSpec mp base rep) : LatticeSpec mp (lattice base) (AssocRep rep) where
  toPartialOrderSpec := partialOrder_spec h.toIntegralDomainSpec
  meet := by
    rintro a b _ _ ⟨x, hx, -, rfl⟩ ⟨y, hy, -, rfl⟩
    refine Returns.bind (h.gcd hx hy) fun c ⟨g, hc, hg⟩ => (h.associateRepr hc).mono fun d hd =>
      ⟨_, ⟨_, hd, normalize_idem g, rfl⟩, ?_⟩
    rw [associates_mk_normalize]
    exact hg.isGLB
  join := by
    rintro a b _ _ ⟨x, hx, -, rfl⟩ ⟨y, hy, -, rfl⟩
    refine Returns.bind (h.lcm hx hy) fun c ⟨g, hc, hg⟩ => (h.associateRepr hc).mono fun d hd =>
      ⟨_, ⟨_, hd, normalize_idem g, rfl⟩, ?_⟩
    rw [associates_mk_normalize]
    exact hg.isLUB

end DivisibilityOrder

end Abstalg
