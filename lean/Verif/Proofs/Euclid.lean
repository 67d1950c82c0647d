import Verif.Spec.Division
import Verif.Proofs.Basic

/-! # Euclid's algorithm from the division contract -/

set_option linter.unusedSectionVars false

set_option autoImplicit false

universe u

namespace Abstalg

section

variable [Cfg] {E : Type} {R : Type u} [CommRing R] {mp : Prop} {rep : E → R → Prop}
  {lt : R → R → Prop} {I : IntegralDomainOps E} {qr : E → E → Res (E × E)}

theorem isGcd_step {x y q r g : R} (hx : x = y * q + r) (h : IsGcd y r g) : IsGcd x y g := by
  obtain ⟨h1, h2, h3⟩ := h
  refine ⟨by rw [hx]; exact dvd_add (h1.mul_right _) h2, h1, fun d hdx hdy => h3 d hdy ?_⟩
  have : r = x - y * q := by rw [hx]; ring
  rw [this]
  exact dvd_sub hdx (hdy.mul_right _)

theorem isGcd_zero_right (x : R) : IsGcd x 0 x := ⟨dvd_refl x, dvd_zero x, fun _ h _ => h⟩

/-- `gcd` returns a greatest common divisor which is a linear combination. -/
theorem gcd_of_division (hI : UnitaryRingSpec mp I.toUnitaryRingOps rep)
    (hd : DivisionSpec mp qr rep lt) {a b : E} {x y : R} (ha : rep a x) (hb : rep b y) :
    Returns mp ((inheritEuclidean I qr).gcd a b) fun c =>
      ∃ g, rep c g ∧ IsGcd x y g ∧ ∃ s t, x * s + y * t = g := by
  show Returns mp (gcdDefault I.isZero (fun a b => do return (← qr a b).2) a b) _
  induction y using hd.wf.induction generalizing a b x with
  | _ y ih =>
    rw [gcdDefault]
    refine Decides.bind (hI.isZero hb) ?_ ?_
    · rintro rfl
      exact ⟨x, ha, isGcd_zero_right x, 1, 0, by ring⟩
    · intro hy
      simp only [Bool.false_eq_true, if_false]
      refine Returns.bind (P := fun c => ∃ q r, rep c r ∧ x = y * q + r ∧ lt r y) ?_ ?_
      · refine Returns.bind (hd.quoRem ha hb hy) fun p hp => ?_
        obtain ⟨q, r, _, h2, h3, h4⟩ := hp
        exact ⟨q, r, h2, h3, h4⟩
      · rintro c ⟨q, r, hc, hx, hlt⟩
        refine (ih r hlt hb hc).mono ?_
        rintro e ⟨g, he, hg, s, t, hst⟩
        exact ⟨g, he, isGcd_step hx hg, t, s - q * t, by rw [hx]; linear_combination hst⟩

/-- `extended_gcd` returns Bezout coefficients. -/
theorem extendedGcd_of_division (hI : UnitaryRingSpec mp I.toUnitaryRingOps rep)
    (hd : DivisionSpec mp qr rep lt) {a b : E} {x y : R} (ha : rep a x) (hb : rep b y) :
    Returns mp ((inheritEuclidean I qr).extendedGcd a b) fun c =>
      (∃ g s t, rep c.1 g ∧ rep c.2.1 s ∧ rep c.2.2 t ∧ x * s + y * t = g ∧ IsGcd x y g) ∧
      (inheritEuclidean I qr).gcd a b = .ok c.1 := by
  show Returns mp (extendedGcdDefault I.isZero I.one I.zero qr I.sub I.mul a b) fun c => _ ∧
    gcdDefault I.isZero (fun a b => do return (← qr a b).2) a b = .ok c.1
  induction y using hd.wf.induction generalizing a b x with
  | _ y ih =>
    rw [extendedGcdDefault, gcdDefault]
    cases hc : I.isZero b with
    | panic => have := hI.isZero hb; rw [hc] at this; exact this
    | diverge => have := hI.isZero hb; rw [hc] at this; exact this
    | ok z =>
      have hz := hI.isZero hb
      rw [hc] at hz
      simp only [ok_bind]
      cases z with
      | true =>
        obtain rfl : y = 0 := hz.1 rfl
        simp only [if_true]
        exact Returns.bind hI.one fun o ho => Returns.bind hI.zero fun z hz' =>
          ⟨⟨x, 1, 0, ha, ho, hz', by ring, isGcd_zero_right x⟩, rfl⟩
      | false =>
        have hy : y ≠ 0 := fun h => by simpa using hz.2 h
        simp only [Bool.false_eq_true, if_false]
        cases hq : qr a b with
        | panic => have := hd.quoRem ha hb hy; rw [hq] at this; exact this
        | diverge => have := hd.quoRem ha hb hy; rw [hq] at this; exact this
        | ok p =>
          have hp := hd.quoRem ha hb hy
          rw [hq] at hp
          obtain ⟨pq, pr⟩ := p
          obtain ⟨q, r, h1, h2, hx, hlt⟩ := hp
          simp only [ok_bind, pure_eq_ok]
          refine Returns.bind (ih r hlt hb h2) fun c hc => ?_
          obtain ⟨c1, c2, c3⟩ := c
          obtain ⟨⟨g, s, t, k1, k2, k3, k4, k5⟩, hg⟩ := hc
          refine Returns.bind (hI.mul k3 h1) fun m hm => Returns.bind (hI.sub k2 hm) fun z hz' => ?_
          refine ⟨⟨g, t, s - t * q, k1, k3, hz', ?_, isGcd_step hx k5⟩, hg⟩
          rw [hx]; linear_combination k4

theorem isUnit_iff_isCoprime {x y g : R} (hg : IsGcd x y g) (hb : ∃ s t, x * s + y * t = g) :
    IsUnit g ↔ IsCoprime x y := by
  constructor
  · rintro ⟨u, rfl⟩
    obtain ⟨s, t, h⟩ := hb
    refine ⟨s * ↑u⁻¹, t * ↑u⁻¹, ?_⟩
    have : (u : R) * ↑u⁻¹ = 1 := u.mul_inv
    linear_combination ↑u⁻¹ * h + this
  · rintro ⟨s, t, h⟩
    exact isUnit_of_dvd_one (h ▸ dvd_add (hg.1.mul_left s) (hg.2.1.mul_left t))

theorem relativePrimes_of_division (hI : UnitaryRingSpec mp I.toUnitaryRingOps rep)
    (hd : DivisionSpec mp qr rep lt) {a b : E} {x y : R} (ha : rep a x) (hb : rep b y) :
    Decides mp ((inheritEuclidean I qr).relativePrimes a b) (IsCoprime x y) := by
  refine Returns.bind (gcd_of_division hI hd ha hb) fun c hc => ?_
  obtain ⟨g, hc, hg, hst⟩ := hc
  exact (hI.invertible hc).iff (isUnit_iff_isCoprime hg hst)

theorem isLcm_of_bezout [IsDomain R] {x' y' g s t : R} (h0 : g ≠ 0)
    (hb : g * x' * s + g * y' * t = g) : IsLcm (g * x') (g * y') (x' * (g * y')) := by
  refine ⟨⟨y', by ring⟩, ⟨x', by ring⟩, ?_⟩
  rintro d ⟨u, rfl⟩ ⟨v, hv⟩
  have h1 : x' * s + y' * t = 1 := by
    apply mul_left_cancel₀ h0
    linear_combination hb
  have hxy : x' * u = y' * v := by
    apply mul_left_cancel₀ h0
    linear_combination hv
  refine ⟨v * s + u * t, ?_⟩
  linear_combination g * x' * u * (-h1) + g * x' * s * hxy

/-- `quo` of a multiple is the exact quotient. -/
theorem quo_of_division [IsDomain R] (hd : DivisionSpec mp qr rep lt) {a b : E} {y z : R}
    (ha : rep a (y * z)) (hb : rep b y) (hy : y ≠ 0) :
    Returns mp ((inheritEuclidean I qr).quo a b) (rep · z) := by
  refine Returns.bind (hd.quoRem ha hb hy) fun p hp => ?_
  obtain ⟨q, r, h1, h2, hx, hlt⟩ := hp
  have hr : r = y * (z - q) := by linear_combination -hx
  have hzq : z = q := by
    by_contra hne
    rw [hr] at hlt
    exact hd.not_lt hy (sub_ne_zero.2 hne) hlt
  rw [hzq]
  exact h1

theorem lcm_of_division [IsDomain R] (hI : UnitaryRingSpec mp I.toUnitaryRingOps rep)
    (hd : DivisionSpec mp qr rep lt) {a b : E} {x y : R} (ha : rep a x) (hb : rep b y) :
    Returns mp ((inheritEuclidean I qr).lcm a b) fun c => ∃ m, rep c m ∧ IsLcm x y m := by
  refine Returns.bind (gcd_of_division hI hd ha hb) fun c hc => ?_
  obtain ⟨g, hc, hg, s, t, hst⟩ := hc
  refine Decides.ite (hI.isZero hc) ?_ ?_
  · rintro rfl
    have h1 := zero_dvd_iff.1 hg.1
    have h2 := zero_dvd_iff.1 hg.2.1
    exact ⟨0, hc, by simp [h1], by simp [h2], fun d hd1 _ => by rwa [← h1]⟩
  · intro h0
    obtain ⟨⟨x', rfl⟩, ⟨y', rfl⟩, _⟩ := hg
    exact Returns.bind (quo_of_division (I := I) hd ha hc h0) fun q hq =>
      (hI.mul hq hb).mono fun m hm => ⟨_, hm, isLcm_of_bezout h0 hst⟩

end

/-- The division of a Euclidean domain of Mathlib satisfies the division contract. -/
theorem EuclideanSpec.division [Cfg] {E : Type} {R : Type u} [EuclideanDomain R]
    [NormalizationMonoid R] {mp : Prop} {rep : E → R → Prop} {A : EuclideanDomainOps E}
    (h : EuclideanSpec mp A rep) : DivisionSpec mp A.quoRem rep EuclideanDomain.r where
  wf := EuclideanDomain.r_wellFounded
  not_lt := fun {y} _ hy hb => by
    exact EuclideanDomain.mul_left_not_lt y hb
  quoRem := fun {a b x y} ha hb hy => (h.quoRem ha hb hy).mono fun p hp =>
    ⟨x / y, x % y, hp.1, hp.2, (EuclideanDomain.div_add_mod x y).symm, EuclideanDomain.mod_lt x hy⟩

end Abstalg
