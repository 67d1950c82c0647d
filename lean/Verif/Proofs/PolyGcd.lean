import Verif.Proofs.PolyDiv
import Mathlib.Algebra.EuclideanDomain.Basic

/-! # The values of the Euclidean algorithm, and its coefficients for polynomials -/

set_option autoImplicit false

universe u

namespace Abstalg

open Polynomial

section general

variable {E : Type} {R : Type u} {mp : Prop} {rep : E → R → Prop} [EuclideanDomain R]

/-- The loop of `gcd` with any property of its result that is kept by a division step. -/
theorem gcdDefault_inv {isZero : E → Res Bool} {rem : E → E → Res E} (P : R → R → R → Prop)
    (h0 : ∀ x, P x 0 x) (hs : ∀ x y g, y ≠ 0 → P y (x % y) g → P x y g)
    (hz : ∀ {a x}, rep a x → Decides mp (isZero a) (x = 0))
    (hrem : ∀ {a b x y}, rep a x → rep b y → y ≠ 0 → Returns mp (rem a b) (rep · (x % y)))
    {a b : E} {x y : R} (ha : rep a x) (hb : rep b y) :
    Returns mp (gcdDefault isZero rem a b) fun c => ∃ g, rep c g ∧ P x y g := by
  induction y using (EuclideanDomain.r_wellFounded (R := R)).induction generalizing a b x with
  | _ y ih =>
    rw [gcdDefault]
    refine Decides.bind (hz hb) ?_ ?_
    · rintro rfl
      exact ⟨x, ha, h0 x⟩
    · intro hy
      simp only [Bool.false_eq_true, if_false]
      refine Returns.bind (hrem ha hb hy) fun r hr => ?_
      refine (ih (x % y) (EuclideanDomain.mod_lt x hy) hb hr).mono ?_
      rintro c ⟨g, hc, hg⟩
      exact ⟨g, hc, hs x y g hy hg⟩

/-- The recursion of `extended_gcd` with any property of its results that is kept by a division
step. -/
theorem extendedGcdDefault_inv {isZero : E → Res Bool} {one zero : Res E}
    {quoRem : E → E → Res (E × E)} {sub mul : E → E → Res E} (P : R → R → R → R → R → Prop)
    (h0 : ∀ x, P x 0 x 1 0)
    (hs : ∀ x y g s t, y ≠ 0 → P y (x % y) g s t → P x y g t (s - t * (x / y)))
    (hz : ∀ {a x}, rep a x → Decides mp (isZero a) (x = 0))
    (hone : Returns mp one (rep · 1)) (hzero : Returns mp zero (rep · 0))
    (hqr : ∀ {a b x y}, rep a x → rep b y → y ≠ 0 →
      Returns mp (quoRem a b) fun p => rep p.1 (x / y) ∧ rep p.2 (x % y))
    (hsub : ∀ {a b x y}, rep a x → rep b y → Returns mp (sub a b) (rep · (x - y)))
    (hmul : ∀ {a b x y}, rep a x → rep b y → Returns mp (mul a b) (rep · (x * y)))
    {a b : E} {x y : R} (ha : rep a x) (hb : rep b y) :
    Returns mp (extendedGcdDefault isZero one zero quoRem sub mul a b) fun c => ∃ g s t,
      rep c.1 g ∧ rep c.2.1 s ∧ rep c.2.2 t ∧ P x y g s t := by
  induction y using (EuclideanDomain.r_wellFounded (R := R)).induction generalizing a b x with
  | _ y ih =>
    rw [extendedGcdDefault]
    refine Decides.bind (hz hb) ?_ ?_
    · rintro rfl
      exact Returns.bind hone fun o ho => Returns.bind hzero fun z hz' =>
        ⟨x, 1, 0, ha, ho, hz', h0 x⟩
    · intro hy
      simp only [Bool.false_eq_true, if_false]
      refine Returns.bind (hqr ha hb hy) fun p hp => ?_
      obtain ⟨q, r⟩ := p
      obtain ⟨hq, hr⟩ := hp
      refine Returns.bind (ih (x % y) (EuclideanDomain.mod_lt x hy) hb hr) fun c hc => ?_
      obtain ⟨c1, c2, c3⟩ := c
      obtain ⟨g, s, t, h1, h2, h3, h4⟩ := hc
      refine Returns.bind (hmul h3 hq) fun m hm => Returns.bind (hsub h2 hm) fun z hz' => ?_
      exact ⟨g, t, s - t * (x / y), h1, h3, hz', hs x y g s t hy h4⟩

end general

section poly

variable {R : Type u} [Field R]

theorem degree_mod_le (f g : R[X]) : (f % g).degree ≤ f.degree := by
  by_cases hg : g = 0
  · simp [hg]
  · rcases lt_or_ge f.degree g.degree with h | h
    · rw [(Polynomial.mod_eq_self_iff hg).2 h]
    · exact (degree_mod_lt f hg).le.trans h

/-- The coefficients of the Euclidean algorithm: their exact values if `g` divides `f`, and bounds
on their degrees otherwise. -/
def SmallBezout (f g d s t : R[X]) : Prop :=
  f * s + g * t = d ∧ (g = 0 → s = 1 ∧ t = 0) ∧ (g ≠ 0 → g ∣ f → s = 0 ∧ t = 1) ∧
    (g ≠ 0 → ¬ g ∣ f → s.degree + d.degree < g.degree ∧ t.degree + d.degree < f.degree)

theorem smallBezout_zero (f : R[X]) : SmallBezout f 0 f 1 0 :=
  ⟨by ring, fun _ => ⟨rfl, rfl⟩, fun h => absurd rfl h, fun h => absurd rfl h⟩

theorem quo_degree_lt {f g a : R[X]} (hg : g ≠ 0) (hf : f ≠ 0) (ha : a.degree < g.degree) :
    (f / g).degree + a.degree < f.degree := by
  have hf' : ⊥ < f.degree := bot_lt_iff_ne_bot.2 (degree_ne_bot.2 hf)
  by_cases hq : f / g = 0
  · rw [hq, degree_zero, WithBot.bot_add]
    exact hf'
  · have h1 : g.degree ≤ f.degree := by
      by_contra h1
      exact hq ((Polynomial.div_eq_zero_iff hg).2 (not_le.1 h1))
    rw [← degree_add_div hg h1, add_comm]
    exact WithBot.add_lt_add_right (degree_ne_bot.2 hq) ha

theorem SmallBezout.step {f g d s t : R[X]} (hg : g ≠ 0) (h : SmallBezout g (f % g) d s t) :
    SmallBezout f g d t (s - t * (f / g)) := by
  obtain ⟨h1, h2, h3, h4⟩ := h
  refine ⟨?_, fun h => absurd h hg, fun _ hd => ?_, fun _ hd => ?_⟩
  · have := EuclideanDomain.div_add_mod f g
    linear_combination h1 - t * this
  · obtain ⟨rfl, rfl⟩ := h2 ((EuclideanDomain.mod_eq_zero).2 hd)
    simp
  · have hr : f % g ≠ 0 := fun h => hd (EuclideanDomain.mod_eq_zero.1 h)
    have hf : f ≠ 0 := fun h => hd (h ▸ dvd_zero g)
    have hrg := degree_mod_lt f hg
    by_cases hd' : f % g ∣ g
    · obtain ⟨rfl, rfl⟩ := h3 hr hd'
      obtain rfl : f % g = d := by simpa using h1
      refine ⟨by simpa using hrg, ?_⟩
      rw [zero_sub, one_mul, degree_neg]
      exact quo_degree_lt hg hf hrg
    · obtain ⟨h5, h6⟩ := h4 hr hd'
      refine ⟨h6, ?_⟩
      have h7 : (t * (f / g)).degree + d.degree < f.degree := by
        rw [degree_mul, add_right_comm, add_comm, ← degree_mul]
        exact quo_degree_lt hg hf (by rwa [degree_mul])
      have h8 : s.degree + d.degree < f.degree := h5.trans_le (degree_mod_le f g)
      rw [← degree_mul] at h7 h8 ⊢
      rw [sub_mul]
      exact (degree_sub_le _ _).trans_lt (max_lt h8 h7)

/-- Coefficients of so small a degree are unique. -/
theorem bezout_unique {f g d s t s' t' : R[X]} (hg : g ≠ 0) (hd : d ∣ g)
    (h : f * s + g * t = d) (h' : f * s' + g * t' = d)
    (hs : s.degree + d.degree < g.degree) (hs' : s'.degree + d.degree < g.degree) :
    s = s' ∧ t = t' := by
  classical
  have hd0 : d ≠ 0 := by rintro rfl; exact hg (zero_dvd_iff.1 hd)
  -- `g / d` divides the difference
  have h1 : g ∣ (s - s') * d := by
    have h2 : f * (s - s') = g * (t' - t) := by linear_combination h - h'
    refine ⟨s * (t' - t) + t * (s - s'), ?_⟩
    rw [← h]
    linear_combination s * h2
  have h3 : (s - s') * d = 0 := by
    refine eq_zero_of_dvd_of_degree_lt h1 ?_
    rw [sub_mul]
    refine (degree_sub_le _ _).trans_lt (max_lt ?_ ?_) <;> rwa [degree_mul]
  have h4 : s = s' := sub_eq_zero.1 ((mul_eq_zero.1 h3).resolve_right hd0)
  subst h4
  refine ⟨rfl, mul_left_cancel₀ hg ?_⟩
  linear_combination h - h'

end poly

namespace PolynomialAlgebra

variable [Cfg] {E : Type} {R : Type u} [Field R] {mp : Prop} {rep : E → R → Prop}
  {base : FieldOps E}

theorem gcd_value [DecidableEq R[X]] (h : FieldSpec mp base rep) {v w : List E} {f g : R[X]}
    (hf : RingPolyRep rep v f) (hg : RingPolyRep rep w g) :
    Returns mp ((euclidean base).gcd v w) (RingPolyRep rep · (EuclideanDomain.gcd g f)) := by
  let : DecidableEq R := Classical.decEq R
  have hE := euclidean_spec h
  have := gcdDefault_inv (rep := RingPolyRep rep)
    (fun x y g => g = EuclideanDomain.gcd y x) (fun x => (EuclideanDomain.gcd_zero_left x).symm)
    (fun x y g _ hg => by rw [hg, EuclideanDomain.gcd_val y x]) hE.isZero hE.rem hf hg
  exact this.mono fun c ⟨d, h1, h2⟩ => h2 ▸ h1

theorem extendedGcd_value [DecidableEq R[X]] (h : FieldSpec mp base rep) {v w : List E} {f g : R[X]}
    (hf : RingPolyRep rep v f) (hg : RingPolyRep rep w g) :
    Returns mp ((euclidean base).extendedGcd v w) fun c => ∃ s t,
      RingPolyRep rep c.1 (EuclideanDomain.gcd g f) ∧ RingPolyRep rep c.2.1 s ∧
      RingPolyRep rep c.2.2 t ∧ SmallBezout f g (EuclideanDomain.gcd g f) s t := by
  let : DecidableEq R := Classical.decEq R
  have hE := euclidean_spec h
  have := extendedGcdDefault_inv (rep := RingPolyRep rep)
    (fun x y g s t => g = EuclideanDomain.gcd y x ∧ SmallBezout x y g s t)
    (fun x => ⟨(EuclideanDomain.gcd_zero_left x).symm, smallBezout_zero x⟩)
    (fun x y g s t hy hg => ⟨by rw [hg.1, EuclideanDomain.gcd_val y x], hg.2.step hy⟩)
    hE.isZero hE.one hE.zero hE.quoRem hE.sub hE.mul hf hg
  exact this.mono fun c ⟨d, s, t, h1, h2, h3, h4, h5⟩ => by subst h4; exact ⟨s, t, h1, h2, h3, h5⟩

end PolynomialAlgebra

end Abstalg
