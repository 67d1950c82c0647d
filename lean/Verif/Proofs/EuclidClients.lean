import Mathlib.Tactic.LinearCombination
import Verif.Spec.EuclidClients
import Verif.Proofs.Basic

/-! # The greatest common divisor that Euclid's algorithm finds -/

set_option autoImplicit false

universe u

namespace Abstalg

section mathematics

variable {R : Type u} [EuclideanDomain R] [DecidableEq R]

/-- The accumulator of Mathlib's algorithm enters linearly. -/
theorem xgcdAux_linear (r r' : R) : ∀ s t s' t' : R, (EuclideanDomain.xgcdAux r s t r' s' t').2 =
    (s * EuclideanDomain.gcdA r r' + s' * EuclideanDomain.gcdB r r', t * EuclideanDomain.gcdA r r' + t' * EuclideanDomain.gcdB r r') := by
  refine EuclideanDomain.GCD.induction r r' (fun x s t s' t' => ?_) fun a b ha ih s t s' t' => ?_
  · simp [EuclideanDomain.gcdA, EuclideanDomain.gcdB, EuclideanDomain.xgcd, EuclideanDomain.xgcd_zero_left]
  · have hA : EuclideanDomain.gcdA a b = EuclideanDomain.gcdB (b % a) a - b / a * EuclideanDomain.gcdA (b % a) a := by
      rw [EuclideanDomain.gcdA, EuclideanDomain.xgcd, EuclideanDomain.xgcdAux_rec ha, ih]; ring
    have hB : EuclideanDomain.gcdB a b = EuclideanDomain.gcdA (b % a) a := by
      rw [EuclideanDomain.gcdB, EuclideanDomain.xgcd, EuclideanDomain.xgcdAux_rec ha, ih]; ring
    rw [EuclideanDomain.xgcdAux_rec ha, ih, hA, hB]
    exact Prod.ext (by ring) (by ring)

theorem gcdA_step {a : R} (ha : a ≠ 0) (b : R) :
    EuclideanDomain.gcdA a b = EuclideanDomain.gcdB (b % a) a - EuclideanDomain.gcdA (b % a) a * (b / a) := by
  rw [EuclideanDomain.gcdA, EuclideanDomain.xgcd, EuclideanDomain.xgcdAux_rec ha, xgcdAux_linear]; ring

theorem gcdB_step {a : R} (ha : a ≠ 0) (b : R) : EuclideanDomain.gcdB a b = EuclideanDomain.gcdA (b % a) a := by
  rw [EuclideanDomain.gcdB, EuclideanDomain.xgcd, EuclideanDomain.xgcdAux_rec ha, xgcdAux_linear]; ring

end mathematics

variable {E : Type} {R : Type u} {mp : Prop} {rep : E → R → Prop} [EuclideanDomain R] [DecidableEq R]

theorem gcdDefault_exact {isZero : E → Res Bool} {rem : E → E → Res E}
    (hz : ∀ {a x}, rep a x → Decides mp (isZero a) (x = 0))
    (hrem : ∀ {a b x y}, rep a x → rep b y → y ≠ 0 → Returns mp (rem a b) (rep · (x % y)))
    {a b : E} {x y : R} (ha : rep a x) (hb : rep b y) :
    Returns mp (gcdDefault isZero rem a b) (rep · (EuclideanDomain.gcd y x)) := by
  induction y using (EuclideanDomain.r_wellFounded (R := R)).induction generalizing a b x with
  | _ y ih =>
    rw [gcdDefault]
    refine Decides.bind (hz hb) ?_ ?_
    · rintro rfl
      rw [EuclideanDomain.gcd_zero_left]; exact ha
    · intro hy
      simp only [Bool.false_eq_true, if_false]
      refine Returns.bind (hrem ha hb hy) fun r hr => ?_
      rw [EuclideanDomain.gcd_val]
      exact ih (x % y) (EuclideanDomain.mod_lt x hy) hb hr

theorem extendedGcdDefault_exact {isZero : E → Res Bool} {one zero : Res E}
    {quoRem : E → E → Res (E × E)} {sub mul : E → E → Res E}
    (hz : ∀ {a x}, rep a x → Decides mp (isZero a) (x = 0))
    (hone : Returns mp one (rep · 1)) (hzero : Returns mp zero (rep · 0))
    (hqr : ∀ {a b x y}, rep a x → rep b y → y ≠ 0 →
      Returns mp (quoRem a b) fun p => rep p.1 (x / y) ∧ rep p.2 (x % y))
    (hsub : ∀ {a b x y}, rep a x → rep b y → Returns mp (sub a b) (rep · (x - y)))
    (hmul : ∀ {a b x y}, rep a x → rep b y → Returns mp (mul a b) (rep · (x * y)))
    {a b : E} {x y : R} (ha : rep a x) (hb : rep b y) :
    Returns mp (extendedGcdDefault isZero one zero quoRem sub mul a b) fun c =>
      rep c.1 (EuclideanDomain.gcd y x) ∧ rep c.2.1 (EuclideanDomain.gcdB y x) ∧ rep c.2.2 (EuclideanDomain.gcdA y x) := by
  induction y using (EuclideanDomain.r_wellFounded (R := R)).induction generalizing a b x with
  | _ y ih =>
    rw [extendedGcdDefault]
    refine Decides.bind (hz hb) ?_ ?_
    · rintro rfl
      rw [EuclideanDomain.gcd_zero_left, EuclideanDomain.gcdA_zero_left, EuclideanDomain.gcdB_zero_left]
      exact Returns.bind hone fun o ho => Returns.bind hzero fun z hz' => ⟨ha, ho, hz'⟩
    · intro hy
      simp only [Bool.false_eq_true, if_false]
      refine Returns.bind (hqr ha hb hy) fun p hp => ?_
      obtain ⟨q, r⟩ := p
      obtain ⟨hq, hr⟩ := hp
      refine Returns.bind (ih (x % y) (EuclideanDomain.mod_lt x hy) hb hr) fun c hc => ?_
      obtain ⟨c1, c2, c3⟩ := c
      obtain ⟨h1, h2, h3⟩ := hc
      refine Returns.bind (hmul h3 hq) fun m hm => Returns.bind (hsub h2 hm) fun z hz' => ?_
      rw [EuclideanDomain.gcd_val, gcdA_step hy, gcdB_step hy]
      exact ⟨h1, h3, hz'⟩

end Abstalg
