import Verif.Proofs.PolyGcd
import Verif.Props.Cost

/-! # Values of gcd, lcm and extended_gcd on polynomials: C78 -/

set_option autoImplicit false

universe u

namespace Abstalg

open Polynomial

/-- `(1 + x)^3` and `x (1 + x)` over the field with two elements. -/
theorem cube_rep : RingPolyRep TwoElementAlgebra.FRep [true, true, true, true]
    (polyOf [1, 1, 1, 1]) := polyOf_rep (by simp [TwoElementAlgebra.FRep]) (by decide)

theorem quad_rep : RingPolyRep TwoElementAlgebra.FRep [false, true, true]
    (polyOf [0, 1, 1]) := polyOf_rep (by simp [TwoElementAlgebra.FRep]) (by decide)

theorem quad_ne_zero : (polyOf [0, 1, 1] : (ZMod 2)[X]) ≠ 0 := fun h => by
  have := congrArg (coeff · 1) h
  simp [polyOf_coeff] at this

theorem quad_not_dvd : ¬ (polyOf [0, 1, 1] : (ZMod 2)[X]) ∣ polyOf [1, 1, 1, 1] := by
  rintro ⟨c, hc⟩
  have := congrArg (eval 0) hc
  simp [polyOf] at this

/-- The polynomials `1 + 2x` and `2 + 4x` over the integers modulo 5. -/
abbrev FiveRep (a : ℤ) (s : ZMod 5) : Prop := 0 ≤ a ∧ a < (5 : ℕ) ∧ (a : ZMod 5) = s

theorem five_rep₁ : RingPolyRep FiveRep [1, 2] (polyOf [1, 2]) :=
  polyOf_rep (.cons (by decide) (.cons (by decide) .nil)) (by decide)

theorem five_rep₂ : RingPolyRep FiveRep [2, 4] (polyOf [2, 4]) :=
  polyOf_rep (.cons (by decide) (.cons (by decide) .nil)) (by decide)

theorem five_assoc : (polyOf [2, 4] : (ZMod 5)[X]) = C 2 * polyOf [1, 2] ∧
    (polyOf [1, 2] : (ZMod 5)[X]) = C 3 * polyOf [2, 4] := by
  constructor <;> ext i <;> rw [coeff_C_mul, polyOf_coeff, polyOf_coeff] <;>
    rcases i with - | - | i <;> first | decide | simp

theorem five_ne_zero : (polyOf [1, 2] : (ZMod 5)[X]) ≠ 0 ∧ (polyOf [2, 4] : (ZMod 5)[X]) ≠ 0 := by
  constructor <;> intro h <;> have := congrArg (coeff · 0) h <;> simp only [polyOf_coeff] at this <;>
    revert this <;> simp <;> decide

local instance fact5 : Fact (Nat.Prime 5) := ⟨by decide⟩

variable [Cfg] {E : Type} {R : Type u} [Field R] {mp : Prop} {rep : E → R → Prop}
  {base : FieldOps E} {v w : List E} {f g : R[X]}

/-- C78: the value of `gcd`, with its leading coefficient: that of the algorithm of Mathlib with the
operands in the other order, which is the last remainder that is not zero. -/
theorem C78_gcd [DecidableEq R[X]] (h : FieldSpec mp base rep) (hf : RingPolyRep rep v f)
    (hg : RingPolyRep rep w g) :
    Returns mp ((PolynomialAlgebra.euclidean base).gcd v w)
      (RingPolyRep rep · (EuclideanDomain.gcd g f)) :=
  PolynomialAlgebra.gcd_value h hf hg

/-- `(1 + x)^3` and `x (1 + x)` over the field with two elements. -/
example : Returns False ((PolynomialAlgebra.euclidean TwoElementAlgebra.field).gcd
    [true, true, true, true] [false, true, true]) (RingPolyRep TwoElementAlgebra.FRep ·
      (EuclideanDomain.gcd (polyOf [0, 1, 1]) (polyOf [1, 1, 1, 1]))) :=
  C78_gcd TwoElementAlgebra.spec cube_rep quad_rep

/-- C78: so it is the first operand if the second is zero, the second if that divides the first,
and its degree is at most that of the second operand unless that is zero. -/
theorem C78_gcd_cases (h : FieldSpec mp base rep) (hf : RingPolyRep rep v f)
    (hg : RingPolyRep rep w g) :
    Returns mp ((PolynomialAlgebra.euclidean base).gcd v w) fun c =>
      (g = 0 → RingPolyRep rep c f) ∧ (g ≠ 0 → g ∣ f → RingPolyRep rep c g) ∧
      (g ≠ 0 → c.length ≤ w.length) := by
  classical
  refine (PolynomialAlgebra.gcd_value h hf hg).mono fun c hc => ⟨?_, fun h0 hd => ?_, ?_⟩
  · rintro rfl
    rwa [EuclideanDomain.gcd_zero_left] at hc
  · rwa [EuclideanDomain.gcd_val, EuclideanDomain.mod_eq_zero.2 hd,
      EuclideanDomain.gcd_zero_left] at hc
  · intro h0
    have h1 := natDegree_le_of_dvd (EuclideanDomain.gcd_dvd_left g f) h0
    have h2 : EuclideanDomain.gcd g f ≠ 0 := fun h => h0 (EuclideanDomain.gcd_eq_zero_iff.1 h).1
    have h3 : c.length ≠ 0 := fun h => h2 (hc.eq_zero_iff.2 h)
    have h4 : w.length ≠ 0 := fun h => h0 (hg.eq_zero_iff.2 h)
    rw [hc.natDegree, hg.natDegree] at h1
    omega

/-- The greatest common divisor of `1 + 2x` and `2 + 4x` modulo 5 is the second operand, in both
orders. -/
example : Returns False ((PolynomialAlgebra.euclidean (QuotientField.ops Integers.euclidean (5 : ℕ))).gcd
      [1, 2] [2, 4]) (RingPolyRep FiveRep · (polyOf [2, 4])) ∧
    Returns False ((PolynomialAlgebra.euclidean (QuotientField.ops Integers.euclidean (5 : ℕ))).gcd
      [2, 4] [1, 2]) (RingPolyRep FiveRep · (polyOf [1, 2])) :=
  ⟨(C78_gcd_cases (C21_integers 5) five_rep₁ five_rep₂).mono fun _ h =>
      h.2.1 five_ne_zero.2 ⟨C 3, by rw [mul_comm]; exact five_assoc.2⟩,
    (C78_gcd_cases (C21_integers 5) five_rep₂ five_rep₁).mono fun _ h =>
      h.2.1 five_ne_zero.1 ⟨C 2, by rw [mul_comm]; exact five_assoc.1⟩⟩

/-- C78: `extended_gcd` returns the divisor of `gcd`, the coefficients 1 and 0 if the second operand
is zero, 0 and 1 if it divides the first, and otherwise coefficients of degree less than those of
`g / d` and `f / d`. -/
theorem C78_extended_gcd (h : FieldSpec mp base rep) (hf : RingPolyRep rep v f)
    (hg : RingPolyRep rep w g) :
    Returns mp ((PolynomialAlgebra.euclidean base).extendedGcd v w) fun c => ∃ d s t,
      RingPolyRep rep c.1 d ∧ RingPolyRep rep c.2.1 s ∧ RingPolyRep rep c.2.2 t ∧
      f * s + g * t = d ∧
      Returns mp ((PolynomialAlgebra.euclidean base).gcd v w) (RingPolyRep rep · d) ∧
      (g = 0 → d = f ∧ s = 1 ∧ t = 0) ∧
      (g ≠ 0 → g ∣ f → d = g ∧ s = 0 ∧ t = 1) ∧
      (g ≠ 0 → ¬ g ∣ f → s.degree + d.degree < g.degree ∧ t.degree + d.degree < f.degree) := by
  classical
  refine (PolynomialAlgebra.extendedGcd_value h hf hg).mono fun c hc => ?_
  obtain ⟨s, t, h1, h2, h3, h4, h5, h6, h7⟩ := hc
  refine ⟨_, s, t, h1, h2, h3, h4, PolynomialAlgebra.gcd_value h hf hg, fun h0 => ?_,
    fun h0 hd => ?_, h7⟩
  · obtain ⟨rfl, rfl⟩ := h5 h0
    exact ⟨by rw [← h4]; simp, rfl, rfl⟩
  · obtain ⟨rfl, rfl⟩ := h6 h0 hd
    exact ⟨by rw [← h4]; simp, rfl, rfl⟩

/-- `(1 + x)^3 * 1 + x (1 + x) * x = 1 + x`: the coefficients have degrees 0 and 1. -/
example : (PolynomialAlgebra.euclidean TwoElementAlgebra.field).extendedGcd
    [true, true, true, true] [false, true, true] = .ok ([true, true], [true], [false, true]) :=
  ((extendedGcdWithin_sound _ _ _ _ _ _ 4 _ _).resolve_left (by rintro ⟨⟩)).symm

example := C78_extended_gcd TwoElementAlgebra.spec cube_rep quad_rep

/-- C78: no other coefficients have so small degrees: whatever `s'` and `t'` with
`f * s' + g * t' = d` and `s'` of degree less than `g / d` are those returned. -/
theorem C78_unique (h : FieldSpec mp base rep) (hf : RingPolyRep rep v f)
    (hg : RingPolyRep rep w g) (hg0 : g ≠ 0) (hd : ¬ g ∣ f) :
    Returns mp ((PolynomialAlgebra.euclidean base).extendedGcd v w) fun c => ∃ d,
      RingPolyRep rep c.1 d ∧ ∀ s' t', f * s' + g * t' = d → s'.degree + d.degree < g.degree →
        RingPolyRep rep c.2.1 s' ∧ RingPolyRep rep c.2.2 t' := by
  classical
  refine (PolynomialAlgebra.extendedGcd_value h hf hg).mono fun c hc => ?_
  obtain ⟨s, t, h1, h2, h3, h4, -, -, h7⟩ := hc
  refine ⟨_, h1, fun s' t' h' hs' => ?_⟩
  obtain ⟨rfl, rfl⟩ := bezout_unique hg0 (EuclideanDomain.gcd_dvd_left g f) h4 h' (h7 hg0 hd).1 hs'
  exact ⟨h2, h3⟩

example := C78_unique TwoElementAlgebra.spec cube_rep quad_rep quad_ne_zero quad_not_dvd

theorem RingPolyRep.degree_eq {E : Type} {R : Type u} [Field R] {rep : E → R → Prop} {v : List E}
    {p : R[X]} (h : RingPolyRep rep v p) (h0 : p ≠ 0) : p.degree = (v.length - 1 : ℕ) := by
  rw [degree_eq_natDegree h0, h.natDegree]

/-- C78: in terms of the vectors: unless the second operand divides the first, the vectors of the
divisor and of a coefficient are together at most as long as the vector of the other operand. -/
theorem C78_lengths (h : FieldSpec mp base rep) (hf : RingPolyRep rep v f)
    (hg : RingPolyRep rep w g) (hg0 : g ≠ 0) (hd : ¬ g ∣ f) :
    Returns mp ((PolynomialAlgebra.euclidean base).extendedGcd v w) fun c =>
      c.2.1.length + c.1.length ≤ w.length ∧ c.2.2.length + c.1.length ≤ v.length := by
  classical
  refine (PolynomialAlgebra.extendedGcd_value h hf hg).mono fun c hc => ?_
  obtain ⟨s, t, h1, h2, h3, h4, -, -, h7⟩ := hc
  have hf0 : f ≠ 0 := fun h => hd (h ▸ dvd_zero g)
  have hd1 := EuclideanDomain.gcd_dvd_left g f
  have hd2 := EuclideanDomain.gcd_dvd_right g f
  have hd0 : EuclideanDomain.gcd g f ≠ 0 := fun h => hg0 (zero_dvd_iff.1 (h ▸ hd1))
  have key : ∀ {u x : List E} {a b : R[X]}, RingPolyRep rep u a → RingPolyRep rep x b → b ≠ 0 →
      EuclideanDomain.gcd g f ∣ b → a.degree + (EuclideanDomain.gcd g f).degree < b.degree →
      u.length + c.1.length ≤ x.length := by
    intro u x a b hu hx hb hdvd hlt
    have l1 : c.1.length ≠ 0 := fun h => hd0 (h1.eq_zero_iff.2 h)
    have l2 : x.length ≠ 0 := fun h => hb (hx.eq_zero_iff.2 h)
    by_cases ha : a = 0
    · have := natDegree_le_of_dvd hdvd hb
      rw [h1.natDegree, hx.natDegree] at this
      have := hu.eq_zero_iff.1 ha
      omega
    · have l3 : u.length ≠ 0 := fun h => ha (hu.eq_zero_iff.2 h)
      rw [hu.degree_eq ha, h1.degree_eq hd0, hx.degree_eq hb] at hlt
      have : (u.length - 1) + (c.1.length - 1) < x.length - 1 := by exact_mod_cast hlt
      omega
  exact ⟨key h2 hg hg0 hd1 (h7 hg0 hd).1, key h3 hf hf0 hd2 (h7 hg0 hd).2⟩

/-- In the example above `1 + 2 ≤ 3` and `2 + 2 ≤ 4`. -/
example := C78_lengths TwoElementAlgebra.spec cube_rep quad_rep quad_ne_zero quad_not_dvd

/-- C78: the value of `lcm`: zero if the divisor is, and otherwise the product divided by the value
of `gcd`. -/
theorem C78_lcm [DecidableEq R[X]] (h : FieldSpec mp base rep) (hf : RingPolyRep rep v f)
    (hg : RingPolyRep rep w g) :
    Returns mp ((PolynomialAlgebra.euclidean base).lcm v w)
      (RingPolyRep rep · (f / EuclideanDomain.gcd g f * g)) := by
  let : DecidableEq R := Classical.decEq R
  have hE := PolynomialAlgebra.euclidean_spec h
  show Returns mp ((PolynomialAlgebra.euclidean base).gcd v w >>= _) _
  refine Returns.bind (PolynomialAlgebra.gcd_value h hf hg) fun c hc => ?_
  refine Decides.bind (hE.isZero hc) (fun h0 => ?_) (fun h0 => ?_)
  · have hf0 : f = 0 := (EuclideanDomain.gcd_eq_zero_iff.1 h0).2
    show RingPolyRep rep c _
    rw [hf0, EuclideanDomain.zero_div, zero_mul]
    rwa [h0] at hc
  · simp only [Bool.false_eq_true, if_false]
    exact Returns.bind (hE.quo hf hc h0) fun q hq => hE.mul hq hg

example : Returns False ((PolynomialAlgebra.euclidean TwoElementAlgebra.field).lcm
    [true, true, true, true] [false, true, true]) (RingPolyRep TwoElementAlgebra.FRep ·
      (polyOf [1, 1, 1, 1] / EuclideanDomain.gcd (polyOf [0, 1, 1]) (polyOf [1, 1, 1, 1]) *
        polyOf [0, 1, 1])) :=
  C78_lcm TwoElementAlgebra.spec cube_rep quad_rep

/-- C78: so `lcm` returns the first operand, with its leading coefficient, if the second divides it. -/
theorem C78_lcm_multiple (h : FieldSpec mp base rep) (hf : RingPolyRep rep v f)
    (hg : RingPolyRep rep w g) (hd : g ∣ f) :
    Returns mp ((PolynomialAlgebra.euclidean base).lcm v w) (RingPolyRep rep · f) := by
  classical
  refine (C78_lcm h hf hg).mono fun c hc => ?_
  have h1 : EuclideanDomain.gcd g f = if g = 0 then f else g := by
    split_ifs with h0
    · rw [h0, EuclideanDomain.gcd_zero_left]
    · rw [EuclideanDomain.gcd_val, EuclideanDomain.mod_eq_zero.2 hd, EuclideanDomain.gcd_zero_left]
  rw [h1] at hc
  split_ifs at hc with h0
  · obtain rfl : f = 0 := zero_dvd_iff.1 (h0 ▸ hd)
    simpa [h0] using hc
  · rwa [mul_comm, EuclideanDomain.mul_div_cancel' h0 hd] at hc

/-- The least common multiple of `1 + 2x` and `2 + 4x` modulo 5 is the first operand. -/
example : Returns False ((PolynomialAlgebra.euclidean (QuotientField.ops Integers.euclidean (5 : ℕ))).lcm
    [1, 2] [2, 4]) (RingPolyRep FiveRep · (polyOf [1, 2])) :=
  C78_lcm_multiple (C21_integers 5) five_rep₁ five_rep₂
    ⟨C 3, by rw [mul_comm]; exact five_assoc.2⟩

end Abstalg
