import Verif.Proofs.PolyRing
import Verif.Proofs.Field
import Verif.Spec.Quotient
import Mathlib.Algebra.Polynomial.FieldDivision

/-! # Division of polynomials -/

set_option linter.unusedSectionVars false

set_option autoImplicit false

universe u

namespace Abstalg

open Polynomial

namespace PolynomialAlgebra

variable [Cfg] {E : Type} {R : Type u} {mp : Prop} {rep : E → R → Prop}

section loop

variable [CommRing R]

/-- The inner loop of both division algorithms: `rem += g * b * x^i`, except for the leading
term. -/
theorem sub_loop {mul add : E → E → Res E}
    (hmul : ∀ {a b x y}, rep a x → rep b y → Returns mp (mul a b) (rep · (x * y)))
    (hadd : ∀ {a b x y}, rep a x → rep b y → Returns mp (add a b) (rep · (x + y)))
    {w : List E} {g : R[X]} {d : ℕ} (hw : Cells rep w (d + 1) g.coeff) {b : E} {y : R}
    (hb : rep b y) {rem : List E} {n i : ℕ} {c : ℕ → R} (hr : Cells rep rem n c) (hi : i + d ≤ n) :
    Returns mp (forLoop (List.range (w.length - 1)) rem fun rem j => do
      let c ← mul (← idx w j) b
      let d ← add (← idx rem (i + j)) c
      setIdx rem (i + j) d) fun u =>
        Cells rep u n fun k => if i ≤ k ∧ k < i + d then c k + g.coeff (k - i) * y else c k := by
  rw [hw.1, Nat.add_sub_cancel]
  refine forLoop_range (fun j u => Cells rep u n fun k =>
    if i ≤ k ∧ k < i + j then c k + g.coeff (k - i) * y else c k) ?_ fun j hj u hu => ?_
  · exact hr.congr fun k _ => by rw [if_neg (by omega)]
  · refine Returns.bind (hw.idx (i := j) (by omega)) fun e he => Returns.bind (hmul he hb)
      fun s hs => Returns.bind (hu.idx (i := i + j) (by omega)) fun t ht => ?_
    rw [if_neg (by omega)] at ht
    refine Returns.bind (hadd ht hs) fun r hr => ?_
    refine (hu.setIdx (by omega) hr).mono fun u' hu' => hu'.congr fun k _ => ?_
    by_cases hk : k = i + j
    · subst hk
      rw [Function.update_self, if_pos (by omega), Nat.add_sub_cancel_left]
    · rw [Function.update_of_ne hk]
      by_cases h1 : i ≤ k ∧ k < i + j
      · rw [if_pos h1, if_pos (by omega)]
      · rw [if_neg h1, if_neg (by omega)]

theorem coeff_sub_mul_monomial (D g : R[X]) (i k : ℕ) (q : R) :
    (D - g * monomial i q).coeff k = D.coeff k - if i ≤ k then g.coeff (k - i) * q else 0 := by
  rw [coeff_sub]
  split
  · rename_i h
    obtain ⟨j, rfl⟩ := Nat.exists_eq_add_of_le' h
    rw [coeff_mul_monomial, Nat.add_sub_cancel]
  · rename_i h
    congr 1
    rw [← C_mul_X_pow_eq_monomial, ← mul_assoc, coeff_mul_X_pow', if_neg h]

/-- What the division loops maintain: `rem` holds the lower coefficients of `f - g * Q`, whose
higher coefficients are zero. -/
structure DivInv (rep : E → R → Prop) (f g : R[X]) (d m i : ℕ) (quo rem : List E) (Q : R[X])
    (c : ℕ → R) : Prop where
  quo : Cells rep quo m Q.coeff
  high : ∀ k, m ≤ k → Q.coeff k = 0
  low : ∀ k, k < i → Q.coeff k = 0
  rem : Cells rep rem (m + d) c
  eq : ∀ k, k < i + d → c k = (f - g * Q).coeff k
  zero : ∀ k, i + d ≤ k → (f - g * Q).coeff k = 0

theorem DivInv.step {f g : R[X]} {d m i : ℕ} {quo rem quo' rem' : List E} {Q : R[X]} {c : ℕ → R}
    {q : R} (h : DivInv rep f g d m (i + 1) quo rem Q c) (hi : i < m)
    (hg : ∀ k, d + 1 ≤ k → g.coeff k = 0) (hq : c (i + d) = g.coeff d * q)
    (hquo : Cells rep quo' m (Function.update Q.coeff i q))
    (hrem : Cells rep rem' (m + d) fun k =>
      if i ≤ k ∧ k < i + d then c k + g.coeff (k - i) * -q else c k) :
    DivInv rep f g d m i quo' rem' (Q + monomial i q) fun k =>
      if i ≤ k ∧ k < i + d then c k + g.coeff (k - i) * -q else c k := by
  have hD : f - g * (Q + monomial i q) = f - g * Q - g * monomial i q := by ring
  refine ⟨hquo.congr fun k _ => ?_, fun k hk => ?_, fun k hk => ?_, hrem, fun k hk => ?_,
    fun k hk => ?_⟩
  · rw [coeff_add, coeff_monomial]
    by_cases hk : i = k
    · subst hk
      rw [Function.update_self, if_pos rfl, h.low i (by omega), zero_add]
    · rw [Function.update_of_ne (Ne.symm hk), if_neg hk, add_zero]
  · rw [coeff_add, coeff_monomial, if_neg (by omega), h.high k hk, add_zero]
  · rw [coeff_add, coeff_monomial, if_neg (by omega), h.low k (by omega), add_zero]
  · rw [hD, coeff_sub_mul_monomial, ← h.eq k (by omega)]
    by_cases hik : i ≤ k
    · rw [if_pos ⟨hik, hk⟩, if_pos hik]; ring
    · rw [if_neg (by omega), if_neg hik, sub_zero]
  · rw [hD, coeff_sub_mul_monomial, if_pos (by omega)]
    by_cases hk' : k = i + d
    · subst hk'
      rw [← h.eq _ (by omega), hq, Nat.add_sub_cancel_left, sub_self]
    · rw [h.zero k (by omega), hg _ (by omega), zero_mul, sub_zero]

theorem DivInv.init {f g : R[X]} {d m : ℕ} {v : List E} {z : E} (hz : rep z 0)
    (hv : Cells rep v (m + d) f.coeff) (hf : ∀ k, m + d ≤ k → f.coeff k = 0) :
    DivInv rep f g d m m (List.replicate m z) v 0 f.coeff := by
  refine ⟨(Cells.replicate hz).congr fun k _ => (coeff_zero k).symm, fun k _ => coeff_zero k,
    fun k _ => coeff_zero k, hv, fun k _ => by rw [mul_zero, sub_zero], fun k hk => ?_⟩
  rw [mul_zero, sub_zero]
  exact hf k hk

/-- The leading coefficient of the quotient is not zero. -/
theorem DivInv.quo_last {f g : R[X]} {d m : ℕ} {quo rem : List E} {Q : R[X]} {c : ℕ → R}
    (h : DivInv rep f g d m 0 quo rem Q c) (hm : m ≠ 0)
    (hg : ∀ k, d + 1 ≤ k → g.coeff k = 0) (hf : f.coeff (m + d - 1) ≠ 0) :
    Q.coeff (m - 1) ≠ 0 := by
  intro h0
  have h1 := h.zero (m + d - 1) (by omega)
  rw [coeff_sub, sub_eq_zero, show m + d - 1 = d + (m - 1) by omega,
    coeff_mul_add_eq_of_natDegree_le, h0, mul_zero, show d + (m - 1) = m + d - 1 by omega] at h1
  · exact hf h1
  · rw [natDegree_le_iff_coeff_eq_zero]; exact fun k hk => hg k (by omega)
  · rw [natDegree_le_iff_coeff_eq_zero]; exact fun k hk => h.high k (by omega)

end loop

section domain

variable [CommRing R] [IsDomain R] [NormalizationMonoid R] {base : IntegralDomainOps E}
  (h : IntegralDomainSpec mp base rep)

theorem dvd_coeff {f g Q : R[X]} {d i : ℕ} (hg : ∀ k, d + 1 ≤ k → g.coeff k = 0)
    (hgd : g.coeff d ≠ 0) (h0 : ∀ k, i + 1 + d ≤ k → (f - g * Q).coeff k = 0) (hdvd : g ∣ f) :
    g.coeff d ∣ (f - g * Q).coeff (i + d) := by
  obtain ⟨p, rfl⟩ := hdvd
  rw [← mul_sub] at h0 ⊢
  by_cases hp : p - Q = 0
  · rw [hp, mul_zero, coeff_zero]; exact dvd_zero _
  have hg0 : g ≠ 0 := by rintro rfl; exact hgd (coeff_zero d)
  have hgn : g.natDegree ≤ d := by
    rw [natDegree_le_iff_coeff_eq_zero]; exact fun k hk => hg k (by omega)
  have hgn' : d ≤ g.natDegree := le_natDegree_of_ne_zero hgd
  have h1 : (g * (p - Q)).natDegree ≤ i + d := by
    rw [natDegree_le_iff_coeff_eq_zero]; exact fun k hk => h0 k (by omega)
  rw [natDegree_mul hg0 hp] at h1
  rw [show i + d = d + i by omega, coeff_mul_add_eq_of_natDegree_le hgn (by omega)]
  exact dvd_mul_right _ _

theorem not_dvd_of_rem {f g Q : R[X]} {d k : ℕ} (hgd : g.coeff d ≠ 0)
    (h0 : ∀ k, d ≤ k → (f - g * Q).coeff k = 0) (hk : (f - g * Q).coeff k ≠ 0) : ¬ g ∣ f := by
  rintro ⟨p, rfl⟩
  rw [← mul_sub] at h0 hk
  have hp : p - Q ≠ 0 := by intro hp; rw [hp, mul_zero, coeff_zero] at hk; exact hk rfl
  have hg0 : g ≠ 0 := by rintro rfl; exact hgd (coeff_zero d)
  have hgn' : d ≤ g.natDegree := le_natDegree_of_ne_zero hgd
  have h2 : (g * (p - Q)).coeff (g * (p - Q)).natDegree ≠ 0 :=
    leadingCoeff_ne_zero.2 (mul_ne_zero hg0 hp)
  exact h2 (h0 _ (by rw [natDegree_mul hg0 hp]; omega))

include h

theorem tryDivLoop_spec {f g : R[X]} {d m : ℕ} {w : List E} {a : E}
    (hw : Cells rep w (d + 1) g.coeff) (hg : ∀ k, d + 1 ≤ k → g.coeff k = 0)
    (hgd : g.coeff d ≠ 0) (ha : rep a (g.coeff d)) :
    ∀ (i : ℕ) {quo rem : List E} {Q : R[X]} {c : ℕ → R}, i ≤ m →
      DivInv rep f g d m i quo rem Q c →
      Returns mp (tryDivLoop base w a i quo rem) fun
        | none => ¬ g ∣ f
        | some (quo, rem) => ∃ Q c, DivInv rep f g d m 0 quo rem Q c := by
  intro i
  induction i with
  | zero => exact fun _ hI => ⟨_, _, hI⟩
  | succ i ih =>
    intro quo rem Q c hi hI
    rw [tryDivLoop, hw.1]
    refine Returns.bind (hI.rem.idx (i := i + (d + 1) - 1) (by omega)) fun t ht => ?_
    rw [show i + (d + 1) - 1 = i + d by omega] at ht
    refine Returns.bind (h.tryDiv ht ha hgd) fun o ho => ?_
    cases o with
    | none =>
      intro hdvd
      refine ho ?_
      rw [hI.eq _ (by omega)]
      exact dvd_coeff hg hgd hI.zero hdvd
    | some q' =>
      obtain ⟨q, hq', hq⟩ := ho
      refine Returns.bind (hI.quo.setIdx (i := i) (by omega) hq') fun quo' hquo' => ?_
      refine Returns.bind (hquo'.idx (i := i) (by omega)) fun q'' hq'' => ?_
      rw [Function.update_self] at hq''
      refine Returns.bind (h.neg hq'') fun b hb => ?_
      have hloop := sub_loop h.mul h.addAssign hw hb hI.rem (i := i) (by omega)
      rw [hw.1] at hloop
      refine Returns.bind hloop fun rem' hrem' => ?_
      exact ih (by omega) (hI.step (by omega) hg hq hquo' hrem')

theorem tryDiv_spec {v w : List E} {f g : R[X]} (hf : RingPolyRep rep v f)
    (hg : RingPolyRep rep w g) (hg0 : g ≠ 0) :
    Returns mp (tryDiv base v w) fun
      | some u => ∃ q, RingPolyRep rep u q ∧ f = g * q
      | none => ¬ g ∣ f := by
  have hwl : w.length ≠ 0 := fun h => hg0 (hg.eq_zero_iff.2 h)
  have hw : w.isEmpty = false := by simpa using hwl
  unfold tryDiv
  rw [hw]
  show Returns mp (if v.length < w.length then _ else _) _
  obtain ⟨d, hd⟩ : ∃ d, w.length = d + 1 := ⟨w.length - 1, by omega⟩
  have hgc : ∀ k, d + 1 ≤ k → g.coeff k = 0 := fun k hk => hg.coeff_eq_zero k (by omega)
  have hgd : g.coeff d ≠ 0 := by have := hg.last hwl; rwa [hd, Nat.add_sub_cancel] at this
  have hwc := hg.cells
  rw [hd] at hwc
  split
  · rename_i hlt
    split
    · rename_i hv
      obtain rfl : v = [] := by simpa using hv
      have hf0 : f = 0 := hf.eq_zero_iff.2 rfl
      refine ⟨0, ?_, by rw [hf0, mul_zero]⟩
      rwa [hf0] at hf
    · rename_i hv
      have hvl : v.length ≠ 0 := by simpa using hv
      refine not_dvd_of_rem (Q := 0) (d := d) (k := v.length - 1) hgd (fun k hk => ?_) ?_
      · rw [mul_zero, sub_zero]; exact hf.coeff_eq_zero k (by omega)
      · rw [mul_zero, sub_zero]; exact hf.last hvl
  · rename_i hlt
    refine Returns.bind h.zero fun z hz => ?_
    refine Returns.bind (hg.cells.idx (i := w.length - 1) (by omega)) fun a ha => ?_
    rw [hd, Nat.add_sub_cancel] at ha
    refine Decides.assertNot (h.isZero ha) hgd ?_
    rw [List.length_replicate]
    obtain ⟨m, hm⟩ : ∃ m, v.length - w.length + 1 = m := ⟨_, rfl⟩
    have hml : v.length = m + d := by omega
    rw [hm]
    have hvc := hf.cells
    rw [hml] at hvc
    have hfc := hf.coeff_eq_zero
    rw [hml] at hfc
    refine Returns.bind (tryDivLoop_spec h hwc hgc hgd ha m le_rfl (DivInv.init hz hvc hfc))
      fun o ho => ?_
    cases o with
    | none => exact ho
    | some p =>
      obtain ⟨quo, rem⟩ := p
      obtain ⟨Q, c, hI⟩ := ho
      have hlast : Q.coeff (m - 1) ≠ 0 :=
        hI.quo_last (by omega) hgc (by rw [← hml]; exact hf.last (by omega))
      have hall : Decides mp (allRes (fun d => base.isZero d) (rem.take (w.length - 1)))
          (∀ k, k < d → (f - g * Q).coeff k = 0) := by
        rw [hd, Nat.add_sub_cancel]
        refine (hI.rem.take (m := d) (by omega)).all fun k hk a ha => ?_
        rw [hI.eq k (by omega)] at ha
        exact h.isZero ha
      refine Decides.bind hall (fun h0 => ?_) fun h0 => ?_
      · refine ⟨Q, RingPolyRep.mk hI.quo hI.high fun _ => hlast, ?_⟩
        rw [← sub_eq_zero]
        ext k
        rw [coeff_zero]
        by_cases hk : k < d
        · exact h0 k hk
        · exact hI.zero k (by omega)
      · push Not at h0
        obtain ⟨k, _, hk⟩ := h0
        exact not_dvd_of_rem hgd (fun k hk => hI.zero k (by omega)) hk

theorem tryDiv_panics {v w : List E} (hg : RingPolyRep rep w 0) : Panics (tryDiv base v w) := by
  obtain rfl : w = [] := List.length_eq_zero_iff.1 (hg.eq_zero_iff.1 rfl)
  rfl

theorem associateRepr_spec {v : List E} {f : R[X]} (hf : RingPolyRep rep v f) :
    Returns mp ((integralDomain base).associateRepr v) (RingPolyRep rep · (normalize f)) := by
  simp only [integralDomain]
  split
  · rename_i hv
    obtain rfl : v = [] := by simpa using hv
    have hf0 : f = 0 := hf.eq_zero_iff.2 rfl
    rw [hf0, normalize_zero]
    rwa [hf0] at hf
  · rename_i hv
    have hvl : v.length ≠ 0 := by simpa using hv
    refine Returns.bind (hf.cells.idx (i := v.length - 1) (by omega)) fun a ha => ?_
    refine Returns.bind (h.associateCoef ha (hf.last hvl)) fun u hu => ?_
    have hn : ∀ k, (normalize f).coeff k = f.coeff k * (normUnit (f.coeff (v.length - 1)) : R) := by
      intro k
      rw [normalize_apply, coe_normUnit, coeff_mul_C, hf.leadingCoeff]
    refine (hf.cells.map (rep' := rep) (d := (normalize f).coeff) fun i hi a ha => ?_).mono
      fun w hw => ?_
    · rw [hn]; exact h.mul ha hu
    · refine RingPolyRep.mk hw (fun k hk => ?_) fun _ => ?_
      · rw [hn, hf.coeff_eq_zero k hk, zero_mul]
      · rw [hn]; exact mul_ne_zero (hf.last hvl) (Units.ne_zero _)

theorem associateCoef_spec {v : List E} {f : R[X]} (hf : RingPolyRep rep v f) (hf0 : f ≠ 0) :
    Returns mp ((integralDomain base).associateCoef v) (RingPolyRep rep · (normUnit f : R[X])) := by
  have hvl : v.length ≠ 0 := fun h => hf0 (hf.eq_zero_iff.2 h)
  have hv : v.isEmpty = false := by simpa using hvl
  simp only [integralDomain, hv, Bool.not_false, assert_true, ok_bind]
  refine Returns.bind (hf.cells.idx (i := v.length - 1) (by omega)) fun a ha => ?_
  refine Returns.bind (h.associateCoef ha (hf.last hvl)) fun u hu => ?_
  rw [coe_normUnit, hf.leadingCoeff]
  exact RingPolyRep.const hu (Units.ne_zero _)

theorem integralDomain_spec :
    IntegralDomainSpec mp (integralDomain base) (RingPolyRep rep) := by
  have hr := unitaryRing_spec h.toUnitaryRingSpec
  have hdvd : ∀ {a b : List E} {x y : R[X]}, RingPolyRep rep a x → RingPolyRep rep b y →
      Decides mp ((integralDomain base).divisible a b) (y ∣ x) := fun ha hb => by
    have := divisible_default (rep := RingPolyRep rep) hr.isZero
      (fun ha hb hy => (tryDiv_spec h ha hb hy).mono fun o ho => by cases o <;> exact ho) ha hb
    exact this
  exact
  { toUnitaryRingSpec := hr
    tryDiv := fun ha hb hy => (tryDiv_spec h ha hb hy).mono fun o ho => by cases o <;> exact ho
    tryDiv_zero := fun _ hb => tryDiv_panics h hb
    divisible := hdvd
    associates := fun ha hb => by
      have := associates_default (rep := RingPolyRep rep) hdvd ha hb
      exact this
    associateRepr := associateRepr_spec h
    associateCoef := associateCoef_spec h
    associateCoef_zero := fun {a} ha => by
      obtain rfl : a = [] := List.length_eq_zero_iff.1 (ha.eq_zero_iff.1 rfl)
      rfl }

end domain

section field

variable [Field R]

theorem division_unique {f g q r : R[X]} (hg : g ≠ 0) (h : f = g * q + r)
    (hr : r.degree < g.degree) : q = f / g ∧ r = f % g := by
  have h1 := EuclideanDomain.div_add_mod f g
  have h2 : g * (q - f / g) = f % g - r := by linear_combination -h - h1
  have h3 : (f % g - r).degree < g.degree :=
    lt_of_le_of_lt (degree_sub_le _ _) (max_lt (degree_mod_lt f hg) hr)
  have h4 : q - f / g = 0 := by
    by_contra h0
    rw [← h2, Polynomial.degree_mul, degree_eq_natDegree hg, degree_eq_natDegree h0] at h3
    norm_cast at h3
    omega
  refine ⟨sub_eq_zero.1 h4, ?_⟩
  rw [h4, mul_zero] at h2
  exact (sub_eq_zero.1 h2.symm).symm

instance : CanonicalRem R[X] where
  mod_eq := fun _ h => mod_eq_of_dvd_sub h
  one_div := fun {μ} h0 hu => by
    rw [Polynomial.div_eq_zero_iff h0, degree_one]
    by_contra hd
    exact hu (isUnit_iff_degree_eq_zero.2 (le_antisymm (not_lt.1 hd) (zero_le_degree_iff.2 h0)))

variable {base : FieldOps E} (h : FieldSpec mp base rep)

include h

theorem quoRemLoop_spec {f g : R[X]} {d m : ℕ} {w : List E} {a : E}
    (hw : Cells rep w (d + 1) g.coeff) (hg : ∀ k, d + 1 ≤ k → g.coeff k = 0)
    (hgd : g.coeff d ≠ 0) (ha : rep a (g.coeff d)) :
    ∀ (i : ℕ) {quo rem : List E} {Q : R[X]} {c : ℕ → R}, i ≤ m →
      DivInv rep f g d m i quo rem Q c →
      Returns mp (quoRemLoop base w a i quo rem) fun p =>
        ∃ Q c, DivInv rep f g d m 0 p.1 p.2 Q c := by
  intro i
  induction i with
  | zero => exact fun _ hI => ⟨_, _, hI⟩
  | succ i ih =>
    intro quo rem Q c hi hI
    rw [quoRemLoop, hw.1]
    refine Returns.bind (hI.rem.idx (i := i + (d + 1) - 1) (by omega)) fun t ht => ?_
    rw [show i + (d + 1) - 1 = i + d by omega] at ht
    refine Returns.bind (h.div ht ha hgd) fun q' hq' => ?_
    refine Returns.bind (hI.quo.setIdx (i := i) (by omega) hq') fun quo' hquo' => ?_
    refine Returns.bind (hquo'.idx (i := i) (by omega)) fun q'' hq'' => ?_
    rw [Function.update_self] at hq''
    refine Returns.bind (h.neg hq'') fun b hb => ?_
    have hloop := sub_loop h.mul h.add hw hb hI.rem (i := i) (by omega)
    rw [hw.1] at hloop
    refine Returns.bind hloop fun rem' hrem' => ?_
    exact ih (by omega) (hI.step (by omega) hg (mul_div_cancel₀ _ hgd).symm hquo' hrem')

theorem trimLen_spec {rem : List E} {n : ℕ} {c : ℕ → R} (hr : Cells rep rem n c) :
    ∀ i, i ≤ n → Returns mp (trimLen base rem i) fun k =>
      k ≤ i ∧ (∀ j, k ≤ j → j < i → c j = 0) ∧ (k ≠ 0 → c (k - 1) ≠ 0) := by
  intro i
  induction i with
  | zero => exact fun _ => ⟨le_rfl, by omega, by omega⟩
  | succ i ih =>
    intro hi
    refine Returns.bind (hr.idx (i := i) (by omega)) fun a ha => ?_
    refine Decides.bind (h.isZero ha) (fun h0 => ?_) fun h0 => ?_
    · refine (ih (by omega)).mono fun k hk => ⟨by omega, fun j h1 h2 => ?_, hk.2.2⟩
      by_cases hj : j = i
      · subst hj; exact h0
      · exact hk.2.1 j h1 (by omega)
    · exact ⟨le_rfl, by omega, fun _ => h0⟩

theorem quoRem_spec {v w : List E} {f g : R[X]} (hf : RingPolyRep rep v f)
    (hg : RingPolyRep rep w g) (hg0 : g ≠ 0) :
    Returns mp (quoRem base v w) fun p =>
      RingPolyRep rep p.1 (f / g) ∧ RingPolyRep rep p.2 (f % g) := by
  have hwl : w.length ≠ 0 := fun h => hg0 (hg.eq_zero_iff.2 h)
  have hw : w.isEmpty = false := by simpa using hwl
  unfold quoRem
  rw [hw]
  show Returns mp (if v.length < w.length then _ else _) _
  obtain ⟨d, hd⟩ : ∃ d, w.length = d + 1 := ⟨w.length - 1, by omega⟩
  have hgc : ∀ k, d + 1 ≤ k → g.coeff k = 0 := fun k hk => hg.coeff_eq_zero k (by omega)
  have hgd : g.coeff d ≠ 0 := by have := hg.last hwl; rwa [hd, Nat.add_sub_cancel] at this
  have hwc := hg.cells
  rw [hd] at hwc
  have hdeg : g.degree = d := by
    rw [degree_eq_natDegree hg0, hg.natDegree, hd, Nat.add_sub_cancel]
  split
  · rename_i hlt
    have := division_unique (f := f) (q := 0) (r := f) hg0 (by rw [mul_zero, zero_add]) (by
      rw [hdeg, degree_lt_iff_coeff_zero]
      exact fun k hk => hf.coeff_eq_zero k (by omega))
    rw [← this.1, ← this.2]
    exact ⟨RingPolyRep.mk Cells.nil (fun k _ => coeff_zero k) fun h => absurd rfl h, hf⟩
  · rename_i hlt
    refine Returns.bind h.zero fun z hz => ?_
    refine Returns.bind (hg.cells.idx (i := w.length - 1) (by omega)) fun a ha => ?_
    rw [hd, Nat.add_sub_cancel] at ha
    refine Decides.assertNot (h.isZero ha) hgd ?_
    rw [List.length_replicate]
    obtain ⟨m, hm⟩ : ∃ m, v.length - w.length + 1 = m := ⟨_, rfl⟩
    have hml : v.length = m + d := by omega
    rw [hm]
    have hvc := hf.cells
    rw [hml] at hvc
    have hfc := hf.coeff_eq_zero
    rw [hml] at hfc
    refine Returns.bind (quoRemLoop_spec h hwc hgc hgd ha m le_rfl (DivInv.init hz hvc hfc))
      fun p hp => ?_
    obtain ⟨quo, rem⟩ := p
    obtain ⟨Q, c, hI⟩ := hp
    have hlast : Q.coeff (m - 1) ≠ 0 :=
      hI.quo_last (by omega) hgc (by rw [← hml]; exact hf.last (by omega))
    have hun := division_unique (f := f) (q := Q) (r := f - g * Q) hg0 (by ring) (by
      rw [hdeg, degree_lt_iff_coeff_zero]
      exact fun k hk => hI.zero k (by omega))
    refine Returns.bind (trimLen_spec h hI.rem (w.length - 1) (by omega)) fun i hi => ?_
    obtain ⟨hid, h0, h1⟩ := hi
    rw [← hun.1, ← hun.2]
    refine ⟨RingPolyRep.mk hI.quo hI.high fun _ => hlast, ?_⟩
    refine RingPolyRep.mk ((hI.rem.take (m := i) (by omega)).congr fun k hk => hI.eq k (by omega))
      (fun k hk => ?_) fun hi0 => ?_
    · by_cases hkd : k < d
      · rw [← hI.eq k (by omega)]; exact h0 k hk (by omega)
      · exact hI.zero k (by omega)
    · rw [← hI.eq _ (by omega)]; exact h1 hi0

theorem euclidean_spec [DecidableEq R] : EuclideanSpec mp (euclidean base) (RingPolyRep rep) := by
  have hI := integralDomain_spec h.toIntegralDomain
  have hqr : ∀ {a b : List E} {x y : R[X]}, RingPolyRep rep a x → RingPolyRep rep b y → y ≠ 0 →
      Returns mp ((euclidean base).quoRem a b) fun p =>
        RingPolyRep rep p.1 (x / y) ∧ RingPolyRep rep p.2 (x % y) := quoRem_spec h
  have hqz : ∀ {a b : List E} {x : R[X]}, RingPolyRep rep a x → RingPolyRep rep b 0 →
      Panics ((euclidean base).quoRem a b) := fun _ hb => by
    obtain rfl := List.length_eq_zero_iff.1 (hb.eq_zero_iff.1 rfl)
    rfl
  have hquo : ∀ {a b : List E} {x y : R[X]}, RingPolyRep rep a x → RingPolyRep rep b y → y ≠ 0 →
      Returns mp ((euclidean base).quo a b) (RingPolyRep rep · (x / y)) := fun ha hb hy => by
    have := quo_default (rep := RingPolyRep rep) hqr ha hb hy
    exact this
  have hrem : ∀ {a b : List E} {x y : R[X]}, RingPolyRep rep a x → RingPolyRep rep b y → y ≠ 0 →
      Returns mp ((euclidean base).rem a b) (RingPolyRep rep · (x % y)) := fun ha hb hy => by
    have := rem_default (rep := RingPolyRep rep) hqr ha hb hy
    exact this
  have hgcd : ∀ {a b : List E} {x y : R[X]}, RingPolyRep rep a x → RingPolyRep rep b y →
      Returns mp ((euclidean base).gcd a b) fun c => ∃ g, RingPolyRep rep c g ∧ IsGcd x y g :=
    fun ha hb => by
      have := gcdDefault_spec (rep := RingPolyRep rep) hI.isZero hrem ha hb
      exact this
  exact
  { toIntegralDomainSpec := hI
    quoRem := hqr
    quoRem_zero := hqz
    quo := hquo
    quo_zero := fun ha hb => panics_bind (hqz ha hb)
    rem := hrem
    rem_zero := fun ha hb => panics_bind (hqz ha hb)
    reduced := fun ha hb => by
      have := reduced_default (rep := RingPolyRep rep) hI.isZero hquo ha hb
      exact this
    gcd := hgcd
    lcm := fun ha hb => by
      have := lcm_default (rep := RingPolyRep rep) hI.isZero hgcd hquo hI.mul ha hb
      exact this
    extendedGcd := fun ha hb => by
      have := extendedGcdDefault_spec (rep := RingPolyRep rep) hI.isZero hI.one hI.zero hqr hI.sub
        hI.mul ha hb
      exact this
    relativePrimes := fun ha hb => by
      have := relativePrimes_default (rep := RingPolyRep rep) hgcd hI.invertible ha hb
      exact this }

end field

end PolynomialAlgebra

end Abstalg
