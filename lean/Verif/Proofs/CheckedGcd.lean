import Verif.Proofs.CheckedInts

/-! # `gcd` and `extended_gcd` on machine integers never overflow, `(MIN, -1)` aside -/

set_option autoImplicit false

namespace Abstalg.CheckedInts

open SInt

set_option linter.unusedSectionVars false

variable [Cfg] (w : ℕ) [Width w]

theorem gcd_zero (a b : SInt w) (hb : b.1 = 0) : (euclidean w).gcd a b = .ok a := by
  show gcdDefault (euclidean w).isZero (euclidean w).rem a b = _
  rw [gcdDefault]
  show (Res.ok (b.1 == 0) >>= fun z => if z = true then _ else _) = _
  simp [hb]

theorem gcd_step (a b : SInt w) (hb : b.1 ≠ 0) (h : ¬ Bad w a b) :
    (euclidean w).gcd a b = (euclidean w).gcd b (mk (a.1 % b.1) (fits_emod w b.2 hb)) := by
  show gcdDefault (euclidean w).isZero (euclidean w).rem a b = _
  rw [gcdDefault]
  show (Res.ok (b.1 == 0) >>= fun z => if z = true then _ else
    (((euclidean w).quoRem a b >>= fun p => pure p.2) >>= fun r => _)) = _
  rw [quoRem_eq w a b hb h]
  simp only [ok_bind, show (b.1 == 0) = false by simpa using hb]
  rfl

/-- The step of `extended_gcd` does not overflow if these conditions hold. -/
theorem extendedGcd_step (a b : SInt w) (hb : b.1 ≠ 0) (h : ¬ Bad w a b) {g x y : SInt w}
    (hr : (euclidean w).extendedGcd b (mk (a.1 % b.1) (fits_emod w b.2 hb)) = .ok (g, x, y))
    (h1 : Fits w (y.1 * (a.1 / b.1))) (h2 : Fits w (x.1 - y.1 * (a.1 / b.1))) :
    (euclidean w).extendedGcd a b = .ok (g, y, mk _ h2) := by
  show extendedGcdDefault (euclidean w).isZero (euclidean w).one (euclidean w).zero
    (euclidean w).quoRem (euclidean w).sub (euclidean w).mul a b = _
  rw [extendedGcdDefault]
  show (Res.ok (b.1 == 0) >>= fun z => if z = true then _ else
    ((euclidean w).quoRem a b >>= fun p =>
      (euclidean w).extendedGcd b p.2 >>= fun t =>
        (unitaryRing w).mul t.2.2 p.1 >>= fun m =>
          (unitaryRing w).sub t.2.1 m >>= fun z => pure (t.1, t.2.2, z))) = _
  rw [quoRem_eq w a b hb h]
  have hm : (unitaryRing w).mul y (mk (a.1 / b.1) (fits_ediv w a.2 hb h)) = .ok (mk _ h1) :=
    (mul_eq w _ _).trans (dif_pos h1)
  have hs : (unitaryRing w).sub x (mk _ h1) = .ok (mk _ h2) := (sub_eq w _ _).trans (dif_pos h2)
  simp only [ok_bind, show (b.1 == 0) = false by simpa using hb, Bool.false_eq_true, if_false, hr,
    hm, hs]
  rfl

theorem extendedGcd_zero (a b : SInt w) (hb : b.1 = 0) :
    (euclidean w).extendedGcd a b = .ok (a, c1 w, c0 w) := by
  show extendedGcdDefault (euclidean w).isZero (euclidean w).one (euclidean w).zero
    (euclidean w).quoRem (euclidean w).sub (euclidean w).mul a b = _
  rw [extendedGcdDefault]
  show (Res.ok (b.1 == 0) >>= fun z => if z = true then
    (Res.ok (c1 w) >>= fun o => Res.ok (c0 w) >>= fun z => pure (a, o, z)) else _) = _
  simp [hb]

/-- What `extended_gcd(a, b)` returns for `b ≠ 0`, besides the Bezout identity: either
`b ∣ a` and the coefficients are `(0, 1)`, or they satisfy the bounds. -/
def Bounded (a b g x y bx by' : ℤ) : Prop :=
  (b ∣ a ∧ g = b ∧ x = 0 ∧ y = 1) ∨
  (¬ b ∣ a ∧ 0 < g ∧ 2 * g ≤ |b| ∧ 2 * |x| ≤ bx ∧ 2 * |y| ≤ by')

theorem two_mul_le_of_dvd {g b : ℤ} (hg : 0 < g) (hgb : g ∣ b) (hb : b ≠ 0) (h : |b| ≠ g) :
    2 * g ≤ |b| := by
  obtain ⟨k, rfl⟩ := hgb
  rw [abs_mul, abs_of_pos hg] at *
  have hk : k ≠ 0 := by rintro rfl; simp at hb
  have h1 : |k| ≠ 1 := fun h' => h (by rw [h', mul_one])
  have h2 : 0 < |k| := abs_pos.2 hk
  have : 2 ≤ |k| := by omega
  nlinarith

theorem extendedGcd_nonneg (n : ℕ) : ∀ (a b : SInt w), 0 ≤ a.1 → 0 < b.1 → b.1.toNat ≤ n →
    ∃ g x y, (euclidean w).extendedGcd a b = .ok (g, x, y) ∧
      a.1 * x.1 + b.1 * y.1 = g.1 ∧ g.1 ∣ a.1 ∧ g.1 ∣ b.1 ∧
      Bounded a.1 b.1 g.1 x.1 y.1 b.1 a.1 := by
  induction n with
  | zero => intro a b _ hb hn; omega
  | succ n ih =>
    intro a b ha hb hn
    have hb0 : b.1 ≠ 0 := by omega
    have hbad : ¬ Bad w a b := fun h => by have := h.2; omega
    have hr0 := Int.emod_nonneg a.1 hb0
    have hrb := Int.emod_lt_of_pos a.1 hb
    have hqr := Int.mul_ediv_add_emod a.1 b.1
    have hq0 : 0 ≤ a.1 / b.1 := Int.ediv_nonneg ha hb.le
    have hfa := fits_iff.1 a.2
    have hfb := fits_iff.1 b.2
    have hM := pow_ge (w := w)
    by_cases hr : a.1 % b.1 = 0
    · have hz := extendedGcd_zero w b (mk (a.1 % b.1) (fits_emod w b.2 hb0)) hr
      have := extendedGcd_step w a b hb0 hbad hz
        (by show Fits w (0 * _); rw [zero_mul]; exact fits_zero w)
        (by show Fits w (1 - 0 * _); rw [zero_mul, sub_zero]; exact fits_one w)
      refine ⟨_, _, _, this, ?_, ?_, dvd_refl _, Or.inl ⟨?_, rfl, rfl, ?_⟩⟩
      · show a.1 * 0 + b.1 * (1 - 0 * _) = b.1; ring
      · exact Int.dvd_of_emod_eq_zero hr
      · exact Int.dvd_of_emod_eq_zero hr
      · show (1 : ℤ) - 0 * _ = 1; ring
    · obtain ⟨g, x, y, he, hbz, hg1, hg2, hbd⟩ :=
        ih b (mk (a.1 % b.1) (fits_emod w b.2 hb0)) hb.le
          (by show 0 < a.1 % b.1; omega) (by show (a.1 % b.1).toNat ≤ n; omega)
      replace hbz : b.1 * x.1 + (a.1 % b.1) * y.1 = g.1 := hbz
      replace hg2 : g.1 ∣ a.1 % b.1 := hg2
      replace hbd : Bounded b.1 (a.1 % b.1) g.1 x.1 y.1 (a.1 % b.1) b.1 := hbd
      have hga : g.1 ∣ a.1 := by rw [← hqr]; exact dvd_add (hg1.mul_right _) hg2
      have hba : ¬ b.1 ∣ a.1 := fun h => hr (Int.emod_eq_zero_of_dvd h)
      have hg0 : 0 < g.1 := by
        rcases hbd with ⟨_, h, _⟩ | ⟨_, h, _⟩ <;> omega
      have hgr : g.1 ≤ a.1 % b.1 := Int.le_of_dvd (by omega) hg2
      have hy : 2 * |y.1| ≤ b.1 := by
        rcases hbd with ⟨h1, _, _, h4⟩ | ⟨_, _, _, _, h5⟩
        · rw [h4]
          have := two_mul_le_of_dvd (by omega) h1 hb0 (by rw [abs_of_pos hb]; omega)
          rw [abs_of_pos hb] at this
          simp only [abs_one]
          omega
        · exact h5
      have hx : 2 * |x.1| ≤ a.1 % b.1 := by
        rcases hbd with ⟨_, _, h3, _⟩ | ⟨_, _, _, h4, _⟩
        · rw [h3]; simpa using hr0
        · exact h4
      have hp : 2 * |y.1 * (a.1 / b.1)| ≤ b.1 * (a.1 / b.1) := by
        rw [abs_mul, abs_of_nonneg hq0]; nlinarith
      have hs : 2 * |x.1 - y.1 * (a.1 / b.1)| ≤ a.1 := by
        have := abs_sub x.1 (y.1 * (a.1 / b.1))
        omega
      have hp1 := abs_le.1 (le_refl |y.1 * (a.1 / b.1)|)
      have hs1 := abs_le.1 (le_refl |x.1 - y.1 * (a.1 / b.1)|)
      have hf1 : Fits w (y.1 * (a.1 / b.1)) := by rw [fits_iff]; omega
      have hf2 : Fits w (x.1 - y.1 * (a.1 / b.1)) := by rw [fits_iff]; omega
      refine ⟨g, y, _, extendedGcd_step w a b hb0 hbad he hf1 hf2, ?_, hga, hg1, Or.inr
        ⟨hba, hg0, two_mul_le_of_dvd hg0 hg1 hb0 (by rw [abs_of_pos hb]; omega), hy, hs⟩⟩
      show a.1 * y.1 + b.1 * (x.1 - y.1 * (a.1 / b.1)) = g.1
      linear_combination hbz - y.1 * hqr

/-- Bound on the second Bezout coefficient from the identity and a bound on the first. -/
theorem bezout_bound {a b g x y : ℤ} (h : a * x + b * y = g) (hg : 0 < g) {c : ℤ}
    (hx : 2 * |x| ≤ c) : 2 * (|b| * |y|) ≤ 2 * g + |a| * c := by
  have h1 : |b * y| ≤ g + |a * x| := by
    rw [show b * y = g - a * x by linear_combination h]
    have := abs_sub g (a * x)
    rwa [abs_of_pos hg] at this
  rw [abs_mul, abs_mul] at h1
  nlinarith [abs_nonneg a]

/-- Negative dividend, positive divisor. -/
theorem extendedGcd_neg_pos (a b : SInt w) (ha : a.1 < 0) (hb : 0 < b.1) :
    ∃ g x y, (euclidean w).extendedGcd a b = .ok (g, x, y) ∧
      a.1 * x.1 + b.1 * y.1 = g.1 ∧ g.1 ∣ a.1 ∧ g.1 ∣ b.1 ∧
      Bounded a.1 b.1 g.1 x.1 y.1 b.1 (-a.1 + 1) := by
  have hb0 : b.1 ≠ 0 := by omega
  have hbad : ¬ Bad w a b := fun h => by have := h.2; omega
  have hr0 := Int.emod_nonneg a.1 hb0
  have hrb := Int.emod_lt_of_pos a.1 hb
  have hqr := Int.mul_ediv_add_emod a.1 b.1
  have hfa := fits_iff.1 a.2
  have hfb := fits_iff.1 b.2
  have hM := pow_ge (w := w)
  by_cases hr : a.1 % b.1 = 0
  · have hz := extendedGcd_zero w b (mk (a.1 % b.1) (fits_emod w b.2 hb0)) hr
    have := extendedGcd_step w a b hb0 hbad hz
      (by show Fits w (0 * _); rw [zero_mul]; exact fits_zero w)
      (by show Fits w (1 - 0 * _); rw [zero_mul, sub_zero]; exact fits_one w)
    refine ⟨_, _, _, this, ?_, ?_, dvd_refl _, Or.inl ⟨?_, rfl, rfl, ?_⟩⟩
    · show a.1 * 0 + b.1 * (1 - 0 * _) = b.1; ring
    · exact Int.dvd_of_emod_eq_zero hr
    · exact Int.dvd_of_emod_eq_zero hr
    · show (1 : ℤ) - 0 * _ = 1; ring
  · obtain ⟨g, x, y, he, hbz, hg1, hg2, hbd⟩ :=
      extendedGcd_nonneg w _ b (mk (a.1 % b.1) (fits_emod w b.2 hb0)) hb.le
        (by show 0 < a.1 % b.1; omega) (le_refl _)
    replace hbz : b.1 * x.1 + (a.1 % b.1) * y.1 = g.1 := hbz
    replace hg2 : g.1 ∣ a.1 % b.1 := hg2
    replace hbd : Bounded b.1 (a.1 % b.1) g.1 x.1 y.1 (a.1 % b.1) b.1 := hbd
    have hga : g.1 ∣ a.1 := by rw [← hqr]; exact dvd_add (hg1.mul_right _) hg2
    have hba : ¬ b.1 ∣ a.1 := fun h => hr (Int.emod_eq_zero_of_dvd h)
    have hg0 : 0 < g.1 := by
      rcases hbd with ⟨_, h, _⟩ | ⟨_, h, _⟩ <;> omega
    have hgr : g.1 ≤ a.1 % b.1 := Int.le_of_dvd (by omega) hg2
    have hg2b := two_mul_le_of_dvd hg0 hg1 hb0 (by rw [abs_of_pos hb]; omega)
    rw [abs_of_pos hb] at hg2b
    have hy : 2 * |y.1| ≤ b.1 := by
      rcases hbd with ⟨h1, _, _, h4⟩ | ⟨_, _, _, _, h5⟩
      · rw [h4]
        have := two_mul_le_of_dvd (by omega) h1 hb0 (by rw [abs_of_pos hb]; omega)
        rw [abs_of_pos hb] at this
        simp only [abs_one]
        omega
      · exact h5
    have hbz' : a.1 * y.1 + b.1 * (x.1 - y.1 * (a.1 / b.1)) = g.1 := by
      linear_combination hbz - y.1 * hqr
    have hp : 2 * |y.1 * (a.1 / b.1)| ≤ a.1 % b.1 - a.1 := by
      have hq0 : a.1 / b.1 < 0 := Int.ediv_neg_of_neg_of_pos ha hb
      rw [abs_mul, abs_of_neg hq0]; nlinarith
    have hs : 2 * |x.1 - y.1 * (a.1 / b.1)| ≤ -a.1 + 1 := by
      have := bezout_bound hbz' hg0 hy
      rw [abs_of_pos hb, abs_of_neg ha] at this
      by_contra hc
      nlinarith
    have hp1 := abs_le.1 (le_refl |y.1 * (a.1 / b.1)|)
    have hs1 := abs_le.1 (le_refl |x.1 - y.1 * (a.1 / b.1)|)
    have hf1 : Fits w (y.1 * (a.1 / b.1)) := by rw [fits_iff]; omega
    have hf2 : Fits w (x.1 - y.1 * (a.1 / b.1)) := by rw [fits_iff]; omega
    exact ⟨g, y, _, extendedGcd_step w a b hb0 hbad he hf1 hf2, hbz', hga, hg1, Or.inr
      ⟨hba, hg0, by rw [abs_of_pos hb]; exact hg2b, hy, hs⟩⟩

theorem prod_bound {M t r g q z : ℤ} (hM : 128 ≤ M) (htM : t ≤ M) (hr0 : 0 < r) (hrt : r < t)
    (hg0 : 0 < g) (hg : g ∣ t - r) (hq0 : 0 ≤ q) (hz0 : 0 ≤ z) (hz : 2 * z ≤ t + 1)
    (hz' : 2 * (r * z) ≤ 2 * g + t * r) (hq : t * q ≤ M + r) : z * q < M := by
  rcases (show q = 0 ∨ q = 1 ∨ q = 2 ∨ 3 ≤ q by omega) with rfl | rfl | rfl | hq3
  · simp; omega
  · omega
  · by_contra hc
    have h1 : t = M - 1 := by omega
    have h2 : r = M - 2 := by omega
    subst h1 h2
    have hg' : g = 1 := by
      have h3 : g ∣ 1 := by rwa [show M - 1 - (M - 2) = 1 by ring] at hg
      exact le_antisymm (Int.le_of_dvd one_pos h3) hg0
    rw [hg'] at hz'
    nlinarith
  · by_contra hc
    have h1 : (q - 1) * t ≤ M - 1 := by nlinarith
    have h2 : 2 * (z * q) ≤ (t + 1) * q := by nlinarith
    have h3 : t + q ≤ M := by
      nlinarith [mul_nonneg (show 0 ≤ q - 3 by omega) (show 0 ≤ t - 2 by omega)]
    have h4 : 2 * (z * q) ≤ M + r + q := by linarith
    omega

theorem sum_bound {M t g z : ℤ} (hM : 128 ≤ M) (ht : 2 ≤ t) (hg : 2 * g ≤ t)
    (h : 2 * (t * z) ≤ 2 * g + M * (t + 1)) : z < M := by
  by_contra hc
  nlinarith

/-- Negative divisor. -/
theorem extendedGcd_neg (a b : SInt w) (hb : b.1 < 0) (hbad : ¬ Bad w a b) :
    ∃ g x y, (euclidean w).extendedGcd a b = .ok (g, x, y) ∧
      a.1 * x.1 + b.1 * y.1 = g.1 ∧ g.1 ∣ a.1 ∧ g.1 ∣ b.1 := by
  have hb0 : b.1 ≠ 0 := by omega
  have hr0 := Int.emod_nonneg a.1 hb0
  have hrb := Int.emod_lt_abs a.1 hb0
  rw [abs_of_neg hb] at hrb
  have hqr := Int.mul_ediv_add_emod a.1 b.1
  have hfa := fits_iff.1 a.2
  have hfb := fits_iff.1 b.2
  have hM := pow_ge (w := w)
  by_cases hr : a.1 % b.1 = 0
  · have hz := extendedGcd_zero w b (mk (a.1 % b.1) (fits_emod w b.2 hb0)) hr
    have := extendedGcd_step w a b hb0 hbad hz
      (by show Fits w (0 * _); rw [zero_mul]; exact fits_zero w)
      (by show Fits w (1 - 0 * _); rw [zero_mul, sub_zero]; exact fits_one w)
    refine ⟨_, _, _, this, ?_, ?_, dvd_refl _⟩
    · show a.1 * 0 + b.1 * (1 - 0 * _) = b.1; ring
    · exact Int.dvd_of_emod_eq_zero hr
  · obtain ⟨g, x, y, he, hbz, hg1, hg2, hbd⟩ :=
      extendedGcd_neg_pos w b (mk (a.1 % b.1) (fits_emod w b.2 hb0)) hb
        (by show 0 < a.1 % b.1; omega)
    replace hbz : b.1 * x.1 + (a.1 % b.1) * y.1 = g.1 := hbz
    replace hg2 : g.1 ∣ a.1 % b.1 := hg2
    replace hbd : Bounded b.1 (a.1 % b.1) g.1 x.1 y.1 (a.1 % b.1) (-b.1 + 1) := hbd
    have hga : g.1 ∣ a.1 := by rw [← hqr]; exact dvd_add (hg1.mul_right _) hg2
    have hg0 : 0 < g.1 := by
      rcases hbd with ⟨_, h, _⟩ | ⟨_, h, _⟩ <;> omega
    have hgr : g.1 ≤ a.1 % b.1 := Int.le_of_dvd (by omega) hg2
    have hg2b := two_mul_le_of_dvd hg0 hg1 hb0 (by rw [abs_of_neg hb]; omega)
    rw [abs_of_neg hb] at hg2b
    have hbz' : a.1 * y.1 + b.1 * (x.1 - y.1 * (a.1 / b.1)) = g.1 := by
      linear_combination hbz - y.1 * hqr
    have hx : 2 * |x.1| ≤ a.1 % b.1 := by
      rcases hbd with ⟨_, _, h3, _⟩ | ⟨_, _, _, h4, _⟩
      · rw [h3]; simpa using hr0
      · exact h4
    have hy : 2 * |y.1| ≤ -b.1 + 1 := by
      rcases hbd with ⟨h1, _, _, h4⟩ | ⟨_, _, _, _, h5⟩
      · rw [h4]; simp only [abs_one]; omega
      · exact h5
    -- the sharper bound
    have hy' := bezout_bound hbz hg0 hx
    rw [abs_of_pos (show 0 < a.1 % b.1 by omega), abs_of_neg hb] at hy'
    have hs := bezout_bound hbz' hg0 hy
    rw [abs_of_neg hb] at hs
    have hgdvd : g.1 ∣ -b.1 - a.1 % b.1 := dvd_sub (Int.dvd_neg.2 hg1) hg2
    obtain ⟨hf1, hf2⟩ : Fits w (y.1 * (a.1 / b.1)) ∧ Fits w (x.1 - y.1 * (a.1 / b.1)) := by
      have habs : |a.1| ≤ 2 ^ (w - 1) := abs_le.2 ⟨by omega, by omega⟩
      have key1 : |y.1 * (a.1 / b.1)| < 2 ^ (w - 1) := by
        rw [abs_mul]
        have hq : -b.1 * |a.1 / b.1| ≤ 2 ^ (w - 1) + a.1 % b.1 := by
          rw [← abs_of_neg hb, ← abs_mul, show b.1 * (a.1 / b.1) = a.1 - a.1 % b.1 by omega]
          have := abs_sub a.1 (a.1 % b.1)
          rw [abs_of_nonneg hr0] at this
          omega
        exact prod_bound (by omega) (by omega) (by omega) (by omega) hg0 hgdvd (abs_nonneg _)
          (abs_nonneg _) hy hy' hq
      have key2 : |x.1 - y.1 * (a.1 / b.1)| < 2 ^ (w - 1) := by
        have hs' : 2 * (-b.1 * |x.1 - y.1 * (a.1 / b.1)|) ≤ 2 * g.1 + 2 ^ (w - 1) * (-b.1 + 1) := by
          have := mul_le_mul_of_nonneg_right habs (show 0 ≤ -b.1 + 1 by omega)
          omega
        exact sum_bound (by omega) (by omega) (by omega) hs'
      have h1 := abs_lt.1 key1
      have h2 := abs_lt.1 key2
      exact ⟨by rw [fits_iff]; omega, by rw [fits_iff]; omega⟩
    exact ⟨g, y, _, extendedGcd_step w a b hb0 hbad he hf1 hf2, hbz', hga, hg1⟩

/-- `extended_gcd` returns for all operands except `(MIN, -1)`. -/
theorem extendedGcd_total (a b : SInt w) (hbad : ¬ Bad w a b) :
    ∃ g x y, (euclidean w).extendedGcd a b = .ok (g, x, y) ∧
      a.1 * x.1 + b.1 * y.1 = g.1 ∧ IsGcd a.1 b.1 g.1 := by
  suffices h : ∃ g x y, (euclidean w).extendedGcd a b = .ok (g, x, y) ∧
      a.1 * x.1 + b.1 * y.1 = g.1 ∧ g.1 ∣ a.1 ∧ g.1 ∣ b.1 by
    obtain ⟨g, x, y, h1, h2, h3, h4⟩ := h
    refine ⟨g, x, y, h1, h2, h3, h4, fun d hd1 hd2 => ?_⟩
    rw [← h2]
    exact dvd_add (hd1.mul_right _) (hd2.mul_right _)
  rcases lt_trichotomy b.1 0 with hb | hb | hb
  · exact extendedGcd_neg w a b hb hbad
  · refine ⟨_, _, _, extendedGcd_zero w a b hb, ?_, dvd_refl _, by rw [hb]; exact dvd_zero _⟩
    show a.1 * 1 + b.1 * 0 = a.1
    ring
  · rcases lt_or_ge a.1 0 with ha | ha
    · obtain ⟨g, x, y, h1, h2, h3, h4, _⟩ := extendedGcd_neg_pos w a b ha hb
      exact ⟨g, x, y, h1, h2, h3, h4⟩
    · obtain ⟨g, x, y, h1, h2, h3, h4, _⟩ := extendedGcd_nonneg w _ a b ha hb (le_refl _)
      exact ⟨g, x, y, h1, h2, h3, h4⟩

theorem extendedGcd_bad (a b : SInt w) (h : Bad w a b) :
    (euclidean w).extendedGcd a b = .panic := by
  have hb : b.1 ≠ 0 := by rw [h.2]; decide
  show extendedGcdDefault (euclidean w).isZero (euclidean w).one (euclidean w).zero
    (euclidean w).quoRem (euclidean w).sub (euclidean w).mul a b = _
  rw [extendedGcdDefault]
  show (Res.ok (b.1 == 0) >>= fun z => if z = true then _ else
    ((euclidean w).quoRem a b >>= fun p => _)) = _
  rw [quoRem_bad w a b h]
  simp only [ok_bind, show (b.1 == 0) = false by simpa using hb]
  rfl

/-- The `gcd` and `extended_gcd` methods agree. -/
theorem gcd_total (a b : SInt w) (hbad : ¬ Bad w a b) : ∃ g x y,
    (euclidean w).gcd a b = .ok g ∧ (euclidean w).extendedGcd a b = .ok (g, x, y) := by
  have hb : b.1 = 0 ∨ b.1 ≠ 0 := by omega
  -- induction on the remainder
  induction hn : b.1.natAbs using Nat.strongRecOn generalizing a b with
  | _ n ih =>
    rcases hb with hb | hb
    · exact ⟨_, _, _, gcd_zero w a b hb, extendedGcd_zero w a b hb⟩
    · have hr0 := Int.emod_nonneg a.1 hb
      have hrb := Int.emod_lt_abs a.1 hb
      rw [Int.abs_eq_natAbs] at hrb
      have hbad' : ¬ Bad w b (mk (a.1 % b.1) (fits_emod w b.2 hb)) := fun h => by
        have h2 : a.1 % b.1 = -1 := h.2
        omega
      obtain ⟨g, x, y, h1, h2⟩ := ih (a.1 % b.1).natAbs (by omega) b
        (mk (a.1 % b.1) (fits_emod w b.2 hb)) hbad' (by omega) rfl
      obtain ⟨g', x', y', h3, _, _⟩ := extendedGcd_total w a b hbad
      have h4 : g' = g := by
        have h5 : (euclidean w).extendedGcd a b = ((euclidean w).quoRem a b >>= fun p =>
            (euclidean w).extendedGcd b p.2 >>= fun t =>
              (unitaryRing w).mul t.2.2 p.1 >>= fun m =>
                (unitaryRing w).sub t.2.1 m >>= fun z => pure (t.1, t.2.2, z)) := by
          show extendedGcdDefault (euclidean w).isZero (euclidean w).one (euclidean w).zero
            (euclidean w).quoRem (euclidean w).sub (euclidean w).mul a b = _
          rw [extendedGcdDefault]
          show (Res.ok (b.1 == 0) >>= fun z => if z = true then _ else _) = _
          simp only [ok_bind, show (b.1 == 0) = false by simpa using hb]
          rfl
        rw [h3, quoRem_eq w a b hb hbad] at h5
        simp only [ok_bind, h2] at h5
        cases hm : (unitaryRing w).mul y (mk (a.1 / b.1) (fits_ediv w a.2 hb hbad)) with
        | ok m =>
          rw [hm] at h5
          simp only [ok_bind] at h5
          cases hs : (unitaryRing w).sub x m with
          | ok s =>
            rw [hs] at h5
            simp only [ok_bind, pure_eq_ok, Res.ok.injEq, Prod.mk.injEq] at h5
            exact h5.1
          | panic => rw [hs] at h5; cases h5
          | diverge => rw [hs] at h5; cases h5
        | panic => rw [hm] at h5; cases h5
        | diverge => rw [hm] at h5; cases h5
      subst h4
      exact ⟨g', x', y', (gcd_step w a b hb hbad).trans h1, h3⟩

end Abstalg.CheckedInts
