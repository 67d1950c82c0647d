import Verif.Proofs.FloatExact
import Mathlib.Tactic.Positivity
import Mathlib.Tactic.FieldSimp

/-! # Floats near one -/

set_option autoImplicit false

namespace Abstalg

open FloatFormat

variable {F : FloatFormat}

theorem FixedPoint.gap {e : ℤ} {x y : ℚ} (hx : FixedPoint e x) (hy : FixedPoint e y) (h : x < y) :
    x + 2 ^ e ≤ y := by
  obtain ⟨k, rfl⟩ := hx
  obtain ⟨l, rfl⟩ := hy
  have h0 : (0 : ℚ) < 2 ^ e := by positivity
  have h1 : (k : ℚ) < l := lt_of_mul_lt_mul_right h h0.le
  have h2 : (k : ℚ) + 1 ≤ l := by exact_mod_cast h1
  nlinarith

theorem fixedPoint_one {e : ℤ} (he : e ≤ 0) : FixedPoint e 1 :=
  FixedPoint.mono ⟨1, by simp⟩ he

theorem two_zpow_neg_prec : (2 : ℚ) ^ F.prec * 2 ^ (-(F.prec : ℤ)) = 1 := by
  rw [zpow_neg, zpow_natCast]
  exact mul_inv_cancel₀ (by positivity)

theorem two_zpow_one_sub_prec : (2 : ℚ) ^ (1 - (F.prec : ℤ)) = 2 * 2 ^ (-(F.prec : ℤ)) := by
  rw [sub_eq_add_neg, zpow_add₀ (by norm_num), zpow_one]

/-- The number of the format after one. -/
theorem IsFloat.gap_above {x : ℚ} (h : IsFloat F x) (hx : 1 < x) : 1 + 2 * 2 ^ (-(F.prec : ℤ)) ≤ x := by
  have hp := F.prec_pos
  have h1 := two_zpow_neg_prec (F := F)
  rw [← two_zpow_one_sub_prec]
  obtain ⟨e, -, -, h2, h3⟩ := h.fixed
  refine (fixedPoint_one (by omega)).gap (h2.mono (le_of_not_gt fun he => ?_)) hx
  rw [abs_of_pos (by linarith)] at h3
  have : (2 : ℚ) ^ F.prec * 2 ^ e ≤ 2 ^ F.prec * 2 ^ (-(F.prec : ℤ)) :=
    mul_le_mul_of_nonneg_left (zpow_le_zpow_right₀ (by norm_num) (by omega)) (by positivity)
  linarith

/-- The number of the format before one. -/
theorem IsFloat.gap_below {x : ℚ} (h : IsFloat F x) (hx : x < 1) : x + 2 ^ (-(F.prec : ℤ)) ≤ 1 := by
  have hp := F.prec_pos
  obtain ⟨e, -, -, h2, h3⟩ := h.fixed
  by_cases he : -(F.prec : ℤ) ≤ e
  · exact (h2.mono he).gap (fixedPoint_one (by omega)) hx
  · have h1 := two_zpow_neg_prec (F := F)
    have h4 : (2 : ℚ) ^ F.prec * 2 ^ e ≤ 2 ^ F.prec * 2 ^ (-(F.prec : ℤ) - 1) :=
      mul_le_mul_of_nonneg_left (zpow_le_zpow_right₀ (by norm_num) (by omega)) (by positivity)
    rw [zpow_sub₀ (by norm_num), zpow_one, ← mul_div_assoc, h1] at h4
    have h5 : (2 : ℚ) ≤ 2 ^ F.prec := by
      rw [F.pow_prec]
      have : (1 : ℚ) ≤ 2 ^ (F.prec - 1) := one_le_pow₀ (by norm_num)
      linarith
    have h6 : (0 : ℚ) < 2 ^ (-(F.prec : ℤ)) := by positivity
    have h7 := le_abs_self x
    nlinarith

/-- Only the inverse of one is rounded to one. -/
theorem RoundsTo.inv_one {x : ℚ} (hx : IsFloat F x) (h : RoundsTo F x⁻¹ 1) (hF : F.emin + F.prec ≤ 0)
    (hp : 2 ≤ F.prec) : x = 1 := by
  have h0 : (0 : ℚ) < 2 ^ (-(F.prec : ℤ)) := by positivity
  have h1 := two_zpow_neg_prec (F := F)
  have h2 : (4 : ℚ) ≤ 2 ^ F.prec := by
    calc (4 : ℚ) = 2 ^ 2 := by norm_num
      _ ≤ 2 ^ F.prec := pow_le_pow_right₀ (by norm_num) hp
  have h3 : (2 : ℚ) ^ (-(F.prec : ℤ)) ≤ 1 / 4 := by nlinarith
  have hm := F.emax_nonneg
  set ε : ℚ := 2 ^ (-(F.prec : ℤ)) with hε
  have hpos : 0 < x := by
    by_contra hneg
    have := h.mono (roundsTo_self isFloat_zero) (inv_nonpos.2 (not_lt.1 hneg))
    norm_num at this
  have hxi : x * x⁻¹ = 1 := mul_inv_cancel₀ hpos.ne'
  have hi : 0 < x⁻¹ := inv_pos.2 hpos
  rcases lt_trichotomy x 1 with hlt | heq | hgt
  · exfalso
    have h4 := hx.gap_below hlt
    have hz : IsFloat F (1 + 2 * ε) := by
      refine FixedPoint.isFloat (e := 1 - F.prec)
        ((fixedPoint_one (by omega)).add ⟨1, by rw [two_zpow_one_sub_prec]; simp [hε]⟩) (by omega) (by omega) ?_
      rw [two_zpow_one_sub_prec, abs_of_pos (by linarith)]
      linarith
    have h5 : 1 + ε < x⁻¹ := by
      by_contra hle
      nlinarith
    by_cases h6 : 1 + 2 * ε ≤ x⁻¹
    · have := (roundsTo_self hz).mono h h6
      linarith
    · have := h.nearest _ hz
      rw [abs_of_nonpos (by linarith), abs_of_nonneg (by linarith)] at this
      linarith
  · exact heq
  · exfalso
    have h4 := hx.gap_above hgt
    have hz : IsFloat F (1 - ε) := by
      refine FixedPoint.isFloat (e := -F.prec)
        ((fixedPoint_one (by omega)).sub ⟨1, by simp [hε]⟩) (by omega) (by omega) ?_
      rw [abs_of_pos (by linarith), h1]
      linarith
    have h5 : x⁻¹ < 1 - ε / 2 := by
      by_contra hle
      nlinarith
    by_cases h6 : x⁻¹ ≤ 1 - ε
    · have := h.mono (roundsTo_self hz) h6
      linarith
    · have := h.nearest _ hz
      rw [abs_of_nonneg (by linarith), abs_of_nonpos (by linarith)] at this
      linarith

/-- A number times its rounded inverse does not overflow. -/
theorem RoundsTo.mul_inv_not_overflows {x z : ℚ} (h : RoundsTo F x⁻¹ z) (hp : 2 ≤ F.prec) : ¬ Overflows F (x * z) := by
  have h1 := h.nearest 0 isFloat_zero
  have h2 : |z| ≤ 2 * |x⁻¹| := by
    have := abs_sub_abs_le_abs_sub z x⁻¹
    rw [zero_sub, abs_neg] at h1
    linarith
  have h3 : |x * z| ≤ 2 := by
    rw [abs_mul]
    by_cases hx : x = 0
    · rw [hx, abs_zero, zero_mul]
      norm_num
    · have h4 : |x| * |x⁻¹| = 1 := by rw [← abs_mul, mul_inv_cancel₀ hx, abs_one]
      have := mul_le_mul_of_nonneg_left h2 (abs_nonneg x)
      linarith
  have h4 : (4 : ℚ) ≤ 2 ^ F.prec := by
    calc (4 : ℚ) = 2 ^ 2 := by norm_num
      _ ≤ 2 ^ F.prec := pow_le_pow_right₀ (by norm_num) hp
  have h5 : (1 : ℚ) ≤ 2 ^ F.emax := one_le_zpow₀ (by norm_num) F.emax_nonneg
  rw [Overflows, not_le]
  nlinarith

end Abstalg
