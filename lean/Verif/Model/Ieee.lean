import Mathlib.Data.Int.Log
import Mathlib.Data.Rat.Floor
import Mathlib.Algebra.Order.Field.Power
import Mathlib.Tactic.Linarith
import Mathlib.Tactic.Positivity
import Mathlib.Tactic.Ring
import Mathlib.Tactic.FieldSimp
import Mathlib.Tactic.NormNum.Pow
import Mathlib.Tactic.NormNum.Parity

/-! # IEEE 754 binary floating point types

The primitive types `f32` and `f64` (and any other type behind `num::Float`) are modelled by
an IEEE 754 binary format: a NaN, two infinities and the finite numbers `± m * 2 ^ e` with a
signed zero.  Arithmetic computes the exact rational result and rounds it to
nearest, ties to even, as Rust specifies.  The payload and sign of NaN are not modelled; no method
of the crate can observe them. -/

set_option autoImplicit false

namespace Abstalg

/-- Parameters of a binary format: the precision, and the exponents of the unit in the last place
of the smallest and of the largest finite numbers. -/
structure FloatFormat where
  prec : ℕ
  emin : ℤ
  emax : ℤ
  prec_pos : 0 < prec
  emin_nonpos : emin ≤ 0
  emax_nonneg : 0 ≤ emax

namespace FloatFormat

/-- `f32` -/
def f32 : FloatFormat := ⟨24, -149, 104, by decide, by decide, by decide⟩

/-- `f64` -/
def f64 : FloatFormat := ⟨53, -1074, 971, by decide, by decide, by decide⟩

variable (F : FloatFormat)

/-- The magnitudes of the finite numbers of the format. -/
def Mag (q : ℚ) : Prop :=
  ∃ (m : ℕ) (e : ℤ), m < 2 ^ F.prec ∧ F.emin ≤ e ∧ e ≤ F.emax ∧ q = m * 2 ^ e

/-- A value of the primitive type. -/
inductive Val where
  | nan
  | inf (neg : Bool)
  | fin (neg : Bool) (mag : ℚ) (h : F.Mag mag)

/-- The largest finite number. -/
def maxFin : ℚ := (2 ^ F.prec - 1) * 2 ^ F.emax

/-- Round a nonnegative number to an integer: to nearest, ties to even. -/
def roundEven (x : ℚ) : ℕ :=
  let f := ⌊x⌋₊
  if x - f < 1 / 2 then f
  else if 1 / 2 < x - f then f + 1
  else if f % 2 = 0 then f else f + 1

/-- The exponent of the unit in the last place for a positive number. -/
def ulpExp (q : ℚ) : ℤ := max F.emin (Int.log 2 q - F.prec + 1)

theorem roundEven_bounds {x : ℚ} (hx : 0 ≤ x) :
    (roundEven x : ℚ) ≤ x + 1 / 2 ∧ x - 1 / 2 ≤ roundEven x := by
  have h1 := Nat.floor_le hx
  have h2 := Nat.lt_floor_add_one x
  unfold roundEven
  simp only
  split_ifs <;> push_cast <;> constructor <;> linarith

theorem roundEven_le {x : ℚ} (hx : 0 ≤ x) {k : ℕ} (h : x < k) : roundEven x ≤ k := by
  have h1 : ((roundEven x : ℕ) : ℚ) < ((k + 1 : ℕ) : ℚ) := by
    have := (roundEven_bounds hx).1
    push_cast
    linarith
  have := Nat.cast_lt.1 h1
  omega

theorem le_roundEven {x : ℚ} (hx : 0 ≤ x) {k : ℕ} (h : (k : ℚ) ≤ x) : k ≤ roundEven x := by
  have h1 : (k : ℚ) < ((roundEven x + 1 : ℕ) : ℚ) := by
    have := (roundEven_bounds hx).2
    push_cast
    linarith
  have := Nat.cast_lt.1 h1
  omega

theorem lt_ulp {q : ℚ} : q / 2 ^ F.ulpExp q < 2 ^ F.prec := by
  rw [div_lt_iff₀ (by positivity)]
  refine (Int.lt_zpow_succ_log_self (b := 2) (by decide) q).trans_le ?_
  rw [Nat.cast_ofNat, ← zpow_natCast, ← zpow_add₀ (by norm_num)]
  refine zpow_le_zpow_right₀ (by norm_num) ?_
  have : Int.log 2 q - F.prec + 1 ≤ F.ulpExp q := le_max_right _ _
  omega

theorem ulp_le {q : ℚ} (hq : 0 < q) (h : F.emin < F.ulpExp q) :
    2 ^ (F.prec - 1) ≤ q / 2 ^ F.ulpExp q := by
  have : F.ulpExp q = Int.log 2 q - F.prec + 1 := by
    unfold ulpExp at *
    omega
  rw [le_div_iff₀ (by positivity), ← zpow_natCast, ← zpow_add₀ (by norm_num), this]
  have hp := F.prec_pos
  rw [show ((F.prec - 1 : ℕ) : ℤ) + (Int.log 2 q - F.prec + 1) = Int.log 2 q by omega]
  exact_mod_cast Int.zpow_log_le_self (b := 2) (by decide) hq

theorem pow_prec : (2 : ℚ) ^ F.prec = 2 * 2 ^ (F.prec - 1) := by
  obtain ⟨k, hk⟩ : ∃ k, F.prec = k + 1 := ⟨F.prec - 1, by have := F.prec_pos; omega⟩
  rw [hk, pow_succ, Nat.add_sub_cancel]
  ring

/-- `2 ^ prec * 2 ^ e` with `emax ≤ e` exceeds the largest finite number. -/
theorem maxFin_lt {e : ℤ} (h : F.emax ≤ e) : F.maxFin < 2 ^ F.prec * 2 ^ e := by
  have h1 : (2 : ℚ) ^ F.emax ≤ 2 ^ e := zpow_le_zpow_right₀ (by norm_num) h
  have h2 : (0 : ℚ) < 2 ^ F.emax := by positivity
  have h3 : (2 : ℚ) ^ F.prec * 2 ^ F.emax ≤ 2 ^ F.prec * 2 ^ e :=
    mul_le_mul_of_nonneg_left h1 (by positivity)
  unfold maxFin
  linarith

theorem mag_zero : F.Mag 0 :=
  ⟨0, 0, by positivity, F.emin_nonpos, F.emax_nonneg, by simp⟩

theorem mag_one : F.Mag 1 := by
  refine ⟨1, 0, ?_, F.emin_nonpos, F.emax_nonneg, by simp⟩
  exact Nat.one_lt_two_pow (by have := F.prec_pos; omega)

theorem roundEven_zero : roundEven 0 = 0 := by
  unfold roundEven
  simp

/-- The result of rounding belongs to the format unless it exceeds the largest finite number. -/
theorem mag_round {q : ℚ} (hq : 0 ≤ q)
    (h : (roundEven (q / 2 ^ F.ulpExp q) : ℚ) * 2 ^ F.ulpExp q ≤ F.maxFin) :
    F.Mag (roundEven (q / 2 ^ F.ulpExp q) * 2 ^ F.ulpExp q) := by
  have hp := F.prec_pos
  have h0 : F.emin ≤ F.ulpExp q := le_max_left _ _
  rcases hq.eq_or_lt with rfl | hq
  · rw [zero_div, roundEven_zero, Nat.cast_zero, zero_mul]
    exact F.mag_zero
  have hx : 0 ≤ q / 2 ^ F.ulpExp q := by positivity
  have h1 : roundEven (q / 2 ^ F.ulpExp q) ≤ 2 ^ F.prec :=
    roundEven_le hx (by push_cast; exact F.lt_ulp)
  have h2 : F.emin < F.ulpExp q → 2 ^ (F.prec - 1) ≤ roundEven (q / 2 ^ F.ulpExp q) :=
    fun h => le_roundEven hx (by push_cast; exact F.ulp_le hq h)
  have h3 : F.ulpExp q ≤ F.emax := by
    by_contra h4
    have h5 := h2 (by have := F.emin_nonpos; have := F.emax_nonneg; omega)
    have h6 : (2 : ℚ) ^ (F.prec - 1) ≤ roundEven (q / 2 ^ F.ulpExp q) := by exact_mod_cast h5
    have h7 := F.maxFin_lt (e := F.ulpExp q - 1) (by omega)
    have h8 : (2 : ℚ) ^ F.prec * 2 ^ (F.ulpExp q - 1) = 2 ^ (F.prec - 1) * 2 ^ F.ulpExp q := by
      rw [zpow_sub_one₀ (by norm_num), pow_prec]
      ring
    have h9 : (2 : ℚ) ^ (F.prec - 1) * 2 ^ F.ulpExp q ≤
      roundEven (q / 2 ^ F.ulpExp q) * 2 ^ F.ulpExp q :=
      mul_le_mul_of_nonneg_right h6 (by positivity)
    linarith
  rcases h1.lt_or_eq with h1 | h1
  · exact ⟨_, _, h1, h0, h3, rfl⟩
  · have h4 : F.ulpExp q < F.emax := by
      refine h3.lt_of_ne fun h4 => ?_
      rw [h1] at h
      push_cast at h
      exact absurd h (not_le.2 (F.maxFin_lt h4.ge))
    refine ⟨2 ^ (F.prec - 1), F.ulpExp q + 1, Nat.pow_lt_pow_right (by decide) (by omega), by omega,
      by omega, ?_⟩
    rw [h1, zpow_add_one₀ (by norm_num)]
    push_cast
    rw [pow_prec]
    ring

/-- Round the exact result `± q`, `0 ≤ q`, to nearest, ties to even; results beyond the largest
finite number become infinite. -/
def roundMag (neg : Bool) (q : ℚ) (hq : 0 ≤ q) : F.Val :=
  if h : (roundEven (q / 2 ^ F.ulpExp q) : ℚ) * 2 ^ F.ulpExp q ≤ F.maxFin then
    .fin neg _ (F.mag_round hq h)
  else .inf neg

/-- Round the exact result `x`; `negZero` is the sign if it is zero. -/
def round (negZero : Bool) (x : ℚ) : F.Val :=
  F.roundMag (if x = 0 then negZero else decide (x < 0)) |x| (abs_nonneg x)

namespace Val

variable {F : FloatFormat}

/-- The signed value of a finite number. -/
def signed (neg : Bool) (mag : ℚ) : ℚ := if neg then -mag else mag

/-- `is_finite` -/
def isFinite : F.Val → Bool
  | fin .. => true
  | _ => false

/-- `is_nan` -/
def isNan : F.Val → Bool
  | nan => true
  | _ => false

/-- `==` -/
def eq : F.Val → F.Val → Bool
  | inf s, inf t => s == t
  | fin s p _, fin t q _ => decide (signed s p = signed t q)
  | _, _ => false

/-- `<=` -/
def le : F.Val → F.Val → Bool
  | nan, _ => false
  | _, nan => false
  | inf true, _ => true
  | _, inf false => true
  | fin s p _, fin t q _ => decide (signed s p ≤ signed t q)
  | _, _ => false

/-- Unary `-` -/
protected def neg : F.Val → F.Val
  | nan => nan
  | inf s => inf !s
  | fin s p h => fin (!s) p h

/-- `+`; a sum that is exactly zero is `-0` only if both operands are `-0`. -/
protected def add : F.Val → F.Val → F.Val
  | inf s, inf t => if s = t then inf s else nan
  | inf s, fin .. => inf s
  | fin .., inf t => inf t
  | fin s p _, fin t q _ => F.round (s && t) (signed s p + signed t q)
  | _, _ => nan

/-- `-` -/
protected def sub (a b : F.Val) : F.Val := a.add b.neg

/-- `*` -/
protected def mul : F.Val → F.Val → F.Val
  | inf s, inf t => inf (s ^^ t)
  | inf s, fin t q _ => if q = 0 then nan else inf (s ^^ t)
  | fin s p _, inf t => if p = 0 then nan else inf (s ^^ t)
  | fin s p _, fin t q _ => F.round (s ^^ t) (signed s p * signed t q)
  | _, _ => nan

/-- `/` -/
protected def div : F.Val → F.Val → F.Val
  | inf _, inf _ => nan
  | inf s, fin t _ _ => inf (s ^^ t)
  | fin s _ _, inf t => fin (s ^^ t) 0 F.mag_zero
  | fin s p _, fin t q _ =>
    if q = 0 then (if p = 0 then nan else inf (s ^^ t))
    else F.round (s ^^ t) (signed s p / signed t q)
  | _, _ => nan

/-- `f64::min`: a NaN operand is ignored.  Which of two equal operands (`-0` and `0`) is returned is
not specified by Rust: `pick` chooses. -/
protected def min (pick : F.Val → F.Val → Bool) (a b : F.Val) : F.Val :=
  if a.isNan then b
  else if b.isNan then a
  else if a.eq b then (if pick a b then a else b)
  else if a.le b then a else b

/-- `f64::max` -/
protected def max (pick : F.Val → F.Val → Bool) (a b : F.Val) : F.Val :=
  if a.isNan then b
  else if b.isNan then a
  else if a.eq b then (if pick a b then a else b)
  else if a.le b then b else a

/-- `n as f64` for an integer `n`: rounded to nearest, ties to even. -/
def ofInt (n : ℤ) : F.Val := F.round false n

/-- `Zero::zero()` -/
def zero : F.Val := fin false 0 F.mag_zero

/-- `One::one()` -/
def one : F.Val := fin false 1 F.mag_one

end Val

end FloatFormat
end Abstalg
