import Verif.Model.Ieee
import Verif.Model.Res
import Mathlib.Algebra.Order.Group.Abs
import Mathlib.Order.WithBot

/-! # Specification of floating point operations

The numbers of a format, correct rounding to nearest with ties to even and overflow, stated without
an algorithm. -/

set_option autoImplicit false

namespace Abstalg

open FloatFormat

variable (F : FloatFormat)

/-- `a` is finite and its value is `x`. -/
def FloatRep {F : FloatFormat} (a : F.Val) (x : ℚ) : Prop :=
  ∃ s p h, a = .fin s p h ∧ x = if s then -p else p

/-- `y` is a number of the format. -/
def IsFloat (y : ℚ) : Prop :=
  ∃ (m : ℕ) (e : ℤ), m < 2 ^ F.prec ∧ F.emin ≤ e ∧ e ≤ F.emax ∧ |y| = m * 2 ^ e

/-- `y` is the number of the format nearest to `x`; if another number `z` is as near then `y` is an
even multiple of their distance. -/
structure RoundsTo (x y : ℚ) : Prop where
  isFloat : IsFloat F y
  nearest : ∀ z, IsFloat F z → |y - x| ≤ |z - x|
  ties : ∀ z, IsFloat F z → z ≠ y → |z - x| = |y - x| → ∃ k : ℤ, y = 2 * k * |y - z|

/-- `x` is nearer to the power of two after the largest number than to the latter, or
halfway. -/
def Overflows (x : ℚ) : Prop := (2 ^ F.prec - 1 / 2) * 2 ^ F.emax ≤ |x|

/-- The computation returns the correctly rounded value of `x`; it panics if that overflows. -/
def Rounded {F : FloatFormat} (c : Res F.Val) (x : ℚ) : Prop :=
  (Overflows F x → c = .panic) ∧
    (¬ Overflows F x → ∃ a y, c = .ok a ∧ FloatRep a y ∧ RoundsTo F x y)

/-- The number `2 ^ -prec`. -/
def unitRoundoff : ℚ := 1 / 2 ^ F.prec

/-- How far `k` rounded products and their sums can be from the exact sum of products: the absolute
values of the products add up to `A`, and each product has an absolute error of at most `η`
besides the relative one. -/
def dotBound (k : ℕ) (A η : ℚ) : ℚ :=
  ((1 + unitRoundoff F) ^ k - 1) * A + k * (1 + unitRoundoff F) ^ (k - 1) * η

/-- The product is zero or at least the least normal number, and the format has normal numbers. -/
def NormalProduct (x y : ℚ) : Prop :=
  x * y = 0 ∨ (2 ^ (F.emin + F.prec - 1) ≤ |x * y| ∧ F.emin + F.prec - 1 ≤ F.emax)

/-- What the errors of a rounded result are: a relative one, and an absolute one which the normal range
does not have. -/
def ErrorBounds (x y : ℚ) : Prop :=
  |y - x| ≤ unitRoundoff F * |x| + 2 ^ F.emin / 2 ∧
  (2 ^ (F.emin + F.prec - 1) ≤ |x| → F.emin + F.prec - 1 ≤ F.emax →
    |y - x| ≤ unitRoundoff F * |x| ∧ |y - x| ≤ unitRoundoff F * |y|) ∧
  (y = 0 ↔ |x| ≤ 2 ^ F.emin / 2) ∧ (0 ≤ x → 0 ≤ y) ∧ (x ≤ 0 → y ≤ 0)

/-- `a` is NaN or one of the infinities. -/
def NonFinite {F : FloatFormat} (a : F.Val) : Prop := a = .nan ∨ ∃ s, a = .inf s

/-- `a` is not NaN and its value is `x`, an infinite value being the least or the largest one. -/
inductive ExtRep {F : FloatFormat} : F.Val → WithBot (WithTop ℚ) → Prop
  | fin {a : F.Val} {x : ℚ} (h : FloatRep a x) : ExtRep a ((x : WithTop ℚ) : WithBot (WithTop ℚ))
  | top : ExtRep (.inf false) ((⊤ : WithTop ℚ) : WithBot (WithTop ℚ))
  | bot : ExtRep (.inf true) ⊥

end Abstalg
