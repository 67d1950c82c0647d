import Verif.Proofs.Floats
import Mathlib.Algebra.Order.BigOperators.Group.Finset
import Mathlib.Algebra.BigOperators.Fin
import Mathlib.Data.Rat.Cast.Order

/-! # Rounding errors -/

set_option linter.unusedSectionVars false

set_option autoImplicit false

namespace Abstalg

open FloatFormat

namespace FloatFormat

variable (F : FloatFormat)

theorem rnd_error {q : ℚ} (hq : 0 ≤ q) : |F.rnd q - q| ≤ 2 ^ F.ulpExp q / 2 := by
  have hu : (0 : ℚ) < 2 ^ F.ulpExp q := by positivity
  have hx : 0 ≤ q / 2 ^ F.ulpExp q := by positivity
  obtain ⟨h1, h2⟩ := roundEven_bounds hx
  have h3 : q = q / 2 ^ F.ulpExp q * 2 ^ F.ulpExp q := (div_mul_cancel₀ _ hu.ne').symm
  unfold rnd
  nth_rw 4 [h3]
  rw [← sub_mul, abs_mul, abs_of_pos hu, div_eq_mul_one_div (2 ^ F.ulpExp q), mul_comm _ (1 / 2 : ℚ)]
  exact mul_le_mul_of_nonneg_right (abs_le.2 ⟨by linarith, by linarith⟩) hu.le

/-- Half a unit in the last place is small relative to the number and to its rounding. -/
theorem half_ulp {q : ℚ} (hq : 0 < q) (h : F.emin < F.ulpExp q) :
    2 ^ F.ulpExp q / 2 ≤ q / 2 ^ F.prec ∧ 2 ^ F.ulpExp q / 2 ≤ F.rnd q / 2 ^ F.prec := by
  have hu : (0 : ℚ) < 2 ^ F.ulpExp q := by positivity
  have h1 := F.ulp_le hq h
  have h2 : (2 : ℚ) ^ (F.prec - 1) ≤ roundEven (q / 2 ^ F.ulpExp q) := by
    have := le_roundEven (x := q / 2 ^ F.ulpExp q) (by positivity) (k := 2 ^ (F.prec - 1))
      (by push_cast; exact h1)
    exact_mod_cast this
  rw [le_div_iff₀ hu] at h1
  have h3 : (2 : ℚ) ^ (F.prec - 1) * 2 ^ F.ulpExp q ≤ F.rnd q := mul_le_mul_of_nonneg_right h2 hu.le
  have h4 : ∀ z : ℚ, 2 ^ (F.prec - 1) * 2 ^ F.ulpExp q ≤ z → 2 ^ F.ulpExp q / 2 ≤ z / 2 ^ F.prec := by
    intro z hz
    rw [F.pow_prec, le_div_iff₀ (by positivity)]
    calc (2 : ℚ) ^ F.ulpExp q / 2 * (2 * 2 ^ (F.prec - 1)) = 2 ^ (F.prec - 1) * 2 ^ F.ulpExp q := by
          ring
      _ ≤ z := hz
  exact ⟨h4 _ h1, h4 _ h3⟩

end FloatFormat

variable {F : FloatFormat}

/-- A number that does not overflow and is not zero rounds to `± rnd |x|`. -/
theorem RoundsTo.eq_rnd {x y : ℚ} (h : RoundsTo F x y) (ho : ¬ Overflows F x) (hx : 0 < x) :
    y = F.rnd x := by
  refine h.unique (F.rnd_spec hx (not_lt.1 fun h' => ho ?_))
  rw [Overflows, abs_of_pos hx]
  exact (F.rnd_overflow hx).1 h'

theorem RoundsTo.of_abs {x y : ℚ} (h : RoundsTo F x y) :
    RoundsTo F |x| |y| ∧ |(|y| - |x|)| = |y - x| := by
  rcases le_total 0 x with hx | hx
  · have hy : 0 ≤ y := (roundsTo_self isFloat_zero).mono h hx
    rw [abs_of_nonneg hx, abs_of_nonneg hy]
    exact ⟨h, rfl⟩
  · have hy : y ≤ 0 := h.mono (roundsTo_self isFloat_zero) hx
    rw [abs_of_nonpos hx, abs_of_nonpos hy]
    refine ⟨h.neg, ?_⟩
    rw [show -y - -x = -(y - x) by ring, abs_neg]

/-- The error is at most half a unit in the last place, whether that is measured by the exact or
by the rounded value. -/
theorem RoundsTo.error {x y : ℚ} (h : RoundsTo F x y) (ho : ¬ Overflows F x) :
    |y - x| ≤ 2 ^ F.emin / 2 ∧ F.ulpExp |x| = F.emin ∨
      |y - x| ≤ |x| / 2 ^ F.prec ∧ |y - x| ≤ |y| / 2 ^ F.prec := by
  obtain ⟨h1, h2⟩ := h.of_abs
  rcases (abs_nonneg x).eq_or_lt with h0 | h0
  · right
    have hx : x = 0 := abs_eq_zero.1 h0.symm
    subst hx
    obtain rfl := h.unique (roundsTo_self isFloat_zero)
    simp
  · have h3 := h1.eq_rnd (by rwa [Overflows, abs_abs]) h0
    have h4 := F.rnd_error h0.le
    rw [← h3, h2] at h4
    have h5 : F.emin ≤ F.ulpExp |x| := le_max_left _ _
    rcases h5.eq_or_lt with h5 | h5
    · left
      rw [← h5] at h4
      exact ⟨h4, h5.symm⟩
    · right
      have h6 := F.half_ulp h0 h5
      rw [← h3] at h6
      exact ⟨h4.trans h6.1, h4.trans h6.2⟩

/-- Beyond the least normal number the error is relative. -/
theorem RoundsTo.relative {x y : ℚ} (h : RoundsTo F x y) (ho : ¬ Overflows F x)
    (hx : 2 ^ (F.emin + F.prec - 1) ≤ |x|) (he : F.emin + F.prec - 1 ≤ F.emax) :
    |y - x| ≤ |x| / 2 ^ F.prec ∧ |y - x| ≤ |y| / 2 ^ F.prec := by
  rcases h.error ho with ⟨h1, -⟩ | h1
  · have h2 : IsFloat F (2 ^ (F.emin + F.prec - 1)) := by
      refine ⟨1, _, Nat.one_lt_two_pow (by have := F.prec_pos; omega), ?_, he, ?_⟩
      · have := F.prec_pos; omega
      · rw [abs_of_pos (by positivity), Nat.cast_one, one_mul]
    have h3 := (roundsTo_self h2).mono h.of_abs.1 hx
    have h4 : ∀ z : ℚ, 2 ^ (F.emin + F.prec - 1) ≤ z → 2 ^ F.emin / 2 ≤ z / 2 ^ F.prec := by
      intro z hz
      rw [le_div_iff₀ (by positivity)]
      refine le_trans (le_of_eq ?_) hz
      rw [zpow_sub_one₀ (by norm_num), zpow_add₀ (by norm_num), zpow_natCast]
      ring
    exact ⟨h1.trans (h4 _ hx), h1.trans (h4 _ h3)⟩
  · exact h1

/-- A multiple of a unit that is small enough is a number of the format. -/
theorem isFloat_of_multiple {x : ℚ} {k e : ℤ} (hk : |k| < 2 ^ F.prec) (he : F.emin ≤ e)
    (he' : e ≤ F.emax) (hx : x = k * 2 ^ e) : IsFloat F x := by
  refine ⟨k.natAbs, e, ?_, he, he', ?_⟩
  · rw [Int.abs_eq_natAbs] at hk
    exact_mod_cast hk
  · rw [hx, abs_mul, abs_of_pos (show (0 : ℚ) < 2 ^ e by positivity)]
    congr 1
    rw [Nat.cast_natAbs, Int.cast_abs]

theorem multiple_of_le {x : ℚ} {e g : ℤ} {k : ℤ} (hg : g ≤ e) (hx : x = k * 2 ^ e) :
    ∃ l : ℤ, x = l * 2 ^ g := by
  obtain ⟨n, hn⟩ := Int.eq_ofNat_of_zero_le (sub_nonneg.2 hg)
  refine ⟨k * 2 ^ n, ?_⟩
  have h4 : (2 : ℚ) ^ e = 2 ^ n * 2 ^ g := by
    rw [← zpow_natCast, ← zpow_add₀ (by norm_num)]
    congr 1
    omega
  rw [hx, h4]
  push_cast
  ring

theorem IsFloat.multiple {x : ℚ} (h : IsFloat F x) : ∃ k e : ℤ, |k| < 2 ^ F.prec ∧ F.emin ≤ e ∧
    e ≤ F.emax ∧ x = k * 2 ^ e := by
  obtain ⟨m, e, h1, h2, h3, h4⟩ := h
  rcases abs_choice x with h5 | h5
  · exact ⟨m, e, by rw [Nat.abs_cast]; exact_mod_cast h1, h2, h3, by rw [← h5, h4]; norm_cast⟩
  · refine ⟨-m, e, by rw [abs_neg, Nat.abs_cast]; exact_mod_cast h1, h2, h3, ?_⟩
    rw [← neg_neg x, ← h5, h4]
    push_cast
    ring

/-- Two numbers of the format are multiples of a common unit, and one of them bounds what is
representable with this unit. -/
theorem common_unit {x y : ℚ} (hx : IsFloat F x) (hy : IsFloat F y) :
    ∃ (g k l : ℤ), F.emin ≤ g ∧ g ≤ F.emax ∧ x = k * 2 ^ g ∧ y = l * 2 ^ g ∧
      (|k| < 2 ^ F.prec ∨ |l| < 2 ^ F.prec) := by
  obtain ⟨k, e, h1, h2, h3, h4⟩ := hx.multiple
  obtain ⟨l, f, h5, h6, h7, h8⟩ := hy.multiple
  rcases le_total e f with h | h
  · obtain ⟨l', h9⟩ := multiple_of_le h h8
    exact ⟨e, k, l', h2, h3, h4, h9, .inl h1⟩
  · obtain ⟨k', h9⟩ := multiple_of_le h h4
    exact ⟨f, k', l, h6, h7, h9, h8, .inr h5⟩

/-- A multiple of the common unit that is not larger than either number is a number of the
format. -/
theorem isFloat_of_small {x y z : ℚ} {g k l j : ℤ} (hg : F.emin ≤ g) (hg' : g ≤ F.emax)
    (hx : x = k * 2 ^ g) (hy : y = l * 2 ^ g) (hz : z = j * 2 ^ g)
    (h : |k| < 2 ^ F.prec ∨ |l| < 2 ^ F.prec) (h1 : |z| ≤ |x|) (h2 : |z| ≤ |y|) : IsFloat F z := by
  have hu : (0 : ℚ) < 2 ^ g := by positivity
  refine isFloat_of_multiple (k := j) ?_ hg hg' hz
  rw [hx, hz, abs_mul, abs_mul, mul_le_mul_iff_left₀ (by positivity)] at h1
  rw [hy, hz, abs_mul, abs_mul, mul_le_mul_iff_left₀ (by positivity)] at h2
  have h1' : |j| ≤ |k| := by exact_mod_cast h1
  have h2' : |j| ≤ |l| := by exact_mod_cast h2
  omega

theorem sterbenz {x y : ℚ} (hx : IsFloat F x) (hy : IsFloat F y) (h1 : y ≤ 2 * x) (h2 : x ≤ 2 * y) :
    IsFloat F (x - y) := by
  obtain ⟨g, k, l, hg, hg', hk, hl, h⟩ := common_unit hx hy
  refine isFloat_of_small hg hg' hk hl (j := k - l) (by rw [hk, hl]; push_cast; ring) h ?_ ?_
  · rw [abs_of_nonneg (show 0 ≤ x by linarith), abs_le]; constructor <;> linarith
  · rw [abs_of_nonneg (show 0 ≤ y by linarith), abs_le]; constructor <;> linarith

/-- A sum with a small unit in the last place is exact. -/
theorem sum_exact {x y : ℚ}
    {g k l : ℤ} (hg : F.emin ≤ g) (hg' : g ≤ F.emax)
    (hk : x = k * 2 ^ g) (hl : y = l * 2 ^ g) (hu : F.ulpExp |x + y| ≤ g) : IsFloat F (x + y) := by
  refine isFloat_of_multiple (k := k + l) ?_ hg hg' (by rw [hk, hl]; push_cast; ring)
  have h1 := F.lt_ulp (q := |x + y|)
  rw [div_lt_iff₀ (by positivity)] at h1
  have h2 : |x + y| < 2 ^ F.prec * 2 ^ g := lt_of_lt_of_le h1
    (mul_le_mul_of_nonneg_left (zpow_le_zpow_right₀ (by norm_num) hu) (by positivity))
  have h3 : x + y = ((k + l : ℤ) : ℚ) * 2 ^ g := by rw [hk, hl]; push_cast; ring
  rw [h3, abs_mul, abs_of_pos (show (0 : ℚ) < 2 ^ g by positivity),
    mul_lt_mul_iff_left₀ (by positivity)] at h2
  exact_mod_cast h2

/-- The error of a sum is at most each operand, and a number of the format. -/
theorem sum_error {x y z : ℚ} (hx : IsFloat F x) (hy : IsFloat F y) (ho : ¬ Overflows F (x + y))
    (h : RoundsTo F (x + y) z) :
    |z - (x + y)| ≤ |x| ∧ |z - (x + y)| ≤ |y| ∧ IsFloat F (x + y - z) ∧
      |z - (x + y)| ≤ |x + y| / 2 ^ F.prec ∧ |z - (x + y)| ≤ |z| / 2 ^ F.prec := by
  have h1 : |z - (x + y)| ≤ |x| := by
    have := h.nearest y hy
    rwa [show y - (x + y) = -x by ring, abs_neg] at this
  have h2 : |z - (x + y)| ≤ |y| := by
    have := h.nearest x hx
    rwa [show x - (x + y) = -y by ring, abs_neg] at this
  have exact_case : IsFloat F (x + y) → IsFloat F (x + y - z) ∧
      |z - (x + y)| ≤ |x + y| / 2 ^ F.prec ∧ |z - (x + y)| ≤ |z| / 2 ^ F.prec := fun hf => by
    rw [h.unique (roundsTo_self hf), sub_self, abs_zero]
    exact ⟨isFloat_zero, by positivity, by positivity⟩
  refine ⟨h1, h2, ?_⟩
  obtain ⟨g, k, l, hg, hg', hk, hl, hkl⟩ := common_unit hx hy
  rcases le_or_gt (F.ulpExp |x + y|) g with hu | hu
  · exact exact_case (sum_exact hg hg' hk hl hu)
  · rcases eq_or_ne (x + y) 0 with h0 | h0
    · exact exact_case (by rw [h0]; exact isFloat_zero)
    have h3 : |z| = F.rnd |x + y| :=
      h.of_abs.1.eq_rnd (by rwa [Overflows, abs_abs]) (abs_pos.2 h0)
    have h4 : ∃ j : ℤ, z = j * 2 ^ F.ulpExp |x + y| := by
      rcases abs_choice z with h5 | h5
      · exact ⟨roundEven (|x + y| / 2 ^ F.ulpExp |x + y|), by rw [← h5, h3]; unfold rnd; norm_cast⟩
      · refine ⟨-roundEven (|x + y| / 2 ^ F.ulpExp |x + y|), ?_⟩
        rw [← neg_neg z, ← h5, h3]; unfold rnd; push_cast; ring
    obtain ⟨j', hj'⟩ := h4
    obtain ⟨j, hj⟩ := multiple_of_le hu.le hj'
    refine ⟨?_, ?_⟩
    · refine isFloat_of_small hg hg' hk hl (j := k + l - j) ?_ hkl ?_ ?_
      · rw [hk, hl, hj]; push_cast; ring
      · rwa [abs_sub_comm]
      · rwa [abs_sub_comm]
    · rcases h.error ho with ⟨-, h5⟩ | h5
      · omega
      · exact h5

theorem unitRoundoff_pos : 0 < unitRoundoff F := by unfold unitRoundoff; positivity

/-- The invariant of a loop adding up products. -/
def DotApprox (η : ℚ) (a : F.Val) (t : ℕ × ℚ × ℚ) : Prop :=
  ∃ y, FloatRep a y ∧ |y - t.2.1| ≤ dotBound F t.1 t.2.2 η ∧ |t.2.1| ≤ t.2.2 ∧ (t.1 = 0 → t.2.1 = 0)

theorem dotApprox_zero (η : ℚ) : DotApprox η (Val.zero : F.Val) (0, 0, 0) :=
  ⟨0, floatRep_zero, by simp [dotBound], by simp, fun _ => rfl⟩

theorem dot_step {η s S A p t s' : ℚ} {k : ℕ} (hη : 0 ≤ η) (hS : |s - S| ≤ dotBound F k A η)
    (hA : |S| ≤ A) (h0 : k = 0 → S = 0) (hp : |p - t| ≤ unitRoundoff F * |t| + η)
    (hs : |s' - (s + p)| ≤ unitRoundoff F * |s + p|) (h1 : k = 0 → s = 0 → s' = s + p) :
    |s' - (S + t)| ≤ dotBound F (k + 1) (A + |t|) η := by
  have hu := unitRoundoff_pos (F := F)
  unfold dotBound at *
  set u := unitRoundoff F
  rcases k.eq_zero_or_pos with rfl | hk
  · have hS0 := h0 rfl
    subst hS0
    rw [pow_zero, sub_self, zero_mul, Nat.cast_zero, zero_mul, zero_mul, add_zero, sub_zero] at hS
    have hs0 : s = 0 := abs_nonpos_iff.1 hS
    have := h1 rfl hs0
    subst hs0
    rw [this, zero_add, zero_add]
    rw [zero_add, pow_one, Nat.cast_one, Nat.sub_self, pow_zero]
    have hA0 : 0 ≤ A := (abs_nonneg _).trans hA
    nlinarith [hp]
  · have hc : (1 : ℚ) ≤ 1 + u := by linarith
    have hck : 1 + u ≤ (1 + u) ^ k := by
      calc 1 + u = (1 + u) ^ 1 := (pow_one _).symm
        _ ≤ _ := pow_le_pow_right₀ hc hk
    have hA0 : 0 ≤ A := (abs_nonneg _).trans hA
    have ht0 := abs_nonneg t
    set E := ((1 + u) ^ k - 1) * A + k * (1 + u) ^ (k - 1) * η with hE
    have e1 : |s + p| ≤ E + (u * |t| + η) + (A + |t|) := by
      calc |s + p| = |(s - S) + (p - t) + S + t| := by ring_nf
        _ ≤ |s - S| + |p - t| + |S| + |t| := by
          refine (abs_add_le _ _).trans (add_le_add ((abs_add_le _ _).trans (add_le_add (abs_add_le _ _) le_rfl)) le_rfl)
        _ ≤ _ := by linarith
    have e2 : |s' - (S + t)| ≤ u * |s + p| + E + (u * |t| + η) := by
      calc |s' - (S + t)| = |(s' - (s + p)) + (s - S) + (p - t)| := by ring_nf
        _ ≤ |s' - (s + p)| + |s - S| + |p - t| :=
          (abs_add_le _ _).trans (add_le_add (abs_add_le _ _) le_rfl)
        _ ≤ _ := by linarith
    have e3 : u * |s + p| ≤ u * (E + (u * |t| + η) + (A + |t|)) := mul_le_mul_of_nonneg_left e1 hu.le
    have e4 : |s' - (S + t)| ≤ (1 + u) * E + (1 + u) * (u * |t| + η) + u * (A + |t|) := by
      calc _ ≤ u * (E + (u * |t| + η) + (A + |t|)) + E + (u * |t| + η) := by linarith
        _ = _ := by ring
    refine e4.trans ?_
    have e5 : (1 + u) * (k * (1 + u) ^ (k - 1)) = k * (1 + u) ^ k := by
      obtain ⟨j, rfl⟩ : ∃ j, k = j + 1 := ⟨k - 1, by omega⟩
      rw [Nat.add_sub_cancel, pow_succ]
      ring
    have e6 : (1 + u) * E = ((1 + u) ^ (k + 1) - (1 + u)) * A + k * (1 + u) ^ k * η := by
      rw [hE, mul_add, ← mul_assoc, ← mul_assoc, e5, pow_succ]
      ring
    rw [e6, Nat.add_sub_cancel]
    push_cast
    have e7 : (1 + u) * η ≤ (1 + u) ^ k * η := mul_le_mul_of_nonneg_right hck hη
    have e8 : ((1 + u) * u + u) * |t| ≤ ((1 + u) ^ (k + 1) - 1) * |t| := by
      refine mul_le_mul_of_nonneg_right ?_ ht0
      rw [pow_succ]
      nlinarith
    nlinarith

theorem rounded_ok {c : Res F.Val} {x : ℚ} (h : Rounded c x) {P : F.Val → Prop}
    (hP : ∀ a y, FloatRep a y → RoundsTo F x y → ¬ Overflows F x → P a) : Returns True c P := by
  by_cases ho : Overflows F x
  · rw [h.1 ho]; trivial
  · obtain ⟨a, y, rfl, h1, h2⟩ := h.2 ho
    exact hP a y h1 h2 ho

/-- Each number rounds with a relative and an absolute error; the latter is zero for zero and for
normal numbers. -/
theorem RoundsTo.mixed {x y : ℚ} (h : RoundsTo F x y) (ho : ¬ Overflows F x) :
    |y - x| ≤ unitRoundoff F * |x| + 2 ^ F.emin / 2 := by
  have hu := unitRoundoff_pos (F := F)
  have hx := abs_nonneg x
  have h1 : (0 : ℚ) < 2 ^ F.emin := by positivity
  rcases h.error ho with ⟨h2, -⟩ | ⟨h2, -⟩
  · nlinarith
  · rw [div_eq_mul_one_div, mul_comm] at h2
    unfold unitRoundoff
    linarith

end Abstalg
