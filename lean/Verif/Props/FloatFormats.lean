import Verif.Props.Floats
import Mathlib.Tactic.Linarith
import Mathlib.Tactic.Ring

/-! # The numbers of the formats: C55 -/

set_option autoImplicit false

namespace Abstalg

open FloatFormat

/-- The largest number, the least positive one, the integers in both directions from zero up to the first one that is
missing, and the least number above one. -/
structure FloatConstants (F : FloatFormat) (largest least first gap : ℚ) : Prop where
  largest_mem : ∃ a : F.Val, FloatRep a largest
  largest_le : ∀ (a : F.Val) (x : ℚ), FloatRep a x → |x| ≤ largest
  least_mem : ∃ a : F.Val, FloatRep a least
  least_le : ∀ (a : F.Val) (x : ℚ), FloatRep a x → x ≠ 0 → least ≤ |x|
  integers : ∀ n : ℤ, |(n : ℚ)| < first → ∃ a : F.Val, FloatRep a n
  first_missing : ¬ ∃ a : F.Val, FloatRep a first
  gap_mem : ∃ a : F.Val, FloatRep a (1 + gap)
  gap_le : ∀ (a : F.Val) (x : ℚ), FloatRep a x → 1 < x → 1 + gap ≤ x

theorem has_float_iff {F : FloatFormat} (x : ℚ) : (∃ a : F.Val, FloatRep a x) ↔ IsFloat F x :=
  ⟨fun ⟨_, h⟩ => h.isFloat, fun h => h.rep⟩

theorem floatConstants (F : FloatFormat) (h1 : F.emin ≤ 1 - F.prec) (h2 : 1 ≤ F.emax) (h3 : 2 ≤ F.prec) :
    FloatConstants F ((2 ^ F.prec - 1) * 2 ^ F.emax) (2 ^ F.emin) (2 ^ F.prec + 1) (2 ^ (1 - F.prec : ℤ)) := by
  have two : (1 : ℚ) < 2 := by norm_num
  have hP : (1 : ℕ) ≤ 2 ^ F.prec := Nat.one_le_two_pow
  have hpos : ∀ e : ℤ, (0 : ℚ) < 2 ^ e := fun e => zpow_pos (by norm_num) e
  constructor
  · refine (has_float_iff _).2 ⟨2 ^ F.prec - 1, F.emax, by omega, by omega, le_rfl, ?_⟩
    rw [Nat.cast_sub hP, abs_of_nonneg]
    · push_cast; rfl
    · have : (1 : ℚ) ≤ 2 ^ F.prec := by exact_mod_cast hP
      exact mul_nonneg (by linarith) (hpos _).le
  · intro a x ha
    obtain ⟨m, e, hm, -, he, hx⟩ := (has_float_iff x).1 ⟨a, ha⟩
    rw [hx]
    have h4 : (m : ℚ) ≤ 2 ^ F.prec - 1 := by
      have : (m : ℚ) + 1 ≤ 2 ^ F.prec := by exact_mod_cast hm
      linarith
    exact mul_le_mul h4 (zpow_le_zpow_right₀ two.le he) (hpos _).le (by linarith [(Nat.cast_nonneg m : (0 : ℚ) ≤ m)])
  · refine (has_float_iff _).2 ⟨1, F.emin, ?_, le_rfl, by omega, ?_⟩
    · exact Nat.one_lt_two_pow (by omega)
    · rw [abs_of_pos (hpos _)]; simp
  · intro a x ha h0
    obtain ⟨m, e, -, he, -, hx⟩ := (has_float_iff x).1 ⟨a, ha⟩
    have hm : m ≠ 0 := by
      rintro rfl
      rw [Nat.cast_zero, zero_mul, abs_eq_zero] at hx
      exact h0 hx
    rw [hx]
    have h4 : (1 : ℚ) ≤ m := by exact_mod_cast Nat.one_le_iff_ne_zero.2 hm
    calc (2 : ℚ) ^ F.emin ≤ 2 ^ e := zpow_le_zpow_right₀ two.le he
      _ = 1 * 2 ^ e := (one_mul _).symm
      _ ≤ m * 2 ^ e := mul_le_mul_of_nonneg_right h4 (hpos _).le
  · intro n hn
    have hn' : n.natAbs ≤ 2 ^ F.prec := by
      have h4 : ((|n| : ℤ) : ℚ) < ((2 ^ F.prec + 1 : ℤ) : ℚ) := by push_cast; exact hn
      have h5 : |n| < 2 ^ F.prec + 1 := by exact_mod_cast h4
      have h6 : ((n.natAbs : ℕ) : ℤ) < ((2 ^ F.prec + 1 : ℕ) : ℤ) := by push_cast; exact h5
      have := Int.ofNat_lt.1 h6
      omega
    have habs : |(n : ℚ)| = (n.natAbs : ℚ) := by
      rw [← Int.cast_abs, Int.abs_eq_natAbs, Int.cast_natCast]
    refine (has_float_iff _).2 ?_
    rcases Nat.lt_or_eq_of_le hn' with h | h
    · exact ⟨n.natAbs, 0, h, by omega, by omega, by rw [habs, zpow_zero, mul_one]⟩
    · refine ⟨2 ^ (F.prec - 1), 1, Nat.pow_lt_pow_right (by norm_num) (by omega), by omega, h2, ?_⟩
      rw [habs, h, zpow_one]
      push_cast
      rw [← pow_succ, Nat.sub_add_cancel (by omega)]
  · rintro ⟨a, ha⟩
    obtain ⟨m, e, hm, -, -, hx⟩ := (has_float_iff _).1 ⟨a, ha⟩
    rw [abs_of_pos (by positivity)] at hx
    rcases le_or_gt e 0 with he | he
    · have h4 : (m : ℚ) * 2 ^ e ≤ m * 1 :=
        mul_le_mul_of_nonneg_left (by simpa using zpow_le_zpow_right₀ two.le he) (Nat.cast_nonneg m)
      have h5 : (m : ℚ) < 2 ^ F.prec := by exact_mod_cast hm
      linarith
    · obtain ⟨k, rfl⟩ : ∃ k : ℕ, e = k + 1 := ⟨(e - 1).toNat, by omega⟩
      have h4 : (2 : ℕ) ^ F.prec + 1 = m * 2 ^ (k + 1) := by
        have : (((2 : ℕ) ^ F.prec + 1 : ℕ) : ℚ) = ((m * 2 ^ (k + 1) : ℕ) : ℚ) := by
          push_cast
          rw [hx]
          norm_cast
        exact_mod_cast this
      have h5 : (2 : ℕ) ∣ 2 ^ F.prec := dvd_pow_self 2 (by omega)
      have h6 : (2 : ℕ) ∣ m * 2 ^ (k + 1) := Dvd.dvd.mul_left (dvd_pow_self 2 (by omega)) m
      omega
  · refine (has_float_iff _).2 ⟨2 ^ (F.prec - 1) + 1, 1 - F.prec, ?_, h1, by omega, ?_⟩
    · obtain ⟨k, hk⟩ : ∃ k, F.prec = k + 2 := ⟨F.prec - 2, by omega⟩
      rw [hk, show k + 2 - 1 = k + 1 from rfl, pow_succ 2 (k + 1)]
      have : 1 < 2 ^ (k + 1) := Nat.one_lt_two_pow (by omega)
      omega
    · have h4 : (0 : ℚ) < 1 + 2 ^ (1 - F.prec : ℤ) := by have := hpos (1 - F.prec); linarith
      rw [abs_of_pos h4]
      push_cast
      rw [add_mul, one_mul, ← zpow_natCast, ← zpow_add₀ (by norm_num), Nat.cast_sub (by omega)]
      congr 1
      rw [show ((F.prec : ℤ) - (1 : ℕ) + (1 - F.prec)) = 0 by push_cast; ring, zpow_zero]
  · intro a x ha hx1
    obtain ⟨m, e, hm, -, -, hx⟩ := (has_float_iff x).1 ⟨a, ha⟩
    rw [abs_of_pos (by linarith)] at hx
    rw [hx] at hx1 ⊢
    have hm0 : (0 : ℚ) ≤ m := Nat.cast_nonneg m
    rcases le_or_gt 1 e with he | he
    · have hm1 : (1 : ℚ) ≤ m := by
        rcases Nat.eq_zero_or_pos m with rfl | h
        · norm_num at hx1
        · exact_mod_cast h
      have h4 : (2 : ℚ) ≤ 2 ^ e := by simpa using zpow_le_zpow_right₀ two.le he
      have h5 : (2 : ℚ) ^ (1 - F.prec : ℤ) ≤ 1 := by
        have := zpow_le_zpow_right₀ two.le (show (1 - F.prec : ℤ) ≤ 0 by omega)
        simpa using this
      nlinarith
    · rcases le_or_gt (1 - F.prec : ℤ) e with hl | hl
      · obtain ⟨k, hk⟩ : ∃ k : ℕ, -e = k := ⟨(-e).toNat, by omega⟩
        have h4 : (2 : ℚ) ^ e * 2 ^ k = 1 := by
          rw [← zpow_natCast, ← hk, ← zpow_add₀ (by norm_num)]
          simp
        have h5 : (2 : ℕ) ^ k < m := by
          by_contra hle
          have h6 : (m : ℚ) ≤ 2 ^ k := by exact_mod_cast not_lt.1 hle
          have := mul_le_mul_of_nonneg_right h6 (hpos e).le
          rw [mul_comm _ ((2 : ℚ) ^ e), mul_comm _ ((2 : ℚ) ^ e), h4, mul_comm] at this
          linarith
        have h6 : (2 : ℚ) ^ k + 1 ≤ m := by exact_mod_cast h5
        have h7 := mul_le_mul_of_nonneg_right h6 (hpos e).le
        have h8 := zpow_le_zpow_right₀ two.le hl
        rw [add_mul, mul_comm _ ((2 : ℚ) ^ e), h4, one_mul] at h7
        linarith
      · exfalso
        have h4 : (m : ℚ) < 2 ^ F.prec := by exact_mod_cast hm
        have h5 : (2 : ℚ) ^ e ≤ 2 ^ (-(F.prec : ℤ)) := zpow_le_zpow_right₀ two.le (by omega)
        have h6 : (2 : ℚ) ^ F.prec * 2 ^ (-(F.prec : ℤ)) = 1 := by
          rw [← zpow_natCast, ← zpow_add₀ (by norm_num)]
          simp
        have h7 : (m : ℚ) * 2 ^ e ≤ 2 ^ F.prec * 2 ^ (-(F.prec : ℤ)) := mul_le_mul h4.le h5 (hpos e).le (by positivity)
        linarith

/-- C55: the numbers of `F32`: the largest one is `f32::MAX`, the least positive one `2^-149`, all integers up to `2^24` and
not the next one are among them, and the distance from one to the next number is `f32::EPSILON`. -/
theorem C55_f32 : FloatConstants .f32 ((2 - 2 ^ (-23 : ℤ)) * 2 ^ 127) (2 ^ (-149 : ℤ)) (2 ^ 24 + 1) (2 ^ (-23 : ℤ)) := by
  have h := floatConstants .f32 (by decide) (by decide) (by decide)
  have e : ((2 ^ FloatFormat.f32.prec - 1) * 2 ^ FloatFormat.f32.emax : ℚ) = (2 - 2 ^ (-23 : ℤ)) * 2 ^ 127 := by
    show (2 ^ 24 - 1 : ℚ) * 2 ^ (104 : ℤ) = (2 - 2 ^ (-23 : ℤ)) * 2 ^ 127
    norm_num
  rw [e] at h
  exact h

/-- C55: the numbers of `F64`: the largest one is `f64::MAX`, the least positive one `2^-1074`, all integers up to `2^53` and
not the next one are among them, and the distance from one to the next number is `f64::EPSILON`. -/
theorem C55_f64 : FloatConstants .f64 ((2 - 2 ^ (-52 : ℤ)) * 2 ^ 1023) (2 ^ (-1074 : ℤ)) (2 ^ 53 + 1) (2 ^ (-52 : ℤ)) := by
  have h := floatConstants .f64 (by decide) (by decide) (by decide)
  have e : ((2 ^ FloatFormat.f64.prec - 1) * 2 ^ FloatFormat.f64.emax : ℚ) = (2 - 2 ^ (-52 : ℤ)) * 2 ^ 1023 := by
    show (2 ^ 53 - 1 : ℚ) * 2 ^ (971 : ℤ) = (2 - 2 ^ (-52 : ℤ)) * 2 ^ 1023
    rw [show (2 : ℚ) ^ 1023 = 2 ^ 52 * 2 ^ 971 from pow_add 2 52 971, ← mul_assoc, show (971 : ℤ) = (971 : ℕ) from rfl, zpow_natCast]
    congr 1
    norm_num
  rw [e] at h
  exact h

/-- 16777217 is not a number of `F32`. -/
example : ¬ ∃ a : FloatFormat.f32.Val, FloatRep a 16777217 := by
  have := C55_f32.first_missing
  norm_num at this ⊢
  exact this

end Abstalg
