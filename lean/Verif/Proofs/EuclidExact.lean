import Verif.Proofs.CheckedGcd
import Verif.Proofs.Integers
import Verif.Proofs.SimBase

/-! # Exact values of `gcd`, `lcm` and `extended_gcd` -/

set_option autoImplicit false

namespace Abstalg

namespace Integers

variable [Cfg]

theorem rem_eq (a b : ℤ) (hb : b ≠ 0) : euclidean.rem a b = .ok (a % b) := by
  show (euclidean.quoRem a b >>= fun p => pure p.2) = _
  rw [quoRem_eq a b hb]
  rfl

theorem quo_eq (a b : ℤ) (hb : b ≠ 0) : euclidean.quo a b = .ok (a / b) := by
  show (euclidean.quoRem a b >>= fun p => pure p.1) = _
  rw [quoRem_eq a b hb]
  rfl

theorem gcd_zero (a : ℤ) : euclidean.gcd a 0 = .ok a := by
  show gcdDefault euclidean.isZero euclidean.rem a 0 = _
  rw [gcdDefault]
  rfl

theorem gcd_step (a b : ℤ) (hb : b ≠ 0) : euclidean.gcd a b = euclidean.gcd b (a % b) := by
  show gcdDefault euclidean.isZero euclidean.rem a b = _
  rw [gcdDefault]
  show (Res.ok (b == 0) >>= fun z => if z = true then _ else (euclidean.rem a b >>= fun r => _)) = _
  rw [rem_eq a b hb]
  show (if (b == 0) = true then _ else _) = _
  rw [if_neg (by simpa using hb)]
  rfl

/-- With a nonnegative second operand, and a positive first one if it is zero, the result is positive. -/
theorem gcd_of_nonneg (k : ℕ) : ∀ a b : ℤ, 0 ≤ b → (0 < b ∨ 0 < a) → b.toNat ≤ k →
    euclidean.gcd a b = .ok (Int.gcd a b : ℤ) := by
  induction k with
  | zero =>
    intro a b hb hab hk
    obtain rfl : b = 0 := by omega
    rw [gcd_zero, Int.gcd_zero_right, Int.natAbs_of_nonneg (by omega)]
  | succ k ih =>
    intro a b hb hab hk
    by_cases hb0 : b = 0
    · subst hb0
      rw [gcd_zero, Int.gcd_zero_right, Int.natAbs_of_nonneg (by omega)]
    · have h1 := Int.emod_nonneg a hb0
      have h2 := Int.emod_lt_of_pos a (show 0 < b by omega)
      rw [gcd_step a b hb0, ih b _ h1 (.inr (by omega)) (by omega), Int.gcd_comm a b, Int.gcd_comm b (a % b),
        Int.gcd_emod, Int.gcd_comm]

/-- The value of `gcd`, with its sign. -/
def gcdValue (a b : ℤ) : ℤ := if b = 0 then a else if b ∣ a then b else Int.gcd a b

theorem gcd_eq (a b : ℤ) : euclidean.gcd a b = .ok (gcdValue a b) := by
  unfold gcdValue
  split_ifs with h1 h2
  · rw [h1, gcd_zero]
  · rw [gcd_step a b h1, Int.emod_eq_zero_of_dvd h2, gcd_zero]
  · have h3 := Int.emod_nonneg a h1
    have h4 : a % b ≠ 0 := fun h => h2 (Int.dvd_of_emod_eq_zero h)
    rw [gcd_step a b h1, gcd_of_nonneg _ b _ h3 (.inl (by omega)) le_rfl, Int.gcd_comm b, Int.gcd_emod]

omit [Cfg] in
theorem gcdValue_eq_zero (a b : ℤ) : gcdValue a b = 0 ↔ a = 0 ∧ b = 0 := by
  unfold gcdValue
  split_ifs with h1 h2
  · simp [h1]
  · simp [h1]
  · rw [Int.natCast_eq_zero, Int.gcd_eq_zero_iff]

/-- The value of `lcm`, with its sign. -/
def lcmValue (a b : ℤ) : ℤ := if b ∣ a then a else a * b / Int.gcd a b

omit [Cfg] in
theorem lcmValue_eq (a b : ℤ) (h : ¬ (a = 0 ∧ b = 0)) : a / gcdValue a b * b = lcmValue a b := by
  unfold gcdValue lcmValue
  split_ifs with h1 h2 h3
  · rw [h1, zero_dvd_iff] at h2
    exact absurd ⟨h2, h1⟩ h
  · rw [h1]; simp
  · exact Int.ediv_mul_cancel h3
  · rw [mul_comm a b, Int.mul_ediv_assoc _ (Int.gcd_dvd_left ..), mul_comm]

theorem lcm_eq (a b : ℤ) : euclidean.lcm a b = .ok (lcmValue a b) := by
  show (euclidean.gcd a b >>= fun g => Res.ok (g == 0) >>= fun z => if z = true then pure g else
    euclidean.quo a g >>= fun q => Res.ok (q * b)) = _
  rw [gcd_eq]
  show (if (gcdValue a b == 0) = true then _ else euclidean.quo a (gcdValue a b) >>= fun q => Res.ok (q * b)) = _
  by_cases h : gcdValue a b = 0
  · rw [if_pos (by simpa using h)]
    obtain ⟨rfl, rfl⟩ := (gcdValue_eq_zero a b).1 h
    rfl
  · rw [if_neg (by simpa using h), quo_eq _ _ h]
    show Res.ok (a / gcdValue a b * b) = _
    rw [lcmValue_eq a b fun h' => h ((gcdValue_eq_zero a b).2 h')]

theorem extendedGcd_zero (a : ℤ) : euclidean.extendedGcd a 0 = .ok (a, 1, 0) := by
  show extendedGcdDefault euclidean.isZero euclidean.one euclidean.zero euclidean.quoRem euclidean.sub
    euclidean.mul a 0 = _
  rw [extendedGcdDefault]
  rfl

theorem extendedGcd_step (a b : ℤ) (hb : b ≠ 0) {g x y : ℤ}
    (h : euclidean.extendedGcd b (a % b) = .ok (g, x, y)) :
    euclidean.extendedGcd a b = .ok (g, y, x - y * (a / b)) := by
  show extendedGcdDefault euclidean.isZero euclidean.one euclidean.zero euclidean.quoRem euclidean.sub
    euclidean.mul a b = _
  rw [extendedGcdDefault]
  show (Res.ok (b == 0) >>= fun z => if z = true then _ else
    (euclidean.quoRem a b >>= fun p => euclidean.extendedGcd b p.2 >>= fun t => _)) = _
  rw [quoRem_eq a b hb]
  show (if (b == 0) = true then _ else
    (euclidean.extendedGcd b (a % b) >>= fun t => _)) = _
  rw [if_neg (by simpa using hb), h]
  rfl

/-- The coefficients returned for a nonnegative and a positive operand. -/
theorem extendedGcd_bounds (k : ℕ) : ∀ a b : ℤ, 0 ≤ a → 0 < b → b.toNat ≤ k →
    ∃ x y, euclidean.extendedGcd a b = .ok ((Int.gcd a b : ℤ), x, y) ∧ a * x + b * y = Int.gcd a b ∧
      (b ∣ a ∧ x = 0 ∧ y = 1 ∨
        ¬ b ∣ a ∧ 2 * (|x| * Int.gcd a b) ≤ b ∧ 2 * (|y| * Int.gcd a b) ≤ a) := by
  induction k with
  | zero => intro a b _ hb hk; omega
  | succ k ih =>
    intro a b ha hb hk
    have hb0 : b ≠ 0 := by omega
    have h1 := Int.emod_nonneg a hb0
    have h2 := Int.emod_lt_of_pos a hb
    have hqr := Int.mul_ediv_add_emod a b
    have hq : 0 ≤ a / b := Int.ediv_nonneg ha hb.le
    by_cases hr : a % b = 0
    · have hba : b ∣ a := Int.dvd_of_emod_eq_zero hr
      have hg : (Int.gcd a b : ℤ) = b := by
        rw [Int.gcd_comm, Int.gcd_eq_left hb.le hba]
      refine ⟨0, 1, ?_, by rw [hg]; ring, .inl ⟨hba, rfl, rfl⟩⟩
      rw [extendedGcd_step a b hb0 (by rw [hr]; exact extendedGcd_zero b), hg]
      simp
    · have hba : ¬ b ∣ a := fun h => hr (Int.emod_eq_zero_of_dvd h)
      obtain ⟨x, y, h3, h4, h5⟩ := ih b (a % b) hb.le (by omega) (by omega)
      have hg : Int.gcd b (a % b) = Int.gcd a b := by
        rw [Int.gcd_comm b, Int.gcd_emod]
      rw [hg] at h3 h4 h5
      have hg0 : (0 : ℤ) ≤ Int.gcd a b := by omega
      refine ⟨y, x - y * (a / b), extendedGcd_step a b hb0 h3, by linear_combination h4 - y * hqr,
        .inr ⟨hba, ?_, ?_⟩⟩
      · rcases h5 with ⟨h6, h7, h8⟩ | ⟨h6, h7, h8⟩
        · rw [h8]
          have hgr : (Int.gcd a b : ℤ) = a % b := by
            rw [← hg, Int.gcd_comm, Int.gcd_eq_left h1 h6]
          rw [hgr, abs_one, one_mul]
          obtain ⟨c, hc⟩ := h6
          have : 2 ≤ c := by
            by_contra hc2
            have : c ≤ 1 := by omega
            nlinarith
          nlinarith
        · exact h8
      · rcases h5 with ⟨h6, h7, h8⟩ | ⟨h6, h7, h8⟩
        · have hgr : (Int.gcd a b : ℤ) = a % b := by
            rw [← hg, Int.gcd_comm, Int.gcd_eq_left h1 h6]
          rw [h7, h8, hgr, zero_sub, one_mul, abs_neg, abs_of_nonneg hq]
          obtain ⟨c, hc⟩ := h6
          have : 2 ≤ c := by
            by_contra hc2
            have : c ≤ 1 := by omega
            nlinarith
          have : 2 * (a % b) ≤ b := by nlinarith
          nlinarith
        · have h9 : |x - y * (a / b)| ≤ |x| + |y| * (a / b) := by
            have := abs_sub x (y * (a / b))
            rwa [abs_mul, abs_of_nonneg hq] at this
          have : |x - y * (a / b)| * (Int.gcd a b : ℤ) ≤
              |x| * (Int.gcd a b : ℤ) + |y| * (Int.gcd a b : ℤ) * (a / b) := by nlinarith
          nlinarith

/-- The first component is what `gcd` returns. -/
theorem extendedGcd_eq (n : ℕ) : ∀ a b : ℤ, b.natAbs ≤ n →
    ∃ x y, euclidean.extendedGcd a b = .ok (gcdValue a b, x, y) ∧ a * x + b * y = gcdValue a b := by
  induction n with
  | zero =>
    intro a b hn
    obtain rfl : b = 0 := by omega
    exact ⟨1, 0, by rw [extendedGcd_zero, gcdValue, if_pos rfl], by rw [gcdValue, if_pos rfl]; ring⟩
  | succ n ih =>
    intro a b hn
    by_cases hb : b = 0
    · subst hb
      exact ⟨1, 0, by rw [extendedGcd_zero, gcdValue, if_pos rfl], by rw [gcdValue, if_pos rfl]; ring⟩
    · have h1 := Int.emod_nonneg a hb
      have h2 := Int.emod_lt_abs a hb
      have h3 : (a % b).natAbs < b.natAbs := by
        rw [Int.abs_eq_natAbs] at h2
        omega
      obtain ⟨x, y, h4, h5⟩ := ih b (a % b) (by omega)
      have h6 : gcdValue b (a % b) = gcdValue a b := by
        have := gcd_step a b hb
        rw [gcd_eq, gcd_eq] at this
        exact (Res.ok.inj this).symm
      rw [h6] at h4 h5
      refine ⟨y, x - y * (a / b), extendedGcd_step a b hb h4, ?_⟩
      linear_combination h5 - y * Int.mul_ediv_add_emod a b

omit [Cfg] in
/-- Coefficients within the bounds are the smallest. -/
theorem minimal {a b x y x' y' : ℤ} (ha : 0 ≤ a) (hb : 0 < b) (h : a * x + b * y = Int.gcd a b)
    (hbd : b ∣ a ∧ x = 0 ∧ y = 1 ∨ ¬ b ∣ a ∧ 2 * (|x| * Int.gcd a b) ≤ b ∧ 2 * (|y| * Int.gcd a b) ≤ a)
    (h' : a * x' + b * y' = Int.gcd a b) : |x| ≤ |x'| ∧ (a ≠ b → |y| ≤ |y'|) := by
  rcases hbd with ⟨h1, rfl, rfl⟩ | ⟨h1, h2, h3⟩
  · refine ⟨by simp, fun hab => ?_⟩
    rw [abs_one]
    by_contra hc
    have hy : y' = 0 := Int.abs_lt_one_iff.1 (not_le.1 hc)
    rw [hy, mul_zero, add_zero] at h'
    rw [mul_zero, zero_add, mul_one] at h
    exact hab (Int.dvd_antisymm ha hb.le ⟨x', h.trans h'.symm⟩ h1)
  · have hg : (0 : ℤ) < Int.gcd a b := by
      have := Int.gcd_pos_of_ne_zero_right a hb.ne'
      exact_mod_cast this
    obtain ⟨u, hu⟩ : (Int.gcd a b : ℤ) ∣ a := Int.gcd_dvd_left ..
    obtain ⟨v, hv⟩ : (Int.gcd a b : ℤ) ∣ b := Int.gcd_dvd_right ..
    generalize (Int.gcd a b : ℤ) = g at *
    have hv0 : 0 < v := by
      rw [hv] at hb
      exact pos_of_mul_pos_right hb hg.le
    have hu0 : 0 ≤ u := by
      rw [hu] at ha
      exact nonneg_of_mul_nonneg_right ha hg
    have e1 : u * x + v * y = 1 := by
      have : g * (u * x + v * y) = g * 1 := by rw [hu, hv] at h; linear_combination h
      exact mul_left_cancel₀ hg.ne' this
    have e2 : u * x' + v * y' = 1 := by
      have : g * (u * x' + v * y') = g * 1 := by rw [hu, hv] at h'; linear_combination h'
      exact mul_left_cancel₀ hg.ne' this
    have hx : 2 * |x| ≤ v := by
      rw [hv] at h2
      have : g * (2 * |x|) ≤ g * v := by linarith
      exact le_of_mul_le_mul_left this hg
    have hy : 2 * |y| ≤ u := by
      rw [hu] at h3
      have : g * (2 * |y|) ≤ g * u := by linarith
      exact le_of_mul_le_mul_left this hg
    -- `x' - x` is a multiple of `v`
    have hk : v * (x' * y - x * y') = x' - x := by linear_combination x' * e1 - x * e2
    have hk' : -u * (x' * y - x * y') = y' - y := by linear_combination y' * e1 - y * e2
    generalize x' * y - x * y' = k at *
    by_cases hk0 : k = 0
    · subst hk0
      rw [mul_zero] at hk hk'
      rw [show x' = x by omega, show y' = y by omega]
      exact ⟨le_rfl, fun _ => le_rfl⟩
    · have h1k : 1 ≤ |k| := Int.one_le_abs hk0
      have b1 : v ≤ |x' - x| := by
        rw [← hk, abs_mul, abs_of_pos hv0]; nlinarith
      have b2 : u ≤ |y' - y| := by
        rw [← hk', abs_mul, abs_neg, abs_of_nonneg hu0]; nlinarith
      have c1 := abs_sub x' x
      have c2 := abs_sub y' y
      exact ⟨by omega, fun _ => by omega⟩

end Integers

end Abstalg
