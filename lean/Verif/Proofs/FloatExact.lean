import Verif.Proofs.ExactFloats

/-! # Floats: results that need no rounding, and the error of a rounded result -/

set_option autoImplicit false

namespace Abstalg

open FloatFormat

variable {F : FloatFormat}

theorem FixedPoint.neg {e : ℤ} {x : ℚ} (h : FixedPoint e x) : FixedPoint e (-x) := by
  obtain ⟨k, rfl⟩ := h
  exact ⟨-k, by push_cast; ring⟩

theorem FixedPoint.sub {e : ℤ} {x y : ℚ} (hx : FixedPoint e x) (hy : FixedPoint e y) : FixedPoint e (x - y) := by
  rw [sub_eq_add_neg]
  exact hx.add hy.neg

theorem FixedPoint.mono {e f : ℤ} {x : ℚ} (h : FixedPoint e x) (hf : f ≤ e) : FixedPoint f x := by
  obtain ⟨k, rfl⟩ := h
  obtain ⟨n, hn⟩ := Int.eq_ofNat_of_zero_le (sub_nonneg.2 hf)
  obtain rfl : e = f + n := by omega
  refine ⟨k * 2 ^ n, ?_⟩
  rw [zpow_add₀ (by norm_num)]
  push_cast
  rw [zpow_natCast]
  ring

theorem FixedPoint.of_abs {e : ℤ} {x : ℚ} (h : FixedPoint e |x|) : FixedPoint e x := by
  rcases abs_choice x with h' | h' <;> rw [h'] at h
  · exact h
  · have := h.neg
    rwa [neg_neg] at this

theorem IsFloat.fixed {x : ℚ} (h : IsFloat F x) :
    ∃ e, F.emin ≤ e ∧ e ≤ F.emax ∧ FixedPoint e x ∧ |x| < 2 ^ F.prec * 2 ^ e := by
  obtain ⟨m, e, h1, h2, h3, h4⟩ := h
  refine ⟨e, h2, h3, .of_abs ⟨m, by rw [h4, Int.cast_natCast]⟩, ?_⟩
  rw [h4]
  exact mul_lt_mul_of_pos_right (by exact_mod_cast h1) (by positivity)

theorem IsFloat.fixed_emin {x : ℚ} (h : IsFloat F x) : FixedPoint F.emin x := by
  obtain ⟨e, h1, -, h2, -⟩ := h.fixed
  exact h2.mono h1

/-- A number of the format that is large is a multiple of a large power of two. -/
theorem IsFloat.fixed_of_le {e : ℤ} {z : ℚ} (h : IsFloat F z) (hz : (2 ^ F.prec - 1) * 2 ^ e ≤ |z|) :
    FixedPoint e z := by
  obtain ⟨f, h1, h2, h3, h4⟩ := h.fixed
  refine h3.mono (le_of_not_gt fun hf => ?_)
  have h5 : (2 : ℚ) ^ f ≤ 2 ^ (e - 1) := zpow_le_zpow_right₀ (by norm_num) (by omega)
  have h6 : (2 : ℚ) ^ e = 2 * 2 ^ (e - 1) := by
    rw [← zpow_one_add₀ (by norm_num)]
    congr 1
    omega
  have h7 : (2 : ℚ) ≤ 2 ^ F.prec := by
    rw [F.pow_prec]
    have : (1 : ℚ) ≤ 2 ^ (F.prec - 1) := one_le_pow₀ (by norm_num)
    linarith
  have h8 : (0 : ℚ) < 2 ^ (e - 1) := by positivity
  have h9 : (2 : ℚ) ^ F.prec * 2 ^ f ≤ 2 ^ F.prec * 2 ^ (e - 1) := mul_le_mul_of_nonneg_left h5 (by positivity)
  rw [h6] at hz
  have h10 : (0 : ℚ) ≤ (2 ^ F.prec - 2) * 2 ^ (e - 1) := mul_nonneg (by linarith) h8.le
  nlinarith

theorem RoundsTo.abs_le_abs {x y z : ℚ} (h : RoundsTo F x z) (hy : IsFloat F y) (hxy : |y| ≤ |x|) : |y| ≤ |z| := by
  have hy' : IsFloat F |y| := by
    rcases abs_choice y with h' | h' <;> rw [h']
    · exact hy
    · exact isFloat_neg hy
  rcases le_total 0 x with hx | hx
  · rw [abs_of_nonneg hx] at hxy
    exact ((roundsTo_self hy').mono h hxy).trans (le_abs_self _)
  · rw [abs_of_nonpos hx] at hxy
    exact ((roundsTo_self hy').mono h.neg hxy).trans (neg_le_abs _)

/-- Rounding a multiple of a power of two gives a multiple of this power. -/
theorem RoundsTo.fixed {e : ℤ} {x z : ℚ} (h : RoundsTo F x z) (hx : FixedPoint e x) (h1 : F.emin ≤ e)
    (h2 : e ≤ F.emax) : FixedPoint e z := by
  by_cases hlt : |x| < 2 ^ F.prec * 2 ^ e
  · rw [h.unique (roundsTo_self (hx.isFloat h1 h2 hlt))]
    exact hx
  · have hp : (1 : ℚ) ≤ 2 ^ F.prec := one_le_pow₀ (by norm_num)
    have he : (0 : ℚ) < 2 ^ e := by positivity
    have hq : |((2 : ℚ) ^ F.prec - 1) * 2 ^ e| = (2 ^ F.prec - 1) * 2 ^ e :=
      abs_of_nonneg (mul_nonneg (by linarith) he.le)
    refine h.isFloat.fixed_of_le ?_
    rw [← hq]
    refine h.abs_le_abs (FixedPoint.isFloat (e := e) ⟨2 ^ F.prec - 1, by push_cast; ring⟩ h1 h2 ?_) ?_
    · rw [hq]
      exact mul_lt_mul_of_pos_right (by linarith) he
    · rw [hq]
      have := not_lt.1 hlt
      nlinarith

/-- The difference of two numbers of the format neither of which is more than twice the other. -/
theorem isFloat_sub_near {x y : ℚ} (hx : IsFloat F x) (hy : IsFloat F y) (h1 : y / 2 ≤ x) (h2 : x ≤ 2 * y) :
    IsFloat F (x - y) := by
  obtain ⟨e, he, he', hxe, hx'⟩ := hx.fixed
  obtain ⟨f, hf, hf', hyf, hy'⟩ := hy.fixed
  have hy0 : 0 ≤ y := by linarith
  have hx0 : 0 ≤ x := by linarith
  rw [abs_of_nonneg hx0] at hx'
  rw [abs_of_nonneg hy0] at hy'
  rcases le_total e f with hef | hef
  · refine (hxe.sub (hyf.mono hef)).isFloat he he' (lt_of_le_of_lt (abs_le.2 ⟨?_, ?_⟩) hx') <;> linarith
  · refine ((hxe.mono hef).sub hyf).isFloat hf hf' (lt_of_le_of_lt (abs_le.2 ⟨?_, ?_⟩) hy') <;> linarith

/-- The error of a rounded sum is a number of the format. -/
theorem isFloat_add_error {x y z : ℚ} (hx : IsFloat F x) (hy : IsFloat F y) (h : RoundsTo F (x + y) z) :
    IsFloat F (x + y - z) := by
  have key {x y : ℚ} (hx : IsFloat F x) (hy : IsFloat F y) (h : RoundsTo F (x + y) z) {e f : ℤ} (he : F.emin ≤ e)
      (he' : e ≤ F.emax) (hxe : FixedPoint e x) (hx' : |x| < 2 ^ F.prec * 2 ^ e) (hyf : FixedPoint f y)
      (hef : e ≤ f) : IsFloat F (x + y - z) := by
    have hs := hxe.add (hyf.mono hef)
    refine (hs.sub (h.fixed hs he he')).isFloat he he' (lt_of_le_of_lt ?_ hx')
    have := h.nearest y hy
    rw [show y - (x + y) = -x by ring, abs_neg] at this
    rwa [abs_sub_comm]
  obtain ⟨e, he, he', hxe, hx'⟩ := hx.fixed
  obtain ⟨f, hf, hf', hyf, hy'⟩ := hy.fixed
  rcases le_total e f with hef | hef
  · exact key hx hy h he he' hxe hx' hyf hef
  · rw [add_comm] at h ⊢
    exact key hy hx h hf hf' hyf hy' hxe hef

/-- The error of a rounded product is a number of the format exactly if the product is a multiple of the least
positive number. -/
theorem isFloat_mul_error {x y z : ℚ} (hx : IsFloat F x) (hy : IsFloat F y) (ho : ¬ Overflows F (x * y))
    (h : RoundsTo F (x * y) z) : IsFloat F (x * y - z) ↔ FixedPoint F.emin (x * y) := by
  constructor
  · intro h1
    have := h1.fixed_emin.add h.isFloat.fixed_emin
    rwa [sub_add_cancel] at this
  intro hm
  obtain ⟨e, he, he', hxe, hx'⟩ := hx.fixed
  obtain ⟨f, hf, hf', hyf, hy'⟩ := hy.fixed
  have hp : (1 : ℚ) ≤ 2 ^ F.prec := one_le_pow₀ (by norm_num)
  have hov : |x * y| < 2 ^ F.prec * 2 ^ F.emax := by
    have h1 := not_le.1 ho
    have h2 : (0 : ℚ) < 2 ^ F.emax := by positivity
    nlinarith
  -- a multiple of `2 ^ g` whose size is less than `2 ^ (2 * prec) * 2 ^ g`
  obtain ⟨g, hg, hxg, hg'⟩ : ∃ g, F.emin ≤ g ∧ FixedPoint g (x * y) ∧ |x * y| < 2 ^ F.prec * (2 ^ F.prec * 2 ^ g) := by
    have hlt : |x * y| < 2 ^ F.prec * (2 ^ F.prec * 2 ^ (e + f)) := by
      rw [abs_mul, zpow_add₀ (by norm_num)]
      calc |x| * |y| < 2 ^ F.prec * 2 ^ e * (2 ^ F.prec * 2 ^ f) :=
            mul_lt_mul'' hx' hy' (abs_nonneg _) (abs_nonneg _)
        _ = _ := by ring
    rcases le_total F.emin (e + f) with h1 | h1
    · exact ⟨e + f, h1, hxe.mul hyf, hlt⟩
    · refine ⟨F.emin, le_rfl, hm, hlt.trans_le ?_⟩
      have : (2 : ℚ) ^ (e + f) ≤ 2 ^ F.emin := zpow_le_zpow_right₀ (by norm_num) h1
      gcongr
  by_cases hge : g ≤ F.emax
  · refine (hxg.sub (h.fixed hxg hg hge)).isFloat hg hge ?_
    -- a number of the format that is near
    obtain ⟨t, ht1, ht2, ht3, ht4⟩ : ∃ t, F.emin ≤ t ∧ t ≤ F.emax ∧ |x * y| < 2 ^ F.prec * 2 ^ t ∧
        (2 : ℚ) ^ t ≤ 2 ^ F.prec * 2 ^ g := by
      have h3 : (2 : ℚ) ^ F.prec * 2 ^ g = 2 ^ (F.prec + g : ℤ) := by
        rw [zpow_add₀ (by norm_num), zpow_natCast]
      rcases le_total (F.prec + g : ℤ) F.emax with h1 | h1
      · exact ⟨F.prec + g, by omega, h1, by rw [← h3]; exact hg', h3.ge⟩
      · exact ⟨F.emax, hg.trans hge, le_rfl, hov, by rw [h3]; exact zpow_le_zpow_right₀ (by norm_num) h1⟩
    have ht : (0 : ℚ) < 2 ^ t := by positivity
    have hnear : ∃ q, IsFloat F q ∧ |q - x * y| < 2 ^ t := by
      have key (u : ℚ) (hu : 0 ≤ u) (hu' : u < 2 ^ F.prec * 2 ^ t) : ∃ q, IsFloat F q ∧ |q - u| < 2 ^ t := by
        have h5 : 0 ≤ u / 2 ^ t := by positivity
        have h6 := Nat.floor_le h5
        have h7 := Nat.lt_floor_add_one (u / 2 ^ t)
        rw [le_div_iff₀ ht] at h6
        rw [div_lt_iff₀ ht] at h7
        refine ⟨⌊u / 2 ^ t⌋₊ * 2 ^ t, FixedPoint.isFloat (e := t) ⟨⌊u / 2 ^ t⌋₊, by push_cast; rfl⟩ ht1 ht2 ?_, ?_⟩
        · rw [abs_of_nonneg (by positivity)]
          exact lt_of_le_of_lt h6 hu'
        · rw [abs_lt]
          constructor <;> nlinarith
      rcases le_total 0 (x * y) with h5 | h5
      · exact key _ h5 (by rwa [abs_of_nonneg h5] at ht3)
      · obtain ⟨q, h6, h7⟩ := key (-(x * y)) (by linarith) (by rwa [abs_of_nonpos h5] at ht3)
        refine ⟨-q, isFloat_neg h6, ?_⟩
        rwa [show -q - x * y = -(q - -(x * y)) by ring, abs_neg]
    obtain ⟨q, h5, h6⟩ := hnear
    rw [abs_sub_comm]
    exact lt_of_le_of_lt (h.nearest q h5) (lt_of_lt_of_le h6 ht4)
  · have h1 : IsFloat F (x * y) := (hxg.mono (not_le.1 hge).le).isFloat
      (F.emin_nonpos.trans F.emax_nonneg) le_rfl hov
    rw [h.unique (roundsTo_self h1), sub_self]
    exact isFloat_zero

/-- The double of a number of the format, unless it is too large. -/
theorem isFloat_double {x : ℚ} (hx : IsFloat F x) (ho : ¬ Overflows F (x + x)) : IsFloat F (x + x) := by
  obtain ⟨e, he, he', hxe, hx'⟩ := hx.fixed
  obtain ⟨k, hk⟩ := hxe
  have h2 : x + x = k * 2 ^ (e + 1) := by
    rw [hk, zpow_add_one₀ (by norm_num)]
    ring
  by_cases hlt : e + 1 ≤ F.emax
  · refine FixedPoint.isFloat (e := e + 1) ⟨k, h2⟩ (by omega) hlt ?_
    rw [zpow_add_one₀ (by norm_num), show x + x = 2 * x by ring, abs_mul, abs_of_pos (by norm_num : (0 : ℚ) < 2)]
    linarith
  · obtain rfl : e = F.emax := by omega
    refine FixedPoint.isFloat (e := F.emax) ⟨2 * k, by rw [hk]; push_cast; ring⟩ he le_rfl ?_
    have h1 := not_le.1 ho
    have h2 : (0 : ℚ) < 2 ^ F.emax := by positivity
    nlinarith

/-- Half of a number of the format lies between two numbers of the format that are as near as any multiple of the
least one. -/
theorem half_le_rounded {x s z : ℚ} (hx : IsFloat F x) (hx0 : 0 ≤ x) (hs : FixedPoint F.emin s) (hxs : x / 2 ≤ s)
    (h : RoundsTo F s z) : x / 2 ≤ z := by
  obtain ⟨e, he, he', ⟨k, hk⟩, hx'⟩ := hx.fixed
  rw [abs_of_nonneg hx0] at hx'
  rcases he.eq_or_lt with rfl | hlt
  · obtain ⟨n, rfl⟩ := hs
    have hu : (0 : ℚ) < 2 ^ F.emin := by positivity
    -- the least multiple of the unit not below the half
    have h1 : (k : ℚ) ≤ 2 * n := by
      rw [hk] at hxs
      have : (k : ℚ) * 2 ^ F.emin ≤ 2 * n * 2 ^ F.emin := by linarith
      exact le_of_mul_le_mul_right this hu
    have h1' : k ≤ 2 * n := by exact_mod_cast h1
    have hk0 : 0 ≤ k := by
      rw [hk] at hx0
      have := nonneg_of_mul_nonneg_left hx0 hu
      exact_mod_cast this
    have hk1 : (k : ℚ) < 2 ^ F.prec := by
      rw [hk] at hx'
      exact lt_of_mul_lt_mul_right hx' hu.le
    have hk2 : k < 2 ^ F.prec := by exact_mod_cast hk1
    have h2 : IsFloat F (((k + 1) / 2 : ℤ) * 2 ^ F.emin) := by
      refine FixedPoint.isFloat ⟨_, rfl⟩ le_rfl he' ?_
      rw [abs_of_nonneg (mul_nonneg (by exact_mod_cast (by omega : 0 ≤ (k + 1) / 2)) hu.le)]
      refine mul_lt_mul_of_pos_right ?_ hu
      have h3 : (1 : ℤ) < 2 ^ F.prec := one_lt_pow₀ (by norm_num) F.prec_pos.ne'
      exact_mod_cast (by omega : (k + 1) / 2 < 2 ^ F.prec)
    have h3 := (roundsTo_self h2).mono h (mul_le_mul_of_nonneg_right
      (by exact_mod_cast (by omega : (k + 1) / 2 ≤ n)) hu.le)
    refine le_trans ?_ h3
    rw [hk]
    have h4 : (k : ℚ) ≤ 2 * ((k + 1) / 2 : ℤ) := by exact_mod_cast (by omega : k ≤ 2 * ((k + 1) / 2))
    nlinarith
  · refine (roundsTo_self ?_).mono h hxs
    have h1 : x / 2 = k * 2 ^ (e - 1) := by
      rw [hk, zpow_sub_one₀ (by norm_num)]
      ring
    refine FixedPoint.isFloat (e := e - 1) ⟨k, h1⟩ (by omega) (by omega) ?_
    rw [abs_of_nonneg (by linarith), zpow_sub_one₀ (by norm_num)]
    linarith

/-- The rounded sum minus the larger summand. -/
theorem isFloat_sum_sub {x y z : ℚ} (hx : IsFloat F x) (hy : IsFloat F y) (hxy : |y| ≤ |x|)
    (h : RoundsTo F (x + y) z) : IsFloat F (z - x) := by
  have key {x y z : ℚ} (hx : IsFloat F x) (hy : IsFloat F y) (hx0 : 0 ≤ x) (hxy : |y| ≤ x)
      (h : RoundsTo F (x + y) z) : IsFloat F (z - x) := by
    have h1 := abs_le.1 hxy
    rcases le_total y (-(x / 2)) with h2 | h2
    · have h3 : IsFloat F (x + y) := by
        have := isFloat_sub_near hx (isFloat_neg hy) (by linarith) (by linarith)
        rwa [sub_neg_eq_add] at this
      rw [h.unique (roundsTo_self h3), add_sub_cancel_left]
      exact hy
    · refine isFloat_sub_near h.isFloat hx ?_ ?_
      · exact half_le_rounded hx hx0 (hx.fixed_emin.add hy.fixed_emin) (by linarith) h
      · by_cases ho2 : Overflows F (x + x)
        · obtain ⟨m, e, h3, -, h4, h5⟩ := h.isFloat
          rw [Overflows, abs_of_nonneg (by linarith)] at ho2
          have h6 : (2 : ℚ) ^ e ≤ 2 ^ F.emax := zpow_le_zpow_right₀ (by norm_num) h4
          have h7 : (m : ℚ) + 1 ≤ 2 ^ F.prec := by exact_mod_cast h3
          have h8 : (0 : ℚ) < 2 ^ F.emax := by positivity
          have h9 : (m : ℚ) * 2 ^ e ≤ (2 ^ F.prec - 1) * 2 ^ F.emax :=
            mul_le_mul (by linarith) h6 (by positivity) (by linarith [Nat.cast_nonneg (α := ℚ) m])
          have := le_abs_self z
          rw [h5] at this
          nlinarith
        · have := h.mono (roundsTo_self (isFloat_double hx ho2)) (by linarith)
          linarith
  rcases le_total 0 x with h0 | h0
  · exact key hx hy h0 (by rwa [abs_of_nonneg h0] at hxy) h
  · have := key (isFloat_neg hx) (isFloat_neg hy) (by linarith) (by rwa [abs_neg, ← abs_of_nonpos h0])
      (by rw [← neg_add]; exact h.neg)
    rw [show z - x = -(-z - -x) by ring]
    exact isFloat_neg this

end Abstalg
