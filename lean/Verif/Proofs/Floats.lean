import Verif.Spec.Floats
import Verif.Spec.Contracts
import Verif.Model.ApproxFloats
import Verif.Proofs.Basic

/-! # Floating point arithmetic -/

set_option linter.unusedSectionVars false

set_option autoImplicit false

namespace Abstalg

open FloatFormat

namespace FloatFormat

theorem roundEven_nearest {x : ℚ} (hx : 0 ≤ x) (k : ℤ) :
    |(roundEven x : ℚ) - x| ≤ |(k : ℚ) - x| ∧
    (|(k : ℚ) - x| = |(roundEven x : ℚ) - x| → k ≠ roundEven x →
      roundEven x % 2 = 0 ∧ |(roundEven x : ℚ) - k| = 1) := by
  have h1 := Nat.floor_le hx
  have h2 := Nat.lt_floor_add_one x
  set f := ⌊x⌋₊ with hf
  have hk : (k : ℚ) ≤ f ∨ (f : ℚ) + 1 ≤ k := by
    rcases le_or_gt k (f : ℤ) with h | h
    · left
      exact_mod_cast h
    · right
      exact_mod_cast h
  have hkf : ∀ {g : ℕ}, k ≠ g → (k : ℚ) ≠ g := fun h h' => h (by exact_mod_cast h')
  unfold roundEven
  simp only [← hf]
  split_ifs with c1 c2 c3
  · rw [abs_of_nonpos (by linarith : (f : ℚ) - x ≤ 0)]
    rcases hk with hk | hk
    · rw [abs_of_nonpos (by linarith : (k : ℚ) - x ≤ 0)]
      exact ⟨by linarith, fun h h' => absurd (by linarith : (k : ℚ) = f) (hkf h')⟩
    · rw [abs_of_nonneg (by linarith : 0 ≤ (k : ℚ) - x)]
      exact ⟨by linarith, fun h _ => absurd h (by linarith)⟩
  · push_cast
    rw [abs_of_nonneg (by linarith : 0 ≤ (f : ℚ) + 1 - x)]
    rcases hk with hk | hk
    · rw [abs_of_nonpos (by linarith : (k : ℚ) - x ≤ 0)]
      exact ⟨by linarith, fun h _ => absurd h (by linarith)⟩
    · rw [abs_of_nonneg (by linarith : 0 ≤ (k : ℚ) - x)]
      exact ⟨by linarith, fun h h' => absurd (by push_cast; linarith : (k : ℚ) = (f + 1 : ℕ)) (hkf h')⟩
  · rw [abs_of_nonpos (by linarith : (f : ℚ) - x ≤ 0)]
    rcases hk with hk | hk
    · rw [abs_of_nonpos (by linarith : (k : ℚ) - x ≤ 0)]
      exact ⟨by linarith, fun h h' => absurd (by linarith : (k : ℚ) = f) (hkf h')⟩
    · rw [abs_of_nonneg (by linarith : 0 ≤ (k : ℚ) - x)]
      refine ⟨by linarith, fun h _ => ⟨c3, ?_⟩⟩
      rw [show (f : ℚ) - k = -1 by linarith]
      norm_num
  · push_cast
    rw [abs_of_nonneg (by linarith : 0 ≤ (f : ℚ) + 1 - x)]
    rcases hk with hk | hk
    · rw [abs_of_nonpos (by linarith : (k : ℚ) - x ≤ 0)]
      refine ⟨by linarith, fun h _ => ⟨by omega, ?_⟩⟩
      rw [show (f : ℚ) + 1 - k = 1 by linarith]
      norm_num
    · rw [abs_of_nonneg (by linarith : 0 ≤ (k : ℚ) - x)]
      exact ⟨by linarith, fun h h' => absurd (by push_cast; linarith : (k : ℚ) = (f + 1 : ℕ)) (hkf h')⟩

variable (F : FloatFormat)

/-- The magnitude computed by `roundMag`. -/
def rnd (q : ℚ) : ℚ := roundEven (q / 2 ^ F.ulpExp q) * 2 ^ F.ulpExp q

theorem rnd_nonneg (q : ℚ) : 0 ≤ F.rnd q := by unfold rnd; positivity

theorem rnd_zero : F.rnd 0 = 0 := by
  unfold rnd
  rw [zero_div, roundEven_zero, Nat.cast_zero, zero_mul]

/-- Among multiples of the unit in the last place `rnd q` is nearest. -/
theorem rnd_multiple {q : ℚ} (hq : 0 ≤ q) (k : ℤ) :
    |F.rnd q - q| ≤ |k * 2 ^ F.ulpExp q - q| ∧
    (|k * 2 ^ F.ulpExp q - q| = |F.rnd q - q| → k * 2 ^ F.ulpExp q ≠ F.rnd q →
      ∃ j : ℤ, F.rnd q = 2 * j * |F.rnd q - k * 2 ^ F.ulpExp q|) := by
  have hu : (0 : ℚ) < 2 ^ F.ulpExp q := by positivity
  unfold rnd
  set u : ℚ := 2 ^ F.ulpExp q
  have key : ∀ r : ℚ, |r * u - q| = |r - q / u| * u := fun r => by
    rw [← abs_of_pos hu, ← abs_mul, abs_of_pos hu, sub_mul, div_mul_cancel₀ _ hu.ne']
  obtain ⟨h1, h2⟩ := roundEven_nearest (x := q / u) (by positivity) k
  rw [key, key]
  refine ⟨mul_le_mul_of_nonneg_right h1 hu.le, fun h h' => ?_⟩
  obtain ⟨h3, h4⟩ := h2 (mul_right_cancel₀ hu.ne' h) fun h'' => h' (by rw [h'']; norm_cast)
  rw [← sub_mul, abs_mul, h4, one_mul, abs_of_pos hu]
  refine ⟨(roundEven (q / u) / 2 : ℕ), ?_⟩
  have h5 : ((roundEven (q / u) / 2 : ℕ) : ℚ) * 2 = roundEven (q / u) := by
    exact_mod_cast Nat.div_mul_cancel (Nat.dvd_of_mod_eq_zero h3)
  rw [Int.cast_natCast, ← h5]
  ring

/-- A number of the format is a multiple of the unit in the last place or smaller by magnitude. -/
theorem float_cases {q z : ℚ} (hq : 0 < q) (hz : IsFloat F z) :
    (∃ k : ℤ, z = k * 2 ^ F.ulpExp q) ∨
      ∃ k : ℤ, z < k * 2 ^ F.ulpExp q ∧ k * 2 ^ F.ulpExp q ≤ q := by
  obtain ⟨m, e, h1, h2, -, h3⟩ := hz
  have hp := F.prec_pos
  rcases le_or_gt (F.ulpExp q) e with h | h
  · left
    obtain ⟨n, hn⟩ := Int.eq_ofNat_of_zero_le (sub_nonneg.2 h)
    have h4 : (2 : ℚ) ^ e = 2 ^ n * 2 ^ F.ulpExp q := by
      rw [← zpow_natCast, ← zpow_add₀ (by norm_num)]
      congr 1
      omega
    rcases abs_choice z with h5 | h5
    · refine ⟨m * 2 ^ n, ?_⟩
      rw [← h5, h3, h4]
      push_cast
      ring
    · refine ⟨-(m * 2 ^ n), ?_⟩
      rw [← neg_neg z, ← h5, h3, h4]
      push_cast
      ring
  · right
    refine ⟨2 ^ (F.prec - 1), ?_, ?_⟩
    · refine (le_abs_self z).trans_lt ?_
      rw [h3]
      push_cast
      have h4 : (m : ℚ) < 2 ^ F.prec := by exact_mod_cast h1
      have h5 : (2 : ℚ) ^ e * 2 ≤ 2 ^ F.ulpExp q := by
        rw [← zpow_add_one₀ (by norm_num)]
        exact zpow_le_zpow_right₀ (by norm_num) (by omega)
      have h6 : (0 : ℚ) < 2 ^ e := by positivity
      calc (m : ℚ) * 2 ^ e < 2 ^ F.prec * 2 ^ e := mul_lt_mul_of_pos_right h4 h6
        _ = 2 ^ (F.prec - 1) * (2 ^ e * 2) := by rw [F.pow_prec]; ring
        _ ≤ _ := mul_le_mul_of_nonneg_left h5 (by positivity)
    · have := F.ulp_le hq (by omega)
      rw [le_div_iff₀ (by positivity)] at this
      exact_mod_cast this

theorem rnd_spec {q : ℚ} (hq : 0 < q) (h : F.rnd q ≤ F.maxFin) : RoundsTo F q (F.rnd q) := by
  refine ⟨?_, fun z hz => ?_, fun z hz hne h' => ?_⟩
  · have := F.mag_round hq.le h
    rw [IsFloat, abs_of_nonneg (F.rnd_nonneg q)]
    exact this
  · rcases F.float_cases hq hz with ⟨k, rfl⟩ | ⟨k, h1, h2⟩
    · exact (F.rnd_multiple hq.le k).1
    · refine (F.rnd_multiple hq.le k).1.trans ?_
      rw [abs_of_nonpos (by linarith), abs_of_nonpos (by linarith)]
      linarith
  · rcases F.float_cases hq hz with ⟨k, rfl⟩ | ⟨k, h1, h2⟩
    · exact (F.rnd_multiple hq.le k).2 h' hne
    · have h3 := (F.rnd_multiple hq.le k).1
      rw [← h', abs_of_nonpos (by linarith), abs_of_nonpos (by linarith)] at h3
      linarith

theorem rnd_overflow {q : ℚ} (hq : 0 < q) :
    F.maxFin < F.rnd q ↔ (2 ^ F.prec - 1 / 2) * 2 ^ F.emax ≤ q := by
  have hp := F.prec_pos
  have hE : (0 : ℚ) < 2 ^ F.emax := by positivity
  have hu : (0 : ℚ) < 2 ^ F.ulpExp q := by positivity
  have h1 : (1 : ℚ) ≤ 2 ^ (F.prec - 1) := one_le_pow₀ (by norm_num)
  have hpp := F.pow_prec
  have hx : 0 ≤ q / 2 ^ F.ulpExp q := by positivity
  have hlt := F.lt_ulp (q := q)
  have hle : (roundEven (q / 2 ^ F.ulpExp q) : ℚ) ≤ 2 ^ F.prec := by
    exact_mod_cast roundEven_le hx (k := 2 ^ F.prec) (by push_cast; exact hlt)
  rcases lt_trichotomy (F.ulpExp q) F.emax with h | h | h
  · -- no overflow
    have h2 : (2 : ℚ) ^ F.ulpExp q * 2 ≤ 2 ^ F.emax := by
      rw [← zpow_add_one₀ (by norm_num)]
      exact zpow_le_zpow_right₀ (by norm_num) (by omega)
    have h3 : (2 : ℚ) ^ F.prec * 2 ^ F.ulpExp q ≤ 2 ^ (F.prec - 1) * 2 ^ F.emax := by
      rw [hpp, mul_assoc, mul_comm (2 : ℚ), mul_assoc]
      exact mul_le_mul_of_nonneg_left h2 (by positivity)
    have h4 : (2 : ℚ) ^ (F.prec - 1) * 2 ^ F.emax ≤ F.maxFin :=
      mul_le_mul_of_nonneg_right (by linarith) hE.le
    constructor
    · intro h5
      have : F.rnd q ≤ 2 ^ F.prec * 2 ^ F.ulpExp q := mul_le_mul_of_nonneg_right hle hu.le
      linarith
    · intro h5
      rw [div_lt_iff₀ hu] at hlt
      have : (2 : ℚ) ^ (F.prec - 1) * 2 ^ F.emax < (2 ^ F.prec - 1 / 2) * 2 ^ F.emax :=
        mul_lt_mul_of_pos_right (by linarith) hE
      linarith
  · unfold rnd maxFin
    rw [h] at hlt hx hle ⊢
    rw [mul_lt_mul_iff_left₀ hE, ← le_div_iff₀ hE]
    set x := q / 2 ^ F.emax
    constructor
    · intro h2
      have h3 : (2 : ℚ) ^ F.prec ≤ roundEven x := by
        have : (2 ^ F.prec : ℕ) < roundEven x + 1 := by
          have : ((2 ^ F.prec : ℕ) : ℚ) < (roundEven x + 1 : ℕ) := by push_cast; linarith
          exact Nat.cast_lt.1 this
        exact_mod_cast Nat.lt_succ_iff.1 this
      have := (roundEven_bounds hx).1
      linarith
    · intro h2
      by_contra h3
      have h4 := (roundEven_bounds hx).2
      have h5 : (roundEven x : ℚ) = 2 ^ F.prec - 1 := by linarith
      have h6 := (roundEven_nearest hx (2 ^ F.prec)).2
      push_cast at h6
      rw [h5, abs_of_nonneg (by linarith), abs_of_nonpos (by linarith)] at h6
      have h7 : x = 2 ^ F.prec - 1 / 2 := by linarith
      have h8 := (h6 (by linarith) (fun h8 => by
        have : (2 : ℚ) ^ F.prec = roundEven x := by exact_mod_cast h8
        linarith)).1
      have h9 : roundEven x + 1 = 2 ^ F.prec := by
        have : (roundEven x : ℚ) + 1 = 2 ^ F.prec := by linarith
        exact_mod_cast this
      have h10 : 2 ∣ 2 ^ F.prec := dvd_pow_self 2 (by omega)
      omega
  · have h2 := F.ulp_le hq (by have := F.emin_nonpos; have := F.emax_nonneg; omega)
    have h3 : (2 : ℚ) ^ (F.prec - 1) ≤ roundEven (q / 2 ^ F.ulpExp q) := by
      exact_mod_cast le_roundEven hx (k := 2 ^ (F.prec - 1)) (by push_cast; exact h2)
    have h4 := F.maxFin_lt (e := F.ulpExp q - 1) (by omega)
    have h5 : (2 : ℚ) ^ F.prec * 2 ^ (F.ulpExp q - 1) = 2 ^ (F.prec - 1) * 2 ^ F.ulpExp q := by
      rw [zpow_sub_one₀ (by norm_num), hpp]
      ring
    have h6 : (2 : ℚ) ^ (F.prec - 1) * 2 ^ F.ulpExp q ≤ F.rnd q :=
      mul_le_mul_of_nonneg_right h3 hu.le
    refine ⟨fun _ => ?_, fun _ => by linarith⟩
    rw [le_div_iff₀ hu] at h2
    have h7 : (2 : ℚ) ^ F.prec * 2 ^ F.emax ≤ 2 ^ F.prec * 2 ^ (F.ulpExp q - 1) :=
      mul_le_mul_of_nonneg_left (zpow_le_zpow_right₀ (by norm_num) (by omega)) (by positivity)
    linarith

end FloatFormat

variable {F : FloatFormat}

theorem isFloat_neg {y : ℚ} (h : IsFloat F y) : IsFloat F (-y) := by
  rw [IsFloat, abs_neg]
  exact h

theorem isFloat_zero : IsFloat F 0 := by
  rw [IsFloat, abs_zero]
  exact F.mag_zero

theorem RoundsTo.neg {x y : ℚ} (h : RoundsTo F x y) : RoundsTo F (-x) (-y) := by
  have key : ∀ a b : ℚ, |-a - -b| = |a - b| := fun a b => by
    rw [show -a - -b = -(a - b) by ring, abs_neg]
  refine ⟨isFloat_neg h.isFloat, fun z hz => ?_, fun z hz hne h' => ?_⟩
  · have := h.nearest (-z) (isFloat_neg hz)
    rwa [← key, ← key (-z), neg_neg] at this
  · obtain ⟨k, hk⟩ := h.ties (-z) (isFloat_neg hz) (fun h => hne (by rw [← h, neg_neg])) (by
      rw [← key, ← key y, neg_neg]
      exact h')
    refine ⟨-k, ?_⟩
    rw [show -y - z = -(y - -z) by ring, abs_neg]
    nth_rw 1 [hk]
    push_cast
    ring

/-- A number of the format rounds to itself. -/
theorem roundsTo_self {x : ℚ} (h : IsFloat F x) : RoundsTo F x x :=
  ⟨h, fun z _ => by rw [sub_self, abs_zero]; exact abs_nonneg _, fun z _ hne h' => by
    rw [sub_self, abs_zero, abs_eq_zero, sub_eq_zero] at h'
    exact absurd h' hne⟩

theorem RoundsTo.unique {x y z : ℚ} (h : RoundsTo F x y) (h' : RoundsTo F x z) : y = z := by
  by_contra hne
  have he : |y - x| = |z - x| := le_antisymm (h.nearest z h'.isFloat) (h'.nearest y h.isFloat)
  obtain ⟨k, hk⟩ := h.ties z h'.isFloat (Ne.symm hne) he.symm
  obtain ⟨l, hl⟩ := h'.ties y h.isFloat hne he
  rw [abs_sub_comm] at hl
  have hd : 0 < |y - z| := abs_pos.2 (sub_ne_zero.2 hne)
  have h1 : y - z = 2 * (k - l) * |y - z| := by linear_combination hk - hl
  have h2 : |y - z| = |2 * ((k : ℚ) - l)| * |y - z| := by
    nth_rw 1 [h1]
    rw [abs_mul, abs_abs]
  have h3 : |2 * ((k : ℚ) - l)| = 1 := by
    have := mul_right_cancel₀ hd.ne' (h2.symm.trans (one_mul _).symm)
    exact this
  have h4 : |2 * (k - l)| = (1 : ℤ) := by exact_mod_cast h3
  rcases abs_choice (2 * (k - l)) with h5 | h5 <;> omega

theorem RoundsTo.mono {x x' y y' : ℚ} (h : RoundsTo F x y) (h' : RoundsTo F x' y') (hx : x ≤ x') :
    y ≤ y' := by
  by_contra hlt
  have hlt := not_le.1 hlt
  have h1 := h.nearest y' h'.isFloat
  have h2 := h'.nearest y h.isFloat
  rcases hx.eq_or_lt with rfl | hx
  · exact hlt.ne' (h.unique h')
  · rcases abs_cases (y - x) with ⟨a1, b1⟩ | ⟨a1, b1⟩ <;>
    rcases abs_cases (y' - x) with ⟨a2, b2⟩ | ⟨a2, b2⟩ <;>
    rcases abs_cases (y - x') with ⟨a3, b3⟩ | ⟨a3, b3⟩ <;>
    rcases abs_cases (y' - x') with ⟨a4, b4⟩ | ⟨a4, b4⟩ <;>
    rw [a1, a2] at h1 <;> rw [a3, a4] at h2 <;> linarith

/-- The value of a finite number is a number of the format. -/
theorem FloatRep.isFloat {a : F.Val} {x : ℚ} (h : FloatRep a x) : IsFloat F x := by
  obtain ⟨s, p, h, rfl, rfl⟩ := h
  have hp : 0 ≤ p := by
    obtain ⟨m, e, -, -, -, rfl⟩ := h
    positivity
  cases s
  · simp only [Bool.false_eq_true, if_false, IsFloat, abs_of_nonneg hp]
    exact h
  · simp only [if_true, IsFloat, abs_neg, abs_of_nonneg hp]
    exact h

/-- Every number of the format is the value of a finite number. -/
theorem IsFloat.rep {x : ℚ} (h : IsFloat F x) : ∃ a : F.Val, FloatRep a x := by
  refine ⟨.fin (decide (x < 0)) |x| h, _, _, _, rfl, ?_⟩
  by_cases hx : x < 0
  · rw [decide_eq_true hx, if_pos rfl, abs_of_neg hx, neg_neg]
  · rw [decide_eq_false hx, if_neg (by decide), abs_of_nonneg (not_lt.1 hx)]

theorem not_overflows_zero : ¬ Overflows F 0 := by
  rw [Overflows, abs_zero, not_le]
  have h1 : (1 : ℚ) ≤ 2 ^ F.prec := one_le_pow₀ (by norm_num)
  have h2 : (0 : ℚ) < 2 ^ F.emax := by positivity
  exact mul_pos (by linarith) h2

/-- Numbers of the format do not overflow. -/
theorem IsFloat.not_overflows {x : ℚ} (h : IsFloat F x) : ¬ Overflows F x := by
  obtain ⟨m, e, h1, -, h2, h3⟩ := h
  rw [Overflows, h3, not_le]
  have h4 : (m : ℚ) ≤ 2 ^ F.prec - 1 := by
    have : (m : ℚ) + 1 ≤ 2 ^ F.prec := by exact_mod_cast h1
    linarith
  have h5 : (2 : ℚ) ^ e ≤ 2 ^ F.emax := zpow_le_zpow_right₀ (by norm_num) h2
  have h6 : (0 : ℚ) < 2 ^ F.emax := by positivity
  calc (m : ℚ) * 2 ^ e ≤ m * 2 ^ F.emax := mul_le_mul_of_nonneg_left h5 (by positivity)
    _ < _ := mul_lt_mul_of_pos_right (by linarith) h6

theorem overflows_neg {x : ℚ} : Overflows F (-x) ↔ Overflows F x := by
  rw [Overflows, Overflows, abs_neg]

theorem roundMag_le (s : Bool) {q : ℚ} (hq : 0 ≤ q) (h : F.rnd q ≤ F.maxFin) :
    F.roundMag s q hq = .fin s (F.rnd q) (F.mag_round hq h) := dif_pos h

theorem roundMag_gt (s : Bool) {q : ℚ} (hq : 0 ≤ q) (h : F.maxFin < F.rnd q) :
    F.roundMag s q hq = .inf s := dif_neg (not_le.2 h)

/-- `round` rounds. -/
theorem round_spec (s : Bool) (x : ℚ) :
    (Overflows F x → F.round s x = .inf (decide (x < 0))) ∧
    (¬ Overflows F x → ∃ y, FloatRep (F.round s x) y ∧ RoundsTo F x y) := by
  by_cases hx : x = 0
  · subst hx
    refine ⟨fun h => absurd h not_overflows_zero, fun _ => ⟨0, ?_, roundsTo_self isFloat_zero⟩⟩
    have h1 : F.rnd |0| ≤ F.maxFin := by
      rw [abs_zero, F.rnd_zero]
      have h1 : (1 : ℚ) ≤ 2 ^ F.prec := one_le_pow₀ (by norm_num)
      exact mul_nonneg (by linarith) (by positivity)
    have h2 : F.rnd |0| = 0 := by rw [abs_zero, F.rnd_zero]
    rw [FloatFormat.round, roundMag_le _ _ h1]
    refine ⟨_, _, _, rfl, ?_⟩
    show (0 : ℚ) = if (if (0 : ℚ) = 0 then s else decide ((0 : ℚ) < 0)) then -F.rnd |0| else F.rnd |0|
    rw [h2, neg_zero, ite_self]
  · have hq : 0 < |x| := abs_pos.2 hx
    have h1 := F.rnd_overflow hq
    rw [FloatFormat.round, if_neg hx]
    constructor
    · intro h
      rw [roundMag_gt _ _ (h1.2 h)]
    · intro h
      have h2 : F.rnd |x| ≤ F.maxFin := not_lt.1 fun h' => h (h1.1 h')
      rw [roundMag_le _ _ h2]
      have h3 := F.rnd_spec hq h2
      by_cases hn : x < 0
      · rw [decide_eq_true hn]
        refine ⟨-F.rnd |x|, ⟨_, _, _, rfl, rfl⟩, ?_⟩
        have := h3.neg
        rwa [abs_of_neg hn, neg_neg, ← abs_of_neg hn] at this
      · rw [decide_eq_false hn]
        refine ⟨F.rnd |x|, ⟨_, _, _, rfl, rfl⟩, ?_⟩
        have := h3
        rwa [abs_of_nonneg (not_lt.1 hn)] at this ⊢

theorem checked_round (s : Bool) (x : ℚ) : Rounded (ApproxFloats.checked (F.round s x)) x := by
  obtain ⟨h1, h2⟩ := round_spec (F := F) s x
  constructor
  · intro h
    rw [h1 h]
    rfl
  · intro h
    obtain ⟨y, hy, hr⟩ := h2 h
    refine ⟨_, y, ?_, hy, hr⟩
    obtain ⟨s', p, h, hs, -⟩ := hy
    rw [hs]
    rfl

theorem floatRep_fin (s : Bool) {p : ℚ} (h : F.Mag p) : FloatRep (.fin s p h) (Val.signed s p) :=
  ⟨_, _, _, rfl, rfl⟩

theorem floatRep_iff {a : F.Val} {x : ℚ} : FloatRep a x ↔ ∃ s p h, a = .fin s p h ∧
    x = Val.signed s p := Iff.rfl

theorem FloatRep.unique {a : F.Val} {x y : ℚ} (h : FloatRep a x) (h' : FloatRep a y) : x = y := by
  obtain ⟨s, p, h, rfl, rfl⟩ := h
  obtain ⟨s', p', h', he, rfl⟩ := h'
  cases he
  rfl

theorem FloatRep.neg {a : F.Val} {x : ℚ} (h : FloatRep a x) : FloatRep a.neg (-x) := by
  obtain ⟨s, p, h, rfl, rfl⟩ := h
  refine ⟨_, _, h, rfl, ?_⟩
  cases s <;> simp

theorem floatRep_zero : FloatRep (Val.zero : F.Val) 0 := ⟨_, _, _, rfl, rfl⟩

theorem floatRep_one : FloatRep (Val.one : F.Val) 1 := ⟨_, _, _, rfl, rfl⟩

theorem FloatRep.eq {a b : F.Val} {x y : ℚ} (ha : FloatRep a x) (hb : FloatRep b y) :
    a.eq b = decide (x = y) := by
  obtain ⟨s, p, h, rfl, rfl⟩ := ha
  obtain ⟨t, q, h', rfl, rfl⟩ := hb
  rfl

theorem FloatRep.le {a b : F.Val} {x y : ℚ} (ha : FloatRep a x) (hb : FloatRep b y) :
    a.le b = decide (x ≤ y) := by
  obtain ⟨s, p, h, rfl, rfl⟩ := ha
  obtain ⟨t, q, h', rfl, rfl⟩ := hb
  rfl

theorem FloatRep.isFinite {a : F.Val} {x : ℚ} (ha : FloatRep a x) : a.isFinite = true := by
  obtain ⟨s, p, h, rfl, rfl⟩ := ha
  rfl

theorem isFinite_iff {a : F.Val} : a.isFinite = true ↔ ∃ x, FloatRep a x := by
  refine ⟨fun h => ?_, fun ⟨x, h⟩ => h.isFinite⟩
  cases a with
  | nan => cases h
  | inf s => cases h
  | fin s p hp => exact ⟨_, floatRep_fin s hp⟩

theorem FloatRep.isNan {a : F.Val} {x : ℚ} (ha : FloatRep a x) : a.isNan = false := by
  obtain ⟨s, p, h, rfl, rfl⟩ := ha
  rfl

theorem FloatRep.add {a b : F.Val} {x y : ℚ} (ha : FloatRep a x) (hb : FloatRep b y) :
    ∃ s, a.add b = F.round s (x + y) := by
  obtain ⟨s, p, h, rfl, rfl⟩ := ha
  obtain ⟨t, q, h', rfl, rfl⟩ := hb
  exact ⟨_, rfl⟩

theorem FloatRep.mul {a b : F.Val} {x y : ℚ} (ha : FloatRep a x) (hb : FloatRep b y) :
    ∃ s, a.mul b = F.round s (x * y) := by
  obtain ⟨s, p, h, rfl, rfl⟩ := ha
  obtain ⟨t, q, h', rfl, rfl⟩ := hb
  exact ⟨_, rfl⟩

theorem signed_eq_zero {s : Bool} {p : ℚ} : Val.signed s p = 0 ↔ p = 0 := by
  cases s <;> simp [Val.signed]

theorem FloatRep.div {a b : F.Val} {x y : ℚ} (ha : FloatRep a x) (hb : FloatRep b y) (hy : y ≠ 0) :
    ∃ s, a.div b = F.round s (x / y) := by
  obtain ⟨s, p, h, rfl, rfl⟩ := ha
  obtain ⟨t, q, h', rfl, rfl⟩ := hb
  refine ⟨s ^^ t, ?_⟩
  show (if q = 0 then (if p = 0 then Val.nan else Val.inf (s ^^ t))
    else F.round (s ^^ t) (Val.signed s p / Val.signed t q)) = _
  rw [if_neg fun h => hy (signed_eq_zero.2 h)]
  rfl

theorem FloatRep.div_zero {a b : F.Val} {x : ℚ} (ha : FloatRep a x) (hb : FloatRep b 0) :
    (a.div b).isFinite = false := by
  obtain ⟨s, p, h, rfl, rfl⟩ := ha
  obtain ⟨t, q, h', rfl, hq⟩ := hb
  show (if q = 0 then (if p = 0 then Val.nan else Val.inf (s ^^ t))
    else F.round (s ^^ t) (Val.signed s p / Val.signed t q) : F.Val).isFinite = false
  rw [if_pos (signed_eq_zero.1 hq.symm)]
  split_ifs <;> rfl

/-- `min` and `max` of finite numbers. -/
theorem FloatRep.min {a b : F.Val} {x y : ℚ} (pick : F.Val → F.Val → Bool) (ha : FloatRep a x)
    (hb : FloatRep b y) : FloatRep (a.min pick b) (min x y) := by
  unfold Val.min
  rw [ha.isNan, hb.isNan, ha.eq hb, ha.le hb, if_neg (by decide), if_neg (by decide)]
  by_cases h : x = y
  · rw [if_pos (decide_eq_true h), h, min_self]
    split_ifs
    · exact h ▸ ha
    · exact hb
  · rw [if_neg (by simpa using h)]
    by_cases h' : x ≤ y
    · rw [if_pos (decide_eq_true h'), min_eq_left h']
      exact ha
    · rw [if_neg (by simpa using h'), min_eq_right (le_of_not_ge h')]
      exact hb

theorem FloatRep.max {a b : F.Val} {x y : ℚ} (pick : F.Val → F.Val → Bool) (ha : FloatRep a x)
    (hb : FloatRep b y) : FloatRep (a.max pick b) (max x y) := by
  unfold Val.max
  rw [ha.isNan, hb.isNan, ha.eq hb, ha.le hb, if_neg (by decide), if_neg (by decide)]
  by_cases h : x = y
  · rw [if_pos (decide_eq_true h), h, max_self]
    split_ifs
    · exact h ▸ ha
    · exact hb
  · rw [if_neg (by simpa using h)]
    by_cases h' : x ≤ y
    · rw [if_pos (decide_eq_true h'), max_eq_right h']
      exact hb
    · rw [if_neg (by simpa using h'), max_eq_left (le_of_not_ge h')]
      exact ha

/-- A sum of two numbers of the format is a multiple of the least positive number. -/
theorem sum_small {x y : ℚ} (hx : IsFloat F x) (hy : IsFloat F y) :
    ∃ k : ℤ, x + y = k * 2 ^ F.emin := by
  have key : ∀ {z : ℚ}, IsFloat F z → ∃ k : ℤ, z = k * 2 ^ F.emin := fun {z} hz => by
    obtain ⟨m, e, -, h2, -, h3⟩ := hz
    obtain ⟨n, hn⟩ := Int.eq_ofNat_of_zero_le (sub_nonneg.2 h2)
    have h4 : (2 : ℚ) ^ e = 2 ^ n * 2 ^ F.emin := by
      rw [← zpow_natCast, ← zpow_add₀ (by norm_num)]
      congr 1
      omega
    rcases abs_choice z with h5 | h5
    · refine ⟨m * 2 ^ n, ?_⟩
      rw [← h5, h3, h4]
      push_cast
      ring
    · refine ⟨-(m * 2 ^ n), ?_⟩
      rw [← neg_neg z, ← h5, h3, h4]
      push_cast
      ring
  obtain ⟨k, hk⟩ := key hx
  obtain ⟨l, hl⟩ := key hy
  exact ⟨k + l, by rw [hk, hl]; push_cast; ring⟩

/-- Sums do not underflow: a sum rounds to zero only if it is zero. -/
theorem sum_rounds_zero {x y : ℚ} (hx : IsFloat F x) (hy : IsFloat F y)
    (h : RoundsTo F (x + y) 0) : x + y = 0 := by
  by_contra hne
  obtain ⟨k, hk⟩ := sum_small hx hy
  have hu : (0 : ℚ) < 2 ^ F.emin := by positivity
  have hk0 : k ≠ 0 := fun h0 => hne (by rw [hk, h0]; simp)
  have hf : IsFloat F (2 ^ F.emin) := by
    refine ⟨1, F.emin, Nat.one_lt_two_pow (by have := F.prec_pos; omega), le_rfl,
      F.emin_nonpos.trans F.emax_nonneg, ?_⟩
    rw [abs_of_pos hu, Nat.cast_one, one_mul]
  rw [hk] at h
  rcases lt_or_gt_of_ne hk0 with h1 | h1
  · have h2 : (k : ℚ) ≤ -1 := by exact_mod_cast Int.le_sub_one_of_lt h1
    have h4 : (k : ℚ) * 2 ^ F.emin ≤ -1 * 2 ^ F.emin := mul_le_mul_of_nonneg_right h2 hu.le
    have h3 := h.nearest _ (isFloat_neg hf)
    rw [abs_of_nonneg (by linarith), abs_of_nonneg (by linarith)] at h3
    linarith
  · have h2 : (1 : ℚ) ≤ k := by exact_mod_cast h1
    have h4 : 1 * 2 ^ F.emin ≤ (k : ℚ) * 2 ^ F.emin := mul_le_mul_of_nonneg_right h2 hu.le
    have h3 := h.nearest _ hf
    rw [abs_of_nonpos (by linarith), abs_of_nonpos (by linarith)] at h3
    linarith

end Abstalg
