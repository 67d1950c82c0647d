import Verif.Model.DivisibilityOrder
import Verif.Model.ReducedFractions
import Verif.Spec.FloatFractions
import Verif.Proofs.FloatEuclid
import Verif.Props.FloatExact
import Verif.Props.FloatError
import Verif.Props.NonFinite

/-! # C89: floats as a Euclidean domain

The blanket implementations of `IntegralDomain` and `EuclideanDomain` for fields, the divisibility order and
the reduced fractions, over finite floats. -/

set_option autoImplicit false

namespace Abstalg

open FloatFormat

variable [Cfg] {F : FloatFormat} {a b : F.Val} {x y : ℚ}

/-- C89: `try_div`, `quo`, `rem` and `quo_rem`. The remainder is always zero, whatever the rounding of the
quotient lost; only the methods that compute a quotient panic if it overflows. -/
theorem C89_division (ha : FloatRep a x) (hb : FloatRep b y) :
    (y = 0 → (ApproxFloats.field F).toEuclidean.tryDiv a b = .panic ∧
      (ApproxFloats.field F).toEuclidean.quo a b = .panic ∧
      (ApproxFloats.field F).toEuclidean.rem a b = .panic ∧
      (ApproxFloats.field F).toEuclidean.quoRem a b = .panic) ∧
    (y ≠ 0 → ∃ r, (ApproxFloats.field F).toEuclidean.rem a b = .ok r ∧ FloatRep r 0 ∧
      (Overflows F (x / y) → (ApproxFloats.field F).toEuclidean.tryDiv a b = .panic ∧
        (ApproxFloats.field F).toEuclidean.quo a b = .panic ∧
        (ApproxFloats.field F).toEuclidean.quoRem a b = .panic) ∧
      (¬ Overflows F (x / y) → ∃ q z, (ApproxFloats.field F).toEuclidean.tryDiv a b = .ok (some q) ∧
        (ApproxFloats.field F).toEuclidean.quo a b = .ok q ∧
        (ApproxFloats.field F).toEuclidean.quoRem a b = .ok (q, r) ∧ FloatRep q z ∧ RoundsTo F (x / y) z)) := by
  have hz := (C55_equals hb hb).2.1
  have h0 : (ApproxFloats.field F).zero = .ok Val.zero := rfl
  obtain ⟨h1, h2⟩ := C55_div ha hb
  simp only [FieldOps.toEuclidean, FieldOps.toIntegralDomain, hz, ok_bind, h0]
  constructor
  · intro hy
    rw [h1 hy, decide_eq_true hy]
    exact ⟨rfl, rfl, rfl, rfl⟩
  · intro hy
    obtain ⟨h3, h4⟩ := h2 hy
    rw [decide_eq_false hy]
    refine ⟨Val.zero, rfl, floatRep_zero, fun ho => ?_, fun ho => ?_⟩
    · rw [h3 ho]
      exact ⟨rfl, rfl, rfl⟩
    · obtain ⟨q, z, h5, h6, h7⟩ := h4 ho
      rw [h5]
      exact ⟨q, z, rfl, rfl, rfl, h6, h7⟩

/-- One divided by three: the remainder is zero although three times the quotient is not one. -/
example : ∃ b q r : FloatFormat.f64.Val, ∃ z, FloatRep b 3 ∧
    (ApproxFloats.field .f64).toEuclidean.quoRem Val.one b = .ok (q, r) ∧ FloatRep r 0 ∧ FloatRep q z ∧
    3 * z ≠ 1 := by
  obtain ⟨b, hb⟩ : ∃ b : FloatFormat.f64.Val, FloatRep b 3 :=
    (C55_members _).2 ⟨3, 0, by decide, by decide, by decide, by norm_num [abs_of_nonneg]⟩
  obtain ⟨r, -, hr, -, h⟩ := (C89_division floatRep_one hb).2 (by norm_num)
  obtain ⟨q, z, -, -, h1, h2, h3⟩ := h fun ho => floatRep_one.isFloat.not_overflows
    (ho.trans (by rw [abs_of_nonneg (by norm_num)]; norm_num))
  refine ⟨b, q, r, z, hb, h1, hr, h2, fun h4 => ?_⟩
  obtain ⟨k, e, -, -, -, h5⟩ := h2.isFloat.multiple
  have h6 : (1 : ℚ) = 3 * k * 2 ^ e := by rw [← h4, h5]; ring
  have h7 : (2 : ℚ) ^ (-e) = 3 * k := by
    rw [zpow_neg]
    exact inv_eq_of_mul_eq_one_left h6.symm
  rcases le_or_gt e 0 with he | he
  · obtain ⟨n, hn⟩ := Int.eq_ofNat_of_zero_le (neg_nonneg.2 he)
    rw [hn] at h7
    have h8 : (2 : ℤ) ^ n = 3 * k := by exact_mod_cast h7
    have h9 : (3 : ℤ) ∣ 2 ^ n := ⟨k, h8⟩
    have := Int.prime_three.dvd_of_dvd_pow h9
    omega
  · obtain ⟨n, hn⟩ := Int.eq_ofNat_of_zero_le he.le
    rw [hn] at h6
    have h8 : (1 : ℤ) = 3 * k * 2 ^ n := by exact_mod_cast h6
    have : (3 : ℤ) ∣ 1 := ⟨k * 2 ^ n, by rw [h8]; ring⟩
    omega

/-- C89: `divisible` and `associates`. They compute the quotients, so that they panic if these overflow. -/
theorem C89_divisible (ha : FloatRep a x) (hb : FloatRep b y) :
    (y = 0 → (ApproxFloats.field F).toEuclidean.divisible a b = .ok (decide (x = 0))) ∧
    (y ≠ 0 → Overflows F (x / y) → (ApproxFloats.field F).toEuclidean.divisible a b = .panic) ∧
    (y ≠ 0 → ¬ Overflows F (x / y) → (ApproxFloats.field F).toEuclidean.divisible a b = .ok true) := by
  have h0 : (ApproxFloats.field F).toEuclidean.divisible a b =
      ((ApproxFloats.field F).isZero b).bind fun z => if z then (ApproxFloats.field F).isZero a else
        ((ApproxFloats.field F).toEuclidean.tryDiv a b).bind fun o => .ok o.isSome := rfl
  rw [h0, (C55_equals hb hb).2.1, (C55_equals ha ha).2.1]
  refine ⟨fun hy => ?_, fun hy ho => ?_, fun hy ho => ?_⟩
  · rw [decide_eq_true hy]
    rfl
  · obtain ⟨r, -, -, h1, -⟩ := (C89_division ha hb).2 hy
    rw [decide_eq_false hy, (h1 ho).1]
    rfl
  · obtain ⟨r, -, -, -, h1⟩ := (C89_division ha hb).2 hy
    obtain ⟨q, z, h2, -⟩ := h1 ho
    rw [decide_eq_false hy, h2]
    rfl

/-- C89: `associates`. -/
theorem C89_associates (ha : FloatRep a x) (hb : FloatRep b y) :
    (x = 0 ∨ y = 0 → (ApproxFloats.field F).toEuclidean.associates a b = .ok (decide (x = y))) ∧
    (x ≠ 0 → y ≠ 0 → Overflows F (x / y) ∨ Overflows F (y / x) →
      (ApproxFloats.field F).toEuclidean.associates a b = .panic) ∧
    (x ≠ 0 → y ≠ 0 → ¬ Overflows F (x / y) → ¬ Overflows F (y / x) →
      (ApproxFloats.field F).toEuclidean.associates a b = .ok true) := by
  have h0 : (ApproxFloats.field F).toEuclidean.associates a b =
      ((ApproxFloats.field F).toEuclidean.divisible a b).bind fun z =>
        if z then (ApproxFloats.field F).toEuclidean.divisible b a else .ok false := rfl
  obtain ⟨h1, h2, h3⟩ := C89_divisible ha hb
  obtain ⟨h4, h5, h6⟩ := C89_divisible hb ha
  rw [h0]
  have hno : ¬ Overflows F 0 := isFloat_zero.not_overflows
  refine ⟨fun h => ?_, fun hx hy ho => ?_, fun hx hy ho ho' => ?_⟩
  · by_cases hy : y = 0
    · by_cases hx : x = 0
      · rw [h1 hy, h4 hx, decide_eq_true hx, decide_eq_true hy, hx, hy, decide_eq_true rfl]
        rfl
      · rw [h1 hy, decide_eq_false hx, hy, decide_eq_false hx]
        rfl
    · obtain rfl := h.resolve_right hy
      rw [h3 hy (by rwa [zero_div]), h4 rfl, decide_eq_false hy, decide_eq_false (Ne.symm hy)]
      rfl
  · by_cases ho' : Overflows F (x / y)
    · rw [h2 hy ho']
      rfl
    · rw [h3 hy ho', h5 hx (ho.resolve_left ho')]
      rfl
  · rw [h3 hy ho, h6 hx ho']
    rfl

/-- The least number of the format divides the largest one, but the quotient overflows. -/
example : ∃ a b : FloatFormat.f32.Val, FloatRep a 2 ∧ FloatRep b (2 ^ (-149 : ℤ)) ∧
    (ApproxFloats.field .f32).toEuclidean.divisible a b = .panic ∧
    (ApproxFloats.field .f32).toEuclidean.divisible b a = .ok true ∧
    (ApproxFloats.field .f32).toEuclidean.associates b a = .panic := by
  obtain ⟨a, ha⟩ : ∃ a : FloatFormat.f32.Val, FloatRep a 2 :=
    (C55_members _).2 ⟨2, 0, by decide, by decide, by decide, by norm_num [abs_of_nonneg]⟩
  obtain ⟨b, hb⟩ : ∃ b : FloatFormat.f32.Val, FloatRep b (2 ^ (-149 : ℤ)) :=
    (C55_members _).2 ⟨1, -149, by decide, by decide, by decide, by norm_num [abs_of_nonneg]⟩
  have h1 : Overflows .f32 (2 / 2 ^ (-149 : ℤ)) := by
    rw [Overflows, abs_of_nonneg (by positivity)]
    norm_num [FloatFormat.f32]
  have h2 : ¬ Overflows .f32 (2 ^ (-149 : ℤ) / 2) := by
    rw [Overflows, abs_of_nonneg (by positivity), not_le]
    norm_num [FloatFormat.f32]
  exact ⟨a, b, ha, hb, (C89_divisible ha hb).2.1 (by positivity) h1,
    (C89_divisible hb ha).2.2 (by norm_num) h2,
    (C89_associates hb ha).2.1 (by positivity) (by norm_num) (.inr h1)⟩

/-- C89: `associate_repr` is zero or one; `associate_coef` is the rounded inverse. -/
theorem C89_associate (ha : FloatRep a x) :
    (∃ c, (ApproxFloats.field F).toEuclidean.associateRepr a = .ok c ∧ FloatRep c (if x = 0 then 0 else 1)) ∧
    (x = 0 → (ApproxFloats.field F).toEuclidean.associateCoef a = .panic) ∧
    (x ≠ 0 → Rounded ((ApproxFloats.field F).toEuclidean.associateCoef a) x⁻¹) := by
  refine ⟨?_, C55_inv ha⟩
  have h0 : (ApproxFloats.field F).toEuclidean.associateRepr a =
      ((ApproxFloats.field F).isZero a).bind fun z => if z then .ok Val.zero else .ok Val.one := rfl
  rw [h0, (C55_equals ha ha).2.1]
  by_cases hx : x = 0
  · rw [decide_eq_true hx, if_pos hx]
    exact ⟨_, rfl, floatRep_zero⟩
  · rw [decide_eq_false hx, if_neg hx]
    exact ⟨_, rfl, floatRep_one⟩

/-- Three quarters. -/
example : ∃ a c : FloatFormat.f32.Val, FloatRep a (3 / 4) ∧
    (ApproxFloats.field .f32).toEuclidean.associateRepr a = .ok c ∧ FloatRep c 1 := by
  obtain ⟨a, ha⟩ := f32_three_quarters
  obtain ⟨c, h1, h2⟩ := (C89_associate ha).1
  rw [if_neg (by norm_num)] at h2
  exact ⟨a, c, ha, h1, h2⟩

/-- C89: `gcd`, `lcm`, `reduced` and `relative_primes` look only at which operands are zero and never panic. -/
theorem C89_gcd (ha : FloatRep a x) (hb : FloatRep b y) :
    (∃ c, (ApproxFloats.field F).toEuclidean.gcd a b = .ok c ∧ FloatRep c (if x = 0 ∧ y = 0 then 0 else 1)) ∧
    (∃ c, (ApproxFloats.field F).toEuclidean.lcm a b = .ok c ∧ FloatRep c (if x = 0 ∨ y = 0 then 0 else 1)) ∧
    (ApproxFloats.field F).toEuclidean.reduced a b = .ok (decide (x = 0 ∨ y = 0)) ∧
    (ApproxFloats.field F).toEuclidean.relativePrimes a b = .ok (decide (x ≠ 0 ∨ y ≠ 0)) := by
  have hxa := (C55_equals ha ha).2.1
  have hyb := (C55_equals hb hb).2.1
  have h0 : (ApproxFloats.field F).zero = .ok Val.zero := rfl
  have h1 : (ApproxFloats.field F).one = .ok Val.one := rfl
  have hi0 : (ApproxFloats.field F).invertible Val.zero = .ok false :=
    ((C55_try_inv floatRep_zero).1 (.inl rfl)).2
  have hi1 : (ApproxFloats.field F).invertible Val.one = .ok true := by
    obtain ⟨c, y, -, h, -⟩ := (C55_try_inv (F := F) floatRep_one).2 one_ne_zero
      (by rw [inv_one]; exact floatRep_one.isFloat.not_overflows)
    exact h
  have hg : ∀ c, (ApproxFloats.field F).toEuclidean.gcd a b = .ok c →
      (ApproxFloats.field F).toEuclidean.relativePrimes a b = (ApproxFloats.field F).invertible c := fun c h => by
    show ((ApproxFloats.field F).toEuclidean.gcd a b).bind _ = _
    rw [h]
    rfl
  have hgcd : ∃ c, (ApproxFloats.field F).toEuclidean.gcd a b = .ok c ∧
      c = if x = 0 ∧ y = 0 then Val.zero else Val.one := by
    simp only [FieldOps.toEuclidean, hxa, hyb, ok_bind, h0, h1]
    by_cases hx : x = 0 <;> by_cases hy : y = 0 <;> simp [hx, hy]
  obtain ⟨c, hc, hc'⟩ := hgcd
  refine ⟨⟨c, hc, ?_⟩, ?_, ?_, ?_⟩
  · rw [hc']
    split_ifs
    · exact floatRep_zero
    · exact floatRep_one
  · simp only [FieldOps.toEuclidean, hxa, hyb, ok_bind, h0, h1]
    by_cases hx : x = 0 <;> by_cases hy : y = 0 <;> simp [hx, hy, floatRep_zero, floatRep_one]
  · simp only [FieldOps.toEuclidean, hxa, hyb, ok_bind]
    by_cases hx : x = 0 <;> by_cases hy : y = 0 <;> simp [hx, hy]
  · rw [hg c hc, hc']
    by_cases h : x = 0 ∧ y = 0
    · rw [if_pos h, hi0, decide_eq_false (by tauto)]
    · rw [if_neg h, hi1, decide_eq_true (by tauto)]

/-- Three quarters and zero. -/
example : ∃ a c : FloatFormat.f32.Val, FloatRep a (3 / 4) ∧
    (ApproxFloats.field .f32).toEuclidean.gcd a Val.zero = .ok c ∧ FloatRep c 1 := by
  obtain ⟨a, ha⟩ := f32_three_quarters
  obtain ⟨c, h1, h2⟩ := (C89_gcd ha floatRep_zero).1
  rw [if_neg (by norm_num)] at h2
  exact ⟨a, c, ha, h1, h2⟩

/-- C89: `extended_gcd` is the default of `EuclideanDomain`: its greatest common divisor is the second
operand unless that is zero, not the one of `gcd`; and it panics if the unused quotient overflows. -/
theorem C89_extended_gcd (ha : FloatRep a x) (hb : FloatRep b y) :
    (y = 0 → ∃ s t, (ApproxFloats.field F).toEuclidean.extendedGcd a b = .ok (a, s, t) ∧
      FloatRep s 1 ∧ FloatRep t 0) ∧
    (y ≠ 0 → Overflows F (x / y) → (ApproxFloats.field F).toEuclidean.extendedGcd a b = .panic) ∧
    (y ≠ 0 → ¬ Overflows F (x / y) → ∃ s t, (ApproxFloats.field F).toEuclidean.extendedGcd a b = .ok (b, s, t) ∧
      FloatRep s 0 ∧ FloatRep t 1) := by
  have h0 : ∀ a b, (ApproxFloats.field F).toEuclidean.extendedGcd a b =
      ((ApproxFloats.field F).isZero b).bind fun z => if z then .ok (a, Val.one, Val.zero) else
        ((ApproxFloats.field F).toEuclidean.quoRem a b).bind fun p =>
        ((ApproxFloats.field F).toEuclidean.extendedGcd b p.2).bind fun t =>
        ((ApproxFloats.field F).mul t.2.2 p.1).bind fun m =>
        ((ApproxFloats.field F).sub t.2.1 m).bind fun z => .ok (t.1, t.2.2, z) := fun a b => by
    show extendedGcdDefault _ _ _ _ _ _ a b = _
    rw [extendedGcdDefault]
    rfl
  refine ⟨fun hy => ?_, fun hy ho => ?_, fun hy ho => ?_⟩
  · rw [h0, (C55_equals hb hb).2.1, decide_eq_true hy]
    exact ⟨_, _, rfl, floatRep_one, floatRep_zero⟩
  · obtain ⟨r, -, -, h1, -⟩ := (C89_division ha hb).2 hy
    rw [h0, (C55_equals hb hb).2.1, decide_eq_false hy, (h1 ho).2.2]
    rfl
  · obtain ⟨r, -, hr, -, h1⟩ := (C89_division ha hb).2 hy
    obtain ⟨q, z, -, -, h2, hq, -⟩ := h1 ho
    have h3 : (ApproxFloats.field F).toEuclidean.extendedGcd b r = .ok (b, Val.one, Val.zero) := by
      rw [h0, (C55_equals hr hr).2.1, decide_eq_true rfl]
      rfl
    obtain ⟨m, h4, h5⟩ := (C55_mul floatRep_zero hq).1.exact (by rw [zero_mul]; exact isFloat_zero)
    rw [zero_mul] at h5
    obtain ⟨t, h6, h7⟩ := (C55_sub floatRep_one h5).1.exact (by rw [sub_zero]; exact floatRep_one.isFloat)
    rw [sub_zero] at h7
    refine ⟨Val.zero, t, ?_, floatRep_zero, h7⟩
    rw [h0, (C55_equals hb hb).2.1, decide_eq_false hy, h2]
    show ((ApproxFloats.field F).toEuclidean.extendedGcd b r).bind _ = _
    rw [h3]
    show ((ApproxFloats.field F).mul Val.zero q).bind _ = _
    rw [h4]
    show ((ApproxFloats.field F).sub Val.one m).bind _ = _
    rw [h6]
    rfl

/-- One and three quarters: `gcd` finds one, `extended_gcd` three quarters. -/
example : ∃ a s t c : FloatFormat.f32.Val, FloatRep a (3 / 4) ∧
    (ApproxFloats.field .f32).toEuclidean.extendedGcd Val.one a = .ok (a, s, t) ∧ FloatRep s 0 ∧ FloatRep t 1 ∧
    (ApproxFloats.field .f32).toEuclidean.gcd Val.one a = .ok c ∧ FloatRep c 1 := by
  obtain ⟨a, ha⟩ := f32_three_quarters
  obtain ⟨s, t, h1, h2, h3⟩ := (C89_extended_gcd floatRep_one ha).2.2 (by norm_num) (by
    rw [Overflows, abs_of_nonneg (by positivity), not_le]
    norm_num [FloatFormat.f32])
  obtain ⟨c, h4, h5⟩ := (C89_gcd floatRep_one ha).1
  rw [if_neg (by norm_num)] at h5
  exact ⟨a, s, t, c, ha, h1, h2, h3, h4, h5⟩

/-! ## The divisibility order -/

/-- C89: the members of the divisibility order are zero and one; the test panics if the inverse overflows. -/
theorem C89_order_contains (hF : F.emin + F.prec ≤ 0) (hp : 2 ≤ F.prec) (ha : FloatRep a x) :
    (x ≠ 0 → Overflows F x⁻¹ →
      (DivisibilityOrder.domain (ApproxFloats.field F).toIntegralDomain).contains a = .panic) ∧
    (x = 0 ∨ ¬ Overflows F x⁻¹ →
      (DivisibilityOrder.domain (ApproxFloats.field F).toIntegralDomain).contains a =
        .ok (decide (x = 0 ∨ x = 1))) := by
  have h0 : (DivisibilityOrder.domain (ApproxFloats.field F).toIntegralDomain).contains a =
      ((ApproxFloats.field F).isZero a).bind fun z => if z then .ok true else
        ((ApproxFloats.field F).inv a).bind fun c => (ApproxFloats.field F).isOne c := rfl
  rw [h0, (C55_equals ha ha).2.1]
  refine ⟨fun hx ho => ?_, fun ho => ?_⟩
  · rw [decide_eq_false hx, ((C55_inv ha).2 hx).1 ho]
    rfl
  · by_cases hx : x = 0
    · rw [decide_eq_true hx, decide_eq_true (.inl hx)]
      rfl
    · obtain ⟨c, z, h1, h2, h3⟩ := ((C55_inv ha).2 hx).2 (ho.resolve_left hx)
      rw [decide_eq_false hx, h1]
      show (ApproxFloats.field F).isOne c = _
      rw [(C55_equals h2 h2).2.2]
      refine congrArg Res.ok (decide_eq_decide.2 ⟨fun h => .inr (h ▸ h3 |>.inv_one ha.isFloat hF hp), fun h => ?_⟩)
      obtain rfl := h.resolve_left hx
      rw [inv_one] at h3
      exact h3.unique (roundsTo_self floatRep_one.isFloat)

/-- Three quarters is not a member, one is. -/
example : ∃ a : FloatFormat.f32.Val, FloatRep a (3 / 4) ∧
    (DivisibilityOrder.domain (ApproxFloats.field .f32).toIntegralDomain).contains a = .ok false ∧
    (DivisibilityOrder.domain (ApproxFloats.field .f32).toIntegralDomain).contains Val.one = .ok true := by
  obtain ⟨a, ha⟩ := f32_three_quarters
  refine ⟨a, ha, ?_, ?_⟩
  · rw [(C89_order_contains (by decide) (by decide) ha).2 (.inr (by
      rw [Overflows, abs_of_nonneg (by positivity), not_le]
      norm_num [FloatFormat.f32])), decide_eq_false (by norm_num)]
  · rw [(C89_order_contains (by decide) (by decide) floatRep_one).2 (.inr (by
      rw [inv_one]
      exact floatRep_one.isFloat.not_overflows)), decide_eq_true (.inr rfl)]

/-- C89: `leq`, `meet`, `join`, `max` and `min` of the divisibility order. -/
theorem C89_order (ha : FloatRep a x) (hb : FloatRep b y) :
    (x = 0 → (DivisibilityOrder.lattice (ApproxFloats.field F).toEuclidean).leq a b = .ok (decide (y = 0))) ∧
    (x ≠ 0 → Overflows F (y / x) → (DivisibilityOrder.lattice (ApproxFloats.field F).toEuclidean).leq a b = .panic) ∧
    (x ≠ 0 → ¬ Overflows F (y / x) →
      (DivisibilityOrder.lattice (ApproxFloats.field F).toEuclidean).leq a b = .ok true) ∧
    (∃ c, (DivisibilityOrder.lattice (ApproxFloats.field F).toEuclidean).meet a b = .ok c ∧
      FloatRep c (if x = 0 ∧ y = 0 then 0 else 1)) ∧
    (∃ c, (DivisibilityOrder.lattice (ApproxFloats.field F).toEuclidean).join a b = .ok c ∧
      FloatRep c (if x = 0 ∨ y = 0 then 0 else 1)) ∧
    (∃ c, (DivisibilityOrder.boundedOrder (ApproxFloats.field F).toIntegralDomain).max = .ok c ∧ FloatRep c 0) ∧
    ∃ c, (DivisibilityOrder.boundedOrder (ApproxFloats.field F).toIntegralDomain).min = .ok c ∧ FloatRep c 1 := by
  obtain ⟨h1, h2, h3⟩ := C89_divisible hb ha
  obtain ⟨⟨c, hc, hc'⟩, ⟨d, hd, hd'⟩, -, -⟩ := C89_gcd ha hb
  refine ⟨h1, h2, h3, ?_, ?_, ⟨_, rfl, floatRep_zero⟩, ⟨_, rfl, floatRep_one⟩⟩
  · obtain ⟨e, h4, h5⟩ := (C89_associate hc').1
    refine ⟨e, ?_, ?_⟩
    · show ((ApproxFloats.field F).toEuclidean.gcd a b).bind _ = _
      rw [hc]
      exact h4
    · convert h5 using 1
      split_ifs <;> simp_all
  · obtain ⟨e, h4, h5⟩ := (C89_associate hd').1
    refine ⟨e, ?_, ?_⟩
    · show ((ApproxFloats.field F).toEuclidean.lcm a b).bind _ = _
      rw [hd]
      exact h4
    · convert h5 using 1
      split_ifs <;> simp_all

/-- Three quarters and zero. -/
example : ∃ a c : FloatFormat.f32.Val, FloatRep a (3 / 4) ∧
    (DivisibilityOrder.lattice (ApproxFloats.field .f32).toEuclidean).leq a Val.zero = .ok true ∧
    (DivisibilityOrder.lattice (ApproxFloats.field .f32).toEuclidean).leq Val.zero a = .ok false ∧
    (DivisibilityOrder.lattice (ApproxFloats.field .f32).toEuclidean).meet a Val.zero = .ok c ∧ FloatRep c 1 := by
  obtain ⟨a, ha⟩ := f32_three_quarters
  obtain ⟨-, -, h1, ⟨c, h2, h3⟩, -⟩ := C89_order ha floatRep_zero
  rw [if_neg (by norm_num)] at h3
  refine ⟨a, c, ha, h1 (by norm_num) (by rw [zero_div]; exact isFloat_zero.not_overflows), ?_, h2, h3⟩
  rw [(C89_order floatRep_zero ha).1 rfl, decide_eq_false (by norm_num)]

/-! ## Fractions -/

theorem reduce_floats (a b : F.Val) : ReducedFractions.reduce (ApproxFloats.field F).toEuclidean (a, b) =
      ((ApproxFloats.field F).isZero b).bind fun z => (Res.assert (!z)).bind fun _ =>
      ((ApproxFloats.field F).toEuclidean.gcd a b).bind fun g =>
      ((ApproxFloats.field F).toEuclidean.quo a g).bind fun n =>
      ((ApproxFloats.field F).toEuclidean.quo b g).bind fun d =>
      ((ApproxFloats.field F).inv d).bind fun k =>
      ((ApproxFloats.field F).isOne k).bind fun o =>
      if !o then ((ApproxFloats.field F).mul n k).bind fun n' =>
        ((ApproxFloats.field F).mul d k).bind fun d' => .ok (n', d')
      else .ok (n, d) := rfl

/-- C89: `reduce` multiplies the numerator and the denominator by the rounded inverse `z` of the latter, which
leaves a fraction with denominator one as it is. It panics if this inverse overflows, whatever the numerator. -/
theorem C89_reduce (hF : F.emin + F.prec ≤ 0) (hp : 2 ≤ F.prec) (ha : FloatRep a x) (hb : FloatRep b y) :
    (y = 0 → ReducedFractions.reduce (ApproxFloats.field F).toEuclidean (a, b) = .panic) ∧
    (y ≠ 0 → Overflows F y⁻¹ → ReducedFractions.reduce (ApproxFloats.field F).toEuclidean (a, b) = .panic) ∧
    (y ≠ 0 → ¬ Overflows F y⁻¹ → ∃ z, RoundsTo F y⁻¹ z ∧
      (Overflows F (x * z) → ReducedFractions.reduce (ApproxFloats.field F).toEuclidean (a, b) = .panic) ∧
      (¬ Overflows F (x * z) → ∃ c d u w,
        ReducedFractions.reduce (ApproxFloats.field F).toEuclidean (a, b) = .ok (c, d) ∧
        FloatRep c u ∧ RoundsTo F (x * z) u ∧ FloatRep d w ∧ RoundsTo F (y * z) w)) := by
  rw [reduce_floats, (C55_equals hb hb).2.1]
  refine ⟨fun hy => ?_, ?_⟩
  · rw [decide_eq_true hy]
    rfl
  by_cases hy : y = 0
  · exact ⟨fun h => absurd hy h, fun h => absurd hy h⟩
  obtain ⟨⟨g, hg, hg'⟩, -⟩ := C89_gcd ha hb
  rw [if_neg fun h => hy h.2] at hg'
  have hquo : ∀ {a : F.Val} {x : ℚ}, FloatRep a x →
      ∃ n, (ApproxFloats.field F).toEuclidean.quo a g = .ok n ∧ FloatRep n x := fun {a x} ha => by
    obtain ⟨r, -, -, -, h⟩ := (C89_division ha hg').2 one_ne_zero
    rw [div_one] at h
    obtain ⟨q, z, -, h1, -, h2, h3⟩ := h ha.isFloat.not_overflows
    exact ⟨q, h1, h3.unique (roundsTo_self ha.isFloat) ▸ h2⟩
  obtain ⟨n, hn, hn'⟩ := hquo ha
  obtain ⟨d, hd, hd'⟩ := hquo hb
  have h1 : (((.ok (decide (y = 0)) : Res Bool)).bind fun z => (Res.assert (!z)).bind fun _ =>
      ((ApproxFloats.field F).toEuclidean.gcd a b).bind fun g =>
      ((ApproxFloats.field F).toEuclidean.quo a g).bind fun n =>
      ((ApproxFloats.field F).toEuclidean.quo b g).bind fun d =>
      ((ApproxFloats.field F).inv d).bind fun k =>
      ((ApproxFloats.field F).isOne k).bind fun o =>
      if !o then ((ApproxFloats.field F).mul n k).bind fun n' =>
        ((ApproxFloats.field F).mul d k).bind fun d' => .ok (n', d')
      else .ok (n, d)) = ((ApproxFloats.field F).inv d).bind fun k =>
      ((ApproxFloats.field F).isOne k).bind fun o =>
      if !o then ((ApproxFloats.field F).mul n k).bind fun n' =>
        ((ApproxFloats.field F).mul d k).bind fun d' => .ok (n', d')
      else .ok (n, d) := by
    rw [decide_eq_false hy, hg]
    show ((ApproxFloats.field F).toEuclidean.quo a g).bind _ = _
    rw [hn]
    show ((ApproxFloats.field F).toEuclidean.quo b g).bind _ = _
    rw [hd]
    rfl
  rw [h1]
  refine ⟨fun _ ho => ?_, fun _ ho => ?_⟩
  · rw [((C55_inv hd').2 hy).1 ho]
    rfl
  · obtain ⟨k, z, hk, hk', hr⟩ := ((C55_inv hd').2 hy).2 ho
    refine ⟨z, hr, ?_⟩
    have h2 : ∀ k, (Res.ok k).bind (fun k => ((ApproxFloats.field F).isOne k).bind fun o =>
        if !o then ((ApproxFloats.field F).mul n k).bind fun n' =>
          ((ApproxFloats.field F).mul d k).bind fun d' => .ok (n', d')
        else .ok (n, d)) = ((ApproxFloats.field F).isOne k).bind fun o =>
        if !o then ((ApproxFloats.field F).mul n k).bind fun n' =>
          ((ApproxFloats.field F).mul d k).bind fun d' => .ok (n', d')
        else .ok (n, d) := fun k => rfl
    rw [hk, h2, (C55_equals hk' hk').2.2]
    by_cases hz : z = 1
    · subst hz
      obtain rfl := hr.inv_one hb.isFloat hF hp
      rw [decide_eq_true rfl, mul_one, mul_one]
      refine ⟨fun h => absurd h ha.isFloat.not_overflows, fun _ => ⟨n, d, x, 1, rfl, hn', roundsTo_self ha.isFloat,
        hd', roundsTo_self hb.isFloat⟩⟩
    · rw [decide_eq_false hz]
      obtain ⟨h3, h4⟩ := (C55_mul hn' hk').1
      obtain ⟨d', w, h5, h6, h7⟩ := (C55_mul hd' hk').1.2 (hr.mul_inv_not_overflows hp)
      refine ⟨fun h => ?_, fun h => ?_⟩
      · show ((ApproxFloats.field F).mul n k).bind _ = _
        rw [h3 h]
        rfl
      · obtain ⟨c, u, h8, h9, h10⟩ := h4 h
        refine ⟨c, d', u, w, ?_, h9, h10, h6, h7⟩
        show ((ApproxFloats.field F).mul n k).bind _ = _
        rw [h8]
        show ((ApproxFloats.field F).mul d k).bind _ = _
        rw [h5]
        rfl

/-- One half over one quarter is two over one. -/
example : ∃ a b c d : FloatFormat.f32.Val, FloatRep a (1 / 2) ∧ FloatRep b (1 / 4) ∧
    ReducedFractions.reduce (ApproxFloats.field .f32).toEuclidean (a, b) = .ok (c, d) ∧ FloatRep c 2 ∧
    FloatRep d 1 := by
  obtain ⟨a, ha⟩ : ∃ a : FloatFormat.f32.Val, FloatRep a (1 / 2) :=
    (C55_members _).2 ⟨1, -1, by decide, by decide, by decide, by norm_num [abs_of_nonneg]⟩
  obtain ⟨b, hb⟩ : ∃ b : FloatFormat.f32.Val, FloatRep b (1 / 4) :=
    (C55_members _).2 ⟨1, -2, by decide, by decide, by decide, by norm_num [abs_of_nonneg]⟩
  have h4 : IsFloat .f32 (1 / 4)⁻¹ := ⟨4, 0, by decide, by decide, by decide, by norm_num [abs_of_nonneg]⟩
  have h2 : IsFloat .f32 (1 / 2 * (1 / 4)⁻¹) := ⟨2, 0, by decide, by decide, by decide, by norm_num [abs_of_nonneg]⟩
  have h1 : IsFloat .f32 (1 / 4 * (1 / 4)⁻¹) := ⟨1, 0, by decide, by decide, by decide, by norm_num [abs_of_nonneg]⟩
  obtain ⟨z, hz, -, h⟩ := (C89_reduce (by decide) (by decide) ha hb).2.2 (by norm_num) h4.not_overflows
  obtain rfl := hz.unique (roundsTo_self h4)
  obtain ⟨c, d, u, w, h5, h6, h7, h8, h9⟩ := h h2.not_overflows
  obtain rfl := h7.unique (roundsTo_self h2)
  obtain rfl := h9.unique (roundsTo_self h1)
  norm_num at h6 h8
  exact ⟨a, b, c, d, ha, hb, h5, h6, h8⟩

/-- C89: the members are the fractions with denominator one. -/
theorem C89_fraction_contains (hF : F.emin + F.prec ≤ 0) (hp : 2 ≤ F.prec) (ha : FloatRep a x) (hb : FloatRep b y) :
    (x = 0 → y = 0 →
      (ReducedFractions.ops (ApproxFloats.field F).toEuclidean).contains (a, b) = .ok false) ∧
    (x ≠ 0 → y = 0 → (ReducedFractions.ops (ApproxFloats.field F).toEuclidean).contains (a, b) = .panic) ∧
    (y ≠ 0 → Overflows F y⁻¹ →
      (ReducedFractions.ops (ApproxFloats.field F).toEuclidean).contains (a, b) = .panic) ∧
    (y ≠ 0 → ¬ Overflows F y⁻¹ →
      (ReducedFractions.ops (ApproxFloats.field F).toEuclidean).contains (a, b) = .ok (decide (y = 1))) := by
  have h0 : (ReducedFractions.ops (ApproxFloats.field F).toEuclidean).contains (a, b) =
      ((ApproxFloats.field F).toEuclidean.relativePrimes a b).bind fun z => if z then
        ((ApproxFloats.field F).inv b).bind fun c => (ApproxFloats.field F).isOne c else .ok false := rfl
  rw [h0, (C89_gcd ha hb).2.2.2]
  refine ⟨fun hx hy => ?_, fun hx hy => ?_, fun hy ho => ?_, fun hy ho => ?_⟩
  · rw [decide_eq_false (by tauto)]
    rfl
  · rw [decide_eq_true (.inl hx), (C55_inv hb).1 hy]
    rfl
  · rw [decide_eq_true (.inr hy), ((C55_inv hb).2 hy).1 ho]
    rfl
  · obtain ⟨c, z, h1, h2, h3⟩ := ((C55_inv hb).2 hy).2 ho
    rw [decide_eq_true (.inr hy), h1]
    show (ApproxFloats.field F).isOne c = _
    rw [(C55_equals h2 h2).2.2]
    refine congrArg Res.ok (decide_eq_decide.2 ⟨fun h => h ▸ h3 |>.inv_one hb.isFloat hF hp, fun h => ?_⟩)
    subst h
    rw [inv_one] at h3
    exact h3.unique (roundsTo_self floatRep_one.isFloat)

/-- Zero over one is a member. -/
example : (ReducedFractions.ops (ApproxFloats.field .f64).toEuclidean).contains (Val.zero, Val.one) = .ok true ∧
    (ReducedFractions.ops (ApproxFloats.field .f64).toEuclidean).contains (Val.zero, Val.zero) = .ok false ∧
    (ReducedFractions.ops (ApproxFloats.field .f64).toEuclidean).contains (Val.one, Val.zero) = .panic := by
  refine ⟨?_, (C89_fraction_contains (by decide) (by decide) floatRep_zero floatRep_zero).1 rfl rfl,
    (C89_fraction_contains (by decide) (by decide) floatRep_one floatRep_zero).2.1 one_ne_zero rfl⟩
  rw [(C89_fraction_contains (by decide) (by decide) floatRep_zero floatRep_one).2.2.2 one_ne_zero
    (by rw [inv_one]; exact floatRep_one.isFloat.not_overflows), decide_eq_true rfl]

theorem reduce_one (hF : F.emin + F.prec ≤ 0) (hp : 2 ≤ F.prec) (ha : FloatRep a x) (hb : FloatRep b 1) :
    ∃ c d, ReducedFractions.reduce (ApproxFloats.field F).toEuclidean (a, b) = .ok (c, d) ∧ FloatRep c x ∧
      FloatRep d 1 := by
  obtain ⟨z, h1, -, h2⟩ := (C89_reduce hF hp ha hb).2.2 one_ne_zero
    (by rw [inv_one]; exact floatRep_one.isFloat.not_overflows)
  rw [inv_one] at h1
  obtain rfl := h1.unique (roundsTo_self floatRep_one.isFloat)
  rw [mul_one, mul_one] at h2
  obtain ⟨c, d, u, w, h3, h4, h5, h6, h7⟩ := h2 ha.isFloat.not_overflows
  exact ⟨c, d, h3, h5.unique (roundsTo_self ha.isFloat) ▸ h4, h7.unique (roundsTo_self floatRep_one.isFloat) ▸ h6⟩

/-- C89: the members compute as their numerators do, and stay members. -/
theorem C89_fraction_ops (hF : F.emin + F.prec ≤ 0) (hp : 2 ≤ F.prec) {c d : F.Val} (ha : FloatRep a x)
    (hc : FloatRep c 1) (hb : FloatRep b y) (hd : FloatRep d 1) :
    (ReducedFractions.ops (ApproxFloats.field F).toEuclidean).equals (a, c) (b, d) = .ok (decide (x = y)) ∧
    (ReducedFractions.ops (ApproxFloats.field F).toEuclidean).isZero (a, c) = .ok (decide (x = 0)) ∧
    (ReducedFractions.ops (ApproxFloats.field F).toEuclidean).isOne (a, c) = .ok (decide (x = 1)) ∧
    RoundedFraction ((ReducedFractions.ops (ApproxFloats.field F).toEuclidean).mul (a, c) (b, d)) (x * y) ∧
    RoundedFraction ((ReducedFractions.ops (ApproxFloats.field F).toEuclidean).add (a, c) (b, d)) (x + y) ∧
    RoundedFraction ((ReducedFractions.ops (ApproxFloats.field F).toEuclidean).sub (a, c) (b, d)) (x - y) ∧
    ∃ e f, (ReducedFractions.ops (ApproxFloats.field F).toEuclidean).neg (a, c) = .ok (e, f) ∧
      FloatRep e (-x) ∧ FloatRep f 1 := by
  have heq : ∀ {a b c d : F.Val} {x y : ℚ}, FloatRep a x → FloatRep c 1 → FloatRep b y → FloatRep d 1 →
      (ReducedFractions.ops (ApproxFloats.field F).toEuclidean).equals (a, c) (b, d) = .ok (decide (x = y)) := by
    intro a b c d x y ha hc hb hd
    show ((ApproxFloats.field F).equals a b).bind (fun z => if z then (ApproxFloats.field F).equals c d else .ok false)
      = _
    rw [(C55_equals ha hb).1, (C55_equals hc hd).1, decide_eq_true rfl]
    cases decide (x = y) <;> rfl
  have hone : (ReducedFractions.ops (ApproxFloats.field F).toEuclidean).isOne (a, c) = .ok (decide (x = 1)) := by
    show ((ApproxFloats.field F).isOne a).bind (fun z => if z then (ApproxFloats.field F).isOne c else .ok false) = _
    rw [(C55_equals ha ha).2.2, (C55_equals hc hc).2.2, decide_eq_true rfl]
    cases decide (x = 1) <;> rfl
  have hadd : ∀ {a b c d : F.Val} {x y : ℚ}, FloatRep a x → FloatRep c 1 → FloatRep b y → FloatRep d 1 →
      RoundedFraction ((ReducedFractions.ops (ApproxFloats.field F).toEuclidean).add (a, c) (b, d)) (x + y) := by
    intro a b c d x y ha hc hb hd
    have h0 : (ReducedFractions.ops (ApproxFloats.field F).toEuclidean).add (a, c) (b, d) =
        ((ApproxFloats.field F).equals c d).bind fun z => if z then
          ((ApproxFloats.field F).add a b).bind fun n =>
            ReducedFractions.reduce (ApproxFloats.field F).toEuclidean (n, c)
        else ((ApproxFloats.field F).mul a d).bind fun u => ((ApproxFloats.field F).mul c b).bind fun v =>
          ((ApproxFloats.field F).add u v).bind fun n => ((ApproxFloats.field F).mul c d).bind fun e =>
            ReducedFractions.reduce (ApproxFloats.field F).toEuclidean (n, e) := rfl
    rw [h0, (C55_equals hc hd).1, decide_eq_true rfl]
    obtain ⟨h1, h2⟩ := (C55_add ha hb).1
    refine ⟨fun ho => ?_, fun ho => ?_⟩
    · show ((ApproxFloats.field F).add a b).bind _ = _
      rw [h1 ho]
      rfl
    · obtain ⟨n, z, h3, h4, h5⟩ := h2 ho
      obtain ⟨e, f, h6, h7, h8⟩ := reduce_one hF hp h4 hc
      refine ⟨(e, f), z, ?_, h7, h5, h8⟩
      show ((ApproxFloats.field F).add a b).bind _ = _
      rw [h3]
      exact h6
  have hneg : ∀ {a c : F.Val} {x : ℚ}, FloatRep a x → FloatRep c 1 → ∃ e f,
      (ReducedFractions.ops (ApproxFloats.field F).toEuclidean).neg (a, c) = .ok (e, f) ∧
      FloatRep e (-x) ∧ FloatRep f 1 := by
    intro a c x ha hc
    obtain ⟨e, h1, -, h2⟩ := C55_neg ha
    refine ⟨e, c, ?_, h2, hc⟩
    show ((ApproxFloats.field F).neg a).bind _ = _
    rw [h1]
    rfl
  refine ⟨heq ha hc hb hd, heq ha hc floatRep_zero floatRep_one, hone, ?_, hadd ha hc hb hd, ?_, hneg ha hc⟩
  · have h0 : (ReducedFractions.ops (ApproxFloats.field F).toEuclidean).mul (a, c) (b, d) =
        ((ApproxFloats.field F).mul a b).bind fun n => ((ApproxFloats.field F).mul c d).bind fun e =>
            ReducedFractions.reduce (ApproxFloats.field F).toEuclidean (n, e) := rfl
    rw [h0]
    obtain ⟨h1, h2⟩ := (C55_mul ha hb).1
    refine ⟨fun ho => ?_, fun ho => ?_⟩
    · rw [h1 ho]
      rfl
    · obtain ⟨n, z, h3, h4, h5⟩ := h2 ho
      obtain ⟨m, h6, h7⟩ := (C55_mul hc hd).1.exact (by rw [one_mul]; exact floatRep_one.isFloat)
      rw [one_mul] at h7
      obtain ⟨e, f, h8, h9, h10⟩ := reduce_one hF hp h4 h7
      refine ⟨(e, f), z, ?_, h9, h5, h10⟩
      rw [h3]
      show ((ApproxFloats.field F).mul c d).bind _ = _
      rw [h6]
      exact h8
  · obtain ⟨e, f, h1, h2, h3⟩ := hneg hb hd
    have h0 : (ReducedFractions.ops (ApproxFloats.field F).toEuclidean).sub (a, c) (b, d) =
        ((ReducedFractions.ops (ApproxFloats.field F).toEuclidean).neg (b, d)).bind fun e =>
          (ReducedFractions.ops (ApproxFloats.field F).toEuclidean).add e (a, c) := rfl
    rw [h0, h1, sub_eq_add_neg, add_comm]
    exact hadd h2 h3 ha hc

/-- Three quarters over one, doubled. -/
example : ∃ a : FloatFormat.f32.Val, FloatRep a (3 / 4) ∧ RoundedFraction
    ((ReducedFractions.ops (ApproxFloats.field .f32).toEuclidean).add (a, Val.one) (a, Val.one)) (3 / 4 + 3 / 4) := by
  obtain ⟨a, ha⟩ := f32_three_quarters
  exact ⟨a, ha, (C89_fraction_ops (by decide) (by decide) ha floatRep_one ha floatRep_one).2.2.2.2.1⟩

/-- C89: `times` multiplies by the rounded multiplier; unlike the one of the floats it panics if the product
overflows, because `reduce` divides by one. -/
theorem C89_fraction_times (hF : F.emin + F.prec ≤ 0) (hp : 2 ≤ F.prec) {c : F.Val} (ha : FloatRep a x)
    (hc : FloatRep c 1) (n : ℤ) {m : ℚ} (hn : RoundsTo F n m) (hno : ¬ Overflows F n) :
    RoundedFraction ((ReducedFractions.ops (ApproxFloats.field F).toEuclidean).times n (a, c)) (m * x) := by
  have h0 : (ReducedFractions.ops (ApproxFloats.field F).toEuclidean).times n (a, c) =
      ((ApproxFloats.field F).times n a).bind fun n =>
        ReducedFractions.reduce (ApproxFloats.field F).toEuclidean (n, c) := rfl
  obtain ⟨e, h1, h2, h3⟩ := C56_times ha n hn hno
  rw [h0, h1]
  refine ⟨fun ho => ?_, fun ho => ?_⟩
  · obtain ⟨rfl, -⟩ := h3 ho
    set s := decide (m * x < 0)
    have hnf : NonFinite (F := F) (.inf s) := .inr ⟨s, rfl⟩
    have hg := (C76_blanket hnf (C55_equals hc hc).2.1).2.1
    have hq : (ApproxFloats.field F).toEuclidean.quo (.inf s) Val.one = .panic := by
      show ((ApproxFloats.field F).isZero Val.one).bind (fun z => (Res.assert (!z)).bind fun _ =>
        (ApproxFloats.field F).div (.inf s) Val.one) = _
      rw [(C55_equals (F := F) floatRep_one floatRep_one).2.1, decide_eq_false one_ne_zero]
      show ((ApproxFloats.field F).isZero Val.one).bind (fun z => (Res.assert (!z)).bind fun _ =>
        ApproxFloats.checked (Val.div (.inf s) Val.one)) = _
      rw [(C55_equals (F := F) floatRep_one floatRep_one).2.1, decide_eq_false one_ne_zero]
      rfl
    show ReducedFractions.reduce (ApproxFloats.field F).toEuclidean (.inf s, c) = _
    have hob : ∀ {α β : Type} (u : α) (f : α → Res β), (Res.ok u).bind f = f u := fun _ _ => rfl
    rw [reduce_floats, (C55_equals hc hc).2.1, decide_eq_false one_ne_zero, hg]
    simp only [hob, hq]
    rfl
  · obtain ⟨y, h4, h5⟩ := h2 ho
    obtain ⟨f, g, h6, h7, h8⟩ := reduce_one hF hp h4 hc
    exact ⟨(f, g), y, h6, h7, h5, h8⟩

/-- Three times the largest `f32` overflows. -/
example : ∃ a : FloatFormat.f32.Val, FloatRep a ((2 ^ 24 - 1) * 2 ^ 104) ∧
    (ReducedFractions.ops (ApproxFloats.field .f32).toEuclidean).times 3 (a, Val.one) = .panic := by
  obtain ⟨a, ha⟩ : ∃ a : FloatFormat.f32.Val, FloatRep a ((2 ^ 24 - 1) * 2 ^ 104) :=
    (C55_members _).2 ⟨2 ^ 24 - 1, 104, by decide, by decide, by decide, by norm_num [abs_of_nonneg]⟩
  have h3 : IsFloat .f32 ((3 : ℤ) : ℚ) := ⟨3, 0, by decide, by decide, by decide, by norm_num [abs_of_nonneg]⟩
  refine ⟨a, ha, (C89_fraction_times (by decide) (by decide) ha floatRep_one 3 (roundsTo_self h3)
    h3.not_overflows).1 ?_⟩
  rw [Overflows, abs_of_nonneg (by positivity)]
  norm_num [FloatFormat.f32]

/-- C89: `inv` and `try_inv` return the rounded inverse `z` over the rounded product `x * z`; they panic if the
inverse overflows, where `try_inv` of the floats returns `None`. -/
theorem C89_fraction_inv (hF : F.emin + F.prec ≤ 0) (hp : 2 ≤ F.prec) {c : F.Val} (ha : FloatRep a x)
    (hc : FloatRep c 1) :
    (x = 0 → (ReducedFractions.ops (ApproxFloats.field F).toEuclidean).inv (a, c) = .panic ∧
      (ReducedFractions.ops (ApproxFloats.field F).toEuclidean).tryInv (a, c) = .ok none) ∧
    (x ≠ 0 → Overflows F x⁻¹ → (ReducedFractions.ops (ApproxFloats.field F).toEuclidean).inv (a, c) = .panic ∧
      (ReducedFractions.ops (ApproxFloats.field F).toEuclidean).tryInv (a, c) = .panic) ∧
    (x ≠ 0 → ¬ Overflows F x⁻¹ → ∃ p q z w, (ReducedFractions.ops (ApproxFloats.field F).toEuclidean).inv (a, c) = .ok p ∧
      (ReducedFractions.ops (ApproxFloats.field F).toEuclidean).tryInv (a, c) = .ok (some q) ∧
      RoundsTo F x⁻¹ z ∧ RoundsTo F (x * z) w ∧ FloatRep p.1 z ∧ FloatRep p.2 w ∧ FloatRep q.1 z ∧
      FloatRep q.2 w) := by
  have h0 : (ReducedFractions.ops (ApproxFloats.field F).toEuclidean).inv (a, c) =
      ((ApproxFloats.field F).isZero a).bind fun z => (Res.assert (!z)).bind fun _ =>
      ((ApproxFloats.field F).inv a).bind fun k => ((ApproxFloats.field F).isOne k).bind fun o =>
      if !o then ((ApproxFloats.field F).mul c k).bind fun n' =>
        ((ApproxFloats.field F).mul a k).bind fun d' => .ok (n', d')
      else .ok (c, a) := rfl
  have h1 : (ReducedFractions.ops (ApproxFloats.field F).toEuclidean).tryInv (a, c) =
      (((ApproxFloats.field F).isZero a).bind fun z => .ok !z).bind fun z => if z then
        (ReducedFractions.reduce (ApproxFloats.field F).toEuclidean (c, a)).bind fun p => .ok (some p)
      else .ok none := rfl
  rw [h0, h1, (C55_equals ha ha).2.1]
  refine ⟨fun hx => ?_, fun hx ho => ?_, fun hx ho => ?_⟩
  · rw [decide_eq_true hx]
    exact ⟨rfl, rfl⟩
  · rw [decide_eq_false hx, ((C55_inv ha).2 hx).1 ho, (C89_reduce hF hp hc ha).2.1 hx ho]
    exact ⟨rfl, rfl⟩
  · obtain ⟨z, h2, -, h3⟩ := (C89_reduce hF hp hc ha).2.2 hx ho
    rw [one_mul] at h3
    obtain ⟨e, f, u, w, h4, h5, h6, h7, h8⟩ := h3 h2.isFloat.not_overflows
    obtain rfl := h6.unique (roundsTo_self h2.isFloat)
    obtain ⟨k, u', h9, h10, h11⟩ := ((C55_inv ha).2 hx).2 ho
    obtain rfl := h11.unique h2
    rw [decide_eq_false hx, h4, h9]
    have h12 : (((.ok false : Res Bool)).bind fun z => (Res.assert (!z)).bind fun _ =>
        ((.ok k : Res F.Val)).bind fun k => ((ApproxFloats.field F).isOne k).bind fun o =>
        if !o then ((ApproxFloats.field F).mul c k).bind fun n' =>
          ((ApproxFloats.field F).mul a k).bind fun d' => .ok (n', d')
        else .ok (c, a)) = ((ApproxFloats.field F).isOne k).bind fun o =>
        if !o then ((ApproxFloats.field F).mul c k).bind fun n' =>
          ((ApproxFloats.field F).mul a k).bind fun d' => .ok (n', d')
        else .ok (c, a) := rfl
    rw [h12, (C55_equals h10 h10).2.2]
    by_cases hz : u' = 1
    · subst hz
      obtain rfl := h2.inv_one ha.isFloat hF hp
      rw [mul_one] at h8
      obtain rfl := h8.unique (roundsTo_self floatRep_one.isFloat)
      rw [decide_eq_true rfl]
      exact ⟨(c, a), (e, f), 1, 1, rfl, rfl, h2, by rw [mul_one]; exact h8, hc, ha, h5, h7⟩
    · obtain ⟨m, h13, h14⟩ := (C55_mul hc h10).1.exact (by rw [one_mul]; exact h2.isFloat)
      rw [one_mul] at h14
      obtain ⟨d, w', h15, h16, h17⟩ := (C55_mul ha h10).1.2 (h2.mul_inv_not_overflows hp)
      obtain rfl := h17.unique h8
      refine ⟨(m, d), (e, f), u', w', ?_, rfl, h2, h8, h14, h16, h5, h7⟩
      rw [decide_eq_false hz]
      show ((ApproxFloats.field F).mul c k).bind _ = _
      rw [h13]
      show ((ApproxFloats.field F).mul a k).bind _ = _
      rw [h15]
      rfl

/-- Zero has no inverse, one has. -/
example : (ReducedFractions.ops (ApproxFloats.field .f32).toEuclidean).tryInv (Val.zero, Val.one) = .ok none ∧
    ∃ p w, (ReducedFractions.ops (ApproxFloats.field .f32).toEuclidean).inv (Val.one, Val.one) = .ok p ∧
      FloatRep p.2 w ∧ w = 1 := by
  refine ⟨((C89_fraction_inv (by decide) (by decide) floatRep_zero floatRep_one).1 rfl).2, ?_⟩
  obtain ⟨p, q, z, w, h1, -, h2, h3, -, h4, -⟩ := (C89_fraction_inv (F := .f32) (by decide) (by decide) floatRep_one
    floatRep_one).2.2 one_ne_zero (by rw [inv_one]; exact floatRep_one.isFloat.not_overflows)
  rw [inv_one] at h2
  obtain rfl := h2.unique (roundsTo_self floatRep_one.isFloat)
  rw [one_mul] at h3
  exact ⟨p, w, h1, h4, h3.unique (roundsTo_self floatRep_one.isFloat)⟩

/-- C89: the members are not closed under inverses: the one of 49 over one in `f64` and of 41 over one in `f32`
are not members. -/
theorem C89_fraction_inv_not_closed (F : FloatFormat) (k : ℤ) (hF : F = .f64 ∧ k = 49 ∨ F = .f32 ∧ k = 41) :
    ∃ (a : F.Val) (p : F.Val × F.Val), FloatRep a k ∧
      (ReducedFractions.ops (ApproxFloats.field F).toEuclidean).contains (a, Val.one) = .ok true ∧
      (ReducedFractions.ops (ApproxFloats.field F).toEuclidean).inv (a, Val.one) = .ok p ∧
      (ReducedFractions.ops (ApproxFloats.field F).toEuclidean).contains p = .ok false := by
  obtain ⟨⟨a, b, c, ha, h1, h2, h3⟩, -⟩ := C74_failing_laws F k hF
  have hF' : F.emin + F.prec ≤ 0 ∧ 2 ≤ F.prec ∧ (2 : ℚ) ^ (F.emin + F.prec - 1) ≤ 1 / 49 ∧
      F.emin + F.prec - 1 ≤ F.emax ∧ 41 ≤ k ∧ k ≤ 49 ∧ F.emin ≤ -1 ∧ 1 ≤ F.emax := by
    obtain ⟨rfl, rfl⟩ | ⟨rfl, rfl⟩ := hF <;>
      refine ⟨by decide, by decide, ?_, by decide, by decide, by decide, by decide, by decide⟩ <;>
      exact le_trans (zpow_le_zpow_right₀ (n := -6) (by norm_num) (by decide)) (by norm_num)
  obtain ⟨hF1, hF2, hF3, hF4, hk1, hk2, he1, he2⟩ := hF'
  have hk1' : (41 : ℚ) ≤ k := by exact_mod_cast hk1
  have hk2' : (k : ℚ) ≤ 49 := by exact_mod_cast hk2
  have hk0 : (k : ℚ) ≠ 0 := by linarith
  have hi : (k : ℚ) * (k : ℚ)⁻¹ = 1 := mul_inv_cancel₀ hk0
  have hi0 : (0 : ℚ) < (k : ℚ)⁻¹ := inv_pos.2 (by linarith)
  have hone : IsFloat F 1 := floatRep_one.isFloat
  have h1le : ∀ {q : ℚ}, |q| ≤ 1 → ¬ Overflows F q := fun {q} hq ho =>
    hone.not_overflows (ho.trans (by rwa [abs_one]))
  have hno : ¬ Overflows F (k : ℚ)⁻¹ := h1le (by rw [abs_of_pos hi0]; nlinarith)
  obtain ⟨p, q, z, w, h4, -, h5, h6, h7, h8, -⟩ := (C89_fraction_inv hF1 hF2 ha floatRep_one).2.2 hk0 hno
  refine ⟨a, p, ha, ?_, h4, ?_⟩
  · rw [(C89_fraction_contains hF1 hF2 ha floatRep_one).2.2.2 one_ne_zero
      (by rw [inv_one]; exact hone.not_overflows), decide_eq_true rfl]
  have hw1 : w ≠ 1 := by
    obtain ⟨z', h9, h10, -⟩ := ((C55_inv ha).2 hk0).inv h1
    obtain rfl := h10.unique h5
    obtain ⟨w', h11, h12, -⟩ := (C55_mul ha h9).1.inv h2
    obtain rfl := h12.unique h6
    rw [(C55_equals h11 h11).2.2] at h3
    intro hw
    rw [decide_eq_true hw] at h3
    cases h3
  have hu : unitRoundoff F ≤ 1 / 4 := by
    unfold unitRoundoff
    refine one_div_le_one_div_of_le (by norm_num) ?_
    calc (4 : ℚ) = 2 ^ 2 := by norm_num
      _ ≤ 2 ^ F.prec := pow_le_pow_right₀ (by norm_num) hF2
  have hb : |z - (k : ℚ)⁻¹| ≤ 1 / 4 * (k : ℚ)⁻¹ := by
    have := ((h5.bounds hno).2.1 (hF3.trans (by rw [abs_of_pos hi0]; nlinarith)) hF4).1
    rw [abs_of_pos hi0] at this
    exact this.trans (mul_le_mul_of_nonneg_right hu hi0.le)
  have hhalf : IsFloat F (1 / 2) := ⟨1, -1, Nat.one_lt_two_pow (by omega), he1, by omega, by norm_num [abs_of_nonneg]⟩
  have hw : 1 / 2 ≤ w := by
    refine (roundsTo_self hhalf).mono h6 ?_
    have := (abs_le.1 hb).1
    nlinarith
  have hwi : w * w⁻¹ = 1 := mul_inv_cancel₀ (by linarith)
  have hwi0 : 0 < w⁻¹ := inv_pos.2 (by linarith)
  have htwo : IsFloat F 2 := ⟨1, 1, Nat.one_lt_two_pow (by omega), by omega, he2, by norm_num [abs_of_nonneg]⟩
  rw [(C89_fraction_contains hF1 hF2 h7 h8).2.2.2 (by linarith) (fun ho => htwo.not_overflows (ho.trans (by
    rw [abs_of_pos hwi0, abs_of_pos (by norm_num)]
    nlinarith))), decide_eq_false hw1]

/-- The formats are as required. -/
example : ∃ (a : FloatFormat.f64.Val) (p : FloatFormat.f64.Val × FloatFormat.f64.Val), FloatRep a 49 ∧
    (ReducedFractions.ops (ApproxFloats.field .f64).toEuclidean).inv (a, Val.one) = .ok p ∧
    (ReducedFractions.ops (ApproxFloats.field .f64).toEuclidean).contains p = .ok false := by
  obtain ⟨a, p, h1, -, h2, h3⟩ := C89_fraction_inv_not_closed .f64 49 (.inl ⟨rfl, rfl⟩)
  exact ⟨a, p, by exact_mod_cast h1, h2, h3⟩

end Abstalg
