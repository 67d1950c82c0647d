import Verif.Proofs.Floats

/-! # Approximate floats: C55, C56 -/

set_option linter.unusedSectionVars false

set_option autoImplicit false

namespace Abstalg

open FloatFormat

variable [Cfg] {F : FloatFormat}

/-- C55: `contains` holds exactly for the finite values. -/
theorem C55_contains (a : F.Val) :
    (ApproxFloats.domain F).contains a = .ok true ∧ (∃ x, FloatRep a x) ∨
    (ApproxFloats.domain F).contains a = .ok false ∧ ¬ ∃ x, FloatRep a x := by
  rw [← isFinite_iff]
  show Res.ok a.isFinite = .ok true ∧ _ ∨ Res.ok a.isFinite = .ok false ∧ _
  cases a.isFinite <;> simp

/-- One is finite; infinity and not-a-number are not. -/
example : (ApproxFloats.domain .f32).contains Val.one = .ok true ∧
    (ApproxFloats.domain .f32).contains (.inf true) = .ok false ∧
    (ApproxFloats.domain .f32).contains .nan = .ok false :=
  ⟨congrArg Res.ok floatRep_one.isFinite, rfl, rfl⟩

/-- C55: every number of the format is the value of a member, and conversely. -/
theorem C55_members (x : ℚ) : (∃ a : F.Val, FloatRep a x) ↔ IsFloat F x :=
  ⟨fun ⟨_, h⟩ => h.isFloat, fun h => h.rep⟩

theorem f32_three_quarters : ∃ a : FloatFormat.f32.Val, FloatRep a (3 / 4) :=
  (C55_members _).2 ⟨3, -2, by decide, by decide, by decide, by norm_num [abs_of_nonneg]⟩

/-- Three quarters is a number of the format `f32`. -/
example : IsFloat .f32 (3 / 4) := ⟨3, -2, by decide, by decide, by decide, by norm_num [abs_of_nonneg]⟩

/-- C55: `equals`, `is_zero` and `is_one` compare values. -/
theorem C55_equals {a b : F.Val} {x y : ℚ} (ha : FloatRep a x) (hb : FloatRep b y) :
    (ApproxFloats.field F).equals a b = .ok (decide (x = y)) ∧
    (ApproxFloats.field F).isZero a = .ok (decide (x = 0)) ∧
    (ApproxFloats.field F).isOne a = .ok (decide (x = 1)) :=
  ⟨congrArg Res.ok (ha.eq hb), congrArg Res.ok (ha.eq floatRep_zero),
    congrArg Res.ok (ha.eq floatRep_one)⟩

/-- Zero and one are values. -/
example : FloatRep (Val.zero : FloatFormat.f32.Val) 0 ∧ FloatRep (Val.one : FloatFormat.f32.Val) 1 ∧
    (ApproxFloats.field .f32).equals Val.zero Val.one = .ok false :=
  ⟨floatRep_zero, floatRep_one, by
    rw [(C55_equals (F := .f32) floatRep_zero floatRep_one).1]; rfl⟩

/-- C55: `zero` and `one`. -/
theorem C55_constants : (∃ a, (ApproxFloats.field F).zero = .ok a ∧ FloatRep a 0) ∧
    ∃ a, (ApproxFloats.field F).one = .ok a ∧ FloatRep a 1 :=
  ⟨⟨_, rfl, floatRep_zero⟩, ⟨_, rfl, floatRep_one⟩⟩

example : ∃ a, (ApproxFloats.field .f32).one = .ok a ∧ FloatRep a 1 := C55_constants.2

/-- C55: sums are correctly rounded, and panic exactly if they overflow. -/
theorem C55_add {a b : F.Val} {x y : ℚ} (ha : FloatRep a x) (hb : FloatRep b y) :
    Rounded ((ApproxFloats.field F).add a b) (x + y) ∧
    Rounded ((ApproxFloats.field F).addAssign a b) (x + y) ∧
    Rounded ((ApproxFloats.field F).double a) (x + x) := by
  have key : ∀ {a b : F.Val} {x y : ℚ}, FloatRep a x → FloatRep b y →
      Rounded ((ApproxFloats.field F).add a b) (x + y) := fun {a b x y} ha hb => by
    obtain ⟨s, hs⟩ := ha.add hb
    show Rounded (ApproxFloats.checked (a.add b)) _
    rw [hs]
    exact checked_round s _
  exact ⟨key ha hb, key ha hb, key ha ha⟩

/-- Three quarters and one. -/
example : ∃ a : FloatFormat.f32.Val, FloatRep a (3 / 4) ∧
    Rounded ((ApproxFloats.field .f32).add a Val.one) (3 / 4 + 1) := by
  obtain ⟨a, ha⟩ := f32_three_quarters
  exact ⟨a, ha, (C55_add ha floatRep_one).1⟩

/-- C55: differences. -/
theorem C55_sub {a b : F.Val} {x y : ℚ} (ha : FloatRep a x) (hb : FloatRep b y) :
    Rounded ((ApproxFloats.field F).sub a b) (x - y) ∧
    Rounded ((ApproxFloats.field F).subAssign a b) (x - y) := by
  have h1 : Rounded ((ApproxFloats.field F).sub a b) (x - y) := by
    obtain ⟨s, hs⟩ := ha.add hb.neg
    show Rounded (ApproxFloats.checked (a.add b.neg)) _
    rw [hs, ← sub_eq_add_neg]
    exact checked_round s _
  refine ⟨h1, ?_⟩
  have h2 : (ApproxFloats.field F).subAssign a b = (ApproxFloats.field F).sub a b := by
    show (ApproxFloats.checked b.neg >>= fun e => ApproxFloats.checked (a.add e)) =
      ApproxFloats.checked (a.add b.neg)
    obtain ⟨t, q, h', rfl, rfl⟩ := hb
    rfl
  rw [h2]
  exact h1

/-- One minus one is zero. -/
example : Rounded ((ApproxFloats.field .f32).sub Val.one Val.one) (1 - 1) :=
  (C55_sub floatRep_one floatRep_one).1

/-- C55: negation is exact and never panics. -/
theorem C55_neg {a : F.Val} {x : ℚ} (ha : FloatRep a x) :
    ∃ c, (ApproxFloats.field F).neg a = .ok c ∧ (ApproxFloats.field F).negAssign a = .ok c ∧
      FloatRep c (-x) := by
  refine ⟨a.neg, ?_, ?_, ha.neg⟩ <;>
  · obtain ⟨s, p, h, rfl, rfl⟩ := ha
    rfl

example : ∃ a c : FloatFormat.f32.Val, FloatRep a (3 / 4) ∧ (ApproxFloats.field .f32).neg a = .ok c ∧
    FloatRep c (-(3 / 4)) := by
  obtain ⟨a, ha⟩ := f32_three_quarters
  obtain ⟨c, h1, -, h2⟩ := C55_neg ha
  exact ⟨a, c, ha, h1, h2⟩

/-- C55: products. -/
theorem C55_mul {a b : F.Val} {x y : ℚ} (ha : FloatRep a x) (hb : FloatRep b y) :
    Rounded ((ApproxFloats.field F).mul a b) (x * y) ∧
    Rounded ((ApproxFloats.field F).mulAssign a b) (x * y) ∧
    Rounded ((ApproxFloats.field F).square a) (x * x) := by
  have key : ∀ {a b : F.Val} {x y : ℚ}, FloatRep a x → FloatRep b y →
      Rounded ((ApproxFloats.field F).mul a b) (x * y) := fun {a b x y} ha hb => by
    obtain ⟨s, hs⟩ := ha.mul hb
    show Rounded (ApproxFloats.checked (a.mul b)) _
    rw [hs]
    exact checked_round s _
  exact ⟨key ha hb, key ha hb, key ha ha⟩

example : ∃ a : FloatFormat.f32.Val, FloatRep a (3 / 4) ∧
    Rounded ((ApproxFloats.field .f32).square a) (3 / 4 * (3 / 4)) := by
  obtain ⟨a, ha⟩ := f32_three_quarters
  exact ⟨a, ha, (C55_mul ha ha).2.2⟩

/-- C55: quotients; division by zero panics. -/
theorem C55_div {a b : F.Val} {x y : ℚ} (ha : FloatRep a x) (hb : FloatRep b y) :
    (y = 0 → (ApproxFloats.field F).div a b = .panic) ∧
    (y ≠ 0 → Rounded ((ApproxFloats.field F).div a b) (x / y)) := by
  have h0 : (ApproxFloats.field F).div a b =
    (Res.assert (!b.eq Val.zero) >>= fun _ => ApproxFloats.checked (a.div b)) := rfl
  rw [h0, hb.eq floatRep_zero]
  constructor
  · intro hy
    rw [decide_eq_true hy]
    rfl
  · intro hy
    obtain ⟨s, hs⟩ := ha.div hb hy
    rw [decide_eq_false hy, hs]
    exact checked_round s _

/-- Division of one by zero. -/
example : (ApproxFloats.field .f64).div Val.one Val.zero = .panic :=
  (C55_div floatRep_one floatRep_zero).1 rfl

/-- C55: inverses. -/
theorem C55_inv {a : F.Val} {x : ℚ} (ha : FloatRep a x) :
    (x = 0 → (ApproxFloats.field F).inv a = .panic) ∧
    (x ≠ 0 → Rounded ((ApproxFloats.field F).inv a) x⁻¹) := by
  obtain ⟨h1, h2⟩ := C55_div floatRep_one ha
  exact ⟨h1, fun h => by rw [← one_div]; exact h2 h⟩

/-- The inverse of three quarters is not a number of the format; it is rounded. -/
example : ∃ a : FloatFormat.f32.Val, FloatRep a (3 / 4) ∧
    Rounded ((ApproxFloats.field .f32).inv a) (3 / 4)⁻¹ := by
  obtain ⟨a, ha⟩ := f32_three_quarters
  exact ⟨a, ha, (C55_inv ha).2 (by norm_num)⟩

/-- C55: `try_inv` never panics; it returns `None` for zero and if the inverse overflows, otherwise
the rounded inverse. -/
theorem C55_try_inv {a : F.Val} {x : ℚ} (ha : FloatRep a x) :
    (x = 0 ∨ Overflows F x⁻¹ → (ApproxFloats.field F).tryInv a = .ok none ∧
      (ApproxFloats.field F).invertible a = .ok false) ∧
    (x ≠ 0 → ¬ Overflows F x⁻¹ → ∃ c y, (ApproxFloats.field F).tryInv a = .ok (some c) ∧
      (ApproxFloats.field F).invertible a = .ok true ∧ FloatRep c y ∧ RoundsTo F x⁻¹ y) := by
  have h0 : (ApproxFloats.field F).tryInv a = if (Val.one.div a).isFinite then
    .ok (some (Val.one.div a)) else .ok none := rfl
  have h1 : (ApproxFloats.field F).invertible a =
    ((ApproxFloats.field F).tryInv a >>= fun o => pure o.isSome) := rfl
  rw [h1, h0]
  constructor
  · intro h
    have hf : (Val.one.div a).isFinite = false := by
      by_cases hx : x = 0
      · exact floatRep_one.div_zero (hx ▸ ha)
      · obtain ⟨s, hs⟩ := floatRep_one.div ha hx
        rw [hs, (round_spec s _).1 (by rw [one_div]; exact h.resolve_left hx)]
        rfl
    rw [hf]
    exact ⟨rfl, rfl⟩
  · intro hx h
    obtain ⟨s, hs⟩ := floatRep_one.div ha hx
    obtain ⟨y, hy, hr⟩ := (round_spec s (1 / x)).2 (by rw [one_div]; exact h)
    rw [← hs] at hy
    rw [hy.isFinite]
    exact ⟨_, y, rfl, rfl, hy, one_div x ▸ hr⟩

/-- The inverse of three quarters does not overflow. -/
example : ∃ (a c : FloatFormat.f32.Val) (y : ℚ), FloatRep a (3 / 4) ∧
    (ApproxFloats.field .f32).tryInv a = .ok (some c) ∧ FloatRep c y ∧ RoundsTo .f32 (3 / 4)⁻¹ y := by
  obtain ⟨a, ha⟩ := f32_three_quarters
  obtain ⟨c, y, h1, -, h2, h3⟩ := (C55_try_inv ha).2 (by norm_num) (by
    norm_num [Overflows, FloatFormat.f32, abs_of_nonneg])
  exact ⟨a, c, y, ha, h1, h2, h3⟩

/-- C55: whatever the operands, even NaN or infinite, a value returned by these methods is
finite. -/
theorem C55_closed (a b c : F.Val) (h : (ApproxFloats.field F).add a b = .ok c ∨
      (ApproxFloats.field F).sub a b = .ok c ∨ (ApproxFloats.field F).mul a b = .ok c ∨
      (ApproxFloats.field F).div a b = .ok c ∨ (ApproxFloats.field F).neg a = .ok c ∨
      (ApproxFloats.field F).inv a = .ok c ∨ (ApproxFloats.field F).tryInv a = .ok (some c)) :
    ∃ x, FloatRep c x := by
  have key : ∀ {d : F.Val}, ApproxFloats.checked d = .ok c → ∃ x, FloatRep c x := fun {d} h => by
    rw [← isFinite_iff]
    rw [ApproxFloats.checked] at h
    cases hd : d.isFinite with
    | false => rw [hd] at h; cases h
    | true => rw [hd] at h; cases h; exact hd
  have key' : ∀ {d e : F.Val}, ApproxFloats.div F d e = .ok c → ∃ x, FloatRep c x :=
    fun {d e} h => by
      rw [ApproxFloats.div] at h
      cases he : e.eq Val.zero with
      | false => rw [he] at h; exact key h
      | true => rw [he] at h; cases h
  rcases h with h | h | h | h | h | h | h
  · exact key h
  · exact key h
  · exact key h
  · exact key' h
  · exact key h
  · exact key' h
  · have h0 : (ApproxFloats.field F).tryInv a = if (Val.one.div a).isFinite then
      .ok (some (Val.one.div a)) else .ok none := rfl
    rw [h0] at h
    split_ifs at h with hf
    · cases h
      exact isFinite_iff.1 hf
    · cases h

/-- A returned sum of a number and an infinity would be finite; there is none, but there is one for
one and zero. -/
example : ∃ c, (ApproxFloats.field .f32).add Val.one Val.zero = .ok c ∧ ∃ x, FloatRep c x := by
  obtain ⟨c, z, h1, -, -⟩ := (C55_add (F := .f32) floatRep_one floatRep_zero).1.2
    (by rw [add_zero]; exact floatRep_one.isFloat.not_overflows)
  exact ⟨c, h1, C55_closed _ _ c (.inl h1)⟩

/-- C55: the rounded value is unique, exact if possible, monotone and odd. -/
theorem C55_rounding {x x' y y' : ℚ} (h : RoundsTo F x y) (h' : RoundsTo F x' y') :
    (x ≤ x' → y ≤ y') ∧ (x = x' → y = y') ∧ (IsFloat F x → y = x) ∧ RoundsTo F (-x) (-y) :=
  ⟨h.mono h', fun e => h.unique (e ▸ h'), fun hx => h.unique (roundsTo_self hx), h.neg⟩

/-- Some number is the rounding of one third, and it lies between the roundings of zero and of three
quarters, which are exact. -/
example : ∃ y, RoundsTo .f32 (1 / 3) y ∧ 0 ≤ y ∧ y ≤ 3 / 4 := by
  obtain ⟨a, ha⟩ := f32_three_quarters
  obtain ⟨y, -, hy⟩ := (round_spec (F := .f32) false (1 / 3)).2
    (by norm_num [Overflows, FloatFormat.f32, abs_of_nonneg])
  exact ⟨y, hy, (C55_rounding (roundsTo_self isFloat_zero) hy).1 (by norm_num),
    (C55_rounding hy (roundsTo_self ha.isFloat)).1 (by norm_num)⟩

/-- C55: if the sum is a number of the format then it is returned exactly. -/
theorem C55_exact_sum {a b : F.Val} {x y : ℚ} (ha : FloatRep a x) (hb : FloatRep b y)
    (h : IsFloat F (x + y)) : ∃ c, (ApproxFloats.field F).add a b = .ok c ∧ FloatRep c (x + y) := by
  obtain ⟨c, z, h1, h2, h3⟩ := (C55_add ha hb).1.2 h.not_overflows
  exact ⟨c, h1, h3.unique (roundsTo_self h) ▸ h2⟩

/-- The sum of one and one is exact. -/
example : ∃ c, (ApproxFloats.field .f32).add Val.one Val.one = .ok c ∧ FloatRep c (1 + 1) :=
  C55_exact_sum (F := .f32) floatRep_one floatRep_one
    ⟨2, 0, by decide, by decide, by decide, by norm_num [abs_of_nonneg]⟩

/-- C55: if the product is a number of the format then it is returned exactly. -/
theorem C55_exact_product {a b : F.Val} {x y : ℚ} (ha : FloatRep a x) (hb : FloatRep b y)
    (h : IsFloat F (x * y)) : ∃ c, (ApproxFloats.field F).mul a b = .ok c ∧ FloatRep c (x * y) := by
  obtain ⟨c, z, h1, h2, h3⟩ := (C55_mul ha hb).1.2 h.not_overflows
  exact ⟨c, h1, h3.unique (roundsTo_self h) ▸ h2⟩

/-- Three quarters times three quarters is exact in `f32`. -/
example : ∃ a c : FloatFormat.f32.Val, FloatRep a (3 / 4) ∧
    (ApproxFloats.field .f32).mul a a = .ok c ∧ FloatRep c (3 / 4 * (3 / 4)) := by
  have h : IsFloat .f32 (3 / 4) := ⟨3, -2, by decide, by decide, by decide, by norm_num [abs_of_nonneg]⟩
  obtain ⟨a, ha⟩ := h.rep
  obtain ⟨c, hc⟩ := C55_exact_product ha ha
    ⟨9, -4, by decide, by decide, by decide, by norm_num [abs_of_nonneg]⟩
  exact ⟨a, c, ha, hc⟩

/-- C55: zero and one are neutral, and `x - x` is zero. -/
theorem C55_neutral {a : F.Val} {x : ℚ} (ha : FloatRep a x) :
    (∃ c, (ApproxFloats.field F).add a Val.zero = .ok c ∧ FloatRep c x) ∧
    (∃ c, (ApproxFloats.field F).mul a Val.one = .ok c ∧ FloatRep c x) ∧
    ∃ c, (ApproxFloats.field F).sub a a = .ok c ∧ FloatRep c 0 := by
  refine ⟨?_, ?_, ?_⟩
  · have := C55_exact_sum ha floatRep_zero (by rw [add_zero]; exact ha.isFloat)
    rwa [add_zero] at this
  · have := C55_exact_product ha floatRep_one (by rw [mul_one]; exact ha.isFloat)
    rwa [mul_one] at this
  · obtain ⟨c, z, h1, h2, h3⟩ := (C55_sub ha ha).1.2 (by rw [sub_self]; exact not_overflows_zero)
    rw [sub_self] at h3
    exact ⟨c, h1, h3.unique (roundsTo_self isFloat_zero) ▸ h2⟩

example : ∃ a c : FloatFormat.f32.Val, FloatRep a (3 / 4) ∧
    (ApproxFloats.field .f32).sub a a = .ok c ∧ FloatRep c 0 := by
  obtain ⟨a, ha⟩ := f32_three_quarters
  obtain ⟨-, -, c, h1, h2⟩ := C55_neutral ha
  exact ⟨a, c, ha, h1, h2⟩

/-- C55: a difference is zero exactly if the operands are equal (sums do not underflow). -/
theorem C55_sub_zero {a b c : F.Val} {x y : ℚ} (ha : FloatRep a x) (hb : FloatRep b y)
    (h : (ApproxFloats.field F).sub a b = .ok c) :
    (ApproxFloats.field F).isZero c = (ApproxFloats.field F).equals a b := by
  by_cases ho : Overflows F (x - y)
  · rw [(C55_sub ha hb).1.1 ho] at h
    cases h
  obtain ⟨d, z, h1, h2, h3⟩ := (C55_sub ha hb).1.2 ho
  obtain rfl : c = d := by rw [h] at h1; injection h1
  rw [(C55_equals h2 h2).2.1, (C55_equals ha hb).1]
  congr 1
  rw [decide_eq_decide]
  constructor
  · rintro rfl
    rw [sub_eq_add_neg] at h3
    have := sum_rounds_zero ha.isFloat (isFloat_neg hb.isFloat) h3
    linarith
  · rintro rfl
    rw [sub_self] at h3
    exact h3.unique (roundsTo_self isFloat_zero)

/-- One minus three quarters is returned, and it is not zero. -/
example : ∃ a c : FloatFormat.f32.Val, FloatRep a (3 / 4) ∧
    (ApproxFloats.field .f32).sub Val.one a = .ok c ∧ (ApproxFloats.field .f32).isZero c = .ok false := by
  obtain ⟨a, ha⟩ := f32_three_quarters
  obtain ⟨c, z, h1, -, -⟩ := (C55_sub floatRep_one ha).1.2
    (by norm_num [Overflows, FloatFormat.f32, abs_of_nonneg])
  refine ⟨a, c, ha, h1, ?_⟩
  rw [C55_sub_zero floatRep_one ha h1, (C55_equals floatRep_one ha).1]
  norm_num

/-- C55: addition and multiplication commute, literally, on all values. -/
theorem C55_commutative (a b : F.Val) :
    (ApproxFloats.field F).add a b = (ApproxFloats.field F).add b a ∧
    (ApproxFloats.field F).mul a b = (ApproxFloats.field F).mul b a := by
  constructor
  · refine congrArg ApproxFloats.checked ?_
    cases a <;> cases b <;> try rfl
    · rename_i s t
      cases s <;> cases t <;> rfl
    · simp only [Val.add]
      rw [Bool.and_comm, add_comm]
  · refine congrArg ApproxFloats.checked ?_
    cases a <;> cases b <;> try rfl
    · simp only [Val.mul]
      rw [Bool.xor_comm]
    · simp only [Val.mul]
      rw [Bool.xor_comm]
    · simp only [Val.mul]
      rw [Bool.xor_comm]
    · simp only [Val.mul]
      rw [Bool.xor_comm, mul_comm]

example (s : Bool) : (ApproxFloats.field .f64).add (.inf s) Val.one =
    (ApproxFloats.field .f64).add Val.one (.inf s) := (C55_commutative _ _).1

/-- C55: addition is monotone. -/
theorem C55_monotone {a b c d e : F.Val} {x y z : ℚ} (ha : FloatRep a x) (hb : FloatRep b y)
    (hc : FloatRep c z) (hxy : x ≤ y) (hd : (ApproxFloats.field F).add a c = .ok d)
    (he : (ApproxFloats.field F).add b c = .ok e) : ∃ u v, FloatRep d u ∧ FloatRep e v ∧ u ≤ v := by
  have h1 := (C55_add ha hc).1
  have h2 := (C55_add hb hc).1
  by_cases ho1 : Overflows F (x + z)
  · rw [h1.1 ho1] at hd
    cases hd
  by_cases ho2 : Overflows F (y + z)
  · rw [h2.1 ho2] at he
    cases he
  obtain ⟨d', u, e1, hu, hu'⟩ := h1.2 ho1
  obtain ⟨e', v, e2, hv, hv'⟩ := h2.2 ho2
  rw [hd] at e1
  rw [he] at e2
  cases e1
  cases e2
  exact ⟨u, v, hu, hv, hu'.mono hv' (by linarith)⟩

/-- Three quarters is at most one, and so are the sums with one. -/
example : ∃ (d e : FloatFormat.f32.Val) (u v : ℚ), FloatRep d u ∧ FloatRep e v ∧ u ≤ v := by
  obtain ⟨a, ha⟩ := f32_three_quarters
  obtain ⟨d, -, hd, -⟩ := (C55_add ha floatRep_one).1.2
    (by norm_num [Overflows, FloatFormat.f32, abs_of_nonneg])
  obtain ⟨e, -, he, -⟩ := (C55_add (F := .f32) floatRep_one floatRep_one).1.2
    (by norm_num [Overflows, FloatFormat.f32, abs_of_nonneg])
  exact ⟨d, e, C55_monotone ha floatRep_one floatRep_one (by norm_num) hd he⟩

/-- Correctly rounded results are in the order of the exact values. -/
theorem Rounded.mono {c c' : Res F.Val} {x y : ℚ} (h1 : Rounded c x) (h2 : Rounded c' y) (hxy : x ≤ y)
    {d e : F.Val} (hd : c = .ok d) (he : c' = .ok e) : ∃ u v, FloatRep d u ∧ FloatRep e v ∧ u ≤ v := by
  by_cases ho1 : Overflows F x
  · rw [h1.1 ho1] at hd
    cases hd
  by_cases ho2 : Overflows F y
  · rw [h2.1 ho2] at he
    cases he
  obtain ⟨d', u, e1, hu, hu'⟩ := h1.2 ho1
  obtain ⟨e', v, e2, hv, hv'⟩ := h2.2 ho2
  rw [hd] at e1
  rw [he] at e2
  cases e1
  cases e2
  exact ⟨u, v, hu, hv, hu'.mono hv' hxy⟩

/-- C55: subtraction is monotone in the first and antitone in the second operand, products with a number
that is not negative and quotients by a positive number are monotone. -/
theorem C55_monotone_ops {a b c d e : F.Val} {x y z : ℚ} (ha : FloatRep a x) (hb : FloatRep b y)
    (hc : FloatRep c z) (hxy : x ≤ y)
    (h : (ApproxFloats.field F).sub a c = .ok d ∧ (ApproxFloats.field F).sub b c = .ok e ∨
      (ApproxFloats.field F).sub c b = .ok d ∧ (ApproxFloats.field F).sub c a = .ok e ∨
      0 ≤ z ∧ (ApproxFloats.field F).mul a c = .ok d ∧ (ApproxFloats.field F).mul b c = .ok e ∨
      0 < z ∧ (ApproxFloats.field F).div a c = .ok d ∧ (ApproxFloats.field F).div b c = .ok e ∨
      0 < x ∧ (ApproxFloats.field F).inv b = .ok d ∧ (ApproxFloats.field F).inv a = .ok e) :
    ∃ u v, FloatRep d u ∧ FloatRep e v ∧ u ≤ v := by
  rcases h with ⟨h1, h2⟩ | ⟨h1, h2⟩ | ⟨hz, h1, h2⟩ | ⟨hz, h1, h2⟩ | ⟨hx, h1, h2⟩
  · exact (C55_sub ha hc).1.mono (C55_sub hb hc).1 (by linarith) h1 h2
  · exact (C55_sub hc hb).1.mono (C55_sub hc ha).1 (by linarith) h1 h2
  · exact (C55_mul ha hc).1.mono (C55_mul hb hc).1 (mul_le_mul_of_nonneg_right hxy hz) h1 h2
  · exact ((C55_div ha hc).2 hz.ne').mono ((C55_div hb hc).2 hz.ne')
      (div_le_div_of_nonneg_right hxy hz.le) h1 h2
  · exact ((C55_div floatRep_one hb).2 (hx.trans_le hxy).ne').mono ((C55_div floatRep_one ha).2 hx.ne')
      (one_div_le_one_div_of_le hx hxy) h1 h2

/-- Three quarters is at most one, and so are their squares by rounding. -/
example : ∃ (a d e : FloatFormat.f32.Val) (u v : ℚ), FloatRep a (3 / 4) ∧
    (ApproxFloats.field .f32).mul a Val.one = .ok d ∧ FloatRep d u ∧ FloatRep e v ∧ u ≤ v := by
  obtain ⟨a, ha⟩ := f32_three_quarters
  obtain ⟨d, -, hd, -⟩ := (C55_mul ha floatRep_one).1.2
    (by norm_num [Overflows, FloatFormat.f32, abs_of_nonneg])
  obtain ⟨e, -, he, -⟩ := (C55_mul (F := .f32) floatRep_one floatRep_one).1.2
    (by norm_num [Overflows, FloatFormat.f32, abs_of_nonneg])
  obtain ⟨u, v, hu, hv, h⟩ := C55_monotone_ops ha floatRep_one floatRep_one (by norm_num)
    (.inr (.inr (.inl ⟨zero_le_one, hd, he⟩)))
  exact ⟨a, d, e, u, v, ha, hd, hu, hv, h⟩

/-- C55: the finite values form a totally ordered lattice under `leq`, `meet` and `join`, whichever
of two equal values `min` and `max` return. -/
theorem C55_lattice (pick : F.Val → F.Val → Bool) :
    LatticeSpec False (ApproxFloats.lattice F pick) (FloatRep (F := F)) ∧
    ∀ {a b : F.Val} {x y : ℚ}, FloatRep a x → FloatRep b y →
      (ApproxFloats.lattice F pick).comparable a b = .ok true := by
  have hdom : DomainSpec False (ApproxFloats.domain F) (FloatRep (F := F)) :=
    ⟨fun h h' => h.unique h', fun h => h.isFinite, fun ha hb => by
      show Returns False (.ok _) _
      rw [ha.eq hb]
      exact decide_eq_true_iff⟩
  have hle : ∀ {a b : F.Val} {x y : ℚ}, FloatRep a x → FloatRep b y →
      (ApproxFloats.lattice F pick).leq a b = .ok (decide (x ≤ y)) :=
    fun ha hb => congrArg Res.ok (ha.le hb)
  have heq : ∀ {a b : F.Val} {x y : ℚ}, FloatRep a x → FloatRep b y →
      (ApproxFloats.lattice F pick).equals a b = .ok (decide (x = y)) :=
    fun ha hb => congrArg Res.ok (ha.eq hb)
  have hlt : ∀ {a b : F.Val} {x y : ℚ}, FloatRep a x → FloatRep b y →
      Decides False ((ApproxFloats.lattice F pick).lessThan a b) (x < y) := fun {a b x y} ha hb => by
    have : (ApproxFloats.lattice F pick).lessThan a b = ((ApproxFloats.lattice F pick).equals a b >>=
      fun e => if !e then (ApproxFloats.lattice F pick).leq a b else pure false) := rfl
    rw [this, heq ha hb, hle ha hb, ok_bind]
    by_cases h : x = y
    · rw [decide_eq_true h]
      show (false = true ↔ x < y)
      simp [h]
    · rw [decide_eq_false h]
      show (decide (x ≤ y) = true ↔ x < y)
      rw [decide_eq_true_iff]
      exact ⟨fun h' => lt_of_le_of_ne h' h, le_of_lt⟩
  have hcmp : ∀ {a b : F.Val} {x y : ℚ}, FloatRep a x → FloatRep b y →
      (ApproxFloats.lattice F pick).comparable a b = .ok true := fun {a b x y} ha hb => by
    have : (ApproxFloats.lattice F pick).comparable a b = ((ApproxFloats.lattice F pick).leq a b >>=
      fun e => if e then pure true else (ApproxFloats.lattice F pick).leq b a) := rfl
    rw [this, hle ha hb, hle hb ha, ok_bind]
    by_cases h : x ≤ y
    · rw [decide_eq_true h]
      rfl
    · rw [decide_eq_false h, decide_eq_true (le_of_not_ge h)]
      rfl
  exact ⟨{ hdom with
    leq := fun ha hb => by
      show Decides False ((ApproxFloats.lattice F pick).leq _ _) _
      rw [hle ha hb]
      exact decide_eq_true_iff
    lessThan := hlt
    comparable := fun {a b x y} ha hb => by
      show Decides False ((ApproxFloats.lattice F pick).comparable _ _) _
      rw [hcmp ha hb]
      exact ⟨fun _ => le_total x y, fun _ => rfl⟩
    meet := fun ha hb => ⟨_, ha.min pick hb, isGLB_pair⟩
    join := fun ha hb => ⟨_, ha.max pick hb, isLUB_pair⟩ }, hcmp⟩

example : ∃ a : FloatFormat.f32.Val, FloatRep a (3 / 4) ∧
    (ApproxFloats.lattice .f32 fun _ _ => true).leq a Val.one = .ok true := by
  obtain ⟨a, ha⟩ := f32_three_quarters
  obtain ⟨b, h1, h2⟩ := returns_false_iff.1
    ((C55_lattice (F := .f32) fun _ _ => true).1.leq ha floatRep_one)
  exact ⟨a, ha, by rw [h1, h2.2 (by norm_num)]⟩

/-- C55: with precision at least two addition is not associative: `(2^p + 1) + 1` is `2^p` but
`2^p + (1 + 1)` is `2^p + 2`, for every format where these numbers exist. -/
theorem C55_not_associative (hp : 2 ≤ F.prec) (he : 1 ≤ F.emax) :
    ∃ (a b c d e f g : F.Val) (x y : ℚ), (ApproxFloats.field F).add a b = .ok d ∧
      (ApproxFloats.field F).add d c = .ok e ∧ (ApproxFloats.field F).add b c = .ok f ∧
      (ApproxFloats.field F).add a f = .ok g ∧ FloatRep e x ∧ FloatRep g y ∧ x ≠ y := by
  have hm := F.emin_nonpos
  have h2 : (2 : ℚ) ^ F.prec = 2 ^ (F.prec - 1) * 2 := by rw [F.pow_prec]; ring
  have h4 : 2 ^ F.prec = 2 ^ (F.prec - 1) * 2 := by
    rw [← pow_succ]
    congr 1
    omega
  have h1 : 1 < 2 ^ (F.prec - 1) := Nat.one_lt_two_pow (by omega)
  have hfu : IsFloat F (2 ^ F.prec) := ⟨2 ^ (F.prec - 1), 1, by omega, by omega, he, by
    rw [abs_of_nonneg (by positivity), h2]
    push_cast
    norm_num⟩
  have hfv : IsFloat F (2 ^ F.prec + 2) := ⟨2 ^ (F.prec - 1) + 1, 1, by omega, by omega, he, by
    rw [abs_of_nonneg (by positivity), h2]
    push_cast
    ring⟩
  have hf2 : IsFloat F (1 + 1) := ⟨1, 1, by omega, by omega, he, by
    rw [abs_of_nonneg (by norm_num)]
    norm_num⟩
  -- `2^p + 1` is a tie
  have hr : RoundsTo F (2 ^ F.prec + 1) (2 ^ F.prec) := by
    have h0 : |(2 : ℚ) ^ F.prec - (2 ^ F.prec + 1)| = 1 := by norm_num
    refine ⟨hfu, fun z hz => ?_, fun z hz hne h => ?_⟩
    · rw [h0]
      obtain ⟨m, e, k1, -, -, k2⟩ := hz
      rcases le_or_gt e 0 with k3 | k3
      · have k4 : |z| ≤ 2 ^ F.prec := by
          rw [k2]
          have k5 : (2 : ℚ) ^ e ≤ 1 := zpow_le_one_of_nonpos₀ (by norm_num) k3
          have k6 : (m : ℚ) ≤ 2 ^ F.prec := by exact_mod_cast k1.le
          calc (m : ℚ) * 2 ^ e ≤ m * 1 := mul_le_mul_of_nonneg_left k5 (by positivity)
            _ ≤ _ := by rw [mul_one]; exact k6
        rw [abs_sub_comm]
        refine le_trans ?_ (le_abs_self _)
        have := le_abs_self z
        linarith
      · obtain ⟨j, hj⟩ : ∃ j : ℤ, z = 2 * j := by
          obtain ⟨n, hn⟩ := Int.eq_ofNat_of_zero_le (sub_nonneg.2 k3)
          have k4 : (2 : ℚ) ^ e = 2 * 2 ^ n := by
            rw [← zpow_natCast, ← zpow_one_add₀ (by norm_num)]
            congr 1
            omega
          rcases abs_choice z with k5 | k5
          · refine ⟨m * 2 ^ n, ?_⟩
            rw [← k5, k2, k4]
            push_cast
            ring
          · refine ⟨-(m * 2 ^ n), ?_⟩
            rw [← neg_neg z, ← k5, k2, k4]
            push_cast
            ring
        have k4 : (1 : ℤ) ≤ |2 * j - (2 ^ (F.prec - 1) * 2 + 1)| :=
          Int.one_le_abs (by omega)
        rw [hj, h2]
        exact_mod_cast k4
    · rw [h0] at h
      have hz2 : z = 2 ^ F.prec + 2 := by
        rcases abs_choice (z - (2 ^ F.prec + 1)) with k | k
        · rw [k] at h
          linarith
        · rw [k] at h
          exact absurd (by linarith) hne
      refine ⟨2 ^ (F.prec - 2), ?_⟩
      rw [hz2, show (2 : ℚ) ^ F.prec - (2 ^ F.prec + 2) = -2 by ring]
      obtain ⟨k, hk⟩ : ∃ k, F.prec = k + 2 := ⟨F.prec - 2, by omega⟩
      rw [hk, Nat.add_sub_cancel, pow_add]
      push_cast
      norm_num
      ring
  obtain ⟨a, ha⟩ := hfu.rep
  have hno : ¬ Overflows F (2 ^ F.prec + 1) := by
    intro h
    refine hfv.not_overflows (h.trans ?_)
    rw [abs_of_nonneg (by positivity), abs_of_nonneg (by positivity)]
    linarith
  obtain ⟨d, x, hd, hdx, hx⟩ := (C55_add ha floatRep_one).1.2 hno
  obtain rfl := hx.unique hr
  obtain ⟨e, x, hee, hex, hx⟩ := (C55_add hdx floatRep_one).1.2 hno
  obtain rfl := hx.unique hr
  obtain ⟨f, hf, hff⟩ := C55_exact_sum (F := F) floatRep_one floatRep_one hf2
  obtain ⟨g, hg, hgg⟩ := C55_exact_sum ha hff (by norm_num; exact hfv)
  exact ⟨a, _, _, d, e, f, g, _, _, hd, hee, hf, hg, hex, hgg, by norm_num⟩

example : ∃ (a b c d e f g : FloatFormat.f32.Val) (x y : ℚ), (ApproxFloats.field .f32).add a b = .ok d ∧
      (ApproxFloats.field .f32).add d c = .ok e ∧ (ApproxFloats.field .f32).add b c = .ok f ∧
      (ApproxFloats.field .f32).add a f = .ok g ∧ FloatRep e x ∧ FloatRep g y ∧ x ≠ y :=
  C55_not_associative (by decide) (by decide)

/-- C55: products do underflow: with negative enough exponents two nonzero members have product
zero. -/
theorem C55_zero_divisors (he : F.emin ≤ -2) : ∃ a c : F.Val, FloatRep a (2 ^ F.emin) ∧
    (ApproxFloats.field F).isZero a = .ok false ∧ (ApproxFloats.field F).mul a a = .ok c ∧
    (ApproxFloats.field F).isZero c = .ok true := by
  have hu : (0 : ℚ) < 2 ^ F.emin := by positivity
  have hf : IsFloat F (2 ^ F.emin) := by
    refine ⟨1, F.emin, Nat.one_lt_two_pow (by have := F.prec_pos; omega), le_rfl,
      F.emin_nonpos.trans F.emax_nonneg, ?_⟩
    rw [abs_of_pos hu, Nat.cast_one, one_mul]
  have h4 : (2 : ℚ) ^ F.emin ≤ 1 / 4 := by
    calc (2 : ℚ) ^ F.emin ≤ 2 ^ (-2 : ℤ) := zpow_le_zpow_right₀ (by norm_num) he
      _ = 1 / 4 := by norm_num
  have hlt : (2 : ℚ) ^ F.emin * 2 ^ F.emin ≤ 1 / 4 * 2 ^ F.emin :=
    mul_le_mul_of_nonneg_right h4 hu.le
  have h0 : 0 < (2 : ℚ) ^ F.emin * 2 ^ F.emin := mul_pos hu hu
  have hz : ∀ z, IsFloat F z → z ≠ 0 → 2 ^ F.emin ≤ |z| := fun z ⟨m, e, _, h2, _, h3⟩ hne => by
    rw [h3]
    have hm : m ≠ 0 := fun h => hne (abs_eq_zero.1 (by rw [h3, h]; simp))
    have h5 : (1 : ℚ) ≤ m := by exact_mod_cast Nat.one_le_iff_ne_zero.2 hm
    calc (2 : ℚ) ^ F.emin ≤ 2 ^ e := zpow_le_zpow_right₀ (by norm_num) h2
      _ = 1 * 2 ^ e := (one_mul _).symm
      _ ≤ _ := mul_le_mul_of_nonneg_right h5 (by positivity)
  have key : ∀ z, IsFloat F z → z ≠ 0 →
      |0 - (2 : ℚ) ^ F.emin * 2 ^ F.emin| < |z - 2 ^ F.emin * 2 ^ F.emin| := fun z hzf hne => by
    have h5 := hz z hzf hne
    have h6 : |z| ≤ |z - 2 ^ F.emin * 2 ^ F.emin| + |(2 : ℚ) ^ F.emin * 2 ^ F.emin| := by
      have := abs_add_le (z - 2 ^ F.emin * 2 ^ F.emin) (2 ^ F.emin * 2 ^ F.emin)
      rwa [sub_add_cancel] at this
    rw [abs_of_pos h0] at h6
    rw [zero_sub, abs_neg, abs_of_pos h0]
    linarith
  have hr : RoundsTo F (2 ^ F.emin * 2 ^ F.emin) 0 := by
    refine ⟨isFloat_zero, fun z hzf => ?_, fun z hzf hne h => absurd h (key z hzf hne).ne'⟩
    by_cases hne : z = 0
    · rw [hne]
    · exact (key z hzf hne).le
  obtain ⟨a, ha⟩ := hf.rep
  have hno : ¬ Overflows F ((2 : ℚ) ^ F.emin * 2 ^ F.emin) := by
    intro h
    refine hf.not_overflows (h.trans ?_)
    rw [abs_of_pos h0, abs_of_pos hu]
    linarith
  obtain ⟨c, y, h1, h2, h3⟩ := (C55_mul ha ha).1.2 hno
  obtain rfl := h3.unique hr
  refine ⟨a, c, ha, ?_, h1, ?_⟩
  · rw [(C55_equals ha ha).2.1, decide_eq_false hu.ne']
  · rw [(C55_equals h2 h2).2.1, decide_eq_true rfl]

example : ∃ a c : FloatFormat.f32.Val, FloatRep a (2 ^ (-149 : ℤ)) ∧
    (ApproxFloats.field .f32).isZero a = .ok false ∧ (ApproxFloats.field .f32).mul a a = .ok c ∧
    (ApproxFloats.field .f32).isZero c = .ok true := C55_zero_divisors (F := .f32) (by decide)

/-- C56: `times` never panics. The multiplier is rounded to a number `m` of the format first; the
result is the rounded product unless that overflows, and then it is an infinity, which is not a
member. -/
theorem C56_times {a : F.Val} {x : ℚ} (ha : FloatRep a x) (n : ℤ) {m : ℚ} (hn : RoundsTo F n m)
    (hno : ¬ Overflows F n) :
    ∃ c, (ApproxFloats.field F).times n a = .ok c ∧
      (¬ Overflows F (m * x) → ∃ y, FloatRep c y ∧ RoundsTo F (m * x) y) ∧
      (Overflows F (m * x) → c = .inf (decide (m * x < 0)) ∧
        (ApproxFloats.field F).contains c = .ok false) := by
  refine ⟨_, rfl, ?_⟩
  obtain ⟨m', h1, h2⟩ := (round_spec (F := F) false n).2 hno
  obtain rfl := h2.unique hn
  have h3 : FloatRep (Val.ofInt n : F.Val) m' := h1
  obtain ⟨s, hs⟩ := h3.mul ha
  rw [hs]
  obtain ⟨h4, h5⟩ := round_spec (F := F) s (m' * x)
  exact ⟨h5, fun h => ⟨h4 h, by rw [h4 h]; rfl⟩⟩

/-- Seven times three quarters. -/
example : ∃ (a c : FloatFormat.f32.Val) (y : ℚ), FloatRep a (3 / 4) ∧
    (ApproxFloats.field .f32).times 7 a = .ok c ∧ FloatRep c y ∧ RoundsTo .f32 (7 * (3 / 4)) y := by
  obtain ⟨a, ha⟩ := f32_three_quarters
  have h7 : IsFloat .f32 ((7 : ℤ) : ℚ) := ⟨7, 0, by decide, by decide, by decide, by norm_num [abs_of_nonneg]⟩
  obtain ⟨c, h1, h2, -⟩ := C56_times ha 7 (roundsTo_self h7) h7.not_overflows
  obtain ⟨y, h3, h4⟩ := h2 (by norm_num [Overflows, FloatFormat.f32, abs_of_nonneg])
  exact ⟨a, c, y, ha, h1, h3, by exact_mod_cast h4⟩

/-- C56: if the multiplier itself overflows the result is never a member. -/
theorem C56_times_overflow {a : F.Val} {x : ℚ} (ha : FloatRep a x) (n : ℤ) (hn : Overflows F n) :
    ∃ c, (ApproxFloats.field F).times n a = .ok c ∧
      (ApproxFloats.field F).contains c = .ok false := by
  refine ⟨_, rfl, ?_⟩
  show Res.ok ((Val.ofInt n : F.Val).mul a).isFinite = .ok false
  rw [Val.ofInt, (round_spec (F := F) false n).1 hn]
  obtain ⟨s, p, h, rfl, rfl⟩ := ha
  show Res.ok (if p = 0 then Val.nan else Val.inf _ : F.Val).isFinite = _
  split_ifs <;> rfl

/-- The multiplier `2 ^ 128` overflows `f32` (an `isize` never does; the theorem is about all
integers). -/
example : ∃ c : FloatFormat.f32.Val, (ApproxFloats.field .f32).times (2 ^ 128) Val.one = .ok c ∧
    (ApproxFloats.field .f32).contains c = .ok false :=
  C56_times_overflow floatRep_one (2 ^ 128) (by norm_num [Overflows, FloatFormat.f32, abs_of_nonneg])

/-- C56: `int` embeds the integers that are numbers of the format, among them all with at most `prec`
bits, exactly. -/
theorem C56_int (n : ℤ) : (IsFloat F n →
      ∃ c, (ApproxFloats.field F).int n = .ok c ∧ FloatRep c n) ∧
    (|n| < 2 ^ F.prec → IsFloat F n) := by
  constructor
  · intro h
    obtain ⟨c, h1, h2, -⟩ := C56_times (F := F) floatRep_one n (roundsTo_self h) h.not_overflows
    rw [mul_one] at h2
    obtain ⟨y, hy, hr⟩ := h2 h.not_overflows
    exact ⟨c, h1, hr.unique (roundsTo_self h) ▸ hy⟩
  · intro h
    refine ⟨n.natAbs, 0, ?_, F.emin_nonpos, F.emax_nonneg, ?_⟩
    · zify
      exact h
    · rw [zpow_zero, mul_one, Nat.cast_natAbs]
      push_cast
      rfl

/-- Sixteen million is an integer of the format `f32`. -/
example : |(16000000 : ℤ)| ≤ 2 ^ FloatFormat.f32.prec := by decide

/-- C56: `times(usize)` on the other hand is the default loop; it panics for `times(1, x)`
when `2x` overflows although `x` is the answer, because the operand is doubled once more than
needed. -/
theorem C56_utimes_one {a : F.Val} {x : ℚ} (ha : FloatRep a x) (h : Overflows F (x + x)) :
    (ApproxFloats.field F).utimes 1 a = .panic := by
  obtain ⟨c, z, h1, h2, h3⟩ := (C55_add floatRep_zero ha).1.2
    (by rw [zero_add]; exact ha.isFloat.not_overflows)
  have h4 := (C55_add ha ha).2.2.1 h
  have : (ApproxFloats.field F).utimes 1 a = timesLoop (ApproxFloats.field F).addAssign
    (ApproxFloats.field F).double 1 Val.zero a := rfl
  rw [this, timesLoop, dif_pos (by decide), if_pos (by decide)]
  have h5 : (ApproxFloats.field F).addAssign Val.zero a = .ok c := h1
  rw [h5, ok_bind, h4]
  rfl

/-- The largest power of two of the format. -/
example : ∃ a : FloatFormat.f32.Val, FloatRep a (2 ^ 127) ∧
    (ApproxFloats.field .f32).utimes 1 a = .panic := by
  obtain ⟨a, ha⟩ := (C55_members (F := .f32) (2 ^ 127)).2
    ⟨2 ^ 23, 104, by decide, by decide, by decide, by norm_num [abs_of_nonneg]⟩
  exact ⟨a, ha, C56_utimes_one ha (by norm_num [Overflows, FloatFormat.f32, abs_of_nonneg])⟩

/-- C56: in every format with at least two bits, `times(2, MAX)` returns infinity where `add(MAX, MAX)`
panics. -/
theorem C56_witness (hp : 2 ≤ F.prec) : ∃ a : F.Val, FloatRep a ((2 ^ F.prec - 1) * 2 ^ F.emax) ∧
    (ApproxFloats.field F).contains a = .ok true ∧
    (ApproxFloats.field F).times 2 a = .ok (.inf false) ∧
    (ApproxFloats.field F).contains (.inf false) = .ok false ∧
    (ApproxFloats.field F).add a a = .panic := by
  have hE : (0 : ℚ) < 2 ^ F.emax := by positivity
  have h4 : (4 : ℚ) ≤ 2 ^ F.prec := by
    calc (4 : ℚ) = 2 ^ 2 := by norm_num
      _ ≤ _ := pow_le_pow_right₀ (by norm_num) hp
  have hM : 0 < (2 ^ F.prec - 1) * (2 : ℚ) ^ F.emax := mul_pos (by linarith) hE
  have hm : IsFloat F ((2 ^ F.prec - 1) * 2 ^ F.emax) :=
    ⟨2 ^ F.prec - 1, F.emax, Nat.sub_lt (by positivity) (by decide),
      F.emin_nonpos.trans F.emax_nonneg, le_rfl, by
        rw [abs_of_pos hM, Nat.cast_sub Nat.one_le_two_pow]
        push_cast
        rfl⟩
  obtain ⟨a, ha⟩ := hm.rep
  have h2 : IsFloat F ((2 : ℤ) : ℚ) := (C56_int (F := F) 2).2 (by
    have : (4 : ℤ) ≤ 2 ^ F.prec := by exact_mod_cast h4
    rw [abs_of_nonneg (by decide)]
    omega)
  obtain ⟨c, hc, -, hc'⟩ := C56_times ha 2 (roundsTo_self h2) h2.not_overflows
  have ho : Overflows F (((2 : ℤ) : ℚ) * ((2 ^ F.prec - 1) * 2 ^ F.emax)) := by
    rw [Overflows, abs_of_pos (by push_cast; linarith), ← mul_assoc]
    refine mul_le_mul_of_nonneg_right ?_ hE.le
    push_cast
    linarith
  obtain ⟨h3, h3'⟩ := hc' ho
  rw [decide_eq_false (by push_cast; linarith)] at h3
  refine ⟨a, ha, congrArg Res.ok ha.isFinite, by rw [hc, h3], rfl, (C55_add ha ha).1.1 ?_⟩
  rw [← two_mul]
  exact_mod_cast ho

/-- The largest `f64` is a case of `C56_witness`, `C56_utimes_one` and `C55_not_associative`. -/
example : (∃ a : FloatFormat.f64.Val, FloatRep a ((2 ^ 53 - 1) * 2 ^ (971 : ℤ)) ∧
      (ApproxFloats.field .f64).times 2 a = .ok (.inf false)) ∧
    ∃ (a b c d e f g : FloatFormat.f64.Val) (x y : ℚ), (ApproxFloats.field .f64).add a b = .ok d ∧
      (ApproxFloats.field .f64).add d c = .ok e ∧ (ApproxFloats.field .f64).add b c = .ok f ∧
      (ApproxFloats.field .f64).add a f = .ok g ∧ FloatRep e x ∧ FloatRep g y ∧ x ≠ y := by
  obtain ⟨a, h1, -, h2, -⟩ := C56_witness (F := .f64) (by decide)
  exact ⟨⟨a, h1, h2⟩, C55_not_associative (by decide) (by decide)⟩

/-- `F32`: the sum of `1` and `1` is exact. -/
example : ∃ c, (ApproxFloats.field .f32).add Val.one Val.one = .ok c ∧ FloatRep c (1 + 1) :=
  C55_exact_sum (F := .f32) floatRep_one floatRep_one
    ⟨2, 0, by decide, by decide, by decide, by norm_num [abs_of_nonneg]⟩

/-- The inverse of the least positive `f64` overflows: `try_inv` is `None` and `inv` panics. -/
example : ∃ a : FloatFormat.f64.Val, FloatRep a (2 ^ (-1074 : ℤ)) ∧
    (ApproxFloats.field .f64).tryInv a = .ok none ∧ (ApproxFloats.field .f64).inv a = .panic := by
  have hu : (0 : ℚ) < 2 ^ (-1074 : ℤ) := zpow_pos (by norm_num) _
  have hf : IsFloat .f64 (2 ^ (-1074 : ℤ)) := ⟨1, -1074, by decide, by decide, by decide, by
    rw [abs_of_pos hu, Nat.cast_one, one_mul]⟩
  obtain ⟨a, ha⟩ := hf.rep
  have ho : Overflows .f64 ((2 : ℚ) ^ (-1074 : ℤ))⁻¹ := by
    rw [← zpow_neg, Overflows, abs_of_pos (zpow_pos (by norm_num) _)]
    calc ((2 : ℚ) ^ 53 - 1 / 2) * 2 ^ (971 : ℤ) ≤ 2 ^ (53 : ℤ) * 2 ^ (971 : ℤ) :=
          mul_le_mul_of_nonneg_right (by norm_num) (zpow_pos (by norm_num) _).le
      _ = 2 ^ (53 + 971 : ℤ) := (zpow_add₀ (by norm_num) _ _).symm
      _ ≤ 2 ^ (- -1074 : ℤ) := zpow_le_zpow_right₀ (by norm_num) (by decide)
  exact ⟨a, ha, ((C55_try_inv ha).1 (.inr ho)).1, ((C55_inv ha).2 hu.ne').1 ho⟩

end Abstalg
