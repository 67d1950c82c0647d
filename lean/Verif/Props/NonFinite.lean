import Verif.Props.Floats

/-! # C76: floats that are NaN or infinite

`contains` rejects these values, but nothing stops a caller from passing them. The theorems below say
what each method does with them. -/

set_option autoImplicit false

namespace Abstalg

open FloatFormat

variable [Cfg] {F : FloatFormat}

omit [Cfg] in
theorem nonFinite_iff {a : F.Val} : NonFinite a ↔ a.isFinite = false := by
  cases a <;> simp [NonFinite, Val.isFinite]

omit [Cfg] in
theorem checked_nonFinite {a : F.Val} (h : a.isFinite = false) : ApproxFloats.checked a = .panic := by
  unfold ApproxFloats.checked
  rw [h]
  rfl

omit [Cfg] in
theorem add_nonFinite {a b : F.Val} (h : NonFinite a ∨ NonFinite b) : (a.add b).isFinite = false := by
  rcases h with (rfl | ⟨s, rfl⟩) | (rfl | ⟨s, rfl⟩)
  · rfl
  · cases b <;> simp only [Val.add] <;> (try split_ifs) <;> rfl
  · cases a <;> rfl
  · cases a <;> simp only [Val.add] <;> (try split_ifs) <;> rfl

omit [Cfg] in
theorem mul_nonFinite {a b : F.Val} (h : NonFinite a ∨ NonFinite b) : (a.mul b).isFinite = false := by
  rcases h with (rfl | ⟨s, rfl⟩) | (rfl | ⟨s, rfl⟩)
  · rfl
  · cases b <;> simp only [Val.mul] <;> (try split_ifs) <;> rfl
  · cases a <;> rfl
  · cases a <;> simp only [Val.mul] <;> (try split_ifs) <;> rfl

omit [Cfg] in
theorem neg_nonFinite {a : F.Val} (h : NonFinite a) : NonFinite a.neg := by
  rcases h with rfl | ⟨s, rfl⟩
  · exact .inl rfl
  · exact .inr ⟨_, rfl⟩

/-- C76: NaN and the infinities are not members and are neither zero nor one; NaN is not even equal to
itself, and an infinity only to itself. -/
theorem C76_domain {a : F.Val} (ha : NonFinite a) (b : F.Val) :
    (ApproxFloats.field F).contains a = .ok false ∧ (ApproxFloats.field F).isZero a = .ok false ∧
    (ApproxFloats.field F).isOne a = .ok false ∧
    (∃ t, (ApproxFloats.field F).equals a b = .ok t ∧ (t = true ↔ a ≠ .nan ∧ a = b)) ∧
    (ApproxFloats.field F).equals b a = (ApproxFloats.field F).equals a b := by
  rcases ha with rfl | ⟨s, rfl⟩
  · refine ⟨rfl, rfl, rfl, ⟨false, rfl, by simp⟩, ?_⟩
    cases b <;> rfl
  · refine ⟨rfl, rfl, rfl, ⟨_, rfl, ?_⟩, ?_⟩
    · cases b <;> simp [Val.eq]
    · show Res.ok (Val.eq b (.inf s)) = .ok (Val.eq (.inf s) b)
      cases b with
      | nan => rfl
      | inf t => cases s <;> cases t <;> rfl
      | fin t p h => rfl

/-- NaN and itself. -/
example : ∃ t, (ApproxFloats.field .f64).equals .nan .nan = .ok t ∧ (t = true ↔ False) := by
  obtain ⟨t, h1, h2⟩ := (C76_domain (F := .f64) (.inl rfl) .nan).2.2.2.1
  exact ⟨t, h1, by simpa using h2⟩

/-- C76: sums, differences and products of which an operand is NaN or infinite panic, and so do its
negative, double and square. -/
theorem C76_ring {a b : F.Val} (h : NonFinite a ∨ NonFinite b) :
    (ApproxFloats.field F).add a b = .panic ∧ (ApproxFloats.field F).addAssign a b = .panic ∧
    (ApproxFloats.field F).sub a b = .panic ∧ (ApproxFloats.field F).subAssign a b = .panic ∧
    (ApproxFloats.field F).mul a b = .panic ∧ (ApproxFloats.field F).mulAssign a b = .panic := by
  have hs : (a.sub b).isFinite = false := add_nonFinite (h.imp_right neg_nonFinite)
  refine ⟨checked_nonFinite (add_nonFinite h), checked_nonFinite (add_nonFinite h),
    checked_nonFinite hs, ?_, checked_nonFinite (mul_nonFinite h), checked_nonFinite (mul_nonFinite h)⟩
  show (ApproxFloats.checked b.neg >>= fun e => ApproxFloats.checked (a.add e)) = .panic
  cases hb : b.neg.isFinite with
  | false => rw [checked_nonFinite hb]; rfl
  | true =>
    have : ApproxFloats.checked b.neg = .ok b.neg := by
      unfold ApproxFloats.checked
      rw [hb]
      rfl
    rw [this, ok_bind]
    exact checked_nonFinite hs

/-- The difference of an infinity with itself. -/
example : (ApproxFloats.field .f64).sub (.inf false) (.inf false) = .panic :=
  (C76_ring (.inl (.inr ⟨_, rfl⟩))).2.2.1

/-- C76: the methods with one operand. -/
theorem C76_unary {a : F.Val} (h : NonFinite a) :
    (ApproxFloats.field F).neg a = .panic ∧ (ApproxFloats.field F).negAssign a = .panic ∧
    (ApproxFloats.field F).double a = .panic ∧ (ApproxFloats.field F).square a = .panic :=
  ⟨checked_nonFinite (nonFinite_iff.1 (neg_nonFinite h)),
    checked_nonFinite (nonFinite_iff.1 (neg_nonFinite h)),
    checked_nonFinite (add_nonFinite (.inl h)), checked_nonFinite (mul_nonFinite (.inl h))⟩

example : (ApproxFloats.field .f64).neg (.inf true) = .panic := (C76_unary (.inr ⟨_, rfl⟩)).1

/-- C76: a quotient panics as well, except that a finite number divided by an infinity is zero. -/
theorem C76_div {a b : F.Val} (h : NonFinite a ∨ NonFinite b) :
    (¬ NonFinite a → b ≠ .nan → ∃ c, (ApproxFloats.field F).div a b = .ok c ∧ FloatRep c 0) ∧
    (NonFinite a ∨ b = .nan → (ApproxFloats.field F).div a b = .panic) := by
  constructor
  · intro h1 h2
    obtain ⟨s, p, hp, rfl⟩ : ∃ s p hp, a = .fin s p hp := by
      cases a with
      | nan => exact absurd (.inl rfl) h1
      | inf s => exact absurd (.inr ⟨s, rfl⟩) h1
      | fin s p hp => exact ⟨s, p, hp, rfl⟩
    obtain ⟨t, rfl⟩ := (h.resolve_left h1).resolve_left h2
    exact ⟨_, rfl, _, _, _, rfl, by simp⟩
  · intro h1
    show ApproxFloats.div F a b = _
    unfold ApproxFloats.div
    cases hb : b.eq Val.zero with
    | true => rfl
    | false =>
      show ApproxFloats.checked (a.div b) = _
      refine checked_nonFinite ?_
      rcases h1 with (rfl | ⟨s, rfl⟩) | rfl
      · rfl
      · cases b <;> rfl
      · cases a <;> rfl

/-- One divided by an infinity, and an infinity by one. -/
example : (∃ c, (ApproxFloats.field .f64).div Val.one (.inf true) = .ok c ∧ FloatRep c 0) ∧
    (ApproxFloats.field .f64).div (.inf true) Val.one = .panic :=
  ⟨(C76_div (.inr (.inr ⟨_, rfl⟩))).1 (by simp [nonFinite_iff, Val.one, Val.isFinite]) (by simp),
    (C76_div (.inl (.inr ⟨_, rfl⟩))).2 (.inl (.inr ⟨_, rfl⟩))⟩

/-- C76: the inverse of an infinity is zero, NaN has none. -/
theorem C76_inv (s : Bool) : (∃ c, (ApproxFloats.field F).inv (.inf s) = .ok c ∧ FloatRep c 0 ∧
      (ApproxFloats.field F).tryInv (.inf s) = .ok (some c)) ∧
    (ApproxFloats.field F).invertible (.inf s) = .ok true ∧
    (ApproxFloats.field F).inv .nan = .panic ∧ (ApproxFloats.field F).tryInv .nan = .ok none ∧
    (ApproxFloats.field F).invertible .nan = .ok false :=
  ⟨⟨_, rfl, ⟨_, _, _, rfl, by simp⟩, rfl⟩, rfl, rfl, rfl, rfl⟩

example : (ApproxFloats.field .f64).invertible (.inf true) = .ok true := (C76_inv true).2.1

omit [Cfg] in
theorem ofInt_zero : (Val.ofInt 0 : F.Val) = Val.zero := by
  unfold Val.ofInt FloatFormat.round FloatFormat.roundMag Val.zero
  simp only [Int.cast_zero, abs_zero, zero_div, roundEven_zero, Nat.cast_zero, zero_mul]
  rw [dif_pos]
  · simp
  · unfold maxFin
    have : (1 : ℚ) ≤ 2 ^ F.prec := one_le_pow₀ (by norm_num)
    exact mul_nonneg (by linarith) (by positivity)

omit [Cfg] in
theorem ofInt_mul_inf {n : ℤ} (hn : n ≠ 0) {s : Bool} :
    (Val.ofInt n : F.Val).mul (.inf s) = .inf (s ^^ decide (n < 0)) := by
  have hn' : (n : ℚ) ≠ 0 := by exact_mod_cast hn
  obtain ⟨h1, h2⟩ := round_spec (F := F) false n
  have hs : (if (n : ℚ) = 0 then false else decide ((n : ℚ) < 0)) = decide (n < 0) := by
    rw [if_neg hn']
    exact_mod_cast rfl
  have key : (∃ p h, (Val.ofInt n : F.Val) = .fin (decide (n < 0)) p h) ∨
      (Val.ofInt n : F.Val) = .inf (decide (n < 0)) := by
    unfold Val.ofInt FloatFormat.round FloatFormat.roundMag
    rw [hs]
    split_ifs
    · exact .inl ⟨_, F.mag_round (abs_nonneg _) ‹_›, rfl⟩
    · exact .inr rfl
  rcases key with ⟨p, h, hp⟩ | hp
  · rw [hp]
    have hp0 : p ≠ 0 := by
      rintro rfl
      by_cases ho : Overflows F n
      · have := h1 ho
        rw [← Val.ofInt, hp] at this
        cases this
      · obtain ⟨y, h3, h4⟩ := h2 ho
        rw [← Val.ofInt, hp] at h3
        have hy : y = 0 := by
          have := h3.unique (floatRep_fin _ h)
          rw [this]
          exact signed_eq_zero.2 rfl
        subst hy
        have hf1 : IsFloat F 1 := floatRep_one.isFloat
        have h5 : (1 : ℚ) ≤ |(n : ℚ)| := by exact_mod_cast Int.one_le_abs hn
        rcases lt_or_gt_of_ne hn' with h0 | h0
        · have := h4.nearest _ (isFloat_neg hf1)
          rw [abs_of_neg h0] at h5
          rw [zero_sub, abs_neg, abs_of_neg h0, abs_of_nonneg (by linarith)] at this
          linarith
        · have := h4.nearest _ hf1
          rw [abs_of_pos h0] at h5
          rw [zero_sub, abs_neg, abs_of_pos h0, abs_of_nonpos (by linarith)] at this
          linarith
    simp only [Val.mul]
    rw [if_neg hp0, Bool.xor_comm]
  · rw [hp]
    simp only [Val.mul]
    rw [Bool.xor_comm]

/-- C76: `times(isize)` does not panic but its result is again no member: NaN if the element is NaN or the
multiplier is zero, otherwise the infinity with the product of the signs. -/
theorem C76_times {a : F.Val} (h : NonFinite a) (n : ℤ) :
    ∃ c, (ApproxFloats.field F).times n a = .ok c ∧ NonFinite c ∧
      (c = .nan ↔ a = .nan ∨ n = 0) ∧
      (∀ s, a = .inf s → n ≠ 0 → c = .inf (s ^^ decide (n < 0))) := by
  refine ⟨_, rfl, nonFinite_iff.2 (mul_nonFinite (.inr h)), ?_⟩
  rcases h with rfl | ⟨s, rfl⟩
  · refine ⟨?_, fun s h => by cases h⟩
    cases (Val.ofInt n : F.Val) <;> simp [Val.mul]
  · refine ⟨?_, fun s' h hn => ?_⟩
    · by_cases hn : n = 0
      · subst hn
        rw [ofInt_zero]
        simp [Val.mul, Val.zero]
      · rw [ofInt_mul_inf hn]
        simp [hn]
    · cases h
      exact ofInt_mul_inf hn

/-- Minus three times the negative infinity. -/
example : (ApproxFloats.field .f64).times (-3) (.inf true) = .ok (.inf false) := by
  obtain ⟨c, h1, -, -, h2⟩ := C76_times (F := .f64) (a := .inf true) (.inr ⟨_, rfl⟩) (-3)
  rw [h1, h2 true rfl (by decide)]
  rfl

/-- C76: `times(usize)` returns zero for the multiplier zero and panics otherwise. -/
theorem C76_utimes {a : F.Val} (h : NonFinite a) (n : ℕ) :
    (ApproxFloats.field F).utimes n a = if n = 0 then .ok Val.zero else .panic := by
  have h0 : (ApproxFloats.field F).utimes n a = timesLoop (ApproxFloats.field F).addAssign
    (ApproxFloats.field F).double n Val.zero a := rfl
  have hd : (ApproxFloats.field F).double a = .panic := (C76_unary h).2.2.1
  have ha : (ApproxFloats.field F).addAssign Val.zero a = .panic := (C76_ring (.inr h)).2.1
  rw [h0, timesLoop]
  by_cases h1 : n = 0
  · rw [if_pos h1, dif_neg (by omega)]
  rw [if_neg h1, dif_pos (by omega)]
  split_ifs with h2
  · rw [ha]; rfl
  · show ((ApproxFloats.field F).double a >>= _) = _
    rw [hd]; rfl

example : (ApproxFloats.field .f64).utimes 6 .nan = .panic := C76_utimes (.inl rfl) 6

/-- C76: powers: the zeroth is one, the other nonnegative ones panic; a negative power of NaN panics and one of
an infinity is zero. -/
theorem C76_power {a : F.Val} (h : NonFinite a) (n : ℤ) (hn : isizeMin < n) :
    (n = 0 → (ApproxFloats.field F).power n a = .ok Val.one) ∧
    (0 < n ∨ n < 0 ∧ a = .nan → (ApproxFloats.field F).power n a = .panic) ∧
    (n < 0 → a ≠ .nan → ∃ c, (ApproxFloats.field F).power n a = .ok c ∧ FloatRep c 0) := by
  have h0 : (ApproxFloats.field F).power n a = powerDefault (ApproxFloats.field F).one
      (ApproxFloats.field F).mulAssign (ApproxFloats.field F).square
      (fun e => do Res.unwrap (← (ApproxFloats.field F).tryInv e)) n a := by
    show ((ApproxFloats.field F).isZero a >>= fun b => if b then _ else _) = _
    rw [(C76_domain h a).2.1]
    rfl
  rw [h0]
  unfold powerDefault
  refine ⟨?_, ?_, ?_⟩
  · rintro rfl
    rw [if_neg (by decide)]
    show powerLoop _ _ 0 Val.one a = _
    rw [powerLoop, dif_neg (by decide)]
  · rintro (h1 | ⟨h1, rfl⟩)
    · rw [if_neg (by omega)]
      show powerLoop _ _ n Val.one a = _
      rw [powerLoop, dif_pos h1]
      split_ifs with h2
      · have : (ApproxFloats.field F).mulAssign Val.one a = .panic := (C76_ring (.inr h)).2.2.2.2.2
        rw [this]; rfl
      · show ((ApproxFloats.field F).square a >>= _) = _
        rw [(C76_unary h).2.2.2]; rfl
    · rw [if_pos h1, isizeNeg, if_neg (by omega)]
      rfl
  · intro h1 h2
    obtain ⟨s, rfl⟩ := h.resolve_left h2
    obtain ⟨m, rfl⟩ : ∃ m : ℕ, n = -(m : ℤ) := ⟨n.natAbs, by omega⟩
    rw [if_pos h1, isizeNeg, if_neg (by omega), neg_neg]
    obtain ⟨⟨c, -, h3, h4⟩, -⟩ := C76_inv (F := F) s
    have hmul : ∀ {a b : F.Val} {x y : ℚ}, FloatRep a x ∧ (x = 0 ∨ x = 1) →
        FloatRep b y ∧ (y = 0 ∨ y = 1) → Returns False (ApproxFloats.checked (a.mul b))
          (fun c => FloatRep c (x * y) ∧ (x * y = 0 ∨ x * y = 1)) := fun {a b x y} ⟨ha, hx⟩ ⟨hb, hy⟩ => by
      have hxy : x * y = 0 ∨ x * y = 1 := by
        rcases hx with rfl | rfl <;> rcases hy with rfl | rfl <;> norm_num
      obtain ⟨c, h1, h2⟩ := C55_exact_product ha hb (by
        rcases hxy with h | h <;> rw [h]
        · exact isFloat_zero
        · exact floatRep_one.isFloat)
      have h1 : ApproxFloats.checked (a.mul b) = .ok c := h1
      rw [h1]
      exact ⟨h2, hxy⟩
    obtain ⟨d, h5, h6, -⟩ := returns_false_iff.1 (powerLoop_spec (mp := False)
      (rep := fun (a : F.Val) (x : ℚ) => FloatRep a x ∧ (x = 0 ∨ x = 1))
      (mulAssign := (ApproxFloats.field F).mulAssign) (square := (ApproxFloats.field F).square)
      hmul (fun ha => hmul ha ha) m (r := Val.one) (e := c) ⟨floatRep_one, .inr rfl⟩ ⟨h3, .inl rfl⟩)
    refine ⟨d, ?_, ?_⟩
    · simp only [h4]
      exact h5
    · rw [zero_pow (by omega), mul_zero] at h6
      exact h6


/-- The inverse cube of an infinity. -/
example : ∃ c, (ApproxFloats.field .f64).power (-3) (.inf true) = .ok c ∧ FloatRep c 0 := by
  have : isizeMin < -3 := by
    have h1 := Cfg.ptrBits_ge
    have h2 : (2 : ℤ) ^ 15 ≤ 2 ^ (Cfg.ptrBits - 1) := pow_le_pow_right₀ (by norm_num) (by omega)
    unfold isizeMin
    omega
  exact (C76_power (.inr ⟨_, rfl⟩) (-3) this).2.2 (by decide) (by simp)

/-- C76: the blanket implementations for fields. The greatest common divisor and the least common multiple
with NaN or an infinity are those with an invertible element, although NaN is not one. -/
theorem C76_blanket {a : F.Val} (h : NonFinite a) {b : F.Val} {z : Bool}
    (hz : (ApproxFloats.field F).isZero b = .ok z) :
    (ApproxFloats.field F).toEuclidean.associateRepr a = .ok Val.one ∧
    (ApproxFloats.field F).toEuclidean.gcd a b = .ok Val.one ∧
    (ApproxFloats.field F).toEuclidean.gcd b a = .ok Val.one ∧
    (ApproxFloats.field F).toEuclidean.lcm a b = .ok (if z then Val.zero else Val.one) ∧
    (ApproxFloats.field F).toEuclidean.lcm b a = .ok (if z then Val.zero else Val.one) ∧
    (ApproxFloats.field F).toEuclidean.reduced a b = .ok z ∧
    (ApproxFloats.field F).toEuclidean.reduced b a = .ok z ∧
    (ApproxFloats.field F).toEuclidean.rem b a = .ok Val.zero ∧
    (ApproxFloats.field F).toEuclidean.rem a b = (if z then .panic else .ok Val.zero) := by
  have ha : (ApproxFloats.field F).isZero a = .ok false := (C76_domain h a).2.1
  have h1 : (ApproxFloats.field F).zero = .ok Val.zero := rfl
  have h2 : (ApproxFloats.field F).one = .ok Val.one := rfl
  simp only [FieldOps.toEuclidean, FieldOps.toIntegralDomain, ha, hz, ok_bind, h1, h2]
  cases z <;> exact ⟨rfl, rfl, rfl, rfl, rfl, rfl, rfl, rfl, rfl⟩

/-- NaN and zero. -/
example : (ApproxFloats.field .f64).toEuclidean.gcd .nan Val.zero = .ok Val.one ∧
    (ApproxFloats.field .f64).toEuclidean.rem .nan Val.zero = .panic := by
  have hz : (ApproxFloats.field .f64).isZero Val.zero = .ok true :=
    (C55_equals floatRep_zero floatRep_zero).2.1
  obtain ⟨-, h1, -, -, -, -, -, -, h2⟩ := C76_blanket (F := .f64) (a := .nan) (.inl rfl) hz
  exact ⟨h1, h2⟩

omit [Cfg] in
/-- C76: the values other than NaN are totally ordered, with the infinities as least and largest; `meet` and
`join` return the smaller and the larger one. -/
theorem C76_order (pick : F.Val → F.Val → Bool) {a b : F.Val} {x y : WithBot (WithTop ℚ)}
    (ha : ExtRep a x) (hb : ExtRep b y) :
    (ApproxFloats.lattice F pick).leq a b = .ok (decide (x ≤ y)) ∧
    (ApproxFloats.lattice F pick).equals a b = .ok (decide (x = y)) ∧
    (ApproxFloats.lattice F pick).lessThan a b = .ok (decide (x < y)) ∧
    (ApproxFloats.lattice F pick).comparable a b = .ok true ∧
    (∃ c, (ApproxFloats.lattice F pick).meet a b = .ok c ∧ ExtRep c (min x y) ∧ (c = a ∨ c = b)) ∧
    ∃ c, (ApproxFloats.lattice F pick).join a b = .ok c ∧ ExtRep c (max x y) ∧ (c = a ∨ c = b) := by
  have hle : ∀ {a b : F.Val} {x y : WithBot (WithTop ℚ)}, ExtRep a x → ExtRep b y →
      a.le b = decide (x ≤ y) := fun {a b x y} ha hb => by
    cases ha with
    | fin ha =>
      cases hb with
      | fin hb => rw [ha.le hb]; simp
      | top => obtain ⟨s, p, h, rfl, rfl⟩ := ha; simp [Val.le]
      | bot => obtain ⟨s, p, h, rfl, rfl⟩ := ha; simp [Val.le]
    | top =>
      cases hb with
      | fin hb => obtain ⟨s, p, h, rfl, rfl⟩ := hb; simp [Val.le]
      | top => simp [Val.le]
      | bot => simp [Val.le]
    | bot =>
      cases hb with
      | fin hb => obtain ⟨s, p, h, rfl, rfl⟩ := hb; simp [Val.le]
      | top => simp [Val.le]
      | bot => simp [Val.le]
  have heq : a.eq b = decide (x = y) := by
    cases ha with
    | fin ha =>
      cases hb with
      | fin hb => rw [ha.eq hb]; simp
      | top => obtain ⟨s, p, h, rfl, rfl⟩ := ha; simp [Val.eq]
      | bot => obtain ⟨s, p, h, rfl, rfl⟩ := ha; simp [Val.eq]
    | top =>
      cases hb with
      | fin hb => obtain ⟨s, p, h, rfl, rfl⟩ := hb; simp [Val.eq]
      | top => simp [Val.eq]
      | bot => simp [Val.eq]
    | bot =>
      cases hb with
      | fin hb => obtain ⟨s, p, h, rfl, rfl⟩ := hb; simp [Val.eq]
      | top => simp [Val.eq]
      | bot => simp [Val.eq]
  have hnan : ∀ {a : F.Val} {x : WithBot (WithTop ℚ)}, ExtRep a x → a.isNan = false :=
    fun {a x} ha => by
      cases ha with
      | fin ha => exact ha.isNan
      | top => rfl
      | bot => rfl
  have hle' : (ApproxFloats.lattice F pick).leq a b = .ok (decide (x ≤ y)) :=
    congrArg Res.ok (hle ha hb)
  have hge' : (ApproxFloats.lattice F pick).leq b a = .ok (decide (y ≤ x)) :=
    congrArg Res.ok (hle hb ha)
  have heq' : (ApproxFloats.lattice F pick).equals a b = .ok (decide (x = y)) :=
    congrArg Res.ok heq
  refine ⟨hle', heq', ?_, ?_, ⟨a.min pick b, rfl, ?_⟩, ⟨a.max pick b, rfl, ?_⟩⟩
  · show ((ApproxFloats.lattice F pick).equals a b >>= fun e => if !e then
      (ApproxFloats.lattice F pick).leq a b else pure false) = _
    rw [heq', ok_bind, hle']
    by_cases h : x = y
    · subst h
      simp
    · simp [h, lt_iff_le_and_ne]
  · show ((ApproxFloats.lattice F pick).leq a b >>= fun e => if e then pure true else
      (ApproxFloats.lattice F pick).leq b a) = _
    rw [hle', ok_bind, hge']
    by_cases h : x ≤ y
    · rw [decide_eq_true h]
      rfl
    · rw [decide_eq_false h, decide_eq_true (le_of_not_ge h)]
      rfl
  · unfold Val.min
    rw [hnan ha, hnan hb, heq, hle ha hb]
    by_cases h : x = y
    · subst h
      rw [min_self]
      cases pick a b <;> simp [ha, hb]
    · by_cases h' : x ≤ y
      · simp [h, h', ha]
      · simp [h, h', le_of_not_ge h', hb]
  · unfold Val.max
    rw [hnan ha, hnan hb, heq, hle ha hb]
    by_cases h : x = y
    · subst h
      rw [max_self]
      cases pick a b <;> simp [ha, hb]
    · by_cases h' : x ≤ y
      · simp [h, h', hb]
      · simp [h, h', le_of_not_ge h', ha]

/-- One and the negative infinity. -/
example : ∃ c, (ApproxFloats.lattice .f64 fun _ _ => true).meet Val.one (.inf true) = .ok c ∧
    ExtRep c ⊥ := by
  obtain ⟨c, h1, h2, -⟩ := (C76_order (F := .f64) (fun _ _ => true) (.fin floatRep_one) .bot).2.2.2.2.1
  exact ⟨c, h1, by simpa using h2⟩

omit [Cfg] in
/-- C76: every value other than NaN is one of `C76_order`. NaN is comparable with no value, not even with itself,
and `meet` and `join` ignore it: they return the other operand. -/
theorem C76_nan (pick : F.Val → F.Val → Bool) (a : F.Val) :
    (a ≠ .nan ↔ ∃ x, ExtRep a x) ∧
    (ApproxFloats.lattice F pick).leq .nan a = .ok false ∧
    (ApproxFloats.lattice F pick).leq a .nan = .ok false ∧
    (ApproxFloats.lattice F pick).lessThan .nan a = .ok false ∧
    (ApproxFloats.lattice F pick).lessThan a .nan = .ok false ∧
    (ApproxFloats.lattice F pick).comparable .nan a = .ok false ∧
    (ApproxFloats.lattice F pick).comparable a .nan = .ok false ∧
    (ApproxFloats.lattice F pick).meet .nan a = .ok a ∧
    (ApproxFloats.lattice F pick).meet a .nan = .ok a ∧
    (ApproxFloats.lattice F pick).join .nan a = .ok a ∧
    (ApproxFloats.lattice F pick).join a .nan = .ok a := by
  have hx : a ≠ .nan ↔ ∃ x, ExtRep a x := by
    constructor
    · intro h
      cases a with
      | nan => exact absurd rfl h
      | inf s => cases s; exacts [⟨_, .top⟩, ⟨_, .bot⟩]
      | fin s p hp => exact ⟨_, .fin (floatRep_fin s hp)⟩
    · rintro ⟨x, h⟩ rfl
      cases h with
      | fin h => obtain ⟨s, p, hp, h, -⟩ := h; cases h
  refine ⟨hx, ?_⟩
  cases a with
  | nan => exact ⟨rfl, rfl, rfl, rfl, rfl, rfl, rfl, rfl, rfl, rfl⟩
  | inf s => cases s <;> exact ⟨rfl, rfl, rfl, rfl, rfl, rfl, rfl, rfl, rfl, rfl⟩
  | fin s p hp => exact ⟨rfl, rfl, rfl, rfl, rfl, rfl, rfl, rfl, rfl, rfl⟩

example : (ApproxFloats.lattice .f64 fun _ _ => true).leq .nan .nan = .ok false :=
  (C76_nan _ .nan).2.1

end Abstalg
