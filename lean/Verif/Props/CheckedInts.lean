import Verif.Proofs.CheckedRefines

/-! # Machine integers: C11-C17, C50 -/

set_option linter.unusedSectionVars false

set_option autoImplicit false

universe u

namespace Abstalg

variable [Cfg] (w : ℕ) [Width w]

/-- C11: every method of `CheckedInts` either panics or returns what `ZZ` returns, in debug
and in release builds. -/
theorem C11_checked_ints_never_wrong :
    Refines (fun (a : SInt w) (x : ℤ) => a.1 = x) (CheckedInts.euclidean w) Integers.euclidean :=
  CheckedInts.refines w

example : (CheckedInts.euclidean 8).mul (SInt.lit 11 (by decide)) (SInt.lit 11 (by decide)) =
    .ok (SInt.lit 121 (by decide)) := rfl

/-- C11: as a ring with division, `CheckedInts` meets the contract of the integers up to
panics. -/
theorem C11_checked_ints_contract :
    EuclideanSpec True (CheckedInts.euclidean w) (fun a (x : ℤ) => a.1 = x) :=
  CheckedInts.euclidean_spec w

/-- C11: in 8 bits the gcd of 100 and -36, if returned, is a greatest common divisor. -/
example : Returns True ((CheckedInts.euclidean 8).gcd (SInt.lit 100 (by decide))
    (SInt.lit (-36) (by decide))) fun c => ∃ g : ℤ, c.1 = g ∧ IsGcd 100 (-36) g :=
  (C11_checked_ints_contract 8).gcd rfl rfl

variable {w}

theorem inRange_iff {x : ℤ} : InRange w x ↔ Fits w x := by
  unfold InRange Fits sMin sMax
  omega

theorem exactly_of {c : Res (SInt w)} {x : ℤ}
    (h : c = if h : Fits w x then .ok (SInt.mk x h) else .panic) : Exactly c x := by
  rw [Exactly, inRange_iff, h]
  constructor
  · intro hx; exact ⟨SInt.mk x hx, dif_pos hx, rfl⟩
  · intro hx; exact dif_neg hx

/-- C12: addition, subtraction, multiplication and negation are exact. -/
theorem C12_checked_ring (a b : SInt w) :
    Exactly ((CheckedInts.euclidean w).add a b) (a.1 + b.1) ∧
    Exactly ((CheckedInts.euclidean w).sub a b) (a.1 - b.1) ∧
    Exactly ((CheckedInts.euclidean w).mul a b) (a.1 * b.1) ∧
    Exactly ((CheckedInts.euclidean w).neg a) (-a.1) :=
  ⟨exactly_of (CheckedInts.add_eq w a b), exactly_of (CheckedInts.sub_eq w a b),
    exactly_of (CheckedInts.mul_eq w a b), exactly_of (CheckedInts.neg_eq w a)⟩

/-- C12: in 8 bits 100 + 27 is representable and 100 + 28 is not. -/
example : (∃ c, (CheckedInts.euclidean 8).add (SInt.lit 100 (by decide)) (SInt.lit 27 (by decide)) =
      .ok c ∧ c.1 = 127) ∧
    (CheckedInts.euclidean 8).add (SInt.lit 100 (by decide)) (SInt.lit 28 (by decide)) = .panic :=
  ⟨(C12_checked_ring (w := 8) (SInt.lit 100 (by decide)) (SInt.lit 27 (by decide))).1.1
      (by unfold InRange; decide),
    (C12_checked_ring (w := 8) (SInt.lit 100 (by decide)) (SInt.lit 28 (by decide))).1.2
      (by unfold InRange; decide)⟩

/-- C12: division panics iff the divisor is zero or the quotient is not representable, which
means `MIN / -1`; otherwise it returns the Euclidean quotient and remainder. -/
theorem C12_checked_quo_rem (a b : SInt w) :
    ((CheckedInts.euclidean w).quoRem a b = .panic ↔ b.1 = 0 ∨ ¬ InRange w (a.1 / b.1)) ∧
    (b.1 ≠ 0 → InRange w (a.1 / b.1) → ∃ q r, (CheckedInts.euclidean w).quoRem a b = .ok (q, r) ∧
      q.1 = a.1 / b.1 ∧ r.1 = a.1 % b.1) ∧
    (b.1 ≠ 0 → (¬ InRange w (a.1 / b.1) ↔ a.1 = -(2 ^ (w - 1)) ∧ b.1 = -1)) := by
  have key : b.1 ≠ 0 → (¬ InRange w (a.1 / b.1) ↔ CheckedInts.Bad w a b) := fun hb => by
    rw [inRange_iff]
    constructor
    · intro h
      by_contra h'
      exact h (CheckedInts.fits_ediv w a.2 hb h')
    · rintro ⟨h1, h2⟩
      rw [h1, h2]
      exact CheckedInts.not_fits_min w
  refine ⟨⟨fun h => ?_, ?_⟩, fun hb hr => ?_, key⟩
  · by_cases hb : b.1 = 0
    · exact .inl hb
    · refine .inr ((key hb).2 ?_)
      by_contra h'
      rw [CheckedInts.quoRem_eq w a b hb h'] at h
      cases h
  · rintro (hb | h)
    · exact CheckedInts.quoRem_zero w a b hb
    · by_cases hb : b.1 = 0
      · exact CheckedInts.quoRem_zero w a b hb
      · exact CheckedInts.quoRem_bad w a b ((key hb).1 h)
  · have h' : ¬ CheckedInts.Bad w a b := fun h => (key hb).2 h hr
    exact ⟨_, _, CheckedInts.quoRem_eq w a b hb h', rfl, rfl⟩

example : ∃ a b : SInt 8, b.1 ≠ 0 ∧ ¬ InRange 8 (a.1 / b.1) :=
  ⟨⟨-128, by decide⟩, ⟨-1, by decide⟩, by decide, by unfold InRange; decide⟩

example : ∃ a b : SInt 8, b.1 ≠ 0 ∧ InRange 8 (a.1 / b.1) :=
  ⟨⟨-128, by decide⟩, ⟨-3, by decide⟩, by decide, by unfold InRange; decide⟩

/-- C13: on `(MIN, -1)` the divisibility methods panic although the answers are
representable. -/
theorem C13_checked_min (a b : SInt w) (ha : a.1 = -(2 ^ (w - 1))) (hb : b.1 = -1) :
    (CheckedInts.euclidean w).divisible a b = .panic ∧
    (CheckedInts.euclidean w).tryDiv a b = .panic ∧
    (CheckedInts.euclidean w).rem a b = .panic ∧
    b.1 ∣ a.1 ∧ a.1 % b.1 = 0 := by
  have h : CheckedInts.Bad w a b := ⟨ha, hb⟩
  refine ⟨CheckedInts.divisible_bad w a b h, CheckedInts.tryDiv_bad w a b h, ?_, ?_, ?_⟩
  · show ((CheckedInts.euclidean w).quoRem a b >>= fun p => pure p.2) = _
    rw [CheckedInts.quoRem_bad w a b h]; rfl
  · rw [hb]; simp
  · rw [hb]; simp

/-- C13 for `i32`. -/
example : ∃ a b : SInt 32, a.1 = -(2 ^ (32 - 1)) ∧ b.1 = -1 :=
  ⟨⟨-(2 ^ 31), by decide⟩, ⟨-1, by decide⟩, rfl, rfl⟩

/-- C13: everywhere else they return the correct answer, and `reduced` never panics. -/
theorem C13_checked_divisible (a b : SInt w) :
    (¬ (a.1 = -(2 ^ (w - 1)) ∧ b.1 = -1) →
      (CheckedInts.euclidean w).divisible a b = .ok (decide (b.1 ∣ a.1)) ∧
      (b.1 ≠ 0 → ∃ r, (CheckedInts.euclidean w).rem a b = .ok r ∧ r.1 = a.1 % b.1) ∧
      (b.1 ≠ 0 → ∃ o, (CheckedInts.euclidean w).tryDiv a b = .ok o ∧
        o.map Subtype.val = if b.1 ∣ a.1 then some (a.1 / b.1) else none)) ∧
    (CheckedInts.euclidean w).reduced a b =
      .ok (decide (b.1 = 0 ∨ (0 ≤ a.1 ∧ a.1 < |b.1|))) := by
  refine ⟨fun h => ⟨CheckedInts.divisible_eq w a b h, fun hb => ?_, fun hb => ?_⟩, ?_⟩
  · refine ⟨SInt.mk _ (CheckedInts.fits_emod w b.2 hb), ?_, rfl⟩
    show ((CheckedInts.euclidean w).quoRem a b >>= fun p => pure p.2) = _
    rw [CheckedInts.quoRem_eq w a b hb h]; rfl
  · refine ⟨_, CheckedInts.tryDiv_eq w a b hb h, ?_⟩
    split <;> rfl
  · rw [CheckedInts.reduced_eq]
    congr 1
    by_cases hb : b.1 = 0
    · simp [hb]
    · have : a.1 / b.1 = 0 ↔ (0 ≤ a.1 ∧ a.1 < |b.1|) := by
        constructor
        · intro h
          have h1 := Int.emod_nonneg a.1 hb
          have h2 := Int.emod_lt_abs a.1 hb
          have h3 := Int.mul_ediv_add_emod a.1 b.1
          rw [h, mul_zero, zero_add] at h3
          rw [h3] at h1 h2
          exact ⟨h1, h2⟩
        · rintro ⟨h1, h2⟩
          exact Int.ediv_eq_zero_of_lt_abs h1 h2
      simp only [this]

/-- C13: in 8 bits -128 is divisible by -2, and by 1. -/
example : (CheckedInts.euclidean 8).divisible (SInt.lit (-128) (by decide))
    (SInt.lit (-2) (by decide)) = .ok (decide ((-2 : ℤ) ∣ -128)) :=
  ((C13_checked_divisible (w := 8) (SInt.lit (-128) (by decide)) (SInt.lit (-2) (by decide))).1
    (by decide)).1

/-- C14: `AbelianGroup::times` panics iff the multiplier or the product is not
representable. -/
theorem C14_checked_times (n : ℤ) (a : SInt w) :
    (InRange w n ∧ InRange w (n * a.1) →
      ∃ c, (CheckedInts.euclidean w).times n a = .ok c ∧ c.1 = n * a.1) ∧
    (¬ (InRange w n ∧ InRange w (n * a.1)) → (CheckedInts.euclidean w).times n a = .panic) := by
  rw [inRange_iff, inRange_iff]
  constructor
  · intro h; exact ⟨_, (CheckedInts.times_eq w n a).trans (dif_pos h), rfl⟩
  · intro h; exact (CheckedInts.times_eq w n a).trans (dif_neg h)

/-- C14: in 8 bits -3 times 40 is returned, 4 times 40 panics. -/
example : (∃ c, (CheckedInts.euclidean 8).times (-3) (SInt.lit 40 (by decide)) = .ok c ∧
      c.1 = -120) ∧
    (CheckedInts.euclidean 8).times 4 (SInt.lit 40 (by decide)) = .panic :=
  ⟨(C14_checked_times (w := 8) (-3) (SInt.lit 40 (by decide))).1 (by unfold InRange; decide),
    (C14_checked_times (w := 8) 4 (SInt.lit 40 (by decide))).2 (by unfold InRange; decide)⟩

/-- C14: in particular zero times 200 panics in 8 bits. -/
theorem C14_times_panics_on_zero :
    (CheckedInts.euclidean 8).times 200 (SInt.lit 0 (by decide)) = .panic ∧
    InRange 8 (200 * 0) := ⟨rfl, by unfold InRange; decide⟩

example : (CheckedInts.euclidean 16).times 40000 (SInt.lit 0 (by decide)) = .panic := rfl

/-- C14: `int(n)` is exact. -/
theorem C14_checked_int (n : ℤ) : Exactly ((CheckedInts.euclidean w).int n) n := by
  have h : (CheckedInts.euclidean w).int n = (CheckedInts.euclidean w).times n (CheckedInts.c1 w) :=
    rfl
  have h1 : (CheckedInts.c1 w).1 = 1 := rfl
  obtain ⟨h2, h3⟩ := C14_checked_times n (CheckedInts.c1 w)
  rw [h1, mul_one, and_self] at h2 h3
  rw [Exactly, h]
  exact ⟨h2, h3⟩

example : ∃ c, (CheckedInts.euclidean 8).int (-128) = .ok c ∧ c.1 = -128 :=
  (C14_checked_int (w := 8) (-128)).1 (by unfold InRange; decide)

/-- C15: `CommuntativeMonoid::times` on signed machine integers: it panics exactly if `n`
is positive and `2^bitlength(n) * x` is not representable. -/
theorem C15_checked_monoid_times (n : ℕ) (a : SInt w) :
    (n = 0 ∨ InRange w (2 ^ n.size * a.1) →
      ∃ c, (CheckedInts.euclidean w).utimes n a = .ok c ∧ c.1 = n * a.1) ∧
    (n ≠ 0 ∧ ¬ InRange w (2 ^ n.size * a.1) → (CheckedInts.euclidean w).utimes n a = .panic) := by
  rw [inRange_iff]
  exact CheckedInts.utimes_exact w n a

/-- C15: in 8 bits 5 times -16 is returned, although `8 * -16 = MIN` is computed too. -/
example : ∃ c, (CheckedInts.euclidean 8).utimes 5 (SInt.lit (-16) (by decide)) = .ok c ∧
    c.1 = ((5 : ℕ) : ℤ) * -16 :=
  (C15_checked_monoid_times (w := 8) 5 (SInt.lit (-16) (by decide))).1
    (Or.inr (by unfold InRange; decide))

/-- C15: the same for unsigned machine integers. -/
theorem C15_unsigned_monoid_times {w : ℕ} [UWidth w] (n : ℕ) (a : UInt' w) :
    (n = 0 ∨ 2 ^ n.size * a.1 < 2 ^ w →
      ∃ c, (CheckedUints.semiRing w).utimes n a = .ok c ∧ c.1 = n * a.1) ∧
    (n ≠ 0 ∧ ¬ 2 ^ n.size * a.1 < 2 ^ w → (CheckedUints.semiRing w).utimes n a = .panic) := by
  have h0 : 0 < 2 ^ w := Nat.two_pow_pos w
  have : ∀ x, x < 2 ^ w ↔ x ≤ uMax w := fun x => by unfold uMax; omega
  rw [this]
  exact CheckedUints.utimes_exact w n a

/-- C15: in 8 unsigned bits 5 times 31 is returned, 5 times 32 panics. -/
example : (∃ c, (CheckedUints.semiRing 8).utimes 5 (UInt'.lit 31 (by decide)) = .ok c ∧
      c.1 = 5 * 31) ∧
    (CheckedUints.semiRing 8).utimes 5 (UInt'.lit 32 (by decide)) = .panic :=
  ⟨(C15_unsigned_monoid_times 5 (UInt'.lit 31 (by decide))).1 (Or.inr (by decide)),
    (C15_unsigned_monoid_times 5 (UInt'.lit 32 (by decide))).2 ⟨by decide, by decide⟩⟩

/-- C15: hence one times 200 panics in 8 unsigned bits. -/
theorem C15_panics_on_representable :
    (CheckedUints.semiRing 8).utimes 1 (UInt'.lit 200 (by decide)) = .panic :=
  (C15_unsigned_monoid_times 1 (UInt'.lit 200 (by decide))).2 ⟨by decide, by decide⟩

/-- `200 = 2 * 100 < 2^8` is not enough, `50` is. -/
example : 2 ^ Nat.size 2 * (UInt'.lit (w := 8) 50 (by decide)).1 < 2 ^ 8 := by decide

/-- C16: addition and multiplication of unsigned machine integers are exact. -/
theorem C16_checked_uints_exact {w : ℕ} [UWidth w] (a b : UInt' w) :
    UExactly ((CheckedUints.semiRing w).add a b) (a.1 + b.1) ∧
    UExactly ((CheckedUints.semiRing w).mul a b) (a.1 * b.1) := by
  have h0 : 0 < 2 ^ w := Nat.two_pow_pos w
  have : ∀ x, x < 2 ^ w ↔ x ≤ uMax w := fun x => by unfold uMax; omega
  unfold UExactly
  rw [this, this, CheckedUints.add_eq, CheckedUints.mul_eq]
  exact ⟨⟨fun h => ⟨_, dif_pos h, rfl⟩, fun h => dif_neg h⟩,
    ⟨fun h => ⟨_, dif_pos h, rfl⟩, fun h => dif_neg h⟩⟩

/-- C16: in 8 bits 15 * 17 is representable and 16 * 16 is not. -/
example : (∃ c, (CheckedUints.semiRing 8).mul (UInt'.lit 15 (by decide)) (UInt'.lit 17 (by decide)) =
      .ok c ∧ c.1 = 255) ∧
    (CheckedUints.semiRing 8).mul (UInt'.lit 16 (by decide)) (UInt'.lit 16 (by decide)) = .panic :=
  ⟨(C16_checked_uints_exact (UInt'.lit 15 (by decide)) (UInt'.lit 17 (by decide))).2.1 (by decide),
    (C16_checked_uints_exact (UInt'.lit 16 (by decide)) (UInt'.lit 16 (by decide))).2.2
      (by decide)⟩

/-- C16: zero, one and the predicates are those of the natural numbers; only one is
invertible. -/
theorem C16_checked_uints_units {w : ℕ} [UWidth w] (a : UInt' w) :
    (∃ z o, (CheckedUints.semiRing w).zero = .ok z ∧ z.1 = 0 ∧
      (CheckedUints.semiRing w).one = .ok o ∧ o.1 = 1) ∧
    (CheckedUints.semiRing w).isZero a = .ok (decide (a.1 = 0)) ∧
    (CheckedUints.semiRing w).isOne a = .ok (decide (a.1 = 1)) ∧
    (CheckedUints.semiRing w).invertible a = .ok (decide (a.1 = 1)) ∧
    ∃ o, (CheckedUints.semiRing w).tryInv a = .ok o ∧
      o.map Subtype.val = if a.1 = 1 then some 1 else none := by
  have h1 : (a == CheckedUints.c1 w) = decide (a.1 = 1) := by
    rw [Bool.eq_iff_iff, beq_iff_eq, decide_eq_true_eq, Subtype.ext_iff]; rfl
  refine ⟨⟨_, _, rfl, rfl, rfl, rfl⟩, ?_, ?_, ?_, ?_⟩
  · show Res.ok (a.1 == 0) = _
    congr 1
  · show Res.ok (a == CheckedUints.c1 w) = _
    rw [h1]
  · show Res.ok (a == CheckedUints.c1 w) = _
    rw [h1]
  · show ∃ o, (if a == CheckedUints.c1 w then Res.ok (some (CheckedUints.c1 w)) else Res.ok none) =
      Res.ok o ∧ _
    rw [h1]
    by_cases h : a.1 = 1
    · exact ⟨some (CheckedUints.c1 w), by simp [h], by simp [h]; rfl⟩
    · exact ⟨none, by simp [h], by simp [h]⟩

example : (CheckedUints.semiRing 8).invertible (UInt'.lit 2 (by decide)) = .ok false :=
  (C16_checked_uints_units (UInt'.lit 2 (by decide))).2.2.2.1

/-- C16: all semiring methods meet the contract of the naturals up to panics. -/
theorem C16_checked_uints_contract {w : ℕ} [UWidth w] :
    SemiRingSpec True (CheckedUints.semiRing w) (fun a (x : ℕ) => a.1 = x) :=
  CheckedUints.semiRing_spec w

example : (CheckedUints.semiRing 8).add (UInt'.lit 200 (by decide)) (UInt'.lit 56 (by decide)) =
    .panic := rfl

/-- C17: `extended_gcd` and `gcd` return for all operands except `(MIN, -1)`: no intermediate
result overflows. -/
theorem C17_checked_extended_gcd (a b : SInt w) (h : ¬ (a.1 = -(2 ^ (w - 1)) ∧ b.1 = -1)) :
    ∃ g x y, (CheckedInts.euclidean w).extendedGcd a b = .ok (g, x, y) ∧
      (CheckedInts.euclidean w).gcd a b = .ok g ∧ a.1 * x.1 + b.1 * y.1 = g.1 ∧
      g.1 ∣ a.1 ∧ g.1 ∣ b.1 ∧ ∀ d, d ∣ a.1 → d ∣ b.1 → d ∣ g.1 := by
  obtain ⟨g, x, y, h1, h2⟩ := CheckedInts.gcd_total w a b h
  obtain ⟨g', x', y', h3, h4, h5⟩ := CheckedInts.extendedGcd_total w a b h
  rw [h2] at h3
  cases h3
  exact ⟨g, x, y, h2, h1, h4, h5⟩

/-- C17: the operands `(MIN, MIN)` and `(-1, MIN)` are covered. -/
example : ∃ g x y : SInt 8, (CheckedInts.euclidean 8).extendedGcd (SInt.lit (-1) (by decide))
    (SInt.lit (-128) (by decide)) = .ok (g, x, y) ∧ -1 * x.1 + -128 * y.1 = g.1 := by
  obtain ⟨g, x, y, h1, _, h2, _⟩ := C17_checked_extended_gcd (w := 8) (SInt.lit (-1) (by decide))
    (SInt.lit (-128) (by decide)) (by decide)
  exact ⟨g, x, y, h1, h2⟩

/-- C17: on `(MIN, -1)` they panic. -/
theorem C17_checked_extended_gcd_min (a b : SInt w) (ha : a.1 = -(2 ^ (w - 1))) (hb : b.1 = -1) :
    (CheckedInts.euclidean w).extendedGcd a b = .panic ∧
    (CheckedInts.euclidean w).gcd a b = .panic := by
  have h : CheckedInts.Bad w a b := ⟨ha, hb⟩
  refine ⟨CheckedInts.extendedGcd_bad w a b h, ?_⟩
  have hb0 : b.1 ≠ 0 := by rw [hb]; decide
  show gcdDefault (CheckedInts.euclidean w).isZero (CheckedInts.euclidean w).rem a b = _
  rw [gcdDefault]
  show (Res.ok (b.1 == 0) >>= fun z => if z = true then _ else
    (((CheckedInts.euclidean w).quoRem a b >>= fun p => pure p.2) >>= fun r => _)) = _
  rw [CheckedInts.quoRem_bad w a b h]
  simp [hb0]

example : ∃ a b : SInt 8, ¬ (a.1 = -(2 ^ (8 - 1)) ∧ b.1 = -1) ∧ a.1 = -128 ∧ b.1 = -127 :=
  ⟨⟨-128, by decide⟩, ⟨-127, by decide⟩, by decide, rfl, rfl⟩

section orders

/-- C50: the lattices of `ZZ`, `NN` and of the machine integers are those of the total order,
and no method panics. -/
theorem C50_lattices (w' : ℕ) [UWidth w'] :
    LatticeSpec False Integers.lattice (fun a (x : ℤ) => a = x) ∧
    LatticeSpec False Naturals.lattice (fun a (x : ℕ) => a = x) ∧
    LatticeSpec False (CheckedInts.lattice w) (fun a (x : ℤ) => a.1 = x) ∧
    LatticeSpec False (CheckedUints.lattice w') (fun a (x : ℕ) => a.1 = x) :=
  ⟨Integers.lattice_spec, Naturals.lattice_spec, CheckedInts.lattice_spec w,
    CheckedUints.lattice_spec w'⟩

example : Returns False ((CheckedInts.lattice 8).lessThan (SInt.lit (-3) (by decide))
    (SInt.lit 2 (by decide))) (· = true) :=
  ((C50_lattices (w := 8) 8).2.2.1.lessThan (x := -3) (y := 2) rfl rfl).mono
    fun _ h => h.2 (by decide)

/-- C50: in a structure that implements a linear order, `meet` and `join` are the minimum and
the maximum, any two elements are comparable, and `meet` and `join` distribute over each
other. -/
theorem C50_linear {E : Type} {R : Type u} [LinearOrder R] {A : LatticeOps E}
    {rep : E → R → Prop} (h : LatticeSpec False A rep) {a b c : E} {x y z : R}
    (ha : rep a x) (hb : rep b y) (hc : rep c z) :
    A.comparable a b = .ok true ∧
    (∃ m, A.meet a b = .ok m ∧ rep m (min x y)) ∧ (∃ j, A.join a b = .ok j ∧ rep j (max x y)) ∧
    (∃ j m m₁ m₂ j', A.join b c = .ok j ∧ A.meet a j = .ok m ∧ A.meet a b = .ok m₁ ∧
      A.meet a c = .ok m₂ ∧ A.join m₁ m₂ = .ok j' ∧ A.equals m j' = .ok true) ∧
    (∃ m j j₁ j₂ m', A.meet b c = .ok m ∧ A.join a m = .ok j ∧ A.join a b = .ok j₁ ∧
      A.join a c = .ok j₂ ∧ A.meet j₁ j₂ = .ok m' ∧ A.equals j m' = .ok true) := by
  have dec : ∀ {c : Res Bool} {p : Prop}, Decides False c p → p → c = .ok true := by
    intro c p hc hp
    obtain ⟨t, rfl, ht⟩ := returns_false_iff.1 hc
    rw [ht.2 hp]
  have meet : ∀ {a b x y}, rep a x → rep b y → ∃ m, A.meet a b = .ok m ∧ rep m (min x y) := by
    intro a b x y ha hb
    obtain ⟨m, h1, z, h2, h3⟩ := returns_false_iff.1 (h.meet ha hb)
    rw [h3.unique isGLB_pair] at h2
    exact ⟨m, h1, h2⟩
  have join : ∀ {a b x y}, rep a x → rep b y → ∃ m, A.join a b = .ok m ∧ rep m (max x y) := by
    intro a b x y ha hb
    obtain ⟨m, h1, z, h2, h3⟩ := returns_false_iff.1 (h.join ha hb)
    rw [h3.unique isLUB_pair] at h2
    exact ⟨m, h1, h2⟩
  refine ⟨dec (h.comparable ha hb) (le_total x y), meet ha hb, join ha hb, ?_, ?_⟩
  · obtain ⟨j, h1, k1⟩ := join hb hc
    obtain ⟨m, h2, k2⟩ := meet ha k1
    obtain ⟨m₁, h3, k3⟩ := meet ha hb
    obtain ⟨m₂, h4, k4⟩ := meet ha hc
    obtain ⟨j', h5, k5⟩ := join k3 k4
    exact ⟨j, m, m₁, m₂, j', h1, h2, h3, h4, h5, dec (h.equals k2 k5) (min_max_distrib_left x y z)⟩
  · obtain ⟨m, h1, k1⟩ := meet hb hc
    obtain ⟨j, h2, k2⟩ := join ha k1
    obtain ⟨j₁, h3, k3⟩ := join ha hb
    obtain ⟨j₂, h4, k4⟩ := join ha hc
    obtain ⟨m', h5, k5⟩ := meet k3 k4
    exact ⟨m, j, j₁, j₂, m', h1, h2, h3, h4, h5, dec (h.equals k2 k5) (max_min_distrib_left x y z)⟩

example : LatticeSpec False (CheckedInts.lattice 64) (SRep 64) := CheckedInts.lattice_spec 64

end orders

end Abstalg
