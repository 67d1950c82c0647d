import Verif.Proofs.CheckedExact
import Verif.Props.CheckedInts
import Verif.Props.Quotient

/-! # Exact values and exact overflow conditions of the Euclidean methods: C71-C72 -/

set_option linter.unusedSectionVars false

set_option autoImplicit false

namespace Abstalg

section integers

variable [Cfg] (a b : ℤ)

/-- C71: the value of `gcd` on the integers, with its sign: the first operand if the second is
zero, the second operand if it divides the first, and otherwise the positive greatest common
divisor. -/
theorem C71_gcd : Integers.euclidean.gcd a b =
    .ok (if b = 0 then a else if b ∣ a then b else (Int.gcd a b : ℤ)) := Integers.gcd_eq a b

/-- The three cases. -/
example : Integers.euclidean.gcd (-6) 0 = .ok (-6) ∧ Integers.euclidean.gcd 6 (-3) = .ok (-3) ∧
    Integers.euclidean.gcd (-6) (-4) = .ok 2 := by
  refine ⟨C71_gcd (-6) 0, C71_gcd 6 (-3), C71_gcd (-6) (-4)⟩

/-- C71: so the result is negative exactly in two cases, and is the absolute greatest common
divisor up to sign. -/
theorem C71_gcd_sign : ∃ g, Integers.euclidean.gcd a b = .ok g ∧ |g| = Int.gcd a b ∧
    (g < 0 ↔ b = 0 ∧ a < 0 ∨ b < 0 ∧ b ∣ a) := by
  refine ⟨_, Integers.gcd_eq a b, CheckedInts.abs_gcdValue a b, ?_⟩
  unfold Integers.gcdValue
  split_ifs with h1 h2
  · simp [h1]
  · simp [h1, h2]
  · have : ¬ (Int.gcd a b : ℤ) < 0 := not_lt.2 (Int.natCast_nonneg _)
    simp [h1, h2, this]

example : ∃ g, Integers.euclidean.gcd (-6) (-4) = .ok g ∧ |g| = 2 ∧
    (g < 0 ↔ (-4 : ℤ) = 0 ∧ (-6 : ℤ) < 0 ∨ (-4 : ℤ) < 0 ∧ (-4 : ℤ) ∣ -6) := C71_gcd_sign (-6) (-4)

/-- C71: the value of `lcm` on the integers, with its sign: the first operand if the second
divides it, and otherwise the product divided by the positive greatest common divisor. -/
theorem C71_lcm : Integers.euclidean.lcm a b =
    .ok (if b ∣ a then a else a * b / (Int.gcd a b : ℤ)) := Integers.lcm_eq a b

example : Integers.euclidean.lcm (-6) (-3) = .ok (-6) ∧ Integers.euclidean.lcm (-6) (-4) = .ok 12 ∧
    Integers.euclidean.lcm 0 0 = .ok 0 ∧ Integers.euclidean.lcm 4 0 = .ok 0 :=
  ⟨C71_lcm (-6) (-3), C71_lcm (-6) (-4), C71_lcm 0 0, C71_lcm 4 0⟩

/-- C71: up to sign it is the least common multiple. -/
theorem C71_lcm_abs : ∃ c, Integers.euclidean.lcm a b = .ok c ∧ |c| = Int.lcm a b :=
  ⟨_, Integers.lcm_eq a b, CheckedInts.abs_lcmValue a b⟩

example : ∃ c, Integers.euclidean.lcm 4 (-6) = .ok c ∧ |c| = 12 := C71_lcm_abs 4 (-6)

/-- C71: `extended_gcd` returns the same divisor as `gcd`, with coefficients for it. -/
theorem C71_extended_gcd : ∃ g x y, Integers.euclidean.extendedGcd a b = .ok (g, x, y) ∧
    Integers.euclidean.gcd a b = .ok g ∧ a * x + b * y = g := by
  obtain ⟨x, y, h1, h2⟩ := Integers.extendedGcd_eq _ a b le_rfl
  exact ⟨_, x, y, h1, Integers.gcd_eq a b, h2⟩

example : ∃ g x y, Integers.euclidean.extendedGcd (-12) (-18) = .ok (g, x, y) ∧
    Integers.euclidean.gcd (-12) (-18) = .ok g ∧ -12 * x + -18 * y = g := C71_extended_gcd (-12) (-18)

variable {a b}

/-- C71: the size of the coefficients: for a nonnegative first and a positive second operand they
are `0` and `1` if the second operand divides the first, and otherwise at most half of `b / g` and
half of `a / g`. -/
theorem C71_bezout_bounds (ha : 0 ≤ a) (hb : 0 < b) : ∃ x y,
    Integers.euclidean.extendedGcd a b = .ok ((Int.gcd a b : ℤ), x, y) ∧
    (b ∣ a → x = 0 ∧ y = 1) ∧
    (¬ b ∣ a → 2 * (|x| * Int.gcd a b) ≤ b ∧ 2 * (|y| * Int.gcd a b) ≤ a) := by
  obtain ⟨x, y, h1, _, h2⟩ := Integers.extendedGcd_bounds _ a b ha hb le_rfl
  refine ⟨x, y, h1, fun h => ?_, fun h => ?_⟩
  · rcases h2 with h2 | h2
    · exact h2.2
    · exact absurd h h2.1
  · rcases h2 with h2 | h2
    · exact absurd h2.1 h
    · exact h2.2

/-- `34 * -8 + 21 * 13 = 1`: the bounds 10 and 17 are met. -/
example : ∃ x y, Integers.euclidean.extendedGcd 34 21 = .ok (1, x, y) ∧
    ((21 : ℤ) ∣ 34 → x = 0 ∧ y = 1) ∧
    (¬ (21 : ℤ) ∣ 34 → 2 * (|x| * 1) ≤ 21 ∧ 2 * (|y| * 1) ≤ 34) :=
  C71_bezout_bounds (by decide) (by decide)

/-- C71: they are the smallest possible coefficients. -/
theorem C71_bezout_minimal (ha : 0 ≤ a) (hb : 0 < b) : ∃ x y,
    Integers.euclidean.extendedGcd a b = .ok ((Int.gcd a b : ℤ), x, y) ∧
    ∀ x' y', a * x' + b * y' = Int.gcd a b → |x| ≤ |x'| ∧ (a ≠ b → |y| ≤ |y'|) := by
  obtain ⟨x, y, h1, h2, h3⟩ := Integers.extendedGcd_bounds _ a b ha hb le_rfl
  exact ⟨x, y, h1, fun x' y' h' => Integers.minimal ha hb h2 h3 h'⟩

/-- With `a = b` the coefficients are 0 and 1, and 1 and 0 would also do. -/
example : Integers.euclidean.extendedGcd 5 5 = .ok (5, 0, 1) ∧ (5 : ℤ) * 1 + 5 * 0 = 5 := by
  obtain ⟨x, y, h1, h2, _⟩ := C71_bezout_bounds (a := 5) (b := 5) (by decide) (by decide)
  obtain ⟨rfl, rfl⟩ := h2 (dvd_refl _)
  exact ⟨h1, rfl⟩

example : ∃ x y, Integers.euclidean.extendedGcd 240 46 = .ok (2, x, y) ∧
    ∀ x' y' : ℤ, 240 * x' + 46 * y' = 2 → |x| ≤ |x'| ∧ ((240 : ℤ) ≠ 46 → |y| ≤ |y'|) :=
  C71_bezout_minimal (by decide) (by decide)

end integers

section machine

variable [Cfg] {w : ℕ} [Width w] (a b : SInt w)

open CheckedInts (Bad)

/-- C72: `gcd` overflows exactly for `(MIN, -1)`; the value, with its sign, is that of the
integers. -/
theorem C72_gcd : ReturnsIff (¬ (a.1 = -(2 ^ (w - 1)) ∧ b.1 = -1)) ((CheckedInts.euclidean w).gcd a b)
    fun g => g.1 = if b.1 = 0 then a.1 else if b.1 ∣ a.1 then b.1 else (Int.gcd a.1 b.1 : ℤ) :=
  CheckedInts.gcd_iff a b

/-- In eight bits. -/
example :
    (∃ g, (CheckedInts.euclidean 8).gcd ⟨-128, by decide⟩ ⟨-100, by decide⟩ = .ok g ∧ g.1 = 4) ∧
    (CheckedInts.euclidean 8).gcd ⟨-128, by decide⟩ ⟨-1, by decide⟩ = .panic := by
  exact ⟨((C72_gcd (w := 8) ⟨-128, by decide⟩ ⟨-100, by decide⟩).1 (by decide)).imp fun _ hc => ⟨hc.1, hc.2.trans (by decide)⟩,
    (C72_gcd (w := 8) ⟨-128, by decide⟩ ⟨-1, by decide⟩).2 (by decide)⟩

/-- C72: `extended_gcd` overflows exactly for `(MIN, -1)`, and otherwise returns the divisor and
the coefficients that the integers return. -/
theorem C72_extended_gcd : ReturnsIff (¬ (a.1 = -(2 ^ (w - 1)) ∧ b.1 = -1))
    ((CheckedInts.euclidean w).extendedGcd a b)
    fun c => Integers.euclidean.extendedGcd a.1 b.1 = .ok (c.1.1, c.2.1.1, c.2.2.1) := by
  refine ⟨fun h => ?_, fun h => CheckedInts.extendedGcd_bad w a b (not_not.1 h)⟩
  obtain ⟨g, x, y, h1, _⟩ := CheckedInts.extendedGcd_total w a b h
  refine ⟨(g, x, y), h1, ?_⟩
  rcases (CheckedInts.refines w).extendedGcd (a := a) (b := b) rfl rfl with h2 | ⟨c, d, h2, h3, h4⟩
  · rw [h1] at h2; cases h2
  · rw [h1] at h2; cases h2
    rw [h3]
    obtain ⟨d1, d2, d3⟩ := d
    obtain ⟨rfl, rfl, rfl⟩ := h4
    rfl

example :
    ReturnsIff (¬ ((-128 : ℤ) = -(2 ^ (8 - 1)) ∧ (-1 : ℤ) = -1))
      ((CheckedInts.euclidean 8).extendedGcd ⟨-128, by decide⟩ ⟨-1, by decide⟩)
      fun c => Integers.euclidean.extendedGcd (-128) (-1) = .ok (c.1.1, c.2.1.1, c.2.2.1) := by
  exact C72_extended_gcd (w := 8) ⟨-128, by decide⟩ ⟨-1, by decide⟩

/-- C72: `lcm` returns exactly if the operands are not `(MIN, -1)` and the least common multiple,
with its sign, is representable: no intermediate result overflows. -/
theorem C72_lcm : ReturnsIff
    (¬ (a.1 = -(2 ^ (w - 1)) ∧ b.1 = -1) ∧
      InRange w (if b.1 ∣ a.1 then a.1 else a.1 * b.1 / (Int.gcd a.1 b.1 : ℤ)))
    ((CheckedInts.euclidean w).lcm a b)
    fun c => c.1 = if b.1 ∣ a.1 then a.1 else a.1 * b.1 / (Int.gcd a.1 b.1 : ℤ) :=
  CheckedInts.lcm_iff a b

/-- In eight bits, although `-50 * 20` is not representable. -/
example :
    (CheckedInts.euclidean 8).lcm ⟨-100, by decide⟩ ⟨8, by decide⟩ = .panic ∧
    (∃ c, (CheckedInts.euclidean 8).lcm ⟨-50, by decide⟩ ⟨20, by decide⟩ = .ok c ∧ c.1 = -100) := by
  exact ⟨(C72_lcm (w := 8) ⟨-100, by decide⟩ ⟨8, by decide⟩).2 (by unfold InRange; decide),
    ((C72_lcm (w := 8) ⟨-50, by decide⟩ ⟨20, by decide⟩).1 (by unfold InRange; decide)).imp
      fun _ hc => ⟨hc.1, hc.2.trans (by decide)⟩⟩

/-- C72: `relative_primes` and `associates` overflow exactly for `(MIN, -1)`, and
`associate_repr` exactly for `MIN`. -/
theorem C72_tests :
    ReturnsIff (¬ (a.1 = -(2 ^ (w - 1)) ∧ b.1 = -1)) ((CheckedInts.euclidean w).relativePrimes a b)
      (fun r => r = true ↔ Int.gcd a.1 b.1 = 1) ∧
    ReturnsIff (¬ (a.1 = -(2 ^ (w - 1)) ∧ b.1 = -1)) ((CheckedInts.euclidean w).associates a b)
      (fun r => r = true ↔ |a.1| = |b.1|) ∧
    Exactly ((CheckedInts.euclidean w).associateRepr a) |a.1| :=
  ⟨CheckedInts.relativePrimes_iff a b, CheckedInts.associates_iff a b, CheckedInts.associateRepr_iff a⟩

/-- The order of the operands matters for `associates`. -/
example :
    (CheckedInts.euclidean 8).associates ⟨-128, by decide⟩ ⟨-1, by decide⟩ = .panic ∧
    ∃ r, (CheckedInts.euclidean 8).associates ⟨-1, by decide⟩ ⟨-128, by decide⟩ = .ok r ∧
      (r = true ↔ |(-1 : ℤ)| = |(-128 : ℤ)|) := by
  exact ⟨(C72_tests (w := 8) ⟨-128, by decide⟩ ⟨-1, by decide⟩).2.1.2 (by decide),
    (C72_tests (w := 8) ⟨-1, by decide⟩ ⟨-128, by decide⟩).2.1.1 (by decide)⟩

/-- C72: the divisibility order over machine integers, on arbitrary objects: `join` overflows
exactly if the nonnegative least common multiple is not representable, `meet` if the greatest
common divisor is not, or for `(MIN, -1)`. -/
theorem C72_divisibility_order :
    ReturnsIff (¬ (b.1 = -(2 ^ (w - 1)) ∧ a.1 = -1))
      ((DivisibilityOrder.lattice (CheckedInts.euclidean w)).leq a b) (fun r => r = true ↔ a.1 ∣ b.1) ∧
    ReturnsIff (¬ (a.1 = -(2 ^ (w - 1)) ∧ b.1 = -1) ∧ InRange w (Int.gcd a.1 b.1))
      ((DivisibilityOrder.lattice (CheckedInts.euclidean w)).meet a b)
      (fun c => c.1 = Int.gcd a.1 b.1) ∧
    Exactly ((DivisibilityOrder.lattice (CheckedInts.euclidean w)).join a b) (Int.lcm a.1 b.1) := by
  refine ⟨⟨fun h => ?_, fun h => ?_⟩, CheckedInts.meet_iff a b, CheckedInts.join_iff a b⟩
  · exact ⟨_, CheckedInts.divisible_eq w b a h, decide_eq_true_iff⟩
  · exact CheckedInts.divisible_bad w b a (not_not.1 h)

example :
    (DivisibilityOrder.lattice (CheckedInts.euclidean 8)).join ⟨16, by decide⟩ ⟨24, by decide⟩ =
      .ok ⟨48, by decide⟩ ∧
    (DivisibilityOrder.lattice (CheckedInts.euclidean 8)).join ⟨16, by decide⟩ ⟨9, by decide⟩ = .panic := by
  obtain ⟨c, h1, h2⟩ := (C72_divisibility_order (w := 8) ⟨16, by decide⟩ ⟨24, by decide⟩).2.2.1
    (by unfold InRange; decide)
  refine ⟨?_, (C72_divisibility_order (w := 8) ⟨16, by decide⟩ ⟨9, by decide⟩).2.2.2
    (by unfold InRange; decide)⟩
  rw [h1]; congr 1; exact Subtype.ext h2

/-- C72: so on members (nonnegative integers) the comparison and `meet` never panic. -/
theorem C72_divisibility_members (ha : 0 ≤ a.1) (hb : 0 ≤ b.1) :
    (DivisibilityOrder.lattice (CheckedInts.euclidean w)).leq a b = .ok (decide (a.1 ∣ b.1)) ∧
    ∃ c, (DivisibilityOrder.lattice (CheckedInts.euclidean w)).meet a b = .ok c ∧
      c.1 = Int.gcd a.1 b.1 := by
  refine ⟨CheckedInts.divisible_eq w b a fun h => by have := h.2; omega,
    (CheckedInts.meet_iff a b).1 ⟨fun h => by have := h.2; omega, ?_⟩⟩
  have h1 : (Int.gcd a.1 b.1 : ℤ) = Integers.gcdValue a.1 b.1 := by
    rw [← CheckedInts.abs_gcdValue, abs_of_nonneg]
    unfold Integers.gcdValue
    split_ifs <;> [exact ha; exact hb; exact Int.natCast_nonneg _]
  rw [h1]
  obtain ⟨g, _, h3⟩ := CheckedInts.gcd_value a b fun h => by have := h.2; omega
  rw [← h3]
  exact CheckedInts.inRange_val g

example : ∃ c, (DivisibilityOrder.lattice (CheckedInts.euclidean 8)).meet (SInt.lit 100 (by decide))
    (SInt.lit 75 (by decide)) = .ok c ∧ c.1 = 25 :=
  (C72_divisibility_members (w := 8) (SInt.lit 100 (by decide)) (SInt.lit 75 (by decide))
    (by show (0 : ℤ) ≤ 100; decide) (by show (0 : ℤ) ≤ 75; decide)).2.imp
    fun _ hc => ⟨hc.1, hc.2.trans rfl⟩

section quotients

variable {m : SInt w} (hm : 0 < m.1)

include hm

/-- C72: integers modulo `m` over machine integers, on arbitrary objects: `add`, `mul` and `neg`
overflow exactly if the sum, product or negative before the reduction is not representable. -/
theorem C72_quotient_ops :
    ReturnsIff (InRange w (a.1 + b.1)) ((QuotientRing.ops (CheckedInts.euclidean w) m).add a b)
      (fun c => c.1 = (a.1 + b.1) % m.1) ∧
    ReturnsIff (InRange w (a.1 * b.1)) ((QuotientRing.ops (CheckedInts.euclidean w) m).mul a b)
      (fun c => c.1 = (a.1 * b.1) % m.1) ∧
    ReturnsIff (InRange w (-a.1)) ((QuotientRing.ops (CheckedInts.euclidean w) m).neg a)
      (fun c => c.1 = -a.1 % m.1) ∧
    ReturnsIff (InRange w (a.1 + b.1)) ((QuotientField.ops (CheckedInts.euclidean w) m).add a b)
      (fun c => c.1 = (a.1 + b.1) % m.1) ∧
    ReturnsIff (InRange w (a.1 * b.1)) ((QuotientField.ops (CheckedInts.euclidean w) m).mul a b)
      (fun c => c.1 = (a.1 * b.1) % m.1) ∧
    ReturnsIff (InRange w (-a.1)) ((QuotientField.ops (CheckedInts.euclidean w) m).neg a)
      (fun c => c.1 = -a.1 % m.1) :=
  ⟨CheckedInts.quotient_add m hm a b, CheckedInts.quotient_mul m hm a b, CheckedInts.quotient_neg m hm a,
    CheckedInts.quotient_add m hm a b, CheckedInts.quotient_mul m hm a b, CheckedInts.quotient_neg m hm a⟩

/-- C72: `sub` negates and reduces first, so it overflows exactly if the negative or the sum of
its residue and the first operand is not representable. -/
theorem C72_quotient_sub :
    ReturnsIff (InRange w (-b.1) ∧ InRange w (-b.1 % m.1 + a.1))
      ((QuotientRing.ops (CheckedInts.euclidean w) m).sub a b) (fun c => c.1 = (a.1 - b.1) % m.1) ∧
    ReturnsIff (InRange w (-b.1) ∧ InRange w (a.1 + -b.1 % m.1))
      ((QuotientRing.ops (CheckedInts.euclidean w) m).subAssign a b) (fun c => c.1 = (a.1 - b.1) % m.1) ∧
    ReturnsIff (InRange w (-b.1) ∧ InRange w (-b.1 % m.1 + a.1))
      ((QuotientField.ops (CheckedInts.euclidean w) m).sub a b) (fun c => c.1 = (a.1 - b.1) % m.1) ∧
    ReturnsIff (InRange w (-b.1) ∧ InRange w (a.1 + -b.1 % m.1))
      ((QuotientField.ops (CheckedInts.euclidean w) m).subAssign a b)
      (fun c => c.1 = (a.1 - b.1) % m.1) :=
  ⟨CheckedInts.quotient_sub m hm a b, CheckedInts.quotient_subAssign m hm a b,
    CheckedInts.quotient_sub m hm a b, CheckedInts.quotient_subAssign m hm a b⟩

/-- C72: `try_inv` of the quotient ring never panics, for any positive modulus and any object:
the coefficient computed by `extended_gcd` fits, and its product with the unit too. -/
theorem C72_quotient_try_inv : ∃ o, (QuotientRing.ops (CheckedInts.euclidean w) m).tryInv a = .ok o ∧
    (∀ b, o = some b → 0 ≤ b.1 ∧ b.1 < m.1 ∧ m.1 ∣ a.1 * b.1 - 1) ∧
    (o = none ↔ Int.gcd a.1 m.1 ≠ 1) := CheckedInts.quotient_tryInv m hm a

/-- C72: `inv` of the quotient field panics exactly for zero and for objects not prime to the
modulus, so it never overflows. -/
theorem C72_quotient_inv : ReturnsIff (a.1 ≠ 0 ∧ Int.gcd a.1 m.1 = 1)
    ((QuotientField.ops (CheckedInts.euclidean w) m).inv a)
    fun b => 0 ≤ b.1 ∧ b.1 < m.1 ∧ m.1 ∣ a.1 * b.1 - 1 := by
  show ReturnsIff _ (QuotientField.inv (CheckedInts.euclidean w) m a) _
  rw [QuotientField.inv_eq]
  have hz : QuotientField.isZero (CheckedInts.euclidean w) m a = .ok (decide (a.1 = 0)) := by
    show Res.ok (a == CheckedInts.c0 w) = _
    congr 1
  rw [hz, ok_bind]
  by_cases h0 : a.1 = 0
  · rw [decide_eq_true h0]
    exact .panic (fun h => h.1 h0) rfl
  · rw [decide_eq_false h0]
    obtain ⟨o, h1, h2, h3⟩ := CheckedInts.quotient_tryInv m hm a
    simp only [Bool.not_false, assert_true, ok_bind, h1]
    cases o with
    | none => exact .panic (fun h => h3.1 rfl h.2) rfl
    | some b => exact .ok ⟨h0, not_not.1 fun h => by cases h3.2 h⟩ rfl (h2 b rfl)

end quotients

/-- In eight bits modulo 100: sums over 127 overflow although the operands are members, the
inverse of 99 is computed. -/
example :
    (QuotientRing.ops (CheckedInts.euclidean 8) ⟨100, by decide⟩).add ⟨64, by decide⟩ ⟨64, by decide⟩ = .panic ∧
    (∃ c, (QuotientRing.ops (CheckedInts.euclidean 8) ⟨100, by decide⟩).add ⟨64, by decide⟩
      ⟨63, by decide⟩ = .ok c ∧ c.1 = 27) ∧
    (QuotientRing.ops (CheckedInts.euclidean 8) ⟨100, by decide⟩).sub ⟨64, by decide⟩ ⟨1, by decide⟩ = .panic ∧
    (∃ o, (QuotientRing.ops (CheckedInts.euclidean 8) ⟨100, by decide⟩).tryInv ⟨99, by decide⟩ = .ok o ∧
      (∀ b, o = some b → 0 ≤ b.1 ∧ b.1 < 100 ∧ 100 ∣ 99 * b.1 - 1) ∧
      (o = none ↔ Int.gcd 99 100 ≠ 1)) ∧
    (QuotientField.ops (CheckedInts.euclidean 8) ⟨100, by decide⟩).inv ⟨75, by decide⟩ = .panic := by
  have hm : (0 : ℤ) < (⟨100, by decide⟩ : SInt 8).1 := by decide
  exact ⟨(C72_quotient_ops (w := 8) ⟨64, by decide⟩ ⟨64, by decide⟩ hm).1.2 (by unfold InRange; decide),
    (C72_quotient_ops (w := 8) ⟨64, by decide⟩ ⟨63, by decide⟩ hm).1.1 (by unfold InRange; decide),
    (C72_quotient_sub (w := 8) ⟨64, by decide⟩ ⟨1, by decide⟩ hm).1.2 (by unfold InRange; decide),
    C72_quotient_try_inv (w := 8) ⟨99, by decide⟩ hm,
    (C72_quotient_inv (w := 8) ⟨75, by decide⟩ hm).2 (by decide)⟩

/-- C72: the additive methods never panic on members exactly up to the modulus with
`2 (n - 1) ≤ MAX`: then they meet the contract of an Abelian group. -/
theorem C72_quotient_additive (n : ℕ) (hn : 2 ≤ n) (m : SInt w) (hm : m.1 = n) :
    (2 * ((n : ℤ) - 1) ≤ 2 ^ (w - 1) - 1 →
      AbelianGroupSpec False (QuotientRing.ops (CheckedInts.euclidean w) m).toAbelianGroupOps
        fun (a : SInt w) (s : ZMod n) => 0 ≤ a.1 ∧ a.1 < n ∧ (a.1 : ZMod n) = s) ∧
    (¬ 2 * ((n : ℤ) - 1) ≤ 2 ^ (w - 1) - 1 → ∃ a : SInt w, a.1 = n - 1 ∧
      (QuotientRing.ops (CheckedInts.euclidean w) m).add a a = .panic) := by
  have hm0 : 0 < m.1 := by omega
  have hM := SInt.pow_ge (w := w)
  refine ⟨fun hmax => ?_, fun hmax => ?_⟩
  · have hmod : ∀ x : ℤ, 0 ≤ x % m.1 ∧ x % m.1 < n ∧ ((x % m.1 : ℤ) : ZMod n) = (x : ZMod n) := fun x =>
      ⟨Int.emod_nonneg _ hm0.ne', hm ▸ Int.emod_lt_of_pos _ hm0, by
        rw [hm]; exact ZMod.intCast_mod x n⟩
    have hadd : ∀ {a b : SInt w} {s t : ZMod n}, (0 ≤ a.1 ∧ a.1 < n ∧ (a.1 : ZMod n) = s) →
        (0 ≤ b.1 ∧ b.1 < n ∧ (b.1 : ZMod n) = t) →
        Returns False ((QuotientRing.ops (CheckedInts.euclidean w) m).add a b)
          fun c => 0 ≤ c.1 ∧ c.1 < n ∧ (c.1 : ZMod n) = s + t := fun {a b s t} ha hb => by
      obtain ⟨c, h1, h2⟩ := (CheckedInts.quotient_add m hm0 a b).1 (by unfold InRange; omega)
      rw [h1]
      have := hmod (a.1 + b.1)
      rw [← h2, Int.cast_add, ha.2.2, hb.2.2] at this
      exact this
    have hneg : ∀ {a : SInt w} {s : ZMod n}, (0 ≤ a.1 ∧ a.1 < n ∧ (a.1 : ZMod n) = s) →
        Returns False ((QuotientRing.ops (CheckedInts.euclidean w) m).neg a)
          fun c => 0 ≤ c.1 ∧ c.1 < n ∧ (c.1 : ZMod n) = -s := fun {a s} ha => by
      obtain ⟨c, h1, h2⟩ := (CheckedInts.quotient_neg m hm0 a).1 (by unfold InRange; omega)
      rw [h1]
      have := hmod (-a.1)
      rw [← h2, Int.cast_neg, ha.2.2] at this
      exact this
    have hzero : Returns False (QuotientRing.ops (CheckedInts.euclidean w) m).zero
        fun c => 0 ≤ c.1 ∧ c.1 < n ∧ (c.1 : ZMod n) = 0 :=
      ⟨le_refl (0 : ℤ), (by omega : (0 : ℤ) < n), Int.cast_zero⟩
    have heq : ∀ {a b : SInt w} {s t : ZMod n}, (0 ≤ a.1 ∧ a.1 < n ∧ (a.1 : ZMod n) = s) →
        (0 ≤ b.1 ∧ b.1 < n ∧ (b.1 : ZMod n) = t) →
        Decides False ((QuotientRing.ops (CheckedInts.euclidean w) m).equals a b) (s = t) :=
      fun {a b s t} ha hb => by
      refine decides_ok ?_
      rw [beq_iff_eq, Subtype.ext_iff, ← ha.2.2, ← hb.2.2, ZMod.intCast_eq_intCast_iff_dvd_sub]
      refine ⟨fun h => by rw [h]; simp, fun h => ?_⟩
      have := Int.eq_zero_of_abs_lt_dvd h (by rw [abs_lt]; omega)
      omega
    exact
    { rep_unique := fun h1 h2 => h1.2.2.symm.trans h2.2.2
      contains := fun {a s} ha => by
        show Returns False ((CheckedInts.euclidean w).reduced a m) _
        rw [CheckedInts.reduced_eq]
        show decide _ = true
        rw [decide_eq_true_iff, CheckedInts.ediv_eq_zero_iff hm0]
        exact .inr ⟨ha.1, hm ▸ ha.2.1⟩
      equals := heq
      zero := hzero
      isZero := fun ha => isConst_default (rep := fun (a : SInt w) (s : ZMod n) =>
        0 ≤ a.1 ∧ a.1 < n ∧ (a.1 : ZMod n) = s) heq hzero ha
      add := hadd
      addAssign := hadd
      double := fun ha => hadd ha ha
      utimes := fun k {a s} ha => by
        have := utimes_default (rep := fun (a : SInt w) (s : ZMod n) =>
          0 ≤ a.1 ∧ a.1 < n ∧ (a.1 : ZMod n) = s) hzero hadd (fun ha => hadd ha ha) k ha
        exact this
      neg := hneg
      negAssign := hneg
      sub := fun ha hb => by
        have := sub_default (rep := fun (a : SInt w) (s : ZMod n) =>
          0 ≤ a.1 ∧ a.1 < n ∧ (a.1 : ZMod n) = s) hadd hneg ha hb
        exact this
      subAssign := fun ha hb => by
        have := subAssign_default (rep := fun (a : SInt w) (s : ZMod n) =>
          0 ≤ a.1 ∧ a.1 < n ∧ (a.1 : ZMod n) = s) hadd hneg ha hb
        exact this
      times := fun k hk {a s} ha => by
        have := times_default (rep := fun (a : SInt w) (s : ZMod n) =>
          0 ≤ a.1 ∧ a.1 < n ∧ (a.1 : ZMod n) = s) hzero hadd (fun ha => hadd ha ha) hneg k hk ha
        exact this }
  · have h1 := m.2
    have hf : Fits w (n - 1) := by
      unfold Fits sMin sMax at *
      omega
    refine ⟨SInt.mk (n - 1) hf, rfl, (CheckedInts.quotient_add m hm0 _ _).2 ?_⟩
    show ¬ InRange w ((n - 1 : ℤ) + (n - 1))
    unfold InRange
    omega

/-- Modulo 64 in eight bits the additive methods never panic, although `mul` does; modulo 65 the
sum of 64 and 64 overflows. -/
example : 2 * (((64 : ℕ) : ℤ) - 1) ≤ 2 ^ (8 - 1) - 1 ∧ ¬ 2 * (((65 : ℕ) : ℤ) - 1) ≤ 2 ^ (8 - 1) - 1 := by
  decide

/-- C72: the bound under which C24 shows that no method of the quotient ring or field panics on
members is sharp. -/
theorem C72_quotient_mul_sharp (n : ℕ) (hn : 1 ≤ n) (m : SInt w) (hm : m.1 = n)
    (hmax : ¬ ((n : ℤ) - 1) ^ 2 ≤ 2 ^ (w - 1) - 1) : ∃ a : SInt w, a.1 = n - 1 ∧
      (QuotientRing.ops (CheckedInts.euclidean w) m).contains a = .ok true ∧
      (QuotientRing.ops (CheckedInts.euclidean w) m).mul a a = .panic ∧
      (QuotientField.ops (CheckedInts.euclidean w) m).mul a a = .panic := by
  have hm0 : 0 < m.1 := by omega
  have h1 := m.2
  have hf : Fits w (n - 1) := by
    unfold Fits sMin sMax at *
    omega
  have key := (CheckedInts.quotient_mul m hm0 (SInt.mk (n - 1) hf) (SInt.mk (n - 1) hf)).2 (by
    show ¬ InRange w ((n - 1 : ℤ) * (n - 1))
    unfold InRange
    rw [sq] at hmax
    omega)
  refine ⟨SInt.mk (n - 1) hf, rfl, ?_, key, key⟩
  show (CheckedInts.euclidean w).reduced _ m = _
  rw [CheckedInts.reduced_eq]
  congr 1
  rw [decide_eq_true_iff, CheckedInts.ediv_eq_zero_iff hm0]
  refine .inr ⟨?_, ?_⟩
  · show (0 : ℤ) ≤ n - 1; omega
  · show (n - 1 : ℤ) < m.1; omega

example :
    ∃ a : SInt 8, a.1 = ((13 : ℕ) : ℤ) - 1 ∧
      (QuotientRing.ops (CheckedInts.euclidean 8) ⟨13, by decide⟩).contains a = .ok true ∧
      (QuotientRing.ops (CheckedInts.euclidean 8) ⟨13, by decide⟩).mul a a = .panic ∧
      (QuotientField.ops (CheckedInts.euclidean 8) ⟨13, by decide⟩).mul a a = .panic := by
  exact C72_quotient_mul_sharp (w := 8) 13 (by decide) ⟨13, by decide⟩ rfl (by decide)

end machine

end Abstalg
