import Verif.Proofs.Integers

/-! # Properties of `ZZ` and `NN`: C01, C02, C51 -/

set_option autoImplicit false

namespace Abstalg

variable [Cfg]

/-- C01: quotient and remainder of `ZZ` for a non-zero divisor. -/
theorem C01_integer_division (n m : ℤ) (hm : m ≠ 0) :
    ∃ q r, Integers.euclidean.quoRem n m = .ok (q, r) ∧
      n = m * q + r ∧ 0 ≤ r ∧ r < |m| ∧
      (∀ q' r', n = m * q' + r' → 0 ≤ r' → r' < |m| → q' = q ∧ r' = r) ∧
      Integers.euclidean.quo n m = .ok q ∧
      Integers.euclidean.rem n m = .ok r ∧
      Integers.euclidean.divisible n m = .ok (decide (r = 0)) ∧
      Integers.euclidean.reduced n m = .ok (decide (q = 0)) ∧
      Integers.euclidean.tryDiv n m = .ok (if r = 0 then some q else none) := by
  refine ⟨n / m, n % m, Integers.quoRem_eq n m hm, (Int.mul_ediv_add_emod n m).symm,
    Int.emod_nonneg n hm, Int.emod_lt_abs n hm, fun q' r' h1 h2 h3 => ?_, ?_, ?_, ?_, ?_, ?_⟩
  · have := (Int.ediv_emod_unique'' (a := n) (b := m) (r := r') (q := q') hm).2
      ⟨by linear_combination -h1, h2, h3⟩
    exact ⟨this.1.symm, this.2.symm⟩
  · show (do return (← Integers.euclidean.quoRem n m).1) = _
    rw [Integers.quoRem_eq n m hm]; rfl
  · show (do return (← Integers.euclidean.quoRem n m).2) = _
    rw [Integers.quoRem_eq n m hm]; rfl
  · obtain ⟨b, hb, h⟩ := returns_false_iff.1
      (Integers.euclidean_spec.divisible (a := n) (b := m) rfl rfl)
    rw [hb]
    congr 1
    rw [Bool.eq_iff_iff, h, decide_eq_true_eq, EuclideanDomain.mod_eq_zero]
  · obtain ⟨b, hb, h⟩ := returns_false_iff.1
      (Integers.euclidean_spec.reduced (a := n) (b := m) rfl rfl)
    rw [hb]
    congr 1
    rw [Bool.eq_iff_iff, h, decide_eq_true_eq]
    simp [hm]
  · show Integers.integralDomain.tryDiv n m = _
    rw [Integers.tryDiv_eq n m hm]
    congr 1
    have : m ∣ n ↔ n % m = 0 := (EuclideanDomain.mod_eq_zero).symm
    simp only [this]

/-- Minus seventeen divided by seven. -/
example : (7 : ℤ) ≠ 0 ∧ Integers.euclidean.quoRem (-17) 7 = .ok (-3, 4) ∧
    Integers.euclidean.divisible (-17) 7 = .ok false ∧
    Integers.euclidean.tryDiv (-21) 7 = .ok (some (-3)) :=
  ⟨by decide, rfl, rfl, rfl⟩

/-- C01: a zero divisor makes the division methods panic. -/
theorem C01_integer_division_by_zero (n : ℤ) :
    Integers.euclidean.quoRem n 0 = .panic ∧ Integers.euclidean.quo n 0 = .panic ∧
    Integers.euclidean.rem n 0 = .panic ∧ Integers.euclidean.tryDiv n 0 = .panic ∧
    Integers.euclidean.divisible n 0 = .ok (decide (n = 0)) ∧
    Integers.euclidean.reduced n 0 = .ok true :=
  ⟨rfl, rfl, rfl, rfl, rfl, rfl⟩

example : (-7 : ℤ) ≠ 0 ∧ Integers.euclidean.quoRem (-17) (-7) = .ok (3, 4) := ⟨by decide, rfl⟩

/-- C02: `ZZ` is the ring of integers; no method panics (division by zero and
`associate_coef(0)` aside). -/
theorem C02_integers_ring : EuclideanSpec False Integers.euclidean ZRep :=
  Integers.euclidean_spec

/-- A product and a difference, by evaluation. -/
example : Integers.euclidean.mul (-6) 7 = .ok (-42) ∧ Integers.euclidean.sub 3 10 = .ok (-7) ∧
    Integers.euclidean.isZero 3 = .ok false :=
  ⟨rfl, rfl, rfl⟩

/-- C02: `associate_repr` is the absolute value, `associate_coef` the sign. -/
theorem C02_integers_associates (x : ℤ) :
    Integers.euclidean.associateRepr x = .ok |x| ∧
    (x ≠ 0 → Integers.euclidean.associateCoef x = .ok x.sign) ∧
    Integers.euclidean.associateCoef 0 = .panic := by
  refine ⟨?_, fun hx => ?_, rfl⟩
  · show (if x < 0 then _ else _) = _
    split
    · rw [abs_of_neg ‹_›]; rfl
    · rw [abs_of_nonneg (by omega)]
  · obtain ⟨c, hc, h⟩ := returns_false_iff.1
      (Integers.euclidean_spec.associateCoef (a := x) rfl hx)
    rw [hc, h, Integers.normUnit_eq]
    split
    · rw [Int.sign_eq_neg_one_of_neg ‹_›]
    · rw [Int.sign_eq_one_of_pos (by omega)]

/-- The associates of minus five. -/
example : Integers.euclidean.associateRepr (-5) = .ok 5 ∧
    Integers.euclidean.associateCoef (-5) = .ok (-1) :=
  ⟨rfl, rfl⟩

/-- C02: the additive methods of `ZZ` hold for every multiplier, `isize::MIN` included. -/
theorem C02_integers_times (n : ℤ) (k : ℕ) (x : ℤ) :
    Integers.euclidean.times n x = .ok (n * x) ∧ Integers.euclidean.utimes k x = .ok (k * x) ∧
    Integers.euclidean.int n = .ok n :=
  ⟨rfl, rfl, by show Res.ok (n * 1) = _; rw [mul_one]⟩

example : Integers.euclidean.times (-3) 5 = .ok (-15) := rfl

omit [Cfg] in
/-- C51: `NN` is the semiring of natural numbers. -/
theorem C51_naturals_semiring : SemiRingSpec False Naturals.semiRing NRep :=
  Naturals.semiRing_spec

/-- A sum and a product, by evaluation. -/
example : Naturals.semiRing.add 6 7 = .ok 13 ∧ Naturals.semiRing.mul 6 7 = .ok 42 ∧
    Naturals.semiRing.tryInv 6 = .ok none :=
  ⟨rfl, rfl, rfl⟩

omit [Cfg] in
/-- C51: only one is invertible. -/
theorem C51_naturals_units (x : ℕ) :
    Naturals.semiRing.invertible x = .ok (decide (x = 1)) ∧
    Naturals.semiRing.tryInv x = .ok (if x = 1 then some 1 else none) := by
  refine ⟨rfl, ?_⟩
  by_cases h : x = 1 <;> simp [Naturals.semiRing, h]

example : Naturals.semiRing.mul 6 7 = .ok 42 := rfl

end Abstalg
