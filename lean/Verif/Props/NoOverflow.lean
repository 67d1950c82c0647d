import Verif.Proofs.NoOverflow
import Verif.Props.Fractions

/-! # Overflow in polynomials, vectors and fractions over machine integers: C65

`CheckedInts` panics on overflow. For the compound structures over it the theorems say exactly for
which operands a method returns: `ReturnsIff p c P` says that the call `c` returns a value with the
property `P` if `p` holds and panics otherwise. -/

set_option linter.unusedSectionVars false

set_option autoImplicit false

namespace Abstalg

open Polynomial

/-- A machine integer represents its value. -/
abbrev MRep (w : ℕ) (a : SInt w) (x : ℤ) : Prop := a.1 = x

/-- The fraction represents a rational number by numerator and denominator. -/
abbrev MFracRep (w : ℕ) (a : SInt w × SInt w) (q : ℚ) : Prop := a.1.1 = q.num ∧ a.2.1 = q.den

section

variable [Cfg] {w : ℕ} [Width w]

/-! ## Polynomials -/

section polynomials

variable {u v : List (SInt w)} {p q : ℤ[X]} (hp : RingPolyRep (MRep w) u p)
  (hq : RingPolyRep (MRep w) v q)

include hp

/-- C65: `add` returns the sum exactly if its coefficients are representable. -/
theorem C65_poly_add (hq : RingPolyRep (MRep w) v q) :
    ReturnsIff (∀ i, InRange w ((p + q).coeff i))
      ((PolynomialAlgebra.unitaryRing (CheckedInts.unitaryRing w)).add u v)
      (RingPolyRep (MRep w) · (p + q)) :=
  PolynomialAlgebra.add_returnsIff hp hq

/-- `(100 x + 1) + 27 x` is representable in eight bits, `(100 x + 1) + 28 x` is not. -/
example : (PolynomialAlgebra.unitaryRing (CheckedInts.unitaryRing 8)).add [SInt.lit 1 (by decide), SInt.lit 100 (by decide)] [SInt.lit 0 (by decide), SInt.lit 27 (by decide)] = .ok [SInt.lit 1 (by decide), SInt.lit 127 (by decide)] ∧
    (PolynomialAlgebra.unitaryRing (CheckedInts.unitaryRing 8)).add [SInt.lit 1 (by decide), SInt.lit 100 (by decide)] [SInt.lit 0 (by decide), SInt.lit 28 (by decide)] = .panic := ⟨rfl, rfl⟩

/-- C65: `neg` returns exactly if no coefficient is the least integer. -/
theorem C65_poly_neg :
    ReturnsIff (∀ i, InRange w ((-p).coeff i))
      ((PolynomialAlgebra.unitaryRing (CheckedInts.unitaryRing w)).neg u)
      (RingPolyRep (MRep w) · (-p)) :=
  PolynomialAlgebra.neg_returnsIff hp

example : (PolynomialAlgebra.unitaryRing (CheckedInts.unitaryRing 8)).neg [SInt.lit 1 (by decide), SInt.lit 127 (by decide)] = .ok [SInt.lit (-1) (by decide), SInt.lit (-127) (by decide)] ∧ (PolynomialAlgebra.unitaryRing (CheckedInts.unitaryRing 8)).neg [SInt.lit 1 (by decide), SInt.lit (-128) (by decide)] = .panic := ⟨rfl, rfl⟩

/-- C65: `sub` negates the second operand first, so that it panics also for representable results if
the second operand has the least integer as a coefficient. -/
theorem C65_poly_sub (hq : RingPolyRep (MRep w) v q) :
    ReturnsIff ((∀ i, InRange w ((-q).coeff i)) ∧ ∀ i, InRange w ((p - q).coeff i))
      ((PolynomialAlgebra.unitaryRing (CheckedInts.unitaryRing w)).sub u v)
      (RingPolyRep (MRep w) · (p - q)) :=
  PolynomialAlgebra.sub_returnsIff hp hq

/-- `-1 - (-128)` is 127. -/
example : (PolynomialAlgebra.unitaryRing (CheckedInts.unitaryRing 8)).sub [SInt.lit (-1) (by decide)] [SInt.lit (-127) (by decide)] = .ok [SInt.lit 126 (by decide)] ∧ (PolynomialAlgebra.unitaryRing (CheckedInts.unitaryRing 8)).sub [SInt.lit (-1) (by decide)] [SInt.lit (-128) (by decide)] = .panic :=
  ⟨rfl, rfl⟩

/-- C65: `times` returns exactly if the factor and the coefficients of the result are
representable; for the zero polynomial it always returns. -/
theorem C65_poly_times (n : ℤ) :
    ReturnsIff (p = 0 ∨ InRange w n ∧ ∀ i, InRange w ((n • p).coeff i))
      ((PolynomialAlgebra.unitaryRing (CheckedInts.unitaryRing w)).times n u)
      (RingPolyRep (MRep w) · (n • p)) :=
  PolynomialAlgebra.times_returnsIff hp n

example : (PolynomialAlgebra.unitaryRing (CheckedInts.unitaryRing 8)).times 2 [SInt.lit 0 (by decide), SInt.lit (-64) (by decide)] = .ok [SInt.lit 0 (by decide), SInt.lit (-128) (by decide)] ∧ (PolynomialAlgebra.unitaryRing (CheckedInts.unitaryRing 8)).times 2 [SInt.lit 0 (by decide), SInt.lit 64 (by decide)] = .panic ∧
    (PolynomialAlgebra.unitaryRing (CheckedInts.unitaryRing 8)).times 1000 [] = .ok [] := ⟨rfl, rfl, rfl⟩

/-- C65: `mul` returns the product exactly if all products of coefficients and all partial sums, over
the first coefficients of the first operand, are representable. -/
theorem C65_poly_mul (hq : RingPolyRep (MRep w) v q) :
    ReturnsIff ((∀ i j, InRange w (p.coeff i * q.coeff j)) ∧
        ∀ i k, InRange w (∑ l ∈ Finset.range i, if l ≤ k then p.coeff l * q.coeff (k - l) else 0))
      ((PolynomialAlgebra.unitaryRing (CheckedInts.unitaryRing w)).mul u v)
      (RingPolyRep (MRep w) · (p * q)) := by
  refine (PolynomialAlgebra.mul_returnsIff hp hq).congr ?_
  unfold PolynomialAlgebra.MulFits
  simp only [PolynomialAlgebra.upTo_mul_coeff]

/-- `(10 + 10 x) (10 - 10 x) = 100 - 100 x²` is returned; `(10 + 10 x + x²) (x² + 10 x + 10)` is not,
because of the coefficients 200 and 120. -/
example : (PolynomialAlgebra.unitaryRing (CheckedInts.unitaryRing 8)).mul [SInt.lit 10 (by decide), SInt.lit 10 (by decide)] [SInt.lit 10 (by decide), SInt.lit (-10) (by decide)] = .ok [SInt.lit 100 (by decide), SInt.lit 0 (by decide), SInt.lit (-100) (by decide)] ∧
    (PolynomialAlgebra.unitaryRing (CheckedInts.unitaryRing 8)).mul [SInt.lit 10 (by decide), SInt.lit 10 (by decide), SInt.lit 1 (by decide)] [SInt.lit 10 (by decide), SInt.lit 10 (by decide), SInt.lit 1 (by decide)] = .panic := ⟨rfl, rfl⟩

/-- The order of the operands matters: the partial sums of the coefficient of `x²` are 60, 30, -90 in
the one order and -120, -150, -90 in the other. -/
example : (PolynomialAlgebra.unitaryRing (CheckedInts.unitaryRing 8)).mul [SInt.lit 60 (by decide), SInt.lit (-30) (by decide), SInt.lit (-60) (by decide)] [SInt.lit 2 (by decide), SInt.lit 1 (by decide), SInt.lit 1 (by decide)] =
      .ok [SInt.lit 120 (by decide), SInt.lit 0 (by decide), SInt.lit (-90) (by decide), SInt.lit (-90) (by decide), SInt.lit (-60) (by decide)] ∧
    (PolynomialAlgebra.unitaryRing (CheckedInts.unitaryRing 8)).mul [SInt.lit 2 (by decide), SInt.lit 1 (by decide), SInt.lit 1 (by decide)] [SInt.lit 60 (by decide), SInt.lit (-30) (by decide), SInt.lit (-60) (by decide)] = .panic := ⟨rfl, rfl⟩

/-- C65: `mul` does not overflow if the coefficients are small enough. -/
theorem C65_poly_mul_bound (hq : RingPolyRep (MRep w) v q) {A B : ℕ}
    (hA : ∀ i, |p.coeff i| ≤ A) (hB : ∀ i, |q.coeff i| ≤ B)
    (hAB : (min p.natDegree q.natDegree + 1) * (A * B) < 2 ^ (w - 1)) :
    ∃ x, (PolynomialAlgebra.unitaryRing (CheckedInts.unitaryRing w)).mul u v = .ok x ∧
      RingPolyRep (MRep w) x (p * q) := by
  have key : ∀ z : ℤ, |z| ≤ ((min p.natDegree q.natDegree + 1) * (A * B) : ℕ) → InRange w z := by
    intro z hz
    have h1 : (((min p.natDegree q.natDegree + 1) * (A * B) : ℕ) : ℤ) < ((2 ^ (w - 1) : ℕ) : ℤ) :=
      Int.ofNat_lt.2 hAB
    rw [Nat.cast_pow, Nat.cast_ofNat] at h1
    have h2 := abs_le.1 hz
    unfold InRange
    omega
  have hterm : ∀ i j, |p.coeff i * q.coeff j| ≤ ((A * B : ℕ) : ℤ) := fun i j => by
    rw [abs_mul, Nat.cast_mul]
    exact mul_le_mul (hA i) (hB j) (abs_nonneg _) (Int.natCast_nonneg _)
  refine (C65_poly_mul hp hq).1 ⟨fun i j => key _ ((hterm i j).trans ?_), fun i k => key _ ?_⟩
  · exact_mod_cast Nat.le_mul_of_pos_left _ (Nat.succ_pos _)
  · set S := (Finset.range i).filter fun l => l ≤ p.natDegree ∧ l ≤ k ∧ k - l ≤ q.natDegree with hS
    have h1 : (∑ l ∈ Finset.range i, if l ≤ k then p.coeff l * q.coeff (k - l) else 0) =
        ∑ l ∈ S, p.coeff l * q.coeff (k - l) := by
      rw [hS, Finset.sum_filter]
      refine Finset.sum_congr rfl fun l _ => ?_
      by_cases h2 : l ≤ k
      · rw [if_pos h2]
        split
        · rfl
        · rename_i h3
          by_cases h4 : l ≤ p.natDegree
          · rw [coeff_eq_zero_of_natDegree_lt (p := q) (by omega), mul_zero]
          · rw [coeff_eq_zero_of_natDegree_lt (p := p) (by omega), zero_mul]
      · rw [if_neg h2, if_neg fun h => h2 h.2.1]
    have h2 : S.card ≤ p.natDegree + 1 := by
      have : S ⊆ Finset.range (p.natDegree + 1) := fun l hl => by
        rw [hS, Finset.mem_filter] at hl
        rw [Finset.mem_range]; omega
      simpa using Finset.card_le_card this
    have h3 : S.card ≤ q.natDegree + 1 := by
      have : S ⊆ Finset.Icc (k - q.natDegree) k := fun l hl => by
        rw [hS, Finset.mem_filter] at hl
        rw [Finset.mem_Icc]; omega
      have := Finset.card_le_card this
      rw [Nat.card_Icc] at this
      omega
    have h4 : S.card ≤ min p.natDegree q.natDegree + 1 := by omega
    rw [h1]
    refine (Finset.abs_sum_le_sum_abs _ _).trans ((Finset.sum_le_card_nsmul S _ _ fun l _ =>
      hterm l (k - l)).trans ?_)
    rw [nsmul_eq_mul]
    exact_mod_cast Nat.mul_le_mul_right _ h4

/-- In 32 bits the product of polynomials of degree 999 with coefficients up to 1000 does not
overflow. -/
example : (min 999 999 + 1) * (1000 * 1000) < 2 ^ (32 - 1) := by decide

end polynomials

/-! ## Vectors -/

section vectors

variable {n : ℕ} {u v : List (SInt w)} {f g : Fin n → ℤ}

/-- C65: the coordinate-wise operations return exactly if all coordinates of the result are
representable. -/
theorem C65_vectors (hu : VecRep (MRep w) u f) (hv : VecRep (MRep w) v g) :
    ReturnsIff (∀ i, InRange w (f i + g i))
      ((VectorAlgebra.unitaryRing n (CheckedInts.unitaryRing w)).add u v) (VecRep (MRep w) · (f + g)) ∧
    ReturnsIff (∀ i, InRange w (f i - g i))
      ((VectorAlgebra.unitaryRing n (CheckedInts.unitaryRing w)).sub u v) (VecRep (MRep w) · (f - g)) ∧
    ReturnsIff (∀ i, InRange w (f i * g i))
      ((VectorAlgebra.unitaryRing n (CheckedInts.unitaryRing w)).mul u v) (VecRep (MRep w) · (f * g)) ∧
    ReturnsIff (∀ i, InRange w (-f i))
      ((VectorAlgebra.unitaryRing n (CheckedInts.unitaryRing w)).neg u) (VecRep (MRep w) · (-f)) :=
  ⟨VectorAlgebra.zipMap_returnsIff CheckedInts.exactly_add hu hv,
    VectorAlgebra.zipMap_returnsIff CheckedInts.exactly_sub hu hv,
    VectorAlgebra.zipMap_returnsIff CheckedInts.exactly_mul hu hv,
    VectorAlgebra.mapEach_returnsIff CheckedInts.exactly_neg hu⟩

example : (VectorAlgebra.unitaryRing 2 (CheckedInts.unitaryRing 8)).sub [SInt.lit (-1) (by decide), SInt.lit 5 (by decide)] [SInt.lit (-128) (by decide), SInt.lit 7 (by decide)] = .ok [SInt.lit 127 (by decide), SInt.lit (-2) (by decide)] ∧
    (VectorAlgebra.unitaryRing 2 (CheckedInts.unitaryRing 8)).sub [SInt.lit 0 (by decide), SInt.lit 5 (by decide)] [SInt.lit (-128) (by decide), SInt.lit 7 (by decide)] = .panic := ⟨rfl, rfl⟩

end vectors

/-! ## Fractions -/

section fractions

open ReducedFractions

/-- The method `reduce` returns for every positive denominator. -/
theorem reduce_returns (G : Prop) (n d : SInt w) (hd : 0 < d.1) :
    Returns G (reduce (CheckedInts.euclidean w) (n, d)) (MFracRep w · (n.1 / d.1)) := by
  obtain ⟨e, he⟩ := reduce_ok n d hd
  have h := reduce_spec (K := ℚ) (CheckedInts.euclidean_spec (w := w)) (n := n) (d := d) (x := n.1)
    (y := d.1) rfl rfl (by omega)
  rw [he] at h ⊢
  have := (fracRep_int (fun x : SInt w => x.1) e _).1 h
  simpa using this

variable {a b : SInt w × SInt w} {q r : ℚ}

theorem MFracRep.den_pos (ha : MFracRep w a q) : 0 < a.2.1 := by
  rw [ha.2]; exact_mod_cast q.den_pos

theorem MFracRep.eq (ha : MFracRep w a q) : (a.1.1 : ℚ) / a.2.1 = q := by
  rw [ha.1, ha.2]; exact_mod_cast q.num_div_den

/-- C65: `mul` returns exactly if the products of the numerators and of the denominators, before
reduction, are representable. -/
theorem C65_fractions_mul (ha : MFracRep w a q) (hb : MFracRep w b r) :
    ReturnsIff (InRange w (q.num * r.num) ∧ InRange w (q.den * r.den))
      ((ops (CheckedInts.euclidean w)).mul a b) (MFracRep w · (q * r)) := by
  rw [returnsIff_iff, ← ha.1, ← ha.2, ← hb.1, ← hb.2]
  refine Returns.bind ((CheckedInts.exactly_mul a.1 b.1).returns fun h => h.1) fun n hn =>
    Returns.bind ((CheckedInts.exactly_mul a.2 b.2).returns fun h => h.2) fun d hd => ?_
  have hd0 : 0 < d.1 := by rw [hd.1]; exact mul_pos ha.den_pos hb.den_pos
  refine (reduce_returns _ n d hd0).mono fun e he => ⟨⟨hn.2, hd.2⟩, ?_⟩
  rw [hn.1, hd.1] at he
  rw [← ha.eq, ← hb.eq, div_mul_div_comm]
  exact_mod_cast he

/-- The rational 1/100 in eight bits. -/
example : MFracRep 8 (SInt.lit 1 (by decide), SInt.lit 100 (by decide)) (1 / 100) := by
  constructor <;> decide +kernel

/-- The product of 2/3 and 63/2 is 21; the products are 126 and 6. The product of 2/3 and 66/1 is 44, but
132 is not representable. -/
example : InRange 8 (2 * 63) ∧ InRange 8 (3 * 2) ∧ ¬ InRange 8 (2 * 66) := by
  unfold InRange; decide

/-- The condition for the sum of two fractions. -/
def AddFits (w : ℕ) (q r : ℚ) : Prop :=
  (q.den = r.den → InRange w (q.num + r.num)) ∧
  (q.den ≠ r.den → InRange w (q.num * r.den) ∧ InRange w (q.den * r.num) ∧
    InRange w (q.num * r.den + q.den * r.num) ∧ InRange w (q.den * r.den))

/-- C65: `add` returns exactly if for equal denominators the sum of the numerators, and otherwise the
cross products, their sum and the product of the denominators are representable. -/
theorem C65_fractions_add (ha : MFracRep w a q) (hb : MFracRep w b r) :
    ReturnsIff (AddFits w q r) ((ops (CheckedInts.euclidean w)).add a b) (MFracRep w · (q + r)) := by
  rw [returnsIff_iff]
  have hden : (a.2 == b.2) = decide (q.den = r.den) := by
    rw [Bool.eq_iff_iff]
    simp only [beq_iff_eq, decide_eq_true_eq, Subtype.ext_iff]
    rw [ha.2, hb.2]
    exact Nat.cast_inj
  have ha0 : (a.2.1 : ℚ) ≠ 0 := by exact_mod_cast ne_of_gt ha.den_pos
  have hb0 : (b.2.1 : ℚ) ≠ 0 := by exact_mod_cast ne_of_gt hb.den_pos
  show Returns _ (Res.ok (a.2 == b.2) >>= fun z => if z = true then _ else _) _
  rw [hden, ok_bind]
  by_cases hqr : q.den = r.den
  · rw [if_pos (by simpa using hqr)]
    have hab : a.2.1 = b.2.1 := by rw [ha.2, hb.2, hqr]
    refine Returns.bind ((CheckedInts.exactly_add a.1 b.1).returns (p := AddFits w q r) fun h => ?_)
      fun n hn => (reduce_returns _ n a.2 ha.den_pos).mono fun e he => ⟨⟨fun _ => ?_, ?_⟩, ?_⟩
    · rw [ha.1, hb.1]; exact h.1 hqr
    · have := hn.2; rwa [ha.1, hb.1] at this
    · exact fun h => absurd hqr h
    · rw [hn.1] at he
      rw [← ha.eq, ← hb.eq, ← hab, ← add_div]
      exact_mod_cast he
  · rw [if_neg (by simpa using hqr)]
    refine Returns.bind ((CheckedInts.exactly_mul a.1 b.2).returns (p := AddFits w q r) fun h => ?_)
      fun x hx => Returns.bind
        ((CheckedInts.exactly_mul a.2 b.1).returns (p := AddFits w q r) fun h => ?_) fun y hy =>
      Returns.bind ((CheckedInts.exactly_add x y).returns (p := AddFits w q r) fun h => ?_) fun n hn =>
      Returns.bind ((CheckedInts.exactly_mul a.2 b.2).returns (p := AddFits w q r) fun h => ?_)
        fun d hd => ?_
    · rw [ha.1, hb.2]; exact (h.2 hqr).1
    · rw [ha.2, hb.1]; exact (h.2 hqr).2.1
    · rw [hx.1, hy.1, ha.1, ha.2, hb.1, hb.2]; exact (h.2 hqr).2.2.1
    · rw [ha.2, hb.2]; exact (h.2 hqr).2.2.2
    have hd0 : 0 < d.1 := by rw [hd.1]; exact mul_pos ha.den_pos hb.den_pos
    refine (reduce_returns _ n d hd0).mono fun e he => ⟨⟨fun h => absurd h hqr, fun _ => ?_⟩, ?_⟩
    · have h1 := hx.2
      have h2 := hy.2
      have h3 := hn.2
      have h4 := hd.2
      rw [hx.1, hy.1] at h3
      rw [ha.1, ha.2, hb.1, hb.2] at *
      exact ⟨h1, h2, h3, h4⟩
    · rw [hn.1, hd.1, hx.1, hy.1] at he
      rw [← ha.eq, ← hb.eq, div_add_div _ _ ha0 hb0]
      exact_mod_cast he

/-- The sum of 1/127 and 1/127 is returned, that of 1/127 and 1/126 is not. -/
example : AddFits 8 (1 / 127) (1 / 127) ∧ ¬ AddFits 8 (1 / 127) (1 / 126) := by
  unfold AddFits InRange; decide +kernel

/-- C65: `neg` returns exactly if the numerator is not the least integer. -/
theorem C65_fractions_neg (ha : MFracRep w a q) :
    ReturnsIff (InRange w (-q.num)) ((ops (CheckedInts.euclidean w)).neg a) (MFracRep w · (-q)) := by
  rw [returnsIff_iff, ← ha.1]
  refine Returns.bind ((CheckedInts.exactly_neg a.1).returns id) fun n hn => ⟨hn.2, ?_⟩
  exact ⟨by rw [hn.1, ha.1, Rat.num_neg_eq_neg_num], by rw [ha.2, Rat.den_neg_eq_den]⟩

example : InRange 8 (-(127 : ℚ).num) ∧ ¬ InRange 8 (-(-128 : ℚ).num) := by
  norm_num [InRange]

/-- C65: `sub` returns exactly if the negative of the second operand and the sum with it do not
overflow. -/
theorem C65_fractions_sub (ha : MFracRep w a q) (hb : MFracRep w b r) :
    ReturnsIff (InRange w (-r.num) ∧ AddFits w (-r) q) ((ops (CheckedInts.euclidean w)).sub a b)
      (MFracRep w · (q - r)) := by
  rw [returnsIff_iff]
  have h1 := returnsIff_iff.1 (C65_fractions_neg hb)
  have h2 : Returns (¬ (InRange w (-r.num) ∧ AddFits w (-r) q))
      ((ops (CheckedInts.euclidean w)).neg b) fun e => InRange w (-r.num) ∧ MFracRep w e (-r) := by
    revert h1
    cases (ops (CheckedInts.euclidean w)).neg b with
    | ok e => exact id
    | panic => exact fun h h' => h h'.1
    | diverge => exact id
  refine Returns.bind h2 fun e he => ?_
  have h3 := returnsIff_iff.1 (C65_fractions_add he.2 ha)
  rw [neg_add_eq_sub] at h3
  show Returns _ ((ops (CheckedInts.euclidean w)).add e a) _
  revert h3
  cases (ops (CheckedInts.euclidean w)).add e a with
  | ok c => exact fun h => ⟨⟨he.1, h.1⟩, h.2⟩
  | panic => exact fun h h' => h h'.2
  | diverge => exact id

example : InRange 8 (-(1 / 3 : ℚ).num) ∧ AddFits 8 (-(1 / 3)) (2 / 3) := by
  unfold AddFits InRange; decide +kernel

/-- C65: `times` returns exactly if the factor and its product with the numerator, before reduction,
are representable. -/
theorem C65_fractions_times (ha : MFracRep w a q) (n : ℤ) :
    ReturnsIff (InRange w n ∧ InRange w (n * q.num)) ((ops (CheckedInts.euclidean w)).times n a)
      (MFracRep w · (n * q)) := by
  rw [returnsIff_iff, ← ha.1]
  refine Returns.bind (CheckedInts.exactly_times n a.1 id) fun c hc =>
    (reduce_returns _ c a.2 ha.den_pos).mono fun e he => ⟨hc.2, ?_⟩
  rw [hc.1] at he
  rw [← ha.eq, mul_div_assoc']
  exact_mod_cast he

example : InRange 8 100 ∧ InRange 8 (100 * (1 / 3 : ℚ).num) ∧ ¬ InRange 8 (100 * (2 / 3 : ℚ).num) := by
  unfold InRange; decide +kernel

/-- C65: `inv` returns exactly for the fractions other than zero whose numerator is not the least
integer. -/
theorem C65_fractions_inv (ha : MFracRep w a q) :
    ReturnsIff (q ≠ 0 ∧ InRange w (-q.num)) ((ops (CheckedInts.euclidean w)).inv a)
      (MFracRep w · q⁻¹) := by
  have hspec : q ≠ 0 → Returns True ((ops (CheckedInts.euclidean w)).inv a) (MFracRep w · q⁻¹) :=
    fun h => C57_checked_fractions.inv ha h
  by_cases hq : q = 0
  · have h0 : a.1.1 = 0 := by rw [ha.1, hq]; rfl
    refine ⟨fun h => absurd hq h.1, fun _ => ?_⟩
    show (Res.ok (a.1.1 == 0) >>= fun z => Res.assert (!z) >>= fun _ => _) = _
    rw [h0]
    rfl
  · have hn : a.1.1 ≠ 0 := by rw [ha.1]; exact Rat.num_ne_zero.2 hq
    have h1 : (a.1.1 == 0) = false := by simpa using hn
    have h2 : (a.1 != CheckedInts.c0 w) = true := by
      rw [CheckedInts.beq_c0]; simpa using hn
    rw [returnsIff_iff]
    have := hspec hq
    have hb := CheckedInts.inRange_val a.1
    have hdb := CheckedInts.inRange_val a.2
    have hd0 := ha.den_pos
    by_cases hneg : a.1.1 < 0
    · have he : (ops (CheckedInts.euclidean w)).inv a =
          ((CheckedInts.euclidean w).mul a.2 (CheckedInts.cm1 w) >>= fun x =>
            (CheckedInts.euclidean w).mul a.1 (CheckedInts.cm1 w) >>= fun y => pure (x, y)) := by
        show (Res.ok (a.1.1 == 0) >>= fun z => Res.assert (!z) >>= fun _ =>
          (Res.assert (a.1 != CheckedInts.c0 w) >>= fun _ =>
            if a.1.1 < (CheckedInts.c0 w).1 then _ else _) >>= fun c => _) = _
        rw [h1, h2, if_pos (show a.1.1 < (CheckedInts.c0 w).1 from hneg)]
        have : ((CheckedInts.cm1 w) == (CheckedInts.c1 w)) = false := by
          rw [beq_eq_false_iff_ne]
          exact fun h => absurd (congrArg Subtype.val h) (show (-1 : ℤ) ≠ 1 by decide)
        show (Res.ok (CheckedInts.cm1 w == CheckedInts.c1 w) >>= fun z => if (!z) = true then
          ((CheckedInts.euclidean w).mul a.2 (CheckedInts.cm1 w) >>= fun x =>
            (CheckedInts.euclidean w).mul a.1 (CheckedInts.cm1 w) >>= fun y => pure (x, y))
          else pure (a.2, a.1)) = _
        rw [this]
        rfl
      have hx : Returns (¬ (q ≠ 0 ∧ InRange w (-q.num))) ((ops (CheckedInts.euclidean w)).inv a)
          fun _ => InRange w (-q.num) := by
        have hm1 : (CheckedInts.cm1 w).1 = -1 := rfl
        rw [he]
        refine Returns.bind ((CheckedInts.exactly_mul a.2 (CheckedInts.cm1 w)).returns fun _ => ?_)
          fun x hx => Returns.bind
            ((CheckedInts.exactly_mul a.1 (CheckedInts.cm1 w)).returns fun h => ?_) fun y hy => ?_
        · rw [hm1]
          unfold InRange at hdb ⊢
          omega
        · rw [hm1, ha.1, mul_neg_one]; exact h.2
        · have := hy.2
          rwa [hm1, ha.1, mul_neg_one] at this
      revert hx this
      cases (ops (CheckedInts.euclidean w)).inv a with
      | ok c => exact fun h h' => ⟨⟨hq, h'⟩, h⟩
      | panic => exact fun _ h => h
      | diverge => exact fun h _ => h
    · have he : (ops (CheckedInts.euclidean w)).inv a = .ok (a.2, a.1) := by
        show (Res.ok (a.1.1 == 0) >>= fun z => Res.assert (!z) >>= fun _ =>
          (Res.assert (a.1 != CheckedInts.c0 w) >>= fun _ =>
            if a.1.1 < (CheckedInts.c0 w).1 then _ else _) >>= fun c => _) = _
        rw [h1, h2, if_neg (show ¬ a.1.1 < (CheckedInts.c0 w).1 from hneg)]
        rfl
      rw [he] at this ⊢
      refine ⟨⟨hq, ?_⟩, this⟩
      rw [← ha.1]
      unfold InRange at hb ⊢
      omega

/-- The inverse of `-128/1` would be `-1/128`. -/
example : (-128 : ℚ) ≠ 0 ∧ ¬ InRange 8 (-(-128 : ℚ).num) ∧ InRange 8 (-(-127 : ℚ).num) := by
  norm_num [InRange]

/-- The result of `reduce` on coprime operands with a negative denominator. -/
theorem reduce_neg (d n : SInt w) (hd : 0 < d.1) (hn : n.1 < 0) (hc : IsCoprime d.1 n.1) :
    Returns (¬ InRange w (-n.1)) (reduce (CheckedInts.euclidean w) (d, n)) fun _ =>
      InRange w (-n.1) := by
  have hbad : ¬ CheckedInts.Bad w d n := fun h => by
    have h1 : d.1 = -(2 ^ (w - 1)) := h.1
    have : (0 : ℤ) < 2 ^ (w - 1) := by positivity
    omega
  obtain ⟨g, hg, hg1⟩ : ∃ g, (CheckedInts.euclidean w).gcd d n = .ok g ∧
      (n.1 = -1 ∧ g.1 = -1 ∨ g.1 = 1) := by
    obtain ⟨g, x, y, h1, h2⟩ := CheckedInts.gcd_total w d n hbad
    obtain ⟨g', x', y', h3, h4, h5⟩ := CheckedInts.extendedGcd_total w d n hbad
    rw [h2] at h3
    cases h3
    refine ⟨g, h1, ?_⟩
    have hu : IsUnit g.1 := hc.isUnit_of_dvd' h5.1 h5.2.1
    rcases Int.isUnit_iff.1 hu with hu | hu
    · exact .inr hu
    · refine .inl ⟨?_, hu⟩
      by_contra hne
      have h6 := CheckedInts.gcd_step w d n (by omega) hbad
      have h7 := Int.emod_nonneg d.1 (show n.1 ≠ 0 by omega)
      by_cases hr : d.1 % n.1 = 0
      · have h8 : n.1 ∣ d.1 := Int.dvd_of_emod_eq_zero hr
        have h9 : IsUnit n.1 := hc.isUnit_of_dvd' h8 dvd_rfl
        rcases Int.isUnit_iff.1 h9 with h9 | h9 <;> omega
      · obtain ⟨g', h8, h9⟩ := gcd_pos (d.1 % n.1).toNat n
          (SInt.mk (d.1 % n.1) (CheckedInts.fits_emod w n.2 (by omega))) h7
          (.inl (lt_of_le_of_ne h7 (Ne.symm hr))) le_rfl
        rw [h6, h8] at h1
        cases h1
        omega
  have hn0 : (n.1 == 0) = false := by simp; omega
  have hexp : reduce (CheckedInts.euclidean w) (d, n) = ((CheckedInts.euclidean w).quo d g >>= fun q =>
      (CheckedInts.euclidean w).quo n g >>= fun q' =>
      (CheckedInts.euclidean w).associateCoef q' >>= fun c =>
        (CheckedInts.euclidean w).isOne c >>= fun b =>
        if (!b) = true then ((CheckedInts.euclidean w).mul q c >>= fun x =>
          (CheckedInts.euclidean w).mul q' c >>= fun y => pure (x, y)) else pure (q, q')) := by
    show (Res.ok (n.1 == 0) >>= fun z => Res.assert (!z) >>= fun _ =>
      (CheckedInts.euclidean w).gcd d n >>= fun g => _) = _
    rw [hn0, ok_bind, hg]
    rfl
  have hcoef : ∀ x : SInt w, x.1 ≠ 0 → (CheckedInts.euclidean w).associateCoef x =
      .ok (if x.1 < 0 then CheckedInts.cm1 w else CheckedInts.c1 w) := by
    intro x hx
    show (Res.assert (x != CheckedInts.c0 w) >>= fun _ =>
      if x.1 < (CheckedInts.c0 w).1 then _ else _) = _
    rw [CheckedInts.beq_c0, decide_eq_true hx]
    show (if x.1 < (0 : ℤ) then (pure _ : Res _) else pure _) = _
    split <;> rfl
  rcases hg1 with ⟨h1, h2⟩ | h1
  · have hquo : ∀ x : SInt w, ¬ CheckedInts.Bad w x g →
        ∃ z, (CheckedInts.euclidean w).quo x g = .ok z ∧ z.1 = x.1 / g.1 := fun x hx => by
      refine ⟨SInt.mk (x.1 / g.1) (CheckedInts.fits_ediv w x.2 (by omega) hx), ?_, rfl⟩
      show ((CheckedInts.euclidean w).quoRem x g >>= fun p => pure p.1) = _
      rw [CheckedInts.quoRem_eq w x g (by omega) hx]
      rfl
    have hp : (128 : ℤ) ≤ 2 ^ (w - 1) := SInt.pow_two_ge Width.ge
    obtain ⟨x, hx, -⟩ := hquo d fun h => by have h3 : d.1 = -(2 ^ (w - 1)) := h.1; omega
    obtain ⟨y, hy, hy1⟩ := hquo n fun h => by have h3 : n.1 = -(2 ^ (w - 1)) := h.1; omega
    rw [h1, h2] at hy1
    have hy1 : y.1 = 1 := hy1
    rw [hexp, hx, ok_bind, hy, ok_bind, hcoef y (by omega), ok_bind, if_neg (by omega)]
    show InRange w (-n.1)
    rw [h1]
    unfold InRange
    omega
  · obtain ⟨x, hx, hx1⟩ := quo_ok d g (by omega)
    obtain ⟨y, hy, hy1⟩ := quo_ok n g (by omega)
    rw [h1, Int.ediv_one] at hx1 hy1
    rw [hexp, hx, ok_bind, hy, ok_bind, hcoef y (by omega), ok_bind, if_pos (by omega)]
    have : (CheckedInts.cm1 w == CheckedInts.c1 w) = false := by
      rw [beq_eq_false_iff_ne]
      exact fun h => absurd (congrArg Subtype.val h) (show (-1 : ℤ) ≠ 1 by decide)
    show Returns _ (Res.ok (CheckedInts.cm1 w == CheckedInts.c1 w) >>= fun z =>
      if (!z) = true then _ else _) _
    rw [this, ok_bind, if_pos (show (!false) = true from rfl)]
    have hm1 : (CheckedInts.cm1 w).1 = -1 := rfl
    refine Returns.bind ((CheckedInts.exactly_mul x (CheckedInts.cm1 w)).returns fun _ => ?_)
      fun z hz => Returns.bind
        ((CheckedInts.exactly_mul y (CheckedInts.cm1 w)).returns fun h => ?_) fun z' hz' => ?_
    · have := CheckedInts.inRange_val d
      rw [hm1, hx1]
      unfold InRange at this ⊢
      omega
    · rw [hm1, hy1, mul_neg_one]; exact h
    · have := hz'.2
      rwa [hm1, hy1, mul_neg_one] at this

/-- C65: `try_inv` returns, `None` for zero and otherwise the inverse, exactly if the numerator is not
the least integer. -/
theorem C65_fractions_try_inv (ha : MFracRep w a q) :
    ReturnsIff (InRange w (-q.num)) ((ops (CheckedInts.euclidean w)).tryInv a) fun
      | some b => q ≠ 0 ∧ MFracRep w b q⁻¹
      | none => q = 0 := by
  have hspec : Returns True ((ops (CheckedInts.euclidean w)).tryInv a) fun
      | some b => ∃ y, MFracRep w b y ∧ q * y = 1 ∧ y * q = 1
      | none => ¬ IsUnit q := by
    have := C57_checked_fractions.tryInv ha
    exact this.mono fun o ho => by cases o <;> exact ho
  have hexp : (ops (CheckedInts.euclidean w)).tryInv a = (Res.ok (!(a.1.1 == 0)) >>= fun z =>
      if z = true then (reduce (CheckedInts.euclidean w) (a.2, a.1) >>= fun e => pure (some e))
      else pure none) := rfl
  have hb := CheckedInts.inRange_val a.1
  have key : Returns (¬ InRange w (-q.num)) ((ops (CheckedInts.euclidean w)).tryInv a) fun _ =>
      InRange w (-q.num) := by
    rw [hexp, ok_bind, ← ha.1]
    rcases lt_trichotomy a.1.1 0 with hlt | heq | hgt
    · rw [if_pos (by simp; omega)]
      refine Returns.bind (reduce_neg a.2 a.1 ha.den_pos hlt ?_) fun e he => he
      rw [ha.1, ha.2]
      exact (Int.isCoprime_iff_nat_coprime.2 (by simpa using q.reduced)).symm
    · rw [if_neg (by simp [heq])]
      show InRange w (-a.1.1)
      rw [heq]
      exact CheckedInts.inRange_zero
    · rw [if_pos (by simp; omega)]
      obtain ⟨e, he⟩ := reduce_ok a.2 a.1 hgt
      rw [he]
      show InRange w (-a.1.1)
      unfold InRange at hb ⊢
      omega
  rw [returnsIff_iff]
  revert hspec key
  cases (ops (CheckedInts.euclidean w)).tryInv a with
  | ok o =>
    intro h h'
    refine ⟨h', ?_⟩
    cases o with
    | some b =>
      obtain ⟨y, h1, h2, -⟩ := h
      have hq : q ≠ 0 := by rintro rfl; rw [zero_mul] at h2; exact zero_ne_one h2
      refine ⟨hq, ?_⟩
      rwa [← eq_inv_of_mul_eq_one_right h2]
    | none =>
      by_contra hq
      exact h (IsUnit.mk0 q hq)
  | panic => exact fun _ h => h
  | diverge => exact fun h _ => h

example : MFracRep 8 (SInt.lit (-128) (by decide), SInt.lit 1 (by decide)) (-128) ∧
    ¬ InRange 8 (-(-128 : ℚ).num) := by
  refine ⟨⟨?_, ?_⟩, ?_⟩ <;> norm_num [SInt.lit, InRange]

/-- C65: a bound on the operands under which sums, differences and products of fractions do not
overflow. -/
theorem C65_fractions_bound (ha : MFracRep w a q) (hb : MFracRep w b r) {A B : ℕ}
    (hq : |q.num| ≤ A) (hr : |r.num| ≤ A) (hq' : q.den ≤ B) (hr' : r.den ≤ B)
    (hAB : 2 * (A * B) < 2 ^ (w - 1)) (hA : A * A < 2 ^ (w - 1)) (hB : B * B < 2 ^ (w - 1)) :
    (∃ c, (ops (CheckedInts.euclidean w)).add a b = .ok c ∧ MFracRep w c (q + r)) ∧
    (∃ c, (ops (CheckedInts.euclidean w)).sub a b = .ok c ∧ MFracRep w c (q - r)) ∧
    ∃ c, (ops (CheckedInts.euclidean w)).mul a b = .ok c ∧ MFracRep w c (q * r) := by
  have key : ∀ {z : ℤ} {C : ℕ}, C < 2 ^ (w - 1) → |z| ≤ C → InRange w z := by
    intro z C hC hz
    have h1 : ((C : ℕ) : ℤ) < ((2 ^ (w - 1) : ℕ) : ℤ) := Int.ofNat_lt.2 hC
    rw [Nat.cast_pow, Nat.cast_ofNat] at h1
    have h2 := abs_le.1 hz
    unfold InRange
    omega
  have hB1 : 1 ≤ B := q.den_pos.trans_le hq'
  have hAB1 : A * B < 2 ^ (w - 1) := by omega
  have hA1 : 2 * A < 2 ^ (w - 1) := lt_of_le_of_lt (by nlinarith) hAB
  have cross : ∀ {x : ℤ} {y : ℕ}, |x| ≤ A → y ≤ B → |x * y| ≤ ((A * B : ℕ) : ℤ) := by
    intro x y hx hy
    rw [abs_mul, Nat.cast_mul, Nat.abs_cast]
    exact mul_le_mul hx (by exact_mod_cast hy) (Int.natCast_nonneg _) (Int.natCast_nonneg _)
  have add : ∀ {q r : ℚ}, |q.num| ≤ A → |r.num| ≤ A → q.den ≤ B → r.den ≤ B → AddFits w q r := by
    intro q r hq hr hq' hr'
    refine ⟨fun _ => key hA1 ?_, fun _ => ⟨key hAB1 (cross hq hr'), key hAB1 ?_, key hAB ?_, key hB ?_⟩⟩
    · refine (abs_add_le _ _).trans ?_
      push_cast; linarith
    · rw [mul_comm]; exact cross hr hq'
    · refine (abs_add_le _ _).trans ?_
      have h1 := cross hq hr'
      have h2 := cross hr hq'
      rw [mul_comm] at h2
      push_cast at *; linarith
    · rw [← Nat.cast_mul, Nat.abs_cast]
      exact_mod_cast Nat.mul_le_mul hq' hr'
  refine ⟨(C65_fractions_add ha hb).1 (add hq hr hq' hr'), (C65_fractions_sub ha hb).1 ⟨?_, ?_⟩,
    (C65_fractions_mul ha hb).1 ⟨key hA ?_, key hB ?_⟩⟩
  · refine key (C := A) (by omega) ?_
    rwa [abs_neg]
  · refine add ?_ hq ?_ hq'
    · rwa [Rat.num_neg_eq_neg_num, abs_neg]
    · rwa [Rat.den_neg_eq_den]
  · rw [abs_mul, Nat.cast_mul]
    exact mul_le_mul hq hr (abs_nonneg _) (Int.natCast_nonneg _)
  · rw [← Nat.cast_mul, Nat.abs_cast]
    exact_mod_cast Nat.mul_le_mul hq' hr'

/-- In 64 bits numerators and denominators up to two thousand million are safe. -/
example : 2 * (2000000000 * 2000000000) < 2 ^ (64 - 1) ∧ 2000000000 * 2000000000 < 2 ^ (64 - 1) := by
  decide

end fractions

end

end Abstalg
