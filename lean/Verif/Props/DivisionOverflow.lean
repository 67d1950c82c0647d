import Verif.Proofs.CheckedExact
import Verif.Proofs.DivisionOverflow
import Verif.Props.NoOverflow

/-! # Overflow in the division of polynomials and fractions over machine integers: C65 -/

set_option linter.unusedSectionVars false

set_option autoImplicit false

namespace Abstalg

open Polynomial

section

variable [Cfg] {w : ℕ} [Width w] {u v : List (SInt w)} {p q : ℤ[X]} (hp : RingPolyRep (MRep w) u p)
  (hq : RingPolyRep (MRep w) v q) (hq0 : q ≠ 0)

include hp hq hq0

/-- C65: `try_div` returns the quotient if there is one and all numbers on the way to it are representable; it returns `None`
if the division gets stuck before it meets a number that is not representable; otherwise it panics. -/
theorem C65_poly_try_div :
    (∀ Q, DividesWithin w p q Q →
      ∃ x, (PolynomialAlgebra.integralDomain (CheckedInts.integralDomain w)).tryDiv u v = .ok (some x) ∧ RingPolyRep (MRep w) x Q) ∧
    (StuckWithin w p q → (PolynomialAlgebra.integralDomain (CheckedInts.integralDomain w)).tryDiv u v = .ok none) ∧
    ((∀ Q, ¬ DividesWithin w p q Q) → ¬ StuckWithin w p q →
      (PolynomialAlgebra.integralDomain (CheckedInts.integralDomain w)).tryDiv u v = .panic) := by
  have h := PolynomialAlgebra.tryDiv_overflow hp hq hq0
  show (∀ Q, _ → ∃ x, PolynomialAlgebra.tryDiv _ u v = _ ∧ _) ∧ (_ → PolynomialAlgebra.tryDiv _ u v = _) ∧
    (_ → _ → PolynomialAlgebra.tryDiv _ u v = _)
  revert h
  cases PolynomialAlgebra.tryDiv (CheckedInts.integralDomain w) u v with
  | panic =>
    intro h
    exact ⟨fun Q hQ => absurd (.inl ⟨Q, hQ⟩) h, fun hs => absurd (.inr hs) h, fun _ _ => rfl⟩
  | diverge => exact fun h => h.elim
  | ok o =>
    cases o with
    | none =>
      intro h
      exact ⟨fun Q hQ => absurd h (PolynomialAlgebra.divides_not_stuck hq0 hQ.1), fun _ => rfl, fun _ hs => absurd h hs⟩
    | some x =>
      rintro ⟨Q, hx, hQ⟩
      refine ⟨fun Q' hQ' => ⟨x, rfl, ?_⟩, fun hs => absurd hs (PolynomialAlgebra.divides_not_stuck hq0 hQ.1), fun hn => absurd hQ (hn Q)⟩
      rwa [← PolynomialAlgebra.divides_unique hq0 hQ hQ'.1]

/-- C65: by a constant, `try_div` returns the quotient exactly if its coefficients and their negatives are representable. -/
theorem C65_poly_try_div_constant (hd : q.natDegree = 0) {Q : ℤ[X]} (hQ : p = q * Q) :
    ReturnsIff (∀ k, InRange w (Q.coeff k) ∧ InRange w (-Q.coeff k))
      ((PolynomialAlgebra.integralDomain (CheckedInts.integralDomain w)).tryDiv u v)
      (fun o => ∃ x, o = some x ∧ RingPolyRep (MRep w) x Q) := by
  obtain ⟨h1, -, h3⟩ := C65_poly_try_div hp hq hq0
  have hiff : DividesWithin w p q Q ↔ ∀ k, InRange w (Q.coeff k) ∧ InRange w (-Q.coeff k) := by
    unfold DividesWithin DivFits
    rw [hd]
    exact ⟨fun h k => ⟨(h.2 k (Nat.zero_le k)).1, (h.2 k (Nat.zero_le k)).2.1⟩,
      fun h => ⟨hQ, fun k _ => ⟨(h k).1, (h k).2, fun j hj => absurd hj (Nat.not_lt_zero j)⟩⟩⟩
  refine ⟨fun h => ?_, fun h => h3 (fun Q' hQ' => h ?_) (PolynomialAlgebra.divides_not_stuck hq0 hQ)⟩
  · obtain ⟨x, hx, hx'⟩ := h1 Q (hiff.2 h)
    exact ⟨_, hx, x, rfl, hx'⟩
  · rw [PolynomialAlgebra.divides_unique hq0 hQ' hQ] at hQ'
    exact hiff.1 hQ'

/-- C65: `try_div` does not overflow if a quotient exists and the numbers are small enough. -/
theorem C65_poly_try_div_bound {Q : ℤ[X]} (hQ : p = q * Q) {A B C : ℕ} (hA : ∀ i, |p.coeff i| ≤ A) (hB : ∀ i, |q.coeff i| ≤ B)
    (hC : ∀ i, |Q.coeff i| ≤ C) (hABC : A + (q.natDegree + 1) * (B * C) < 2 ^ (w - 1)) (hC' : C < 2 ^ (w - 1)) :
    ∃ x, (PolynomialAlgebra.integralDomain (CheckedInts.integralDomain w)).tryDiv u v = .ok (some x) ∧
      RingPolyRep (MRep w) x Q := by
  have key : ∀ (z : ℤ) (N : ℕ), N < 2 ^ (w - 1) → |z| ≤ N → InRange w z := by
    intro z N hN hz
    have h1 : ((N : ℕ) : ℤ) < ((2 ^ (w - 1) : ℕ) : ℤ) := Int.ofNat_lt.2 hN
    rw [Nat.cast_pow, Nat.cast_ofNat] at h1
    have h2 := abs_le.1 hz
    unfold InRange
    omega
  have hterm : ∀ i j, |q.coeff i * Q.coeff j| ≤ ((B * C : ℕ) : ℤ) := fun i j => by
    rw [abs_mul, Nat.cast_mul]
    exact mul_le_mul (hB i) (hC j) (abs_nonneg _) (Int.natCast_nonneg _)
  refine (C65_poly_try_div hp hq hq0).1 Q ⟨hQ, fun k _ => ⟨key _ C hC' (hC k), key _ C hC' (by rw [abs_neg]; exact hC k), fun j hj => ⟨?_, ?_⟩⟩⟩
  · refine key _ _ hABC ?_
    rw [mul_neg, abs_neg]
    refine (hterm j k).trans ?_
    have : B * C ≤ A + (q.natDegree + 1) * (B * C) := by nlinarith [Nat.zero_le (q.natDegree * (B * C))]
    exact_mod_cast this
  · refine key _ _ hABC ((abs_sub _ _).trans ?_)
    have hs : |∑ l ∈ Finset.Icc k (k + j), q.coeff (k + j - l) * Q.coeff l| ≤ (((q.natDegree + 1) * (B * C) : ℕ) : ℤ) := by
      refine (Finset.abs_sum_le_sum_abs _ _).trans ((Finset.sum_le_card_nsmul _ _ _ fun l _ => hterm (k + j - l) l).trans ?_)
      rw [Nat.card_Icc, nsmul_eq_mul]
      exact_mod_cast Nat.mul_le_mul_right _ (show k + j + 1 - k ≤ q.natDegree + 1 by omega)
    have := hA (k + j)
    push_cast at hs ⊢
    linarith

end

section

variable [Cfg] {w : ℕ} [Width w] {u v : List (SInt w)} {p q : ℤ[X]} (hp : RingPolyRep (MRep w) u p)

include hp

/-- C65: `divisible` answers what `try_div` finds, and panics where it panics; by zero it never panics. -/
theorem C65_poly_divisible (hq : RingPolyRep (MRep w) v q) :
    (q = 0 → (PolynomialAlgebra.integralDomain (CheckedInts.integralDomain w)).divisible u v = .ok (decide (p = 0))) ∧
    (q ≠ 0 → (∃ Q, DividesWithin w p q Q) →
      (PolynomialAlgebra.integralDomain (CheckedInts.integralDomain w)).divisible u v = .ok true) ∧
    (q ≠ 0 → StuckWithin w p q →
      (PolynomialAlgebra.integralDomain (CheckedInts.integralDomain w)).divisible u v = .ok false) ∧
    (q ≠ 0 → (∀ Q, ¬ DividesWithin w p q Q) → ¬ StuckWithin w p q →
      (PolynomialAlgebra.integralDomain (CheckedInts.integralDomain w)).divisible u v = .panic) := by
  have hd : (PolynomialAlgebra.integralDomain (CheckedInts.integralDomain w)).divisible u v =
      if v.isEmpty then .ok u.isEmpty
      else (PolynomialAlgebra.integralDomain (CheckedInts.integralDomain w)).tryDiv u v >>= fun o => .ok o.isSome := by
    show (Res.ok v.isEmpty >>= fun z => if z then Res.ok u.isEmpty else PolynomialAlgebra.tryDiv _ u v >>= fun o => pure o.isSome) = _
    cases v.isEmpty <;> rfl
  have hv : v.isEmpty = true ↔ q = 0 := by rw [hq.eq_zero_iff]; simp
  have hu : u.isEmpty = decide (p = 0) := by
    rw [Bool.eq_iff_iff, decide_eq_true_iff, hp.eq_zero_iff]; simp
  rw [hd]
  refine ⟨fun h => by rw [if_pos (hv.2 h), hu], fun h hQ => ?_, fun h hs => ?_, fun h h1 h2 => ?_⟩ <;>
    rw [if_neg (fun h' => h (hv.1 h'))] <;> have h3 := C65_poly_try_div hp hq h
  · obtain ⟨Q, hQ⟩ := hQ
    obtain ⟨x, hx, -⟩ := h3.1 Q hQ
    rw [hx]; rfl
  · rw [h3.2.1 hs]; rfl
  · rw [h3.2.2 h1 h2]; rfl

/-- C65: `associate_repr` changes all signs if the leading coefficient is negative, and panics exactly if then one of the
coefficients is the least integer. -/
theorem C65_poly_associate_repr :
    ReturnsIff (p.leadingCoeff < 0 → ∀ k, InRange w (-p.coeff k))
      ((PolynomialAlgebra.integralDomain (CheckedInts.integralDomain w)).associateRepr u)
      (RingPolyRep (MRep w) · (if p.leadingCoeff < 0 then -p else p)) := by
  rw [returnsIff_iff]
  simp only [PolynomialAlgebra.integralDomain]
  split
  · rename_i hu
    obtain rfl : u = [] := by simpa using hu
    have hp0 : p = 0 := hp.eq_zero_iff.2 rfl
    subst hp0
    simp only [leadingCoeff_zero, lt_irrefl, if_false]
    exact ⟨fun h => absurd h id, hp⟩
  · rename_i hu
    have hul : u.length ≠ 0 := by simpa using hu
    refine Returns.bind (hp.cells.idx (i := u.length - 1) (by omega)) fun a ha => ?_
    rw [← hp.leadingCoeff] at ha
    have ha0 : a.1 ≠ 0 := by rw [ha, hp.leadingCoeff]; exact hp.last hul
    refine Returns.bind (P := fun s : SInt w => s.1 = if p.leadingCoeff < 0 then -1 else 1) ?_ fun s hs => ?_
    · rw [← ha]
      simp only [CheckedInts.integralDomain, CheckedInts.beq_c0, ha0, ne_eq, not_false_eq_true, decide_true, assert_true, ok_bind]
      show Returns _ (if a.1 < 0 then _ else _) _
      split <;> rfl
    by_cases hl : p.leadingCoeff < 0
    · rw [if_pos hl] at hs
      simp only [if_pos hl]
      have := hp.cells.map (mp := ¬ (p.leadingCoeff < 0 → ∀ k, InRange w (-p.coeff k))) (rep' := MRep w) (d := (-p).coeff)
        (f := fun x => (CheckedInts.integralDomain w).mul x s) fun i hi a ha => by
          refine ((CheckedInts.exactly_mul a s).returns fun h => ?_).mono fun b hb => ?_
          · rw [ha, hs, mul_neg_one]; exact h hl i
          · show b.1 = _
            rw [hb.1, ha, hs, mul_neg_one, coeff_neg]
      refine this.mono fun x hx => ⟨fun _ k => ?_, RingPolyRep.mk hx (fun k hk => ?_) fun _ => ?_⟩
      · by_cases hk : k < u.length
        · have := hx.2 k (by rw [hx.1]; exact hk)
          rw [coeff_neg] at this
          rw [← this]; exact CheckedInts.inRange_val _
        · rw [hp.coeff_eq_zero k (by omega), neg_zero]; exact CheckedInts.inRange_zero
      · rw [coeff_neg, hp.coeff_eq_zero k hk, neg_zero]
      · rw [coeff_neg]; exact neg_ne_zero.2 (hp.last hul)
    · rw [if_neg hl] at hs
      simp only [if_neg hl]
      have := hp.cells.map (mp := ¬ (p.leadingCoeff < 0 → ∀ k, InRange w (-p.coeff k))) (rep' := MRep w) (d := p.coeff)
        (f := fun x => (CheckedInts.integralDomain w).mul x s) fun i hi a ha => by
          refine ((CheckedInts.exactly_mul a s).returns fun h => ?_).mono fun b hb => ?_
          · rw [hs, mul_one]; exact CheckedInts.inRange_val a
          · show b.1 = _
            rw [hb.1, ha, hs, mul_one]
      exact this.mono fun x hx => ⟨fun h => absurd h hl, RingPolyRep.mk hx (fun k hk => hp.coeff_eq_zero k hk) fun _ => hp.last hul⟩

end

/-! ## Quotients of fractions -/

section fractions

variable [Cfg] {w : ℕ} [Width w] {a b : SInt w × SInt w} {q r : ℚ}

/-- C65: `div` of fractions returns exactly if the divisor is not zero, its negated numerator is representable, and so are
the products with the inverse. -/
theorem C65_fractions_div (ha : MFracRep w a q) (hb : MFracRep w b r) :
    ReturnsIff ((r ≠ 0 ∧ InRange w (-r.num)) ∧ InRange w (q.num * r⁻¹.num) ∧ InRange w (q.den * r⁻¹.den))
      ((ReducedFractions.ops (CheckedInts.euclidean w)).div a b) (MFracRep w · (q / r)) := by
  rw [div_eq_mul_inv]
  exact (C65_fractions_inv hb).bind fun _ x hx => C65_fractions_mul ha hx

/-- C65: so do `try_div`, whose result is never `None`, `quo`, and `quo_rem`, whose remainder is zero. -/
theorem C65_fractions_quo (ha : MFracRep w a q) (hb : MFracRep w b r) :
    ReturnsIff ((r ≠ 0 ∧ InRange w (-r.num)) ∧ InRange w (q.num * r⁻¹.num) ∧ InRange w (q.den * r⁻¹.den))
      ((ReducedFractions.ops (CheckedInts.euclidean w)).toEuclidean.tryDiv a b) (fun o => ∃ c, o = some c ∧ MFracRep w c (q / r)) ∧
    ReturnsIff ((r ≠ 0 ∧ InRange w (-r.num)) ∧ InRange w (q.num * r⁻¹.num) ∧ InRange w (q.den * r⁻¹.den))
      ((ReducedFractions.ops (CheckedInts.euclidean w)).toEuclidean.quo a b) (MFracRep w · (q / r)) ∧
    ReturnsIff ((r ≠ 0 ∧ InRange w (-r.num)) ∧ InRange w (q.num * r⁻¹.num) ∧ InRange w (q.den * r⁻¹.den))
      ((ReducedFractions.ops (CheckedInts.euclidean w)).toEuclidean.quoRem a b)
      (fun o => MFracRep w o.1 (q / r) ∧ MFracRep w o.2 0) := by
  have h := C65_fractions_div ha hb
  have hz : (ReducedFractions.ops (CheckedInts.euclidean w)).isZero b = .ok (decide (r = 0)) := by
    show (Res.ok (b.1 == CheckedInts.c0 w) >>= fun z => if z then Res.ok (b.2 == CheckedInts.c1 w) else Res.ok false) = _
    have h1 : b.1 = CheckedInts.c0 w ↔ r = 0 := by
      rw [Subtype.ext_iff, hb.1]; exact Rat.num_eq_zero
    by_cases hr : r = 0
    · have h2 : b.2 = CheckedInts.c1 w := Subtype.ext (by rw [hb.2, hr]; rfl)
      rw [h1.2 hr, h2, decide_eq_true hr, beq_self_eq_true]
      exact congrArg Res.ok (beq_self_eq_true _)
    · rw [decide_eq_false hr, beq_eq_false_iff_ne.2 fun h => hr (h1.1 h)]
      rfl
  refine ⟨?_, ?_, ?_⟩
  · show ReturnsIff _ ((ReducedFractions.ops (CheckedInts.euclidean w)).div a b >>= fun c => .ok (some c)) _
    exact ⟨fun hp => by obtain ⟨c, hc, hc'⟩ := h.1 hp; rw [hc]; exact ⟨_, rfl, c, rfl, hc'⟩, fun hp => by rw [h.2 hp]; rfl⟩
  · show ReturnsIff _ ((ReducedFractions.ops (CheckedInts.euclidean w)).isZero b >>= fun z => Res.assert (!z) >>= fun _ =>
      (ReducedFractions.ops (CheckedInts.euclidean w)).div a b) _
    rw [hz]
    by_cases hr : r = 0
    · simp only [hr, decide_true]
      exact ⟨fun hp => absurd rfl hp.1.1, fun _ => rfl⟩
    · rw [decide_eq_false hr]
      exact h
  · show ReturnsIff _ ((ReducedFractions.ops (CheckedInts.euclidean w)).isZero b >>= fun z => Res.assert (!z) >>= fun _ =>
      (ReducedFractions.ops (CheckedInts.euclidean w)).div a b >>= fun c =>
      (ReducedFractions.ops (CheckedInts.euclidean w)).zero >>= fun z => .ok (c, z)) _
    rw [hz]
    by_cases hr : r = 0
    · simp only [hr, decide_true]
      exact ⟨fun hp => absurd rfl hp.1.1, fun _ => rfl⟩
    · simp only [hr, decide_false]
      refine ⟨fun hp => ?_, fun hp => ?_⟩
      · obtain ⟨c, hc, hc'⟩ := h.1 (by simpa only [hr] using hp)
        refine ⟨(c, (CheckedInts.c0 w, CheckedInts.c1 w)), ?_, hc', ?_⟩
        · show (ReducedFractions.ops (CheckedInts.euclidean w)).div a b >>= _ = _
          rw [hc]; rfl
        · exact ⟨rfl, rfl⟩
      · show (ReducedFractions.ops (CheckedInts.euclidean w)).div a b >>= _ = _
        rw [h.2 (by simpa only [hr] using hp)]; rfl

end fractions

/-! ## Concrete cases -/

namespace DivisionOverflowExamples

local instance : Cfg := ⟨true, true, 64, by decide⟩

/-- In 8 bits `(x² - 100) : (x - 10)` is returned, and so is `None` for `x² - 100 : 2 x - 10`, but `-128 : 1` and `-128 : -1`
panic: the negative of the quotient, or the quotient, is not representable. -/
example : (PolynomialAlgebra.integralDomain (CheckedInts.integralDomain 8)).tryDiv
      [SInt.lit (-100) (by decide), SInt.lit 0 (by decide), SInt.lit 1 (by decide)] [SInt.lit (-10) (by decide), SInt.lit 1 (by decide)] =
      .ok (some [SInt.lit 10 (by decide), SInt.lit 1 (by decide)]) ∧
    (PolynomialAlgebra.integralDomain (CheckedInts.integralDomain 8)).tryDiv
      [SInt.lit (-100) (by decide), SInt.lit 0 (by decide), SInt.lit 1 (by decide)] [SInt.lit (-10) (by decide), SInt.lit 2 (by decide)] =
      .ok none ∧
    (PolynomialAlgebra.integralDomain (CheckedInts.integralDomain 8)).tryDiv [SInt.lit (-128) (by decide)] [SInt.lit 1 (by decide)] = .panic ∧
    (PolynomialAlgebra.integralDomain (CheckedInts.integralDomain 8)).tryDiv [SInt.lit (-128) (by decide)] [SInt.lit (-1) (by decide)] =
      .panic := ⟨rfl, rfl, rfl, rfl⟩

/-- There is no quotient of `x²` by `x - 100`, and the division panics: it meets the number 10000. With the leading
coefficient 2 it gets stuck before. -/
example : (PolynomialAlgebra.integralDomain (CheckedInts.integralDomain 8)).tryDiv
      [SInt.lit 0 (by decide), SInt.lit 0 (by decide), SInt.lit 1 (by decide)] [SInt.lit (-100) (by decide), SInt.lit 1 (by decide)] = .panic ∧
    (PolynomialAlgebra.integralDomain (CheckedInts.integralDomain 8)).tryDiv
      [SInt.lit 0 (by decide), SInt.lit 0 (by decide), SInt.lit 1 (by decide)] [SInt.lit (-100) (by decide), SInt.lit 2 (by decide)] =
      .ok none := ⟨rfl, rfl⟩

/-- The hypothesis of `C65_poly_try_div` for `x : 2 x - 10` in 8 bits: stuck at the first step. -/
example : StuckWithin 8 X (C 2 * X - C 10) := by
  have hd : (C 2 * X - C 10 : ℤ[X]).natDegree = 1 := by compute_degree!
  refine ⟨0, 1, ?_, fun l _ => coeff_zero l, fun k hk => ?_, ?_, fun _ => ?_⟩
  · intro k hk
    simp only [coeff_zero, neg_zero, mul_zero, Finset.sum_const_zero, sub_zero]
    refine ⟨by unfold InRange; omega, by unfold InRange; omega, fun j _ => ⟨by unfold InRange; omega, ?_⟩⟩
    rw [coeff_X]
    unfold InRange
    split <;> omega
  · rw [mul_zero, sub_zero, coeff_X, if_neg (by omega)]
  · rw [mul_zero, sub_zero]; exact X_ne_zero
  · rw [mul_zero, sub_zero, hd, leadingCoeff, hd, coeff_X]
    simp

/-- In 32 bits polynomials of degree 999 with coefficients up to 1000 can be divided, if a quotient with such coefficients
exists. -/
example : 1000 + (999 + 1) * (1000 * 1000) < 2 ^ (32 - 1) ∧ 1000 < 2 ^ (32 - 1) := by decide

/-- `-128 + x` is its own representative; that of `-128 - x` is not representable in 8 bits. -/
example : (PolynomialAlgebra.integralDomain (CheckedInts.integralDomain 8)).associateRepr [SInt.lit (-128) (by decide), SInt.lit 1 (by decide)] =
      .ok [SInt.lit (-128) (by decide), SInt.lit 1 (by decide)] ∧
    (PolynomialAlgebra.integralDomain (CheckedInts.integralDomain 8)).associateRepr [SInt.lit 127 (by decide), SInt.lit (-1) (by decide)] =
      .ok [SInt.lit (-127) (by decide), SInt.lit 1 (by decide)] ∧
    (PolynomialAlgebra.integralDomain (CheckedInts.integralDomain 8)).associateRepr [SInt.lit (-128) (by decide), SInt.lit (-1) (by decide)] =
      .panic := ⟨rfl, rfl, rfl⟩

/-- One divides -128, and two does not divide `x`, but `divisible` panics for the first. -/
example : (PolynomialAlgebra.integralDomain (CheckedInts.integralDomain 8)).divisible [SInt.lit (-128) (by decide)] [SInt.lit 1 (by decide)] =
      .panic ∧
    (PolynomialAlgebra.integralDomain (CheckedInts.integralDomain 8)).divisible [SInt.lit 0 (by decide), SInt.lit 1 (by decide)] [SInt.lit 2 (by decide)] =
      .ok false ∧
    (PolynomialAlgebra.integralDomain (CheckedInts.integralDomain 8)).divisible [SInt.lit (-128) (by decide)] [SInt.lit 2 (by decide)] =
      .ok true := ⟨rfl, rfl, rfl⟩

/-- In 8 bits `1/2 : -3/100` returns `-50/3`, computed as `-100/6`; `1/2 : -128` panics in the inverse and `1/100 : 2` in the
denominators. -/
example : ((-3 / 100 : ℚ) ≠ 0 ∧ InRange 8 (-(-3 / 100 : ℚ).num)) ∧ InRange 8 ((1 / 2 : ℚ).num * (-3 / 100 : ℚ)⁻¹.num) ∧
      InRange 8 ((1 / 2 : ℚ).den * (-3 / 100 : ℚ)⁻¹.den) ∧ ¬ InRange 8 (-(-128 : ℚ).num) ∧
      ¬ InRange 8 ((1 / 100 : ℚ).den * (2 : ℚ)⁻¹.den) := by
  unfold InRange
  decide +kernel

end DivisionOverflowExamples

end Abstalg
