import Verif.Proofs.Fractions
import Verif.Proofs.Integers
import Verif.Proofs.CheckedInts
import Mathlib.Data.Rat.Lemmas
import Mathlib.RingTheory.Int.Basic
import Mathlib.Algebra.Field.Rat

/-! # Fields of fractions: C26-C28, C57 -/

set_option linter.unusedSectionVars false

set_option autoImplicit false

universe u v

namespace Abstalg

section

variable [Cfg] {E : Type} {R : Type u} [EuclideanDomain R] [NormalizationMonoid R]
  {mp : Prop} {rep : E → R → Prop} {base : EuclideanDomainOps E}

/-- C26: `ReducedFractions::new` returns an implementation of the field of fractions, whose
members are the fractions in lowest terms with a canonical denominator. -/
theorem C26_fraction_field (h : EuclideanSpec mp base rep) (K : Type v) [Field K] [Algebra R K]
    [IsFractionRing R K] :
    Returns mp (ReducedFractions.new base) fun A =>
      FieldSpec mp A fun (e : E × E) (k : K) =>
        ∃ x y, rep e.1 x ∧ rep e.2 y ∧ y ≠ 0 ∧ IsCoprime x y ∧ normalize y = y ∧
          k = algebraMap R K x / algebraMap R K y :=
  Returns.bind h.one fun _ ho => Decides.assertNot (h.isZero ho) one_ne_zero
    (ReducedFractions.spec h)

/-- The integers and the rational numbers meet the hypotheses, and -3/2 is a member. -/
example : EuclideanSpec False Integers.euclidean ZRep ∧ IsFractionRing ℤ ℚ ∧
    ∃ x y : ℤ, ZRep (-3) x ∧ ZRep 2 y ∧ y ≠ 0 ∧ IsCoprime x y ∧ normalize y = y ∧
      (-3 / 2 : ℚ) = algebraMap ℤ ℚ x / algebraMap ℤ ℚ y :=
  ⟨Integers.euclidean_spec, inferInstance, -3, 2, rfl, rfl, by decide, ⟨-1, -1, by decide⟩, rfl,
    by simp⟩

theorem frac_exists (K : Type v) [Field K] [Algebra R K] [IsFractionRing R K] (k : K) :
    ∃ x y : R, y ≠ 0 ∧ IsCoprime x y ∧ normalize y = y ∧
      k = algebraMap R K x / algebraMap R K y := by
  classical
  obtain ⟨x, y, hy, rfl⟩ := IsFractionRing.div_surjective (A := R) k
  have hy0 : y ≠ 0 := nonZeroDivisors.ne_zero hy
  obtain ⟨g, hg⟩ : ∃ g, IsGcd x y g := ⟨EuclideanDomain.gcd x y, EuclideanDomain.gcd_dvd_left x y,
    EuclideanDomain.gcd_dvd_right x y, fun d h1 h2 => EuclideanDomain.dvd_gcd h1 h2⟩
  obtain ⟨x', rfl⟩ := hg.1
  obtain ⟨y', rfl⟩ := hg.2.1
  have hg0 : g ≠ 0 := left_ne_zero_of_mul hy0
  have hy0' : y' ≠ 0 := right_ne_zero_of_mul hy0
  have hu : (normUnit y' : R) ≠ 0 := (normUnit y').ne_zero
  refine ⟨x' * normUnit y', y' * normUnit y', mul_ne_zero hy0' hu,
    (isCoprime_mul_unit_right (normUnit y').isUnit x' y').2 (isGcd_coprime hg hg0),
    normalize_normalized, ?_⟩
  rw [ReducedFractions.map_div_eq_iff hy0 (mul_ne_zero hy0' hu)]
  ring

/-- C26: over any base, `ReducedFractions::new` returns exactly if the base finds one not to be zero. -/
theorem C26_checks (base : EuclideanDomainOps E) :
    (∀ A, ReducedFractions.new base = .ok A ↔
      (∃ o, base.one = .ok o ∧ base.isZero o = .ok false) ∧ A = ReducedFractions.ops base) ∧
    ((∃ o, base.one = .ok o ∧ base.isZero o = .ok true) → ReducedFractions.new base = .panic) := by
  unfold ReducedFractions.new
  constructor
  · intro A
    constructor
    · intro h
      obtain ⟨o, h1, h⟩ := ok_of_bind h
      obtain ⟨z, h2, h⟩ := ok_of_bind h
      cases z with
      | true => cases h
      | false => exact ⟨⟨o, h1, h2⟩, by injection h with h; exact h.symm⟩
    · rintro ⟨⟨o, h1, h2⟩, rfl⟩
      rw [h1, ok_bind, h2]
      rfl
  · rintro ⟨o, h1, h2⟩
    rw [h1, ok_bind, h2]
    rfl

example : ReducedFractions.new Integers.euclidean = .ok ReducedFractions.QQ :=
  ((C26_checks _).1 _).2 ⟨⟨1, rfl, rfl⟩, rfl⟩

/-- C26: every fraction has a member, if every element of the base has. -/
theorem C26_surjective (hs : ∀ x, ∃ e, rep e x) (K : Type v) [Field K] [Algebra R K]
    [IsFractionRing R K] (k : K) : ∃ e, FracRep rep e k := by
  obtain ⟨x, y, h1, h2, h3, h4⟩ := frac_exists (R := R) K k
  obtain ⟨n, hn⟩ := hs x
  obtain ⟨d, hd⟩ := hs y
  exact ⟨(n, d), x, y, hn, hd, h1, h2, h3, h4⟩

/-- The hypothesis holds for the integers. -/
example (q : ℚ) : ∃ e : ℤ × ℤ, FracRep ZRep e q := C26_surjective (fun x => ⟨x, rfl⟩) ℚ q

/-- C27: `reduce` returns the canonical form of the fraction. -/
theorem C27_reduce (h : EuclideanSpec mp base rep) {n d : E} {x y : R} (hn : rep n x)
    (hd : rep d y) (hy : y ≠ 0) :
    ∃ x' y', (y' ≠ 0 ∧ IsCoprime x' y' ∧ normalize y' = y' ∧ x * y' = x' * y) ∧
      (∀ x'' y'', y'' ≠ 0 → IsCoprime x'' y'' → normalize y'' = y'' → x * y'' = x'' * y →
        x'' = x' ∧ y'' = y') ∧
      Returns mp (ReducedFractions.reduce base (n, d)) fun e => rep e.1 x' ∧ rep e.2 y' := by
  obtain ⟨x', y', h3, h4, h5, h6⟩ :=
    frac_exists (R := R) (FractionRing R) (algebraMap R _ x / algebraMap R _ y)
  rw [ReducedFractions.map_div_eq_iff hy h3] at h6
  refine ⟨x', y', ⟨h3, h4, h5, h6⟩, fun x'' y'' g3 g4 g5 g6 => ?_, ?_⟩
  · refine frac_unique g3 h3 g4 h4 g5 h5 (mul_left_cancel₀ hy ?_)
    linear_combination y'' * h6 - y' * g6
  · refine (ReducedFractions.reduce_spec (K := FractionRing R) h hn hd hy).mono fun e he => ?_
    obtain ⟨x'', y'', g1, g2, g3, g4, g5, g6⟩ := he
    rw [ReducedFractions.map_div_eq_iff hy g3] at g6
    obtain ⟨rfl, rfl⟩ : x'' = x' ∧ y'' = y' :=
      frac_unique g3 h3 g4 h4 g5 h5 (mul_left_cancel₀ hy (by
        linear_combination y'' * h6 - y' * g6))
    exact ⟨g1, g2⟩

/-- The hypotheses hold for 6/(-4), whose canonical form is (-3)/2. -/
example : ZRep 6 6 ∧ ZRep (-4) (-4) ∧ (-4 : ℤ) ≠ 0 ∧
    ((2 : ℤ) ≠ 0 ∧ IsCoprime (-3 : ℤ) 2 ∧ normalize (2 : ℤ) = 2 ∧ (6 : ℤ) * 2 = -3 * -4) :=
  ⟨rfl, rfl, by decide, by decide, ⟨-1, -1, by decide⟩, rfl, by decide⟩

/-- C27: `reduce` rejects a zero denominator. -/
theorem C27_zero_denominator (h : EuclideanSpec mp base rep) {n d : E} (hd : rep d 0) :
    Panics (ReducedFractions.reduce base (n, d)) :=
  ReducedFractions.reduce_panics h hd

/-- Five over zero. -/
example : ReducedFractions.reduce Integers.euclidean (5, 0) = .panic :=
  C27_zero_denominator Integers.euclidean_spec rfl

/-- C27: ratios that denote the same fraction reduce to equal members. -/
theorem C27_cross_equal (h : EuclideanSpec False base rep) {n d n' d' : E} {x y x' y' : R}
    (hn : rep n x) (hd : rep d y) (hn' : rep n' x') (hd' : rep d' y') (hy : y ≠ 0) (hy' : y' ≠ 0)
    [Decidable (x * y' = x' * y)] :
    ∃ e e', ReducedFractions.reduce base (n, d) = .ok e ∧
      ReducedFractions.reduce base (n', d') = .ok e' ∧
      (ReducedFractions.ops base).equals e e' = .ok (decide (x * y' = x' * y)) := by
  obtain ⟨e, he, h1⟩ :=
    returns_false_iff.1 (ReducedFractions.reduce_spec (K := FractionRing R) h hn hd hy)
  obtain ⟨e', he', h1'⟩ :=
    returns_false_iff.1 (ReducedFractions.reduce_spec (K := FractionRing R) h hn' hd' hy')
  refine ⟨e, e', he, he', ?_⟩
  exact decides_false_iff.1 ((ReducedFractions.equals_spec h h1 h1').iff
    (ReducedFractions.map_div_eq_iff hy hy'))

/-- 6/(-4) and -9/6 reduce to equal members, 6/(-4) and 3/2 do not. -/
example : ∃ e e' e'', ReducedFractions.reduce Integers.euclidean (6, -4) = .ok e ∧
    ReducedFractions.reduce Integers.euclidean (-9, 6) = .ok e' ∧
    ReducedFractions.reduce Integers.euclidean (3, 2) = .ok e'' ∧
    (ReducedFractions.ops Integers.euclidean).equals e e' = .ok true ∧
    (ReducedFractions.ops Integers.euclidean).equals e e'' = .ok false := by
  obtain ⟨e, e', h1, h2, h3⟩ := C27_cross_equal Integers.euclidean_spec (n := 6) (d := -4) (n' := -9)
    (d' := 6) rfl rfl rfl rfl (by decide) (by decide)
  obtain ⟨f, e'', h4, h5, h6⟩ := C27_cross_equal Integers.euclidean_spec (n := 6) (d := -4) (n' := 3)
    (d' := 2) rfl rfl rfl rfl (by decide) (by decide)
  obtain rfl : e = f := by
    rw [h1] at h4; cases h4; rfl
  exact ⟨e, e', e'', h1, h2, h5, h3, h6⟩

/-- C28: `contains` decides membership for every ratio of members of the base whose denominator
is not zero. -/
theorem C28_contains (h : EuclideanSpec mp base rep) {n d : E} {x y : R} (hn : rep n x)
    (hd : rep d y) (hy : y ≠ 0) :
    Decides mp ((ReducedFractions.ops base).contains (n, d)) (IsCoprime x y ∧ normalize y = y) :=
  ReducedFractions.contains_spec h hn hd hy

/-- `3/4` is a member, `2/4` and the ratio of `3` and `-4` are not. -/
example : (IsCoprime (3 : ℤ) 4 ∧ normalize (4 : ℤ) = 4) ∧ ¬ IsCoprime (2 : ℤ) 4 ∧
    normalize (-4 : ℤ) ≠ -4 := by
  refine ⟨⟨⟨-1, 1, by norm_num⟩, by decide⟩, ?_, by decide⟩
  rw [Int.isCoprime_iff_gcd_eq_one]
  decide

/-- C28: a zero denominator under a numerator that is not a unit is rejected. -/
theorem C28_zero_denominator (h : EuclideanSpec mp base rep) {n d : E} {x : R} (hn : rep n x)
    (hd : rep d 0) (hx : ¬ IsUnit x) :
    Returns mp ((ReducedFractions.ops base).contains (n, d)) (· = false) :=
  Decides.bind (h.relativePrimes hn hd)
    (fun hc => absurd (isCoprime_zero_right.1 hc) hx) fun _ => rfl

example : ZRep 3 3 ∧ ZRep 0 0 ∧ ¬ IsUnit (3 : ℤ) := ⟨rfl, rfl, by rw [Int.isUnit_iff]; decide⟩

/-- C28: a zero denominator under a unit makes `contains` panic. -/
theorem C28_zero_denominator_unit (h : EuclideanSpec mp base rep) {n d : E} {x : R}
    (hn : rep n x) (hd : rep d 0) (hx : IsUnit x) :
    Panics ((ReducedFractions.ops base).contains (n, d)) := by
  have hp := h.relativePrimes hn hd
  show (base.relativePrimes n d >>= fun b =>
    if b then (base.associateCoef d >>= fun c => base.isOne c) else pure false) = .panic
  rw [h.associateCoef_zero hd]
  cases hb : base.relativePrimes n d with
  | ok b =>
    rw [hb] at hp
    obtain rfl : b = true := hp.2 (isCoprime_zero_right.2 hx)
    rfl
  | panic => rfl
  | diverge => rw [hb] at hp; exact hp.elim

/-- Over the integers 3/2 is a member, 3/(-2) and 4/2 are not, 2/0 is rejected, 1/0 panics. -/
example : (IsCoprime (3 : ℤ) 2 ∧ normalize (2 : ℤ) = 2) ∧ normalize (-2 : ℤ) ≠ -2 ∧
    ¬ IsCoprime (4 : ℤ) 2 ∧ ¬ IsUnit (2 : ℤ) ∧ IsUnit (1 : ℤ) := by
  refine ⟨⟨⟨1, -1, by decide⟩, rfl⟩, by decide, ?_, by rw [Int.isUnit_iff]; decide,
    isUnit_one⟩
  rintro ⟨a, b, h⟩
  omega

end

section integers

variable [Cfg]

theorem int_normalize_eq_self {y : ℤ} : normalize y = y ↔ 0 ≤ y := by
  constructor
  · intro h
    by_contra hn
    rw [Int.normalize_of_nonpos (by omega)] at h
    omega
  · exact Int.normalize_of_nonneg

theorem fracRep_int {F : Type} (f : F → ℤ) (a : F × F) (q : ℚ) :
    FracRep (fun a x => f a = x) a q ↔ f a.1 = q.num ∧ f a.2 = q.den := by
  constructor
  · rintro ⟨x, y, rfl, rfl, hy, hc, hn, rfl⟩
    have hy : 0 < f a.2 := lt_of_le_of_ne (int_normalize_eq_self.1 hn) (Ne.symm hy)
    have hc := Int.isCoprime_iff_nat_coprime.1 hc
    simp only [algebraMap_int_eq, Int.coe_castRingHom]
    exact ⟨(Rat.num_div_eq_of_coprime hy hc).symm, (Rat.den_div_eq_of_coprime hy hc).symm⟩
  · rintro ⟨h1, h2⟩
    refine ⟨_, _, h1, h2, by exact_mod_cast q.den_ne_zero, ?_, int_normalize_eq_self.2 (by positivity),
      ?_⟩
    · exact Int.isCoprime_iff_nat_coprime.2 (by simpa using q.reduced)
    · simpa using (Rat.num_div_den q).symm

/-- C26: `QQ` is the field of rational numbers, each represented by its numerator and
denominator. -/
theorem C26_rationals :
    FieldSpec False ReducedFractions.QQ fun (a : ℤ × ℤ) (q : ℚ) => a.1 = q.num ∧ a.2 = q.den := by
  have := ReducedFractions.spec (K := ℚ) Integers.euclidean_spec
  rwa [show FracRep (K := ℚ) ZRep = fun (a : ℤ × ℤ) (q : ℚ) => a.1 = q.num ∧ a.2 = q.den from
    funext fun a => funext fun q => propext (fracRep_int (fun x => x) a q)] at this

/-- The sum of 1/6 and 1/3 is returned in lowest terms. -/
example : ReducedFractions.QQ.add (1, 6) (1, 3) = .ok (1, 2) := by
  have h1 : (1 / 6 : ℚ).num = 1 ∧ (1 / 6 : ℚ).den = 6 := by decide +kernel
  have h2 : (1 / 3 : ℚ).num = 1 ∧ (1 / 3 : ℚ).den = 3 := by decide +kernel
  have h3 : (1 / 6 + 1 / 3 : ℚ).num = 1 ∧ (1 / 6 + 1 / 3 : ℚ).den = 2 := by decide +kernel
  obtain ⟨e, he, h4, h5⟩ := returns_false_iff.1 <| C26_rationals.add (a := (1, 6)) (b := (1, 3))
    (x := 1 / 6) (y := 1 / 3) ⟨h1.1.symm, by rw [h1.2]; rfl⟩ ⟨h2.1.symm, by rw [h2.2]; rfl⟩
  rw [he]
  exact congrArg _ (Prod.ext (h4.trans h3.1) (h5.trans (by rw [h3.2]; rfl)))

/-- C27 for 6/(-4), which is not in lowest terms and has a negative denominator. -/
example : ReducedFractions.reduce Integers.euclidean (6, -4) = .ok (-3, 2) := by
  obtain ⟨x, y, -, h, h1⟩ := C27_reduce Integers.euclidean_spec (n := 6) (d := -4) rfl rfl (by decide)
  obtain ⟨rfl, rfl⟩ := h (-3) 2 (by decide) ⟨-1, -1, by decide⟩ rfl (by decide)
  obtain ⟨e, he, h2, h3⟩ := returns_false_iff.1 h1
  rw [he]
  exact congrArg _ (Prod.ext h2 h3)

/-- C28: `QQ.contains` on all pairs: it panics on ±1/0 and is otherwise exact. -/
theorem C28_rationals (n d : ℤ) :
    ReducedFractions.QQ.contains (n, d) =
      if d = 0 ∧ (n = 1 ∨ n = -1) then .panic
      else .ok (decide (0 < d ∧ Nat.Coprime n.natAbs d.natAbs)) := by
  by_cases hd : d = 0
  · subst hd
    by_cases hn : n = 1 ∨ n = -1
    · rw [if_pos ⟨rfl, hn⟩]
      exact C28_zero_denominator_unit Integers.euclidean_spec rfl rfl (Int.isUnit_iff.2 hn)
    · rw [if_neg (fun h => hn h.2)]
      have h1 := C28_zero_denominator Integers.euclidean_spec (n := n) (d := 0) rfl rfl
        (fun h => hn (Int.isUnit_iff.1 h))
      obtain ⟨b, hb, rfl⟩ := returns_false_iff.1 h1
      exact hb.trans (by simp)
  · rw [if_neg (fun h => hd h.1)]
    refine decides_false_iff.1 ((C28_contains Integers.euclidean_spec rfl rfl hd).iff ?_)
    rw [int_normalize_eq_self, Int.isCoprime_iff_nat_coprime, and_comm]
    exact and_congr_left' (by omega)

/-- All three cases. -/
example : ReducedFractions.QQ.contains (-1, 0) = .panic ∧
    ReducedFractions.QQ.contains (7, 0) = .ok false ∧
    ReducedFractions.QQ.contains (6, 4) = .ok false ∧
    ReducedFractions.QQ.contains (3, -2) = .ok false ∧
    ReducedFractions.QQ.contains (-3, 2) = .ok true :=
  ⟨C28_rationals _ _, C28_rationals _ _, C28_rationals _ _, C28_rationals _ _, C28_rationals _ _⟩

/-- C57: fractions of machine integers never have a wrong value. -/
theorem C57_checked_fractions {w : ℕ} [Width w] :
    FieldSpec True (ReducedFractions.ops (CheckedInts.euclidean w))
      fun (a : SInt w × SInt w) (q : ℚ) => a.1.1 = q.num ∧ a.2.1 = q.den := by
  have := ReducedFractions.spec (K := ℚ) (CheckedInts.euclidean_spec (w := w))
  rwa [show FracRep (K := ℚ) (SRep w) =
      fun (a : SInt w × SInt w) (q : ℚ) => a.1.1 = q.num ∧ a.2.1 = q.den from
    funext fun a => funext fun q => propext (fracRep_int (fun x : SInt w => x.1) a q)] at this

/-- With eight bits the sum of 1/127 and 1/126, which is 253/16002, cannot be returned. -/
example (e : SInt 8 × SInt 8) :
    (ReducedFractions.ops (CheckedInts.euclidean 8)).add
      (SInt.lit 1 (by decide), SInt.lit 127 (by decide))
      (SInt.lit 1 (by decide), SInt.lit 126 (by decide)) ≠ .ok e := by
  intro h
  have h1 : (1 / 127 : ℚ).num = 1 ∧ (1 / 127 : ℚ).den = 127 := by decide +kernel
  have h2 : (1 / 126 : ℚ).num = 1 ∧ (1 / 126 : ℚ).den = 126 := by decide +kernel
  have h3 : (1 / 127 + 1 / 126 : ℚ).num = 253 := by decide +kernel
  have := (C57_checked_fractions (w := 8)).add (x := 1 / 127) (y := 1 / 126)
    (a := (SInt.lit 1 (by decide), SInt.lit 127 (by decide)))
    (b := (SInt.lit 1 (by decide), SInt.lit 126 (by decide)))
    ⟨h1.1.symm, by rw [h1.2]; rfl⟩ ⟨h2.1.symm, by rw [h2.2]; rfl⟩
  rw [h] at this
  have h4 : e.1.1 = 253 := this.1.trans h3
  have h5 : e.1.1 ≤ 127 := e.1.2.2
  omega

end integers

end Abstalg
