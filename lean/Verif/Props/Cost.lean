import Verif.Proofs.Cost
import Verif.Proofs.Integers
import Verif.Proofs.CheckedInts
import Verif.Props.Polynomials
import Verif.Props.Traits
import Mathlib.Tactic.NormNum.NatFib

/-! # The number of steps: C62, C63 -/

set_option autoImplicit false

universe u

namespace Abstalg

section limit

variable {E : Type} (isZero : E → Res Bool) (rem : E → E → Res E) (one zero : Res E)
  (quoRem : E → E → Res (E × E)) (sub mul : E → E → Res E) (a b : E)

/-- C62: a run of `gcd` with a budget either exhausts it or has the outcome of `gcd`, and a run of
`gcd` that returns or panics does so within some budget. -/
theorem C62_gcd_limit :
    (∀ n, gcdWithin isZero rem n a b = .diverge ∨
      gcdWithin isZero rem n a b = gcdDefault isZero rem a b) ∧
    (gcdDefault isZero rem a b ≠ .diverge →
      ∃ n, gcdWithin isZero rem n a b = gcdDefault isZero rem a b) :=
  ⟨fun n => gcdWithin_sound isZero rem n a b, gcdWithin_exists isZero rem a b⟩

/-- C62: the same for `extended_gcd`. -/
theorem C62_extended_gcd_limit :
    (∀ n, extendedGcdWithin isZero one zero quoRem sub mul n a b = .diverge ∨
      extendedGcdWithin isZero one zero quoRem sub mul n a b =
        extendedGcdDefault isZero one zero quoRem sub mul a b) ∧
    (extendedGcdDefault isZero one zero quoRem sub mul a b ≠ .diverge →
      ∃ n, extendedGcdWithin isZero one zero quoRem sub mul n a b =
        extendedGcdDefault isZero one zero quoRem sub mul a b) :=
  ⟨fun n => extendedGcdWithin_sound isZero one zero quoRem sub mul n a b,
    extendedGcdWithin_exists isZero one zero quoRem sub mul a b⟩

end limit

variable [Cfg]

/-- The gcd of 21 and 13 takes seven evaluations of the condition. -/
example : Integers.euclidean.gcdWithin 6 21 13 = .diverge ∧
    Integers.euclidean.gcdWithin 7 21 13 = .ok 1 ∧
    Integers.euclidean.extendedGcdWithin 6 21 13 = .diverge ∧
    Integers.euclidean.extendedGcdWithin 7 21 13 = .ok (1, 5, -8) := ⟨rfl, rfl, rfl, rfl⟩

theorem within_of_spec {E : Type} {R : Type u} {mp : Prop} {rep : E → R → Prop} [EuclideanDomain R]
    [NormalizationMonoid R] {A : EuclideanDomainOps E} (h : EuclideanSpec mp A rep)
    (hrem : A.rem = fun a b => do return (← A.quoRem a b).2)
    (hgcd : A.gcd = gcdDefault A.isZero A.rem)
    (hext : A.extendedGcd = extendedGcdDefault A.isZero A.one A.zero A.quoRem A.sub A.mul)
    {n : ℕ} {a b : E} {x y : R} (ha : rep a x) (hb : rep b y) (hn : A.gcdWithin n a b ≠ .diverge) :
    A.gcdWithin n a b = A.gcd a b ∧ A.extendedGcdWithin n a b = A.extendedGcd a b := by
  refine ⟨?_, ?_⟩
  · rw [hgcd]
    exact (gcdWithin_sound A.isZero A.rem n a b).resolve_left hn
  · rw [hext]
    refine (extendedGcdWithin_sound _ _ _ _ _ _ n a b).resolve_left fun hc => ?_
    have hn' : gcdWithin A.isZero (fun a b => do return (← A.quoRem a b).2) n a b ≠ .diverge := by
      rw [← hrem]
      exact hn
    have := extendedGcdWithin_of_gcdWithin (rep := rep) h.isZero h.one h.zero h.quoRem h.sub h.mul n
      ha hb hn'
    rw [hc] at this
    exact this

/-- C62 (Lamé): over `ZZ`, if the second operand is smaller than the Fibonacci number `F(k)`,
`k ≥ 2`, the loop of `gcd` evaluates its condition at most `k - 1` times and `extended_gcd` nests at
most `k - 1` calls; for a negative second operand of absolute value at most `F(k)`, at most `k`. -/
theorem C62_integers (a b : ℤ) (n : ℕ) :
    (0 ≤ b → b < Nat.fib (n + 2) →
      Integers.euclidean.gcdWithin (n + 1) a b = Integers.euclidean.gcd a b ∧
      Integers.euclidean.extendedGcdWithin (n + 1) a b = Integers.euclidean.extendedGcd a b) ∧
    (b < 0 → -b ≤ Nat.fib (n + 2) →
      Integers.euclidean.gcdWithin (n + 2) a b = Integers.euclidean.gcd a b ∧
      Integers.euclidean.extendedGcdWithin (n + 2) a b = Integers.euclidean.extendedGcd a b) := by
  have hE := Integers.euclidean_spec
  exact ⟨fun h0 h => within_of_spec hE rfl rfl rfl (show ZRep a a from rfl) (show ZRep b b from rfl)
      (gcdWithin_lame (rep := ZRep) hE.isZero hE.rem n rfl rfl h0 h),
    fun h0 h => within_of_spec hE rfl rfl rfl (show ZRep a a from rfl) (show ZRep b b from rfl)
      (gcdWithin_lame_neg (rep := ZRep) hE.isZero hE.rem n rfl rfl h0 h)⟩

/-- 13 is smaller than 21, the eighth Fibonacci number. -/
example : Integers.euclidean.gcdWithin 7 1000 13 = Integers.euclidean.gcd 1000 13 :=
  ((C62_integers 1000 13 6).1 (by decide) (by decide)).1

/-- Five steps are needed for a negative second operand of absolute value 4, one more than for 4. -/
example : Integers.euclidean.gcdWithin 4 3 (-4) = .diverge ∧
    Integers.euclidean.gcdWithin 5 3 (-4) = .ok 1 ∧
    Integers.euclidean.gcdWithin 4 3 4 = .ok 1 := ⟨rfl, rfl, rfl⟩

/-- C62: the bound is attained by consecutive Fibonacci numbers. -/
theorem C62_sharp (n : ℕ) :
    Integers.euclidean.gcdWithin (n + 1) (Nat.fib (n + 3) : ℤ) (Nat.fib (n + 2) : ℤ) = .diverge ∧
    Integers.euclidean.extendedGcdWithin (n + 1) (Nat.fib (n + 3) : ℤ) (Nat.fib (n + 2) : ℤ) =
      .diverge := by
  have hq : ∀ n : ℕ, ∃ q, Integers.euclidean.quoRem (Nat.fib (n + 4) : ℤ) (Nat.fib (n + 3) : ℤ) =
      .ok (q, (Nat.fib (n + 2) : ℤ)) := fun n => by
    obtain ⟨p, hp, h1, h2⟩ := returns_false_iff.1 (Integers.euclidean_spec.quoRem
      (show ZRep (Nat.fib (n + 4) : ℤ) _ from rfl) (show ZRep (Nat.fib (n + 3) : ℤ) _ from rfl)
      (by have := Nat.fib_pos.2 (show 0 < n + 3 by omega); omega))
    have h3 : ((Nat.fib (n + 4) : ℕ) : ℤ) % (Nat.fib (n + 3) : ℕ) = (Nat.fib (n + 2) : ℕ) := by
      have h4 : Nat.fib (n + 4) = Nat.fib (n + 2) + Nat.fib (n + 3) := Nat.fib_add_two
      have h5 : Nat.fib (n + 2) < Nat.fib (n + 3) := Nat.fib_lt_fib_succ (by omega)
      rw [h4]
      push_cast
      rw [Int.add_emod_right]
      exact Int.emod_eq_of_lt (by positivity) (by exact_mod_cast h5)
    refine ⟨p.1, ?_⟩
    rw [hp]
    have h2' : p.2 = ((Nat.fib (n + 4) : ℕ) : ℤ) % (Nat.fib (n + 3) : ℕ) := h2
    rw [← h3, ← h2']
  have hz : ∀ n : ℕ, Integers.euclidean.isZero (Nat.fib (n + 2) : ℤ) = .ok false := fun n => by
    have h := Nat.fib_pos.2 (show 0 < n + 2 by omega)
    show Res.ok ((Nat.fib (n + 2) : ℤ) == 0) = _
    rw [beq_false_of_ne (by omega)]
  have h0 : Integers.euclidean.isZero 1 = .ok false := rfl
  induction n with
  | zero => exact ⟨rfl, rfl⟩
  | succ n ih =>
    obtain ⟨q, hq⟩ := hq n
    have hr : Integers.euclidean.rem (Nat.fib (n + 4) : ℤ) (Nat.fib (n + 3) : ℤ) =
        .ok (Nat.fib (n + 2) : ℤ) := by
      show (do return (← Integers.euclidean.quoRem _ _).2) = _
      rw [hq]
      rfl
    have hz1 := hz (n + 1)
    refine ⟨?_, ?_⟩
    · show gcdWithin _ _ _ _ _ = _
      rw [gcdWithin, hz1]
      simp only [ok_bind, Bool.false_eq_true, if_false]
      rw [hr]
      exact ih.1
    · show extendedGcdWithin _ _ _ _ _ _ _ _ _ = _
      rw [extendedGcdWithin, hz1]
      simp only [ok_bind, Bool.false_eq_true, if_false]
      rw [hq]
      have := ih.2
      simp only [EuclideanDomainOps.extendedGcdWithin] at this
      simp only [ok_bind, this]
      rfl

omit [Cfg] in
theorem two_pow_le_fib (k : ℕ) : 2 ^ k ≤ Nat.fib (2 * k + 1) := by
  induction k with
  | zero => decide
  | succ k ih =>
    have h1 : Nat.fib (2 * (k + 1) + 1) = Nat.fib (2 * k + 1) + Nat.fib (2 * k + 2) := Nat.fib_add_two
    have h2 : Nat.fib (2 * k + 1) ≤ Nat.fib (2 * k + 2) := Nat.fib_le_fib_succ
    rw [pow_succ]
    omega

/-- C62: `gcd` of machine integers of `w` bits evaluates its condition at most `2 * w - 1` times, and
`extended_gcd` nests at most as many calls, for all operands, whether the run returns or panics; more
precisely at most `k` times if `2 ^ (w - 1)` is at most the Fibonacci number `F(k)`. -/
theorem C62_checked (w : ℕ) [Width w] (a b : SInt w) (k : ℕ)
    (hk : 2 ^ (w - 1) ≤ Nat.fib k ∨ k = 2 * w - 1) :
    (CheckedInts.euclidean w).gcdWithin k a b = (CheckedInts.euclidean w).gcd a b ∧
    (CheckedInts.euclidean w).extendedGcdWithin k a b = (CheckedInts.euclidean w).extendedGcd a b := by
  have hw : 8 ≤ w := Width.ge
  have hfib : 2 ^ (w - 1) ≤ Nat.fib k := by
    rcases hk with h | rfl
    · exact h
    · have := two_pow_le_fib (w - 1)
      rwa [show 2 * (w - 1) + 1 = 2 * w - 1 by omega] at this
  have h128 : 2 ^ 7 ≤ 2 ^ (w - 1) := Nat.pow_le_pow_right (by decide) (by omega)
  obtain ⟨n, rfl⟩ : ∃ n, k = n + 2 := ⟨k - 2, by
    have : 2 ≤ k := by
      by_contra hc
      have : k = 0 ∨ k = 1 := by omega
      rcases this with rfl | rfl <;> simp only [Nat.fib_zero, Nat.fib_one] at hfib <;> omega
    omega⟩
  have hE := CheckedInts.euclidean_spec w
  refine within_of_spec hE rfl rfl rfl (show SRep w a a.1 from rfl) (show SRep w b b.1 from rfl) ?_
  have hb := b.2
  unfold sMin sMax at hb
  have hfib' : (2 : ℤ) ^ (w - 1) ≤ Nat.fib (n + 2) := by exact_mod_cast hfib
  by_cases h0 : 0 ≤ b.1
  · refine gcdWithin_lame (rep := SRep w) hE.isZero hE.rem (n + 1) (show SRep w a a.1 from rfl)
      (show SRep w b b.1 from rfl) h0 ?_
    have : Nat.fib (n + 2) ≤ Nat.fib (n + 1 + 2) := Nat.fib_le_fib_succ
    omega
  · exact gcdWithin_lame_neg (rep := SRep w) hE.isZero hE.rem n (show SRep w a a.1 from rfl)
      (show SRep w b b.1 from rfl) (by omega) (by omega)

/-- C62: the budgets for the four types with a constant in the crate. -/
theorem C62_checked_sizes :
    (∀ a b, (CheckedInts.euclidean 8).extendedGcdWithin 12 a b = (CheckedInts.euclidean 8).extendedGcd a b) ∧
    (∀ a b, (CheckedInts.euclidean 16).extendedGcdWithin 24 a b = (CheckedInts.euclidean 16).extendedGcd a b) ∧
    (∀ a b, (CheckedInts.euclidean 32).extendedGcdWithin 47 a b = (CheckedInts.euclidean 32).extendedGcd a b) ∧
    (∀ a b, (CheckedInts.euclidean 64).extendedGcdWithin 93 a b = (CheckedInts.euclidean 64).extendedGcd a b) :=
  ⟨fun a b => (C62_checked 8 a b 12 (.inl (by decide))).2,
    fun a b => (C62_checked 16 a b 24 (.inl (by norm_num))).2,
    fun a b => (C62_checked 32 a b 47 (.inl (by norm_num))).2,
    fun a b => (C62_checked 64 a b 93 (.inl (by norm_num))).2⟩

/-- In 8 bits consecutive Fibonacci numbers take eleven evaluations. -/
example : (CheckedInts.euclidean 8).gcdWithin 12 ⟨55, by decide⟩ ⟨89, by decide⟩ =
    (CheckedInts.euclidean 8).gcd ⟨55, by decide⟩ ⟨89, by decide⟩ ∧
    (CheckedInts.euclidean 8).gcdWithin 10 ⟨55, by decide⟩ ⟨89, by decide⟩ = .diverge :=
  ⟨(C62_checked 8 _ _ 12 (.inl (by decide))).1, rfl⟩

/-- C62: over a field, `gcd` of polynomials evaluates its condition at most once more than the second
operand has coefficients, and `extended_gcd` nests at most as many calls. -/
theorem C62_polynomials {E : Type} {R : Type u} [Field R] {mp : Prop} {rep : E → R → Prop}
    {base : FieldOps E} (h : FieldSpec mp base rep) {v w : List E} {f g : Polynomial R}
    (hf : RingPolyRep rep v f) (hg : RingPolyRep rep w g) :
    (PolynomialAlgebra.euclidean base).gcdWithin (w.length + 1) v w =
      (PolynomialAlgebra.euclidean base).gcd v w ∧
    (PolynomialAlgebra.euclidean base).extendedGcdWithin (w.length + 1) v w =
      (PolynomialAlgebra.euclidean base).extendedGcd v w := by
  classical
  have hE := C34_polynomial_euclidean h
  refine within_of_spec hE rfl rfl rfl hf hg ?_
  refine gcdWithin_of_measure (rep := RingPolyRep rep) hE.isZero hE.rem Polynomial.natDegree
    (fun x y hy h0 => ?_) _ hf hg fun h0 => ?_
  · exact Polynomial.natDegree_lt_natDegree h0 (EuclideanDomain.mod_lt x hy)
  · have hne : w ≠ [] := by
      rintro rfl
      exact h0 (Polynomial.ext fun i => by simpa using hg.2.1 i (Nat.zero_le _))
    have := hg.natDegree
    have := List.length_pos_iff.mpr hne
    omega

/-- Two polynomials over the field with two elements: `1 + x + x^2 + x^3` and `1 + x^2`. -/
example : (PolynomialAlgebra.euclidean TwoElementAlgebra.field).gcdWithin 4
    [true, true, true, true] [true, false, true] = .ok [true, false, true] ∧
    (PolynomialAlgebra.euclidean TwoElementAlgebra.field).gcdWithin 1
    [true, true, true, true] [true, false, true] = .diverge := ⟨rfl, rfl⟩

/-- C62: in a field, `extended_gcd` nests at most two calls. -/
theorem C62_fields {E : Type} {R : Type u} [Field R] {mp : Prop} {rep : E → R → Prop}
    {A : FieldOps E} (h : FieldSpec mp A rep) {a b : E} {x y : R} (ha : rep a x) (hb : rep b y) :
    A.toEuclidean.extendedGcdWithin 2 a b = A.toEuclidean.extendedGcd a b := by
  classical
  have hE := h.toEuclidean
  refine (extendedGcdWithin_sound _ _ _ _ _ _ 2 a b).resolve_left fun hc => ?_
  have hrem : ∀ {a b x y}, rep a x → rep b y → y ≠ 0 →
      Returns mp (do return (← A.toEuclidean.quoRem a b).2) (rep · (x % y)) := fun ha hb hy =>
    Returns.bind (hE.quoRem ha hb hy) fun p hp => hp.2
  have h2 : gcdWithin A.toEuclidean.isZero (fun a b => do return (← A.toEuclidean.quoRem a b).2) 2 a b ≠
      .diverge :=
    gcdWithin_of_measure (rep := rep) hE.isZero hrem (fun _ => 0)
      (fun x y hy h0 => absurd (by simp [hy]) h0) 1 ha hb fun _ => by decide
  have := extendedGcdWithin_of_gcdWithin (rep := rep) hE.isZero hE.one hE.zero hE.quoRem hE.sub hE.mul 2
    ha hb h2
  rw [hc] at this
  exact this

/-- One call is not enough unless the second operand is zero. -/
example : TwoElementAlgebra.field.toEuclidean.extendedGcdWithin 2 true true = .ok (true, false, true) ∧
    TwoElementAlgebra.field.toEuclidean.extendedGcdWithin 1 true true = .diverge := ⟨rfl, rfl⟩

section loops

variable {E : Type} (op : E → E → Res E) (dbl : E → Res E)

omit [Cfg] in
/-- C63: the loop of `times` runs its body once for each binary digit of the multiplier: its condition
is evaluated `k + 1` times for a multiplier below `2 ^ k`, and more often for others unless an operation
panics. -/
theorem C63_times (k n : ℕ) (r e : E) :
    (n < 2 ^ k → timesLoopWithin op dbl (k + 1) n r e = timesLoop op dbl n r e) ∧
    ((∀ a b, ∃ c, op a b = .ok c) → (∀ a, ∃ c, dbl a = .ok c) → 2 ^ k ≤ n →
      timesLoopWithin op dbl (k + 1) n r e = .diverge) :=
  ⟨timesLoopWithin_eq op dbl k n r e, fun h1 h2 => timesLoopWithin_lt op dbl h1 h2 k n r e⟩

omit [Cfg] in
/-- C63: the same for the loop of `power`. -/
theorem C63_power (k : ℕ) (n : ℤ) (r e : E) :
    (n < 2 ^ k → powerLoopWithin op dbl (k + 1) n r e = powerLoop op dbl n r e) ∧
    ((∀ a b, ∃ c, op a b = .ok c) → (∀ a, ∃ c, dbl a = .ok c) → 2 ^ k ≤ n →
      powerLoopWithin op dbl (k + 1) n r e = .diverge) :=
  ⟨powerLoopWithin_eq op dbl k n r e, fun h1 h2 => powerLoopWithin_lt op dbl h1 h2 k n r e⟩

/-- C63: no multiplier or exponent takes more iterations than a pointer has bits. -/
theorem C63_pointer (r e : E) :
    (∀ n : ℕ, n ≤ usizeMax →
      timesLoopWithin op dbl (Cfg.ptrBits + 1) n r e = timesLoop op dbl n r e) ∧
    (∀ n : ℤ, n ≤ isizeMax →
      powerLoopWithin op dbl Cfg.ptrBits n r e = powerLoop op dbl n r e) := by
  have hp := Cfg.ptrBits_ge
  refine ⟨fun n hn => (C63_times op dbl _ n r e).1 ?_, fun n hn => ?_⟩
  · have := Nat.two_pow_pos Cfg.ptrBits
    unfold usizeMax at hn
    omega
  · obtain ⟨k, hk⟩ : ∃ k, Cfg.ptrBits = k + 1 := ⟨Cfg.ptrBits - 1, by omega⟩
    unfold isizeMax at hn
    rw [hk] at hn ⊢
    exact (C63_power op dbl k n r e).1 (by simp at hn; omega)

/-- C63: `power` by default inverts the base at most once, for a negative exponent, and then runs the
loop once for each binary digit of the absolute value of the exponent. -/
theorem C63_power_default (one : Res E) (inv : E → Res E) (k : ℕ) (n : ℤ) (e : E) (h0 : isizeMin < n)
    (hk : |n| < 2 ^ k) :
    powerDefault one op dbl inv n e = (do
      let b ← if n < 0 then inv e else pure e
      let r ← one
      powerLoopWithin op dbl (k + 1) |n| r b) := by
  unfold powerDefault
  by_cases h : n < 0
  · rw [if_pos h, if_pos h, isizeNeg, if_neg (by omega), abs_of_neg h] at *
    cases inv e with
    | ok b =>
      cases one with
      | ok r => exact ((C63_power op dbl k (-n) r b).1 hk).symm
      | _ => rfl
    | _ => rfl
  · rw [if_neg h, if_neg h, abs_of_nonneg (by omega)] at *
    cases one with
    | ok r => exact ((C63_power op dbl k n r e).1 hk).symm
    | _ => rfl

end loops

/-- Twelve times five takes four iterations, two of which add. -/
example : timesLoopWithin (fun a b : ℤ => .ok (a + b)) (fun a => .ok (a * 2)) 5 12 0 5 = .ok 60 ∧
    timesLoopWithin (fun a b : ℤ => .ok (a + b)) (fun a => .ok (a * 2)) 4 12 0 5 = .diverge ∧
    powerLoopWithin (fun a b : ℤ => .ok (a * b)) (fun a => .ok (a * a)) 5 12 1 5 = .ok (5 ^ 12) ∧
    powerLoopWithin (fun a b : ℤ => .ok (a * b)) (fun a => .ok (a * a)) 4 12 1 5 = .diverge :=
  ⟨rfl, rfl, rfl, rfl⟩

end Abstalg
