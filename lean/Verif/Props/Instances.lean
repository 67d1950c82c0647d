import Verif.Props.Traits
import Verif.Props.Integers
import Verif.Props.Quotient
import Verif.Props.Fractions
import Verif.Props.Groups
import Verif.Props.Vectors
import Verif.Props.Permutations
import Verif.Props.Polynomials
import Verif.Props.Matrices

/-!
# The properties of the default methods in concrete structures

The theorems of `Props/Traits.lean` assume the contract of the required methods. Here they are stated for
concrete structures, without such assumptions, and at `isize::MIN`.
-/

set_option autoImplicit false

universe u

namespace Abstalg

section fields

variable [Cfg] {E : Type} {R : Type u} [Field R] {mp : Prop} {rep : E → R → Prop}

/-- C03-C06 for the Euclidean methods that every field has. -/
theorem C03_fields {A : FieldOps E} (h : FieldSpec mp A rep) {a b : E} {x y : R}
    (ha : rep a x) (hb : rep b y) :
    (Returns mp (A.toEuclidean.gcd a b) fun c => ∃ g, rep c g ∧
      g ∣ x ∧ g ∣ y ∧ ∀ d, d ∣ x → d ∣ y → d ∣ g) ∧
    (Returns mp (A.toEuclidean.extendedGcd a b) fun c => ∃ g s t,
      rep c.1 g ∧ rep c.2.1 s ∧ rep c.2.2 t ∧ x * s + y * t = g ∧
      g ∣ x ∧ g ∣ y ∧ ∀ d, d ∣ x → d ∣ y → d ∣ g) ∧
    (Returns mp (A.toEuclidean.lcm a b) fun c => ∃ m, rep c m ∧
      x ∣ m ∧ y ∣ m ∧ ∀ d, x ∣ d → y ∣ d → m ∣ d) ∧
    Decides mp (A.toEuclidean.relativePrimes a b) (x ≠ 0 ∨ y ≠ 0) := by
  classical
  have hE := h.toEuclidean
  refine ⟨hE.gcd ha hb, hE.extendedGcd ha hb, hE.lcm ha hb, (hE.relativePrimes ha hb).iff ?_⟩
  constructor
  · rintro ⟨s, t, hst⟩
    by_contra hc
    push Not at hc
    rw [hc.1, hc.2] at hst
    simp at hst
  · rintro (hx | hy)
    · exact ⟨x⁻¹, 0, by rw [inv_mul_cancel₀ hx]; simp⟩
    · exact ⟨0, y⁻¹, by rw [inv_mul_cancel₀ hy]; simp⟩

/-- C03 in the field of integers modulo 7. -/
example [Fact (Nat.Prime 7)] : Decides False ((QuotientField.ops Integers.euclidean 7).toEuclidean.relativePrimes 0 3)
    ((0 : ZMod 7) ≠ 0 ∨ (3 : ZMod 7) ≠ 0) :=
  (C03_fields (C21_integers 7) (a := 0) (b := 3) (x := 0) (y := 3)
    ⟨by decide, by decide, by simp⟩ ⟨by decide, by decide, by simp⟩).2.2.2

/-- C09, C47: `Field::power` of a non-zero element at `isize::MIN`, with overflow checks. -/
theorem C09_field_power_min_checked {U : UnitaryRingOps E} {inv : E → Res E}
    (hU : UnitaryRingSpec False U rep) (hc : Cfg.overflowChecks = true)
    {a : E} {x : R} (ha : rep a x) (hx : x ≠ 0) :
    (inheritField U inv).power isizeMin a = .panic := by
  obtain ⟨z, hz, hz'⟩ := returns_false_iff.1 (hU.isZero ha)
  have hz0 : z = false := by
    cases z
    · rfl
    · exact absurd (hz'.1 rfl) hx
  show (U.isZero a >>= fun z => if z = true then U.zero else
    powerDefault U.one U.mulAssign U.square _ isizeMin a) = _
  rw [hz, ok_bind, hz0]
  simp [powerDefault, isizeMin_neg, isizeNeg, hc]

/-- In a debug build 3 to the power `isize::MIN` modulo 7 panics. -/
example [Fact (Nat.Prime 7)] (hc : Cfg.overflowChecks = true) :
    (QuotientField.ops Integers.euclidean 7).power isizeMin 3 = .panic :=
  C09_field_power_min_checked (C21_integers 7).toUnitaryRingSpec hc (a := 3) (x := 3)
    ⟨by decide, by decide, by simp⟩ (by
      intro h
      have := (ZMod.natCast_eq_zero_iff 3 7).1 (by exact_mod_cast h)
      omega)

/-- C09, C47: without overflow checks it is one. -/
theorem C09_field_power_min_unchecked {U : UnitaryRingOps E} {inv : E → Res E}
    (hU : UnitaryRingSpec False U rep) (hc : Cfg.overflowChecks = false)
    {a : E} {x : R} (ha : rep a x) (hx : x ≠ 0) :
    (inheritField U inv).power isizeMin a = U.one := by
  obtain ⟨z, hz, hz'⟩ := returns_false_iff.1 (hU.isZero ha)
  have hz0 : z = false := by
    cases z
    · rfl
    · exact absurd (hz'.1 rfl) hx
  obtain ⟨o, ho, ho'⟩ := returns_false_iff.1 (hU.tryInv ha)
  cases o with
  | none => exact absurd (isUnit_iff_ne_zero.2 hx) ho'
  | some b =>
    have ho : U.tryInv a = .ok (some b) := ho
    have := C09_power_min_unchecked U.toMonoidOps (fun e => do Res.unwrap (← U.tryInv e)) hc a b
      (by rw [ho]; rfl)
    show (U.isZero a >>= fun z => if z = true then U.zero else
      powerDefault U.one U.mulAssign U.square _ isizeMin a) = _
    rw [hz, ok_bind, hz0]
    exact this

/-- In a release build 3 to the power `isize::MIN` modulo 7 is 1. -/
example [Fact (Nat.Prime 7)] (hc : Cfg.overflowChecks = false) :
    (QuotientField.ops Integers.euclidean 7).power isizeMin 3 = .ok 1 :=
  (C09_field_power_min_unchecked (C21_integers 7).toUnitaryRingSpec hc (a := 3) (x := 3)
    ⟨by decide, by decide, by simp⟩ (by
      intro h
      have := (ZMod.natCast_eq_zero_iff 3 7).1 (by exact_mod_cast h)
      omega)).trans rfl

end fields

section groups

variable [Cfg] {E : Type}

/-- C09: the inherited `AbelianGroup::times` at `isize::MIN`, with overflow checks. -/
theorem C09_times_min_checked (A : CommutativeMonoidOps E) (neg : E → Res E)
    (hc : Cfg.overflowChecks = true) (a : E) :
    ({ toCommutativeMonoidOps := A, neg := neg } : AbelianGroupOps E).times isizeMin a = .panic := by
  show powerDefault A.zero A.addAssign A.double neg isizeMin a = _
  simp [powerDefault, isizeMin_neg, isizeNeg, hc]

/-- Quotient rings inherit the method. -/
example (hc : Cfg.overflowChecks = true) :
    (QuotientRing.ops Integers.euclidean 12).times isizeMin 5 = .panic :=
  C09_times_min_checked (QuotientRing.ops Integers.euclidean 12).toCommutativeMonoidOps _ hc 5

/-- C09: without overflow checks it is zero. -/
theorem C09_times_min_unchecked (A : CommutativeMonoidOps E) (neg : E → Res E)
    (hc : Cfg.overflowChecks = false) (a b : E) (hn : neg a = .ok b) :
    ({ toCommutativeMonoidOps := A, neg := neg } : AbelianGroupOps E).times isizeMin a = A.zero := by
  show powerDefault A.zero A.addAssign A.double neg isizeMin a = _
  have h := isizeMin_neg
  simp only [powerDefault, h, if_true, isizeNeg, hc, hn, ok_bind, Bool.false_eq_true, if_false,
    pure_bind']
  cases hz : A.zero with
  | ok e =>
    simp only [ok_bind]
    rw [powerLoop, dif_neg (by omega)]
  | panic => rfl
  | diverge => rfl

/-- The quotient ring by 12 inherits `times`. In a debug build it panics, in a release build it returns
zero; the multiple of 5 is in fact 4 or 8, since a power of two is not divisible by 3. -/
example : (Cfg.overflowChecks = true →
      (QuotientRing.ops Integers.euclidean 12).times isizeMin 5 = .panic) ∧
    (Cfg.overflowChecks = false →
      (QuotientRing.ops Integers.euclidean 12).times isizeMin 5 = .ok 0) :=
  ⟨fun hc => C09_times_min_checked (QuotientRing.ops Integers.euclidean 12).toCommutativeMonoidOps
      (QuotientRing.ops Integers.euclidean 12).neg hc 5,
    fun hc => C09_times_min_unchecked (QuotientRing.ops Integers.euclidean 12).toCommutativeMonoidOps
      (QuotientRing.ops Integers.euclidean 12).neg hc 5 7 rfl⟩

end groups

section concrete

variable [Cfg]

/-- C07 for `ZZ`. -/
theorem C07_integers (a b : ℤ) :
    Integers.euclidean.divisible a b = .ok (decide (b ∣ a)) ∧
    Integers.euclidean.associates a b = .ok (decide (a.natAbs = b.natAbs)) ∧
    (∃ r, Integers.euclidean.associateRepr a = .ok r ∧ 0 ≤ r ∧ r.natAbs = a.natAbs) ∧
    (a = 0 → Integers.euclidean.associateCoef a = .panic) ∧
    (a ≠ 0 → ∃ c, Integers.euclidean.associateCoef a = .ok c ∧ (c = 1 ∨ c = -1) ∧
      Integers.euclidean.associateRepr a = .ok (a * c)) := by
  have h := Integers.euclidean_spec
  obtain ⟨h1, h2, h3⟩ := C02_integers_associates a
  refine ⟨decides_false_iff.1 (h.divisible (a := a) (b := b) rfl rfl),
    decides_false_iff.1 ((h.associates (a := a) (b := b) rfl rfl).iff Int.associated_iff_natAbs),
    ⟨|a|, h1, abs_nonneg a, Int.natAbs_abs a⟩, fun h0 => h0 ▸ h3, fun h0 => ⟨_, h2 h0, ?_, ?_⟩⟩
  · rcases lt_or_gt_of_ne h0 with h0 | h0
    · exact .inr (Int.sign_eq_neg_one_of_neg h0)
    · exact .inl (Int.sign_eq_one_of_pos h0)
  · rw [h1, Int.mul_sign_self, Int.abs_eq_natAbs]

example : Integers.euclidean.divisible 3 0 = .ok false ∧
    Integers.euclidean.associates 6 (-6) = .ok true := by
  have h1 := (C07_integers 3 0).1
  have h2 := (C07_integers 6 (-6)).2.1
  exact ⟨h1, h2⟩

/-- C10 for `NN`, `ZZ` and the two-element field, in which `times` is overridden, for all
multipliers. -/
theorem C10_overrides (n : ℕ) (z : ℤ) (x : ℕ) (y : ℤ) (b : Bool) :
    Naturals.semiRing.utimes n x = .ok (n * x) ∧
    Integers.euclidean.utimes n y = .ok (n * y) ∧
    Integers.euclidean.times z y = .ok (z * y) ∧
    Integers.euclidean.int z = .ok z ∧
    TwoElementAlgebra.field.times z b = .ok (decide (z % 2 = 1) && b) ∧
    TwoElementAlgebra.field.int z = .ok (decide (z % 2 = 1)) := by
  obtain ⟨h1, h2, h3⟩ := C02_integers_times z n y
  have hp : (Int.tmod z 2 != 0) = decide (z % 2 = 1) := by
    rw [Bool.eq_iff_iff, bne_iff_ne, decide_eq_true_eq, ne_eq, ← Int.dvd_iff_tmod_eq_zero]
    omega
  refine ⟨rfl, h2, h1, h3, ?_, ?_⟩
  · show Res.ok (b && Int.tmod z 2 != 0) = _
    rw [hp, Bool.and_comm]
  · show Res.ok (true && Int.tmod z 2 != 0) = _
    rw [hp, Bool.true_and]

/-- An odd multiple of `true`. -/
example : TwoElementAlgebra.field.times (-3) true = .ok true :=
  (C10_overrides 0 (-3) 0 0 true).2.2.2.2.1

/-- C10 in the ring of integers modulo `m`, in which `times` is inherited. -/
theorem C10_modular (m : ℕ) (hm : 2 ≤ m) (n : ℕ) (z : ℤ) (hz : z ≠ isizeMin) (a : ℤ)
    (h0 : 0 ≤ a) (h1 : a < m) :
    (QuotientRing.ops Integers.euclidean (m : ℤ)).utimes n a = .ok (n * a % m) ∧
    (QuotientRing.ops Integers.euclidean (m : ℤ)).times z a = .ok (z * a % m) ∧
    (QuotientRing.ops Integers.euclidean (m : ℤ)).int z = .ok (z % m) := by
  have key : ∀ {c : Res ℤ} {u : ℤ} {s : ZMod m}, (u : ZMod m) = s →
      Returns False c (fun (a : ℤ) => 0 ≤ a ∧ a < m ∧ (a : ZMod m) = s) → c = .ok (u % m) := by
    intro c u s hs hc
    obtain ⟨e, rfl, e0, e1, e2⟩ := returns_false_iff.1 hc
    rw [← hs, ZMod.intCast_eq_intCast_iff'] at e2
    rw [← e2, Int.emod_eq_of_lt e0 e1]
  have h := C18_integers m hm
  have ha : 0 ≤ a ∧ a < m ∧ (a : ZMod m) = (a : ZMod m) := ⟨h0, h1, rfl⟩
  refine ⟨key ?_ (h.utimes n ha), key ?_ (h.times z hz ha), key ?_ (h.int z hz)⟩ <;> simp

/-- Minus five times seven modulo twelve. -/
example : (QuotientRing.ops Integers.euclidean 12).times (-5) 7 = .ok 1 := by
  have hz : (-5 : ℤ) ≠ isizeMin := by
    have h : (2 : ℤ) ^ 31 ≤ 2 ^ (Cfg.ptrBits - 1) := by
      have := Cfg.ptrBits_ge
      exact pow_le_pow_right₀ (by norm_num) (by omega)
    unfold isizeMin
    omega
  exact (C10_modular 12 (by decide) 0 (-5) hz 7 (by decide) (by decide)).2.1

end concrete

section powers

variable [Cfg] {E : Type} {mp : Prop} (n : ℤ) (hn : n ≠ isizeMin)

include hn

/-- C08: powers and inverses of permutations. -/
theorem C08_permutations (size : UInt32) {a : List UInt32} {σ : (Equiv.Perm (Fin size.toNat))ᵐᵒᵖ}
    (ha : PermRep a σ) :
    Returns False ((Permutations.ops size).power n a) (PermRep · (σ ^ n)) ∧
    Returns False ((Permutations.ops size).inv a) (PermRep · σ⁻¹) :=
  ⟨(C42_group size).power n hn ha, (C42_group size).inv ha⟩

/-- C08: powers in the additive group are multiples, inverses are negatives. -/
theorem C08_additive_group {R : Type u} [AddCommGroup R] {rep : E → R → Prop} {base : AbelianGroupOps E}
    (h : AbelianGroupSpec mp base rep) {a : E} {x : R} (ha : rep a x) :
    Returns mp ((AdditiveGroup.ops base).power n a) (rep · (n • x)) ∧
    Returns mp ((AdditiveGroup.ops base).inv a) (rep · (-x)) :=
  ⟨((C45_additive_group h).power n hn (x := Multiplicative.ofAdd x) ha).mono fun _ h => h,
    ((C45_additive_group h).inv (x := Multiplicative.ofAdd x) ha).mono fun _ h => h⟩

/-- C08: powers and inverses in the multiplicative group. -/
theorem C08_multiplicative_group {R : Type u} [Monoid R] {rep : E → R → Prop} {base : MonoidOps E}
    (h : MonoidSpec mp base rep) {a : E} {u : Rˣ} (ha : rep a u) :
    Returns mp ((MultiplicativeGroup.ops base).power n a) (rep · (u ^ n : Rˣ)) ∧
    Returns mp ((MultiplicativeGroup.ops base).inv a) (rep · (u⁻¹ : Rˣ)) :=
  ⟨(C44_multiplicative_group h).power n hn ha, (C44_multiplicative_group h).inv ha⟩

/-- C08: powers and inverses of vectors are taken entry by entry. -/
theorem C08_vectors {R : Type u} [Group R] {rep : E → R → Prop} {base : GroupOps E} (len : ℕ)
    (h : GroupSpec mp base rep) {v : List E} {f : Fin len → R} (hv : VecRep rep v f) :
    Returns mp ((VectorAlgebra.group len base).power n v) (VecRep rep · fun i => f i ^ n) ∧
    Returns mp ((VectorAlgebra.group len base).inv v) (VecRep rep · fun i => (f i)⁻¹) :=
  ⟨(C36_group len h).power n hn hv, (C36_group len h).inv hv⟩

/-- C10: multiples of vectors are taken entry by entry, and the image of an integer is the constant
vector. -/
theorem C10_vectors {R : Type u} [Ring R] {rep : E → R → Prop} {base : UnitaryRingOps E} (len : ℕ)
    (h : UnitaryRingSpec mp base rep) {v : List E} {f : Fin len → R} (hv : VecRep rep v f) (k : ℕ) :
    Returns mp ((VectorAlgebra.unitaryRing len base).utimes k v) (VecRep rep · fun i => k * f i) ∧
    Returns mp ((VectorAlgebra.unitaryRing len base).times n v) (VecRep rep · fun i => n * f i) ∧
    Returns mp ((VectorAlgebra.unitaryRing len base).int n) (VecRep rep · fun _ : Fin len => (n : R)) := by
  refine ⟨((C36_unitary_ring len h).utimes k hv).mono fun w hw => ?_,
    ((C36_unitary_ring len h).times n hn hv).mono fun w hw => ?_, (C36_unitary_ring len h).int n hn⟩
  · simpa [nsmul_eq_mul, Pi.smul_def] using hw
  · simpa [zsmul_eq_mul, Pi.smul_def] using hw

/-- C10: the same for matrices over a field; the image of an integer is the scalar matrix. -/
theorem C10_matrices {R : Type u} [Field R] {rep : E → R → Prop} {base : FieldOps E} (m : ℕ)
    (h : FieldSpec mp base rep) {v : List E} {M : Matrix (Fin m) (Fin m) R} (hv : MatRep rep v M)
    (k : ℕ) :
    Returns mp ((MatrixRing.ops base m).utimes k v) (MatRep rep · (Matrix.of fun i j => k * M i j)) ∧
    Returns mp ((MatrixRing.ops base m).times n v) (MatRep rep · (Matrix.of fun i j => n * M i j)) ∧
    Returns mp ((MatrixRing.ops base m).int n)
      (MatRep rep · (Matrix.of fun i j : Fin m => if i = j then (n : R) else 0)) := by
  refine ⟨((C39_matrix_ring m h).utimes k hv).mono fun w hw => ?_,
    ((C39_matrix_ring m h).times n hn hv).mono fun w hw => ?_,
    ((C39_matrix_ring m h).int n hn).mono fun w hw => ?_⟩
  · convert hw using 1
    ext i j
    simp [Matrix.smul_apply]
  · convert hw using 1
    ext i j
    simp [Matrix.smul_apply]
  · convert hw using 1
    ext i j
    rw [← Matrix.diagonal_intCast' (n : ℤ)]
    simp [Matrix.diagonal]

/-- C10: the same for polynomials over an abelian group; the coefficients that become zero at the end
are dropped. -/
theorem C10_polynomials {R : Type u} [AddCommGroup R] {rep : E → R → Prop} {base : AbelianGroupOps E}
    (h : AbelianGroupSpec mp base rep) {v : List E} {f : ℕ → R}
    (hv : ∀ i (hi : i < v.length), rep v[i] (f i)) (h0 : ∀ i, v.length ≤ i → f i = 0)
    (hl : v ≠ [] → f (v.length - 1) ≠ 0) (k : ℕ) :
    (Returns mp ((PolynomialAlgebra.abelianGroup base).utimes k v) fun w =>
      (∀ i (hi : i < w.length), rep w[i] (k • f i)) ∧ (∀ i, w.length ≤ i → k • f i = 0) ∧
      (w ≠ [] → k • f (w.length - 1) ≠ 0)) ∧
    Returns mp ((PolynomialAlgebra.abelianGroup base).times n v) fun w =>
      (∀ i (hi : i < w.length), rep w[i] (n • f i)) ∧ (∀ i, w.length ≤ i → n • f i = 0) ∧
      (w ≠ [] → n • f (w.length - 1) ≠ 0) := by
  classical
  let g : ℕ →₀ R := Finsupp.onFinset (Finset.range v.length) f fun i hi => by
    by_contra hc
    exact hi (h0 i (by simpa using hc))
  exact ⟨((C29_polynomial_group h).utimes k (x := g) ⟨hv, h0, hl⟩).mono fun w hw => hw,
    ((C29_polynomial_group h).times n hn (x := g) ⟨hv, h0, hl⟩).mono fun w hw => hw⟩

end powers

/-- Minus three times five, in the additive group of `ZZ`, and the inverse cube of `-1` in the
multiplicative one. -/
example [Cfg] : (AdditiveGroup.ops Integers.unitaryRing.toAbelianGroupOps).power (-3) 5 = .ok (-15) ∧
    (MultiplicativeGroup.ops Integers.unitaryRing.toMonoidOps).power (-3) (-1) = .ok (-1) := by
  have hn : (-3 : ℤ) ≠ isizeMin := by
    have : (2 : ℤ) ^ 31 ≤ 2 ^ (Cfg.ptrBits - 1) := by
      exact_mod_cast Nat.pow_le_pow_right (by decide) (by have := Cfg.ptrBits_ge; omega)
    simp only [isizeMin]
    omega
  obtain ⟨c, h1, h2⟩ := returns_false_iff.1 (C08_additive_group (-3) hn
    Integers.unitaryRing_spec.toAbelianGroupSpec (show ZRep 5 5 from rfl)).1
  obtain ⟨d, h3, h4⟩ := returns_false_iff.1 (C08_multiplicative_group (-3) hn
    Integers.unitaryRing_spec.toMonoidSpec (u := (-1 : ℤˣ)) (show ZRep (-1) ((-1 : ℤˣ) : ℤ) from rfl)).1
  exact ⟨by rw [h1, show c = -15 from h2], by rw [h3, show d = -1 from h4]⟩

/-- Minus three times a vector and a polynomial over `ZZ`, and three times a polynomial over the integers
modulo `6`, whose leading term disappears. -/
example [Cfg] : (VectorAlgebra.unitaryRing 2 Integers.unitaryRing).times (-3) [5, -1] = .ok [-15, 3] ∧
    (PolynomialAlgebra.abelianGroup Integers.unitaryRing.toAbelianGroupOps).times (-3) [5, -1] =
      .ok [-15, 3] ∧
    (PolynomialAlgebra.abelianGroup
      (QuotientRing.ops Integers.euclidean (6 : ℤ)).toAbelianGroupOps).times 3 [1, 1, 2] =
      .ok [3, 3] := by
  have hn : (-3 : ℤ) ≠ isizeMin := by
    have : (2 : ℤ) ^ 31 ≤ 2 ^ (Cfg.ptrBits - 1) := by
      exact_mod_cast Nat.pow_le_pow_right (by decide) (by have := Cfg.ptrBits_ge; omega)
    simp only [isizeMin]
    omega
  refine ⟨?_, rfl, ?_⟩
  · obtain ⟨c, h1, h2, h3⟩ := returns_false_iff.1 (C10_vectors (-3) hn 2 Integers.unitaryRing_spec
      (v := [5, -1]) (f := ![5, -1]) ⟨rfl, fun i => by fin_cases i <;> rfl⟩ 0).2.1
    match c, h2, h3 with
    | [x, y], _, h3 =>
      rw [h1, show x = -15 from h3 0, show y = 3 from h3 1]
  · have h : ∀ a : ℤ, 0 ≤ a → a < 6 →
        (QuotientRing.ops Integers.euclidean (6 : ℤ)).times 3 a = .ok (3 * a % 6) := fun a h1 h2 =>
      (C10_modular 6 (by decide) 0 3 (by have := isizeMin_neg; omega) a h1 h2).2.1
    have h1 := h 1 (by decide) (by decide)
    have h2 := h 2 (by decide) (by decide)
    simp only [PolynomialAlgebra.abelianGroup, mapRes, h1, h2, Res.bind, bind]
    rfl

end Abstalg
