import Verif.Proofs.OverrideSpecs
import Verif.Props.Floats
import Verif.Props.Quotient
import Verif.Props.Groups
import Verif.Proofs.SimTraits
import Verif.Proofs.OrderPower
import Verif.Props.Vectors

/-! # Overridden default methods: C83 -/

set_option linter.unusedSectionVars false

set_option autoImplicit false

universe u

namespace Abstalg

variable {E : Type}

/-- C83: every overridden method of `NN` computes what the default method would. -/
theorem C83_naturals : Naturals.semiRing.withDefaults = Naturals.semiRing := by
  apply SemiRingOps.ext <;> try rfl
  · funext a
    exact congrArg Res.ok (mul_two a).symm
  · funext n x
    refine (utimes_exact_default n x).trans ?_
    rw [nsmul_eq_mul]
    rfl
  · funext a
    show ((if a == 1 then Res.ok (some 1) else .ok none) >>= fun o => pure o.isSome) = Res.ok (a == 1)
    cases a == 1 <;> rfl

/-- C83: doubling and adding gives 6 times 7. -/
example : Naturals.semiRing.withDefaults.utimes 6 7 = .ok 42 := by
  rw [C83_naturals]; rfl

/-- C83: every overridden method of the unsigned machine integers computes what the default method
would, and panics where it would. -/
theorem C83_checked_uints (w : ℕ) [UWidth w] :
    (CheckedUints.semiRing w).withDefaults = CheckedUints.semiRing w := by
  apply SemiRingOps.ext <;> try rfl
  · funext a
    show ((if a == CheckedUints.c1 w then Res.ok (some (CheckedUints.c1 w)) else .ok none) >>=
      fun o => pure o.isSome) = Res.ok (a == CheckedUints.c1 w)
    cases a == CheckedUints.c1 w <;> rfl

/-- C83: in 8 bits the default `invertible` at 1 and at 2. -/
example : (CheckedUints.semiRing 8).withDefaults.invertible ⟨1, by decide⟩ = .ok true ∧
    (CheckedUints.semiRing 8).withDefaults.invertible ⟨2, by decide⟩ = .ok false := by
  rw [C83_checked_uints]; exact ⟨rfl, rfl⟩

/-- C83: the order methods of the two-element algebra. -/
theorem C83_two_element_order :
    TwoElementAlgebra.booleanAlgebra.withDefaults = TwoElementAlgebra.booleanAlgebra := by
  apply BooleanAlgebraOps.ext <;> try rfl
  · funext a b
    cases a <;> cases b <;> rfl
  · funext a b
    cases a <;> cases b <;> rfl

/-- C83: `false < true` but not `true < true`. -/
example : TwoElementAlgebra.booleanAlgebra.withDefaults.lessThan false true = .ok true ∧
    TwoElementAlgebra.booleanAlgebra.withDefaults.lessThan true true = .ok false := by
  rw [C83_two_element_order]; exact ⟨rfl, rfl⟩

variable [Cfg]

/-- C83: every overridden method of `ZZ` but `times` (and `int`, which calls it) computes what the
default method would. -/
theorem C83_integers :
    { Integers.euclidean.withDefaults with
      times := Integers.euclidean.times, int := Integers.euclidean.int } = Integers.euclidean := by
  have hinv : Integers.euclidean.withDefaults.invertible = Integers.euclidean.invertible := by
    funext a
    show ((Integers.invertible a >>= fun b => if b then pure (some a) else pure none) >>=
      fun o => pure o.isSome) = Integers.invertible a
    unfold Integers.invertible
    cases (a == 1 || -a == 1) <;> rfl
  have hsub : Integers.euclidean.withDefaults.sub = Integers.euclidean.sub := by
    funext a b
    refine congrArg Res.ok (?_ : -b + a = a - b)
    ring
  have hdiv : Integers.euclidean.withDefaults.divisible = Integers.euclidean.divisible := by
    funext a b
    show (if (b == 0) = true then Res.ok (a == 0) else
      Integers.euclidean.tryDiv a b >>= fun o => pure o.isSome) =
      if (b == 0) = true then Res.ok (a == 0) else Res.ok (Int.tmod a b == 0)
    by_cases hb : b = 0
    · simp [hb]
    · have h : (b == 0) = false := by simpa using hb
      have h1 : Integers.euclidean.tryDiv a b =
        (if Int.tmod a b == 0 then pure (some (Int.tdiv a b)) else pure none) := by
        show (Res.assert (!(b == 0)) >>= fun _ => _) = _
        rw [h]
        rfl
      rw [h1, h]
      cases (Int.tmod a b == 0) <;> rfl
  apply EuclideanDomainOps.ext <;> try rfl
  · funext a
    exact congrArg Res.ok (mul_two a).symm
  · funext n x
    refine (utimes_exact_default n x).trans ?_
    rw [nsmul_eq_mul]
    rfl
  · exact hinv
  · exact hsub
  · exact hdiv
  · show (fun a b => Integers.euclidean.withDefaults.divisible a b >>= fun c => if c then
      Integers.euclidean.withDefaults.divisible b a else pure false) = _
    rw [hdiv]
    rfl
  · funext a b
    show (if (b == 0) = true then Res.ok true else
      (Integers.euclidean.quoRem a b >>= fun p => pure p.1) >>= fun q => Res.ok (q == 0)) =
      if (b == 0) = true then Res.ok true else _
    by_cases hb : b = 0
    · simp [hb]
    · have h : (b == 0) = false := by simpa using hb
      rw [Integers.quoRem_eq a b hb, h]
      refine congrArg Res.ok (?_ : (a / b == 0) = (!decide (a < 0) && decide (a < (b.natAbs : ℤ))))
      rw [Bool.eq_iff_iff]
      simp only [beq_iff_eq, Bool.and_eq_true, Bool.not_eq_true', decide_eq_false_iff_not, not_lt,
        decide_eq_true_eq]
      have h1 := Int.mul_ediv_add_emod a b
      have h2 := Int.emod_nonneg a hb
      have h3 := Int.emod_lt_abs a hb
      rw [← Int.abs_eq_natAbs]
      constructor
      · intro h4
        rw [h4] at h1
        omega
      · rintro ⟨h4, h5⟩
        exact Int.ediv_eq_zero_of_lt_abs h4 h5
  · show extendedGcdDefault _ _ _ _ Integers.euclidean.withDefaults.sub _ = _
    rw [hsub]
    rfl
  · show (fun a b => Integers.euclidean.withDefaults.gcd a b >>= fun g =>
      Integers.euclidean.withDefaults.invertible g) = _
    rw [hinv]
    rfl

/-- C83: the default of `reduced` at 7 and -8. -/
example : Integers.euclidean.withDefaults.reduced 7 (-8) = .ok true := by
  have h := congrArg (fun A : EuclideanDomainOps ℤ => A.reduced 7 (-8)) C83_integers
  exact h.trans rfl

/-- C83: the default `times` of `ZZ` would differ from the overriding method at the multiplier
`isize::MIN` only: there it panics in a debug build and is zero in a release build. -/
theorem C83_integers_times (n x : ℤ) :
    (n ≠ isizeMin → Integers.euclidean.withDefaults.times n x = Integers.euclidean.times n x ∧
      Integers.euclidean.withDefaults.int n = Integers.euclidean.int n) ∧
    (Cfg.overflowChecks = true → Integers.euclidean.withDefaults.times isizeMin x = .panic) ∧
    (Cfg.overflowChecks = false → Integers.euclidean.withDefaults.times isizeMin x = .ok 0) ∧
    Integers.euclidean.times isizeMin x = .ok (isizeMin * x) := by
  refine ⟨fun hn => ⟨?_, ?_⟩, fun hc => ?_, fun hc => ?_, rfl⟩
  · refine (times_exact_default n hn x).trans ?_
    rw [zsmul_eq_mul]
    rfl
  · refine (times_exact_default n hn (1 : ℤ)).trans ?_
    rw [zsmul_eq_mul]
    rfl
  · exact C09_times_min_checked Integers.euclidean.withDefaults.toCommutativeMonoidOps _ hc x
  · exact C09_times_min_unchecked Integers.euclidean.withDefaults.toCommutativeMonoidOps _ hc x (-x) rfl

/-- Both multiples of 7 by -5 are -35. -/
example (h : (-5 : ℤ) ≠ isizeMin) : Integers.euclidean.withDefaults.times (-5) 7 = .ok (-35) :=
  ((C83_integers_times (-5) 7).1 h).1

section members

variable {R : Type u} {rep : E → R → Prop} {mp : Prop} {a b : E} {x y : R}

/-- C83: a type meeting the contract of `trait Group` meets it also without its overrides. -/
theorem C83_group_contract [Group R] {A : GroupOps E} (h : GroupSpec mp A rep) :
    GroupSpec mp A.withDefaults rep := h.withDefaults

/-- C83: the additive group of the integers. -/
example : GroupSpec False (AdditiveGroup.ops Integers.euclidean.toAbelianGroupOps).withDefaults
    (fun a (x : Multiplicative ℤ) => ZRep a x.toAdd) :=
  C83_group_contract (C45_additive_group Integers.unitaryRing_spec.toAbelianGroupSpec)

/-- C83: likewise for `trait SemiRing`. -/
theorem C83_semiring_contract [Semiring R] {A : SemiRingOps E} (h : SemiRingSpec mp A rep) :
    SemiRingSpec mp A.withDefaults rep := h.withDefaults

example : SemiRingSpec False Naturals.semiRing.withDefaults NRep :=
  C83_semiring_contract Naturals.semiRing_spec

/-- C83: likewise for `trait AbelianGroup`. -/
theorem C83_abelian_group_contract [AddCommGroup R] {A : AbelianGroupOps E}
    (h : AbelianGroupSpec mp A rep) : AbelianGroupSpec mp A.withDefaults rep := h.withDefaults

example : AbelianGroupSpec True (CheckedInts.unitaryRing 16).toAbelianGroupOps.withDefaults (SRep 16) :=
  C83_abelian_group_contract (CheckedInts.unitaryRing_spec 16).toAbelianGroupSpec

/-- C83: likewise for `trait UnitaryRing`. -/
theorem C83_unitary_ring_contract [Ring R] {A : UnitaryRingOps E}
    (h : UnitaryRingSpec mp A rep) : UnitaryRingSpec mp A.withDefaults rep := h.withDefaults

/-- C83: vectors of three integers. -/
example : UnitaryRingSpec False (VectorAlgebra.unitaryRing 3 Integers.unitaryRing).withDefaults
    (VecRep (n := 3) ZRep) :=
  C83_unitary_ring_contract (C36_unitary_ring 3 Integers.unitaryRing_spec)

/-- C83: likewise for `trait EuclideanDomain`. -/
theorem C83_euclidean_contract [EuclideanDomain R] [NormalizationMonoid R] {A : EuclideanDomainOps E}
    (h : EuclideanSpec mp A rep) : EuclideanSpec mp A.withDefaults rep := h.withDefaults

/-- C83: 32-bit integers. -/
example : EuclideanSpec True (CheckedInts.euclidean 32).withDefaults (SRep 32) :=
  C83_euclidean_contract (CheckedInts.euclidean_spec 32)

/-- C83: likewise for `trait Field`. -/
theorem C83_field_contract [Field R] {A : FieldOps E} (h : FieldSpec mp A rep) :
    FieldSpec mp A.withDefaults rep := h.withDefaults

example : FieldSpec False QuotientField.GF3.withDefaults
    fun (a : SInt 8) (s : ZMod 3) => 0 ≤ a.1 ∧ a.1 < 3 ∧ (a.1 : ZMod 3) = s :=
  C83_field_contract C24_GF3

/-- C83: in a group without panics whose elements are represented uniquely, every overridden method
returns on members the very object that the default method returns. -/
theorem C83_group_members [Group R] {A : GroupOps E} (h : GroupSpec False A rep)
    (hu : ∀ {a b x}, rep a x → rep b x → a = b) (ha : rep a x) (hb : rep b y) :
    A.withDefaults.mulAssign a b = A.mulAssign a b ∧ A.withDefaults.square a = A.square a ∧
    A.withDefaults.isOne a = A.isOne a ∧ A.withDefaults.invertible a = A.invertible a ∧
    A.withDefaults.inv a = A.inv a ∧
    ∀ n, n ≠ isizeMin → A.withDefaults.power n a = A.power n a := by
  have h' := h.withDefaults
  exact ⟨returns_eq (rep := rep) hu (h'.mulAssign ha hb) (h.mulAssign ha hb), returns_eq (rep := rep) hu (h'.square ha) (h.square ha),
    decides_eq (h'.isOne ha) (h.isOne ha), decides_eq (h'.invertible ha) (h.invertible ha),
    returns_eq (rep := rep) hu (h'.inv ha) (h.inv ha),
    fun n hn => returns_eq (rep := rep) hu (h'.power n hn ha) (h.power n hn ha)⟩

/-- C83: in the additive group of the integers the default inverse of 5 is the overriding one. -/
example : (AdditiveGroup.ops Integers.euclidean.toAbelianGroupOps).withDefaults.inv 5 = .ok (-5) :=
  (C83_group_members (rep := fun a (x : Multiplicative ℤ) => ZRep a x.toAdd)
    (C45_additive_group Integers.unitaryRing_spec.toAbelianGroupSpec)
    (by rintro a b x rfl rfl; rfl) (a := 5) (b := 5) (x := Multiplicative.ofAdd 5)
    (y := Multiplicative.ofAdd 5) rfl rfl).2.2.2.2.1

/-- C83: likewise in a semiring. -/
theorem C83_semiring_members [Semiring R] {A : SemiRingOps E} (h : SemiRingSpec False A rep)
    (hu : ∀ {a b x}, rep a x → rep b x → a = b) (ha : rep a x) (hb : rep b y) :
    A.withDefaults.mulAssign a b = A.mulAssign a b ∧ A.withDefaults.square a = A.square a ∧
    A.withDefaults.isOne a = A.isOne a ∧ A.withDefaults.invertible a = A.invertible a ∧
    A.withDefaults.isZero a = A.isZero a ∧ A.withDefaults.addAssign a b = A.addAssign a b ∧
    A.withDefaults.double a = A.double a ∧ ∀ n, A.withDefaults.utimes n a = A.utimes n a := by
  have h' := h.withDefaults
  exact ⟨returns_eq (rep := rep) hu (h'.mulAssign ha hb) (h.mulAssign ha hb), returns_eq (rep := rep) hu (h'.square ha) (h.square ha),
    decides_eq (h'.isOne ha) (h.isOne ha), decides_eq (h'.invertible ha) (h.invertible ha),
    decides_eq (h'.isZero ha) (h.isZero ha), returns_eq (rep := rep) hu (h'.addAssign ha hb) (h.addAssign ha hb),
    returns_eq (rep := rep) hu (h'.double ha) (h.double ha), fun n => returns_eq (rep := rep) hu (h'.utimes n ha) (h.utimes n ha)⟩

/-- C83: the default `is_one` of vectors of two natural numbers. -/
example : (VectorAlgebra.semiRing 2 Naturals.semiRing).withDefaults.isOne [1, 1] = .ok true :=
  (C83_semiring_members (rep := VecRep (n := 2) NRep) (C36_semi_ring 2 Naturals.semiRing_spec)
    (vecRep_unique (by rintro a b x rfl rfl; rfl)) (a := [1, 1]) (b := [1, 1]) (x := ![1, 1]) (y := ![1, 1])
    ⟨rfl, by intro i; fin_cases i <;> rfl⟩ ⟨rfl, by intro i; fin_cases i <;> rfl⟩).2.2.1.trans rfl

/-- C83: likewise in an abelian group. -/
theorem C83_abelian_group_members [AddCommGroup R] {A : AbelianGroupOps E} (h : AbelianGroupSpec False A rep)
    (hu : ∀ {a b x}, rep a x → rep b x → a = b) (ha : rep a x) (hb : rep b y) :
    A.withDefaults.isZero a = A.isZero a ∧ A.withDefaults.addAssign a b = A.addAssign a b ∧
    A.withDefaults.double a = A.double a ∧ (∀ n, A.withDefaults.utimes n a = A.utimes n a) ∧
    A.withDefaults.negAssign a = A.negAssign a ∧ A.withDefaults.sub a b = A.sub a b ∧
    A.withDefaults.subAssign a b = A.subAssign a b ∧
    ∀ n, n ≠ isizeMin → A.withDefaults.times n a = A.times n a := by
  have h' := h.withDefaults
  exact ⟨decides_eq (h'.isZero ha) (h.isZero ha), returns_eq (rep := rep) hu (h'.addAssign ha hb) (h.addAssign ha hb),
    returns_eq (rep := rep) hu (h'.double ha) (h.double ha), fun n => returns_eq (rep := rep) hu (h'.utimes n ha) (h.utimes n ha),
    returns_eq (rep := rep) hu (h'.negAssign ha) (h.negAssign ha), returns_eq (rep := rep) hu (h'.sub ha hb) (h.sub ha hb),
    returns_eq (rep := rep) hu (h'.subAssign ha hb) (h.subAssign ha hb),
    fun n hn => returns_eq (rep := rep) hu (h'.times n hn ha) (h.times n hn ha)⟩

/-- C83: differences of vectors of two integers. -/
example : (VectorAlgebra.unitaryRing 2 Integers.unitaryRing).toAbelianGroupOps.withDefaults.sub [5, 1] [2, 7] =
    .ok [3, -6] :=
  (C83_abelian_group_members (rep := VecRep (n := 2) ZRep)
    (C36_unitary_ring 2 Integers.unitaryRing_spec).toAbelianGroupSpec
    (vecRep_unique (by rintro a b x rfl rfl; rfl)) (a := [5, 1]) (b := [2, 7]) (x := ![5, 1]) (y := ![2, 7])
    ⟨rfl, by intro i; fin_cases i <;> rfl⟩ ⟨rfl, by intro i; fin_cases i <;> rfl⟩).2.2.2.2.2.1.trans rfl

/-- C83: `int` in a unitary ring; its other methods are covered by the two preceding theorems. -/
theorem C83_unitary_ring_members [Ring R] {A : UnitaryRingOps E} (h : UnitaryRingSpec False A rep)
    (hu : ∀ {a b x}, rep a x → rep b x → a = b) (n : ℤ) (hn : n ≠ isizeMin) :
    A.withDefaults.toSemiRingOps = A.toSemiRingOps.withDefaults ∧
    A.withDefaults.toAbelianGroupOps = A.toAbelianGroupOps.withDefaults ∧
    A.withDefaults.int n = A.int n :=
  ⟨rfl, rfl, returns_eq (rep := rep) hu (h.withDefaults.int n hn) (h.int n hn)⟩

/-- C83: `int` of vectors of two integers. -/
example (h : (3 : ℤ) ≠ isizeMin) :
    (VectorAlgebra.unitaryRing 2 Integers.unitaryRing).withDefaults.int 3 = .ok [3, 3] :=
  (C83_unitary_ring_members (rep := VecRep (n := 2) ZRep) (C36_unitary_ring 2 Integers.unitaryRing_spec)
    (vecRep_unique (by rintro a b x rfl rfl; rfl)) 3 h).2.2.trans rfl

/-- C83: division and powers in a field. -/
theorem C83_field_members [Field R] {A : FieldOps E} (h : FieldSpec False A rep)
    (hu : ∀ {a b x}, rep a x → rep b x → a = b) (ha : rep a x) (hb : rep b y) :
    A.withDefaults.toUnitaryRingOps = A.toUnitaryRingOps.withDefaults ∧
    A.withDefaults.div a b = A.div a b ∧
    ∀ n, n ≠ isizeMin → A.withDefaults.power n a = A.power n a := by
  have h' := h.withDefaults
  refine ⟨rfl, ?_, fun n hn => ?_⟩
  · by_cases hy : y = 0
    · subst hy
      exact (h'.div_zero ha hb).trans (h.div_zero ha hb).symm
    · exact returns_eq (rep := rep) hu (h'.div ha hb hy) (h.div ha hb hy)
  · by_cases hx : x = 0
    · subst hx
      exact returns_eq (rep := rep) hu (h'.power_zero n ha) (h.power_zero n ha)
    · exact returns_eq (rep := rep) hu (h'.power n hn ha hx) (h.power n hn ha hx)

/-- C83: in the field with three elements 1/2 is 2. -/
example : QuotientField.GF3.withDefaults.div (SInt.lit 1 (by decide)) (SInt.lit 2 (by decide)) =
    QuotientField.GF3.div (SInt.lit 1 (by decide)) (SInt.lit 2 (by decide)) :=
  (C83_field_members C24_GF3 (by
      rintro a b x ⟨h1, h2, rfl⟩ ⟨h3, h4, h5⟩
      have h6 := (ZMod.intCast_eq_intCast_iff_dvd_sub _ _ 3).1 h5
      exact Subtype.ext (by omega))
    (x := 1) (y := 2) ⟨by decide, by decide, rfl⟩ ⟨by decide, by decide, rfl⟩).2.1

/-- C83: the methods of a Euclidean domain; greatest common divisors and least common multiples may
differ by a unit. -/
theorem C83_euclidean_members [EuclideanDomain R] [NormalizationMonoid R] {A : EuclideanDomainOps E}
    (h : EuclideanSpec False A rep)
    (hu : ∀ {a b x}, rep a x → rep b x → a = b) (ha : rep a x) (hb : rep b y) :
    A.withDefaults.toUnitaryRingOps = A.toUnitaryRingOps.withDefaults ∧
    A.withDefaults.divisible a b = A.divisible a b ∧ A.withDefaults.associates a b = A.associates a b ∧
    A.withDefaults.quo a b = A.quo a b ∧ A.withDefaults.rem a b = A.rem a b ∧
    A.withDefaults.reduced a b = A.reduced a b ∧
    A.withDefaults.relativePrimes a b = A.relativePrimes a b ∧
    (∃ c d g g', A.withDefaults.gcd a b = .ok c ∧ A.gcd a b = .ok d ∧ rep c g ∧ rep d g' ∧ Associated g g') ∧
    (∃ c d m m', A.withDefaults.lcm a b = .ok c ∧ A.lcm a b = .ok d ∧ rep c m ∧ rep d m' ∧ Associated m m') := by
  have h' := h.withDefaults
  refine ⟨rfl, decides_eq (h'.divisible ha hb) (h.divisible ha hb),
    decides_eq (h'.associates ha hb) (h.associates ha hb), ?_, ?_,
    decides_eq (h'.reduced ha hb) (h.reduced ha hb),
    decides_eq (h'.relativePrimes ha hb) (h.relativePrimes ha hb), ?_, ?_⟩
  · by_cases hy : y = 0
    · subst hy
      exact (h'.quo_zero ha hb).trans (h.quo_zero ha hb).symm
    · exact returns_eq (rep := rep) hu (h'.quo ha hb hy) (h.quo ha hb hy)
  · by_cases hy : y = 0
    · subst hy
      exact (h'.rem_zero ha hb).trans (h.rem_zero ha hb).symm
    · exact returns_eq (rep := rep) hu (h'.rem ha hb hy) (h.rem ha hb hy)
  · obtain ⟨c, h1, g, h2, h3⟩ := returns_false_iff.1 (h'.gcd ha hb)
    obtain ⟨d, h4, g', h5, h6⟩ := returns_false_iff.1 (h.gcd ha hb)
    exact ⟨c, d, g, g', h1, h4, h2, h5, associated_of_dvd_dvd (h6.2.2 g h3.1 h3.2.1) (h3.2.2 g' h6.1 h6.2.1)⟩
  · obtain ⟨c, h1, g, h2, h3⟩ := returns_false_iff.1 (h'.lcm ha hb)
    obtain ⟨d, h4, g', h5, h6⟩ := returns_false_iff.1 (h.lcm ha hb)
    exact ⟨c, d, g, g', h1, h4, h2, h5, associated_of_dvd_dvd (h3.2.2 g' h6.1 h6.2.1) (h6.2.2 g h3.1 h3.2.1)⟩

/-- C83: in the field with two elements as a Euclidean domain. -/
example : TwoElementAlgebra.field.toEuclidean.withDefaults.quo true true = .ok true :=
  (C83_euclidean_members C46_two_euclidean (by
      intro a b x h1 h2
      cases a <;> cases b <;> first | rfl | (subst h1; exact absurd h2 (by decide)))
    (a := true) (b := true) (x := 1) (y := 1) rfl rfl).2.2.2.1.trans rfl

end members

/-- C83: the overridden methods of the two-element field compute what the default methods would,
except that the defaults of `times` and `power` panic in a debug build when negating `isize::MIN`. -/
theorem C83_two_element_field :
    { TwoElementAlgebra.field.withDefaults with
      times := TwoElementAlgebra.field.times, int := TwoElementAlgebra.field.int,
      power := TwoElementAlgebra.field.power } = TwoElementAlgebra.field ∧
    ∀ (n : ℤ) (a : Bool),
      (n ≠ isizeMin ∨ Cfg.overflowChecks = false →
        TwoElementAlgebra.field.withDefaults.times n a = TwoElementAlgebra.field.times n a ∧
        TwoElementAlgebra.field.withDefaults.int n = TwoElementAlgebra.field.int n ∧
        TwoElementAlgebra.field.withDefaults.power n a = TwoElementAlgebra.field.power n a) ∧
      (Cfg.overflowChecks = true →
        TwoElementAlgebra.field.withDefaults.times isizeMin a = .panic ∧
        TwoElementAlgebra.field.withDefaults.int isizeMin = .panic ∧
        TwoElementAlgebra.field.withDefaults.power isizeMin true = .panic ∧
        TwoElementAlgebra.field.withDefaults.power isizeMin false = .ok false) := by
  have hu : ∀ {a b : Bool} {x : ZMod 2}, (x = if a then 1 else 0) → (x = if b then 1 else 0) → a = b := by
    intro a b x h1 h2
    cases a <;> cases b <;> first | rfl | (subst h1; exact absurd h2 (by decide))
  have hpar : Int.tmod isizeMin 2 = 0 := by
    have h2 : (2 : ℤ) ∣ isizeMin := by
      obtain ⟨k, hk⟩ : ∃ k, Cfg.ptrBits - 1 = k + 1 := ⟨Cfg.ptrBits - 2, by have := Cfg.ptrBits_ge; omega⟩
      unfold isizeMin
      rw [hk, pow_succ]
      exact ⟨-2 ^ k, by ring⟩
    exact Int.tmod_eq_zero_of_dvd h2
  refine ⟨?_, fun n a => ⟨fun h => ?_, fun hc => ⟨?_, ?_, ?_, rfl⟩⟩⟩
  · have hd : (fun a : Bool => Res.ok (a ^^ a)) = fun _ => .ok false := by
      funext a; cases a <;> rfl
    apply FieldOps.ext <;> try rfl
    · funext a; cases a <;> rfl
    · funext a; cases a <;> rfl
    · funext n a
      exact congrArg (fun d => timesLoop (fun a b : Bool => Res.ok (a ^^ b)) d n false a) hd
    · funext a; cases a <;> rfl
    · funext a; cases a <;> rfl
    · funext a; cases a <;> rfl
    · funext a b; cases a <;> cases b <;> rfl
    · funext a b; cases a <;> cases b <;> rfl
  · by_cases hn : n = isizeMin
    · have hc := h.resolve_left (fun h' => h' hn)
      subst hn
      refine ⟨?_, ?_, ?_⟩
      · refine (C09_times_min_unchecked TwoElementAlgebra.field.withDefaults.toCommutativeMonoidOps _ hc
          a a rfl).trans ?_
        show Res.ok false = .ok (a && Int.tmod isizeMin 2 != 0)
        rw [hpar]; simp
      · refine (C09_times_min_unchecked TwoElementAlgebra.field.withDefaults.toCommutativeMonoidOps _ hc
          true true rfl).trans ?_
        show Res.ok false = .ok (true && Int.tmod isizeMin 2 != 0)
        rw [hpar]; simp
      · cases a
        · rfl
        · exact C09_field_power_min_unchecked (C46_two_field.withDefaults.toUnitaryRingSpec) hc
            (x := 1) rfl one_ne_zero
    · exact ⟨(C83_abelian_group_members C46_two_field.toAbelianGroupSpec hu (a := a) (b := a) rfl rfl).2.2.2.2.2.2.2 n hn,
        (C83_unitary_ring_members C46_two_field.toUnitaryRingSpec hu n hn).2.2,
        (C83_field_members C46_two_field hu (a := a) (b := a) rfl rfl).2.2 n hn⟩
  · exact C09_times_min_checked TwoElementAlgebra.field.withDefaults.toCommutativeMonoidOps _ hc a
  · exact C09_times_min_checked TwoElementAlgebra.field.withDefaults.toCommutativeMonoidOps _ hc true
  · exact C09_field_power_min_checked (C46_two_field.withDefaults.toUnitaryRingSpec) hc
            (x := 1) rfl one_ne_zero

/-- C83: the default difference of true and true, and the default fifth power of true on a 64-bit machine. -/
example : TwoElementAlgebra.field.withDefaults.sub true true = .ok false ∧
    @FieldOps.power ⟨true, true, 64, by decide⟩ _
      (@FieldOps.withDefaults _ ⟨true, true, 64, by decide⟩
        (@TwoElementAlgebra.field ⟨true, true, 64, by decide⟩)) 5 true = .ok true := by
  refine ⟨rfl, ?_⟩
  let _ : Cfg := ⟨true, true, 64, by decide⟩
  exact (C83_two_element_field.2 5 true).1 (.inl (by decide)) |>.2.2

/-- C83: signed machine integers. -/
theorem C83_checked_ints (w : ℕ) [Width w] :
    { (CheckedInts.euclidean w).withDefaults with
      sub := (CheckedInts.euclidean w).sub
      times := (CheckedInts.euclidean w).times
      int := (CheckedInts.euclidean w).int
      reduced := (CheckedInts.euclidean w).reduced
      extendedGcd := (CheckedInts.euclidean w).extendedGcd } = CheckedInts.euclidean w := by
  have hi : (CheckedInts.euclidean w).withDefaults.invertible = (CheckedInts.euclidean w).invertible := by
    funext a
    show (do return ((← (CheckedInts.euclidean w).tryInv a)).isSome) = CheckedInts.invertible w a
    unfold CheckedInts.euclidean
    show (do return ((← (do if ← CheckedInts.invertible w a then return some a else return none))).isSome) = _
    unfold CheckedInts.invertible
    rw [ok_bind]
    cases a == CheckedInts.c1 w || a == CheckedInts.cm1 w <;> rfl
  apply EuclideanDomainOps.ext <;> try rfl
  · exact hi
  · funext a b
    exact congrArg (fun i => (CheckedInts.euclidean w).gcd a b >>= i) hi

/-- C83: in 8 bits the default of `relative_primes` at 12 and 35. -/
example : (CheckedInts.euclidean 8).withDefaults.relativePrimes (SInt.lit 12 (by decide)) (SInt.lit 35 (by decide)) =
    (CheckedInts.euclidean 8).relativePrimes (SInt.lit 12 (by decide)) (SInt.lit 35 (by decide)) := by
  have h := congrArg (fun A : EuclideanDomainOps (SInt 8) =>
    A.relativePrimes (SInt.lit 12 (by decide)) (SInt.lit 35 (by decide))) (C83_checked_ints 8)
  exact h

/-- C83: the default of `sub` would negate first, and so panic at `MIN`. -/
theorem C83_checked_ints_sub (w : ℕ) [Width w] (a b : SInt w) :
    (CheckedInts.euclidean w).withDefaults.sub a b =
      if b.1 = sMin w then .panic else (CheckedInts.euclidean w).sub a b := by
  have h1 : (CheckedInts.euclidean w).withDefaults.sub a b = (CheckedInts.unitaryRing w).subAssign a b := by
    show ((CheckedInts.unitaryRing w).neg b >>= fun e => Res.unwrap (SInt.ofInt? (e.1 + a.1))) =
      ((CheckedInts.unitaryRing w).neg b >>= fun e => Res.unwrap (SInt.ofInt? (a.1 + e.1)))
    simp only [add_comm]
  rw [h1]
  split
  · next h => exact ((C53_checked_ints_sub w a b).2 h).1
  · next h => exact (C53_checked_ints_sub w a b).1 h

/-- C83: in 8 bits the difference of -1 and -128 is 127; the default would panic. -/
example : (CheckedInts.euclidean 8).withDefaults.sub (SInt.lit (-1) (by decide)) (SInt.lit (-128) (by decide)) = .panic ∧
    (CheckedInts.euclidean 8).sub (SInt.lit (-1) (by decide)) (SInt.lit (-128) (by decide)) =
      .ok (SInt.lit 127 (by decide)) :=
  ⟨(C83_checked_ints_sub 8 _ _).trans (if_pos (by decide)), rfl⟩

/-- C83: the default of `reduced` would divide, and so panic at `MIN` and -1. -/
theorem C83_checked_ints_reduced (w : ℕ) [Width w] (a b : SInt w) :
    (CheckedInts.euclidean w).withDefaults.reduced a b =
      if a.1 = sMin w ∧ b.1 = -1 then .panic else (CheckedInts.euclidean w).reduced a b := by
  rw [CheckedInts.reduced_eq]
  show ((Res.ok (b.1 == 0)) >>= fun z => if z = true then pure true else
    ((CheckedInts.euclidean w).quoRem a b >>= fun p => pure p.1) >>= fun q => Res.ok (q.1 == 0)) = _
  rw [ok_bind]
  by_cases hb : b.1 = 0
  · simp [hb]
  · rw [show (b.1 == 0) = false from by simpa using hb]
    by_cases h : a.1 = sMin w ∧ b.1 = -1
    · rw [CheckedInts.quoRem_bad w a b h, if_pos h]; rfl
    · rw [CheckedInts.quoRem_eq w a b hb h, if_neg h]
      show Res.ok (a.1 / b.1 == 0) = _
      simp only [hb, false_or, beq_eq_decide]

/-- C83: in 8 bits -128 and -1. -/
example : (CheckedInts.euclidean 8).withDefaults.reduced (SInt.lit (-128) (by decide)) (SInt.lit (-1) (by decide)) =
      .panic ∧
    (CheckedInts.euclidean 8).reduced (SInt.lit (-128) (by decide)) (SInt.lit (-1) (by decide)) = .ok false :=
  ⟨(C83_checked_ints_reduced 8 _ _).trans (if_pos (by decide)), rfl⟩

/-- C83: the default of `times` would fail as soon as a doubling overflows, also the last one whose result is
not used. -/
theorem C83_checked_ints_times (w : ℕ) [Width w] (n : ℤ) (hn : n ≠ isizeMin) (a : SInt w) :
    (n = 0 ∨ InRange w (2 ^ n.natAbs.size * (n.sign * a.1)) →
      ∃ c, (CheckedInts.euclidean w).withDefaults.times n a = .ok c ∧ c.1 = n * a.1) ∧
    (¬ (n = 0 ∨ InRange w (2 ^ n.natAbs.size * (n.sign * a.1))) →
      (CheckedInts.euclidean w).withDefaults.times n a = .panic) := by
  have hpos : ∀ (k : ℕ) (e : SInt w), powerDefault (CheckedInts.euclidean w).zero (CheckedInts.euclidean w).add
      (fun a => (CheckedInts.euclidean w).add a a) (CheckedInts.euclidean w).neg (k : ℤ) e =
        (CheckedInts.unitaryRing w).utimes k e := by
    intro k e
    simp only [powerDefault, if_neg (show ¬ (k : ℤ) < 0 by omega), pure_bind']
    show (Res.ok (CheckedInts.c0 w) >>= fun r => powerLoop _ _ (k : ℤ) r e) = (Res.ok (CheckedInts.c0 w) >>= fun r => timesLoop _ _ k r e)
    rw [ok_bind, ok_bind, powerLoop_eq_timesLoop]
    rfl
  show (_ → ∃ c, powerDefault (CheckedInts.euclidean w).zero (CheckedInts.euclidean w).add
      (fun a => (CheckedInts.euclidean w).add a a) (CheckedInts.euclidean w).neg n a = .ok c ∧ _) ∧
      (_ → powerDefault (CheckedInts.euclidean w).zero (CheckedInts.euclidean w).add
      (fun a => (CheckedInts.euclidean w).add a a) (CheckedInts.euclidean w).neg n a = .panic)
  simp only [inRange_iff]
  have fits_of_mul : ∀ {k : ℕ} {x : ℤ}, Fits w (2 ^ k * x) → Fits w x := by
    intro k x hx
    have h1 : (1 : ℤ) ≤ 2 ^ k := one_le_pow₀ (by norm_num)
    have h2 := SInt.pow_two_ge (w := w) Width.ge
    unfold Fits sMin sMax at *
    constructor <;> rcases le_total 0 x with h0 | h0 <;> nlinarith [hx.1, hx.2]
  rcases lt_trichotomy n 0 with h | h | h
  · obtain ⟨k, rfl⟩ : ∃ k : ℕ, n = -(k : ℤ) := ⟨n.natAbs, by omega⟩
    have hk : k ≠ 0 := by rintro rfl; simp at h
    have hk' : (-(k : ℤ)) ≠ 0 := by omega
    have hstep : powerDefault (CheckedInts.euclidean w).zero (CheckedInts.euclidean w).add
      (fun a => (CheckedInts.euclidean w).add a a) (CheckedInts.euclidean w).neg (-(k : ℤ)) a =
        ((CheckedInts.unitaryRing w).neg a >>= fun e => (CheckedInts.unitaryRing w).utimes k e) := by
      simp only [← hpos]
      simp only [powerDefault, if_pos h, isizeNeg, if_neg hn, neg_neg, pure_bind',
        if_neg (show ¬ (k : ℤ) < 0 by omega), ok_bind]
      show _ = ((CheckedInts.euclidean w).neg a >>= _)
      cases (CheckedInts.euclidean w).neg a <;> rfl
    rw [hstep, CheckedInts.neg_eq]
    simp only [hk', false_or, Int.natAbs_neg, Int.natAbs_natCast, Int.sign_eq_neg_one_of_neg h, neg_one_mul]
    by_cases hf : Fits w (-a.1)
    · rw [dif_pos hf, ok_bind]
      have := CheckedInts.utimes_exact w k (SInt.mk _ hf)
      refine ⟨fun h' => ?_, fun h' => this.2 ⟨hk, h'⟩⟩
      obtain ⟨c, h1, h2⟩ := this.1 (.inr h')
      exact ⟨c, h1, h2.trans (by show (k : ℤ) * -a.1 = _; ring)⟩
    · rw [dif_neg hf]
      refine ⟨fun h' => absurd (fits_of_mul h') hf, fun _ => rfl⟩
  · subst h
    have h0 := hpos 0 a
    rw [Nat.cast_zero] at h0
    rw [h0]
    exact ⟨fun _ => by simpa using (CheckedInts.utimes_exact w 0 a).1 (.inl rfl), fun h' => absurd (.inl rfl) h'⟩
  · obtain ⟨k, rfl⟩ : ∃ k : ℕ, n = (k : ℤ) := ⟨n.natAbs, by omega⟩
    rw [hpos]
    have hk : k ≠ 0 := by rintro rfl; simp at h
    have hk' : (k : ℤ) ≠ 0 := by omega
    have := CheckedInts.utimes_exact w k a
    simp only [hk', false_or, Int.natAbs_natCast, Int.sign_eq_one_of_pos h, one_mul]
    exact ⟨fun h' => this.1 (.inr h'), fun h' => this.2 ⟨hk, h'⟩⟩

/-- C83: in 8 bits 2 times 50 is 100; the default would panic when doubling 100. -/
example (h : (2 : ℤ) ≠ isizeMin) :
    (CheckedInts.euclidean 8).withDefaults.times 2 (SInt.lit 50 (by decide)) = .panic ∧
    (CheckedInts.euclidean 8).times 2 (SInt.lit 50 (by decide)) = .ok (SInt.lit 100 (by decide)) :=
  ⟨(C83_checked_ints_times 8 2 h _).2 (by rw [inRange_iff]; decide), rfl⟩

/-- C83: whatever `extended_gcd` would return with the default of `sub` it returns. -/
theorem C83_checked_ints_extended_gcd (w : ℕ) [Width w] (a b : SInt w) (p : SInt w × SInt w × SInt w)
    (h : (CheckedInts.euclidean w).withDefaults.extendedGcd a b = .ok p) :
    (CheckedInts.euclidean w).extendedGcd a b = .ok p := by
  have := follows_extendedGcd (r := (Eq : SInt w → SInt w → Prop))
    (isZero := (CheckedInts.euclidean w).isZero) (isZero' := (CheckedInts.euclidean w).isZero)
    (one := (CheckedInts.euclidean w).one) (one' := (CheckedInts.euclidean w).one)
    (zero := (CheckedInts.euclidean w).zero) (zero' := (CheckedInts.euclidean w).zero)
    (quoRem := (CheckedInts.euclidean w).quoRem) (quoRem' := (CheckedInts.euclidean w).quoRem)
    (sub := (CheckedInts.euclidean w).withDefaults.sub) (sub' := (CheckedInts.euclidean w).sub)
    (mul := (CheckedInts.euclidean w).mul) (mul' := (CheckedInts.euclidean w).mul)
    (by rintro a _ rfl; exact fun c h => ⟨c, h, rfl⟩) (fun c h => ⟨c, h, rfl⟩) (fun c h => ⟨c, h, rfl⟩)
    (by rintro a b _ _ rfl rfl; exact fun c h => ⟨c, h, rfl, rfl⟩)
    (by
      rintro a b _ _ rfl rfl c h
      rw [C83_checked_ints_sub] at h
      split at h
      · cases h
      · exact ⟨c, h, rfl⟩)
    (by rintro a b _ _ rfl rfl; exact fun c h => ⟨c, h, rfl⟩) (a := a) (b := b) rfl rfl p h
  obtain ⟨q, h1, h2, h3, h4⟩ := this
  rw [show p = q from Prod.ext h2 (Prod.ext h3 h4)]
  exact h1

/-- C83: in 8 bits at 12 and 0. -/
example : (CheckedInts.euclidean 8).extendedGcd (SInt.lit 12 (by decide)) (SInt.lit 0 (by decide)) =
    .ok (SInt.lit 12 (by decide), SInt.lit 1 (by decide), SInt.lit 0 (by decide)) := by
  apply C83_checked_ints_extended_gcd
  show extendedGcdDefault _ _ _ _ _ _ _ _ = _
  rw [extendedGcdDefault]
  rfl

/-- C83: floats, on all values: only `times`, `int` and `div` may differ from the defaults. -/
theorem C83_floats (F : FloatFormat) :
    { (ApproxFloats.field F).withDefaults with
      times := (ApproxFloats.field F).times
      int := (ApproxFloats.field F).int
      div := (ApproxFloats.field F).div } = ApproxFloats.field F := by
  apply FieldOps.ext <;> try rfl
  funext a b
  refine Eq.trans ?_ ((C53_floats F).2.2.subAssign a b)
  show ((ApproxFloats.field F).neg b >>= fun e => (ApproxFloats.field F).add e a) =
    ((ApproxFloats.field F).neg b >>= fun e => (ApproxFloats.field F).add a e)
  simp only [fun e => (C55_commutative (F := F) e a).1]

/-- C83: the default difference in single precision. -/
example : (ApproxFloats.field FloatFormat.f32).withDefaults.sub = (ApproxFloats.field FloatFormat.f32).sub := by
  have h := congrArg (fun A : FieldOps FloatFormat.f32.Val => A.sub) (C83_floats FloatFormat.f32)
  exact h

/-- C83: in a multiplicative group `invertible` is overridden by the constant true; off the members the default
would be false or a panic. -/
theorem C83_multiplicative_group (base : MonoidOps E) (a : E) :
    { (MultiplicativeGroup.ops base.withDefaults).withDefaults with invertible := fun _ => .ok true } =
      MultiplicativeGroup.ops base.withDefaults ∧
    (MultiplicativeGroup.ops base).invertible a = .ok true ∧
    (base.tryInv a = .ok none → (MultiplicativeGroup.ops base).withDefaults.invertible a = .ok false) := by
  refine ⟨by apply GroupOps.ext <;> rfl, rfl, fun h => ?_⟩
  show (base.tryInv a >>= fun o => pure o.isSome) = _
  rw [h]
  rfl

/-- C83: 2 in the group of units of the integers. -/
example : (MultiplicativeGroup.ops Integers.euclidean.toMonoidOps).invertible 2 = .ok true ∧
    (MultiplicativeGroup.ops Integers.euclidean.toMonoidOps).withDefaults.invertible 2 = .ok false :=
  ⟨(C83_multiplicative_group Integers.euclidean.toMonoidOps 2).2.1,
    (C83_multiplicative_group Integers.euclidean.toMonoidOps 2).2.2 rfl⟩

end Abstalg
