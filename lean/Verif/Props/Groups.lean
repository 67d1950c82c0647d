import Verif.Proofs.Groups
import Verif.Proofs.Integers
import Verif.Proofs.CheckedGcd
import Verif.Model.QuotientField
import Verif.Props.Traits

/-! # Additive and multiplicative groups, the two-element algebra: C44-C47, C54 -/

set_option linter.unusedSectionVars false

set_option autoImplicit false

universe u

namespace Abstalg

section units

variable [Cfg] {E : Type} {R : Type u} [Monoid R] {mp : Prop} {rep : E → R → Prop}
  {base : MonoidOps E}

/-- C44: `MultiplicativeGroup` implements the group of units. -/
theorem C44_multiplicative_group (h : MonoidSpec mp base rep) :
    GroupSpec mp (MultiplicativeGroup.ops base) (fun a (u : Rˣ) => rep a (u : R)) :=
  MultiplicativeGroup.spec h

example : GroupSpec False (MultiplicativeGroup.ops Integers.integralDomain.toMonoidOps)
    (fun a (u : ℤˣ) => ZRep a (u : ℤ)) :=
  C44_multiplicative_group Integers.unitaryRing_spec.toMonoidSpec

/-- C44: on members of the base, `contains` is exactly invertibility. -/
theorem C44_contains (h : MonoidSpec mp base rep) {a : E} {x : R} (ha : rep a x) :
    Decides mp ((MultiplicativeGroup.ops base).contains a) (∃ y, x * y = 1 ∧ y * x = 1) :=
  (h.invertible ha).iff isUnit_iff_exists

/-- C44: -1 is in the multiplicative group of `ZZ`. -/
example : Returns False
    ((MultiplicativeGroup.ops Integers.integralDomain.toMonoidOps).contains (-1)) (· = true) :=
  (C44_contains Integers.unitaryRing_spec.toMonoidSpec (show ZRep (-1) (-1) from rfl)).mono
    fun _ h => h.2 ⟨-1, by decide, by decide⟩

/-- C44: `inv` panics on the members of the base that are not units. -/
theorem C44_inv_panics (h : MonoidSpec False base rep) {a : E} {x : R} (ha : rep a x)
    (hx : ¬ IsUnit x) : (MultiplicativeGroup.ops base).inv a = .panic := by
  obtain ⟨o, ho, ho'⟩ := returns_false_iff.1 (h.tryInv ha)
  show (base.tryInv a >>= fun o => Res.unwrap o) = _
  rw [ho]
  cases o with
  | none => rfl
  | some b =>
    obtain ⟨y, _, h1, h2⟩ := ho'
    exact (hx (isUnit_iff_exists.2 ⟨y, h1, h2⟩)).elim

end units

section

variable [Cfg]

/-- The hypotheses are met: -1 is a unit of `ZZ`, 2 is not. -/
example : MonoidSpec False Integers.integralDomain.toMonoidOps ZRep ∧
    IsUnit (-1 : ℤ) ∧ ¬ IsUnit (2 : ℤ) :=
  ⟨Integers.unitaryRing_spec.toMonoidSpec, isUnit_one.neg, by decide⟩

/-- C44: the multiplicative group of `ZZ` has the members 1 and -1, each its own inverse, and `inv`
panics on all other integers. -/
theorem C44_integers (a : ℤ) :
    (MultiplicativeGroup.ops Integers.euclidean.toMonoidOps).contains a =
      .ok (decide (a = 1 ∨ a = -1)) ∧
    (a = 1 ∨ a = -1 → (MultiplicativeGroup.ops Integers.euclidean.toMonoidOps).inv a = .ok a) ∧
    (¬ (a = 1 ∨ a = -1) → (MultiplicativeGroup.ops Integers.euclidean.toMonoidOps).inv a = .panic) := by
  refine ⟨?_, ?_, fun h => ?_⟩
  · refine decides_false_iff.1 ((C44_contains Integers.euclidean_spec.toMonoidSpec
      (show ZRep a a from rfl)).iff ?_)
    rw [← isUnit_iff_exists, Int.isUnit_iff]
  · rintro (rfl | rfl) <;> rfl
  · exact C44_inv_panics Integers.euclidean_spec.toMonoidSpec rfl (fun hu => h (Int.isUnit_iff.1 hu))

/-- Minus one and two. -/
example : (MultiplicativeGroup.ops Integers.euclidean.toMonoidOps).inv (-1) = .ok (-1) ∧
    (MultiplicativeGroup.ops Integers.euclidean.toMonoidOps).inv 2 = .panic :=
  ⟨(C44_integers _).2.1 (.inr rfl), (C44_integers _).2.2 (by decide)⟩

/-- C44: `contains` does not consult `contains` of the base: 3 is no member of `GF3`, it is
accepted by the multiplicative group of `GF3`, and its inversion panics. -/
theorem C44_accepts_nonmember :
    QuotientField.GF3.contains (SInt.lit 3 (by decide)) = .ok false ∧
    (MultiplicativeGroup.ops QuotientField.GF3.toMonoidOps).contains (SInt.lit 3 (by decide)) =
      .ok true ∧
    (MultiplicativeGroup.ops QuotientField.GF3.toMonoidOps).inv (SInt.lit 3 (by decide)) =
      .panic := by
  refine ⟨rfl, rfl, ?_⟩
  have h : (CheckedInts.euclidean 8).extendedGcd (SInt.lit 3 (by decide)) (SInt.lit 3 (by decide)) =
      .ok (SInt.lit 3 (by decide), SInt.lit 0 (by decide), SInt.lit 1 (by decide)) := by
    have hb : (SInt.lit (w := 8) 3 (by decide)).1 ≠ 0 := by decide
    have h0 := CheckedInts.extendedGcd_zero 8 (SInt.lit 3 (by decide))
      (SInt.mk ((SInt.lit (w := 8) 3 (by decide)).1 % (SInt.lit (w := 8) 3 (by decide)).1)
        (CheckedInts.fits_emod 8 (SInt.lit (w := 8) 3 (by decide)).2 hb)) rfl
    have h1 := CheckedInts.extendedGcd_step 8 (SInt.lit 3 (by decide)) (SInt.lit 3 (by decide))
      hb (fun h => absurd h.2 (by decide)) h0 (by unfold Fits; decide) (by unfold Fits; decide)
    rw [h1]
    rfl
  show ((do
    let e ← (do return some (← QuotientField.inv (CheckedInts.euclidean 8)
      (SInt.lit 3 (by decide)) (SInt.lit 3 (by decide)))); Res.unwrap e) : Res (SInt 8)) = _
  show ((do
    let e ← (do return some (← (do
      let (g, _, r) ← (CheckedInts.euclidean 8).extendedGcd (SInt.lit 3 (by decide))
        (SInt.lit 3 (by decide))
      let a ← Res.unwrap (← (CheckedInts.euclidean 8).tryInv g)
      QuotientField.mul (CheckedInts.euclidean 8) (SInt.lit 3 (by decide)) a r)));
        Res.unwrap e) : Res (SInt 8)) = _
  rw [h]
  rfl

/-- Likewise `4`, which denotes the unit `1`. -/
example : QuotientField.GF3.contains (SInt.lit 4 (by decide)) = .ok false ∧
    QuotientField.GF3.isZero (SInt.lit 4 (by decide)) = .ok false := ⟨rfl, rfl⟩

end

section additive

variable [Cfg] {E : Type} {R : Type u} [AddCommGroup R] {mp : Prop} {rep : E → R → Prop}
  {base : AbelianGroupOps E}

/-- C45: `AdditiveGroup` is the additive group, written multiplicatively. -/
theorem C45_additive_group (h : AbelianGroupSpec mp base rep) :
    GroupSpec mp (AdditiveGroup.ops base) (fun a (x : Multiplicative R) => rep a x.toAdd) :=
  AdditiveGroup.spec h

example : GroupSpec True (AdditiveGroup.ops (CheckedInts.euclidean 16).toAbelianGroupOps)
    (fun a (x : Multiplicative ℤ) => SRep 16 a x.toAdd) :=
  C45_additive_group (CheckedInts.unitaryRing_spec 16).toAbelianGroupSpec

/-- C45: in additive notation. -/
theorem C45_additive_notation (h : AbelianGroupSpec mp base rep) {a b : E} {x y : R}
    (ha : rep a x) (hb : rep b y) (n : ℤ) (hn : n ≠ isizeMin) :
    Returns mp ((AdditiveGroup.ops base).mul a b) (rep · (x + y)) ∧
    Returns mp (AdditiveGroup.ops base).one (rep · 0) ∧
    Returns mp ((AdditiveGroup.ops base).inv a) (rep · (-x)) ∧
    Returns mp ((AdditiveGroup.ops base).square a) (rep · (x + x)) ∧
    Returns mp ((AdditiveGroup.ops base).power n a) (rep · (n • x)) ∧
    (AdditiveGroup.ops base).invertible a = .ok true :=
  have g := AdditiveGroup.spec h
  have ha' : AdditiveGroup.AddRep rep a (.ofAdd x) := ha
  have hb' : AdditiveGroup.AddRep rep b (.ofAdd y) := hb
  ⟨g.mul ha' hb', g.one, g.inv ha', g.square ha', g.power n hn ha', rfl⟩

end additive

section

variable [Cfg]

/-- `AdditiveGroup(ZZ)` meets the hypotheses of C45, and of C08. -/
example : AbelianGroupSpec False Integers.integralDomain.toAbelianGroupOps ZRep ∧
    MonoidSpec False
      (AdditiveGroup.ops Integers.integralDomain.toAbelianGroupOps).toMonoidOps
      (AdditiveGroup.AddRep ZRep) :=
  ⟨Integers.unitaryRing_spec.toAbelianGroupSpec,
    (AdditiveGroup.spec Integers.unitaryRing_spec.toAbelianGroupSpec).toMonoidSpec⟩

/-- C46: `BB` is the field with two elements. -/
theorem C46_two_field : FieldSpec False TwoElementAlgebra.field
    (fun (a : Bool) (x : ZMod 2) => x = if a then 1 else 0) := TwoElementAlgebra.spec

/-- C46: `true + true = false`. -/
example : Returns False (TwoElementAlgebra.field.add true true)
    (fun (a : Bool) => (1 + 1 : ZMod 2) = if a then 1 else 0) :=
  C46_two_field.add (a := true) (b := true) rfl rfl

/-- C46: `BB` is a Euclidean domain. -/
theorem C46_two_euclidean : EuclideanSpec False TwoElementAlgebra.field.toEuclidean
    (fun (a : Bool) (x : ZMod 2) => x = if a then 1 else 0) := TwoElementAlgebra.spec.toEuclidean

example : TwoElementAlgebra.field.toEuclidean.quoRem true true = .ok (true, false) ∧
    TwoElementAlgebra.field.toEuclidean.quoRem true false = .panic := ⟨rfl, rfl⟩

/-- C46: every object is a member of `BB`, and every element of the field is represented. -/
theorem C46_two_members (a : Bool) (x : ZMod 2) :
    TwoElementAlgebra.field.contains a = .ok true ∧ ∃! b : Bool, x = if b then 1 else 0 := by
  have key : ∀ x : ZMod 2, ∃ b : Bool, (x = if b then 1 else 0) ∧
    ∀ c : Bool, (x = if c then 1 else 0) → c = b := by decide
  exact ⟨rfl, key x⟩

example : ∃! b : Bool, (1 : ZMod 2) = if b then 1 else 0 := (C46_two_members true 1).2

/-- C46: `BB` is the two-element boolean algebra. -/
theorem C46_two_boolean : BooleanAlgebraSpec False TwoElementAlgebra.booleanAlgebra
    (fun (a b : Bool) => a = b) := TwoElementAlgebra.boolean_spec

example : Returns False (TwoElementAlgebra.booleanAlgebra.leq true false) (· = false) :=
  (C46_two_boolean.leq (a := true) (b := false) rfl rfl).mono fun b h => by
    cases b
    · rfl
    · exact absurd (h.1 rfl) (by decide)

/-- C47: the override of `power` in `BB`; all exponents, `isize::MIN` included. -/
theorem C47_two_power (n : ℤ) :
    TwoElementAlgebra.field.power n true = .ok true ∧
    TwoElementAlgebra.field.power n false = .ok false := ⟨rfl, rfl⟩

example : TwoElementAlgebra.field.power isizeMin true = .ok true ∧
    TwoElementAlgebra.field.power (-3) false = .ok false := ⟨rfl, rfl⟩

/-- C54: the overrides of `less_than` and `comparable` in `BB`. -/
theorem C54_two (a b : Bool) :
    TwoElementAlgebra.booleanAlgebra.lessThan a b = .ok (decide (a ≤ b ∧ a ≠ b)) ∧
    TwoElementAlgebra.booleanAlgebra.comparable a b = .ok (decide (a ≤ b ∨ b ≤ a)) := by
  cases a <;> cases b <;> exact ⟨rfl, rfl⟩

/-- The hypotheses of C47 and C52 are met by `BB`. -/
example : UnitaryRingSpec False TwoElementAlgebra.field.toUnitaryRingOps TwoElementAlgebra.FRep ∧
    TwoElementAlgebra.FRep true 1 ∧ TwoElementAlgebra.FRep false 0 :=
  ⟨TwoElementAlgebra.spec.toUnitaryRingSpec, rfl, rfl⟩

end

end Abstalg
