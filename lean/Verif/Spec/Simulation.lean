import Verif.Model.Traits
import Mathlib.Data.List.Basic

/-! # Specification: one implementation follows another

Two dictionaries on possibly different types of objects, built for possibly different configurations,
are compared by a relation `r` between the objects. The first *follows* the second if, whenever a
method of the first returns a value for some operands, the same method of the second returns a
corresponding value for all corresponding operands. Nothing is said about calls of the first that panic
or do not return. -/

set_option autoImplicit false

universe u v

namespace Abstalg

/-- If the first computation returns a value then the second returns a corresponding value. -/
def Follows {α : Type u} {β : Type v} (r : α → β → Prop) (c : Res α) (d : Res β) : Prop :=
  ∀ a, c = .ok a → ∃ b, d = .ok b ∧ r a b

/-- Related lists: of equal length, with related entries. -/
abbrev LRel {α : Type u} {β : Type v} (r : α → β → Prop) : List α → List β → Prop := List.Forall₂ r

/-- Related pairs. -/
def PRel {α : Type u} {β : Type v} (r : α → β → Prop) (p : α × α) (q : β × β) : Prop :=
  r p.1 q.1 ∧ r p.2 q.2

/-- Configurations for the same target, the second without some of the checks of the first. -/
structure Cfg.Relaxes (c₁ c₂ : Cfg) : Prop where
  ptrBits : c₁.ptrBits = c₂.ptrBits
  overflowChecks : c₂.overflowChecks = true → c₁.overflowChecks = true
  debugAssertions : c₂.debugAssertions = true → c₁.debugAssertions = true

variable {c₁ c₂ : Cfg} {E F : Type} (r : E → F → Prop)

/-- `trait Domain` -/
structure FollowsDomain (A : DomainOps E) (B : DomainOps F) : Prop where
  contains : ∀ {a a'}, r a a' → Follows Eq (A.contains a) (B.contains a')
  equals : ∀ {a b a' b'}, r a a' → r b b' → Follows Eq (A.equals a b) (B.equals a' b')

/-- `trait Semigroup` -/
structure FollowsSemigroup (A : SemigroupOps E) (B : SemigroupOps F) : Prop
    extends FollowsDomain r A.toDomainOps B.toDomainOps where
  mul : ∀ {a b a' b'}, r a a' → r b b' → Follows r (A.mul a b) (B.mul a' b')
  mulAssign : ∀ {a b a' b'}, r a a' → r b b' → Follows r (A.mulAssign a b) (B.mulAssign a' b')
  square : ∀ {a a'}, r a a' → Follows r (A.square a) (B.square a')

/-- `trait Monoid` -/
structure FollowsMonoid (A : MonoidOps E) (B : MonoidOps F) : Prop
    extends FollowsSemigroup r A.toSemigroupOps B.toSemigroupOps where
  one : Follows r A.one B.one
  isOne : ∀ {a a'}, r a a' → Follows Eq (A.isOne a) (B.isOne a')
  tryInv : ∀ {a a'}, r a a' → Follows (Option.Rel r) (A.tryInv a) (B.tryInv a')
  invertible : ∀ {a a'}, r a a' → Follows Eq (A.invertible a) (B.invertible a')

/-- `trait CommuntativeMonoid` -/
structure FollowsCommutativeMonoid (A : CommutativeMonoidOps E) (B : CommutativeMonoidOps F) : Prop
    extends FollowsDomain r A.toDomainOps B.toDomainOps where
  zero : Follows r A.zero B.zero
  isZero : ∀ {a a'}, r a a' → Follows Eq (A.isZero a) (B.isZero a')
  add : ∀ {a b a' b'}, r a a' → r b b' → Follows r (A.add a b) (B.add a' b')
  addAssign : ∀ {a b a' b'}, r a a' → r b b' → Follows r (A.addAssign a b) (B.addAssign a' b')
  double : ∀ {a a'}, r a a' → Follows r (A.double a) (B.double a')
  utimes : ∀ n {a a'}, r a a' → Follows r (A.utimes n a) (B.utimes n a')

/-- `trait Group` -/
structure FollowsGroup (A : @GroupOps c₁ E) (B : @GroupOps c₂ F) : Prop
    extends FollowsMonoid r (@A.toMonoidOps) (@B.toMonoidOps) where
  inv : ∀ {a a'}, r a a' → Follows r (@A.inv a) (@B.inv a')
  power : ∀ n {a a'}, r a a' → Follows r (@A.power n a) (@B.power n a')

/-- `trait AbelianGroup` -/
structure FollowsAbelianGroup (A : @AbelianGroupOps c₁ E) (B : @AbelianGroupOps c₂ F) : Prop
    extends FollowsCommutativeMonoid r (@A.toCommutativeMonoidOps) (@B.toCommutativeMonoidOps) where
  neg : ∀ {a a'}, r a a' → Follows r (@A.neg a) (@B.neg a')
  negAssign : ∀ {a a'}, r a a' → Follows r (@A.negAssign a) (@B.negAssign a')
  sub : ∀ {a b a' b'}, r a a' → r b b' → Follows r (@A.sub a b) (@B.sub a' b')
  subAssign : ∀ {a b a' b'}, r a a' → r b b' → Follows r (@A.subAssign a b) (@B.subAssign a' b')
  times : ∀ n {a a'}, r a a' → Follows r (@A.times n a) (@B.times n a')

/-- `trait SemiRing` -/
structure FollowsSemiRing (A : SemiRingOps E) (B : SemiRingOps F) : Prop
    extends FollowsCommutativeMonoid r A.toCommutativeMonoidOps B.toCommutativeMonoidOps,
      FollowsMonoid r A.toMonoidOps B.toMonoidOps

/-- `trait UnitaryRing` -/
structure FollowsUnitaryRing (A : @UnitaryRingOps c₁ E) (B : @UnitaryRingOps c₂ F) : Prop
    extends FollowsSemiRing r (@A.toSemiRingOps) (@B.toSemiRingOps),
      FollowsAbelianGroup r (@A.toAbelianGroupOps) (@B.toAbelianGroupOps) where
  int : ∀ n, Follows r (@A.int n) (@B.int n)

/-- `trait IntegralDomain` -/
structure FollowsIntegralDomain (A : @IntegralDomainOps c₁ E) (B : @IntegralDomainOps c₂ F) : Prop
    extends FollowsUnitaryRing r (@A.toUnitaryRingOps) (@B.toUnitaryRingOps) where
  tryDiv : ∀ {a b a' b'}, r a a' → r b b' →
    Follows (Option.Rel r) (@A.tryDiv a b) (@B.tryDiv a' b')
  divisible : ∀ {a b a' b'}, r a a' → r b b' → Follows Eq (@A.divisible a b) (@B.divisible a' b')
  associates : ∀ {a b a' b'}, r a a' → r b b' → Follows Eq (@A.associates a b) (@B.associates a' b')
  associateRepr : ∀ {a a'}, r a a' → Follows r (@A.associateRepr a) (@B.associateRepr a')
  associateCoef : ∀ {a a'}, r a a' → Follows r (@A.associateCoef a) (@B.associateCoef a')

/-- `trait EuclideanDomain` -/
structure FollowsEuclideanDomain (A : @EuclideanDomainOps c₁ E) (B : @EuclideanDomainOps c₂ F) : Prop
    extends FollowsIntegralDomain r (@A.toIntegralDomainOps) (@B.toIntegralDomainOps) where
  quoRem : ∀ {a b a' b'}, r a a' → r b b' →
    Follows (fun p q => r p.1 q.1 ∧ r p.2 q.2) (@A.quoRem a b) (@B.quoRem a' b')
  quo : ∀ {a b a' b'}, r a a' → r b b' → Follows r (@A.quo a b) (@B.quo a' b')
  rem : ∀ {a b a' b'}, r a a' → r b b' → Follows r (@A.rem a b) (@B.rem a' b')
  reduced : ∀ {a b a' b'}, r a a' → r b b' → Follows Eq (@A.reduced a b) (@B.reduced a' b')
  gcd : ∀ {a b a' b'}, r a a' → r b b' → Follows r (@A.gcd a b) (@B.gcd a' b')
  lcm : ∀ {a b a' b'}, r a a' → r b b' → Follows r (@A.lcm a b) (@B.lcm a' b')
  extendedGcd : ∀ {a b a' b'}, r a a' → r b b' →
    Follows (fun p q => r p.1 q.1 ∧ r p.2.1 q.2.1 ∧ r p.2.2 q.2.2)
      (@A.extendedGcd a b) (@B.extendedGcd a' b')
  relativePrimes : ∀ {a b a' b'}, r a a' → r b b' →
    Follows Eq (@A.relativePrimes a b) (@B.relativePrimes a' b')

/-- `trait Field` -/
structure FollowsField (A : @FieldOps c₁ E) (B : @FieldOps c₂ F) : Prop
    extends FollowsUnitaryRing r (@A.toUnitaryRingOps) (@B.toUnitaryRingOps) where
  inv : ∀ {a a'}, r a a' → Follows r (@A.inv a) (@B.inv a')
  div : ∀ {a b a' b'}, r a a' → r b b' → Follows r (@A.div a b) (@B.div a' b')
  power : ∀ n {a a'}, r a a' → Follows r (@A.power n a) (@B.power n a')

/-- `trait PartialOrder` -/
structure FollowsPartialOrder (A : PartialOrderOps E) (B : PartialOrderOps F) : Prop
    extends FollowsDomain r A.toDomainOps B.toDomainOps where
  leq : ∀ {a b a' b'}, r a a' → r b b' → Follows Eq (A.leq a b) (B.leq a' b')
  lessThan : ∀ {a b a' b'}, r a a' → r b b' → Follows Eq (A.lessThan a b) (B.lessThan a' b')
  comparable : ∀ {a b a' b'}, r a a' → r b b' → Follows Eq (A.comparable a b) (B.comparable a' b')

/-- `trait BoundedOrder` -/
structure FollowsBoundedOrder (A : BoundedOrderOps E) (B : BoundedOrderOps F) : Prop
    extends FollowsPartialOrder r A.toPartialOrderOps B.toPartialOrderOps where
  max : Follows r A.max B.max
  min : Follows r A.min B.min

/-- `trait Lattice` -/
structure FollowsLattice (A : LatticeOps E) (B : LatticeOps F) : Prop
    extends FollowsPartialOrder r A.toPartialOrderOps B.toPartialOrderOps where
  meet : ∀ {a b a' b'}, r a a' → r b b' → Follows r (A.meet a b) (B.meet a' b')
  join : ∀ {a b a' b'}, r a a' → r b b' → Follows r (A.join a b) (B.join a' b')

/-- `trait BooleanAlgebra` -/
structure FollowsBooleanAlgebra (A : BooleanAlgebraOps E) (B : BooleanAlgebraOps F) : Prop
    extends FollowsLattice r A.toLatticeOps B.toLatticeOps,
      FollowsBoundedOrder r A.toBoundedOrderOps B.toBoundedOrderOps where
  not : ∀ {a a'}, r a a' → Follows r (A.not a) (B.not a')

end Abstalg
