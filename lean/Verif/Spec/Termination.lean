import Verif.Model.Traits

/-! # Specification of termination

A method stops if it returns or panics. The predicates below say so for all methods of a trait and all
objects of the type, members or not; nothing is assumed about what the methods return. -/

set_option autoImplicit false

universe u

namespace Abstalg

/-- The computation returns or panics. -/
def Stops {α : Type u} (c : Res α) : Prop := c ≠ .diverge

variable [Cfg] {E : Type}

/-- `trait Domain` -/
structure StopsDomain (A : DomainOps E) : Prop where
  contains : ∀ a, Stops (A.contains a)
  equals : ∀ a b, Stops (A.equals a b)

/-- `trait Semigroup` -/
structure StopsSemigroup (A : SemigroupOps E) : Prop extends StopsDomain A.toDomainOps where
  mul : ∀ a b, Stops (A.mul a b)
  mulAssign : ∀ a b, Stops (A.mulAssign a b)
  square : ∀ a, Stops (A.square a)

/-- `trait Monoid` -/
structure StopsMonoid (A : MonoidOps E) : Prop extends StopsSemigroup A.toSemigroupOps where
  one : Stops A.one
  isOne : ∀ a, Stops (A.isOne a)
  tryInv : ∀ a, Stops (A.tryInv a)
  invertible : ∀ a, Stops (A.invertible a)

/-- `trait CommuntativeMonoid` -/
structure StopsCommutativeMonoid (A : CommutativeMonoidOps E) : Prop
    extends StopsDomain A.toDomainOps where
  zero : Stops A.zero
  isZero : ∀ a, Stops (A.isZero a)
  add : ∀ a b, Stops (A.add a b)
  addAssign : ∀ a b, Stops (A.addAssign a b)
  double : ∀ a, Stops (A.double a)
  utimes : ∀ n a, Stops (A.utimes n a)

/-- `trait Group` -/
structure StopsGroup (A : GroupOps E) : Prop extends StopsMonoid A.toMonoidOps where
  inv : ∀ a, Stops (A.inv a)
  power : ∀ n a, Stops (A.power n a)

/-- `trait AbelianGroup` -/
structure StopsAbelianGroup (A : AbelianGroupOps E) : Prop
    extends StopsCommutativeMonoid A.toCommutativeMonoidOps where
  neg : ∀ a, Stops (A.neg a)
  negAssign : ∀ a, Stops (A.negAssign a)
  sub : ∀ a b, Stops (A.sub a b)
  subAssign : ∀ a b, Stops (A.subAssign a b)
  times : ∀ n a, Stops (A.times n a)

/-- `trait SemiRing` -/
structure StopsSemiRing (A : SemiRingOps E) : Prop
    extends StopsCommutativeMonoid A.toCommutativeMonoidOps, StopsMonoid A.toMonoidOps

/-- `trait UnitaryRing` -/
structure StopsUnitaryRing (A : UnitaryRingOps E) : Prop
    extends StopsSemiRing A.toSemiRingOps, StopsAbelianGroup A.toAbelianGroupOps where
  int : ∀ n, Stops (A.int n)

/-- `trait IntegralDomain` -/
structure StopsIntegralDomain (A : IntegralDomainOps E) : Prop
    extends StopsUnitaryRing A.toUnitaryRingOps where
  tryDiv : ∀ a b, Stops (A.tryDiv a b)
  divisible : ∀ a b, Stops (A.divisible a b)
  associates : ∀ a b, Stops (A.associates a b)
  associateRepr : ∀ a, Stops (A.associateRepr a)
  associateCoef : ∀ a, Stops (A.associateCoef a)

/-- `trait EuclideanDomain` -/
structure StopsEuclideanDomain (A : EuclideanDomainOps E) : Prop
    extends StopsIntegralDomain A.toIntegralDomainOps where
  quoRem : ∀ a b, Stops (A.quoRem a b)
  quo : ∀ a b, Stops (A.quo a b)
  rem : ∀ a b, Stops (A.rem a b)
  reduced : ∀ a b, Stops (A.reduced a b)
  gcd : ∀ a b, Stops (A.gcd a b)
  lcm : ∀ a b, Stops (A.lcm a b)
  extendedGcd : ∀ a b, Stops (A.extendedGcd a b)
  relativePrimes : ∀ a b, Stops (A.relativePrimes a b)

/-- `trait Field` -/
structure StopsField (A : FieldOps E) : Prop extends StopsUnitaryRing A.toUnitaryRingOps where
  inv : ∀ a, Stops (A.inv a)
  div : ∀ a b, Stops (A.div a b)
  power : ∀ n a, Stops (A.power n a)

/-- `trait PartialOrder` -/
structure StopsPartialOrder (A : PartialOrderOps E) : Prop extends StopsDomain A.toDomainOps where
  leq : ∀ a b, Stops (A.leq a b)
  lessThan : ∀ a b, Stops (A.lessThan a b)
  comparable : ∀ a b, Stops (A.comparable a b)

/-- `trait BoundedOrder` -/
structure StopsBoundedOrder (A : BoundedOrderOps E) : Prop
    extends StopsPartialOrder A.toPartialOrderOps where
  max : Stops A.max
  min : Stops A.min

/-- `trait Lattice` -/
structure StopsLattice (A : LatticeOps E) : Prop extends StopsPartialOrder A.toPartialOrderOps where
  meet : ∀ a b, Stops (A.meet a b)
  join : ∀ a b, Stops (A.join a b)

/-- `trait BooleanAlgebra` -/
structure StopsBooleanAlgebra (A : BooleanAlgebraOps E) : Prop
    extends StopsLattice A.toLatticeOps, StopsBoundedOrder A.toBoundedOrderOps where
  not : ∀ a, Stops (A.not a)

/-- The constants are not found to differ from themselves, nor zero to differ from zero. -/
structure SoundConstants (A : UnitaryRingOps E) : Prop where
  zero : ∀ z, A.zero = .ok z → A.equals z z ≠ .ok false
  isZero : ∀ z, A.zero = .ok z → A.isZero z ≠ .ok false
  one : ∀ z, A.one = .ok z → A.equals z z ≠ .ok false

end Abstalg
