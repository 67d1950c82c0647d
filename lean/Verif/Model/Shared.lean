import Verif.Model.Stateful

/-! # A base that is used by others at the same time

The methods take `&self`, so that a base with state behind a lock or in atomic variables can be used by several threads.
Between two calls that a method makes, and before the first, the others can change the state. The state that a computation
finds here is that of the base together with all that the others are going to do: `e 0` happens before the next call, `e 1`
before the one after it, and so on. Each call of the base by itself is one step, as it is if the base holds a lock during
the call; a panic inside a call does not make later calls panic (a poisoned lock is not modelled). -/

set_option autoImplicit false

namespace Abstalg.Stateful

/-- The state of the base, and what the others do to it before each of the calls to come. -/
abbrev Shared (σ : Type) : Type := σ × (Nat → σ → σ)

/-- A call of the base: the others make their steps first, then the call is made. -/
def St.shared {σ α : Type} (x : St σ α) : St (Shared σ) α := fun p =>
  match x (p.2 0 p.1) with
  | .ok a t => .ok a (t, fun n => p.2 (n + 1))
  | .panic t => .panic (t, fun n => p.2 (n + 1))
  | .diverge => .diverge

/-- What a call does to the state. A call that never returns is counted as none. -/
def St.effect {σ α : Type} (x : St σ α) : σ → σ := fun s =>
  match x s with
  | .ok _ t => t
  | .panic t => t
  | .diverge => s

variable {σ E : Type}

/-- `trait Domain`, called while others use the same base. -/
def DomainOps.shared (A : DomainOps σ E) : DomainOps (Shared σ) E where
  contains := fun a => (A.contains a).shared
  equals := fun a b => (A.equals a b).shared

/-- `trait Semigroup`, called while others use the same base. -/
def SemigroupOps.shared (A : SemigroupOps σ E) : SemigroupOps (Shared σ) E where
  contains := fun a => (A.contains a).shared
  equals := fun a b => (A.equals a b).shared
  mul := fun a b => (A.mul a b).shared
  mulAssign := fun a b => (A.mulAssign a b).shared
  square := fun a => (A.square a).shared

/-- `trait Monoid`, called while others use the same base. -/
def MonoidOps.shared (A : MonoidOps σ E) : MonoidOps (Shared σ) E where
  contains := fun a => (A.contains a).shared
  equals := fun a b => (A.equals a b).shared
  mul := fun a b => (A.mul a b).shared
  mulAssign := fun a b => (A.mulAssign a b).shared
  square := fun a => (A.square a).shared
  one := (A.one).shared
  isOne := fun a => (A.isOne a).shared
  tryInv := fun a => (A.tryInv a).shared
  invertible := fun a => (A.invertible a).shared

/-- `trait CommuntativeMonoid`, called while others use the same base. -/
def CommutativeMonoidOps.shared (A : CommutativeMonoidOps σ E) : CommutativeMonoidOps (Shared σ) E where
  contains := fun a => (A.contains a).shared
  equals := fun a b => (A.equals a b).shared
  zero := (A.zero).shared
  isZero := fun a => (A.isZero a).shared
  add := fun a b => (A.add a b).shared
  addAssign := fun a b => (A.addAssign a b).shared
  double := fun a => (A.double a).shared
  utimes := fun n a => (A.utimes n a).shared

/-- `trait Group`, called while others use the same base. -/
def GroupOps.shared [Cfg] (A : GroupOps σ E) : GroupOps (Shared σ) E where
  contains := fun a => (A.contains a).shared
  equals := fun a b => (A.equals a b).shared
  mul := fun a b => (A.mul a b).shared
  mulAssign := fun a b => (A.mulAssign a b).shared
  square := fun a => (A.square a).shared
  one := (A.one).shared
  isOne := fun a => (A.isOne a).shared
  tryInv := fun a => (A.tryInv a).shared
  invertible := fun a => (A.invertible a).shared
  inv := fun a => (A.inv a).shared
  power := fun n a => (A.power n a).shared

/-- `trait AbelianGroup`, called while others use the same base. -/
def AbelianGroupOps.shared [Cfg] (A : AbelianGroupOps σ E) : AbelianGroupOps (Shared σ) E where
  contains := fun a => (A.contains a).shared
  equals := fun a b => (A.equals a b).shared
  zero := (A.zero).shared
  isZero := fun a => (A.isZero a).shared
  add := fun a b => (A.add a b).shared
  addAssign := fun a b => (A.addAssign a b).shared
  double := fun a => (A.double a).shared
  utimes := fun n a => (A.utimes n a).shared
  neg := fun a => (A.neg a).shared
  negAssign := fun a => (A.negAssign a).shared
  sub := fun a b => (A.sub a b).shared
  subAssign := fun a b => (A.subAssign a b).shared
  times := fun n a => (A.times n a).shared

/-- `trait SemiRing`, called while others use the same base. -/
def SemiRingOps.shared (A : SemiRingOps σ E) : SemiRingOps (Shared σ) E where
  contains := fun a => (A.contains a).shared
  equals := fun a b => (A.equals a b).shared
  zero := (A.zero).shared
  isZero := fun a => (A.isZero a).shared
  add := fun a b => (A.add a b).shared
  addAssign := fun a b => (A.addAssign a b).shared
  double := fun a => (A.double a).shared
  utimes := fun n a => (A.utimes n a).shared
  mul := fun a b => (A.mul a b).shared
  mulAssign := fun a b => (A.mulAssign a b).shared
  square := fun a => (A.square a).shared
  one := (A.one).shared
  isOne := fun a => (A.isOne a).shared
  tryInv := fun a => (A.tryInv a).shared
  invertible := fun a => (A.invertible a).shared

/-- `trait UnitaryRing`, called while others use the same base. -/
def UnitaryRingOps.shared [Cfg] (A : UnitaryRingOps σ E) : UnitaryRingOps (Shared σ) E where
  contains := fun a => (A.contains a).shared
  equals := fun a b => (A.equals a b).shared
  zero := (A.zero).shared
  isZero := fun a => (A.isZero a).shared
  add := fun a b => (A.add a b).shared
  addAssign := fun a b => (A.addAssign a b).shared
  double := fun a => (A.double a).shared
  utimes := fun n a => (A.utimes n a).shared
  mul := fun a b => (A.mul a b).shared
  mulAssign := fun a b => (A.mulAssign a b).shared
  square := fun a => (A.square a).shared
  one := (A.one).shared
  isOne := fun a => (A.isOne a).shared
  tryInv := fun a => (A.tryInv a).shared
  invertible := fun a => (A.invertible a).shared
  neg := fun a => (A.neg a).shared
  negAssign := fun a => (A.negAssign a).shared
  sub := fun a b => (A.sub a b).shared
  subAssign := fun a b => (A.subAssign a b).shared
  times := fun n a => (A.times n a).shared
  int := fun n => (A.int n).shared

/-- `trait IntegralDomain`, called while others use the same base. -/
def IntegralDomainOps.shared [Cfg] (A : IntegralDomainOps σ E) : IntegralDomainOps (Shared σ) E where
  contains := fun a => (A.contains a).shared
  equals := fun a b => (A.equals a b).shared
  zero := (A.zero).shared
  isZero := fun a => (A.isZero a).shared
  add := fun a b => (A.add a b).shared
  addAssign := fun a b => (A.addAssign a b).shared
  double := fun a => (A.double a).shared
  utimes := fun n a => (A.utimes n a).shared
  mul := fun a b => (A.mul a b).shared
  mulAssign := fun a b => (A.mulAssign a b).shared
  square := fun a => (A.square a).shared
  one := (A.one).shared
  isOne := fun a => (A.isOne a).shared
  tryInv := fun a => (A.tryInv a).shared
  invertible := fun a => (A.invertible a).shared
  neg := fun a => (A.neg a).shared
  negAssign := fun a => (A.negAssign a).shared
  sub := fun a b => (A.sub a b).shared
  subAssign := fun a b => (A.subAssign a b).shared
  times := fun n a => (A.times n a).shared
  int := fun n => (A.int n).shared
  tryDiv := fun a b => (A.tryDiv a b).shared
  divisible := fun a b => (A.divisible a b).shared
  associates := fun a b => (A.associates a b).shared
  associateRepr := fun a => (A.associateRepr a).shared
  associateCoef := fun a => (A.associateCoef a).shared

/-- `trait EuclideanDomain`, called while others use the same base. -/
def EuclideanDomainOps.shared [Cfg] (A : EuclideanDomainOps σ E) : EuclideanDomainOps (Shared σ) E where
  contains := fun a => (A.contains a).shared
  equals := fun a b => (A.equals a b).shared
  zero := (A.zero).shared
  isZero := fun a => (A.isZero a).shared
  add := fun a b => (A.add a b).shared
  addAssign := fun a b => (A.addAssign a b).shared
  double := fun a => (A.double a).shared
  utimes := fun n a => (A.utimes n a).shared
  mul := fun a b => (A.mul a b).shared
  mulAssign := fun a b => (A.mulAssign a b).shared
  square := fun a => (A.square a).shared
  one := (A.one).shared
  isOne := fun a => (A.isOne a).shared
  tryInv := fun a => (A.tryInv a).shared
  invertible := fun a => (A.invertible a).shared
  neg := fun a => (A.neg a).shared
  negAssign := fun a => (A.negAssign a).shared
  sub := fun a b => (A.sub a b).shared
  subAssign := fun a b => (A.subAssign a b).shared
  times := fun n a => (A.times n a).shared
  int := fun n => (A.int n).shared
  tryDiv := fun a b => (A.tryDiv a b).shared
  divisible := fun a b => (A.divisible a b).shared
  associates := fun a b => (A.associates a b).shared
  associateRepr := fun a => (A.associateRepr a).shared
  associateCoef := fun a => (A.associateCoef a).shared
  quoRem := fun a b => (A.quoRem a b).shared
  quo := fun a b => (A.quo a b).shared
  rem := fun a b => (A.rem a b).shared
  reduced := fun a b => (A.reduced a b).shared
  gcd := fun a b => (A.gcd a b).shared
  lcm := fun a b => (A.lcm a b).shared
  extendedGcd := fun a b => (A.extendedGcd a b).shared
  relativePrimes := fun a b => (A.relativePrimes a b).shared

/-- `trait Field`, called while others use the same base. -/
def FieldOps.shared [Cfg] (A : FieldOps σ E) : FieldOps (Shared σ) E where
  contains := fun a => (A.contains a).shared
  equals := fun a b => (A.equals a b).shared
  zero := (A.zero).shared
  isZero := fun a => (A.isZero a).shared
  add := fun a b => (A.add a b).shared
  addAssign := fun a b => (A.addAssign a b).shared
  double := fun a => (A.double a).shared
  utimes := fun n a => (A.utimes n a).shared
  mul := fun a b => (A.mul a b).shared
  mulAssign := fun a b => (A.mulAssign a b).shared
  square := fun a => (A.square a).shared
  one := (A.one).shared
  isOne := fun a => (A.isOne a).shared
  tryInv := fun a => (A.tryInv a).shared
  invertible := fun a => (A.invertible a).shared
  neg := fun a => (A.neg a).shared
  negAssign := fun a => (A.negAssign a).shared
  sub := fun a b => (A.sub a b).shared
  subAssign := fun a b => (A.subAssign a b).shared
  times := fun n a => (A.times n a).shared
  int := fun n => (A.int n).shared
  inv := fun a => (A.inv a).shared
  div := fun a b => (A.div a b).shared
  power := fun n a => (A.power n a).shared

/-- `trait PartialOrder`, called while others use the same base. -/
def PartialOrderOps.shared (A : PartialOrderOps σ E) : PartialOrderOps (Shared σ) E where
  contains := fun a => (A.contains a).shared
  equals := fun a b => (A.equals a b).shared
  leq := fun a b => (A.leq a b).shared
  lessThan := fun a b => (A.lessThan a b).shared
  comparable := fun a b => (A.comparable a b).shared

/-- `trait BoundedOrder`, called while others use the same base. -/
def BoundedOrderOps.shared (A : BoundedOrderOps σ E) : BoundedOrderOps (Shared σ) E where
  contains := fun a => (A.contains a).shared
  equals := fun a b => (A.equals a b).shared
  leq := fun a b => (A.leq a b).shared
  lessThan := fun a b => (A.lessThan a b).shared
  comparable := fun a b => (A.comparable a b).shared
  max := (A.max).shared
  min := (A.min).shared

/-- `trait Lattice`, called while others use the same base. -/
def LatticeOps.shared (A : LatticeOps σ E) : LatticeOps (Shared σ) E where
  contains := fun a => (A.contains a).shared
  equals := fun a b => (A.equals a b).shared
  leq := fun a b => (A.leq a b).shared
  lessThan := fun a b => (A.lessThan a b).shared
  comparable := fun a b => (A.comparable a b).shared
  meet := fun a b => (A.meet a b).shared
  join := fun a b => (A.join a b).shared

/-- `trait BooleanAlgebra`, called while others use the same base. -/
def BooleanAlgebraOps.shared (A : BooleanAlgebraOps σ E) : BooleanAlgebraOps (Shared σ) E where
  contains := fun a => (A.contains a).shared
  equals := fun a b => (A.equals a b).shared
  leq := fun a b => (A.leq a b).shared
  lessThan := fun a b => (A.lessThan a b).shared
  comparable := fun a b => (A.comparable a b).shared
  meet := fun a b => (A.meet a b).shared
  join := fun a b => (A.join a b).shared
  max := (A.max).shared
  min := (A.min).shared
  not := fun a => (A.not a).shared

end Abstalg.Stateful
