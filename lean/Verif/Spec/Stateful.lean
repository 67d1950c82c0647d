import Verif.Spec.Simulation
import Verif.Model.Stateful

/-! # Specification: a base with state that behaves like one without

`I` describes the states that the base can be in. A computation over the base *tracks* one without state if, begun in any
state with `I`, it does the same: it returns a value corresponding to the value of the other, or panics if the other does,
or never returns if the other never does; and the state that it leaves, also by a panic, has `I` again. -/

set_option autoImplicit false

namespace Abstalg.Stateful

/-- The outcome of a computation with state is that of one without, and the state left has `I`. -/
def Out.Matches {σ α β : Type} (I : σ → Prop) (r : α → β → Prop) : Out σ α → Res β → Prop
  | .ok a t, .ok b => r a b ∧ I t
  | .panic t, .panic => I t
  | .diverge, .diverge => True
  | _, _ => False

/-- From every state with `I` the first computation does what the second does. -/
def Tracks {σ α β : Type} (I : σ → Prop) (r : α → β → Prop) (x : St σ α) (y : Res β) : Prop :=
  ∀ s, I s → (x s).Matches I r y

variable {σ E F : Type} (I : σ → Prop) (r : E → F → Prop)

/-- `trait Domain` -/
structure TracksDomain (A : DomainOps σ E) (B : Abstalg.DomainOps F) : Prop where
  contains : ∀ {a a'}, r a a' → Tracks I Eq (A.contains a) (B.contains a')
  equals : ∀ {a b a' b'}, r a a' → r b b' → Tracks I Eq (A.equals a b) (B.equals a' b')

/-- `trait Semigroup` -/
structure TracksSemigroup (A : SemigroupOps σ E) (B : Abstalg.SemigroupOps F) : Prop
    extends TracksDomain I r A.toDomainOps B.toDomainOps where
  mul : ∀ {a b a' b'}, r a a' → r b b' → Tracks I r (A.mul a b) (B.mul a' b')
  mulAssign : ∀ {a b a' b'}, r a a' → r b b' → Tracks I r (A.mulAssign a b) (B.mulAssign a' b')
  square : ∀ {a a'}, r a a' → Tracks I r (A.square a) (B.square a')

/-- `trait Monoid` -/
structure TracksMonoid (A : MonoidOps σ E) (B : Abstalg.MonoidOps F) : Prop
    extends TracksSemigroup I r A.toSemigroupOps B.toSemigroupOps where
  one : Tracks I r A.one B.one
  isOne : ∀ {a a'}, r a a' → Tracks I Eq (A.isOne a) (B.isOne a')
  tryInv : ∀ {a a'}, r a a' → Tracks I (Option.Rel r) (A.tryInv a) (B.tryInv a')
  invertible : ∀ {a a'}, r a a' → Tracks I Eq (A.invertible a) (B.invertible a')

/-- `trait CommuntativeMonoid` -/
structure TracksCommutativeMonoid (A : CommutativeMonoidOps σ E) (B : Abstalg.CommutativeMonoidOps F) : Prop
    extends TracksDomain I r A.toDomainOps B.toDomainOps where
  zero : Tracks I r A.zero B.zero
  isZero : ∀ {a a'}, r a a' → Tracks I Eq (A.isZero a) (B.isZero a')
  add : ∀ {a b a' b'}, r a a' → r b b' → Tracks I r (A.add a b) (B.add a' b')
  addAssign : ∀ {a b a' b'}, r a a' → r b b' → Tracks I r (A.addAssign a b) (B.addAssign a' b')
  double : ∀ {a a'}, r a a' → Tracks I r (A.double a) (B.double a')
  utimes : ∀ n {a a'}, r a a' → Tracks I r (A.utimes n a) (B.utimes n a')

/-- `trait Group` -/
structure TracksGroup [Cfg] (A : GroupOps σ E) (B : Abstalg.GroupOps F) : Prop
    extends TracksMonoid I r (A.toMonoidOps) (B.toMonoidOps) where
  inv : ∀ {a a'}, r a a' → Tracks I r (A.inv a) (B.inv a')
  power : ∀ n {a a'}, r a a' → Tracks I r (A.power n a) (B.power n a')

/-- `trait AbelianGroup` -/
structure TracksAbelianGroup [Cfg] (A : AbelianGroupOps σ E) (B : Abstalg.AbelianGroupOps F) : Prop
    extends TracksCommutativeMonoid I r (A.toCommutativeMonoidOps) (B.toCommutativeMonoidOps) where
  neg : ∀ {a a'}, r a a' → Tracks I r (A.neg a) (B.neg a')
  negAssign : ∀ {a a'}, r a a' → Tracks I r (A.negAssign a) (B.negAssign a')
  sub : ∀ {a b a' b'}, r a a' → r b b' → Tracks I r (A.sub a b) (B.sub a' b')
  subAssign : ∀ {a b a' b'}, r a a' → r b b' → Tracks I r (A.subAssign a b) (B.subAssign a' b')
  times : ∀ n {a a'}, r a a' → Tracks I r (A.times n a) (B.times n a')

/-- `trait SemiRing` -/
structure TracksSemiRing (A : SemiRingOps σ E) (B : Abstalg.SemiRingOps F) : Prop
    extends TracksCommutativeMonoid I r A.toCommutativeMonoidOps B.toCommutativeMonoidOps,
      TracksMonoid I r A.toMonoidOps B.toMonoidOps

/-- `trait UnitaryRing` -/
structure TracksUnitaryRing [Cfg] (A : UnitaryRingOps σ E) (B : Abstalg.UnitaryRingOps F) : Prop
    extends TracksSemiRing I r (A.toSemiRingOps) (B.toSemiRingOps),
      TracksAbelianGroup I r (A.toAbelianGroupOps) (B.toAbelianGroupOps) where
  int : ∀ n, Tracks I r (A.int n) (B.int n)

/-- `trait IntegralDomain` -/
structure TracksIntegralDomain [Cfg] (A : IntegralDomainOps σ E) (B : Abstalg.IntegralDomainOps F) : Prop
    extends TracksUnitaryRing I r (A.toUnitaryRingOps) (B.toUnitaryRingOps) where
  tryDiv : ∀ {a b a' b'}, r a a' → r b b' →
    Tracks I (Option.Rel r) (A.tryDiv a b) (B.tryDiv a' b')
  divisible : ∀ {a b a' b'}, r a a' → r b b' → Tracks I Eq (A.divisible a b) (B.divisible a' b')
  associates : ∀ {a b a' b'}, r a a' → r b b' → Tracks I Eq (A.associates a b) (B.associates a' b')
  associateRepr : ∀ {a a'}, r a a' → Tracks I r (A.associateRepr a) (B.associateRepr a')
  associateCoef : ∀ {a a'}, r a a' → Tracks I r (A.associateCoef a) (B.associateCoef a')

/-- `trait EuclideanDomain` -/
structure TracksEuclideanDomain [Cfg] (A : EuclideanDomainOps σ E) (B : Abstalg.EuclideanDomainOps F) : Prop
    extends TracksIntegralDomain I r (A.toIntegralDomainOps) (B.toIntegralDomainOps) where
  quoRem : ∀ {a b a' b'}, r a a' → r b b' →
    Tracks I (fun p q => r p.1 q.1 ∧ r p.2 q.2) (A.quoRem a b) (B.quoRem a' b')
  quo : ∀ {a b a' b'}, r a a' → r b b' → Tracks I r (A.quo a b) (B.quo a' b')
  rem : ∀ {a b a' b'}, r a a' → r b b' → Tracks I r (A.rem a b) (B.rem a' b')
  reduced : ∀ {a b a' b'}, r a a' → r b b' → Tracks I Eq (A.reduced a b) (B.reduced a' b')
  gcd : ∀ {a b a' b'}, r a a' → r b b' → Tracks I r (A.gcd a b) (B.gcd a' b')
  lcm : ∀ {a b a' b'}, r a a' → r b b' → Tracks I r (A.lcm a b) (B.lcm a' b')
  extendedGcd : ∀ {a b a' b'}, r a a' → r b b' →
    Tracks I (fun p q => r p.1 q.1 ∧ r p.2.1 q.2.1 ∧ r p.2.2 q.2.2)
      (A.extendedGcd a b) (B.extendedGcd a' b')
  relativePrimes : ∀ {a b a' b'}, r a a' → r b b' →
    Tracks I Eq (A.relativePrimes a b) (B.relativePrimes a' b')

/-- `trait Field` -/
structure TracksField [Cfg] (A : FieldOps σ E) (B : Abstalg.FieldOps F) : Prop
    extends TracksUnitaryRing I r (A.toUnitaryRingOps) (B.toUnitaryRingOps) where
  inv : ∀ {a a'}, r a a' → Tracks I r (A.inv a) (B.inv a')
  div : ∀ {a b a' b'}, r a a' → r b b' → Tracks I r (A.div a b) (B.div a' b')
  power : ∀ n {a a'}, r a a' → Tracks I r (A.power n a) (B.power n a')

/-- `trait PartialOrder` -/
structure TracksPartialOrder (A : PartialOrderOps σ E) (B : Abstalg.PartialOrderOps F) : Prop
    extends TracksDomain I r A.toDomainOps B.toDomainOps where
  leq : ∀ {a b a' b'}, r a a' → r b b' → Tracks I Eq (A.leq a b) (B.leq a' b')
  lessThan : ∀ {a b a' b'}, r a a' → r b b' → Tracks I Eq (A.lessThan a b) (B.lessThan a' b')
  comparable : ∀ {a b a' b'}, r a a' → r b b' → Tracks I Eq (A.comparable a b) (B.comparable a' b')

/-- `trait BoundedOrder` -/
structure TracksBoundedOrder (A : BoundedOrderOps σ E) (B : Abstalg.BoundedOrderOps F) : Prop
    extends TracksPartialOrder I r A.toPartialOrderOps B.toPartialOrderOps where
  max : Tracks I r A.max B.max
  min : Tracks I r A.min B.min

/-- `trait Lattice` -/
structure TracksLattice (A : LatticeOps σ E) (B : Abstalg.LatticeOps F) : Prop
    extends TracksPartialOrder I r A.toPartialOrderOps B.toPartialOrderOps where
  meet : ∀ {a b a' b'}, r a a' → r b b' → Tracks I r (A.meet a b) (B.meet a' b')
  join : ∀ {a b a' b'}, r a a' → r b b' → Tracks I r (A.join a b) (B.join a' b')

/-- `trait BooleanAlgebra` -/
structure TracksBooleanAlgebra (A : BooleanAlgebraOps σ E) (B : Abstalg.BooleanAlgebraOps F) : Prop
    extends TracksLattice I r A.toLatticeOps B.toLatticeOps,
      TracksBoundedOrder I r A.toBoundedOrderOps B.toBoundedOrderOps where
  not : ∀ {a a'}, r a a' → Tracks I r (A.not a) (B.not a')

end Abstalg.Stateful
