import Verif.Model.Stateful

/-! # Specification: bases with state and without laws

Nothing is assumed of the answers of the base: they may depend on the state, contradict each other and obey no law. `Limits`
says only what states there are, which of them a panic may leave and whether a call may never return; `S` says which elements
there are and `U` which of them the base divides by. The base `Keeps` the limits if every method does, on all operands with `S`,
and returns elements with `S` again; it may be asked to divide only by elements of which it has said that they are not zero. -/

set_option autoImplicit false

namespace Abstalg.Stateful

/-- The states between calls, the states that a panic may leave, and whether a call may never return. -/
structure Limits (σ : Type) where
  state : σ → Prop
  panic : σ → Prop
  diverge : Prop

/-- From every state within the limits the computation returns a value with `Q`, in such a state, or panics or does not return
as the limits allow. -/
def Yields {σ α : Type} (T : Limits σ) (Q : α → Prop) (x : St σ α) : Prop :=
  ∀ s, T.state s → match x s with
    | .ok a t => Q a ∧ T.state t
    | .panic t => T.panic t
    | .diverge => T.diverge

/-- Any value. -/
abbrev Answers {σ α : Type} (T : Limits σ) (x : St σ α) : Prop := Yields T (fun _ => True) x

/-- No value, or one with `S`. -/
def Maybe {α : Type} (S : α → Prop) (o : Option α) : Prop := ∀ a, o = some a → S a

/-- The numbers that `power` and `times` can negate. -/
def Negatable [Cfg] (n : Int) : Prop := Cfg.overflowChecks = true → n ≠ isizeMin

/-- The lists of a length, with elements with `S`. -/
def Vec {E : Type} (S : E → Prop) (len : Nat) (v : List E) : Prop := v.length = len ∧ ∀ a ∈ v, S a

/-- The lists of elements with `S`. -/
def Each {E : Type} (S : E → Prop) (v : List E) : Prop := ∀ a ∈ v, S a

variable {σ E : Type} (T : Limits σ) (S U : E → Prop)

/-- `trait Domain` -/
structure KeepsDomain (A : DomainOps σ E) : Prop where
  contains : ∀ {a}, S a → Answers T (A.contains a)
  equals : ∀ {a b}, S a → S b → Answers T (A.equals a b)

/-- `trait Semigroup` -/
structure KeepsSemigroup (A : SemigroupOps σ E) : Prop extends KeepsDomain T S A.toDomainOps where
  mul : ∀ {a b}, S a → S b → Yields T S (A.mul a b)
  mulAssign : ∀ {a b}, S a → S b → Yields T S (A.mulAssign a b)
  square : ∀ {a}, S a → Yields T S (A.square a)

/-- `trait Monoid` -/
structure KeepsMonoid (A : MonoidOps σ E) : Prop extends KeepsSemigroup T S A.toSemigroupOps where
  one : Yields T S A.one
  isOne : ∀ {a}, S a → Answers T (A.isOne a)
  tryInv : ∀ {a}, S a → Yields T (Maybe S) (A.tryInv a)
  invertible : ∀ {a}, S a → Answers T (A.invertible a)

/-- `trait Group` -/
structure KeepsGroup [Cfg] (A : GroupOps σ E) : Prop extends KeepsMonoid T S A.toMonoidOps where
  inv : ∀ {a}, S a → Yields T S (A.inv a)
  power : ∀ {n a}, Negatable n → S a → Yields T S (A.power n a)

/-- `trait CommuntativeMonoid` -/
structure KeepsCommutativeMonoid (A : CommutativeMonoidOps σ E) : Prop extends KeepsDomain T S A.toDomainOps where
  zero : Yields T S A.zero
  isZero : ∀ {a}, S a → Answers T (A.isZero a)
  add : ∀ {a b}, S a → S b → Yields T S (A.add a b)
  addAssign : ∀ {a b}, S a → S b → Yields T S (A.addAssign a b)
  double : ∀ {a}, S a → Yields T S (A.double a)
  utimes : ∀ {n a}, S a → Yields T S (A.utimes n a)

/-- `trait AbelianGroup` -/
structure KeepsAbelianGroup [Cfg] (A : AbelianGroupOps σ E) : Prop
    extends KeepsCommutativeMonoid T S A.toCommutativeMonoidOps where
  neg : ∀ {a}, S a → Yields T S (A.neg a)
  negAssign : ∀ {a}, S a → Yields T S (A.negAssign a)
  sub : ∀ {a b}, S a → S b → Yields T S (A.sub a b)
  subAssign : ∀ {a b}, S a → S b → Yields T S (A.subAssign a b)
  times : ∀ {n a}, Negatable n → S a → Yields T S (A.times n a)

/-- `trait SemiRing` -/
structure KeepsSemiRing (A : SemiRingOps σ E) : Prop
    extends KeepsCommutativeMonoid T S A.toCommutativeMonoidOps, KeepsMonoid T S A.toMonoidOps

/-- `trait UnitaryRing` -/
structure KeepsUnitaryRing [Cfg] (A : UnitaryRingOps σ E) : Prop
    extends KeepsSemiRing T S A.toSemiRingOps, KeepsAbelianGroup T S A.toAbelianGroupOps where
  int : ∀ {n}, Negatable n → Yields T S (A.int n)

/-- `trait IntegralDomain` -/
structure KeepsIntegralDomain [Cfg] (A : IntegralDomainOps σ E) : Prop extends KeepsUnitaryRing T S A.toUnitaryRingOps where
  /-- Elements that are not called zero may be divided by. -/
  nonzero : ∀ {a}, S a → Yields T (fun b => b = false → U a) (A.isZero a)
  tryDiv : ∀ {a b}, S a → U b → Yields T (Maybe S) (A.tryDiv a b)
  divisible : ∀ {a b}, S a → S b → Answers T (A.divisible a b)
  associates : ∀ {a b}, S a → S b → Answers T (A.associates a b)
  associateRepr : ∀ {a}, S a → Yields T S (A.associateRepr a)
  associateCoef : ∀ {a}, U a → Yields T S (A.associateCoef a)

/-- `trait EuclideanDomain` -/
structure KeepsEuclideanDomain [Cfg] (A : EuclideanDomainOps σ E) : Prop
    extends KeepsIntegralDomain T S U A.toIntegralDomainOps where
  quoRem : ∀ {a b}, S a → U b → Yields T (fun p => S p.1 ∧ S p.2) (A.quoRem a b)
  quo : ∀ {a b}, S a → U b → Yields T S (A.quo a b)
  rem : ∀ {a b}, S a → U b → Yields T S (A.rem a b)
  reduced : ∀ {a b}, S a → S b → Answers T (A.reduced a b)
  gcd : ∀ {a b}, S a → S b → Yields T S (A.gcd a b)
  lcm : ∀ {a b}, S a → S b → Yields T S (A.lcm a b)
  extendedGcd : ∀ {a b}, S a → S b → Yields T (fun p => S p.1 ∧ S p.2.1 ∧ S p.2.2) (A.extendedGcd a b)
  relativePrimes : ∀ {a b}, S a → S b → Answers T (A.relativePrimes a b)

/-- `trait Field` -/
structure KeepsField [Cfg] (A : FieldOps σ E) : Prop extends KeepsUnitaryRing T S A.toUnitaryRingOps where
  /-- Elements that are not called zero may be divided by. -/
  nonzero : ∀ {a}, S a → Yields T (fun b => b = false → U a) (A.isZero a)
  inv : ∀ {a}, U a → Yields T S (A.inv a)
  div : ∀ {a b}, S a → U b → Yields T S (A.div a b)
  power : ∀ {n a}, Negatable n → S a → Yields T S (A.power n a)

/-- `trait PartialOrder` -/
structure KeepsPartialOrder (A : PartialOrderOps σ E) : Prop extends KeepsDomain T S A.toDomainOps where
  leq : ∀ {a b}, S a → S b → Answers T (A.leq a b)
  lessThan : ∀ {a b}, S a → S b → Answers T (A.lessThan a b)
  comparable : ∀ {a b}, S a → S b → Answers T (A.comparable a b)

/-- `trait BoundedOrder` -/
structure KeepsBoundedOrder (A : BoundedOrderOps σ E) : Prop extends KeepsPartialOrder T S A.toPartialOrderOps where
  max : Yields T S A.max
  min : Yields T S A.min

/-- `trait Lattice` -/
structure KeepsLattice (A : LatticeOps σ E) : Prop extends KeepsPartialOrder T S A.toPartialOrderOps where
  meet : ∀ {a b}, S a → S b → Yields T S (A.meet a b)
  join : ∀ {a b}, S a → S b → Yields T S (A.join a b)

/-- `trait BooleanAlgebra` -/
structure KeepsBooleanAlgebra (A : BooleanAlgebraOps σ E) : Prop
    extends KeepsLattice T S A.toLatticeOps, KeepsBoundedOrder T S A.toBoundedOrderOps where
  not : ∀ {a}, S a → Yields T S (A.not a)

/-! ## A mark left by the panics of the base -/

/-- The same computation with a mark beside the state, that is set by a panic. -/
def marked {σ α : Type} (x : St σ α) : St (σ × Bool) α := fun s =>
  match x s.1 with
  | .ok a t => .ok a (t, s.2)
  | .panic t => .panic (t, true)
  | .diverge => .diverge

/-- The mark is not set between calls, and set after a panic; anything may not return. -/
def Limits.mark (σ : Type) : Limits (σ × Bool) := ⟨fun s => s.2 = false, fun s => s.2 = true, True⟩

/-- A field whose own panics, and no others, set the mark. -/
def FieldOps.marked [Cfg] {σ E : Type} (A : FieldOps σ E) : FieldOps (σ × Bool) E where
  contains := fun a => Stateful.marked (A.contains a)
  equals := fun a b => Stateful.marked (A.equals a b)
  mul := fun a b => Stateful.marked (A.mul a b)
  mulAssign := fun a b => Stateful.marked (A.mulAssign a b)
  square := fun a => Stateful.marked (A.square a)
  one := Stateful.marked A.one
  isOne := fun a => Stateful.marked (A.isOne a)
  tryInv := fun a => Stateful.marked (A.tryInv a)
  invertible := fun a => Stateful.marked (A.invertible a)
  zero := Stateful.marked A.zero
  isZero := fun a => Stateful.marked (A.isZero a)
  add := fun a b => Stateful.marked (A.add a b)
  addAssign := fun a b => Stateful.marked (A.addAssign a b)
  double := fun a => Stateful.marked (A.double a)
  utimes := fun n a => Stateful.marked (A.utimes n a)
  neg := fun a => Stateful.marked (A.neg a)
  negAssign := fun a => Stateful.marked (A.negAssign a)
  sub := fun a b => Stateful.marked (A.sub a b)
  subAssign := fun a b => Stateful.marked (A.subAssign a b)
  times := fun n a => Stateful.marked (A.times n a)
  int := fun n => Stateful.marked (A.int n)
  inv := fun a => Stateful.marked (A.inv a)
  div := fun a b => Stateful.marked (A.div a b)
  power := fun n a => Stateful.marked (A.power n a)

end Abstalg.Stateful
