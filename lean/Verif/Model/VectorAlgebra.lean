import Verif.Model.Traits

/-! # Model of `src/vector_algebra.rs` -/

set_option autoImplicit false

namespace Abstalg.VectorAlgebra

variable {E : Type} (len : Nat)

/-- vector_algebra.rs:39-41 `diagonal`. -/
def diagonal (e : E) : List E := List.replicate len e

/-- `elem.len() == self.len` -/
def lenIs (v : List E) : Bool := v.length == len

/-- The common shape of the coordinate-wise pure binary operations:
`assert!(lengths); elem1.iter().zip(elem2.iter()).map(f).collect()`. -/
def zipMap {F : Type} (f : E → E → Res F) (a b : List E) : Res (List F) := do
  Res.assert (lenIs len a && lenIs len b)
  mapRes (fun p => f p.1 p.2) (a.zip b)

/-- `assert!(lengths); elem1.iter().zip(elem2.iter()).all(p)`. -/
def zipAll (p : E → E → Res Bool) (a b : List E) : Res Bool := do
  Res.assert (lenIs len a && lenIs len b)
  allRes (fun q => p q.1 q.2) (a.zip b)

/-- `assert!(lengths); elem1.iter_mut().zip(elem2.iter()).for_each(f)`. -/
def zipEach (f : E → E → Res E) (a b : List E) : Res (List E) := do
  Res.assert (lenIs len a && lenIs len b)
  zipForEach f a b

/-- `assert!(length); elem.iter().map(f).collect()`, and also
`elem.iter_mut().for_each(f)`. -/
def mapEach (f : E → Res E) (a : List E) : Res (List E) := do
  Res.assert (lenIs len a)
  mapRes f a

/-- `assert!(length); elem.iter().all(p)`. -/
def allEach (p : E → Res Bool) (a : List E) : Res Bool := do
  Res.assert (lenIs len a)
  allRes p a

/-- vector_algebra.rs:44-65 `impl Domain`. -/
def domain (base : DomainOps E) : DomainOps (List E) where
  -- vector_algebra.rs:50-56
  contains := fun v =>
    if v.length != len then .ok false else allRes (fun a => base.contains a) v
  -- vector_algebra.rs:58-64
  equals := zipAll len base.equals

/-- vector_algebra.rs:67-92 `impl Semigroup`. -/
def semigroup (base : SemigroupOps E) : SemigroupOps (List E) where
  toDomainOps := domain len base.toDomainOps
  -- vector_algebra.rs:71-78
  mul := zipMap len base.mul
  -- vector_algebra.rs:80-86
  mulAssign := zipEach len base.mulAssign
  -- vector_algebra.rs:88-91
  square := mapEach len base.square

/-- vector_algebra.rs:110-117, the loop of `try_inv`; `v` holds the inverses
pushed so far. -/
def tryInvLoop (tryInv : E → Res (Option E)) : List E → List E → Res (Option (List E))
  | [], v => .ok (some v)
  | x :: l, v => do
    match ← tryInv x with
    | some y => tryInvLoop tryInv l (v ++ [y])
    | none => return none

/-- vector_algebra.rs:94-124 `impl Monoid`. -/
def monoid (base : MonoidOps E) : MonoidOps (List E) where
  toSemigroupOps := semigroup len base.toSemigroupOps
  -- vector_algebra.rs:98-100
  one := do return diagonal len (← base.one)
  -- vector_algebra.rs:102-105
  isOne := allEach len base.isOne
  -- vector_algebra.rs:107-118
  tryInv := fun v => do
    Res.assert (lenIs len v)
    tryInvLoop base.tryInv v []
  -- vector_algebra.rs:120-123
  invertible := allEach len base.invertible

/-- vector_algebra.rs:126-134 `impl Group`; `power` is the default. -/
def group [Cfg] (base : GroupOps E) : GroupOps (List E) where
  toMonoidOps := monoid len base.toMonoidOps
  -- vector_algebra.rs:130-133
  inv := mapEach len base.inv

/-- vector_algebra.rs:136-170 `impl CommuntativeMonoid`; `times` is the default. -/
def commutativeMonoid (base : CommutativeMonoidOps E) : CommutativeMonoidOps (List E) where
  toDomainOps := domain len base.toDomainOps
  -- vector_algebra.rs:140-142
  zero := do return diagonal len (← base.zero)
  -- vector_algebra.rs:144-147
  isZero := allEach len base.isZero
  -- vector_algebra.rs:149-156
  add := zipMap len base.add
  -- vector_algebra.rs:158-164
  addAssign := zipEach len base.addAssign
  -- vector_algebra.rs:166-169
  double := mapEach len base.double

/-- vector_algebra.rs:172-202 `impl AbelianGroup`; `times` is the default. -/
def abelianGroup [Cfg] (base : AbelianGroupOps E) : AbelianGroupOps (List E) where
  toCommutativeMonoidOps := commutativeMonoid len base.toCommutativeMonoidOps
  -- vector_algebra.rs:176-179
  neg := mapEach len base.neg
  -- vector_algebra.rs:181-184
  negAssign := mapEach len base.negAssign
  -- vector_algebra.rs:186-193
  sub := zipMap len base.sub
  -- vector_algebra.rs:195-201
  subAssign := zipEach len base.subAssign

/-- vector_algebra.rs:204 `impl SemiRing`. -/
def semiRing (base : SemiRingOps E) : SemiRingOps (List E) :=
  { commutativeMonoid len base.toCommutativeMonoidOps, monoid len base.toMonoidOps with }

/-- vector_algebra.rs:206-213 `impl UnitaryRing`. -/
def unitaryRing [Cfg] (base : UnitaryRingOps E) : UnitaryRingOps (List E) :=
  { semiRing len base.toSemiRingOps, abelianGroup len base.toAbelianGroupOps with
    -- vector_algebra.rs:210-212
    int := fun n => do return diagonal len (← base.int n) }

/-- vector_algebra.rs:215-226 `impl PartialOrder`. -/
def partialOrder (base : PartialOrderOps E) : PartialOrderOps (List E) where
  toDomainOps := domain len base.toDomainOps
  -- vector_algebra.rs:219-225
  leq := zipAll len base.leq

/-- vector_algebra.rs:228-239 `impl BoundedOrder`. -/
def boundedOrder (base : BoundedOrderOps E) : BoundedOrderOps (List E) where
  toPartialOrderOps := partialOrder len base.toPartialOrderOps
  -- vector_algebra.rs:232-234
  max := do return diagonal len (← base.max)
  -- vector_algebra.rs:236-238
  min := do return diagonal len (← base.min)

/-- vector_algebra.rs:241-264 `impl Lattice`, `DistributiveLattice`. -/
def lattice (base : LatticeOps E) : LatticeOps (List E) where
  toPartialOrderOps := partialOrder len base.toPartialOrderOps
  -- vector_algebra.rs:245-252
  meet := zipMap len base.meet
  -- vector_algebra.rs:254-261
  join := zipMap len base.join

/-- vector_algebra.rs:266-274 `impl BooleanAlgebra`. -/
def booleanAlgebra (base : BooleanAlgebraOps E) : BooleanAlgebraOps (List E) :=
  { lattice len base.toLatticeOps, boundedOrder len base.toBoundedOrderOps with
    -- vector_algebra.rs:270-273
    not := mapEach len base.not }

end Abstalg.VectorAlgebra
