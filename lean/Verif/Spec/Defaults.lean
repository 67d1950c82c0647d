import Verif.Model.Traits

/-!
# Implementations without their overrides

`A.withDefaults` is the implementation `A` after deleting every method that the trait provides:
only the required methods of `A` (and `contains`) are kept, all others are the default methods of
`src/traits.rs`, computed from them.
-/

set_option autoImplicit false

namespace Abstalg

variable {E : Type}

/-- `trait Monoid` -/
def MonoidOps.withDefaults (A : MonoidOps E) : MonoidOps E where
  contains := A.contains
  equals := A.equals
  mul := A.mul
  one := A.one
  tryInv := A.tryInv

/-- `trait CommuntativeMonoid` -/
def CommutativeMonoidOps.withDefaults (A : CommutativeMonoidOps E) : CommutativeMonoidOps E where
  contains := A.contains
  equals := A.equals
  zero := A.zero
  add := A.add

/-- `trait SemiRing` -/
def SemiRingOps.withDefaults (A : SemiRingOps E) : SemiRingOps E where
  contains := A.contains
  equals := A.equals
  zero := A.zero
  add := A.add
  mul := A.mul
  one := A.one
  tryInv := A.tryInv

/-- `trait Group` -/
def GroupOps.withDefaults [Cfg] (A : GroupOps E) : GroupOps E where
  contains := A.contains
  equals := A.equals
  mul := A.mul
  one := A.one
  tryInv := A.tryInv

/-- `trait AbelianGroup` -/
def AbelianGroupOps.withDefaults [Cfg] (A : AbelianGroupOps E) : AbelianGroupOps E where
  contains := A.contains
  equals := A.equals
  zero := A.zero
  add := A.add
  neg := A.neg

/-- `trait UnitaryRing` -/
def UnitaryRingOps.withDefaults [Cfg] (A : UnitaryRingOps E) : UnitaryRingOps E where
  contains := A.contains
  equals := A.equals
  zero := A.zero
  add := A.add
  mul := A.mul
  one := A.one
  tryInv := A.tryInv
  neg := A.neg

/-- `trait EuclideanDomain` -/
def EuclideanDomainOps.withDefaults [Cfg] (A : EuclideanDomainOps E) : EuclideanDomainOps E where
  contains := A.contains
  equals := A.equals
  zero := A.zero
  add := A.add
  mul := A.mul
  one := A.one
  tryInv := A.tryInv
  neg := A.neg
  tryDiv := A.tryDiv
  associateRepr := A.associateRepr
  associateCoef := A.associateCoef
  quoRem := A.quoRem

/-- `trait Field` -/
def FieldOps.withDefaults [Cfg] (A : FieldOps E) : FieldOps E where
  contains := A.contains
  equals := A.equals
  zero := A.zero
  add := A.add
  mul := A.mul
  one := A.one
  tryInv := A.tryInv
  neg := A.neg
  inv := A.inv

/-- `trait Lattice` -/
def LatticeOps.withDefaults (A : LatticeOps E) : LatticeOps E where
  contains := A.contains
  equals := A.equals
  leq := A.leq
  meet := A.meet
  join := A.join

/-- `trait BooleanAlgebra` -/
def BooleanAlgebraOps.withDefaults (A : BooleanAlgebraOps E) : BooleanAlgebraOps E where
  contains := A.contains
  equals := A.equals
  leq := A.leq
  meet := A.meet
  join := A.join
  max := A.max
  min := A.min
  not := A.not

end Abstalg
