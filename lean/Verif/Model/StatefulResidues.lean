import Verif.Model.Stateful

/-!
# Model of generic methods over a base with state: residues, fractions, groups and orders

See `Model/Stateful.lean`.
-/

set_option autoImplicit false

namespace Abstalg.Stateful

/-! ## quotient_ring.rs -/

namespace QuotientRing

variable [Cfg] {σ E : Type} (base : EuclideanDomainOps σ E) (modulo : E)

/-- quotient_ring.rs:38-51 `impl Domain`. -/
def domain : DomainOps σ E where
  -- quotient_ring.rs:44-46
  contains := fun e => base.reduced e modulo
  -- quotient_ring.rs:48-50
  equals := fun a b => base.equals a b

/-- quotient_ring.rs:57-59 `mul`. -/
def mul (a b : E) : St σ E := do base.rem (← base.mul a b) modulo

/-- quotient_ring.rs:53-104: `Semigroup`, `Monoid`, `CommuntativeMonoid`,
`AbelianGroup`, `SemiRing`, `UnitaryRing`. -/
def ops : UnitaryRingOps σ E where
  toDomainOps := domain base modulo
  mul := mul base modulo
  -- quotient_ring.rs:66-68
  one := base.one
  -- quotient_ring.rs:70-72
  isOne := fun e => base.isOne e
  -- quotient_ring.rs:74-77
  tryInv := fun e => do
    let (g, _, r) ← base.extendedGcd modulo e
    match ← base.tryInv g with
    | some a => return some (← mul base modulo a r)
    | none => return none
  -- quotient_ring.rs:84-86
  zero := base.zero
  -- quotient_ring.rs:88-90
  add := fun a b => do base.rem (← base.add a b) modulo
  -- quotient_ring.rs:97-99
  neg := fun a => do base.rem (← base.neg a) modulo

/-- quotient_ring.rs:22-25 `QuotientRing::new`. -/
def new : St σ (UnitaryRingOps σ E) := do
  Res.assert (← base.contains modulo)
  return ops base modulo

end QuotientRing

/-! ## quotient_field.rs -/

namespace QuotientField

variable [Cfg] {σ E : Type} (base : EuclideanDomainOps σ E) (modulo : E)

/-- quotient_field.rs:56-69 `impl Domain`. -/
def domain : DomainOps σ E where
  -- quotient_field.rs:62-64
  contains := fun e => base.reduced e modulo
  -- quotient_field.rs:66-68
  equals := fun a b => base.equals a b

/-- quotient_field.rs:75-77 `mul`. -/
def mul (a b : E) : St σ E := do base.rem (← base.mul a b) modulo

/-- `is_zero` is the default method traits.rs:71-73, with `zero` of
quotient_field.rs:109-111. -/
def isZero (a : E) : St σ Bool := do (domain base modulo).equals a (← base.zero)

/-- quotient_field.rs:135-140 `Field::inv`. -/
def inv (e : E) : St σ E := do
  Res.assert (!(← isZero base modulo e))
  let (g, _, r) ← base.extendedGcd modulo e
  let a ← Res.unwrap (← base.tryInv g)
  mul base modulo a r

/-- quotient_field.rs:71-141: `Semigroup`, `Monoid`, `CommuntativeMonoid`,
`AbelianGroup`, `SemiRing`, `UnitaryRing`, `Field`. -/
def ops : FieldOps σ E where
  toDomainOps := domain base modulo
  mul := mul base modulo
  -- quotient_field.rs:84-86
  one := base.one
  -- quotient_field.rs:88-90
  isOne := fun e => base.isOne e
  -- quotient_field.rs:92-98
  tryInv := fun e => do
    if ← isZero base modulo e then return none
    else return some (← inv base modulo e)
  -- quotient_field.rs:100-102
  invertible := fun e => do return !(← isZero base modulo e)
  -- quotient_field.rs:109-111
  zero := base.zero
  -- traits.rs:71-73 (default)
  isZero := isZero base modulo
  -- quotient_field.rs:113-115
  add := fun a b => do base.rem (← base.add a b) modulo
  -- quotient_field.rs:122-124
  neg := fun a => do base.rem (← base.neg a) modulo
  inv := inv base modulo

/-- quotient_field.rs:38-43 `QuotientField::new`. -/
def new : St σ (FieldOps σ E) := do
  Res.assert (← base.contains modulo)
  let one ← base.one
  Res.assert (← base.isZero (← base.rem one one))
  return ops base modulo

end QuotientField

/-! ## reduced_fractions.rs -/

namespace ReducedFractions

variable [Cfg] {σ E : Type} (base : EuclideanDomainOps σ E)

/-- reduced_fractions.rs:39-51 `reduce`. -/
def reduce (elem : E × E) : St σ (E × E) := do
  Res.assert (!(← base.isZero elem.2))
  let gcd ← base.gcd elem.1 elem.2
  let numer ← base.quo elem.1 gcd
  let denom ← base.quo elem.2 gcd
  let coef ← base.associateCoef denom
  if !(← base.isOne coef) then
    return (← base.mul numer coef, ← base.mul denom coef)
  else return (numer, denom)

/-- reduced_fractions.rs:54-69 `impl Domain`. -/
def domain : DomainOps σ (E × E) where
  -- reduced_fractions.rs:60-63
  contains := fun e => do
    if ← base.relativePrimes e.1 e.2 then base.isOne (← base.associateCoef e.2)
    else return false
  -- reduced_fractions.rs:65-68
  equals := fun a b => do
    if ← base.equals a.1 b.1 then base.equals a.2 b.2 else return false

/-- reduced_fractions.rs:105-107 `invertible`. -/
def invertible (e : E × E) : St σ Bool := do return !(← base.isZero e.1)

/-- reduced_fractions.rs:71-174: `Semigroup`, `Monoid`, `CommuntativeMonoid`,
`AbelianGroup`, `SemiRing`, `UnitaryRing`, `Field`. -/
def ops : FieldOps σ (E × E) where
  toDomainOps := domain base
  -- reduced_fractions.rs:75-81
  mul := fun a b => do
    let n ← base.mul a.1 b.1
    let d ← base.mul a.2 b.2
    reduce base (n, d)
  -- reduced_fractions.rs:88-90
  one := do return (← base.one, ← base.one)
  -- reduced_fractions.rs:92-94
  isOne := fun e => do if ← base.isOne e.1 then base.isOne e.2 else return false
  -- reduced_fractions.rs:96-103
  tryInv := fun e => do
    if ← invertible base e then return some (← reduce base (e.2, e.1))
    else return none
  invertible := invertible base
  -- reduced_fractions.rs:114-116
  zero := do return (← base.zero, ← base.one)
  -- reduced_fractions.rs:118-134
  add := fun a b => do
    if ← base.equals a.2 b.2 then
      let n ← base.add a.1 b.1
      reduce base (n, a.2)
    else
      let x ← base.mul a.1 b.2
      let y ← base.mul a.2 b.1
      let n ← base.add x y
      let d ← base.mul a.2 b.2
      reduce base (n, d)
  -- reduced_fractions.rs:141-143
  neg := fun a => do return (← base.neg a.1, a.2)
  -- reduced_fractions.rs:145-151
  times := fun num a => do
    let n ← base.times num a.1
    reduce base (n, a.2)
  -- reduced_fractions.rs:162-173
  inv := fun e => do
    Res.assert (!(← base.isZero e.1))
    let numer := e.2
    let denom := e.1
    let coef ← base.associateCoef denom
    if !(← base.isOne coef) then
      return (← base.mul numer coef, ← base.mul denom coef)
    else return (numer, denom)

/-- reduced_fractions.rs:28-31 `ReducedFractions::new`. -/
def new : St σ (FieldOps σ (E × E)) := do
  Res.assert (!(← base.isZero (← base.one)))
  return ops base

end ReducedFractions

/-! ## additive_group.rs -/

namespace AdditiveGroup

variable [Cfg] {σ E : Type}

/-- additive_group.rs:30-90; `power` is the default of traits.rs:114-131. -/
def ops (base : AbelianGroupOps σ E) : GroupOps σ E where
  -- additive_group.rs:36-38
  contains := fun e => base.contains e
  -- additive_group.rs:40-42
  equals := fun a b => base.equals a b
  -- additive_group.rs:49-51
  mul := fun a b => base.add a b
  -- additive_group.rs:53-55
  mulAssign := fun a b => base.addAssign a b
  -- additive_group.rs:57-59
  square := fun a => base.double a
  -- additive_group.rs:66-68
  one := base.zero
  -- additive_group.rs:70-72
  isOne := fun e => base.isZero e
  -- additive_group.rs:74-76
  tryInv := fun e => do return some (← base.neg e)
  -- additive_group.rs:78-80
  invertible := fun _ => pure true
  -- additive_group.rs:87-89
  inv := fun e => base.neg e

end AdditiveGroup

/-! ## multiplicative_group.rs -/

namespace MultiplicativeGroup

variable [Cfg] {σ E : Type}

/-- multiplicative_group.rs:31-91; `power` is the default of traits.rs:114-131. -/
def ops (base : MonoidOps σ E) : GroupOps σ E where
  -- multiplicative_group.rs:37-39
  contains := fun e => base.invertible e
  -- multiplicative_group.rs:41-43
  equals := fun a b => base.equals a b
  -- multiplicative_group.rs:50-52
  mul := fun a b => base.mul a b
  -- multiplicative_group.rs:54-56
  mulAssign := fun a b => base.mulAssign a b
  -- multiplicative_group.rs:58-60
  square := fun a => base.square a
  -- multiplicative_group.rs:67-69
  one := base.one
  -- multiplicative_group.rs:71-73
  isOne := fun e => base.isOne e
  -- multiplicative_group.rs:75-77
  tryInv := fun e => base.tryInv e
  -- multiplicative_group.rs:79-81
  invertible := fun _ => pure true
  -- multiplicative_group.rs:88-90
  inv := fun e => do Res.unwrap (← base.tryInv e)

end MultiplicativeGroup

/-! ## divisibility_order.rs -/

namespace DivisibilityOrder

variable [Cfg] {σ E : Type}

/-- divisibility_order.rs:31-41 `impl Domain`. -/
def domain (base : IntegralDomainOps σ E) : DomainOps σ E where
  -- divisibility_order.rs:34-36
  contains := fun e => do
    if ← base.isZero e then return true else base.isOne (← base.associateCoef e)
  -- divisibility_order.rs:38-40
  equals := fun a b => base.equals a b

/-- divisibility_order.rs:43-57 `impl PartialOrder`, `BoundedOrder`. -/
def boundedOrder (base : IntegralDomainOps σ E) : BoundedOrderOps σ E where
  toDomainOps := domain base
  -- divisibility_order.rs:44-46
  leq := fun a b => base.divisible b a
  -- divisibility_order.rs:50-52
  max := base.zero
  -- divisibility_order.rs:54-56
  min := base.one

/-- divisibility_order.rs:59-71 `impl Lattice`, `DistributiveLattice`. -/
def lattice (base : EuclideanDomainOps σ E) : LatticeOps σ E where
  toPartialOrderOps := (boundedOrder base.toIntegralDomainOps).toPartialOrderOps
  -- divisibility_order.rs:60-63
  meet := fun a b => do base.associateRepr (← base.gcd a b)
  -- divisibility_order.rs:65-68
  join := fun a b => do base.associateRepr (← base.lcm a b)

end DivisibilityOrder

end Abstalg.Stateful
