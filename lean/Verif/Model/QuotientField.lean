import Verif.Model.CheckedInts

/-! # Model of `src/quotient_field.rs` -/

set_option autoImplicit false

namespace Abstalg.QuotientField

variable [Cfg] {E : Type} (base : EuclideanDomainOps E) (modulo : E)

/-- quotient_field.rs:56-69 `impl Domain`. -/
def domain : DomainOps E where
  -- quotient_field.rs:62-64
  contains := fun e => base.reduced e modulo
  -- quotient_field.rs:66-68
  equals := fun a b => base.equals a b

/-- quotient_field.rs:75-77 `mul`. -/
def mul (a b : E) : Res E := do base.rem (← base.mul a b) modulo

/-- `is_zero` is the default method traits.rs:71-73, with `zero` of
quotient_field.rs:109-111. -/
def isZero (a : E) : Res Bool := do (domain base modulo).equals a (← base.zero)

/-- quotient_field.rs:135-140 `Field::inv`. -/
def inv (e : E) : Res E := do
  Res.assert (!(← isZero base modulo e))
  let (g, _, r) ← base.extendedGcd modulo e
  let a ← Res.unwrap (← base.tryInv g)
  mul base modulo a r

/-- quotient_field.rs:71-141: `Semigroup`, `Monoid`, `CommuntativeMonoid`,
`AbelianGroup`, `SemiRing`, `UnitaryRing`, `Field`. -/
def ops : FieldOps E where
  toDomainOps := domain base modulo
  mul := mul base modulo
  -- quotient_field.rs:84-86
  one := base.one
  -- quotient_field.rs:88-90
  isOne := fun e => base.isOne e
  -- quotient_field.rs:92-98
  tryInv := fun e => do
    if ← isZero base modulo e then return none
    else return some (← inv base modulo e)
  -- quotient_field.rs:100-102
  invertible := fun e => do return !(← isZero base modulo e)
  -- quotient_field.rs:109-111
  zero := base.zero
  -- traits.rs:71-73 (default)
  isZero := isZero base modulo
  -- quotient_field.rs:113-115
  add := fun a b => do base.rem (← base.add a b) modulo
  -- quotient_field.rs:122-124
  neg := fun a => do base.rem (← base.neg a) modulo
  inv := inv base modulo

/-- quotient_field.rs:38-43 `QuotientField::new`. The check compares `rem(one, one)`
with zero and does not mention the modulus. -/
def new : Res (FieldOps E) := do
  Res.assert (← base.contains modulo)
  let one ← base.one
  Res.assert (← base.isZero (← base.rem one one))
  return ops base modulo

/-- quotient_field.rs:7-10 `GF2`. -/
def GF2 : FieldOps (SInt 8) := ops (CheckedInts.euclidean 8) (SInt.lit 2 (by decide))

/-- quotient_field.rs:13-16 `GF3`. -/
def GF3 : FieldOps (SInt 8) := ops (CheckedInts.euclidean 8) (SInt.lit 3 (by decide))

end Abstalg.QuotientField
