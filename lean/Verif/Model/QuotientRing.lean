import Verif.Model.Traits

/-! # Model of `src/quotient_ring.rs` -/

set_option autoImplicit false

namespace Abstalg.QuotientRing

variable [Cfg] {E : Type} (base : EuclideanDomainOps E) (modulo : E)

/-- quotient_ring.rs:38-51 `impl Domain`. -/
def domain : DomainOps E where
  -- quotient_ring.rs:44-46
  contains := fun e => base.reduced e modulo
  -- quotient_ring.rs:48-50
  equals := fun a b => base.equals a b

/-- quotient_ring.rs:57-59 `mul`. -/
def mul (a b : E) : Res E := do base.rem (← base.mul a b) modulo

/-- quotient_ring.rs:53-104: `Semigroup`, `Monoid`, `CommuntativeMonoid`,
`AbelianGroup`, `SemiRing`, `UnitaryRing`. -/
def ops : UnitaryRingOps E where
  toDomainOps := domain base modulo
  mul := mul base modulo
  -- quotient_ring.rs:66-68
  one := base.one
  -- quotient_ring.rs:70-72
  isOne := fun e => base.isOne e
  -- quotient_ring.rs:74-77
  tryInv := fun e => do
    let (g, _, r) ← base.extendedGcd modulo e
    match ← base.tryInv g with
    | some a => return some (← mul base modulo a r)
    | none => return none
  -- quotient_ring.rs:84-86
  zero := base.zero
  -- quotient_ring.rs:88-90
  add := fun a b => do base.rem (← base.add a b) modulo
  -- quotient_ring.rs:97-99
  neg := fun a => do base.rem (← base.neg a) modulo

/-- quotient_ring.rs:22-25 `QuotientRing::new`. -/
def new : Res (UnitaryRingOps E) := do
  Res.assert (← base.contains modulo)
  return ops base modulo

end Abstalg.QuotientRing
