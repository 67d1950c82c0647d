import Verif.Model.Traits

/-! # Model of `src/divisibility_order.rs` -/

set_option autoImplicit false

namespace Abstalg.DivisibilityOrder

variable [Cfg] {E : Type}

/-- divisibility_order.rs:31-41 `impl Domain`. -/
def domain (base : IntegralDomainOps E) : DomainOps E where
  -- divisibility_order.rs:34-36
  contains := fun e => do
    if ← base.isZero e then return true else base.isOne (← base.associateCoef e)
  -- divisibility_order.rs:38-40
  equals := fun a b => base.equals a b

/-- divisibility_order.rs:43-57 `impl PartialOrder`, `BoundedOrder`. -/
def boundedOrder (base : IntegralDomainOps E) : BoundedOrderOps E where
  toDomainOps := domain base
  -- divisibility_order.rs:44-46
  leq := fun a b => base.divisible b a
  -- divisibility_order.rs:50-52
  max := base.zero
  -- divisibility_order.rs:54-56
  min := base.one

/-- divisibility_order.rs:59-71 `impl Lattice`, `DistributiveLattice`. -/
def lattice (base : EuclideanDomainOps E) : LatticeOps E where
  toPartialOrderOps := (boundedOrder base.toIntegralDomainOps).toPartialOrderOps
  -- divisibility_order.rs:60-63
  meet := fun a b => do base.associateRepr (← base.gcd a b)
  -- divisibility_order.rs:65-68
  join := fun a b => do base.associateRepr (← base.lcm a b)

end Abstalg.DivisibilityOrder
