import Verif.Model.Traits

/-! # Model of `src/naturals.rs`

`num::BigUint` is modelled by `Nat` (assumed exact, see DESIGN.md). -/

set_option autoImplicit false

namespace Abstalg.Naturals

/-- naturals.rs:18-24 -/
def domain : DomainOps Nat where
  equals := fun a b => .ok (a == b)

/-- naturals.rs:26-76: `Semigroup`, `Monoid`, `CommuntativeMonoid`, `SemiRing`. -/
def semiRing : SemiRingOps Nat where
  toDomainOps := domain
  -- naturals.rs:27-29
  mul := fun a b => .ok (a * b)
  -- naturals.rs:33-35
  one := .ok 1
  -- naturals.rs:37-39
  isOne := fun a => .ok (a == 1)
  -- naturals.rs:41-47
  tryInv := fun a => if a == 1 then .ok (some 1) else .ok none
  -- naturals.rs:49-51
  invertible := fun a => .ok (a == 1)
  -- naturals.rs:55-57
  zero := .ok 0
  -- naturals.rs:59-61
  isZero := fun a => .ok (a == 0)
  -- naturals.rs:63-65
  add := fun a b => .ok (a + b)
  -- naturals.rs:67-69
  double := fun a => .ok (a * 2)
  -- naturals.rs:71-73
  utimes := fun num a => .ok (num * a)

/-- naturals.rs:78-94 `PartialOrder`, `Lattice`, `DistributiveLattice`. -/
def lattice : LatticeOps Nat where
  toDomainOps := domain
  -- naturals.rs:79-81
  leq := fun a b => .ok (decide (a ≤ b))
  -- naturals.rs:85-87, `Ord::min`
  meet := fun a b => .ok (if b < a then b else a)
  -- naturals.rs:89-91, `Ord::max`
  join := fun a b => .ok (if b < a then a else b)

end Abstalg.Naturals
