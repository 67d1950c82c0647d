import Verif.Model.Traits

/-! # Model of `src/integers.rs`

`num::BigInt` is modelled by `Int` (assumed exact, see DESIGN.md). -/

set_option autoImplicit false

namespace Abstalg.Integers

variable [Cfg]

/-- integers.rs:16-22 (`contains` is the default). -/
def domain : DomainOps Int where
  equals := fun a b => .ok (a == b)

/-- integers.rs:47-49 `invertible`. -/
def invertible (e : Int) : Res Bool := .ok (e == 1 || (-e) == 1)

/-- integers.rs:24-90: the impls of `Semigroup`, `Monoid`, `CommuntativeMonoid`,
`AbelianGroup`, `SemiRing` and `UnitaryRing`. -/
def unitaryRing : UnitaryRingOps Int where
  toDomainOps := domain
  -- integers.rs:25-27
  mul := fun a b => .ok (a * b)
  -- integers.rs:31-33
  one := .ok 1
  -- integers.rs:35-37
  isOne := fun a => .ok (a == 1)
  -- integers.rs:39-45
  tryInv := fun a => do if ← invertible a then return some a else return none
  -- integers.rs:47-49
  invertible := invertible
  -- integers.rs:53-55
  zero := .ok 0
  -- integers.rs:57-59
  isZero := fun a => .ok (a == 0)
  -- integers.rs:61-63
  add := fun a b => .ok (a + b)
  -- integers.rs:65-67
  double := fun a => .ok (a * 2)
  -- integers.rs:69-71
  utimes := fun num a => .ok ((num : Int) * a)
  -- integers.rs:75-77
  neg := fun a => .ok (-a)
  -- integers.rs:79-81
  sub := fun a b => .ok (a - b)
  -- integers.rs:83-85
  times := fun num a => .ok (num * a)

/-- integers.rs:92-128 `impl IntegralDomain`.  `BigInt::div_rem` is truncated
division; `is_multiple_of` tests that the remainder is zero. -/
def integralDomain : IntegralDomainOps Int where
  toUnitaryRingOps := unitaryRing
  -- integers.rs:93-102
  tryDiv := fun a b => do
    Res.assert (!(b == 0))
    let quo := Int.tdiv a b
    let rem := Int.tmod a b
    if rem == 0 then return some quo else return none
  -- integers.rs:104-110
  divisible := fun a b =>
    if b == 0 then .ok (a == 0) else .ok (Int.tmod a b == 0)
  -- integers.rs:112-118
  associateRepr := fun a => if a < 0 then unitaryRing.neg a else .ok a
  -- integers.rs:120-127
  associateCoef := fun a => do
    Res.assert (!(a == 0))
    if a < 0 then unitaryRing.neg 1 else return 1

/-- integers.rs:130-153 `impl EuclideanDomain`. -/
def euclidean : EuclideanDomainOps Int where
  toIntegralDomainOps := integralDomain
  -- integers.rs:131-144
  quoRem := fun a b => do
    Res.assert (!(b == 0))
    let quo := Int.tdiv a b
    let rem := Int.tmod a b
    if rem < 0 then
      if b < 0 then return (quo + 1, rem - b)
      else return (quo - 1, rem + b)
    else return (quo, rem)
  -- integers.rs:146-152
  reduced := fun a b =>
    if b == 0 then .ok true
    else .ok (!decide (a < 0) && decide (a < (b.natAbs : Int)))

/-- integers.rs:155-171 `impl PartialOrder`, `Lattice`, `DistributiveLattice`. -/
def lattice : LatticeOps Int where
  toDomainOps := domain
  -- integers.rs:156-158
  leq := fun a b => .ok (decide (a ≤ b))
  -- integers.rs:162-164, `Ord::min`
  meet := fun a b => .ok (if b < a then b else a)
  -- integers.rs:166-168, `Ord::max`
  join := fun a b => .ok (if b < a then a else b)

end Abstalg.Integers
