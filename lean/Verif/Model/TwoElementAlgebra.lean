import Verif.Model.Traits

/-! # Model of `src/two_element_algebra.rs` -/

set_option autoImplicit false

namespace Abstalg.TwoElementAlgebra

/-- two_element_algebra.rs:12-18 -/
def domain : DomainOps Bool where
  equals := fun a b => .ok (a == b)

/-- two_element_algebra.rs:20-114: `Semigroup`, `Monoid`, `CommuntativeMonoid`,
`AbelianGroup`, `SemiRing`, `UnitaryRing`, `Field`. -/
def field [Cfg] : FieldOps Bool where
  toDomainOps := domain
  -- two_element_algebra.rs:21-23
  mul := fun a b => .ok (a && b)
  -- two_element_algebra.rs:25-27
  mulAssign := fun a b => .ok (a && b)
  -- two_element_algebra.rs:29
  square := fun a => .ok a
  -- two_element_algebra.rs:33-35
  one := .ok true
  -- two_element_algebra.rs:37-39
  isOne := fun a => .ok a
  -- two_element_algebra.rs:41-47
  tryInv := fun a => if a then .ok (some true) else .ok none
  -- two_element_algebra.rs:49-51
  invertible := fun a => .ok a
  -- two_element_algebra.rs:55-57
  zero := .ok false
  -- two_element_algebra.rs:59-61
  isZero := fun a => .ok (!a)
  -- two_element_algebra.rs:63-65
  add := fun a b => .ok (a ^^ b)
  -- two_element_algebra.rs:67-69
  addAssign := fun a b => .ok (a ^^ b)
  -- two_element_algebra.rs:71-73
  double := fun _ => .ok false
  -- two_element_algebra.rs:77-79
  neg := fun a => .ok a
  -- two_element_algebra.rs:81
  negAssign := fun a => .ok a
  -- two_element_algebra.rs:83-85
  sub := fun a b => .ok (a ^^ b)
  -- two_element_algebra.rs:87-89
  subAssign := fun a b => .ok (a ^^ b)
  -- two_element_algebra.rs:91-93, Rust's truncated `%`
  times := fun num a => .ok (a && Int.tmod num 2 != 0)
  -- two_element_algebra.rs:101-104
  inv := fun a => do
    Res.assert a
    return true
  -- two_element_algebra.rs:106-109
  div := fun a b => do
    Res.assert b
    return a
  -- two_element_algebra.rs:111-113
  power := fun _ a => .ok a

/-- two_element_algebra.rs:116-156: `PartialOrder`, `BoundedOrder`, `Lattice`,
`DistributiveLattice`, `BooleanAlgebra`. -/
def booleanAlgebra : BooleanAlgebraOps Bool where
  toDomainOps := domain
  -- two_element_algebra.rs:117-119, `<=` on `bool` with `false < true`
  leq := fun a b => .ok (!a || b)
  -- two_element_algebra.rs:121-123
  lessThan := fun a b => .ok (!a && b)
  -- two_element_algebra.rs:125-127
  comparable := fun _ _ => .ok true
  -- two_element_algebra.rs:131-133
  max := .ok true
  -- two_element_algebra.rs:135-137
  min := .ok false
  -- two_element_algebra.rs:141-143
  meet := fun a b => .ok (a && b)
  -- two_element_algebra.rs:145-147
  join := fun a b => .ok (a || b)
  -- two_element_algebra.rs:153-155
  not := fun a => .ok (!a)

end Abstalg.TwoElementAlgebra
