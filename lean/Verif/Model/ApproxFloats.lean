import Verif.Model.Ieee
import Verif.Model.Traits

/-! # Model of `src/approx_floats.rs`

The generic impl (approx_floats.rs:31-169) and the two impls for `f64` and `f32` behind the feature
`float_fallback` (171-285, 287-401) have the same bodies up to the conversion of the multiplier of
`times`, `num.into()` in the first and `num as f64` in the others; all three are modelled
by one definition over an arbitrary format.  (With `num` 0.3 no standard type
implements both `Float` and `From<isize>`, so `F32` and `F64` have their methods only with
`float_fallback`.) -/

set_option autoImplicit false

namespace Abstalg.ApproxFloats

open FloatFormat

variable [Cfg] (F : FloatFormat)

/-- approx_floats.rs:31-45 -/
def domain : DomainOps F.Val where
  -- approx_floats.rs:38-40
  contains := fun a => .ok a.isFinite
  -- approx_floats.rs:42-44
  equals := fun a b => .ok (a.eq b)

/-- `assert!(elem.is_finite()); elem` -/
def checked {F : FloatFormat} (a : F.Val) : Res F.Val := do
  Res.assert a.isFinite
  return a

/-- approx_floats.rs:136-141 `div` -/
def div (a b : F.Val) : Res F.Val := do
  Res.assert (!b.eq Val.zero)
  checked (a.div b)

/-- approx_floats.rs:47-142: `Semigroup`, `Monoid`, `CommuntativeMonoid`, `AbelianGroup`, `SemiRing`,
`UnitaryRing`, `Field`. -/
def field : FieldOps F.Val where
  toDomainOps := domain F
  -- approx_floats.rs:52-56
  mul := fun a b => checked (a.mul b)
  -- approx_floats.rs:64-66
  one := .ok Val.one
  -- approx_floats.rs:68-75
  tryInv := fun a =>
    let a := Val.one.div a
    if a.isFinite then .ok (some a) else .ok none
  -- approx_floats.rs:83-85
  zero := .ok Val.zero
  -- approx_floats.rs:87-89, `Zero::is_zero` is `*self == 0.0`
  isZero := fun a => .ok (a.eq Val.zero)
  -- approx_floats.rs:91-95
  add := fun a b => checked (a.add b)
  -- approx_floats.rs:103-107
  neg := fun a => checked a.neg
  -- approx_floats.rs:109-113
  sub := fun a b => checked (a.sub b)
  -- approx_floats.rs:115-118, 240-243, 356-359
  times := fun num a => .ok ((Val.ofInt num).mul a)
  -- approx_floats.rs:132-134
  inv := fun a => div F Val.one a
  -- approx_floats.rs:136-141
  div := div F

/-- approx_floats.rs:144-169: `PartialOrder`, `Lattice`, `DistributiveLattice`. -/
def lattice (pick : F.Val → F.Val → Bool) : LatticeOps F.Val where
  toDomainOps := domain F
  -- approx_floats.rs:149-151
  leq := fun a b => .ok (a.le b)
  -- approx_floats.rs:159-161
  meet := fun a b => .ok (a.min pick b)
  -- approx_floats.rs:163-165
  join := fun a b => .ok (a.max pick b)

end Abstalg.ApproxFloats
