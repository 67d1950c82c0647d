import Verif.Spec.Floats
import Verif.Model.Traits

/-! # Specification: exact arithmetic with the numbers of a format

The field operations on rational numbers that give up, as a panic, as soon as a result is not a number of
the format. An algorithm that does not give up when it runs on these operations needs no
rounding. -/

set_option autoImplicit false

namespace Abstalg

variable (F : FloatFormat)

open Classical in
/-- The number, provided it belongs to the format. -/
noncomputable def representable (x : ℚ) : Res ℚ := if IsFloat F x then .ok x else .panic

open Classical in
/-- Exact arithmetic with the numbers of the format. -/
noncomputable def exactFloats [Cfg] : FieldOps ℚ where
  contains := fun x => .ok (decide (IsFloat F x))
  equals := fun x y => .ok (decide (x = y))
  mul := fun x y => representable F (x * y)
  one := .ok 1
  tryInv := fun x => if x = 0 then .ok none else do return some (← representable F x⁻¹)
  zero := .ok 0
  add := fun x y => representable F (x + y)
  neg := fun x => representable F (-x)
  sub := fun x y => representable F (x - y)
  times := fun n x => do
    let m ← representable F n
    representable F (m * x)
  inv := fun x => if x = 0 then .panic else representable F x⁻¹
  div := fun x y => if y = 0 then .panic else representable F (x / y)

/-- `x` is an integer multiple of `2 ^ e`. -/
def FixedPoint (e : ℤ) (x : ℚ) : Prop := ∃ k : ℤ, x = k * 2 ^ e

end Abstalg
