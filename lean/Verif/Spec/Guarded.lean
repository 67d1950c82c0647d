import Verif.Model.Traits
import Verif.Spec.Machine

/-! # Specification: integers with a check of every returned integer

The ring of integers in which every method that computes an integer first checks that it lies in the range
of the machine integers with `w` bits. Nothing is taken from the model of the machine integers: there is
no truncated division, no wrap-around and no intermediate value. The methods that the crate provides from
others (`double`, `sub_assign`, `divisible`, `gcd`, `lcm`, `extended_gcd` and so on) are provided in the
same way. -/

set_option autoImplicit false

namespace Abstalg.Guarded

instance (w : ℕ) (x : ℤ) : Decidable (InRange w x) := inferInstanceAs (Decidable (_ ∧ _))

/-- The integer if it is in the range of the machine integers with `w` bits. -/
def guard (w : ℕ) (x : ℤ) : Res ℤ := if InRange w x then .ok x else .panic

/-- The integers with checks. -/
def euclidean [Cfg] (w : ℕ) : EuclideanDomainOps ℤ where
  equals := fun x y => .ok (decide (x = y))
  mul := fun x y => guard w (x * y)
  one := .ok 1
  isOne := fun x => .ok (decide (x = 1))
  tryInv := fun x => .ok (if x = 1 ∨ x = -1 then some x else none)
  invertible := fun x => .ok (decide (x = 1 ∨ x = -1))
  zero := .ok 0
  isZero := fun x => .ok (decide (x = 0))
  add := fun x y => guard w (x + y)
  neg := fun x => guard w (-x)
  sub := fun x y => guard w (x - y)
  -- the multiplier is turned into a machine integer too
  times := fun n x => do
    let m ← guard w n
    guard w (m * x)
  tryDiv := fun x y =>
    if y = 0 then .panic
    else if y ∣ x then do return some (← guard w (x / y))
    else .ok none
  associateRepr := fun x => guard w (x.natAbs : ℤ)
  associateCoef := fun x => if x = 0 then .panic else .ok (if x < 0 then -1 else 1)
  quoRem := fun x y =>
    if y = 0 then .panic
    else do return (← guard w (x / y), x % y)
  reduced := fun x y => .ok (decide (y = 0 ∨ x / y = 0))

/-- The natural number if it is in the range of the unsigned machine integers with `w` bits. -/
def uguard (w : ℕ) (x : ℕ) : Res ℕ := if x < 2 ^ w then .ok x else .panic

/-- The natural numbers with checks. -/
def naturals (w : ℕ) : SemiRingOps ℕ where
  equals := fun x y => .ok (decide (x = y))
  mul := fun x y => uguard w (x * y)
  one := .ok 1
  isOne := fun x => .ok (decide (x = 1))
  tryInv := fun x => .ok (if x = 1 then some 1 else none)
  invertible := fun x => .ok (decide (x = 1))
  zero := .ok 0
  isZero := fun x => .ok (decide (x = 0))
  add := fun x y => uguard w (x + y)

end Abstalg.Guarded
