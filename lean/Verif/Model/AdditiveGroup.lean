import Verif.Model.Traits

/-! # Model of `src/additive_group.rs` -/

set_option autoImplicit false

namespace Abstalg.AdditiveGroup

variable [Cfg] {E : Type}

/-- additive_group.rs:30-90; `power` is the default of traits.rs:114-131. -/
def ops (base : AbelianGroupOps E) : GroupOps E where
  -- additive_group.rs:36-38
  contains := fun e => base.contains e
  -- additive_group.rs:40-42
  equals := fun a b => base.equals a b
  -- additive_group.rs:49-51
  mul := fun a b => base.add a b
  -- additive_group.rs:53-55
  mulAssign := fun a b => base.addAssign a b
  -- additive_group.rs:57-59
  square := fun a => base.double a
  -- additive_group.rs:66-68
  one := base.zero
  -- additive_group.rs:70-72
  isOne := fun e => base.isZero e
  -- additive_group.rs:74-76
  tryInv := fun e => do return some (← base.neg e)
  -- additive_group.rs:78-80
  invertible := fun _ => .ok true
  -- additive_group.rs:87-89
  inv := fun e => base.neg e

end Abstalg.AdditiveGroup
