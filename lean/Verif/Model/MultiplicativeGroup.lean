import Verif.Model.Traits

/-! # Model of `src/multiplicative_group.rs` -/

set_option autoImplicit false

namespace Abstalg.MultiplicativeGroup

variable [Cfg] {E : Type}

/-- multiplicative_group.rs:31-91; `power` is the default of traits.rs:114-131. -/
def ops (base : MonoidOps E) : GroupOps E where
  -- multiplicative_group.rs:37-39
  contains := fun e => base.invertible e
  -- multiplicative_group.rs:41-43
  equals := fun a b => base.equals a b
  -- multiplicative_group.rs:50-52
  mul := fun a b => base.mul a b
  -- multiplicative_group.rs:54-56
  mulAssign := fun a b => base.mulAssign a b
  -- multiplicative_group.rs:58-60
  square := fun a => base.square a
  -- multiplicative_group.rs:67-69
  one := base.one
  -- multiplicative_group.rs:71-73
  isOne := fun e => base.isOne e
  -- multiplicative_group.rs:75-77
  tryInv := fun e => base.tryInv e
  -- multiplicative_group.rs:79-81
  invertible := fun _ => .ok true
  -- multiplicative_group.rs:88-90
  inv := fun e => do Res.unwrap (← base.tryInv e)

end Abstalg.MultiplicativeGroup
