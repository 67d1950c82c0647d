import Verif.Model.Res

/-! # Specification: the same outcome -/

set_option autoImplicit false

universe u v

namespace Abstalg

/-- Both computations return, and corresponding values, or both panic. -/
inductive Alike {α : Type u} {β : Type v} (r : α → β → Prop) : Res α → Res β → Prop where
  | ok {a : α} {b : β} (h : r a b) : Alike r (.ok a) (.ok b)
  | panic : Alike r .panic .panic

end Abstalg
