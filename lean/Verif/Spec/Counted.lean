import Verif.Model.Counted

/-! # Numbers of calls of the base (used by C93) -/

set_option autoImplicit false

namespace Abstalg

/-- No more calls of each method than given. -/
def Within {α : Type} (x : Counted α) (k : Call → Nat) : Prop := ∀ c, x.calls c ≤ k c

/-- Exactly the given numbers of calls if the method returns, no more if it does not. -/
def Takes {α : Type} (x : Counted α) (k : Call → Nat) : Prop :=
  Within x k ∧ ∀ a, x.res = .ok a → x.calls = k

/-- A table of numbers of calls; methods that are not listed are not called. -/
def table (l : List (Call × Nat)) : Call → Nat := fun c => ((l.filter fun p => p.1 == c).map Prod.snd).sum

end Abstalg
