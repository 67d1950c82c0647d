import Verif.Model.Res

/-! # Vectors in memory (used by C94) -/

set_option autoImplicit false

namespace Abstalg

/-- A `Vec` with `n` elements of `bytes` bytes each can exist: it occupies at most `isize::MAX` bytes. -/
def FitsVec [Cfg] (bytes n : Nat) : Prop := ((n * bytes : Nat) : Int) ≤ isizeMax

end Abstalg
