import Verif.Model.Traits

/-! # Loops and recursions cut off after a number of steps

To speak about the number of iterations of a loop, or the depth of a recursion, it is run with a
budget: the definitions below repeat the bodies of `gcd`, `extended_gcd`, `times` and `power`, and give
`diverge` when the budget is used up.  A bound on the cost is the statement that the run with that
budget has the same outcome as the run without. -/

set_option autoImplicit false

namespace Abstalg

/-- traits.rs:248-257 `gcd`; the condition of the loop is evaluated at most `n` times. -/
def gcdWithin {E : Type} (isZero : E → Res Bool) (rem : E → E → Res E) : Nat → E → E → Res E
  | 0, _, _ => .diverge
  | n + 1, a, b => do
    if ← isZero b then return a
    else
      let r ← rem a b
      gcdWithin isZero rem n b r

/-- traits.rs:272-285 `extended_gcd`; at most `n` calls are active at the same time. -/
def extendedGcdWithin {E : Type} (isZero : E → Res Bool) (one zero : Res E)
    (quoRem : E → E → Res (E × E)) (sub mul : E → E → Res E) : Nat → E → E → Res (E × E × E)
  | 0, _, _ => .diverge
  | n + 1, a, b => do
    if ← isZero b then return (a, ← one, ← zero)
    else
      let (quo, rem) ← quoRem a b
      let (gcd, x, y) ← extendedGcdWithin isZero one zero quoRem sub mul n b rem
      let z ← sub x (← mul y quo)
      return (gcd, y, z)

/-- `gcd` of a Euclidean domain, with a budget of `n` evaluations of the loop condition. -/
def EuclideanDomainOps.gcdWithin [Cfg] {E : Type} (A : EuclideanDomainOps E) (n : Nat) (a b : E) : Res E :=
  Abstalg.gcdWithin A.isZero A.rem n a b

/-- `extended_gcd` of a Euclidean domain, with room for `n` nested calls. -/
def EuclideanDomainOps.extendedGcdWithin [Cfg] {E : Type} (A : EuclideanDomainOps E) (n : Nat) (a b : E) :
    Res (E × E × E) :=
  Abstalg.extendedGcdWithin A.isZero A.one A.zero A.quoRem A.sub A.mul n a b

/-- traits.rs:92-98, the loop of `times`; its condition is evaluated at most `k` times. -/
def timesLoopWithin {E : Type} (addAssign : E → E → Res E) (double : E → Res E) :
    Nat → Nat → E → E → Res E
  | 0, _, _, _ => .diverge
  | k + 1, num, res, elem =>
    if 0 < num then do
      let res ← if num % 2 ≠ 0 then addAssign res elem else pure res
      let elem ← double elem
      timesLoopWithin addAssign double k (num / 2) res elem
    else .ok res

/-- traits.rs:123-129, the loop of `power`; its condition is evaluated at most `k` times. -/
def powerLoopWithin {E : Type} (mulAssign : E → E → Res E) (square : E → Res E) :
    Nat → Int → E → E → Res E
  | 0, _, _, _ => .diverge
  | k + 1, num, res, elem =>
    if 0 < num then do
      let res ← if Int.tmod num 2 ≠ 0 then mulAssign res elem else pure res
      let elem ← square elem
      powerLoopWithin mulAssign square k (Int.tdiv num 2) res elem
    else .ok res

end Abstalg
