import Verif.Model.Integers

/-! # Model of `src/reduced_fractions.rs`

`Ratio<T>` built with `new_raw` is a pair (numerator, denominator). -/

set_option autoImplicit false

namespace Abstalg.ReducedFractions

variable [Cfg] {E : Type} (base : EuclideanDomainOps E)

/-- reduced_fractions.rs:39-51 `reduce`. -/
def reduce (elem : E × E) : Res (E × E) := do
  Res.assert (!(← base.isZero elem.2))
  let gcd ← base.gcd elem.1 elem.2
  let numer ← base.quo elem.1 gcd
  let denom ← base.quo elem.2 gcd
  let coef ← base.associateCoef denom
  if !(← base.isOne coef) then
    return (← base.mul numer coef, ← base.mul denom coef)
  else return (numer, denom)

/-- reduced_fractions.rs:54-69 `impl Domain`. -/
def domain : DomainOps (E × E) where
  -- reduced_fractions.rs:60-63
  contains := fun e => do
    if ← base.relativePrimes e.1 e.2 then base.isOne (← base.associateCoef e.2)
    else return false
  -- reduced_fractions.rs:65-68
  equals := fun a b => do
    if ← base.equals a.1 b.1 then base.equals a.2 b.2 else return false

/-- reduced_fractions.rs:105-107 `invertible`. -/
def invertible (e : E × E) : Res Bool := do return !(← base.isZero e.1)

/-- reduced_fractions.rs:71-174: `Semigroup`, `Monoid`, `CommuntativeMonoid`,
`AbelianGroup`, `SemiRing`, `UnitaryRing`, `Field`. -/
def ops : FieldOps (E × E) where
  toDomainOps := domain base
  -- reduced_fractions.rs:75-81
  mul := fun a b => do
    let n ← base.mul a.1 b.1
    let d ← base.mul a.2 b.2
    reduce base (n, d)
  -- reduced_fractions.rs:88-90
  one := do return (← base.one, ← base.one)
  -- reduced_fractions.rs:92-94
  isOne := fun e => do if ← base.isOne e.1 then base.isOne e.2 else return false
  -- reduced_fractions.rs:96-103
  tryInv := fun e => do
    if ← invertible base e then return some (← reduce base (e.2, e.1))
    else return none
  invertible := invertible base
  -- reduced_fractions.rs:114-116
  zero := do return (← base.zero, ← base.one)
  -- reduced_fractions.rs:118-134
  add := fun a b => do
    if ← base.equals a.2 b.2 then
      let n ← base.add a.1 b.1
      reduce base (n, a.2)
    else
      let x ← base.mul a.1 b.2
      let y ← base.mul a.2 b.1
      let n ← base.add x y
      let d ← base.mul a.2 b.2
      reduce base (n, d)
  -- reduced_fractions.rs:141-143
  neg := fun a => do return (← base.neg a.1, a.2)
  -- reduced_fractions.rs:145-151
  times := fun num a => do
    let n ← base.times num a.1
    reduce base (n, a.2)
  -- reduced_fractions.rs:162-173
  inv := fun e => do
    Res.assert (!(← base.isZero e.1))
    let numer := e.2
    let denom := e.1
    let coef ← base.associateCoef denom
    if !(← base.isOne coef) then
      return (← base.mul numer coef, ← base.mul denom coef)
    else return (numer, denom)

/-- reduced_fractions.rs:28-31 `ReducedFractions::new`. -/
def new : Res (FieldOps (E × E)) := do
  Res.assert (!(← base.isZero (← base.one)))
  return ops base

/-- reduced_fractions.rs:8 `QQ`. -/
def QQ : FieldOps (Int × Int) := ops Integers.euclidean

end Abstalg.ReducedFractions
