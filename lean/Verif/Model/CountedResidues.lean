import Verif.Model.Counted
import Verif.Model.QuotientField

/-!
# Model that counts the calls of the base: extended gcd and residues of polynomials

See `Model/Counted.lean`.  The residues are those of `QuotientField` over polynomials; the calls counted are those
of the field of the coefficients.
-/

set_option autoImplicit false

namespace Abstalg

namespace Counted

variable {E : Type} [Cfg]

/-! ## polynomial_algebra.rs -/

/-- polynomial_algebra.rs:76-85 `equals`. -/
def polyEquals (base : AbelianGroupOps E) (v w : List E) : Counted Bool :=
  if v.length != w.length then pure false
  else allRes (fun p => call .equals (base.equals p.1 p.2)) (v.zip w)

/-- polynomial_algebra.rs:174-176 `neg`. -/
def polyNeg (base : AbelianGroupOps E) (v : List E) : Counted (List E) :=
  mapRes (fun a => call .neg (base.neg a)) v

/-- traits.rs:146-150 `sub`. -/
def polySub (base : AbelianGroupOps E) (v w : List E) : Counted (List E) := do
  let e ← polyNeg base w
  polyAdd base e v

/-- polynomial_algebra.rs:113-116 `one`. -/
def polyOne (base : UnitaryRingOps E) : Counted (List E) := do
  lift (Res.assert (!(← call .isZero (base.isZero (← call .one base.one)))))
  return [← call .one base.one]

/-- polynomial_algebra.rs:122-129 `try_inv`. -/
def polyTryInv (base : UnitaryRingOps E) (v : List E) : Counted (Option (List E)) :=
  if v.length == 1 then do
    match ← call .tryInv (base.tryInv (← lift (idx v 0))) with
    | some a => return some [a]
    | none => return none
  else pure none

/-- traits.rs:234-236 `rem`. -/
def polyRem (base : FieldOps E) (v w : List E) : Counted (List E) := do
  return (← polyQuoRem base v w).2

/-- traits.rs:272-285 `extended_gcd`, with at most `n` nested calls. -/
def polyExtendedGcdWithin (base : FieldOps E) : Nat → List E → List E → Counted (List E × List E × List E)
  | 0, _, _ => lift .diverge
  | n + 1, a, b =>
    if b.isEmpty then do return (a, ← polyOne base.toUnitaryRingOps, [])
    else do
      let (quo, rem) ← polyQuoRem base a b
      let (gcd, x, y) ← polyExtendedGcdWithin base n b rem
      let z ← polySub base.toAbelianGroupOps x (← polyMul base.toUnitaryRingOps y quo)
      return (gcd, y, z)

/-! ## quotient_field.rs -/

section residues

variable (base : FieldOps E) (modulo : List E)

/-- quotient_field.rs:113-115 `add`. -/
def residueAdd (a b : List E) : Counted (List E) := do
  polyRem base (← polyAdd base.toAbelianGroupOps a b) modulo

/-- quotient_field.rs:122-124 `neg`. -/
def residueNeg (a : List E) : Counted (List E) := do
  polyRem base (← polyNeg base.toAbelianGroupOps a) modulo

/-- traits.rs:146-150 `sub`. -/
def residueSub (a b : List E) : Counted (List E) := do
  let e ← residueNeg base modulo b
  residueAdd base modulo e a

/-- quotient_field.rs:75-77 `mul`. -/
def residueMul (a b : List E) : Counted (List E) := do
  polyRem base (← polyMul base.toUnitaryRingOps a b) modulo

/-- traits.rs:71-73 `is_zero`. -/
def residueIsZero (a : List E) : Counted Bool := polyEquals base.toAbelianGroupOps a []

/-- traits.rs:158-161 and 172-174, `int(1)`: the loop of `power` for the exponent one. -/
def residueIntOne : Counted (List E) := do
  let one ← polyOne base.toUnitaryRingOps
  let res ← residueAdd base modulo [] one
  let _ ← residueAdd base modulo one one
  return res

/-- quotient_field.rs:135-140 `inv`. -/
def residueInv (e : List E) : Counted (List E) := do
  lift (Res.assert (!(← residueIsZero base e)))
  let (g, _, r) ← polyExtendedGcdWithin base (e.length + 1) modulo e
  let a ← lift (Res.unwrap (← polyTryInv base.toUnitaryRingOps g))
  residueMul base modulo a r

/-- traits.rs:306-308 `div`. -/
def residueDiv (a b : List E) : Counted (List E) := do
  residueMul base modulo a (← residueInv base modulo b)

end residues

end Counted

end Abstalg
