import Mathlib.Algebra.EuclideanDomain.Basic
import Verif.Spec.Clients

/-! # Specification: which greatest common divisor, and programs that use a Euclidean domain

A greatest common divisor is determined up to a unit, Bezout coefficients are not determined at all. Here the ones meant are those of Mathlib:
`EuclideanDomain.gcd`, `lcm`, `gcdA` and `gcdB`, which Mathlib computes with an accumulator and with the operands in the opposite order. -/

set_option autoImplicit false

universe u

namespace Abstalg

/-- `gcd`, `lcm` and `extended_gcd` are the provided methods of the trait, as in all implementations of the crate except the blanket one for
fields. -/
structure ProvidedGcd [Cfg] {E : Type} (A : EuclideanDomainOps E) : Prop where
  gcd : A.gcd = gcdDefault A.isZero A.rem
  lcm : A.lcm = fun a b => do
    let g ← A.gcd a b
    if ← A.isZero g then return g
    else A.mul (← A.quo a g) b
  extendedGcd : A.extendedGcd = extendedGcdDefault A.isZero A.one A.zero A.quoRem A.sub A.mul

open Classical in
/-- The methods of a Euclidean domain, `g` and `l` being `gcd` and `lcm`: there is no quotient by zero, and zero has no unit that makes it
canonical. -/
noncomputable def EuclideanMethod.meaningWith {R : Type u} [EuclideanDomain R] [NormalizationMonoid R] (g l : R → R → R) :
    EuclideanMethod → R → R → Option (Reply R)
  | ring m, x, y => m.meaning x y
  | tryDiv, x, y => if y = 0 then none else if y ∣ x then element (x / y) else some .missing
  | divisible, x, y => holds (y ∣ x)
  | associates, x, y => holds (Associated x y)
  | associateRepr, x, _ => element (normalize x)
  | associateCoef, x, _ => if x = 0 then none else element (normUnit x : R)
  | quoRem, x, y => if y = 0 then none else some (.elements [x / y, x % y])
  | quo, x, y => if y = 0 then none else element (x / y)
  | rem, x, y => if y = 0 then none else element (x % y)
  | reduced, x, y => holds (y = 0 ∨ x / y = 0)
  | gcd, x, y => element (g x y)
  | lcm, x, y => element (l x y)
  | extendedGcd, x, y =>
    some (.elements [EuclideanDomain.gcd y x, EuclideanDomain.gcdB y x, EuclideanDomain.gcdA y x])
  | relativePrimes, x, y => holds (IsCoprime x y)

open Classical in
/-- The methods of a Euclidean domain. -/
noncomputable def EuclideanMethod.meaning {R : Type u} [EuclideanDomain R] [NormalizationMonoid R] :
    EuclideanMethod → R → R → Option (Reply R) :=
  meaningWith (fun x y => EuclideanDomain.gcd y x) fun x y => EuclideanDomain.lcm y x

open Classical in
/-- The methods of a field as a Euclidean domain: divisors and multiples are canonical, namely zero or one. -/
noncomputable def EuclideanMethod.meaningField {R : Type u} [Field R] [NormalizationMonoid R] :
    EuclideanMethod → R → R → Option (Reply R) :=
  meaningWith (fun x y => if x = 0 ∧ y = 0 then 0 else 1) fun x y => if x = 0 ∨ y = 0 then 0 else 1

/-- No multiplier is `isize::MIN`. -/
def EuclideanMethod.Fits [Cfg] : EuclideanMethod → Prop
  | ring m => m.Fits
  | _ => True

end Abstalg
