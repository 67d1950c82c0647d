import Verif.Model.Stateful

/-!
# Model of generic methods over a base with state: polynomials

See `Model/Stateful.lean`.
-/

set_option autoImplicit false

namespace Abstalg.Stateful

/-! ## polynomial_algebra.rs -/

namespace PolynomialAlgebra

variable {σ E : Type}

variable [Cfg]

/-- polynomial_algebra.rs:57-86 `impl Domain`. -/
def domain (base : AbelianGroupOps σ E) : DomainOps σ (List E) where
  -- polynomial_algebra.rs:63-74
  contains := fun v =>
    if v.isEmpty then pure true
    else do
      if ← allRes (fun a => base.contains a) v then
        return !(← base.isZero (← idx v (v.length - 1)))
      else return false
  -- polynomial_algebra.rs:76-85
  equals := fun v w =>
    if v.length != w.length then pure false
    else allRes (fun p => base.equals p.1 p.2) (v.zip w)

/-- polynomial_algebra.rs:144-167 `CommuntativeMonoid::add`. -/
def add (base : AbelianGroupOps σ E) (elem1 elem2 : List E) : St σ (List E) :=
  if elem1.length ≠ elem2.length then
    let (elem1, elem2) :=
      if elem1.length > elem2.length then (elem1, elem2) else (elem2, elem1)
    forLoop (List.range elem2.length) elem1 fun elem3 i => do
      let a ← base.add (← idx elem3 i) (← idx elem2 i)
      setIdx elem3 i a
  else
    forLoop (List.range elem1.length) [] fun elem3 i => do
      let a ← base.add (← idx elem1 i) (← idx elem2 i)
      if !(← base.isZero a) then
        let elem3 := resize elem3 (i + 1) (← base.zero)
        setIdx elem3 i a
      else return elem3

/-- polynomial_algebra.rs:183-189, the loop of `times`: `i` runs over
`(0..elem.len()).rev()`, the argument `n` is the number of indices left. -/
def timesTrim (base : AbelianGroupOps σ E) (v : List E) : Nat → St σ (List E)
  | 0 => pure []
  | n + 1 => do
    if !(← base.isZero (← idx v n)) then return resize v (n + 1) (← base.zero)
    else timesTrim base v n

/-- polynomial_algebra.rs:132-191: `CommuntativeMonoid`, `AbelianGroup`. -/
def abelianGroup (base : AbelianGroupOps σ E) : AbelianGroupOps σ (List E) where
  toDomainOps := domain base
  -- polynomial_algebra.rs:136-138
  zero := pure []
  -- polynomial_algebra.rs:140-142
  isZero := fun v => pure v.isEmpty
  add := add base
  -- polynomial_algebra.rs:174-176
  neg := fun v => mapRes base.neg v
  -- polynomial_algebra.rs:178-190
  times := fun num v => do
    let v ← mapRes (fun a => base.times num a) v
    timesTrim base v v.length

/-- polynomial_algebra.rs:92-106 `Semigroup::mul`. -/
def mul (base : UnitaryRingOps σ E) (elem1 elem2 : List E) : St σ (List E) :=
  if elem1.isEmpty || elem2.isEmpty then pure []
  else do
    let elem3 := List.replicate (elem1.length + elem2.length - 1) (← base.zero)
    forLoop (List.range elem1.length) elem3 fun elem3 i =>
      forLoop (List.range elem2.length) elem3 fun elem3 j => do
        let a ← base.mul (← idx elem1 i) (← idx elem2 j)
        let b ← base.add (← idx elem3 (i + j)) a
        setIdx elem3 (i + j) b

/-- polynomial_algebra.rs:88-195: `Semigroup`, `Monoid`, `SemiRing`, `UnitaryRing`.
Rust has `Semigroup` and `Monoid` already for `A: AbelianGroup + Semigroup`
(`+ Monoid`); every type of the crate with these bounds is a `UnitaryRing`. -/
def unitaryRing (base : UnitaryRingOps σ E) : UnitaryRingOps σ (List E) where
  toAbelianGroupOps := abelianGroup base.toAbelianGroupOps
  mul := mul base
  -- polynomial_algebra.rs:113-116
  one := do
    Res.assert (!(← base.isZero (← base.one)))
    return [← base.one]
  -- polynomial_algebra.rs:118-120
  isOne := fun v => if v.length == 1 then do base.isOne (← idx v 0) else pure false
  -- polynomial_algebra.rs:122-129
  tryInv := fun v =>
    if v.length == 1 then do
      match ← base.tryInv (← idx v 0) with
      | some a => return some [a]
      | none => return none
    else pure none

/-- polynomial_algebra.rs:217-224, the main loop of `try_div`: `i` runs over
`(0..quo.len()).rev()`, the argument `n` is the number of indices left.  The `?`
operator returns `None` from the whole function. -/
def tryDivLoop (base : IntegralDomainOps σ E) (elem2 : List E) (a : E) :
    Nat → List E → List E → St σ (Option (List E × List E))
  | 0, quo, rem => pure (some (quo, rem))
  | i + 1, quo, rem => do
    match ← base.tryDiv (← idx rem (i + elem2.length - 1)) a with
    | none => return none
    | some q =>
      let quo ← setIdx quo i q
      let b ← base.neg (← idx quo i)
      let rem ← forLoop (List.range (elem2.length - 1)) rem fun rem j => do
        let c ← base.mul (← idx elem2 j) b
        let d ← base.addAssign (← idx rem (i + j)) c
        setIdx rem (i + j) d
      tryDivLoop base elem2 a i quo rem

/-- polynomial_algebra.rs:201-233 `IntegralDomain::try_div`. -/
def tryDiv (base : IntegralDomainOps σ E) (elem1 elem2 : List E) : St σ (Option (List E)) := do
  Res.assert (!elem2.isEmpty)
  if elem1.length < elem2.length then
    if elem1.isEmpty then return some [] else return none
  else
    let quo := List.replicate (elem1.length - elem2.length + 1) (← base.zero)
    let a ← idx elem2 (elem2.length - 1)
    Res.assert (!(← base.isZero a))
    match ← tryDivLoop base elem2 a quo.length quo elem1 with
    | none => return none
    | some (quo, rem) =>
      if ← allRes (fun d => base.isZero d) (rem.take (elem2.length - 1)) then return some quo
      else return none

/-- polynomial_algebra.rs:197-250 `impl IntegralDomain`. -/
def integralDomain (base : IntegralDomainOps σ E) : IntegralDomainOps σ (List E) where
  toUnitaryRingOps := unitaryRing base.toUnitaryRingOps
  tryDiv := tryDiv base
  -- polynomial_algebra.rs:235-242
  associateRepr := fun v =>
    if v.isEmpty then pure []
    else do
      let coef ← base.associateCoef (← idx v (v.length - 1))
      mapRes (fun x => base.mul x coef) v
  -- polynomial_algebra.rs:244-249
  associateCoef := fun v => do
    Res.assert (!v.isEmpty)
    return [← base.associateCoef (← idx v (v.length - 1))]

/-- polynomial_algebra.rs:269-276, the main loop of `quo_rem`: `i` runs over
`(0..quo.len()).rev()`, the argument `n` is the number of indices left. -/
def quoRemLoop (base : FieldOps σ E) (elem2 : List E) (a : E) :
    Nat → List E → List E → St σ (List E × List E)
  | 0, quo, rem => pure (quo, rem)
  | i + 1, quo, rem => do
    let q ← base.div (← idx rem (i + elem2.length - 1)) a
    let quo ← setIdx quo i q
    let b ← base.neg (← idx quo i)
    let rem ← forLoop (List.range (elem2.length - 1)) rem fun rem j => do
      let c ← base.mul (← idx elem2 j) b
      let d ← base.add (← idx rem (i + j)) c
      setIdx rem (i + j) d
    quoRemLoop base elem2 a i quo rem

/-- polynomial_algebra.rs:278-281: the length to which the remainder is
truncated. -/
def trimLen (base : FieldOps σ E) (rem : List E) : Nat → St σ Nat
  | 0 => pure 0
  | i + 1 => do
    if ← base.isZero (← idx rem i) then trimLen base rem i else return i + 1

/-- polynomial_algebra.rs:256-285 `EuclideanDomain::quo_rem`. -/
def quoRem (base : FieldOps σ E) (elem1 elem2 : List E) : St σ (List E × List E) := do
  Res.assert (!elem2.isEmpty)
  if elem1.length < elem2.length then return ([], elem1)
  else
    let quo := List.replicate (elem1.length - elem2.length + 1) (← base.zero)
    let a ← idx elem2 (elem2.length - 1)
    Res.assert (!(← base.isZero a))
    let (quo, rem) ← quoRemLoop base elem2 a quo.length quo elem1
    let i ← trimLen base rem (elem2.length - 1)
    return (quo, rem.take i)

/-- polynomial_algebra.rs:252-286 `impl EuclideanDomain`, for a base field, whose
`IntegralDomain` impl is the blanket one. -/
def euclidean (base : FieldOps σ E) : EuclideanDomainOps σ (List E) where
  toIntegralDomainOps := integralDomain base.toIntegralDomain
  quoRem := quoRem base

end PolynomialAlgebra

end Abstalg.Stateful
