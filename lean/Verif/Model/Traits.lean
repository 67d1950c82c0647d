import Verif.Model.Res

/-!
# Model of `src/traits.rs`

Each trait is a structure of operations (a dictionary).  Supertraits are
`extends`, default methods are default field values, so an `impl` block is a
structure instance overriding exactly what the Rust impl overrides.  Methods taking
`&mut` return the new value of that operand.
-/

set_option autoImplicit false

namespace Abstalg

/-- traits.rs:13-24 `trait Domain`. -/
structure DomainOps (E : Type) where
  /-- traits.rs:18-20 -/
  contains : E → Res Bool := fun _ => .ok true
  /-- traits.rs:23 -/
  equals : E → E → Res Bool

/-- traits.rs:28-41 `trait Semigroup`. -/
structure SemigroupOps (E : Type) extends DomainOps E where
  /-- traits.rs:30 -/
  mul : E → E → Res E
  /-- traits.rs:33-35 -/
  mulAssign : E → E → Res E := fun a b => mul a b
  /-- traits.rs:38-40 -/
  square : E → Res E := fun a => mul a a

/-- traits.rs:45-62 `trait Monoid`. -/
structure MonoidOps (E : Type) extends SemigroupOps E where
  /-- traits.rs:47 -/
  one : Res E
  /-- traits.rs:50-52 -/
  isOne : E → Res Bool := fun a => do equals a (← one)
  /-- traits.rs:56 -/
  tryInv : E → Res (Option E)
  /-- traits.rs:59-61 -/
  invertible : E → Res Bool := fun a => do return (← tryInv a).isSome

/-- traits.rs:92-98, the loop of `CommuntativeMonoid::times`.  Note that `elem` is
doubled also after the last bit of `num` has been consumed. -/
def timesLoop {E : Type} (addAssign : E → E → Res E) (double : E → Res E)
    (num : Nat) (res elem : E) : Res E :=
  if _h : 0 < num then do
    let res ← if num % 2 ≠ 0 then addAssign res elem else pure res
    let elem ← double elem
    timesLoop addAssign double (num / 2) res elem
  else .ok res
termination_by num
decreasing_by omega

/-- traits.rs:66-101 `trait CommuntativeMonoid`. -/
structure CommutativeMonoidOps (E : Type) extends DomainOps E where
  /-- traits.rs:68 -/
  zero : Res E
  /-- traits.rs:71-73 -/
  isZero : E → Res Bool := fun a => do equals a (← zero)
  /-- traits.rs:76 -/
  add : E → E → Res E
  /-- traits.rs:79-81 -/
  addAssign : E → E → Res E := fun a b => add a b
  /-- traits.rs:84-86 -/
  double : E → Res E := fun a => add a a
  /-- traits.rs:89-100, `times(usize)`; renamed `utimes` as `AbelianGroup` has
  a method of the same name. -/
  utimes : Nat → E → Res E := fun num elem => do
    let res ← zero
    timesLoop addAssign double num res elem

/-- traits.rs:123-129, the loop of `Group::power`. `num : isize`, with Rust's truncated
`%` and `/`. -/
def powerLoop {E : Type} (mulAssign : E → E → Res E) (square : E → Res E)
    (num : Int) (res elem : E) : Res E :=
  if _h : 0 < num then do
    let res ← if Int.tmod num 2 ≠ 0 then mulAssign res elem else pure res
    let elem ← square elem
    powerLoop mulAssign square (Int.tdiv num 2) res elem
  else .ok res
termination_by num.toNat
decreasing_by
  rw [Int.tdiv_eq_ediv_of_nonneg (by omega)]
  omega

/-- traits.rs:114-131 `Group::power`. -/
def powerDefault [Cfg] {E : Type} (one : Res E) (mulAssign : E → E → Res E)
    (square inv : E → Res E) (num : Int) (elem : E) : Res E := do
  let (num, elem) ←
    if num < 0 then do
      let num ← isizeNeg num
      let elem ← inv elem
      pure (num, elem)
    else pure (num, elem)
  let res ← one
  powerLoop mulAssign square num res elem

/-- traits.rs:106-132 `trait Group`. -/
structure GroupOps [Cfg] (E : Type) extends MonoidOps E where
  /-- traits.rs:108-110 -/
  inv : E → Res E := fun a => do Res.unwrap (← tryInv a)
  /-- traits.rs:114-131 -/
  power : Int → E → Res E := powerDefault one mulAssign square inv

/-- traits.rs:136-162 `trait AbelianGroup`. -/
structure AbelianGroupOps [Cfg] (E : Type) extends CommutativeMonoidOps E where
  /-- traits.rs:138 -/
  neg : E → Res E
  /-- traits.rs:141-143 -/
  negAssign : E → Res E := fun a => neg a
  /-- traits.rs:146-150 -/
  sub : E → E → Res E := fun a b => do
    let e ← neg b
    addAssign e a
  /-- traits.rs:153-155 -/
  subAssign : E → E → Res E := fun a b => do addAssign a (← neg b)
  /-- traits.rs:158-161: `AdditiveGroup::new(self).power(num, elem)`.  The group
  operations of `AdditiveGroup` (additive_group.rs:45-90) are inlined here; see
  `AdditiveGroup.power_eq_times`. -/
  times : Int → E → Res E := powerDefault zero addAssign double neg

/-- traits.rs:166 `trait SemiRing`. -/
structure SemiRingOps (E : Type) extends CommutativeMonoidOps E, MonoidOps E

/-- traits.rs:170-175 `trait UnitaryRing`. -/
structure UnitaryRingOps [Cfg] (E : Type) extends SemiRingOps E, AbelianGroupOps E where
  /-- traits.rs:172-174 -/
  int : Int → Res E := fun n => do times n (← one)

/-- traits.rs:182-212 `trait IntegralDomain`. -/
structure IntegralDomainOps [Cfg] (E : Type) extends UnitaryRingOps E where
  /-- traits.rs:186 -/
  tryDiv : E → E → Res (Option E)
  /-- traits.rs:190-196 -/
  divisible : E → E → Res Bool := fun a b => do
    if ← isZero b then isZero a
    else return (← tryDiv a b).isSome
  /-- traits.rs:199-201 -/
  associates : E → E → Res Bool := fun a b => do
    if ← divisible a b then divisible b a else return false
  /-- traits.rs:206 -/
  associateRepr : E → Res E
  /-- traits.rs:211 -/
  associateCoef : E → Res E

/-- traits.rs:248-257 `EuclideanDomain::gcd`. -/
def gcdDefault {E : Type} (isZero : E → Res Bool) (rem : E → E → Res E) (a b : E) : Res E := do
  if ← isZero b then return a
  else
    let r ← rem a b
    gcdDefault isZero rem b r
partial_fixpoint

/-- traits.rs:272-285 `EuclideanDomain::extended_gcd`. -/
def extendedGcdDefault {E : Type} (isZero : E → Res Bool) (one zero : Res E)
    (quoRem : E → E → Res (E × E)) (sub mul : E → E → Res E) (a b : E) : Res (E × E × E) := do
  if ← isZero b then return (a, ← one, ← zero)
  else
    let (quo, rem) ← quoRem a b
    let (gcd, x, y) ← extendedGcdDefault isZero one zero quoRem sub mul b rem
    let z ← sub x (← mul y quo)
    return (gcd, y, z)
partial_fixpoint

/-- traits.rs:217-292 `trait EuclideanDomain`. -/
structure EuclideanDomainOps [Cfg] (E : Type) extends IntegralDomainOps E where
  /-- traits.rs:222 -/
  quoRem : E → E → Res (E × E)
  /-- traits.rs:227-229 -/
  quo : E → E → Res E := fun a b => do return (← quoRem a b).1
  /-- traits.rs:234-236 -/
  rem : E → E → Res E := fun a b => do return (← quoRem a b).2
  /-- traits.rs:242-244 -/
  reduced : E → E → Res Bool := fun a b => do
    if ← isZero b then return true else isZero (← quo a b)
  /-- traits.rs:248-257 -/
  gcd : E → E → Res E := gcdDefault isZero rem
  /-- traits.rs:260-267 -/
  lcm : E → E → Res E := fun a b => do
    let g ← gcd a b
    if ← isZero g then return g
    else mul (← quo a g) b
  /-- traits.rs:272-285 -/
  extendedGcd : E → E → Res (E × E × E) := extendedGcdDefault isZero one zero quoRem sub mul
  /-- traits.rs:288-291 -/
  relativePrimes : E → E → Res Bool := fun a b => do
    let g ← gcd a b
    invertible g

/-- traits.rs:299-319 `trait Field`.  In Rust `Field: EuclideanDomain` and the
supertrait is provided by the blanket impls below; here the dictionary holds the
ring operations and `toEuclidean` is the blanket impl. `power` builds
`MultiplicativeGroup::new(self)` whose operations (multiplicative_group.rs:46-91) are inlined;
see `MultiplicativeGroup.power_eq_fieldPower`. -/
structure FieldOps [Cfg] (E : Type) extends UnitaryRingOps E where
  /-- traits.rs:302 -/
  inv : E → Res E
  /-- traits.rs:306-308 -/
  div : E → E → Res E := fun a b => do mul a (← inv b)
  /-- traits.rs:311-318 -/
  power : Int → E → Res E := fun num a => do
    if ← isZero a then zero
    else powerDefault one mulAssign square (fun e => do Res.unwrap (← tryInv e)) num a

/-- traits.rs:321-337, blanket `impl<A: Field> IntegralDomain for A`. -/
def FieldOps.toIntegralDomain [Cfg] {E : Type} (A : FieldOps E) : IntegralDomainOps E where
  toUnitaryRingOps := A.toUnitaryRingOps
  tryDiv := fun a b => do return some (← A.div a b)
  associateRepr := fun a => do if ← A.isZero a then A.zero else A.one
  associateCoef := fun a => A.inv a

/-- traits.rs:339-374, blanket `impl<A: Field> EuclideanDomain for A`. -/
def FieldOps.toEuclidean [Cfg] {E : Type} (A : FieldOps E) : EuclideanDomainOps E where
  toIntegralDomainOps := A.toIntegralDomain
  quoRem := fun a b => do
    Res.assert (!(← A.isZero b))
    return (← A.div a b, ← A.zero)
  quo := fun a b => do
    Res.assert (!(← A.isZero b))
    A.div a b
  rem := fun _a b => do
    Res.assert (!(← A.isZero b))
    A.zero
  reduced := fun a b => do
    if ← A.isZero a then return true else A.isZero b
  gcd := fun a b => do
    if ← (do if ← A.isZero a then A.isZero b else return false) then A.zero else A.one
  lcm := fun a b => do
    if ← (do if ← A.isZero a then return true else A.isZero b) then A.zero else A.one

/-- traits.rs:379-395 `trait PartialOrder`. -/
structure PartialOrderOps (E : Type) extends DomainOps E where
  /-- traits.rs:382 -/
  leq : E → E → Res Bool
  /-- traits.rs:386-388 -/
  lessThan : E → E → Res Bool := fun a b => do
    if !(← equals a b) then leq a b else return false
  /-- traits.rs:392-394 -/
  comparable : E → E → Res Bool := fun a b => do
    if ← leq a b then return true else leq b a

/-- traits.rs:399-405 `trait BoundedOrder`. -/
structure BoundedOrderOps (E : Type) extends PartialOrderOps E where
  /-- traits.rs:401 -/
  max : Res E
  /-- traits.rs:404 -/
  min : Res E

/-- traits.rs:410-421 `trait Lattice` and the marker trait
`DistributiveLattice`. -/
structure LatticeOps (E : Type) extends PartialOrderOps E where
  /-- traits.rs:413 -/
  meet : E → E → Res E
  /-- traits.rs:417 -/
  join : E → E → Res E

/-- traits.rs:425-428 `trait BooleanAlgebra`. -/
structure BooleanAlgebraOps (E : Type) extends LatticeOps E, BoundedOrderOps E where
  /-- traits.rs:427 -/
  not : E → Res E

end Abstalg
