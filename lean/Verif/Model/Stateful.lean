import Verif.Model.Traits

/-!
# Model of generic methods over a base with state

The methods of a trait take `&self`, so that a base may have state behind a shared reference: a counter, a cache, a log,
a generator of random numbers.  The other files assume that the outcome of a method of the base depends on its operands only;
here a method of the base is a computation of type `St σ α`: it finds a state and leaves a state, also if it panics. The
text of the methods is that of the other files, with the calls of the base in the order in which the program makes them.
A constructor `new` that does not call the base and does not panic is not repeated.
-/

set_option autoImplicit false

namespace Abstalg.Stateful

/-- What a computation leaves: a value or a panic, with the state afterwards, or it never returns. -/
inductive Out (σ α : Type) where
  | ok (a : α) (s : σ)
  | panic (s : σ)
  | diverge

/-- A computation that reads and changes the state of the base. -/
def St (σ α : Type) : Type := σ → Out σ α

namespace St

variable {σ α β : Type}

/-- Sequencing: the second computation begins with the state left by the first. -/
protected def bind (x : St σ α) (f : α → St σ β) : St σ β := fun s =>
  match x s with
  | .ok a s => f a s
  | .panic s => .panic s
  | .diverge => .diverge

instance : Monad (St σ) where
  pure a := fun s => .ok a s
  bind := St.bind

/-- A computation without the base leaves the state as it is. -/
def lift (r : Res α) : St σ α := fun s =>
  match r with
  | .ok a => .ok a s
  | .panic => .panic s
  | .diverge => .diverge

instance : MonadLift Res (St σ) where
  monadLift := St.lift

open Lean.Order in
/-- Flat order with least element `diverge`. -/
noncomputable instance : CCPO (Out σ α) :=
  inferInstanceAs (CCPO (FlatOrder (Out.diverge : Out σ α)))

open Lean.Order in
noncomputable instance : CCPO (St σ α) := inferInstanceAs (CCPO (σ → Out σ α))

open Lean.Order in
noncomputable instance : MonoBind (St σ) where
  bind_mono_left {α β a₁ a₂ f} h := by
    intro s
    show FlatOrder.rel (St.bind a₁ f s) (St.bind a₂ f s)
    have hs : FlatOrder.rel (a₁ s) (a₂ s) := h s
    unfold St.bind
    generalize a₁ s = x at hs
    generalize a₂ s = y at hs
    cases hs with
    | bot => exact FlatOrder.rel.bot
    | refl => exact FlatOrder.rel.refl
  bind_mono_right {α β a f₁ f₂} h := by
    intro s
    show FlatOrder.rel (St.bind a f₁ s) (St.bind a f₂ s)
    unfold St.bind
    cases a s with
    | ok b t => exact h b t
    | panic t => exact FlatOrder.rel.refl
    | diverge => exact FlatOrder.rel.refl

end St

section loops

variable {σ α β : Type}

/-- See `Abstalg.allRes`. -/
def allRes (p : α → St σ Bool) : List α → St σ Bool
  | [] => pure true
  | a :: l => do if ← p a then allRes p l else return false

/-- See `Abstalg.mapRes`. -/
def mapRes (f : α → St σ β) : List α → St σ (List β)
  | [] => pure []
  | a :: l => do
    let b ← f a
    let l' ← mapRes f l
    return b :: l'

/-- See `Abstalg.zipForEach`. -/
def zipForEach (f : α → β → St σ α) : List α → List β → St σ (List α)
  | a :: l, b :: m => do
    let a' ← f a b
    let l' ← zipForEach f l m
    return a' :: l'
  | l, _ => pure l

/-- See `Abstalg.forLoop`. -/
def forLoop {τ ι : Type} (l : List ι) (t : τ) (body : τ → ι → St σ τ) : St σ τ :=
  match l with
  | [] => pure t
  | i :: l => do forLoop l (← body t i) body

/-- See `Abstalg.findRes`. -/
def findRes (p : α → St σ Bool) : List α → St σ (Option α)
  | [] => pure none
  | a :: l => do if ← p a then return some a else findRes p l

/-- See `Abstalg.debugAssert`. -/
def debugAssert [Cfg] (b : St σ Bool) : St σ Unit :=
  if Cfg.debugAssertions then do Res.assert (← b) else pure ()

end loops

/-! ## traits.rs -/


/-- traits.rs:13-24 `trait Domain`. -/
structure DomainOps (σ E : Type) where
  /-- traits.rs:18-20 -/
  contains : E → St σ Bool := fun _ => pure true
  /-- traits.rs:23 -/
  equals : E → E → St σ Bool

/-- traits.rs:28-41 `trait Semigroup`. -/
structure SemigroupOps (σ E : Type) extends DomainOps σ E where
  /-- traits.rs:30 -/
  mul : E → E → St σ E
  /-- traits.rs:33-35 -/
  mulAssign : E → E → St σ E := fun a b => mul a b
  /-- traits.rs:38-40 -/
  square : E → St σ E := fun a => mul a a

/-- traits.rs:45-62 `trait Monoid`. -/
structure MonoidOps (σ E : Type) extends SemigroupOps σ E where
  /-- traits.rs:47 -/
  one : St σ E
  /-- traits.rs:50-52 -/
  isOne : E → St σ Bool := fun a => do equals a (← one)
  /-- traits.rs:56 -/
  tryInv : E → St σ (Option E)
  /-- traits.rs:59-61 -/
  invertible : E → St σ Bool := fun a => do return (← tryInv a).isSome

/-- traits.rs:92-98, the loop of `CommuntativeMonoid::times`.  Note that `elem` is
doubled also after the last bit of `num` has been consumed. -/
def timesLoop {σ E : Type} (addAssign : E → E → St σ E) (double : E → St σ E)
    (num : Nat) (res elem : E) : St σ E :=
  if _h : 0 < num then do
    let res ← if num % 2 ≠ 0 then addAssign res elem else pure res
    let elem ← double elem
    timesLoop addAssign double (num / 2) res elem
  else pure res
termination_by num
decreasing_by omega

/-- traits.rs:66-101 `trait CommuntativeMonoid`. -/
structure CommutativeMonoidOps (σ E : Type) extends DomainOps σ E where
  /-- traits.rs:68 -/
  zero : St σ E
  /-- traits.rs:71-73 -/
  isZero : E → St σ Bool := fun a => do equals a (← zero)
  /-- traits.rs:76 -/
  add : E → E → St σ E
  /-- traits.rs:79-81 -/
  addAssign : E → E → St σ E := fun a b => add a b
  /-- traits.rs:84-86 -/
  double : E → St σ E := fun a => add a a
  /-- traits.rs:89-100, `times(usize)`; renamed `utimes` as `AbelianGroup` has
  a method of the same name. -/
  utimes : Nat → E → St σ E := fun num elem => do
    let res ← zero
    timesLoop addAssign double num res elem

/-- traits.rs:123-129, the loop of `Group::power`. `num : isize`, with Rust's truncated
`%` and `/`. -/
def powerLoop {σ E : Type} (mulAssign : E → E → St σ E) (square : E → St σ E)
    (num : Int) (res elem : E) : St σ E :=
  if _h : 0 < num then do
    let res ← if Int.tmod num 2 ≠ 0 then mulAssign res elem else pure res
    let elem ← square elem
    powerLoop mulAssign square (Int.tdiv num 2) res elem
  else pure res
termination_by num.toNat
decreasing_by
  rw [Int.tdiv_eq_ediv_of_nonneg (by omega)]
  omega

/-- traits.rs:114-131 `Group::power`. -/
def powerDefault [Cfg] {σ E : Type} (one : St σ E) (mulAssign : E → E → St σ E)
    (square inv : E → St σ E) (num : Int) (elem : E) : St σ E := do
  let (num, elem) ←
    if num < 0 then do
      let num ← isizeNeg num
      let elem ← inv elem
      pure (num, elem)
    else pure (num, elem)
  let res ← one
  powerLoop mulAssign square num res elem

/-- traits.rs:106-132 `trait Group`. -/
structure GroupOps [Cfg] (σ E : Type) extends MonoidOps σ E where
  /-- traits.rs:108-110 -/
  inv : E → St σ E := fun a => do Res.unwrap (← tryInv a)
  /-- traits.rs:114-131 -/
  power : Int → E → St σ E := powerDefault one mulAssign square inv

/-- traits.rs:136-162 `trait AbelianGroup`. -/
structure AbelianGroupOps [Cfg] (σ E : Type) extends CommutativeMonoidOps σ E where
  /-- traits.rs:138 -/
  neg : E → St σ E
  /-- traits.rs:141-143 -/
  negAssign : E → St σ E := fun a => neg a
  /-- traits.rs:146-150 -/
  sub : E → E → St σ E := fun a b => do
    let e ← neg b
    addAssign e a
  /-- traits.rs:153-155 -/
  subAssign : E → E → St σ E := fun a b => do addAssign a (← neg b)
  /-- traits.rs:158-161: `AdditiveGroup::new(self).power(num, elem)`.  The group
  operations of `AdditiveGroup` (additive_group.rs:45-90) are inlined here; see
  `AdditiveGroup.power_eq_times`. -/
  times : Int → E → St σ E := powerDefault zero addAssign double neg

/-- traits.rs:166 `trait SemiRing`. -/
structure SemiRingOps (σ E : Type) extends CommutativeMonoidOps σ E, MonoidOps σ E

/-- traits.rs:170-175 `trait UnitaryRing`. -/
structure UnitaryRingOps [Cfg] (σ E : Type) extends SemiRingOps σ E, AbelianGroupOps σ E where
  /-- traits.rs:172-174 -/
  int : Int → St σ E := fun n => do times n (← one)

/-- traits.rs:182-212 `trait IntegralDomain`. -/
structure IntegralDomainOps [Cfg] (σ E : Type) extends UnitaryRingOps σ E where
  /-- traits.rs:186 -/
  tryDiv : E → E → St σ (Option E)
  /-- traits.rs:190-196 -/
  divisible : E → E → St σ Bool := fun a b => do
    if ← isZero b then isZero a
    else return (← tryDiv a b).isSome
  /-- traits.rs:199-201 -/
  associates : E → E → St σ Bool := fun a b => do
    if ← divisible a b then divisible b a else return false
  /-- traits.rs:206 -/
  associateRepr : E → St σ E
  /-- traits.rs:211 -/
  associateCoef : E → St σ E

/-- traits.rs:248-257 `EuclideanDomain::gcd`. -/
def gcdDefault {σ E : Type} (isZero : E → St σ Bool) (rem : E → E → St σ E) (a b : E) : St σ E := do
  if ← isZero b then return a
  else
    let r ← rem a b
    gcdDefault isZero rem b r
partial_fixpoint

/-- traits.rs:272-285 `EuclideanDomain::extended_gcd`. -/
def extendedGcdDefault {σ E : Type} (isZero : E → St σ Bool) (one zero : St σ E)
    (quoRem : E → E → St σ (E × E)) (sub mul : E → E → St σ E) (a b : E) : St σ (E × E × E) := do
  if ← isZero b then return (a, ← one, ← zero)
  else
    let (quo, rem) ← quoRem a b
    let (gcd, x, y) ← extendedGcdDefault isZero one zero quoRem sub mul b rem
    let z ← sub x (← mul y quo)
    return (gcd, y, z)
partial_fixpoint

/-- traits.rs:217-292 `trait EuclideanDomain`. -/
structure EuclideanDomainOps [Cfg] (σ E : Type) extends IntegralDomainOps σ E where
  /-- traits.rs:222 -/
  quoRem : E → E → St σ (E × E)
  /-- traits.rs:227-229 -/
  quo : E → E → St σ E := fun a b => do return (← quoRem a b).1
  /-- traits.rs:234-236 -/
  rem : E → E → St σ E := fun a b => do return (← quoRem a b).2
  /-- traits.rs:242-244 -/
  reduced : E → E → St σ Bool := fun a b => do
    if ← isZero b then return true else isZero (← quo a b)
  /-- traits.rs:248-257 -/
  gcd : E → E → St σ E := gcdDefault isZero rem
  /-- traits.rs:260-267 -/
  lcm : E → E → St σ E := fun a b => do
    let g ← gcd a b
    if ← isZero g then return g
    else mul (← quo a g) b
  /-- traits.rs:272-285 -/
  extendedGcd : E → E → St σ (E × E × E) := extendedGcdDefault isZero one zero quoRem sub mul
  /-- traits.rs:288-291 -/
  relativePrimes : E → E → St σ Bool := fun a b => do
    let g ← gcd a b
    invertible g

/-- traits.rs:299-319 `trait Field`.  In Rust `Field: EuclideanDomain` and the
supertrait is provided by the blanket impls below; here the dictionary holds the
ring operations and `toEuclidean` is the blanket impl. `power` builds
`MultiplicativeGroup::new(self)` whose operations (multiplicative_group.rs:46-91) are inlined;
see `MultiplicativeGroup.power_eq_fieldPower`. -/
structure FieldOps [Cfg] (σ E : Type) extends UnitaryRingOps σ E where
  /-- traits.rs:302 -/
  inv : E → St σ E
  /-- traits.rs:306-308 -/
  div : E → E → St σ E := fun a b => do mul a (← inv b)
  /-- traits.rs:311-318 -/
  power : Int → E → St σ E := fun num a => do
    if ← isZero a then zero
    else powerDefault one mulAssign square (fun e => do Res.unwrap (← tryInv e)) num a

/-- traits.rs:321-337, blanket `impl<A: Field> IntegralDomain for A`. -/
def FieldOps.toIntegralDomain [Cfg] {σ E : Type} (A : FieldOps σ E) : IntegralDomainOps σ E where
  toUnitaryRingOps := A.toUnitaryRingOps
  tryDiv := fun a b => do return some (← A.div a b)
  associateRepr := fun a => do if ← A.isZero a then A.zero else A.one
  associateCoef := fun a => A.inv a

/-- traits.rs:339-374, blanket `impl<A: Field> EuclideanDomain for A`. -/
def FieldOps.toEuclidean [Cfg] {σ E : Type} (A : FieldOps σ E) : EuclideanDomainOps σ E where
  toIntegralDomainOps := A.toIntegralDomain
  quoRem := fun a b => do
    Res.assert (!(← A.isZero b))
    return (← A.div a b, ← A.zero)
  quo := fun a b => do
    Res.assert (!(← A.isZero b))
    A.div a b
  rem := fun _a b => do
    Res.assert (!(← A.isZero b))
    A.zero
  reduced := fun a b => do
    if ← A.isZero a then return true else A.isZero b
  gcd := fun a b => do
    if ← (do if ← A.isZero a then A.isZero b else return false) then A.zero else A.one
  lcm := fun a b => do
    if ← (do if ← A.isZero a then return true else A.isZero b) then A.zero else A.one

/-- traits.rs:379-395 `trait PartialOrder`. -/
structure PartialOrderOps (σ E : Type) extends DomainOps σ E where
  /-- traits.rs:382 -/
  leq : E → E → St σ Bool
  /-- traits.rs:386-388 -/
  lessThan : E → E → St σ Bool := fun a b => do
    if !(← equals a b) then leq a b else return false
  /-- traits.rs:392-394 -/
  comparable : E → E → St σ Bool := fun a b => do
    if ← leq a b then return true else leq b a

/-- traits.rs:399-405 `trait BoundedOrder`. -/
structure BoundedOrderOps (σ E : Type) extends PartialOrderOps σ E where
  /-- traits.rs:401 -/
  max : St σ E
  /-- traits.rs:404 -/
  min : St σ E

/-- traits.rs:410-421 `trait Lattice` and the marker trait
`DistributiveLattice`. -/
structure LatticeOps (σ E : Type) extends PartialOrderOps σ E where
  /-- traits.rs:413 -/
  meet : E → E → St σ E
  /-- traits.rs:417 -/
  join : E → E → St σ E

/-- traits.rs:425-428 `trait BooleanAlgebra`. -/
structure BooleanAlgebraOps (σ E : Type) extends LatticeOps σ E, BoundedOrderOps σ E where
  /-- traits.rs:427 -/
  not : E → St σ E

end Abstalg.Stateful
