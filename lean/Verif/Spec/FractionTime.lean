import Verif.Spec.Charges
import Verif.Spec.Cost

/-! # Specification: the time of fractions and of residues

A base with state whose methods take, by a clock of the state, at most given times, and which leaves `gcd` and `extended_gcd` to
the default methods. The tables give the time of each method of the fractions over the base, and of the residues. -/

set_option autoImplicit false

namespace Abstalg

/-- The time of a call of each method of a Euclidean base; `timesOne` is that of `times` with factor one. -/
structure Prices where
  equals : Nat
  zero : Nat
  isZero : Nat
  add : Nat
  neg : Nat
  sub : Nat
  timesOne : Nat
  one : Nat
  isOne : Nat
  mul : Nat
  tryInv : Nat
  associateCoef : Nat
  quo : Nat
  rem : Nat
  quoRem : Nat

namespace Prices

/-- Every call takes the same time. -/
def flat (t : Nat) : Prices := ⟨t, t, t, t, t, t, t, t, t, t, t, t, t, t, t⟩

variable (p : Prices) (k : Nat)

/-- `gcd`, if the condition of the loop is evaluated `k` times. -/
def gcd : Nat := k * (p.isZero + p.rem)

/-- `extended_gcd`, if `k` calls are nested. -/
def extendedGcd : Nat := k * (p.isZero + p.quoRem) + (k - 1) * (p.mul + p.sub) + p.one + p.zero

/-- reduced_fractions.rs:39-51: one test, a gcd, two quotients, the unit, and two products if the unit is not one. -/
def reduce : Nat := p.isZero + p.gcd k + 2 * p.quo + p.associateCoef + p.isOne + 2 * p.mul

/-- The methods of the fractions. -/
def fraction : Call → Nat
  | .equals => 2 * p.equals
  | .zero => p.zero + p.one
  | .isZero => p.zero + p.one + 2 * p.equals
  | .add | .addAssign | .double => p.equals + 3 * p.mul + p.add + p.reduce k
  | .neg => p.neg
  | .sub => p.neg + p.equals + 3 * p.mul + p.add + p.reduce k
  | .one => 2 * p.one
  | .int => 2 * p.one + p.timesOne + p.reduce k
  | .mul | .mulAssign | .square => 2 * p.mul + p.reduce k
  | .inv => p.isZero + p.associateCoef + p.isOne + 2 * p.mul
  | .div | .tryDiv => p.isZero + p.associateCoef + p.isOne + 4 * p.mul + p.reduce k
  | .tryInv => p.isZero + p.reduce k

/-- The methods of the residues. -/
def residue : Call → Nat
  | .equals => p.equals
  | .zero => p.zero
  | .isZero => p.zero + p.equals
  | .add | .addAssign | .double => p.add + p.rem
  | .neg => p.neg + p.rem
  | .sub => p.neg + p.add + 2 * p.rem
  | .one => p.one
  | .int => p.one + p.zero + 2 * p.add + 2 * p.rem
  | .mul | .mulAssign | .square => p.mul + p.rem
  | .inv => p.zero + p.equals + p.extendedGcd k + p.tryInv + p.mul + p.rem
  | .div | .tryDiv => p.zero + p.equals + p.extendedGcd k + p.tryInv + 2 * p.mul + 2 * p.rem
  | .tryInv => 2 * p.zero + 2 * p.equals + p.extendedGcd k + p.tryInv + p.mul + p.rem

end Prices

namespace Stateful

variable {σ E F : Type} [Cfg]

/-- By the clock `μ` the methods of the base `A` take at most the times `p`; they do what those of `B` do. Its `gcd` evaluates the
condition of its loop at most `k` times, and its `extended_gcd` nests at most `k` calls. -/
structure TimedEuclidean (μ : σ → Nat) (I : σ → Prop) (r : E → F → Prop) (p : Prices) (k : Nat)
    (A : EuclideanDomainOps σ E) (B : Abstalg.EuclideanDomainOps F) : Prop where
  equals : ∀ {a b a' b'}, r a a' → r b b' → Elapses μ I Eq (A.equals a b) (B.equals a' b') 0 p.equals
  zero : Elapses μ I r A.zero B.zero 0 p.zero
  isZero : ∀ {a a'}, r a a' → Elapses μ I Eq (A.isZero a) (B.isZero a') 0 p.isZero
  add : ∀ {a b a' b'}, r a a' → r b b' → Elapses μ I r (A.add a b) (B.add a' b') 0 p.add
  neg : ∀ {a a'}, r a a' → Elapses μ I r (A.neg a) (B.neg a') 0 p.neg
  sub : ∀ {a b a' b'}, r a a' → r b b' → Elapses μ I r (A.sub a b) (B.sub a' b') 0 p.sub
  timesOne : ∀ {a a'}, r a a' → Elapses μ I r (A.times 1 a) (B.times 1 a') 0 p.timesOne
  one : Elapses μ I r A.one B.one 0 p.one
  isOne : ∀ {a a'}, r a a' → Elapses μ I Eq (A.isOne a) (B.isOne a') 0 p.isOne
  mul : ∀ {a b a' b'}, r a a' → r b b' → Elapses μ I r (A.mul a b) (B.mul a' b') 0 p.mul
  tryInv : ∀ {a a'}, r a a' → Elapses μ I (Option.Rel r) (A.tryInv a) (B.tryInv a') 0 p.tryInv
  associateCoef : ∀ {a a'}, r a a' → Elapses μ I r (A.associateCoef a) (B.associateCoef a') 0 p.associateCoef
  quo : ∀ {a b a' b'}, r a a' → r b b' → Elapses μ I r (A.quo a b) (B.quo a' b') 0 p.quo
  rem : ∀ {a b a' b'}, r a a' → r b b' → Elapses μ I r (A.rem a b) (B.rem a' b') 0 p.rem
  quoRem : ∀ {a b a' b'}, r a a' → r b b' → Elapses μ I (PRel r) (A.quoRem a b) (B.quoRem a' b') 0 p.quoRem
  gcd : A.gcd = gcdDefault A.isZero A.rem
  gcd' : B.gcd = Abstalg.gcdDefault B.isZero B.rem
  within : ∀ a b, B.gcdWithin k a b ≠ .diverge
  extendedGcd : A.extendedGcd = extendedGcdDefault A.isZero A.one A.zero A.quoRem A.sub A.mul
  extendedGcd' : B.extendedGcd = Abstalg.extendedGcdDefault B.isZero B.one B.zero B.quoRem B.sub B.mul
  extendedWithin : ∀ a b, B.extendedGcdWithin k a b ≠ .diverge

/-- A call that adds one to the state. -/
def beat {α : Type} (y : Res α) : St Nat α := fun s => .of y (s + 1)

/-- A base that counts the calls of its methods, in one counter. The calls that the loop of `gcd` and the recursion of
`extended_gcd` make are calls of its methods. -/
def countingEuclidean (B : Abstalg.EuclideanDomainOps E) : EuclideanDomainOps Nat E where
  contains := fun a => beat (B.contains a)
  equals := fun a b => beat (B.equals a b)
  zero := beat B.zero
  isZero := fun a => beat (B.isZero a)
  add := fun a b => beat (B.add a b)
  neg := fun a => beat (B.neg a)
  sub := fun a b => beat (B.sub a b)
  times := fun n a => beat (B.times n a)
  one := beat B.one
  isOne := fun a => beat (B.isOne a)
  mul := fun a b => beat (B.mul a b)
  tryInv := fun a => beat (B.tryInv a)
  invertible := fun a => beat (B.invertible a)
  tryDiv := fun a b => beat (B.tryDiv a b)
  associateRepr := fun a => beat (B.associateRepr a)
  associateCoef := fun a => beat (B.associateCoef a)
  quoRem := fun a b => beat (B.quoRem a b)
  quo := fun a b => beat (B.quo a b)
  rem := fun a b => beat (B.rem a b)

end Stateful

end Abstalg
