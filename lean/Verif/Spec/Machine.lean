import Verif.Model.CheckedInts
import Verif.Model.CheckedUints
import Mathlib.Data.Int.Notation
import Mathlib.Data.Nat.Notation

/-! # Specification: machine integers against mathematical integers -/

set_option autoImplicit false

universe u v

namespace Abstalg

/-- The integer is representable in the two's complement type with `w` bits. -/
def InRange (w : ℕ) (x : ℤ) : Prop := -(2 ^ (w - 1)) ≤ x ∧ x < 2 ^ (w - 1)

/-- The call returns the integer `x` if it is representable, and otherwise panics. -/
def Exactly {w : ℕ} (c : Res (SInt w)) (x : ℤ) : Prop :=
  (InRange w x → ∃ a, c = .ok a ∧ a.1 = x) ∧ (¬ InRange w x → c = .panic)

/-- The call returns the natural number `x` if it is representable, and otherwise panics. -/
def UExactly {w : ℕ} (c : Res (UInt' w)) (x : ℕ) : Prop :=
  (x < 2 ^ w → ∃ a, c = .ok a ∧ a.1 = x) ∧ (¬ x < 2 ^ w → c = .panic)

/-- The call returns a value, with property `P`, if the condition `p` holds, and otherwise panics. -/
def ReturnsIff {α : Type u} (p : Prop) (c : Res α) (P : α → Prop) : Prop :=
  (p → ∃ a, c = .ok a ∧ P a) ∧ (¬ p → c = .panic)

/-- The first call panics, or both return and the results correspond. -/
def Agree {α : Type u} {β : Type v} (r : α → β → Prop) (c : Res α) (d : Res β) : Prop :=
  c = .panic ∨ ∃ a b, c = .ok a ∧ d = .ok b ∧ r a b

/-- Every method of the Euclidean domain `A` either panics or returns what the method of
`B` returns for the corresponding operands. -/
structure Refines [Cfg] {E F : Type} (r : E → F → Prop) (A : EuclideanDomainOps E)
    (B : EuclideanDomainOps F) : Prop where
  contains : ∀ {a a'}, r a a' → Agree Eq (A.contains a) (B.contains a')
  equals : ∀ {a b a' b'}, r a a' → r b b' → Agree Eq (A.equals a b) (B.equals a' b')
  mul : ∀ {a b a' b'}, r a a' → r b b' → Agree r (A.mul a b) (B.mul a' b')
  mulAssign : ∀ {a b a' b'}, r a a' → r b b' → Agree r (A.mulAssign a b) (B.mulAssign a' b')
  square : ∀ {a a'}, r a a' → Agree r (A.square a) (B.square a')
  one : Agree r A.one B.one
  isOne : ∀ {a a'}, r a a' → Agree Eq (A.isOne a) (B.isOne a')
  tryInv : ∀ {a a'}, r a a' → Agree (Option.Rel r) (A.tryInv a) (B.tryInv a')
  invertible : ∀ {a a'}, r a a' → Agree Eq (A.invertible a) (B.invertible a')
  zero : Agree r A.zero B.zero
  isZero : ∀ {a a'}, r a a' → Agree Eq (A.isZero a) (B.isZero a')
  add : ∀ {a b a' b'}, r a a' → r b b' → Agree r (A.add a b) (B.add a' b')
  addAssign : ∀ {a b a' b'}, r a a' → r b b' → Agree r (A.addAssign a b) (B.addAssign a' b')
  double : ∀ {a a'}, r a a' → Agree r (A.double a) (B.double a')
  utimes : ∀ n {a a'}, r a a' → Agree r (A.utimes n a) (B.utimes n a')
  neg : ∀ {a a'}, r a a' → Agree r (A.neg a) (B.neg a')
  negAssign : ∀ {a a'}, r a a' → Agree r (A.negAssign a) (B.negAssign a')
  sub : ∀ {a b a' b'}, r a a' → r b b' → Agree r (A.sub a b) (B.sub a' b')
  subAssign : ∀ {a b a' b'}, r a a' → r b b' → Agree r (A.subAssign a b) (B.subAssign a' b')
  times : ∀ n {a a'}, r a a' → Agree r (A.times n a) (B.times n a')
  int : ∀ n, Agree r (A.int n) (B.int n)
  tryDiv : ∀ {a b a' b'}, r a a' → r b b' →
    Agree (Option.Rel r) (A.tryDiv a b) (B.tryDiv a' b')
  divisible : ∀ {a b a' b'}, r a a' → r b b' → Agree Eq (A.divisible a b) (B.divisible a' b')
  associates : ∀ {a b a' b'}, r a a' → r b b' → Agree Eq (A.associates a b) (B.associates a' b')
  associateRepr : ∀ {a a'}, r a a' → Agree r (A.associateRepr a) (B.associateRepr a')
  associateCoef : ∀ {a a'}, r a a' → Agree r (A.associateCoef a) (B.associateCoef a')
  quoRem : ∀ {a b a' b'}, r a a' → r b b' →
    Agree (fun p q => r p.1 q.1 ∧ r p.2 q.2) (A.quoRem a b) (B.quoRem a' b')
  quo : ∀ {a b a' b'}, r a a' → r b b' → Agree r (A.quo a b) (B.quo a' b')
  rem : ∀ {a b a' b'}, r a a' → r b b' → Agree r (A.rem a b) (B.rem a' b')
  reduced : ∀ {a b a' b'}, r a a' → r b b' → Agree Eq (A.reduced a b) (B.reduced a' b')
  gcd : ∀ {a b a' b'}, r a a' → r b b' → Agree r (A.gcd a b) (B.gcd a' b')
  lcm : ∀ {a b a' b'}, r a a' → r b b' → Agree r (A.lcm a b) (B.lcm a' b')
  extendedGcd : ∀ {a b a' b'}, r a a' → r b b' →
    Agree (fun p q => r p.1 q.1 ∧ r p.2.1 q.2.1 ∧ r p.2.2 q.2.2)
      (A.extendedGcd a b) (B.extendedGcd a' b')
  relativePrimes : ∀ {a b a' b'}, r a a' → r b b' →
    Agree Eq (A.relativePrimes a b) (B.relativePrimes a' b')

end Abstalg
