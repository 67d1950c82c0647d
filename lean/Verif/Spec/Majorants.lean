import Verif.Spec.Simulation
import Mathlib.Algebra.Order.Group.Unbundled.Abs

/-! # Specification: operands and results that bound others in absolute value

`r b a` reads: `b` bounds `a`. -/

set_option autoImplicit false

namespace Abstalg

variable {E V : Type}

/-- The value of `a` is, in absolute value, at most the value of `b`. -/
def BoundsAbs [Lattice V] [AddGroup V] (rep : E → V → Prop) (b a : E) : Prop :=
  ∃ x y, rep a x ∧ rep b y ∧ |x| ≤ y

/-- The value of `a` is not negative and at most the value of `b`. -/
def BoundsNonneg [LE V] [Zero V] (rep : E → V → Prop) (b a : E) : Prop :=
  ∃ x y, rep a x ∧ rep b y ∧ 0 ≤ x ∧ x ≤ y

/-- Vectors of length `n`, each entry of the second bounded by the one of the first. -/
def VecBounds (r : E → E → Prop) (n : ℕ) (v w : List E) : Prop := v.length = n ∧ LRel r v w

/-- Polynomials: the second is not longer, its coefficients are bounded by those of the first, and all coefficients
of the first are bounds. -/
def PolyBounds (r : E → E → Prop) (v w : List E) : Prop :=
  (∀ (k : ℕ) (a : E), w[k]? = some a → ∃ b, v[k]? = some b ∧ r b a) ∧ ∀ b ∈ v, ∃ a, r b a

/-- What the bounds compute without a panic the bounded operands compute, too, with a result that is
bounded by the one of the bounds; and adding a bound to a bound keeps what it bounds. -/
structure BoundedSemiRing (r : E → E → Prop) (A : SemiRingOps E) : Prop where
  zero : Follows r A.zero A.zero
  one : Follows r A.one A.one
  add : ∀ {b d a c}, r b a → r d c → Follows r (A.add b d) (A.add a c)
  addAssign : ∀ {b d a c}, r b a → r d c → Follows r (A.addAssign b d) (A.addAssign a c)
  double : ∀ {b a}, r b a → Follows r (A.double b) (A.double a)
  utimes : ∀ n {b a}, r b a → Follows r (A.utimes n b) (A.utimes n a)
  mul : ∀ {b d a c}, r b a → r d c → Follows r (A.mul b d) (A.mul a c)
  mulAssign : ∀ {b d a c}, r b a → r d c → Follows r (A.mulAssign b d) (A.mulAssign a c)
  square : ∀ {b a}, r b a → Follows r (A.square b) (A.square a)
  grow : ∀ {b d a c}, r b a → r d c → Follows r (A.add b d) (.ok a)

/-- The same for rings: negatives are bounded by what bounds the operand, differences by sums. -/
structure BoundedRing [Cfg] (r : E → E → Prop) (A : UnitaryRingOps E) : Prop
    extends BoundedSemiRing r A.toSemiRingOps where
  neg : ∀ {b a}, r b a → Follows r (.ok b) (A.neg a)
  negAssign : ∀ {b a}, r b a → Follows r (.ok b) (A.negAssign a)
  sub : ∀ {b d a c}, r b a → r d c → Follows r (A.add b d) (A.sub a c)
  subAssign : ∀ {b d a c}, r b a → r d c → Follows r (A.add b d) (A.subAssign a c)

end Abstalg
