import Verif.Model.Traits
import Mathlib.Algebra.EuclideanDomain.Basic
import Mathlib.Algebra.EuclideanDomain.Field
import Mathlib.Algebra.GCDMonoid.Basic
import Mathlib.RingTheory.Coprime.Basic
import Mathlib.Order.Bounds.Basic

/-!
# Specification: what it means to implement a mathematical structure

A dictionary of operations on objects of type `E` is specified relative to

* a mathematical structure `R` of Mathlib (a monoid, ring, field, lattice, ...),
* a relation `rep : E → R → Prop`: "the object `e` is a member of the domain and
  represents the mathematical element `x`",
* a proposition `mp` ("may panic").  With `mp = False` a contract is total
  correctness: on members no method panics or diverges, and each returns what the
  mathematics says.  With `mp = True` it is "never a wrong value": every method
  terminates, and if it returns then the result is right (machine integers).

Nothing in this file refers to how a structure is implemented.
-/

set_option autoImplicit false

universe u

namespace Abstalg

/-- The computation terminates; if it returns a value then the value satisfies `P`; it
panics only if `mp` holds. -/
def Returns {α : Type u} (mp : Prop) (c : Res α) (P : α → Prop) : Prop :=
  match c with
  | .ok a => P a
  | .panic => mp
  | .diverge => False

/-- A `bool` answer decides `p`. -/
def Decides (mp : Prop) (c : Res Bool) (p : Prop) : Prop :=
  Returns mp c fun b => (b = true ↔ p)

/-- The computation panics. -/
def Panics {α : Type u} (c : Res α) : Prop := c = .panic

section

variable {E : Type} {R : Type u} (mp : Prop)

/-- Contract of `trait Domain`: every object represents at most one element, members are
contained, `equals` decides equality of the represented elements.  That `contains`
*rejects* non-members is a separate statement, `ContainsExact`. -/
structure DomainSpec (A : DomainOps E) (rep : E → R → Prop) : Prop where
  rep_unique : ∀ {a x y}, rep a x → rep a y → x = y
  contains : ∀ {a x}, rep a x → Returns mp (A.contains a) (· = true)
  equals : ∀ {a b x y}, rep a x → rep b y → Decides mp (A.equals a b) (x = y)

/-- `contains` rejects the non-members satisfying `dom` (and accepts the
members). -/
def ContainsExact (A : DomainOps E) (rep : E → R → Prop) (dom : E → Prop) : Prop :=
  ∀ a, dom a → Decides mp (A.contains a) (∃ x, rep a x)

/-- Contract of `trait Semigroup`. -/
structure SemigroupSpec [Mul R] (A : SemigroupOps E) (rep : E → R → Prop) : Prop
    extends DomainSpec mp A.toDomainOps rep where
  mul : ∀ {a b x y}, rep a x → rep b y → Returns mp (A.mul a b) (rep · (x * y))
  mulAssign : ∀ {a b x y}, rep a x → rep b y → Returns mp (A.mulAssign a b) (rep · (x * y))
  square : ∀ {a x}, rep a x → Returns mp (A.square a) (rep · (x * x))

/-- Contract of `trait Monoid`. -/
structure MonoidSpec [Monoid R] (A : MonoidOps E) (rep : E → R → Prop) : Prop
    extends SemigroupSpec mp A.toSemigroupOps rep where
  one : Returns mp A.one (rep · 1)
  isOne : ∀ {a x}, rep a x → Decides mp (A.isOne a) (x = 1)
  tryInv : ∀ {a x}, rep a x → Returns mp (A.tryInv a) fun
    | some b => ∃ y, rep b y ∧ x * y = 1 ∧ y * x = 1
    | none => ¬ IsUnit x
  invertible : ∀ {a x}, rep a x → Decides mp (A.invertible a) (IsUnit x)

/-- Contract of `trait CommuntativeMonoid`. -/
structure CommutativeMonoidSpec [AddCommMonoid R] (A : CommutativeMonoidOps E)
    (rep : E → R → Prop) : Prop extends DomainSpec mp A.toDomainOps rep where
  zero : Returns mp A.zero (rep · 0)
  isZero : ∀ {a x}, rep a x → Decides mp (A.isZero a) (x = 0)
  add : ∀ {a b x y}, rep a x → rep b y → Returns mp (A.add a b) (rep · (x + y))
  addAssign : ∀ {a b x y}, rep a x → rep b y → Returns mp (A.addAssign a b) (rep · (x + y))
  double : ∀ {a x}, rep a x → Returns mp (A.double a) (rep · (x + x))
  utimes : ∀ (n : ℕ) {a x}, rep a x → Returns mp (A.utimes n a) (rep · (n • x))

/-- Contract of `trait Group`. The exponent `isize::MIN` is excluded (see property
C09). -/
structure GroupSpec [Cfg] [Group R] (A : GroupOps E) (rep : E → R → Prop) : Prop
    extends MonoidSpec mp A.toMonoidOps rep where
  inv : ∀ {a x}, rep a x → Returns mp (A.inv a) (rep · x⁻¹)
  power : ∀ (n : ℤ), n ≠ isizeMin → ∀ {a x}, rep a x → Returns mp (A.power n a) (rep · (x ^ n))

/-- Contract of `trait AbelianGroup`. The multiplier `isize::MIN` is excluded (see property
C09). -/
structure AbelianGroupSpec [Cfg] [AddCommGroup R] (A : AbelianGroupOps E)
    (rep : E → R → Prop) : Prop
    extends CommutativeMonoidSpec mp A.toCommutativeMonoidOps rep where
  neg : ∀ {a x}, rep a x → Returns mp (A.neg a) (rep · (-x))
  negAssign : ∀ {a x}, rep a x → Returns mp (A.negAssign a) (rep · (-x))
  sub : ∀ {a b x y}, rep a x → rep b y → Returns mp (A.sub a b) (rep · (x - y))
  subAssign : ∀ {a b x y}, rep a x → rep b y → Returns mp (A.subAssign a b) (rep · (x - y))
  times : ∀ (n : ℤ), n ≠ isizeMin → ∀ {a x}, rep a x → Returns mp (A.times n a) (rep · (n • x))

/-- Contract of `trait SemiRing`. -/
structure SemiRingSpec [Semiring R] (A : SemiRingOps E) (rep : E → R → Prop) : Prop
    extends CommutativeMonoidSpec mp A.toCommutativeMonoidOps rep,
      MonoidSpec mp A.toMonoidOps rep

/-- Contract of `trait UnitaryRing`. -/
structure UnitaryRingSpec [Cfg] [Ring R] (A : UnitaryRingOps E) (rep : E → R → Prop) : Prop
    extends SemiRingSpec mp A.toSemiRingOps rep, AbelianGroupSpec mp A.toAbelianGroupOps rep where
  int : ∀ (n : ℤ), n ≠ isizeMin → Returns mp (A.int n) (rep · (n : R))

/-- Contract of `trait IntegralDomain`.  `normUnit x` is the unit that turns `x` into the
canonical representative `normalize x = x * normUnit x` of its associate class. -/
structure IntegralDomainSpec [Cfg] [CommRing R] [IsDomain R] [NormalizationMonoid R]
    (A : IntegralDomainOps E) (rep : E → R → Prop) : Prop
    extends UnitaryRingSpec mp A.toUnitaryRingOps rep where
  tryDiv : ∀ {a b x y}, rep a x → rep b y → y ≠ 0 → Returns mp (A.tryDiv a b) fun
    | some c => ∃ z, rep c z ∧ x = y * z
    | none => ¬ y ∣ x
  tryDiv_zero : ∀ {a b x}, rep a x → rep b 0 → Panics (A.tryDiv a b)
  divisible : ∀ {a b x y}, rep a x → rep b y → Decides mp (A.divisible a b) (y ∣ x)
  associates : ∀ {a b x y}, rep a x → rep b y → Decides mp (A.associates a b) (Associated x y)
  associateRepr : ∀ {a x}, rep a x → Returns mp (A.associateRepr a) (rep · (normalize x))
  associateCoef : ∀ {a x}, rep a x → x ≠ 0 →
    Returns mp (A.associateCoef a) (rep · (normUnit x : R))
  associateCoef_zero : ∀ {a}, rep a 0 → Panics (A.associateCoef a)

/-- `g` is a greatest common divisor of `x` and `y`. -/
def IsGcd [CommRing R] (x y g : R) : Prop :=
  g ∣ x ∧ g ∣ y ∧ ∀ d, d ∣ x → d ∣ y → d ∣ g

/-- `m` is a least common multiple of `x` and `y`. -/
def IsLcm [CommRing R] (x y m : R) : Prop :=
  x ∣ m ∧ y ∣ m ∧ ∀ d, x ∣ d → y ∣ d → m ∣ d

/-- Contract of `trait EuclideanDomain`; `x / y` and `x % y` are quotient and remainder of
the Euclidean domain `R`. -/
structure EuclideanSpec [Cfg] [EuclideanDomain R] [NormalizationMonoid R]
    (A : EuclideanDomainOps E) (rep : E → R → Prop) : Prop
    extends IntegralDomainSpec mp A.toIntegralDomainOps rep where
  quoRem : ∀ {a b x y}, rep a x → rep b y → y ≠ 0 →
    Returns mp (A.quoRem a b) fun p => rep p.1 (x / y) ∧ rep p.2 (x % y)
  quoRem_zero : ∀ {a b x}, rep a x → rep b 0 → Panics (A.quoRem a b)
  quo : ∀ {a b x y}, rep a x → rep b y → y ≠ 0 → Returns mp (A.quo a b) (rep · (x / y))
  quo_zero : ∀ {a b x}, rep a x → rep b 0 → Panics (A.quo a b)
  rem : ∀ {a b x y}, rep a x → rep b y → y ≠ 0 → Returns mp (A.rem a b) (rep · (x % y))
  rem_zero : ∀ {a b x}, rep a x → rep b 0 → Panics (A.rem a b)
  reduced : ∀ {a b x y}, rep a x → rep b y → Decides mp (A.reduced a b) (y = 0 ∨ x / y = 0)
  gcd : ∀ {a b x y}, rep a x → rep b y →
    Returns mp (A.gcd a b) fun c => ∃ g, rep c g ∧ IsGcd x y g
  lcm : ∀ {a b x y}, rep a x → rep b y →
    Returns mp (A.lcm a b) fun c => ∃ m, rep c m ∧ IsLcm x y m
  extendedGcd : ∀ {a b x y}, rep a x → rep b y →
    Returns mp (A.extendedGcd a b) fun c => ∃ g s t,
      rep c.1 g ∧ rep c.2.1 s ∧ rep c.2.2 t ∧ x * s + y * t = g ∧ IsGcd x y g
  relativePrimes : ∀ {a b x y}, rep a x → rep b y →
    Decides mp (A.relativePrimes a b) (IsCoprime x y)

/-- Contract of `trait Field` (for the Euclidean methods of a field see
`FieldSpec.toEuclidean`).  Powers of zero are specified as the code computes them: zero
for every exponent (see property C47). -/
structure FieldSpec [Cfg] [Field R] (A : FieldOps E) (rep : E → R → Prop) : Prop
    extends UnitaryRingSpec mp A.toUnitaryRingOps rep where
  inv : ∀ {a x}, rep a x → x ≠ 0 → Returns mp (A.inv a) (rep · x⁻¹)
  inv_zero : ∀ {a}, rep a 0 → Panics (A.inv a)
  div : ∀ {a b x y}, rep a x → rep b y → y ≠ 0 → Returns mp (A.div a b) (rep · (x / y))
  div_zero : ∀ {a b x}, rep a x → rep b 0 → Panics (A.div a b)
  power : ∀ (n : ℤ), n ≠ isizeMin → ∀ {a x}, rep a x → x ≠ 0 →
    Returns mp (A.power n a) (rep · (x ^ n))
  power_zero : ∀ (n : ℤ) {a}, rep a 0 → Returns mp (A.power n a) (rep · 0)

/-- Contract of `trait PartialOrder`. -/
structure PartialOrderSpec [PartialOrder R] (A : PartialOrderOps E) (rep : E → R → Prop) : Prop
    extends DomainSpec mp A.toDomainOps rep where
  leq : ∀ {a b x y}, rep a x → rep b y → Decides mp (A.leq a b) (x ≤ y)
  lessThan : ∀ {a b x y}, rep a x → rep b y → Decides mp (A.lessThan a b) (x < y)
  comparable : ∀ {a b x y}, rep a x → rep b y → Decides mp (A.comparable a b) (x ≤ y ∨ y ≤ x)

/-- Contract of `trait BoundedOrder`. -/
structure BoundedOrderSpec [PartialOrder R] (A : BoundedOrderOps E) (rep : E → R → Prop) : Prop
    extends PartialOrderSpec mp A.toPartialOrderOps rep where
  max : Returns mp A.max fun a => ∃ x, rep a x ∧ ∀ y, y ≤ x
  min : Returns mp A.min fun a => ∃ x, rep a x ∧ ∀ y, x ≤ y

/-- Contract of `trait Lattice`: `meet` is the greatest lower bound, `join` the
least upper bound in `R`. -/
structure LatticeSpec [PartialOrder R] (A : LatticeOps E) (rep : E → R → Prop) : Prop
    extends PartialOrderSpec mp A.toPartialOrderOps rep where
  meet : ∀ {a b x y}, rep a x → rep b y →
    Returns mp (A.meet a b) fun c => ∃ z, rep c z ∧ IsGLB {x, y} z
  join : ∀ {a b x y}, rep a x → rep b y →
    Returns mp (A.join a b) fun c => ∃ z, rep c z ∧ IsLUB {x, y} z

/-- Contract of `trait BooleanAlgebra`. -/
structure BooleanAlgebraSpec [BooleanAlgebra R] (A : BooleanAlgebraOps E)
    (rep : E → R → Prop) : Prop
    extends LatticeSpec mp A.toLatticeOps rep, BoundedOrderSpec mp A.toBoundedOrderOps rep where
  not : ∀ {a x}, rep a x → Returns mp (A.not a) (rep · xᶜ)

end

end Abstalg
