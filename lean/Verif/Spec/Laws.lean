import Verif.Spec.Contracts

/-! # Specification: the documented laws, stated on objects

A second specification of the traits, independent of `Spec/Contracts`: the axioms named in the
documentation of the traits (associativity, distributivity, Euclidean division, ...), written with the
methods of the trait only.  There is no mathematical structure and no representation relation here;
"equal" means that `equals` answers true.  The members are given by a predicate `M` on which `contains`
answers true; where `contains` is exact, `M` is `Mem A`, the objects for which it does.

As in `Spec/Contracts`, `mp = False` asks that all computations on members return, and `mp = True`
that they terminate and that the law holds whenever both sides return. -/

set_option autoImplicit false

namespace Abstalg.Laws

variable {E : Type} (mp : Prop)

/-- `contains` answers true. -/
def Mem (A : DomainOps E) (a : E) : Prop := A.contains a = .ok true

variable (M : E → Prop)

/-- Both computations return members that are equal in the sense of `equals`. -/
def Same (A : DomainOps E) (c d : Res E) : Prop :=
  Returns mp c fun a => M a ∧ Returns mp d fun b => M b ∧ Returns mp (A.equals a b) (· = true)

/-- Both computations return the same answer. -/
def SameBool (c d : Res Bool) : Prop := Returns mp c fun a => Returns mp d fun b => a = b

/-- Both computations did return, and `equals` answered true. -/
def Equal (A : DomainOps E) (c d : Res E) : Prop :=
  ∃ a b, c = .ok a ∧ d = .ok b ∧ A.equals a b = .ok true

/-- `trait Domain`: members are contained, `equals` is an equivalence relation. -/
structure DomainLaws (A : DomainOps E) : Prop where
  contains : ∀ {a}, M a → Returns mp (A.contains a) (· = true)
  refl : ∀ {a}, M a → Returns mp (A.equals a a) (· = true)
  symm : ∀ {a b}, M a → M b → SameBool mp (A.equals a b) (A.equals b a)
  trans : ∀ {a b c}, M a → M b → M c → A.equals a b = .ok true → A.equals b c = .ok true →
    Returns mp (A.equals a c) (· = true)

/-- `trait Semigroup` -/
structure SemigroupLaws (A : SemigroupOps E) : Prop extends DomainLaws mp M A.toDomainOps where
  mul_congr : ∀ {a b c d}, M a → M b → M c →
    M d → A.equals a c = .ok true → A.equals b d = .ok true →
    Same mp M A.toDomainOps (A.mul a b) (A.mul c d)
  mul_assoc : ∀ {a b c}, M a → M b → M c →
    Same mp M A.toDomainOps (do A.mul (← A.mul a b) c) (do A.mul a (← A.mul b c))
  mulAssign : ∀ {a b}, M a → M b →
    Same mp M A.toDomainOps (A.mulAssign a b) (A.mul a b)
  square : ∀ {a}, M a → Same mp M A.toDomainOps (A.square a) (A.mul a a)

/-- `trait Monoid` -/
structure MonoidLaws (A : MonoidOps E) : Prop extends SemigroupLaws mp M A.toSemigroupOps where
  one_mem : Returns mp A.one M
  mul_one : ∀ {a}, M a → Same mp M A.toDomainOps (do A.mul a (← A.one)) (.ok a)
  one_mul : ∀ {a}, M a → Same mp M A.toDomainOps (do A.mul (← A.one) a) (.ok a)
  isOne : ∀ {a}, M a → SameBool mp (A.isOne a) (do A.equals a (← A.one))
  tryInv : ∀ {a}, M a → Returns mp (A.tryInv a) fun
    | some b => M b ∧ Same mp M A.toDomainOps (A.mul a b) A.one ∧
      Same mp M A.toDomainOps (A.mul b a) A.one
    | none => ∀ b, M b →
      ¬ (Equal A.toDomainOps (A.mul a b) A.one ∧ Equal A.toDomainOps (A.mul b a) A.one)
  invertible : ∀ {a}, M a →
    SameBool mp (A.invertible a) (do return (← A.tryInv a).isSome)

/-- `trait CommuntativeMonoid` -/
structure CommutativeMonoidLaws (A : CommutativeMonoidOps E) : Prop
    extends DomainLaws mp M A.toDomainOps where
  add_congr : ∀ {a b c d}, M a → M b → M c →
    M d → A.equals a c = .ok true → A.equals b d = .ok true →
    Same mp M A.toDomainOps (A.add a b) (A.add c d)
  add_assoc : ∀ {a b c}, M a → M b → M c →
    Same mp M A.toDomainOps (do A.add (← A.add a b) c) (do A.add a (← A.add b c))
  add_comm : ∀ {a b}, M a → M b →
    Same mp M A.toDomainOps (A.add a b) (A.add b a)
  zero_mem : Returns mp A.zero M
  add_zero : ∀ {a}, M a → Same mp M A.toDomainOps (do A.add a (← A.zero)) (.ok a)
  isZero : ∀ {a}, M a → SameBool mp (A.isZero a) (do A.equals a (← A.zero))
  addAssign : ∀ {a b}, M a → M b →
    Same mp M A.toDomainOps (A.addAssign a b) (A.add a b)
  double : ∀ {a}, M a → Same mp M A.toDomainOps (A.double a) (A.add a a)
  utimes_zero : ∀ {a}, M a → Same mp M A.toDomainOps (A.utimes 0 a) A.zero
  utimes_succ : ∀ {a} (n : Nat), M a →
    Same mp M A.toDomainOps (A.utimes (n + 1) a) (do A.add (← A.utimes n a) a)

/-- `trait Group`; the last three laws determine all powers but that to `isize::MIN`. -/
structure GroupLaws [Cfg] (A : GroupOps E) : Prop extends MonoidLaws mp M A.toMonoidOps where
  inv_mem : ∀ {a}, M a → Returns mp (A.inv a) M
  mul_inv : ∀ {a}, M a → Same mp M A.toDomainOps (do A.mul a (← A.inv a)) A.one
  inv_mul : ∀ {a}, M a → Same mp M A.toDomainOps (do A.mul (← A.inv a) a) A.one
  power_zero : ∀ {a}, M a → Same mp M A.toDomainOps (A.power 0 a) A.one
  power_succ : ∀ {a} (n : Nat), M a →
    Same mp M A.toDomainOps (A.power (n + 1) a) (do A.mul (← A.power n a) a)
  power_neg : ∀ {a} (n : Nat), -(n : Int) ≠ isizeMin → M a →
    Same mp M A.toDomainOps (A.power (-n) a) (do A.inv (← A.power n a))

/-- `trait AbelianGroup` -/
structure AbelianGroupLaws [Cfg] (A : AbelianGroupOps E) : Prop
    extends CommutativeMonoidLaws mp M A.toCommutativeMonoidOps where
  neg_mem : ∀ {a}, M a → Returns mp (A.neg a) M
  add_neg : ∀ {a}, M a → Same mp M A.toDomainOps (do A.add a (← A.neg a)) A.zero
  negAssign : ∀ {a}, M a → Same mp M A.toDomainOps (A.negAssign a) (A.neg a)
  sub : ∀ {a b}, M a → M b →
    Same mp M A.toDomainOps (A.sub a b) (do A.add a (← A.neg b))
  subAssign : ∀ {a b}, M a → M b →
    Same mp M A.toDomainOps (A.subAssign a b) (A.sub a b)
  times_zero : ∀ {a}, M a → Same mp M A.toDomainOps (A.times 0 a) A.zero
  times_succ : ∀ {a} (n : Nat), M a →
    Same mp M A.toDomainOps (A.times (n + 1) a) (do A.add (← A.times n a) a)
  times_neg : ∀ {a} (n : Nat), -(n : Int) ≠ isizeMin → M a →
    Same mp M A.toDomainOps (A.times (-n) a) (do A.neg (← A.times n a))

/-- `trait SemiRing` -/
structure SemiRingLaws (A : SemiRingOps E) : Prop
    extends CommutativeMonoidLaws mp M A.toCommutativeMonoidOps, MonoidLaws mp M A.toMonoidOps where
  mul_add : ∀ {a b c}, M a → M b → M c →
    Same mp M A.toDomainOps (do A.mul a (← A.add b c)) (do A.add (← A.mul a b) (← A.mul a c))
  add_mul : ∀ {a b c}, M a → M b → M c →
    Same mp M A.toDomainOps (do A.mul (← A.add a b) c) (do A.add (← A.mul a c) (← A.mul b c))
  mul_zero : ∀ {a}, M a → Same mp M A.toDomainOps (do A.mul a (← A.zero)) A.zero
  zero_mul : ∀ {a}, M a → Same mp M A.toDomainOps (do A.mul (← A.zero) a) A.zero

/-- `trait UnitaryRing` -/
structure UnitaryRingLaws [Cfg] (A : UnitaryRingOps E) : Prop
    extends SemiRingLaws mp M A.toSemiRingOps, AbelianGroupLaws mp M A.toAbelianGroupOps where
  int : ∀ n : Int, n ≠ isizeMin → Same mp M A.toDomainOps (A.int n) (do A.times n (← A.one))

/-- `trait IntegralDomain` -/
structure IntegralDomainLaws [Cfg] (A : IntegralDomainOps E) : Prop
    extends UnitaryRingLaws mp M A.toUnitaryRingOps where
  mul_comm : ∀ {a b}, M a → M b →
    Same mp M A.toDomainOps (A.mul a b) (A.mul b a)
  one_ne_zero : Returns mp (do A.isZero (← A.one)) (· = false)
  no_zero_divisors : ∀ {a b}, M a → M b → A.isZero a = .ok false →
    A.isZero b = .ok false → Returns mp (do A.isZero (← A.mul a b)) (· = false)
  /-- the unique quotient if it exists -/
  tryDiv : ∀ {a b}, M a → M b → A.isZero b = .ok false →
    Returns mp (A.tryDiv a b) fun
    | some q => M q ∧ Same mp M A.toDomainOps (A.mul b q) (.ok a) ∧
      ∀ q', M q' → Equal A.toDomainOps (A.mul b q') (.ok a) →
        Returns mp (A.equals q q') (· = true)
    | none => ∀ q, M q → ¬ Equal A.toDomainOps (A.mul b q) (.ok a)
  tryDiv_zero : ∀ {a b}, M a → M b → A.isZero b = .ok true →
    A.tryDiv a b = .panic
  divisible : ∀ {a b}, M a → M b → Returns mp (A.divisible a b) fun
    | true => mp ∨ ∃ q, M q ∧ Equal A.toDomainOps (A.mul b q) (.ok a)
    | false => ∀ q, M q → ¬ Equal A.toDomainOps (A.mul b q) (.ok a)
  associates : ∀ {a b}, M a → M b →
    SameBool mp (A.associates a b) (do return (← A.divisible a b) && (← A.divisible b a))
  associateRepr : ∀ {a}, M a → Returns mp (A.associateRepr a) M ∧
    Returns mp (do A.associates a (← A.associateRepr a)) (· = true)
  /-- among all associates there is a well defined unique one -/
  associateRepr_congr : ∀ {a b}, M a → M b →
    A.associates a b = .ok true → Same mp M A.toDomainOps (A.associateRepr a) (A.associateRepr b)
  /-- the quotient of the representative and the element, and invertible -/
  associateCoef : ∀ {a}, M a → A.isZero a = .ok false → Returns mp (A.associateCoef a) M ∧
    Same mp M A.toDomainOps (do A.mul a (← A.associateCoef a)) (A.associateRepr a) ∧
      Returns mp (do A.invertible (← A.associateCoef a)) (· = true)
  associateCoef_zero : ∀ {a}, M a → A.isZero a = .ok true →
    A.associateCoef a = .panic

/-- `trait EuclideanDomain` -/
structure EuclideanDomainLaws [Cfg] (A : EuclideanDomainOps E) : Prop
    extends IntegralDomainLaws mp M A.toIntegralDomainOps where
  /-- the division algorithm -/
  quoRem : ∀ {a b}, M a → M b → A.isZero b = .ok false →
    Returns mp (A.quoRem a b) fun p => M p.1 ∧ M p.2 ∧
      Same mp M A.toDomainOps (do A.add (← A.mul b p.1) p.2) (.ok a) ∧
      Returns mp (A.reduced p.2 b) (· = true) ∧
      Same mp M A.toDomainOps (A.quo a b) (.ok p.1) ∧ Same mp M A.toDomainOps (A.rem a b) (.ok p.2)
  quoRem_zero : ∀ {a b}, M a → M b → A.isZero b = .ok true →
    A.quoRem a b = .panic ∧ A.quo a b = .panic ∧ A.rem a b = .panic
  /-- the representative elements of the factor ring -/
  reduced : ∀ {a b}, M a → M b → A.isZero b = .ok false →
    SameBool mp (A.reduced a b) (do A.isZero (← A.quo a b))
  reduced_zero : ∀ {a b}, M a → M b → A.isZero b = .ok true →
    Returns mp (A.reduced a b) (· = true)
  gcd : ∀ {a b}, M a → M b → Returns mp (A.gcd a b) fun g =>
    M g ∧ Returns mp (A.divisible a g) (· = true) ∧
      Returns mp (A.divisible b g) (· = true) ∧
      ∀ d, M d → A.divisible a d = .ok true → A.divisible b d = .ok true →
        Returns mp (A.divisible g d) (· = true)
  lcm : ∀ {a b}, M a → M b → Returns mp (A.lcm a b) fun m =>
    M m ∧ Returns mp (A.divisible m a) (· = true) ∧
      Returns mp (A.divisible m b) (· = true) ∧
      ∀ d, M d → A.divisible d a = .ok true → A.divisible d b = .ok true →
        Returns mp (A.divisible d m) (· = true)
  /-- two elements that multiplied with the inputs give the greatest common divisor -/
  extendedGcd : ∀ {a b}, M a → M b →
    Returns mp (A.extendedGcd a b) fun p =>
      M p.1 ∧ M p.2.1 ∧ M p.2.2 ∧
      Same mp M A.toDomainOps (do A.add (← A.mul a p.2.1) (← A.mul b p.2.2)) (.ok p.1) ∧
      Returns mp (do A.associates p.1 (← A.gcd a b)) (· = true)
  relativePrimes : ∀ {a b}, M a → M b →
    SameBool mp (A.relativePrimes a b) (do A.invertible (← A.gcd a b))

/-- `trait Field` (a field is also a Euclidean domain, by `FieldOps.toEuclidean`) -/
structure FieldLaws [Cfg] (A : FieldOps E) : Prop extends UnitaryRingLaws mp M A.toUnitaryRingOps where
  mul_comm : ∀ {a b}, M a → M b →
    Same mp M A.toDomainOps (A.mul a b) (A.mul b a)
  one_ne_zero : Returns mp (do A.isZero (← A.one)) (· = false)
  inv_mem : ∀ {a}, M a → A.isZero a = .ok false → Returns mp (A.inv a) M
  mul_inv : ∀ {a}, M a → A.isZero a = .ok false →
    Same mp M A.toDomainOps (do A.mul a (← A.inv a)) A.one
  inv_zero : ∀ {a}, M a → A.isZero a = .ok true → A.inv a = .panic
  div_mem : ∀ {a b}, M a → M b → A.isZero b = .ok false → Returns mp (A.div a b) M
  div : ∀ {a b}, M a → M b → A.isZero b = .ok false →
    Same mp M A.toDomainOps (do A.mul (← A.div a b) b) (.ok a)
  div_zero : ∀ {a b}, M a → M b → A.isZero b = .ok true →
    A.div a b = .panic
  power_zero : ∀ {a}, M a → A.isZero a = .ok false →
    Same mp M A.toDomainOps (A.power 0 a) A.one
  power_succ : ∀ {a} (n : Nat), M a → A.isZero a = .ok false →
    Same mp M A.toDomainOps (A.power (n + 1) a) (do A.mul (← A.power n a) a)
  power_neg : ∀ {a} (n : Nat), -(n : Int) ≠ isizeMin → M a → A.isZero a = .ok false →
    Same mp M A.toDomainOps (A.power (-n) a) (do A.inv (← A.power n a))
  /-- zero to every power is zero, see C47 -/
  power_of_zero : ∀ {a} (n : Int), M a → A.isZero a = .ok true →
    Same mp M A.toDomainOps (A.power n a) A.zero

/-- `trait PartialOrder` -/
structure PartialOrderLaws (A : PartialOrderOps E) : Prop extends DomainLaws mp M A.toDomainOps where
  le_refl : ∀ {a}, M a → Returns mp (A.leq a a) (· = true)
  le_trans : ∀ {a b c}, M a → M b → M c →
    A.leq a b = .ok true → A.leq b c = .ok true → Returns mp (A.leq a c) (· = true)
  le_antisymm : ∀ {a b}, M a → M b → A.leq a b = .ok true →
    A.leq b a = .ok true → Returns mp (A.equals a b) (· = true)
  le_congr : ∀ {a b c d}, M a → M b → M c →
    M d → A.equals a c = .ok true → A.equals b d = .ok true →
    SameBool mp (A.leq a b) (A.leq c d)
  lessThan : ∀ {a b}, M a → M b →
    SameBool mp (A.lessThan a b) (do return (← A.leq a b) && !(← A.equals a b))
  comparable : ∀ {a b}, M a → M b →
    SameBool mp (A.comparable a b) (do return (← A.leq a b) || (← A.leq b a))

/-- `trait BoundedOrder` -/
structure BoundedOrderLaws (A : BoundedOrderOps E) : Prop
    extends PartialOrderLaws mp M A.toPartialOrderOps where
  max_mem : Returns mp A.max M
  min_mem : Returns mp A.min M
  le_max : ∀ {a}, M a → Returns mp (do A.leq a (← A.max)) (· = true)
  min_le : ∀ {a}, M a → Returns mp (do A.leq (← A.min) a) (· = true)

/-- `trait Lattice` -/
structure LatticeLaws (A : LatticeOps E) : Prop extends PartialOrderLaws mp M A.toPartialOrderOps where
  /-- the largest element that is less than or equal to both -/
  meet : ∀ {a b}, M a → M b → Returns mp (A.meet a b) fun c =>
    M c ∧ Returns mp (A.leq c a) (· = true) ∧ Returns mp (A.leq c b) (· = true) ∧
      ∀ d, M d → A.leq d a = .ok true → A.leq d b = .ok true →
        Returns mp (A.leq d c) (· = true)
  /-- the smallest element that is greater than or equal to both -/
  join : ∀ {a b}, M a → M b → Returns mp (A.join a b) fun c =>
    M c ∧ Returns mp (A.leq a c) (· = true) ∧ Returns mp (A.leq b c) (· = true) ∧
      ∀ d, M d → A.leq a d = .ok true → A.leq b d = .ok true →
        Returns mp (A.leq c d) (· = true)

/-- `trait DistributiveLattice` -/
structure DistributiveLatticeLaws (A : LatticeOps E) : Prop extends LatticeLaws mp M A where
  meet_join : ∀ {a b c}, M a → M b → M c →
    Same mp M A.toDomainOps (do A.meet a (← A.join b c)) (do A.join (← A.meet a b) (← A.meet a c))
  join_meet : ∀ {a b c}, M a → M b → M c →
    Same mp M A.toDomainOps (do A.join a (← A.meet b c)) (do A.meet (← A.join a b) (← A.join a c))

/-- `trait BooleanAlgebra`: a complemented bounded distributive lattice -/
structure BooleanAlgebraLaws (A : BooleanAlgebraOps E) : Prop
    extends DistributiveLatticeLaws mp M A.toLatticeOps, BoundedOrderLaws mp M A.toBoundedOrderOps where
  not_mem : ∀ {a}, M a → Returns mp (A.not a) M
  meet_not : ∀ {a}, M a → Same mp M A.toDomainOps (do A.meet a (← A.not a)) A.min
  join_not : ∀ {a}, M a → Same mp M A.toDomainOps (do A.join a (← A.not a)) A.max

/-! ## Members of the constructed algebras -/

/-- The vectors of length `n` with entries satisfying `M`. -/
def VecMem (n : Nat) (v : List E) : Prop := v.length = n ∧ ∀ a, a ∈ v → M a

/-- The vectors of coefficients satisfying `M` with no zero at the end. -/
def PolyMem (A : CommutativeMonoidOps E) (v : List E) : Prop :=
  (∀ a, a ∈ v → M a) ∧ ∀ a, v.getLast? = some a → A.isZero a = .ok false

/-- The objects satisfying `M` that are also contained in the derived algebra `B`. -/
def SubMem (B : DomainOps E) (a : E) : Prop := M a ∧ Mem B a

/-- The reduced fractions with numerator and denominator satisfying `M`. -/
def FracMem (A : CommutativeMonoidOps E) (B : DomainOps (E × E)) (e : E × E) : Prop :=
  M e.1 ∧ M e.2 ∧ A.isZero e.2 = .ok false ∧ Mem B e

/-- A product of two nonzero members is not zero. -/
def NoZeroDiv (A : SemiRingOps E) : Prop := ∀ {a b}, M a → M b → A.isZero a = .ok false →
  A.isZero b = .ok false → Returns mp (do A.isZero (← A.mul a b)) (· = false)

/-- The member `m` is neither zero nor invertible, and it is not the product of two noninvertible
members. -/
def Irred (A : SemiRingOps E) (m : E) : Prop :=
  A.isZero m = .ok false ∧ A.invertible m = .ok false ∧
  ∀ a b, M a → M b → Equal A.toDomainOps (A.mul a b) (.ok m) →
    A.invertible a = .ok true ∨ A.invertible b = .ok true

end Abstalg.Laws
