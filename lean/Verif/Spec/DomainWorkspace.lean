import Verif.Spec.Workspace
import Verif.Model.QuotientRing
import Verif.Model.QuotientField
import Verif.Model.ReducedFractions
import Verif.Model.DivisibilityOrder
import Verif.Model.StatefulResidues

/-! # Specification: programs that use a Euclidean domain and the structures over it at the same time

A program that works with a Euclidean domain also works with its fractions, which are pairs that any program may put together and take
apart, with its residues, where the modulus may be computed by the program itself, with its order by divisibility, and with vectors and
polynomials over it. A variable of such a program holds an element of the domain, a pair, or a `Vec` of elements. An object of
`QuotientRing` or `QuotientField` has no state besides the modulus: a residue is held in a variable together with the modulus of the ring
it belongs to, and a call on residues goes to the ring of its first operand. -/

set_option autoImplicit false

universe u v

namespace Abstalg

/-- What a variable holds. -/
inductive Item (E : Type u) where
  | scalar (a : E)
  | pair (p : E × E)
  | vec (v : List E)

/-- Corresponding values. -/
def Item.Rel {E : Type u} {F : Type v} (r : E → F → Prop) : Item E → Item F → Prop
  | .scalar a, .scalar b => r a b
  | .pair p, .pair q => PRel r p q
  | .vec v, .vec w => LRel r v w
  | _, _ => False

/-- The element of the domain. In Rust a variable of another type is rejected by the compiler; here the call panics. -/
def Item.asScalar {E : Type u} : Item E → Res E
  | .scalar a => .ok a
  | _ => .panic

/-- The pair. -/
def Item.asPair {E : Type u} : Item E → Res (E × E)
  | .pair p => .ok p
  | _ => .panic

/-- The `Vec`. -/
def Item.asVec {E : Type u} : Item E → Res (List E)
  | .vec v => .ok v
  | _ => .panic

/-- A call. -/
inductive DomainCall where
  /-- a method of the domain -/
  | euclidean (m : EuclideanMethod)
  /-- constants of the domain, without operands -/
  | zero | one | int (n : ℤ)
  /-- the order by divisibility -/
  | leq | lessThan | comparable | meet | join
  /-- `ReducedFractions::new` -/
  | newFractions
  /-- a method of the fractions -/
  | fraction (m : FieldMethod)
  /-- `ReducedFractions::reduce` -/
  | reduce
  /-- the pair of two elements -/
  | makePair
  /-- the parts of a pair -/
  | first | second
  /-- `QuotientRing::new` -/
  | newResidues
  /-- a method of the residues -/
  | residue (m : RingMethod)
  /-- `QuotientField::new` -/
  | newResidueField
  /-- a method of the residues as a field -/
  | residueField (m : FieldMethod)
  /-- a method of the vectors of a length -/
  | vector (len : ℕ) (m : RingMethod)
  /-- a method of the polynomials -/
  | polynomial (m : RingMethod)
  /-- `PolynomialAlgebra::try_div` -/
  | polynomialTryDiv
  /-- `PolynomialAlgebra::associate_repr` -/
  | polynomialAssociate
  /-- `Vec::new()` -/
  | empty
  /-- `v.push(a)` -/
  | push
  /-- `v[i].clone()` -/
  | get (i : ℕ)
  /-- `v[i] = a` -/
  | set (i : ℕ)
  /-- `v.truncate(n)` -/
  | truncate (n : ℕ)
  /-- `v.len() == n` -/
  | hasLength (n : ℕ)

/-- The calls over a Euclidean domain. -/
def DomainCall.table [Cfg] {E : Type} (A : EuclideanDomainOps E) : DomainCall → Item E → Item E → Res (Reply (Item E))
  | euclidean m, x, y => do return (← m.table A (← x.asScalar) (← y.asScalar)).map .scalar
  | zero, _, _ => do return .elements [.scalar (← A.zero)]
  | one, _, _ => do return .elements [.scalar (← A.one)]
  | int n, _, _ => do return .elements [.scalar (← A.int n)]
  | leq, x, y => do return .answer (← (DivisibilityOrder.lattice A).leq (← x.asScalar) (← y.asScalar))
  | lessThan, x, y => do return .answer (← (DivisibilityOrder.lattice A).lessThan (← x.asScalar) (← y.asScalar))
  | comparable, x, y => do return .answer (← (DivisibilityOrder.lattice A).comparable (← x.asScalar) (← y.asScalar))
  | meet, x, y => do return .elements [.scalar (← (DivisibilityOrder.lattice A).meet (← x.asScalar) (← y.asScalar))]
  | join, x, y => do return .elements [.scalar (← (DivisibilityOrder.lattice A).join (← x.asScalar) (← y.asScalar))]
  | newFractions, _, _ => do
    let _ ← ReducedFractions.new A
    return .answer true
  | fraction m, x, y => do return (← m.table (ReducedFractions.ops A) (← x.asPair) (← y.asPair)).map .pair
  | reduce, x, _ => do return .elements [.pair (← ReducedFractions.reduce A (← x.asPair))]
  | makePair, x, y => do return .elements [.pair (← x.asScalar, ← y.asScalar)]
  | first, x, _ => do return .elements [.scalar (← x.asPair).1]
  | second, x, _ => do return .elements [.scalar (← x.asPair).2]
  | newResidues, x, _ => do
    let _ ← QuotientRing.new A (← x.asScalar)
    return .answer true
  | residue m, x, y => do
    let p ← x.asPair
    return (← m.table (QuotientRing.ops A p.1) p.2 (← y.asPair).2).map fun a => .pair (p.1, a)
  | newResidueField, x, _ => do
    let _ ← QuotientField.new A (← x.asScalar)
    return .answer true
  | residueField m, x, y => do
    let p ← x.asPair
    return (← m.table (QuotientField.ops A p.1) p.2 (← y.asPair).2).map fun a => .pair (p.1, a)
  | vector len m, x, y => do
    return (← m.table (VectorAlgebra.unitaryRing len A.toUnitaryRingOps) (← x.asVec) (← y.asVec)).map .vec
  | polynomial m, x, y => do
    return (← m.table (PolynomialAlgebra.unitaryRing A.toUnitaryRingOps) (← x.asVec) (← y.asVec)).map .vec
  | polynomialTryDiv, x, y => do
    return (← ((PolynomialAlgebra.integralDomain A.toIntegralDomainOps).tryDiv (← x.asVec) (← y.asVec)).option).map .vec
  | polynomialAssociate, x, _ => do
    return .elements [.vec (← (PolynomialAlgebra.integralDomain A.toIntegralDomainOps).associateRepr (← x.asVec))]
  | empty, _, _ => .ok (.elements [.vec []])
  | push, x, y => do return .elements [.vec ((← x.asVec) ++ [← y.asScalar])]
  | get i, x, _ => do return .elements [.scalar (← idx (← x.asVec) i)]
  | set i, x, y => do return .elements [.vec (← setIdx (← x.asVec) i (← y.asScalar))]
  | truncate n, x, _ => do return .elements [.vec ((← x.asVec).take n)]
  | hasLength n, x, _ => do return .answer ((← x.asVec).length == n)

/-- The calls over a Euclidean domain with state. -/
def DomainCall.tableState [Cfg] {σ E : Type} (A : Stateful.EuclideanDomainOps σ E) :
    DomainCall → Item E → Item E → Stateful.St σ (Reply (Item E))
  | euclidean m, x, y => do return (← m.tableState A (← liftM x.asScalar) (← liftM y.asScalar)).map .scalar
  | zero, _, _ => do return .elements [.scalar (← A.zero)]
  | one, _, _ => do return .elements [.scalar (← A.one)]
  | int n, _, _ => do return .elements [.scalar (← A.int n)]
  | leq, x, y => do return .answer (← (Stateful.DivisibilityOrder.lattice A).leq (← liftM x.asScalar) (← liftM y.asScalar))
  | lessThan, x, y => do
    return .answer (← (Stateful.DivisibilityOrder.lattice A).lessThan (← liftM x.asScalar) (← liftM y.asScalar))
  | comparable, x, y => do
    return .answer (← (Stateful.DivisibilityOrder.lattice A).comparable (← liftM x.asScalar) (← liftM y.asScalar))
  | meet, x, y => do
    return .elements [.scalar (← (Stateful.DivisibilityOrder.lattice A).meet (← liftM x.asScalar) (← liftM y.asScalar))]
  | join, x, y => do
    return .elements [.scalar (← (Stateful.DivisibilityOrder.lattice A).join (← liftM x.asScalar) (← liftM y.asScalar))]
  | newFractions, _, _ => do
    let _ ← Stateful.ReducedFractions.new A
    return .answer true
  | fraction m, x, y => do
    return (← m.tableState (Stateful.ReducedFractions.ops A) (← liftM x.asPair) (← liftM y.asPair)).map .pair
  | reduce, x, _ => do return .elements [.pair (← Stateful.ReducedFractions.reduce A (← liftM x.asPair))]
  | makePair, x, y => do
    let a : E ← liftM x.asScalar
    let b : E ← liftM y.asScalar
    return .elements [.pair (a, b)]
  | first, x, _ => do
    let p : E × E ← liftM x.asPair
    return .elements [.scalar p.1]
  | second, x, _ => do
    let p : E × E ← liftM x.asPair
    return .elements [.scalar p.2]
  | newResidues, x, _ => do
    let _ ← Stateful.QuotientRing.new A (← liftM x.asScalar)
    return .answer true
  | residue m, x, y => do
    let p : E × E ← liftM x.asPair
    let q : E × E ← liftM y.asPair
    return (← m.tableState (Stateful.QuotientRing.ops A p.1) p.2 q.2).map fun a => .pair (p.1, a)
  | newResidueField, x, _ => do
    let _ ← Stateful.QuotientField.new A (← liftM x.asScalar)
    return .answer true
  | residueField m, x, y => do
    let p : E × E ← liftM x.asPair
    let q : E × E ← liftM y.asPair
    return (← m.tableState (Stateful.QuotientField.ops A p.1) p.2 q.2).map fun a => .pair (p.1, a)
  | vector len m, x, y => do
    return (← m.tableState (Stateful.VectorAlgebra.unitaryRing len A.toUnitaryRingOps) (← liftM x.asVec) (← liftM y.asVec)).map .vec
  | polynomial m, x, y => do
    return (← m.tableState (Stateful.PolynomialAlgebra.unitaryRing A.toUnitaryRingOps) (← liftM x.asVec) (← liftM y.asVec)).map .vec
  | polynomialTryDiv, x, y => do
    let v : List E ← liftM x.asVec
    let w : List E ← liftM y.asVec
    return (← Stateful.St.option ((Stateful.PolynomialAlgebra.integralDomain A.toIntegralDomainOps).tryDiv v w)).map .vec
  | polynomialAssociate, x, _ => do
    return .elements [.vec (← (Stateful.PolynomialAlgebra.integralDomain A.toIntegralDomainOps).associateRepr (← liftM x.asVec))]
  | empty, _, _ => pure (.elements [.vec []])
  | push, x, y => do
    let v : List E ← liftM x.asVec
    let a : E ← liftM y.asScalar
    return .elements [.vec (v ++ [a])]
  | get i, x, _ => do
    let v : List E ← liftM x.asVec
    let a : E ← liftM (idx v i)
    return .elements [.scalar a]
  | set i, x, y => do
    let v : List E ← liftM x.asVec
    let a : E ← liftM y.asScalar
    let w : List E ← liftM (setIdx v i a)
    return .elements [.vec w]
  | truncate n, x, _ => do
    let v : List E ← liftM x.asVec
    return .elements [.vec (v.take n)]
  | hasLength n, x, _ => do
    let v : List E ← liftM x.asVec
    return .answer (v.length == n)

end Abstalg
