import Verif.Spec.EuclidClients
import Verif.Spec.Agreement
import Verif.Model.MatrixRing
import Verif.Model.PolynomialAlgebra
import Verif.Model.StatefulPolynomials
import Verif.Model.StatefulVectors

/-! # Specification: programs that use a field and the structures over it at the same time

The clients of `Spec/Clients` call the methods of one object. A program that works with a field usually also works with vectors,
matrices and polynomials over it, and takes them apart: their elements are `Vec`s of elements of the field, which any program may read
and write. A variable of such a program holds an element of the field or a `Vec` of them, and its calls go to the field (with the
methods of its blanket implementations as a Euclidean domain), to the vectors of any length, the matrices of any size and the
polynomials over it, or to the `Vec` itself. -/

set_option autoImplicit false

universe u v

namespace Abstalg

/-- What a variable holds. -/
inductive Value (E : Type u) where
  | scalar (a : E)
  | vec (v : List E)

/-- Corresponding values. -/
def Value.Rel {E : Type u} {F : Type v} (r : E → F → Prop) : Value E → Value F → Prop
  | .scalar a, .scalar b => r a b
  | .vec v, .vec w => LRel r v w
  | _, _ => False

/-- The element of the field. In Rust a variable of the other type is rejected by the compiler; here the call panics. -/
def Value.asScalar {E : Type u} : Value E → Res E
  | .scalar a => .ok a
  | .vec _ => .panic

/-- The `Vec`. -/
def Value.asVec {E : Type u} : Value E → Res (List E)
  | .scalar _ => .panic
  | .vec v => .ok v

/-- A call. -/
inductive WorkCall where
  /-- a method of the field -/
  | field (m : FieldMethod)
  /-- a method of the field as a Euclidean domain -/
  | euclidean (m : EuclideanMethod)
  /-- constants of the field, without operands -/
  | zero | one | int (n : ℤ)
  /-- a method of the vectors of a length -/
  | vector (len : ℕ) (m : RingMethod)
  /-- a method of the matrices of a size -/
  | matrix (size : ℕ) (m : RingMethod)
  | determinant (size : ℕ)
  | transpose (size : ℕ)
  /-- `VectorAlgebra::diagonal` -/
  | diagonal (len : ℕ)
  /-- `PolynomialAlgebra::leading_coef` -/
  | leadingCoef
  /-- a method of the polynomials -/
  | polynomial (m : EuclideanMethod)
  /-- `Vec::new()` -/
  | empty
  /-- `v.push(a)` -/
  | push
  /-- `v[i].clone()` -/
  | get (i : ℕ)
  /-- `v[i] = a` -/
  | set (i : ℕ)
  /-- `v.truncate(n)` -/
  | truncate (n : ℕ)
  /-- `v.len() == n` -/
  | hasLength (n : ℕ)

/-- The same reply with its elements as values. -/
def Reply.map {E : Type u} {F : Type v} (f : E → F) : Reply E → Reply F
  | .answer b => .answer b
  | .elements l => .elements (l.map f)
  | .missing => .missing

/-- The calls over a field. -/
def WorkCall.table [Cfg] {E : Type} (A : FieldOps E) : WorkCall → Value E → Value E → Res (Reply (Value E))
  | field m, x, y => do return (← m.table A (← x.asScalar) (← y.asScalar)).map .scalar
  | euclidean m, x, y => do return (← m.table A.toEuclidean (← x.asScalar) (← y.asScalar)).map .scalar
  | zero, _, _ => do return .elements [.scalar (← A.zero)]
  | one, _, _ => do return .elements [.scalar (← A.one)]
  | int n, _, _ => do return .elements [.scalar (← A.int n)]
  | vector len m, x, y => do
    return (← m.table (VectorAlgebra.unitaryRing len A.toUnitaryRingOps) (← x.asVec) (← y.asVec)).map .vec
  | matrix size m, x, y => do return (← m.table (MatrixRing.ops A size) (← x.asVec) (← y.asVec)).map .vec
  | determinant size, x, _ => do return .elements [.scalar (← MatrixRing.determinant A size (← x.asVec))]
  | transpose size, x, _ => do return .elements [.vec (← MatrixRing.transpose size (← x.asVec))]
  | diagonal len, x, _ => do return .elements [.vec (VectorAlgebra.diagonal len (← x.asScalar))]
  | leadingCoef, x, _ => do return (← (PolynomialAlgebra.leadingCoef (← x.asVec)).option).map .scalar
  | polynomial m, x, y => do return (← m.table (PolynomialAlgebra.euclidean A) (← x.asVec) (← y.asVec)).map .vec
  | empty, _, _ => .ok (.elements [.vec []])
  | push, x, y => do return .elements [.vec ((← x.asVec) ++ [← y.asScalar])]
  | get i, x, _ => do return .elements [.scalar (← idx (← x.asVec) i)]
  | set i, x, y => do return .elements [.vec (← setIdx (← x.asVec) i (← y.asScalar))]
  | truncate n, x, _ => do return .elements [.vec ((← x.asVec).take n)]
  | hasLength n, x, _ => do return .answer ((← x.asVec).length == n)

/-- The calls over a field with state. -/
def WorkCall.tableState [Cfg] {σ E : Type} (A : Stateful.FieldOps σ E) : WorkCall → Value E → Value E → Stateful.St σ (Reply (Value E))
  | field m, x, y => do return (← m.tableState A (← liftM x.asScalar) (← liftM y.asScalar)).map .scalar
  | euclidean m, x, y => do return (← m.tableState A.toEuclidean (← liftM x.asScalar) (← liftM y.asScalar)).map .scalar
  | zero, _, _ => do return .elements [.scalar (← A.zero)]
  | one, _, _ => do return .elements [.scalar (← A.one)]
  | int n, _, _ => do return .elements [.scalar (← A.int n)]
  | vector len m, x, y => do
    return (← m.tableState (Stateful.VectorAlgebra.unitaryRing len A.toUnitaryRingOps) (← liftM x.asVec) (← liftM y.asVec)).map .vec
  | matrix size m, x, y => do
    return (← m.tableState (Stateful.MatrixRing.ops A size) (← liftM x.asVec) (← liftM y.asVec)).map .vec
  | determinant size, x, _ => do return .elements [.scalar (← Stateful.MatrixRing.determinant A size (← liftM x.asVec))]
  | transpose size, x, _ => do
    let v : List E ← liftM x.asVec
    let w : List E ← liftM (MatrixRing.transpose size v)
    return .elements [.vec w]
  | diagonal len, x, _ => do
    let a : E ← liftM x.asScalar
    return .elements [.vec (VectorAlgebra.diagonal len a)]
  | leadingCoef, x, _ => do
    let v : List E ← liftM x.asVec
    let r : Reply E ← liftM (PolynomialAlgebra.leadingCoef v).option
    return r.map .scalar
  | polynomial m, x, y => do
    return (← m.tableState (Stateful.PolynomialAlgebra.euclidean A) (← liftM x.asVec) (← liftM y.asVec)).map .vec
  | empty, _, _ => pure (.elements [.vec []])
  | push, x, y => do
    let v : List E ← liftM x.asVec
    let a : E ← liftM y.asScalar
    return .elements [.vec (v ++ [a])]
  | get i, x, _ => do
    let v : List E ← liftM x.asVec
    let a : E ← liftM (idx v i)
    return .elements [.scalar a]
  | set i, x, y => do
    let v : List E ← liftM x.asVec
    let a : E ← liftM y.asScalar
    let w : List E ← liftM (setIdx v i a)
    return .elements [.vec w]
  | truncate n, x, _ => do
    let v : List E ← liftM x.asVec
    return .elements [.vec (v.take n)]
  | hasLength n, x, _ => do
    let v : List E ← liftM x.asVec
    return .answer (v.length == n)

/-- No multiplier or exponent is `isize::MIN` (C09). -/
def WorkCall.Fits [Cfg] : WorkCall → Prop
  | field m => m.Fits
  | euclidean m | polynomial m => m.Fits
  | int n => n ≠ isizeMin
  | vector _ m | matrix _ m => m.Fits
  | _ => True

open Classical in
/-- A field of Mathlib, computing with its elements. -/
noncomputable def FieldOps.exact [Cfg] (K : Type) [Field K] : FieldOps K where
  equals := fun x y => .ok (decide (x = y))
  mul := fun x y => .ok (x * y)
  one := .ok 1
  isOne := fun x => .ok (decide (x = 1))
  tryInv := fun x => .ok (if x = 0 then none else some x⁻¹)
  zero := .ok 0
  isZero := fun x => .ok (decide (x = 0))
  add := fun x y => .ok (x + y)
  utimes := fun n x => .ok (n • x)
  neg := fun x => .ok (-x)
  sub := fun x y => .ok (x - y)
  subAssign := fun x y => .ok (x - y)
  times := fun n x => .ok (n • x)
  int := fun n => .ok n
  inv := fun x => if x = 0 then .panic else .ok x⁻¹
  div := fun x y => if y = 0 then .panic else .ok (x / y)
  power := fun n x => .ok (if x = 0 then 0 else x ^ n)

end Abstalg
