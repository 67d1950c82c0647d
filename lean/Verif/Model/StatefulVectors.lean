import Verif.Model.Stateful
import Verif.Model.MatrixRing

/-!
# Model of generic methods over a base with state: vectors and matrices

See `Model/Stateful.lean`.
-/

set_option autoImplicit false

namespace Abstalg.Stateful

/-! ## vector_algebra.rs -/

namespace VectorAlgebra

variable {σ E : Type} (len : Nat)

/-- The common shape of the coordinate-wise pure binary operations:
`assert!(lengths); elem1.iter().zip(elem2.iter()).map(f).collect()`. -/
def zipMap {F : Type} (f : E → E → St σ F) (a b : List E) : St σ (List F) := do
  Res.assert (Abstalg.VectorAlgebra.lenIs len a && Abstalg.VectorAlgebra.lenIs len b)
  mapRes (fun p => f p.1 p.2) (a.zip b)

/-- `assert!(lengths); elem1.iter().zip(elem2.iter()).all(p)`. -/
def zipAll (p : E → E → St σ Bool) (a b : List E) : St σ Bool := do
  Res.assert (Abstalg.VectorAlgebra.lenIs len a && Abstalg.VectorAlgebra.lenIs len b)
  allRes (fun q => p q.1 q.2) (a.zip b)

/-- `assert!(lengths); elem1.iter_mut().zip(elem2.iter()).for_each(f)`. -/
def zipEach (f : E → E → St σ E) (a b : List E) : St σ (List E) := do
  Res.assert (Abstalg.VectorAlgebra.lenIs len a && Abstalg.VectorAlgebra.lenIs len b)
  zipForEach f a b

/-- `assert!(length); elem.iter().map(f).collect()`, and also
`elem.iter_mut().for_each(f)`. -/
def mapEach (f : E → St σ E) (a : List E) : St σ (List E) := do
  Res.assert (Abstalg.VectorAlgebra.lenIs len a)
  mapRes f a

/-- `assert!(length); elem.iter().all(p)`. -/
def allEach (p : E → St σ Bool) (a : List E) : St σ Bool := do
  Res.assert (Abstalg.VectorAlgebra.lenIs len a)
  allRes p a

/-- vector_algebra.rs:44-65 `impl Domain`. -/
def domain (base : DomainOps σ E) : DomainOps σ (List E) where
  -- vector_algebra.rs:50-56
  contains := fun v =>
    if v.length != len then pure false else allRes (fun a => base.contains a) v
  -- vector_algebra.rs:58-64
  equals := zipAll len base.equals

/-- vector_algebra.rs:67-92 `impl Semigroup`. -/
def semigroup (base : SemigroupOps σ E) : SemigroupOps σ (List E) where
  toDomainOps := domain len base.toDomainOps
  -- vector_algebra.rs:71-78
  mul := zipMap len base.mul
  -- vector_algebra.rs:80-86
  mulAssign := zipEach len base.mulAssign
  -- vector_algebra.rs:88-91
  square := mapEach len base.square

/-- vector_algebra.rs:110-117, the loop of `try_inv`; `v` holds the inverses
pushed so far. -/
def tryInvLoop (tryInv : E → St σ (Option E)) : List E → List E → St σ (Option (List E))
  | [], v => pure (some v)
  | x :: l, v => do
    match ← tryInv x with
    | some y => tryInvLoop tryInv l (v ++ [y])
    | none => return none

/-- vector_algebra.rs:94-124 `impl Monoid`. -/
def monoid (base : MonoidOps σ E) : MonoidOps σ (List E) where
  toSemigroupOps := semigroup len base.toSemigroupOps
  -- vector_algebra.rs:98-100
  one := do return Abstalg.VectorAlgebra.diagonal len (← base.one)
  -- vector_algebra.rs:102-105
  isOne := allEach len base.isOne
  -- vector_algebra.rs:107-118
  tryInv := fun v => do
    Res.assert (Abstalg.VectorAlgebra.lenIs len v)
    tryInvLoop base.tryInv v []
  -- vector_algebra.rs:120-123
  invertible := allEach len base.invertible

/-- vector_algebra.rs:126-134 `impl Group`; `power` is the default. -/
def group [Cfg] (base : GroupOps σ E) : GroupOps σ (List E) where
  toMonoidOps := monoid len base.toMonoidOps
  -- vector_algebra.rs:130-133
  inv := mapEach len base.inv

/-- vector_algebra.rs:136-170 `impl CommuntativeMonoid`; `times` is the default. -/
def commutativeMonoid (base : CommutativeMonoidOps σ E) : CommutativeMonoidOps σ (List E) where
  toDomainOps := domain len base.toDomainOps
  -- vector_algebra.rs:140-142
  zero := do return Abstalg.VectorAlgebra.diagonal len (← base.zero)
  -- vector_algebra.rs:144-147
  isZero := allEach len base.isZero
  -- vector_algebra.rs:149-156
  add := zipMap len base.add
  -- vector_algebra.rs:158-164
  addAssign := zipEach len base.addAssign
  -- vector_algebra.rs:166-169
  double := mapEach len base.double

/-- vector_algebra.rs:172-202 `impl AbelianGroup`; `times` is the default. -/
def abelianGroup [Cfg] (base : AbelianGroupOps σ E) : AbelianGroupOps σ (List E) where
  toCommutativeMonoidOps := commutativeMonoid len base.toCommutativeMonoidOps
  -- vector_algebra.rs:176-179
  neg := mapEach len base.neg
  -- vector_algebra.rs:181-184
  negAssign := mapEach len base.negAssign
  -- vector_algebra.rs:186-193
  sub := zipMap len base.sub
  -- vector_algebra.rs:195-201
  subAssign := zipEach len base.subAssign

/-- vector_algebra.rs:204 `impl SemiRing`. -/
def semiRing (base : SemiRingOps σ E) : SemiRingOps σ (List E) :=
  { commutativeMonoid len base.toCommutativeMonoidOps, monoid len base.toMonoidOps with }

/-- vector_algebra.rs:206-213 `impl UnitaryRing`. -/
def unitaryRing [Cfg] (base : UnitaryRingOps σ E) : UnitaryRingOps σ (List E) :=
  { semiRing len base.toSemiRingOps, abelianGroup len base.toAbelianGroupOps with
    -- vector_algebra.rs:210-212
    int := fun n => do return Abstalg.VectorAlgebra.diagonal len (← base.int n) }

/-- vector_algebra.rs:215-226 `impl PartialOrder`. -/
def partialOrder (base : PartialOrderOps σ E) : PartialOrderOps σ (List E) where
  toDomainOps := domain len base.toDomainOps
  -- vector_algebra.rs:219-225
  leq := zipAll len base.leq

/-- vector_algebra.rs:228-239 `impl BoundedOrder`. -/
def boundedOrder (base : BoundedOrderOps σ E) : BoundedOrderOps σ (List E) where
  toPartialOrderOps := partialOrder len base.toPartialOrderOps
  -- vector_algebra.rs:232-234
  max := do return Abstalg.VectorAlgebra.diagonal len (← base.max)
  -- vector_algebra.rs:236-238
  min := do return Abstalg.VectorAlgebra.diagonal len (← base.min)

/-- vector_algebra.rs:241-264 `impl Lattice`, `DistributiveLattice`. -/
def lattice (base : LatticeOps σ E) : LatticeOps σ (List E) where
  toPartialOrderOps := partialOrder len base.toPartialOrderOps
  -- vector_algebra.rs:245-252
  meet := zipMap len base.meet
  -- vector_algebra.rs:254-261
  join := zipMap len base.join

/-- vector_algebra.rs:266-274 `impl BooleanAlgebra`. -/
def booleanAlgebra (base : BooleanAlgebraOps σ E) : BooleanAlgebraOps σ (List E) :=
  { lattice len base.toLatticeOps, boundedOrder len base.toBoundedOrderOps with
    -- vector_algebra.rs:270-273
    not := mapEach len base.not }

end VectorAlgebra

/-! ## matrix_ring.rs -/

namespace MatrixRing

variable [Cfg] {σ E : Type} (base : FieldOps σ E) (size : Nat)

/-- matrix_ring.rs:58-63 `mul_row`.  The slice `elem[row..row + size]` panics when out
of bounds. -/
def mulRow (elem : List E) (row : Nat) (coef : E) : St σ (List E) := do
  let row := row * size
  Res.assert (row + size ≤ elem.length)
  forLoop (List.range size) elem fun elem col => do
    let a ← base.mulAssign (← idx elem (row + col)) coef
    setIdx elem (row + col) a

/-- matrix_ring.rs:67-80 `add_rows`. -/
def addRows (elem : List E) (row1 row2 : Nat) (coef : E) : St σ (List E) :=
  let row1 := row1 * size
  let row2 := row2 * size
  forLoop (List.range size) elem fun elem col => do
    let val ← base.mul (← idx elem (row1 + col)) coef
    let a ← base.addAssign (← idx elem (row2 + col)) val
    setIdx elem (row2 + col) a

/-- matrix_ring.rs:92-94 `find_row`. -/
def findRow (elem : List E) (col : Nat) : St σ (Option Nat) :=
  findRes (fun row => do return !(← base.isZero (← idx elem (row * size + col))))
    (List.range' col (size - col))

/-- matrix_ring.rs:111-118, the inner loop of `determinant`. -/
def detClear (elem : List E) (col : Nat) : St σ (List E) :=
  forLoop (List.range' (col + 1) (size - (col + 1))) elem fun elem row => do
    let coef ← idx elem (row * size + col)
    if ← base.isZero coef then return elem
    else
      let coef ← base.neg coef
      addRows base size elem col row coef

/-- matrix_ring.rs:102-124, the outer loop of `determinant` over the remaining
columns. -/
def detLoop : List Nat → List E → E → St σ E
  | [], _, det => pure det
  | col :: cols, elem, det => do
    match ← findRow base size elem col with
    | some row =>
      let elem ← if row ≠ col then Abstalg.MatrixRing.swapRows size elem col row else pure elem
      let coef ← idx elem (col * size + col)
      let det ← base.mulAssign det coef
      let coef ← base.inv coef
      let elem ← mulRow base size elem col coef
      let elem ← detClear base size elem col
      detLoop cols elem det
    | none => base.zero

/-- matrix_ring.rs:98-125 `determinant`. -/
def determinant (elem : List E) : St σ E := do
  detLoop base size (List.range size) elem (← base.one)

/-- matrix_ring.rs:128-149 `impl Domain`. -/
def domain : DomainOps σ (List E) where
  -- matrix_ring.rs:134-140
  contains := fun v =>
    if v.length != size * size then pure false else allRes (fun a => base.contains a) v
  -- matrix_ring.rs:142-148
  equals := fun a b => do
    Res.assert (a.length == size * size && b.length == size * size)
    allRes (fun p => base.equals p.1 p.2) (a.zip b)

/-- matrix_ring.rs:155-172 `Semigroup::mul`. -/
def mul (elem1 elem2 : List E) : St σ (List E) := do
  Res.assert (elem1.length == size * size && elem2.length == size * size)
  let elem2 ← Abstalg.MatrixRing.transpose size elem2
  forLoop (List.range size) [] fun res row =>
    forLoop (List.range size) res fun res col => do
      let sum ← forLoop (List.range size) (← base.zero) fun sum i => do
        let val1 ← idx elem1 (row * size + i)
        let val2 ← idx elem2 (col * size + i)
        let val3 ← base.mul val1 val2
        base.addAssign sum val3
      return res ++ [sum]

/-- matrix_ring.rs:226-228 `zero`. -/
def zero : St σ (List E) :=
  (VectorAlgebra.commutativeMonoid (size * size) base.toCommutativeMonoidOps).zero

/-- matrix_ring.rs:274-281 `int`. -/
def int (n : Int) : St σ (List E) := do
  let elem ← base.int n
  let mat ← zero base size
  forLoop (List.range size) mat fun mat i => setIdx mat (i * (size + 1)) elem

/-- matrix_ring.rs:196-207, the inner loop of `try_inv`. -/
def invClear (elem invs : List E) (col : Nat) : St σ (List E × List E) :=
  forLoop (List.range size) (elem, invs) fun (elem, invs) row =>
    if row == col then pure (elem, invs)
    else do
      let coef ← idx elem (row * size + col)
      if ← base.isZero coef then return (elem, invs)
      else
        let coef ← base.neg coef
        let elem ← addRows base size elem col row coef
        let invs ← addRows base size invs col row coef
        return (elem, invs)

/-- matrix_ring.rs:187-211, the outer loop of `try_inv` over the remaining
columns. -/
def invLoop : List Nat → List E → List E → St σ (Option (List E × List E))
  | [], elem, invs => pure (some (elem, invs))
  | col :: cols, elem, invs => do
    match ← findRow base size elem col with
    | some row =>
      let (elem, invs) ←
        if row ≠ col then do
          let elem ← Abstalg.MatrixRing.swapRows size elem col row
          let invs ← Abstalg.MatrixRing.swapRows size invs col row
          pure (elem, invs)
        else pure (elem, invs)
      let coef ← base.inv (← idx elem (col * size + col))
      let elem ← mulRow base size elem col coef
      let invs ← mulRow base size invs col coef
      let (elem, invs) ← invClear base size elem invs col
      invLoop cols elem invs
    | none => return none

/-- `is_one` is the default method traits.rs:50-52, with `one` of
matrix_ring.rs:179-181. -/
def isOne (elem : List E) : St σ Bool := do (domain base size).equals elem (← int base size 1)

/-- matrix_ring.rs:183-215 `try_inv`. -/
def tryInv (elem : List E) : St σ (Option (List E)) := do
  let invs ← int base size 1
  match ← invLoop base size (List.range size) elem invs with
  | some (elem, invs) =>
    debugAssert (isOne base size elem)
    return some invs
  | none => return none

/-- matrix_ring.rs:151-282: `Semigroup`, `Monoid`, `CommuntativeMonoid`,
`AbelianGroup`, `SemiRing`, `UnitaryRing`. -/
def ops : UnitaryRingOps σ (List E) :=
  let valg := VectorAlgebra.abelianGroup (size * size) base.toAbelianGroupOps
  { toDomainOps := domain base size
    mul := mul base size
    -- matrix_ring.rs:179-181
    one := int base size 1
    isOne := isOne base size
    tryInv := tryInv base size
    -- matrix_ring.rs:217-219
    invertible := fun v => do return !(← base.isZero (← determinant base size v))
    zero := zero base size
    -- matrix_ring.rs:230-232
    isZero := valg.isZero
    -- matrix_ring.rs:234-236
    add := valg.add
    -- matrix_ring.rs:238-240
    addAssign := valg.addAssign
    -- matrix_ring.rs:242-244
    double := valg.double
    -- matrix_ring.rs:251-253
    neg := valg.neg
    -- matrix_ring.rs:255-257
    negAssign := valg.negAssign
    -- matrix_ring.rs:259-261
    sub := valg.sub
    -- matrix_ring.rs:263-265
    subAssign := valg.subAssign
    int := int base size }

/-- matrix_ring.rs:23-26 `MatrixRing::new`. -/
def new : St σ (UnitaryRingOps σ (List E)) := do
  Res.assert (size * size ≤ usizeMax)
  return ops base size

end MatrixRing

end Abstalg.Stateful
