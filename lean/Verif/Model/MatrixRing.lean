import Verif.Model.VectorAlgebra

/-! # Model of `src/matrix_ring.rs`

`size * size` does not overflow because `new` checks it, hence `len()` is modelled on
`Nat`. -/

set_option autoImplicit false

namespace Abstalg.MatrixRing

variable [Cfg] {E : Type} (base : FieldOps E) (size : Nat)

/-- matrix_ring.rs:46-55 `transpose`. -/
def transpose (elem : List E) : Res (List E) := do
  Res.assert (elem.length == size * size)
  forLoop (List.range size) [] fun res row =>
    forLoop (List.range size) res fun res col => do
      return res ++ [← idx elem (col * size + row)]

/-- matrix_ring.rs:58-63 `mul_row`.  The slice `elem[row..row + size]` panics when out
of bounds. -/
def mulRow (elem : List E) (row : Nat) (coef : E) : Res (List E) := do
  let row := row * size
  Res.assert (row + size ≤ elem.length)
  forLoop (List.range size) elem fun elem col => do
    let a ← base.mulAssign (← idx elem (row + col)) coef
    setIdx elem (row + col) a

/-- matrix_ring.rs:67-80 `add_rows`. -/
def addRows (elem : List E) (row1 row2 : Nat) (coef : E) : Res (List E) :=
  let row1 := row1 * size
  let row2 := row2 * size
  forLoop (List.range size) elem fun elem col => do
    let val ← base.mul (← idx elem (row1 + col)) coef
    let a ← base.addAssign (← idx elem (row2 + col)) val
    setIdx elem (row2 + col) a

/-- matrix_ring.rs:83-89 `swap_rows`. -/
def swapRows (elem : List E) (row1 row2 : Nat) : Res (List E) :=
  let row1 := row1 * size
  let row2 := row2 * size
  forLoop (List.range size) elem fun elem col => swapIdx elem (row1 + col) (row2 + col)

/-- matrix_ring.rs:92-94 `find_row`. -/
def findRow (elem : List E) (col : Nat) : Res (Option Nat) :=
  findRes (fun row => do return !(← base.isZero (← idx elem (row * size + col))))
    (List.range' col (size - col))

/-- matrix_ring.rs:111-118, the inner loop of `determinant`. -/
def detClear (elem : List E) (col : Nat) : Res (List E) :=
  forLoop (List.range' (col + 1) (size - (col + 1))) elem fun elem row => do
    let coef ← idx elem (row * size + col)
    if ← base.isZero coef then return elem
    else
      let coef ← base.neg coef
      addRows base size elem col row coef

/-- matrix_ring.rs:102-124, the outer loop of `determinant` over the remaining
columns. -/
def detLoop : List Nat → List E → E → Res E
  | [], _, det => .ok det
  | col :: cols, elem, det => do
    match ← findRow base size elem col with
    | some row =>
      let elem ← if row ≠ col then swapRows size elem col row else pure elem
      let coef ← idx elem (col * size + col)
      let det ← base.mulAssign det coef
      let coef ← base.inv coef
      let elem ← mulRow base size elem col coef
      let elem ← detClear base size elem col
      detLoop cols elem det
    | none => base.zero

/-- matrix_ring.rs:98-125 `determinant`. -/
def determinant (elem : List E) : Res E := do
  detLoop base size (List.range size) elem (← base.one)

/-- matrix_ring.rs:128-149 `impl Domain`. -/
def domain : DomainOps (List E) where
  -- matrix_ring.rs:134-140
  contains := fun v =>
    if v.length != size * size then .ok false else allRes (fun a => base.contains a) v
  -- matrix_ring.rs:142-148
  equals := fun a b => do
    Res.assert (a.length == size * size && b.length == size * size)
    allRes (fun p => base.equals p.1 p.2) (a.zip b)

/-- matrix_ring.rs:155-172 `Semigroup::mul`. -/
def mul (elem1 elem2 : List E) : Res (List E) := do
  Res.assert (elem1.length == size * size && elem2.length == size * size)
  let elem2 ← transpose size elem2
  forLoop (List.range size) [] fun res row =>
    forLoop (List.range size) res fun res col => do
      let sum ← forLoop (List.range size) (← base.zero) fun sum i => do
        let val1 ← idx elem1 (row * size + i)
        let val2 ← idx elem2 (col * size + i)
        let val3 ← base.mul val1 val2
        base.addAssign sum val3
      return res ++ [sum]

/-- matrix_ring.rs:226-228 `zero`. -/
def zero : Res (List E) :=
  (VectorAlgebra.commutativeMonoid (size * size) base.toCommutativeMonoidOps).zero

/-- matrix_ring.rs:274-281 `int`. -/
def int (n : Int) : Res (List E) := do
  let elem ← base.int n
  let mat ← zero base size
  forLoop (List.range size) mat fun mat i => setIdx mat (i * (size + 1)) elem

/-- matrix_ring.rs:196-207, the inner loop of `try_inv`. -/
def invClear (elem invs : List E) (col : Nat) : Res (List E × List E) :=
  forLoop (List.range size) (elem, invs) fun (elem, invs) row =>
    if row == col then .ok (elem, invs)
    else do
      let coef ← idx elem (row * size + col)
      if ← base.isZero coef then return (elem, invs)
      else
        let coef ← base.neg coef
        let elem ← addRows base size elem col row coef
        let invs ← addRows base size invs col row coef
        return (elem, invs)

/-- matrix_ring.rs:187-211, the outer loop of `try_inv` over the remaining
columns. -/
def invLoop : List Nat → List E → List E → Res (Option (List E × List E))
  | [], elem, invs => .ok (some (elem, invs))
  | col :: cols, elem, invs => do
    match ← findRow base size elem col with
    | some row =>
      let (elem, invs) ←
        if row ≠ col then do
          let elem ← swapRows size elem col row
          let invs ← swapRows size invs col row
          pure (elem, invs)
        else pure (elem, invs)
      let coef ← base.inv (← idx elem (col * size + col))
      let elem ← mulRow base size elem col coef
      let invs ← mulRow base size invs col coef
      let (elem, invs) ← invClear base size elem invs col
      invLoop cols elem invs
    | none => return none

/-- `is_one` is the default method traits.rs:50-52, with `one` of
matrix_ring.rs:179-181. -/
def isOne (elem : List E) : Res Bool := do (domain base size).equals elem (← int base size 1)

/-- matrix_ring.rs:183-215 `try_inv`. -/
def tryInv (elem : List E) : Res (Option (List E)) := do
  let invs ← int base size 1
  match ← invLoop base size (List.range size) elem invs with
  | some (elem, invs) =>
    debugAssert (isOne base size elem)
    return some invs
  | none => return none

/-- matrix_ring.rs:151-282: `Semigroup`, `Monoid`, `CommuntativeMonoid`,
`AbelianGroup`, `SemiRing`, `UnitaryRing`. -/
def ops : UnitaryRingOps (List E) :=
  let valg := VectorAlgebra.abelianGroup (size * size) base.toAbelianGroupOps
  { toDomainOps := domain base size
    mul := mul base size
    -- matrix_ring.rs:179-181
    one := int base size 1
    isOne := isOne base size
    tryInv := tryInv base size
    -- matrix_ring.rs:217-219
    invertible := fun v => do return !(← base.isZero (← determinant base size v))
    zero := zero base size
    -- matrix_ring.rs:230-232
    isZero := valg.isZero
    -- matrix_ring.rs:234-236
    add := valg.add
    -- matrix_ring.rs:238-240
    addAssign := valg.addAssign
    -- matrix_ring.rs:242-244
    double := valg.double
    -- matrix_ring.rs:251-253
    neg := valg.neg
    -- matrix_ring.rs:255-257
    negAssign := valg.negAssign
    -- matrix_ring.rs:259-261
    sub := valg.sub
    -- matrix_ring.rs:263-265
    subAssign := valg.subAssign
    int := int base size }

/-- matrix_ring.rs:23-26 `MatrixRing::new`. -/
def new : Res (UnitaryRingOps (List E)) := do
  Res.assert (size * size ≤ usizeMax)
  return ops base size

end Abstalg.MatrixRing
