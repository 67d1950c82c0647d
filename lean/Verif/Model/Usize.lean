import Verif.Model.MatrixRing
import Verif.Model.PolynomialAlgebra
import Verif.Model.Permutations

/-!
# Model of indices of type `usize` and of capacities

The other files compute with indices and lengths on `Nat`.  Here the methods with arithmetic on `usize` are repeated with
machine arithmetic: a plain `+`, `-`, `*` that overflows panics with overflow checks and wraps without.  Also modelled are
the panics "capacity overflow" of `Vec::with_capacity(n)` and `vec![a; n]`, which are documented for more than
`isize::MAX` bytes; `bytes` is the size of an element.  Not modelled is the
amortized growth of `push` and `resize`, which may ask for more than it needs.
-/

set_option autoImplicit false

namespace Abstalg.Usize

variable [Cfg]

/-- The result `n` of a plain `+` or `*`. -/
def plain (n : Nat) : Res Nat :=
  if n ≤ usizeMax then .ok n
  else if Cfg.overflowChecks then .panic
  else .ok (n % (usizeMax + 1))

/-- `a + b` -/
def add (a b : Nat) : Res Nat := plain (a + b)

/-- `a * b` -/
def mul (a b : Nat) : Res Nat := plain (a * b)

/-- `a - b` -/
def sub (a b : Nat) : Res Nat :=
  if b ≤ a then .ok (a - b)
  else if Cfg.overflowChecks then .panic
  else .ok (usizeMax + 1 + a - b)

/-- `Vec::with_capacity(n)` -/
def capacity (bytes n : Nat) : Res Unit := Res.assert (decide (((n * bytes : Nat) : Int) ≤ isizeMax))

variable {E : Type}

/-! ## vector_algebra.rs -/

/-- vector_algebra.rs:37-39 `diagonal`. -/
def diagonal (bytes len : Nat) (elem : E) : Res (List E) := do
  capacity bytes len
  return List.replicate len elem

/-- vector_algebra.rs:101-112 `try_inv`. -/
def vectorTryInv (bytes len : Nat) (tryInv : E → Res (Option E)) (elem : List E) : Res (Option (List E)) := do
  Res.assert (VectorAlgebra.lenIs len elem)
  capacity bytes len
  VectorAlgebra.tryInvLoop tryInv elem []

/-! ## matrix_ring.rs -/

section matrices

variable (bytes : Nat) (base : FieldOps E) (size : Nat)

/-- matrix_ring.rs:41-43 `len`. -/
def len : Res Nat := mul size size

/-- matrix_ring.rs:46-55 `transpose`. -/
def transpose (elem : List E) : Res (List E) := do
  Res.assert (elem.length == (← len size))
  capacity bytes (← len size)
  forLoop (List.range size) [] fun res row =>
    forLoop (List.range size) res fun res col => do
      return res ++ [← idx elem (← add (← mul col size) row)]

/-- matrix_ring.rs:58-63 `mul_row`. -/
def mulRow (elem : List E) (row : Nat) (coef : E) : Res (List E) := do
  let row ← mul row size
  let last ← add row size
  Res.assert (decide (row ≤ last) && decide (last ≤ elem.length))
  forLoop (List.range (last - row)) elem fun elem col => do
    let a ← base.mulAssign (← idx elem (row + col)) coef
    setIdx elem (row + col) a

/-- matrix_ring.rs:67-80 `add_rows`. -/
def addRows (elem : List E) (row1 row2 : Nat) (coef : E) : Res (List E) := do
  let row1 ← mul row1 size
  let row2 ← mul row2 size
  forLoop (List.range size) elem fun elem col => do
    let val ← base.mul (← idx elem (← add row1 col)) coef
    let i ← add row2 col
    let a ← base.addAssign (← idx elem i) val
    setIdx elem i a

/-- matrix_ring.rs:83-89 `swap_rows`. -/
def swapRows (elem : List E) (row1 row2 : Nat) : Res (List E) := do
  let row1 ← mul row1 size
  let row2 ← mul row2 size
  forLoop (List.range size) elem fun elem col => do swapIdx elem (← add row1 col) (← add row2 col)

/-- matrix_ring.rs:92-94 `find_row`. -/
def findRow (elem : List E) (col : Nat) : Res (Option Nat) :=
  findRes (fun row => do return !(← base.isZero (← idx elem (← add (← mul row size) col))))
    (List.range' col (size - col))

/-- matrix_ring.rs:111-118, the inner loop of `determinant`. -/
def detClear (elem : List E) (col : Nat) : Res (List E) := do
  let first ← add col 1
  forLoop (List.range' first (size - first)) elem fun elem row => do
    let coef ← idx elem (← add (← mul row size) col)
    if ← base.isZero coef then return elem
    else
      let coef ← base.neg coef
      addRows base size elem col row coef

/-- matrix_ring.rs:102-124, the outer loop of `determinant`. -/
def detLoop : List Nat → List E → E → Res E
  | [], _, det => .ok det
  | col :: cols, elem, det => do
    match ← findRow base size elem col with
    | some row =>
      let elem ← if row ≠ col then swapRows size elem col row else pure elem
      let coef ← idx elem (← add (← mul col size) col)
      let det ← base.mulAssign det coef
      let coef ← base.inv coef
      let elem ← mulRow base size elem col coef
      let elem ← detClear base size elem col
      detLoop cols elem det
    | none => base.zero

/-- matrix_ring.rs:98-125 `determinant`. -/
def determinant (elem : List E) : Res E := do
  detLoop base size (List.range size) elem (← base.one)

/-- matrix_ring.rs:134-140 `contains`. -/
def matContains (elem : List E) : Res Bool := do
  if elem.length != (← len size) then return false else allRes (fun a => base.contains a) elem

/-- matrix_ring.rs:142-148 `equals`. -/
def matEquals (elem1 elem2 : List E) : Res Bool := do
  Res.assert (elem1.length == (← len size) && elem2.length == (← len size))
  allRes (fun p => base.equals p.1 p.2) (elem1.zip elem2)

/-- matrix_ring.rs:155-172 `mul`. -/
def matMul (elem1 elem2 : List E) : Res (List E) := do
  Res.assert (elem1.length == (← len size) && elem2.length == (← len size))
  let elem2 ← transpose bytes size elem2
  capacity bytes (← len size)
  forLoop (List.range size) [] fun res row =>
    forLoop (List.range size) res fun res col => do
      let sum ← forLoop (List.range size) (← base.zero) fun sum i => do
        let val1 ← idx elem1 (← add (← mul row size) i)
        let val2 ← idx elem2 (← add (← mul col size) i)
        let val3 ← base.mul val1 val2
        base.addAssign sum val3
      return res ++ [sum]

/-- matrix_ring.rs:226-228 `zero`; the length is that computed by `new`, matrix_ring.rs:24. -/
def matZero : Res (List E) := do diagonal bytes (size * size) (← base.zero)

/-- matrix_ring.rs:274-281 `int`. -/
def matInt (n : Int) : Res (List E) := do
  let elem ← base.int n
  let mat ← matZero bytes base size
  forLoop (List.range size) mat fun mat i => do setIdx mat (← mul i (← add size 1)) elem

/-- matrix_ring.rs:196-207, the inner loop of `try_inv`. -/
def invClear (elem invs : List E) (col : Nat) : Res (List E × List E) :=
  forLoop (List.range size) (elem, invs) fun (elem, invs) row =>
    if row == col then .ok (elem, invs)
    else do
      let coef ← idx elem (← add (← mul row size) col)
      if ← base.isZero coef then return (elem, invs)
      else
        let coef ← base.neg coef
        let elem ← addRows base size elem col row coef
        let invs ← addRows base size invs col row coef
        return (elem, invs)

/-- matrix_ring.rs:187-211, the outer loop of `try_inv`. -/
def invLoop : List Nat → List E → List E → Res (Option (List E × List E))
  | [], elem, invs => .ok (some (elem, invs))
  | col :: cols, elem, invs => do
    match ← findRow base size elem col with
    | some row =>
      let (elem, invs) ←
        if row ≠ col then do
          let elem ← swapRows size elem col row
          let invs ← swapRows size invs col row
          pure (elem, invs)
        else pure (elem, invs)
      let coef ← base.inv (← idx elem (← add (← mul col size) col))
      let elem ← mulRow base size elem col coef
      let invs ← mulRow base size invs col coef
      let (elem, invs) ← invClear base size elem invs col
      invLoop cols elem invs
    | none => return none

/-- traits.rs:50-52 `is_one`, with `one` of matrix_ring.rs:179-181. -/
def matIsOne (elem : List E) : Res Bool := do matEquals base size elem (← matInt bytes base size 1)

/-- matrix_ring.rs:183-215 `try_inv`. -/
def matTryInv (elem : List E) : Res (Option (List E)) := do
  let invs ← matInt bytes base size 1
  match ← invLoop base size (List.range size) elem invs with
  | some (elem, invs) =>
    debugAssert (matIsOne bytes base size elem)
    return some invs
  | none => return none

end matrices

/-! ## polynomial_algebra.rs -/

section polynomials

/-- polynomial_algebra.rs:37-43 `degree`. -/
def degree (elem : List E) : Res (Option Nat) :=
  if elem.isEmpty then .ok none else do return some (← sub elem.length 1)

/-- polynomial_algebra.rs:48-54 `leading_coef`. -/
def leadingCoef (elem : List E) : Res (Option E) :=
  if elem.isEmpty then .ok none
  else do return some (← idx elem (← sub elem.length 1))

/-- polynomial_algebra.rs:63-74 `contains`. -/
def polyContains (base : AbelianGroupOps E) (elem : List E) : Res Bool :=
  if elem.isEmpty then .ok true
  else do
    if ← allRes (fun a => base.contains a) elem then
      return !(← base.isZero (← idx elem (← sub elem.length 1)))
    else return false

/-- polynomial_algebra.rs:144-167 `add`. -/
def polyAdd (base : AbelianGroupOps E) (elem1 elem2 : List E) : Res (List E) :=
  if elem1.length ≠ elem2.length then
    let (elem1, elem2) :=
      if elem1.length > elem2.length then (elem1, elem2) else (elem2, elem1)
    forLoop (List.range elem2.length) elem1 fun elem3 i => do
      let a ← base.add (← idx elem3 i) (← idx elem2 i)
      setIdx elem3 i a
  else
    forLoop (List.range elem1.length) [] fun elem3 i => do
      let a ← base.add (← idx elem1 i) (← idx elem2 i)
      if !(← base.isZero a) then
        let n ← add i 1
        let elem3 := resize elem3 n (← base.zero)
        setIdx elem3 i a
      else return elem3

/-- polynomial_algebra.rs:183-189, the loop of `times`. -/
def timesTrim (base : AbelianGroupOps E) (v : List E) : Nat → Res (List E)
  | 0 => .ok []
  | i + 1 => do
    if !(← base.isZero (← idx v i)) then
      let n ← add i 1
      return resize v n (← base.zero)
    else timesTrim base v i

/-- polynomial_algebra.rs:178-190 `times`. -/
def polyTimes (base : AbelianGroupOps E) (num : Int) (elem : List E) : Res (List E) := do
  let elem ← mapRes (fun a => base.times num a) elem
  timesTrim base elem elem.length

variable (bytes : Nat)

/-- polynomial_algebra.rs:92-106 `mul`. -/
def polyMul (base : UnitaryRingOps E) (elem1 elem2 : List E) : Res (List E) :=
  if elem1.isEmpty || elem2.isEmpty then .ok []
  else do
    capacity bytes (← sub (← add elem1.length elem2.length) 1)
    let n ← sub (← add elem1.length elem2.length) 1
    let elem3 := resize [] n (← base.zero)
    forLoop (List.range elem1.length) elem3 fun elem3 i =>
      forLoop (List.range elem2.length) elem3 fun elem3 j => do
        let a ← base.mul (← idx elem1 i) (← idx elem2 j)
        let b ← base.add (← idx elem3 (← add i j)) a
        setIdx elem3 (← add i j) b

/-- polynomial_algebra.rs:217-224, the main loop of `try_div`. -/
def tryDivLoop (base : IntegralDomainOps E) (elem2 : List E) (a : E) :
    Nat → List E → List E → Res (Option (List E × List E))
  | 0, quo, rem => .ok (some (quo, rem))
  | i + 1, quo, rem => do
    match ← base.tryDiv (← idx rem (← sub (← add i elem2.length) 1)) a with
    | none => return none
    | some q =>
      let quo ← setIdx quo i q
      let b ← base.neg (← idx quo i)
      let rem ← forLoop (List.range (← sub elem2.length 1)) rem fun rem j => do
        let c ← base.mul (← idx elem2 j) b
        let d ← base.addAssign (← idx rem (← add i j)) c
        setIdx rem (← add i j) d
      tryDivLoop base elem2 a i quo rem

/-- polynomial_algebra.rs:201-233 `try_div`.  The capacity asked for is that of the product. -/
def polyTryDiv (base : IntegralDomainOps E) (elem1 elem2 : List E) : Res (Option (List E)) := do
  Res.assert (!elem2.isEmpty)
  if elem1.length < elem2.length then
    if elem1.isEmpty then return some [] else return none
  else
    capacity bytes (← sub (← add elem1.length elem2.length) 1)
    let n ← add (← sub elem1.length elem2.length) 1
    let quo := resize [] n (← base.zero)
    let a ← idx elem2 (← sub elem2.length 1)
    Res.assert (!(← base.isZero a))
    match ← tryDivLoop base elem2 a quo.length quo elem1 with
    | none => return none
    | some (quo, rem) =>
      if ← allRes (fun d => base.isZero d) (rem.take (← sub elem2.length 1)) then return some quo
      else return none

/-- polynomial_algebra.rs:235-242 `associate_repr`. -/
def associateRepr (base : IntegralDomainOps E) (elem : List E) : Res (List E) :=
  if elem.isEmpty then .ok []
  else do
    let coef ← base.associateCoef (← idx elem (← sub elem.length 1))
    mapRes (fun x => base.mul x coef) elem

/-- polynomial_algebra.rs:244-249 `associate_coef`. -/
def associateCoef (base : IntegralDomainOps E) (elem : List E) : Res (List E) := do
  Res.assert (!elem.isEmpty)
  return [← base.associateCoef (← idx elem (← sub elem.length 1))]

/-- polynomial_algebra.rs:269-276, the main loop of `quo_rem`. -/
def quoRemLoop (base : FieldOps E) (elem2 : List E) (a : E) :
    Nat → List E → List E → Res (List E × List E)
  | 0, quo, rem => .ok (quo, rem)
  | i + 1, quo, rem => do
    let q ← base.div (← idx rem (← sub (← add i elem2.length) 1)) a
    let quo ← setIdx quo i q
    let b ← base.neg (← idx quo i)
    let rem ← forLoop (List.range (← sub elem2.length 1)) rem fun rem j => do
      let c ← base.mul (← idx elem2 j) b
      let d ← base.add (← idx rem (← add i j)) c
      setIdx rem (← add i j) d
    quoRemLoop base elem2 a i quo rem

/-- polynomial_algebra.rs:278-281 `while i > 0 && is_zero(rem[i - 1]) { i -= 1 }`. -/
def trimLen (base : FieldOps E) (rem : List E) (i : Nat) : Res Nat :=
  match i with
  | 0 => .ok 0
  | k + 1 => do
    let j ← sub (k + 1) 1
    if ← base.isZero (← idx rem j) then
      let _ ← sub (k + 1) 1
      trimLen base rem k
    else return k + 1

/-- polynomial_algebra.rs:256-285 `quo_rem`. -/
def polyQuoRem (base : FieldOps E) (elem1 elem2 : List E) : Res (List E × List E) := do
  Res.assert (!elem2.isEmpty)
  if elem1.length < elem2.length then return ([], elem1)
  else
    capacity bytes (← add (← sub elem1.length elem2.length) 1)
    let n ← add (← sub elem1.length elem2.length) 1
    let quo := resize [] n (← base.zero)
    let a ← idx elem2 (← sub elem2.length 1)
    Res.assert (!(← base.isZero a))
    let (quo, rem) ← quoRemLoop base elem2 a quo.length quo elem1
    let i ← trimLen base rem (← sub elem2.length 1)
    return (quo, rem.take i)

end polynomials

/-! ## permutations.rs -/

section permutations

open Permutations

/-- permutations.rs:26-39 `contains`. -/
def permContains (size : UInt32) (elem : List UInt32) : Res Bool :=
  if elem.length != size.toNat then .ok false
  else do
    capacity 1 size.toNat
    containsLoop elem (List.replicate size.toNat false)

/-- permutations.rs:47-55 `mul`. -/
def permMul (size : UInt32) (elem1 elem2 : List UInt32) : Res (List UInt32) := do
  checkLen size elem1
  checkLen size elem2
  capacity 4 size.toNat
  forLoop (enumerate elem1) (List.replicate size.toNat 0) fun prod p => do
    setIdx prod p.1 (← idx elem2 p.2.toNat)

/-- permutations.rs:67-73 `one`. -/
def permOne (size : UInt32) : Res (List UInt32) := do
  capacity 4 size.toNat
  forLoop (List.range size.toNat) (List.replicate size.toNat 0) fun elem i => setIdx elem i (UInt32.ofNat i)

/-- permutations.rs:85-92 `try_inv`. -/
def permTryInv (size : UInt32) (elem : List UInt32) : Res (Option (List UInt32)) := do
  checkLen size elem
  capacity 4 size.toNat
  let inv ← forLoop (enumerate elem) (List.replicate size.toNat 0) fun inv p =>
    setIdx inv p.2.toNat (UInt32.ofNat p.1)
  return some inv

end permutations

end Abstalg.Usize
