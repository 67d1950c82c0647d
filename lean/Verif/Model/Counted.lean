import Verif.Model.MatrixRing
import Verif.Model.PolynomialAlgebra

/-!
# Model of the generic methods that counts the calls of the base

The definitions repeat those of `Traits`, `VectorAlgebra`, `MatrixRing` and `PolynomialAlgebra`; beside the
outcome they give the number of calls of each method of the base that were made (until the
panic, if there is one).  That they have the same outcomes is theorem C93.  The calls made by a method of the base
that is itself a default method are not counted.
-/

set_option autoImplicit false

namespace Abstalg

/-- The methods of the base. -/
inductive Call where
  | equals | zero | isZero | add | addAssign | double | neg | sub | one | int | mul | mulAssign | square | inv | div | tryDiv | tryInv
  deriving DecidableEq, Repr

/-- An outcome, and how often each method of the base was called. -/
structure Counted (α : Type) where
  res : Res α
  calls : Call → Nat

namespace Counted

variable {α β E : Type}

/-- Calls are counted until the computation stops. -/
protected def bind (x : Counted α) (f : α → Counted β) : Counted β :=
  match x.res with
  | .ok a => ⟨(f a).res, fun c => x.calls c + (f a).calls c⟩
  | .panic => ⟨.panic, x.calls⟩
  | .diverge => ⟨.diverge, x.calls⟩

instance : Monad Counted where
  pure a := ⟨.ok a, fun _ => 0⟩
  bind := Counted.bind

/-- A computation without the base. -/
def lift (r : Res α) : Counted α := ⟨r, fun _ => 0⟩

/-- A call of a method of the base. -/
def call (c : Call) (r : Res α) : Counted α := ⟨r, fun d => if d = c then 1 else 0⟩

/-- See `Abstalg.forLoop`. -/
def forLoop {σ ι : Type} (l : List ι) (s : σ) (body : σ → ι → Counted σ) : Counted σ :=
  match l with
  | [] => pure s
  | i :: l => do forLoop l (← body s i) body

/-- See `Abstalg.mapRes`. -/
def mapRes (f : α → Counted β) : List α → Counted (List β)
  | [] => pure []
  | a :: l => do
    let b ← f a
    let l' ← mapRes f l
    pure (b :: l')

/-- See `Abstalg.zipForEach`. -/
def zipForEach (f : α → β → Counted α) : List α → List β → Counted (List α)
  | a :: l, b :: m => do
    let a' ← f a b
    let l' ← zipForEach f l m
    pure (a' :: l')
  | l, _ => pure l

/-- See `Abstalg.allRes`. -/
def allRes (p : α → Counted Bool) : List α → Counted Bool
  | [] => pure true
  | a :: l => do if ← p a then allRes p l else pure false

/-- See `Abstalg.findRes`. -/
def findRes (p : α → Counted Bool) : List α → Counted (Option α)
  | [] => pure none
  | a :: l => do if ← p a then pure (some a) else findRes p l

/-- See `Abstalg.debugAssert`. -/
def debugAssert [Cfg] (b : Counted Bool) : Counted Unit :=
  if Cfg.debugAssertions then do lift (Res.assert (← b)) else pure ()

/-! ## traits.rs -/

/-- traits.rs:92-98, the loop of `times(usize)`. -/
def timesLoop (A : CommutativeMonoidOps E) (num : Nat) (res elem : E) : Counted E :=
  if _h : 0 < num then do
    let res ← if num % 2 ≠ 0 then call .addAssign (A.addAssign res elem) else pure res
    let elem ← call .double (A.double elem)
    timesLoop A (num / 2) res elem
  else pure res
termination_by num
decreasing_by omega

/-- traits.rs:89-100 `times(usize)`. -/
def utimes (A : CommutativeMonoidOps E) (num : Nat) (elem : E) : Counted E := do
  timesLoop A num (← call .zero A.zero) elem

/-- traits.rs:123-129, the loop of `power`. -/
def powerLoop [Cfg] (A : GroupOps E) (num : Int) (res elem : E) : Counted E :=
  if _h : 0 < num then do
    let res ← if Int.tmod num 2 ≠ 0 then call .mulAssign (A.mulAssign res elem) else pure res
    let elem ← call .square (A.square elem)
    powerLoop A (Int.tdiv num 2) res elem
  else pure res
termination_by num.toNat
decreasing_by
  rw [Int.tdiv_eq_ediv_of_nonneg (by omega)]
  omega

/-- traits.rs:114-131 `power`. -/
def power [Cfg] (A : GroupOps E) (num : Int) (elem : E) : Counted E := do
  let (num, elem) ←
    if num < 0 then do
      let num ← lift (isizeNeg num)
      let elem ← call .inv (A.inv elem)
      pure (num, elem)
    else pure (num, elem)
  powerLoop A num (← call .one A.one) elem

/-! ## vector_algebra.rs -/

/-- See `VectorAlgebra.zipMap`: `add`, `sub`, `mul`. -/
def zipMap (len : Nat) (c : Call) (f : E → E → Res E) (a b : List E) : Counted (List E) := do
  lift (Res.assert (VectorAlgebra.lenIs len a && VectorAlgebra.lenIs len b))
  mapRes (fun p => call c (f p.1 p.2)) (a.zip b)

/-- See `VectorAlgebra.zipEach`: `add_assign`, `mul_assign`. -/
def zipEach (len : Nat) (c : Call) (f : E → E → Res E) (a b : List E) : Counted (List E) := do
  lift (Res.assert (VectorAlgebra.lenIs len a && VectorAlgebra.lenIs len b))
  zipForEach (fun x y => call c (f x y)) a b

/-- See `VectorAlgebra.mapEach`: `neg`, `double`, `square`, `inv`. -/
def mapEach (len : Nat) (c : Call) (f : E → Res E) (a : List E) : Counted (List E) := do
  lift (Res.assert (VectorAlgebra.lenIs len a))
  mapRes (fun x => call c (f x)) a

/-! ## matrix_ring.rs -/

section matrices

variable [Cfg] (base : FieldOps E) (size : Nat)

/-- matrix_ring.rs:155-172 `mul`. -/
def matMul (elem1 elem2 : List E) : Counted (List E) := do
  lift (Res.assert (elem1.length == size * size && elem2.length == size * size))
  let elem2 ← lift (MatrixRing.transpose size elem2)
  forLoop (List.range size) [] fun res row =>
    forLoop (List.range size) res fun res col => do
      let sum ← forLoop (List.range size) (← call .zero base.zero) fun sum i => do
        let val1 ← lift (idx elem1 (row * size + i))
        let val2 ← lift (idx elem2 (col * size + i))
        let val3 ← call .mul (base.mul val1 val2)
        call .addAssign (base.addAssign sum val3)
      return res ++ [sum]

/-- matrix_ring.rs:58-63 `mul_row`. -/
def mulRow (elem : List E) (row : Nat) (coef : E) : Counted (List E) := do
  let row := row * size
  lift (Res.assert (row + size ≤ elem.length))
  forLoop (List.range size) elem fun elem col => do
    let a ← call .mulAssign (base.mulAssign (← lift (idx elem (row + col))) coef)
    lift (setIdx elem (row + col) a)

/-- matrix_ring.rs:67-80 `add_rows`. -/
def addRows (elem : List E) (row1 row2 : Nat) (coef : E) : Counted (List E) :=
  let row1 := row1 * size
  let row2 := row2 * size
  forLoop (List.range size) elem fun elem col => do
    let val ← call .mul (base.mul (← lift (idx elem (row1 + col))) coef)
    let a ← call .addAssign (base.addAssign (← lift (idx elem (row2 + col))) val)
    lift (setIdx elem (row2 + col) a)

/-- matrix_ring.rs:92-94 `find_row`. -/
def findRow (elem : List E) (col : Nat) : Counted (Option Nat) :=
  findRes (fun row => do return !(← call .isZero (base.isZero (← lift (idx elem (row * size + col))))))
    (List.range' col (size - col))

/-- matrix_ring.rs:111-118, the inner loop of `determinant`. -/
def detClear (elem : List E) (col : Nat) : Counted (List E) :=
  forLoop (List.range' (col + 1) (size - (col + 1))) elem fun elem row => do
    let coef ← lift (idx elem (row * size + col))
    if ← call .isZero (base.isZero coef) then return elem
    else
      let coef ← call .neg (base.neg coef)
      addRows base size elem col row coef

/-- matrix_ring.rs:102-124, the outer loop of `determinant`. -/
def detLoop : List Nat → List E → E → Counted E
  | [], _, det => pure det
  | col :: cols, elem, det => do
    match ← findRow base size elem col with
    | some row =>
      let elem ← if row ≠ col then lift (MatrixRing.swapRows size elem col row) else pure elem
      let coef ← lift (idx elem (col * size + col))
      let det ← call .mulAssign (base.mulAssign det coef)
      let coef ← call .inv (base.inv coef)
      let elem ← mulRow base size elem col coef
      let elem ← detClear base size elem col
      detLoop cols elem det
    | none => call .zero base.zero

/-- matrix_ring.rs:98-125 `determinant`. -/
def determinant (elem : List E) : Counted E := do
  detLoop base size (List.range size) elem (← call .one base.one)

/-- matrix_ring.rs:226-228 `zero`; vector_algebra.rs:140-142. -/
def matZero : Counted (List E) := do
  return VectorAlgebra.diagonal (size * size) (← call .zero base.zero)

/-- matrix_ring.rs:274-281 `int`. -/
def matInt (n : Int) : Counted (List E) := do
  let elem ← call .int (base.int n)
  let mat ← matZero base size
  forLoop (List.range size) mat fun mat i => lift (setIdx mat (i * (size + 1)) elem)

/-- matrix_ring.rs:196-207, the inner loop of `try_inv`. -/
def invClear (elem invs : List E) (col : Nat) : Counted (List E × List E) :=
  forLoop (List.range size) (elem, invs) fun (elem, invs) row =>
    if row == col then pure (elem, invs)
    else do
      let coef ← lift (idx elem (row * size + col))
      if ← call .isZero (base.isZero coef) then return (elem, invs)
      else
        let coef ← call .neg (base.neg coef)
        let elem ← addRows base size elem col row coef
        let invs ← addRows base size invs col row coef
        return (elem, invs)

/-- matrix_ring.rs:187-211, the outer loop of `try_inv`. -/
def invLoop : List Nat → List E → List E → Counted (Option (List E × List E))
  | [], elem, invs => pure (some (elem, invs))
  | col :: cols, elem, invs => do
    match ← findRow base size elem col with
    | some row =>
      let (elem, invs) ←
        if row ≠ col then do
          let elem ← lift (MatrixRing.swapRows size elem col row)
          let invs ← lift (MatrixRing.swapRows size invs col row)
          pure (elem, invs)
        else pure (elem, invs)
      let coef ← call .inv (base.inv (← lift (idx elem (col * size + col))))
      let elem ← mulRow base size elem col coef
      let invs ← mulRow base size invs col coef
      let (elem, invs) ← invClear base size elem invs col
      invLoop cols elem invs
    | none => return none

/-- traits.rs:50-52 and matrix_ring.rs:142-148, `is_one`. -/
def matIsOne (elem : List E) : Counted Bool := do
  let one ← matInt base size 1
  lift (Res.assert (elem.length == size * size && one.length == size * size))
  allRes (fun p => call .equals (base.equals p.1 p.2)) (elem.zip one)

/-- matrix_ring.rs:183-215 `try_inv`. -/
def matTryInv (elem : List E) : Counted (Option (List E)) := do
  let invs ← matInt base size 1
  match ← invLoop base size (List.range size) elem invs with
  | some (elem, invs) =>
    debugAssert (matIsOne base size elem)
    return some invs
  | none => return none

end matrices

/-! ## polynomial_algebra.rs -/

section polynomials

variable [Cfg]

/-- polynomial_algebra.rs:144-167 `add`. -/
def polyAdd (base : AbelianGroupOps E) (elem1 elem2 : List E) : Counted (List E) :=
  if elem1.length ≠ elem2.length then
    let (elem1, elem2) :=
      if elem1.length > elem2.length then (elem1, elem2) else (elem2, elem1)
    forLoop (List.range elem2.length) elem1 fun elem3 i => do
      let a ← call .add (base.add (← lift (idx elem3 i)) (← lift (idx elem2 i)))
      lift (setIdx elem3 i a)
  else
    forLoop (List.range elem1.length) [] fun elem3 i => do
      let a ← call .add (base.add (← lift (idx elem1 i)) (← lift (idx elem2 i)))
      if !(← call .isZero (base.isZero a)) then
        let elem3 := resize elem3 (i + 1) (← call .zero base.zero)
        lift (setIdx elem3 i a)
      else return elem3

/-- polynomial_algebra.rs:92-106 `mul`. -/
def polyMul (base : UnitaryRingOps E) (elem1 elem2 : List E) : Counted (List E) :=
  if elem1.isEmpty || elem2.isEmpty then pure []
  else do
    let elem3 := List.replicate (elem1.length + elem2.length - 1) (← call .zero base.zero)
    forLoop (List.range elem1.length) elem3 fun elem3 i =>
      forLoop (List.range elem2.length) elem3 fun elem3 j => do
        let a ← call .mul (base.mul (← lift (idx elem1 i)) (← lift (idx elem2 j)))
        let b ← call .add (base.add (← lift (idx elem3 (i + j))) a)
        lift (setIdx elem3 (i + j) b)

/-- polynomial_algebra.rs:217-224, the main loop of `try_div`. -/
def tryDivLoop (base : IntegralDomainOps E) (elem2 : List E) (a : E) :
    Nat → List E → List E → Counted (Option (List E × List E))
  | 0, quo, rem => pure (some (quo, rem))
  | i + 1, quo, rem => do
    match ← call .tryDiv (base.tryDiv (← lift (idx rem (i + elem2.length - 1))) a) with
    | none => return none
    | some q =>
      let quo ← lift (setIdx quo i q)
      let b ← call .neg (base.neg (← lift (idx quo i)))
      let rem ← forLoop (List.range (elem2.length - 1)) rem fun rem j => do
        let c ← call .mul (base.mul (← lift (idx elem2 j)) b)
        let d ← call .addAssign (base.addAssign (← lift (idx rem (i + j))) c)
        lift (setIdx rem (i + j) d)
      tryDivLoop base elem2 a i quo rem

/-- polynomial_algebra.rs:201-233 `try_div`. -/
def polyTryDiv (base : IntegralDomainOps E) (elem1 elem2 : List E) : Counted (Option (List E)) := do
  lift (Res.assert (!elem2.isEmpty))
  if elem1.length < elem2.length then
    if elem1.isEmpty then return some [] else return none
  else
    let quo := List.replicate (elem1.length - elem2.length + 1) (← call .zero base.zero)
    let a ← lift (idx elem2 (elem2.length - 1))
    lift (Res.assert (!(← call .isZero (base.isZero a))))
    match ← tryDivLoop base elem2 a quo.length quo elem1 with
    | none => return none
    | some (quo, rem) =>
      if ← allRes (fun d => call .isZero (base.isZero d)) (rem.take (elem2.length - 1)) then return some quo
      else return none

/-- polynomial_algebra.rs:269-276, the main loop of `quo_rem`. -/
def quoRemLoop (base : FieldOps E) (elem2 : List E) (a : E) :
    Nat → List E → List E → Counted (List E × List E)
  | 0, quo, rem => pure (quo, rem)
  | i + 1, quo, rem => do
    let q ← call .div (base.div (← lift (idx rem (i + elem2.length - 1))) a)
    let quo ← lift (setIdx quo i q)
    let b ← call .neg (base.neg (← lift (idx quo i)))
    let rem ← forLoop (List.range (elem2.length - 1)) rem fun rem j => do
      let c ← call .mul (base.mul (← lift (idx elem2 j)) b)
      let d ← call .add (base.add (← lift (idx rem (i + j))) c)
      lift (setIdx rem (i + j) d)
    quoRemLoop base elem2 a i quo rem

/-- polynomial_algebra.rs:278-281. -/
def trimLen (base : FieldOps E) (rem : List E) : Nat → Counted Nat
  | 0 => pure 0
  | i + 1 => do
    if ← call .isZero (base.isZero (← lift (idx rem i))) then trimLen base rem i else return i + 1

/-- polynomial_algebra.rs:256-285 `quo_rem`. -/
def polyQuoRem (base : FieldOps E) (elem1 elem2 : List E) : Counted (List E × List E) := do
  lift (Res.assert (!elem2.isEmpty))
  if elem1.length < elem2.length then return ([], elem1)
  else
    let quo := List.replicate (elem1.length - elem2.length + 1) (← call .zero base.zero)
    let a ← lift (idx elem2 (elem2.length - 1))
    lift (Res.assert (!(← call .isZero (base.isZero a))))
    let (quo, rem) ← quoRemLoop base elem2 a quo.length quo elem1
    let i ← trimLen base rem (elem2.length - 1)
    return (quo, rem.take i)

/-- traits.rs:248-257 `gcd`, with at most `n` tests of the loop condition (see `Spec/Cost.lean`). -/
def polyGcdWithin (base : FieldOps E) : Nat → List E → List E → Counted (List E)
  | 0, _, _ => lift .diverge
  | n + 1, a, b =>
    if b.isEmpty then pure a
    else do
      let r ← polyQuoRem base a b
      polyGcdWithin base n b r.2

end polynomials

end Counted

end Abstalg
