import Verif.Model.Integers
import Verif.Model.Naturals
import Verif.Model.TwoElementAlgebra
import Verif.Model.Permutations
import Verif.Model.VectorAlgebra
import Verif.Model.MatrixRing
import Verif.Model.AdditiveGroup
import Verif.Model.MultiplicativeGroup

/-!
# Model of the operands `&mut` of the in-place methods

In the other files an in-place method returns the new value of its operand, so that nothing is said
about the operand if the method panics.  Here the method is a function from the contents of the
operand to the outcome together with the contents afterwards: what is seen after the panic has been
caught.  (If the method never returns, the contents have no meaning.)
-/

set_option autoImplicit false

namespace Abstalg

/-- A method with an operand `&mut E`: the outcome, and the contents of the operand afterwards. -/
def Mut (E : Type) : Type := E → Res Unit × E

variable {E : Type}

/-- `*elem = f(elem)`: the assignment takes place after `f` has returned. -/
def Mut.assign (f : E → Res E) : Mut E := fun e =>
  match f e with
  | .ok e' => (.ok (), e')
  | .panic => (.panic, e)
  | .diverge => (.diverge, e)

/-- A computation that does not touch the operand, followed by a method that may use its result. -/
def Mut.after {α : Type} (r : Res α) (m : α → Mut E) : Mut E := fun e =>
  match r with
  | .ok a => m a e
  | .panic => (.panic, e)
  | .diverge => (.diverge, e)

/-- `elem.iter_mut().zip(...).for_each(...)`: the given method of each coordinate, in order.  What follows a
coordinate whose method does not return is not visited. -/
def Mut.each : List (Mut E) → Mut (List E)
  | m :: ms, x :: l =>
    match m x with
    | (.ok _, y) => ((Mut.each ms l).1, y :: (Mut.each ms l).2)
    | (.panic, y) => (.panic, y :: l)
    | (.diverge, y) => (.diverge, y :: l)
  | _, l => (.ok (), l)

/-- traits.rs:28-41 `trait Semigroup`. -/
structure MutMul (A : SemigroupOps E) where
  /-- traits.rs:33-35 `*elem1 = self.mul(elem1, elem2)` -/
  mulAssign : E → Mut E := fun b => .assign fun a => A.mul a b
  /-- traits.rs:38-40 `*elem = self.mul(elem, elem)` -/
  square : Mut E := .assign fun a => A.mul a a

/-- traits.rs:66-101 `trait CommuntativeMonoid`. -/
structure MutAdd (A : CommutativeMonoidOps E) where
  /-- traits.rs:79-81 `*elem1 = self.add(elem1, elem2)` -/
  addAssign : E → Mut E := fun b => .assign fun a => A.add a b
  /-- traits.rs:84-86 `*elem = self.add(elem, elem)` -/
  double : Mut E := .assign fun a => A.add a a

/-- traits.rs:136-162 `trait AbelianGroup`. -/
structure MutNeg [Cfg] (A : AbelianGroupOps E) extends MutAdd A.toCommutativeMonoidOps where
  /-- traits.rs:141-143 `*elem = self.neg(elem)` -/
  negAssign : Mut E := .assign fun a => A.neg a
  /-- traits.rs:153-155 `self.add_assign(elem1, &self.neg(elem2))` -/
  subAssign : E → Mut E := fun b => .after (A.neg b) fun c => addAssign c

/-- The default methods.  checked_ints.rs, checked_uints.rs, approx_floats.rs, polynomial_algebra.rs,
quotient_ring.rs, quotient_field.rs and reduced_fractions.rs override none of them, integers.rs,
naturals.rs, permutations.rs and matrix_ring.rs not all. -/
def MutMul.default (A : SemigroupOps E) : MutMul A where

/-- See `MutMul.default`. -/
def MutAdd.default (A : CommutativeMonoidOps E) : MutAdd A where

/-- See `MutMul.default`. -/
def MutNeg.default [Cfg] (A : AbelianGroupOps E) : MutNeg A where

/-- integers.rs:65-67 `*elem *= 2`. -/
def Integers.mutNeg [Cfg] : MutNeg Integers.unitaryRing.toAbelianGroupOps where
  double := fun a => (.ok (), a * 2)

/-- naturals.rs:67-69 `*elem *= 2`. -/
def Naturals.mutAdd : MutAdd Naturals.semiRing.toCommutativeMonoidOps where
  double := fun a => (.ok (), a * 2)

/-- two_element_algebra.rs:25-29. -/
def TwoElementAlgebra.mutMul [Cfg] : MutMul TwoElementAlgebra.field.toSemigroupOps where
  mulAssign := fun b a => (.ok (), a && b)
  square := fun a => (.ok (), a)

/-- two_element_algebra.rs:67-89. -/
def TwoElementAlgebra.mutNeg [Cfg] : MutNeg TwoElementAlgebra.field.toAbelianGroupOps where
  addAssign := fun b a => (.ok (), a ^^ b)
  double := fun _ => (.ok (), false)
  negAssign := fun a => (.ok (), a)
  subAssign := fun b a => (.ok (), a ^^ b)

/-- permutations.rs:57-63; `square` is the default. -/
def Permutations.mutMul [Cfg] (size : UInt32) : MutMul (Permutations.ops size).toSemigroupOps where
  mulAssign := fun elem2 elem1 =>
    Mut.after (Permutations.checkLen size elem1) (fun _ =>
      Mut.after (Permutations.checkLen size elem2) fun _ =>
        Mut.each (elem1.map fun _ => Mut.assign fun a => idx elem2 a.toNat)) elem1

namespace VectorAlgebra

variable (len : Nat)

/-- `assert!(lengths); elem1.iter_mut().zip(elem2.iter()).for_each(|(x, y)| f(x, y))`. -/
def zipMut (f : E → Mut E) (elem2 : List E) : Mut (List E) := fun elem1 =>
  Mut.after (Res.assert (lenIs len elem1 && lenIs len elem2)) (fun _ => Mut.each (elem2.map f)) elem1

/-- `assert!(length); elem.iter_mut().for_each(f)`. -/
def eachMut (f : Mut E) : Mut (List E) := fun elem =>
  Mut.after (Res.assert (lenIs len elem)) (fun _ => Mut.each (elem.map fun _ => f)) elem

/-- vector_algebra.rs:80-91. -/
def mutMul {base : SemigroupOps E} (M : MutMul base) : MutMul (semigroup len base) where
  mulAssign := zipMut len M.mulAssign
  square := eachMut len M.square

/-- vector_algebra.rs:158-169. -/
def mutAdd {base : CommutativeMonoidOps E} (M : MutAdd base) : MutAdd (commutativeMonoid len base) where
  addAssign := zipMut len M.addAssign
  double := eachMut len M.double

/-- vector_algebra.rs:158-169, 181-184, 195-201. -/
def mutNeg [Cfg] {base : AbelianGroupOps E} (M : MutNeg base) : MutNeg (abelianGroup len base) where
  toMutAdd := mutAdd len M.toMutAdd
  negAssign := eachMut len M.negAssign
  subAssign := zipMut len M.subAssign

end VectorAlgebra

/-- matrix_ring.rs:238-244, 255-257, 263-265: those of the vectors of `size * size` entries.  `mul_assign` and
`square` are the default ones. -/
def MatrixRing.mutNeg [Cfg] {base : FieldOps E} (M : MutNeg base.toAbelianGroupOps) (size : Nat) :
    MutNeg (MatrixRing.ops base size).toAbelianGroupOps where
  addAssign := VectorAlgebra.zipMut (size * size) M.addAssign
  double := VectorAlgebra.eachMut (size * size) M.double
  negAssign := VectorAlgebra.eachMut (size * size) M.negAssign
  subAssign := VectorAlgebra.zipMut (size * size) M.subAssign

/-- additive_group.rs:53-59. -/
def AdditiveGroup.mutMul [Cfg] {base : AbelianGroupOps E} (M : MutAdd base.toCommutativeMonoidOps) :
    MutMul (AdditiveGroup.ops base).toSemigroupOps where
  mulAssign := M.addAssign
  square := M.double

/-- multiplicative_group.rs:54-60. -/
def MultiplicativeGroup.mutMul [Cfg] {base : MonoidOps E} (M : MutMul base.toSemigroupOps) :
    MutMul (MultiplicativeGroup.ops base).toSemigroupOps where
  mulAssign := M.mulAssign
  square := M.square

end Abstalg
