import Verif.Model.Mutation
import Verif.Spec.Contracts

/-! # Specification of operands `&mut` (used by C92) -/

set_option autoImplicit false

universe u

namespace Abstalg

variable {E : Type}

/-- The outcome with the contents afterwards and the method that returns the new value are the same
computation. -/
def Agrees (m : Res Unit × E) (r : Res E) : Prop :=
  (∀ e, m = (.ok (), e) ↔ r = .ok e) ∧ (m.1 = .panic ↔ r = .panic) ∧ (m.1 = .diverge ↔ r = .diverge)

structure AgreesMul {A : SemigroupOps E} (M : MutMul A) : Prop where
  mulAssign : ∀ a b, Agrees (M.mulAssign b a) (A.mulAssign a b)
  square : ∀ a, Agrees (M.square a) (A.square a)

structure AgreesAdd {A : CommutativeMonoidOps E} (M : MutAdd A) : Prop where
  addAssign : ∀ a b, Agrees (M.addAssign b a) (A.addAssign a b)
  double : ∀ a, Agrees (M.double a) (A.double a)

structure AgreesNeg [Cfg] {A : AbelianGroupOps E} (M : MutNeg A) : Prop extends AgreesAdd M.toMutAdd where
  negAssign : ∀ a, Agrees (M.negAssign a) (A.negAssign a)
  subAssign : ∀ a b, Agrees (M.subAssign b a) (A.subAssign a b)

/-- After a panic the operand satisfies `P` if it did before. -/
def KeepsOnPanic (P : E → Prop) (m : Mut E) : Prop := ∀ a, P a → (m a).1 = .panic → P (m a).2

/-- After a panic the operand is what it was. -/
def UnchangedOnPanic (m : Mut E) : Prop := ∀ a, (m a).1 = .panic → (m a).2 = a

structure UnchangedMul {A : SemigroupOps E} (M : MutMul A) : Prop where
  mulAssign : ∀ b, UnchangedOnPanic (M.mulAssign b)
  square : UnchangedOnPanic M.square

structure UnchangedAdd {A : CommutativeMonoidOps E} (M : MutAdd A) : Prop where
  addAssign : ∀ b, UnchangedOnPanic (M.addAssign b)
  double : UnchangedOnPanic M.double

structure UnchangedNeg [Cfg] {A : AbelianGroupOps E} (M : MutNeg A) : Prop extends UnchangedAdd M.toMutAdd where
  negAssign : UnchangedOnPanic M.negAssign
  subAssign : ∀ b, UnchangedOnPanic (M.subAssign b)

/-- After a panic on members the operand is a member. -/
structure MembersMul {R : Type u} {A : SemigroupOps E} (M : MutMul A) (rep : E → R → Prop) : Prop where
  mulAssign : ∀ {a b x y}, rep a x → rep b y → (M.mulAssign b a).1 = .panic → ∃ z, rep (M.mulAssign b a).2 z
  square : ∀ {a x}, rep a x → (M.square a).1 = .panic → ∃ z, rep (M.square a).2 z

structure MembersAdd {R : Type u} {A : CommutativeMonoidOps E} (M : MutAdd A) (rep : E → R → Prop) : Prop where
  addAssign : ∀ {a b x y}, rep a x → rep b y → (M.addAssign b a).1 = .panic → ∃ z, rep (M.addAssign b a).2 z
  double : ∀ {a x}, rep a x → (M.double a).1 = .panic → ∃ z, rep (M.double a).2 z

structure MembersNeg [Cfg] {R : Type u} {A : AbelianGroupOps E} (M : MutNeg A) (rep : E → R → Prop) : Prop
    extends MembersAdd M.toMutAdd rep where
  negAssign : ∀ {a x}, rep a x → (M.negAssign a).1 = .panic → ∃ z, rep (M.negAssign a).2 z
  subAssign : ∀ {a b x y}, rep a x → rep b y → (M.subAssign b a).1 = .panic → ∃ z, rep (M.subAssign b a).2 z

/-- The method `steps[i]` was called on the coordinates `a[i]` in turn and panicked at `k`: the coordinates
before hold their results, the one at `k` what its method left, the others are as they were. -/
structure StoppedAt (steps : List (Mut E)) (a : List E) (k : ℕ) (out : List E) : Prop where
  length : out.length = a.length
  done : ∀ i < k, ∃ m x y, steps[i]? = some m ∧ a[i]? = some x ∧ m x = (.ok (), y) ∧ out[i]? = some y
  stopped : ∃ m x y, steps[k]? = some m ∧ a[k]? = some x ∧ m x = (.panic, y) ∧ out[k]? = some y
  rest : ∀ i > k, out[i]? = a[i]?

end Abstalg
