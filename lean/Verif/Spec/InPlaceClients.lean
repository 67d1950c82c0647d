import Verif.Spec.Clients
import Verif.Spec.Mutation
import Verif.Spec.Outcomes

/-! # Specification: programs that change operands in place

The programs of `Verif.Spec.Clients` call an in-place method on a copy of its operand. Here the register
itself is the operand `&mut`: after a panic that the program catches it holds what the method has left
there (`Verif.Model.Mutation`), and the program goes on with that. The other operand is a shared one, or a
copy if it comes from the same register. -/

set_option autoImplicit false

universe u v

namespace Abstalg

/-- The in-place methods of `trait UnitaryRing`. -/
inductive InPlaceMethod where
  | mulAssign | square | addAssign | double | negAssign | subAssign

section

variable {E F : Type}

/-- The methods on an operand `&mut`, after the shared operand. -/
def InPlaceMethod.table [Cfg] {S : SemigroupOps E} {A : AbelianGroupOps E} (M : MutMul S) (N : MutNeg A) : InPlaceMethod → E → Mut E
  | .mulAssign, b => M.mulAssign b
  | .square, _ => M.square
  | .addAssign, b => N.addAssign b
  | .double, _ => N.double
  | .negAssign, _ => N.negAssign
  | .subAssign, b => N.subAssign b

/-- The methods that return the new value. -/
def InPlaceMethod.value [Cfg] (S : SemigroupOps E) (A : AbelianGroupOps E) : InPlaceMethod → E → E → Res E
  | .mulAssign, a, b => S.mulAssign a b
  | .square, a, _ => S.square a
  | .addAssign, a, b => A.addAssign a b
  | .double, a, _ => A.double a
  | .negAssign, a, _ => A.negAssign a
  | .subAssign, a, b => A.subAssign a b

variable {ι κ : Type} (C : Client (ι ⊕ κ))

/-- One step: methods in `ι` return their results, methods in `κ` change the first register. -/
def Client.stepInPlace (T : ι → E → E → Res (Reply E)) (M : κ → E → Mut E) (catching : Bool) (c : C.Q × (ℕ → E)) :
    Res (C.Q × (ℕ → E)) :=
  match C.act c.1 with
  | none => .ok c
  | some (.inl i, a, b, d) =>
    match T i (c.2 a) (c.2 b) with
    | .ok r => .ok (C.next c.1 r.seen, store c.2 d r.list)
    | .panic => if catching then .ok (C.next c.1 .panicked, c.2) else .panic
    | .diverge => .diverge
  | some (.inr j, a, b, _) =>
    match M j (c.2 b) (c.2 a) with
    | (.ok _, x) => .ok (C.next c.1 .found, store c.2 a [x])
    | (.panic, x) => if catching then .ok (C.next c.1 .panicked, store c.2 a [x]) else .panic
    | (.diverge, _) => .diverge

/-- The first `n` steps. -/
def Client.runInPlace (T : ι → E → E → Res (Reply E)) (M : κ → E → Mut E) (catching : Bool) :
    ℕ → C.Q × (ℕ → E) → Res (C.Q × (ℕ → E))
  | 0, c => .ok c
  | n + 1, c => do runInPlace T M catching n (← C.stepInPlace T M catching c)

/-- The same program, calling the methods in `κ` on a copy of the first register that is stored back
afterwards. -/
def Client.copying : Client (ι ⊕ κ) where
  Q := C.Q
  act q := match C.act q with
    | some (.inr j, a, b, _) => some (.inr j, a, b, a)
    | w => w
  next := C.next

/-- The methods in `κ` as methods that return the new value. -/
def returning (T : ι → E → E → Res (Reply E)) (U : κ → E → E → Res E) : ι ⊕ κ → E → E → Res (Reply E)
  | .inl i, a, b => T i a b
  | .inr j, a, b => (U j a b).element

/-- What the methods in `κ` mean: the new element. -/
def meaningInPlace {R : Type u} (M : ι → R → R → Option (Reply R)) (K : κ → R → R → R) : ι ⊕ κ → R → R → Option (Reply R)
  | .inl i, x, y => M i x y
  | .inr j, x, y => some (.elements [K j x y])

/-- What the methods of a ring mean. -/
def InPlaceMethod.meaning {R : Type u} [Ring R] : InPlaceMethod → R → R → R
  | .mulAssign, x, y => x * y
  | .square, x, _ => x * x
  | .addAssign, x, y => x + y
  | .double, x, _ => x + x
  | .negAssign, x, _ => -x
  | .subAssign, x, y => x - y

/-- The in-place methods of `trait Semigroup`: `mul_assign`, or `square`. -/
inductive InPlaceProduct where
  | mulAssign | square

/-- The methods on an operand `&mut`. -/
def InPlaceProduct.table {S : SemigroupOps E} (M : MutMul S) : InPlaceProduct → E → Mut E
  | .mulAssign, b => M.mulAssign b
  | .square, _ => M.square

/-- What they mean. -/
def InPlaceProduct.meaning {R : Type u} [Mul R] : InPlaceProduct → R → R → R
  | .mulAssign, x, y => x * y
  | .square, x, _ => x * x

end

/-- The methods in `ι` that a program calls satisfy `P`. -/
def Client.OnlyLeft {ι κ : Type} (C : Client (ι ⊕ κ)) (P : ι → Prop) : Prop :=
  ∀ q i a b d, C.act q = some (.inl i, a, b, d) → P i

/-- On corresponding contents both methods return or both panic, and corresponding contents are left. -/
def AlikeMut {E F : Type} (r : E → F → Prop) (m : Mut E) (m' : Mut F) : Prop :=
  ∀ a a', r a a' → Alike (fun _ _ => True) (m a).1 (m' a').1 ∧ r (m a).2 (m' a').2

/-- The in-place methods of `trait Semigroup`. -/
structure AlikeMul {E F : Type} (r : E → F → Prop) {S : SemigroupOps E} {S' : SemigroupOps F} (M : MutMul S) (M' : MutMul S') :
    Prop where
  mulAssign : ∀ {b b'}, r b b' → AlikeMut r (M.mulAssign b) (M'.mulAssign b')
  square : AlikeMut r M.square M'.square

/-- The in-place methods of `trait AbelianGroup`. -/
structure AlikeNeg [Cfg] {E F : Type} (r : E → F → Prop) {A : AbelianGroupOps E} {A' : AbelianGroupOps F} (N : MutNeg A)
    (N' : MutNeg A') : Prop where
  addAssign : ∀ {b b'}, r b b' → AlikeMut r (N.addAssign b) (N'.addAssign b')
  double : AlikeMut r N.double N'.double
  negAssign : AlikeMut r N.negAssign N'.negAssign
  subAssign : ∀ {b b'}, r b b' → AlikeMut r (N.subAssign b) (N'.subAssign b')

end Abstalg
