import Verif.Spec.Contracts
import Verif.Spec.Simulation
import Verif.Spec.Stateful

/-! # Specification: programs that use an implementation

A *client* is any program that calls the methods of one object: it keeps elements in registers, chooses the next method, its operands
and the register for the result, and learns from a call what the program can see without looking into an element, namely the truth value
of a `bool`, whether an `Option` is `Some`, and whether the call panicked. Its own memory is a type `Q` without any restriction, so that
it may branch, loop, never stop, or be several threads that a scheduler interleaves, each call being a step. An in-place method is called
on a copy of its operand, which is stored if the method returns; what it leaves in its operand if it panics is the subject of C92 and C108. -/

set_option autoImplicit false

universe u v

namespace Abstalg

/-- What a method returns. -/
inductive Reply (E : Type u) where
  | answer (b : Bool)
  | elements (l : List E)
  | missing

/-- What the client sees of it. -/
inductive Seen where
  | answer (b : Bool)
  | found
  | missing
  | panicked

/-- What the client sees of a reply. -/
def Reply.seen {E : Type u} : Reply E → Seen
  | .answer b => .answer b
  | .elements _ => .found
  | .missing => .missing

/-- The elements of a reply. -/
def Reply.list {E : Type u} : Reply E → List E
  | .elements l => l
  | _ => []

/-- Corresponding replies. -/
def Reply.Rel {E : Type u} {F : Type v} (r : E → F → Prop) : Reply E → Reply F → Prop
  | .answer b, .answer c => b = c
  | .elements l, .elements m => LRel r l m
  | .missing, .missing => True
  | _, _ => False

/-- A program for methods with names in `ι`: in the state `q` of its memory it stops, or it calls a method with the contents of two registers
as operands (or fewer, if the method has fewer), and stores the results from a third register on. -/
structure Client (ι : Type) where
  Q : Type
  act : Q → Option (ι × ℕ × ℕ × ℕ)
  next : Q → Seen → Q

/-- Storing results. -/
def store {E : Type u} (regs : ℕ → E) : ℕ → List E → ℕ → E
  | _, [] => regs
  | k, a :: l => store (fun i => if i = k then a else regs i) (k + 1) l

section

variable {ι : Type} (C : Client ι)

/-- One step over an implementation, `T` being its methods. A panic is either caught, and the program goes on, or it ends the run. -/
def Client.step {E : Type} (T : ι → E → E → Res (Reply E)) (catching : Bool) (c : C.Q × (ℕ → E)) : Res (C.Q × (ℕ → E)) :=
  match C.act c.1 with
  | none => .ok c
  | some (i, a, b, d) =>
    match T i (c.2 a) (c.2 b) with
    | .ok r => .ok (C.next c.1 r.seen, store c.2 d r.list)
    | .panic => if catching then .ok (C.next c.1 .panicked, c.2) else .panic
    | .diverge => .diverge

/-- The first `n` steps. -/
def Client.run {E : Type} (T : ι → E → E → Res (Reply E)) (catching : Bool) : ℕ → C.Q × (ℕ → E) → Res (C.Q × (ℕ → E))
  | 0, c => .ok c
  | n + 1, c => do run T catching n (← C.step T catching c)

/-- One step over the elements themselves, `M` being what the methods mean, and `none` that there is no result. -/
def Client.ideal {R : Type u} (M : ι → R → R → Option (Reply R)) (c : C.Q × (ℕ → R)) : C.Q × (ℕ → R) :=
  match C.act c.1 with
  | none => c
  | some (i, a, b, d) =>
    match M i (c.2 a) (c.2 b) with
    | some r => (C.next c.1 r.seen, store c.2 d r.list)
    | none => (C.next c.1 .panicked, c.2)

/-- The first `n` steps. -/
def Client.idealRun {R : Type u} (M : ι → R → R → Option (Reply R)) : ℕ → C.Q × (ℕ → R) → C.Q × (ℕ → R)
  | 0, c => c
  | n + 1, c => idealRun M n (C.ideal M c)

/-- One step over an implementation with state, panics being caught. -/
def Client.stepState {σ E : Type} (T : ι → E → E → Stateful.St σ (Reply E)) (c : C.Q × (ℕ → E)) :
    Stateful.St σ (C.Q × (ℕ → E)) :=
  match C.act c.1 with
  | none => pure c
  | some (i, a, b, d) => fun s =>
    match T i (c.2 a) (c.2 b) s with
    | .ok r t => .ok (C.next c.1 r.seen, store c.2 d r.list) t
    | .panic t => .ok (C.next c.1 .panicked, c.2) t
    | .diverge => .diverge

/-- The first `n` steps. -/
def Client.runState {σ E : Type} (T : ι → E → E → Stateful.St σ (Reply E)) :
    ℕ → C.Q × (ℕ → E) → Stateful.St σ (C.Q × (ℕ → E))
  | 0, c => pure c
  | n + 1, c => do runState T n (← C.stepState T c)

/-- The same memory and corresponding registers. -/
def Client.Rel {E : Type u} {F : Type v} (r : E → F → Prop) (c : C.Q × (ℕ → E)) (d : C.Q × (ℕ → F)) : Prop :=
  c.1 = d.1 ∧ ∀ i, r (c.2 i) (d.2 i)

end

/-! ## The methods of the traits -/

/-- The methods of `trait UnitaryRing`. -/
inductive RingMethod where
  | contains | equals | mul | mulAssign | square | one | isOne | tryInv | invertible | zero | isZero | add | addAssign | double
  | utimes (n : ℕ) | neg | negAssign | sub | subAssign | times (n : ℤ) | int (n : ℤ)

/-- The methods of `trait Field`. -/
inductive FieldMethod where
  | ring (m : RingMethod) | inv | div | power (n : ℤ)

/-- The methods of `trait EuclideanDomain`. -/
inductive EuclideanMethod where
  | ring (m : RingMethod) | tryDiv | divisible | associates | associateRepr | associateCoef | quoRem | quo | rem | reduced | gcd | lcm
  | extendedGcd | relativePrimes

/-- The methods of `trait Group`. -/
inductive GroupMethod where
  | contains | equals | mul | mulAssign | square | one | isOne | tryInv | invertible | inv | power (n : ℤ)

/-- The methods of `trait BooleanAlgebra`. -/
inductive LatticeMethod where
  | contains | equals | leq | lessThan | comparable | meet | join | max | min | not

/-- The `bool` of a method. -/
def Res.answer {E : Type} (c : Res Bool) : Res (Reply E) := do return .answer (← c)

/-- The element of a method. -/
def Res.element {E : Type} (c : Res E) : Res (Reply E) := do return .elements [← c]

/-- The `Option` of a method. -/
def Res.option {E : Type} (c : Res (Option E)) : Res (Reply E) := do
  match ← c with
  | some e => return .elements [e]
  | none => return .missing

/-- The methods of an object. -/
def RingMethod.table [Cfg] {E : Type} (A : UnitaryRingOps E) : RingMethod → E → E → Res (Reply E)
  | contains, a, _ => (A.contains a).answer
  | equals, a, b => (A.equals a b).answer
  | mul, a, b => (A.mul a b).element
  | mulAssign, a, b => (A.mulAssign a b).element
  | square, a, _ => (A.square a).element
  | one, _, _ => A.one.element
  | isOne, a, _ => (A.isOne a).answer
  | tryInv, a, _ => (A.tryInv a).option
  | invertible, a, _ => (A.invertible a).answer
  | zero, _, _ => A.zero.element
  | isZero, a, _ => (A.isZero a).answer
  | add, a, b => (A.add a b).element
  | addAssign, a, b => (A.addAssign a b).element
  | double, a, _ => (A.double a).element
  | utimes n, a, _ => (A.utimes n a).element
  | neg, a, _ => (A.neg a).element
  | negAssign, a, _ => (A.negAssign a).element
  | sub, a, b => (A.sub a b).element
  | subAssign, a, b => (A.subAssign a b).element
  | times n, a, _ => (A.times n a).element
  | int n, _, _ => (A.int n).element

/-- The methods of an object. -/
def FieldMethod.table [Cfg] {E : Type} (A : FieldOps E) : FieldMethod → E → E → Res (Reply E)
  | ring m, a, b => m.table A.toUnitaryRingOps a b
  | inv, a, _ => (A.inv a).element
  | div, a, b => (A.div a b).element
  | power n, a, _ => (A.power n a).element

/-- The methods of an object. -/
def EuclideanMethod.table [Cfg] {E : Type} (A : EuclideanDomainOps E) : EuclideanMethod → E → E → Res (Reply E)
  | ring m, a, b => m.table A.toUnitaryRingOps a b
  | tryDiv, a, b => (A.tryDiv a b).option
  | divisible, a, b => (A.divisible a b).answer
  | associates, a, b => (A.associates a b).answer
  | associateRepr, a, _ => (A.associateRepr a).element
  | associateCoef, a, _ => (A.associateCoef a).element
  | quoRem, a, b => do
    let p ← A.quoRem a b
    return .elements [p.1, p.2]
  | quo, a, b => (A.quo a b).element
  | rem, a, b => (A.rem a b).element
  | reduced, a, b => (A.reduced a b).answer
  | gcd, a, b => (A.gcd a b).element
  | lcm, a, b => (A.lcm a b).element
  | extendedGcd, a, b => do
    let p ← A.extendedGcd a b
    return .elements [p.1, p.2.1, p.2.2]
  | relativePrimes, a, b => (A.relativePrimes a b).answer

/-- The methods of an object. -/
def GroupMethod.table [Cfg] {E : Type} (A : GroupOps E) : GroupMethod → E → E → Res (Reply E)
  | contains, a, _ => (A.contains a).answer
  | equals, a, b => (A.equals a b).answer
  | mul, a, b => (A.mul a b).element
  | mulAssign, a, b => (A.mulAssign a b).element
  | square, a, _ => (A.square a).element
  | one, _, _ => A.one.element
  | isOne, a, _ => (A.isOne a).answer
  | tryInv, a, _ => (A.tryInv a).option
  | invertible, a, _ => (A.invertible a).answer
  | inv, a, _ => (A.inv a).element
  | power n, a, _ => (A.power n a).element

/-- The methods of an object. -/
def LatticeMethod.table {E : Type} (A : BooleanAlgebraOps E) : LatticeMethod → E → E → Res (Reply E)
  | contains, a, _ => (A.contains a).answer
  | equals, a, b => (A.equals a b).answer
  | leq, a, b => (A.leq a b).answer
  | lessThan, a, b => (A.lessThan a b).answer
  | comparable, a, b => (A.comparable a b).answer
  | meet, a, b => (A.meet a b).element
  | join, a, b => (A.join a b).element
  | max, _, _ => A.max.element
  | min, _, _ => A.min.element
  | not, a, _ => (A.not a).element

/-! ## The same over bases with state -/

/-- The `bool` of a method. -/
def Stateful.St.answer {σ E : Type} (c : Stateful.St σ Bool) : Stateful.St σ (Reply E) := do return .answer (← c)

/-- The element of a method. -/
def Stateful.St.element {σ E : Type} (c : Stateful.St σ E) : Stateful.St σ (Reply E) := do return .elements [← c]

/-- The `Option` of a method. -/
def Stateful.St.option {σ E : Type} (c : Stateful.St σ (Option E)) : Stateful.St σ (Reply E) := do
  match ← c with
  | some e => return .elements [e]
  | none => return .missing

/-- The methods of an object. -/
def RingMethod.tableState [Cfg] {σ E : Type} (A : Stateful.UnitaryRingOps σ E) : RingMethod → E → E → Stateful.St σ (Reply E)
  | contains, a, _ => (A.contains a).answer
  | equals, a, b => (A.equals a b).answer
  | mul, a, b => (A.mul a b).element
  | mulAssign, a, b => (A.mulAssign a b).element
  | square, a, _ => (A.square a).element
  | one, _, _ => A.one.element
  | isOne, a, _ => (A.isOne a).answer
  | tryInv, a, _ => (A.tryInv a).option
  | invertible, a, _ => (A.invertible a).answer
  | zero, _, _ => A.zero.element
  | isZero, a, _ => (A.isZero a).answer
  | add, a, b => (A.add a b).element
  | addAssign, a, b => (A.addAssign a b).element
  | double, a, _ => (A.double a).element
  | utimes n, a, _ => (A.utimes n a).element
  | neg, a, _ => (A.neg a).element
  | negAssign, a, _ => (A.negAssign a).element
  | sub, a, b => (A.sub a b).element
  | subAssign, a, b => (A.subAssign a b).element
  | times n, a, _ => (A.times n a).element
  | int n, _, _ => (A.int n).element

/-- The methods of an object. -/
def FieldMethod.tableState [Cfg] {σ E : Type} (A : Stateful.FieldOps σ E) : FieldMethod → E → E → Stateful.St σ (Reply E)
  | ring m, a, b => m.tableState A.toUnitaryRingOps a b
  | inv, a, _ => (A.inv a).element
  | div, a, b => (A.div a b).element
  | power n, a, _ => (A.power n a).element

/-- The methods of an object. -/
def EuclideanMethod.tableState [Cfg] {σ E : Type} (A : Stateful.EuclideanDomainOps σ E) : EuclideanMethod → E → E → Stateful.St σ (Reply E)
  | ring m, a, b => m.tableState A.toUnitaryRingOps a b
  | tryDiv, a, b => (A.tryDiv a b).option
  | divisible, a, b => (A.divisible a b).answer
  | associates, a, b => (A.associates a b).answer
  | associateRepr, a, _ => (A.associateRepr a).element
  | associateCoef, a, _ => (A.associateCoef a).element
  | quoRem, a, b => do
    let p ← A.quoRem a b
    return .elements [p.1, p.2]
  | quo, a, b => (A.quo a b).element
  | rem, a, b => (A.rem a b).element
  | reduced, a, b => (A.reduced a b).answer
  | gcd, a, b => (A.gcd a b).element
  | lcm, a, b => (A.lcm a b).element
  | extendedGcd, a, b => do
    let p ← A.extendedGcd a b
    return .elements [p.1, p.2.1, p.2.2]
  | relativePrimes, a, b => (A.relativePrimes a b).answer

/-- The methods of an object. -/
def GroupMethod.tableState [Cfg] {σ E : Type} (A : Stateful.GroupOps σ E) : GroupMethod → E → E → Stateful.St σ (Reply E)
  | contains, a, _ => (A.contains a).answer
  | equals, a, b => (A.equals a b).answer
  | mul, a, b => (A.mul a b).element
  | mulAssign, a, b => (A.mulAssign a b).element
  | square, a, _ => (A.square a).element
  | one, _, _ => A.one.element
  | isOne, a, _ => (A.isOne a).answer
  | tryInv, a, _ => (A.tryInv a).option
  | invertible, a, _ => (A.invertible a).answer
  | inv, a, _ => (A.inv a).element
  | power n, a, _ => (A.power n a).element

/-- The methods of an object. -/
def LatticeMethod.tableState {σ E : Type} (A : Stateful.BooleanAlgebraOps σ E) : LatticeMethod → E → E → Stateful.St σ (Reply E)
  | contains, a, _ => (A.contains a).answer
  | equals, a, b => (A.equals a b).answer
  | leq, a, b => (A.leq a b).answer
  | lessThan, a, b => (A.lessThan a b).answer
  | comparable, a, b => (A.comparable a b).answer
  | meet, a, b => (A.meet a b).element
  | join, a, b => (A.join a b).element
  | max, _, _ => A.max.element
  | min, _, _ => A.min.element
  | not, a, _ => (A.not a).element

/-! ## What the methods mean -/

open Classical in
/-- A truth value. -/
noncomputable def holds {R : Type u} (p : Prop) : Option (Reply R) := some (.answer (decide p))

/-- An element. -/
def element {R : Type u} (x : R) : Option (Reply R) := some (.elements [x])

open Classical in
/-- The methods of a ring. -/
noncomputable def RingMethod.meaning {R : Type u} [Ring R] : RingMethod → R → R → Option (Reply R)
  | contains, _, _ => holds True
  | equals, x, y => holds (x = y)
  | mul, x, y | mulAssign, x, y => element (x * y)
  | square, x, _ => element (x * x)
  | one, _, _ => element 1
  | isOne, x, _ => holds (x = 1)
  | tryInv, x, _ => if IsUnit x then element (Ring.inverse x) else some .missing
  | invertible, x, _ => holds (IsUnit x)
  | zero, _, _ => element 0
  | isZero, x, _ => holds (x = 0)
  | add, x, y | addAssign, x, y => element (x + y)
  | double, x, _ => element (x + x)
  | utimes n, x, _ => element (n • x)
  | neg, x, _ | negAssign, x, _ => element (-x)
  | sub, x, y | subAssign, x, y => element (x - y)
  | times n, x, _ => element (n • x)
  | int n, _, _ => element (n : R)

open Classical in
/-- The methods of a field: there is no inverse of zero, and powers of zero are zero. -/
noncomputable def FieldMethod.meaning {R : Type u} [Field R] : FieldMethod → R → R → Option (Reply R)
  | ring m, x, y => m.meaning x y
  | inv, x, _ => if x = 0 then none else element x⁻¹
  | div, x, y => if y = 0 then none else element (x / y)
  | power n, x, _ => element (if x = 0 then 0 else x ^ n)

/-- The methods of a group. -/
noncomputable def GroupMethod.meaning {R : Type u} [Group R] : GroupMethod → R → R → Option (Reply R)
  | contains, _, _ | invertible, _, _ => holds True
  | equals, x, y => holds (x = y)
  | mul, x, y | mulAssign, x, y => element (x * y)
  | square, x, _ => element (x * x)
  | one, _, _ => element 1
  | isOne, x, _ => holds (x = 1)
  | tryInv, x, _ | inv, x, _ => element x⁻¹
  | power n, x, _ => element (x ^ n)

/-- The methods of a boolean algebra. -/
noncomputable def LatticeMethod.meaning {R : Type u} [BooleanAlgebra R] : LatticeMethod → R → R → Option (Reply R)
  | contains, _, _ => holds True
  | equals, x, y => holds (x = y)
  | leq, x, y => holds (x ≤ y)
  | lessThan, x, y => holds (x < y)
  | comparable, x, y => holds (x ≤ y ∨ y ≤ x)
  | meet, x, y => element (x ⊓ y)
  | join, x, y => element (x ⊔ y)
  | max, _, _ => element ⊤
  | min, _, _ => element ⊥
  | not, x, _ => element xᶜ

/-- No multiplier is `isize::MIN` (C09). -/
def RingMethod.Fits [Cfg] : RingMethod → Prop
  | times n | int n => n ≠ isizeMin
  | _ => True

/-- No multiplier or exponent is `isize::MIN`. -/
def FieldMethod.Fits [Cfg] : FieldMethod → Prop
  | ring m => m.Fits
  | power n => n ≠ isizeMin
  | _ => True

/-- No exponent is `isize::MIN`. -/
def GroupMethod.Fits [Cfg] : GroupMethod → Prop
  | power n => n ≠ isizeMin
  | _ => True

/-- The client calls only such methods. -/
def Client.Only {ι : Type} (C : Client ι) (P : ι → Prop) : Prop := ∀ q i a b d, C.act q = some (i, a, b, d) → P i

/-- `T` computes what `M` says, on objects that stand for elements; where `M` says nothing, it panics. -/
def Computes {ι E : Type} {R : Type u} (mp : Prop) (P : ι → Prop) (rep : E → R → Prop) (T : ι → E → E → Res (Reply E))
    (M : ι → R → R → Option (Reply R)) : Prop :=
  ∀ i, P i → ∀ a b x y, rep a x → rep b y →
    match M i x y with
    | some r => Returns mp (T i a b) (Reply.Rel rep · r)
    | none => T i a b = .panic

end Abstalg
