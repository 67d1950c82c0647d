import Verif.Model.Stateful
import Verif.Model.CountedResidues
import Verif.Spec.Simulation

/-! # Specification: the cost of the calls of a base with state

The methods of the base leave a trace in its state: a counter goes up, a clock advances. An *account* says what
given numbers of calls can do to the state. A computation over the base is *charged* as a counted one if, begun in
any state with `I`, it has the corresponding outcome, and the change of the state is one that the account allows for the calls
that the counted computation makes, until the panic if there is one. -/

set_option autoImplicit false

namespace Abstalg

namespace Call

/-- All methods. -/
def all : List Call :=
  [.equals, .zero, .isZero, .add, .addAssign, .double, .neg, .sub, .one, .int, .mul, .mulAssign, .square, .inv, .div, .tryDiv, .tryInv]

/-- The sum over all methods. -/
def total (f : Call → Nat) : Nat := (all.map f).sum

end Call

/-- The changes of the state that the given numbers of calls can make. -/
structure Account (σ : Type) where
  rel : (Call → Nat) → σ → σ → Prop
  rest : ∀ s, rel (fun _ => 0) s s
  join : ∀ {k m s t u}, rel k s t → rel m t u → rel (fun c => k c + m c) s u

/-- A counter for each method. -/
def Account.counters : Account (Call → Nat) where
  rel := fun k s t => ∀ c, t c = s c + k c
  rest := fun _ _ => rfl
  join := fun h h' c => by rw [h', h, Nat.add_assoc]

theorem Call.total_zero : total (fun _ => 0) = 0 := rfl

theorem Call.total_add (w k m : Call → Nat) :
    total (fun c => w c * (k c + m c)) = total (fun c => w c * k c) + total fun c => w c * m c := by
  unfold total
  induction all with
  | nil => rfl
  | cons c l ih =>
    simp only [List.map_cons, List.sum_cons, Nat.mul_add] at ih ⊢
    omega

/-- A clock `μ` of the state, if a call of a method `c` takes at least `lo c` and at most `hi c`. -/
def Account.clock {σ : Type} (μ : σ → Nat) (lo hi : Call → Nat) : Account σ where
  rel := fun k s t => μ s + Call.total (fun c => lo c * k c) ≤ μ t ∧ μ t ≤ μ s + Call.total fun c => hi c * k c
  rest := fun s => by simp only [Nat.mul_zero, Call.total_zero]; omega
  join := fun h h' => by
    simp only [Call.total_add]
    omega

/-- The numbers of calls of an inner base, if a call of a method `e` of the outer one makes at most `cost e c` calls of
the method `c` of the inner one. -/
def compose (k : Call → Nat) (cost : Call → Call → Nat) (c : Call) : Nat := Call.total fun e => cost e c * k e

/-- Calls of the outer base, charged to the state of the inner one. -/
def Account.over {σ : Type} (acc : Account σ) (cost : Call → Call → Nat) : Account σ where
  rel := fun k s t => ∃ m, (∀ c, m c ≤ compose k cost c) ∧ acc.rel m s t
  rest := fun s => ⟨fun _ => 0, fun _ => Nat.zero_le _, acc.rest s⟩
  join := fun ⟨m, h, h'⟩ ⟨m', g, g'⟩ => ⟨fun c => m c + m' c, fun c => by
    have := Call.total_add (fun e => cost e c)
    unfold compose at h g ⊢
    rw [this]
    exact Nat.add_le_add (h c) (g c), acc.join h' g'⟩

namespace Stateful

/-- The outcome of a computation with state begun in `s` is that of the counted one, and its change of the state is
allowed for the calls of that one. -/
def Out.Bills {σ α β : Type} (acc : Account σ) (I : σ → Prop) (r : α → β → Prop) (s : σ) : Out σ α → Res β → (Call → Nat) → Prop
  | .ok a t, .ok b, k => r a b ∧ I t ∧ acc.rel k s t
  | .panic t, .panic, k => I t ∧ acc.rel k s t
  | .diverge, .diverge, _ => True
  | _, _, _ => False

/-- From every state with `I` the first computation does what the second does, and is charged for its calls. -/
def Charges {σ α β : Type} (acc : Account σ) (I : σ → Prop) (r : α → β → Prop) (x : St σ α) (y : Counted β) : Prop :=
  ∀ s, I s → (x s).Bills acc I r s y.res y.calls

open Counted (call)

variable {σ E F : Type} [Cfg] (acc : Account σ) (I : σ → Prop) (r : E → F → Prop)

/-- The counted methods of `trait CommuntativeMonoid`. -/
structure ChargesCommutativeMonoid (A : CommutativeMonoidOps σ E) (B : Abstalg.CommutativeMonoidOps F) : Prop where
  equals : ∀ {a b a' b'}, r a a' → r b b' → Charges acc I Eq (A.equals a b) (call .equals (B.equals a' b'))
  zero : Charges acc I r A.zero (call .zero B.zero)
  isZero : ∀ {a a'}, r a a' → Charges acc I Eq (A.isZero a) (call .isZero (B.isZero a'))
  add : ∀ {a b a' b'}, r a a' → r b b' → Charges acc I r (A.add a b) (call .add (B.add a' b'))
  addAssign : ∀ {a b a' b'}, r a a' → r b b' → Charges acc I r (A.addAssign a b) (call .addAssign (B.addAssign a' b'))
  double : ∀ {a a'}, r a a' → Charges acc I r (A.double a) (call .double (B.double a'))

/-- The counted methods of `trait Group`. -/
structure ChargesGroup (A : GroupOps σ E) (B : Abstalg.GroupOps F) : Prop where
  one : Charges acc I r A.one (call .one B.one)
  mulAssign : ∀ {a b a' b'}, r a a' → r b b' → Charges acc I r (A.mulAssign a b) (call .mulAssign (B.mulAssign a' b'))
  square : ∀ {a a'}, r a a' → Charges acc I r (A.square a) (call .square (B.square a'))
  inv : ∀ {a a'}, r a a' → Charges acc I r (A.inv a) (call .inv (B.inv a'))

/-- The counted methods of `trait AbelianGroup`. -/
structure ChargesAbelianGroup (A : AbelianGroupOps σ E) (B : Abstalg.AbelianGroupOps F) : Prop
    extends ChargesCommutativeMonoid acc I r A.toCommutativeMonoidOps B.toCommutativeMonoidOps where
  neg : ∀ {a a'}, r a a' → Charges acc I r (A.neg a) (call .neg (B.neg a'))
  sub : ∀ {a b a' b'}, r a a' → r b b' → Charges acc I r (A.sub a b) (call .sub (B.sub a' b'))

/-- The counted methods of `trait UnitaryRing`. -/
structure ChargesUnitaryRing (A : UnitaryRingOps σ E) (B : Abstalg.UnitaryRingOps F) : Prop
    extends ChargesAbelianGroup acc I r A.toAbelianGroupOps B.toAbelianGroupOps where
  one : Charges acc I r A.one (call .one B.one)
  intOne : Charges acc I r (A.int 1) (call .int (B.int 1))
  mul : ∀ {a b a' b'}, r a a' → r b b' → Charges acc I r (A.mul a b) (call .mul (B.mul a' b'))
  mulAssign : ∀ {a b a' b'}, r a a' → r b b' → Charges acc I r (A.mulAssign a b) (call .mulAssign (B.mulAssign a' b'))
  square : ∀ {a a'}, r a a' → Charges acc I r (A.square a) (call .square (B.square a'))
  tryInv : ∀ {a a'}, r a a' → Charges acc I (Option.Rel r) (A.tryInv a) (call .tryInv (B.tryInv a'))

/-- The counted methods of `trait IntegralDomain`. -/
structure ChargesIntegralDomain (A : IntegralDomainOps σ E) (B : Abstalg.IntegralDomainOps F) : Prop
    extends ChargesUnitaryRing acc I r A.toUnitaryRingOps B.toUnitaryRingOps where
  tryDiv : ∀ {a b a' b'}, r a a' → r b b' → Charges acc I (Option.Rel r) (A.tryDiv a b) (call .tryDiv (B.tryDiv a' b'))

/-- The counted methods of `trait Field`. -/
structure ChargesField (A : FieldOps σ E) (B : Abstalg.FieldOps F) : Prop
    extends ChargesUnitaryRing acc I r A.toUnitaryRingOps B.toUnitaryRingOps where
  inv : ∀ {a a'}, r a a' → Charges acc I r (A.inv a) (call .inv (B.inv a'))
  div : ∀ {a b a' b'}, r a a' → r b b' → Charges acc I r (A.div a b) (call .div (B.div a' b'))

/-- Lists of elements in relation, of length at most `d`. -/
def ShortRel {E F : Type} (r : E → F → Prop) (d : Nat) (v : List E) (w : List F) : Prop := LRel r v w ∧ w.length ≤ d

/-! ## A base that counts -/

/-- An outcome without state, and a state. -/
def Out.of {σ α : Type} : Res α → σ → Out σ α
  | .ok a, s => .ok a s
  | .panic, s => .panic s
  | .diverge, _ => .diverge

/-- A call of a method that adds one to its counter. -/
def tick {α : Type} (c : Call) (y : Res α) : St (Call → Nat) α := fun s => .of y fun d => if d = c then s d + 1 else s d

/-- A monoid with a counter for each method. -/
def meteredMonoid (B : Abstalg.CommutativeMonoidOps E) : CommutativeMonoidOps (Call → Nat) E where
  contains := fun a => St.lift (B.contains a)
  equals := fun a b => tick .equals (B.equals a b)
  zero := tick .zero B.zero
  isZero := fun a => tick .isZero (B.isZero a)
  add := fun a b => tick .add (B.add a b)
  addAssign := fun a b => tick .addAssign (B.addAssign a b)
  double := fun a => tick .double (B.double a)
  utimes := fun n a => St.lift (B.utimes n a)

/-- An abelian group with a counter for each method. -/
def meteredAbelianGroup (B : Abstalg.AbelianGroupOps E) : AbelianGroupOps (Call → Nat) E where
  toCommutativeMonoidOps := meteredMonoid B.toCommutativeMonoidOps
  neg := fun a => tick .neg (B.neg a)
  negAssign := fun a => St.lift (B.negAssign a)
  sub := fun a b => tick .sub (B.sub a b)
  subAssign := fun a b => St.lift (B.subAssign a b)
  times := fun n a => St.lift (B.times n a)

/-- A ring with a counter for each method. -/
def meteredRing (B : Abstalg.UnitaryRingOps E) : UnitaryRingOps (Call → Nat) E where
  toAbelianGroupOps := meteredAbelianGroup B.toAbelianGroupOps
  mul := fun a b => tick .mul (B.mul a b)
  mulAssign := fun a b => tick .mulAssign (B.mulAssign a b)
  square := fun a => tick .square (B.square a)
  one := tick .one B.one
  isOne := fun a => St.lift (B.isOne a)
  tryInv := fun a => tick .tryInv (B.tryInv a)
  invertible := fun a => St.lift (B.invertible a)
  int := fun n => tick .int (B.int n)

/-- An integral domain with a counter for each method. -/
def meteredDomain (B : Abstalg.IntegralDomainOps E) : IntegralDomainOps (Call → Nat) E where
  toUnitaryRingOps := meteredRing B.toUnitaryRingOps
  tryDiv := fun a b => tick .tryDiv (B.tryDiv a b)
  divisible := fun a b => St.lift (B.divisible a b)
  associates := fun a b => St.lift (B.associates a b)
  associateRepr := fun a => St.lift (B.associateRepr a)
  associateCoef := fun a => St.lift (B.associateCoef a)

/-- A field with a counter for each method. -/
def meteredField (B : Abstalg.FieldOps E) : FieldOps (Call → Nat) E where
  toUnitaryRingOps := meteredRing B.toUnitaryRingOps
  inv := fun a => tick .inv (B.inv a)
  div := fun a b => tick .div (B.div a b)
  power := fun n a => St.lift (B.power n a)

/-- A group with a counter for each method. -/
def meteredGroup (B : Abstalg.GroupOps E) : GroupOps (Call → Nat) E where
  contains := fun a => St.lift (B.contains a)
  equals := fun a b => tick .equals (B.equals a b)
  mul := fun a b => tick .mul (B.mul a b)
  mulAssign := fun a b => tick .mulAssign (B.mulAssign a b)
  square := fun a => tick .square (B.square a)
  one := tick .one B.one
  isOne := fun a => St.lift (B.isOne a)
  tryInv := fun a => tick .tryInv (B.tryInv a)
  invertible := fun a => St.lift (B.invertible a)
  inv := fun a => tick .inv (B.inv a)
  power := fun n a => St.lift (B.power n a)

/-- Begun with any counters, the computation has the outcome of the counted one and adds the calls of it to the counters. -/
def Observes {α : Type} (x : St (Call → Nat) α) (y : Counted α) : Prop :=
  ∀ s, x s = .of y.res fun c => s c + y.calls c

/-- Begun with any counters, the computation has the outcome `y` and adds no more than `k` to the counters. -/
def Spends {α : Type} (x : St (Call → Nat) α) (y : Res α) (k : Call → Nat) : Prop :=
  ∀ s, ∃ m : Call → Nat, (∀ c, m c ≤ k c) ∧ x s = .of y fun c => s c + m c

/-- Begun in a state with `I`, the computation has the corresponding outcome. If it returns, then after at least `a` and at most `b`
by the clock `μ`; if it panics, then after at most `b`. -/
def Elapses {α β : Type} (μ : σ → Nat) (I : σ → Prop) (r : α → β → Prop) (x : St σ α) (y : Res β) (a b : Nat) : Prop :=
  ∀ s, I s → match x s, y with
    | .ok u t, .ok u' => r u u' ∧ I t ∧ μ s + a ≤ μ t ∧ μ t ≤ μ s + b
    | .panic t, .panic => I t ∧ μ s ≤ μ t ∧ μ t ≤ μ s + b
    | .diverge, .diverge => True
    | _, _ => False

end Stateful

end Abstalg
