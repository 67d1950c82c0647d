import Verif.Proofs.Lawless
import Verif.Model.StatefulVectors

/-! # Yielding through vectors -/

set_option linter.unusedSectionVars false

set_option autoImplicit false

namespace Abstalg.Stateful

variable {σ E : Type} {T : Limits σ} {S U : E → Prop} {len : ℕ}

theorem Vec.lenIs {v : List E} (h : Vec S len v) : Abstalg.VectorAlgebra.lenIs len v = true := by
  unfold Abstalg.VectorAlgebra.lenIs; rw [h.1]; exact beq_self_eq_true _

theorem Vec.diagonal {a : E} (h : S a) : Vec S len (Abstalg.VectorAlgebra.diagonal len a) := by
  unfold Abstalg.VectorAlgebra.diagonal; exact Vec.replicate len h

theorem Vec.zip {v w : List E} (hv : Vec S len v) (hw : Vec S len w) : Vec (fun p => S p.1 ∧ S p.2) len (v.zip w) :=
  ⟨by rw [List.length_zip, hv.1, hw.1, Nat.min_self], fun _ hp =>
    ⟨hv.2 _ (List.of_mem_zip hp).1, hw.2 _ (List.of_mem_zip hp).2⟩⟩

theorem yields_zipMap {f : E → E → St σ E} (hf : ∀ {a b}, S a → S b → Yields T S (f a b)) {v w : List E}
    (hv : Vec S len v) (hw : Vec S len w) : Yields T (Vec S len) (VectorAlgebra.zipMap len f v w) := by
  refine Yields.bind (Yields.assert (by rw [hv.lenIs, hw.lenIs]; rfl)) fun _ _ => ?_
  have := yields_mapRes (T := T) (R := S) (v := v.zip w) (f := fun p => f p.1 p.2) fun p hp =>
    hf ((hv.zip hw).2 p hp).1 ((hv.zip hw).2 p hp).2
  rwa [(hv.zip hw).1] at this

theorem yields_zipAll {f : E → E → St σ Bool} (hf : ∀ {a b}, S a → S b → Answers T (f a b)) {v w : List E}
    (hv : Vec S len v) (hw : Vec S len w) : Answers T (VectorAlgebra.zipAll len f v w) :=
  Yields.bind (Yields.assert (by rw [hv.lenIs, hw.lenIs]; rfl)) fun _ _ =>
    yields_allRes fun p hp => hf ((hv.zip hw).2 p hp).1 ((hv.zip hw).2 p hp).2

theorem yields_zipEach {f : E → E → St σ E} (hf : ∀ {a b}, S a → S b → Yields T S (f a b)) {v w : List E}
    (hv : Vec S len v) (hw : Vec S len w) : Yields T (Vec S len) (VectorAlgebra.zipEach len f v w) := by
  refine Yields.bind (Yields.assert (by rw [hv.lenIs, hw.lenIs]; rfl)) fun _ _ => ?_
  have := yields_zipForEach (T := T) (Q := S) hf hv.2 hw.2
  rwa [hv.1] at this

theorem yields_mapEach {f : E → St σ E} (hf : ∀ {a}, S a → Yields T S (f a)) {v : List E}
    (hv : Vec S len v) : Yields T (Vec S len) (VectorAlgebra.mapEach len f v) := by
  refine Yields.bind (Yields.assert hv.lenIs) fun _ _ => ?_
  have := yields_mapRes (T := T) (R := S) (v := v) (f := f) fun a ha => hf (hv.2 a ha)
  rwa [hv.1] at this

theorem yields_allEach {f : E → St σ Bool} (hf : ∀ {a}, S a → Answers T (f a)) {v : List E}
    (hv : Vec S len v) : Answers T (VectorAlgebra.allEach len f v) :=
  Yields.bind (Yields.assert hv.lenIs) fun _ _ => yields_allRes fun a ha => hf (hv.2 a ha)

theorem KeepsDomain.vector {A : DomainOps σ E} (h : KeepsDomain T S A) (len : ℕ) :
    KeepsDomain T (Vec S len) (VectorAlgebra.domain len A) where
  contains := fun hv => .ite (fun _ => .ok trivial) fun _ => yields_allRes fun a ha => h.contains (hv.2 a ha)
  equals := yields_zipAll h.equals

theorem KeepsSemigroup.vector {A : SemigroupOps σ E} (h : KeepsSemigroup T S A) (len : ℕ) :
    KeepsSemigroup T (Vec S len) (VectorAlgebra.semigroup len A) where
  toKeepsDomain := h.toKeepsDomain.vector len
  mul := yields_zipMap h.mul
  mulAssign := yields_zipEach h.mulAssign
  square := yields_mapEach h.square

theorem yields_tryInvLoop {f : E → St σ (Option E)} (hf : ∀ {a}, S a → Yields T (Maybe S) (f a)) {v w : List E}
    (hv : Each S v) (hw : Each S w) :
    Yields T (Maybe (Vec S (w.length + v.length))) (VectorAlgebra.tryInvLoop f v w) := by
  induction v generalizing w with
  | nil => exact .ok (Maybe.some ⟨by rw [List.length_nil, Nat.add_zero], hw⟩)
  | cons a v ih =>
    refine Yields.bind (hf (hv a List.mem_cons_self)) fun o ho => ?_
    cases o with
    | none => exact .ok Maybe.none
    | some b =>
      have := ih (fun c hc => hv c (List.mem_cons_of_mem _ hc)) (hw.append (Each.single (ho b rfl)))
      rw [List.length_append, List.length_singleton] at this
      rw [List.length_cons, Nat.add_comm v.length 1, ← Nat.add_assoc]
      exact this

theorem KeepsMonoid.vector {A : MonoidOps σ E} (h : KeepsMonoid T S A) (len : ℕ) :
    KeepsMonoid T (Vec S len) (VectorAlgebra.monoid len A) where
  toKeepsSemigroup := h.toKeepsSemigroup.vector len
  one := Yields.bind h.one fun _ h1 => .ok (Vec.diagonal h1)
  isOne := yields_allEach h.isOne
  tryInv := fun {v} hv => Yields.bind (Yields.assert hv.lenIs) fun _ _ => by
    have := yields_tryInvLoop h.tryInv hv.2 (Each.nil (Q := S))
    rw [List.length_nil, Nat.zero_add, hv.1] at this
    exact this
  invertible := yields_allEach h.invertible

theorem KeepsGroup.vector [Cfg] {A : GroupOps σ E} (h : KeepsGroup T S A) (len : ℕ) :
    KeepsGroup T (Vec S len) (VectorAlgebra.group len A) :=
  have hm := h.toKeepsMonoid.vector len
  { toKeepsMonoid := hm
    inv := yields_mapEach h.inv
    power := fun hn hv => yields_powerDefault hm.one hm.mulAssign hm.square hn (yields_mapEach h.inv hv) hv }

theorem KeepsCommutativeMonoid.vector {A : CommutativeMonoidOps σ E} (h : KeepsCommutativeMonoid T S A) (len : ℕ) :
    KeepsCommutativeMonoid T (Vec S len) (VectorAlgebra.commutativeMonoid len A) where
  toKeepsDomain := h.toKeepsDomain.vector len
  zero := Yields.bind h.zero fun _ h0 => .ok (Vec.diagonal h0)
  isZero := yields_allEach h.isZero
  add := yields_zipMap h.add
  addAssign := yields_zipEach h.addAssign
  double := yields_mapEach h.double
  utimes := fun hv => yields_utimes (Yields.bind h.zero fun _ h0 => .ok (Vec.diagonal h0)) (yields_zipEach h.addAssign)
    (yields_mapEach h.double) _ hv

theorem KeepsAbelianGroup.vector [Cfg] {A : AbelianGroupOps σ E} (h : KeepsAbelianGroup T S A) (len : ℕ) :
    KeepsAbelianGroup T (Vec S len) (VectorAlgebra.abelianGroup len A) :=
  have hm := h.toKeepsCommutativeMonoid.vector len
  { toKeepsCommutativeMonoid := hm
    neg := yields_mapEach h.neg
    negAssign := yields_mapEach h.negAssign
    sub := yields_zipMap h.sub
    subAssign := yields_zipEach h.subAssign
    times := fun hn hv => yields_powerDefault hm.zero hm.addAssign hm.double hn (yields_mapEach h.neg hv) hv }

theorem KeepsSemiRing.vector {A : SemiRingOps σ E} (h : KeepsSemiRing T S A) (len : ℕ) :
    KeepsSemiRing T (Vec S len) (VectorAlgebra.semiRing len A) :=
  { h.toKeepsCommutativeMonoid.vector len, h.toKeepsMonoid.vector len with }

theorem KeepsUnitaryRing.vector [Cfg] {A : UnitaryRingOps σ E} (h : KeepsUnitaryRing T S A) (len : ℕ) :
    KeepsUnitaryRing T (Vec S len) (VectorAlgebra.unitaryRing len A) :=
  { h.toKeepsSemiRing.vector len, h.toKeepsAbelianGroup.vector len with
    int := fun hn => Yields.bind (h.int hn) fun _ h1 => .ok (Vec.diagonal h1) }

theorem yields_lessThan {A : DomainOps σ E} (h : KeepsDomain T S A) {leq : E → E → St σ Bool}
    (hl : ∀ {a b}, S a → S b → Answers T (leq a b)) {a b : E} (ha : S a) (hb : S b) :
    Answers T (do if !(← A.equals a b) then leq a b else return false) :=
  Yields.bind (h.equals ha hb) fun _ _ => .ite (fun _ => hl ha hb) fun _ => .ok trivial

theorem yields_comparable {leq : E → E → St σ Bool}
    (hl : ∀ {a b}, S a → S b → Answers T (leq a b)) {a b : E} (ha : S a) (hb : S b) :
    Answers T (do if ← leq a b then return true else leq b a) :=
  Yields.bind (hl ha hb) fun _ _ => .ite (fun _ => .ok trivial) fun _ => hl hb ha

theorem KeepsPartialOrder.vector {A : PartialOrderOps σ E} (h : KeepsPartialOrder T S A) (len : ℕ) :
    KeepsPartialOrder T (Vec S len) (VectorAlgebra.partialOrder len A) where
  toKeepsDomain := h.toKeepsDomain.vector len
  leq := yields_zipAll h.leq
  lessThan := yields_lessThan (S := Vec S len) (h.toKeepsDomain.vector len) (leq := VectorAlgebra.zipAll len A.leq)
    (yields_zipAll h.leq)
  comparable := yields_comparable (S := Vec S len) (leq := VectorAlgebra.zipAll len A.leq) (yields_zipAll h.leq)

theorem KeepsBoundedOrder.vector {A : BoundedOrderOps σ E} (h : KeepsBoundedOrder T S A) (len : ℕ) :
    KeepsBoundedOrder T (Vec S len) (VectorAlgebra.boundedOrder len A) where
  toKeepsPartialOrder := h.toKeepsPartialOrder.vector len
  max := Yields.bind h.max fun _ h0 => .ok (Vec.diagonal h0)
  min := Yields.bind h.min fun _ h0 => .ok (Vec.diagonal h0)

theorem KeepsLattice.vector {A : LatticeOps σ E} (h : KeepsLattice T S A) (len : ℕ) :
    KeepsLattice T (Vec S len) (VectorAlgebra.lattice len A) where
  toKeepsPartialOrder := h.toKeepsPartialOrder.vector len
  meet := yields_zipMap h.meet
  join := yields_zipMap h.join

theorem KeepsBooleanAlgebra.vector {A : BooleanAlgebraOps σ E} (h : KeepsBooleanAlgebra T S A) (len : ℕ) :
    KeepsBooleanAlgebra T (Vec S len) (VectorAlgebra.booleanAlgebra len A) :=
  { h.toKeepsLattice.vector len, h.toKeepsBoundedOrder.vector len with not := yields_mapEach h.not }

end Abstalg.Stateful
