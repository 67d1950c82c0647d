import Verif.Proofs.SimTraits
import Verif.Model.VectorAlgebra

/-! # Following through vectors -/

set_option linter.unusedSectionVars false

set_option autoImplicit false

namespace Abstalg

variable {c₁ c₂ : Cfg} {E F : Type} {r : E → F → Prop} (len : ℕ)

namespace VectorAlgebra

variable {v w : List E} {v' w' : List F}

theorem follows_lenIs (h : LRel r v v') : Follows Eq (Res.assert (lenIs len v)) (Res.assert (lenIs len v')) :=
  Follows.assert (by unfold lenIs; rw [h.length_eq])

theorem follows_lenIs2 (h : LRel r v v') (h' : LRel r w w') :
    Follows Eq (Res.assert (lenIs len v && lenIs len w)) (Res.assert (lenIs len v' && lenIs len w')) :=
  Follows.assert (by unfold lenIs; rw [h.length_eq, h'.length_eq])

theorem follows_zipMap {f : E → E → Res E} {g : F → F → Res F}
    (hfg : ∀ {a b a' b'}, r a a' → r b b' → Follows r (f a b) (g a' b')) (h : LRel r v v')
    (h' : LRel r w w') : Follows (LRel r) (zipMap len f v w) (zipMap len g v' w') :=
  Follows.bind (follows_lenIs2 len h h') fun _ _ _ => (h.zip h').mapRes fun h => hfg h.1 h.2

theorem follows_zipAll {f : E → E → Res Bool} {g : F → F → Res Bool}
    (hfg : ∀ {a b a' b'}, r a a' → r b b' → Follows Eq (f a b) (g a' b')) (h : LRel r v v')
    (h' : LRel r w w') : Follows Eq (zipAll len f v w) (zipAll len g v' w') :=
  Follows.bind (follows_lenIs2 len h h') fun _ _ _ => (h.zip h').allRes fun h => hfg h.1 h.2

theorem follows_zipEach {f : E → E → Res E} {g : F → F → Res F}
    (hfg : ∀ {a b a' b'}, r a a' → r b b' → Follows r (f a b) (g a' b')) (h : LRel r v v')
    (h' : LRel r w w') : Follows (LRel r) (zipEach len f v w) (zipEach len g v' w') :=
  Follows.bind (follows_lenIs2 len h h') fun _ _ _ => h.zipForEach h' fun h h' => hfg h h'

theorem follows_mapEach {f : E → Res E} {g : F → Res F}
    (hfg : ∀ {a a'}, r a a' → Follows r (f a) (g a')) (h : LRel r v v') :
    Follows (LRel r) (mapEach len f v) (mapEach len g v') :=
  Follows.bind (follows_lenIs len h) fun _ _ _ => h.mapRes fun h => hfg h

theorem follows_allEach {f : E → Res Bool} {g : F → Res Bool}
    (hfg : ∀ {a a'}, r a a' → Follows Eq (f a) (g a')) (h : LRel r v v') :
    Follows Eq (allEach len f v) (allEach len g v') :=
  Follows.bind (follows_lenIs len h) fun _ _ _ => h.allRes fun h => hfg h

theorem follows_diagonal {c : Res E} {d : Res F} (h : Follows r c d) :
    Follows (LRel r) (do return diagonal len (← c)) (do return diagonal len (← d)) :=
  Follows.bind h fun _ _ h => .ok (LRel.replicate len h)

theorem follows_tryInvLoop {f : E → Res (Option E)} {g : F → Res (Option F)}
    (hfg : ∀ {a a'}, r a a' → Follows (Option.Rel r) (f a) (g a')) (h : LRel r v v') :
    ∀ {w w'}, LRel r w w' → Follows (Option.Rel (LRel r)) (tryInvLoop f v w) (tryInvLoop g v' w') := by
  induction h with
  | nil => exact fun h' => .ok (.some h')
  | cons hab _ ih =>
    intro w w' h'
    refine Follows.bind (hfg hab) fun o o' ho => ?_
    cases ho with
    | none => exact .ok .none
    | some ho => exact ih (h'.append (.cons ho .nil))

end VectorAlgebra

open VectorAlgebra

theorem FollowsDomain.vector {A : DomainOps E} {B : DomainOps F} (h : FollowsDomain r A B) :
    FollowsDomain (LRel r) (VectorAlgebra.domain len A) (VectorAlgebra.domain len B) where
  contains := fun {a a'} ha => by
    show Follows Eq (if (a.length != len) = true then _ else _) (if (a'.length != len) = true then _ else _)
    rw [List.Forall₂.length_eq ha]
    exact Follows.same (.ok rfl) (LRel.allRes ha fun h' => h.contains h')
  equals := follows_zipAll (r := r) len h.equals

theorem FollowsSemigroup.vector {A : SemigroupOps E} {B : SemigroupOps F} (h : FollowsSemigroup r A B) :
    FollowsSemigroup (LRel r) (VectorAlgebra.semigroup len A) (VectorAlgebra.semigroup len B) where
  toFollowsDomain := h.toFollowsDomain.vector len
  mul := follows_zipMap (r := r) len h.mul
  mulAssign := follows_zipEach (r := r) len h.mulAssign
  square := follows_mapEach (r := r) len h.square

theorem FollowsMonoid.vector {A : MonoidOps E} {B : MonoidOps F} (h : FollowsMonoid r A B) :
    FollowsMonoid (LRel r) (VectorAlgebra.monoid len A) (VectorAlgebra.monoid len B) where
  toFollowsSemigroup := h.toFollowsSemigroup.vector len
  one := follows_diagonal len h.one
  isOne := follows_allEach (r := r) len h.isOne
  tryInv := fun ha => Follows.bind (follows_lenIs len ha) fun _ _ _ =>
    follows_tryInvLoop (r := r) h.tryInv ha .nil
  invertible := follows_allEach (r := r) len h.invertible

theorem FollowsGroup.vector (hc : Cfg.Relaxes c₁ c₂) {A : @GroupOps c₁ E} {B : @GroupOps c₂ F}
    (h : FollowsGroup r A B) :
    FollowsGroup (LRel r) (@VectorAlgebra.group E len c₁ A) (@VectorAlgebra.group F len c₂ B) where
  toFollowsMonoid := h.toFollowsMonoid.vector len
  inv := follows_mapEach (r := r) len h.inv
  power := fun n _ _ ha => follows_powerDefault (r := LRel r) hc (h.toFollowsMonoid.vector len).one
    (h.toFollowsMonoid.vector len).mulAssign (h.toFollowsMonoid.vector len).square
    (follows_mapEach (r := r) len h.inv) n ha

theorem FollowsCommutativeMonoid.vector {A : CommutativeMonoidOps E} {B : CommutativeMonoidOps F}
    (h : FollowsCommutativeMonoid r A B) :
    FollowsCommutativeMonoid (LRel r) (VectorAlgebra.commutativeMonoid len A)
      (VectorAlgebra.commutativeMonoid len B) where
  toFollowsDomain := h.toFollowsDomain.vector len
  zero := follows_diagonal len h.zero
  isZero := follows_allEach (r := r) len h.isZero
  add := follows_zipMap (r := r) len h.add
  addAssign := follows_zipEach (r := r) len h.addAssign
  double := follows_mapEach (r := r) len h.double
  utimes := fun n _ _ ha => follows_utimes (LRel r) (follows_diagonal len h.zero)
    (follows_zipEach (r := r) len h.addAssign) (follows_mapEach (r := r) len h.double) n ha

theorem FollowsAbelianGroup.vector (hc : Cfg.Relaxes c₁ c₂) {A : @AbelianGroupOps c₁ E}
    {B : @AbelianGroupOps c₂ F} (h : FollowsAbelianGroup r A B) :
    FollowsAbelianGroup (LRel r) (@VectorAlgebra.abelianGroup E len c₁ A)
      (@VectorAlgebra.abelianGroup F len c₂ B) where
  toFollowsCommutativeMonoid := h.toFollowsCommutativeMonoid.vector len
  neg := follows_mapEach (r := r) len h.neg
  negAssign := follows_mapEach (r := r) len h.negAssign
  sub := follows_zipMap (r := r) len h.sub
  subAssign := follows_zipEach (r := r) len h.subAssign
  times := fun n _ _ ha => follows_powerDefault (r := LRel r) hc (follows_diagonal len h.zero)
    (follows_zipEach (r := r) len h.addAssign) (follows_mapEach (r := r) len h.double)
    (follows_mapEach (r := r) len h.neg) n ha

theorem FollowsSemiRing.vector {A : SemiRingOps E} {B : SemiRingOps F} (h : FollowsSemiRing r A B) :
    FollowsSemiRing (LRel r) (VectorAlgebra.semiRing len A) (VectorAlgebra.semiRing len B) :=
  { h.toFollowsCommutativeMonoid.vector len, h.toFollowsMonoid.vector len with }

theorem FollowsUnitaryRing.vector (hc : Cfg.Relaxes c₁ c₂) {A : @UnitaryRingOps c₁ E}
    {B : @UnitaryRingOps c₂ F} (h : FollowsUnitaryRing r A B) :
    FollowsUnitaryRing (LRel r) (@VectorAlgebra.unitaryRing E len c₁ A)
      (@VectorAlgebra.unitaryRing F len c₂ B) :=
  { h.toFollowsSemiRing.vector len, h.toFollowsAbelianGroup.vector len hc with
    int := fun n => follows_diagonal len (h.int n) }

theorem FollowsPartialOrder.vector {A : PartialOrderOps E} {B : PartialOrderOps F}
    (h : FollowsPartialOrder r A B) :
    FollowsPartialOrder (LRel r) (VectorAlgebra.partialOrder len A)
      (VectorAlgebra.partialOrder len B) where
  toFollowsDomain := h.toFollowsDomain.vector len
  leq := follows_zipAll (r := r) len h.leq
  lessThan := fun ha hb => follows_lessThan (LRel r) (h.toFollowsDomain.vector len).equals
    (follows_zipAll (r := r) len h.leq) ha hb
  comparable := fun ha hb => follows_comparable (LRel r)
    (leq := zipAll len A.leq) (leq' := zipAll len B.leq) (follows_zipAll (r := r) len h.leq) ha hb

theorem FollowsBoundedOrder.vector {A : BoundedOrderOps E} {B : BoundedOrderOps F}
    (h : FollowsBoundedOrder r A B) :
    FollowsBoundedOrder (LRel r) (VectorAlgebra.boundedOrder len A)
      (VectorAlgebra.boundedOrder len B) where
  toFollowsPartialOrder := h.toFollowsPartialOrder.vector len
  max := follows_diagonal len h.max
  min := follows_diagonal len h.min

theorem FollowsLattice.vector {A : LatticeOps E} {B : LatticeOps F} (h : FollowsLattice r A B) :
    FollowsLattice (LRel r) (VectorAlgebra.lattice len A) (VectorAlgebra.lattice len B) where
  toFollowsPartialOrder := h.toFollowsPartialOrder.vector len
  meet := follows_zipMap (r := r) len h.meet
  join := follows_zipMap (r := r) len h.join

theorem FollowsBooleanAlgebra.vector {A : BooleanAlgebraOps E} {B : BooleanAlgebraOps F}
    (h : FollowsBooleanAlgebra r A B) :
    FollowsBooleanAlgebra (LRel r) (VectorAlgebra.booleanAlgebra len A)
      (VectorAlgebra.booleanAlgebra len B) :=
  { h.toFollowsLattice.vector len, h.toFollowsBoundedOrder.vector len with
    not := follows_mapEach (r := r) len h.not }

end Abstalg
