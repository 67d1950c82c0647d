import Verif.Proofs.StatefulTraits
import Verif.Model.StatefulVectors

/-! # Tracking through vectors -/

set_option linter.unusedSectionVars false

set_option autoImplicit false

namespace Abstalg.Stateful

variable [Cfg] {σ : Type} {I : σ → Prop} {E F : Type} {r : E → F → Prop} (len : ℕ)

namespace VectorAlgebra

variable {v w : List E} {v' w' : List F}

theorem tracks_lenIs (h : LRel r v v') : Tracks I Eq (liftM (Res.assert (Abstalg.VectorAlgebra.lenIs len v))) (Res.assert (Abstalg.VectorAlgebra.lenIs len v')) :=
  Tracks.assert (by unfold Abstalg.VectorAlgebra.lenIs; rw [h.length_eq])

theorem tracks_lenIs2 (h : LRel r v v') (h' : LRel r w w') :
    Tracks I Eq (liftM (Res.assert (Abstalg.VectorAlgebra.lenIs len v && Abstalg.VectorAlgebra.lenIs len w))) (Res.assert (Abstalg.VectorAlgebra.lenIs len v' && Abstalg.VectorAlgebra.lenIs len w')) :=
  Tracks.assert (by unfold Abstalg.VectorAlgebra.lenIs; rw [h.length_eq, h'.length_eq])

theorem tracks_zipMap {f : E → E → St σ E} {g : F → F → Res F}
    (hfg : ∀ {a b a' b'}, r a a' → r b b' → Tracks I r (f a b) (g a' b')) (h : LRel r v v')
    (h' : LRel r w w') : Tracks I (LRel r) (zipMap len f v w) (Abstalg.VectorAlgebra.zipMap len g v' w') :=
  Tracks.bind (tracks_lenIs2 len h h') fun _ _ _ => LRel.mapRes (LRel.zip h h') fun h => hfg h.1 h.2

theorem tracks_zipAll {f : E → E → St σ Bool} {g : F → F → Res Bool}
    (hfg : ∀ {a b a' b'}, r a a' → r b b' → Tracks I Eq (f a b) (g a' b')) (h : LRel r v v')
    (h' : LRel r w w') : Tracks I Eq (zipAll len f v w) (Abstalg.VectorAlgebra.zipAll len g v' w') :=
  Tracks.bind (tracks_lenIs2 len h h') fun _ _ _ => LRel.allRes (LRel.zip h h') fun h => hfg h.1 h.2

theorem tracks_zipEach {f : E → E → St σ E} {g : F → F → Res F}
    (hfg : ∀ {a b a' b'}, r a a' → r b b' → Tracks I r (f a b) (g a' b')) (h : LRel r v v')
    (h' : LRel r w w') : Tracks I (LRel r) (zipEach len f v w) (Abstalg.VectorAlgebra.zipEach len g v' w') :=
  Tracks.bind (tracks_lenIs2 len h h') fun _ _ _ => LRel.zipForEach h h' fun h h' => hfg h h'

theorem tracks_mapEach {f : E → St σ E} {g : F → Res F}
    (hfg : ∀ {a a'}, r a a' → Tracks I r (f a) (g a')) (h : LRel r v v') :
    Tracks I (LRel r) (mapEach len f v) (Abstalg.VectorAlgebra.mapEach len g v') :=
  Tracks.bind (tracks_lenIs len h) fun _ _ _ => LRel.mapRes h fun h => hfg h

theorem tracks_allEach {f : E → St σ Bool} {g : F → Res Bool}
    (hfg : ∀ {a a'}, r a a' → Tracks I Eq (f a) (g a')) (h : LRel r v v') :
    Tracks I Eq (allEach len f v) (Abstalg.VectorAlgebra.allEach len g v') :=
  Tracks.bind (tracks_lenIs len h) fun _ _ _ => LRel.allRes h fun h => hfg h

theorem tracks_diagonal {c : St σ E} {d : Res F} (h : Tracks I r c d) :
    Tracks I (LRel r) (do return Abstalg.VectorAlgebra.diagonal len (← c)) (do return Abstalg.VectorAlgebra.diagonal len (← d)) :=
  Tracks.bind h fun _ _ h => .ok (LRel.replicate len h)

theorem tracks_tryInvLoop {f : E → St σ (Option E)} {g : F → Res (Option F)}
    (hfg : ∀ {a a'}, r a a' → Tracks I (Option.Rel r) (f a) (g a')) (h : LRel r v v') :
    ∀ {w w'}, LRel r w w' → Tracks I (Option.Rel (LRel r)) (tryInvLoop f v w) (Abstalg.VectorAlgebra.tryInvLoop g v' w') := by
  induction h with
  | nil => exact fun h' => .ok (.some h')
  | cons hab _ ih =>
    intro w w' h'
    refine Tracks.bind (hfg hab) fun o o' ho => ?_
    cases ho with
    | none => exact .ok .none
    | some ho => exact ih (h'.append (.cons ho .nil))

end VectorAlgebra

open _root_.Abstalg.Stateful.VectorAlgebra

theorem TracksDomain.vector {A : DomainOps σ E} {B : Abstalg.DomainOps F} (h : TracksDomain I r A B) :
    TracksDomain I (LRel r) (VectorAlgebra.domain len A) (Abstalg.VectorAlgebra.domain len B) where
  contains := fun {a a'} ha => by
    show Tracks I Eq (if (a.length != len) = true then _ else _) (if (a'.length != len) = true then _ else _)
    rw [List.Forall₂.length_eq ha]
    exact Tracks.same (.ok rfl) (LRel.allRes ha fun h' => h.contains h')
  equals := tracks_zipAll (r := r) len h.equals

theorem TracksSemigroup.vector {A : SemigroupOps σ E} {B : Abstalg.SemigroupOps F} (h : TracksSemigroup I r A B) :
    TracksSemigroup I (LRel r) (VectorAlgebra.semigroup len A) (Abstalg.VectorAlgebra.semigroup len B) where
  toTracksDomain := h.toTracksDomain.vector len
  mul := tracks_zipMap (r := r) len h.mul
  mulAssign := tracks_zipEach (r := r) len h.mulAssign
  square := tracks_mapEach (r := r) len h.square

theorem TracksMonoid.vector {A : MonoidOps σ E} {B : Abstalg.MonoidOps F} (h : TracksMonoid I r A B) :
    TracksMonoid I (LRel r) (VectorAlgebra.monoid len A) (Abstalg.VectorAlgebra.monoid len B) where
  toTracksSemigroup := h.toTracksSemigroup.vector len
  one := tracks_diagonal len h.one
  isOne := tracks_allEach (r := r) len h.isOne
  tryInv := fun ha => Tracks.bind (tracks_lenIs len ha) fun _ _ _ =>
    tracks_tryInvLoop (r := r) h.tryInv ha .nil
  invertible := tracks_allEach (r := r) len h.invertible

theorem TracksGroup.vector {A : GroupOps σ E} {B : Abstalg.GroupOps F}
    (h : TracksGroup I r A B) :
    TracksGroup I (LRel r) (VectorAlgebra.group len A) (Abstalg.VectorAlgebra.group len B) where
  toTracksMonoid := h.toTracksMonoid.vector len
  inv := tracks_mapEach (r := r) len h.inv
  power := fun n _ _ ha => tracks_powerDefault (r := LRel r) (h.toTracksMonoid.vector len).one
    (h.toTracksMonoid.vector len).mulAssign (h.toTracksMonoid.vector len).square
    (tracks_mapEach (r := r) len h.inv) n ha

theorem TracksCommutativeMonoid.vector {A : CommutativeMonoidOps σ E} {B : Abstalg.CommutativeMonoidOps F}
    (h : TracksCommutativeMonoid I r A B) :
    TracksCommutativeMonoid I (LRel r) (VectorAlgebra.commutativeMonoid len A)
      (Abstalg.VectorAlgebra.commutativeMonoid len B) where
  toTracksDomain := h.toTracksDomain.vector len
  zero := tracks_diagonal len h.zero
  isZero := tracks_allEach (r := r) len h.isZero
  add := tracks_zipMap (r := r) len h.add
  addAssign := tracks_zipEach (r := r) len h.addAssign
  double := tracks_mapEach (r := r) len h.double
  utimes := fun n _ _ ha => tracks_utimes (LRel r) (tracks_diagonal len h.zero)
    (tracks_zipEach (r := r) len h.addAssign) (tracks_mapEach (r := r) len h.double) n ha

theorem TracksAbelianGroup.vector {A : AbelianGroupOps σ E}
    {B : Abstalg.AbelianGroupOps F} (h : TracksAbelianGroup I r A B) :
    TracksAbelianGroup I (LRel r) (VectorAlgebra.abelianGroup len A)
      (Abstalg.VectorAlgebra.abelianGroup len B) where
  toTracksCommutativeMonoid := h.toTracksCommutativeMonoid.vector len
  neg := tracks_mapEach (r := r) len h.neg
  negAssign := tracks_mapEach (r := r) len h.negAssign
  sub := tracks_zipMap (r := r) len h.sub
  subAssign := tracks_zipEach (r := r) len h.subAssign
  times := fun n _ _ ha => tracks_powerDefault (r := LRel r) (tracks_diagonal len h.zero)
    (tracks_zipEach (r := r) len h.addAssign) (tracks_mapEach (r := r) len h.double)
    (tracks_mapEach (r := r) len h.neg) n ha

theorem TracksSemiRing.vector {A : SemiRingOps σ E} {B : Abstalg.SemiRingOps F} (h : TracksSemiRing I r A B) :
    TracksSemiRing I (LRel r) (VectorAlgebra.semiRing len A) (Abstalg.VectorAlgebra.semiRing len B) :=
  { h.toTracksCommutativeMonoid.vector len, h.toTracksMonoid.vector len with }

theorem TracksUnitaryRing.vector {A : UnitaryRingOps σ E}
    {B : Abstalg.UnitaryRingOps F} (h : TracksUnitaryRing I r A B) :
    TracksUnitaryRing I (LRel r) (VectorAlgebra.unitaryRing len A)
      (Abstalg.VectorAlgebra.unitaryRing len B) :=
  { h.toTracksSemiRing.vector len, h.toTracksAbelianGroup.vector len with
    int := fun n => tracks_diagonal len (h.int n) }

theorem TracksPartialOrder.vector {A : PartialOrderOps σ E} {B : Abstalg.PartialOrderOps F}
    (h : TracksPartialOrder I r A B) :
    TracksPartialOrder I (LRel r) (VectorAlgebra.partialOrder len A)
      (Abstalg.VectorAlgebra.partialOrder len B) where
  toTracksDomain := h.toTracksDomain.vector len
  leq := tracks_zipAll (r := r) len h.leq
  lessThan := fun ha hb => tracks_lessThan (LRel r) (h.toTracksDomain.vector len).equals
    (tracks_zipAll (r := r) len h.leq) ha hb
  comparable := fun ha hb => tracks_comparable (LRel r)
    (leq := zipAll len A.leq) (leq' := Abstalg.VectorAlgebra.zipAll len B.leq) (tracks_zipAll (r := r) len h.leq) ha hb

theorem TracksBoundedOrder.vector {A : BoundedOrderOps σ E} {B : Abstalg.BoundedOrderOps F}
    (h : TracksBoundedOrder I r A B) :
    TracksBoundedOrder I (LRel r) (VectorAlgebra.boundedOrder len A)
      (Abstalg.VectorAlgebra.boundedOrder len B) where
  toTracksPartialOrder := h.toTracksPartialOrder.vector len
  max := tracks_diagonal len h.max
  min := tracks_diagonal len h.min

theorem TracksLattice.vector {A : LatticeOps σ E} {B : Abstalg.LatticeOps F} (h : TracksLattice I r A B) :
    TracksLattice I (LRel r) (VectorAlgebra.lattice len A) (Abstalg.VectorAlgebra.lattice len B) where
  toTracksPartialOrder := h.toTracksPartialOrder.vector len
  meet := tracks_zipMap (r := r) len h.meet
  join := tracks_zipMap (r := r) len h.join

theorem TracksBooleanAlgebra.vector {A : BooleanAlgebraOps σ E} {B : Abstalg.BooleanAlgebraOps F}
    (h : TracksBooleanAlgebra I r A B) :
    TracksBooleanAlgebra I (LRel r) (VectorAlgebra.booleanAlgebra len A)
      (Abstalg.VectorAlgebra.booleanAlgebra len B) :=
  { h.toTracksLattice.vector len, h.toTracksBoundedOrder.vector len with
    not := tracks_mapEach (r := r) len h.not }

end Abstalg.Stateful
