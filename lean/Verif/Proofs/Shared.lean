import Verif.Spec.Shared
import Verif.Proofs.Stateful

/-! # A shared base: the methods of a base follow those of a base without state, whatever others do -/

set_option linter.unusedSectionVars false

set_option autoImplicit false

namespace Abstalg.Stateful

theorem Tracks.shared {σ α β : Type} {I : σ → Prop} {r : α → β → Prop} {x : St σ α} {y : Res β} (h : Tracks I r x y) :
    Tracks (Safe I) r x.shared y := by
  rintro ⟨s, e⟩ ⟨hs, he⟩
  have h1 := h (e 0 s) (he 0 s hs)
  unfold St.shared
  dsimp only
  have he' : ∀ n t, I t → I (e (n + 1) t) := fun n => he (n + 1)
  revert h1
  cases x (e 0 s) with
  | ok a t =>
    cases y with
    | ok b => exact fun h => ⟨h.1, h.2, he'⟩
    | panic => exact id
    | diverge => exact id
  | panic t =>
    cases y with
    | ok b => exact id
    | panic => exact fun h => ⟨h, he'⟩
    | diverge => exact id
  | diverge => cases y <;> exact id

theorem Tracks.effect {σ α β : Type} {I : σ → Prop} {r : α → β → Prop} {x : St σ α} {y : Res β} (h : Tracks I r x y)
    {s : σ} (hs : I s) : I (x.effect s) := by
  have h1 := h s hs
  unfold St.effect
  revert h1
  cases x s with
  | ok a t =>
    cases y with
    | ok b => exact fun h => h.2
    | panic => exact False.elim
    | diverge => exact False.elim
  | panic t =>
    cases y with
    | ok b => exact False.elim
    | panic => exact id
    | diverge => exact False.elim
  | diverge => exact fun _ => hs

variable {σ E F : Type} {I : σ → Prop} {r : E → F → Prop}

theorem TracksDomain.shared {A : DomainOps σ E} {B : Abstalg.DomainOps F} (h : TracksDomain I r A B) :
    TracksDomain (Safe I) r A.shared B where
  contains := fun ha => (h.contains ha).shared
  equals := fun ha hb => (h.equals ha hb).shared

theorem TracksSemigroup.shared {A : SemigroupOps σ E} {B : Abstalg.SemigroupOps F} (h : TracksSemigroup I r A B) :
    TracksSemigroup (Safe I) r A.shared B where
  contains := fun ha => (h.contains ha).shared
  equals := fun ha hb => (h.equals ha hb).shared
  mul := fun ha hb => (h.mul ha hb).shared
  mulAssign := fun ha hb => (h.mulAssign ha hb).shared
  square := fun ha => (h.square ha).shared

theorem TracksMonoid.shared {A : MonoidOps σ E} {B : Abstalg.MonoidOps F} (h : TracksMonoid I r A B) :
    TracksMonoid (Safe I) r A.shared B where
  contains := fun ha => (h.contains ha).shared
  equals := fun ha hb => (h.equals ha hb).shared
  mul := fun ha hb => (h.mul ha hb).shared
  mulAssign := fun ha hb => (h.mulAssign ha hb).shared
  square := fun ha => (h.square ha).shared
  one := h.one.shared
  isOne := fun ha => (h.isOne ha).shared
  tryInv := fun ha => (h.tryInv ha).shared
  invertible := fun ha => (h.invertible ha).shared

theorem TracksCommutativeMonoid.shared {A : CommutativeMonoidOps σ E} {B : Abstalg.CommutativeMonoidOps F} (h : TracksCommutativeMonoid I r A B) :
    TracksCommutativeMonoid (Safe I) r A.shared B where
  contains := fun ha => (h.contains ha).shared
  equals := fun ha hb => (h.equals ha hb).shared
  zero := h.zero.shared
  isZero := fun ha => (h.isZero ha).shared
  add := fun ha hb => (h.add ha hb).shared
  addAssign := fun ha hb => (h.addAssign ha hb).shared
  double := fun ha => (h.double ha).shared
  utimes := fun n _ _ ha => (h.utimes n ha).shared

theorem TracksGroup.shared [Cfg] {A : GroupOps σ E} {B : Abstalg.GroupOps F} (h : TracksGroup I r A B) :
    TracksGroup (Safe I) r A.shared B where
  contains := fun ha => (h.contains ha).shared
  equals := fun ha hb => (h.equals ha hb).shared
  mul := fun ha hb => (h.mul ha hb).shared
  mulAssign := fun ha hb => (h.mulAssign ha hb).shared
  square := fun ha => (h.square ha).shared
  one := h.one.shared
  isOne := fun ha => (h.isOne ha).shared
  tryInv := fun ha => (h.tryInv ha).shared
  invertible := fun ha => (h.invertible ha).shared
  inv := fun ha => (h.inv ha).shared
  power := fun n _ _ ha => (h.power n ha).shared

theorem TracksAbelianGroup.shared [Cfg] {A : AbelianGroupOps σ E} {B : Abstalg.AbelianGroupOps F} (h : TracksAbelianGroup I r A B) :
    TracksAbelianGroup (Safe I) r A.shared B where
  contains := fun ha => (h.contains ha).shared
  equals := fun ha hb => (h.equals ha hb).shared
  zero := h.zero.shared
  isZero := fun ha => (h.isZero ha).shared
  add := fun ha hb => (h.add ha hb).shared
  addAssign := fun ha hb => (h.addAssign ha hb).shared
  double := fun ha => (h.double ha).shared
  utimes := fun n _ _ ha => (h.utimes n ha).shared
  neg := fun ha => (h.neg ha).shared
  negAssign := fun ha => (h.negAssign ha).shared
  sub := fun ha hb => (h.sub ha hb).shared
  subAssign := fun ha hb => (h.subAssign ha hb).shared
  times := fun n _ _ ha => (h.times n ha).shared

theorem TracksSemiRing.shared {A : SemiRingOps σ E} {B : Abstalg.SemiRingOps F} (h : TracksSemiRing I r A B) :
    TracksSemiRing (Safe I) r A.shared B where
  contains := fun ha => (h.contains ha).shared
  equals := fun ha hb => (h.equals ha hb).shared
  zero := h.zero.shared
  isZero := fun ha => (h.isZero ha).shared
  add := fun ha hb => (h.add ha hb).shared
  addAssign := fun ha hb => (h.addAssign ha hb).shared
  double := fun ha => (h.double ha).shared
  utimes := fun n _ _ ha => (h.utimes n ha).shared
  mul := fun ha hb => (h.mul ha hb).shared
  mulAssign := fun ha hb => (h.mulAssign ha hb).shared
  square := fun ha => (h.square ha).shared
  one := h.one.shared
  isOne := fun ha => (h.isOne ha).shared
  tryInv := fun ha => (h.tryInv ha).shared
  invertible := fun ha => (h.invertible ha).shared

theorem TracksUnitaryRing.shared [Cfg] {A : UnitaryRingOps σ E} {B : Abstalg.UnitaryRingOps F} (h : TracksUnitaryRing I r A B) :
    TracksUnitaryRing (Safe I) r A.shared B where
  contains := fun ha => (h.contains ha).shared
  equals := fun ha hb => (h.equals ha hb).shared
  zero := h.zero.shared
  isZero := fun ha => (h.isZero ha).shared
  add := fun ha hb => (h.add ha hb).shared
  addAssign := fun ha hb => (h.addAssign ha hb).shared
  double := fun ha => (h.double ha).shared
  utimes := fun n _ _ ha => (h.utimes n ha).shared
  mul := fun ha hb => (h.mul ha hb).shared
  mulAssign := fun ha hb => (h.mulAssign ha hb).shared
  square := fun ha => (h.square ha).shared
  one := h.one.shared
  isOne := fun ha => (h.isOne ha).shared
  tryInv := fun ha => (h.tryInv ha).shared
  invertible := fun ha => (h.invertible ha).shared
  neg := fun ha => (h.neg ha).shared
  negAssign := fun ha => (h.negAssign ha).shared
  sub := fun ha hb => (h.sub ha hb).shared
  subAssign := fun ha hb => (h.subAssign ha hb).shared
  times := fun n _ _ ha => (h.times n ha).shared
  int := fun n => (h.int n).shared

theorem TracksIntegralDomain.shared [Cfg] {A : IntegralDomainOps σ E} {B : Abstalg.IntegralDomainOps F} (h : TracksIntegralDomain I r A B) :
    TracksIntegralDomain (Safe I) r A.shared B where
  contains := fun ha => (h.contains ha).shared
  equals := fun ha hb => (h.equals ha hb).shared
  zero := h.zero.shared
  isZero := fun ha => (h.isZero ha).shared
  add := fun ha hb => (h.add ha hb).shared
  addAssign := fun ha hb => (h.addAssign ha hb).shared
  double := fun ha => (h.double ha).shared
  utimes := fun n _ _ ha => (h.utimes n ha).shared
  mul := fun ha hb => (h.mul ha hb).shared
  mulAssign := fun ha hb => (h.mulAssign ha hb).shared
  square := fun ha => (h.square ha).shared
  one := h.one.shared
  isOne := fun ha => (h.isOne ha).shared
  tryInv := fun ha => (h.tryInv ha).shared
  invertible := fun ha => (h.invertible ha).shared
  neg := fun ha => (h.neg ha).shared
  negAssign := fun ha => (h.negAssign ha).shared
  sub := fun ha hb => (h.sub ha hb).shared
  subAssign := fun ha hb => (h.subAssign ha hb).shared
  times := fun n _ _ ha => (h.times n ha).shared
  int := fun n => (h.int n).shared
  tryDiv := fun ha hb => (h.tryDiv ha hb).shared
  divisible := fun ha hb => (h.divisible ha hb).shared
  associates := fun ha hb => (h.associates ha hb).shared
  associateRepr := fun ha => (h.associateRepr ha).shared
  associateCoef := fun ha => (h.associateCoef ha).shared

theorem TracksEuclideanDomain.shared [Cfg] {A : EuclideanDomainOps σ E} {B : Abstalg.EuclideanDomainOps F} (h : TracksEuclideanDomain I r A B) :
    TracksEuclideanDomain (Safe I) r A.shared B where
  contains := fun ha => (h.contains ha).shared
  equals := fun ha hb => (h.equals ha hb).shared
  zero := h.zero.shared
  isZero := fun ha => (h.isZero ha).shared
  add := fun ha hb => (h.add ha hb).shared
  addAssign := fun ha hb => (h.addAssign ha hb).shared
  double := fun ha => (h.double ha).shared
  utimes := fun n _ _ ha => (h.utimes n ha).shared
  mul := fun ha hb => (h.mul ha hb).shared
  mulAssign := fun ha hb => (h.mulAssign ha hb).shared
  square := fun ha => (h.square ha).shared
  one := h.one.shared
  isOne := fun ha => (h.isOne ha).shared
  tryInv := fun ha => (h.tryInv ha).shared
  invertible := fun ha => (h.invertible ha).shared
  neg := fun ha => (h.neg ha).shared
  negAssign := fun ha => (h.negAssign ha).shared
  sub := fun ha hb => (h.sub ha hb).shared
  subAssign := fun ha hb => (h.subAssign ha hb).shared
  times := fun n _ _ ha => (h.times n ha).shared
  int := fun n => (h.int n).shared
  tryDiv := fun ha hb => (h.tryDiv ha hb).shared
  divisible := fun ha hb => (h.divisible ha hb).shared
  associates := fun ha hb => (h.associates ha hb).shared
  associateRepr := fun ha => (h.associateRepr ha).shared
  associateCoef := fun ha => (h.associateCoef ha).shared
  quoRem := fun ha hb => (h.quoRem ha hb).shared
  quo := fun ha hb => (h.quo ha hb).shared
  rem := fun ha hb => (h.rem ha hb).shared
  reduced := fun ha hb => (h.reduced ha hb).shared
  gcd := fun ha hb => (h.gcd ha hb).shared
  lcm := fun ha hb => (h.lcm ha hb).shared
  extendedGcd := fun ha hb => (h.extendedGcd ha hb).shared
  relativePrimes := fun ha hb => (h.relativePrimes ha hb).shared

theorem TracksField.shared [Cfg] {A : FieldOps σ E} {B : Abstalg.FieldOps F} (h : TracksField I r A B) :
    TracksField (Safe I) r A.shared B where
  contains := fun ha => (h.contains ha).shared
  equals := fun ha hb => (h.equals ha hb).shared
  zero := h.zero.shared
  isZero := fun ha => (h.isZero ha).shared
  add := fun ha hb => (h.add ha hb).shared
  addAssign := fun ha hb => (h.addAssign ha hb).shared
  double := fun ha => (h.double ha).shared
  utimes := fun n _ _ ha => (h.utimes n ha).shared
  mul := fun ha hb => (h.mul ha hb).shared
  mulAssign := fun ha hb => (h.mulAssign ha hb).shared
  square := fun ha => (h.square ha).shared
  one := h.one.shared
  isOne := fun ha => (h.isOne ha).shared
  tryInv := fun ha => (h.tryInv ha).shared
  invertible := fun ha => (h.invertible ha).shared
  neg := fun ha => (h.neg ha).shared
  negAssign := fun ha => (h.negAssign ha).shared
  sub := fun ha hb => (h.sub ha hb).shared
  subAssign := fun ha hb => (h.subAssign ha hb).shared
  times := fun n _ _ ha => (h.times n ha).shared
  int := fun n => (h.int n).shared
  inv := fun ha => (h.inv ha).shared
  div := fun ha hb => (h.div ha hb).shared
  power := fun n _ _ ha => (h.power n ha).shared

theorem TracksPartialOrder.shared {A : PartialOrderOps σ E} {B : Abstalg.PartialOrderOps F} (h : TracksPartialOrder I r A B) :
    TracksPartialOrder (Safe I) r A.shared B where
  contains := fun ha => (h.contains ha).shared
  equals := fun ha hb => (h.equals ha hb).shared
  leq := fun ha hb => (h.leq ha hb).shared
  lessThan := fun ha hb => (h.lessThan ha hb).shared
  comparable := fun ha hb => (h.comparable ha hb).shared

theorem TracksBoundedOrder.shared {A : BoundedOrderOps σ E} {B : Abstalg.BoundedOrderOps F} (h : TracksBoundedOrder I r A B) :
    TracksBoundedOrder (Safe I) r A.shared B where
  contains := fun ha => (h.contains ha).shared
  equals := fun ha hb => (h.equals ha hb).shared
  leq := fun ha hb => (h.leq ha hb).shared
  lessThan := fun ha hb => (h.lessThan ha hb).shared
  comparable := fun ha hb => (h.comparable ha hb).shared
  max := h.max.shared
  min := h.min.shared

theorem TracksLattice.shared {A : LatticeOps σ E} {B : Abstalg.LatticeOps F} (h : TracksLattice I r A B) :
    TracksLattice (Safe I) r A.shared B where
  contains := fun ha => (h.contains ha).shared
  equals := fun ha hb => (h.equals ha hb).shared
  leq := fun ha hb => (h.leq ha hb).shared
  lessThan := fun ha hb => (h.lessThan ha hb).shared
  comparable := fun ha hb => (h.comparable ha hb).shared
  meet := fun ha hb => (h.meet ha hb).shared
  join := fun ha hb => (h.join ha hb).shared

theorem TracksBooleanAlgebra.shared {A : BooleanAlgebraOps σ E} {B : Abstalg.BooleanAlgebraOps F} (h : TracksBooleanAlgebra I r A B) :
    TracksBooleanAlgebra (Safe I) r A.shared B where
  contains := fun ha => (h.contains ha).shared
  equals := fun ha hb => (h.equals ha hb).shared
  leq := fun ha hb => (h.leq ha hb).shared
  lessThan := fun ha hb => (h.lessThan ha hb).shared
  comparable := fun ha hb => (h.comparable ha hb).shared
  meet := fun ha hb => (h.meet ha hb).shared
  join := fun ha hb => (h.join ha hb).shared
  max := h.max.shared
  min := h.min.shared
  not := fun ha => (h.not ha).shared

end Abstalg.Stateful
