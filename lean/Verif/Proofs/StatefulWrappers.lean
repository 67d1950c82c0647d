import Verif.Proofs.StatefulTraits
import Verif.Model.StatefulResidues
import Verif.Model.AdditiveGroup
import Verif.Model.MultiplicativeGroup
import Verif.Model.DivisibilityOrder
import Verif.Model.QuotientRing
import Verif.Model.QuotientField
import Verif.Model.ReducedFractions

/-! # Tracking through residues, fractions, groups and orders -/

set_option linter.unusedSectionVars false

set_option autoImplicit false

namespace Abstalg.Stateful

variable [Cfg] {σ : Type} {I : σ → Prop} {E F : Type} {r : E → F → Prop}

theorem TracksAbelianGroup.additiveGroup {A : AbelianGroupOps σ E}
    {B : Abstalg.AbelianGroupOps F} (h : TracksAbelianGroup I r A B) :
    TracksGroup I r (AdditiveGroup.ops A) (Abstalg.AdditiveGroup.ops B) where
  contains := h.contains
  equals := h.equals
  mul := h.add
  mulAssign := h.addAssign
  square := h.double
  one := h.zero
  isOne := h.isZero
  tryInv := fun ha => Tracks.bind (h.neg ha) fun _ _ h => .ok (.some h)
  invertible := fun _ => .ok rfl
  inv := h.neg
  power := fun n _ _ ha => tracks_powerDefault (r := r) h.zero h.addAssign h.double h.neg n ha

theorem TracksMonoid.multiplicativeGroup {A : MonoidOps σ E}
    {B : Abstalg.MonoidOps F} (h : TracksMonoid I r A B) :
    TracksGroup I r (MultiplicativeGroup.ops A) (Abstalg.MultiplicativeGroup.ops B) where
  contains := h.invertible
  equals := h.equals
  mul := h.mul
  mulAssign := h.mulAssign
  square := h.square
  one := h.one
  isOne := h.isOne
  tryInv := h.tryInv
  invertible := fun _ => .ok rfl
  inv := fun ha => tracks_unwrapInv r h.tryInv ha
  power := fun n _ _ ha => tracks_powerDefault (r := r) h.one h.mulAssign h.square
    (fun ha => tracks_unwrapInv r h.tryInv ha) n ha

theorem TracksIntegralDomain.boundedOrder {A : IntegralDomainOps σ E} {B : Abstalg.IntegralDomainOps F}
    (h : TracksIntegralDomain I r A B) :
    TracksBoundedOrder I r (DivisibilityOrder.boundedOrder A)
      (Abstalg.DivisibilityOrder.boundedOrder B) :=
  have hleq {a b a' b'} (ha : r a a') (hb : r b b') :
      Tracks I Eq ((DivisibilityOrder.boundedOrder A).leq a b)
        ((Abstalg.DivisibilityOrder.boundedOrder B).leq a' b') := h.divisible hb ha
  { contains := fun ha => Tracks.bindIf (h.isZero ha) (.ok rfl)
      (Tracks.bind (h.associateCoef ha) fun _ _ h' => h.isOne h')
    equals := h.equals
    leq := hleq
    lessThan := fun ha hb => tracks_lessThan r h.equals hleq ha hb
    comparable := fun ha hb => tracks_comparable r
      (leq := (DivisibilityOrder.boundedOrder A).leq)
      (leq' := (Abstalg.DivisibilityOrder.boundedOrder B).leq) hleq ha hb
    max := h.zero
    min := h.one }

theorem TracksEuclideanDomain.lattice {A : EuclideanDomainOps σ E} {B : Abstalg.EuclideanDomainOps F}
    (h : TracksEuclideanDomain I r A B) :
    TracksLattice I r (DivisibilityOrder.lattice A) (Abstalg.DivisibilityOrder.lattice B) where
  toTracksPartialOrder := h.toTracksIntegralDomain.boundedOrder.toTracksPartialOrder
  meet := fun ha hb => Tracks.bind (h.gcd ha hb) fun _ _ h' => h.associateRepr h'
  join := fun ha hb => Tracks.bind (h.lcm ha hb) fun _ _ h' => h.associateRepr h'

section quotient

variable {A : EuclideanDomainOps σ E} {B : Abstalg.EuclideanDomainOps F} {m : E} {m' : F}

theorem TracksEuclideanDomain.quotientRing
    (h : TracksEuclideanDomain I r A B) (hm : r m m') :
    TracksUnitaryRing I r (QuotientRing.ops A m) (Abstalg.QuotientRing.ops B m') :=
  have hmul {a b a' b'} (ha : r a a') (hb : r b b') :
      Tracks I r (QuotientRing.mul A m a b) (Abstalg.QuotientRing.mul B m' a' b') :=
    Tracks.bind (h.mul ha hb) fun _ _ h' => h.rem h' hm
  have hadd {a b a' b'} (ha : r a a') (hb : r b b') :
      Tracks I r (do EuclideanDomainOps.rem A (← A.add a b) m)
        (do Abstalg.EuclideanDomainOps.rem B (← B.add a' b') m') :=
    Tracks.bind (h.add ha hb) fun _ _ h' => h.rem h' hm
  have hneg {a a'} (ha : r a a') :
      Tracks I r (do EuclideanDomainOps.rem A (← AbelianGroupOps.neg (@A.toAbelianGroupOps) a) m)
        (do Abstalg.EuclideanDomainOps.rem B (← Abstalg.AbelianGroupOps.neg (@B.toAbelianGroupOps) a') m') :=
    Tracks.bind (h.neg ha) fun _ _ h' => h.rem h' hm
  have htry {a a'} (ha : r a a') : Tracks I (Option.Rel r) ((QuotientRing.ops A m).tryInv a)
      ((Abstalg.QuotientRing.ops B m').tryInv a') := by
    refine Tracks.bind (h.extendedGcd hm ha) ?_
    rintro ⟨g, x, y⟩ ⟨g', x', y'⟩ ⟨hg, hx, hy⟩
    refine Tracks.bind (h.tryInv hg) ?_
    intro o o' ho
    cases ho with
    | none => exact .ok .none
    | some ho => exact Tracks.bind (hmul ho hy) fun _ _ h => .ok (.some h)
  have htimes (n : ℤ) {a a'} (ha : r a a') : Tracks I r
      (AbelianGroupOps.times (UnitaryRingOps.toAbelianGroupOps (QuotientRing.ops A m)) n a)
      (Abstalg.AbelianGroupOps.times (Abstalg.UnitaryRingOps.toAbelianGroupOps (Abstalg.QuotientRing.ops B m')) n a') :=
    tracks_powerDefault (r := r) h.zero hadd (fun h => hadd h h) hneg n ha
  { contains := fun ha => h.reduced ha hm
    equals := h.equals
    mul := hmul
    mulAssign := hmul
    square := fun ha => hmul ha ha
    one := h.one
    isOne := h.isOne
    tryInv := htry
    invertible := fun ha => Tracks.isSome (htry ha)
    zero := h.zero
    isZero := fun ha => tracks_isDefault r h.equals h.zero ha
    add := hadd
    addAssign := hadd
    double := fun ha => hadd ha ha
    utimes := fun n _ _ ha => tracks_utimes r h.zero hadd (fun h => hadd h h) n ha
    neg := hneg
    negAssign := hneg
    sub := fun ha hb => tracks_sub r hneg hadd ha hb
    subAssign := fun ha hb => tracks_subAssign r hneg hadd ha hb
    times := htimes
    int := fun n => tracks_int r htimes h.one n }

theorem TracksEuclideanDomain.quotientField
    (h : TracksEuclideanDomain I r A B) (hm : r m m') :
    TracksField I r (QuotientField.ops A m) (Abstalg.QuotientField.ops B m') :=
  have hmul {a b a' b'} (ha : r a a') (hb : r b b') :
      Tracks I r (QuotientField.mul A m a b) (Abstalg.QuotientField.mul B m' a' b') :=
    Tracks.bind (h.mul ha hb) fun _ _ h' => h.rem h' hm
  have hadd {a b a' b'} (ha : r a a') (hb : r b b') :
      Tracks I r (do EuclideanDomainOps.rem A (← A.add a b) m)
        (do Abstalg.EuclideanDomainOps.rem B (← B.add a' b') m') :=
    Tracks.bind (h.add ha hb) fun _ _ h' => h.rem h' hm
  have hneg {a a'} (ha : r a a') :
      Tracks I r (do EuclideanDomainOps.rem A (← AbelianGroupOps.neg (@A.toAbelianGroupOps) a) m)
        (do Abstalg.EuclideanDomainOps.rem B (← Abstalg.AbelianGroupOps.neg (@B.toAbelianGroupOps) a') m') :=
    Tracks.bind (h.neg ha) fun _ _ h' => h.rem h' hm
  have hzero {a a'} (ha : r a a') :
      Tracks I Eq (QuotientField.isZero A m a) (Abstalg.QuotientField.isZero B m' a') :=
    tracks_isDefault r h.equals h.zero ha
  have hinv {a a'} (ha : r a a') :
      Tracks I r (QuotientField.inv A m a) (Abstalg.QuotientField.inv B m' a') := by
    refine Tracks.check (hzero ha) (Tracks.bind (h.extendedGcd hm ha) ?_)
    rintro ⟨g, x, y⟩ ⟨g', x', y'⟩ ⟨hg, hx, hy⟩
    exact Tracks.bind (h.tryInv hg) fun o o' ho => Tracks.bind (Tracks.unwrap ho)
      fun _ _ h => hmul h hy
  have htry {a a'} (ha : r a a') : Tracks I (Option.Rel r) ((QuotientField.ops A m).tryInv a)
      ((Abstalg.QuotientField.ops B m').tryInv a') :=
    Tracks.bindIf (hzero ha) (.ok .none) (Tracks.bind (hinv ha) fun _ _ h => .ok (.some h))
  have htimes (n : ℤ) {a a'} (ha : r a a') : Tracks I r
      (AbelianGroupOps.times (UnitaryRingOps.toAbelianGroupOps (FieldOps.toUnitaryRingOps (QuotientField.ops A m))) n a)
      (Abstalg.AbelianGroupOps.times (Abstalg.UnitaryRingOps.toAbelianGroupOps (Abstalg.FieldOps.toUnitaryRingOps (Abstalg.QuotientField.ops B m'))) n a') :=
    tracks_powerDefault (r := r) h.zero hadd (fun h => hadd h h) hneg n ha
  { contains := fun ha => h.reduced ha hm
    equals := h.equals
    mul := hmul
    mulAssign := hmul
    square := fun ha => hmul ha ha
    one := h.one
    isOne := h.isOne
    tryInv := htry
    invertible := fun ha => Tracks.not (hzero ha)
    zero := h.zero
    isZero := hzero
    add := hadd
    addAssign := hadd
    double := fun ha => hadd ha ha
    utimes := fun n _ _ ha => tracks_utimes r h.zero hadd (fun h => hadd h h) n ha
    neg := hneg
    negAssign := hneg
    sub := fun ha hb => tracks_sub r hneg hadd ha hb
    subAssign := fun ha hb => tracks_subAssign r hneg hadd ha hb
    times := htimes
    int := fun n => tracks_int r htimes h.one n
    inv := hinv
    div := fun ha hb => tracks_div r hinv hmul ha hb
    power := fun n _ _ ha => tracks_fieldPower r hzero h.zero h.one hmul (fun h => hmul h h) htry n ha }

end quotient

/-! ## Fractions -/

section fractions

variable {A : EuclideanDomainOps σ E} {B : Abstalg.EuclideanDomainOps F}

theorem TracksEuclideanDomain.reduce (h : TracksEuclideanDomain I r A B) {p : E × E} {q : F × F}
    (hp : PRel r p q) :
    Tracks I (PRel r) (ReducedFractions.reduce A p) (Abstalg.ReducedFractions.reduce B q) := by
  refine Tracks.check (h.isZero hp.2) ?_
  refine Tracks.bind (h.gcd hp.1 hp.2) fun g g' hg => ?_
  refine Tracks.bind (h.quo hp.1 hg) fun n n' hn => ?_
  refine Tracks.bind (h.quo hp.2 hg) fun d d' hd => ?_
  refine Tracks.bind (h.associateCoef hd) fun x x' hx => ?_
  refine Tracks.bind (h.isOne hx) fun b b' hb => ?_
  subst hb
  exact Tracks.same (Tracks.bind (h.mul hn hx) fun _ _ h1 => Tracks.bind (h.mul hd hx)
    fun _ _ h2 => .ok ⟨h1, h2⟩) (.ok ⟨hn, hd⟩)

theorem TracksEuclideanDomain.reducedFractions
    (h : TracksEuclideanDomain I r A B) :
    TracksField I (PRel r) (ReducedFractions.ops A) (Abstalg.ReducedFractions.ops B) :=
  have heq {a b a' b'} (ha : PRel r a a') (hb : PRel r b b') :
      Tracks I Eq ((ReducedFractions.ops A).equals a b)
        ((Abstalg.ReducedFractions.ops B).equals a' b') :=
    Tracks.bindIf (h.equals ha.1 hb.1) (h.equals ha.2 hb.2) (.ok rfl)
  have hmul {a b a' b'} (ha : PRel r a a') (hb : PRel r b b') :
      Tracks I (PRel r) ((ReducedFractions.ops A).mul a b)
        ((Abstalg.ReducedFractions.ops B).mul a' b') :=
    Tracks.bind (h.mul ha.1 hb.1) fun _ _ h1 => Tracks.bind (h.mul ha.2 hb.2)
      fun _ _ h2 => h.reduce ⟨h1, h2⟩
  have hadd {a b a' b'} (ha : PRel r a a') (hb : PRel r b b') :
      Tracks I (PRel r) ((ReducedFractions.ops A).add a b)
        ((Abstalg.ReducedFractions.ops B).add a' b') :=
    Tracks.bindIf (h.equals ha.2 hb.2)
      (Tracks.bind (h.add ha.1 hb.1) fun _ _ h1 => h.reduce ⟨h1, ha.2⟩)
      (Tracks.bind (h.mul ha.1 hb.2) fun _ _ h1 => Tracks.bind (h.mul ha.2 hb.1)
        fun _ _ h2 => Tracks.bind (h.add h1 h2) fun _ _ h3 => Tracks.bind (h.mul ha.2 hb.2)
        fun _ _ h4 => h.reduce ⟨h3, h4⟩)
  have hneg {a a'} (ha : PRel r a a') : Tracks I (PRel r)
      ((ReducedFractions.ops A).toAbelianGroupOps.neg a)
      ((Abstalg.ReducedFractions.ops B).toAbelianGroupOps.neg a') :=
    Tracks.bind (h.neg ha.1) fun _ _ h1 => .ok ⟨h1, ha.2⟩
  have hone : Tracks I (PRel r) (ReducedFractions.ops A).one (Abstalg.ReducedFractions.ops B).one :=
    Tracks.bind h.one fun _ _ h1 => Tracks.bind h.one fun _ _ h2 => .ok ⟨h1, h2⟩
  have hz : Tracks I (PRel r) (ReducedFractions.ops A).zero (Abstalg.ReducedFractions.ops B).zero :=
    Tracks.bind h.zero fun _ _ h1 => Tracks.bind h.one fun _ _ h2 => .ok ⟨h1, h2⟩
  have hzero {a a'} (ha : PRel r a a') :
      Tracks I Eq ((ReducedFractions.ops A).isZero a) ((Abstalg.ReducedFractions.ops B).isZero a') :=
    tracks_isDefault (PRel r) heq hz ha
  have hinv {a a'} (ha : PRel r a a') : Tracks I (PRel r)
      ((ReducedFractions.ops A).inv a)
      ((Abstalg.ReducedFractions.ops B).inv a') := by
    refine Tracks.check (h.isZero ha.1) ?_
    refine Tracks.bind (h.associateCoef ha.1) fun x x' hx => ?_
    refine Tracks.bind (h.isOne hx) fun b b' hb => ?_
    subst hb
    exact Tracks.same (Tracks.bind (h.mul ha.2 hx) fun _ _ h1 => Tracks.bind (h.mul ha.1 hx)
      fun _ _ h2 => .ok ⟨h1, h2⟩) (.ok ⟨ha.2, ha.1⟩)
  have hinvertible {a a'} (ha : PRel r a a') : Tracks I Eq (ReducedFractions.invertible A a)
      (Abstalg.ReducedFractions.invertible B a') := Tracks.not (h.isZero ha.1)
  have htry {a a'} (ha : PRel r a a') : Tracks I (Option.Rel (PRel r))
      ((ReducedFractions.ops A).tryInv a) ((Abstalg.ReducedFractions.ops B).tryInv a') :=
    Tracks.bindIf (hinvertible ha)
      (Tracks.bind (h.reduce ⟨ha.2, ha.1⟩) fun _ _ h => .ok (.some h)) (.ok .none)
  have htimes (n : ℤ) {a a'} (ha : PRel r a a') : Tracks I (PRel r)
      ((ReducedFractions.ops A).toAbelianGroupOps.times n a)
      ((Abstalg.ReducedFractions.ops B).toAbelianGroupOps.times n a') :=
    Tracks.bind (h.times n ha.1) fun _ _ h1 => h.reduce ⟨h1, ha.2⟩
  { contains := fun ha => Tracks.bindIf (h.relativePrimes ha.1 ha.2)
      (Tracks.bind (h.associateCoef ha.2) fun _ _ h1 => h.isOne h1) (.ok rfl)
    equals := heq
    mul := hmul
    mulAssign := hmul
    square := fun ha => hmul ha ha
    one := hone
    isOne := fun ha => Tracks.bindIf (h.isOne ha.1) (h.isOne ha.2) (.ok rfl)
    tryInv := htry
    invertible := hinvertible
    zero := hz
    isZero := hzero
    add := hadd
    addAssign := hadd
    double := fun ha => hadd ha ha
    utimes := fun n _ _ ha => tracks_utimes (PRel r) hz hadd (fun h => hadd h h) n ha
    neg := hneg
    negAssign := hneg
    sub := fun ha hb => tracks_sub (PRel r) hneg hadd ha hb
    subAssign := fun ha hb => tracks_subAssign (PRel r) hneg hadd ha hb
    times := htimes
    int := fun n => tracks_int (PRel r) htimes hone n
    inv := hinv
    div := fun ha hb => tracks_div (PRel r) hinv hmul ha hb
    power := fun n _ _ ha => tracks_fieldPower (PRel r) hzero hz hone hmul (fun h => hmul h h)
      htry n ha }

end fractions

end Abstalg.Stateful
