import Verif.Proofs.StatefulTraits
import Verif.Model.StatefulPolynomials
import Verif.Model.PolynomialAlgebra

/-! # Tracking through polynomials -/

set_option linter.unusedSectionVars false

set_option autoImplicit false

namespace Abstalg.Stateful

variable [Cfg] {σ : Type} {I : σ → Prop} {E F : Type} {r : E → F → Prop} {v w : List E} {v' w' : List F}

namespace PolynomialAlgebra

section abelian

variable {A : AbelianGroupOps σ E} {B : Abstalg.AbelianGroupOps F} (hA : TracksAbelianGroup I r A B)

include hA

theorem tracks_domain : TracksDomain I (LRel r) (PolynomialAlgebra.domain A)
    (Abstalg.PolynomialAlgebra.domain B) where
  contains := fun {v v'} h => by
    show Tracks I Eq (if v.isEmpty = true then _ else _) (if v'.isEmpty = true then _ else _)
    rw [LRel.isEmpty h, List.Forall₂.length_eq h]
    refine Tracks.same (.ok rfl) (Tracks.bindIf (LRel.allRes h fun h' => hA.contains h') ?_ (.ok rfl))
    exact Tracks.bind (LRel.idx h _) fun _ _ h' => Tracks.not (hA.isZero h')
  equals := fun {v w v' w'} h h' => by
    show Tracks I Eq (if (v.length != w.length) = true then _ else _)
      (if (v'.length != w'.length) = true then _ else _)
    rw [List.Forall₂.length_eq h, List.Forall₂.length_eq h']
    exact Tracks.same (.ok rfl) (LRel.allRes (LRel.zip h h') fun h => hA.equals h.1 h.2)

theorem tracks_addLong (h : LRel r v v') (h' : LRel r w w') (l : List ℕ) :
    Tracks I (LRel r)
      (forLoop l v fun e i => do let a ← A.add (← idx e i) (← idx w i); setIdx e i a)
      (Abstalg.forLoop l v' fun e i => do let a ← B.add (← idx e i) (← idx w' i); setIdx e i a) := by
  refine tracks_forLoop (r := LRel r) l (fun i e e' he => ?_) h
  exact Tracks.bind (LRel.idx he i) fun _ _ hx =>
    Tracks.bind (LRel.idx h' i) fun _ _ hy => Tracks.bind (hA.add hx hy) fun _ _ hz =>
      LRel.setIdx he i hz

theorem tracks_add (h : LRel r v v') (h' : LRel r w w') :
    Tracks I (LRel r) (PolynomialAlgebra.add A v w) (Abstalg.PolynomialAlgebra.add B v' w') := by
  unfold PolynomialAlgebra.add Abstalg.PolynomialAlgebra.add
  rw [h.length_eq, h'.length_eq]
  refine Tracks.same ?_ ?_
  · by_cases hl : v'.length > w'.length
    · simp only [if_pos hl]
      rw [h'.length_eq]
      exact tracks_addLong hA h h' _
    · simp only [if_neg hl]
      rw [h.length_eq]
      exact tracks_addLong hA h' h _
  · refine tracks_forLoop (r := LRel r) _ (fun i e e' he => ?_) .nil
    refine Tracks.bind (LRel.idx h i) fun _ _ hx =>
      Tracks.bind (LRel.idx h' i) fun _ _ hy => Tracks.bind (hA.add hx hy) fun _ _ hz =>
        Tracks.bind (hA.isZero hz) fun b b' hb => ?_
    subst hb
    exact Tracks.same (Tracks.bind hA.zero fun _ _ h0 =>
      LRel.setIdx (LRel.resize he _ h0) i hz) (.ok he)

theorem tracks_timesTrim (h : LRel r v v') (n : ℕ) :
    Tracks I (LRel r) (timesTrim A v n) (Abstalg.PolynomialAlgebra.timesTrim B v' n) := by
  induction n with
  | zero => exact .ok .nil
  | succ n ih =>
    refine Tracks.bind (LRel.idx h n) fun _ _ hx => Tracks.bind (hA.isZero hx) fun b b' hb => ?_
    subst hb
    exact Tracks.same (Tracks.bind hA.zero fun _ _ h0 => .ok (LRel.resize h _ h0)) ih

end abelian

end PolynomialAlgebra

open _root_.Abstalg.Stateful.PolynomialAlgebra

theorem TracksAbelianGroup.polynomial {A : AbelianGroupOps σ E} {B : Abstalg.AbelianGroupOps F}
    (hA : TracksAbelianGroup I r A B) :
    TracksAbelianGroup I (LRel r) (PolynomialAlgebra.abelianGroup A)
      (Abstalg.PolynomialAlgebra.abelianGroup B) :=
  have hadd {v w v' w'} (h : LRel r v v') (h' : LRel r w w') :=
    PolynomialAlgebra.tracks_add hA h h'
  have hz : Tracks I (LRel r) (pure []) (Res.ok []) := .ok .nil
  have hneg {v v'} (h : LRel r v v') : Tracks I (LRel r)
      (AbelianGroupOps.neg (PolynomialAlgebra.abelianGroup A) v)
      (Abstalg.AbelianGroupOps.neg (Abstalg.PolynomialAlgebra.abelianGroup B) v') :=
    LRel.mapRes h fun h => hA.neg h
  { toTracksDomain := PolynomialAlgebra.tracks_domain hA
    zero := hz
    isZero := fun h => .ok (LRel.isEmpty h)
    add := hadd
    addAssign := hadd
    double := fun h => hadd h h
    utimes := fun n _ _ h => tracks_utimes (LRel r) hz hadd (fun h => hadd h h) n h
    neg := hneg
    negAssign := hneg
    sub := fun h h' => tracks_sub (LRel r) hneg hadd h h'
    subAssign := fun h h' => tracks_subAssign (LRel r) hneg hadd h h'
    times := fun n _ _ h => Tracks.bind (LRel.mapRes (q := r) h fun h => hA.times n h)
      fun v v' h => by rw [List.Forall₂.length_eq h]; exact tracks_timesTrim hA h _ }

theorem PolynomialAlgebra.tracks_mul {A : UnitaryRingOps σ E} {B : Abstalg.UnitaryRingOps F}
    (hA : TracksUnitaryRing I r A B) (h : LRel r v v') (h' : LRel r w w') :
    Tracks I (LRel r) (PolynomialAlgebra.mul A v w) (Abstalg.PolynomialAlgebra.mul B v' w') := by
  unfold PolynomialAlgebra.mul Abstalg.PolynomialAlgebra.mul
  rw [h.length_eq, h'.length_eq, LRel.isEmpty h, LRel.isEmpty h']
  refine Tracks.same (.ok .nil) (Tracks.bind hA.zero fun _ _ h0 => ?_)
  refine tracks_forLoop (r := LRel r) _ (fun i _ _ he => ?_) (LRel.replicate _ h0)
  refine tracks_forLoop (r := LRel r) _ (fun j _ _ he => ?_) he
  exact Tracks.bind (LRel.idx h i) fun _ _ hx => Tracks.bind (LRel.idx h' j) fun _ _ hy =>
      Tracks.bind (hA.mul hx hy) fun _ _ hz => Tracks.bind (LRel.idx he _) fun _ _ hs =>
        Tracks.bind (hA.add hs hz) fun _ _ ht => LRel.setIdx he _ ht

theorem TracksUnitaryRing.polynomial {A : UnitaryRingOps σ E} {B : Abstalg.UnitaryRingOps F}
    (hA : TracksUnitaryRing I r A B) :
    TracksUnitaryRing I (LRel r) (PolynomialAlgebra.unitaryRing A)
      (Abstalg.PolynomialAlgebra.unitaryRing B) :=
  have hmul {v w v' w'} (h : LRel r v v') (h' : LRel r w w') :=
    PolynomialAlgebra.tracks_mul hA h h'
  have hab := hA.toTracksAbelianGroup.polynomial
  have hone : Tracks I (LRel r) (PolynomialAlgebra.unitaryRing A).one
      (Abstalg.PolynomialAlgebra.unitaryRing B).one :=
    Tracks.bind hA.one fun _ _ h => Tracks.check (hA.isZero h)
      (Tracks.bind hA.one fun _ _ h => .ok (.cons h .nil))
  have htry {v v'} (h : LRel r v v') : Tracks I (Option.Rel (LRel r))
      ((PolynomialAlgebra.unitaryRing A).tryInv v)
      ((Abstalg.PolynomialAlgebra.unitaryRing B).tryInv v') := by
    show Tracks I _ (if (v.length == 1) = true then _ else _) (if (v'.length == 1) = true then _ else _)
    rw [List.Forall₂.length_eq h]
    refine Tracks.same (Tracks.bind (LRel.idx h _) fun _ _ h => Tracks.bind (hA.tryInv h)
      fun o o' ho => ?_) (.ok .none)
    cases ho with
    | none => exact .ok .none
    | some ho => exact .ok (.some (.cons ho .nil))
  { hab with
    mul := hmul
    mulAssign := hmul
    square := fun h => hmul h h
    one := hone
    isOne := fun {v v'} h => by
      show Tracks I _ (if (v.length == 1) = true then _ else _) (if (v'.length == 1) = true then _ else _)
      rw [List.Forall₂.length_eq h]
      exact Tracks.same (Tracks.bind (LRel.idx h _) fun _ _ h => hA.isOne h) (.ok rfl)
    tryInv := htry
    invertible := fun h => Tracks.isSome (htry h)
    int := fun n => tracks_int (LRel r) hab.times hone n }

section integral

variable {A : IntegralDomainOps σ E} {B : Abstalg.IntegralDomainOps F}

theorem PolynomialAlgebra.tracks_tryDivLoop (hA : TracksIntegralDomain I r A B) (h' : LRel r w w')
    {a : E} {a' : F} (ha : r a a') (n : ℕ) {q : List E} {q' : List F} (hq : LRel r q q')
    (h : LRel r v v') :
    Tracks I (Option.Rel fun p p' => LRel r p.1 p'.1 ∧ LRel r p.2 p'.2)
      (PolynomialAlgebra.tryDivLoop A w a n q v)
      (Abstalg.PolynomialAlgebra.tryDivLoop B w' a' n q' v') := by
  induction n generalizing q q' v v' with
  | zero => exact .ok (.some ⟨hq, h⟩)
  | succ n ih =>
    unfold PolynomialAlgebra.tryDivLoop Abstalg.PolynomialAlgebra.tryDivLoop
    rw [h'.length_eq]
    refine Tracks.bind (LRel.idx h _) fun _ _ hx => Tracks.bind (hA.tryDiv hx ha) fun o o' ho => ?_
    cases ho with
    | none => exact .ok .none
    | some ho =>
      refine Tracks.bind (LRel.setIdx hq n ho) fun _ _ hq => Tracks.bind (LRel.idx hq n)
        fun _ _ hy => Tracks.bind (hA.neg hy) fun _ _ hb => ?_
      refine Tracks.bind (r := LRel r) (tracks_forLoop (r := LRel r) _ (fun j _ _ he => ?_) h) fun _ _ h => ih hq h
      exact Tracks.bind (LRel.idx h' j) fun _ _ hx => Tracks.bind (hA.mul hx hb) fun _ _ hz =>
        Tracks.bind (LRel.idx he _) fun _ _ hs => Tracks.bind (hA.addAssign hs hz) fun _ _ ht =>
          LRel.setIdx he _ ht

theorem PolynomialAlgebra.tracks_tryDiv (hA : TracksIntegralDomain I r A B) (h : LRel r v v')
    (h' : LRel r w w') : Tracks I (Option.Rel (LRel r)) (PolynomialAlgebra.tryDiv A v w)
      (Abstalg.PolynomialAlgebra.tryDiv B v' w') := by
  unfold PolynomialAlgebra.tryDiv Abstalg.PolynomialAlgebra.tryDiv
  rw [h.length_eq, h'.length_eq, LRel.isEmpty h, LRel.isEmpty h']
  refine Tracks.bind (Tracks.assert rfl) fun _ _ _ => Tracks.same
    (Tracks.same (.ok (.some .nil)) (.ok .none)) ?_
  refine Tracks.bind hA.zero fun _ _ h0 => Tracks.bind (LRel.idx h' _) fun _ _ ha =>
    Tracks.check (hA.isZero ha) ?_
  simp only [List.length_replicate]
  refine Tracks.bind (PolynomialAlgebra.tracks_tryDivLoop hA h' ha _ (LRel.replicate _ h0) h)
    fun o o' ho => ?_
  cases ho with
  | none => exact .ok .none
  | @some a b ho =>
    obtain ⟨q, s⟩ := a
    obtain ⟨q', s'⟩ := b
    exact Tracks.bindIf (LRel.allRes (r := r) (LRel.take ho.2 _) hA.isZero) (Tracks.ok (.some ho.1))
      (Tracks.ok .none)

theorem TracksIntegralDomain.polynomial (hA : TracksIntegralDomain I r A B) :
    TracksIntegralDomain I (LRel r) (PolynomialAlgebra.integralDomain A)
      (Abstalg.PolynomialAlgebra.integralDomain B) :=
  have hring := hA.toTracksUnitaryRing.polynomial
  have hd {v w v' w'} (h : LRel r v v') (h' : LRel r w w') : Tracks I (Option.Rel (LRel r))
      (PolynomialAlgebra.tryDiv A v w) (Abstalg.PolynomialAlgebra.tryDiv B v' w') :=
    PolynomialAlgebra.tracks_tryDiv hA h h'
  have hdiv {v w v' w'} (h : LRel r v v') (h' : LRel r w w') : Tracks I Eq
      (IntegralDomainOps.divisible (PolynomialAlgebra.integralDomain A) v w)
      (Abstalg.IntegralDomainOps.divisible (Abstalg.PolynomialAlgebra.integralDomain B) v' w') :=
    tracks_divisible (LRel r) hring.isZero hd h h'
  { toTracksUnitaryRing := hring
    tryDiv := hd
    divisible := hdiv
    associates := tracks_associates (LRel r) hdiv
    associateRepr := fun {v v'} h => by
      show Tracks I _ (if v.isEmpty = true then _ else _) (if v'.isEmpty = true then _ else _)
      rw [LRel.isEmpty h, List.Forall₂.length_eq h]
      exact Tracks.same (.ok .nil) (Tracks.bind (LRel.idx h _) fun _ _ hx =>
        Tracks.bind (hA.associateCoef hx) fun _ _ hx => LRel.mapRes h fun h => hA.mul h hx)
    associateCoef := fun {v v'} h => by
      refine Tracks.bind (Tracks.assert (by rw [LRel.isEmpty h])) fun _ _ _ => ?_
      rw [List.Forall₂.length_eq h]
      exact Tracks.bind (LRel.idx h _) fun _ _ hx =>
        Tracks.bind (hA.associateCoef hx) fun _ _ hx => .ok (.cons hx .nil) }

end integral

section euclidean

variable {A : FieldOps σ E} {B : Abstalg.FieldOps F}

theorem PolynomialAlgebra.tracks_quoRemLoop (hA : TracksField I r A B) (h' : LRel r w w')
    {a : E} {a' : F} (ha : r a a') (n : ℕ) {q : List E} {q' : List F} (hq : LRel r q q')
    (h : LRel r v v') :
    Tracks I (fun p p' => LRel r p.1 p'.1 ∧ LRel r p.2 p'.2)
      (PolynomialAlgebra.quoRemLoop A w a n q v)
      (Abstalg.PolynomialAlgebra.quoRemLoop B w' a' n q' v') := by
  induction n generalizing q q' v v' with
  | zero => exact .ok ⟨hq, h⟩
  | succ n ih =>
    unfold PolynomialAlgebra.quoRemLoop Abstalg.PolynomialAlgebra.quoRemLoop
    rw [h'.length_eq]
    refine Tracks.bind (LRel.idx h _) fun _ _ hx => Tracks.bind (hA.div hx ha) fun _ _ ho => ?_
    refine Tracks.bind (LRel.setIdx hq n ho) fun _ _ hq => Tracks.bind (LRel.idx hq n)
      fun _ _ hy => Tracks.bind (hA.neg hy) fun _ _ hb => ?_
    refine Tracks.bind (r := LRel r) (tracks_forLoop (r := LRel r) _ (fun j _ _ he => ?_) h) fun _ _ h => ih hq h
    exact Tracks.bind (LRel.idx h' j) fun _ _ hx => Tracks.bind (hA.mul hx hb) fun _ _ hz =>
      Tracks.bind (LRel.idx he _) fun _ _ hs => Tracks.bind (hA.add hs hz) fun _ _ ht =>
        LRel.setIdx he _ ht

theorem PolynomialAlgebra.tracks_trimLen (hA : TracksField I r A B) (h : LRel r v v') (n : ℕ) :
    Tracks I Eq (PolynomialAlgebra.trimLen A v n) (Abstalg.PolynomialAlgebra.trimLen B v' n) := by
  induction n with
  | zero => exact .ok rfl
  | succ n ih =>
    exact Tracks.bind (LRel.idx h n) fun _ _ hx => Tracks.bindIf (hA.isZero hx) ih (.ok rfl)

theorem PolynomialAlgebra.tracks_quoRem (hA : TracksField I r A B) (h : LRel r v v')
    (h' : LRel r w w') : Tracks I (fun p p' => LRel r p.1 p'.1 ∧ LRel r p.2 p'.2)
      (PolynomialAlgebra.quoRem A v w) (Abstalg.PolynomialAlgebra.quoRem B v' w') := by
  unfold PolynomialAlgebra.quoRem Abstalg.PolynomialAlgebra.quoRem
  rw [h.length_eq, h'.length_eq, LRel.isEmpty h']
  refine Tracks.bind (Tracks.assert rfl) fun _ _ _ => Tracks.same (.ok ⟨.nil, h⟩) ?_
  refine Tracks.bind hA.zero fun _ _ h0 => Tracks.bind (LRel.idx h' _) fun _ _ ha =>
    Tracks.check (hA.isZero ha) ?_
  simp only [List.length_replicate]
  refine Tracks.bind (PolynomialAlgebra.tracks_quoRemLoop hA h' ha _ (LRel.replicate _ h0) h) ?_
  rintro ⟨q, s⟩ ⟨q', s'⟩ ⟨hq, hs⟩
  refine Tracks.bind (PolynomialAlgebra.tracks_trimLen hA hs _) fun i j hij => ?_
  subst hij
  exact .ok ⟨hq, LRel.take hs _⟩

theorem TracksField.polynomial (hA : TracksField I r A B) :
    TracksEuclideanDomain I (LRel r) (PolynomialAlgebra.euclidean A)
      (Abstalg.PolynomialAlgebra.euclidean B) :=
  have hdom := hA.toIntegralDomain.polynomial
  have hqr {v w v' w'} (h : LRel r v v') (h' : LRel r w w') :
      Tracks I (fun p p' => LRel r p.1 p'.1 ∧ LRel r p.2 p'.2)
        (PolynomialAlgebra.quoRem A v w) (Abstalg.PolynomialAlgebra.quoRem B v' w') :=
    PolynomialAlgebra.tracks_quoRem hA h h'
  have hq {v w v' w'} (h : LRel r v v') (h' : LRel r w w') : Tracks I (LRel r)
      (EuclideanDomainOps.quo (PolynomialAlgebra.euclidean A) v w)
      (Abstalg.EuclideanDomainOps.quo (Abstalg.PolynomialAlgebra.euclidean B) v' w') :=
    tracks_quo (LRel r) hqr h h'
  have hrem {v w v' w'} (h : LRel r v v') (h' : LRel r w w') : Tracks I (LRel r)
      (EuclideanDomainOps.rem (PolynomialAlgebra.euclidean A) v w)
      (Abstalg.EuclideanDomainOps.rem (Abstalg.PolynomialAlgebra.euclidean B) v' w') :=
    tracks_rem (LRel r) hqr h h'
  have hg {v w v' w'} (h : LRel r v v') (h' : LRel r w w') : Tracks I (LRel r)
      (EuclideanDomainOps.gcd (PolynomialAlgebra.euclidean A) v w)
      (Abstalg.EuclideanDomainOps.gcd (Abstalg.PolynomialAlgebra.euclidean B) v' w') :=
    tracks_gcd (r := LRel r) hdom.isZero hrem h h'
  { toTracksIntegralDomain := hdom
    quoRem := hqr
    quo := hq
    rem := hrem
    reduced := fun h h' => tracks_reduced (LRel r) hdom.isZero hq h h'
    gcd := hg
    lcm := fun h h' => tracks_lcm (LRel r) hdom.isZero hg hq hdom.mul h h'
    extendedGcd := fun h h' => tracks_extendedGcd (r := LRel r) hdom.isZero hdom.one hdom.zero hqr
      hdom.sub hdom.mul h h'
    relativePrimes := fun h h' => tracks_relativePrimes (LRel r) hg hdom.invertible h h' }

end euclidean

end Abstalg.Stateful
