import Verif.Proofs.SimTraits
import Verif.Model.PolynomialAlgebra

/-! # Following through polynomials -/

set_option linter.unusedSectionVars false

set_option autoImplicit false

namespace Abstalg

variable {c₁ c₂ : Cfg} {E F : Type} {r : E → F → Prop} {v w : List E} {v' w' : List F}

namespace PolynomialAlgebra

theorem follows_leadingCoef (h : LRel r v v') :
    Follows (Option.Rel r) (leadingCoef v) (leadingCoef v') := by
  unfold leadingCoef
  rw [LRel.isEmpty h, h.length_eq]
  exact Follows.same (.ok .none) (Follows.bind (LRel.idx h _) fun _ _ h => .ok (.some h))

section abelian

variable {A : @AbelianGroupOps c₁ E} {B : @AbelianGroupOps c₂ F} (hA : FollowsAbelianGroup r A B)

include hA

theorem follows_domain : FollowsDomain (LRel r) (@PolynomialAlgebra.domain E c₁ A)
    (@PolynomialAlgebra.domain F c₂ B) where
  contains := fun {v v'} h => by
    show Follows Eq (if v.isEmpty = true then _ else _) (if v'.isEmpty = true then _ else _)
    rw [LRel.isEmpty h, List.Forall₂.length_eq h]
    refine Follows.same (.ok rfl) (Follows.bindIf (LRel.allRes h fun h' => hA.contains h') ?_ (.ok rfl))
    exact Follows.bind (LRel.idx h _) fun _ _ h' => Follows.not (hA.isZero h')
  equals := fun {v w v' w'} h h' => by
    show Follows Eq (if (v.length != w.length) = true then _ else _)
      (if (v'.length != w'.length) = true then _ else _)
    rw [List.Forall₂.length_eq h, List.Forall₂.length_eq h']
    exact Follows.same (.ok rfl) ((LRel.zip h h').allRes fun h => hA.equals h.1 h.2)

theorem follows_addLong (h : LRel r v v') (h' : LRel r w w') (l : List ℕ) :
    Follows (LRel r)
      (forLoop l v fun e i => do let a ← A.add (← idx e i) (← idx w i); setIdx e i a)
      (forLoop l v' fun e i => do let a ← B.add (← idx e i) (← idx w' i); setIdx e i a) := by
  refine follows_forLoop (r := LRel r) l (fun i e e' he => ?_) h
  exact Follows.bind (LRel.idx he i) fun _ _ hx =>
    Follows.bind (LRel.idx h' i) fun _ _ hy => Follows.bind (hA.add hx hy) fun _ _ hz =>
      LRel.setIdx he i hz

theorem follows_add (h : LRel r v v') (h' : LRel r w w') :
    Follows (LRel r) (@PolynomialAlgebra.add E c₁ A v w) (@PolynomialAlgebra.add F c₂ B v' w') := by
  unfold PolynomialAlgebra.add
  rw [h.length_eq, h'.length_eq]
  refine Follows.same ?_ ?_
  · by_cases hl : v'.length > w'.length
    · simp only [if_pos hl]
      rw [h'.length_eq]
      exact follows_addLong hA h h' _
    · simp only [if_neg hl]
      rw [h.length_eq]
      exact follows_addLong hA h' h _
  · refine follows_forLoop (r := LRel r) _ (fun i e e' he => ?_) .nil
    refine Follows.bind (LRel.idx h i) fun _ _ hx =>
      Follows.bind (LRel.idx h' i) fun _ _ hy => Follows.bind (hA.add hx hy) fun _ _ hz =>
        Follows.bind (hA.isZero hz) fun b b' hb => ?_
    subst hb
    exact Follows.same (Follows.bind hA.zero fun _ _ h0 =>
      LRel.setIdx (LRel.resize he _ h0) i hz) (.ok he)

theorem follows_timesTrim (h : LRel r v v') (n : ℕ) :
    Follows (LRel r) (@timesTrim E c₁ A v n) (@timesTrim F c₂ B v' n) := by
  induction n with
  | zero => exact .ok .nil
  | succ n ih =>
    refine Follows.bind (LRel.idx h n) fun _ _ hx => Follows.bind (hA.isZero hx) fun b b' hb => ?_
    subst hb
    exact Follows.same (Follows.bind hA.zero fun _ _ h0 => .ok (LRel.resize h _ h0)) ih

end abelian

end PolynomialAlgebra

open PolynomialAlgebra

theorem FollowsAbelianGroup.polynomial {A : @AbelianGroupOps c₁ E} {B : @AbelianGroupOps c₂ F}
    (hA : FollowsAbelianGroup r A B) :
    FollowsAbelianGroup (LRel r) (@PolynomialAlgebra.abelianGroup E c₁ A)
      (@PolynomialAlgebra.abelianGroup F c₂ B) :=
  have hadd {v w v' w'} (h : LRel r v v') (h' : LRel r w w') :=
    PolynomialAlgebra.follows_add hA h h'
  have hz : Follows (LRel r) (Res.ok []) (Res.ok []) := .ok .nil
  have hneg {v v'} (h : LRel r v v') : Follows (LRel r)
      (@AbelianGroupOps.neg c₁ _ (@PolynomialAlgebra.abelianGroup E c₁ A) v)
      (@AbelianGroupOps.neg c₂ _ (@PolynomialAlgebra.abelianGroup F c₂ B) v') :=
    h.mapRes fun h => hA.neg h
  { toFollowsDomain := PolynomialAlgebra.follows_domain hA
    zero := hz
    isZero := fun h => .ok (LRel.isEmpty h)
    add := hadd
    addAssign := hadd
    double := fun h => hadd h h
    utimes := fun n _ _ h => follows_utimes (LRel r) hz hadd (fun h => hadd h h) n h
    neg := hneg
    negAssign := hneg
    sub := fun h h' => follows_sub (LRel r) hneg hadd h h'
    subAssign := fun h h' => follows_subAssign (LRel r) hneg hadd h h'
    times := fun n _ _ h => Follows.bind (LRel.mapRes (s := r) h fun h => hA.times n h)
      fun v v' h => by rw [List.Forall₂.length_eq h]; exact follows_timesTrim hA h _ }

theorem PolynomialAlgebra.follows_mul {A : @UnitaryRingOps c₁ E} {B : @UnitaryRingOps c₂ F}
    (hA : FollowsUnitaryRing r A B) (h : LRel r v v') (h' : LRel r w w') :
    Follows (LRel r) (@PolynomialAlgebra.mul E c₁ A v w) (@PolynomialAlgebra.mul F c₂ B v' w') := by
  unfold PolynomialAlgebra.mul
  rw [h.length_eq, h'.length_eq, LRel.isEmpty h, LRel.isEmpty h']
  refine Follows.same (.ok .nil) (Follows.bind hA.zero fun _ _ h0 => ?_)
  refine follows_forLoop (r := LRel r) _ (fun i _ _ he => ?_) (LRel.replicate _ h0)
  refine follows_forLoop (r := LRel r) _ (fun j _ _ he => ?_) he
  exact Follows.bind (LRel.idx h i) fun _ _ hx => Follows.bind (LRel.idx h' j) fun _ _ hy =>
      Follows.bind (hA.mul hx hy) fun _ _ hz => Follows.bind (LRel.idx he _) fun _ _ hs =>
        Follows.bind (hA.add hs hz) fun _ _ ht => LRel.setIdx he _ ht

theorem FollowsUnitaryRing.polynomial {A : @UnitaryRingOps c₁ E} {B : @UnitaryRingOps c₂ F}
    (hA : FollowsUnitaryRing r A B) :
    FollowsUnitaryRing (LRel r) (@PolynomialAlgebra.unitaryRing E c₁ A)
      (@PolynomialAlgebra.unitaryRing F c₂ B) :=
  have hmul {v w v' w'} (h : LRel r v v') (h' : LRel r w w') :=
    PolynomialAlgebra.follows_mul hA h h'
  have hab := hA.toFollowsAbelianGroup.polynomial
  have hone : Follows (LRel r) (@PolynomialAlgebra.unitaryRing E c₁ A).one
      (@PolynomialAlgebra.unitaryRing F c₂ B).one :=
    Follows.bind hA.one fun _ _ h => Follows.check (hA.isZero h)
      (Follows.bind hA.one fun _ _ h => .ok (.cons h .nil))
  have htry {v v'} (h : LRel r v v') : Follows (Option.Rel (LRel r))
      ((@PolynomialAlgebra.unitaryRing E c₁ A).tryInv v)
      ((@PolynomialAlgebra.unitaryRing F c₂ B).tryInv v') := by
    show Follows _ (if (v.length == 1) = true then _ else _) (if (v'.length == 1) = true then _ else _)
    rw [List.Forall₂.length_eq h]
    refine Follows.same (Follows.bind (LRel.idx h _) fun _ _ h => Follows.bind (hA.tryInv h)
      fun o o' ho => ?_) (.ok .none)
    cases ho with
    | none => exact .ok .none
    | some ho => exact .ok (.some (.cons ho .nil))
  { hab with
    mul := hmul
    mulAssign := hmul
    square := fun h => hmul h h
    one := hone
    isOne := fun {v v'} h => by
      show Follows _ (if (v.length == 1) = true then _ else _) (if (v'.length == 1) = true then _ else _)
      rw [List.Forall₂.length_eq h]
      exact Follows.same (Follows.bind (LRel.idx h _) fun _ _ h => hA.isOne h) (.ok rfl)
    tryInv := htry
    invertible := fun h => Follows.isSome (htry h)
    int := fun n => follows_int (LRel r) hab.times hone n }

section integral

variable {A : @IntegralDomainOps c₁ E} {B : @IntegralDomainOps c₂ F}

theorem PolynomialAlgebra.follows_tryDivLoop (hA : FollowsIntegralDomain r A B) (h' : LRel r w w')
    {a : E} {a' : F} (ha : r a a') (n : ℕ) {q : List E} {q' : List F} (hq : LRel r q q')
    (h : LRel r v v') :
    Follows (Option.Rel fun p p' => LRel r p.1 p'.1 ∧ LRel r p.2 p'.2)
      (@PolynomialAlgebra.tryDivLoop E c₁ A w a n q v)
      (@PolynomialAlgebra.tryDivLoop F c₂ B w' a' n q' v') := by
  induction n generalizing q q' v v' with
  | zero => exact .ok (.some ⟨hq, h⟩)
  | succ n ih =>
    unfold tryDivLoop
    rw [h'.length_eq]
    refine Follows.bind (LRel.idx h _) fun _ _ hx => Follows.bind (hA.tryDiv hx ha) fun o o' ho => ?_
    cases ho with
    | none => exact .ok .none
    | some ho =>
      refine Follows.bind (LRel.setIdx hq n ho) fun _ _ hq => Follows.bind (LRel.idx hq n)
        fun _ _ hy => Follows.bind (hA.neg hy) fun _ _ hb => ?_
      refine Follows.bind (r := LRel r) (follows_forLoop (r := LRel r) _ (fun j _ _ he => ?_) h) fun _ _ h => ih hq h
      exact Follows.bind (LRel.idx h' j) fun _ _ hx => Follows.bind (hA.mul hx hb) fun _ _ hz =>
        Follows.bind (LRel.idx he _) fun _ _ hs => Follows.bind (hA.addAssign hs hz) fun _ _ ht =>
          LRel.setIdx he _ ht

theorem PolynomialAlgebra.follows_tryDiv (hA : FollowsIntegralDomain r A B) (h : LRel r v v')
    (h' : LRel r w w') : Follows (Option.Rel (LRel r)) (@PolynomialAlgebra.tryDiv E c₁ A v w)
      (@PolynomialAlgebra.tryDiv F c₂ B v' w') := by
  unfold PolynomialAlgebra.tryDiv
  rw [h.length_eq, h'.length_eq, LRel.isEmpty h, LRel.isEmpty h']
  refine Follows.bind (Follows.assert rfl) fun _ _ _ => Follows.same
    (Follows.same (.ok (.some .nil)) (.ok .none)) ?_
  refine Follows.bind hA.zero fun _ _ h0 => Follows.bind (LRel.idx h' _) fun _ _ ha =>
    Follows.check (hA.isZero ha) ?_
  simp only [List.length_replicate]
  refine Follows.bind (PolynomialAlgebra.follows_tryDivLoop hA h' ha _ (LRel.replicate _ h0) h)
    fun o o' ho => ?_
  cases ho with
  | none => exact .ok .none
  | @some a b ho =>
    obtain ⟨q, s⟩ := a
    obtain ⟨q', s'⟩ := b
    exact Follows.bindIf (LRel.allRes (r := r) (LRel.take ho.2 _) hA.isZero) (Follows.ok (.some ho.1))
      (Follows.ok .none)

theorem FollowsIntegralDomain.polynomial (hA : FollowsIntegralDomain r A B) :
    FollowsIntegralDomain (LRel r) (@PolynomialAlgebra.integralDomain E c₁ A)
      (@PolynomialAlgebra.integralDomain F c₂ B) :=
  have hring := hA.toFollowsUnitaryRing.polynomial
  have hd {v w v' w'} (h : LRel r v v') (h' : LRel r w w') : Follows (Option.Rel (LRel r))
      (@PolynomialAlgebra.tryDiv E c₁ A v w) (@PolynomialAlgebra.tryDiv F c₂ B v' w') :=
    PolynomialAlgebra.follows_tryDiv hA h h'
  have hdiv {v w v' w'} (h : LRel r v v') (h' : LRel r w w') : Follows Eq
      (@IntegralDomainOps.divisible c₁ _ (@PolynomialAlgebra.integralDomain E c₁ A) v w)
      (@IntegralDomainOps.divisible c₂ _ (@PolynomialAlgebra.integralDomain F c₂ B) v' w') :=
    follows_divisible (LRel r) hring.isZero hd h h'
  { toFollowsUnitaryRing := hring
    tryDiv := hd
    divisible := hdiv
    associates := follows_associates (LRel r) hdiv
    associateRepr := fun {v v'} h => by
      show Follows _ (if v.isEmpty = true then _ else _) (if v'.isEmpty = true then _ else _)
      rw [LRel.isEmpty h, List.Forall₂.length_eq h]
      exact Follows.same (.ok .nil) (Follows.bind (LRel.idx h _) fun _ _ hx =>
        Follows.bind (hA.associateCoef hx) fun _ _ hx => LRel.mapRes h fun h => hA.mul h hx)
    associateCoef := fun {v v'} h => by
      refine Follows.bind (Follows.assert (by rw [LRel.isEmpty h])) fun _ _ _ => ?_
      rw [List.Forall₂.length_eq h]
      exact Follows.bind (LRel.idx h _) fun _ _ hx =>
        Follows.bind (hA.associateCoef hx) fun _ _ hx => .ok (.cons hx .nil) }

end integral

section euclidean

variable {A : @FieldOps c₁ E} {B : @FieldOps c₂ F}

theorem PolynomialAlgebra.follows_quoRemLoop (hA : FollowsField r A B) (h' : LRel r w w')
    {a : E} {a' : F} (ha : r a a') (n : ℕ) {q : List E} {q' : List F} (hq : LRel r q q')
    (h : LRel r v v') :
    Follows (fun p p' => LRel r p.1 p'.1 ∧ LRel r p.2 p'.2)
      (@PolynomialAlgebra.quoRemLoop E c₁ A w a n q v)
      (@PolynomialAlgebra.quoRemLoop F c₂ B w' a' n q' v') := by
  induction n generalizing q q' v v' with
  | zero => exact .ok ⟨hq, h⟩
  | succ n ih =>
    unfold quoRemLoop
    rw [h'.length_eq]
    refine Follows.bind (LRel.idx h _) fun _ _ hx => Follows.bind (hA.div hx ha) fun _ _ ho => ?_
    refine Follows.bind (LRel.setIdx hq n ho) fun _ _ hq => Follows.bind (LRel.idx hq n)
      fun _ _ hy => Follows.bind (hA.neg hy) fun _ _ hb => ?_
    refine Follows.bind (r := LRel r) (follows_forLoop (r := LRel r) _ (fun j _ _ he => ?_) h) fun _ _ h => ih hq h
    exact Follows.bind (LRel.idx h' j) fun _ _ hx => Follows.bind (hA.mul hx hb) fun _ _ hz =>
      Follows.bind (LRel.idx he _) fun _ _ hs => Follows.bind (hA.add hs hz) fun _ _ ht =>
        LRel.setIdx he _ ht

theorem PolynomialAlgebra.follows_trimLen (hA : FollowsField r A B) (h : LRel r v v') (n : ℕ) :
    Follows Eq (@PolynomialAlgebra.trimLen E c₁ A v n) (@PolynomialAlgebra.trimLen F c₂ B v' n) := by
  induction n with
  | zero => exact .ok rfl
  | succ n ih =>
    exact Follows.bind (LRel.idx h n) fun _ _ hx => Follows.bindIf (hA.isZero hx) ih (.ok rfl)

theorem PolynomialAlgebra.follows_quoRem (hA : FollowsField r A B) (h : LRel r v v')
    (h' : LRel r w w') : Follows (fun p p' => LRel r p.1 p'.1 ∧ LRel r p.2 p'.2)
      (@PolynomialAlgebra.quoRem E c₁ A v w) (@PolynomialAlgebra.quoRem F c₂ B v' w') := by
  unfold PolynomialAlgebra.quoRem
  rw [h.length_eq, h'.length_eq, LRel.isEmpty h']
  refine Follows.bind (Follows.assert rfl) fun _ _ _ => Follows.same (.ok ⟨.nil, h⟩) ?_
  refine Follows.bind hA.zero fun _ _ h0 => Follows.bind (LRel.idx h' _) fun _ _ ha =>
    Follows.check (hA.isZero ha) ?_
  simp only [List.length_replicate]
  refine Follows.bind (PolynomialAlgebra.follows_quoRemLoop hA h' ha _ (LRel.replicate _ h0) h) ?_
  rintro ⟨q, s⟩ ⟨q', s'⟩ ⟨hq, hs⟩
  refine Follows.bind (PolynomialAlgebra.follows_trimLen hA hs _) fun i j hij => ?_
  subst hij
  exact .ok ⟨hq, LRel.take hs _⟩

theorem FollowsField.polynomial (hA : FollowsField r A B) :
    FollowsEuclideanDomain (LRel r) (@PolynomialAlgebra.euclidean E c₁ A)
      (@PolynomialAlgebra.euclidean F c₂ B) :=
  have hdom := hA.toIntegralDomain.polynomial
  have hqr {v w v' w'} (h : LRel r v v') (h' : LRel r w w') :
      Follows (fun p p' => LRel r p.1 p'.1 ∧ LRel r p.2 p'.2)
        (@PolynomialAlgebra.quoRem E c₁ A v w) (@PolynomialAlgebra.quoRem F c₂ B v' w') :=
    PolynomialAlgebra.follows_quoRem hA h h'
  have hq {v w v' w'} (h : LRel r v v') (h' : LRel r w w') : Follows (LRel r)
      (@EuclideanDomainOps.quo c₁ _ (@PolynomialAlgebra.euclidean E c₁ A) v w)
      (@EuclideanDomainOps.quo c₂ _ (@PolynomialAlgebra.euclidean F c₂ B) v' w') :=
    follows_quo (LRel r) hqr h h'
  have hrem {v w v' w'} (h : LRel r v v') (h' : LRel r w w') : Follows (LRel r)
      (@EuclideanDomainOps.rem c₁ _ (@PolynomialAlgebra.euclidean E c₁ A) v w)
      (@EuclideanDomainOps.rem c₂ _ (@PolynomialAlgebra.euclidean F c₂ B) v' w') :=
    follows_rem (LRel r) hqr h h'
  have hg {v w v' w'} (h : LRel r v v') (h' : LRel r w w') : Follows (LRel r)
      (@EuclideanDomainOps.gcd c₁ _ (@PolynomialAlgebra.euclidean E c₁ A) v w)
      (@EuclideanDomainOps.gcd c₂ _ (@PolynomialAlgebra.euclidean F c₂ B) v' w') :=
    follows_gcd (r := LRel r) hdom.isZero hrem h h'
  { toFollowsIntegralDomain := hdom
    quoRem := hqr
    quo := hq
    rem := hrem
    reduced := fun h h' => follows_reduced (LRel r) hdom.isZero hq h h'
    gcd := hg
    lcm := fun h h' => follows_lcm (LRel r) hdom.isZero hg hq hdom.mul h h'
    extendedGcd := fun h h' => follows_extendedGcd (r := LRel r) hdom.isZero hdom.one hdom.zero hqr
      hdom.sub hdom.mul h h'
    relativePrimes := fun h h' => follows_relativePrimes (LRel r) hg hdom.invertible h h' }

end euclidean

end Abstalg
