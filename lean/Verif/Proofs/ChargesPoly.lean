import Verif.Proofs.Charges
import Verif.Model.StatefulResidues

/-! # Charging through polynomials and their residues -/

set_option linter.unusedSectionVars false

set_option autoImplicit false

namespace Abstalg.Stateful

open Counted (call lift)

variable [Cfg] {σ : Type} {acc : Account σ} {I : σ → Prop} {E F : Type} {r : E → F → Prop} {v w : List E} {v' w' : List F}

namespace PolynomialAlgebra

section abelian

variable {A : AbelianGroupOps σ E} {B : Abstalg.AbelianGroupOps F} (hA : ChargesAbelianGroup acc I r A B)

include hA

theorem charges_addLong (h : LRel r v v') (h' : LRel r w w') (l : List ℕ) :
    Charges acc I (LRel r)
      (forLoop l v fun e i => do let a ← A.add (← idx e i) (← idx w i); setIdx e i a)
      (Counted.forLoop l v' fun e i => do let a ← call .add (B.add (← lift (idx e i)) (← lift (idx w' i))); lift (setIdx e i a)) := by
  refine charges_forLoop (r := LRel r) l (fun i e e' he => ?_) h
  exact Charges.bind (charges_idx he i) fun _ _ hx =>
    Charges.bind (charges_idx h' i) fun _ _ hy => Charges.bind (hA.add hx hy) fun _ _ hz =>
      charges_setIdx he i hz

theorem charges_add (h : LRel r v v') (h' : LRel r w w') :
    Charges acc I (LRel r) (PolynomialAlgebra.add A v w) (Counted.polyAdd B v' w') := by
  unfold PolynomialAlgebra.add Counted.polyAdd
  rw [h.length_eq, h'.length_eq]
  refine Charges.same ?_ ?_
  · by_cases hl : v'.length > w'.length
    · simp only [if_pos hl]
      rw [h'.length_eq]
      exact charges_addLong hA h h' _
    · simp only [if_neg hl]
      rw [h.length_eq]
      exact charges_addLong hA h' h _
  · refine charges_forLoop (r := LRel r) _ (fun i e e' he => ?_) .nil
    refine Charges.bind (charges_idx h i) fun _ _ hx =>
      Charges.bind (charges_idx h' i) fun _ _ hy => Charges.bind (hA.add hx hy) fun _ _ hz =>
        Charges.bind (hA.isZero hz) fun b b' hb => ?_
    subst hb
    exact Charges.same (Charges.bind hA.zero fun _ _ h0 =>
      charges_setIdx (LRel.resize he _ h0) i hz) (.ok he)

theorem charges_equals (h : LRel r v v') (h' : LRel r w w') :
    Charges acc I Eq ((PolynomialAlgebra.domain A).equals v w) (Counted.polyEquals B v' w') := by
  show Charges acc I Eq (if (v.length != w.length) = true then _ else _) (if (v'.length != w'.length) = true then _ else _)
  rw [List.Forall₂.length_eq h, List.Forall₂.length_eq h']
  exact Charges.same (.ok rfl) (charges_allRes (LRel.zip h h') fun h => hA.equals h.1 h.2)

theorem charges_neg (h : LRel r v v') :
    Charges acc I (LRel r) ((PolynomialAlgebra.abelianGroup A).neg v) (Counted.polyNeg B v') :=
  charges_mapRes h fun h => hA.neg h

theorem charges_sub (h : LRel r v v') (h' : LRel r w w') :
    Charges acc I (LRel r) ((PolynomialAlgebra.abelianGroup A).sub v w) (Counted.polySub B v' w') :=
  Charges.bind (charges_neg hA h') fun _ _ h' => charges_add hA h' h

end abelian

theorem charges_mul {A : UnitaryRingOps σ E} {B : Abstalg.UnitaryRingOps F}
    (hA : ChargesUnitaryRing acc I r A B) (h : LRel r v v') (h' : LRel r w w') :
    Charges acc I (LRel r) (PolynomialAlgebra.mul A v w) (Counted.polyMul B v' w') := by
  unfold PolynomialAlgebra.mul Counted.polyMul
  rw [h.length_eq, h'.length_eq, LRel.isEmpty h, LRel.isEmpty h']
  refine Charges.same (.ok .nil) (Charges.bind hA.zero fun _ _ h0 => ?_)
  refine charges_forLoop (r := LRel r) _ (fun i _ _ he => ?_) (LRel.replicate _ h0)
  refine charges_forLoop (r := LRel r) _ (fun j _ _ he => ?_) he
  exact Charges.bind (charges_idx h i) fun _ _ hx => Charges.bind (charges_idx h' j) fun _ _ hy =>
      Charges.bind (hA.mul hx hy) fun _ _ hz => Charges.bind (charges_idx he _) fun _ _ hs =>
        Charges.bind (hA.add hs hz) fun _ _ ht => charges_setIdx he _ ht

theorem charges_one {A : UnitaryRingOps σ E} {B : Abstalg.UnitaryRingOps F} (hA : ChargesUnitaryRing acc I r A B) :
    Charges acc I (LRel r) (PolynomialAlgebra.unitaryRing A).one (Counted.polyOne B) :=
  Charges.bind hA.one fun _ _ h => Charges.check (hA.isZero h)
    (Charges.bind hA.one fun _ _ h => .ok (.cons h .nil))

theorem charges_tryInv {A : UnitaryRingOps σ E} {B : Abstalg.UnitaryRingOps F} (hA : ChargesUnitaryRing acc I r A B)
    (h : LRel r v v') : Charges acc I (Option.Rel (LRel r)) ((PolynomialAlgebra.unitaryRing A).tryInv v) (Counted.polyTryInv B v') := by
  show Charges acc I _ (if (v.length == 1) = true then _ else _) (if (v'.length == 1) = true then _ else _)
  rw [List.Forall₂.length_eq h]
  refine Charges.same (Charges.bind (charges_idx h _) fun _ _ h => Charges.bind (hA.tryInv h)
    fun o o' ho => ?_) (.ok .none)
  cases ho with
  | none => exact .ok .none
  | some ho => exact .ok (.some (.cons ho .nil))

section integral

variable {A : IntegralDomainOps σ E} {B : Abstalg.IntegralDomainOps F}

theorem charges_tryDivLoop (hA : ChargesIntegralDomain acc I r A B) (h' : LRel r w w')
    {a : E} {a' : F} (ha : r a a') (n : ℕ) {q : List E} {q' : List F} (hq : LRel r q q')
    (h : LRel r v v') :
    Charges acc I (Option.Rel fun p p' => LRel r p.1 p'.1 ∧ LRel r p.2 p'.2)
      (PolynomialAlgebra.tryDivLoop A w a n q v)
      (Counted.tryDivLoop B w' a' n q' v') := by
  induction n generalizing q q' v v' with
  | zero => exact .ok (.some ⟨hq, h⟩)
  | succ n ih =>
    unfold PolynomialAlgebra.tryDivLoop Counted.tryDivLoop
    rw [h'.length_eq]
    refine Charges.bind (charges_idx h _) fun _ _ hx => Charges.bind (hA.tryDiv hx ha) fun o o' ho => ?_
    cases ho with
    | none => exact .ok .none
    | some ho =>
      refine Charges.bind (charges_setIdx hq n ho) fun _ _ hq => Charges.bind (charges_idx hq n)
        fun _ _ hy => Charges.bind (hA.neg hy) fun _ _ hb => ?_
      refine Charges.bind (r := LRel r) (charges_forLoop (r := LRel r) _ (fun j _ _ he => ?_) h) fun _ _ h => ih hq h
      exact Charges.bind (charges_idx h' j) fun _ _ hx => Charges.bind (hA.mul hx hb) fun _ _ hz =>
        Charges.bind (charges_idx he _) fun _ _ hs => Charges.bind (hA.addAssign hs hz) fun _ _ ht =>
          charges_setIdx he _ ht

theorem charges_tryDiv (hA : ChargesIntegralDomain acc I r A B) (h : LRel r v v')
    (h' : LRel r w w') : Charges acc I (Option.Rel (LRel r)) (PolynomialAlgebra.tryDiv A v w)
      (Counted.polyTryDiv B v' w') := by
  unfold PolynomialAlgebra.tryDiv Counted.polyTryDiv
  rw [h.length_eq, h'.length_eq, LRel.isEmpty h, LRel.isEmpty h']
  refine Charges.bind (Charges.assert rfl) fun _ _ _ => Charges.same
    (Charges.same (.ok (.some .nil)) (.ok .none)) ?_
  refine Charges.bind hA.zero fun _ _ h0 => Charges.bind (charges_idx h' _) fun _ _ ha =>
    Charges.check (hA.isZero ha) ?_
  simp only [List.length_replicate]
  refine Charges.bind (charges_tryDivLoop hA h' ha _ (LRel.replicate _ h0) h)
    fun o o' ho => ?_
  cases ho with
  | none => exact .ok .none
  | @some a b ho =>
    obtain ⟨q, s⟩ := a
    obtain ⟨q', s'⟩ := b
    exact Charges.bindIf (charges_allRes (r := r) (LRel.take ho.2 _) hA.isZero) (Charges.ok (.some ho.1))
      (Charges.ok .none)

end integral

section euclidean

variable {A : FieldOps σ E} {B : Abstalg.FieldOps F}

theorem charges_quoRemLoop (hA : ChargesField acc I r A B) (h' : LRel r w w')
    {a : E} {a' : F} (ha : r a a') (n : ℕ) {q : List E} {q' : List F} (hq : LRel r q q')
    (h : LRel r v v') :
    Charges acc I (fun p p' => LRel r p.1 p'.1 ∧ LRel r p.2 p'.2)
      (PolynomialAlgebra.quoRemLoop A w a n q v)
      (Counted.quoRemLoop B w' a' n q' v') := by
  induction n generalizing q q' v v' with
  | zero => exact .ok ⟨hq, h⟩
  | succ n ih =>
    unfold PolynomialAlgebra.quoRemLoop Counted.quoRemLoop
    rw [h'.length_eq]
    refine Charges.bind (charges_idx h _) fun _ _ hx => Charges.bind (hA.div hx ha) fun _ _ ho => ?_
    refine Charges.bind (charges_setIdx hq n ho) fun _ _ hq => Charges.bind (charges_idx hq n)
      fun _ _ hy => Charges.bind (hA.neg hy) fun _ _ hb => ?_
    refine Charges.bind (r := LRel r) (charges_forLoop (r := LRel r) _ (fun j _ _ he => ?_) h) fun _ _ h => ih hq h
    exact Charges.bind (charges_idx h' j) fun _ _ hx => Charges.bind (hA.mul hx hb) fun _ _ hz =>
      Charges.bind (charges_idx he _) fun _ _ hs => Charges.bind (hA.add hs hz) fun _ _ ht =>
        charges_setIdx he _ ht

theorem charges_trimLen (hA : ChargesField acc I r A B) (h : LRel r v v') (n : ℕ) :
    Charges acc I Eq (PolynomialAlgebra.trimLen A v n) (Counted.trimLen B v' n) := by
  induction n with
  | zero => exact .ok rfl
  | succ n ih =>
    exact Charges.bind (charges_idx h n) fun _ _ hx => Charges.bindIf (hA.isZero hx) ih (.ok rfl)

theorem charges_quoRem (hA : ChargesField acc I r A B) (h : LRel r v v')
    (h' : LRel r w w') : Charges acc I (fun p p' => LRel r p.1 p'.1 ∧ LRel r p.2 p'.2)
      (PolynomialAlgebra.quoRem A v w) (Counted.polyQuoRem B v' w') := by
  unfold PolynomialAlgebra.quoRem Counted.polyQuoRem
  rw [h.length_eq, h'.length_eq, LRel.isEmpty h']
  refine Charges.bind (Charges.assert rfl) fun _ _ _ => Charges.same (.ok ⟨.nil, h⟩) ?_
  refine Charges.bind hA.zero fun _ _ h0 => Charges.bind (charges_idx h' _) fun _ _ ha =>
    Charges.check (hA.isZero ha) ?_
  simp only [List.length_replicate]
  refine Charges.bind (charges_quoRemLoop hA h' ha _ (LRel.replicate _ h0) h) ?_
  rintro ⟨q, s⟩ ⟨q', s'⟩ ⟨hq, hs⟩
  refine Charges.bind (charges_trimLen hA hs _) fun i j hij => ?_
  subst hij
  exact .ok ⟨hq, LRel.take hs _⟩

theorem charges_rem (hA : ChargesField acc I r A B) (h : LRel r v v') (h' : LRel r w w') :
    Charges acc I (LRel r) ((PolynomialAlgebra.euclidean A).rem v w) (Counted.polyRem B v' w') :=
  Charges.bind (charges_quoRem hA h h') fun _ _ h => .ok h.2

/-- The remainder of a division that has been charged is shorter than the divisor. -/
theorem charges_quoRem_short (hA : ChargesField acc I r A B) (h : LRel r v v') (h' : LRel r w w') :
    Charges acc I (fun p p' => (LRel r p.1 p'.1 ∧ LRel r p.2 p'.2) ∧ p'.2.length < w'.length)
      (PolynomialAlgebra.quoRem A v w) (Counted.polyQuoRem B v' w') :=
  (charges_quoRem hA h h').and fun p hp => by
    rw [Counted.res_polyQuoRem] at hp
    exact Counted.quoRem_short B (q := p.1) (r := p.2) hp

theorem charges_gcd (hA : ChargesField acc I r A B) (n : ℕ) (h : LRel r v v') (h' : LRel r w w') (hn : w'.length < n) :
    Charges acc I (LRel r) ((PolynomialAlgebra.euclidean A).gcd v w) (Counted.polyGcdWithin B n v' w') := by
  induction n generalizing v w v' w' with
  | zero => omega
  | succ n ih =>
    show Charges acc I _ (gcdDefault (PolynomialAlgebra.euclidean A).isZero (PolynomialAlgebra.euclidean A).rem v w) _
    rw [gcdDefault]
    unfold Counted.polyGcdWithin
    show Charges acc I _ (if w.isEmpty = true then _ else _) _
    rw [LRel.isEmpty h']
    refine Charges.same (.ok h) ?_
    intro s hs
    have key : Charges acc I (LRel r)
        (PolynomialAlgebra.quoRem A v w >>= fun p => gcdDefault (PolynomialAlgebra.euclidean A).isZero
          (PolynomialAlgebra.euclidean A).rem w p.2)
        (Counted.polyQuoRem B v' w' >>= fun p => Counted.polyGcdWithin B n w' p.2) :=
      Charges.bind (charges_quoRem_short hA h h') fun p p' hp => ih h' hp.1.2 (lt_of_lt_of_le hp.2 (by omega))
    have := key s hs
    have he : (PolynomialAlgebra.quoRem A v w >>= fun p => gcdDefault (PolynomialAlgebra.euclidean A).isZero
          (PolynomialAlgebra.euclidean A).rem w p.2) s =
        ((PolynomialAlgebra.euclidean A).rem v w >>= fun c => gcdDefault (PolynomialAlgebra.euclidean A).isZero
          (PolynomialAlgebra.euclidean A).rem w c) s := by
      show St.bind _ _ s = St.bind (St.bind (PolynomialAlgebra.quoRem A v w) _) _ s
      unfold St.bind
      cases PolynomialAlgebra.quoRem A v w s <;> rfl
    rw [he] at this
    exact this

theorem charges_extendedGcd (hA : ChargesField acc I r A B) (n : ℕ) (h : LRel r v v') (h' : LRel r w w') (hn : w'.length < n) :
    Charges acc I (fun p q => LRel r p.1 q.1 ∧ LRel r p.2.1 q.2.1 ∧ LRel r p.2.2 q.2.2)
      ((PolynomialAlgebra.euclidean A).extendedGcd v w) (Counted.polyExtendedGcdWithin B n v' w') := by
  induction n generalizing v w v' w' with
  | zero => omega
  | succ n ih =>
    show Charges acc I _ (extendedGcdDefault (PolynomialAlgebra.euclidean A).isZero (PolynomialAlgebra.euclidean A).one
      (PolynomialAlgebra.euclidean A).zero (PolynomialAlgebra.euclidean A).quoRem (PolynomialAlgebra.euclidean A).sub
      (PolynomialAlgebra.euclidean A).mul v w) _
    rw [extendedGcdDefault]
    unfold Counted.polyExtendedGcdWithin
    show Charges acc I _ (if w.isEmpty = true then _ else _) _
    rw [LRel.isEmpty h']
    refine Charges.same (Charges.bind (charges_one hA.toChargesUnitaryRing) fun _ _ h1 => .ok ⟨h, h1, .nil⟩) ?_
    refine Charges.bind (charges_quoRem_short hA h h') ?_
    rintro ⟨q, s⟩ ⟨q', s'⟩ ⟨⟨hq, hs⟩, hl⟩
    refine Charges.bind (ih h' hs (lt_of_lt_of_le hl (by omega))) ?_
    rintro ⟨g, x, y⟩ ⟨g', x', y'⟩ ⟨hg, hx, hy⟩
    exact Charges.bind (charges_mul hA.toChargesUnitaryRing hy hq) fun _ _ hm =>
      Charges.bind (charges_sub hA.toChargesAbelianGroup hx hm) fun _ _ hz => .ok ⟨hg, hy, hz⟩

end euclidean

end PolynomialAlgebra

namespace QuotientField

open PolynomialAlgebra

variable {A : FieldOps σ E} {B : Abstalg.FieldOps F} (hA : ChargesField acc I r A B) {f : List E} {f' : List F} (hf : LRel r f f')

include hA hf

theorem charges_add (h : LRel r v v') (h' : LRel r w w') :
    Charges acc I (LRel r) ((QuotientField.ops (PolynomialAlgebra.euclidean A) f).add v w) (Counted.residueAdd B f' v' w') :=
  Charges.bind (PolynomialAlgebra.charges_add hA.toChargesAbelianGroup h h') fun _ _ h => charges_rem hA h hf

theorem charges_neg (h : LRel r v v') :
    Charges acc I (LRel r) ((QuotientField.ops (PolynomialAlgebra.euclidean A) f).neg v) (Counted.residueNeg B f' v') :=
  Charges.bind (PolynomialAlgebra.charges_neg hA.toChargesAbelianGroup h) fun _ _ h => charges_rem hA h hf

theorem charges_sub (h : LRel r v v') (h' : LRel r w w') :
    Charges acc I (LRel r) ((QuotientField.ops (PolynomialAlgebra.euclidean A) f).sub v w) (Counted.residueSub B f' v' w') :=
  Charges.bind (charges_neg hA hf h') fun _ _ h' => charges_add hA hf h' h

theorem charges_mul (h : LRel r v v') (h' : LRel r w w') :
    Charges acc I (LRel r) ((QuotientField.ops (PolynomialAlgebra.euclidean A) f).mul v w) (Counted.residueMul B f' v' w') :=
  Charges.bind (PolynomialAlgebra.charges_mul hA.toChargesUnitaryRing h h') fun _ _ h => charges_rem hA h hf

omit hf in
theorem charges_isZero (h : LRel r v v') :
    Charges acc I Eq ((QuotientField.ops (PolynomialAlgebra.euclidean A) f).isZero v) (Counted.residueIsZero B v') :=
  charges_equals hA.toChargesAbelianGroup h .nil

theorem charges_inv (h : LRel r v v') :
    Charges acc I (LRel r) ((QuotientField.ops (PolynomialAlgebra.euclidean A) f).inv v) (Counted.residueInv B f' v') := by
  refine Charges.bind (charges_isZero (f := f) hA h) fun b b' hb => Charges.bind (Charges.assert (by rw [hb])) fun _ _ _ => ?_
  refine Charges.bind (charges_extendedGcd hA _ hf h (Nat.lt_succ_self _)) ?_
  rintro ⟨g, x, y⟩ ⟨g', x', y'⟩ ⟨hg, hx, hy⟩
  refine Charges.bind (PolynomialAlgebra.charges_tryInv hA.toChargesUnitaryRing hg) fun o o' ho => ?_
  refine Charges.bind (r := LRel r) (Both.charges ?_) fun _ _ ha => charges_mul hA hf ha hy
  cases ho with
  | none => trivial
  | some h => exact h

theorem charges_div (h : LRel r v v') (h' : LRel r w w') :
    Charges acc I (LRel r) ((QuotientField.ops (PolynomialAlgebra.euclidean A) f).div v w) (Counted.residueDiv B f' v' w') :=
  Charges.bind (charges_inv hA hf h') fun _ _ h' => charges_mul hA hf h h'

end QuotientField

end Abstalg.Stateful
