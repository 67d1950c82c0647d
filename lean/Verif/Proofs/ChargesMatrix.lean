import Verif.Proofs.Charges

/-! # Charging through matrices -/

set_option linter.unusedSectionVars false

set_option autoImplicit false

namespace Abstalg.Stateful

open Counted (call lift)

variable [Cfg] {σ : Type} {acc : Account σ} {I : σ → Prop} {E F : Type} {r : E → F → Prop} {v w : List E} {v' w' : List F}

namespace MatrixRing

theorem charges_transpose (size : ℕ) (h : LRel r v v') : Charges acc I (LRel r)
    (liftM (Abstalg.MatrixRing.transpose size v)) (lift (Abstalg.MatrixRing.transpose size v')) :=
  (both_transpose size h).charges

theorem charges_swapRows (size : ℕ) (h : LRel r v v') (i j : ℕ) : Charges acc I (LRel r)
    (liftM (Abstalg.MatrixRing.swapRows size v i j)) (lift (Abstalg.MatrixRing.swapRows size v' i j)) := by
  refine Both.charges ?_
  refine Both.forLoop (r := LRel r) _ (fun _ _ _ he => ?_) h
  exact Both.swapIdx he _ _

variable {A : FieldOps σ E} {B : Abstalg.FieldOps F} (hA : ChargesField acc I r A B) (size : ℕ)

include hA

theorem charges_mulRow (h : LRel r v v') (row : ℕ) {a : E} {a' : F} (ha : r a a') :
    Charges acc I (LRel r) (mulRow A size v row a) (Counted.mulRow B size v' row a') := by
  unfold mulRow
  rw [h.length_eq]
  refine Charges.bind (Charges.assert rfl) fun _ _ _ => ?_
  refine charges_forLoop (r := LRel r) _ (fun i _ _ he => ?_) h
  exact Charges.bind (charges_idx he _) fun _ _ hx => Charges.bind (hA.mulAssign hx ha) fun _ _ hy =>
    charges_setIdx he _ hy

theorem charges_addRows (h : LRel r v v') (i j : ℕ) {a : E} {a' : F} (ha : r a a') :
    Charges acc I (LRel r) (addRows A size v i j a) (Counted.addRows B size v' i j a') := by
  refine charges_forLoop (r := LRel r) _ (fun i _ _ he => ?_) h
  exact Charges.bind (charges_idx he _) fun _ _ hx => Charges.bind (hA.mul hx ha) fun _ _ hy =>
    Charges.bind (charges_idx he _) fun _ _ hz => Charges.bind (hA.addAssign hz hy) fun _ _ ht =>
      charges_setIdx he _ ht

theorem charges_findRow (h : LRel r v v') (col : ℕ) :
    Charges acc I Eq (findRow A size v col) (Counted.findRow B size v' col) :=
  charges_findRes _ fun _ => Charges.bind (charges_idx h _) fun _ _ hx => Charges.not (hA.isZero hx)

theorem charges_detClear (h : LRel r v v') (col : ℕ) :
    Charges acc I (LRel r) (detClear A size v col) (Counted.detClear B size v' col) := by
  refine charges_forLoop (r := LRel r) _ (fun i _ _ he => ?_) h
  exact Charges.bind (charges_idx he _) fun _ _ hx => Charges.bindIf (hA.isZero hx) (.ok he)
    (Charges.bind (hA.neg hx) fun _ _ hy => charges_addRows hA size he _ _ hy)

theorem charges_detLoop (l : List ℕ) (h : LRel r v v') {a : E} {a' : F} (ha : r a a') :
    Charges acc I r (detLoop A size l v a) (Counted.detLoop B size l v' a') := by
  induction l generalizing v v' a a' with
  | nil => exact .ok ha
  | cons col l ih =>
    unfold detLoop
    refine Charges.bind (charges_findRow hA size h col) fun o o' ho => ?_
    subst ho
    cases o with
    | none => exact hA.zero
    | some row =>
      have hk {v v'} (h : LRel r v v') : Charges acc I r
          (do
            let coef ← idx v (col * size + col)
            let det ← A.mulAssign a coef
            let coef ← FieldOps.inv A coef
            let elem ← mulRow A size v col coef
            let elem ← detClear A size elem col
            detLoop A size l elem det)
          (do
            let coef ← lift (idx v' (col * size + col))
            let det ← call .mulAssign (B.mulAssign a' coef)
            let coef ← call .inv (Abstalg.FieldOps.inv B coef)
            let elem ← Counted.mulRow B size v' col coef
            let elem ← Counted.detClear B size elem col
            Counted.detLoop B size l elem det) := by
        refine Charges.bind (charges_idx h _) fun _ _ hx => Charges.bind (hA.mulAssign ha hx) fun _ _ hd => ?_
        exact Charges.bind (hA.inv hx) fun _ _ hy => Charges.bind (charges_mulRow hA size h col hy)
          fun _ _ h => Charges.bind (charges_detClear hA size h col) fun _ _ h => ih h hd
      exact Charges.same (Charges.bind (charges_swapRows size h _ _) fun _ _ h => hk h)
        (Charges.bind (.ok h) fun _ _ h => hk h)

theorem charges_determinant (h : LRel r v v') :
    Charges acc I r (determinant A size v) (Counted.determinant B size v') :=
  Charges.bind hA.one fun _ _ h1 => charges_detLoop hA size _ h h1

theorem charges_mul (h : LRel r v v') (h' : LRel r w w') :
    Charges acc I (LRel r) (MatrixRing.mul A size v w) (Counted.matMul B size v' w') := by
  unfold MatrixRing.mul
  rw [h.length_eq, h'.length_eq]
  refine Charges.bind (Charges.assert rfl) fun _ _ _ => Charges.bind (charges_transpose size h')
    fun w w' h' => ?_
  refine charges_forLoop (r := LRel r) _ (fun i _ _ he => ?_) .nil
  refine charges_forLoop (r := LRel r) _ (fun j _ _ he => ?_) he
  refine Charges.bind hA.zero fun _ _ h0 => Charges.bind (r := r)
    (charges_forLoop (r := r) _ (fun k _ _ hs => ?_) h0) fun _ _ hs => .ok (LRel.append he (.cons hs .nil))
  exact Charges.bind (charges_idx h _) fun _ _ hx => Charges.bind (charges_idx h' _) fun _ _ hy =>
    Charges.bind (hA.mul hx hy) fun _ _ hz => hA.addAssign hs hz

theorem charges_zero : Charges acc I (LRel r) (MatrixRing.zero A size) (Counted.matZero B size) :=
  Charges.bind hA.zero fun _ _ h => .ok (LRel.replicate _ h)

theorem charges_intOne :
    Charges acc I (LRel r) (MatrixRing.int A size 1) (Counted.matInt B size 1) :=
  Charges.bind hA.intOne fun _ _ hx => Charges.bind (charges_zero hA size) fun _ _ h => by
    refine charges_forLoop (r := LRel r) _ (fun _ _ _ he => ?_) h
    exact charges_setIdx he _ hx

theorem charges_invClear (h : LRel r v v') (h' : LRel r w w') (col : ℕ) :
    Charges acc I (fun p q => LRel r p.1 q.1 ∧ LRel r p.2 q.2)
      (invClear A size v w col) (Counted.invClear B size v' w' col) := by
  refine charges_forLoop (r := fun (p : List E × List E) (q : List F × List F) => LRel r p.1 q.1 ∧ LRel r p.2 q.2) _ (fun i p q he => ?_) ⟨h, h'⟩
  obtain ⟨a, b⟩ := p
  obtain ⟨a', b'⟩ := q
  obtain ⟨ha, hb⟩ := he
  exact Charges.same (.ok ⟨ha, hb⟩) (Charges.bind (charges_idx ha _) fun _ _ hx =>
    Charges.bindIf (hA.isZero hx) (.ok ⟨ha, hb⟩) (Charges.bind (hA.neg hx) fun _ _ hy =>
      Charges.bind (charges_addRows hA size ha _ _ hy) fun _ _ ha =>
        Charges.bind (charges_addRows hA size hb _ _ hy) fun _ _ hb => .ok ⟨ha, hb⟩))

theorem charges_invLoop (l : List ℕ) (h : LRel r v v') (h' : LRel r w w') :
    Charges acc I (Option.Rel fun p q => LRel r p.1 q.1 ∧ LRel r p.2 q.2)
      (invLoop A size l v w) (Counted.invLoop B size l v' w') := by
  induction l generalizing v v' w w' with
  | nil => exact .ok (.some ⟨h, h'⟩)
  | cons col l ih =>
    unfold invLoop
    refine Charges.bind (charges_findRow hA size h col) fun o o' ho => ?_
    subst ho
    cases o with
    | none => exact .ok .none
    | some row =>
      have hk {v v' w w'} (h : LRel r v v') (h' : LRel r w w') :
          Charges acc I (Option.Rel fun p q => LRel r p.1 q.1 ∧ LRel r p.2 q.2)
          (do
            let coef ← FieldOps.inv A (← idx v (col * size + col))
            let elem ← mulRow A size v col coef
            let invs ← mulRow A size w col coef
            let (elem, invs) ← invClear A size elem invs col
            invLoop A size l elem invs)
          (do
            let coef ← call .inv (Abstalg.FieldOps.inv B (← lift (idx v' (col * size + col))))
            let elem ← Counted.mulRow B size v' col coef
            let invs ← Counted.mulRow B size w' col coef
            let (elem, invs) ← Counted.invClear B size elem invs col
            Counted.invLoop B size l elem invs) := by
        refine Charges.bind (charges_idx h _) fun _ _ hx => Charges.bind (hA.inv hx) fun _ _ hy =>
          Charges.bind (charges_mulRow hA size h col hy) fun _ _ h =>
            Charges.bind (charges_mulRow hA size h' col hy) fun _ _ h' =>
              Charges.bind (charges_invClear hA size h h' col) ?_
        rintro ⟨a, b⟩ ⟨a', b'⟩ ⟨ha, hb⟩
        exact ih ha hb
      exact Charges.same (Charges.bind (charges_swapRows size h _ _) fun _ _ h =>
        Charges.bind (charges_swapRows size h' _ _) fun _ _ h' =>
          Charges.bind (r := fun (p : List E × List E) (q : List F × List F) => LRel r p.1 q.1 ∧ LRel r p.2 q.2)
            (.ok ⟨h, h'⟩) fun p p' hp => hk hp.1 hp.2)
        (Charges.bind (r := fun (p : List E × List E) (q : List F × List F) => LRel r p.1 q.1 ∧ LRel r p.2 q.2)
          (.ok ⟨h, h'⟩) fun p p' hp => hk hp.1 hp.2)

theorem charges_isOne (h : LRel r v v') :
    Charges acc I Eq (MatrixRing.isOne A size v) (Counted.matIsOne B size v') := by
  refine Charges.bind (charges_intOne hA size) fun w w' h' => ?_
  refine Charges.bind (Charges.assert (b := v.length == size * size && w.length == size * size)
    (b' := v'.length == size * size && w'.length == size * size) ?_) fun _ _ _ => ?_
  · rw [List.Forall₂.length_eq h, List.Forall₂.length_eq h']
  · exact charges_allRes (LRel.zip h h') fun h => hA.equals h.1 h.2

theorem charges_tryInv (h : LRel r v v') :
    Charges acc I (Option.Rel (LRel r)) (MatrixRing.tryInv A size v)
      (Counted.matTryInv B size v') := by
  refine Charges.bind (charges_intOne hA size) fun _ _ h1 =>
    Charges.bind (charges_invLoop hA size _ h h1) fun o o' ho => ?_
  cases ho with
  | none => exact .ok .none
  | @some p q ho =>
    obtain ⟨a, b⟩ := p
    obtain ⟨a', b'⟩ := q
    exact Charges.bind (Charges.debugAssert (charges_isOne hA size ho.1)) fun _ _ _ => .ok (.some ho.2)

end MatrixRing

end Abstalg.Stateful
