import Verif.Proofs.StatefulVector

/-! # Tracking through matrices -/

set_option linter.unusedSectionVars false

set_option autoImplicit false

namespace Abstalg.Stateful

variable [Cfg] {σ : Type} {I : σ → Prop} {E F : Type} {r : E → F → Prop} {v w : List E} {v' w' : List F}

namespace MatrixRing

theorem both_transpose (size : ℕ) (h : LRel r v v') :
    Both (LRel r) (Abstalg.MatrixRing.transpose size v) (Abstalg.MatrixRing.transpose size v') := by
  unfold Abstalg.MatrixRing.transpose
  rw [h.length_eq]
  refine Both.bind (Both.assert rfl) fun _ _ _ => ?_
  refine Both.forLoop (r := LRel r) _ (fun i _ _ he => ?_) .nil
  refine Both.forLoop (r := LRel r) _ (fun j _ _ he => ?_) he
  exact Both.bind (Both.idx h _) fun _ _ hx => LRel.append he (.cons hx .nil)

theorem tracks_transpose (size : ℕ) (h : LRel r v v') : Tracks I (LRel r)
    (liftM (Abstalg.MatrixRing.transpose size v)) (Abstalg.MatrixRing.transpose size v') :=
  (both_transpose size h).tracks

theorem tracks_swapRows (size : ℕ) (h : LRel r v v') (i j : ℕ) : Tracks I (LRel r)
    (liftM (Abstalg.MatrixRing.swapRows size v i j)) (Abstalg.MatrixRing.swapRows size v' i j) := by
  refine Both.tracks ?_
  refine Both.forLoop (r := LRel r) _ (fun _ _ _ he => ?_) h
  exact Both.swapIdx he _ _

variable {A : FieldOps σ E} {B : Abstalg.FieldOps F} (hA : TracksField I r A B) (size : ℕ)

include hA

theorem tracks_mulRow (h : LRel r v v') (row : ℕ) {a : E} {a' : F} (ha : r a a') :
    Tracks I (LRel r) (mulRow A size v row a) (Abstalg.MatrixRing.mulRow B size v' row a') := by
  unfold mulRow
  rw [h.length_eq]
  refine Tracks.bind (Tracks.assert rfl) fun _ _ _ => ?_
  refine tracks_forLoop (r := LRel r) _ (fun i _ _ he => ?_) h
  exact Tracks.bind (LRel.idx he _) fun _ _ hx => Tracks.bind (hA.mulAssign hx ha) fun _ _ hy =>
    LRel.setIdx he _ hy

theorem tracks_addRows (h : LRel r v v') (i j : ℕ) {a : E} {a' : F} (ha : r a a') :
    Tracks I (LRel r) (addRows A size v i j a) (Abstalg.MatrixRing.addRows B size v' i j a') := by
  refine tracks_forLoop (r := LRel r) _ (fun i _ _ he => ?_) h
  exact Tracks.bind (LRel.idx he _) fun _ _ hx => Tracks.bind (hA.mul hx ha) fun _ _ hy =>
    Tracks.bind (LRel.idx he _) fun _ _ hz => Tracks.bind (hA.addAssign hz hy) fun _ _ ht =>
      LRel.setIdx he _ ht

theorem tracks_findRow (h : LRel r v v') (col : ℕ) :
    Tracks I Eq (findRow A size v col) (Abstalg.MatrixRing.findRow B size v' col) :=
  tracks_findRes _ fun _ => Tracks.bind (LRel.idx h _) fun _ _ hx => Tracks.not (hA.isZero hx)

theorem tracks_detClear (h : LRel r v v') (col : ℕ) :
    Tracks I (LRel r) (detClear A size v col) (Abstalg.MatrixRing.detClear B size v' col) := by
  refine tracks_forLoop (r := LRel r) _ (fun i _ _ he => ?_) h
  exact Tracks.bind (LRel.idx he _) fun _ _ hx => Tracks.bindIf (hA.isZero hx) (.ok he)
    (Tracks.bind (hA.neg hx) fun _ _ hy => tracks_addRows hA size he _ _ hy)

theorem tracks_detLoop (l : List ℕ) (h : LRel r v v') {a : E} {a' : F} (ha : r a a') :
    Tracks I r (detLoop A size l v a) (Abstalg.MatrixRing.detLoop B size l v' a') := by
  induction l generalizing v v' a a' with
  | nil => exact .ok ha
  | cons col l ih =>
    unfold detLoop
    refine Tracks.bind (tracks_findRow hA size h col) fun o o' ho => ?_
    subst ho
    cases o with
    | none => exact hA.zero
    | some row =>
      have hk {v v'} (h : LRel r v v') : Tracks I r
          (do
            let coef ← idx v (col * size + col)
            let det ← A.mulAssign a coef
            let coef ← FieldOps.inv A coef
            let elem ← mulRow A size v col coef
            let elem ← detClear A size elem col
            detLoop A size l elem det)
          (do
            let coef ← idx v' (col * size + col)
            let det ← B.mulAssign a' coef
            let coef ← Abstalg.FieldOps.inv B coef
            let elem ← Abstalg.MatrixRing.mulRow B size v' col coef
            let elem ← Abstalg.MatrixRing.detClear B size elem col
            Abstalg.MatrixRing.detLoop B size l elem det) := by
        refine Tracks.bind (LRel.idx h _) fun _ _ hx => Tracks.bind (hA.mulAssign ha hx) fun _ _ hd => ?_
        exact Tracks.bind (hA.inv hx) fun _ _ hy => Tracks.bind (tracks_mulRow hA size h col hy)
          fun _ _ h => Tracks.bind (tracks_detClear hA size h col) fun _ _ h => ih h hd
      exact Tracks.same (Tracks.bind (tracks_swapRows size h _ _) fun _ _ h => hk h) (hk h)

theorem tracks_determinant (h : LRel r v v') :
    Tracks I r (determinant A size v) (Abstalg.MatrixRing.determinant B size v') :=
  Tracks.bind hA.one fun _ _ h1 => tracks_detLoop hA size _ h h1

theorem tracks_domain : TracksDomain I (LRel r) (MatrixRing.domain A size)
    (Abstalg.MatrixRing.domain B size) where
  contains := fun {v v'} h => by
    show Tracks I _ (if (v.length != size * size) = true then _ else _)
      (if (v'.length != size * size) = true then _ else _)
    rw [List.Forall₂.length_eq h]
    exact Tracks.same (.ok rfl) (LRel.allRes h fun h => hA.contains h)
  equals := fun {v w v' w'} h h' => by
    refine Tracks.bind (Tracks.assert (b := v.length == size * size && w.length == size * size)
      (b' := v'.length == size * size && w'.length == size * size) ?_) fun _ _ _ => ?_
    · rw [List.Forall₂.length_eq h, List.Forall₂.length_eq h']
    · exact LRel.allRes (LRel.zip h h') fun h => hA.equals h.1 h.2

theorem tracks_mul (h : LRel r v v') (h' : LRel r w w') :
    Tracks I (LRel r) (MatrixRing.mul A size v w) (Abstalg.MatrixRing.mul B size v' w') := by
  unfold MatrixRing.mul
  rw [h.length_eq, h'.length_eq]
  refine Tracks.bind (Tracks.assert rfl) fun _ _ _ => Tracks.bind (tracks_transpose size h')
    fun w w' h' => ?_
  refine tracks_forLoop (r := LRel r) _ (fun i _ _ he => ?_) .nil
  refine tracks_forLoop (r := LRel r) _ (fun j _ _ he => ?_) he
  refine Tracks.bind hA.zero fun _ _ h0 => Tracks.bind (r := r)
    (tracks_forLoop (r := r) _ (fun k _ _ hs => ?_) h0) fun _ _ hs => .ok (LRel.append he (.cons hs .nil))
  exact Tracks.bind (LRel.idx h _) fun _ _ hx => Tracks.bind (LRel.idx h' _) fun _ _ hy =>
    Tracks.bind (hA.mul hx hy) fun _ _ hz => hA.addAssign hs hz

theorem tracks_zero : Tracks I (LRel r) (MatrixRing.zero A size) (Abstalg.MatrixRing.zero B size) :=
  (hA.toTracksCommutativeMonoid.vector (size * size)).zero

theorem tracks_int (n : ℤ) :
    Tracks I (LRel r) (MatrixRing.int A size n) (Abstalg.MatrixRing.int B size n) :=
  Tracks.bind (hA.int n) fun _ _ hx => Tracks.bind (tracks_zero hA size) fun _ _ h => by
    refine tracks_forLoop (r := LRel r) _ (fun _ _ _ he => ?_) h
    exact LRel.setIdx he _ hx

theorem tracks_invClear (h : LRel r v v') (h' : LRel r w w') (col : ℕ) :
    Tracks I (fun p q => LRel r p.1 q.1 ∧ LRel r p.2 q.2)
      (invClear A size v w col) (Abstalg.MatrixRing.invClear B size v' w' col) := by
  refine tracks_forLoop (r := fun (p : List E × List E) (q : List F × List F) => LRel r p.1 q.1 ∧ LRel r p.2 q.2) _ (fun i p q he => ?_) ⟨h, h'⟩
  obtain ⟨a, b⟩ := p
  obtain ⟨a', b'⟩ := q
  obtain ⟨ha, hb⟩ := he
  exact Tracks.same (.ok ⟨ha, hb⟩) (Tracks.bind (LRel.idx ha _) fun _ _ hx =>
    Tracks.bindIf (hA.isZero hx) (.ok ⟨ha, hb⟩) (Tracks.bind (hA.neg hx) fun _ _ hy =>
      Tracks.bind (tracks_addRows hA size ha _ _ hy) fun _ _ ha =>
        Tracks.bind (tracks_addRows hA size hb _ _ hy) fun _ _ hb => .ok ⟨ha, hb⟩))

theorem tracks_invLoop (l : List ℕ) (h : LRel r v v') (h' : LRel r w w') :
    Tracks I (Option.Rel fun p q => LRel r p.1 q.1 ∧ LRel r p.2 q.2)
      (invLoop A size l v w) (Abstalg.MatrixRing.invLoop B size l v' w') := by
  induction l generalizing v v' w w' with
  | nil => exact .ok (.some ⟨h, h'⟩)
  | cons col l ih =>
    unfold invLoop
    refine Tracks.bind (tracks_findRow hA size h col) fun o o' ho => ?_
    subst ho
    cases o with
    | none => exact .ok .none
    | some row =>
      have hk {v v' w w'} (h : LRel r v v') (h' : LRel r w w') :
          Tracks I (Option.Rel fun p q => LRel r p.1 q.1 ∧ LRel r p.2 q.2)
          (do
            let coef ← FieldOps.inv A (← idx v (col * size + col))
            let elem ← mulRow A size v col coef
            let invs ← mulRow A size w col coef
            let (elem, invs) ← invClear A size elem invs col
            invLoop A size l elem invs)
          (do
            let coef ← Abstalg.FieldOps.inv B (← idx v' (col * size + col))
            let elem ← Abstalg.MatrixRing.mulRow B size v' col coef
            let invs ← Abstalg.MatrixRing.mulRow B size w' col coef
            let (elem, invs) ← Abstalg.MatrixRing.invClear B size elem invs col
            Abstalg.MatrixRing.invLoop B size l elem invs) := by
        refine Tracks.bind (LRel.idx h _) fun _ _ hx => Tracks.bind (hA.inv hx) fun _ _ hy =>
          Tracks.bind (tracks_mulRow hA size h col hy) fun _ _ h =>
            Tracks.bind (tracks_mulRow hA size h' col hy) fun _ _ h' =>
              Tracks.bind (tracks_invClear hA size h h' col) ?_
        rintro ⟨a, b⟩ ⟨a', b'⟩ ⟨ha, hb⟩
        exact ih ha hb
      exact Tracks.same (Tracks.bind (tracks_swapRows size h _ _) fun _ _ h =>
        Tracks.bind (tracks_swapRows size h' _ _) fun _ _ h' => hk h h') (hk h h')

theorem tracks_isOne (h : LRel r v v') :
    Tracks I Eq (MatrixRing.isOne A size v) (Abstalg.MatrixRing.isOne B size v') :=
  tracks_isDefault (LRel r) (tracks_domain hA size).equals (tracks_int hA size 1) h

theorem tracks_tryInv (h : LRel r v v') :
    Tracks I (Option.Rel (LRel r)) (MatrixRing.tryInv A size v)
      (Abstalg.MatrixRing.tryInv B size v') := by
  refine Tracks.bind (tracks_int hA size 1) fun _ _ h1 =>
    Tracks.bind (tracks_invLoop hA size _ h h1) fun o o' ho => ?_
  cases ho with
  | none => exact .ok .none
  | @some p q ho =>
    obtain ⟨a, b⟩ := p
    obtain ⟨a', b'⟩ := q
    exact Tracks.bind (Tracks.debugAssert (tracks_isOne hA size ho.1)) fun _ _ _ => .ok (.some ho.2)

end MatrixRing

theorem TracksField.matrix {A : FieldOps σ E} {B : Abstalg.FieldOps F}
    (hA : TracksField I r A B) (size : ℕ) :
    TracksUnitaryRing I (LRel r) (MatrixRing.ops A size) (Abstalg.MatrixRing.ops B size) :=
  have hv := hA.toTracksAbelianGroup.vector (size * size)
  { toTracksDomain := MatrixRing.tracks_domain hA size
    zero := hv.zero
    isZero := hv.isZero
    add := hv.add
    addAssign := hv.addAssign
    double := hv.double
    utimes := fun n _ _ h => tracks_utimes (LRel r) hv.zero hv.addAssign hv.double n h
    mul := MatrixRing.tracks_mul hA size
    mulAssign := MatrixRing.tracks_mul hA size
    square := fun h => MatrixRing.tracks_mul hA size h h
    one := MatrixRing.tracks_int hA size 1
    isOne := MatrixRing.tracks_isOne hA size
    tryInv := MatrixRing.tracks_tryInv hA size
    invertible := fun h => Tracks.bind (MatrixRing.tracks_determinant hA size h) fun _ _ hx =>
      Tracks.not (hA.isZero hx)
    neg := hv.neg
    negAssign := hv.negAssign
    sub := hv.sub
    subAssign := hv.subAssign
    times := hv.times
    int := MatrixRing.tracks_int hA size }

end Abstalg.Stateful
