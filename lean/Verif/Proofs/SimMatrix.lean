import Verif.Proofs.SimVector
import Verif.Model.MatrixRing
import Verif.Model.Permutations

/-! # Following through matrices and permutations -/

set_option linter.unusedSectionVars false

set_option autoImplicit false

namespace Abstalg

variable {c₁ c₂ : Cfg} {E F : Type} {r : E → F → Prop} {v w : List E} {v' w' : List F}

namespace MatrixRing

theorem follows_transpose (size : ℕ) (h : LRel r v v') :
    Follows (LRel r) (transpose size v) (transpose size v') := by
  unfold transpose
  rw [h.length_eq]
  refine Follows.bind (Follows.assert rfl) fun _ _ _ => ?_
  refine follows_forLoop (r := LRel r) _ (fun i _ _ he => ?_) .nil
  refine follows_forLoop (r := LRel r) _ (fun j _ _ he => ?_) he
  exact Follows.bind (LRel.idx h _) fun _ _ hx => .ok (LRel.append he (.cons hx .nil))

theorem follows_swapRows (size : ℕ) (h : LRel r v v') (i j : ℕ) :
    Follows (LRel r) (swapRows size v i j) (swapRows size v' i j) := by
  refine follows_forLoop (r := LRel r) _ (fun _ _ _ he => ?_) h
  exact LRel.swapIdx he _ _

variable {A : @FieldOps c₁ E} {B : @FieldOps c₂ F} (hA : FollowsField r A B) (size : ℕ)

include hA

theorem follows_mulRow (h : LRel r v v') (row : ℕ) {a : E} {a' : F} (ha : r a a') :
    Follows (LRel r) (@mulRow c₁ E A size v row a) (@mulRow c₂ F B size v' row a') := by
  unfold mulRow
  rw [h.length_eq]
  refine Follows.bind (Follows.assert rfl) fun _ _ _ => ?_
  refine follows_forLoop (r := LRel r) _ (fun i _ _ he => ?_) h
  exact Follows.bind (LRel.idx he _) fun _ _ hx => Follows.bind (hA.mulAssign hx ha) fun _ _ hy =>
    LRel.setIdx he _ hy

theorem follows_addRows (h : LRel r v v') (i j : ℕ) {a : E} {a' : F} (ha : r a a') :
    Follows (LRel r) (@addRows c₁ E A size v i j a) (@addRows c₂ F B size v' i j a') := by
  refine follows_forLoop (r := LRel r) _ (fun i _ _ he => ?_) h
  exact Follows.bind (LRel.idx he _) fun _ _ hx => Follows.bind (hA.mul hx ha) fun _ _ hy =>
    Follows.bind (LRel.idx he _) fun _ _ hz => Follows.bind (hA.addAssign hz hy) fun _ _ ht =>
      LRel.setIdx he _ ht

theorem follows_findRow (h : LRel r v v') (col : ℕ) :
    Follows Eq (@findRow c₁ E A size v col) (@findRow c₂ F B size v' col) :=
  follows_findRes _ fun _ => Follows.bind (LRel.idx h _) fun _ _ hx => Follows.not (hA.isZero hx)

theorem follows_detClear (h : LRel r v v') (col : ℕ) :
    Follows (LRel r) (@detClear c₁ E A size v col) (@detClear c₂ F B size v' col) := by
  refine follows_forLoop (r := LRel r) _ (fun i _ _ he => ?_) h
  exact Follows.bind (LRel.idx he _) fun _ _ hx => Follows.bindIf (hA.isZero hx) (.ok he)
    (Follows.bind (hA.neg hx) fun _ _ hy => follows_addRows hA size he _ _ hy)

theorem follows_detLoop (l : List ℕ) (h : LRel r v v') {a : E} {a' : F} (ha : r a a') :
    Follows r (@detLoop c₁ E A size l v a) (@detLoop c₂ F B size l v' a') := by
  induction l generalizing v v' a a' with
  | nil => exact .ok ha
  | cons col l ih =>
    unfold detLoop
    refine Follows.bind (follows_findRow hA size h col) fun o o' ho => ?_
    subst ho
    cases o with
    | none => exact hA.zero
    | some row =>
      have hk {v v'} (h : LRel r v v') : Follows r
          (do
            let coef ← idx v (col * size + col)
            let det ← A.mulAssign a coef
            let coef ← @FieldOps.inv c₁ E A coef
            let elem ← @mulRow c₁ E A size v col coef
            let elem ← @detClear c₁ E A size elem col
            @detLoop c₁ E A size l elem det)
          (do
            let coef ← idx v' (col * size + col)
            let det ← B.mulAssign a' coef
            let coef ← @FieldOps.inv c₂ F B coef
            let elem ← @mulRow c₂ F B size v' col coef
            let elem ← @detClear c₂ F B size elem col
            @detLoop c₂ F B size l elem det) := by
        refine Follows.bind (LRel.idx h _) fun _ _ hx => Follows.bind (hA.mulAssign ha hx) fun _ _ hd => ?_
        exact Follows.bind (hA.inv hx) fun _ _ hy => Follows.bind (follows_mulRow hA size h col hy)
          fun _ _ h => Follows.bind (follows_detClear hA size h col) fun _ _ h => ih h hd
      exact Follows.same (Follows.bind (follows_swapRows size h _ _) fun _ _ h => hk h) (hk h)

theorem follows_determinant (h : LRel r v v') :
    Follows r (@determinant c₁ E A size v) (@determinant c₂ F B size v') :=
  Follows.bind hA.one fun _ _ h1 => follows_detLoop hA size _ h h1

theorem follows_domain : FollowsDomain (LRel r) (@MatrixRing.domain c₁ E A size)
    (@MatrixRing.domain c₂ F B size) where
  contains := fun {v v'} h => by
    show Follows _ (if (v.length != size * size) = true then _ else _)
      (if (v'.length != size * size) = true then _ else _)
    rw [List.Forall₂.length_eq h]
    exact Follows.same (.ok rfl) (LRel.allRes h fun h => hA.contains h)
  equals := fun {v w v' w'} h h' => by
    refine Follows.bind (Follows.assert (b := v.length == size * size && w.length == size * size)
      (b' := v'.length == size * size && w'.length == size * size) ?_) fun _ _ _ => ?_
    · rw [List.Forall₂.length_eq h, List.Forall₂.length_eq h']
    · exact LRel.allRes (LRel.zip h h') fun h => hA.equals h.1 h.2

theorem follows_mul (h : LRel r v v') (h' : LRel r w w') :
    Follows (LRel r) (@MatrixRing.mul c₁ E A size v w) (@MatrixRing.mul c₂ F B size v' w') := by
  unfold MatrixRing.mul
  rw [h.length_eq, h'.length_eq]
  refine Follows.bind (Follows.assert rfl) fun _ _ _ => Follows.bind (follows_transpose size h')
    fun w w' h' => ?_
  refine follows_forLoop (r := LRel r) _ (fun i _ _ he => ?_) .nil
  refine follows_forLoop (r := LRel r) _ (fun j _ _ he => ?_) he
  refine Follows.bind hA.zero fun _ _ h0 => Follows.bind (r := r)
    (follows_forLoop (r := r) _ (fun k _ _ hs => ?_) h0) fun _ _ hs => .ok (LRel.append he (.cons hs .nil))
  exact Follows.bind (LRel.idx h _) fun _ _ hx => Follows.bind (LRel.idx h' _) fun _ _ hy =>
    Follows.bind (hA.mul hx hy) fun _ _ hz => hA.addAssign hs hz

theorem follows_zero : Follows (LRel r) (@MatrixRing.zero c₁ E A size) (@MatrixRing.zero c₂ F B size) :=
  (hA.toFollowsCommutativeMonoid.vector (size * size)).zero

theorem follows_int (n : ℤ) :
    Follows (LRel r) (@MatrixRing.int c₁ E A size n) (@MatrixRing.int c₂ F B size n) :=
  Follows.bind (hA.int n) fun _ _ hx => Follows.bind (follows_zero hA size) fun _ _ h => by
    refine follows_forLoop (r := LRel r) _ (fun _ _ _ he => ?_) h
    exact LRel.setIdx he _ hx

theorem follows_invClear (h : LRel r v v') (h' : LRel r w w') (col : ℕ) :
    Follows (fun p q => LRel r p.1 q.1 ∧ LRel r p.2 q.2)
      (@invClear c₁ E A size v w col) (@invClear c₂ F B size v' w' col) := by
  refine follows_forLoop (r := fun (p : List E × List E) (q : List F × List F) => LRel r p.1 q.1 ∧ LRel r p.2 q.2) _ (fun i p q he => ?_) ⟨h, h'⟩
  obtain ⟨a, b⟩ := p
  obtain ⟨a', b'⟩ := q
  obtain ⟨ha, hb⟩ := he
  exact Follows.same (.ok ⟨ha, hb⟩) (Follows.bind (LRel.idx ha _) fun _ _ hx =>
    Follows.bindIf (hA.isZero hx) (.ok ⟨ha, hb⟩) (Follows.bind (hA.neg hx) fun _ _ hy =>
      Follows.bind (follows_addRows hA size ha _ _ hy) fun _ _ ha =>
        Follows.bind (follows_addRows hA size hb _ _ hy) fun _ _ hb => .ok ⟨ha, hb⟩))

theorem follows_invLoop (l : List ℕ) (h : LRel r v v') (h' : LRel r w w') :
    Follows (Option.Rel fun p q => LRel r p.1 q.1 ∧ LRel r p.2 q.2)
      (@invLoop c₁ E A size l v w) (@invLoop c₂ F B size l v' w') := by
  induction l generalizing v v' w w' with
  | nil => exact .ok (.some ⟨h, h'⟩)
  | cons col l ih =>
    unfold invLoop
    refine Follows.bind (follows_findRow hA size h col) fun o o' ho => ?_
    subst ho
    cases o with
    | none => exact .ok .none
    | some row =>
      have hk {v v' w w'} (h : LRel r v v') (h' : LRel r w w') :
          Follows (Option.Rel fun p q => LRel r p.1 q.1 ∧ LRel r p.2 q.2)
          (do
            let coef ← @FieldOps.inv c₁ E A (← idx v (col * size + col))
            let elem ← @mulRow c₁ E A size v col coef
            let invs ← @mulRow c₁ E A size w col coef
            let (elem, invs) ← @invClear c₁ E A size elem invs col
            @invLoop c₁ E A size l elem invs)
          (do
            let coef ← @FieldOps.inv c₂ F B (← idx v' (col * size + col))
            let elem ← @mulRow c₂ F B size v' col coef
            let invs ← @mulRow c₂ F B size w' col coef
            let (elem, invs) ← @invClear c₂ F B size elem invs col
            @invLoop c₂ F B size l elem invs) := by
        refine Follows.bind (LRel.idx h _) fun _ _ hx => Follows.bind (hA.inv hx) fun _ _ hy =>
          Follows.bind (follows_mulRow hA size h col hy) fun _ _ h =>
            Follows.bind (follows_mulRow hA size h' col hy) fun _ _ h' =>
              Follows.bind (follows_invClear hA size h h' col) ?_
        rintro ⟨a, b⟩ ⟨a', b'⟩ ⟨ha, hb⟩
        exact ih ha hb
      exact Follows.same (Follows.bind (follows_swapRows size h _ _) fun _ _ h =>
        Follows.bind (follows_swapRows size h' _ _) fun _ _ h' => hk h h') (hk h h')

theorem follows_isOne (h : LRel r v v') :
    Follows Eq (@MatrixRing.isOne c₁ E A size v) (@MatrixRing.isOne c₂ F B size v') :=
  follows_isDefault (LRel r) (follows_domain hA size).equals (follows_int hA size 1) h

theorem follows_tryInv (hc : Cfg.Relaxes c₁ c₂) (h : LRel r v v') :
    Follows (Option.Rel (LRel r)) (@MatrixRing.tryInv c₁ E A size v)
      (@MatrixRing.tryInv c₂ F B size v') := by
  refine Follows.bind (follows_int hA size 1) fun _ _ h1 =>
    Follows.bind (follows_invLoop hA size _ h h1) fun o o' ho => ?_
  cases ho with
  | none => exact .ok .none
  | @some p q ho =>
    obtain ⟨a, b⟩ := p
    obtain ⟨a', b'⟩ := q
    exact Follows.bind (hc.debugAssert (follows_isOne hA size ho.1)) fun _ _ _ => .ok (.some ho.2)

end MatrixRing

open MatrixRing in
theorem FollowsField.matrix (hc : Cfg.Relaxes c₁ c₂) {A : @FieldOps c₁ E} {B : @FieldOps c₂ F}
    (hA : FollowsField r A B) (size : ℕ) :
    FollowsUnitaryRing (LRel r) (@MatrixRing.ops c₁ E A size) (@MatrixRing.ops c₂ F B size) :=
  have hv := hA.toFollowsAbelianGroup.vector (size * size) hc
  { toFollowsDomain := MatrixRing.follows_domain hA size
    zero := hv.zero
    isZero := hv.isZero
    add := hv.add
    addAssign := hv.addAssign
    double := hv.double
    utimes := fun n _ _ h => follows_utimes (LRel r) hv.zero hv.addAssign hv.double n h
    mul := MatrixRing.follows_mul hA size
    mulAssign := MatrixRing.follows_mul hA size
    square := fun h => MatrixRing.follows_mul hA size h h
    one := MatrixRing.follows_int hA size 1
    isOne := MatrixRing.follows_isOne hA size
    tryInv := MatrixRing.follows_tryInv hA size hc
    invertible := fun h => Follows.bind (MatrixRing.follows_determinant hA size h) fun _ _ hx =>
      Follows.not (hA.isZero hx)
    neg := hv.neg
    negAssign := hv.negAssign
    sub := hv.sub
    subAssign := hv.subAssign
    times := hv.times
    int := MatrixRing.follows_int hA size }

/-- The permutations of a build with fewer checks. -/
theorem Permutations.follows (hc : Cfg.Relaxes c₁ c₂) (size : UInt32) :
    FollowsGroup Eq (@Permutations.ops c₁ size) (@Permutations.ops c₂ size) :=
  have hlen (v : List UInt32) : Follows Eq (@checkLen c₁ size v) (@checkLen c₂ size v) :=
    hc.debugAssert (.refl _)
  have hmul {a b a' b'} (ha : a = a') (hb : b = b') : Follows Eq
      ((@Permutations.ops c₁ size).mul a b) ((@Permutations.ops c₂ size).mul a' b') := by
    subst ha; subst hb
    exact Follows.bind (hlen a) fun _ _ _ => Follows.bind (hlen b) fun _ _ _ => .refl _
  have hmulA {a b a' b'} (ha : a = a') (hb : b = b') : Follows Eq
      ((@Permutations.ops c₁ size).mulAssign a b) ((@Permutations.ops c₂ size).mulAssign a' b') := by
    subst ha; subst hb
    exact Follows.bind (hlen a) fun _ _ _ => Follows.bind (hlen b) fun _ _ _ => .refl _
  have htry {a a'} (ha : a = a') : Follows (Option.Rel Eq)
      ((@Permutations.ops c₁ size).tryInv a) ((@Permutations.ops c₂ size).tryInv a') := by
    subst ha
    exact Follows.bind (hlen a) fun _ _ _ => Follows.bind (.refl _) fun _ _ h => .ok (.some h)
  { contains := fun h => by subst h; exact .refl _
    equals := fun h h' => by subst h; subst h'; exact .refl _
    mul := hmul
    mulAssign := hmulA
    square := fun h => hmul h h
    one := .refl _
    isOne := fun {a a'} h => by
      subst h
      exact Follows.bind (hlen a) fun _ _ _ => .refl _
    tryInv := htry
    invertible := fun _ => .ok rfl
    inv := fun h => follows_unwrapInv Eq htry h
    power := fun n _ _ h => follows_powerDefault (r := Eq) hc (.refl _) hmulA (fun h => hmul h h)
      (fun h => follows_unwrapInv Eq htry h) n h }

end Abstalg
