import Verif.Spec.Charges
import Verif.Proofs.StatefulMatrix
import Verif.Proofs.StatefulPoly
import Verif.Proofs.CountedTakes
import Verif.Proofs.CountedResidues

/-! # Charging through the combinators and the generic methods -/

set_option linter.unusedSectionVars false

set_option autoImplicit false

namespace Abstalg.Stateful

open Counted (call lift)

section combinators

variable {σ α β γ δ : Type} {acc : Account σ} {I : σ → Prop} {r : α → β → Prop} {q : γ → δ → Prop}

theorem Charges.ok {a : α} {b : β} (h : r a b) : Charges acc I r (pure a) (pure b) := fun s hs => ⟨h, hs, acc.rest s⟩

theorem Charges.bind {c : St σ α} {d : Counted β} {f : α → St σ γ} {g : β → Counted δ}
    (h : Charges acc I r c d) (hf : ∀ a b, r a b → Charges acc I q (f a) (g b)) :
    Charges acc I q (c >>= f) (d >>= g) := by
  intro s hs
  have := h s hs
  show (St.bind c f s).Bills acc I q s (Counted.bind d g).res (Counted.bind d g).calls
  unfold St.bind Counted.bind
  revert this
  cases c s with
  | ok a t =>
    cases d.res with
    | ok b =>
      intro this
      have h2 := hf a b this.1 t this.2.1
      dsimp only
      revert h2
      cases f a t with
      | ok x u =>
        cases (g b).res with
        | ok y => exact fun h2 => ⟨h2.1, h2.2.1, acc.join this.2.2 h2.2.2⟩
        | panic => exact False.elim
        | diverge => exact False.elim
      | panic u =>
        cases (g b).res with
        | ok y => exact False.elim
        | panic => exact fun h2 => ⟨h2.1, acc.join this.2.2 h2.2⟩
        | diverge => exact False.elim
      | diverge =>
        cases (g b).res with
        | ok y => exact False.elim
        | panic => exact False.elim
        | diverge => exact id
    | panic => exact False.elim
    | diverge => exact False.elim
  | panic t =>
    cases d.res with
    | ok b => exact False.elim
    | panic => exact id
    | diverge => exact False.elim
  | diverge =>
    cases d.res with
    | ok b => exact False.elim
    | panic => exact False.elim
    | diverge => exact id

theorem Charges.mono {r' : α → β → Prop} {c : St σ α} {d : Counted β} (h : Charges acc I r c d)
    (hr : ∀ a b, r a b → r' a b) : Charges acc I r' c d := by
  intro s hs
  have := h s hs
  revert this
  cases c s <;> cases d.res <;> first | exact id | exact fun h => ⟨hr _ _ h.1, h.2⟩

/-- More about the value returned. -/
theorem Charges.and {p : β → Prop} {c : St σ α} {d : Counted β} (h : Charges acc I r c d)
    (hp : ∀ b, d.res = .ok b → p b) : Charges acc I (fun a b => r a b ∧ p b) c d := by
  intro s hs
  have := h s hs
  revert this
  cases hd : d.res <;> cases c s <;> first | exact id | exact fun h => ⟨⟨h.1, hp _ hd⟩, h.2⟩

theorem Both.charges {c : Res α} {d : Res β} (h : Both r c d) : Charges acc I r (liftM c) (lift d) := by
  intro s hs
  revert h
  cases c <;> cases d <;>
    first | exact False.elim | exact fun h => ⟨h, hs, acc.rest s⟩ | exact fun _ => ⟨hs, acc.rest s⟩ | exact id

theorem Charges.refl (c : Res α) : Charges acc I Eq (liftM c) (lift c) :=
  Both.charges (by cases c <;> trivial)

theorem Charges.same {p : Prop} {inst : Decidable p} {c c' : St σ α} {d d' : Counted β}
    (h : Charges acc I r c d) (h' : Charges acc I r c' d') :
    Charges acc I r (if p then c else c') (if p then d else d') := by
  by_cases hp : p
  · rw [if_pos hp, if_pos hp]; exact h
  · rw [if_neg hp, if_neg hp]; exact h'

theorem Charges.assert {b b' : Bool} (h : b = b') :
    Charges acc I Eq (liftM (Res.assert b)) (lift (Res.assert b')) := (Both.assert h).charges

theorem Charges.bindIf {c : St σ Bool} {d : Counted Bool} {x y : St σ γ} {x' y' : Counted δ}
    (h : Charges acc I Eq c d) (h1 : Charges acc I q x x') (h2 : Charges acc I q y y') :
    Charges acc I q (c >>= fun b => if b = true then x else y) (d >>= fun b => if b = true then x' else y') :=
  h.bind fun a b hab => by
    subst hab
    cases a
    · exact h2
    · exact h1

theorem Charges.not {c : St σ Bool} {d : Counted Bool} (h : Charges acc I Eq c d) :
    Charges acc I Eq (c >>= fun b => pure (!b)) (d >>= fun b => pure (!b)) :=
  h.bind fun _ _ hab => .ok (by rw [hab])

theorem Charges.check {c : St σ Bool} {d : Counted Bool} {f : Unit → St σ γ}
    {g : Unit → Counted δ} (h : Charges acc I Eq c d) (h' : Charges acc I q (f ()) (g ())) :
    Charges acc I q (c >>= fun b => liftM (Res.assert (!b)) >>= f) (d >>= fun b => lift (Res.assert (!b)) >>= g) :=
  h.bind fun a b hab => Charges.bind (Charges.assert (by rw [hab])) fun _ _ _ => h'

theorem Charges.debugAssert [Cfg] {b : St σ Bool} {b' : Counted Bool} (hb : Charges acc I Eq b b') :
    Charges acc I Eq (debugAssert b) (Counted.debugAssert b') := by
  unfold Stateful.debugAssert Counted.debugAssert
  exact Charges.same (hb.bind fun _ _ h => Charges.assert h) (.ok rfl)

/-- A computation over the inner base is one call of a method of the outer one. -/
theorem Charges.over {cost : Call → Call → ℕ} {x : St σ α} {y : Counted β} (h : Charges acc I r x y) {z : Res β}
    (hz : y.res = z) {c : Call} (hc : Within y (cost c)) : Charges (acc.over cost) I r x (call c z) := by
  intro s hs
  have h1 := h s hs
  rw [hz] at h1
  have hk : ∀ d, y.calls d ≤ compose (fun d => if d = c then 1 else 0) cost d := by
    intro d
    refine (hc d).trans (le_of_eq ?_)
    unfold compose Call.total Call.all
    cases c <;> simp
  show (x s).Bills (acc.over cost) I r s z fun d => if d = c then 1 else 0
  revert h1
  cases x s <;> cases z <;>
    first | exact False.elim | exact fun h => ⟨h.1, h.2.1, _, hk, h.2.2⟩ | exact fun h => ⟨h.1, _, hk, h.2⟩ | exact id

end combinators

/-! ## Lists -/

section lists

variable {σ α β γ δ : Type} {acc : Account σ} {I : σ → Prop} {r : α → β → Prop} {q : γ → δ → Prop}

theorem charges_idx {v : List α} {w : List β} (h : LRel r v w) (i : ℕ) :
    Charges acc I r (liftM (idx v i)) (lift (idx w i)) := (Both.idx h i).charges

theorem charges_setIdx {v : List α} {w : List β} (h : LRel r v w) (i : ℕ) {a : α} {b : β} (hab : r a b) :
    Charges acc I (LRel r) (liftM (setIdx v i a)) (lift (setIdx w i b)) := (Both.setIdx h i hab).charges

theorem charges_allRes {v : List α} {w : List β} (h : LRel r v w) {p : α → St σ Bool} {p' : β → Counted Bool}
    (hpq : ∀ {a b}, r a b → Charges acc I Eq (p a) (p' b)) : Charges acc I Eq (allRes p v) (Counted.allRes p' w) := by
  induction h with
  | nil => exact .ok rfl
  | cons hab _ ih => exact Charges.bindIf (hpq hab) ih (.ok rfl)

theorem charges_mapRes {v : List α} {w : List β} (h : LRel r v w) {f : α → St σ γ} {g : β → Counted δ}
    (hfg : ∀ {a b}, r a b → Charges acc I q (f a) (g b)) :
    Charges acc I (LRel q) (mapRes f v) (Counted.mapRes g w) := by
  induction h with
  | nil => exact .ok .nil
  | cons hab _ ih =>
    exact Charges.bind (hfg hab) fun a b h => Charges.bind ih fun _ _ hl => .ok (.cons h hl)

theorem charges_zipForEach {v : List α} {w : List β} {v' : List γ} {w' : List δ} (h : LRel r v w)
    (h' : LRel q v' w') {f : α → γ → St σ α} {g : β → δ → Counted β}
    (hfg : ∀ {a b c d}, r a b → q c d → Charges acc I r (f a c) (g b d)) :
    Charges acc I (LRel r) (zipForEach f v v') (Counted.zipForEach g w w') := by
  induction h generalizing v' w' with
  | nil => cases h' <;> exact .ok .nil
  | cons hab hl ih =>
    cases h' with
    | nil => exact .ok (.cons hab hl)
    | cons hab' hl' =>
      exact Charges.bind (hfg hab hab') fun a b h => Charges.bind (ih hl') fun _ _ hl => .ok (.cons h hl)

theorem charges_forLoop {ι : Type} (l : List ι) {f : α → ι → St σ α} {g : β → ι → Counted β}
    (hfg : ∀ i {a b}, r a b → Charges acc I r (f a i) (g b i)) {a : α} {b : β} (h : r a b) :
    Charges acc I r (forLoop l a f) (Counted.forLoop l b g) := by
  induction l generalizing a b with
  | nil => exact .ok h
  | cons i l ih => exact Charges.bind (hfg i h) fun _ _ h => ih h

theorem charges_findRes {ι : Type} (l : List ι) {p : ι → St σ Bool} {p' : ι → Counted Bool}
    (hpq : ∀ i, Charges acc I Eq (p i) (p' i)) : Charges acc I Eq (findRes p l) (Counted.findRes p' l) := by
  induction l with
  | nil => exact .ok rfl
  | cons i l ih => exact Charges.bindIf (hpq i) (.ok rfl) ih

end lists

/-! ## Multiples, powers and vectors -/

section defaults

variable {σ E F : Type} {acc : Account σ} {I : σ → Prop} {r : E → F → Prop}

theorem charges_timesLoop {A : CommutativeMonoidOps σ E} {B : Abstalg.CommutativeMonoidOps F}
    (hA : ChargesCommutativeMonoid acc I r A B) (n : ℕ) :
    ∀ {x y : E} {x' y' : F}, r x x' → r y y' →
      Charges acc I r (timesLoop A.addAssign A.double n x y) (Counted.timesLoop B n x' y') := by
  induction n using Nat.strongRecOn with
  | _ n ih =>
    intro x y x' y' hx hy
    rw [timesLoop, Counted.timesLoop]
    by_cases hn : 0 < n
    · rw [dif_pos hn, dif_pos hn]
      have hk {a a'} (ha : r a a') : Charges acc I r
          (A.double y >>= fun b => timesLoop A.addAssign A.double (n / 2) a b)
          (call .double (B.double y') >>= fun b => Counted.timesLoop B (n / 2) a' b) :=
        Charges.bind (hA.double hy) fun b b' hb => ih _ (by omega) ha hb
      exact Charges.same (Charges.bind (hA.addAssign hx hy) fun a a' ha => hk ha)
        (Charges.bind (.ok hx) fun a a' ha => hk ha)
    · rw [dif_neg hn, dif_neg hn]
      exact .ok hx

theorem charges_utimes {A : CommutativeMonoidOps σ E} {B : Abstalg.CommutativeMonoidOps F}
    (hA : ChargesCommutativeMonoid acc I r A B) (n : ℕ) {a : E} {a' : F} (ha : r a a') :
    Charges acc I r (do let res ← A.zero; timesLoop A.addAssign A.double n res a) (Counted.utimes B n a') :=
  Charges.bind hA.zero fun _ _ h => charges_timesLoop hA n h ha

theorem charges_powerLoop [Cfg] {A : GroupOps σ E} {B : Abstalg.GroupOps F} (hA : ChargesGroup acc I r A B) (n : ℤ) :
    ∀ {x y : E} {x' y' : F}, r x x' → r y y' →
      Charges acc I r (powerLoop A.mulAssign A.square n x y) (Counted.powerLoop B n x' y') := by
  induction hk : n.toNat using Nat.strongRecOn generalizing n with
  | _ k ih =>
    intro x y x' y' hx hy
    rw [powerLoop, Counted.powerLoop]
    by_cases hn : 0 < n
    · rw [dif_pos hn, dif_pos hn]
      have hlt : (Int.tdiv n 2).toNat < k := by
        rw [Int.tdiv_eq_ediv_of_nonneg (by omega)]; omega
      have hk {a a'} (ha : r a a') : Charges acc I r
          (A.square y >>= fun b => powerLoop A.mulAssign A.square (Int.tdiv n 2) a b)
          (call .square (B.square y') >>= fun b => Counted.powerLoop B (Int.tdiv n 2) a' b) :=
        Charges.bind (hA.square hy) fun b b' hb => ih _ hlt _ rfl ha hb
      exact Charges.same (Charges.bind (hA.mulAssign hx hy) fun a a' ha => hk ha)
        (Charges.bind (.ok hx) fun a a' ha => hk ha)
    · rw [dif_neg hn, dif_neg hn]
      exact .ok hx

theorem charges_power [Cfg] {A : GroupOps σ E} {B : Abstalg.GroupOps F} (hA : ChargesGroup acc I r A B) (n : ℤ)
    {a : E} {a' : F} (ha : r a a') :
    Charges acc I r (powerDefault A.one A.mulAssign A.square A.inv n a) (Counted.power B n a') := by
  unfold powerDefault Counted.power
  have hk (n : ℤ) {b b'} (hb : r b b') : Charges acc I r (A.one >>= fun x => powerLoop A.mulAssign A.square n x b)
      (call .one B.one >>= fun x => Counted.powerLoop B n x b') :=
    Charges.bind hA.one fun x x' hx => charges_powerLoop hA n hx hb
  have hp (p : ℤ × E) (p' : ℤ × F) (hp : p.1 = p'.1 ∧ r p.2 p'.2) : Charges acc I r
      (A.one >>= fun x => powerLoop A.mulAssign A.square p.1 x p.2)
      (call .one B.one >>= fun x => Counted.powerLoop B p'.1 x p'.2) := by
    rw [hp.1]
    exact hk _ hp.2
  refine Charges.same (Charges.bind (Charges.refl (isizeNeg n)) fun x y hxy => Charges.bind (hA.inv ha) fun b b' hb => ?_) ?_
  · exact Charges.bind (r := fun (p : ℤ × E) (p' : ℤ × F) => p.1 = p'.1 ∧ r p.2 p'.2) (.ok ⟨hxy, hb⟩) hp
  · exact Charges.bind (r := fun (p : ℤ × E) (p' : ℤ × F) => p.1 = p'.1 ∧ r p.2 p'.2) (.ok ⟨rfl, ha⟩) hp

variable {v w : List E} {v' w' : List F}

theorem charges_zipMap (n : ℕ) {c : Call} {f : E → E → St σ E} {g : F → F → Res F}
    (hf : ∀ {a b a' b'}, r a a' → r b b' → Charges acc I r (f a b) (call c (g a' b'))) (h : LRel r v v') (h' : LRel r w w') :
    Charges acc I (LRel r) (VectorAlgebra.zipMap n f v w) (Counted.zipMap n c g v' w') := by
  unfold VectorAlgebra.zipMap Counted.zipMap
  refine Charges.bind (Charges.assert (by simp only [VectorAlgebra.lenIs, Abstalg.VectorAlgebra.lenIs, h.length_eq, h'.length_eq])) fun _ _ _ => ?_
  exact charges_mapRes (LRel.zip h h') fun h => hf h.1 h.2

theorem charges_zipEach (n : ℕ) {c : Call} {f : E → E → St σ E} {g : F → F → Res F}
    (hf : ∀ {a b a' b'}, r a a' → r b b' → Charges acc I r (f a b) (call c (g a' b'))) (h : LRel r v v') (h' : LRel r w w') :
    Charges acc I (LRel r) (VectorAlgebra.zipEach n f v w) (Counted.zipEach n c g v' w') := by
  unfold VectorAlgebra.zipEach Counted.zipEach
  refine Charges.bind (Charges.assert (by simp only [VectorAlgebra.lenIs, Abstalg.VectorAlgebra.lenIs, h.length_eq, h'.length_eq])) fun _ _ _ => ?_
  exact charges_zipForEach h h' fun h h' => hf h h'

theorem charges_mapEach (n : ℕ) {c : Call} {f : E → St σ E} {g : F → Res F}
    (hf : ∀ {a a'}, r a a' → Charges acc I r (f a) (call c (g a'))) (h : LRel r v v') :
    Charges acc I (LRel r) (VectorAlgebra.mapEach n f v) (Counted.mapEach n c g v') := by
  unfold VectorAlgebra.mapEach Counted.mapEach
  refine Charges.bind (Charges.assert (by simp only [VectorAlgebra.lenIs, Abstalg.VectorAlgebra.lenIs, h.length_eq])) fun _ _ _ => ?_
  exact charges_mapRes h fun h => hf h

end defaults

end Abstalg.Stateful
