import Verif.Spec.Stateful
import Verif.Proofs.Simulation

/-! # Tracking through the combinators and the default methods -/

set_option linter.unusedSectionVars false

set_option autoImplicit false

namespace Abstalg.Stateful

section combinators

variable {σ α β γ δ : Type} {I : σ → Prop} {r : α → β → Prop} {q : γ → δ → Prop}

theorem Tracks.ok {a : α} {b : β} (h : r a b) : Tracks I r (pure a) (.ok b) := fun _ hs => ⟨h, hs⟩

theorem Tracks.lok {a : α} {b : β} (h : r a b) : Tracks I r (liftM (Res.ok a)) (.ok b) := fun _ hs => ⟨h, hs⟩

theorem Tracks.panic : Tracks I r (liftM (Res.panic : Res α)) .panic := fun _ hs => hs

theorem Tracks.bind {c : St σ α} {d : Res β} {f : α → St σ γ} {g : β → Res δ}
    (h : Tracks I r c d) (hf : ∀ a b, r a b → Tracks I q (f a) (g b)) :
    Tracks I q (c >>= f) (d >>= g) := by
  intro s hs
  have := h s hs
  show (St.bind c f s).Matches I q (d.bind g)
  unfold St.bind
  revert this
  cases c s with
  | ok a t =>
    cases d with
    | ok b => exact fun this => hf a b this.1 t this.2
    | panic => exact False.elim
    | diverge => exact False.elim
  | panic t =>
    cases d with
    | ok b => exact False.elim
    | panic => exact id
    | diverge => exact False.elim
  | diverge =>
    cases d with
    | ok b => exact False.elim
    | panic => exact False.elim
    | diverge => exact id

theorem Tracks.rbind {c : St σ α} {d : Res β} {f : α → St σ γ} {g : β → Res δ}
    (h : Tracks I r c d) (hf : ∀ a b, r a b → Tracks I q (f a) (g b)) :
    Tracks I q (c >>= f) (d.bind g) := Tracks.bind h hf

theorem Tracks.mono {r' : α → β → Prop} {c : St σ α} {d : Res β} (h : Tracks I r c d)
    (hr : ∀ a b, r a b → r' a b) : Tracks I r' c d := by
  intro s hs
  have := h s hs
  revert this
  cases c s <;> cases d <;> first | exact id | exact fun h => ⟨hr _ _ h.1, h.2⟩

theorem Tracks.refl (c : Res α) : Tracks I Eq (liftM c) c := by
  intro s hs
  cases c with
  | ok a => exact ⟨rfl, hs⟩
  | panic => exact hs
  | diverge => trivial

theorem Tracks.ite {p p' : Prop} [Decidable p] [Decidable p'] {c c' : St σ α} {d d' : Res β}
    (hpq : p ↔ p') (h : p → Tracks I r c d) (h' : ¬ p → Tracks I r c' d') :
    Tracks I r (if p then c else c') (if p' then d else d') := by
  by_cases hp : p
  · rw [if_pos hp, if_pos (hpq.1 hp)]; exact h hp
  · rw [if_neg hp, if_neg fun hq => hp (hpq.2 hq)]; exact h' hp

theorem Tracks.same {p : Prop} {inst : Decidable p} {c c' : St σ α} {d d' : Res β}
    (h : Tracks I r c d) (h' : Tracks I r c' d') :
    Tracks I r (if p then c else c') (if p then d else d') := by
  by_cases hp : p
  · rw [if_pos hp, if_pos hp]; exact h
  · rw [if_neg hp, if_neg hp]; exact h'

theorem Tracks.unwrap {o : Option α} {o' : Option β} (h : Option.Rel r o o') :
    Tracks I r (liftM (Res.unwrap o)) (Res.unwrap o') := by
  cases h with
  | some h => exact .lok h
  | none => exact .panic

theorem Tracks.assert {b b' : Bool} (h : b = b') :
    Tracks I Eq (liftM (Res.assert b)) (Res.assert b') := by
  rw [h]; exact .refl _

/-- A condition that is computed first. -/
theorem Tracks.bindIf {c : St σ Bool} {d : Res Bool} {x y : St σ γ} {x' y' : Res δ}
    (h : Tracks I Eq c d) (h1 : Tracks I q x x') (h2 : Tracks I q y y') :
    Tracks I q (c >>= fun b => if b = true then x else y) (d >>= fun b => if b = true then x' else y') :=
  h.bind fun a b hab => by
    subst hab
    cases a
    · exact h2
    · exact h1

/-- Negating an answer. -/
theorem Tracks.not {c : St σ Bool} {d : Res Bool} (h : Tracks I Eq c d) :
    Tracks I Eq (c >>= fun b => pure (!b)) (d >>= fun b => pure (!b)) :=
  h.bind fun _ _ hab => .ok (by rw [hab])

theorem Tracks.isSome {c : St σ (Option α)} {d : Res (Option β)}
    (h : Tracks I (Option.Rel r) c d) :
    Tracks I Eq (c >>= fun o => pure o.isSome) (d >>= fun o => pure o.isSome) :=
  h.bind fun _ _ hab => .ok (by cases hab <;> rfl)

/-- A check that the first operand fails if the second does. -/
theorem Tracks.check {c : St σ Bool} {d : Res Bool} {f : Unit → St σ γ}
    {g : Unit → Res δ} (h : Tracks I Eq c d) (h' : Tracks I q (f ()) (g ())) :
    Tracks I q (c >>= fun b => liftM (Res.assert (!b)) >>= f) (d >>= fun b => Res.assert (!b) >>= g) :=
  h.bind fun a b hab => Tracks.bind (Tracks.assert (by rw [hab])) fun _ _ _ => h'

theorem Tracks.debugAssert [Cfg] {b : St σ Bool} {b' : Res Bool} (hb : Tracks I Eq b b') :
    Tracks I Eq (debugAssert b) (Abstalg.debugAssert b') := by
  unfold Stateful.debugAssert Abstalg.debugAssert
  exact Tracks.same (hb.rbind fun _ _ h => Tracks.assert h) (.ok rfl)

end combinators

/-! ## Computations without the base -/

section both

variable {α β γ δ : Type} {r : α → β → Prop} {q : γ → δ → Prop}

/-- Two computations without state that do the same. -/
def Both (r : α → β → Prop) : Res α → Res β → Prop
  | .ok a, .ok b => r a b
  | .panic, .panic => True
  | .diverge, .diverge => True
  | _, _ => False

theorem Both.tracks {σ : Type} {I : σ → Prop} {c : Res α} {d : Res β} (h : Both r c d) :
    Tracks I r (liftM c) d := by
  intro s hs
  revert h
  cases c <;> cases d <;> first | exact False.elim | exact fun h => ⟨h, hs⟩ | exact fun _ => hs | exact id

theorem Both.bind {c : Res α} {d : Res β} {f : α → Res γ} {g : β → Res δ} (h : Both r c d)
    (hf : ∀ a b, r a b → Both q (f a) (g b)) : Both q (c >>= f) (d >>= g) := by
  revert h
  cases c <;> cases d <;> first | exact False.elim | exact fun h => hf _ _ h | exact id

theorem Both.assert {b b' : Bool} (h : b = b') : Both Eq (Res.assert b) (Res.assert b') := by
  subst h; cases b <;> trivial

theorem Both.idx {v : List α} {w : List β} (h : LRel r v w) (i : ℕ) : Both r (idx v i) (idx w i) := by
  have := LRel.getElem? h i
  unfold Abstalg.idx
  revert this
  generalize v[i]? = x
  generalize w[i]? = y
  intro this
  cases this with
  | some h => exact h
  | none => trivial

theorem Both.setIdx {v : List α} {w : List β} (h : LRel r v w) (i : ℕ) {a : α} {b : β} (hab : r a b) :
    Both (LRel r) (setIdx v i a) (setIdx w i b) := by
  unfold Abstalg.setIdx
  rw [h.length_eq]
  by_cases hi : i < w.length
  · rw [if_pos hi, if_pos hi]; exact LRel.set h i hab
  · rw [if_neg hi, if_neg hi]; trivial

theorem Both.swapIdx {v : List α} {w : List β} (h : LRel r v w) (i j : ℕ) :
    Both (LRel r) (swapIdx v i j) (swapIdx w i j) := by
  unfold Abstalg.swapIdx
  exact Both.bind (Both.idx h i) fun a a' ha => Both.bind (Both.idx h j) fun b b' hb =>
    Both.bind (Both.setIdx h i hb) fun _ _ h => Both.setIdx h j ha

theorem Both.forLoop {ι : Type} (l : List ι) {f : α → ι → Res α} {g : β → ι → Res β}
    (hfg : ∀ i {a b}, r a b → Both r (f a i) (g b i)) {a : α} {b : β} (h : r a b) :
    Both r (Abstalg.forLoop l a f) (Abstalg.forLoop l b g) := by
  induction l generalizing a b with
  | nil => exact h
  | cons i l ih => exact Both.bind (hfg i h) fun _ _ h => ih h

end both

/-! ## Lists -/

section lists

variable {σ α β γ δ : Type} {I : σ → Prop} {r : α → β → Prop} {q : γ → δ → Prop}

theorem LRel.idx {v : List α} {w : List β} (h : LRel r v w) (i : ℕ) :
    Tracks I r (liftM (idx v i)) (idx w i) := (Both.idx h i).tracks

theorem LRel.setIdx {v : List α} {w : List β} (h : LRel r v w) (i : ℕ) {a : α} {b : β} (hab : r a b) :
    Tracks I (LRel r) (liftM (setIdx v i a)) (setIdx w i b) := (Both.setIdx h i hab).tracks

theorem LRel.swapIdx {v : List α} {w : List β} (h : LRel r v w) (i j : ℕ) :
    Tracks I (LRel r) (liftM (swapIdx v i j)) (swapIdx w i j) := (Both.swapIdx h i j).tracks

theorem LRel.allRes {v : List α} {w : List β} (h : LRel r v w) {p : α → St σ Bool} {p' : β → Res Bool}
    (hpq : ∀ {a b}, r a b → Tracks I Eq (p a) (p' b)) : Tracks I Eq (allRes p v) (Abstalg.allRes p' w) := by
  induction h with
  | nil => exact .ok rfl
  | cons hab _ ih =>
    exact Tracks.rbind (hpq hab) fun a b h => .ite (by rw [h]) (fun _ => ih) fun _ => .ok rfl

theorem LRel.mapRes {v : List α} {w : List β} (h : LRel r v w) {f : α → St σ γ} {g : β → Res δ}
    (hfg : ∀ {a b}, r a b → Tracks I q (f a) (g b)) :
    Tracks I (LRel q) (mapRes f v) (Abstalg.mapRes g w) := by
  induction h with
  | nil => exact .ok .nil
  | cons hab _ ih =>
    exact Tracks.rbind (hfg hab) fun a b h => Tracks.rbind ih fun _ _ hl => .ok (.cons h hl)

theorem LRel.zipForEach {v : List α} {w : List β} {v' : List γ} {w' : List δ} (h : LRel r v w)
    (h' : LRel q v' w') {f : α → γ → St σ α} {g : β → δ → Res β}
    (hfg : ∀ {a b c d}, r a b → q c d → Tracks I r (f a c) (g b d)) :
    Tracks I (LRel r) (zipForEach f v v') (Abstalg.zipForEach g w w') := by
  induction h generalizing v' w' with
  | nil => cases h' <;> exact .ok .nil
  | cons hab hl ih =>
    cases h' with
    | nil => exact .ok (.cons hab hl)
    | cons hab' hl' =>
      exact Tracks.rbind (hfg hab hab') fun a b h => Tracks.rbind (ih hl') fun _ _ hl => .ok (.cons h hl)

theorem tracks_forLoop {ι : Type} (l : List ι) {f : α → ι → St σ α} {g : β → ι → Res β}
    (hfg : ∀ i {a b}, r a b → Tracks I r (f a i) (g b i)) {a : α} {b : β} (h : r a b) :
    Tracks I r (forLoop l a f) (Abstalg.forLoop l b g) := by
  induction l generalizing a b with
  | nil => exact .ok h
  | cons i l ih => exact Tracks.rbind (hfg i h) fun _ _ h => ih h

theorem tracks_findRes {ι : Type} (l : List ι) {p : ι → St σ Bool} {p' : ι → Res Bool}
    (hpq : ∀ i, Tracks I Eq (p i) (p' i)) : Tracks I Eq (findRes p l) (Abstalg.findRes p' l) := by
  induction l with
  | nil => exact .ok rfl
  | cons i l ih =>
    exact Tracks.rbind (hpq i) fun a b h => .ite (by rw [h]) (fun _ => .ok rfl) fun _ => ih

end lists

/-! ## The default methods -/

section defaults

variable {σ E F : Type} {I : σ → Prop} {r : E → F → Prop}

theorem tracks_timesLoop {add : E → E → St σ E} {add' : F → F → Res F} {double : E → St σ E}
    {double' : F → Res F}
    (hadd : ∀ {a b a' b'}, r a a' → r b b' → Tracks I r (add a b) (add' a' b'))
    (hdouble : ∀ {a a'}, r a a' → Tracks I r (double a) (double' a')) (n : ℕ) :
    ∀ {x y : E} {x' y' : F}, r x x' → r y y' →
      Tracks I r (timesLoop add double n x y) (Abstalg.timesLoop add' double' n x' y') := by
  induction n using Nat.strongRecOn with
  | _ n ih =>
    intro x y x' y' hx hy
    rw [timesLoop, Abstalg.timesLoop]
    by_cases hn : 0 < n
    · rw [dif_pos hn, dif_pos hn]
      have hk {a a'} (ha : r a a') : Tracks I r
          (double y >>= fun b => timesLoop add double (n / 2) a b)
          (double' y' >>= fun b => Abstalg.timesLoop add' double' (n / 2) a' b) :=
        Tracks.bind (hdouble hy) fun b b' hb => ih _ (by omega) ha hb
      exact Tracks.same (Tracks.bind (hadd hx hy) fun a a' ha => hk ha)
        (Tracks.bind (.ok hx) fun a a' ha => hk ha)
    · rw [dif_neg hn, dif_neg hn]
      exact .ok hx

theorem tracks_powerLoop {mul : E → E → St σ E} {mul' : F → F → Res F} {square : E → St σ E}
    {square' : F → Res F}
    (hmul : ∀ {a b a' b'}, r a a' → r b b' → Tracks I r (mul a b) (mul' a' b'))
    (hsquare : ∀ {a a'}, r a a' → Tracks I r (square a) (square' a')) (n : ℤ) :
    ∀ {x y : E} {x' y' : F}, r x x' → r y y' →
      Tracks I r (powerLoop mul square n x y) (Abstalg.powerLoop mul' square' n x' y') := by
  induction hk : n.toNat using Nat.strongRecOn generalizing n with
  | _ k ih =>
    intro x y x' y' hx hy
    rw [powerLoop, Abstalg.powerLoop]
    by_cases hn : 0 < n
    · rw [dif_pos hn, dif_pos hn]
      have hlt : (Int.tdiv n 2).toNat < k := by
        rw [Int.tdiv_eq_ediv_of_nonneg (by omega)]; omega
      have hk {a a'} (ha : r a a') : Tracks I r
          (square y >>= fun b => powerLoop mul square (Int.tdiv n 2) a b)
          (square' y' >>= fun b => Abstalg.powerLoop mul' square' (Int.tdiv n 2) a' b) :=
        Tracks.bind (hsquare hy) fun b b' hb => ih _ hlt _ rfl ha hb
      exact Tracks.same (Tracks.bind (hmul hx hy) fun a a' ha => hk ha)
        (Tracks.bind (.ok hx) fun a a' ha => hk ha)
    · rw [dif_neg hn, dif_neg hn]
      exact .ok hx

theorem tracks_powerDefault [Cfg] {one : St σ E} {one' : Res F}
    {mul : E → E → St σ E} {mul' : F → F → Res F} {square : E → St σ E} {square' : F → Res F}
    {inv : E → St σ E} {inv' : F → Res F} (hone : Tracks I r one one')
    (hmul : ∀ {a b a' b'}, r a a' → r b b' → Tracks I r (mul a b) (mul' a' b'))
    (hsquare : ∀ {a a'}, r a a' → Tracks I r (square a) (square' a'))
    (hinv : ∀ {a a'}, r a a' → Tracks I r (inv a) (inv' a')) (n : ℤ) {a : E} {a' : F} (ha : r a a') :
    Tracks I r (powerDefault one mul square inv n a) (Abstalg.powerDefault one' mul' square' inv' n a') := by
  unfold powerDefault Abstalg.powerDefault
  have hk (n : ℤ) {b b'} (hb : r b b') : Tracks I r (one >>= fun x => powerLoop mul square n x b)
      (one' >>= fun x => Abstalg.powerLoop mul' square' n x b') :=
    Tracks.bind hone fun x x' hx => tracks_powerLoop hmul hsquare n hx hb
  refine Tracks.same ?_ (hk n ha)
  refine Tracks.bind (Tracks.refl (isizeNeg n)) fun x y hxy => Tracks.bind (hinv ha) fun b b' hb => ?_
  subst hxy
  exact hk x hb

end defaults

/-! ## The recursions of `gcd` and `extended_gcd`

Tracking up to one of the computations not returning, for each of the two sides. -/

section weak

variable {σ α β γ δ : Type} {I : σ → Prop} {r : α → β → Prop} {q : γ → δ → Prop} {P Q : Prop}

/-- Tracking, except that the first may not return if `P`, the second if `Q`. -/
def Weakly (P Q : Prop) (I : σ → Prop) (r : α → β → Prop) (x : St σ α) (y : Res β) : Prop :=
  ∀ s, I s → (P ∧ x s = .diverge) ∨ (Q ∧ y = .diverge) ∨ (x s).Matches I r y

theorem Tracks.weakly {x : St σ α} {y : Res β} (h : Tracks I r x y) : Weakly P Q I r x y :=
  fun s hs => .inr (.inr (h s hs))

theorem Weakly.tracks {x : St σ α} {y : Res β} (h : Weakly True False I r x y)
    (h' : Weakly False True I r x y) : Tracks I r x y := by
  intro s hs
  rcases h s hs with ⟨-, h1⟩ | ⟨h1, -⟩ | h1
  · rcases h' s hs with ⟨h2, -⟩ | ⟨-, h2⟩ | h2
    · exact h2.elim
    · rw [h1, h2]; trivial
    · exact h2
  · exact h1.elim
  · exact h1

theorem Weakly.bind {c : St σ α} {d : Res β} {f : α → St σ γ} {g : β → Res δ}
    (h : Weakly P Q I r c d) (hf : ∀ a b, r a b → Weakly P Q I q (f a) (g b)) :
    Weakly P Q I q (c >>= f) (d >>= g) := by
  intro s hs
  show (P ∧ St.bind c f s = .diverge) ∨ (Q ∧ d.bind g = .diverge) ∨ (St.bind c f s).Matches I q (d.bind g)
  unfold St.bind
  rcases h s hs with ⟨hP, h⟩ | ⟨hQ, h⟩ | h
  · rw [h]; exact .inl ⟨hP, rfl⟩
  · rw [h]; exact .inr (.inl ⟨hQ, rfl⟩)
  · revert h
    cases c s with
    | ok a t =>
      cases d with
      | ok b => exact fun this => hf a b this.1 t this.2
      | panic => exact False.elim
      | diverge => exact False.elim
    | panic t =>
      cases d with
      | ok b => exact False.elim
      | panic => exact fun h => .inr (.inr h)
      | diverge => exact False.elim
    | diverge =>
      cases d with
      | ok b => exact False.elim
      | panic => exact False.elim
      | diverge => exact fun h => .inr (.inr h)

theorem Weakly.bindIf {c : St σ Bool} {d : Res Bool} {x y : St σ γ} {x' y' : Res δ}
    (h : Tracks I Eq c d) (h1 : Weakly P Q I q x x') (h2 : Weakly P Q I q y y') :
    Weakly P Q I q (c >>= fun b => if b = true then x else y)
      (d >>= fun b => if b = true then x' else y') :=
  Weakly.bind h.weakly fun a b hab => by
    subst hab
    cases a
    · exact h2
    · exact h1

end weak

section euclid

variable {σ E F : Type} {I : σ → Prop} {r : E → F → Prop}

theorem tracks_gcd {isZero : E → St σ Bool} {isZero' : F → Res Bool} {rem : E → E → St σ E}
    {rem' : F → F → Res F} (hzero : ∀ {a a'}, r a a' → Tracks I Eq (isZero a) (isZero' a'))
    (hrem : ∀ {a b a' b'}, r a a' → r b b' → Tracks I r (rem a b) (rem' a' b'))
    {a b : E} {a' b' : F} (ha : r a a') (hb : r b b') :
    Tracks I r (gcdDefault isZero rem a b) (Abstalg.gcdDefault isZero' rem' a' b') := by
  have step {P Q : Prop} {f : E → E → St σ E} {g : F → F → Res F}
      (hf : ∀ a b a' b', r a a' → r b b' → Weakly P Q I r (f a b) (g a' b')) {a b a' b'} (ha : r a a')
      (hb : r b b') : Weakly P Q I r
        (do if ← isZero b then return a else let c ← rem a b; f b c)
        (do if ← isZero' b' then return a' else let c ← rem' a' b'; g b' c) :=
    Weakly.bindIf (hzero hb) (Tracks.ok ha).weakly
      (Weakly.bind (hrem ha hb).weakly fun c c' hc => hf b c b' c' hb hc)
  have left : ∀ a b a' b', r a a' → r b b' → Weakly True False I r
      (gcdDefault isZero rem a b) (Abstalg.gcdDefault isZero' rem' a' b') := by
    refine gcdDefault.fixpoint_induct isZero rem (fun f => ∀ a b a' b', r a a' → r b b' →
      Weakly True False I r (f a b) (Abstalg.gcdDefault isZero' rem' a' b')) ?_ ?_
    · refine Lean.Order.admissible_pi_apply (fun (a : E) (f : E → St σ E) => ∀ b a' b', r a a' → r b b' →
        Weakly True False I r (f b) (Abstalg.gcdDefault isZero' rem' a' b')) fun a => ?_
      refine Lean.Order.admissible_pi_apply (fun (b : E) (f : St σ E) => ∀ a' b', r a a' → r b b' →
        Weakly True False I r f (Abstalg.gcdDefault isZero' rem' a' b')) fun b => ?_
      intro c hc hx a' b' ha hb s hs
      exact Lean.Order.admissible_pi_apply (fun (s : σ) (f : Out σ E) => I s → (True ∧ f = .diverge) ∨
        (False ∧ Abstalg.gcdDefault isZero' rem' a' b' = .diverge) ∨
        f.Matches I r (Abstalg.gcdDefault isZero' rem' a' b'))
        (fun s => Lean.Order.admissible_flatOrder _ fun _ => .inl ⟨trivial, rfl⟩) c hc
        (fun x hcx s => hx x hcx a' b' ha hb s) s hs
    · intro f hf a b a' b' ha hb
      rw [Abstalg.gcdDefault]
      exact step hf ha hb
  have right : ∀ a' b' a b, r a a' → r b b' → Weakly False True I r
      (gcdDefault isZero rem a b) (Abstalg.gcdDefault isZero' rem' a' b') := by
    refine Abstalg.gcdDefault.fixpoint_induct isZero' rem' (fun g => ∀ a' b' a b, r a a' → r b b' →
      Weakly False True I r (gcdDefault isZero rem a b) (g a' b')) ?_ ?_
    · refine Lean.Order.admissible_pi_apply (fun (a' : F) (g : F → Res F) => ∀ b' a b, r a a' → r b b' →
        Weakly False True I r (gcdDefault isZero rem a b) (g b')) fun a' => ?_
      refine Lean.Order.admissible_pi_apply (fun (b' : F) (g : Res F) => ∀ a b, r a a' → r b b' →
        Weakly False True I r (gcdDefault isZero rem a b) g) fun b' => ?_
      exact Lean.Order.admissible_flatOrder _ fun _ _ _ _ _ _ => .inr (.inl ⟨trivial, rfl⟩)
    · intro g hg a' b' a b ha hb
      rw [gcdDefault]
      exact step (fun a b a' b' => hg a' b' a b) ha hb
  exact Weakly.tracks (left a b a' b' ha hb) (right a' b' a b ha hb)

theorem tracks_extendedGcd {isZero : E → St σ Bool} {isZero' : F → Res Bool} {one zero : St σ E}
    {one' zero' : Res F} {quoRem : E → E → St σ (E × E)} {quoRem' : F → F → Res (F × F)}
    {sub mul : E → E → St σ E} {sub' mul' : F → F → Res F}
    (hzero : ∀ {a a'}, r a a' → Tracks I Eq (isZero a) (isZero' a')) (h1 : Tracks I r one one')
    (h0 : Tracks I r zero zero')
    (hqr : ∀ {a b a' b'}, r a a' → r b b' →
      Tracks I (fun p q => r p.1 q.1 ∧ r p.2 q.2) (quoRem a b) (quoRem' a' b'))
    (hsub : ∀ {a b a' b'}, r a a' → r b b' → Tracks I r (sub a b) (sub' a' b'))
    (hmul : ∀ {a b a' b'}, r a a' → r b b' → Tracks I r (mul a b) (mul' a' b'))
    {a b : E} {a' b' : F} (ha : r a a') (hb : r b b') :
    Tracks I (fun p q => r p.1 q.1 ∧ r p.2.1 q.2.1 ∧ r p.2.2 q.2.2)
      (extendedGcdDefault isZero one zero quoRem sub mul a b)
      (Abstalg.extendedGcdDefault isZero' one' zero' quoRem' sub' mul' a' b') := by
  generalize hq : (fun (p : E × E × E) (q : F × F × F) => r p.1 q.1 ∧ r p.2.1 q.2.1 ∧ r p.2.2 q.2.2) = q
  have step {P Q : Prop} {f : E → E → St σ (E × E × E)} {g : F → F → Res (F × F × F)}
      (hf : ∀ a b a' b', r a a' → r b b' → Weakly P Q I q (f a b) (g a' b')) {a b a' b'} (ha : r a a')
      (hb : r b b') : Weakly P Q I q
        (do
          if ← isZero b then return (a, ← one, ← zero)
          else
            let (quo, rem) ← quoRem a b
            let (gcd, x, y) ← f b rem
            let z ← sub x (← mul y quo)
            return (gcd, y, z))
        (do
          if ← isZero' b' then return (a', ← one', ← zero')
          else
            let (quo, rem) ← quoRem' a' b'
            let (gcd, x, y) ← g b' rem
            let z ← sub' x (← mul' y quo)
            return (gcd, y, z)) := by
    refine Weakly.bindIf (hzero hb) (Tracks.weakly (Tracks.bind h1 fun x x' hx => Tracks.bind h0 fun y y' hy =>
      .ok (by rw [← hq]; exact ⟨ha, hx, hy⟩))) (Weakly.bind (hqr ha hb).weakly ?_)
    rintro ⟨u, c⟩ ⟨u', c'⟩ ⟨hu, hc⟩
    refine Weakly.bind (hf b c b' c' hb hc) ?_
    subst hq
    rintro ⟨g, x, y⟩ ⟨g', x', y'⟩ ⟨hg, hx, hy⟩
    exact Tracks.weakly (Tracks.bind (hmul hy hu) fun m m' hm => Tracks.bind (hsub hx hm) fun z z' hz =>
      .ok ⟨hg, hy, hz⟩)
  have left : ∀ a b a' b', r a a' → r b b' → Weakly True False I q
      (extendedGcdDefault isZero one zero quoRem sub mul a b)
      (Abstalg.extendedGcdDefault isZero' one' zero' quoRem' sub' mul' a' b') := by
    refine extendedGcdDefault.fixpoint_induct isZero one zero quoRem sub mul
      (fun f => ∀ a b a' b', r a a' → r b b' → Weakly True False I q (f a b)
        (Abstalg.extendedGcdDefault isZero' one' zero' quoRem' sub' mul' a' b')) ?_ ?_
    · refine Lean.Order.admissible_pi_apply (fun (a : E) (f : E → St σ (E × E × E)) => ∀ b a' b',
        r a a' → r b b' → Weakly True False I q (f b)
          (Abstalg.extendedGcdDefault isZero' one' zero' quoRem' sub' mul' a' b')) fun a => ?_
      refine Lean.Order.admissible_pi_apply (fun (b : E) (f : St σ (E × E × E)) => ∀ a' b',
        r a a' → r b b' → Weakly True False I q f
          (Abstalg.extendedGcdDefault isZero' one' zero' quoRem' sub' mul' a' b')) fun b => ?_
      intro c hc hx a' b' ha hb s hs
      exact Lean.Order.admissible_pi_apply (fun (s : σ) (f : Out σ (E × E × E)) => I s →
        (True ∧ f = .diverge) ∨
        (False ∧ Abstalg.extendedGcdDefault isZero' one' zero' quoRem' sub' mul' a' b' = .diverge) ∨
        f.Matches I q (Abstalg.extendedGcdDefault isZero' one' zero' quoRem' sub' mul' a' b'))
        (fun s => Lean.Order.admissible_flatOrder _ fun _ => .inl ⟨trivial, rfl⟩) c hc
        (fun x hcx s => hx x hcx a' b' ha hb s) s hs
    · intro f hf a b a' b' ha hb
      rw [Abstalg.extendedGcdDefault]
      exact step hf ha hb
  have right : ∀ a' b' a b, r a a' → r b b' → Weakly False True I q
      (extendedGcdDefault isZero one zero quoRem sub mul a b)
      (Abstalg.extendedGcdDefault isZero' one' zero' quoRem' sub' mul' a' b') := by
    refine Abstalg.extendedGcdDefault.fixpoint_induct isZero' one' zero' quoRem' sub' mul'
      (fun g => ∀ a' b' a b, r a a' → r b b' → Weakly False True I q
        (extendedGcdDefault isZero one zero quoRem sub mul a b) (g a' b')) ?_ ?_
    · refine Lean.Order.admissible_pi_apply (fun (a' : F) (g : F → Res (F × F × F)) => ∀ b' a b,
        r a a' → r b b' → Weakly False True I q
          (extendedGcdDefault isZero one zero quoRem sub mul a b) (g b')) fun a' => ?_
      refine Lean.Order.admissible_pi_apply (fun (b' : F) (g : Res (F × F × F)) => ∀ a b,
        r a a' → r b b' → Weakly False True I q
          (extendedGcdDefault isZero one zero quoRem sub mul a b) g) fun b' => ?_
      exact Lean.Order.admissible_flatOrder _ fun _ _ _ _ _ _ => .inr (.inl ⟨trivial, rfl⟩)
    · intro g hg a' b' a b ha hb
      rw [extendedGcdDefault]
      exact step (fun a b a' b' => hg a' b' a b) ha hb
  exact Weakly.tracks (left a b a' b' ha hb) (right a' b' a b ha hb)

end euclid

end Abstalg.Stateful
