import Verif.Spec.Simulation
import Mathlib.Data.Int.Notation
import Mathlib.Data.List.Forall2

/-! # Following through the combinators and the default methods -/

set_option linter.unusedSectionVars false

set_option autoImplicit false

universe u v u' v'

namespace Abstalg

section combinators

variable {α : Type u} {β : Type v} {γ : Type u'} {δ : Type v'}
  {r : α → β → Prop} {s : γ → δ → Prop}

theorem Follows.ok {a : α} {b : β} (h : r a b) : Follows r (.ok a) (.ok b) :=
  fun _ hc => ⟨b, rfl, by cases hc; exact h⟩

theorem Follows.panic {d : Res β} : Follows r .panic d := fun _ h => by cases h

theorem Follows.diverge {d : Res β} : Follows r .diverge d := fun _ h => by cases h

theorem Follows.rbind {c : Res α} {d : Res β} {f : α → Res γ} {g : β → Res δ}
    (h : Follows r c d) (hf : ∀ a b, r a b → Follows s (f a) (g b)) :
    Follows s (c.bind f) (d.bind g) := by
  cases c with
  | ok a =>
    obtain ⟨b, rfl, hb⟩ := h a rfl
    exact hf a b hb
  | panic => exact .panic
  | diverge => exact .diverge

theorem Follows.mono {r' : α → β → Prop} {c : Res α} {d : Res β} (h : Follows r c d)
    (hr : ∀ a b, r a b → r' a b) : Follows r' c d := fun a ha =>
  let ⟨b, hb, h'⟩ := h a ha
  ⟨b, hb, hr a b h'⟩

theorem Follows.refl (c : Res α) : Follows Eq c c := fun a h => ⟨a, h, rfl⟩

theorem Follows.ite {p q : Prop} [Decidable p] [Decidable q] {c c' : Res α} {d d' : Res β}
    (hpq : p ↔ q) (h : p → Follows r c d) (h' : ¬ p → Follows r c' d') :
    Follows r (if p then c else c') (if q then d else d') := by
  by_cases hp : p
  · rw [if_pos hp, if_pos (hpq.1 hp)]; exact h hp
  · rw [if_neg hp, if_neg fun hq => hp (hpq.2 hq)]; exact h' hp

theorem Follows.same {p : Prop} {inst : Decidable p} {c c' : Res α} {d d' : Res β}
    (h : Follows r c d) (h' : Follows r c' d') :
    Follows r (if p then c else c') (if p then d else d') := by
  by_cases hp : p
  · rw [if_pos hp, if_pos hp]; exact h
  · rw [if_neg hp, if_neg hp]; exact h'

theorem Follows.unwrap {o : Option α} {o' : Option β} (h : Option.Rel r o o') :
    Follows r (Res.unwrap o) (Res.unwrap o') := by
  cases h with
  | some h => exact .ok h
  | none => exact .panic

theorem Follows.assert {b b' : Bool} (h : b = b') : Follows Eq (Res.assert b) (Res.assert b') := by
  rw [h]; exact .refl _

end combinators

section samelevel

variable {α γ : Type u} {β δ : Type v} {r : α → β → Prop} {s : γ → δ → Prop}

theorem Follows.bind {c : Res α} {d : Res β} {f : α → Res γ} {g : β → Res δ}
    (h : Follows r c d) (hf : ∀ a b, r a b → Follows s (f a) (g b)) :
    Follows s (c >>= f) (d >>= g) := Follows.rbind h hf

/-- A condition that is computed first. -/
theorem Follows.bindIf {c d : Res Bool} {γ δ : Type} {s : γ → δ → Prop} {x y : Res γ} {x' y' : Res δ}
    (h : Follows Eq c d) (h1 : Follows s x x') (h2 : Follows s y y') :
    Follows s (c >>= fun b => if b = true then x else y) (d >>= fun b => if b = true then x' else y') :=
  h.bind fun a b hab => by
    subst hab
    cases a
    · exact h2
    · exact h1

/-- Negating an answer. -/
theorem Follows.not {c d : Res Bool} (h : Follows Eq c d) :
    Follows Eq (c >>= fun b => pure (!b)) (d >>= fun b => pure (!b)) :=
  h.bind fun _ _ hab => .ok (by rw [hab])

theorem Follows.isSome {E F : Type} {r : E → F → Prop} {c : Res (Option E)} {d : Res (Option F)}
    (h : Follows (Option.Rel r) c d) :
    Follows Eq (c >>= fun o => pure o.isSome) (d >>= fun o => pure o.isSome) :=
  h.bind fun _ _ hab => .ok (by cases hab <;> rfl)

/-- A check that the first operand fails if the second does. -/
theorem Follows.check {c d : Res Bool} {γ δ : Type} {s : γ → δ → Prop} {f : Unit → Res γ}
    {g : Unit → Res δ} (h : Follows Eq c d) (h' : Follows s (f ()) (g ())) :
    Follows s (c >>= fun b => Res.assert (!b) >>= f) (d >>= fun b => Res.assert (!b) >>= g) :=
  h.bind fun a b hab => by
    subst hab
    cases a
    · exact h'
    · exact .panic

end samelevel

/-! ## Lists -/

section lists

variable {α : Type u} {β : Type v} {γ : Type u'} {δ : Type v'}
  {r : α → β → Prop} {s : γ → δ → Prop}

theorem LRel.getElem? {v : List α} {w : List β} (h : LRel r v w) (i : ℕ) :
    Option.Rel r v[i]? w[i]? := by
  induction h generalizing i with
  | nil => exact Option.Rel.none
  | cons hab _ ih =>
    cases i with
    | zero => exact Option.Rel.some hab
    | succ i => simpa using ih i

theorem LRel.set {v : List α} {w : List β} (h : LRel r v w) (i : ℕ) {a : α} {b : β} (hab : r a b) :
    LRel r (v.set i a) (w.set i b) := by
  induction h generalizing i with
  | nil => exact .nil
  | cons h hl ih =>
    cases i with
    | zero => exact .cons hab hl
    | succ i => exact .cons h (ih i)

theorem LRel.append {v v' : List α} {w w' : List β} (h : LRel r v w) (h' : LRel r v' w') :
    LRel r (v ++ v') (w ++ w') := by
  induction h with
  | nil => exact h'
  | cons hab _ ih => exact .cons hab ih

theorem LRel.replicate (n : ℕ) {a : α} {b : β} (h : r a b) :
    LRel r (List.replicate n a) (List.replicate n b) := by
  induction n with
  | zero => exact .nil
  | succ n ih => exact .cons h ih

theorem LRel.take {v : List α} {w : List β} (h : LRel r v w) (n : ℕ) :
    LRel r (v.take n) (w.take n) := by
  induction h generalizing n with
  | nil => simp
  | cons hab _ ih =>
    cases n with
    | zero => exact .nil
    | succ n => exact .cons hab (ih n)

theorem LRel.resize {v : List α} {w : List β} (h : LRel r v w) (n : ℕ) {a : α} {b : β} (hab : r a b) :
    LRel r (resize v n a) (resize w n b) := by
  unfold Abstalg.resize
  rw [h.length_eq]
  exact (h.take n).append (.replicate _ hab)

theorem LRel.zip {v : List α} {w : List β} {v' : List γ} {w' : List δ} (h : LRel r v w)
    (h' : LRel s v' w') : LRel (fun p q => r p.1 q.1 ∧ s p.2 q.2) (v.zip v') (w.zip w') := by
  induction h generalizing v' w' with
  | nil => simp
  | cons hab _ ih =>
    cases h' with
    | nil => simp
    | cons hab' hl' => exact .cons ⟨hab, hab'⟩ (ih hl')

theorem LRel.isEmpty {v : List α} {w : List β} (h : LRel r v w) : v.isEmpty = w.isEmpty := by
  cases h <;> rfl

theorem LRel.idx {v : List α} {w : List β} (h : LRel r v w) (i : ℕ) :
    Follows r (idx v i) (idx w i) := by
  have := h.getElem? i
  unfold Abstalg.idx
  revert this
  generalize v[i]? = x
  generalize w[i]? = y
  intro this
  cases this with
  | some h => exact .ok h
  | none => exact .panic

theorem LRel.setIdx {v : List α} {w : List β} (h : LRel r v w) (i : ℕ) {a : α} {b : β} (hab : r a b) :
    Follows (LRel r) (setIdx v i a) (setIdx w i b) := by
  unfold Abstalg.setIdx
  exact .ite (by rw [h.length_eq]) (fun _ => .ok (h.set i hab)) fun _ => .panic

theorem LRel.swapIdx {v : List α} {w : List β} (h : LRel r v w) (i j : ℕ) :
    Follows (LRel r) (swapIdx v i j) (swapIdx w i j) := by
  unfold Abstalg.swapIdx
  exact (h.idx i).rbind fun a a' ha => (h.idx j).rbind fun b b' hb =>
    (h.setIdx i hb).rbind fun _ _ h => h.setIdx j ha

theorem LRel.allRes {v : List α} {w : List β} (h : LRel r v w) {p : α → Res Bool} {q : β → Res Bool}
    (hpq : ∀ {a b}, r a b → Follows Eq (p a) (q b)) : Follows Eq (allRes p v) (allRes q w) := by
  induction h with
  | nil => exact .ok rfl
  | cons hab _ ih =>
    refine Follows.rbind (hpq hab) fun a b h => .ite (by rw [h]) (fun _ => ih) fun _ => .ok rfl

theorem LRel.mapRes {v : List α} {w : List β} (h : LRel r v w) {f : α → Res γ} {g : β → Res δ}
    (hfg : ∀ {a b}, r a b → Follows s (f a) (g b)) : Follows (LRel s) (mapRes f v) (mapRes g w) := by
  induction h with
  | nil => exact .ok .nil
  | cons hab _ ih =>
    exact Follows.rbind (hfg hab) fun a b h => Follows.rbind ih fun _ _ hl => .ok (.cons h hl)

theorem LRel.zipForEach {v : List α} {w : List β} {v' : List γ} {w' : List δ} (h : LRel r v w)
    (h' : LRel s v' w') {f : α → γ → Res α} {g : β → δ → Res β}
    (hfg : ∀ {a b c d}, r a b → s c d → Follows r (f a c) (g b d)) :
    Follows (LRel r) (zipForEach f v v') (zipForEach g w w') := by
  induction h generalizing v' w' with
  | nil => cases h' <;> exact .ok .nil
  | cons hab hl ih =>
    cases h' with
    | nil => exact .ok (.cons hab hl)
    | cons hab' hl' =>
      exact Follows.rbind (hfg hab hab') fun a b h => Follows.rbind (ih hl') fun _ _ hl => .ok (.cons h hl)

theorem follows_forLoop {ι : Type u'} (l : List ι) {f : α → ι → Res α} {g : β → ι → Res β}
    (hfg : ∀ i {a b}, r a b → Follows r (f a i) (g b i)) {a : α} {b : β} (h : r a b) :
    Follows r (forLoop l a f) (forLoop l b g) := by
  induction l generalizing a b with
  | nil => exact .ok h
  | cons i l ih => exact Follows.rbind (hfg i h) fun _ _ h => ih h

theorem follows_findRes {ι : Type u'} (l : List ι) {p q : ι → Res Bool}
    (hpq : ∀ i, Follows Eq (p i) (q i)) : Follows Eq (findRes p l) (findRes q l) := by
  induction l with
  | nil => exact .ok rfl
  | cons i l ih =>
    exact Follows.rbind (hpq i) fun a b h => .ite (by rw [h]) (fun _ => .ok rfl) fun _ => ih

end lists

/-! ## The configuration -/

section cfg

variable {c₁ c₂ : Cfg}

theorem Cfg.Relaxes.refl (c : Cfg) : Cfg.Relaxes c c := ⟨rfl, id, id⟩

theorem Cfg.Relaxes.isizeNeg (h : Cfg.Relaxes c₁ c₂) (n : ℤ) :
    Follows Eq (@isizeNeg c₁ n) (@isizeNeg c₂ n) := by
  have hm : @isizeMin c₁ = @isizeMin c₂ := by unfold isizeMin; rw [h.ptrBits]
  unfold Abstalg.isizeNeg
  refine .ite (by rw [hm]) (fun _ => ?_) fun _ => .ok rfl
  by_cases h1 : c₁.overflowChecks = true
  · rw [if_pos h1]; exact .panic
  · rw [if_neg h1, if_neg fun h2 => h1 (h.overflowChecks h2)]
    exact .ok hm

theorem Cfg.Relaxes.debugAssert (h : Cfg.Relaxes c₁ c₂) {b b' : Res Bool} (hb : Follows Eq b b') :
    Follows Eq (@debugAssert c₁ b) (@debugAssert c₂ b') := by
  unfold Abstalg.debugAssert
  by_cases h2 : c₂.debugAssertions = true
  · rw [if_pos h2, if_pos (h.debugAssertions h2)]
    exact hb.rbind fun _ _ h => .assert h
  · rw [if_neg h2]
    exact fun _ _ => ⟨(), rfl, rfl⟩

end cfg

/-! ## The default methods -/

section defaults

variable {E F : Type} {r : E → F → Prop}

theorem follows_timesLoop {add : E → E → Res E} {add' : F → F → Res F} {double : E → Res E}
    {double' : F → Res F}
    (hadd : ∀ {a b a' b'}, r a a' → r b b' → Follows r (add a b) (add' a' b'))
    (hdouble : ∀ {a a'}, r a a' → Follows r (double a) (double' a')) (n : ℕ) :
    ∀ {x y : E} {x' y' : F}, r x x' → r y y' →
      Follows r (timesLoop add double n x y) (timesLoop add' double' n x' y') := by
  induction n using Nat.strongRecOn with
  | _ n ih =>
    intro x y x' y' hx hy
    rw [timesLoop, timesLoop]
    by_cases hn : 0 < n
    · rw [dif_pos hn, dif_pos hn]
      have hk {a a'} (ha : r a a') : Follows r
          (double y >>= fun b => timesLoop add double (n / 2) a b)
          (double' y' >>= fun b => timesLoop add' double' (n / 2) a' b) :=
        Follows.bind (hdouble hy) fun b b' hb => ih _ (by omega) ha hb
      exact Follows.same (Follows.bind (hadd hx hy) fun a a' ha => hk ha)
        (Follows.bind (.ok hx) fun a a' ha => hk ha)
    · rw [dif_neg hn, dif_neg hn]
      exact .ok hx

theorem follows_powerLoop {mul : E → E → Res E} {mul' : F → F → Res F} {square : E → Res E}
    {square' : F → Res F}
    (hmul : ∀ {a b a' b'}, r a a' → r b b' → Follows r (mul a b) (mul' a' b'))
    (hsquare : ∀ {a a'}, r a a' → Follows r (square a) (square' a')) (n : ℤ) :
    ∀ {x y : E} {x' y' : F}, r x x' → r y y' →
      Follows r (powerLoop mul square n x y) (powerLoop mul' square' n x' y') := by
  induction hk : n.toNat using Nat.strongRecOn generalizing n with
  | _ k ih =>
    intro x y x' y' hx hy
    rw [powerLoop, powerLoop]
    by_cases hn : 0 < n
    · rw [dif_pos hn, dif_pos hn]
      have hlt : (Int.tdiv n 2).toNat < k := by
        rw [Int.tdiv_eq_ediv_of_nonneg (by omega)]; omega
      have hk {a a'} (ha : r a a') : Follows r
          (square y >>= fun b => powerLoop mul square (Int.tdiv n 2) a b)
          (square' y' >>= fun b => powerLoop mul' square' (Int.tdiv n 2) a' b) :=
        Follows.bind (hsquare hy) fun b b' hb => ih _ hlt _ rfl ha hb
      exact Follows.same (Follows.bind (hmul hx hy) fun a a' ha => hk ha)
        (Follows.bind (.ok hx) fun a a' ha => hk ha)
    · rw [dif_neg hn, dif_neg hn]
      exact .ok hx

theorem follows_powerDefault {c₁ c₂ : Cfg} (hc : Cfg.Relaxes c₁ c₂) {one : Res E} {one' : Res F}
    {mul : E → E → Res E} {mul' : F → F → Res F} {square : E → Res E} {square' : F → Res F}
    {inv : E → Res E} {inv' : F → Res F} (hone : Follows r one one')
    (hmul : ∀ {a b a' b'}, r a a' → r b b' → Follows r (mul a b) (mul' a' b'))
    (hsquare : ∀ {a a'}, r a a' → Follows r (square a) (square' a'))
    (hinv : ∀ {a a'}, r a a' → Follows r (inv a) (inv' a')) (n : ℤ) {a : E} {a' : F} (ha : r a a') :
    Follows r (@powerDefault c₁ E one mul square inv n a) (@powerDefault c₂ F one' mul' square' inv' n a') := by
  unfold powerDefault
  have hk (n : ℤ) {b b'} (hb : r b b') : Follows r (one >>= fun x => powerLoop mul square n x b)
      (one' >>= fun x => powerLoop mul' square' n x b') :=
    Follows.bind hone fun x x' hx => follows_powerLoop hmul hsquare n hx hb
  refine Follows.same ?_ (hk n ha)
  refine Follows.bind (hc.isizeNeg n) fun x y hxy => Follows.bind (hinv ha) fun b b' hb => ?_
  subst hxy
  exact hk x hb

theorem follows_gcd {isZero : E → Res Bool} {isZero' : F → Res Bool} {rem : E → E → Res E}
    {rem' : F → F → Res F} (hzero : ∀ {a a'}, r a a' → Follows Eq (isZero a) (isZero' a'))
    (hrem : ∀ {a b a' b'}, r a a' → r b b' → Follows r (rem a b) (rem' a' b'))
    {a b : E} {a' b' : F} (ha : r a a') (hb : r b b') :
    Follows r (gcdDefault isZero rem a b) (gcdDefault isZero' rem' a' b') := by
  suffices ∀ a b a' b', r a a' → r b b' →
      Follows r (gcdDefault isZero rem a b) (gcdDefault isZero' rem' a' b') from this a b a' b' ha hb
  refine gcdDefault.fixpoint_induct isZero rem (fun f => ∀ a b a' b', r a a' → r b b' →
    Follows r (f a b) (gcdDefault isZero' rem' a' b')) ?_ ?_
  · refine Lean.Order.admissible_pi_apply (fun (a : E) (f : E → Res E) => ∀ b a' b', r a a' → r b b' →
      Follows r (f b) (gcdDefault isZero' rem' a' b')) fun a => ?_
    refine Lean.Order.admissible_pi_apply (fun (b : E) (f : Res E) => ∀ a' b', r a a' → r b b' →
      Follows r f (gcdDefault isZero' rem' a' b')) fun b => ?_
    exact Lean.Order.admissible_flatOrder _ fun _ _ _ _ => Follows.diverge
  · intro f hf a b a' b' ha hb
    rw [gcdDefault]
    exact Follows.bindIf (hzero hb) (.ok ha)
      (Follows.bind (hrem ha hb) fun c c' hc => hf b c b' c' hb hc)

theorem follows_extendedGcd {isZero : E → Res Bool} {isZero' : F → Res Bool} {one zero : Res E}
    {one' zero' : Res F} {quoRem : E → E → Res (E × E)} {quoRem' : F → F → Res (F × F)}
    {sub mul : E → E → Res E} {sub' mul' : F → F → Res F}
    (hzero : ∀ {a a'}, r a a' → Follows Eq (isZero a) (isZero' a')) (h1 : Follows r one one')
    (h0 : Follows r zero zero')
    (hqr : ∀ {a b a' b'}, r a a' → r b b' →
      Follows (fun p q => r p.1 q.1 ∧ r p.2 q.2) (quoRem a b) (quoRem' a' b'))
    (hsub : ∀ {a b a' b'}, r a a' → r b b' → Follows r (sub a b) (sub' a' b'))
    (hmul : ∀ {a b a' b'}, r a a' → r b b' → Follows r (mul a b) (mul' a' b'))
    {a b : E} {a' b' : F} (ha : r a a') (hb : r b b') :
    Follows (fun p q => r p.1 q.1 ∧ r p.2.1 q.2.1 ∧ r p.2.2 q.2.2)
      (extendedGcdDefault isZero one zero quoRem sub mul a b)
      (extendedGcdDefault isZero' one' zero' quoRem' sub' mul' a' b') := by
  suffices ∀ a b a' b', r a a' → r b b' →
      Follows (fun p q => r p.1 q.1 ∧ r p.2.1 q.2.1 ∧ r p.2.2 q.2.2)
        (extendedGcdDefault isZero one zero quoRem sub mul a b)
        (extendedGcdDefault isZero' one' zero' quoRem' sub' mul' a' b') from this a b a' b' ha hb
  refine extendedGcdDefault.fixpoint_induct isZero one zero quoRem sub mul
    (fun f => ∀ a b a' b', r a a' → r b b' →
      Follows (fun p q => r p.1 q.1 ∧ r p.2.1 q.2.1 ∧ r p.2.2 q.2.2)
        (f a b) (extendedGcdDefault isZero' one' zero' quoRem' sub' mul' a' b')) ?_ ?_
  · refine Lean.Order.admissible_pi_apply (fun (a : E) (f : E → Res (E × E × E)) => ∀ b a' b',
      r a a' → r b b' → Follows (fun p q => r p.1 q.1 ∧ r p.2.1 q.2.1 ∧ r p.2.2 q.2.2)
        (f b) (extendedGcdDefault isZero' one' zero' quoRem' sub' mul' a' b')) fun a => ?_
    refine Lean.Order.admissible_pi_apply (fun (b : E) (f : Res (E × E × E)) => ∀ a' b',
      r a a' → r b b' → Follows (fun p q => r p.1 q.1 ∧ r p.2.1 q.2.1 ∧ r p.2.2 q.2.2)
        f (extendedGcdDefault isZero' one' zero' quoRem' sub' mul' a' b')) fun b => ?_
    exact Lean.Order.admissible_flatOrder _ fun _ _ _ _ => Follows.diverge
  · intro f hf a b a' b' ha hb
    rw [extendedGcdDefault]
    refine Follows.bindIf (hzero hb) (Follows.bind h1 fun x x' hx => Follows.bind h0 fun y y' hy =>
      .ok ⟨ha, hx, hy⟩) (Follows.bind (hqr ha hb) ?_)
    rintro ⟨q, c⟩ ⟨q', c'⟩ ⟨hq, hc⟩
    refine Follows.bind (hf b c b' c' hb hc) ?_
    rintro ⟨g, x, y⟩ ⟨g', x', y'⟩ ⟨hg, hx, hy⟩
    exact Follows.bind (hmul hy hq) fun m m' hm => Follows.bind (hsub hx hm) fun z z' hz =>
      .ok ⟨hg, hy, hz⟩

end defaults

theorem lRel_eq {α : Type} : LRel (Eq : α → α → Prop) = Eq := List.forall₂_eq_eq_eq

theorem pRel_eq {α : Type} : PRel (Eq : α → α → Prop) = Eq := by
  funext p q
  exact propext Prod.ext_iff.symm

end Abstalg
