import Verif.Spec.Lawless
import Verif.Proofs.Basic
import Mathlib.Data.List.Basic

/-! # Yielding through the combinators and the default methods -/

set_option linter.unusedSectionVars false

set_option autoImplicit false

namespace Abstalg.Stateful

section combinators

variable {σ α β γ : Type} {T : Limits σ} {Q : α → Prop} {R : β → Prop}

theorem Yields.ok {a : α} (h : Q a) : Yields T Q (pure a : St σ α) := fun _ hs => ⟨h, hs⟩

theorem Yields.lok {a : α} (h : Q a) : Yields T Q (liftM (Res.ok a) : St σ α) := fun _ hs => ⟨h, hs⟩

theorem Yields.bind {x : St σ α} {f : α → St σ β} (h : Yields T Q x) (hf : ∀ a, Q a → Yields T R (f a)) :
    Yields T R (x >>= f) := by
  intro s hs
  have h := h s hs
  show match St.bind x f s with
    | .ok a t => R a ∧ T.state t
    | .panic t => T.panic t
    | .diverge => T.diverge
  unfold St.bind
  revert h
  cases x s with
  | ok a t => exact fun h => hf a h.1 t h.2
  | panic t => exact id
  | diverge => exact id

theorem Yields.mono {Q' : α → Prop} {x : St σ α} (h : Yields T Q x) (hq : ∀ a, Q a → Q' a) : Yields T Q' x := by
  intro s hs
  have h := h s hs
  revert h
  cases x s with
  | ok a t => exact fun h => ⟨hq a h.1, h.2⟩
  | panic t => exact id
  | diverge => exact id

theorem Yields.answers {x : St σ α} (h : Yields T Q x) : Answers T x := h.mono fun _ _ => trivial

theorem Yields.and {Q' : α → Prop} {x : St σ α} (h : Yields T Q x) (h' : Yields T Q' x) :
    Yields T (fun a => Q a ∧ Q' a) x := by
  intro s hs
  have h := h s hs
  have h' := h' s hs
  revert h h'
  cases x s with
  | ok a t => exact fun h h' => ⟨⟨h.1, h'.1⟩, h.2⟩
  | panic t => exact fun _ h => h
  | diverge => exact fun _ h => h

theorem Yields.ite {p : Prop} {inst : Decidable p} {x y : St σ α} (hx : p → Yields T Q x) (hy : ¬ p → Yields T Q y) :
    Yields T Q (if p then x else y) := by
  by_cases hp : p
  · rw [if_pos hp]; exact hx hp
  · rw [if_neg hp]; exact hy hp

theorem Yields.bindIf {c : St σ Bool} {x y : St σ α} (h : Answers T c) (hx : Yields T Q x) (hy : Yields T Q y) :
    Yields T Q (c >>= fun b => if b = true then x else y) := h.bind fun _ _ => .ite (fun _ => hx) fun _ => hy

theorem Yields.not {c : St σ Bool} (h : Answers T c) : Answers T (c >>= fun b => pure (!b)) :=
  h.bind fun _ _ => .ok trivial

theorem Yields.isSome {c : St σ (Option α)} {Q : Option α → Prop} (h : Yields T Q c) :
    Answers T (c >>= fun o => pure o.isSome) := h.bind fun _ _ => .ok trivial

theorem Yields.assert {b : Bool} (h : b = true) : Answers T (liftM (Res.assert b) : St σ Unit) := by
  subst h; exact .lok trivial

/-- A panic that the limits allow. -/
theorem Yields.allowed (hp : ∀ s, T.state s → T.panic s) {r : Res α} (h : match r with
    | .ok a => Q a | .panic => True | .diverge => False) : Yields T Q (liftM r : St σ α) := by
  intro s hs
  cases r with
  | ok a => exact ⟨h, hs⟩
  | panic => exact hp s hs
  | diverge => exact h.elim

theorem Yields.assertAllowed (hp : ∀ s, T.state s → T.panic s) (b : Bool) :
    Yields T (fun _ => b = true) (liftM (Res.assert b) : St σ Unit) := by
  cases b
  · exact Yields.allowed hp (r := Res.panic) trivial
  · exact .lok rfl

theorem Yields.unwrapAllowed (hp : ∀ s, T.state s → T.panic s) {o : Option α} (h : Maybe Q o) :
    Yields T Q (liftM (Res.unwrap o) : St σ α) := by
  cases o with
  | none => exact Yields.allowed hp (r := Res.panic) trivial
  | some a => exact .lok (h a rfl)

theorem Maybe.none : Maybe Q (none : Option α) := fun _ h => by cases h

theorem Maybe.some {a : α} (h : Q a) : Maybe Q (some a) := fun _ h' => by cases h'; exact h

theorem Yields.debugAssert [Cfg] (hp : Cfg.debugAssertions = true → ∀ s, T.state s → T.panic s) {b : St σ Bool}
    (h : Answers T b) : Answers T (debugAssert b) := by
  unfold Stateful.debugAssert
  exact .ite (fun hd => h.bind fun b _ => (Yields.assertAllowed (hp hd) b).answers) fun _ => .ok trivial

end combinators

/-! ## Lists -/

section lists

variable {σ α β γ : Type} {T : Limits σ} {Q : α → Prop} {R : β → Prop}

theorem yields_idx {v : List α} (h : Each Q v) {i : ℕ} (hi : i < v.length) :
    Yields T Q (liftM (idx v i) : St σ α) := by
  unfold Abstalg.idx
  rw [List.getElem?_eq_getElem hi]
  exact .lok (h _ (List.getElem_mem hi))

theorem idx_lt {v : List α} {i : ℕ} (hi : i < v.length) : idx v i = .ok v[i] := by
  unfold Abstalg.idx
  rw [List.getElem?_eq_getElem hi]

theorem Each.set {v : List α} (h : Each Q v) (i : ℕ) {a : α} (ha : Q a) : Each Q (v.set i a) := by
  intro b hb
  rcases List.mem_or_eq_of_mem_set hb with hb | rfl
  · exact h b hb
  · exact ha

theorem Vec.set {n : ℕ} {v : List α} (h : Vec Q n v) (i : ℕ) {a : α} (ha : Q a) : Vec Q n (v.set i a) :=
  ⟨by rw [List.length_set, h.1], Each.set h.2 i ha⟩

theorem yields_setIdx {n : ℕ} {v : List α} (h : Vec Q n v) {i : ℕ} (hi : i < n) {a : α} (ha : Q a) :
    Yields T (Vec Q n) (liftM (setIdx v i a) : St σ (List α)) := by
  unfold Abstalg.setIdx
  rw [if_pos (h.1.symm ▸ hi)]
  exact .lok (h.set i ha)

theorem Each.append {v w : List α} (h : Each Q v) (h' : Each Q w) : Each Q (v ++ w) := fun a ha =>
  (List.mem_append.1 ha).elim (h a) (h' a)

theorem Each.single {a : α} (h : Q a) : Each Q [a] := fun b hb => by
  cases List.mem_singleton.1 hb; exact h

theorem Each.replicate (n : ℕ) {a : α} (h : Q a) : Each Q (List.replicate n a) := fun b hb => by
  rw [(List.mem_replicate.1 hb).2]; exact h

theorem Each.take {v : List α} (h : Each Q v) (n : ℕ) : Each Q (v.take n) := fun a ha => h a (List.mem_of_mem_take ha)

theorem Each.nil : Each Q [] := fun _ h => by cases h

theorem Vec.replicate (n : ℕ) {a : α} (h : Q a) : Vec Q n (List.replicate n a) :=
  ⟨List.length_replicate, Each.replicate n h⟩

theorem yields_allRes {p : α → St σ Bool} {v : List α} (h : ∀ a ∈ v, Answers T (p a)) : Answers T (allRes p v) := by
  induction v with
  | nil => exact .ok trivial
  | cons a v ih =>
    exact Yields.bind (h a List.mem_cons_self) fun _ _ =>
      .ite (fun _ => ih fun b hb => h b (List.mem_cons_of_mem _ hb)) fun _ => .ok trivial

theorem yields_mapRes {f : α → St σ β} {v : List α} (h : ∀ a ∈ v, Yields T R (f a)) :
    Yields T (Vec R v.length) (mapRes f v) := by
  induction v with
  | nil => exact .ok ⟨rfl, Each.nil⟩
  | cons a v ih =>
    refine Yields.bind (h a List.mem_cons_self) fun b hb =>
      Yields.bind (ih fun b hb => h b (List.mem_cons_of_mem _ hb)) fun w hw => .ok ⟨?_, ?_⟩
    · rw [List.length_cons, List.length_cons, hw.1]
    · intro c hc
      rcases List.mem_cons.1 hc with rfl | hc
      · exact hb
      · exact hw.2 c hc

theorem yields_zipForEach {f : α → α → St σ α} (hf : ∀ {a b}, Q a → Q b → Yields T Q (f a b)) {v w : List α}
    (hv : Each Q v) (hw : Each Q w) : Yields T (Vec Q v.length) (zipForEach f v w) := by
  induction v generalizing w with
  | nil => exact .ok ⟨rfl, Each.nil⟩
  | cons a v ih =>
    cases w with
    | nil => exact .ok ⟨rfl, hv⟩
    | cons b w =>
      refine Yields.bind (hf (hv a List.mem_cons_self) (hw b List.mem_cons_self)) fun c hc =>
        Yields.bind (ih (fun a ha => hv a (List.mem_cons_of_mem _ ha)) fun b hb => hw b (List.mem_cons_of_mem _ hb))
          fun u hu => .ok ⟨?_, ?_⟩
      · rw [List.length_cons, List.length_cons, hu.1]
      · intro d hd
        rcases List.mem_cons.1 hd with rfl | hd
        · exact hc
        · exact hu.2 d hd

theorem yields_forLoop {ι : Type} {l : List ι} {body : α → ι → St σ α} (h : ∀ i ∈ l, ∀ a, Q a → Yields T Q (body a i))
    {a : α} (ha : Q a) : Yields T Q (forLoop l a body) := by
  induction l generalizing a with
  | nil => exact .ok ha
  | cons i l ih =>
    exact Yields.bind (h i List.mem_cons_self a ha) fun b hb => ih (fun j hj => h j (List.mem_cons_of_mem _ hj)) hb

theorem yields_forRange' {n : ℕ} {body : α → ℕ → St σ α} (J : ℕ → α → Prop) {k : ℕ}
    (h : ∀ i, k ≤ i → i < k + n → ∀ a, J i a → Yields T (J (i + 1)) (body a i)) {a : α} (ha : J k a) :
    Yields T (J (k + n)) (forLoop (List.range' k n) a body) := by
  induction n generalizing k a with
  | zero => exact .ok ha
  | succ n ih =>
    rw [List.range'_succ]
    refine Yields.bind (h k (Nat.le_refl k) (by omega) a ha) fun b hb => ?_
    rw [show k + (n + 1) = k + 1 + n by omega]
    exact ih (fun i hi hi' => h i (by omega) (by omega)) hb

theorem yields_forRange {n : ℕ} {body : α → ℕ → St σ α} (J : ℕ → α → Prop)
    (h : ∀ i, i < n → ∀ a, J i a → Yields T (J (i + 1)) (body a i)) {a : α} (ha : J 0 a) :
    Yields T (J n) (forLoop (List.range n) a body) := by
  rw [List.range_eq_range']
  have := yields_forRange' (T := T) (n := n) (k := 0) J (fun i _ hi => h i (by omega)) ha
  rwa [Nat.zero_add] at this

theorem yields_findRes {ι : Type} {l : List ι} {p : ι → St σ Bool} {J : ι → Prop}
    (h : ∀ i ∈ l, Yields T (fun b => b = true → J i) (p i)) :
    Yields T (Maybe fun i => i ∈ l ∧ J i) (findRes p l) := by
  induction l with
  | nil => exact .ok Maybe.none
  | cons i l ih =>
    refine Yields.bind (h i List.mem_cons_self) fun b hb =>
      .ite (fun h => .ok (Maybe.some ⟨List.mem_cons_self, hb h⟩)) fun _ => ?_
    exact (ih fun j hj => h j (List.mem_cons_of_mem _ hj)).mono fun o ho j hj =>
      ⟨List.mem_cons_of_mem _ (ho j hj).1, (ho j hj).2⟩

end lists

/-! ## The default methods -/

section defaults

variable {σ E : Type} {T : Limits σ} {S U : E → Prop}

theorem yields_timesLoop {add : E → E → St σ E} {double : E → St σ E}
    (hadd : ∀ {a b}, S a → S b → Yields T S (add a b)) (hdouble : ∀ {a}, S a → Yields T S (double a)) (n : ℕ) :
    ∀ {x y : E}, S x → S y → Yields T S (timesLoop add double n x y) := by
  induction n using Nat.strongRecOn with
  | _ n ih =>
    intro x y hx hy
    rw [timesLoop]
    by_cases hn : 0 < n
    · rw [dif_pos hn]
      have hk {a} (ha : S a) : Yields T S (double y >>= fun b => timesLoop add double (n / 2) a b) :=
        (hdouble hy).bind fun b hb => ih _ (by omega) ha hb
      exact .ite (fun _ => (hadd hx hy).bind fun a ha => hk ha) fun _ => (Yields.ok hx).bind fun a ha => hk ha
    · rw [dif_neg hn]
      exact .ok hx

theorem yields_powerLoop {mul : E → E → St σ E} {square : E → St σ E}
    (hmul : ∀ {a b}, S a → S b → Yields T S (mul a b)) (hsquare : ∀ {a}, S a → Yields T S (square a)) (n : ℤ) :
    ∀ {x y : E}, S x → S y → Yields T S (powerLoop mul square n x y) := by
  induction hk : n.toNat using Nat.strongRecOn generalizing n with
  | _ k ih =>
    intro x y hx hy
    rw [powerLoop]
    by_cases hn : 0 < n
    · rw [dif_pos hn]
      have hlt : (Int.tdiv n 2).toNat < k := by
        rw [Int.tdiv_eq_ediv_of_nonneg (by omega)]; omega
      have hk {a} (ha : S a) : Yields T S (square y >>= fun b => powerLoop mul square (Int.tdiv n 2) a b) :=
        (hsquare hy).bind fun b hb => ih _ hlt _ rfl ha hb
      exact .ite (fun _ => (hmul hx hy).bind fun a ha => hk ha) fun _ => (Yields.ok hx).bind fun a ha => hk ha
    · rw [dif_neg hn]
      exact .ok hx

theorem yields_isizeNeg [Cfg] {n : ℤ} (hn : Negatable n) : Answers T (liftM (isizeNeg n) : St σ ℤ) := by
  unfold isizeNeg
  by_cases h : n = isizeMin
  · rw [if_pos h]
    by_cases hc : Cfg.overflowChecks = true
    · exact absurd h (hn hc)
    · rw [if_neg hc]; exact .lok trivial
  · rw [if_neg h]; exact .lok trivial

theorem yields_powerDefault [Cfg] {one : St σ E} {mul : E → E → St σ E} {square inv : E → St σ E} (hone : Yields T S one)
    (hmul : ∀ {a b}, S a → S b → Yields T S (mul a b)) (hsquare : ∀ {a}, S a → Yields T S (square a))
    {n : ℤ} (hn : Negatable n) {a : E} (hinv : Yields T S (inv a)) (ha : S a) :
    Yields T S (powerDefault one mul square inv n a) := by
  unfold powerDefault
  have hk (n : ℤ) {b} (hb : S b) : Yields T S (one >>= fun x => powerLoop mul square n x b) :=
    hone.bind fun x hx => yields_powerLoop hmul hsquare n hx hb
  exact .ite (fun _ => (yields_isizeNeg hn).bind fun x _ => hinv.bind fun b hb => hk x hb) fun _ => hk n ha

theorem yields_utimes {zero : St σ E} {add : E → E → St σ E} {double : E → St σ E} (h0 : Yields T S zero)
    (hadd : ∀ {a b}, S a → S b → Yields T S (add a b)) (hdouble : ∀ {a}, S a → Yields T S (double a)) (n : ℕ) {a : E}
    (ha : S a) : Yields T S (zero >>= fun x => timesLoop add double n x a) :=
  h0.bind fun _ hx => yields_timesLoop hadd hdouble n hx ha

/-! ### The recursions of `gcd` and `extended_gcd` -/

theorem admissible_yields {α : Type} (hD : T.diverge) (Q : α → Prop) :
    Lean.Order.admissible fun x : St σ α => Yields T Q x := by
  intro c hc hx s hs
  exact Lean.Order.admissible_pi_apply (fun (s : σ) (f : Out σ α) => T.state s → match f with
      | .ok a t => Q a ∧ T.state t
      | .panic t => T.panic t
      | .diverge => T.diverge)
    (fun s => Lean.Order.admissible_flatOrder _ fun _ => hD) c hc (fun x hcx s => hx x hcx s) s hs

theorem yields_gcd (hD : T.diverge) {isZero : E → St σ Bool} {rem : E → E → St σ E}
    (hz : ∀ {a}, S a → Yields T (fun b => b = false → U a) (isZero a))
    (hrem : ∀ {a b}, S a → U b → Yields T S (rem a b)) {a b : E} (ha : S a) (hb : S b) :
    Yields T S (gcdDefault isZero rem a b) := by
  have all : ∀ a b, S a → S b → Yields T S (gcdDefault isZero rem a b) := by
    refine gcdDefault.fixpoint_induct isZero rem (fun f => ∀ a b, S a → S b → Yields T S (f a b)) ?_ ?_
    · refine Lean.Order.admissible_pi_apply (fun (a : E) (f : E → St σ E) => ∀ b, S a → S b → Yields T S (f b)) fun a => ?_
      refine Lean.Order.admissible_pi_apply (fun (b : E) (f : St σ E) => S a → S b → Yields T S f) fun b => ?_
      exact fun c hc hx ha hb => admissible_yields hD S c hc fun x hcx => hx x hcx ha hb
    · intro f hf a b ha hb
      refine (hz hb).bind fun c hc => .ite (fun _ => .ok ha) fun h => ?_
      exact (hrem ha (hc (by simpa using h))).bind fun r hr => hf b r hb hr
  exact all a b ha hb

theorem yields_extendedGcd (hD : T.diverge) {isZero : E → St σ Bool} {one zero : St σ E} {quoRem : E → E → St σ (E × E)}
    {sub mul : E → E → St σ E} (hz : ∀ {a}, S a → Yields T (fun b => b = false → U a) (isZero a))
    (h1 : Yields T S one) (h0 : Yields T S zero)
    (hqr : ∀ {a b}, S a → U b → Yields T (fun p => S p.1 ∧ S p.2) (quoRem a b))
    (hsub : ∀ {a b}, S a → S b → Yields T S (sub a b)) (hmul : ∀ {a b}, S a → S b → Yields T S (mul a b))
    {a b : E} (ha : S a) (hb : S b) :
    Yields T (fun p => S p.1 ∧ S p.2.1 ∧ S p.2.2) (extendedGcdDefault isZero one zero quoRem sub mul a b) := by
  have all : ∀ a b, S a → S b →
      Yields T (fun p => S p.1 ∧ S p.2.1 ∧ S p.2.2) (extendedGcdDefault isZero one zero quoRem sub mul a b) := by
    refine extendedGcdDefault.fixpoint_induct isZero one zero quoRem sub mul
      (fun f => ∀ a b, S a → S b → Yields T (fun p => S p.1 ∧ S p.2.1 ∧ S p.2.2) (f a b)) ?_ ?_
    · refine Lean.Order.admissible_pi_apply (fun (a : E) (f : E → St σ (E × E × E)) =>
        ∀ b, S a → S b → Yields T (fun p => S p.1 ∧ S p.2.1 ∧ S p.2.2) (f b)) fun a => ?_
      refine Lean.Order.admissible_pi_apply (fun (b : E) (f : St σ (E × E × E)) =>
        S a → S b → Yields T (fun p => S p.1 ∧ S p.2.1 ∧ S p.2.2) f) fun b => ?_
      exact fun c hc hx ha hb => admissible_yields hD _ c hc fun x hcx => hx x hcx ha hb
    · intro f hf a b ha hb
      refine (hz hb).bind fun c hc => .ite (fun _ => ?_) fun h => ?_
      · exact h1.bind fun x hx => h0.bind fun y hy => .ok ⟨ha, hx, hy⟩
      · refine (hqr ha (hc (by simpa using h))).bind ?_
        rintro ⟨q, r⟩ ⟨hq, hr⟩
        refine (hf b r hb hr).bind ?_
        rintro ⟨g, x, y⟩ ⟨hg, hx, hy⟩
        exact (hmul hy hq).bind fun m hm => (hsub hx hm).bind fun z hz => .ok ⟨hg, hy, hz⟩
  exact all a b ha hb

end defaults

end Abstalg.Stateful
