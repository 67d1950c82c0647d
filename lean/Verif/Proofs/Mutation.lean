import Verif.Spec.Mutation
import Verif.Spec.Vectors
import Verif.Proofs.Basic

/-! # Operands `&mut` -/

set_option autoImplicit false

universe u

namespace Abstalg

variable {E : Type}

theorem Agrees.ok {e : E} : Agrees (.ok (), e) (.ok e) :=
  ⟨fun e' => by simp, by simp, by simp⟩

theorem Agrees.panic {e : E} : Agrees (.panic, e) (.panic) :=
  ⟨fun e' => by simp, by simp, by simp⟩

theorem Agrees.diverge {e : E} : Agrees (.diverge, e) (.diverge) :=
  ⟨fun e' => by simp, by simp, by simp⟩

/-- The three cases. -/
theorem Agrees.cases {m : Res Unit × E} {r : Res E} (h : Agrees m r) :
    (∃ e, m = (.ok (), e) ∧ r = .ok e) ∨ (∃ e, m = (.panic, e) ∧ r = .panic) ∨ ∃ e, m = (.diverge, e) ∧ r = .diverge := by
  obtain ⟨o, e⟩ := m
  cases o with
  | ok a => exact .inl ⟨e, rfl, (h.1 e).1 rfl⟩
  | panic => exact .inr (.inl ⟨e, rfl, h.2.1.1 rfl⟩)
  | diverge => exact .inr (.inr ⟨e, rfl, h.2.2.1 rfl⟩)

theorem agrees_assign (f : E → Res E) (a : E) : Agrees (Mut.assign f a) (f a) := by
  unfold Mut.assign
  cases f a with
  | ok e => exact .ok
  | panic => exact .panic
  | diverge => exact .diverge

theorem unchanged_assign (f : E → Res E) : UnchangedOnPanic (Mut.assign f) := by
  intro a
  unfold Mut.assign
  cases f a <;> simp

theorem unchanged_ok (f : E → E) : UnchangedOnPanic fun a => (.ok (), f a) := fun a h => by simp at h

theorem agrees_after {α : Type} {r : Res α} {m : α → Mut E} {f : α → Res E} {a : E} (h : ∀ x, Agrees (m x a) (f x)) :
    Agrees (Mut.after r m a) (r.bind f) := by
  unfold Mut.after
  cases r with
  | ok x => exact h x
  | panic => exact .panic
  | diverge => exact .diverge

theorem keeps_after {α : Type} {P : E → Prop} {r : Res α} {m : α → Mut E} (h : ∀ x, r = .ok x → KeepsOnPanic P (m x)) :
    KeepsOnPanic P (Mut.after r m) := by
  intro a
  unfold Mut.after
  cases r with
  | ok x => exact h x rfl a
  | panic => exact fun ha _ => ha
  | diverge => exact fun ha _ => ha

theorem unchanged_after {α : Type} {r : Res α} {m : α → Mut E} (h : ∀ x, r = .ok x → UnchangedOnPanic (m x)) :
    UnchangedOnPanic (Mut.after r m) := by
  intro a
  unfold Mut.after
  cases r with
  | ok x => exact h x rfl a
  | panic => exact fun _ => rfl
  | diverge => exact fun _ => rfl

theorem agrees_each_map {m : Mut E} {f : E → Res E} (h : ∀ a, Agrees (m a) (f a)) :
    ∀ l : List E, Agrees (Mut.each (l.map fun _ => m) l) (mapRes f l)
  | [] => .ok
  | x :: l => by
    have ih := agrees_each_map h l
    show Agrees (Mut.each (m :: l.map fun _ => m) (x :: l)) ((f x).bind fun b => (mapRes f l).bind fun l' => .ok (b :: l'))
    unfold Mut.each
    obtain ⟨e, h1, h2⟩ | ⟨e, h1, h2⟩ | ⟨e, h1, h2⟩ := (h x).cases
    · rw [h1, h2]
      obtain ⟨e', h3, h4⟩ | ⟨e', h3, h4⟩ | ⟨e', h3, h4⟩ := ih.cases
      · simp only [h3, h4]; exact .ok
      · simp only [h3, h4]; exact .panic
      · simp only [h3, h4]; exact .diverge
    · rw [h1, h2]; exact .panic
    · rw [h1, h2]; exact .diverge

theorem agrees_each_zip {m : E → Mut E} {f : E → E → Res E} (h : ∀ a b, Agrees (m b a) (f a b)) :
    ∀ l k : List E, Agrees (Mut.each (k.map m) l) (zipForEach f l k)
  | [], [] => .ok
  | [], y :: k => .ok
  | x :: l, [] => .ok
  | x :: l, y :: k => by
    have ih := agrees_each_zip h l k
    show Agrees (Mut.each (m y :: k.map m) (x :: l)) ((f x y).bind fun b => (zipForEach f l k).bind fun l' => .ok (b :: l'))
    unfold Mut.each
    obtain ⟨e, h1, h2⟩ | ⟨e, h1, h2⟩ | ⟨e, h1, h2⟩ := (h x y).cases
    · rw [h1, h2]
      obtain ⟨e', h3, h4⟩ | ⟨e', h3, h4⟩ | ⟨e', h3, h4⟩ := ih.cases
      · simp only [h3, h4]; exact .ok
      · simp only [h3, h4]; exact .panic
      · simp only [h3, h4]; exact .diverge
    · rw [h1, h2]; exact .panic
    · rw [h1, h2]; exact .diverge

theorem stopped_each : ∀ {steps : List (Mut E)} {l : List E}, (Mut.each steps l).1 = .panic →
    ∃ k, StoppedAt steps l k (Mut.each steps l).2
  | [], l, h => by simp [Mut.each] at h
  | m :: ms, [], h => by simp [Mut.each] at h
  | m :: ms, x :: l, h => by
    unfold Mut.each at h ⊢
    rcases hm : m x with ⟨o, y⟩
    rw [hm] at h
    cases o with
    | ok a =>
      obtain ⟨k, h1, h2, h3, h4⟩ := stopped_each (steps := ms) (l := l) h
      refine ⟨k + 1, by simp [h1], ?_, ?_, ?_⟩
      · rintro (_ | i) hi
        · exact ⟨m, x, y, rfl, rfl, hm, rfl⟩
        · simpa using h2 i (by omega)
      · simpa using h3
      · rintro (_ | i) hi
        · omega
        · simpa using h4 i (by omega)
    | panic =>
      refine ⟨0, rfl, fun i hi => absurd hi (by omega), ⟨m, x, y, rfl, rfl, hm, rfl⟩, ?_⟩
      rintro (_ | i) hi
      · omega
      · rfl
    | diverge => simp at h

theorem each_stopped : ∀ {steps : List (Mut E)} {l out : List E} {k : ℕ}, StoppedAt steps l k out →
    Mut.each steps l = (.panic, out)
  | [], l, out, k, h => by
    obtain ⟨m, x, y, h1, -⟩ := h.stopped
    simp at h1
  | m :: ms, [], out, k, h => by
    obtain ⟨m, x, y, -, h1, -⟩ := h.stopped
    simp at h1
  | m :: ms, x :: l, [], k, h => by
    have := h.length
    simp at this
  | m :: ms, x :: l, z :: out, 0, h => by
    obtain ⟨m', x', y, h1, h2, h3, h4⟩ := h.stopped
    simp at h1 h2 h4
    subst h1 h2 h4
    unfold Mut.each
    rw [h3]
    have : out = l := by
      refine List.ext_getElem? fun i => ?_
      simpa using h.rest (i + 1) (by omega)
    rw [this]
  | m :: ms, x :: l, z :: out, k + 1, h => by
    obtain ⟨m', x', y, h1, h2, h3, h4⟩ := h.done 0 (by omega)
    simp at h1 h2 h4
    subst h1 h2 h4
    have ih := each_stopped (steps := ms) (l := l) (out := out) (k := k)
      ⟨by simpa using h.length, fun i hi => by simpa using h.done (i + 1) (by omega), by simpa using h.stopped,
        fun i hi => by simpa using h.rest (i + 1) (by omega)⟩
    unfold Mut.each
    rw [h3, ih]

/-- What a panic leaves satisfies a property of all coordinates that each coordinate keeps. -/
theorem keeps_each {P : E → Prop} : ∀ {steps : List (Mut E)} {l : List E}, (∀ x ∈ l, P x) →
    (∀ m ∈ steps, ∀ x, P x → (m x).1 ≠ .diverge → P (m x).2) → (Mut.each steps l).1 ≠ .diverge → ∀ x ∈ (Mut.each steps l).2, P x
  | [], l, h, _, _ => by simpa [Mut.each] using h
  | m :: ms, [], h, _, _ => by simp [Mut.each]
  | m :: ms, x :: l, h, hk, hd => by
    unfold Mut.each at hd ⊢
    have h1 := hk m (by simp) x (h x (by simp))
    rcases hm : m x with ⟨o, y⟩
    rw [hm] at h1 hd
    cases o with
    | ok a =>
      have ih := keeps_each (steps := ms) (l := l) (fun x hx => h x (by simp [hx])) (fun m hm => hk m (by simp [hm])) hd
      intro z hz
      rcases List.mem_cons.1 hz with rfl | hz
      · exact h1 (by simp)
      · exact ih z hz
    | panic =>
      intro z hz
      rcases List.mem_cons.1 hz with rfl | hz
      · exact h1 (by simp)
      · exact h z (by simp [hz])
    | diverge => simp at hd

theorem length_each : ∀ (steps : List (Mut E)) (l : List E), (Mut.each steps l).2.length = l.length
  | [], l => by simp [Mut.each]
  | m :: ms, [] => by simp [Mut.each]
  | m :: ms, x :: l => by
    unfold Mut.each
    rcases m x with ⟨_ | _ | _, y⟩ <;> simp [length_each ms l]

section vectors

variable {R : Type u} {rep : E → R → Prop} {n : ℕ}

theorem exists_vecRep {v : List E} : (∃ f : Fin n → R, VecRep rep v f) ↔ v.length = n ∧ ∀ x ∈ v, ∃ y, rep x y := by
  constructor
  · rintro ⟨f, h, hf⟩
    refine ⟨h, fun x hx => ?_⟩
    obtain ⟨i, hi, rfl⟩ := List.getElem_of_mem hx
    exact ⟨_, hf ⟨i, h ▸ hi⟩⟩
  · rintro ⟨rfl, h⟩
    choose f hf using fun i : Fin v.length => h _ (List.getElem_mem i.2)
    exact ⟨f, rfl, hf⟩

theorem agrees_zipMut {m : E → Mut E} {f : E → E → Res E} (h : ∀ a b, Agrees (m b a) (f a b)) (a b : List E) :
    Agrees (VectorAlgebra.zipMut n m b a) (VectorAlgebra.zipEach n f a b) :=
  agrees_after fun _ => agrees_each_zip h a b

theorem agrees_eachMut {m : Mut E} {f : E → Res E} (h : ∀ a, Agrees (m a) (f a)) (a : List E) :
    Agrees (VectorAlgebra.eachMut n m a) (VectorAlgebra.mapEach n f a) :=
  agrees_after fun _ => agrees_each_map h a

theorem zipMut_short {m : E → Mut E} {a b : List E} (h : ¬ (a.length = n ∧ b.length = n)) :
    VectorAlgebra.zipMut n m b a = (.panic, a) := by
  unfold VectorAlgebra.zipMut Mut.after Res.assert VectorAlgebra.lenIs
  rw [if_neg (by simpa using h)]

theorem zipMut_long {m : E → Mut E} {a b : List E} (h : a.length = n ∧ b.length = n) :
    VectorAlgebra.zipMut n m b a = Mut.each (b.map m) a := by
  unfold VectorAlgebra.zipMut Mut.after Res.assert VectorAlgebra.lenIs
  rw [if_pos (by simpa using h)]

theorem eachMut_short {m : Mut E} {a : List E} (h : a.length ≠ n) : VectorAlgebra.eachMut n m a = (.panic, a) := by
  unfold VectorAlgebra.eachMut Mut.after Res.assert VectorAlgebra.lenIs
  rw [if_neg (by simpa using h)]

theorem eachMut_long {m : Mut E} {a : List E} (h : a.length = n) :
    VectorAlgebra.eachMut n m a = Mut.each (a.map fun _ => m) a := by
  unfold VectorAlgebra.eachMut Mut.after Res.assert VectorAlgebra.lenIs
  rw [if_pos (by simpa using h)]

theorem each_panic_iff {steps : List (Mut E)} {a out : List E} :
    Mut.each steps a = (.panic, out) ↔ ∃ k, StoppedAt steps a k out := by
  constructor
  · intro h
    obtain ⟨k, hk⟩ := stopped_each (steps := steps) (l := a) (by rw [h])
    rw [h] at hk
    exact ⟨k, hk⟩
  · rintro ⟨k, hk⟩
    exact each_stopped hk

theorem zipMut_members {m : E → Mut E} (hm : ∀ {a b x y}, rep a x → rep b y → (m b a).1 ≠ .diverge → ∃ z, rep (m b a).2 z)
    {a b : List E} {f g : Fin n → R} (ha : VecRep rep a f) (hb : VecRep rep b g)
    (hp : (VectorAlgebra.zipMut n m b a).1 = .panic) : ∃ z : Fin n → R, VecRep rep (VectorAlgebra.zipMut n m b a).2 z := by
  have h1 := exists_vecRep.1 ⟨f, ha⟩
  have h2 := exists_vecRep.1 ⟨g, hb⟩
  rw [zipMut_long ⟨h1.1, h2.1⟩] at hp ⊢
  rw [exists_vecRep, length_each]
  refine ⟨h1.1, keeps_each h1.2 (fun s hs x hx hd => ?_) (by rw [hp]; simp)⟩
  obtain ⟨y, hy, rfl⟩ := List.mem_map.1 hs
  obtain ⟨x', hx⟩ := hx
  obtain ⟨y', hy⟩ := h2.2 y hy
  exact hm hx hy hd

theorem eachMut_members {m : Mut E} (hm : ∀ {a x}, rep a x → (m a).1 ≠ .diverge → ∃ z, rep (m a).2 z)
    {a : List E} {f : Fin n → R} (ha : VecRep rep a f)
    (hp : (VectorAlgebra.eachMut n m a).1 = .panic) : ∃ z : Fin n → R, VecRep rep (VectorAlgebra.eachMut n m a).2 z := by
  have h1 := exists_vecRep.1 ⟨f, ha⟩
  rw [eachMut_long h1.1] at hp ⊢
  rw [exists_vecRep, length_each]
  refine ⟨h1.1, keeps_each h1.2 (fun s hs x hx hd => ?_) (by rw [hp]; simp)⟩
  obtain ⟨y, hy, rfl⟩ := List.mem_map.1 hs
  obtain ⟨x', hx⟩ := hx
  exact hm hx hd

end vectors

/-- What is left by a method that agrees with one that returns members. -/
theorem Agrees.member {R : Type u} {rep : E → R → Prop} {mp : Prop} {m : Res Unit × E} {r : Res E} {x : R} (h : Agrees m r)
    (hr : Returns mp r (rep · x)) (hp : m.1 = .panic → ∃ z, rep m.2 z) (_hd : m.1 ≠ .diverge) : ∃ z, rep m.2 z := by
  obtain ⟨e, h1, h2⟩ | ⟨e, h1, h2⟩ | ⟨e, h1, h2⟩ := h.cases
  · rw [h1]
    rw [h2] at hr
    exact ⟨x, hr⟩
  · exact hp (by rw [h1])
  · rw [h2] at hr
    exact absurd hr id

end Abstalg
