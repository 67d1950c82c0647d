import Verif.Spec.Threads
import Verif.Props.DomainWorkspace
import Verif.Props.Shared

/-! # C107: several programs that share one base -/

set_option autoImplicit false
set_option linter.unusedSectionVars false

namespace Abstalg

open _root_.Abstalg.Stateful (St Tracks TracksField TracksEuclideanDomain Safe)

section team

variable {ι σ E F Θ : Type} [DecidableEq Θ] {I : σ → Prop} {r : E → F → Prop}

theorem Client.run_one (C : Client ι) (T : ι → E → E → Res (Reply E)) (b : Bool) (c : C.Q × (ℕ → E)) :
    C.run T b 1 c = C.step T b c := by
  show (do C.run T b 0 (← C.step T b c)) = _
  cases C.step T b c <;> rfl

theorem St.bind_ok {α β : Type} {x : St σ α} {f : α → St σ β} {s t : σ} {a : α} (h : x s = .ok a t) : (x >>= f) s = f a t := by
  show Stateful.St.bind x f s = _
  unfold Stateful.St.bind
  rw [h]

theorem Client.runState_one (C : Client ι) (T : ι → E → E → St σ (Reply E)) (c : C.Q × (ℕ → E)) :
    C.runState T 1 c = C.stepState T c := by
  funext s
  show Stateful.St.bind (C.stepState T c) (fun d => C.runState T 0 d) s = _
  unfold Stateful.St.bind
  cases C.stepState T c s <;> rfl

theorem Client.step_tracks (C : Client ι) {T : ι → E → E → St σ (Reply E)} {T' : ι → F → F → Res (Reply F)}
    (h : ∀ i {a b a' b'}, r a a' → r b b' → Tracks I (Reply.Rel r) (T i a b) (T' i a' b'))
    {c : C.Q × (ℕ → E)} {d : C.Q × (ℕ → F)} (hc : C.Rel r c d) : Tracks I (C.Rel r) (C.stepState T c) (C.step T' true d) := by
  rw [← C.run_one, ← C.runState_one]
  exact C.run_tracks h 1 hc

/-- C107: threads that share a base: if each of them alone, over the base without state, reaches a memory and registers with the number of
steps that the schedule gives it, then under the schedule it reaches the same memory and corresponding registers. -/
theorem C107_threads (C : Θ → Client ι) {T : ι → E → E → St σ (Reply E)} {T' : ι → F → F → Res (Reply F)}
    (h : ∀ i {a b a' b'}, r a a' → r b b' → Tracks I (Reply.Rel r) (T i a b) (T' i a' b')) (L : List Θ) :
    ∀ {c : ∀ θ, (C θ).Q × (ℕ → E)} {d d' : ∀ θ, (C θ).Q × (ℕ → F)}, (∀ θ, (C θ).Rel r (c θ) (d θ)) →
      (∀ θ, (C θ).run T' true (L.count θ) (d θ) = .ok (d' θ)) → ∀ {s : σ}, I s →
      ∃ c' t, teamRun C T L c s = .ok c' t ∧ (∀ θ, (C θ).Rel r (c' θ) (d' θ)) ∧ I t := by
  induction L with
  | nil =>
    intro c d d' hcd hd s hs
    refine ⟨c, s, rfl, fun θ => ?_, hs⟩
    have : d θ = d' θ := Res.ok.inj (hd θ)
    exact this ▸ hcd θ
  | cons θ L ih =>
    intro c d d' hcd hd s hs
    have h1 := hd θ
    rw [List.count_cons_self] at h1
    obtain ⟨e, h2, h3⟩ := ok_of_bind (show ((C θ).step T' true (d θ) >>= fun x => (C θ).run T' true (L.count θ) x) = _ from h1)
    obtain ⟨a, t, h4, h5, ht⟩ := (C95_outcome ((C θ).step_tracks h (hcd θ)) hs).1 e h2
    obtain ⟨c', t', h6, h7⟩ := ih (c := Function.update c θ a) (d := Function.update d θ e) (d' := d')
      (fun ρ => by
        by_cases hρ : ρ = θ
        · subst hρ; rw [Function.update_self, Function.update_self]; exact h5
        · rw [Function.update_of_ne hρ, Function.update_of_ne hρ]; exact hcd ρ)
      (fun ρ => by
        by_cases hρ : ρ = θ
        · subst hρ; rw [Function.update_self]; exact h3
        · have := hd ρ
          rw [List.count_cons_of_ne (Ne.symm hρ)] at this
          rw [Function.update_of_ne hρ]; exact this) ht
    refine ⟨c', t', ?_, h7⟩
    have h8 : teamStep C T θ c s = .ok (Function.update c θ a) t := St.bind_ok h4
    exact (St.bind_ok h8).trans h6

/-- C107: hence what a thread has reached after its steps depends neither on the order in which the threads are scheduled nor on the state in
which the base was found. -/
theorem C107_schedules (C : Θ → Client ι) {T : ι → E → E → St σ (Reply E)} {T' : ι → E → E → Res (Reply E)}
    (h : ∀ i a b, Tracks I Eq (T i a b) (T' i a b)) {L M : List Θ} (hLM : L.Perm M) {c d : ∀ θ, (C θ).Q × (ℕ → E)}
    (hd : ∀ θ, (C θ).run T' true (L.count θ) (c θ) = .ok (d θ)) {s t : σ} (hs : I s) (ht : I t) :
    ∃ s' t', teamRun C T L c s = .ok d s' ∧ teamRun C T M c t = .ok d t' := by
  have hr : (Reply.Rel Eq : Reply E → Reply E → Prop) = Eq := by
    funext x y
    cases x <;> cases y <;> simp [Reply.Rel]
  have h' : ∀ i {a b a' b'}, a = a' → b = b' → Tracks I (Reply.Rel Eq) (T i a b) (T' i a' b') := by
    rintro i a b _ _ rfl rfl
    rw [hr]; exact h i a b
  have he : ∀ {x : ∀ θ, (C θ).Q × (ℕ → E)}, (∀ θ, (C θ).Rel Eq (x θ) (d θ)) → x = d := fun hx =>
    funext fun θ => Prod.ext (hx θ).1 (funext (hx θ).2)
  obtain ⟨c1, s', h1, h2, -⟩ := C107_threads C h' L (fun θ => ⟨rfl, fun _ => rfl⟩) hd hs
  obtain ⟨c2, t', h3, h4, -⟩ := C107_threads C h' M (c := c) (fun θ => ⟨rfl, fun _ => rfl⟩)
    (fun θ => by rw [← hLM.count_eq θ]; exact hd θ) ht
  exact ⟨s', t', he h2 ▸ h1, he h4 ▸ h3⟩

end team

section structures

variable [Cfg] {σ E F Θ : Type} [DecidableEq Θ] {I : σ → Prop} {r : E → F → Prop}

/-- C107: threads that use a field with state, and vectors, matrices and polynomials over it. -/
theorem C107_fields (C : Θ → Client WorkCall) {A : Stateful.FieldOps σ E} {B : FieldOps F} (h : TracksField I r A B) (L : List Θ)
    {c : ∀ θ, (C θ).Q × (ℕ → Value E)} {d d' : ∀ θ, (C θ).Q × (ℕ → Value F)} (hcd : ∀ θ, (C θ).Rel (Value.Rel r) (c θ) (d θ))
    (hd : ∀ θ, (C θ).run (WorkCall.table B) true (L.count θ) (d θ) = .ok (d' θ)) {s : σ} (hs : I s) :
    ∃ c' t, teamRun C (WorkCall.tableState A) L c s = .ok c' t ∧ (∀ θ, (C θ).Rel (Value.Rel r) (c' θ) (d' θ)) ∧ I t :=
  C107_threads C (fun i _ _ _ _ ha hb => tracks_work h i ha hb) L hcd hd hs

/-- C107: threads that use a Euclidean domain with state, its fractions, its residues, and vectors and polynomials over it. -/
theorem C107_domains (C : Θ → Client DomainCall) {A : Stateful.EuclideanDomainOps σ E} {B : EuclideanDomainOps F}
    (h : TracksEuclideanDomain I r A B) (L : List Θ)
    {c : ∀ θ, (C θ).Q × (ℕ → Item E)} {d d' : ∀ θ, (C θ).Q × (ℕ → Item F)} (hcd : ∀ θ, (C θ).Rel (Item.Rel r) (c θ) (d θ))
    (hd : ∀ θ, (C θ).run (DomainCall.table B) true (L.count θ) (d θ) = .ok (d' θ)) {s : σ} (hs : I s) :
    ∃ c' t, teamRun C (DomainCall.tableState A) L c s = .ok c' t ∧ (∀ θ, (C θ).Rel (Item.Rel r) (c' θ) (d' θ)) ∧ I t :=
  C107_threads C (fun i _ _ _ _ ha hb => tracks_domain h i ha hb) L hcd hd hs

/-! ## Steps inside of a method -/

theorem History.sound {s : ℕ → σ} (h : History I s) (k : ℕ) : I (s k) := by
  induction k with
  | zero => exact h.1
  | succ k ih =>
    obtain ⟨α, β, q, x, y, hx, he⟩ := h.2 k
    rw [he]
    have := hx _ ih
    revert this
    unfold Stateful.St.effect
    cases x (s k) with
    | ok a t => cases y <;> first | exact fun h => h.2 | exact fun h => h.elim
    | panic t => cases y <;> first | exact fun h => h.elim | exact fun h => h
    | diverge => exact fun _ => ih

theorem History.safe {s : ℕ → σ} (h : History I s) (τ : ℕ → ℕ) : Safe I (s 0, fun n _ => s (τ n)) :=
  ⟨h.1, fun n _ _ => h.sound (τ n)⟩

/-- C107: the calls of the methods of the base by all threads follow each other in any order; the `n`-th call of one of the threads finds the
state at the time `τ n`. A program of this thread, with the methods of the field and of the structures over it, does what it does alone over
the field without state. -/
theorem C107_interleaved_fields (C : Client WorkCall) {A : Stateful.FieldOps σ E} {B : FieldOps F} (h : TracksField I r A B)
    {s : ℕ → σ} (hs : History I s) (τ : ℕ → ℕ) (n : ℕ) {c : C.Q × (ℕ → Value E)} {d d' : C.Q × (ℕ → Value F)}
    (hcd : C.Rel (Value.Rel r) c d) (hd : C.run (WorkCall.table B) true n d = .ok d') :
    ∃ c' t, C.runState (WorkCall.tableState A.shared) n c (s 0, fun n _ => s (τ n)) = .ok c' t ∧ C.Rel (Value.Rel r) c' d' := by
  obtain ⟨a, t, h1, h2, -⟩ := (C95_outcome (C105_states C h.shared n hcd) (hs.safe τ)).1 d' hd
  exact ⟨a, t, h1, h2⟩

/-- C107: the same for Euclidean domains and the structures over them. -/
theorem C107_interleaved_domains (C : Client DomainCall) {A : Stateful.EuclideanDomainOps σ E} {B : EuclideanDomainOps F}
    (h : TracksEuclideanDomain I r A B) {s : ℕ → σ} (hs : History I s) (τ : ℕ → ℕ) (n : ℕ) {c : C.Q × (ℕ → Item E)}
    {d d' : C.Q × (ℕ → Item F)} (hcd : C.Rel (Item.Rel r) c d) (hd : C.run (DomainCall.table B) true n d = .ok d') :
    ∃ c' t, C.runState (DomainCall.tableState A.shared) n c (s 0, fun n _ => s (τ n)) = .ok c' t ∧ C.Rel (Item.Rel r) c' d' := by
  obtain ⟨a, t, h1, h2, -⟩ := (C95_outcome (C106_states C h.shared n hcd) (hs.safe τ)).1 d' hd
  exact ⟨a, t, h1, h2⟩

end structures

/-! ## Concrete cases -/

namespace ThreadExamples

local instance : Cfg := ⟨true, true, 64, by decide⟩

open StatefulExamples WorkspaceExamples

-- two copies of a program share a field that counts its calls; each reaches what it reaches alone, whatever the schedule
example (L : List Bool) (h0 : L.count false = 12) (h1 : L.count true = 12) (n : ℕ) :
    ∃ c t, teamRun (fun _ : Bool => builder) (WorkCall.tableState counted) L (fun _ => ((0 : ℕ), fun _ => .scalar false)) n = .ok c t ∧
      (∀ b, (c b).1 = (109 : ℕ) ∧ Value.Rel Eq ((c b).2 3) (.vec [true, true, false, true])) ∧ n ≤ t := by
  obtain ⟨f, hf, h3⟩ : ∃ f, builder.run (WorkCall.table TwoElementAlgebra.field) true 12 ((0 : ℕ), fun _ => .scalar false) =
      .ok ((109 : ℕ), f) ∧ f 3 = .vec [true, true, false, true] := ⟨_, rfl, rfl⟩
  obtain ⟨c, t, h4, h5, h6⟩ := C107_fields (fun _ : Bool => builder) (counted_tracks n) L (c := fun _ => ((0 : ℕ), fun _ => .scalar false))
    (d := fun _ => ((0 : ℕ), fun _ => .scalar false)) (d' := fun _ => ((109 : ℕ), f)) (fun _ => ⟨rfl, fun _ => rfl⟩)
    (fun b => by cases b <;> simp only [h0, h1] <;> exact hf) (s := n) (Nat.le_refl n)
  exact ⟨c, t, h4, fun b => ⟨(h5 b).1, h3 ▸ (h5 b).2 3⟩, h6⟩

-- the number of calls that the base has counted at the end is a matter of the schedule only through their sum
example : ∃ c, teamRun (fun _ : Bool => builder) (WorkCall.tableState counted) [false, true, false, true, true]
    (fun _ => ((0 : ℕ), fun _ => .scalar false)) 0 = .ok c 2 := ⟨_, rfl⟩

-- the counter while others call the field between any two calls that a method makes
example (τ : ℕ → ℕ) : ∃ c t, builder.runState (WorkCall.tableState counted.shared) 12 ((0 : ℕ), fun _ => .scalar false)
      (0, fun n _ => τ n) = .ok c t ∧ c.1 = (109 : ℕ) ∧ Value.Rel Eq (c.2 3) (.vec [true, true, false, true]) := by
  obtain ⟨f, hf, h3⟩ : ∃ f, builder.run (WorkCall.table TwoElementAlgebra.field) true 12 ((0 : ℕ), fun _ => .scalar false) =
      .ok ((109 : ℕ), f) ∧ f 3 = .vec [true, true, false, true] := ⟨_, rfl, rfl⟩
  have hs : History (0 ≤ ·) (fun k : ℕ => k) :=
    ⟨Nat.le_refl 0, fun k => ⟨Bool, Bool, Eq, counted.zero, TwoElementAlgebra.field.zero, (counted_tracks 0).zero, rfl⟩⟩
  obtain ⟨c, t, h4, h5⟩ := C107_interleaved_fields builder (counted_tracks 0) hs τ 12 (c := ((0 : ℕ), fun _ => .scalar false))
    ⟨rfl, fun _ => rfl⟩ hf
  exact ⟨c, t, h4, h5.1, h3 ▸ h5.2 3⟩

end ThreadExamples

end Abstalg
