import Verif.Spec.Clients
import Verif.Proofs.Basic
import Verif.Proofs.Stateful

/-! # Programs that use an implementation: steps -/

set_option autoImplicit false

universe u v

namespace Abstalg

section

variable {E : Type u} {F : Type v} {r : E → F → Prop}

theorem Reply.Rel.seen {a : Reply E} {b : Reply F} (h : Reply.Rel r a b) : a.seen = b.seen := by
  cases a <;> cases b <;> first | exact h.elim | rfl | exact congrArg _ h

theorem Reply.Rel.list {a : Reply E} {b : Reply F} (h : Reply.Rel r a b) : LRel r a.list b.list := by
  cases a <;> cases b <;> first | exact h.elim | exact .nil | exact h

theorem store_rel {l : List E} {m : List F} (h : LRel r l m) : ∀ {f : ℕ → E} {g : ℕ → F}, (∀ i, r (f i) (g i)) →
    ∀ k i, r (store f k l i) (store g k m i) := by
  induction h with
  | nil => exact fun h _ => h
  | @cons a b l m hab _ ih =>
    intro f g h k
    refine ih (fun i => ?_) (k + 1)
    by_cases hi : i = k
    · simp only [hi, if_true]; exact hab
    · simp only [hi, if_false]; exact h i

end

section

variable {ι : Type} {C : Client ι} {E F : Type}

theorem Client.step_ideal {R : Type u} {mp : Prop} {P : ι → Prop} {rep : E → R → Prop} {T : ι → E → E → Res (Reply E)}
    {M : ι → R → R → Option (Reply R)} (h : Computes mp P rep T M) (hC : C.Only P) {c : C.Q × (ℕ → E)} {x : C.Q × (ℕ → R)}
    (hc : C.Rel rep c x) (catching : Bool) :
    Returns (mp ∨ catching = false) (C.step T catching c) fun c' => (catching = true ∧ mp) ∨ C.Rel rep c' (C.ideal M x) := by
  obtain ⟨hq, hr⟩ := hc
  unfold Client.step Client.ideal
  rw [← hq]
  cases hact : C.act c.1 with
  | none => exact .inr ⟨hq, hr⟩
  | some w =>
    obtain ⟨i, a, b, d⟩ := w
    have := h i (hC _ _ _ _ _ hact) (c.2 a) (c.2 b) (x.2 a) (x.2 b) (hr a) (hr b)
    dsimp only
    cases hM : M i (x.2 a) (x.2 b) with
    | none =>
      rw [hM] at this
      rw [show T i (c.2 a) (c.2 b) = .panic from this]
      cases catching with
      | true => exact .inr ⟨by rw [hq], hr⟩
      | false => exact .inr rfl
    | some e =>
      rw [hM] at this
      revert this
      cases T i (c.2 a) (c.2 b) with
      | ok f => exact fun hf => .inr ⟨by rw [hq, Reply.Rel.seen hf], store_rel (Reply.Rel.list hf) hr d⟩
      | panic =>
        intro hmp
        cases catching with
        | true => exact .inl ⟨rfl, hmp⟩
        | false => exact .inr rfl
      | diverge => exact False.elim

theorem Client.run_caught {R : Type u} {P : ι → Prop} {rep : E → R → Prop} {T : ι → E → E → Res (Reply E)}
    {M : ι → R → R → Option (Reply R)} (h : Computes False P rep T M) (hC : C.Only P) (n : ℕ) :
    ∀ {c : C.Q × (ℕ → E)} {x : C.Q × (ℕ → R)}, C.Rel rep c x →
      ∃ c', C.run T true n c = .ok c' ∧ C.Rel rep c' (C.idealRun M n x) := by
  induction n with
  | zero => exact fun hc => ⟨_, rfl, hc⟩
  | succ n ih =>
    intro c x hc
    have := Client.step_ideal h hC hc true
    unfold Client.run Client.idealRun
    revert this
    cases C.step T true c with
    | ok c' => exact fun h => ih (h.resolve_left fun h => h.2)
    | panic => exact fun h => absurd h (by simp)
    | diverge => exact False.elim

theorem Client.run_strict {R : Type u} {mp : Prop} {P : ι → Prop} {rep : E → R → Prop} {T : ι → E → E → Res (Reply E)}
    {M : ι → R → R → Option (Reply R)} (h : Computes mp P rep T M) (hC : C.Only P) (n : ℕ) :
    ∀ {c : C.Q × (ℕ → E)} {x : C.Q × (ℕ → R)}, C.Rel rep c x →
      Returns True (C.run T false n c) (C.Rel rep · (C.idealRun M n x)) := by
  induction n with
  | zero => exact fun hc => hc
  | succ n ih =>
    intro c x hc
    have := Client.step_ideal h hC hc false
    unfold Client.run Client.idealRun
    revert this
    cases C.step T false c with
    | ok c' => exact fun h => ih (h.resolve_left fun h => by cases h.1)
    | panic => exact fun _ => trivial
    | diverge => exact False.elim

theorem Client.run_follows {r : E → F → Prop} {T : ι → E → E → Res (Reply E)} {T' : ι → F → F → Res (Reply F)}
    (h : ∀ i {a b a' b'}, r a a' → r b b' → Follows (Reply.Rel r) (T i a b) (T' i a' b')) (n : ℕ) :
    ∀ {c : C.Q × (ℕ → E)} {d : C.Q × (ℕ → F)}, C.Rel r c d → Follows (C.Rel r) (C.run T false n c) (C.run T' false n d) := by
  induction n with
  | zero => exact fun hc _ h => by cases h; exact ⟨_, rfl, hc⟩
  | succ n ih =>
    intro c d hc e he
    have hs : Follows (C.Rel r) (C.step T false c) (C.step T' false d) := by
      obtain ⟨hq, hr⟩ := hc
      unfold Client.step
      rw [← hq]
      cases C.act c.1 with
      | none => exact fun _ h => by cases h; exact ⟨_, rfl, hq, hr⟩
      | some w =>
        obtain ⟨i, a, b, k⟩ := w
        dsimp only
        have := h i (hr a) (hr b)
        revert this
        cases T i (c.2 a) (c.2 b) with
        | ok e =>
          intro h
          obtain ⟨e', h', hrel⟩ := h e rfl
          rw [h']
          exact fun _ h => by cases h; exact ⟨_, rfl, by rw [hrel.seen], store_rel hrel.list hr k⟩
        | panic => exact fun _ => nofun
        | diverge => exact fun _ => nofun
    unfold Client.run at he ⊢
    revert hs he
    cases C.step T false c with
    | ok c' =>
      intro hs he
      obtain ⟨d', hd, hrel⟩ := hs c' rfl
      rw [hd]
      exact ih hrel e he
    | panic => exact fun _ => nofun
    | diverge => exact fun _ => nofun

open Stateful in
theorem Client.run_tracks {σ : Type} {I : σ → Prop} {r : E → F → Prop} {T : ι → E → E → St σ (Reply E)}
    {T' : ι → F → F → Res (Reply F)}
    (h : ∀ i {a b a' b'}, r a a' → r b b' → Tracks I (Reply.Rel r) (T i a b) (T' i a' b')) (n : ℕ) :
    ∀ {c : C.Q × (ℕ → E)} {d : C.Q × (ℕ → F)}, C.Rel r c d → Tracks I (C.Rel r) (C.runState T n c) (C.run T' true n d) := by
  induction n with
  | zero => exact fun hc => .ok hc
  | succ n ih =>
    intro c d hc
    refine Tracks.bind (r := C.Rel r) ?_ fun _ _ h => ih h
    obtain ⟨hq, hr⟩ := hc
    unfold Client.step Client.stepState
    rw [← hq]
    cases C.act c.1 with
    | none => exact .ok ⟨hq, hr⟩
    | some w =>
      obtain ⟨i, a, b, k⟩ := w
      intro s hs
      have := h i (hr a) (hr b) s hs
      dsimp only
      revert this
      cases T i (c.2 a) (c.2 b) s with
      | ok e t =>
        cases T' i (d.2 a) (d.2 b) with
        | ok e' => exact fun h => ⟨⟨by rw [h.1.seen], store_rel h.1.list hr k⟩, h.2⟩
        | panic => exact False.elim
        | diverge => exact False.elim
      | panic t =>
        cases T' i (d.2 a) (d.2 b) with
        | ok e' => exact False.elim
        | panic => exact fun h => ⟨⟨rfl, hr⟩, h⟩
        | diverge => exact False.elim
      | diverge =>
        cases T' i (d.2 a) (d.2 b) with
        | ok e' => exact False.elim
        | panic => exact False.elim
        | diverge => exact fun _ => trivial

end

end Abstalg
