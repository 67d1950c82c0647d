import Verif.Spec.Clients
import Verif.Model.Shared

/-! # Specification: several programs that share one base

Every thread is a program of its own, with its own memory and its own variables; what the threads share is the base with its state. A
schedule is the list of the threads in the order in which they make their steps, each step being a call of a method. -/

set_option autoImplicit false

namespace Abstalg

open _root_.Abstalg.Stateful (St)

variable {ι σ E Θ : Type} [DecidableEq Θ] (C : Θ → Client ι)

/-- The step of one thread, in the state that the threads before it have left. -/
def teamStep (T : ι → E → E → St σ (Reply E)) (θ : Θ) (c : ∀ θ, (C θ).Q × (ℕ → E)) : St σ (∀ θ, (C θ).Q × (ℕ → E)) := do
  let d ← (C θ).stepState T (c θ)
  return Function.update c θ d

/-- The threads under a schedule. -/
def teamRun (T : ι → E → E → St σ (Reply E)) : List Θ → (∀ θ, (C θ).Q × (ℕ → E)) → St σ (∀ θ, (C θ).Q × (ℕ → E))
  | [], c => pure c
  | θ :: L, c => do teamRun T L (← teamStep C T θ c)

/-- All states that a base goes through if it is called again and again, by whomever: each is what a call that keeps the states of `I` sound
has left of the one before it. -/
def History {σ : Type} (I : σ → Prop) (s : ℕ → σ) : Prop :=
  I (s 0) ∧ ∀ k, ∃ (α β : Type) (q : α → β → Prop) (x : St σ α) (y : Res β), Stateful.Tracks I q x y ∧ s (k + 1) = x.effect (s k)

end Abstalg
