/-!
# Computations of the modelled program

A call of a Rust method is modelled by a value of `Res α`.  The constructor
`diverge` is the bottom element used to give meaning to loops and recursion
without a structural termination argument (`partial_fixpoint`).
-/

set_option autoImplicit false

universe u v

namespace Abstalg

/-- The outcome of a Rust call: it returns a value, it panics (`unwrap` of
`None`, failed `assert!`, index out of bounds, arithmetic overflow with overflow
checks), or it never returns. -/
inductive Res (α : Type u) where
  | ok (a : α)
  | panic
  | diverge
  deriving DecidableEq, Repr

namespace Res

/-- Sequencing: a panic or divergence of the first computation is that of the
whole. -/
protected def bind {α : Type u} {β : Type v} (x : Res α) (f : α → Res β) : Res β :=
  match x with
  | .ok a => f a
  | .panic => .panic
  | .diverge => .diverge

instance : Monad Res where
  pure := .ok
  bind := Res.bind

open Lean.Order in
/-- Flat order with least element `diverge`. -/
noncomputable instance {α : Type u} : CCPO (Res α) :=
  inferInstanceAs (CCPO (FlatOrder (Res.diverge : Res α)))

open Lean.Order in
noncomputable instance : MonoBind Res where
  bind_mono_left h := by
    cases h with
    | bot => exact FlatOrder.rel.bot
    | refl => exact FlatOrder.rel.refl
  bind_mono_right h := by
    rename_i x _ _
    cases x with
    | ok a => exact h a
    | panic => exact FlatOrder.rel.refl
    | diverge => exact FlatOrder.rel.refl

/-- Rust `assert!(b)`. -/
def assert (b : Bool) : Res Unit := if b then .ok () else .panic

/-- Rust `Option::unwrap` / `Option::expect`. -/
def unwrap {α : Type u} : Option α → Res α
  | some a => .ok a
  | none => .panic

end Res

/-- The build profile and target.  All theorems quantify over it. -/
class Cfg where
  /-- `-C overflow-checks`: unchecked `+`, `-`, `*` and unary `-` on primitive
  integers panic on overflow; otherwise they wrap around. -/
  overflowChecks : Bool
  /-- `-C debug-assertions`: `debug_assert!` is active. -/
  debugAssertions : Bool
  /-- number of bits of `usize` and `isize` -/
  ptrBits : Nat
  /-- the crate uses `std`, so targets have at least 32-bit pointers; in
  particular `u32 as usize` is lossless -/
  ptrBits_ge : 32 ≤ ptrBits

/-- `isize::MIN` -/
def isizeMin [Cfg] : Int := -(2 ^ (Cfg.ptrBits - 1))

/-- `isize::MAX` -/
def isizeMax [Cfg] : Int := 2 ^ (Cfg.ptrBits - 1) - 1

/-- `usize::MAX` -/
def usizeMax [Cfg] : Nat := 2 ^ Cfg.ptrBits - 1

/-- Unary minus on `isize`: `-isize::MIN` overflows, which panics with overflow
checks and wraps to `isize::MIN` without. -/
def isizeNeg [Cfg] (n : Int) : Res Int :=
  if n = isizeMin then
    if Cfg.overflowChecks then .panic else .ok isizeMin
  else .ok (-n)

/-- Rust `debug_assert!(b)`, where evaluating the condition is itself a
computation that only takes place when debug assertions are on. -/
def debugAssert [Cfg] (b : Res Bool) : Res Unit :=
  if Cfg.debugAssertions then b.bind Res.assert else .ok ()

/-! ## `Vec` and slices -/

/-- Reading `v[i]`: panics when out of bounds. -/
def idx {α : Type u} (v : List α) (i : Nat) : Res α :=
  match v[i]? with
  | some a => .ok a
  | none => .panic

/-- Writing `v[i] = a`: panics when out of bounds. -/
def setIdx {α : Type u} (v : List α) (i : Nat) (a : α) : Res (List α) :=
  if i < v.length then .ok (v.set i a) else .panic

/-- `Vec::resize(n, a)`: truncates or pads with `a`. -/
def resize {α : Type u} (v : List α) (n : Nat) (a : α) : List α :=
  v.take n ++ List.replicate (n - v.length) a

/-- `slice.swap(i, j)`: panics when out of bounds. -/
def swapIdx {α : Type u} (v : List α) (i j : Nat) : Res (List α) := do
  let a ← idx v i
  let b ← idx v j
  let v ← setIdx v i b
  setIdx v j a

/-- `Iterator::all` with a predicate that may panic: stops at the first
`false`. -/
def allRes {α : Type u} (p : α → Res Bool) : List α → Res Bool
  | [] => .ok true
  | a :: l => (p a).bind fun b => if b then allRes p l else .ok false

/-- `iter().map(f).collect()` with a function that may panic. -/
def mapRes {α : Type u} {β : Type v} (f : α → Res β) : List α → Res (List β)
  | [] => .ok []
  | a :: l => (f a).bind fun b => (mapRes f l).bind fun l' => .ok (b :: l')

/-- `xs.iter_mut().zip(ys.iter()).for_each(|(x, y)| f(x, y))`: the elements of
`xs` that have a partner in `ys` are replaced. -/
def zipForEach {α : Type u} {β : Type v} (f : α → β → Res α) : List α → List β → Res (List α)
  | a :: l, b :: m => (f a b).bind fun a' => (zipForEach f l m).bind fun l' => .ok (a' :: l')
  | l, _ => .ok l

/-- `for i in indices { s = body(s, i) }` over a list of indices (ranges `a..b`,
`(a..b).rev()`), the mutable variables of the loop being packed into `s`. -/
def forLoop {σ : Type u} {ι : Type v} (l : List ι) (s : σ) (body : σ → ι → Res σ) : Res σ :=
  match l with
  | [] => .ok s
  | i :: l => (body s i).bind fun s' => forLoop l s' body

/-- `(l).find(p)` with a predicate that may panic. -/
def findRes {α : Type u} (p : α → Res Bool) : List α → Res (Option α)
  | [] => .ok none
  | a :: l => (p a).bind fun b => if b then .ok (some a) else findRes p l

end Abstalg
