import Verif.Model.Res
import Mathlib.Data.List.Forall2

/-! # Results of calls made one after the other

The calls that a method makes on the coordinates are given as a list of computations. -/

set_option autoImplicit false

universe u

namespace Abstalg

variable {F : Type u}

/-- The call `c` is one of the calls, and all the calls before it have outcomes in `go`. -/
def FirstAt (cs : List (Res F)) (go : Res F → Prop) (c : Res F) : Prop :=
  ∃ i : ℕ, cs[i]? = some c ∧ ∀ j < i, ∀ c', cs[j]? = some c' → go c'

/-- `r` collects the values of all calls, made in order. -/
structure Collects (cs : List (Res F)) (r : Res (List F)) : Prop where
  ok : ∀ xs, r = .ok xs ↔ List.Forall₂ (fun c x => c = .ok x) cs xs
  panic : r = .panic ↔ FirstAt cs (fun c => ∃ x, c = .ok x) .panic
  diverge : r = .diverge ↔ FirstAt cs (fun c => ∃ x, c = .ok x) .diverge

/-- `r` tells if all tests succeed; no test is made after the first one that fails. -/
structure TestsAll (cs : List (Res Bool)) (r : Res Bool) : Prop where
  yes : r = .ok true ↔ ∀ c ∈ cs, c = .ok true
  no : r = .ok false ↔ FirstAt cs (· = .ok true) (.ok false)
  panic : r = .panic ↔ FirstAt cs (· = .ok true) .panic
  diverge : r = .diverge ↔ FirstAt cs (· = .ok true) .diverge

/-- `r` collects the values of all attempts; no attempt is made after the first one that fails. -/
structure TriesAll (cs : List (Res (Option F))) (r : Res (Option (List F))) : Prop where
  all : ∀ xs, r = .ok (some xs) ↔ List.Forall₂ (fun c x => c = .ok (some x)) cs xs
  fails : r = .ok none ↔ FirstAt cs (fun c => ∃ x, c = .ok (some x)) (.ok none)
  panic : r = .panic ↔ FirstAt cs (fun c => ∃ x, c = .ok (some x)) .panic
  diverge : r = .diverge ↔ FirstAt cs (fun c => ∃ x, c = .ok (some x)) .diverge

/-- `r` is the vector with `n` coordinates all equal to the value of the call `c`. -/
structure Repeats (n : ℕ) (c : Res F) (r : Res (List F)) : Prop where
  ok : ∀ xs, r = .ok xs ↔ ∃ x, c = .ok x ∧ xs.length = n ∧ ∀ y ∈ xs, y = x
  panic : r = .panic ↔ c = .panic
  diverge : r = .diverge ↔ c = .diverge

/-- The vector `x` is `s` without its zeros at the end, and with the value of the call `zero` in place of
the other zeros.  All entries of `s` are tested. -/
structure Trimmed (isZero : F → Res Bool) (zero : Res F) (s x : List F) : Prop where
  len : x.length ≤ s.length
  filled : x ≠ [] → ∃ z, zero = .ok z
  tested : ∀ (k : ℕ) (a : F), s[k]? = some a → ∃ d, isZero a = .ok d ∧
    (x.length ≤ k → d = true) ∧ (k + 1 = x.length → d = false) ∧
    (k < x.length → d = false → x[k]? = some a) ∧
    (k < x.length → d = true → ∃ z, zero = .ok z ∧ x[k]? = some z)

/-- The divisions of Euclid's algorithm: `r` starts with the two operands, each of the `k` divisions of an
element of `r` by the next one has the quotient in `q` and gives the element of `r` after that, and only
the last divisor is zero. -/
structure Divisions (isZero : F → Res Bool) (quoRem : F → F → Res (F × F)) (a b : F) (k : ℕ)
    (r q : ℕ → F) : Prop where
  first : r 0 = a
  second : r 1 = b
  nonzero : ∀ i < k, isZero (r (i + 1)) = .ok false
  divide : ∀ i < k, quoRem (r i) (r (i + 1)) = .ok (q i, r (i + 2))
  last : isZero (r (k + 1)) = .ok true

/-- The coefficients of Euclid's algorithm from the last of the `k` divisions back to the first. -/
structure Cofactors (one zero : Res F) (sub mul : F → F → Res F) (k : ℕ) (q t : ℕ → F) : Prop where
  last : zero = .ok (t k)
  before : one = .ok (t (k + 1))
  back : ∀ i < k, ∃ p, mul (t (i + 1)) (q i) = .ok p ∧ sub (t (i + 2)) p = .ok (t i)

end Abstalg
