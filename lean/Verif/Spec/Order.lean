import Verif.Model.Traits
import Mathlib.Data.Nat.Size
import Mathlib.Data.Fin.Basic
import Mathlib.Logic.Equiv.Basic

/-! # The order of operations over a base without laws -/

set_option autoImplicit false

namespace Abstalg

variable {E : Type}

/-- Combines a first value with further ones, one by one from the left. -/
def combineAll (op : E → E → Res E) (s : E) : List E → Res E
  | [] => .ok s
  | a :: l => (op s a).bind fun s' => combineAll op s' l

/-- Adds the products of the pairs to a first value, one by one from the left. -/
def addProducts (mul add : E → E → Res E) (s : E) : List (E × E) → Res E
  | [] => .ok s
  | p :: l => (mul p.1 p.2).bind fun q => (add s q).bind fun s' => addProducts mul add s' l

/-- The binary digits of `n` that are one, in ascending order. -/
def digitPositions (n : ℕ) : List ℕ := (List.range n.size).filter fun k => n.testBit k

/-- The vector of the entries of a matrix, row by row. -/
def flatVec {n : ℕ} (A : Fin n → Fin n → E) : List E :=
  (List.ofFn fun i => List.ofFn fun j => A i j).flatten

/-- The pairs of coefficients of `u` and `v` that contribute to the coefficient `k` of the product, by
ascending index in `u`. -/
def convPairs (u v : List E) (k : ℕ) : List (E × E) :=
  (List.range u.length).filterMap fun i =>
    if i ≤ k then (u[i]?).bind fun a => (v[k - i]?).bind fun b => some (a, b) else none

/-- The pairs of a coefficient of the divisor `w`, other than the leading one, and of the negative `c`
of a coefficient of the quotient, that contribute to the coefficient `k` of the remainder, by descending
index in the quotient from `hi` (excluded) to `lo`. -/
def divPairs (w c : List E) (lo hi k : ℕ) : List (E × E) :=
  (List.range' lo (hi - lo)).reverse.filterMap fun i =>
    if i ≤ k then (w.dropLast[k - i]?).bind fun a => (c[i]?).bind fun b => some (a, b) else none

/-- A run of the long division of `v` by `w`, from the highest coefficient of the quotient `q` down:
`nq` are the negatives of the coefficients of `q`, `t` is what is left of `v` at the end, and `D s x`
says that the division of `s` by the leading coefficient of `w` gives `x`. -/
structure LongDivision (mul add : E → E → Res E) (neg : E → Res E) (D : E → E → Prop)
    (w v q nq t : List E) : Prop where
  neg_len : nq.length = q.length
  len : t.length = v.length
  quo : ∀ i x, q[i]? = some x → ∃ b s c, v[i + (w.length - 1)]? = some b ∧
    addProducts mul add b (divPairs w nq (i + 1) q.length (i + (w.length - 1))) = .ok s ∧
    D s x ∧ neg x = .ok c ∧ nq[i]? = some c
  rem : ∀ k a, v[k]? = some a →
    ∃ b, t[k]? = some b ∧ addProducts mul add a (divPairs w nq 0 q.length k) = .ok b

/-! ## Gaussian elimination -/

section elimination

variable [Cfg] {n : ℕ} (base : FieldOps E)

/-- Row `p` is the first one from row `i` on whose entry in column `i` is not zero. -/
def FirstPivot (A : Fin n → Fin n → E) (i p : Fin n) : Prop :=
  i ≤ p ∧ base.isZero (A p i) = .ok false ∧ ∀ r, i ≤ r → r < p → base.isZero (A r i) = .ok true

/-- All entries of column `i` from row `i` on are zero. -/
def NoPivot (A : Fin n → Fin n → E) (i : Fin n) : Prop :=
  ∀ r, i ≤ r → base.isZero (A r i) = .ok true

/-- Row `b` is row `a` times `c`. -/
def ScaleRow (c : E) (a b : Fin n → E) : Prop := ∀ j, base.mulAssign (a j) c = .ok (b j)

/-- Row `b` is row `a` plus `c` times row `p`. -/
def AddRow (c : E) (p a b : Fin n → E) : Prop :=
  ∀ j, ∃ q, base.mul (p j) c = .ok q ∧ base.addAssign (a j) q = .ok (b j)

/-- `B` is `A` with the row `i` scaled by `c` after the exchange of the rows `i` and `p`. -/
def Scaled (i p : Fin n) (c : E) (A B : Fin n → Fin n → E) : Prop :=
  ScaleRow base c (A p) (B i) ∧ ∀ r, r ≠ i → B r = A (Equiv.swap i p r)

/-- The elimination of the determinant of `A` on the columns of the list, from the product `d` of the
pivots so far to the value. -/
inductive DetRun : List (Fin n) → (Fin n → Fin n → E) → E → E → Prop
  | done (A d) : DetRun [] A d d
  | singular {i l A d z} : NoPivot base A i → base.zero = .ok z → DetRun (i :: l) A d z
  | step {i l A d x} (p d' c A₁ A₂) : FirstPivot base A i p → base.mulAssign d (A p i) = .ok d' →
      base.inv (A p i) = .ok c → Scaled base i p c A A₁ →
      (∀ r, r ≤ i → A₂ r = A₁ r) →
      (∀ r, i < r → (base.isZero (A₁ r i) = .ok true ∧ A₂ r = A₁ r) ∨
        base.isZero (A₁ r i) = .ok false ∧ ∃ m, base.neg (A₁ r i) = .ok m ∧ AddRow base m (A₁ i) (A₁ r) (A₂ r)) →
      DetRun l A₂ d' x → DetRun (i :: l) A d x

/-- The elimination of the inverse on the columns of the list: the same row operations on the matrix and
on its companion. -/
inductive InvRun : List (Fin n) → (Fin n → Fin n → E) → (Fin n → Fin n → E) →
    Option ((Fin n → Fin n → E) × (Fin n → Fin n → E)) → Prop
  | done (A B) : InvRun [] A B (some (A, B))
  | singular {i l A B} : NoPivot base A i → InvRun (i :: l) A B none
  | step {i l A B x} (p c A₁ B₁ A₂ B₂) : FirstPivot base A i p →
      base.inv (A p i) = .ok c → Scaled base i p c A A₁ → Scaled base i p c B B₁ →
      A₂ i = A₁ i → B₂ i = B₁ i →
      (∀ r, r ≠ i → (base.isZero (A₁ r i) = .ok true ∧ A₂ r = A₁ r ∧ B₂ r = B₁ r) ∨
        base.isZero (A₁ r i) = .ok false ∧ ∃ m, base.neg (A₁ r i) = .ok m ∧
          AddRow base m (A₁ i) (A₁ r) (A₂ r) ∧ AddRow base m (B₁ i) (B₁ r) (B₂ r)) →
      InvRun l A₂ B₂ x → InvRun (i :: l) A B x

end elimination

end Abstalg
