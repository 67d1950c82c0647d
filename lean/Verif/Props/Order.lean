import Verif.Proofs.OrderElim

/-! # The order of operations over a base without laws: C80 -/

set_option autoImplicit false

namespace Abstalg

variable {E : Type}

/-! ## Terms: a base field that only records the operations performed -/

/-- Terms in the operations of a field. -/
inductive Term
  | zero | one
  | var (k : ℕ)
  | add (a b : Term) | mul (a b : Term)
  | neg (a : Term) | inv (a : Term)
  deriving DecidableEq

/-- The field of terms, in which no law of fields holds. -/
def termField [Cfg] : FieldOps Term where
  equals a b := .ok (decide (a = b))
  zero := .ok .zero
  add a b := .ok (.add a b)
  mul a b := .ok (.mul a b)
  neg a := .ok (.neg a)
  one := .ok .one
  tryInv a := if a = .zero then .ok none else .ok (some (.inv a))
  int n := if n = 1 then .ok .one else .panic
  inv a := if a = .zero then .panic else .ok (.inv a)

open Term

section matrices

variable [Cfg] {n : ℕ} (base : FieldOps E)

/-- C80: the entries of a matrix product are the inner products, with the operations of the base in this
order: start with zero, and for ascending index multiply the entry of the left factor with that of the
right one and add the product on the right. -/
theorem C80_matrix_mul (A B C : Fin n → Fin n → E) :
    (MatrixRing.ops base n).mul (flatVec A) (flatVec B) = .ok (flatVec C) ↔
      ∀ i j, ∃ z, base.zero = .ok z ∧
        addProducts base.mul base.addAssign z (List.ofFn fun k => (A i k, B k j)) = .ok (C i j) := by
  refine (MatrixRing.mul_ok_iff base A B C).trans ?_
  unfold MatrixRing.entry
  simp only [rbind_eq_ok]

/-- The first entry of the product of two matrices of variables. -/
example : ∃ C : Fin 2 → Fin 2 → Term,
    (MatrixRing.ops termField 2).mul (flatVec fun i j : Fin 2 => var (2 * i.1 + j.1))
      (flatVec fun i j : Fin 2 => var (4 + 2 * i.1 + j.1)) = .ok (flatVec C) ∧
    C 0 0 = add (add zero (mul (var 0) (var 4))) (mul (var 1) (var 6)) :=
  ⟨fun i j => add (add zero (mul (var (2 * i.1)) (var (4 + j.1)))) (mul (var (2 * i.1 + 1)) (var (6 + j.1))),
    (C80_matrix_mul _ _ _ _).2 (by
      intro i j
      refine ⟨zero, rfl, ?_⟩
      fin_cases i <;> fin_cases j <;> rfl), rfl⟩

/-- C80: the determinant is computed by the elimination `DetRun` on the columns in ascending order. -/
theorem C80_determinant (A : Fin n → Fin n → E) (x : E) :
    MatrixRing.determinant base n (flatVec A) = .ok x ↔
      ∃ o, base.one = .ok o ∧ DetRun base (List.finRange n) A o x :=
  MatrixRing.determinant_ok_iff base A x

/-- The determinant of a matrix with two rows. -/
example : MatrixRing.determinant termField 2 [var 0, var 1, var 2, var 3] =
    .ok (mul (mul one (var 0))
      (add (var 3) (mul (mul (var 1) (inv (var 0))) (neg (var 2))))) := rfl

/-- A first entry zero: the rows are exchanged, the sign is not changed. -/
example : MatrixRing.determinant termField 2 [zero, var 1, var 2, var 3] =
    .ok (mul (mul one (var 2)) (var 1)) := rfl

/-- C80: the inverse is computed by the elimination `InvRun` on the columns in ascending order, next to
the scalar matrix of the integer one; if debug assertions are on, the matrix must have become one. -/
theorem C80_try_inv (A : Fin n → Fin n → E) (x : List E) :
    (MatrixRing.ops base n).tryInv (flatVec A) = .ok (some x) ↔ ∃ e z B C, base.int 1 = .ok e ∧
      base.zero = .ok z ∧
      InvRun base (List.finRange n) A (fun i j => if i = j then e else z) (some (B, C)) ∧
      (Cfg.debugAssertions = true → (MatrixRing.ops base n).isOne (flatVec B) = .ok true) ∧
      x = flatVec C :=
  MatrixRing.tryInv_ok_some_iff base A x

/-- C80: `try_inv` returns `None` exactly if the elimination meets a column without pivot. -/
theorem C80_try_inv_none (A : Fin n → Fin n → E) :
    (MatrixRing.ops base n).tryInv (flatVec A) = .ok none ↔ ∃ e z, base.int 1 = .ok e ∧
      base.zero = .ok z ∧
      InvRun base (List.finRange n) A (fun i j => if i = j then e else z) none :=
  MatrixRing.tryInv_ok_none_iff base A

end matrices

/-- The inverse of a matrix with one entry, without debug assertions; with them the term for one is not
recognized. -/
example : (@MatrixRing.ops ⟨true, false, 64, by decide⟩ Term (@termField ⟨true, false, 64, by decide⟩) 1).tryInv [var 0] =
      .ok (some [mul one (inv (var 0))]) ∧
    (@MatrixRing.ops ⟨true, true, 64, by decide⟩ Term (@termField ⟨true, true, 64, by decide⟩) 1).tryInv [var 0] = .panic := ⟨rfl, rfl⟩

/-- A matrix whose first column is zero. -/
example [Cfg] : (MatrixRing.ops termField 2).tryInv [zero, var 1, zero, var 3] = .ok none := rfl

section polynomials

variable [Cfg]

/-- C80: the coefficients of the product of two polynomials are the sums of products of coefficients, with
the operations of the base in this order: start with zero, and for ascending index in the left factor
multiply the coefficient of the left factor with that of the right one and add the product on the right. -/
theorem C80_poly_mul (base : UnitaryRingOps E) {u v : List E} (hu : u ≠ []) (hv : v ≠ []) (x : List E) :
    (PolynomialAlgebra.unitaryRing base).mul u v = .ok x ↔ ∃ z, base.zero = .ok z ∧
      x.length = u.length + v.length - 1 ∧
      ∀ k (hk : k < x.length), addProducts base.mul base.add z (convPairs u v k) = .ok x[k] :=
  PolynomialAlgebra.mul_ok_iff base hu hv x

/-- The product of two polynomials with variables as coefficients. -/
example : (PolynomialAlgebra.unitaryRing termField.toUnitaryRingOps).mul [var 0, var 1] [var 2, var 3] =
    .ok [add zero (mul (var 0) (var 2)),
      add (add zero (mul (var 0) (var 3))) (mul (var 1) (var 2)),
      add zero (mul (var 1) (var 3))] := rfl

/-- C80: `quo_rem` of polynomials is the long division from the highest coefficient of the quotient down;
the remainder is cut off after its last coefficient that is not zero. -/
theorem C80_quo_rem (base : FieldOps E) {v w : List E} (q r : List E) (hw : w ≠ [])
    (hlen : w.length ≤ v.length) :
    (PolynomialAlgebra.euclidean base).quoRem v w = .ok (q, r) ↔ ∃ a z nq t l, w.getLast? = some a ∧
      base.zero = .ok z ∧ base.isZero a = .ok false ∧ q.length + w.length = v.length + 1 ∧
      LongDivision base.mul base.add base.neg (fun s x => base.div s a = .ok x) w v q nq t ∧
      r = t.take l ∧ l ≤ w.length - 1 ∧
      (∀ k a, l ≤ k → k < w.length - 1 → t[k]? = some a → base.isZero a = .ok true) ∧
      (∀ a, l ≠ 0 → t[l - 1]? = some a → base.isZero a = .ok false) :=
  PolynomialAlgebra.quoRem_ok_iff base q r hw hlen

/-- The division of a polynomial of degree one by another one. -/
example : (PolynomialAlgebra.euclidean termField).quoRem [var 0, var 1] [var 2, var 3] =
    .ok ([mul (var 1) (inv (var 3))],
      [add (var 0) (mul (var 2) (neg (mul (var 1) (inv (var 3)))))]) := rfl

/-- C80: `try_div` of polynomials returns a quotient exactly if the long division can be carried out, with
`try_div` of the base, and leaves zeros. -/
theorem C80_try_div (base : IntegralDomainOps E) {v w : List E} (q : List E) (hw : w ≠ [])
    (hlen : w.length ≤ v.length) :
    (PolynomialAlgebra.integralDomain base).tryDiv v w = .ok (some q) ↔ ∃ a z nq t, w.getLast? = some a ∧
      base.zero = .ok z ∧ base.isZero a = .ok false ∧ q.length + w.length = v.length + 1 ∧
      LongDivision base.mul base.addAssign base.neg (fun s x => base.tryDiv s a = .ok (some x)) w v q nq t ∧
      ∀ b ∈ t.take (w.length - 1), base.isZero b = .ok true :=
  PolynomialAlgebra.tryDiv_ok_iff base q hw hlen

/-- Division by a constant: the coefficients are divided, the highest one first. -/
example : (PolynomialAlgebra.integralDomain termField.toIntegralDomain).tryDiv [var 0, var 1] [var 2] =
    .ok (some [mul (var 0) (inv (var 2)), mul (var 1) (inv (var 2))]) := rfl

end polynomials

section powers

/-- C80: the loop of `CommuntativeMonoid::times` doubles the element once for every binary digit of the
number, and adds those doubles that belong to a digit one to the result, the lowest digit first. -/
theorem C80_times (add : E → E → Res E) (double : E → Res E) (n : ℕ) (r e x : E) :
    timesLoop add double n r e = .ok x ↔ ∃ s : ℕ → E, s 0 = e ∧
      (∀ k < n.size, double (s k) = .ok (s (k + 1))) ∧ combineAll add r ((digitPositions n).map s) = .ok x :=
  timesLoop_ok_iff add double n r e x

/-- Six times a variable: the doubles for the digits two and four. -/
example : timesLoop (fun a b => .ok (add a b)) (fun a => .ok (add a a)) 6 zero (var 0) =
    .ok (add (add zero (add (var 0) (var 0)))
      (add (add (var 0) (var 0)) (add (var 0) (var 0)))) :=
  (C80_times _ _ _ _ _ _).2 ⟨fun k => (fun a => add a a)^[k] (var 0), rfl,
    fun k _ => congrArg Res.ok (Function.iterate_succ_apply' (fun a => add a a) k (var 0)).symm, by
      rw [show digitPositions 6 = [1, 2] by decide]; rfl⟩

/-- C80: `Group::power` inverts the element if the exponent is negative, squares it once for every binary
digit of the exponent, and multiplies those squares that belong to a digit one to the result, the lowest
digit first. -/
theorem C80_power [Cfg] (one : Res E) (mul : E → E → Res E) (square inv : E → Res E) (n : ℤ)
    (hn : n ≠ isizeMin) (e x : E) :
    powerDefault one mul square inv n e = .ok x ↔ ∃ b o, (if n < 0 then inv e else .ok e) = .ok b ∧
      one = .ok o ∧ ∃ s : ℕ → E, s 0 = b ∧ (∀ k < n.natAbs.size, square (s k) = .ok (s (k + 1))) ∧
        combineAll mul o ((digitPositions n.natAbs).map s) = .ok x :=
  powerDefault_ok_iff one mul square inv n hn e x

/-- The power of a variable to the exponent minus five. -/
example [Cfg] : powerDefault (.ok one) (fun a b => .ok (mul a b)) (fun a => .ok (mul a a)) (fun a => .ok (inv a))
    (-5) (var 0) = .ok (mul (mul one (inv (var 0)))
      (mul (mul (inv (var 0)) (inv (var 0))) (mul (inv (var 0)) (inv (var 0))))) :=
  (C80_power _ _ _ _ _ (by
      have h := Cfg.ptrBits_ge
      have : (2 : ℤ) ^ 31 ≤ 2 ^ (Cfg.ptrBits - 1) := by exact_mod_cast Nat.pow_le_pow_right (by norm_num) (by omega)
      unfold isizeMin
      omega) _ _).2 ⟨inv (var 0), one, rfl, rfl, fun k => (fun a => mul a a)^[k] (inv (var 0)), rfl,
    fun k _ => congrArg Res.ok (Function.iterate_succ_apply' (fun a => mul a a) k (inv (var 0))).symm, by
      rw [show (-5 : ℤ).natAbs = 5 by decide, show digitPositions 5 = [0, 2] by decide]; rfl⟩

end powers

end Abstalg
