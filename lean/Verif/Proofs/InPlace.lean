import Verif.Spec.InPlace
import Verif.Spec.Contracts
import Verif.Model.VectorAlgebra
import Verif.Model.PolynomialAlgebra
import Verif.Model.ReducedFractions
import Verif.Proofs.Basic

/-! # In-place methods -/

set_option linter.unusedSectionVars false

set_option autoImplicit false

namespace Abstalg

variable {E : Type}

namespace VectorAlgebra

theorem zipForEach_eq (f : E → E → Res E) : ∀ {v w : List E}, v.length = w.length →
    zipForEach f v w = mapRes (fun p => f p.1 p.2) (v.zip w)
  | [], [], _ => rfl
  | a :: v, b :: w, h => by
    rw [zipForEach, List.zip_cons_cons, mapRes, zipForEach_eq f (by simpa using h)]

theorem mapRes_zip_self (f : E → E → Res E) : ∀ v : List E,
    mapRes (fun p => f p.1 p.2) (v.zip v) = mapRes (fun a => f a a) v
  | [] => rfl
  | a :: v => by rw [List.zip_cons_cons, mapRes, mapRes_zip_self f v, mapRes]

theorem zipEach_eq (n : ℕ) (f : E → E → Res E) (v w : List E) :
    zipEach n f v w = zipMap n f v w := by
  unfold zipEach zipMap
  by_cases h : v.length = n ∧ w.length = n
  · simp only [lenIs, h.1, h.2, beq_self_eq_true, Bool.and_self, assert_true, ok_bind]
    exact zipForEach_eq f (h.1.trans h.2.symm)
  · have : (lenIs n v && lenIs n w) = false := by
      simpa [lenIs] using h
    rw [this]
    rfl

theorem mapEach_eq (n : ℕ) (f : E → E → Res E) (v : List E) :
    mapEach n (fun a => f a a) v = zipMap n f v v := by
  unfold mapEach zipMap
  rw [Bool.and_self, mapRes_zip_self]

end VectorAlgebra

variable [Cfg]

namespace PolynomialAlgebra

theorem add_comm {base : AbelianGroupOps E} (h : ∀ a b, base.add a b = base.add b a)
    (v w : List E) : add base v w = add base w v := by
  unfold add
  by_cases hl : v.length = w.length
  · rw [if_neg (by simpa using hl), if_neg (by simpa using hl.symm), hl]
    refine congrArg _ (funext fun u => funext fun i => ?_)
    by_cases hi : i < v.length
    · have hi' : i < w.length := hl ▸ hi
      simp only [idx, List.getElem?_eq_getElem hi, List.getElem?_eq_getElem hi', ok_bind]
      rw [h]
    · have hi' : ¬ i < w.length := hl ▸ hi
      simp only [idx, List.getElem?_eq_none (Nat.not_lt.1 hi),
        List.getElem?_eq_none (Nat.not_lt.1 hi')]
  · rw [if_pos hl, if_pos (Ne.symm hl)]
    by_cases hlt : w.length < v.length
    · rw [if_pos hlt, if_neg (by omega)]
    · rw [if_neg hlt, if_pos (by omega)]

end PolynomialAlgebra

namespace ReducedFractions

/-- Addition of fractions commutes if that of the base and its multiplication do, literally. -/
theorem add_comm {base : EuclideanDomainOps E} (hadd : ∀ a b, base.add a b = base.add b a)
    (hmul : ∀ a b, base.mul a b = base.mul b a) (hdiv : ∀ a b, base.mul a b ≠ .diverge)
    (heq : ∀ a b, base.equals a b = base.equals b a)
    (heq' : ∀ a b, base.equals a b = .ok true → a = b)
    (p q : E × E) : (ops base).add p q = (ops base).add q p := by
  simp only [ops]
  rw [heq q.2 p.2]
  cases he : base.equals p.2 q.2 with
  | panic => rfl
  | diverge => rfl
  | ok b =>
    rw [ok_bind, ok_bind]
    cases b with
    | true =>
      simp only [if_true]
      rw [hadd, heq' _ _ he]
    | false =>
      simp only [Bool.false_eq_true, if_false]
      rw [hmul q.1 p.2, hmul q.2 p.1, hmul q.2 p.2]
      cases hx : base.mul p.1 q.2 with
      | diverge => exact absurd hx (hdiv _ _)
      | panic =>
        cases hy : base.mul p.2 q.1 with
        | diverge => exact absurd hy (hdiv _ _)
        | panic => rfl
        | ok y => rfl
      | ok x =>
        cases hy : base.mul p.2 q.1 with
        | diverge => exact absurd hy (hdiv _ _)
        | panic => rfl
        | ok y =>
          simp only [ok_bind]
          rw [hadd x y]

end ReducedFractions

end Abstalg
