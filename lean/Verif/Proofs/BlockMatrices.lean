import Verif.Spec.Matrices
import Mathlib.LinearAlgebra.Matrix.SchurComplement
import Mathlib.GroupTheory.Perm.Sign
import Mathlib.Logic.Equiv.Fin.Basic

/-! # Pivots of block triangular matrices -/

set_option autoImplicit false

universe u

namespace Abstalg

open Matrix

variable {K : Type u} [CommRing K] {m n : ℕ}

/-- A permutation of the first places. -/
def permLeft (n : ℕ) (σ : Equiv.Perm (Fin m)) : Equiv.Perm (Fin (m + n)) :=
  (finSumFinEquiv.symm.trans (Equiv.sumCongr σ (Equiv.refl (Fin n)))).trans finSumFinEquiv

/-- A permutation of the last places. -/
def permRight (m : ℕ) (τ : Equiv.Perm (Fin n)) : Equiv.Perm (Fin (m + n)) :=
  (finSumFinEquiv.symm.trans (Equiv.sumCongr (Equiv.refl (Fin m)) τ)).trans finSumFinEquiv

theorem permLeft_castAdd (σ : Equiv.Perm (Fin m)) (i : Fin m) :
    permLeft n σ (Fin.castAdd n i) = Fin.castAdd n (σ i) := by simp [permLeft]

theorem permLeft_natAdd (σ : Equiv.Perm (Fin m)) (i : Fin n) :
    permLeft n σ (Fin.natAdd m i) = Fin.natAdd m i := by simp [permLeft]

theorem permRight_castAdd (τ : Equiv.Perm (Fin n)) (i : Fin m) :
    permRight m τ (Fin.castAdd n i) = Fin.castAdd n i := by simp [permRight]

theorem permRight_natAdd (τ : Equiv.Perm (Fin n)) (i : Fin n) :
    permRight m τ (Fin.natAdd m i) = Fin.natAdd m (τ i) := by simp [permRight]

theorem permLeft_one : permLeft n (1 : Equiv.Perm (Fin m)) = 1 := by
  ext i
  refine Fin.addCases (fun i => ?_) (fun i => ?_) i
  · rw [permLeft_castAdd]; rfl
  · rw [permLeft_natAdd]; rfl

theorem permRight_one : permRight m (1 : Equiv.Perm (Fin n)) = 1 := by
  ext i
  refine Fin.addCases (fun i => ?_) (fun i => ?_) i
  · rw [permRight_castAdd]; rfl
  · rw [permRight_natAdd]; rfl

theorem swap_castAdd (c r : Fin m) (i : Fin m) :
    Equiv.swap (Fin.castAdd n c) (Fin.castAdd n r) (Fin.castAdd n i) = Fin.castAdd n (Equiv.swap c r i) :=
  (Function.Injective.map_swap (Fin.castAdd_injective m n) c r i).symm

theorem swap_natAdd (c r : Fin n) (i : Fin n) :
    Equiv.swap (Fin.natAdd m c) (Fin.natAdd m r) (Fin.natAdd m i) = Fin.natAdd m (Equiv.swap c r i) :=
  (Function.Injective.map_swap (Fin.natAdd_injective n m) c r i).symm

theorem castAdd_ne_natAdd (i : Fin m) (j : Fin n) : Fin.castAdd n i ≠ Fin.natAdd m j := fun h => by
  have := congrArg Fin.val h
  simp at this
  omega

theorem permLeft_mul_swap (σ : Equiv.Perm (Fin m)) (c r : Fin m) :
    permLeft n (σ * Equiv.swap c r) = permLeft n σ * Equiv.swap (Fin.castAdd n c) (Fin.castAdd n r) := by
  refine Equiv.ext fun i => ?_
  refine Fin.addCases (fun i => ?_) (fun i => ?_) i
  · rw [permLeft_castAdd, Equiv.Perm.mul_apply, Equiv.Perm.mul_apply, swap_castAdd, permLeft_castAdd]
  · rw [permLeft_natAdd, Equiv.Perm.mul_apply,
      Equiv.swap_apply_of_ne_of_ne (castAdd_ne_natAdd _ _).symm (castAdd_ne_natAdd _ _).symm, permLeft_natAdd]

theorem permRight_mul_swap (τ : Equiv.Perm (Fin n)) (c r : Fin n) :
    permRight m (τ * Equiv.swap c r) = permRight m τ * Equiv.swap (Fin.natAdd m c) (Fin.natAdd m r) := by
  refine Equiv.ext fun i => ?_
  refine Fin.addCases (fun i => ?_) (fun i => ?_) i
  · rw [permRight_castAdd, Equiv.Perm.mul_apply,
      Equiv.swap_apply_of_ne_of_ne (castAdd_ne_natAdd _ _) (castAdd_ne_natAdd _ _), permRight_castAdd]
  · rw [permRight_natAdd, Equiv.Perm.mul_apply, Equiv.Perm.mul_apply, swap_natAdd, permRight_natAdd]

theorem sign_permLeft (σ : Equiv.Perm (Fin m)) : Equiv.Perm.sign (permLeft n σ) = Equiv.Perm.sign σ := by
  have : permLeft n σ = finSumFinEquiv.permCongr (Equiv.Perm.sumCongr σ (1 : Equiv.Perm (Fin n))) := rfl
  rw [this, Equiv.Perm.sign_permCongr, Equiv.Perm.sign_sumCongr, map_one, mul_one]

theorem sign_permRight (τ : Equiv.Perm (Fin n)) : Equiv.Perm.sign (permRight m τ) = Equiv.Perm.sign τ := by
  have : permRight m τ = finSumFinEquiv.permCongr (Equiv.Perm.sumCongr (1 : Equiv.Perm (Fin m)) τ) := rfl
  rw [this, Equiv.Perm.sign_permCongr, Equiv.Perm.sign_sumCongr, map_one, one_mul]

variable {M : Matrix (Fin (m + n)) (Fin (m + n)) K}

theorem borderedMinor_left (σ : Equiv.Perm (Fin m)) (c r : Fin m) :
    borderedMinor (M.submatrix (permLeft n σ) id) (Fin.castAdd n c) (Fin.castAdd n r) =
      borderedMinor ((M.submatrix (Fin.castAdd n) (Fin.castAdd n)).submatrix σ id) c r := by
  unfold borderedMinor
  refine congrArg Matrix.det (Matrix.ext fun i j => ?_)
  simp only [submatrix_apply, id]
  congr 1
  rw [← permLeft_castAdd]
  congr 1
  show (if i.1 < c.1 then _ else _) = Fin.castAdd n (if i.1 < c.1 then _ else _)
  split_ifs <;> rfl

theorem PivotOrder.left {c : ℕ} {σ : Equiv.Perm (Fin m)}
    (h : PivotOrder (M.submatrix (Fin.castAdd n) (Fin.castAdd n)) c σ) : PivotOrder M c (permLeft n σ) := by
  induction h with
  | start => rw [permLeft_one]; exact .start
  | @step c r σ h hcr hr hmin ih =>
    rw [permLeft_mul_swap]
    refine .step (c := Fin.castAdd n c) ih hcr ?_ fun i h1 h2 => ?_
    · rwa [borderedMinor_left]
    · have h3 : i.1 < m := lt_trans (show i.1 < r.1 from h2) r.2
      obtain ⟨i, rfl⟩ : ∃ j, i = Fin.castAdd n j := ⟨⟨i.1, h3⟩, rfl⟩
      rw [borderedMinor_left]
      exact hmin _ h1 h2

theorem borderedMinor_right (h0 : ∀ i j, M (Fin.natAdd m i) (Fin.castAdd n j) = 0) (σ : Equiv.Perm (Fin m))
    (τ : Equiv.Perm (Fin n)) (c r : Fin n) :
    borderedMinor (M.submatrix (permLeft n σ * permRight m τ) id) (Fin.natAdd m c) (Fin.natAdd m r) =
      ((M.submatrix (Fin.castAdd n) (Fin.castAdd n)).submatrix σ id).det *
        borderedMinor ((M.submatrix (Fin.natAdd m) (Fin.natAdd m)).submatrix τ id) c r := by
  unfold borderedMinor
  rw [← Matrix.det_submatrix_equiv_self (finSumFinEquiv (m := m) (n := c.1 + 1))]
  rw [← Matrix.det_fromBlocks_zero₂₁ _ (Matrix.of fun (i : Fin m) (j : Fin (c.1 + 1)) =>
    M (Fin.castAdd n (σ i)) (Fin.natAdd m (Fin.castLE (by omega) j)))]
  refine congrArg Matrix.det (Matrix.ext fun i j => ?_)
  simp only [submatrix_apply, id, Equiv.Perm.mul_apply]
  have hl (i : Fin m) : (if (finSumFinEquiv (Sum.inl i : Fin m ⊕ Fin (c.1 + 1))).1 < (Fin.natAdd m c).1 then
      (⟨(finSumFinEquiv (Sum.inl i : Fin m ⊕ Fin (c.1 + 1))).1, by simp; omega⟩ : Fin (m + n))
      else Fin.natAdd m r) = Fin.castAdd n i := by
    rw [if_pos (by simp; omega)]
    rfl
  have hr (i : Fin (c.1 + 1)) : (if (finSumFinEquiv (Sum.inr i : Fin m ⊕ Fin (c.1 + 1))).1 < (Fin.natAdd m c).1 then
      (⟨(finSumFinEquiv (Sum.inr i : Fin m ⊕ Fin (c.1 + 1))).1, by simp; omega⟩ : Fin (m + n))
      else Fin.natAdd m r) = Fin.natAdd m (if i.1 < c.1 then ⟨i.1, by omega⟩ else r) := by
    by_cases h : i.1 < c.1
    · rw [if_pos (by simpa using h), if_pos h]
      rfl
    · rw [if_neg (by simpa using h), if_neg h]
  have hj (j : Fin (c.1 + 1)) (hc : (Fin.natAdd m c).1 + 1 ≤ m + n) :
      Fin.castLE hc (finSumFinEquiv (m := m) (n := c.1 + 1) (Sum.inr j)) =
      Fin.natAdd m (Fin.castLE (by omega) j) := rfl
  have hj' (j : Fin m) (hc : (Fin.natAdd m c).1 + 1 ≤ m + n) :
      Fin.castLE hc (finSumFinEquiv (m := m) (n := c.1 + 1) (Sum.inl j)) = Fin.castAdd n j := rfl
  rcases i with i | i <;> rcases j with j | j
  · rw [hl, hj', permRight_castAdd, permLeft_castAdd]
    rfl
  · rw [hl, hj, permRight_castAdd, permLeft_castAdd]
    rfl
  · rw [hr, hj', permRight_natAdd, permLeft_natAdd, h0]
    rfl
  · rw [hr, hj, permRight_natAdd, permLeft_natAdd]
    rfl

theorem PivotOrder.right [NoZeroDivisors K] (h0 : ∀ i j, M (Fin.natAdd m i) (Fin.castAdd n j) = 0)
    {σ : Equiv.Perm (Fin m)} (hσ : PivotOrder M m (permLeft n σ))
    (hd : ((M.submatrix (Fin.castAdd n) (Fin.castAdd n)).submatrix σ id).det ≠ 0) {c : ℕ} {τ : Equiv.Perm (Fin n)}
    (h : PivotOrder (M.submatrix (Fin.natAdd m) (Fin.natAdd m)) c τ) :
    PivotOrder M (m + c) (permLeft n σ * permRight m τ) := by
  induction h with
  | start => rw [permRight_one, mul_one]; exact hσ
  | @step c r τ h hcr hr hmin ih =>
    rw [permRight_mul_swap, ← mul_assoc]
    refine .step (c := Fin.natAdd m c) ih (by simpa using hcr) ?_ fun i h1 h2 => ?_
    · rw [borderedMinor_right h0]
      exact mul_ne_zero hd hr
    · have h3 : m ≤ i.1 := le_trans (by simp) (show m + c.1 ≤ i.1 from h1)
      obtain ⟨i, rfl⟩ : ∃ j, i = Fin.natAdd m j := ⟨⟨i.1 - m, by omega⟩, Fin.ext (by simp; omega)⟩
      rw [borderedMinor_right h0, hmin i (by simpa using h1) (by simpa using h2), mul_zero]

theorem det_blocks (h0 : ∀ i j, M (Fin.natAdd m i) (Fin.castAdd n j) = 0) :
    M.det = (M.submatrix (Fin.castAdd n) (Fin.castAdd n)).det * (M.submatrix (Fin.natAdd m) (Fin.natAdd m)).det := by
  rw [← Matrix.det_submatrix_equiv_self (finSumFinEquiv (m := m) (n := n)), ← Matrix.det_fromBlocks_zero₂₁ _
    (M.submatrix (Fin.castAdd n) (Fin.natAdd m))]
  refine congrArg Matrix.det (Matrix.ext fun i j => ?_)
  rcases i with i | i <;> rcases j with j | j
  · rfl
  · rfl
  · exact h0 i j
  · rfl

end Abstalg
