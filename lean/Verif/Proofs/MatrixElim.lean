import Verif.Proofs.MatrixRing
import Mathlib.LinearAlgebra.Matrix.Block
import Mathlib.LinearAlgebra.Matrix.ToLinearEquiv
import Mathlib.LinearAlgebra.Matrix.NonsingularInverse

/-! # Matrices: Gauss-Jordan elimination -/

set_option linter.unusedSectionVars false

set_option autoImplicit false

universe u

namespace Abstalg.MatrixRing

variable {R : Type u} [Field R] {n : ℕ}

/-! ## Row operations and determinants -/

theorem rowMul_eq (A : Matrix (Fin n) (Fin n) R) (r : Fin n) (c : R) :
    rowMul A r c = A.updateRow r (c • A r) := by
  ext i j
  by_cases h : i = r
  · subst h; simp [rowMul, mul_comm]
  · simp [rowMul, h]

theorem rowAdd_eq (A : Matrix (Fin n) (Fin n) R) (r s : Fin n) (c : R) :
    rowAdd A r s c = A.updateRow s (A s + c • A r) := by
  ext i j
  by_cases h : i = s
  · subst h; simp [rowAdd, mul_comm]
  · simp [rowAdd, h]

theorem det_rowMul (A : Matrix (Fin n) (Fin n) R) (r : Fin n) (c : R) :
    (rowMul A r c).det = c * A.det := by
  rw [rowMul_eq, Matrix.det_updateRow_smul, Matrix.updateRow_eq_self]

theorem det_rowAdd (A : Matrix (Fin n) (Fin n) R) {r s : Fin n} (h : r ≠ s) (c : R) :
    (rowAdd A r s c).det = A.det := by
  rw [rowAdd_eq, Matrix.det_updateRow_add_smul_self _ h.symm]

theorem det_rowSwap (A : Matrix (Fin n) (Fin n) R) {r s : Fin n} (h : r ≠ s) :
    (rowSwap A r s).det = -A.det := by
  rw [rowSwap, Matrix.det_permute, Equiv.Perm.sign_swap h]
  simp

theorem rowMul_mul (B M : Matrix (Fin n) (Fin n) R) (r : Fin n) (c : R) :
    rowMul (B * M) r c = rowMul B r c * M := by
  ext i j
  simp only [rowMul, Matrix.mul_apply]
  split
  · rw [Finset.sum_mul]; exact Finset.sum_congr rfl fun k _ => by ring
  · rfl

theorem rowAdd_mul (B M : Matrix (Fin n) (Fin n) R) (r s : Fin n) (c : R) :
    rowAdd (B * M) r s c = rowAdd B r s c * M := by
  ext i j
  simp only [rowAdd, Matrix.mul_apply]
  split
  · rw [Finset.sum_mul, ← Finset.sum_add_distrib]
    exact Finset.sum_congr rfl fun k _ => by ring
  · rfl

theorem rowSwap_mul (B M : Matrix (Fin n) (Fin n) R) (r s : Fin n) :
    rowSwap (B * M) r s = rowSwap B r s * M := by
  ext i j
  simp only [rowSwap, Matrix.submatrix_apply, Matrix.mul_apply, id]

/-! ## `determinant` -/

/-- The first `c` columns are upper triangular with ones in the diagonal. -/
def Echelon (A : Matrix (Fin n) (Fin n) R) (c : ℕ) : Prop :=
  ∀ i j : Fin n, j.1 < c → (i = j → A i j = 1) ∧ (j < i → A i j = 0)

theorem Echelon.det {A : Matrix (Fin n) (Fin n) R} (h : Echelon A n) : A.det = 1 := by
  rw [Matrix.det_of_isUpperTriangular fun i j hij => (h i j j.2).2 hij]
  exact Finset.prod_eq_one fun i _ => (h i i i.2).1 rfl

theorem Echelon.det_zero {A : Matrix (Fin n) (Fin n) R} {c : Fin n} (h : Echelon A c.1)
    (h0 : ∀ i : Fin n, c ≤ i → A i c = 0) : A.det = 0 := by
  have hb : A.BlockTriangular fun i => min i.1 (c.1 + 1) := by
    intro i j hij
    simp only at hij
    by_cases hj : j.1 < c.1
    · exact (h i j hj).2 (show j.1 < i.1 by omega)
    · obtain rfl : j = c := Fin.ext (by omega)
      exact h0 i (show j.1 ≤ i.1 by omega)
  rw [hb.det]
  refine Finset.prod_eq_zero (Finset.mem_image.2 ⟨c, Finset.mem_univ c, rfl⟩) ?_
  refine Matrix.det_eq_zero_of_row_eq_zero ⟨c, rfl⟩ fun j => ?_
  have hj : min j.1.1 (c.1 + 1) = min c.1 (c.1 + 1) := j.2
  have hj' : j.1 = c := Fin.ext (by omega)
  show A c j.1 = 0
  rw [hj']
  exact h0 c le_rfl

/-- The condition under which no rows are swapped. -/
def MinorsNonzero (A : Matrix (Fin n) (Fin n) R) : Prop :=
  ∀ k (hk : k < n), leadingMinor A k hk.le ≠ 0

theorem leadingMinor_rowMul (A : Matrix (Fin n) (Fin n) R) (r : Fin n) (c : R) (k : ℕ) (hk : k ≤ n) :
    leadingMinor (rowMul A r c) k hk = (if r.1 < k then c else 1) * leadingMinor A k hk := by
  unfold leadingMinor
  split
  · rename_i h
    rw [← det_rowMul _ ⟨r.1, h⟩]
    congr 1
    ext i j
    simp [rowMul, Fin.ext_iff]
  · rename_i h
    rw [one_mul]
    congr 1
    ext i j
    have : ¬ i.1 = r.1 := by omega
    simp [rowMul, Fin.ext_iff, this]

theorem leadingMinor_rowAdd (A : Matrix (Fin n) (Fin n) R) {r s : Fin n} (hrs : r < s) (c : R)
    (k : ℕ) (hk : k ≤ n) : leadingMinor (rowAdd A r s c) k hk = leadingMinor A k hk := by
  unfold leadingMinor
  by_cases h : s.1 < k
  · have hr : r.1 < k := lt_trans hrs h
    rw [← det_rowAdd (A.submatrix (Fin.castLE hk) (Fin.castLE hk)) (r := ⟨r.1, hr⟩)
      (s := ⟨s.1, h⟩) (fun h => absurd (Fin.ext_iff.1 h) (ne_of_lt hrs)) c]
    congr 1
    ext i j
    simp only [Matrix.submatrix_apply, rowAdd, Fin.ext_iff]
    rfl
  · congr 1
    ext i j
    have : ¬ i.1 = s.1 := by omega
    simp [rowAdd, Fin.ext_iff, this]

theorem MinorsNonzero.rowMul {A : Matrix (Fin n) (Fin n) R} (h : MinorsNonzero A) (r : Fin n) {c : R}
    (hc : c ≠ 0) : MinorsNonzero (rowMul A r c) := fun k hk => by
  rw [leadingMinor_rowMul]
  refine mul_ne_zero ?_ (h k hk)
  split
  · exact hc
  · exact one_ne_zero

theorem MinorsNonzero.rowAdd {A : Matrix (Fin n) (Fin n) R} (h : MinorsNonzero A) {r s : Fin n}
    (hrs : r < s) (c : R) : MinorsNonzero (rowAdd A r s c) := fun k hk => by
  rw [leadingMinor_rowAdd A hrs]
  exact h k hk

/-- In the absence of vanishing leading minors the pivot is on the diagonal. -/
theorem MinorsNonzero.pivot {A : Matrix (Fin n) (Fin n) R} (h : MinorsNonzero A) {c : Fin n}
    (he : Echelon A c.1) (hc : c.1 + 1 < n) : A c c ≠ 0 := by
  intro h0
  refine h (c.1 + 1) hc ?_
  unfold leadingMinor
  refine Echelon.det_zero (c := ⟨c.1, Nat.lt_succ_self _⟩) (fun i j hj => ?_) fun i hi => ?_
  · have := he (Fin.castLE hc.le i) (Fin.castLE hc.le j) hj
    exact ⟨fun hij => this.1 (by rw [hij]), fun hij => this.2 hij⟩
  · obtain rfl : i = ⟨c.1, Nat.lt_succ_self _⟩ := Fin.ext (le_antisymm (Nat.le_of_lt_succ i.2) hi)
    exact h0

variable [Cfg] {E : Type} {mp : Prop} {rep : E → R → Prop} {v w : List E} {L : ℕ}
  {base : FieldOps E} (h : FieldSpec mp base rep)

include h

theorem detClear_spec {A : Matrix (Fin n) (Fin n) R} (hv : Grid rep L v A) (c : Fin n)
    (he : Echelon A c.1) (h1 : A c c = 1) :
    Returns mp (detClear base n v c.1) fun u => ∃ B : Matrix (Fin n) (Fin n) R,
      Grid rep L u B ∧ Echelon B (c.1 + 1) ∧ B.det = A.det ∧ (MinorsNonzero A → MinorsNonzero B) := by
  unfold detClear
  have := forLoop_range' (mp := mp) (fun r u => ∃ B : Matrix (Fin n) (Fin n) R,
      Grid rep L u B ∧ Echelon B c.1 ∧ B c c = 1 ∧ (∀ i : Fin n, c < i → i.1 < r → B i c = 0) ∧
      B.det = A.det ∧ (MinorsNonzero A → MinorsNonzero B))
    (fun elem row => do
      let coef ← idx elem (row * n + c.1)
      if ← base.isZero coef then return elem
      else
        let coef ← base.neg coef
        addRows base n elem c.1 row coef) (n - (c.1 + 1)) (c.1 + 1) (s := v)
    ⟨A, hv, he, h1, fun i hi hi' => absurd hi (Nat.not_lt.2 (Nat.lt_succ_iff.1 hi')), rfl, id⟩ ?_
  · refine this.mono ?_
    rintro u ⟨B, hu, hB, hB1, hB0, hd, hm⟩
    refine ⟨B, hu, fun i j hj => ?_, hd, hm⟩
    by_cases hj' : j.1 < c.1
    · exact hB i j hj'
    · obtain rfl : j = c := Fin.ext (by omega)
      refine ⟨fun hij => by rw [hij]; exact hB1, fun hij => hB0 i hij ?_⟩
      have := i.2
      omega
  · rintro r hr hr' u ⟨B, hu, hB, hB1, hB0, hd, hm⟩
    have hrn : r < n := by omega
    refine Returns.bind (hu.idx hrn c.2) fun a ha => ?_
    refine Decides.ite (h.isZero ha) (fun hz => ?_) fun hz => ?_
    · refine ⟨B, hu, hB, hB1, fun i hi hi' => ?_, hd, hm⟩
      by_cases hir : i.1 < r
      · exact hB0 i hi hir
      · obtain rfl : i = ⟨r, hrn⟩ := Fin.ext (show i.1 = r by omega)
        exact hz
    · refine Returns.bind (h.neg ha) fun b hb => ?_
      have hcr : c < ⟨r, hrn⟩ := show c.1 < r by omega
      refine (addRows_spec h hu c ⟨r, hrn⟩ (ne_of_lt hcr) hb).mono fun u' hu' => ?_
      refine ⟨_, hu', fun i j hj => ?_, ?_, fun i hi hi' => ?_, ?_, fun hA => (hm hA).rowAdd hcr _⟩
      · by_cases hi : i = ⟨r, hrn⟩
        · subst hi
          have hjc : j < c := hj
          have h1 := (hB ⟨r, hrn⟩ j hj).2 (lt_trans hjc hcr)
          have h2 := (hB c j hj).2 hjc
          refine ⟨fun hij => ?_, fun _ => by simp [rowAdd, h1, h2]⟩
          subst hij
          exact absurd (lt_trans hjc hcr) (lt_irrefl _)
        · simp only [rowAdd, hi, if_false]
          exact hB i j hj
      · simp only [rowAdd, ne_of_lt hcr, if_false]
        exact hB1
      · by_cases hir : i = ⟨r, hrn⟩
        · subst hir
          simp [rowAdd, hB1]
        · simp only [rowAdd, hir, if_false]
          refine hB0 i hi ?_
          have : i.1 ≠ r := fun h => hir (Fin.ext h)
          omega
      · rw [det_rowAdd _ (ne_of_lt hcr), hd]

/-- What `determinant` computes. -/
theorem detLoop_spec (M : Matrix (Fin n) (Fin n) R) :
    ∀ m c, c + m = n → ∀ {v : List E} {d : E} {x : R} {A : Matrix (Fin n) (Fin n) R},
      Grid rep L v A → rep d x → Echelon A c →
      (M.det = x * A.det ∨ M.det = -(x * A.det)) →
      (MinorsNonzero M → MinorsNonzero A ∧ M.det = x * A.det) →
      Returns mp (detLoop base n (List.range' c m) v d) fun e => ∃ y, rep e y ∧
        (y = M.det ∨ y = -M.det) ∧ (MinorsNonzero M → y = M.det) := by
  intro m
  induction m with
  | zero =>
    intro c hc v d x A hv hd he hs hm
    obtain rfl : c = n := by omega
    rw [he.det, mul_one] at hs hm
    refine ⟨x, hd, ?_, fun h => ((hm h).2).symm⟩
    rcases hs with hs | hs
    · exact Or.inl hs.symm
    · exact Or.inr (by rw [hs, neg_neg])
  | succ m ih =>
    intro c hc v d x A hv hd he hs hm
    have hcn : c < n := by omega
    rw [List.range'_succ, detLoop]
    refine Returns.bind (findRow_spec h hv ⟨c, hcn⟩) fun o ho => ?_
    cases o with
    | none =>
      have h0 : A.det = 0 := Echelon.det_zero (c := ⟨c, hcn⟩) he ho
      refine h.zero.mono fun z hz => ⟨0, hz, ?_, fun _ => ?_⟩
      · rw [h0, mul_zero, neg_zero] at hs
        exact Or.inl (by rcases hs with hs | hs <;> exact hs.symm)
      · rw [h0, mul_zero, neg_zero] at hs
        rcases hs with hs | hs <;> exact hs.symm
    | some r =>
      obtain ⟨hr, hcr, hp, hpz⟩ := ho
      have key : ∀ {u : List E} {B : Matrix (Fin n) (Fin n) R}, Grid rep L u B → Echelon B c →
          B ⟨c, hcn⟩ ⟨c, hcn⟩ ≠ 0 → (M.det = x * B.det ∨ M.det = -(x * B.det)) →
          (MinorsNonzero M → MinorsNonzero B ∧ M.det = x * B.det) →
          Returns mp (do
            let coef ← idx u (c * n + c)
            let det ← base.mulAssign d coef
            let coef ← base.inv coef
            let elem ← mulRow base n u c coef
            let elem ← detClear base n elem c
            detLoop base n (List.range' (c + 1) m) elem det) fun e => ∃ y, rep e y ∧
              (y = M.det ∨ y = -M.det) ∧ (MinorsNonzero M → y = M.det) := by
        intro u B hu hB hB0 hs hm
        refine Returns.bind (hu.idx hcn hcn) fun a ha => Returns.bind (h.mulAssign hd ha)
          fun d' hd' => Returns.bind (h.inv ha hB0) fun b hb =>
          Returns.bind (mulRow_spec h hu ⟨c, hcn⟩ hb) fun u' hu' => ?_
        have hdet := det_rowMul B ⟨c, hcn⟩ (B ⟨c, hcn⟩ ⟨c, hcn⟩)⁻¹
        refine Returns.bind (detClear_spec h hu' ⟨c, hcn⟩ (fun i j hj => ?_) ?_) ?_
        · have hjc : j < ⟨c, hcn⟩ := hj
          by_cases hi : i = ⟨c, hcn⟩
          · subst hi
            refine ⟨fun hij => absurd hjc (by rw [hij]; exact lt_irrefl _), fun _ => ?_⟩
            simp [rowMul, (hB _ j hj).2 hjc]
          · simp only [rowMul, hi, if_false]
            exact hB i j hj
        · simp [rowMul, hB0]
        · rintro u'' ⟨C, hC, hCe, hCd, hCm⟩
          have hx : x * B ⟨c, hcn⟩ ⟨c, hcn⟩ * C.det = x * B.det := by
            rw [hCd, hdet]
            field_simp
          refine ih (c + 1) (by omega) hC hd' hCe (by rw [hx]; exact hs) fun hM => ?_
          rw [hx]
          exact ⟨hCm ((hm hM).1.rowMul _ (inv_ne_zero hB0)), (hm hM).2⟩
      by_cases hrc : r = c
      · subst hrc
        simp only [ne_eq, not_true_eq_false, if_false, pure_bind']
        exact key hv he hp hs hm
      · simp only [ne_eq, hrc, not_false_eq_true, if_true]
        have hne : (⟨c, hcn⟩ : Fin n) ≠ ⟨r, hr⟩ := fun h => hrc (Fin.ext_iff.1 h).symm
        refine Returns.bind (swapRows_spec hv ⟨c, hcn⟩ ⟨r, hr⟩ hne) fun u hu => ?_
        refine key hu (fun i j hj => ?_) ?_ ?_ fun hM => ?_
        · have hjc : j < (⟨c, hcn⟩ : Fin n) := hj
          have hjr : j < (⟨r, hr⟩ : Fin n) := lt_of_lt_of_le hjc hcr
          simp only [rowSwap, Matrix.submatrix_apply, id]
          by_cases hi : i = ⟨c, hcn⟩
          · subst hi
            rw [Equiv.swap_apply_left]
            exact ⟨fun hij => absurd hjc (by rw [hij]; exact lt_irrefl _), fun _ => (he _ j hj).2 hjr⟩
          · by_cases hi' : i = ⟨r, hr⟩
            · subst hi'
              rw [Equiv.swap_apply_right]
              exact ⟨fun hij => absurd hjr (by rw [hij]; exact lt_irrefl _),
                fun _ => (he _ j hj).2 hjc⟩
            · rw [Equiv.swap_apply_of_ne_of_ne hi hi']
              exact he i j hj
        · simpa [rowSwap] using hp
        · rw [det_rowSwap A hne, mul_neg, neg_neg]
          exact hs.symm
        · have hcr' : c < r := lt_of_le_of_ne hcr (Ne.symm hrc)
          exact absurd (hpz ⟨c, hcn⟩ le_rfl hcr')
            ((hm hM).1.pivot (c := ⟨c, hcn⟩) he (show c + 1 < n by omega))

theorem determinant_spec {M : Matrix (Fin n) (Fin n) R} (hv : Grid rep L v M) :
    Returns mp (determinant base n v) fun e => ∃ y, rep e y ∧
      (y = M.det ∨ y = -M.det) ∧ (MinorsNonzero M → y = M.det) := by
  refine Returns.bind h.one fun o ho => ?_
  rw [List.range_eq_range']
  exact detLoop_spec h M n 0 (Nat.zero_add n) hv ho (fun i j hj => absurd hj (Nat.not_lt_zero _))
    (Or.inl (one_mul _).symm) fun hM => ⟨hM, (one_mul _).symm⟩

/-! ## `try_inv` -/

omit [Cfg] h in
/-- The first `c` columns are those of the identity matrix. -/
def Reduced (A : Matrix (Fin n) (Fin n) R) (c : ℕ) : Prop :=
  ∀ i j : Fin n, j.1 < c → A i j = if i = j then 1 else 0

omit [Cfg] h in
theorem Reduced.eq_one {A : Matrix (Fin n) (Fin n) R} (h : Reduced A n) : A = 1 := by
  ext i j
  rw [h i j j.2, Matrix.one_apply]

omit [Cfg] h in
theorem Reduced.det_zero {A : Matrix (Fin n) (Fin n) R} {c : Fin n} (h : Reduced A c.1)
    (h0 : ∀ i : Fin n, c ≤ i → A i c = 0) : A.det = 0 := by
  refine Echelon.det_zero (c := c) (fun i j hj => ⟨fun hij => ?_, fun hij => ?_⟩) h0
  · rw [h i j hj, if_pos hij]
  · rw [h i j hj, if_neg (ne_of_gt hij)]

theorem invClear_spec {M A B : Matrix (Fin n) (Fin n) R} {L' : ℕ} (hv : Grid rep L v A)
    (hw : Grid rep L' w B) (c : Fin n) (he : Reduced A c.1) (h1 : A c c = 1) (hAB : A = B * M)
    (hB : B.det ≠ 0) :
    Returns mp (invClear base n v w c.1) fun p => ∃ A' B' : Matrix (Fin n) (Fin n) R,
      Grid rep L p.1 A' ∧ Grid rep L' p.2 B' ∧ Reduced A' (c.1 + 1) ∧ A' = B' * M ∧ B'.det ≠ 0 := by
  unfold invClear
  refine (forLoop_range (fun r p => ∃ A' B' : Matrix (Fin n) (Fin n) R,
      Grid rep L p.1 A' ∧ Grid rep L' p.2 B' ∧ Reduced A' c.1 ∧ A' c c = 1 ∧
      (∀ i : Fin n, i ≠ c → i.1 < r → A' i c = 0) ∧ A' = B' * M ∧ B'.det ≠ 0)
    ⟨A, B, hv, hw, he, h1, fun i _ hi => absurd hi (Nat.not_lt_zero _), hAB, hB⟩ ?_).mono ?_
  · rintro r hr ⟨u, w⟩ ⟨A', B', hu, hw, he, h1, h0, hAB, hB⟩
    simp only
    by_cases hrc : r = c.1
    · rw [if_pos (by simpa using hrc)]
      refine ⟨A', B', hu, hw, he, h1, fun i hi hi' => h0 i hi ?_, hAB, hB⟩
      have : i.1 ≠ c.1 := fun h => hi (Fin.ext h)
      omega
    · rw [if_neg (by simpa using hrc)]
      have hcr : c ≠ ⟨r, hr⟩ := fun h => hrc (Fin.ext_iff.1 h).symm
      refine Returns.bind (hu.idx hr c.2) fun a ha => ?_
      refine Decides.ite (h.isZero ha) (fun hz => ?_) fun hz => ?_
      · refine ⟨A', B', hu, hw, he, h1, fun i hi hi' => ?_, hAB, hB⟩
        by_cases hir : i.1 < r
        · exact h0 i hi hir
        · obtain rfl : i = ⟨r, hr⟩ := Fin.ext (show i.1 = r by omega)
          exact hz
      · refine Returns.bind (h.neg ha) fun b hb =>
          Returns.bind (addRows_spec h hu c ⟨r, hr⟩ hcr hb) fun u' hu' =>
          Returns.bind (addRows_spec h hw c ⟨r, hr⟩ hcr hb) fun w' hw' => ?_
        refine ⟨_, _, hu', hw', fun i j hj => ?_, ?_, fun i hi hi' => ?_, ?_, ?_⟩
        · have hcj : c ≠ j := fun h => absurd hj (by rw [h]; exact lt_irrefl _)
          have h2 := he c j hj
          rw [if_neg hcj] at h2
          by_cases hi : i = ⟨r, hr⟩
          · subst hi
            simp [rowAdd, h2, he _ j hj]
          · simp only [rowAdd, hi, if_false]
            exact he i j hj
        · simp only [rowAdd, hcr, if_false]
          exact h1
        · by_cases hir : i = ⟨r, hr⟩
          · subst hir
            simp [rowAdd, h1]
          · simp only [rowAdd, hir, if_false]
            refine h0 i hi ?_
            have : i.1 ≠ r := fun h => hir (Fin.ext h)
            omega
        · rw [hAB, rowAdd_mul]
        · rw [det_rowAdd _ hcr]
          exact hB
  · rintro ⟨u, w⟩ ⟨A', B', hu, hw, he, h1, h0, hAB, hB⟩
    refine ⟨A', B', hu, hw, fun i j hj => ?_, hAB, hB⟩
    by_cases hj' : j.1 < c.1
    · exact he i j hj'
    · obtain rfl : j = c := Fin.ext (by omega)
      split
      · rename_i hij; rw [hij]; exact h1
      · rename_i hij; exact h0 i hij i.2

theorem invLoop_spec (M : Matrix (Fin n) (Fin n) R) {L' : ℕ} :
    ∀ m c, c + m = n → ∀ {v w : List E} {A B : Matrix (Fin n) (Fin n) R},
      Grid rep L v A → Grid rep L' w B → Reduced A c → A = B * M → B.det ≠ 0 →
      Returns mp (invLoop base n (List.range' c m) v w) fun
        | some p => ∃ B' : Matrix (Fin n) (Fin n) R, Grid rep L p.1 (1 : Matrix (Fin n) (Fin n) R) ∧
            Grid rep L' p.2 B' ∧ B' * M = 1
        | none => M.det = 0 := by
  intro m
  induction m with
  | zero =>
    intro c hc v w A B hv hw he hAB hB
    obtain rfl : c = n := by omega
    have h1 := he.eq_one
    exact ⟨B, h1 ▸ hv, hw, by rw [← hAB, h1]⟩
  | succ m ih =>
    intro c hc v w A B hv hw he hAB hB
    have hcn : c < n := by omega
    rw [List.range'_succ, invLoop]
    refine Returns.bind (findRow_spec h hv ⟨c, hcn⟩) fun o ho => ?_
    cases o with
    | none =>
      have h0 : A.det = 0 := Reduced.det_zero (c := ⟨c, hcn⟩) he ho
      rw [hAB, Matrix.det_mul] at h0
      exact (mul_eq_zero.1 h0).resolve_left hB
    | some r =>
      obtain ⟨hr, hcr, hp, hpz⟩ := ho
      have key : ∀ {u t : List E} {A B : Matrix (Fin n) (Fin n) R}, Grid rep L u A →
          Grid rep L' t B → Reduced A c → A ⟨c, hcn⟩ ⟨c, hcn⟩ ≠ 0 → A = B * M → B.det ≠ 0 →
          Returns mp (do
            let coef ← base.inv (← idx u (c * n + c))
            let elem ← mulRow base n u c coef
            let invs ← mulRow base n t c coef
            let (elem, invs) ← invClear base n elem invs c
            invLoop base n (List.range' (c + 1) m) elem invs) fun
              | some p => ∃ B' : Matrix (Fin n) (Fin n) R,
                  Grid rep L p.1 (1 : Matrix (Fin n) (Fin n) R) ∧ Grid rep L' p.2 B' ∧ B' * M = 1
              | none => M.det = 0 := by
        intro u t A B hu ht he hA0 hAB hB
        refine Returns.bind (hu.idx hcn hcn) fun a ha => Returns.bind (h.inv ha hA0) fun b hb =>
          Returns.bind (mulRow_spec h hu ⟨c, hcn⟩ hb) fun u' hu' =>
          Returns.bind (mulRow_spec h ht ⟨c, hcn⟩ hb) fun t' ht' => ?_
        refine Returns.bind (invClear_spec (M := M) h hu' ht' ⟨c, hcn⟩ (fun i j hj => ?_) ?_ ?_ ?_) ?_
        · by_cases hi : i = ⟨c, hcn⟩
          · have hij : i ≠ j := fun h => absurd hj (by rw [← h, hi]; exact lt_irrefl _)
            simp [rowMul, he i j hj, hij]
          · simp only [rowMul, hi, if_false]
            exact he i j hj
        · simp [rowMul, hA0]
        · rw [hAB, rowMul_mul]
        · rw [det_rowMul]
          exact mul_ne_zero (inv_ne_zero hA0) hB
        · rintro ⟨u'', t''⟩ ⟨A', B', hu'', ht'', he', hAB', hB'⟩
          exact ih (c + 1) (by omega) hu'' ht'' he' hAB' hB'
      by_cases hrc : r = c
      · subst hrc
        simp only [ne_eq, not_true_eq_false, if_false, pure_bind']
        exact (key hv hw he hp hAB hB).mono fun o ho => by cases o <;> exact ho
      · simp only [ne_eq, hrc, not_false_eq_true, if_true]
        have hne : (⟨c, hcn⟩ : Fin n) ≠ ⟨r, hr⟩ := fun h => hrc (Fin.ext_iff.1 h).symm
        refine Returns.bind (swapRows_spec hv ⟨c, hcn⟩ ⟨r, hr⟩ hne) fun u hu =>
          Returns.bind (swapRows_spec hw ⟨c, hcn⟩ ⟨r, hr⟩ hne) fun t ht => ?_
        refine (key hu ht (fun i j hj => ?_) ?_ ?_ ?_).mono fun o ho => by cases o <;> exact ho
        · have hjc : (⟨c, hcn⟩ : Fin n) ≠ j := fun h => absurd hj (by rw [← h]; exact lt_irrefl _)
          have hjr : (⟨r, hr⟩ : Fin n) ≠ j := fun h => absurd hj (by
            rw [← h]; exact Nat.not_lt.2 hcr)
          simp only [rowSwap, Matrix.submatrix_apply, id]
          by_cases hi : i = ⟨c, hcn⟩
          · subst hi
            rw [Equiv.swap_apply_left, he _ j hj, if_neg hjr, if_neg hjc]
          · by_cases hi' : i = ⟨r, hr⟩
            · subst hi'
              rw [Equiv.swap_apply_right, he _ j hj, if_neg hjr, if_neg hjc]
            · rw [Equiv.swap_apply_of_ne_of_ne hi hi']
              exact he i j hj
        · simpa [rowSwap] using hp
        · rw [hAB, rowSwap_mul]
        · rw [det_rowSwap B hne]
          exact neg_ne_zero.2 hB

theorem tryInv_spec {M : Matrix (Fin n) (Fin n) R} (hv : MatRep rep v M) :
    Returns mp (tryInv base n v) fun
      | some w => ∃ N : Matrix (Fin n) (Fin n) R, MatRep rep w N ∧ M * N = 1 ∧ N * M = 1
      | none => ¬ IsUnit M := by
  unfold tryInv
  refine Returns.bind (one_spec (n := n) h) fun o ho => ?_
  rw [List.range_eq_range']
  refine Returns.bind (invLoop_spec h M n 0 (Nat.zero_add n) hv.grid ho.grid
    (fun i j hj => absurd hj (Nat.not_lt_zero _)) (one_mul M).symm (by simp)) fun o ho => ?_
  cases o with
  | some p =>
    obtain ⟨u, w⟩ := p
    obtain ⟨N, hu, hw, hN⟩ := ho
    refine Returns.bind (P := fun _ => True) ?_ fun _ _ =>
      ⟨N, hw.matRep, mul_eq_one_comm.1 hN, hN⟩
    unfold debugAssert
    split
    · refine Returns.rbind (isOne_spec h hu.matRep) fun b hb => ?_
      rw [hb.2 rfl]
      trivial
    · trivial
  | none =>
    show ¬ IsUnit M
    rw [Matrix.isUnit_iff_isUnit_det, show M.det = 0 from ho]
    exact not_isUnit_zero

theorem invertible_spec {M : Matrix (Fin n) (Fin n) R} (hv : Grid rep L v M) :
    Decides mp ((ops base n).invertible v) (IsUnit M) := by
  refine Returns.bind (determinant_spec h hv) ?_
  rintro d ⟨y, hd, hy, -⟩
  refine (Decides.not (h.isZero hd)).iff ?_
  rw [Matrix.isUnit_iff_isUnit_det, isUnit_iff_ne_zero]
  rcases hy with rfl | rfl
  · rfl
  · rw [neg_eq_zero]

theorem spec : UnitaryRingSpec mp (ops base n) (MatRep (n := n) rep) := by
  have hg := group_spec (n := n) h
  have hmul : ∀ {a b : List E} {M N : Matrix (Fin n) (Fin n) R}, MatRep rep a M → MatRep rep b N →
      Returns mp ((ops base n).mul a b) (MatRep rep · (M * N)) := fun ha hb => mul_spec h ha hb
  exact
  { toDomainSpec := domain_spec h
    zero := hg.zero
    isZero := hg.isZero
    add := hg.add
    addAssign := hg.addAssign
    double := hg.double
    utimes := fun k {a M} ha => by
      have := utimes_default (rep := MatRep (n := n) rep) hg.zero hg.addAssign hg.double k ha
      exact this
    neg := hg.neg
    negAssign := hg.negAssign
    sub := hg.sub
    subAssign := hg.subAssign
    times := fun k hk {a M} ha => by
      have := times_default (rep := MatRep (n := n) rep) hg.zero hg.addAssign hg.double hg.neg k hk ha
      exact this
    mul := hmul
    mulAssign := hmul
    square := fun ha => hmul ha ha
    one := one_spec h
    isOne := fun ha => isOne_spec h ha
    tryInv := fun ha => (tryInv_spec h ha).mono fun o ho => by cases o <;> exact ho
    invertible := fun ha => invertible_spec h ha.grid
    int := fun k hk => int_spec h k hk }

end Abstalg.MatrixRing

namespace Abstalg.MatrixRing

/-! ## The sign of the determinant -/

section sign

variable {R : Type u} [Field R] {n : ℕ} [Cfg] {E : Type} {rep : E → R → Prop} {v : List E} {L : ℕ}
  {base : FieldOps E} (h : FieldSpec False base rep)

include h

/-- If the pivot of the first column is not in the first row and no further exchange is needed then
the result has the wrong sign. -/
theorem determinant_swap {M : Matrix (Fin n) (Fin n) R} (hv : Grid rep L v M) {r c : Fin n}
    (hc : c.1 = 0) (hr : r ≠ c) (hp : M r c ≠ 0) (hz : ∀ i : Fin n, i < r → M i c = 0)
    (hm : MinorsNonzero (rowSwap M c r)) :
    Returns False (determinant base n v) (rep · (-M.det)) := by
  obtain ⟨m, rfl⟩ : ∃ m, n = m + 1 := ⟨n - 1, by have := c.2; omega⟩
  obtain rfl : c = 0 := Fin.ext hc
  obtain ⟨u, hu1, hu⟩ := returns_false_iff.1 (swapRows_spec (mp := False) hv 0 r (Ne.symm hr))
  obtain ⟨o, ho1, ho⟩ := returns_false_iff.1 (findRow_spec h hv 0)
  obtain ⟨o', ho1', ho'⟩ := returns_false_iff.1 (findRow_spec h hu 0)
  have e1 : o = some r.1 := by
    cases o with
    | none => exact absurd (ho r (Nat.zero_le _)) hp
    | some q =>
      obtain ⟨hq, -, h1, h2⟩ := ho
      rcases lt_trichotomy q r.1 with hlt | heq | hgt
      · exact absurd (hz ⟨q, hq⟩ hlt) h1
      · rw [heq]
      · exact absurd (h2 r (Nat.zero_le _) hgt) hp
  have e2 : o' = some 0 := by
    have h0 : rowSwap M 0 r 0 0 ≠ 0 := by simpa [rowSwap] using hp
    cases o' with
    | none => exact absurd (ho' 0 le_rfl) h0
    | some q =>
      obtain ⟨hq, -, h1, h2⟩ := ho'
      by_cases hq0 : q = 0
      · rw [hq0]
      · exact absurd (h2 0 le_rfl (Nat.pos_of_ne_zero hq0)) h0
  have key : determinant base (m + 1) v = determinant base (m + 1) u := by
    have hr0 : r.1 ≠ 0 := fun h => hr (Fin.ext h)
    have hv0 : (0 : Fin (m + 1)).1 = 0 := rfl
    unfold determinant
    refine congrArg _ (funext fun d => ?_)
    rw [List.range_eq_range', List.range'_succ, detLoop, detLoop]
    rw [hv0] at ho1 ho1' hu1
    rw [ho1, ho1', e1, e2]
    simp only [ok_bind, hr0, ne_eq, not_false_eq_true, if_true, not_true_eq_false, if_false, hu1]
    rfl
  rw [key]
  refine (determinant_spec h hu).mono ?_
  rintro e ⟨y, he, -, hy⟩
  rw [hy hm, det_rowSwap M (Ne.symm hr)] at he
  exact he

end sign

/-! ## Surplus entries -/

section surplus

variable [Cfg] {E : Type} {n : ℕ} (s : List E)

/-- The computation on `v ++ s` is that on `v`, with `s` appended to the result; the length is
kept. -/
def Appends (s : List E) (N : ℕ) (c c' : Res (List E)) : Prop :=
  c' = (c.bind fun u => .ok (u ++ s)) ∧ ∀ u, c = .ok u → u.length = N

theorem idx_append {v : List E} {i : ℕ} (hi : i < v.length) : idx (v ++ s) i = idx v i := by
  simp only [idx, List.getElem?_append_left hi]

theorem setIdx_append {v : List E} {i : ℕ} (hi : i < v.length) (a : E) :
    Appends s v.length (setIdx v i a) (setIdx (v ++ s) i a) := by
  unfold setIdx
  rw [if_pos hi, if_pos (by rw [List.length_append]; omega)]
  refine ⟨by rw [List.set_append_left _ _ hi]; rfl, fun u hu => ?_⟩
  injection hu with hu
  rw [← hu, List.length_set]

theorem Appends.refl (v : List E) : Appends s v.length (.ok v) (.ok (v ++ s)) :=
  ⟨rfl, fun u hu => by injection hu with hu; rw [hu]⟩

theorem Appends.rbind {N : ℕ} {c c' : Res (List E)} {f f' : List E → Res (List E)}
    (h : Appends s N c c') (hf : ∀ u, u.length = N → Appends s N (f u) (f' (u ++ s))) :
    Appends s N (c.bind f) (c'.bind f') := by
  obtain ⟨rfl, h⟩ := h
  cases c with
  | ok u => exact hf u (h u rfl)
  | panic => exact ⟨rfl, nofun⟩
  | diverge => exact ⟨rfl, nofun⟩

/-- Binding a value that does not depend on the surplus. -/
theorem Appends.const {α : Type} {N : ℕ} {c : Res α} {f f' : α → Res (List E)}
    (hf : ∀ a, Appends s N (f a) (f' a)) : Appends s N (c >>= f) (c >>= f') := by
  cases c with
  | ok u => exact hf u
  | panic => exact ⟨rfl, nofun⟩
  | diverge => exact ⟨rfl, nofun⟩

theorem Appends.forLoop {N : ℕ} {ι : Type} {body body' : List E → ι → Res (List E)} {l : List ι}
    (hb : ∀ i ∈ l, ∀ u, u.length = N → Appends s N (body u i) (body' (u ++ s) i)) :
    ∀ {v : List E}, v.length = N → Appends s N (forLoop l v body) (forLoop l (v ++ s) body') := by
  induction l with
  | nil => rintro v rfl; exact Appends.refl s v
  | cons i l ih =>
    intro v hv
    exact Appends.rbind s (hb i List.mem_cons_self v hv) fun u hu =>
      ih (fun j hj => hb j (List.mem_cons_of_mem _ hj)) hu

variable {base : FieldOps E}

theorem addRows_append {v : List E} (hv : v.length = n * n) {r q : ℕ} (hr : r < n) (hq : q < n)
    (c : E) : Appends s (n * n) (addRows base n v r q c) (addRows base n (v ++ s) r q c) := by
  unfold addRows
  refine Appends.forLoop s (fun col hcol u hu => ?_) hv
  have hcol : col < n := List.mem_range.1 hcol
  have h1 : r * n + col < u.length := hu.symm ▸ flat_lt hr hcol
  have h2 : q * n + col < u.length := hu.symm ▸ flat_lt hq hcol
  rw [idx_append s h1, idx_append s h2]
  refine Appends.const s fun _ => Appends.const s fun _ => Appends.const s fun _ =>
    Appends.const s fun a => ?_
  rw [← hu]
  exact setIdx_append s h2 a

theorem mulRow_append {v : List E} (hv : v.length = n * n) {r : ℕ} (hr : r < n) (c : E) :
    Appends s (n * n) (mulRow base n v r c) (mulRow base n (v ++ s) r c) := by
  unfold mulRow
  have hle : r * n + n ≤ n * n := by
    have : (r + 1) * n ≤ n * n := Nat.mul_le_mul_right n hr
    rwa [Nat.add_mul, Nat.one_mul] at this
  have h1 : r * n + n ≤ v.length := by omega
  have h2 : r * n + n ≤ (v ++ s).length := by rw [List.length_append]; omega
  simp only [h1, h2, decide_true, assert_true, ok_bind]
  refine Appends.forLoop s (fun col hcol u hu => ?_) hv
  have hcol : col < n := List.mem_range.1 hcol
  have h1 : r * n + col < u.length := hu.symm ▸ flat_lt hr hcol
  rw [idx_append s h1]
  refine Appends.const s fun _ => Appends.const s fun a => ?_
  rw [← hu]
  exact setIdx_append s h1 a

theorem swapRows_append {v : List E} (hv : v.length = n * n) {r q : ℕ} (hr : r < n) (hq : q < n) :
    Appends s (n * n) (swapRows n v r q) (swapRows n (v ++ s) r q) := by
  unfold swapRows
  refine Appends.forLoop s (fun col hcol u hu => ?_) hv
  have hcol : col < n := List.mem_range.1 hcol
  have h1 : r * n + col < u.length := hu.symm ▸ flat_lt hr hcol
  have h2 : q * n + col < u.length := hu.symm ▸ flat_lt hq hcol
  unfold swapIdx
  rw [idx_append s h1, idx_append s h2]
  refine Appends.const s fun a => Appends.const s fun b => ?_
  rw [← hu]
  refine Appends.rbind s (setIdx_append s h1 b) fun w hw => ?_
  rw [← hw]
  exact setIdx_append s (by omega) a

theorem detClear_append {v : List E} (hv : v.length = n * n) {c : ℕ} (hc : c < n) :
    Appends s (n * n) (detClear base n v c) (detClear base n (v ++ s) c) := by
  unfold detClear
  refine Appends.forLoop s (fun row hrow u hu => ?_) hv
  have hrow : row < n := by
    obtain ⟨i, hi, rfl⟩ := List.mem_range'.1 hrow
    omega
  rw [idx_append s (hu.symm ▸ flat_lt hrow hc)]
  refine Appends.const s fun a => Appends.const s fun b => ?_
  cases b with
  | true => exact hu ▸ Appends.refl s u
  | false => exact Appends.const s fun _ => addRows_append s hu hc hrow _

theorem findRow_append {v : List E} (hv : v.length = n * n) {c : ℕ} (hc : c < n) :
    findRow base n (v ++ s) c = findRow base n v c := by
  unfold findRow
  have : ∀ l : List ℕ, (∀ i ∈ l, i < n) →
      findRes (fun row => do return !(← base.isZero (← idx (v ++ s) (row * n + c)))) l =
      findRes (fun row => do return !(← base.isZero (← idx v (row * n + c)))) l := by
    intro l
    induction l with
    | nil => exact fun _ => rfl
    | cons i l ih =>
      intro h
      rw [findRes, findRes, ih fun j hj => h j (List.mem_cons_of_mem _ hj),
        idx_append s (hv.symm ▸ flat_lt (h i List.mem_cons_self) hc)]
  refine this _ fun i hi => ?_
  obtain ⟨j, hj, rfl⟩ := List.mem_range'.1 hi
  omega

theorem findRes_mem {α : Type} {p : α → Res Bool} {l : List α} {a : α}
    (h : findRes p l = .ok (some a)) : a ∈ l := by
  induction l with
  | nil => cases h
  | cons b l ih =>
    rw [findRes] at h
    cases hb : p b with
    | ok t =>
      rw [hb, res_bind_ok] at h
      cases t with
      | true =>
        simp only [if_true, Res.ok.injEq, Option.some.injEq] at h
        rw [h]; exact List.mem_cons_self
      | false => exact List.mem_cons_of_mem _ (ih (by simpa using h))
    | panic => rw [hb] at h; cases h
    | diverge => rw [hb] at h; cases h

theorem detLoop_append (l : List ℕ) (hl : ∀ i ∈ l, i < n) : ∀ {v : List E}, v.length = n * n →
    ∀ d : E, detLoop base n l (v ++ s) d = detLoop base n l v d := by
  induction l with
  | nil => exact fun _ _ => rfl
  | cons c l ih =>
    intro v hv d
    have hc := hl c List.mem_cons_self
    rw [detLoop, detLoop, findRow_append s hv hc]
    cases hf : findRow base n v c with
    | panic => rfl
    | diverge => rfl
    | ok o =>
      cases o with
      | none => rfl
      | some r =>
        have hr : r < n := by
          obtain ⟨j, hj, rfl⟩ := List.mem_range'.1 (findRes_mem hf)
          omega
        have key : ∀ u : List E, u.length = n * n → (do
            let coef ← idx (u ++ s) (c * n + c)
            let det ← base.mulAssign d coef
            let coef ← base.inv coef
            let elem ← mulRow base n (u ++ s) c coef
            let elem ← detClear base n elem c
            detLoop base n l elem det) = (do
            let coef ← idx u (c * n + c)
            let det ← base.mulAssign d coef
            let coef ← base.inv coef
            let elem ← mulRow base n u c coef
            let elem ← detClear base n elem c
            detLoop base n l elem det) := by
          intro u hu
          rw [idx_append s (hu.symm ▸ flat_lt hc hc)]
          refine congrArg _ (funext fun a => congrArg _ (funext fun e => congrArg _ (funext
            fun b => ?_)))
          obtain ⟨h1, h2⟩ := mulRow_append s (base := base) hu hc b
          rw [h1]
          cases hm : mulRow base n u c b with
          | panic => rfl
          | diverge => rfl
          | ok w =>
            have hw := h2 w hm
            obtain ⟨h3, h4⟩ := detClear_append s (base := base) hw hc
            rw [res_bind_ok, ok_bind, ok_bind, h3]
            cases hd : detClear base n w c with
            | panic => rfl
            | diverge => rfl
            | ok t => exact ih (fun i hi => hl i (List.mem_cons_of_mem _ hi)) (h4 t hd) e
        rw [ok_bind, ok_bind]
        by_cases hrc : r = c
        · simp only [hrc, ne_eq, not_true_eq_false, if_false, pure_bind']
          exact key v hv
        · simp only [hrc, ne_eq, not_false_eq_true, if_true]
          obtain ⟨h1, h2⟩ := swapRows_append s hv hc hr
          rw [h1]
          cases hs : swapRows n v c r with
          | panic => rfl
          | diverge => rfl
          | ok u => exact key u (h2 u hs)

theorem determinant_append {v : List E} (hv : v.length = n * n) :
    determinant base n (v ++ s) = determinant base n v := by
  unfold determinant
  exact congrArg _ (funext fun d => detLoop_append s _ (fun i hi => List.mem_range.1 hi) hv d)

end surplus

end Abstalg.MatrixRing
