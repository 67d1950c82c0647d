import Verif.Proofs.MatrixElim

/-! # The sign of the result of `determinant` -/

set_option linter.unusedSectionVars false

set_option autoImplicit false

universe u

namespace Abstalg.MatrixRing

variable {R : Type u} [Field R] {n : ℕ}

/-- The state of the elimination after `c` columns: `A` is `M` multiplied by a lower triangular
matrix which differs from the identity in the first `c` columns only, with diagonal product the
inverse of `x`. -/
def Eliminated (M A : Matrix (Fin n) (Fin n) R) (c : ℕ) (hc : c ≤ n) (x : R) : Prop :=
  ∃ L : Matrix (Fin n) (Fin n) R, A = L * M ∧ (∀ i j, i < j → L i j = 0) ∧
    (∀ i j : Fin n, c ≤ j.1 → L i j = if i = j then 1 else 0) ∧
    x * ∏ i : Fin c, L (Fin.castLE hc i) (Fin.castLE hc i) = 1

/-- A row of the elimination matrix depends on the rows of `M` in the bordered minor only. -/
theorem borderedMinor_mul {L M : Matrix (Fin n) (Fin n) R} {c r : Fin n} (hcr : c ≤ r)
    (hc : ∀ i j : Fin n, c.1 ≤ j.1 → L i j = if i = j then 1 else 0) (hl : ∀ i j, i < j → L i j = 0) :
    borderedMinor (L * M) c r =
      (∏ i : Fin c.1, L (Fin.castLE c.2.le i) (Fin.castLE c.2.le i)) * borderedMinor M c r := by
  set f : Fin (c.1 + 1) → Fin n := fun i => if i.1 < c.1 then ⟨i.1, by omega⟩ else r with hf
  have f_lt : ∀ i : Fin (c.1 + 1), i.1 < c.1 → (f i).1 = i.1 := fun i hi => by simp [hf, hi]
  have f_last : ∀ i : Fin (c.1 + 1), ¬ i.1 < c.1 → f i = r := fun i hi => by simp [hf, hi]
  have finj : Function.Injective f := by
    intro i j hij
    have hcr' : c.1 ≤ r.1 := hcr
    have h1 := congrArg Fin.val hij
    by_cases hi : i.1 < c.1 <;> by_cases hj : j.1 < c.1
    · rw [f_lt i hi, f_lt j hj] at h1; exact Fin.ext h1
    · rw [f_lt i hi, f_last j hj] at h1; omega
    · rw [f_last i hi, f_lt j hj] at h1; omega
    · exact Fin.ext (by omega)
  have key : (L * M).submatrix f (Fin.castLE (by omega) : Fin (c.1 + 1) → Fin n) =
      L.submatrix f f * M.submatrix f (Fin.castLE (by omega)) := by
    ext i j
    simp only [Matrix.submatrix_apply, Matrix.mul_apply]
    refine (Finset.sum_of_injOn f (finj.injOn) (fun _ _ => Finset.mem_coe.2 (Finset.mem_univ _))
      (fun k _ hk => ?_) fun k _ => rfl).symm
    have hkc : c.1 ≤ k.1 := by
      by_contra hlt
      refine hk ⟨⟨k.1, by omega⟩, by simp, Fin.ext ?_⟩
      rw [f_lt _ (by simp; omega)]
    rw [hc _ _ hkc, if_neg, zero_mul]
    rintro rfl
    exact hk ⟨i, by simp, rfl⟩
  have hdet : (L.submatrix f f).det =
      ∏ i : Fin c.1, L (Fin.castLE c.2.le i) (Fin.castLE c.2.le i) := by
    rw [Matrix.det_of_isLowerTriangular, Fin.prod_univ_castSucc]
    · have hl' : f (Fin.last c.1) = r := f_last _ (by simp)
      simp only [Matrix.submatrix_apply, hl']
      rw [hc r r hcr, if_pos rfl, mul_one]
      refine Finset.prod_congr rfl fun i _ => ?_
      have : f i.castSucc = Fin.castLE c.2.le i := Fin.ext (f_lt _ (by simp))
      rw [this]
    · intro i j hij
      have hij' : i.1 < j.1 := hij
      refine hl _ _ ?_
      have hi : i.1 < c.1 := by omega
      by_cases hj : j.1 < c.1
      · show (f i).1 < (f j).1
        rw [f_lt i hi, f_lt j hj]; exact hij'
      · rw [f_last j hj]
        show (f i).1 < r.1
        rw [f_lt i hi]; exact lt_of_lt_of_le hi hcr
  show ((L * M).submatrix f _).det = _
  rw [key, Matrix.det_mul, hdet]
  rfl

/-- In a matrix with its first `c` columns done the bordered minors are the entries. -/
theorem Echelon.borderedMinor {A : Matrix (Fin n) (Fin n) R} {c r : Fin n} (h : Echelon A c.1)
    (hcr : c ≤ r) : borderedMinor A c r = A r c := by
  unfold Abstalg.borderedMinor
  rw [Matrix.det_of_isUpperTriangular, Fin.prod_univ_castSucc]
  · rw [Finset.prod_eq_one, one_mul]
    · simp
      rfl
    · intro i _
      simp only [Matrix.submatrix_apply, Fin.val_castSucc, i.2, if_true]
      exact (h _ _ (by simp)).1 (Fin.ext rfl)
  · intro i j hij
    have hij' : j.1 < i.1 := hij
    simp only [Matrix.submatrix_apply]
    refine (h _ _ (show j.1 < c.1 by omega)).2 ?_
    split
    · exact hij'
    · exact lt_of_lt_of_le (show j.1 < c.1 by omega) hcr

theorem Eliminated.pivot {M A : Matrix (Fin n) (Fin n) R} {c r : Fin n} {x : R}
    (h : Eliminated M A c.1 c.2.le x) (he : Echelon A c.1) (hcr : c ≤ r) :
    borderedMinor M c r = x * A r c := by
  obtain ⟨L, rfl, hl, hc, hx⟩ := h
  rw [← he.borderedMinor hcr, borderedMinor_mul hcr hc hl, ← mul_assoc, hx, one_mul]

theorem Eliminated.swap {M A : Matrix (Fin n) (Fin n) R} {c r : Fin n} {x : R}
    (h : Eliminated M A c.1 c.2.le x) (hcr : c ≤ r) :
    Eliminated (rowSwap M c r) (rowSwap A c r) c.1 c.2.le x := by
  obtain ⟨L, rfl, hl, hc, hx⟩ := h
  have hcr' : c.1 ≤ r.1 := hcr
  have hs : ∀ i : Fin n, i.1 < c.1 → Equiv.swap c r i = i := fun i hi =>
    Equiv.swap_apply_of_ne_of_ne (fun h => by rw [h] at hi; omega) (fun h => by rw [h] at hi; omega)
  have hs' : ∀ i : Fin n, c.1 ≤ i.1 → c.1 ≤ (Equiv.swap c r i).1 := fun i hi => by
    rw [Equiv.swap_apply_def]; split
    · exact hcr'
    · split
      · exact le_rfl
      · exact hi
  refine ⟨L.submatrix (Equiv.swap c r) (Equiv.swap c r), ?_, fun i j hij => ?_, fun i j hj => ?_, ?_⟩
  · ext i j
    simp only [rowSwap, Matrix.submatrix_apply, Matrix.mul_apply, id]
    exact (Equiv.sum_comp (Equiv.swap c r) fun k => L (Equiv.swap c r i) k * M k j).symm
  · simp only [Matrix.submatrix_apply]
    by_cases hj : j.1 < c.1
    · rw [hs i (lt_trans hij hj), hs j hj]; exact hl i j hij
    · rw [hc _ _ (hs' j (by omega)), if_neg]
      exact fun h => absurd ((Equiv.swap c r).injective h) (ne_of_lt hij)
  · simp only [Matrix.submatrix_apply]
    rw [hc _ _ (hs' j hj)]
    simp only [(Equiv.swap c r).injective.eq_iff]
  · rw [← hx]
    congr 1
    refine Finset.prod_congr rfl fun i _ => ?_
    simp only [Matrix.submatrix_apply]
    rw [hs _ (show (Fin.castLE c.2.le i).1 < c.1 from i.2)]

/-- A matrix that adds multiples of row `c` to later rows. -/
def Clearing (T : Matrix (Fin n) (Fin n) R) (c : Fin n) : Prop :=
  ∀ i j, T i j ≠ (if i = j then 1 else 0) → j = c ∧ c < i

theorem Eliminated.step {M A B T : Matrix (Fin n) (Fin n) R} {c : Fin n} {x a : R}
    (h : Eliminated M A c.1 c.2.le x) (ha : a ≠ 0) (hT : Clearing T c)
    (hB : B = T * rowMul A c a⁻¹) : Eliminated M B (c.1 + 1) c.2 (x * a) := by
  obtain ⟨L, rfl, hl, hc, hx⟩ := h
  have hT1 : ∀ i k j : Fin n, k ≠ i → k ≠ c → T i k * rowMul L c a⁻¹ k j = 0 := fun i k j hk hkc => by
    have : T i k = 0 := by
      by_contra hne
      exact hkc (hT i k (by rw [if_neg (Ne.symm hk)]; exact hne)).1
    rw [this, zero_mul]
  have hTd : ∀ i : Fin n, T i i = 1 := fun i => by
    by_contra hne
    obtain ⟨h1, h2⟩ := hT i i (by rw [if_pos rfl]; exact hne)
    exact absurd h2 (by rw [h1]; exact lt_irrefl _)
  have hTc : ∀ i : Fin n, i < c → T i c = 0 := fun i hi => by
    by_contra hne
    exact absurd (hT i c (by rw [if_neg (ne_of_lt hi)]; exact hne)).2 (not_lt.2 hi.le)
  -- the entries of the product
  have hent : ∀ i j : Fin n, (T * rowMul L c a⁻¹) i j =
      if i = c then L c j * a⁻¹ else L i j + T i c * (L c j * a⁻¹) := by
    intro i j
    rw [Matrix.mul_apply]
    split
    · rename_i hi
      subst hi
      rw [Finset.sum_eq_single i (fun k _ hk => hT1 i k j hk hk) (by simp), hTd, one_mul]
      simp [rowMul]
    · rename_i hi
      rw [Finset.sum_eq_add i c hi (fun k _ hk => hT1 i k j hk.1 hk.2) (by simp) (by simp), hTd,
        one_mul]
      simp [rowMul, hi]
  refine ⟨T * rowMul L c a⁻¹, ?_, fun i j hij => ?_, fun i j hj => ?_, ?_⟩
  · rw [hB, rowMul_mul, Matrix.mul_assoc]
  · rw [hent]
    split
    · rename_i hi
      rw [← hi, hl i j hij, zero_mul]
    · rw [hl i j hij, zero_add]
      by_cases hic : i < c
      · rw [hTc i hic, zero_mul]
      · rw [hl c j (lt_of_le_of_lt (not_lt.1 hic) hij), zero_mul, mul_zero]
  · have hcj : L c j = 0 := by
      rw [hc c j (by omega), if_neg]
      rintro rfl
      omega
    rw [hent, hcj, zero_mul, mul_zero, add_zero, hc i j (by omega)]
    split
    · rename_i hi
      rw [if_neg]
      rintro rfl
      rw [hi] at hj; omega
    · rfl
  · rw [Fin.prod_univ_castSucc]
    have h1 : (T * rowMul L c a⁻¹) c c = a⁻¹ := by
      rw [hent, if_pos rfl, hc c c le_rfl, if_pos rfl, one_mul]
    have h2 : Fin.castLE c.2 (Fin.last c.1) = c := Fin.ext rfl
    rw [h2, h1]
    have h3 : ∀ i : Fin c.1, (T * rowMul L c a⁻¹) (Fin.castLE c.2 i.castSucc)
        (Fin.castLE c.2 i.castSucc) = L (Fin.castLE c.2.le i) (Fin.castLE c.2.le i) := fun i => by
      have h4 : Fin.castLE c.2 i.castSucc = Fin.castLE c.2.le i := Fin.ext rfl
      have h5 : Fin.castLE c.2.le i < c := i.2
      rw [h4, hent, if_neg (ne_of_lt h5), hTc _ h5, zero_mul, add_zero]
    rw [Finset.prod_congr rfl fun i _ => h3 i]
    calc x * a * ((∏ i : Fin c.1, L (Fin.castLE c.2.le i) (Fin.castLE c.2.le i)) * a⁻¹)
        = x * (∏ i : Fin c.1, L (Fin.castLE c.2.le i) (Fin.castLE c.2.le i)) * (a * a⁻¹) := by ring
      _ = 1 := by rw [hx, mul_inv_cancel₀ ha, one_mul]

/-- The pivots are determined by the matrix. -/
theorem PivotOrder.unique {M : Matrix (Fin n) (Fin n) R} {k : ℕ} {σ τ : Equiv.Perm (Fin n)}
    (h : PivotOrder M k σ) (h' : PivotOrder M k τ) : σ = τ := by
  induction h generalizing τ with
  | start => cases h'; rfl
  | @step c r σ h hcr hr hmin ih =>
    generalize hk : c.1 + 1 = k at h'
    cases h' with
    | start => omega
    | @step c' r' τ h' hcr' hr' hmin' =>
      obtain rfl : c = c' := Fin.ext (by omega)
      obtain rfl := ih h'
      have : r = r' := by
        rcases lt_trichotomy r r' with hlt | heq | hgt
        · exact absurd (hmin' r hcr hlt) hr
        · exact heq
        · exact absurd (hmin r' hcr' hgt) hr'
      rw [this]

variable [Cfg] {E : Type} {mp : Prop} {rep : E → R → Prop} {v w : List E} {L : ℕ}
  {base : FieldOps E} (h : FieldSpec mp base rep)

include h

theorem detClear_clearing {A : Matrix (Fin n) (Fin n) R} (hv : Grid rep L v A) (c : Fin n)
    (he : Echelon A c.1) (h1 : A c c = 1) :
    Returns mp (detClear base n v c.1) fun u => ∃ B T : Matrix (Fin n) (Fin n) R,
      Grid rep L u B ∧ Echelon B (c.1 + 1) ∧ B = T * A ∧ Clearing T c := by
  unfold detClear
  have := forLoop_range' (mp := mp) (fun r u => ∃ B T : Matrix (Fin n) (Fin n) R,
      Grid rep L u B ∧ Echelon B c.1 ∧ B c c = 1 ∧ (∀ i : Fin n, c < i → i.1 < r → B i c = 0) ∧
      B = T * A ∧ Clearing T c)
    (fun elem row => do
      let coef ← idx elem (row * n + c.1)
      if ← base.isZero coef then return elem
      else
        let coef ← base.neg coef
        addRows base n elem c.1 row coef) (n - (c.1 + 1)) (c.1 + 1) (s := v)
    ⟨A, 1, hv, he, h1, fun i hi hi' => absurd hi (Nat.not_lt.2 (Nat.lt_succ_iff.1 hi')),
      (one_mul A).symm, fun i j hij => absurd (Matrix.one_apply) hij⟩ ?_
  · refine this.mono ?_
    rintro u ⟨B, T, hu, hB, hB1, hB0, hd, hm⟩
    refine ⟨B, T, hu, fun i j hj => ?_, hd, hm⟩
    by_cases hj' : j.1 < c.1
    · exact hB i j hj'
    · obtain rfl : j = c := Fin.ext (by omega)
      refine ⟨fun hij => by rw [hij]; exact hB1, fun hij => hB0 i hij ?_⟩
      have := i.2
      omega
  · rintro r hr hr' u ⟨B, T, hu, hB, hB1, hB0, hd, hm⟩
    have hrn : r < n := by omega
    refine Returns.bind (hu.idx hrn c.2) fun a ha => ?_
    refine Decides.ite (h.isZero ha) (fun hz => ?_) fun hz => ?_
    · refine ⟨B, T, hu, hB, hB1, fun i hi hi' => ?_, hd, hm⟩
      by_cases hir : i.1 < r
      · exact hB0 i hi hir
      · obtain rfl : i = ⟨r, hrn⟩ := Fin.ext (show i.1 = r by omega)
        exact hz
    · refine Returns.bind (h.neg ha) fun b hb => ?_
      have hcr : c < ⟨r, hrn⟩ := show c.1 < r by omega
      refine (addRows_spec h hu c ⟨r, hrn⟩ (ne_of_lt hcr) hb).mono fun u' hu' => ?_
      refine ⟨_, rowAdd T c ⟨r, hrn⟩ (-B ⟨r, hrn⟩ c), hu', fun i j hj => ?_, ?_, fun i hi hi' => ?_,
        ?_, fun i j hij => ?_⟩
      · by_cases hi : i = ⟨r, hrn⟩
        · subst hi
          have hjc : j < c := hj
          have h1 := (hB ⟨r, hrn⟩ j hj).2 (lt_trans hjc hcr)
          have h2 := (hB c j hj).2 hjc
          refine ⟨fun hij => ?_, fun _ => by simp [rowAdd, h1, h2]⟩
          subst hij
          exact absurd (lt_trans hjc hcr) (lt_irrefl _)
        · simp only [rowAdd, hi, if_false]
          exact hB i j hj
      · simp only [rowAdd, ne_of_lt hcr, if_false]
        exact hB1
      · by_cases hir : i = ⟨r, hrn⟩
        · subst hir
          simp [rowAdd, hB1]
        · simp only [rowAdd, hir, if_false]
          refine hB0 i hi ?_
          have : i.1 ≠ r := fun h => hir (Fin.ext h)
          omega
      · rw [← rowAdd_mul, ← hd]
      · by_cases hir : i = ⟨r, hrn⟩
        · subst hir
          simp only [rowAdd, if_true] at hij
          have hTc : T c j = if c = j then 1 else 0 := by
            by_contra hne
            exact absurd (hm c j hne).2 (lt_irrefl _)
          by_cases hjc : j = c
          · exact ⟨hjc, hcr⟩
          · rw [hTc, if_neg (Ne.symm hjc), zero_mul, add_zero] at hij
            exact hm _ j hij
        · simp only [rowAdd, hir, if_false] at hij
          exact hm i j hij

/-- What `determinant` computes, with the sign. -/
theorem detLoop_sign (M : Matrix (Fin n) (Fin n) R) :
    ∀ m c (hc : c + m = n), ∀ {v : List E} {d : E} {x : R} {A : Matrix (Fin n) (Fin n) R}
      {σ : Equiv.Perm (Fin n)},
      Grid rep L v A → rep d x → Echelon A c → x ≠ 0 → PivotOrder M c σ →
      Eliminated (M.submatrix σ id) A c (by omega) x →
      (M.submatrix σ id).det = x * A.det →
      Returns mp (detLoop base n (List.range' c m) v d) fun e => M.det = 0 ∧ rep e 0 ∨
        ∃ σ, PivotOrder M n σ ∧ rep e (Equiv.Perm.sign σ * M.det) := by
  intro m
  induction m with
  | zero =>
    intro c hc v d x A σ hv hd he hx0 hσ hL hs
    obtain rfl : c = n := by omega
    rw [he.det, mul_one, Matrix.det_permute] at hs
    refine Or.inr ⟨σ, hσ, ?_⟩
    rw [hs]
    exact hd
  | succ m ih =>
    intro c hc v d x A σ hv hd he hx0 hσ hL hs
    have hcn : c < n := by omega
    rw [List.range'_succ, detLoop]
    refine Returns.bind (findRow_spec h hv ⟨c, hcn⟩) fun o ho => ?_
    cases o with
    | none =>
      have h0 : A.det = 0 := Echelon.det_zero (c := ⟨c, hcn⟩) he ho
      rw [h0, mul_zero, Matrix.det_permute] at hs
      refine h.zero.mono fun z hz => Or.inl ⟨?_, hz⟩
      rcases Int.units_eq_one_or (Equiv.Perm.sign σ) with h1 | h1 <;> rw [h1] at hs <;> simpa using hs
    | some r =>
      obtain ⟨hr, hcr, hp, hpz⟩ := ho
      have hσ' : PivotOrder M (c + 1) (σ * Equiv.swap ⟨c, hcn⟩ ⟨r, hr⟩) :=
        PivotOrder.step (c := ⟨c, hcn⟩) (r := ⟨r, hr⟩) hσ hcr
          (by rw [Eliminated.pivot (c := ⟨c, hcn⟩) hL he hcr]; exact mul_ne_zero hx0 hp)
          (fun i hci hir => by
            rw [Eliminated.pivot (c := ⟨c, hcn⟩) hL he hci, hpz i hci hir, mul_zero])
      have key : ∀ {u : List E} {B : Matrix (Fin n) (Fin n) R} {τ : Equiv.Perm (Fin n)},
          Grid rep L u B → Echelon B c →
          B ⟨c, hcn⟩ ⟨c, hcn⟩ ≠ 0 → PivotOrder M (c + 1) τ →
          Eliminated (M.submatrix τ id) B c hcn.le x → (M.submatrix τ id).det = x * B.det →
          Returns mp (do
            let coef ← idx u (c * n + c)
            let det ← base.mulAssign d coef
            let coef ← base.inv coef
            let elem ← mulRow base n u c coef
            let elem ← detClear base n elem c
            detLoop base n (List.range' (c + 1) m) elem det) fun e => M.det = 0 ∧ rep e 0 ∨
              ∃ σ, PivotOrder M n σ ∧ rep e (Equiv.Perm.sign σ * M.det) := by
        intro u B τ hu hB hB0 hτ hL hs
        refine Returns.bind (hu.idx hcn hcn) fun a ha => Returns.bind (h.mulAssign hd ha)
          fun d' hd' => Returns.bind (h.inv ha hB0) fun b hb =>
          Returns.bind (mulRow_spec h hu ⟨c, hcn⟩ hb) fun u' hu' => ?_
        have hdet := det_rowMul B ⟨c, hcn⟩ (B ⟨c, hcn⟩ ⟨c, hcn⟩)⁻¹
        refine Returns.bind (detClear_clearing h hu' ⟨c, hcn⟩ (fun i j hj => ?_) ?_) ?_
        · have hjc : j < ⟨c, hcn⟩ := hj
          by_cases hi : i = ⟨c, hcn⟩
          · subst hi
            refine ⟨fun hij => absurd hjc (by rw [hij]; exact lt_irrefl _), fun _ => ?_⟩
            simp [rowMul, (hB _ j hj).2 hjc]
          · simp only [rowMul, hi, if_false]
            exact hB i j hj
        · simp [rowMul, hB0]
        · rintro u'' ⟨C, T, hC, hCe, hCT, hT⟩
          have hTdet : T.det = 1 := by
            rw [Matrix.det_of_isLowerTriangular]
            · refine Finset.prod_eq_one fun i _ => ?_
              by_contra hne
              obtain ⟨h1, h2⟩ := hT i i (by rw [if_pos rfl]; exact hne)
              exact absurd h2 (by rw [h1]; exact lt_irrefl _)
            · intro i j hij
              have hij' : i < j := hij
              by_contra hne
              obtain ⟨h1, h2⟩ := hT i j (by rw [if_neg (ne_of_lt hij')]; exact hne)
              exact absurd h2 (by rw [← h1]; exact not_lt.2 hij'.le)
          refine ih (c + 1) (by omega) hC hd' hCe (mul_ne_zero hx0 hB0) hτ
            (Eliminated.step (c := ⟨c, hcn⟩) hL hB0 hT hCT) ?_
          rw [hs, hCT, Matrix.det_mul, hTdet, hdet]
          field_simp
      by_cases hrc : r = c
      · subst hrc
        simp only [ne_eq, not_true_eq_false, if_false, pure_bind']
        rw [Equiv.swap_self] at hσ'
        exact key hv he hp hσ' hL hs
      · simp only [ne_eq, hrc, not_false_eq_true, if_true]
        have hne : (⟨c, hcn⟩ : Fin n) ≠ ⟨r, hr⟩ := fun h => hrc (Fin.ext_iff.1 h).symm
        have hsub : M.submatrix (σ * Equiv.swap ⟨c, hcn⟩ ⟨r, hr⟩ : Equiv.Perm (Fin n)) id =
            rowSwap (M.submatrix σ id) ⟨c, hcn⟩ ⟨r, hr⟩ := rfl
        refine Returns.bind (swapRows_spec hv ⟨c, hcn⟩ ⟨r, hr⟩ hne) fun u hu => ?_
        refine key hu (fun i j hj => ?_) ?_ hσ' ?_ ?_
        · have hjc : j < (⟨c, hcn⟩ : Fin n) := hj
          have hjr : j < (⟨r, hr⟩ : Fin n) := lt_of_lt_of_le hjc hcr
          simp only [rowSwap, Matrix.submatrix_apply, id]
          by_cases hi : i = ⟨c, hcn⟩
          · subst hi
            rw [Equiv.swap_apply_left]
            exact ⟨fun hij => absurd hjc (by rw [hij]; exact lt_irrefl _), fun _ => (he _ j hj).2 hjr⟩
          · by_cases hi' : i = ⟨r, hr⟩
            · subst hi'
              rw [Equiv.swap_apply_right]
              exact ⟨fun hij => absurd hjr (by rw [hij]; exact lt_irrefl _),
                fun _ => (he _ j hj).2 hjc⟩
            · rw [Equiv.swap_apply_of_ne_of_ne hi hi']
              exact he i j hj
        · simpa [rowSwap] using hp
        · rw [hsub]
          exact Eliminated.swap (c := ⟨c, hcn⟩) hL hcr
        · rw [hsub, det_rowSwap _ hne, hs, det_rowSwap A hne, mul_neg]

theorem determinant_sign {M : Matrix (Fin n) (Fin n) R} (hv : Grid rep L v M) :
    Returns mp (determinant base n v) fun e => M.det = 0 ∧ rep e 0 ∨
      ∃ σ, PivotOrder M n σ ∧ rep e (Equiv.Perm.sign σ * M.det) := by
  refine Returns.bind h.one fun o ho => ?_
  rw [List.range_eq_range']
  refine detLoop_sign h M n 0 (Nat.zero_add n) hv ho (fun i j hj => absurd hj (Nat.not_lt_zero _))
    one_ne_zero .start ⟨1, (one_mul _).symm, fun i j hij => Matrix.one_apply_ne (ne_of_lt hij),
      fun i j _ => Matrix.one_apply, by simp⟩ ?_
  rw [one_mul]
  rfl

end Abstalg.MatrixRing
