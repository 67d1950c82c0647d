import Verif.Proofs.CheckedExact
import Verif.Props.NoOverflow
import Verif.Props.Order

/-! # Overflow in the product of matrices of fractions over machine integers: C65 -/

set_option linter.unusedSectionVars false

set_option autoImplicit false

namespace Abstalg

section vectors

variable [Cfg] {E : Type} {R : Type} {n : ℕ} {rep : E → R → Prop} {u v : List E} {f g : Fin n → R}

theorem VectorAlgebra.zipMap_returnsIff_rep {op : E → E → Res E} {o : R → R → R} {c : R → R → Prop}
    (h : ∀ {a b x y}, rep a x → rep b y → ReturnsIff (c x y) (op a b) (rep · (o x y)))
    (hu : VecRep rep u f) (hv : VecRep rep v g) :
    ReturnsIff (∀ i, c (f i) (g i)) (VectorAlgebra.zipMap n op u v) (VecRep rep · fun i => o (f i) (g i)) := by
  rw [returnsIff_iff]
  unfold VectorAlgebra.zipMap
  rw [lenIs_eq hu, lenIs_eq hv]
  refine (((vecRep_iff.1 hu).zip (vecRep_iff.1 hv)).map
    (rep' := fun a P => P a) (d := cellOf (fun a (z : R × R) => c z.1 z.2 ∧ rep a (o z.1 z.2))
      fun i => (f i, g i)) fun i hi p hp => ?_).mono fun x hx => ?_
  · obtain ⟨⟨h1, h2⟩, h3, h4⟩ := hp
    have := returnsIff_iff.1 (h h2 h4)
    revert this
    cases op p.1 p.2 with
    | ok a => exact fun h => ⟨hi, h⟩
    | panic => exact fun h h' => h (h' _)
    | diverge => exact id
  · obtain ⟨hl, hx⟩ := vecRep_iff.2 hx
    exact ⟨fun i => (hx i).1, hl, fun i => (hx i).2⟩

theorem VectorAlgebra.mapEach_returnsIff_rep {op : E → Res E} {o : R → R} {c : R → Prop}
    (h : ∀ {a x}, rep a x → ReturnsIff (c x) (op a) (rep · (o x))) (hu : VecRep rep u f) :
    ReturnsIff (∀ i, c (f i)) (VectorAlgebra.mapEach n op u) (VecRep rep · fun i => o (f i)) := by
  rw [returnsIff_iff]
  unfold VectorAlgebra.mapEach
  rw [lenIs_eq hu]
  refine ((vecRep_iff.1 hu).map
    (rep' := fun a P => P a) (d := cellOf (fun a (z : R) => c z ∧ rep a (o z)) f) fun i hi p hp => ?_).mono fun x hx => ?_
  · obtain ⟨h1, h2⟩ := hp
    have := returnsIff_iff.1 (h h2)
    revert this
    cases op p with
    | ok a => exact fun h => ⟨hi, h⟩
    | panic => exact fun h h' => h (h' _)
    | diverge => exact id
  · obtain ⟨hl, hx⟩ := vecRep_iff.2 hx
    exact ⟨fun i => (hx i).1, hl, fun i => (hx i).2⟩

end vectors

variable [Cfg] {w : ℕ} [Width w] {n : ℕ} {u v : List (SInt w × SInt w)} {A B : Matrix (Fin n) (Fin n) ℚ}

/-- The condition for the product of two fractions. -/
def FracMulFits (w : ℕ) (q r : ℚ) : Prop := InRange w (q.num * r.num) ∧ InRange w (q.den * r.den)

theorem addProducts_fits : ∀ {n : ℕ} {f g : Fin n → SInt w × SInt w} {F G : Fin n → ℚ}, (∀ k, MFracRep w (f k) (F k)) →
    (∀ k, MFracRep w (g k) (G k)) → ∀ {s : SInt w × SInt w} {q : ℚ}, MFracRep w s q →
    ((∃ x, addProducts (ReducedFractions.ops (CheckedInts.euclidean w)).mul
        (ReducedFractions.ops (CheckedInts.euclidean w)).addAssign s (List.ofFn fun k => (f k, g k)) = .ok x) ↔
      ∀ m, FracMulFits w (F m) (G m) ∧ AddFits w (q + ∑ k ∈ Finset.univ.filter (· < m), F k * G k) (F m * G m)) := by
  intro n
  induction n with
  | zero => exact fun _ _ s q _ => ⟨fun _ m => m.elim0, fun _ => ⟨s, rfl⟩⟩
  | succ n ih =>
    intro f g F G hf hg s q hs
    rw [List.ofFn_succ, Fin.forall_fin_succ, addProducts]
    have hmul := C65_fractions_mul (hf 0) (hg 0)
    have hsum : ∀ m : Fin n, q + ∑ k ∈ Finset.univ.filter (· < m.succ), F k * G k =
        (q + F 0 * G 0) + ∑ k ∈ Finset.univ.filter (· < m), F k.succ * G k.succ := by
      intro m
      rw [Finset.sum_filter, Fin.sum_univ_succ, Finset.sum_filter, if_pos (Fin.succ_pos m), add_assoc]
      simp only [Fin.succ_lt_succ_iff]
    simp only [hsum]
    rw [Finset.filter_false_of_mem (fun k _ => Fin.not_lt_zero k), Finset.sum_empty, add_zero]
    by_cases h1 : FracMulFits w (F 0) (G 0)
    · obtain ⟨x, hx, hx'⟩ := hmul.1 h1
      have hadd : ReturnsIff _ ((ReducedFractions.ops (CheckedInts.euclidean w)).addAssign s x) _ := C65_fractions_add hs hx'
      show (∃ y, ((ReducedFractions.ops (CheckedInts.euclidean w)).mul (f 0) (g 0)).bind _ = _) ↔ _
      rw [hx]
      show (∃ y, ((ReducedFractions.ops (CheckedInts.euclidean w)).addAssign s x).bind _ = _) ↔ _
      by_cases h2 : AddFits w q (F 0 * G 0)
      · obtain ⟨t, ht, ht'⟩ := hadd.1 h2
        rw [ht]
        exact (ih (fun k => hf k.succ) (fun k => hg k.succ) ht').trans ⟨fun h => ⟨⟨h1, h2⟩, h⟩, fun h => h.2⟩
      · rw [hadd.2 h2]
        exact ⟨fun ⟨_, h'⟩ => (nomatch h'), fun h => absurd h.1.2 h2⟩
    · show (∃ y, ((ReducedFractions.ops (CheckedInts.euclidean w)).mul (f 0) (g 0)).bind _ = _) ↔ _
      rw [hmul.2 h1]
      exact ⟨fun ⟨_, h'⟩ => (nomatch h'), fun h => absurd h.1.1 h1⟩

/-- C65: the product of matrices of fractions returns exactly if for every entry each of the products, and each addition of
a product to the sum of those before it, is possible. -/
theorem C65_matrix_mul (hA : MatRep (MFracRep w) u A) (hB : MatRep (MFracRep w) v B) :
    ReturnsIff (∀ i j m, FracMulFits w (A i m) (B m j) ∧
        AddFits w (∑ k ∈ Finset.univ.filter (· < m), A i k * B k j) (A i m * B m j))
      ((MatrixRing.ops (ReducedFractions.ops (CheckedInts.euclidean w)) n).mul u v) (MatRep (MFracRep w) · (A * B)) := by
  obtain ⟨a, rfl⟩ := flatVec_surj hA.1
  obtain ⟨b, rfl⟩ := flatVec_surj hB.1
  have ha : ∀ i j, MFracRep w (a i j) (A i j) := fun i j => by
    obtain ⟨x, hx, hx'⟩ := hA.2 i j
    rw [flatVec_get] at hx
    cases hx
    exact hx'
  have hb : ∀ i j, MFracRep w (b i j) (B i j) := fun i j => by
    obtain ⟨x, hx, hx'⟩ := hB.2 i j
    rw [flatVec_get] at hx
    cases hx
    exact hx'
  have hspec : Returns True ((MatrixRing.ops (ReducedFractions.ops (CheckedInts.euclidean w)) n).mul (flatVec a) (flatVec b))
      (MatRep (MFracRep w) · (A * B)) :=
    MatrixRing.mul_spec C57_checked_fractions hA hB
  have hz : MFracRep w (CheckedInts.c0 w, CheckedInts.c1 w) 0 := ⟨rfl, rfl⟩
  have hiff : (∃ x, (MatrixRing.ops (ReducedFractions.ops (CheckedInts.euclidean w)) n).mul (flatVec a) (flatVec b) = .ok x) ↔
      ∀ i j m, FracMulFits w (A i m) (B m j) ∧
        AddFits w (∑ k ∈ Finset.univ.filter (· < m), A i k * B k j) (A i m * B m j) := by
    have h1 : ∀ i j, (∃ x, ∃ z, (ReducedFractions.ops (CheckedInts.euclidean w)).zero = .ok z ∧
        addProducts (ReducedFractions.ops (CheckedInts.euclidean w)).mul (ReducedFractions.ops (CheckedInts.euclidean w)).addAssign z
          (List.ofFn fun k => (a i k, b k j)) = .ok x) ↔ ∀ m, FracMulFits w (A i m) (B m j) ∧
        AddFits w (∑ k ∈ Finset.univ.filter (· < m), A i k * B k j) (A i m * B m j) := by
      intro i j
      have h2 := addProducts_fits (f := fun k => a i k) (g := fun k => b k j) (F := fun k => A i k) (G := fun k => B k j)
        (fun k => ha i k) (fun k => hb k j) hz
      simp only [zero_add] at h2
      rw [← h2]
      exact ⟨fun ⟨x, z, hz, hx⟩ => (by cases hz; exact ⟨x, hx⟩), fun ⟨x, hx⟩ => ⟨x, _, rfl, hx⟩⟩
    constructor
    · rintro ⟨x, hx⟩ i j
      have hl : x.length = n * n := by rw [hx] at hspec; exact hspec.1
      obtain ⟨c, rfl⟩ := flatVec_surj hl
      exact (h1 i j).1 ⟨_, (C80_matrix_mul _ a b c).1 hx i j⟩
    · intro h
      choose c hc using fun i j => (h1 i j).2 (h i j)
      exact ⟨_, (C80_matrix_mul _ a b c).2 hc⟩
  rw [← hiff]
  revert hspec
  cases (MatrixRing.ops (ReducedFractions.ops (CheckedInts.euclidean w)) n).mul (flatVec a) (flatVec b) with
  | ok x => exact fun h => ⟨fun _ => ⟨x, rfl, h⟩, fun h' => absurd ⟨x, rfl⟩ h'⟩
  | panic => exact fun _ => ⟨fun ⟨x, hx⟩ => (nomatch hx), fun _ => rfl⟩
  | diverge => exact fun h => h.elim

/-- C65: matrices of integers: the product returns if no sum of absolute values of products leaves the range. -/
theorem C65_matrix_mul_integers {A B : Matrix (Fin n) (Fin n) ℤ} (hA : MatRep (MFracRep w) u (A.map fun x : ℤ => (x : ℚ)))
    (hB : MatRep (MFracRep w) v (B.map fun x : ℤ => (x : ℚ)))
    (h : ∀ i j, ∑ k, |A i k * B k j| < 2 ^ (w - 1)) (hw : 2 ≤ w) :
    ∃ x, (MatrixRing.ops (ReducedFractions.ops (CheckedInts.euclidean w)) n).mul u v = .ok x ∧
      MatRep (MFracRep w) x ((A * B).map fun x : ℤ => (x : ℚ)) := by
  have hr : ∀ i j (s : Finset (Fin n)), InRange w (∑ k ∈ s, A i k * B k j) := by
    intro i j s
    have h1 : |∑ k ∈ s, A i k * B k j| < 2 ^ (w - 1) := by
      refine lt_of_le_of_lt ((Finset.abs_sum_le_sum_abs _ _).trans ?_) (h i j)
      exact Finset.sum_le_sum_of_subset_of_nonneg (Finset.subset_univ s) fun _ _ _ => abs_nonneg _
    have := abs_lt.1 h1
    unfold InRange
    omega
  have h1 : InRange w 1 := by
    unfold InRange
    have : (2 : ℤ) ^ 1 ≤ 2 ^ (w - 1) := pow_le_pow_right₀ (by norm_num) (by omega)
    omega
  have hAB : (A * B).map (fun x : ℤ => (x : ℚ)) = A.map (fun x : ℤ => (x : ℚ)) * B.map fun x : ℤ => (x : ℚ) := by
    ext i j
    simp [Matrix.mul_apply]
  rw [hAB]
  refine (C65_matrix_mul hA hB).1 fun i j m => ?_
  have hs : ∑ k ∈ Finset.univ.filter (· < m), (A.map fun x : ℤ => (x : ℚ)) i k * (B.map fun x : ℤ => (x : ℚ)) k j =
      ((∑ k ∈ Finset.univ.filter (· < m), A i k * B k j : ℤ) : ℚ) := by
    push_cast
    rfl
  have hm : (A.map fun x : ℤ => (x : ℚ)) i m * (B.map fun x : ℤ => (x : ℚ)) m j = ((A i m * B m j : ℤ) : ℚ) := by
    push_cast
    rfl
  rw [hs, hm]
  refine ⟨⟨?_, ?_⟩, ?_⟩
  · show InRange w ((A i m : ℚ).num * (B m j : ℚ).num)
    rw [Rat.num_intCast, Rat.num_intCast]
    simpa using hr i j {m}
  · show InRange w ((A i m : ℚ).den * (B m j : ℚ).den)
    rw [Rat.den_intCast, Rat.den_intCast]
    simpa using h1
  · refine ⟨fun _ => ?_, fun h => absurd (by rw [Rat.den_intCast, Rat.den_intCast]) h⟩
    rw [Rat.num_intCast, Rat.num_intCast, add_comm]
    have := hr i j (insert m (Finset.univ.filter (· < m)))
    rwa [Finset.sum_insert (by simp)] at this

/-- C65: the coordinate-wise operations on vectors of fractions return exactly if they are possible in each coordinate. -/
theorem C65_vectors_fractions {x y : Fin n → ℚ} (hx : VecRep (MFracRep w) u x) (hy : VecRep (MFracRep w) v y) :
    ReturnsIff (∀ i, AddFits w (x i) (y i)) ((VectorAlgebra.unitaryRing n
      (ReducedFractions.ops (CheckedInts.euclidean w)).toUnitaryRingOps).add u v) (VecRep (MFracRep w) · (x + y)) ∧
    ReturnsIff (∀ i, InRange w (-(y i).num) ∧ AddFits w (-y i) (x i)) ((VectorAlgebra.unitaryRing n
      (ReducedFractions.ops (CheckedInts.euclidean w)).toUnitaryRingOps).sub u v) (VecRep (MFracRep w) · (x - y)) ∧
    ReturnsIff (∀ i, FracMulFits w (x i) (y i)) ((VectorAlgebra.unitaryRing n
      (ReducedFractions.ops (CheckedInts.euclidean w)).toUnitaryRingOps).mul u v) (VecRep (MFracRep w) · (x * y)) ∧
    ReturnsIff (∀ i, InRange w (-(x i).num)) ((VectorAlgebra.unitaryRing n
      (ReducedFractions.ops (CheckedInts.euclidean w)).toUnitaryRingOps).neg u) (VecRep (MFracRep w) · (-x)) :=
  ⟨VectorAlgebra.zipMap_returnsIff_rep C65_fractions_add hx hy,
    VectorAlgebra.zipMap_returnsIff_rep (c := fun q r => InRange w (-r.num) ∧ AddFits w (-r) q) C65_fractions_sub hx hy,
    VectorAlgebra.zipMap_returnsIff_rep C65_fractions_mul hx hy,
    VectorAlgebra.mapEach_returnsIff_rep C65_fractions_neg hx⟩

theorem forall_flatten {A B : Matrix (Fin n) (Fin n) ℚ} {c : ℚ → ℚ → Prop} :
    (∀ i, c (flatten A i) (flatten B i)) ↔ ∀ i j, c (A i j) (B i j) :=
  ⟨fun h i j => by simpa only [flatten_apply] using h (finProdFinEquiv (i, j)), fun h _ => h _ _⟩

/-- C65: sums, differences and negatives of matrices of fractions return exactly if they are possible for each entry. -/
theorem C65_matrices_fractions (hA : MatRep (MFracRep w) u A) (hB : MatRep (MFracRep w) v B) :
    ReturnsIff (∀ i j, AddFits w (A i j) (B i j))
      ((MatrixRing.ops (ReducedFractions.ops (CheckedInts.euclidean w)) n).add u v) (MatRep (MFracRep w) · (A + B)) ∧
    ReturnsIff (∀ i j, InRange w (-(B i j).num) ∧ AddFits w (-B i j) (A i j))
      ((MatrixRing.ops (ReducedFractions.ops (CheckedInts.euclidean w)) n).sub u v) (MatRep (MFracRep w) · (A - B)) ∧
    ReturnsIff (∀ i j, InRange w (-(A i j).num))
      ((MatrixRing.ops (ReducedFractions.ops (CheckedInts.euclidean w)) n).neg u) (MatRep (MFracRep w) · (-A)) := by
  obtain ⟨h1, h2, -, h3⟩ := C65_vectors_fractions (matRep_iff.1 hA) (matRep_iff.1 hB)
  refine ⟨?_, ?_, ?_⟩
  · exact (h1.congr (forall_flatten (c := fun q r => AddFits w q r))).mono fun x hx => matRep_iff.2 hx
  · exact (h2.congr (forall_flatten (c := fun q r => InRange w (-r.num) ∧ AddFits w (-r) q))).mono
      fun x hx => matRep_iff.2 hx
  · exact (h3.congr (forall_flatten (B := A) (c := fun q _ => InRange w (-q.num)))).mono
      fun x hx => matRep_iff.2 hx

namespace MatrixOverflowExamples

local instance : Cfg := ⟨true, true, 64, by decide⟩

/-- Eight bits, the row (100, 100, -100) times a column of ones: no product and not the sum 100 leaves the range, but the sum
200 of the first two products does, so that the product of the matrices panics; the row (100, -100, 100) is possible. -/
example : (∀ m : Fin 3, FracMulFits 8 (![100, 100, -100] m) 1) ∧
    ¬ (∀ m : Fin 3, AddFits 8 (∑ k ∈ Finset.univ.filter (· < m), ![100, 100, -100] k * 1) (![100, 100, -100] m * 1)) ∧
    (∀ m : Fin 3, AddFits 8 (∑ k ∈ Finset.univ.filter (· < m), ![100, -100, 100] k * 1) (![100, -100, 100] m * 1)) := by
  unfold FracMulFits AddFits InRange
  decide +kernel

/-- Halves and thirds: the sum 1/2 + 1/3 is computed, 1/12 + 1/13 needs the denominator 156. -/
example : AddFits 8 (∑ k ∈ Finset.univ.filter (· < (1 : Fin 2)), ![1 / 2, 1 / 3] k * 1) (1 / 3 * 1) ∧
    ¬ AddFits 8 (∑ k ∈ Finset.univ.filter (· < (1 : Fin 2)), ![1 / 12, 1 / 13] k * 1) (1 / 13 * 1) := by
  unfold AddFits InRange
  decide +kernel

/-- The matrices (1 2; 3 4) and (5 6; 7 8) of the test `matrix_mul`, in eight bits. -/
example : ∃ u v : List (SInt 8 × SInt 8),
    MatRep (MFracRep 8) u ((!![1, 2; 3, 4] : Matrix (Fin 2) (Fin 2) ℤ).map fun x : ℤ => (x : ℚ)) ∧
    MatRep (MFracRep 8) v ((!![5, 6; 7, 8] : Matrix (Fin 2) (Fin 2) ℤ).map fun x : ℤ => (x : ℚ)) ∧
    ∃ x, (MatrixRing.ops (ReducedFractions.ops (CheckedInts.euclidean 8)) 2).mul u v = .ok x ∧
      MatRep (MFracRep 8) x ((!![19, 22; 43, 50] : Matrix (Fin 2) (Fin 2) ℤ).map fun x : ℤ => (x : ℚ)) := by
  let e (k : ℤ) (h : -128 ≤ k ∧ k ≤ 127) : SInt 8 × SInt 8 := (SInt.lit k h, SInt.lit 1 (by decide))
  have hu : MatRep (MFracRep 8) [e 1 (by decide), e 2 (by decide), e 3 (by decide), e 4 (by decide)]
      ((!![1, 2; 3, 4] : Matrix (Fin 2) (Fin 2) ℤ).map fun x : ℤ => (x : ℚ)) := by
    refine ⟨rfl, fun i j => ?_⟩
    fin_cases i <;> fin_cases j <;> exact ⟨_, rfl, by constructor <;> decide +kernel⟩
  have hv : MatRep (MFracRep 8) [e 5 (by decide), e 6 (by decide), e 7 (by decide), e 8 (by decide)]
      ((!![5, 6; 7, 8] : Matrix (Fin 2) (Fin 2) ℤ).map fun x : ℤ => (x : ℚ)) := by
    refine ⟨rfl, fun i j => ?_⟩
    fin_cases i <;> fin_cases j <;> exact ⟨_, rfl, by constructor <;> decide +kernel⟩
  refine ⟨_, _, hu, hv, ?_⟩
  have h := C65_matrix_mul_integers hu hv (by decide) (by decide)
  rwa [show (!![1, 2; 3, 4] * !![5, 6; 7, 8] : Matrix (Fin 2) (Fin 2) ℤ) = !![19, 22; 43, 50] by decide] at h

/-- 1/2 + 1/3 in the first and 1/12 + 1/13 in the second coordinate: the sum of the vectors panics. -/
example : AddFits 8 (1 / 2) (1 / 3) ∧ ¬ ∀ i : Fin 2, AddFits 8 (![1 / 2, 1 / 12] i) (![1 / 3, 1 / 13] i) := by
  unfold AddFits InRange
  decide +kernel

end MatrixOverflowExamples

end Abstalg
