import Verif.Spec.Matrices
import Verif.Proofs.Vectors
import Verif.Model.MatrixRing

/-! # Matrices: entries, row operations and the additive structure -/

set_option linter.unusedSectionVars false

set_option autoImplicit false

universe u

namespace Abstalg

theorem flat_lt {n i j : ℕ} (hi : i < n) (hj : j < n) : i * n + j < n * n := by
  have : (i + 1) * n ≤ n * n := Nat.mul_le_mul_right n hi
  rw [Nat.add_mul, Nat.one_mul] at this
  omega

theorem flat_inj {n : ℕ} {i j i' j' : Fin n} :
    i.1 * n + j.1 = i'.1 * n + j'.1 ↔ i = i' ∧ j = j' := by
  constructor
  · intro h
    have h1 : ∀ k l : Fin n, (k.1 * n + l.1) % n = l.1 := fun k l => by
      rw [Nat.mul_comm, Nat.mul_add_mod, Nat.mod_eq_of_lt l.2]
    have h2 : ∀ k l : Fin n, (k.1 * n + l.1) / n = k.1 := fun k l => by
      rw [Nat.mul_comm, Nat.mul_add_div (Nat.zero_lt_of_lt l.2), Nat.div_eq_of_lt l.2, Nat.add_zero]
    exact ⟨Fin.ext (by rw [← h2 i j, h, h2]), Fin.ext (by rw [← h1 i j, h, h1])⟩
  · rintro ⟨rfl, rfl⟩; rfl

variable {E : Type} {R : Type u} {mp : Prop} {rep : E → R → Prop} {n : ℕ} {v w : List E}
  {M : Matrix (Fin n) (Fin n) R}

/-- A vector of length `L` starting with the entries of a matrix. -/
structure Grid (rep : E → R → Prop) {n : ℕ} (L : ℕ) (v : List E) (M : Matrix (Fin n) (Fin n) R) :
    Prop where
  length : v.length = L
  le : n * n ≤ L
  entries : MatPrefix rep v M

namespace Grid

variable {L : ℕ}

theorem congr {N : Matrix (Fin n) (Fin n) R} (h : Grid rep L v M) (hMN : ∀ i j, M i j = N i j) :
    Grid rep L v N := by
  obtain rfl : M = N := by ext i j; exact hMN i j
  exact h

theorem idx (h : Grid rep L v M) {i j : ℕ} (hi : i < n) (hj : j < n) :
    Returns mp (idx v (i * n + j)) (rep · (M ⟨i, hi⟩ ⟨j, hj⟩)) := by
  obtain ⟨a, ha, ha'⟩ := h.entries ⟨i, hi⟩ ⟨j, hj⟩
  simp only at ha
  simp only [Abstalg.idx, ha]
  exact ha'

theorem setIdx (h : Grid rep L v M) {i j : ℕ} (hi : i < n) (hj : j < n) {a : E} {x : R}
    (ha : rep a x) : Returns mp (setIdx v (i * n + j) a) fun w => Grid rep L w
      (fun k l => if k.1 = i ∧ l.1 = j then x else M k l) := by
  have hlt : i * n + j < v.length := by
    rw [h.length]; exact lt_of_lt_of_le (flat_lt hi hj) h.le
  rw [Abstalg.setIdx, if_pos hlt]
  refine ⟨by simp [h.length], h.le, fun k l => ?_⟩
  rw [List.getElem?_set]
  have hk := flat_inj (i := ⟨i, hi⟩) (j := ⟨j, hj⟩) (i' := k) (j' := l)
  simp only [Fin.ext_iff] at hk
  by_cases hkl : k.1 = i ∧ l.1 = j
  · rw [if_pos (hk.2 ⟨hkl.1.symm, hkl.2.symm⟩), if_pos hlt]
    exact ⟨a, rfl, by simpa [hkl] using ha⟩
  · rw [if_neg fun h => hkl ⟨(hk.1 h).1.symm, (hk.1 h).2.symm⟩]
    obtain ⟨b, hb, hb'⟩ := h.entries k l
    exact ⟨b, hb, by simpa only [hkl, if_false] using hb'⟩

end Grid

theorem MatRep.grid (h : MatRep rep v M) : Grid rep (n * n) v M := ⟨h.1, le_rfl, h.2⟩

theorem Grid.matRep (h : Grid rep (n * n) v M) : MatRep rep v M := ⟨h.length, h.entries⟩

/-- A matrix as a vector. -/
def flatten [AddCommGroup R] : Matrix (Fin n) (Fin n) R →+ (Fin (n * n) → R) where
  toFun M := fun k => M (finProdFinEquiv.symm k).1 (finProdFinEquiv.symm k).2
  map_zero' := rfl
  map_add' _ _ := rfl

theorem flatten_apply [AddCommGroup R] (M : Matrix (Fin n) (Fin n) R) (i j : Fin n) :
    flatten M (finProdFinEquiv (i, j)) = M i j := by
  show M (finProdFinEquiv.symm (finProdFinEquiv (i, j))).1 _ = _
  rw [Equiv.symm_apply_apply]

theorem flatten_injective [AddCommGroup R] :
    Function.Injective (flatten : Matrix (Fin n) (Fin n) R →+ _) := by
  intro M N h
  ext i j
  have := congrFun h (finProdFinEquiv (i, j))
  rwa [flatten_apply, flatten_apply] at this

theorem matRep_iff [AddCommGroup R] : MatRep rep v M ↔ VecRep rep v (flatten M) := by
  constructor
  · rintro ⟨h, h'⟩
    refine ⟨h, fun k => ?_⟩
    obtain ⟨⟨i, j⟩, rfl⟩ := finProdFinEquiv.surjective k
    obtain ⟨a, ha, ha'⟩ := h' i j
    have hk : (finProdFinEquiv (i, j)).1 = i.1 * n + j.1 := by
      simp [finProdFinEquiv, mul_comm, add_comm]
    obtain ⟨hlt, rfl⟩ := List.getElem?_eq_some_iff.1 ha
    rw [flatten_apply]
    simpa only [hk] using ha'
  · rintro ⟨h, h'⟩
    refine ⟨h, fun i j => ?_⟩
    have hk : (finProdFinEquiv (i, j)).1 = i.1 * n + j.1 := by
      simp [finProdFinEquiv, mul_comm, add_comm]
    have := h' (finProdFinEquiv (i, j))
    rw [flatten_apply] at this
    simp only [hk] at this
    exact ⟨_, List.getElem?_eq_getElem (by rw [h]; exact flat_lt i.2 j.2), this⟩

namespace MatrixRing

variable [Cfg]

/-! ## Row operations -/

/-- Row `r` is multiplied by `c`. -/
def rowMul [Mul R] (M : Matrix (Fin n) (Fin n) R) (r : Fin n) (c : R) : Matrix (Fin n) (Fin n) R :=
  fun i j => if i = r then M i j * c else M i j

/-- The `c`-fold of row `r` is added to row `s`. -/
def rowAdd [Mul R] [Add R] (M : Matrix (Fin n) (Fin n) R) (r s : Fin n) (c : R) :
    Matrix (Fin n) (Fin n) R :=
  fun i j => if i = s then M s j + M r j * c else M i j

/-- Rows `r` and `s` are exchanged. -/
def rowSwap (M : Matrix (Fin n) (Fin n) R) (r s : Fin n) : Matrix (Fin n) (Fin n) R :=
  M.submatrix (Equiv.swap r s) id

variable {L : ℕ}

theorem swapRows_spec (hv : Grid rep L v M) (r s : Fin n) (hrs : r ≠ s) :
    Returns mp (swapRows n v r.1 s.1) (Grid rep L · (rowSwap M r s)) := by
  unfold swapRows
  refine (forLoop_range (fun k u => Grid rep L u
    (fun i j => if j.1 < k then M (Equiv.swap r s i) j else M i j)) (by simpa using hv)
    fun k hk u hu => ?_).mono fun u hu => hu.congr fun i j => by
      simp [rowSwap, j.2]
  unfold swapIdx
  refine Returns.bind (hu.idx r.2 hk) fun a ha => Returns.bind (hu.idx s.2 hk) fun b hb => ?_
  refine Returns.bind (hu.setIdx r.2 hk hb) fun u' hu' => ?_
  refine (hu'.setIdx s.2 hk ha).mono fun u'' hu'' => hu''.congr fun i j => ?_
  simp only [← Fin.ext_iff, lt_irrefl, if_false]
  by_cases hj : j.1 = k
  · obtain rfl : j = ⟨k, hk⟩ := Fin.ext hj
    by_cases hi : i = s
    · subst hi; simp
    · by_cases hi' : i = r
      · subst hi'; simp [hi]
      · simp [hi, hi', Equiv.swap_apply_of_ne_of_ne hi' hi]
  · simp only [hj, and_false, if_false]
    by_cases hj' : j.1 < k
    · rw [if_pos hj', if_pos (by omega)]
    · rw [if_neg hj', if_neg (by omega)]

section field

variable [Field R] {base : FieldOps E} (h : FieldSpec mp base rep)

include h

theorem mulRow_spec (hv : Grid rep L v M) (r : Fin n) {c : E} {x : R} (hc : rep c x) :
    Returns mp (mulRow base n v r.1 c) (Grid rep L · (rowMul M r x)) := by
  unfold mulRow
  have hle : r.1 * n + n ≤ v.length := by
    rw [hv.length]
    refine le_trans ?_ hv.le
    have : (r.1 + 1) * n ≤ n * n := Nat.mul_le_mul_right n r.2
    rwa [Nat.add_mul, Nat.one_mul] at this
  simp only [hle, decide_true, assert_true, ok_bind]
  refine (forLoop_range (fun k u => Grid rep L u
    (fun i j => if i = r ∧ j.1 < k then M i j * x else M i j)) (by simpa using hv)
    fun k hk u hu => ?_).mono fun u hu => hu.congr fun i j => by
      simp [rowMul, j.2]
  refine Returns.bind (hu.idx r.2 hk) fun a ha => ?_
  simp only [lt_irrefl, and_false, if_false] at ha
  refine Returns.bind (h.mulAssign ha hc) fun b hb => ?_
  refine (hu.setIdx r.2 hk hb).mono fun u' hu' => hu'.congr fun i j => ?_
  simp only [← Fin.ext_iff]
  by_cases hi : i = r
  · subst hi
    by_cases hj : j.1 = k
    · obtain rfl : j = ⟨k, hk⟩ := Fin.ext hj
      simp
    · by_cases hj' : j.1 < k
      · simp [hj, hj', Nat.lt_succ_of_lt hj']
      · have : ¬ j.1 < k + 1 := by omega
        simp [hj, hj', this]
  · simp [hi]

theorem addRows_spec (hv : Grid rep L v M) (r s : Fin n) (hrs : r ≠ s) {c : E} {x : R}
    (hc : rep c x) :
    Returns mp (addRows base n v r.1 s.1 c) (Grid rep L · (rowAdd M r s x)) := by
  unfold addRows
  refine (forLoop_range (fun k u => Grid rep L u
    (fun i j => if i = s ∧ j.1 < k then M s j + M r j * x else M i j)) (by simpa using hv)
    fun k hk u hu => ?_).mono fun u hu => hu.congr fun i j => by
      simp [rowAdd, j.2]
  refine Returns.bind (hu.idx r.2 hk) fun a ha => ?_
  simp only [lt_irrefl, and_false, if_false] at ha
  refine Returns.bind (h.mul ha hc) fun b hb => ?_
  refine Returns.bind (hu.idx s.2 hk) fun a ha => ?_
  simp only [lt_irrefl, and_false, if_false] at ha
  refine Returns.bind (h.addAssign ha hb) fun b hb => ?_
  refine (hu.setIdx s.2 hk hb).mono fun u' hu' => hu'.congr fun i j => ?_
  simp only [← Fin.ext_iff]
  by_cases hi : i = s
  · subst hi
    by_cases hj : j.1 = k
    · obtain rfl : j = ⟨k, hk⟩ := Fin.ext hj
      simp
    · by_cases hj' : j.1 < k
      · simp [hj, hj', Nat.lt_succ_of_lt hj']
      · have : ¬ j.1 < k + 1 := by omega
        simp [hj, hj', this]
  · simp [hi]

theorem findRow_aux (hv : Grid rep L v M) (col : Fin n) :
    ∀ m k, k + m = n → Returns mp
      (findRes (fun row => do return !(← base.isZero (← Abstalg.idx v (row * n + col.1))))
        (List.range' k m)) fun
      | some r => ∃ h : r < n, k ≤ r ∧ M ⟨r, h⟩ col ≠ 0 ∧ ∀ i : Fin n, k ≤ i.1 → i.1 < r → M i col = 0
      | none => ∀ i : Fin n, k ≤ i.1 → M i col = 0 := by
  intro m
  induction m with
  | zero => intro k hk i hi; exact absurd i.2 (by omega)
  | succ m ih =>
    intro k hk
    rw [List.range'_succ, findRes]
    have hkn : k < n := by omega
    have h1 : Decides mp (do return !(← base.isZero (← Abstalg.idx v (k * n + col.1))))
        (¬ M ⟨k, hkn⟩ col = 0) :=
      Returns.bind (hv.idx hkn col.2) fun a ha => Decides.not (h.isZero ha)
    refine Returns.rbind h1 fun b hb => ?_
    cases b with
    | true => exact ⟨hkn, le_rfl, hb.1 rfl, fun i h1 h2 => absurd h1 (Nat.not_le.2 h2)⟩
    | false =>
      have h0 : M ⟨k, hkn⟩ col = 0 := by
        by_contra h0
        exact absurd (hb.2 h0) nofun
      simp only [Bool.false_eq_true, if_false]
      refine (ih (k + 1) (by omega)).mono fun o ho => ?_
      have hz : ∀ i : Fin n, k ≤ i.1 → i.1 < k + 1 → M i col = 0 := fun i h1 h2 => by
        obtain rfl : i = ⟨k, hkn⟩ := Fin.ext (show i.1 = k by omega)
        exact h0
      cases o with
      | some r =>
        obtain ⟨hr, h1, h2, h3⟩ := ho
        refine ⟨hr, by omega, h2, fun i hi hir => ?_⟩
        by_cases hik : k + 1 ≤ i.1
        · exact h3 i hik hir
        · exact hz i hi (by omega)
      | none =>
        intro i hi
        by_cases hik : k + 1 ≤ i.1
        · exact ho i hik
        · exact hz i hi (by omega)

theorem findRow_spec (hv : Grid rep L v M) (col : Fin n) :
    Returns mp (findRow base n v col.1) fun
      | some r => ∃ h : r < n, col.1 ≤ r ∧ M ⟨r, h⟩ col ≠ 0 ∧
          ∀ i : Fin n, col.1 ≤ i.1 → i.1 < r → M i col = 0
      | none => ∀ i : Fin n, col.1 ≤ i.1 → M i col = 0 := by
  have := findRow_aux h hv col (n - col.1) col.1 (by omega)
  exact this.mono fun o ho => by cases o <;> exact ho

end field

end MatrixRing

end Abstalg
