import Verif.Proofs.Matrices
import Verif.Proofs.PolyGroup

/-! # Matrices: the ring operations -/

set_option linter.unusedSectionVars false

set_option autoImplicit false

universe u

namespace Abstalg.MatrixRing

variable [Cfg] {E : Type} {R : Type u} {mp : Prop} {rep : E → R → Prop} {n : ℕ} {v w : List E}

/-- What the cell at position `k` of a matrix has to satisfy. -/
def gridCell (rep : E → R → Prop) (N : Matrix (Fin n) (Fin n) R) (k : ℕ) (a : E) : Prop :=
  ∀ (hi : k / n < n) (hj : k % n < n), rep a (N ⟨k / n, hi⟩ ⟨k % n, hj⟩)

/-- The loops pushing the entries row by row. -/
theorem push_spec {f : ℕ → List E → ℕ → Res (List E)} (N : Matrix (Fin n) (Fin n) R)
    (hf : ∀ (res : List E) (i j : Fin n),
      Returns mp (f i.1 res j.1) fun u => ∃ a, u = res ++ [a] ∧ rep a (N i j)) :
    Returns mp (forLoop (List.range n) [] fun res row => forLoop (List.range n) res (f row))
      (MatRep rep · N) := by
  refine (forLoop_range (fun r u => Cells (fun a P => P a) u (r * n) (gridCell rep N)) ?_
    fun r hr u hu => ?_).mono fun u hu => ⟨hu.1, fun i j => ?_⟩
  · rw [Nat.zero_mul]; exact Cells.nil
  · refine (forLoop_range (fun c u => Cells (fun a P => P a) u (r * n + c) (gridCell rep N)) hu
      fun c hc u hu => ?_).mono fun u hu => ?_
    · refine (hf u ⟨r, hr⟩ ⟨c, hc⟩).mono ?_
      rintro _ ⟨a, rfl, ha⟩
      refine (hu.append (w := [a]) (m := 1) (d := fun k => gridCell rep N (r * n + c + k))
        ⟨rfl, fun k hk => ?_⟩).congr fun k _ => ?_
      · obtain rfl : k = 0 := by simpa using hk
        intro hi hj
        have h1 : (r * n + c + 0) % n = c := by
          rw [Nat.add_zero, Nat.mul_comm, Nat.mul_add_mod, Nat.mod_eq_of_lt hc]
        have h2 : (r * n + c + 0) / n = r := by
          rw [Nat.add_zero, Nat.mul_comm, Nat.mul_add_div (Nat.zero_lt_of_lt hc),
            Nat.div_eq_of_lt hc, Nat.add_zero]
        simp only [h1, h2]
        exact ha
      · split
        · rfl
        · rw [Nat.add_sub_cancel' (by omega)]
    · rwa [Nat.add_mul, Nat.one_mul]
  · have hlt := flat_lt i.2 j.2
    have h1 : (i.1 * n + j.1) % n = j.1 := by
      rw [Nat.mul_comm, Nat.mul_add_mod, Nat.mod_eq_of_lt j.2]
    have h2 : (i.1 * n + j.1) / n = i.1 := by
      rw [Nat.mul_comm, Nat.mul_add_div (Nat.zero_lt_of_lt j.2), Nat.div_eq_of_lt j.2,
        Nat.add_zero]
    have := hu.2 _ (hu.1.symm ▸ hlt) (by rw [h2]; exact i.2) (by rw [h1]; exact j.2)
    simp only [h1, h2] at this
    exact ⟨_, List.getElem?_eq_getElem (hu.1.symm ▸ hlt), this⟩

theorem transpose_spec {M : Matrix (Fin n) (Fin n) R} (hv : MatRep rep v M) :
    Returns mp (transpose n v) (MatRep rep · M.transpose) := by
  unfold transpose
  rw [hv.1, beq_self_eq_true, assert_true, ok_bind]
  exact push_spec M.transpose fun res i j =>
    Returns.bind (hv.grid.idx j.2 i.2) fun a ha => ⟨a, rfl, ha⟩

theorem transpose_panics (h : v.length ≠ n * n) : transpose n v = .panic := by
  unfold transpose
  rw [show (v.length == n * n) = false by simpa using h]
  rfl

variable [Field R] {base : FieldOps E} (h : FieldSpec mp base rep)
  {M N : Matrix (Fin n) (Fin n) R}

include h

theorem mul_spec (hv : MatRep rep v M) (hw : MatRep rep w N) :
    Returns mp (mul base n v w) (MatRep rep · (M * N)) := by
  unfold mul
  rw [hv.1, hw.1, beq_self_eq_true, Bool.and_self, assert_true, ok_bind]
  refine Returns.bind (transpose_spec hw) fun t ht => ?_
  refine push_spec (M * N) fun res r c => ?_
  refine Returns.bind h.zero fun z hz => ?_
  refine Returns.bind (forLoop_range (fun k s => rep s
    (∑ i ∈ Finset.univ.filter (fun i : Fin n => i.1 < k), M r i * N i c)) ?_ fun k hk s hs => ?_)
    fun s hs => ⟨s, rfl, ?_⟩
  · simpa using hz
  · refine Returns.bind (hv.grid.idx r.2 hk) fun a ha => Returns.bind (ht.grid.idx c.2 hk)
      fun b hb => Returns.bind (h.mul ha hb) fun p hp => (h.addAssign hs hp).mono fun s' hs' => ?_
    have hfil : Finset.univ.filter (fun i : Fin n => i.1 < k + 1) =
        insert ⟨k, hk⟩ (Finset.univ.filter (fun i : Fin n => i.1 < k)) := by
      ext i
      simp only [Finset.mem_filter, Finset.mem_univ, true_and, Finset.mem_insert, Fin.ext_iff]
      omega
    rw [hfil, Finset.sum_insert (by simp), add_comm]
    exact hs'
  · simpa [Matrix.mul_apply] using hs

theorem group_spec : AbelianGroupSpec mp (VectorAlgebra.abelianGroup (n * n) base.toAbelianGroupOps)
    (MatRep (n := n) rep) := by
  have := (VectorAlgebra.abelianGroup_spec (n := n * n) h.toAbelianGroupSpec).comap
    (flatten (n := n)) flatten_injective
  rwa [show MatRep (n := n) rep = fun v M => VecRep rep v (flatten M) from
    funext fun v => funext fun M => propext matRep_iff]

theorem domain_spec : DomainSpec mp (domain base n) (MatRep (n := n) rep) :=
  (group_spec (n := n) h).toDomainSpec

theorem zero_spec : Returns mp (zero base n) (MatRep (n := n) rep · 0) := (group_spec (n := n) h).zero

theorem int_spec (k : ℤ) (hk : k ≠ isizeMin) :
    Returns mp (int base n k) (MatRep rep · (k : Matrix (Fin n) (Fin n) R)) := by
  unfold int
  refine Returns.bind (h.int k hk) fun a ha => Returns.bind (zero_spec (n := n) h) fun z hz => ?_
  refine (forLoop_range (fun r u => Grid rep (n * n) u
    (fun i j : Fin n => if i = j ∧ i.1 < r then (k : R) else 0)) ?_ fun r hr u hu => ?_).mono
    fun u hu => (hu.congr fun i j => ?_).matRep
  · exact hz.grid.congr fun i j => by simp
  · rw [Nat.mul_add, Nat.mul_one]
    refine (hu.setIdx hr hr ha).mono fun u' hu' => hu'.congr fun i j => ?_
    by_cases hij : i = j
    · subst hij
      by_cases hi : i.1 = r
      · simp [hi]
      · by_cases hi' : i.1 < r
        · simp [hi, hi', Nat.lt_succ_of_lt hi']
        · have : ¬ i.1 < r + 1 := by omega
          simp [hi, hi', this]
    · have : ¬ (i.1 = r ∧ j.1 = r) := fun h => hij (Fin.ext (h.1.trans h.2.symm))
      simp [hij, this]
  · by_cases hij : i = j
    · subst hij; simp [Matrix.intCast_apply]
    · simp [hij, Matrix.intCast_apply]

theorem one_spec : Returns mp (int base n 1) (MatRep rep · (1 : Matrix (Fin n) (Fin n) R)) := by
  have h1 : (1 : ℤ) ≠ isizeMin := by
    have : (0 : ℤ) < 2 ^ (Cfg.ptrBits - 1) := by positivity
    unfold isizeMin
    omega
  have := int_spec (n := n) h 1 h1
  rwa [Int.cast_one] at this

theorem isOne_spec (hv : MatRep rep v M) : Decides mp (isOne base n v) (M = 1) :=
  Returns.bind (one_spec h) fun _ ho => (domain_spec h).equals hv ho

end Abstalg.MatrixRing
