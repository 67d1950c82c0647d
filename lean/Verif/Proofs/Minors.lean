import Verif.Spec.Minors
import Mathlib.LinearAlgebra.Matrix.Block
import Mathlib.LinearAlgebra.Matrix.Adjugate
import Mathlib.Data.Rat.Lemmas

/-! # Entries during Gauss elimination are quotients of minors -/

set_option linter.unusedSectionVars false

set_option autoImplicit false

universe u

namespace Abstalg

variable {n : ℕ} {κ : Type u} {H : ℤ}

/-- The rows before row `c` are among the rows `ρ`. -/
def Covers {m : ℕ} (c : ℕ) (ρ : Fin m → Fin n) : Prop := ∀ k : Fin n, k.1 < c → ∃ a, ρ a = k

/-- After `c` steps with the product `d` of the pivots: the minors of `B` that contain the first `c` rows are, up to `d`, minors
of the integer matrix. -/
def MinorInv (H : ℤ) (c : ℕ) (B : Matrix (Fin n) κ ℚ) (d : ℚ) : Prop :=
  ∃ P : Matrix (Fin n) κ ℤ, MinorsWithin H P ∧ ∀ m (ρ : Fin m → Fin n) (γ : Fin m → κ), Covers c ρ →
    (B.submatrix ρ γ).det * d = ((P.submatrix ρ γ).det : ℤ)

theorem MinorInv.start {M : Matrix (Fin n) κ ℤ} (h : MinorsWithin H M) :
    MinorInv H 0 (M.map fun x : ℤ => (x : ℚ)) 1 :=
  ⟨M, h, fun m ρ γ _ => by
    rw [mul_one, show ((M.submatrix ρ γ).det : ℚ) = (Int.castRingHom ℚ) (M.submatrix ρ γ).det from rfl, RingHom.map_det]
    rfl⟩

/-- Row `i` is exchanged with row `p` and multiplied by `s`. -/
def scaledRow (B : Matrix (Fin n) κ ℚ) (i p : Fin n) (s : ℚ) : Matrix (Fin n) κ ℚ :=
  fun r j => (if r = i then s else 1) * B (Equiv.swap i p r) j

/-- Multiples of row `i` are added to the rows. -/
def clearedRows (B : Matrix (Fin n) κ ℚ) (i : Fin n) (m : Fin n → ℚ) : Matrix (Fin n) κ ℚ :=
  fun r j => B r j + m r * B i j

theorem MinorInv.step {c : ℕ} {B : Matrix (Fin n) κ ℚ} {d s : ℚ} {i p : Fin n} {m : Fin n → ℚ} (h : MinorInv H c B d)
    (hi : i.1 = c) (hp : i ≤ p) (hs : s ≠ 0) (hm : m i = 0) :
    MinorInv H (c + 1) (clearedRows (scaledRow B i p s⁻¹) i m) (d * s) := by
  obtain ⟨P, hP, h⟩ := h
  refine ⟨P.submatrix (Equiv.swap i p) id, fun k ρ γ => ?_, fun k ρ γ hρ => ?_⟩
  · rw [Matrix.submatrix_submatrix]
    exact hP _ _ _
  · obtain ⟨a, ha⟩ := hρ i (by omega)
    have h1 : ((clearedRows (scaledRow B i p s⁻¹) i m).submatrix ρ γ).det = ((scaledRow B i p s⁻¹).submatrix ρ γ).det := by
      refine Matrix.det_eq_of_forall_row_eq_smul_add_const (fun b => m (ρ b)) a (by rw [ha, hm]) fun b j => ?_
      rw [Matrix.submatrix_apply, Matrix.submatrix_apply, Matrix.submatrix_apply, ha]
      rfl
    have h2 : ((scaledRow B i p s⁻¹).submatrix ρ γ).det =
        (∏ b, if ρ b = i then s⁻¹ else 1) * (B.submatrix (Equiv.swap i p ∘ ρ) γ).det :=
      Matrix.det_mul_column (fun b => if ρ b = i then s⁻¹ else 1) (B.submatrix (Equiv.swap i p ∘ ρ) γ)
    have h3 : Covers c (Equiv.swap i p ∘ ρ) := fun x hx => by
      obtain ⟨b, hb⟩ := hρ x (by omega)
      have hp' : i.1 ≤ p.1 := hp
      refine ⟨b, ?_⟩
      rw [Function.comp_apply, hb]
      exact Equiv.swap_apply_of_ne_of_ne (fun e => by rw [e] at hx; omega) fun e => by rw [e] at hx; omega
    rw [h1, h2, Matrix.submatrix_submatrix]
    show _ = (((P.submatrix (Equiv.swap i p ∘ ρ) γ).det : ℤ) : ℚ)
    rw [← h _ _ _ h3]
    by_cases hinj : Function.Injective ρ
    · have : ∀ b, (if ρ b = i then s⁻¹ else 1) = if b = a then s⁻¹ else 1 := fun b => by
        by_cases hb : b = a
        · rw [hb, if_pos ha, if_pos rfl]
        · rw [if_neg hb, if_neg fun e => hb (hinj (e.trans ha.symm))]
      rw [Finset.prod_congr rfl fun b _ => this b, Finset.prod_ite_eq' Finset.univ a, if_pos (Finset.mem_univ a)]
      field_simp
    · obtain ⟨b, b', hb, hne⟩ : ∃ b b', ρ b = ρ b' ∧ b ≠ b' := by
        simpa only [Function.Injective, not_forall, exists_prop] using hinj
      rw [Matrix.det_zero_of_row_eq hne (by
        funext j
        rw [Matrix.submatrix_apply, Matrix.submatrix_apply, Function.comp_apply, Function.comp_apply, hb])]
      ring

/-- The first `c` of the columns `ι` are upper triangular with ones in the diagonal. -/
def EchelonCols (ι : Fin n → κ) (B : Matrix (Fin n) κ ℚ) (c : ℕ) : Prop :=
  ∀ i k : Fin n, k.1 < c → (i = k → B i (ι k) = 1) ∧ (k < i → B i (ι k) = 0)

theorem MinorInv.pivots {c : ℕ} {B : Matrix (Fin n) κ ℚ} {d : ℚ} {ι : Fin n → κ} (h : MinorInv H c B d) (he : EchelonCols ι B c)
    (hc : c ≤ n) : ∃ Z : ℤ, |Z| ≤ H ∧ d = Z := by
  obtain ⟨P, hP, h⟩ := h
  refine ⟨_, hP _ (Fin.castLE hc) (ι ∘ Fin.castLE hc), ?_⟩
  rw [← h _ _ _ fun k hk => ⟨⟨k.1, hk⟩, rfl⟩, Matrix.det_of_isUpperTriangular fun a b hab => ?_,
    Finset.prod_eq_one fun a _ => ?_, one_mul]
  · exact (he (Fin.castLE hc a) (Fin.castLE hc a) a.2).1 rfl
  · exact (he (Fin.castLE hc a) (Fin.castLE hc b) b.2).2 hab

/-- An entry below the rows that are done is a quotient of minors. -/
theorem MinorInv.entry {c : ℕ} {B : Matrix (Fin n) κ ℚ} {d : ℚ} {ι : Fin n → κ} (h : MinorInv H c B d) (he : EchelonCols ι B c)
    {i : Fin n} (hi : c ≤ i.1) (j : κ) : ∃ Z : ℤ, |Z| ≤ H ∧ B i j * d = Z := by
  obtain ⟨P, hP, h⟩ := h
  have hc : c ≤ n := hi.trans i.2.le
  let ρ : Fin (c + 1) → Fin n := Fin.snoc (α := fun _ => Fin n) (Fin.castLE hc) i
  let γ : Fin (c + 1) → κ := Fin.snoc (α := fun _ => κ) (ι ∘ Fin.castLE hc) j
  have hρ : ∀ a : Fin c, ρ a.castSucc = Fin.castLE hc a := fun a => Fin.snoc_castSucc (α := fun _ => Fin n) _ _ a
  have hγ : ∀ a : Fin c, γ a.castSucc = ι (Fin.castLE hc a) := fun a => Fin.snoc_castSucc (α := fun _ => κ) _ _ a
  have hρ' : ρ (Fin.last c) = i := Fin.snoc_last (α := fun _ => Fin n) _ _
  have hγ' : γ (Fin.last c) = j := Fin.snoc_last (α := fun _ => κ) _ _
  refine ⟨_, hP _ ρ γ, ?_⟩
  rw [← h _ _ _ fun k hk => ⟨Fin.castSucc ⟨k.1, hk⟩, hρ _⟩, Matrix.det_of_isUpperTriangular fun a b hab => ?_,
    Fin.prod_univ_castSucc, Finset.prod_eq_one fun a _ => ?_, one_mul]
  · rw [Matrix.submatrix_apply, hρ', hγ']
  · rw [Matrix.submatrix_apply, hρ, hγ]
    exact (he _ _ a.2).1 rfl
  · have hab : b < a := hab
    have hb : b.1 < c := lt_of_lt_of_le hab (Nat.lt_succ_iff.1 a.2)
    obtain ⟨b, rfl⟩ : ∃ b' : Fin c, b = b'.castSucc := ⟨⟨b.1, hb⟩, rfl⟩
    rw [Matrix.submatrix_apply, hγ]
    refine (he _ _ b.2).2 ?_
    by_cases ha : a.1 < c
    · obtain ⟨a, rfl⟩ : ∃ a' : Fin c, a = a'.castSucc := ⟨⟨a.1, ha⟩, rfl⟩
      rw [hρ]
      exact hab
    · obtain rfl : a = Fin.last c := Fin.ext (by have := a.2; rw [Fin.val_last]; omega)
      rw [hρ']
      exact show b.1 < i.1 from lt_of_lt_of_le b.2 hi

/-- With the first columns of the identity matrix also an entry of the rows that are done is a quotient of minors. -/
theorem MinorInv.entry_done {c : ℕ} {B : Matrix (Fin n) κ ℚ} {d : ℚ} {ι : Fin n → κ} (h : MinorInv H c B d)
    (he : ∀ i k : Fin n, k.1 < c → B i (ι k) = if i = k then 1 else 0) (hc : c ≤ n)
    {i : Fin n} (hi : i.1 < c) (j : κ) : ∃ Z : ℤ, |Z| ≤ H ∧ B i j * d = Z := by
  obtain ⟨P, hP, h⟩ := h
  refine ⟨_, hP _ (Fin.castLE hc) (Function.update (ι ∘ Fin.castLE hc) ⟨i.1, hi⟩ j), ?_⟩
  rw [← h _ _ _ fun k hk => ⟨⟨k.1, hk⟩, rfl⟩]
  congr 1
  have h1 : B.submatrix (Fin.castLE hc) (Function.update (ι ∘ Fin.castLE hc) ⟨i.1, hi⟩ j) =
      (1 : Matrix (Fin c) (Fin c) ℚ).updateCol ⟨i.1, hi⟩ fun a => B (Fin.castLE hc a) j := by
    ext a b
    rw [Matrix.submatrix_apply, Matrix.updateCol_apply]
    by_cases hb : b = ⟨i.1, hi⟩
    · rw [if_pos hb, hb, Function.update_self]
    · rw [if_neg hb, Function.update_of_ne hb, Function.comp_apply, he _ _ b.2, Matrix.one_apply]
      simp only [Fin.ext_iff, Fin.val_castLE]
  rw [h1, ← Matrix.cramer_apply, Matrix.cramer_one]
  rfl

/-- The numerator and denominator of `q` are at most `H`. -/
def HeightLe (H : ℤ) (q : ℚ) : Prop := |q.num| ≤ H ∧ (q.den : ℤ) ≤ H

theorem heightLe_of_quotient {q : ℚ} {y z : ℤ} (hy : |y| ≤ H) (hz : |z| ≤ H) (h0 : z ≠ 0) (h : q * z = y) : HeightLe H q := by
  have hz' : (z : ℚ) ≠ 0 := by exact_mod_cast h0
  obtain rfl : q = Rat.divInt y z := by
    rw [Rat.divInt_eq_div, ← h]
    field_simp
  have hH : 0 ≤ H := (abs_nonneg z).trans hz
  constructor
  · by_cases hy0 : y = 0
    · rw [hy0, Rat.zero_divInt]
      exact hH
    · exact (Int.le_of_dvd (abs_pos.2 hy0) ((abs_dvd_abs _ _).2 (Rat.num_dvd y h0))).trans hy
  · exact (Int.le_of_dvd (abs_pos.2 h0) ((dvd_abs _ _).2 (Rat.den_dvd y z))).trans hz

theorem HeightLe.neg {q : ℚ} (h : HeightLe H q) : HeightLe H (-q) := by
  unfold HeightLe
  rw [Rat.num_neg_eq_neg_num, abs_neg, Rat.den_neg_eq_den]
  exact h

theorem HeightLe.mul {q r : ℚ} {K : ℤ} (h : HeightLe H q) (h' : HeightLe K r) : HeightLe (H * K) (q * r) := by
  have h0 : (0 : ℤ) ≤ H := (abs_nonneg _).trans h.1
  have hd : ((q.den * r.den : ℕ) : ℤ) ≠ 0 := by exact_mod_cast mul_ne_zero q.den_ne_zero r.den_ne_zero
  refine heightLe_of_quotient (y := q.num * r.num) (z := ((q.den * r.den : ℕ) : ℤ)) ?_ ?_ hd ?_
  · rw [abs_mul]
    exact mul_le_mul h.1 h'.1 (abs_nonneg _) h0
  · rw [abs_of_nonneg (by positivity)]
    push_cast
    exact mul_le_mul h.2 h'.2 (by positivity) h0
  · push_cast
    rw [show q * r * ((q.den : ℚ) * r.den) = (q * q.den) * (r * r.den) by ring, Rat.mul_den_eq_num, Rat.mul_den_eq_num]

end Abstalg
