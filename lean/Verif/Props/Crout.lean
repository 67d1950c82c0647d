import Verif.Proofs.Crout
import Verif.Proofs.CroutFloats
import Verif.Props.Order
import Verif.Props.Matrices
import Verif.Props.FloatError
import Verif.Props.ExactFloats
import Mathlib.LinearAlgebra.Matrix.Determinant.Basic
import Mathlib.LinearAlgebra.Matrix.Block

/-! # C100: the factors computed by the determinant, and its rounding errors over floats -/

set_option autoImplicit false

set_option linter.unusedSectionVars false

namespace Abstalg

universe u

variable {E : Type} [Cfg] {n : ℕ}

/-- C100: whatever the base computes, a determinant that returns has factored the matrix: the result is the product of the
diagonal of the left factor, or zero if a column without pivot is left. -/
theorem C100_factors (base : FieldOps E) {A : Fin n → Fin n → E} {x : E} (h : MatrixRing.determinant base n (flatVec A) = .ok x) :
    ∃ (c : ℕ) (σ : Equiv.Perm (Fin n)) (L U : Fin n → Fin n → E), Factors base A c σ L U ∧
      (c = n ∧ (∃ o, base.one = .ok o ∧ combineAll base.mulAssign o (List.ofFn fun i => L i i) = .ok x) ∨
        ∃ i : Fin n, i.1 = c ∧ (∀ r, i ≤ r → base.isZero (L r i) = .ok true) ∧ base.zero = .ok x) := by
  obtain ⟨o, ho, hr⟩ := (C80_determinant base A x).1 h
  obtain ⟨c, σ, L, U, h1, h2⟩ := detRun_factors_all hr
  refine ⟨c, σ, L, U, h1, ?_⟩
  rcases h2 with ⟨h2, h3⟩ | h2
  · exact .inl ⟨h2, o, ho, h3⟩
  · exact .inr h2

/-- The factors of a matrix of variables: the product of the diagonal of the left factor is what `determinant` returns. -/
example : ∃ (c : ℕ) (σ : Equiv.Perm (Fin 2)) (L U : Fin 2 → Fin 2 → Term), Factors termField (fun i j => .var (2 * i.1 + j.1)) c σ L U ∧
    (c = 2 ∧ (∃ o, termField.one = .ok o ∧ combineAll termField.mulAssign o (List.ofFn fun i => L i i) =
        .ok (.mul (.mul .one (.var 0)) (.add (.var 3) (.mul (.mul (.var 1) (.inv (.var 0))) (.neg (.var 2)))))) ∨
      ∃ i : Fin 2, i.1 = c ∧ (∀ r, i ≤ r → termField.isZero (L r i) = .ok true) ∧ termField.zero =
        .ok (.mul (.mul .one (.var 0)) (.add (.var 3) (.mul (.mul (.var 1) (.inv (.var 0))) (.neg (.var 2)))))) :=
  C100_factors termField rfl

/-! ## Over a field -/

section exact

variable {R : Type u} [Field R] {mp : Prop} {rep : E → R → Prop} {base : FieldOps E}

theorem Returns.of_ok {α : Type} {mp : Prop} {c : Res α} {a : α} {P : α → Prop} (h : Returns mp c P) (hc : c = .ok a) : P a := by
  subst hc; exact h

theorem eliminates_exact (h : FieldSpec mp base rep) {a t : E} {x : R} {ps : List (E × E)} {qs : List (R × R)} (ha : rep a x)
    (hp : List.Forall₂ (fun p q => rep p.1 q.1 ∧ rep p.2 q.2) ps qs) (he : Eliminates base a ps t) :
    ∃ y, rep t y ∧ x = y + (qs.map fun q => q.2 * q.1).sum := by
  induction he generalizing x qs with
  | done a => cases hp; exact ⟨x, ha, by simp⟩
  | skip h1 h2 ih =>
    obtain _ | ⟨⟨hu, hl⟩, hp⟩ := hp
    obtain ⟨y, hy, e⟩ := ih ha hp
    refine ⟨y, hy, ?_⟩
    have := (Returns.of_ok (h.isZero hl) h1).1 rfl
    simp [this, e]
  | step m q a' h1 h2 h3 h4 h5 ih =>
    obtain _ | ⟨⟨hu, hl⟩, hp⟩ := hp
    obtain ⟨y, hy, e⟩ := ih (Returns.of_ok (h.addAssign ha (Returns.of_ok (h.mul hu (Returns.of_ok (h.neg hl) h2)) h3)) h4) hp
    refine ⟨y, hy, ?_⟩
    rw [List.map_cons, List.sum_cons, ← add_assoc, add_right_comm, ← e]
    ring

/-- C100: over every field the factors are factors: the rows of the matrix, in the order `σ`, are the product of both. -/
theorem C100_fields (h : FieldSpec mp base rep) {A L U : Fin n → Fin n → E} {c : ℕ} {σ : Equiv.Perm (Fin n)} (hf : Factors base A c σ L U)
    {M : Fin n → Fin n → R} (hM : ∀ i j, rep (A i j) (M i j)) :
    ∃ l u : Fin n → Fin n → R, (∀ r k, (k ≤ r ∨ c ≤ r.1) → rep (L r k) (l r k)) ∧ (∀ k j, k < j → k.1 < c → rep (U k j) (u k j)) ∧
      ∀ r j, M (σ r) j = (lowerFactor c l * upperFactor c u) r j := by
  obtain ⟨l, u, h1, h2, h3, h4⟩ := hf.values hM h.rep_unique (Q := fun x qs y => x = y + (qs.map fun q => q.2 * q.1).sum)
    (S := fun y z w => y = z * w) (fun ha hp he => eliminates_exact h ha hp he) fun {t y l z i b} ht hl h0 hi hb => by
      have hz : z ≠ 0 := fun e => by simpa using (Returns.of_ok (h.isZero hl) h0).2 e
      refine ⟨_, Returns.of_ok (h.mulAssign ht (Returns.of_ok (h.inv hl hz) hi)) hb, ?_⟩
      field_simp
  refine ⟨l, u, h1, h2, fun r j => ?_⟩
  rw [Matrix.mul_apply, sum_factors (fun x y => x * y) zero_mul mul_zero]
  by_cases hr : j ≤ r ∨ c ≤ r.1
  · rw [if_pos hr, mul_one]
    exact h3 r j hr
  · rw [if_neg hr]
    obtain ⟨y, h5, h6⟩ := h4 r j (not_le.1 fun h => hr (.inl h)) (not_le.1 fun h => hr (.inr h))
    rw [h5, h6]

/-- The rows (0, 1), (1, 1) over the field with two elements. -/
example : ∃ (c : ℕ) (σ : Equiv.Perm (Fin 2)) (l u : Fin 2 → Fin 2 → ZMod 2), ∀ r j,
    (!![0, 1; 1, 1] : Matrix (Fin 2) (Fin 2) (ZMod 2)) (σ r) j = (lowerFactor c l * upperFactor c u) r j := by
  have hd : MatrixRing.determinant TwoElementAlgebra.field 2 (flatVec fun i j => ![![false, true], ![true, true]] i j) = .ok true := rfl
  obtain ⟨c, σ, L, U, hf, -⟩ := C100_factors _ hd
  obtain ⟨l, u, -, -, h⟩ := C100_fields TwoElementAlgebra.spec hf (M := !![0, 1; 1, 1]) fun i j => by
    fin_cases i <;> fin_cases j <;> rfl
  exact ⟨c, σ, l, u, h⟩

end exact

/-! ## Over floats -/

section floats

variable {F : FloatFormat}

/-- C100: over floats the product of both factors is close to the rows of the matrix, in the order `σ`: the error of an entry
is bounded in terms of the sum of the absolute values of the products of the factors. -/
theorem C100_floats (hF : InvertibleRange F) {A L U : Fin n → Fin n → F.Val} {c : ℕ} {σ : Equiv.Perm (Fin n)}
    (hf : Factors (ApproxFloats.field F) A c σ L U) {M : Fin n → Fin n → ℚ} (hM : ∀ i j, FloatRep (A i j) (M i j)) :
    ∃ l u : Fin n → Fin n → ℚ, (∀ r k, (k ≤ r ∨ c ≤ r.1) → FloatRep (L r k) (l r k)) ∧
      (∀ k j, k < j → k.1 < c → FloatRep (U k j) (u k j)) ∧
      ∀ r j, |M (σ r) j - (lowerFactor c l * upperFactor c u) r j| ≤
        factorBound F r j (∑ k, |lowerFactor c l r k * upperFactor c u k j|) (l r r) := by
  obtain ⟨l, u, h1, h2, h3, h4⟩ := hf.values hM (fun h h' => h.unique h') (fun ha hp he => eliminates_error ha hp he)
    fun ht hl h0 hi hb => scaled_error hF ht hl h0 hi hb
  refine ⟨l, u, h1, h2, fun r j => ?_⟩
  rw [Matrix.mul_apply, sum_factors (fun x y => x * y) zero_mul mul_zero,
    sum_factors (fun x y => |x * y|) (fun x => by rw [zero_mul, abs_zero]) fun x => by rw [mul_zero, abs_zero]]
  have hlen := factorPairs_length c l u r j
  have hu := (unitRoundoff_pos (F := F)).le
  have hη : (0 : ℚ) ≤ 2 ^ F.emin / 2 := by positivity
  have hT : 0 ≤ ((factorPairs (List.finRange n) c l u r j).map fun p => |p.2 * p.1|).sum := List.sum_nonneg fun y hy => by
    obtain ⟨q, -, rfl⟩ := List.mem_map.1 hy
    positivity
  set ps := factorPairs (List.finRange n) c l u r j
  set T := (ps.map fun p => |p.2 * p.1|).sum
  set S := (ps.map fun p => p.2 * p.1).sum
  have hmono : ∀ {B : ℚ}, 0 ≤ B → dotBound F ps.length B (2 ^ F.emin / 2) ≤ ((1 + unitRoundoff F) ^ min r.1 j.1 - 1) * B +
      (min r.1 j.1 : ℕ) * (1 + unitRoundoff F) ^ min r.1 j.1 * (2 ^ F.emin / 2) := fun {B} hB => by
    refine (dotBound_mono hη hB le_rfl hlen).trans ?_
    unfold dotBound
    gcongr
    · linarith
    · exact Nat.sub_le _ _
  unfold factorBound
  push_cast at hmono ⊢
  set m := min r.1 j.1
  set v := unitRoundoff F
  have hm4 : (1 + v) ^ m ≤ (1 + v) ^ (m + 4) := pow_le_pow_right₀ (by linarith) (by omega)
  have hm5 : (1 + v) ^ m ≤ (1 + v) ^ (m + 5) := pow_le_pow_right₀ (by linarith) (by omega)
  have hm1 : 1 ≤ (1 + v) ^ m := one_le_pow₀ (by linarith)
  have hm0 : (0 : ℚ) ≤ min (r.1 : ℚ) j.1 := by positivity
  set w := (min (r.1 : ℚ) j.1)
  have hwm : w * (1 + v) ^ m * (2 ^ F.emin / 2) ≤ w * (1 + v) ^ (m + 4) * (2 ^ F.emin / 2) := by gcongr
  have hη4 : 0 ≤ (1 + v) ^ (m + 4) * (2 ^ F.emin / 2) := by positivity
  set η := (2 : ℚ) ^ F.emin / 2
  by_cases hr : j ≤ r ∨ c ≤ r.1
  · rw [if_pos hr, if_pos hr, mul_one]
    refine (h3 r j hr).trans ((hmono (by positivity)).trans ?_)
    have h5 : ((1 + v) ^ m - 1) * (|l r j| + T) ≤ ((1 + v) ^ (m + 5) - 1) * (|l r j| + T) := by gcongr
    have h6 := mul_nonneg (abs_nonneg (l r r)) hη4
    nlinarith
  · rw [if_neg hr, if_neg hr]
    obtain ⟨y, h5, h6⟩ := h4 r j (not_le.1 fun h => hr (.inl h)) (not_le.1 fun h => hr (.inr h))
    have h7 := h5.trans (hmono (by positivity))
    have h8 : |y| ≤ (1 + v) ^ 5 * |l r r * u r j| + (1 + v) ^ 4 * η * |l r r| := by
      have := abs_add_le (y - l r r * u r j) (l r r * u r j)
      rw [sub_add_cancel] at this
      linarith
    have h9 := abs_add_le (M (σ r) j - (y + S)) (y - l r r * u r j)
    rw [show M (σ r) j - (y + S) + (y - l r r * u r j) = M (σ r) j - (l r r * u r j + S) by ring] at h9
    refine h9.trans ?_
    have h10 := mul_le_mul_of_nonneg_left h8 (sub_nonneg.2 hm1)
    have h11 : ((1 + v) ^ m - 1) * T ≤ ((1 + v) ^ (m + 5) - 1) * T := by gcongr
    rw [pow_add _ m 5, pow_add _ m 4] at *
    nlinarith

omit [Cfg] in
theorem det_upperFactor {R : Type u} [CommRing R] (c : ℕ) (u : Fin n → Fin n → R) : (upperFactor c u).det = 1 := by
  rw [Matrix.det_of_isUpperTriangular]
  · simp [upperFactor]
  · intro i j hij
    have : j < i := hij
    simp [upperFactor, this.ne', this.not_gt]

omit [Cfg] in
theorem det_lowerFactor {R : Type u} [CommRing R] (l : Fin n → Fin n → R) : (lowerFactor n l).det = ∏ i, l i i := by
  rw [Matrix.det_of_isLowerTriangular]
  · simp [lowerFactor]
  · intro i j hij
    have : i < j := hij
    simp [lowerFactor, this.not_ge]

omit [Cfg] in
theorem det_lowerFactor_zero {R : Type u} [CommRing R] (l : Fin n → Fin n → R) (i : Fin n) (h : ∀ r, i ≤ r → l r i = 0) :
    (lowerFactor i.1 l).det = 0 := by
  refine Matrix.det_eq_zero_of_column_eq_zero i fun r => ?_
  unfold lowerFactor
  by_cases hr : i ≤ r ∨ i.1 ≤ r.1
  · rw [if_pos hr, h r (hr.elim id id)]
  · rw [if_neg hr]

omit [Cfg] in
theorem det_rows (N P : Matrix (Fin n) (Fin n) ℚ) (σ : Equiv.Perm (Fin n)) (h : ∀ r j, N (σ r) j = P r j) :
    ((Equiv.Perm.sign σ : ℤ) : ℚ) * N.det = P.det := by
  rw [← Matrix.det_permute]
  congr 1
  ext r j
  exact h r j

/-- C100: the determinant over floats is, up to the sign of the order of the rows and the rounding errors of the product of the
pivots, the determinant of a matrix close to the given one; a result that is returned for want of a pivot is the determinant zero
of such a matrix. -/
theorem C100_determinant (hF : InvertibleRange F) {A : Fin n → Fin n → F.Val} {M : Matrix (Fin n) (Fin n) ℚ}
    (hM : ∀ i j, FloatRep (A i j) (M i j)) {d : F.Val} (hd : MatrixRing.determinant (ApproxFloats.field F) n (flatVec A) = .ok d) :
    ∃ (x : ℚ) (c : ℕ) (σ : Equiv.Perm (Fin n)) (L U : Fin n → Fin n → F.Val) (l u : Fin n → Fin n → ℚ) (N : Matrix (Fin n) (Fin n) ℚ),
      FloatRep d x ∧ Factors (ApproxFloats.field F) A c σ L U ∧ (∀ r k, (k ≤ r ∨ c ≤ r.1) → FloatRep (L r k) (l r k)) ∧
      (∀ k j, k < j → k.1 < c → FloatRep (U k j) (u k j)) ∧
      (∀ r j, N (σ r) j = (lowerFactor c l * upperFactor c u) r j) ∧
      (∀ r j, |M (σ r) j - N (σ r) j| ≤ factorBound F r j (∑ k, |lowerFactor c l r k * upperFactor c u k j|) (l r r)) ∧
      (c = n ∧ ∏ i, l i i = ((Equiv.Perm.sign σ : ℤ) : ℚ) * N.det ∧
          |x - ((Equiv.Perm.sign σ : ℤ) : ℚ) * N.det| ≤ productBound F (List.ofFn fun i => l i i) ∨
        c < n ∧ N.det = 0 ∧ x = 0) := by
  obtain ⟨c, σ, L, U, h1, h2⟩ := C100_factors _ hd
  obtain ⟨l, u, h3, h4, h5⟩ := C100_floats hF h1 hM
  obtain ⟨N, hN⟩ : ∃ N : Matrix (Fin n) (Fin n) ℚ, ∀ r j, N (σ r) j = (lowerFactor c l * upperFactor c u) r j :=
    ⟨fun i j => (lowerFactor c l * upperFactor c u) (σ.symm i) j, fun r j =>
      congrArg (fun k => (lowerFactor c l * upperFactor c u) k j) (σ.symm_apply_apply r)⟩
  have hdet := det_rows N _ σ hN
  rw [Matrix.det_mul, det_upperFactor, mul_one] at hdet
  have h5' : ∀ r j, |M (σ r) j - N (σ r) j| ≤ factorBound F r j (∑ k, |lowerFactor c l r k * upperFactor c u k j|) (l r r) :=
    fun r j => by rw [hN]; exact h5 r j
  rcases h2 with ⟨hc, o, ho, h6⟩ | ⟨i, hc, h6, h7⟩
  · obtain ⟨o', ho', hone⟩ := (C55_constants (F := F)).2
    rw [ho] at ho'
    cases ho'
    have hl : List.Forall₂ FloatRep (List.ofFn fun i => L i i) (List.ofFn fun i => l i i) := by
      rw [List.ofFn_eq_map, List.ofFn_eq_map, List.forall₂_map_left_iff, List.forall₂_map_right_iff, List.forall₂_same]
      exact fun i _ => h3 i i (.inl le_rfl)
    obtain ⟨x, hx, h9⟩ := product_error hone hl h6
    rw [hc, det_lowerFactor] at hdet
    refine ⟨x, c, σ, L, U, l, u, N, hx, h1, h3, h4, hN, h5', .inl ⟨hc, hdet.symm, ?_⟩⟩
    rw [one_mul, List.prod_ofFn] at h9
    rw [hdet, productBound, List.prod_ofFn]
    exact h9
  · obtain ⟨z, hz, hzero⟩ := (C55_constants (F := F)).1
    rw [h7] at hz
    cases hz
    refine ⟨0, c, σ, L, U, l, u, N, hzero, h1, h3, h4, hN, h5', .inr ⟨hc ▸ i.2, ?_, rfl⟩⟩
    rw [← hc, det_lowerFactor_zero l i fun r hr => by
      have h8 := h3 r i (.inl hr)
      have h9 := h6 r hr
      rw [(C55_equals h8 h8).2.1] at h9
      exact of_decide_eq_true (Res.ok.inj h9)] at hdet
    rcases mul_eq_zero.1 hdet with h | h
    · rcases Int.units_eq_one_or (Equiv.Perm.sign σ) with e | e <;> rw [e] at h <;> norm_num at h
    · exact h

theorem f32_range : InvertibleRange .f32 := ⟨by decide, by decide⟩

theorem f64_range : InvertibleRange .f64 := ⟨by decide, by decide⟩

/-- The rows (2, 1), (4, 6) as floats of 32 bits. -/
example : ∃ (A : Fin 2 → Fin 2 → FloatFormat.f32.Val) (d : FloatFormat.f32.Val), (∀ i j, FloatRep (A i j) ((!![2, 1; 4, 6] : Matrix _ _ ℚ) i j)) ∧
    MatrixRing.determinant (ApproxFloats.field .f32) 2 (flatVec A) = .ok d ∧ FloatRep d 8 ∧
    ∃ (c : ℕ) (σ : Equiv.Perm (Fin 2)) (L U : Fin 2 → Fin 2 → FloatFormat.f32.Val), Factors (ApproxFloats.field .f32) A c σ L U ∧
      ∃ l u : Fin 2 → Fin 2 → ℚ, ∀ r j, |(!![2, 1; 4, 6] : Matrix _ _ ℚ) (σ r) j - (lowerFactor c l * upperFactor c u) r j| ≤
        factorBound .f32 r j (∑ k, |lowerFactor c l r k * upperFactor c u k j|) (l r r) := by
  obtain ⟨v, d, hv, hd, h8⟩ := f32_determinant
  obtain _ | ⟨h1, _ | ⟨h2, _ | ⟨h3, _ | ⟨h4, _ | _⟩⟩⟩⟩ := hv
  rename_i a b c e
  have hA : ∀ i j, FloatRep (![![a, b], ![c, e]] i j) ((!![2, 1; 4, 6] : Matrix _ _ ℚ) i j) := by
    intro i j
    fin_cases i <;> fin_cases j
    exacts [h1, h2, h3, h4]
  have hd' : MatrixRing.determinant (ApproxFloats.field .f32) 2 (flatVec fun i j => ![![a, b], ![c, e]] i j) = .ok d := hd
  refine ⟨_, d, hA, hd', h8, ?_⟩
  obtain ⟨c, σ, L, U, hf, -⟩ := C100_factors _ hd'
  obtain ⟨l, u, -, -, h⟩ := C100_floats f32_range hf hA
  exact ⟨c, σ, L, U, hf, l, u, h⟩

/-- The determinant of every matrix of floats of 64 bits, if it is returned. -/
example {A : Fin n → Fin n → FloatFormat.f64.Val} {M : Matrix (Fin n) (Fin n) ℚ} (hM : ∀ i j, FloatRep (A i j) (M i j))
    {d : FloatFormat.f64.Val} (hd : MatrixRing.determinant (ApproxFloats.field .f64) n (flatVec A) = .ok d) :=
  C100_determinant f64_range hM hd

/-- The rows (2, 1), (4, 6): the result is near the determinant of a matrix near them. -/
example : ∃ (A : Fin 2 → Fin 2 → FloatFormat.f32.Val) (d : FloatFormat.f32.Val), (∀ i j, FloatRep (A i j) ((!![2, 1; 4, 6] : Matrix _ _ ℚ) i j)) ∧
    MatrixRing.determinant (ApproxFloats.field .f32) 2 (flatVec A) = .ok d ∧ FloatRep d 8 ∧
    ∃ (σ : Equiv.Perm (Fin 2)) (l : Fin 2 → Fin 2 → ℚ) (N : Matrix (Fin 2) (Fin 2) ℚ),
      |8 - ((Equiv.Perm.sign σ : ℤ) : ℚ) * N.det| ≤ productBound .f32 (List.ofFn fun i => l i i) := by
  obtain ⟨v, d, hv, hd, h8⟩ := f32_determinant
  obtain _ | ⟨h1, _ | ⟨h2, _ | ⟨h3, _ | ⟨h4, _ | _⟩⟩⟩⟩ := hv
  rename_i a b c e
  have hA : ∀ i j, FloatRep (![![a, b], ![c, e]] i j) ((!![2, 1; 4, 6] : Matrix _ _ ℚ) i j) := by
    intro i j
    fin_cases i <;> fin_cases j
    exacts [h1, h2, h3, h4]
  have hd' : MatrixRing.determinant (ApproxFloats.field .f32) 2 (flatVec fun i j => ![![a, b], ![c, e]] i j) = .ok d := hd
  refine ⟨_, d, hA, hd', h8, ?_⟩
  obtain ⟨x, c, σ, L, U, l, u, N, hx, -, -, -, -, -, h⟩ := C100_determinant f32_range hA hd'
  have e := hx.unique h8
  rcases h with ⟨-, -, h⟩ | ⟨-, -, h⟩
  · exact ⟨σ, l, N, e ▸ h⟩
  · rw [e] at h; norm_num at h

end floats

end Abstalg
