import Verif.Proofs.FloatDot

/-! # C74: rounding errors of floats

`ApproxFloats` panics if a result overflows. The theorems below say how far a result that is
returned can be from the exact one. -/

set_option autoImplicit false

namespace Abstalg

open FloatFormat Polynomial

variable [Cfg] {F : FloatFormat}

omit [Cfg] in
theorem isFloat_least : IsFloat F (2 ^ F.emin) := by
  refine ⟨1, F.emin, Nat.one_lt_two_pow (by have := F.prec_pos; omega), le_rfl,
    F.emin_nonpos.trans F.emax_nonneg, ?_⟩
  rw [abs_of_pos (by positivity), Nat.cast_one, one_mul]

omit [Cfg] in
theorem IsFloat.least_le {y : ℚ} (h : IsFloat F y) (h0 : y ≠ 0) : 2 ^ F.emin ≤ |y| := by
  obtain ⟨m, e, -, h2, -, h4⟩ := h
  have hm : 1 ≤ m := by
    refine Nat.one_le_iff_ne_zero.2 fun hm => h0 ?_
    rw [hm, Nat.cast_zero, zero_mul] at h4
    exact abs_eq_zero.1 h4
  rw [h4]
  have h5 : (2 : ℚ) ^ F.emin ≤ 2 ^ e := zpow_le_zpow_right₀ (by norm_num) h2
  have h6 : (1 : ℚ) ≤ m := by exact_mod_cast hm
  have h7 : (0 : ℚ) < 2 ^ e := by positivity
  nlinarith

omit [Cfg] in
theorem RoundsTo.eq_zero_iff {x y : ℚ} (h : RoundsTo F x y) : y = 0 ↔ |x| ≤ 2 ^ F.emin / 2 := by
  have hu : (0 : ℚ) < 2 ^ F.emin := by positivity
  constructor
  · intro hy
    have h1 := h.of_abs.1.nearest _ isFloat_least
    rw [hy, abs_zero, zero_sub, abs_neg, abs_abs] at h1
    rcases abs_cases ((2 : ℚ) ^ F.emin - |x|) with ⟨h2, -⟩ | ⟨h2, -⟩ <;> linarith
  · intro hx
    by_contra hy
    have h1 := h.nearest 0 isFloat_zero
    rw [zero_sub, abs_neg] at h1
    have h2 := h.isFloat.least_le hy
    have h3 := abs_sub_abs_le_abs_sub y x
    obtain ⟨k, hk⟩ := h.ties 0 isFloat_zero (Ne.symm hy) (by rw [zero_sub, abs_neg]; linarith)
    rw [sub_zero] at hk
    have h4 : (1 : ℚ) = |((2 * k : ℤ) : ℚ)| := by
      have h5 : |y| = |((2 * k : ℤ) : ℚ)| * |y| := by
        conv_lhs => rw [hk, abs_mul, abs_abs]
        push_cast
        rfl
      have h6 : |y| ≠ 0 := by simpa using hy
      field_simp at h5
      exact h5
    have h5 : (1 : ℤ) = |2 * k| := by exact_mod_cast h4
    rcases abs_choice (2 * k) with h6 | h6 <;> rw [h6] at h5 <;> omega

omit [Cfg] in
theorem RoundsTo.bounds {x y : ℚ} (h : RoundsTo F x y) (ho : ¬ Overflows F x) : ErrorBounds F x y := by
  refine ⟨h.mixed ho, fun hx he => ?_, h.eq_zero_iff, (roundsTo_self isFloat_zero).mono h,
    h.mono (roundsTo_self isFloat_zero)⟩
  obtain ⟨h1, h2⟩ := h.relative ho hx he
  rw [div_eq_mul_one_div, mul_comm |_|] at h1 h2
  exact ⟨h1, h2⟩

/-- C74: the error of products, squares, quotients and inverses. -/
theorem C74_product {a b : F.Val} {x y : ℚ} (ha : FloatRep a x) (hb : FloatRep b y) :
    Returns True ((ApproxFloats.field F).mul a b) (fun c => ∃ z, FloatRep c z ∧ ErrorBounds F (x * y) z) ∧
    Returns True ((ApproxFloats.field F).square a)
      (fun c => ∃ z, FloatRep c z ∧ ErrorBounds F (x * x) z) ∧
    (y ≠ 0 → Returns True ((ApproxFloats.field F).div a b)
      (fun c => ∃ z, FloatRep c z ∧ ErrorBounds F (x / y) z) ∧
      Returns True ((ApproxFloats.field F).inv b) (fun c => ∃ z, FloatRep c z ∧ ErrorBounds F y⁻¹ z)) :=
  ⟨rounded_ok (C55_mul ha hb).1 fun _ z h1 h2 ho => ⟨z, h1, h2.bounds ho⟩,
    rounded_ok (C55_mul ha ha).2.2 fun _ z h1 h2 ho => ⟨z, h1, h2.bounds ho⟩,
    fun hy => ⟨rounded_ok ((C55_div ha hb).2 hy) fun _ z h1 h2 ho => ⟨z, h1, h2.bounds ho⟩,
      rounded_ok ((C55_inv hb).2 hy) fun _ z h1 h2 ho => ⟨z, h1, h2.bounds ho⟩⟩⟩

/-- The inverse of three quarters. -/
example : ∃ a : FloatFormat.f32.Val, FloatRep a (3 / 4) ∧
    Returns True ((ApproxFloats.field .f32).inv a) fun c => ∃ z, FloatRep c z ∧
      |z - 4 / 3| ≤ 1 / 2 ^ 24 * (4 / 3) := by
  obtain ⟨a, ha⟩ := f32_three_quarters
  refine ⟨a, ha, ((C74_product ha ha).2.2 (by norm_num)).2.mono fun c ⟨z, h1, _, h2, _⟩ => ⟨z, h1, ?_⟩⟩
  have := (h2 (le_trans (b := 1) (zpow_le_one_of_nonpos₀ (by norm_num) (by decide))
    (by norm_num [abs_of_pos])) (by decide)).1
  norm_num [unitRoundoff, f32, abs_of_pos] at this ⊢
  exact this

/-- C74: sums and differences have a relative error only, even if they are tiny; the error is at
most as large as each operand, and it is itself a number of the format. -/
theorem C74_sum {a b : F.Val} {x y : ℚ} (ha : FloatRep a x) (hb : FloatRep b y) :
    Returns True ((ApproxFloats.field F).add a b) (fun c => ∃ z, FloatRep c z ∧
      |z - (x + y)| ≤ unitRoundoff F * |x + y| ∧ |z - (x + y)| ≤ unitRoundoff F * |z| ∧
      |z - (x + y)| ≤ |x| ∧ |z - (x + y)| ≤ |y| ∧ IsFloat F (x + y - z) ∧ (z = 0 ↔ x + y = 0)) ∧
    Returns True ((ApproxFloats.field F).sub a b) (fun c => ∃ z, FloatRep c z ∧
      |z - (x - y)| ≤ unitRoundoff F * |x - y| ∧ |z - (x - y)| ≤ unitRoundoff F * |z| ∧
      |z - (x - y)| ≤ |x| ∧ |z - (x - y)| ≤ |y| ∧ IsFloat F (x - y - z) ∧ (z = 0 ↔ x = y)) := by
  have key : ∀ {x y z : ℚ}, IsFloat F x → IsFloat F y → RoundsTo F (x + y) z → ¬ Overflows F (x + y) →
      |z - (x + y)| ≤ unitRoundoff F * |x + y| ∧ |z - (x + y)| ≤ unitRoundoff F * |z| ∧
      |z - (x + y)| ≤ |x| ∧ |z - (x + y)| ≤ |y| ∧ IsFloat F (x + y - z) ∧ (z = 0 ↔ x + y = 0) := by
    intro x y z hx hy hz ho
    obtain ⟨h1, h2, h3, h4, h5⟩ := sum_error hx hy ho hz
    rw [div_eq_mul_one_div, mul_comm |_|] at h4 h5
    refine ⟨h4, h5, h1, h2, h3, fun h => ?_, fun h => ?_⟩
    · rw [h, abs_zero, mul_zero, zero_sub, abs_neg] at h5
      exact abs_eq_zero.1 (le_antisymm h5 (abs_nonneg _))
    · rw [h] at hz
      exact hz.unique (roundsTo_self isFloat_zero)
  refine ⟨rounded_ok (C55_add ha hb).1 fun _ z h1 h2 ho => ⟨z, h1, key ha.isFloat hb.isFloat h2 ho⟩,
    rounded_ok (C55_sub ha hb).1 fun _ z h1 h2 ho => ⟨z, h1, ?_⟩⟩
  rw [sub_eq_add_neg] at h2 ho
  have := key ha.isFloat hb.neg.isFloat h2 ho
  rwa [abs_neg, ← sub_eq_add_neg, sub_eq_zero] at this

/-- Three quarters plus one in `f32`. -/
example : ∃ a : FloatFormat.f32.Val, FloatRep a (3 / 4) ∧
    Returns True ((ApproxFloats.field .f32).add a Val.one) fun c => ∃ z, FloatRep c z ∧ z ≠ 0 := by
  obtain ⟨a, ha⟩ := f32_three_quarters
  exact ⟨a, ha, (C74_sum ha floatRep_one).1.mono fun c ⟨z, h1, h⟩ =>
    ⟨z, h1, fun h0 => absurd (h.2.2.2.2.2.1 h0) (by norm_num)⟩⟩

/-- C74: the difference of two numbers within a factor of two of each other is exact, and never
panics. -/
theorem C74_exact_difference {a b : F.Val} {x y : ℚ} (ha : FloatRep a x) (hb : FloatRep b y)
    (h1 : y ≤ 2 * x) (h2 : x ≤ 2 * y) :
    ∃ c, (ApproxFloats.field F).sub a b = .ok c ∧ FloatRep c (x - y) := by
  have h := sterbenz ha.isFloat hb.isFloat h1 h2
  obtain ⟨c, z, h3, h4, h5⟩ := (C55_sub ha hb).1.2 h.not_overflows
  exact ⟨c, h3, h5.unique (roundsTo_self h) ▸ h4⟩

example : ∃ a c : FloatFormat.f32.Val, FloatRep a (3 / 4) ∧
    (ApproxFloats.field .f32).sub Val.one a = .ok c ∧ FloatRep c (1 - 3 / 4) := by
  obtain ⟨a, ha⟩ := f32_three_quarters
  obtain ⟨c, h1, h2⟩ := C74_exact_difference floatRep_one ha (by norm_num) (by norm_num)
  exact ⟨a, c, ha, h1, h2⟩

/-- C74: doubling is exact or panics. -/
theorem C74_double {a : F.Val} {x : ℚ} (ha : FloatRep a x) :
    Returns True ((ApproxFloats.field F).double a) (FloatRep · (x + x)) ∧
    Returns True ((ApproxFloats.field F).add a a) (FloatRep · (x + x)) := by
  have key : ∀ z, RoundsTo F (x + x) z → ¬ Overflows F (x + x) → z = x + x := by
    intro z hz ho
    refine hz.unique (roundsTo_self ?_)
    obtain ⟨k, e, h1, h2, h3, h4⟩ := ha.isFloat.multiple
    have h5 : x + x = k * 2 ^ (e + 1) := by
      rw [h4, zpow_add_one₀ (by norm_num)]
      ring
    by_cases he : e + 1 ≤ F.emax
    · exact isFloat_of_multiple h1 (by omega) he h5
    · obtain rfl : e = F.emax := by omega
      refine isFloat_of_multiple (k := 2 * k) ?_ h2 h3 (by rw [h4]; push_cast; ring)
      rw [Overflows, h5, zpow_add_one₀ (by norm_num), abs_mul,
        abs_of_pos (show (0 : ℚ) < 2 ^ F.emax * 2 by positivity)] at ho
      have h6 : (0 : ℚ) < 2 ^ F.emax := by positivity
      have h7 : |(k : ℚ)| * 2 < 2 ^ F.prec - 1 / 2 := by
        by_contra h7
        refine ho ?_
        nlinarith
      have h8 : ((|2 * k| : ℤ) : ℚ) < ((2 ^ F.prec : ℤ) : ℚ) := by
        push_cast
        rw [abs_mul, abs_two]
        linarith
      exact_mod_cast h8
  exact ⟨rounded_ok (C55_add ha ha).2.2 fun _ z h1 h2 ho => key z h2 ho ▸ h1,
    rounded_ok (C55_add ha ha).1 fun _ z h1 h2 ho => key z h2 ho ▸ h1⟩

example : ∃ a : FloatFormat.f32.Val, FloatRep a (3 / 4) ∧
    Returns True ((ApproxFloats.field .f32).double a) (FloatRep · (3 / 4 + 3 / 4)) := by
  obtain ⟨a, ha⟩ := f32_three_quarters
  exact ⟨a, ha, (C74_double ha).1⟩

/-- C74: a number divided by itself is one. -/
theorem C74_div_self {a : F.Val} {x : ℚ} (ha : FloatRep a x) (hx : x ≠ 0) :
    ∃ c, (ApproxFloats.field F).div a a = .ok c ∧ FloatRep c 1 := by
  have h1 : IsFloat F (x / x) := by rw [div_self hx]; exact floatRep_one.isFloat
  obtain ⟨c, z, h2, h3, h4⟩ := ((C55_div ha ha).2 hx).2 h1.not_overflows
  rw [h4.unique (roundsTo_self h1), div_self hx] at h3
  exact ⟨c, h2, h3⟩

example : ∃ a c : FloatFormat.f32.Val, FloatRep a (3 / 4) ∧
    (ApproxFloats.field .f32).div a a = .ok c ∧ FloatRep c 1 := by
  obtain ⟨a, ha⟩ := f32_three_quarters
  obtain ⟨c, h1, h2⟩ := C74_div_self ha (by norm_num)
  exact ⟨a, c, ha, h1, h2⟩

/-- C74: signs can be moved out of products, quotients and differences. -/
theorem C74_signs {a b : F.Val} {x y : ℚ} (ha : FloatRep a x) (hb : FloatRep b y) :
    Rounded ((ApproxFloats.field F).neg a >>= fun a' => (ApproxFloats.field F).mul a' b) (-(x * y)) ∧
    Rounded ((ApproxFloats.field F).neg b >>= fun b' => (ApproxFloats.field F).mul a b') (-(x * y)) ∧
    Rounded ((ApproxFloats.field F).sub b a) (-(x - y)) ∧
    ∀ {u : ℚ} {z : ℚ}, RoundsTo F u z → RoundsTo F (-u) (-z) := by
  obtain ⟨a', h1, -, h2⟩ := C55_neg ha
  obtain ⟨b', h3, -, h4⟩ := C55_neg hb
  refine ⟨?_, ?_, ?_, fun h => h.neg⟩
  · rw [h1, ok_bind, ← neg_mul]
    exact (C55_mul h2 hb).1
  · rw [h3, ok_bind, ← mul_neg]
    exact (C55_mul ha h4).1
  · rw [neg_sub]
    exact (C55_sub hb ha).1

example : ∃ a : FloatFormat.f32.Val, FloatRep a (3 / 4) ∧
    Rounded ((ApproxFloats.field .f32).sub Val.one a) (-(3 / 4 - 1)) := by
  obtain ⟨a, ha⟩ := f32_three_quarters
  exact ⟨a, ha, (C74_signs ha floatRep_one).2.2.1⟩

/-- C74: each entry of a product of matrices differs from the exact one by no more than
`dotBound`. -/
theorem C74_matrix_mul {n : ℕ} {v w : List F.Val} {M N : Matrix (Fin n) (Fin n) ℚ}
    (hv : MatRep FloatRep v M) (hw : MatRep FloatRep w N) {η : ℚ}
    (h : η = 2 ^ F.emin / 2 ∨ η = 0 ∧ ∀ i j k, NormalProduct F (M i k) (N k j)) :
    Returns True (MatrixRing.mul (ApproxFloats.field F) n v w) (fun u =>
      ∃ P : Matrix (Fin n) (Fin n) ℚ, MatRep FloatRep u P ∧ ∀ i j,
        |P i j - (M * N) i j| ≤ dotBound F n (∑ k, |M i k * N k j|) η) := by
  have h1 : 0 ≤ η ∧ ∀ i j k, ProdErr F η (M i k) (N k j) := by
    rcases h with rfl | ⟨rfl, h⟩
    · exact ⟨by positivity, fun i j k => prodErr _ _⟩
    · exact ⟨le_rfl, fun i j k => (h i j k).prodErr⟩
  refine (matrix_mul_approx h1.1 hv hw h1.2).mono fun u hu => ?_
  choose a h2 P h3 h4 _ _ using hu.2
  exact ⟨P, ⟨hu.1, fun i j => ⟨a i j, h2 i j, h3 i j⟩⟩, h4⟩

/-- The square of the matrix with the only entry three quarters. -/
example : ∃ a : FloatFormat.f32.Val, FloatRep a (3 / 4) ∧
    Returns True (MatrixRing.mul (ApproxFloats.field .f32) 1 [a] [a]) (fun u =>
      ∃ P : Matrix (Fin 1) (Fin 1) ℚ, MatRep FloatRep u P ∧ |P 0 0 - 9 / 16| ≤ 9 / 16 / 2 ^ 24) := by
  obtain ⟨a, ha⟩ := f32_three_quarters
  have hm : MatRep FloatRep [a] (Matrix.of fun _ _ => 3 / 4 : Matrix (Fin 1) (Fin 1) ℚ) :=
    ⟨rfl, fun i j => ⟨a, by rw [Subsingleton.elim i 0, Subsingleton.elim j 0]; rfl, ha⟩⟩
  refine ⟨a, ha, (C74_matrix_mul hm hm (η := 0) (.inr ⟨rfl, fun i j k => .inr ⟨?_, by decide⟩⟩)).mono
    fun u ⟨P, h1, h2⟩ => ⟨P, h1, ?_⟩⟩
  · refine le_trans (b := 2 ^ (-1 : ℤ)) (zpow_le_zpow_right₀ (by norm_num) (by decide)) ?_
    norm_num [abs_of_pos]
  · have := h2 0 0
    rw [Matrix.mul_apply] at this
    norm_num [dotBound, unitRoundoff, f32, abs_of_pos] at this ⊢
    exact this

theorem triples_mul_coeff {n m : ℕ} {p q : ℚ[X]} (hp : ∀ i, n ≤ i → p.coeff i = 0)
    (hq : ∀ i, m ≤ i → q.coeff i = 0) (k : ℕ) :
    (triples n p * triples m q).coeff k =
      (((Finset.antidiagonal k).filter fun i => i.1 < n ∧ i.2 < m).card, (p * q).coeff k,
        ∑ i ∈ Finset.antidiagonal k, |p.coeff i.1 * q.coeff i.2|) := by
  have h1 : ∀ i, ((triples n p).coeff i).2.1 = p.coeff i ∧ ((triples n p).coeff i).2.2 = |p.coeff i| := by
    intro i
    rw [triples_coeff]
    split
    · exact ⟨rfl, rfl⟩
    · rw [hp i (by omega)]
      exact ⟨rfl, abs_zero.symm⟩
  have h2 : ∀ i, ((triples m q).coeff i).2.1 = q.coeff i ∧ ((triples m q).coeff i).2.2 = |q.coeff i| := by
    intro i
    rw [triples_coeff]
    split
    · exact ⟨rfl, rfl⟩
    · rw [hq i (by omega)]
      exact ⟨rfl, abs_zero.symm⟩
  have h3 : ∀ n p i, ((triples n p).coeff i).1 = if i < n then 1 else 0 := by
    intro n p i
    rw [triples_coeff]
    split <;> rfl
  rw [coeff_mul, coeff_mul]
  refine Prod.ext ?_ (Prod.ext ?_ ?_)
  · rw [Prod.fst_sum, Finset.card_filter]
    refine Finset.sum_congr rfl fun i _ => ?_
    rw [Prod.fst_mul, h3, h3]
    by_cases h4 : i.1 < n <;> by_cases h5 : i.2 < m <;> simp [h4, h5]
  · rw [Prod.snd_sum, Prod.fst_sum]
    exact Finset.sum_congr rfl fun i _ => by rw [Prod.snd_mul, Prod.fst_mul, (h1 _).1, (h2 _).1]
  · rw [Prod.snd_sum, Prod.snd_sum]
    exact Finset.sum_congr rfl fun i _ => by
      rw [Prod.snd_mul, Prod.snd_mul, (h1 _).2, (h2 _).2, abs_mul]

/-- C74: each coefficient of a product of polynomials differs from the exact one by no more than
`dotBound`. -/
theorem C74_polynomial_mul {v w : List F.Val} {p q : ℚ[X]} (hv : CoefRep FloatRep v p)
    (hw : CoefRep FloatRep w q) (hn : v ≠ []) (hm : w ≠ []) {η : ℚ}
    (h : η = 2 ^ F.emin / 2 ∨ η = 0 ∧ ∀ i j, NormalProduct F (p.coeff i) (q.coeff j)) :
    Returns True ((PolynomialAlgebra.unitaryRing (ApproxFloats.field F).toUnitaryRingOps).mul v w)
      (fun u => u.length = v.length + w.length - 1 ∧ ∀ k (hk : k < u.length), ∃ y, FloatRep u[k] y ∧
        |y - (p * q).coeff k| ≤
          dotBound F ((Finset.antidiagonal k).filter fun i => i.1 < v.length ∧ i.2 < w.length).card
            (∑ i ∈ Finset.antidiagonal k, |p.coeff i.1 * q.coeff i.2|) η) := by
  have h1 : 0 ≤ η ∧ ∀ i j, ProdErr F η (p.coeff i) (q.coeff j) := by
    rcases h with rfl | ⟨rfl, h⟩
    · exact ⟨by positivity, fun i j => prodErr _ _⟩
    · exact ⟨le_rfl, fun i j => (h i j).prodErr⟩
  refine (poly_mul_approx h1.1 ⟨rfl, hv.1⟩ ⟨rfl, hw.1⟩ (by simpa using hn) (by simpa using hm)
    h1.2).mono fun u hu => ⟨hu.1, fun k hk => ?_⟩
  obtain ⟨y, h2, h3, -, -⟩ := hu.2 k hk
  rw [triples_mul_coeff hv.2 hw.2] at h3
  exact ⟨y, h2, h3⟩

/-- The square of the constant polynomial three quarters. -/
example : ∃ a : FloatFormat.f32.Val, FloatRep a (3 / 4) ∧
    Returns True ((PolynomialAlgebra.unitaryRing (ApproxFloats.field .f32).toUnitaryRingOps).mul [a] [a])
      (fun u => u.length = 1) := by
  obtain ⟨a, ha⟩ := f32_three_quarters
  have hp : CoefRep FloatRep [a] (C (3 / 4) : ℚ[X]) := by
    refine ⟨fun i hi => ?_, fun i hi => coeff_C_of_ne_zero (by simp at hi; omega)⟩
    obtain rfl : i = 0 := by simpa using hi
    rw [coeff_C_zero]
    exact ha
  exact ⟨a, ha, (C74_polynomial_mul hp hp (by simp) (by simp) (.inl rfl)).mono fun u hu => hu.1⟩

/-- A power of a number of absolute value at least one, computed with at most one rounding less than
it has factors. -/
def PowApprox (F : FloatFormat) (x : ℚ) (a : F.Val) (n : Multiplicative ℕ) : Prop :=
  ∃ θ, FloatRep a (x ^ n.toAdd * θ) ∧ 1 ≤ |x ^ n.toAdd * θ| ∧
    (1 - unitRoundoff F) ^ (n.toAdd - 1) ≤ θ ∧ θ ≤ (1 + unitRoundoff F) ^ (n.toAdd - 1)

omit [Cfg] in
theorem unitRoundoff_le : unitRoundoff F ≤ 1 / 2 := by
  unfold unitRoundoff
  rw [div_le_div_iff₀ (by positivity) (by norm_num)]
  have := pow_le_pow_right₀ (show (1 : ℚ) ≤ 2 by norm_num) (show 1 ≤ F.prec from F.prec_pos)
  linarith

omit [Cfg] in
/-- The rounding of a number of absolute value at least one. -/
theorem RoundsTo.factor {x z : ℚ} (hF : F.emin + F.prec ≤ 1) (h : RoundsTo F x z)
    (ho : ¬ Overflows F x) (hx : 1 ≤ |x|) : 1 ≤ |z| ∧ ∃ δ, z = x * (1 + δ) ∧ |δ| ≤ unitRoundoff F := by
  have h1 : (2 : ℚ) ^ (F.emin + F.prec - 1) ≤ 1 := zpow_le_one_of_nonpos₀ (by norm_num) (by omega)
  have h2 := (h.bounds ho).2.1 (h1.trans hx) (by have := F.emax_nonneg; omega)
  refine ⟨?_, (z - x) / x, ?_, ?_⟩
  · exact (roundsTo_self (floatRep_one (F := F)).isFloat).mono h.of_abs.1 hx
  · have : x ≠ 0 := by rintro rfl; norm_num at hx
    field_simp
    ring
  · rw [abs_div, div_le_iff₀ (by linarith)]
    exact h2.1

omit [Cfg] in
theorem powApprox_mul (hF : F.emin + F.prec ≤ 1) {x : ℚ} {a b c : F.Val} {n m : Multiplicative ℕ}
    (ha : PowApprox F x a n) (hb : PowApprox F x b m) {y : ℚ} (hy : FloatRep c y) {u v : ℚ}
    (hau : FloatRep a u) (hbv : FloatRep b v)
    (h : RoundsTo F (u * v) y) (ho : ¬ Overflows F (u * v)) : PowApprox F x c (n * m) := by
  have hu0 := unitRoundoff_pos (F := F)
  have hu1 := unitRoundoff_le (F := F)
  obtain ⟨θ, h1, h2, h3, h4⟩ := ha
  obtain ⟨φ, h5, h6, h7, h8⟩ := hb
  obtain rfl := hau.unique h1
  obtain rfl := hbv.unique h5
  unfold PowApprox
  rw [toAdd_mul]
  have hmul : 1 ≤ |x ^ n.toAdd * θ * (x ^ m.toAdd * φ)| := by rw [abs_mul]; nlinarith
  have hexact : IsFloat F (x ^ n.toAdd * θ * (x ^ m.toAdd * φ)) →
      y = x ^ (n.toAdd + m.toAdd) * (θ * φ) := fun hf => by
    rw [h.unique (roundsTo_self hf), pow_add]
    ring
  have hp1 : ∀ k, (0 : ℚ) < (1 - unitRoundoff F) ^ k := fun k => pow_pos (by linarith) k
  rcases Nat.eq_zero_or_pos n.toAdd with hn | hn
  · rw [hn, Nat.zero_sub, pow_zero] at h3 h4
    obtain rfl : θ = 1 := le_antisymm h4 h3
    refine ⟨φ, ?_, ?_, by rwa [hn, zero_add], by rwa [hn, zero_add]⟩
    · rw [hn, zero_add]
      have := hexact (by rw [hn, pow_zero, one_mul, one_mul]; exact h5.isFloat)
      rw [hn, zero_add, one_mul] at this
      exact this ▸ hy
    · rwa [hn, zero_add]
  rcases Nat.eq_zero_or_pos m.toAdd with hm | hm
  · rw [hm, Nat.zero_sub, pow_zero] at h7 h8
    obtain rfl : φ = 1 := le_antisymm h8 h7
    refine ⟨θ, ?_, ?_, by rwa [hm, add_zero], by rwa [hm, add_zero]⟩
    · rw [hm, add_zero]
      have := hexact (by rw [hm, pow_zero, one_mul, mul_one]; exact h1.isFloat)
      rw [hm, add_zero, mul_one] at this
      exact this ▸ hy
    · rwa [hm, add_zero]
  obtain ⟨h9, δ, h10, h11⟩ := h.factor hF ho hmul
  rw [abs_le] at h11
  have h12 : n.toAdd + m.toAdd - 1 = (n.toAdd - 1) + (m.toAdd - 1) + 1 := by omega
  have h13 : y = x ^ (n.toAdd + m.toAdd) * (θ * φ * (1 + δ)) := by rw [h10, pow_add]; ring
  have hp2 : ∀ k, (0 : ℚ) < (1 + unitRoundoff F) ^ k := fun k => pow_pos (by linarith) k
  have hθ := (hp1 (n.toAdd - 1)).trans_le h3
  have hφ := (hp1 (m.toAdd - 1)).trans_le h7
  refine ⟨θ * φ * (1 + δ), h13 ▸ hy, h13 ▸ h9, ?_, ?_⟩
  · rw [h12, pow_succ, pow_add]
    exact mul_le_mul (mul_le_mul h3 h7 (hp1 _).le hθ.le) (by linarith) (by linarith)
      (mul_pos hθ hφ).le
  · rw [h12, pow_succ, pow_add]
    exact mul_le_mul (mul_le_mul h4 h8 hφ.le (hp2 _).le) (by linarith) (by linarith)
      (mul_pos (hp2 _) (hp2 _)).le

theorem powApprox_loop (hF : F.emin + F.prec ≤ 1) {x : ℚ} (hx : 1 ≤ |x|) {a : F.Val}
    (ha : FloatRep a x) (n : ℕ) :
    Returns True (powerLoop (ApproxFloats.field F).mulAssign (ApproxFloats.field F).square n Val.one a)
      (PowApprox F x · (.ofAdd n)) := by
  have h := powerLoop_spec (mp := True) (rep := PowApprox F x)
    (mulAssign := (ApproxFloats.field F).mulAssign) (square := (ApproxFloats.field F).square)
    (fun {a b n m} ha hb => by
      obtain ⟨θ, h1, -⟩ := id ha
      obtain ⟨φ, h2, -⟩ := id hb
      exact rounded_ok (C55_mul h1 h2).2.1 fun c z h3 h4 ho => powApprox_mul hF ha hb h3 h1 h2 h4 ho)
    (fun {a n} ha => by
      obtain ⟨θ, h1, -⟩ := id ha
      exact rounded_ok (C55_mul h1 h1).2.2 fun c z h3 h4 ho => powApprox_mul hF ha ha h3 h1 h1 h4 ho)
    n (r := Val.one) (e := a) (y := 1) (x := .ofAdd 1)
    ⟨1, by simpa using floatRep_one, by simp, by simp, by simp⟩
    ⟨1, by simpa using ha, by simpa using hx, by simp, by simp⟩
  rwa [one_mul, ← ofAdd_nsmul, smul_eq_mul, mul_one] at h

/-- C74: the error of powers. For exponents at least zero and numbers of absolute value at least one, the
result has at most `n - 1` relative errors; for negative exponents and numbers of absolute value at
most one, there are `- n` more of them, from the inverse. -/
theorem C74_power (hF : F.emin + F.prec ≤ 1) {a : F.Val} {x : ℚ} (ha : FloatRep a x) (n : ℤ)
    (hn : isizeMin < n) (h : 0 ≤ n ∧ 1 ≤ |x| ∨ n < 0 ∧ x ≠ 0 ∧ |x| ≤ 1) :
    Returns True ((ApproxFloats.field F).power n a) (fun c => ∃ θ k, FloatRep c (x ^ n * θ) ∧
      k = (if n < 0 then 2 * n.natAbs - 1 else n.natAbs - 1) ∧
      (1 - unitRoundoff F) ^ k ≤ θ ∧ θ ≤ (1 + unitRoundoff F) ^ k) := by
  have hx : x ≠ 0 := by
    rcases h with ⟨-, h⟩ | ⟨-, h, -⟩
    · rintro rfl
      norm_num at h
    · exact h
  have hu0 := unitRoundoff_pos (F := F)
  have hu1 := unitRoundoff_le (F := F)
  show Returns True ((ApproxFloats.field F).isZero a >>= fun b => if b then _ else
    powerDefault (ApproxFloats.field F).one (ApproxFloats.field F).mulAssign
      (ApproxFloats.field F).square
      (fun e => do Res.unwrap (← (ApproxFloats.field F).tryInv e)) n a) _
  rw [(C55_equals ha ha).2.1, ok_bind, if_neg (by simpa using hx)]
  unfold powerDefault
  rcases h with ⟨h1, h2⟩ | ⟨h1, -, h2⟩
  · obtain ⟨m, rfl⟩ := Int.eq_ofNat_of_zero_le h1
    rw [if_neg (by omega), if_neg (by omega)]
    refine (powApprox_loop hF h2 ha m).mono fun c ⟨θ, h3, _, h4, h5⟩ => ⟨θ, _, ?_, rfl, h4, h5⟩
    rw [zpow_natCast]
    exact h3
  · obtain ⟨m, rfl⟩ : ∃ m : ℕ, n = -(m : ℤ) := ⟨n.natAbs, by omega⟩
    rw [if_pos h1, if_pos h1, isizeNeg, if_neg (by omega), neg_neg]
    have hinv : 1 ≤ |x⁻¹| := by
      rw [abs_inv]
      exact (one_le_inv₀ (abs_pos.2 hx)).2 h2
    by_cases ho : Overflows F x⁻¹
    · obtain ⟨h3, -⟩ := (C55_try_inv ha).1 (.inr ho)
      simp only [h3]
      trivial
    · obtain ⟨b, y, h3, -, h4, h5⟩ := (C55_try_inv ha).2 hx ho
      obtain ⟨h6, δ, h7, h8⟩ := h5.factor hF ho hinv
      rw [abs_le] at h8
      simp only [h3]
      refine (powApprox_loop hF h6 h4 m).mono fun c ⟨θ, h9, _, h10, h11⟩ =>
        ⟨(1 + δ) ^ m * θ, _, ?_, rfl, ?_, ?_⟩
      · rw [zpow_neg, zpow_natCast, ← mul_assoc, ← inv_pow, ← mul_pow, ← h7]
        exact h9
      · have : 2 * (-(m : ℤ)).natAbs - 1 = m + (m - 1) := by omega
        rw [this, pow_add]
        exact mul_le_mul (pow_le_pow_left₀ (by linarith) (by linarith) m) h10
          (pow_nonneg (by linarith) _) (pow_nonneg (by linarith) _)
      · have : 2 * (-(m : ℤ)).natAbs - 1 = m + (m - 1) := by omega
        rw [this, pow_add]
        exact mul_le_mul (pow_le_pow_left₀ (by linarith) (by linarith) m) h11
          ((pow_nonneg (by linarith) _).trans h10) (pow_nonneg (by linarith) _)

/-- The inverse square of three quarters. -/
example : ∃ a : FloatFormat.f32.Val, FloatRep a (3 / 4) ∧
    Returns True ((ApproxFloats.field .f32).power (-2) a) (fun c => ∃ θ k, FloatRep c ((3 / 4) ^ (-2 : ℤ) * θ) ∧
      k = 3 ∧ (1 - 1 / 2 ^ 24) ^ k ≤ θ ∧ θ ≤ (1 + 1 / 2 ^ 24) ^ k) := by
  obtain ⟨a, ha⟩ := f32_three_quarters
  have : isizeMin < -2 := by
    have h1 := Cfg.ptrBits_ge
    have h2 : (2 : ℤ) ^ 15 ≤ 2 ^ (Cfg.ptrBits - 1) := pow_le_pow_right₀ (by norm_num) (by omega)
    unfold isizeMin
    omega
  exact ⟨a, ha, C74_power (by decide) ha (-2) this (.inr ⟨by decide, by norm_num, by norm_num [abs_of_pos]⟩)⟩

/-- C74: the product with the inverse is not always one, products are not always associative and do not
always distribute over sums: `49 * (1 / 49)`, `(3 * (1 / 7)) * 5` and `3 * (2 ^ 53 + 1)` in `f64`,
`41 * (1 / 41)`, `(3 * (1 / 7)) * 5` and `3 * (2 ^ 24 + 1)` in `f32`. -/
theorem C74_failing_laws (F : FloatFormat) (k : ℤ) (hF : F = .f64 ∧ k = 49 ∨ F = .f32 ∧ k = 41) :
    (∃ a b c : F.Val, FloatRep a k ∧ (ApproxFloats.field F).inv a = .ok b ∧
      (ApproxFloats.field F).mul a b = .ok c ∧ (ApproxFloats.field F).isOne c = .ok false) ∧
    (∃ a b c d e f g : F.Val, (ApproxFloats.field F).mul a b = .ok d ∧
      (ApproxFloats.field F).mul d c = .ok e ∧ (ApproxFloats.field F).mul b c = .ok f ∧
      (ApproxFloats.field F).mul a f = .ok g ∧ (ApproxFloats.field F).equals e g = .ok false) ∧
    ∃ a b c d e f g h : F.Val, (ApproxFloats.field F).add b c = .ok d ∧
      (ApproxFloats.field F).mul a d = .ok e ∧ (ApproxFloats.field F).mul a b = .ok f ∧
      (ApproxFloats.field F).mul a c = .ok g ∧ (ApproxFloats.field F).add f g = .ok h ∧
      (ApproxFloats.field F).equals e h = .ok false := by
  have key : ∀ (n : ℤ), |n| < 2 ^ F.prec → FloatRep (Val.ofInt n : F.Val) n := fun n hn => by
    have hf := (C56_int n).2 hn
    obtain ⟨m, h1, h2⟩ := (round_spec (F := F) false n).2 hf.not_overflows
    exact h2.unique (roundsTo_self hf) ▸ h1
  have hc : ∀ {a : F.Val}, a.isFinite = true → ApproxFloats.checked a = .ok a := fun h => by
    unfold ApproxFloats.checked
    rw [h]
    rfl
  have hd : ∀ {a b : F.Val}, b.eq Val.zero = false → (a.div b).isFinite = true →
      ApproxFloats.div F a b = .ok (a.div b) := fun h h' => by
    unfold ApproxFloats.div
    rw [h, hc h']
    rfl
  obtain ⟨rfl, rfl⟩ | ⟨rfl, rfl⟩ := hF
  · refine ⟨⟨Val.ofInt 49, _, _, key 49 (by decide), hd (by decide +kernel) (by decide +kernel),
      hc (by decide +kernel), congrArg Res.ok (by decide +kernel)⟩,
      ⟨Val.ofInt 3, Val.div Val.one (Val.ofInt 7), Val.ofInt 5, _, _, _, _, hc (by decide +kernel),
        hc (by decide +kernel), hc (by decide +kernel), hc (by decide +kernel),
        congrArg Res.ok (by decide +kernel)⟩,
      ⟨Val.ofInt 3, Val.ofInt (2 ^ 53), Val.ofInt 1, _, _, _, _, _, hc (by decide +kernel),
        hc (by decide +kernel), hc (by decide +kernel), hc (by decide +kernel),
        hc (by decide +kernel), congrArg Res.ok (by decide +kernel)⟩⟩
  · refine ⟨⟨Val.ofInt 41, _, _, key 41 (by decide), hd (by decide +kernel) (by decide +kernel),
      hc (by decide +kernel), congrArg Res.ok (by decide +kernel)⟩,
      ⟨Val.ofInt 3, Val.div Val.one (Val.ofInt 7), Val.ofInt 5, _, _, _, _, hc (by decide +kernel),
        hc (by decide +kernel), hc (by decide +kernel), hc (by decide +kernel),
        congrArg Res.ok (by decide +kernel)⟩,
      ⟨Val.ofInt 3, Val.ofInt (2 ^ 24), Val.ofInt 1, _, _, _, _, _, hc (by decide +kernel),
        hc (by decide +kernel), hc (by decide +kernel), hc (by decide +kernel),
        hc (by decide +kernel), congrArg Res.ok (by decide +kernel)⟩⟩

example : ∃ a b c : FloatFormat.f64.Val, FloatRep a 49 ∧ (ApproxFloats.field .f64).inv a = .ok b ∧
    (ApproxFloats.field .f64).mul a b = .ok c ∧ (ApproxFloats.field .f64).isOne c = .ok false :=
  (C74_failing_laws .f64 49 (.inl ⟨rfl, rfl⟩)).1

end Abstalg
