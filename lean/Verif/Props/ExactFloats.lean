import Verif.Proofs.ExactFloats
import Verif.Props.Simulation
import Verif.Props.FloatError

/-! # C77: computations with floats that need no rounding

`exactFloats F` (`Spec/ExactFloats`) computes with rational numbers and gives up as soon as a result is
not a number of the format. -/

set_option autoImplicit false

namespace Abstalg

open FloatFormat Polynomial

variable {F : FloatFormat} [Cfg]

/-- C77: whenever an exact operation does not give up, the same method of the floats returns that very
number. -/
theorem C77_exact :
    FollowsField (fun x (a : F.Val) => FloatRep a x) (exactFloats F) (ApproxFloats.field F) :=
  ApproxFloats.follows_exact

omit [Cfg] in
theorem f32_isFloat {m e : ℤ} (hm : |m| < 2 ^ 24) (he : -149 ≤ e) (he' : e ≤ 104) :
    IsFloat f32 (m * 2 ^ e) := by
  have h0 : (0 : ℚ) < 2 ^ e := by positivity
  refine FixedPoint.isFloat ⟨m, rfl⟩ he he' ?_
  rw [abs_mul, abs_of_pos h0]
  refine mul_lt_mul_of_pos_right ?_ h0
  exact_mod_cast hm

/-- Three quarters plus three quarters. -/
example : ∃ a c : FloatFormat.f32.Val, FloatRep a (3 / 4) ∧
    (ApproxFloats.field .f32).add a a = .ok c ∧ FloatRep c (3 / 4 + 3 / 4) := by
  obtain ⟨a, ha⟩ := f32_three_quarters
  have h1 : IsFloat f32 (3 / 4 + 3 / 4) := by
    have := f32_isFloat (m := 3) (e := -1) (by decide) (by decide) (by decide)
    norm_num at this ⊢
    exact this
  have h2 : (exactFloats f32).add (3 / 4) (3 / 4) = .ok (3 / 4 + 3 / 4) := if_pos h1
  have h3 := C77_exact.add ha ha
  rw [h2] at h3
  obtain ⟨c, h4, h5⟩ := h3 _ rfl
  exact ⟨a, c, ha, h4, h5⟩

/-- C77: whenever an exact operation does not give up, the same method of the rational numbers returns the
numerator and the denominator of that number. -/
theorem C77_rationals :
    FollowsField (fun x (a : ℤ × ℤ) => IsFloat F x ∧ a.1 = x.num ∧ a.2 = x.den) (exactFloats F)
      ReducedFractions.QQ := ReducedFractions.follows_exact

omit [Cfg] in
theorem f32_half : IsFloat f32 (1 / 2) := by
  have := f32_isFloat (m := 1) (e := -1) (by decide) (by decide) (by decide)
  norm_num at this ⊢
  exact this

/-- A half times a half. -/
example : ∃ c : ℤ × ℤ, ReducedFractions.QQ.mul (1, 2) (1, 2) = .ok c ∧
    c.1 = (1 / 2 * (1 / 2) : ℚ).num ∧ c.2 = (1 / 2 * (1 / 2) : ℚ).den := by
  have h1 : IsFloat f32 (1 / 2 * (1 / 2)) := by
    have := f32_isFloat (m := 1) (e := -2) (by decide) (by decide) (by decide)
    norm_num at this ⊢
    exact this
  have h2 : (exactFloats f32).mul (1 / 2) (1 / 2) = .ok (1 / 2 * (1 / 2)) := if_pos h1
  have h3 := (C77_rationals (F := f32)).mul (a := (1 / 2)) (b := (1 / 2)) (a' := (1, 2)) (b' := (1, 2))
    ⟨f32_half, by decide +kernel⟩ ⟨f32_half, by decide +kernel⟩
  obtain ⟨c, h4, -, h5⟩ := h3 _ h2
  exact ⟨c, h4, h5⟩

omit [Cfg] in
theorem lrel_pairs {es : List ℚ} {v : List F.Val} (hv : LRel (fun x (a : F.Val) => FloatRep a x) es v) :
    LRel (fun x (a : ℤ × ℤ) => IsFloat F x ∧ a.1 = x.num ∧ a.2 = x.den) es
      (es.map fun x => (x.num, (x.den : ℤ))) := by
  induction hv with
  | nil => exact .nil
  | cons h _ ih => exact .cons ⟨h.isFloat, rfl, rfl⟩ ih

omit [Cfg] in
theorem eq_pairs {es : List ℚ} {v : List (ℤ × ℤ)}
    (hv : LRel (fun x (a : ℤ × ℤ) => IsFloat F x ∧ a.1 = x.num ∧ a.2 = x.den) es v) :
    v = es.map fun x => (x.num, (x.den : ℤ)) := by
  induction hv with
  | nil => rfl
  | cons h _ ih => rw [List.map_cons, ← ih, ← h.2.1, ← h.2.2]

/-- C77: if the elimination with exact operations does not give up, the determinant of the floats is the
one of the same rational numbers. -/
theorem C77_determinant {n : ℕ} {es : List ℚ} {v : List F.Val} {d : ℚ}
    (hv : LRel (fun x (a : F.Val) => FloatRep a x) es v)
    (h : MatrixRing.determinant (exactFloats F) n es = .ok d) :
    (∃ a, MatrixRing.determinant (ApproxFloats.field F) n v = .ok a ∧ FloatRep a d) ∧
    MatrixRing.determinant ReducedFractions.QQ n (es.map fun x => (x.num, (x.den : ℤ))) =
      .ok (d.num, (d.den : ℤ)) := by
  refine ⟨C67_determinant n C77_exact hv d h, ?_⟩
  obtain ⟨a, h1, -, h2, h3⟩ := C67_determinant n (C77_rationals (F := F)) (lrel_pairs hv) d h
  rw [h1]
  exact congrArg Res.ok (Prod.ext h2 h3)

omit [Cfg] in
theorem f32_integer (m : ℤ) (hm : |m| < 2 ^ 24) : IsFloat f32 m := by
  have := f32_isFloat (e := 0) hm (by decide) (by decide)
  rwa [zpow_zero, mul_one] at this

omit [Cfg] in
theorem representable_ok {x y : ℚ} (h : IsFloat F y) (hxy : x = y) : representable F x = .ok y := by
  subst hxy
  exact if_pos h

omit [Cfg] in
/-- The matrix with the rows (2, 1), (4, 6), as floats. -/
theorem f32_matrix : ∃ v : List f32.Val, LRel (fun x (a : f32.Val) => FloatRep a x) [2, 1, 4, 6] v := by
  have h (m : ℤ) (hm : |m| < 2 ^ 24) := (f32_integer m hm).rep
  obtain ⟨a, ha⟩ := h 2 (by decide)
  obtain ⟨b, hb⟩ := h 1 (by decide)
  obtain ⟨c, hc⟩ := h 4 (by decide)
  obtain ⟨d, hd⟩ := h 6 (by decide)
  exact ⟨[a, b, c, d], .cons (by exact_mod_cast ha) (.cons (by exact_mod_cast hb)
    (.cons (by exact_mod_cast hc) (.cons (by exact_mod_cast hd) .nil)))⟩

theorem exactFloats_eqs : (∀ x y, (exactFloats F).mul x y = representable F (x * y)) ∧
    (∀ x y, (exactFloats F).mulAssign x y = representable F (x * y)) ∧
    (∀ x y, (exactFloats F).add x y = representable F (x + y)) ∧
    (∀ x y, (exactFloats F).addAssign x y = representable F (x + y)) ∧
    (∀ x, (exactFloats F).neg x = representable F (-x)) ∧
    (∀ x, (exactFloats F).inv x = if x = 0 then .panic else representable F x⁻¹) ∧
    (∀ x y, (exactFloats F).div x y = if y = 0 then .panic else representable F (x / y)) ∧
    (∀ x, (exactFloats F).isZero x = .ok (decide (x = 0))) ∧
    (∀ x y, (exactFloats F).equals x y = .ok (decide (x = y))) ∧ (exactFloats F).one = .ok 1 ∧
    (exactFloats F).zero = .ok 0 := by
  refine ⟨fun _ _ => rfl, fun _ _ => rfl, fun _ _ => rfl, fun _ _ => rfl, fun _ => rfl, fun _ => rfl,
    fun _ _ => rfl, fun _ => congrArg Res.ok ?_, fun _ _ => congrArg Res.ok ?_, rfl, rfl⟩
  · simp
  · simp

omit [Cfg] in
/-- Some numbers of the format. -/
theorem f32_representable : (∀ m : ℤ, |m| < 2 ^ 24 → representable f32 m = .ok (m : ℚ)) ∧
    representable f32 (1 / 2) = .ok (1 / 2) ∧ representable f32 (1 / 4) = .ok (1 / 4) ∧
    representable f32 (3 / 4) = .ok (3 / 4) ∧ representable f32 (-(1 / 8)) = .ok (-(1 / 8)) ∧
    representable f32 (1 / 8) = .ok (1 / 8) ∧ representable f32 (-(1 / 2)) = .ok (-(1 / 2)) := by
  have h (m e : ℤ) (hm : |m| < 2 ^ 24) (he : -149 ≤ e) (he' : e ≤ 104) := f32_isFloat hm he he'
  refine ⟨fun m hm => representable_ok (f32_integer m hm) rfl, ?_, ?_, ?_, ?_, ?_, ?_⟩
  · exact representable_ok (h 1 (-1) (by decide) (by decide) (by decide)) (by norm_num) |>.trans (by norm_num)
  · exact representable_ok (h 1 (-2) (by decide) (by decide) (by decide)) (by norm_num) |>.trans (by norm_num)
  · exact representable_ok (h 3 (-2) (by decide) (by decide) (by decide)) (by norm_num) |>.trans (by norm_num)
  · exact representable_ok (h (-1) (-3) (by decide) (by decide) (by decide)) (by norm_num) |>.trans (by norm_num)
  · exact representable_ok (h 1 (-3) (by decide) (by decide) (by decide)) (by norm_num) |>.trans (by norm_num)
  · exact representable_ok (h (-1) (-1) (by decide) (by decide) (by decide)) (by norm_num) |>.trans (by norm_num)

/-- The determinant of the matrix with the rows (2, 1), (4, 6). -/
theorem f32_determinant : ∃ v a, LRel (fun x (a : f32.Val) => FloatRep a x) [2, 1, 4, 6] v ∧
    MatrixRing.determinant (ApproxFloats.field f32) 2 v = .ok a ∧ FloatRep a 8 := by
  obtain ⟨v, hv⟩ := f32_matrix
  have h : MatrixRing.determinant (exactFloats f32) 2 [2, 1, 4, 6] = .ok 8 := by
    obtain ⟨hi, g1, g2, g3, g4, g5, g6⟩ := f32_representable
    have h1 := hi 1 (by decide)
    have h2 := hi 2 (by decide)
    have h3 := hi (-4) (by decide)
    have h4 := hi (-2) (by decide)
    have h5 := hi 0 (by decide)
    have h6 := hi 4 (by decide)
    have h8 := hi 8 (by decide)
    push_cast at h1 h2 h3 h4 h5 h6 h8
    norm_num [MatrixRing.determinant, MatrixRing.detLoop, MatrixRing.findRow, MatrixRing.mulRow,
      MatrixRing.detClear, MatrixRing.addRows, exactFloats_eqs, show List.range 2 = [0, 1] from rfl,
      List.range', findRes, forLoop, idx, setIdx, Res.bind, ok_bind, Res.assert,
      h1, h2, h3, h4, h5, h6, h8, g1, g2]
  obtain ⟨⟨a, h1, h2⟩, -⟩ := C77_determinant hv h
  exact ⟨v, a, hv, h1, h2⟩

/-- C77: the same for the inverse of a matrix. -/
theorem C77_try_inv {n : ℕ} {es : List ℚ} {v : List F.Val} {o : Option (List ℚ)}
    (hv : LRel (fun x (a : F.Val) => FloatRep a x) es v)
    (h : (MatrixRing.ops (exactFloats F) n).tryInv es = .ok o) :
    (∃ o', (MatrixRing.ops (ApproxFloats.field F) n).tryInv v = .ok o' ∧
      Option.Rel (LRel fun x (a : F.Val) => FloatRep a x) o o') ∧
    (MatrixRing.ops ReducedFractions.QQ n).tryInv (es.map fun x => (x.num, (x.den : ℤ))) =
      .ok (o.map (·.map fun x => (x.num, (x.den : ℤ)))) := by
  refine ⟨(C67_matrices (.refl _) n C77_exact).tryInv hv o h, ?_⟩
  obtain ⟨o', h1, h2⟩ := (C67_matrices (.refl _) n (C77_rationals (F := F))).tryInv (lrel_pairs hv) o h
  refine h1.trans ?_
  cases h2 with
  | none => rfl
  | some h2 => rw [eq_pairs h2]; rfl

/-- The inverse of the matrix with the rows (2, 1), (4, 6). -/
theorem f32_try_inv : ∃ v w, LRel (fun x (a : f32.Val) => FloatRep a x) [2, 1, 4, 6] v ∧
    (MatrixRing.ops (ApproxFloats.field f32) 2).tryInv v = .ok (some w) ∧
    LRel (fun x (a : f32.Val) => FloatRep a x) [3 / 4, -(1 / 8), -(1 / 2), 1 / 4] w := by
  obtain ⟨v, hv⟩ := f32_matrix
  have h : (MatrixRing.ops (exactFloats f32) 2).tryInv [2, 1, 4, 6] =
      .ok (some [3 / 4, -(1 / 8), -(1 / 2), 1 / 4]) := by
    obtain ⟨hi, g1, g2, g3, g4, g5, g6⟩ := f32_representable
    have h1 := hi 1 (by decide)
    have h2 := hi 2 (by decide)
    have h3 := hi (-4) (by decide)
    have h4 := hi (-2) (by decide)
    have h5 := hi 0 (by decide)
    have h6 := hi 4 (by decide)
    have h8 := hi 8 (by decide)
    push_cast at h1 h2 h3 h4 h5 h6 h8
    have hint : MatrixRing.int (exactFloats f32) 2 1 = .ok [1, 0, 0, 1] := by
      have g : (exactFloats f32).int 1 = .ok 1 := by
        show (representable f32 (1 : ℤ) >>= fun m => representable f32 (m * 1)) = _
        rw [Int.cast_one, h1, ok_bind, mul_one, h1]
      unfold MatrixRing.int
      rw [g]
      rfl
    show MatrixRing.tryInv (exactFloats f32) 2 [2, 1, 4, 6] = _
    norm_num [MatrixRing.tryInv, MatrixRing.invLoop, MatrixRing.findRow, MatrixRing.mulRow, hint,
      MatrixRing.isOne, MatrixRing.domain, allRes, debugAssert,
      MatrixRing.invClear, MatrixRing.addRows, exactFloats_eqs, show List.range 2 = [0, 1] from rfl,
      List.range', findRes, forLoop, idx, setIdx, Res.bind, ok_bind, Res.assert,
      h1, h2, h3, h4, h5, h6, h8, g1, g2, g3, g4, g5, g6]
  obtain ⟨⟨o, h1, h2⟩, -⟩ := C77_try_inv hv h
  cases h2 with
  | some h2 => exact ⟨v, _, hv, h1, h2⟩

/-- C77: the same for the quotient and the remainder and for the greatest common divisor of
polynomials. -/
theorem C77_polynomials {p q : List ℚ} {v w : List F.Val}
    (hv : LRel (fun x (a : F.Val) => FloatRep a x) p v) (hw : LRel (fun x (a : F.Val) => FloatRep a x) q w) :
    (∀ r, (PolynomialAlgebra.euclidean (exactFloats F)).quoRem p q = .ok r →
      (∃ r', (PolynomialAlgebra.euclidean (ApproxFloats.field F)).quoRem v w = .ok r' ∧
        PRel (LRel fun x (a : F.Val) => FloatRep a x) r r') ∧
      (PolynomialAlgebra.euclidean ReducedFractions.QQ).quoRem (p.map fun x => (x.num, (x.den : ℤ)))
        (q.map fun x => (x.num, (x.den : ℤ))) =
        .ok (r.1.map fun x => (x.num, (x.den : ℤ)), r.2.map fun x => (x.num, (x.den : ℤ)))) ∧
    ∀ g, (PolynomialAlgebra.euclidean (exactFloats F)).gcd p q = .ok g →
      (∃ g', (PolynomialAlgebra.euclidean (ApproxFloats.field F)).gcd v w = .ok g' ∧
        LRel (fun x (a : F.Val) => FloatRep a x) g g') ∧
      (PolynomialAlgebra.euclidean ReducedFractions.QQ).gcd (p.map fun x => (x.num, (x.den : ℤ)))
        (q.map fun x => (x.num, (x.den : ℤ))) = .ok (g.map fun x => (x.num, (x.den : ℤ))) := by
  have h1 := C67_polynomials_euclidean (C77_exact (F := F))
  have h2 := C67_polynomials_euclidean (C77_rationals (F := F))
  refine ⟨fun r hr => ⟨h1.quoRem hv hw r hr, ?_⟩, fun g hg => ⟨h1.gcd hv hw g hg, ?_⟩⟩
  · obtain ⟨r', h3, h4, h5⟩ := h2.quoRem (lrel_pairs hv) (lrel_pairs hw) r hr
    rw [h3]
    exact congrArg Res.ok (Prod.ext (eq_pairs h4) (eq_pairs h5))
  · obtain ⟨r', h3, h4⟩ := h2.gcd (lrel_pairs hv) (lrel_pairs hw) g hg
    rw [h3]
    exact congrArg Res.ok (eq_pairs h4)

/-- Dividing `x ^ 2 - 1` by `2 x - 2`: the quotient is `x / 2 + 1 / 2`. -/
theorem f32_quo_rem : ∃ v w r, LRel (fun x (a : f32.Val) => FloatRep a x) [-1, 0, 1] v ∧
    LRel (fun x (a : f32.Val) => FloatRep a x) [-2, 2] w ∧
    (PolynomialAlgebra.euclidean (ApproxFloats.field f32)).quoRem v w = .ok (r, []) ∧
    LRel (fun x (a : f32.Val) => FloatRep a x) [1 / 2, 1 / 2] r := by
  have hf (m : ℤ) (hm : |m| < 2 ^ 24) := (f32_integer m hm).rep
  obtain ⟨a, ha⟩ := hf (-1) (by decide)
  obtain ⟨b, hb⟩ := hf 0 (by decide)
  obtain ⟨c, hc⟩ := hf 1 (by decide)
  obtain ⟨d, hd⟩ := hf (-2) (by decide)
  obtain ⟨e, he⟩ := hf 2 (by decide)
  push_cast at ha hb hc hd he
  have hv : LRel (fun x (a : f32.Val) => FloatRep a x) [-1, 0, 1] [a, b, c] :=
    .cons ha (.cons hb (.cons hc .nil))
  have hw : LRel (fun x (a : f32.Val) => FloatRep a x) [-2, 2] [d, e] := .cons hd (.cons he .nil)
  have h : (PolynomialAlgebra.euclidean (exactFloats f32)).quoRem [-1, 0, 1] [-2, 2] =
      .ok ([1 / 2, 1 / 2], []) := by
    obtain ⟨hi, g1, g2, g3, g4, g5, g6⟩ := f32_representable
    have h1 := hi 1 (by decide)
    have h2 := hi (-1) (by decide)
    have h3 := hi 0 (by decide)
    push_cast at h1 h2 h3
    show PolynomialAlgebra.quoRem (exactFloats f32) [-1, 0, 1] [-2, 2] = _
    norm_num [PolynomialAlgebra.quoRem, PolynomialAlgebra.quoRemLoop, PolynomialAlgebra.trimLen,
      exactFloats_eqs, List.range, List.range.loop, forLoop, idx, setIdx, Res.bind, ok_bind, Res.assert,
      List.replicate, h1, h2, h3, g1, g6]
  obtain ⟨⟨r', h1, h2, h3⟩, -⟩ := (C77_polynomials hv hw).1 _ h
  obtain ⟨r1, r2⟩ := r'
  cases h3
  exact ⟨_, _, _, hv, hw, h1, h2⟩

/-- C77: products of matrices: if all products of entries and all partial sums are numbers of the
format then the result is the exact product. -/
theorem C77_matrix_mul {n : ℕ} {v w : List F.Val} {M N : Matrix (Fin n) (Fin n) ℚ}
    (hv : MatRep FloatRep v M) (hw : MatRep FloatRep w N) (h1 : ∀ i j k, IsFloat F (M i k * N k j))
    (h2 : ∀ i j (k : ℕ), IsFloat F (∑ l ∈ Finset.univ.filter (fun l : Fin n => l.1 < k), M i l * N l j)) :
    Returns False ((MatrixRing.ops (ApproxFloats.field F) n).mul v w) (MatRep FloatRep · (M * N)) :=
  matrix_mul_exact hv hw h1 h2

omit [Cfg] in
theorem f32_single {a : f32.Val} (ha : FloatRep a (3 / 4)) :
    MatRep FloatRep [a] (Matrix.of fun _ _ => 3 / 4 : Matrix (Fin 1) (Fin 1) ℚ) :=
  ⟨rfl, fun i j => ⟨a, by rw [Subsingleton.elim i 0, Subsingleton.elim j 0]; rfl, ha⟩⟩

/-- The square of the matrix with the only entry three quarters is nine sixteenths. -/
example : ∃ a : FloatFormat.f32.Val, FloatRep a (3 / 4) ∧
    Returns False ((MatrixRing.ops (ApproxFloats.field .f32) 1).mul [a] [a]) (fun u =>
      ∃ P : Matrix (Fin 1) (Fin 1) ℚ, MatRep FloatRep u P ∧ P 0 0 = 9 / 16) := by
  obtain ⟨a, ha⟩ := f32_three_quarters
  have h1 : IsFloat f32 (3 / 4 * (3 / 4)) := by
    have := f32_isFloat (m := 9) (e := -4) (by decide) (by decide) (by decide)
    norm_num at this ⊢
    exact this
  refine ⟨a, ha, (C77_matrix_mul (f32_single ha) (f32_single ha) (fun _ _ _ => h1) fun i j k => ?_).mono
    fun u hu => ⟨_, hu, ?_⟩⟩
  · rw [Finset.sum_filter, Fin.sum_univ_one]
    split_ifs
    · exact h1
    · exact isFloat_zero
  · rw [Matrix.mul_apply, Fin.sum_univ_one]
    norm_num

/-- C77: products of matrices with fixed point entries, in particular of matrices of integers, are exact
as long as the sums of the absolute values stay below `2 ^ prec` units. -/
theorem C77_matrix_mul_fixed {n : ℕ} {v w : List F.Val} {M N : Matrix (Fin n) (Fin n) ℚ} {s t : ℤ}
    (h1 : F.emin ≤ s + t) (h2 : s + t ≤ F.emax) (hv : MatRep FloatRep v M) (hw : MatRep FloatRep w N)
    (hM : ∀ i j, FixedPoint s (M i j)) (hN : ∀ i j, FixedPoint t (N i j))
    (hb : ∀ i j, ∑ k, |M i k * N k j| < 2 ^ F.prec * 2 ^ (s + t)) :
    Returns False ((MatrixRing.ops (ApproxFloats.field F) n).mul v w) (MatRep FloatRep · (M * N)) := by
  refine matrix_mul_exact hv hw (fun i j k => ?_) fun i j k => ?_
  · refine ((hM i k).mul (hN k j)).isFloat h1 h2 (lt_of_le_of_lt ?_ (hb i j))
    exact Finset.single_le_sum (f := fun k => |M i k * N k j|) (fun k _ => abs_nonneg _)
      (Finset.mem_univ k)
  · refine (FixedPoint.sum _ fun l _ => (hM i l).mul (hN l j)).isFloat h1 h2
      (lt_of_le_of_lt ?_ (hb i j))
    exact (Finset.abs_sum_le_sum_abs _ _).trans
      (Finset.sum_le_sum_of_subset_of_nonneg (Finset.filter_subset _ _) fun _ _ _ => abs_nonneg _)

/-- Three quarters is a multiple of a quarter. -/
example : ∃ a : FloatFormat.f32.Val, FloatRep a (3 / 4) ∧
    Returns False ((MatrixRing.ops (ApproxFloats.field .f32) 1).mul [a] [a]) (fun u =>
      ∃ P : Matrix (Fin 1) (Fin 1) ℚ, MatRep FloatRep u P ∧ P 0 0 = 9 / 16) := by
  obtain ⟨a, ha⟩ := f32_three_quarters
  have h1 : FixedPoint (-2) (3 / 4) := ⟨3, by norm_num⟩
  refine ⟨a, ha, (C77_matrix_mul_fixed (F := f32) (s := -2) (t := -2) (by decide) (by decide) (f32_single ha)
    (f32_single ha) (fun _ _ => h1) (fun _ _ => h1) fun i j => ?_).mono fun u hu => ⟨_, hu, ?_⟩⟩
  · rw [Fin.sum_univ_one]
    norm_num [f32, abs_of_pos]
  · rw [Matrix.mul_apply, Fin.sum_univ_one]
    norm_num

/-- C77: products of polynomials with fixed point coefficients. -/
theorem C77_polynomial_mul_fixed {s t : ℤ} (h1 : F.emin ≤ s + t) (h2 : s + t ≤ F.emax) {v w : List F.Val}
    {p q : ℚ[X]} (hv : CoefRep FloatRep v p) (hw : CoefRep FloatRep w q)
    (hp : ∀ i, FixedPoint s (p.coeff i)) (hq : ∀ i, FixedPoint t (q.coeff i))
    (hb : ∀ k, ∑ i ∈ Finset.antidiagonal k, |p.coeff i.1 * q.coeff i.2| < 2 ^ F.prec * 2 ^ (s + t)) :
    Returns False ((PolynomialAlgebra.unitaryRing (ApproxFloats.field F).toUnitaryRingOps).mul v w)
      (CoefRep FloatRep · (p * q)) := poly_mul_exact h1 h2 hv hw hp hq hb

/-- The square of the constant polynomial three quarters. -/
example : ∃ a : FloatFormat.f32.Val, FloatRep a (3 / 4) ∧
    Returns False ((PolynomialAlgebra.unitaryRing (ApproxFloats.field .f32).toUnitaryRingOps).mul [a] [a])
      (CoefRep FloatRep · (C (3 / 4) * C (3 / 4) : ℚ[X])) := by
  obtain ⟨a, ha⟩ := f32_three_quarters
  have hp : CoefRep FloatRep [a] (C (3 / 4) : ℚ[X]) := by
    refine ⟨fun i hi => ?_, fun i hi => coeff_C_of_ne_zero (by simp at hi; omega)⟩
    obtain rfl : i = 0 := by simpa using hi
    rw [coeff_C_zero]
    exact ha
  have h1 : ∀ i, FixedPoint (-2) ((C (3 / 4) : ℚ[X]).coeff i) := fun i => by
    rw [coeff_C]
    split_ifs
    · exact ⟨3, by norm_num⟩
    · exact .zero _
  refine ⟨a, ha, C77_polynomial_mul_fixed (F := f32) (s := -2) (t := -2) (by decide) (by decide) hp hp h1 h1
    fun k => ?_⟩
  have h2 : ∀ i ∈ Finset.antidiagonal k, |(C (3 / 4) : ℚ[X]).coeff i.1 * (C (3 / 4) : ℚ[X]).coeff i.2| =
      if i = (0, 0) then 9 / 16 else 0 := fun i _ => by
    rw [coeff_C, coeff_C]
    simp only [Prod.ext_iff]
    by_cases h3 : i.1 = 0 <;> by_cases h4 : i.2 = 0 <;> norm_num [h3, h4, abs_of_pos]
  rw [Finset.sum_congr rfl h2, Finset.sum_ite_eq']
  split_ifs <;> norm_num [f32]

/-- C77: matrices of size one. The only entry `x` is inverted even for the determinant: if the inverse
overflows then `try_inv`, `determinant` and `invertible` panic. Otherwise the determinant is `x` exactly, and
`try_inv` returns the rounded inverse, except that a build with debug assertions panics if the rounded product
of `x` and its rounded inverse is not one. -/
theorem C77_one_by_one (hF : 2 ≤ F.prec) {a : F.Val} {x : ℚ} (ha : FloatRep a x) :
    (x = 0 → (MatrixRing.ops (ApproxFloats.field F) 1).tryInv [a] = .ok none ∧
      MatrixRing.determinant (ApproxFloats.field F) 1 [a] = .ok Val.zero ∧
      (MatrixRing.ops (ApproxFloats.field F) 1).invertible [a] = .ok false) ∧
    (x ≠ 0 → Overflows F x⁻¹ → (MatrixRing.ops (ApproxFloats.field F) 1).tryInv [a] = .panic ∧
      MatrixRing.determinant (ApproxFloats.field F) 1 [a] = .panic ∧
      (MatrixRing.ops (ApproxFloats.field F) 1).invertible [a] = .panic) ∧
    (x ≠ 0 → ¬ Overflows F x⁻¹ →
      (∃ d, MatrixRing.determinant (ApproxFloats.field F) 1 [a] = .ok d ∧ FloatRep d x) ∧
      (MatrixRing.ops (ApproxFloats.field F) 1).invertible [a] = .ok true ∧
      ∃ y z b, RoundsTo F x⁻¹ y ∧ RoundsTo F (x * y) z ∧ FloatRep b y ∧
        (MatrixRing.ops (ApproxFloats.field F) 1).tryInv [a] =
          if Cfg.debugAssertions = true ∧ z ≠ 1 then .panic else .ok (some [b])) := by
  have hisz : ∀ {a : F.Val} {x : ℚ}, FloatRep a x →
      (ApproxFloats.field F).isZero a = .ok (decide (x = 0)) := fun h => (C55_equals h floatRep_zero).1
  have hz := hisz ha
  have hone : (ApproxFloats.field F).one = .ok Val.one := rfl
  obtain ⟨o, ho, ho1⟩ := (C56_int (F := F) 1).1 floatRep_one.isFloat
  have hint : MatrixRing.int (ApproxFloats.field F) 1 1 = .ok [o] := by
    unfold MatrixRing.int
    rw [ho]
    rfl
  have hdet := MatrixRing.determinant_one (ApproxFloats.field F) hone hz
  have hinv := MatrixRing.tryInv_one (ApproxFloats.field F) hint hz
  have h1x : ∃ d, (ApproxFloats.field F).mulAssign Val.one a = .ok d ∧ FloatRep d x := by
    have := rounded_exact (C55_mul floatRep_one ha).2.1 (by rw [one_mul]; exact ha.isFloat)
    rw [one_mul] at this
    exact returns_false_iff.1 this
  obtain ⟨d, hd, hdx⟩ := h1x
  have hinvert : (MatrixRing.ops (ApproxFloats.field F) 1).invertible [a] =
      (MatrixRing.determinant (ApproxFloats.field F) 1 [a] >>= fun d =>
        (ApproxFloats.field F).isZero d >>= fun b => pure !b) := rfl
  have htry : (MatrixRing.ops (ApproxFloats.field F) 1).tryInv [a] =
      MatrixRing.tryInv (ApproxFloats.field F) 1 [a] := rfl
  rw [hinvert, htry, hdet, hinv]
  refine ⟨fun hx => ?_, fun hx hov => ?_, fun hx hov => ?_⟩
  · rw [decide_eq_true hx, if_pos rfl, if_pos rfl]
    refine ⟨rfl, rfl, ?_⟩
    show ((ApproxFloats.field F).isZero Val.zero >>= fun b => pure !b) = _
    rw [hisz floatRep_zero]
    rfl
  · rw [decide_eq_false hx, if_neg (by decide), if_neg (by decide), ((C55_inv ha).2 hx).1 hov, hd]
    exact ⟨rfl, rfl, rfl⟩
  · obtain ⟨b, y, hb, hby, hy⟩ := ((C55_inv ha).2 hx).2 hov
    have hle : |x * y| ≤ 2 := by
      have g1 := hy.nearest 0 isFloat_zero
      rw [zero_sub, abs_neg] at g1
      have g2 : |y| ≤ 2 * |x⁻¹| := by
        have := abs_sub_abs_le_abs_sub y x⁻¹
        linarith
      rw [abs_mul]
      refine (mul_le_mul_of_nonneg_left g2 (abs_nonneg x)).trans (le_of_eq ?_)
      rw [mul_left_comm, ← abs_mul, mul_inv_cancel₀ hx, abs_one, mul_one]
    have hnov : ¬ Overflows F (x * y) := by
      rw [Overflows, not_le]
      refine lt_of_le_of_lt hle ?_
      have g1 : (4 : ℚ) ≤ 2 ^ F.prec := by
        have := pow_le_pow_right₀ (show (1 : ℚ) ≤ 2 by norm_num) hF
        norm_num at this
        exact this
      have g2 : (1 : ℚ) ≤ 2 ^ F.emax := one_le_zpow₀ (by norm_num) F.emax_nonneg
      nlinarith
    obtain ⟨e, z, he, hez, hz'⟩ := (C55_mul ha hby).2.1.2 hnov
    have hby' : ∃ i, (ApproxFloats.field F).mulAssign o b = .ok i ∧ FloatRep i y := by
      have := rounded_exact (C55_mul ho1 hby).2.1 (by rw [Int.cast_one, one_mul]; exact hby.isFloat)
      rw [Int.cast_one, one_mul] at this
      exact returns_false_iff.1 this
    obtain ⟨i, hi, hiy⟩ := hby'
    rw [decide_eq_false hx, if_neg (by decide), if_neg (by decide), hb, hd]
    simp only [ok_bind, he, hi]
    refine ⟨⟨d, rfl, hdx⟩, ?_, y, z, i, hy, hz', hiy, ?_⟩
    · show ((ApproxFloats.field F).isZero d >>= fun b => pure !b) = _
      rw [hisz hdx, decide_eq_false hx]
      rfl
    · rw [(C55_equals hez ho1).1, Int.cast_one]
      unfold debugAssert
      by_cases hc : Cfg.debugAssertions = true
      · by_cases hz1 : z = 1
        · simp [hc, hz1]
        · simp [hc, hz1]
      · simp [hc]

/-- The matrix with the only entry three quarters. -/
example : ∃ a d : f32.Val, FloatRep a (3 / 4) ∧
    MatrixRing.determinant (ApproxFloats.field .f32) 1 [a] = .ok d ∧ FloatRep d (3 / 4) := by
  obtain ⟨a, ha⟩ := f32_three_quarters
  obtain ⟨d, h1, h2⟩ := ((C77_one_by_one (by decide) ha).2.2 (by norm_num) (by
    norm_num [Overflows, f32, abs_of_pos])).1
  exact ⟨a, d, ha, h1, h2⟩

/-- C77: the inverse of the matrix with the only entry 49 in `f64`, or 41 in `f32`: a build with debug
assertions panics although the matrix is invertible. -/
theorem C77_debug_panic (F : FloatFormat) (k : ℤ) (hF : F = .f64 ∧ k = 49 ∨ F = .f32 ∧ k = 41) :
    ∃ a b : F.Val, FloatRep a k ∧ (MatrixRing.ops (ApproxFloats.field F) 1).invertible [a] = .ok true ∧
      (MatrixRing.ops (ApproxFloats.field F) 1).tryInv [a] =
        if Cfg.debugAssertions = true then .panic else .ok (some [b]) := by
  obtain ⟨⟨a, b, c, h1, h2, h3, h4⟩, -⟩ := C74_failing_laws F k hF
  have hk : (k : ℚ) ≠ 0 := by
    obtain ⟨-, rfl⟩ | ⟨-, rfl⟩ := hF <;> norm_num
  have hp : 2 ≤ F.prec := by
    obtain ⟨rfl, -⟩ | ⟨rfl, -⟩ := hF <;> decide
  have ho : ¬ Overflows F (k : ℚ)⁻¹ := fun h => by
    rw [((C55_inv h1).2 hk).1 h] at h2
    cases h2
  obtain ⟨-, h5, y, z, b', h6, h7, h8, h9⟩ := (C77_one_by_one hp h1).2.2 hk ho
  have hz : z ≠ 1 := by
    rintro rfl
    obtain ⟨b1, y1, g1, g2, g3⟩ := ((C55_inv h1).2 hk).2 ho
    rw [h2] at g1
    cases g1
    obtain rfl := g3.unique h6
    have g4 : ¬ Overflows F (k * y1) := fun h => by
      rw [(C55_mul h1 g2).1.1 h] at h3
      cases h3
    obtain ⟨c1, z1, g5, g6, g7⟩ := (C55_mul h1 g2).1.2 g4
    rw [h3] at g5
    cases g5
    obtain rfl := g7.unique h7
    rw [(C55_equals g6 g6).2.2] at h4
    cases h4
  refine ⟨a, b', h1, h5, ?_⟩
  rw [h9]
  simp only [hz, ne_eq, not_false_eq_true, and_true]

example : ∃ a b : FloatFormat.f64.Val, FloatRep a 49 ∧
    (MatrixRing.ops (ApproxFloats.field .f64) 1).invertible [a] = .ok true ∧
    (MatrixRing.ops (ApproxFloats.field .f64) 1).tryInv [a] =
      if Cfg.debugAssertions = true then .panic else .ok (some [b]) :=
  C77_debug_panic .f64 49 (.inl ⟨rfl, rfl⟩)

/-- C77: the determinant of the matrix whose only entry is the least positive number panics. -/
theorem C77_determinant_panics (hF : 2 ≤ F.prec) (he : F.emin + F.prec + F.emax < 0) :
    ∃ a : F.Val, FloatRep a (2 ^ F.emin) ∧ MatrixRing.determinant (ApproxFloats.field F) 1 [a] = .panic := by
  have h1 : IsFloat F (2 ^ F.emin) := by
    refine ⟨1, F.emin, Nat.one_lt_two_pow (by omega), le_rfl, F.emin_nonpos.trans F.emax_nonneg, ?_⟩
    rw [Nat.cast_one, one_mul, abs_of_pos (by positivity)]
  obtain ⟨a, ha⟩ := h1.rep
  refine ⟨a, ha, ((C77_one_by_one hF ha).2.1 (by positivity) ?_).2.1⟩
  rw [Overflows, ← zpow_neg, abs_of_pos (by positivity)]
  refine le_trans (b := 2 ^ (F.prec : ℤ) * 2 ^ F.emax) ?_ ?_
  · refine mul_le_mul_of_nonneg_right ?_ (by positivity)
    rw [zpow_natCast]
    linarith
  · rw [← zpow_add₀ (by norm_num)]
    exact zpow_le_zpow_right₀ (by norm_num) (by omega)

example : ∃ a : FloatFormat.f64.Val, FloatRep a (2 ^ (-1074 : ℤ)) ∧
    MatrixRing.determinant (ApproxFloats.field .f64) 1 [a] = .panic :=
  C77_determinant_panics (F := .f64) (by decide) (by decide)

end Abstalg
