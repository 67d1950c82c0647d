import Verif.Proofs.Crout
import Verif.Proofs.FloatError
import Verif.Props.Floats
import Mathlib.Tactic.Linarith

/-! # Rounding errors of the elimination -/

set_option autoImplicit false

namespace Abstalg

open FloatFormat

variable {F : FloatFormat}

theorem rounded_of_ok {c : Res F.Val} {x : ℚ} {a : F.Val} (h : Rounded c x) (hc : c = .ok a) :
    ∃ y, FloatRep a y ∧ RoundsTo F x y ∧ ¬ Overflows F x := by
  by_cases ho : Overflows F x
  · rw [h.1 ho] at hc; cases hc
  · obtain ⟨b, y, h1, h2, h3⟩ := h.2 ho
    rw [h1] at hc
    cases hc
    exact ⟨y, h2, h3, ho⟩

theorem dotBound_step {η B t : ℚ} (m : ℕ) (hη : 0 ≤ η) (ht : 0 ≤ t) :
    unitRoundoff F * (B + dotBound F m B η) + dotBound F m B η + (unitRoundoff F * t + η) ≤ dotBound F (m + 1) (t + B) η := by
  have hu := (unitRoundoff_pos (F := F)).le
  unfold dotBound
  set u := unitRoundoff F
  have h1 : (1 : ℚ) ≤ (1 + u) ^ m := one_le_pow₀ (by linarith)
  have h2 : (m : ℚ) * (1 + u) ^ (m - 1) * η * (1 + u) = m * (1 + u) ^ m * η := by
    rcases m with _ | m
    · simp
    · rw [Nat.add_sub_cancel, pow_succ]; ring
  rw [Nat.add_sub_cancel, pow_succ]
  push_cast
  have h3 : 0 ≤ ((1 + u) ^ m - 1) * (1 + u) * t := by
    have := sub_nonneg.2 h1
    positivity
  have h4 : 0 ≤ ((1 + u) ^ m - 1) * η := mul_nonneg (sub_nonneg.2 h1) hη
  nlinarith

theorem dotBound_mono {η A B : ℚ} {k m : ℕ} (hη : 0 ≤ η) (hA : 0 ≤ A) (hAB : A ≤ B) (hkm : k ≤ m) : dotBound F k A η ≤ dotBound F m B η := by
  have hu := (unitRoundoff_pos (F := F)).le
  unfold dotBound
  set u := unitRoundoff F
  have h1 : (1 : ℚ) ≤ (1 + u) ^ k := one_le_pow₀ (by linarith)
  have h2 : (1 + u) ^ k ≤ (1 + u) ^ m := pow_le_pow_right₀ (by linarith) hkm
  have h3 : (1 + u) ^ (k - 1) ≤ (1 + u) ^ (m - 1) := pow_le_pow_right₀ (by linarith) (by omega)
  have h4 : (k : ℚ) ≤ m := by exact_mod_cast hkm
  have h5 : 0 ≤ (1 + u) ^ m - 1 := by linarith
  gcongr

variable [Cfg]

/-- The error of an elimination, measured against its result. -/
theorem eliminates_error {a t : F.Val} {x : ℚ} {ps : List (F.Val × F.Val)} {qs : List (ℚ × ℚ)} (ha : FloatRep a x)
    (hp : List.Forall₂ (fun p q => FloatRep p.1 q.1 ∧ FloatRep p.2 q.2) ps qs) (he : Eliminates (ApproxFloats.field F) a ps t) :
    ∃ y, FloatRep t y ∧ |x - (y + (qs.map fun q => q.2 * q.1).sum)| ≤
      dotBound F qs.length (|y| + (qs.map fun q => |q.2 * q.1|).sum) (2 ^ F.emin / 2) := by
  have hη : (0 : ℚ) ≤ 2 ^ F.emin / 2 := by positivity
  have hs : ∀ qs : List (ℚ × ℚ), 0 ≤ (qs.map fun q => |q.2 * q.1|).sum := fun qs =>
    List.sum_nonneg fun y hy => by
      obtain ⟨q, -, rfl⟩ := List.mem_map.1 hy
      positivity
  induction he generalizing x qs with
  | done a => cases hp; exact ⟨x, ha, by simp [dotBound]⟩
  | skip h1 h2 ih =>
    obtain _ | ⟨⟨hu, hl⟩, hp⟩ := hp
    obtain ⟨y, hy, e⟩ := ih ha hp
    refine ⟨y, hy, ?_⟩
    rw [(C55_equals hl hl).2.1] at h1
    have h0 := of_decide_eq_true (Res.ok.inj h1)
    rw [List.map_cons, List.map_cons, List.sum_cons, List.sum_cons, h0, zero_mul, abs_zero, zero_add, zero_add]
    exact e.trans (dotBound_mono hη (add_nonneg (abs_nonneg _) (hs _)) le_rfl (Nat.le_succ _))
  | @step a u l ps t m q a' h1 h2 h3 h4 h5 ih =>
    obtain _ | ⟨⟨hu, hl⟩, hp⟩ := hp
    rename_i b qs
    obtain ⟨m', e1, -, hm⟩ := C55_neg hl
    rw [h2] at e1
    cases e1
    obtain ⟨q', hq, hq1, hq2⟩ := rounded_of_ok (C55_mul hu hm).1 h3
    obtain ⟨x', hx, hx1, hx2⟩ := rounded_of_ok (C55_add ha hq).2.1 h4
    obtain ⟨y, hy, e⟩ := ih hx hp
    refine ⟨y, hy, ?_⟩
    have h6 := hq1.mixed hq2
    have h7 : |x' - (x + q')| ≤ unitRoundoff F * |x'| := by
      have := (sum_error ha.isFloat hq.isFloat hx2 hx1).2.2.2.2
      unfold unitRoundoff
      rwa [div_mul_eq_mul_div, one_mul]
    rw [List.map_cons, List.map_cons, List.sum_cons, List.sum_cons, List.length_cons, add_left_comm |y|]
    have h8 := hs qs
    set S := (qs.map fun q => q.2 * q.1).sum
    set T := (qs.map fun q => |q.2 * q.1|).sum
    have hST : |S| ≤ T := by
      have : ∀ qs : List (ℚ × ℚ), |(qs.map fun q => q.2 * q.1).sum| ≤ (qs.map fun q => |q.2 * q.1|).sum := fun qs => by
        induction qs with
        | nil => simp
        | cons q qs ih =>
          rw [List.map_cons, List.map_cons, List.sum_cons, List.sum_cons]
          exact (abs_add_le _ _).trans (add_le_add le_rfl ih)
      exact this qs
    refine le_trans ?_ (dotBound_step qs.length hη (abs_nonneg (b.2 * b.1)))
    have hu0 := (unitRoundoff_pos (F := F)).le
    have h9 : |x'| ≤ |y| + T + dotBound F qs.length (|y| + T) (2 ^ F.emin / 2) := by
      have := abs_add_le (x' - (y + S)) (y + S)
      rw [sub_add_cancel] at this
      have h' := abs_add_le y S
      linarith
    have h10 : x - (y + (b.2 * b.1 + S)) = -(x' - (x + q')) + (x' - (y + S)) - (q' - b.1 * -b.2) := by ring
    rw [h10]
    have h11 := abs_sub (-(x' - (x + q')) + (x' - (y + S))) (q' - b.1 * -b.2)
    have h12 := abs_add_le (-(x' - (x + q'))) (x' - (y + S))
    rw [abs_neg] at h12
    have h13 : |b.1 * -b.2| = |b.2 * b.1| := by rw [mul_neg, abs_neg, mul_comm]
    rw [h13] at h6
    have h14 := h7.trans (mul_le_mul_of_nonneg_left h9 hu0)
    linarith

omit [Cfg] in
/-- The error of the inverse of a float, measured against the result. -/
theorem inverse_error (hF : InvertibleRange F) {x y : ℚ} (hx : IsFloat F x) (h0 : x ≠ 0) (h : RoundsTo F x⁻¹ y) (ho : ¬ Overflows F x⁻¹) :
    |y - x⁻¹| ≤ 4 * unitRoundoff F * |y| := by
  have hu := (unitRoundoff_pos (F := F)).le
  rcases h.error ho with ⟨h1, -⟩ | ⟨-, h1⟩
  · have hw : IsFloat F (2 ^ (-(F.emax + F.prec))) := ⟨1, -(F.emax + F.prec), Nat.one_lt_two_pow (by have := F.prec_pos; omega), by
      have := hF.1; omega, by have := F.emax_nonneg; omega, by rw [abs_of_pos (by positivity)]; simp⟩
    have h2 : |x| ≤ 2 ^ (F.emax + F.prec) := by
      obtain ⟨m, e, h2, -, h3, h4⟩ := hx
      rw [h4, add_comm, zpow_add₀ (by norm_num), zpow_natCast]
      have : (m : ℚ) ≤ 2 ^ F.prec := by exact_mod_cast h2.le
      have h5 : (2 : ℚ) ^ e ≤ 2 ^ F.emax := zpow_le_zpow_right₀ (by norm_num) h3
      gcongr
    have h3 : (2 : ℚ) ^ (-(F.emax + F.prec)) ≤ |x⁻¹| := by
      rw [zpow_neg, abs_inv]
      exact inv_anti₀ (abs_pos.2 h0) h2
    have h4 : (2 : ℚ) ^ (-(F.emax + F.prec)) ≤ |y| := (roundsTo_self hw).mono h.of_abs.1 h3
    have h5 : (2 : ℚ) ^ F.emin / 2 ≤ 4 * unitRoundoff F * 2 ^ (-(F.emax + F.prec)) := by
      have e1 : (2 : ℚ) ^ F.emin / 2 = 2 ^ (F.emin - 1) := by rw [zpow_sub_one₀ (by norm_num), div_eq_mul_inv]
      have e2 : 4 * unitRoundoff F * (2 : ℚ) ^ (-(F.emax + F.prec)) = 2 ^ (2 - (F.prec : ℤ) + -(F.emax + F.prec)) := by
        rw [zpow_add₀ (by norm_num), zpow_sub₀ (by norm_num), unitRoundoff, zpow_natCast,
          show (2 : ℚ) ^ (2 : ℤ) = 4 by norm_num]
        ring
      rw [e1, e2]
      refine zpow_le_zpow_right₀ (by norm_num) ?_
      have := hF.2
      omega
    exact h1.trans (h5.trans (mul_le_mul_of_nonneg_left h4 (by positivity)))
  · refine h1.trans ?_
    rw [div_eq_mul_one_div, mul_comm]
    show unitRoundoff F * |y| ≤ _
    have := mul_nonneg hu (abs_nonneg y)
    linarith

/-- The error of the division by a pivot, which is a multiplication with its inverse. -/
theorem scaled_error (hF : InvertibleRange F) {t l i b : F.Val} {y z : ℚ} (ht : FloatRep t y) (hl : FloatRep l z)
    (h0 : (ApproxFloats.field F).isZero l = .ok false) (hi : (ApproxFloats.field F).inv l = .ok i)
    (hb : (ApproxFloats.field F).mulAssign t i = .ok b) : ∃ w, FloatRep b w ∧
      |y - z * w| ≤ ((1 + unitRoundoff F) ^ 5 - 1) * |z * w| + (1 + unitRoundoff F) ^ 4 * (2 ^ F.emin / 2) * |z| := by
  rw [(C55_equals hl hl).2.1] at h0
  have hz : z ≠ 0 := of_decide_eq_false (Res.ok.inj h0)
  obtain ⟨v, hv, hv1, hv2⟩ := rounded_of_ok ((C55_inv hl).2 hz) hi
  obtain ⟨w, hw, hw1, hw2⟩ := rounded_of_ok (C55_mul ht hv).2.1 hb
  refine ⟨w, hw, ?_⟩
  have h1 := inverse_error hF hl.isFloat hz hv1 hv2
  have hu := (unitRoundoff_pos (F := F)).le
  have hη : (0 : ℚ) ≤ 2 ^ F.emin / 2 := by positivity
  have h2 : |w - y * v| ≤ unitRoundoff F * |w| + 2 ^ F.emin / 2 := by
    have h3 := mul_nonneg hu (abs_nonneg w)
    rcases hw1.error hw2 with ⟨h2, -⟩ | ⟨-, h2⟩
    · linarith
    · refine h2.trans ?_
      rw [div_eq_mul_one_div, mul_comm]
      exact le_add_of_nonneg_right hη
  set u := unitRoundoff F
  set η := (2 : ℚ) ^ F.emin / 2
  -- `z⁻¹ = v (1 + ε)`
  have hv0 : v ≠ 0 := fun e => by
    rw [e, zero_sub, abs_neg, abs_zero, mul_zero] at h1
    exact inv_ne_zero hz (abs_nonpos_iff.1 h1)
  obtain ⟨ε, hε, hε'⟩ : ∃ ε, z⁻¹ = v * (1 + ε) ∧ |ε| ≤ 4 * u := by
    refine ⟨(z⁻¹ - v) / v, by field_simp; ring, ?_⟩
    rw [abs_div, div_le_iff₀ (abs_pos.2 hv0), abs_sub_comm]
    exact h1
  have h3 : y = (z * w - z * (w - y * v)) * (1 + ε) := by
    have h4 : z * (v * (1 + ε)) = 1 := by rw [← hε]; exact mul_inv_cancel₀ hz
    linear_combination -y * h4
  have h4 : y - z * w = z * w * ε - z * (w - y * v) * (1 + ε) := by
    linear_combination h3
  rw [h4]
  have h5 : |1 + ε| ≤ 1 + 4 * u := (abs_add_le _ _).trans (by rw [abs_one]; linarith)
  have h6 : |z * (w - y * v)| ≤ u * |z * w| + η * |z| := by
    rw [abs_mul, abs_mul]
    have := mul_le_mul_of_nonneg_left h2 (abs_nonneg z)
    linarith
  have h7 : |z * (w - y * v) * (1 + ε)| ≤ (u * |z * w| + η * |z|) * (1 + 4 * u) := by
    rw [abs_mul]
    exact mul_le_mul h6 h5 (abs_nonneg _) (by positivity)
  have h8 : |z * w * ε| ≤ |z * w| * (4 * u) := by
    rw [abs_mul]
    exact mul_le_mul_of_nonneg_left hε' (abs_nonneg _)
  have h9 : 1 + 4 * u ≤ (1 + u) ^ 4 := by
    have := one_add_mul_le_pow (a := u) (by linarith) 4
    push_cast at this
    linarith
  have h10 : (1 + u) * (1 + 4 * u) ≤ (1 + u) ^ 5 := by
    rw [pow_succ' _ 4]
    exact mul_le_mul_of_nonneg_left h9 (by linarith)
  have h11 := mul_le_mul_of_nonneg_right h9 (mul_nonneg hη (abs_nonneg z))
  have h12 := mul_le_mul_of_nonneg_right h10 (abs_nonneg (z * w))
  refine (abs_sub _ _).trans ?_
  nlinarith

omit [Cfg] in
theorem factorPairs_length {n : ℕ} {R : Type} (c : ℕ) (L U : Fin n → Fin n → R) (r j : Fin n) :
    (factorPairs (List.finRange n) c L U r j).length ≤ min r.1 j.1 := by
  unfold factorPairs
  rw [List.length_map]
  have h1 : ((List.finRange n).filter fun k => decide (k < r ∧ k < j ∧ k.1 < c)).map Fin.val ⊆ List.range (min r.1 j.1) := by
    intro k hk
    obtain ⟨i, hi, rfl⟩ := List.mem_map.1 hk
    have := of_decide_eq_true (List.mem_filter.1 hi).2
    exact List.mem_range.2 (lt_min this.1 this.2.1)
  have h2 : (((List.finRange n).filter fun k => decide (k < r ∧ k < j ∧ k.1 < c)).map Fin.val).Nodup :=
    ((List.nodup_finRange n).filter _).map Fin.val_injective
  have := (h2.subperm h1).length_le
  rwa [List.length_map, List.length_range] at this

theorem product_error {d x : F.Val} {D : ℚ} {as : List F.Val} {ls : List ℚ} (hd : FloatRep d D) (hl : List.Forall₂ FloatRep as ls)
    (h : combineAll (ApproxFloats.field F).mulAssign d as = .ok x) : ∃ y, FloatRep x y ∧
      |y - D * ls.prod| ≤ ((1 + unitRoundoff F) ^ ls.length - 1) * |D * ls.prod| +
        (1 + unitRoundoff F) ^ ls.length * (2 ^ F.emin / 2) * (ls.tails.tail.map fun t => |t.prod|).sum := by
  have hu := (unitRoundoff_pos (F := F)).le
  have hη : (0 : ℚ) ≤ 2 ^ F.emin / 2 := by positivity
  induction hl generalizing d D with
  | nil =>
    cases h
    exact ⟨D, hd, by simp⟩
  | @cons a l as ls ha hl ih =>
    have h' : ((ApproxFloats.field F).mulAssign d a).bind (fun d => combineAll (ApproxFloats.field F).mulAssign d as) = .ok x := h
    cases hm : (ApproxFloats.field F).mulAssign d a with
    | panic => rw [hm] at h'; cases h'
    | diverge => rw [hm] at h'; cases h'
    | ok d' =>
      rw [hm] at h'
      obtain ⟨D', hD, hD1, hD2⟩ := rounded_of_ok (C55_mul hd ha).2.1 hm
      obtain ⟨y, hy, e⟩ := ih hD h'
      refine ⟨y, hy, ?_⟩
      have h1 := hD1.mixed hD2
      have h2 : (ls.tails.map fun t => |t.prod|).sum = |ls.prod| + (ls.tails.tail.map fun t => |t.prod|).sum := by
        cases ls <;> simp
      rw [List.prod_cons, List.tails_cons, List.tail_cons, h2, List.length_cons, ← mul_assoc]
      have h3 : 0 ≤ (ls.tails.tail.map fun t => |t.prod|).sum := List.sum_nonneg fun y hy => by
        obtain ⟨q, -, rfl⟩ := List.mem_map.1 hy
        positivity
      set S := (ls.tails.tail.map fun t => |t.prod|).sum
      set η := (2 : ℚ) ^ F.emin / 2
      set u := unitRoundoff F
      set P := ls.prod
      have h4 : (1 : ℚ) ≤ (1 + u) ^ ls.length := one_le_pow₀ (by linarith)
      set G := (1 + u) ^ ls.length
      rw [pow_succ]
      have h5 : |D' * P| ≤ (1 + u) * |D * l * P| + η * |P| := by
        rw [abs_mul, abs_mul (D * l)]
        have : |D'| ≤ (1 + u) * |D * l| + η := by
          have := abs_add_le (D' - D * l) (D * l)
          rw [sub_add_cancel] at this
          linarith
        nlinarith [mul_le_mul_of_nonneg_right this (abs_nonneg P)]
      have h6 : |D' * P - D * l * P| ≤ u * |D * l * P| + η * |P| := by
        rw [← sub_mul, abs_mul, abs_mul (D * l)]
        nlinarith [mul_le_mul_of_nonneg_right h1 (abs_nonneg P)]
      have h7 := abs_add_le (y - D' * P) (D' * P - D * l * P)
      rw [sub_add_sub_cancel] at h7
      have h8 := mul_le_mul_of_nonneg_left h5 (sub_nonneg.2 h4)
      have h9 : 0 ≤ G * u * (η * |P|) := by positivity
      have h10 : 0 ≤ G * u * (η * S) := by positivity
      nlinarith

end Abstalg
