import Verif.Proofs.FloatDivision
import Verif.Props.ExactFloats

/-! # C101: rounding errors of the division of polynomials over floats -/

set_option autoImplicit false

namespace Abstalg

open FloatFormat Polynomial

variable [Cfg] {F : FloatFormat}

theorem quotient_step {a : F.Val} {α : ℚ} (ha : FloatRep a α) (h0 : (ApproxFloats.field F).isZero a = .ok false) :
    (∀ s x, (ApproxFloats.field F).div s a = .ok x → ∃ z, FloatRep x z) ∧
    ∀ s x y z, FloatRep s y → FloatRep x z → (ApproxFloats.field F).div s a = .ok x →
      |y - α * z| ≤ unitRoundoff F * |α * z| + |α| * (2 ^ F.emin / 2) := by
  rw [(C55_equals ha ha).2.1] at h0
  have hα : α ≠ 0 := of_decide_eq_false (Res.ok.inj h0)
  refine ⟨fun s x h => C55_closed s a x (.inr (.inr (.inr (.inl h)))), fun s x y z hs hx h => ?_⟩
  obtain ⟨z', h1, h2, h3⟩ := rounded_of_ok ((C55_div hs ha).2 hα) h
  rw [hx.unique h1]
  exact quotient_error hα h2 h3

/-- C101: what `quo_rem` of polynomials over floats returns satisfies the equation of a division with remainder up to rounding:
every coefficient of `quo * d + rem` is close to that of the dividend, relative to the sum of the absolute values of all that is
added in it. -/
theorem C101_quo_rem {v w q r : List F.Val} {p d : ℚ[X]} (hv : CoefRep FloatRep v p) (hw : CoefRep FloatRep w d)
    (h : (PolynomialAlgebra.euclidean (ApproxFloats.field F)).quoRem v w = .ok (q, r)) :
    ∃ Q R : ℚ[X], CoefRep FloatRep q Q ∧ CoefRep FloatRep r R ∧ r.length < w.length ∧ ∀ k, |p.coeff k - (Q * d + R).coeff k| ≤
      divisionBound F (min q.length (w.length - 1)) (∑ i ∈ Finset.antidiagonal k, |Q.coeff i.1 * d.coeff i.2| + |R.coeff k|)
        (d.coeff (w.length - 1)) := by
  have hu := (unitRoundoff_pos (F := F)).le
  rcases Decidable.em (w = []) with rfl | hw0
  · cases h
  rcases lt_or_ge v.length w.length with hl | hl
  · have h1 : (PolynomialAlgebra.euclidean (ApproxFloats.field F)).quoRem v w = .ok ([], v) := by
      show PolynomialAlgebra.quoRem _ v w = _
      unfold PolynomialAlgebra.quoRem
      rw [if_pos hl]
      cases w with
      | nil => exact absurd rfl hw0
      | cons _ _ => rfl
    rw [h1] at h
    cases h
    refine ⟨0, p, ⟨nofun, fun _ _ => coeff_zero _⟩, hv, hl, fun k => ?_⟩
    rw [zero_mul, zero_add, sub_self, abs_zero]
    unfold divisionBound
    have : 0 ≤ (1 + unitRoundoff F) ^ (min ([] : List F.Val).length (w.length - 1) + 1) - 1 := sub_nonneg.2 (one_le_pow₀ (by linarith))
    positivity
  · obtain ⟨a, z, nq, t, l, h1, -, h2, h3, h4, rfl, h5, h6, -⟩ := (C80_quo_rem _ q r hw0 hl).1 h
    have hlw : w.length ≠ 0 := fun h => hw0 (List.length_eq_zero_iff.1 h)
    have ha : FloatRep a (d.coeff (w.length - 1)) := by
      have := hw.1 (w.length - 1) (by omega)
      rw [List.getLast?_eq_getElem?, List.getElem?_eq_getElem (by omega)] at h1
      cases h1
      exact this
    obtain ⟨g1, g2⟩ := quotient_step ha h2
    obtain ⟨Q, R, h7, h8, h9, h10⟩ := longDivision_error (fun a b x y ha hb => (C55_add ha hb).1) hv hw hw0 h3 g1 g2 h4
    refine ⟨Q, R, h7, ⟨fun i hi => ?_, fun i hi => ?_⟩, ?_, h10⟩
    · rw [List.length_take] at hi
      obtain ⟨b, e1, e2⟩ := h8 i (by omega)
      rw [List.getElem_take]
      rw [List.getElem?_eq_getElem (by omega)] at e1
      cases e1
      exact e2
    · rw [List.length_take, h4.len] at hi
      rcases lt_or_ge i (w.length - 1) with hi' | hi'
      · obtain ⟨b, e1, e2⟩ := h8 i hi'
        have := h6 i b (by omega) hi' e1
        rw [(C55_equals e2 e2).2.1] at this
        exact of_decide_eq_true (Res.ok.inj this)
      · exact h9 i hi'
    · rw [List.length_take]
      omega

omit [Cfg] in
theorem coefRep_of_lrel {xs : List ℚ} {v : List F.Val} {p : ℚ[X]} (h : LRel (fun x (a : F.Val) => FloatRep a x) xs v)
    (hp : ∀ i, p.coeff i = xs.getD i 0) : CoefRep FloatRep v p := by
  refine ⟨fun i hi => ?_, fun i hi => ?_⟩
  · have hl : i < xs.length := by rw [List.Forall₂.length_eq h]; exact hi
    rw [hp, List.getD_eq_getElem _ _ hl]
    exact (List.forall₂_iff_get.1 h).2 i hl hi
  · rw [hp, List.getD_eq_default _ _ (by rw [List.Forall₂.length_eq h]; exact hi)]

/-- Dividing `x ^ 2 - 1` by `2 x - 2`: the quotient and the remainder satisfy the equation up to the bound. -/
example : ∃ v w q : List f32.Val, (PolynomialAlgebra.euclidean (ApproxFloats.field f32)).quoRem v w = .ok (q, []) ∧
    CoefRep FloatRep v (X ^ 2 - 1 : ℚ[X]) ∧ CoefRep FloatRep w (2 * X - 2 : ℚ[X]) ∧ ∃ Q R : ℚ[X], CoefRep FloatRep q Q ∧
      CoefRep FloatRep ([] : List f32.Val) R ∧ ∀ k, |(X ^ 2 - 1 : ℚ[X]).coeff k - (Q * (2 * X - 2) + R).coeff k| ≤
        divisionBound f32 (min q.length (w.length - 1))
          (∑ i ∈ Finset.antidiagonal k, |Q.coeff i.1 * (2 * X - 2 : ℚ[X]).coeff i.2| + |R.coeff k|)
          ((2 * X - 2 : ℚ[X]).coeff (w.length - 1)) := by
  obtain ⟨v, w, q, hv, hw, h, -⟩ := f32_quo_rem
  have h1 : CoefRep FloatRep v (X ^ 2 - 1 : ℚ[X]) := coefRep_of_lrel hv fun i => by
    rcases i with _ | _ | _ | i <;> simp [coeff_X_pow, coeff_one]
  have h2 : CoefRep FloatRep w (2 * X - 2 : ℚ[X]) := coefRep_of_lrel hw fun i => by
    rw [show (2 : ℚ[X]) = C 2 from rfl, coeff_sub, coeff_C_mul, coeff_X, coeff_C]
    rcases i with _ | _ | i <;> simp
  obtain ⟨Q, R, h3, h4, -, h5⟩ := C101_quo_rem h1 h2 h
  exact ⟨v, w, q, h, h1, h2, Q, R, h3, h4, h5⟩

/-- C101: likewise for `try_div`, if it returns a quotient: the product of the quotient and the divisor is close to the dividend. -/
theorem C101_try_div {v w q : List F.Val} {p d : ℚ[X]} (hv : CoefRep FloatRep v p) (hw : CoefRep FloatRep w d)
    (h : (PolynomialAlgebra.integralDomain (ApproxFloats.field F).toIntegralDomain).tryDiv v w = .ok (some q)) :
    ∃ Q : ℚ[X], CoefRep FloatRep q Q ∧ ∀ k, |p.coeff k - (Q * d).coeff k| ≤
      divisionBound F (min q.length (w.length - 1)) (∑ i ∈ Finset.antidiagonal k, |Q.coeff i.1 * d.coeff i.2|)
        (d.coeff (w.length - 1)) := by
  have hu := (unitRoundoff_pos (F := F)).le
  rcases Decidable.em (w = []) with rfl | hw0
  · cases h
  rcases lt_or_ge v.length w.length with hl | hl
  · have h1 : (PolynomialAlgebra.integralDomain (ApproxFloats.field F).toIntegralDomain).tryDiv v w =
        .ok (if v.isEmpty then some [] else none) := by
      show PolynomialAlgebra.tryDiv _ v w = _
      unfold PolynomialAlgebra.tryDiv
      rw [if_pos hl]
      cases w with
      | nil => exact absurd rfl hw0
      | cons _ _ => cases v <;> rfl
    rw [h1] at h
    cases v with
    | cons _ _ => cases h
    | nil =>
      cases h
      have hp : p = 0 := Polynomial.ext fun k => by rw [coeff_zero]; exact hv.2 k (Nat.zero_le _)
      refine ⟨0, ⟨nofun, fun _ _ => coeff_zero _⟩, fun k => ?_⟩
      rw [zero_mul, hp, sub_self, abs_zero]
      unfold divisionBound
      have : 0 ≤ (1 + unitRoundoff F) ^ (min ([] : List F.Val).length (w.length - 1) + 1) - 1 := sub_nonneg.2 (one_le_pow₀ (by linarith))
      positivity
  · obtain ⟨a, z, nq, t, h1, -, h2, h3, h4, h5⟩ := (C80_try_div _ q hw0 hl).1 h
    have hlw : w.length ≠ 0 := fun h => hw0 (List.length_eq_zero_iff.1 h)
    have ha : FloatRep a (d.coeff (w.length - 1)) := by
      have := hw.1 (w.length - 1) (by omega)
      rw [List.getLast?_eq_getElem?, List.getElem?_eq_getElem (by omega)] at h1
      cases h1
      exact this
    obtain ⟨g1, g2⟩ := quotient_step ha h2
    have hdiv : ∀ s x, (ApproxFloats.field F).toIntegralDomain.tryDiv s a = .ok (some x) → (ApproxFloats.field F).div s a = .ok x := fun s x hx => by
      have hx' : ((ApproxFloats.field F).div s a).bind (fun b => Res.ok (some b)) = .ok (some x) := hx
      cases hd : (ApproxFloats.field F).div s a with
      | panic => rw [hd] at hx'; cases hx'
      | diverge => rw [hd] at hx'; cases hx'
      | ok b => rw [hd] at hx'; cases hx'; rfl
    obtain ⟨Q, R, h7, h8, h9, h10⟩ := longDivision_error (fun a b x y ha hb => (C55_add ha hb).2.1) hv hw hw0 h3
      (D := fun s x => (ApproxFloats.field F).toIntegralDomain.tryDiv s a = .ok (some x))
      (fun s x h => g1 s x (hdiv s x h)) (fun s x y z hs hx h => g2 s x y z hs hx (hdiv s x h)) h4
    have hR : R = 0 := Polynomial.ext fun k => by
      rw [coeff_zero]
      rcases lt_or_ge k (w.length - 1) with hk | hk
      · obtain ⟨b, e1, e2⟩ := h8 k hk
        have := h5 b (List.mem_of_getElem? (i := k) (by rw [List.getElem?_take_of_lt hk]; exact e1))
        have e3 : (ApproxFloats.field F).isZero b = .ok true := this
        rw [(C55_equals e2 e2).2.1] at e3
        exact of_decide_eq_true (Res.ok.inj e3)
      · exact h9 k hk
    refine ⟨Q, h7, fun k => ?_⟩
    have := h10 k
    rwa [hR, add_zero, coeff_zero, abs_zero, add_zero] at this

/-- Dividing the constant three quarters by itself. -/
example : ∃ a c : f32.Val, FloatRep a (3 / 4) ∧
    (PolynomialAlgebra.integralDomain (ApproxFloats.field f32).toIntegralDomain).tryDiv [a] [a] = .ok (some [c]) ∧
    ∃ Q : ℚ[X], CoefRep FloatRep [c] Q ∧ ∀ k, |(C (3 / 4) : ℚ[X]).coeff k - (Q * C (3 / 4)).coeff k| ≤
      divisionBound f32 0 (∑ i ∈ Finset.antidiagonal k, |Q.coeff i.1 * (C (3 / 4) : ℚ[X]).coeff i.2|) (3 / 4) := by
  obtain ⟨a, ha⟩ := f32_three_quarters
  obtain ⟨c, hc, -⟩ := C74_div_self ha (by norm_num)
  have hp : CoefRep FloatRep [a] (C (3 / 4) : ℚ[X]) := coefRep_of_lrel (xs := [3 / 4]) (.cons ha .nil) fun i => by
    rcases i with _ | i <;> simp [coeff_C]
  have h0 : (ApproxFloats.field f32).isZero a = .ok false := by
    rw [(C55_equals ha ha).2.1, decide_eq_false (by norm_num)]
  have h : (PolynomialAlgebra.integralDomain (ApproxFloats.field f32).toIntegralDomain).tryDiv [a] [a] = .ok (some [c]) := by
    obtain ⟨b, hb, -⟩ := C55_neg (C74_div_self ha (by norm_num)).choose_spec.2
    have hb' : (ApproxFloats.field f32).neg c = .ok b := by
      rw [(C74_div_self ha (by norm_num)).choose_spec.1] at hc
      cases hc
      exact hb
    obtain ⟨z, hz, -⟩ := (C55_constants (F := f32)).1
    refine (C80_try_div _ [c] (by simp) le_rfl).2 ⟨a, z, [b], [a], rfl, hz, h0, rfl, ⟨rfl, rfl, ?_, ?_⟩, fun b hb => absurd hb (by simp)⟩
    · intro i x hx
      obtain rfl : i = 0 := by
        by_contra hi
        rw [List.getElem?_eq_none (by simp; omega)] at hx
        cases hx
      cases hx
      refine ⟨a, a, b, rfl, rfl, ?_, hb', rfl⟩
      show ((ApproxFloats.field f32).div a a).bind (fun x => Res.ok (some x)) = _
      rw [hc]
      rfl
    · intro k x hx
      obtain rfl : k = 0 := by
        by_contra hi
        rw [List.getElem?_eq_none (by simp; omega)] at hx
        cases hx
      cases hx
      exact ⟨a, rfl, rfl⟩
  obtain ⟨Q, h1, h2⟩ := C101_try_div hp hp h
  refine ⟨a, c, ha, h, Q, h1, fun k => ?_⟩
  have := h2 k
  simpa using this

end Abstalg
