import Verif.Proofs.CroutFloats
import Verif.Spec.FloatDivision
import Verif.Props.FloatError
import Verif.Props.Order
import Mathlib.Algebra.Polynomial.Coeff

/-! # Rounding errors of the division of polynomials -/

set_option autoImplicit false

namespace Abstalg

open FloatFormat Polynomial

variable {F : FloatFormat}

section lists

theorem forall₂_filterMap {α β γ : Type} {R : β → γ → Prop} {f : α → Option β} {g : α → Option γ} {l : List α}
    (h : ∀ i ∈ l, f i = none ∧ g i = none ∨ ∃ a b, f i = some a ∧ g i = some b ∧ R a b) :
    List.Forall₂ R (l.filterMap f) (l.filterMap g) := by
  induction l with
  | nil => exact .nil
  | cons i l ih =>
    have h' := ih fun k hk => h k (List.mem_cons_of_mem _ hk)
    rcases h i List.mem_cons_self with ⟨h1, h2⟩ | ⟨a, b, h1, h2, h3⟩
    · rw [List.filterMap_cons_none h1, List.filterMap_cons_none h2]
      exact h'
    · rw [List.filterMap_cons_some h1, List.filterMap_cons_some h2]
      exact .cons h3 h'

/-- The values of the pairs of coefficients of a division. -/
def divValues (D C : ℕ → ℚ) (lw lo hi k : ℕ) : List (ℚ × ℚ) :=
  ((List.range' lo (hi - lo)).reverse.filter fun i => decide (i ≤ k ∧ k - i < lw - 1)).map fun i => (D (k - i), C i)

theorem divPairs_values {w c : List F.Val} {D C : ℕ → ℚ} {hi : ℕ} (hw : ∀ i (h : i < w.length), FloatRep w[i] (D i)) (hc : c.length = hi)
    (hC : ∀ i (h : i < c.length), FloatRep c[i] (C i)) (lo k : ℕ) :
    List.Forall₂ (fun p q => FloatRep p.1 q.1 ∧ FloatRep p.2 q.2) (divPairs w c lo hi k) (divValues D C w.length lo hi k) := by
  have e : divValues D C w.length lo hi k = (List.range' lo (hi - lo)).reverse.filterMap fun i =>
      if i ≤ k ∧ k - i < w.length - 1 then some (D (k - i), C i) else none := by
    unfold divValues
    generalize (List.range' lo (hi - lo)).reverse = l
    induction l with
    | nil => rfl
    | cons i l ih =>
      by_cases h : i ≤ k ∧ k - i < w.length - 1
      · rw [List.filter_cons_of_pos (by simpa using h), List.map_cons, ih, List.filterMap_cons]
        simp only [if_pos h]
      · rw [List.filter_cons_of_neg (by simpa using h), ih, List.filterMap_cons]
        simp only [if_neg h]
  rw [e]
  unfold divPairs
  refine forall₂_filterMap fun i hi' => ?_
  have hi2 : i < c.length := by
    rw [List.mem_reverse, List.mem_range'_1] at hi'
    omega
  by_cases h1 : i ≤ k
  · by_cases h2 : k - i < w.length - 1
    · right
      refine ⟨(w[k - i], c[i]), (D (k - i), C i), ?_, if_pos ⟨h1, h2⟩, hw _ _, hC _ _⟩
      rw [if_pos h1, List.getElem?_eq_getElem (by simpa using h2), List.getElem_dropLast, List.getElem?_eq_getElem hi2]
      rfl
    · left
      refine ⟨?_, if_neg fun h => h2 h.2⟩
      rw [if_pos h1, List.getElem?_eq_none (by simpa using h2)]
      rfl
  · exact .inl ⟨if_neg h1, if_neg fun h => h1 h.1⟩

theorem divValues_length (D C : ℕ → ℚ) (lw lo hi k : ℕ) : (divValues D C lw lo hi k).length ≤ min hi (lw - 1) := by
  unfold divValues
  rw [List.length_map]
  refine le_min ?_ ?_
  · refine (List.length_filter_le _ _).trans ?_
    rw [List.length_reverse, List.length_range']
    omega
  · have h1 : ((List.range' lo (hi - lo)).reverse.filter fun i => decide (i ≤ k ∧ k - i < lw - 1)) ⊆
        List.range' (k + 1 - (lw - 1)) (lw - 1) := by
      intro i hi
      have := of_decide_eq_true (List.mem_filter.1 hi).2
      rw [List.mem_range'_1]
      omega
    have h2 : ((List.range' lo (hi - lo)).reverse.filter fun i => decide (i ≤ k ∧ k - i < lw - 1)).Nodup :=
      (List.nodup_reverse.2 List.nodup_range').filter _
    have := (h2.subperm h1).length_le
    rwa [List.length_range'] at this

theorem divValues_sum (D C : ℕ → ℚ) (g : ℚ → ℚ → ℚ) {lw lo hi k : ℕ} (hlh : lo ≤ hi) :
    ((divValues D C lw lo hi k).map fun p => g p.1 p.2).sum =
      ∑ i ∈ Finset.Ico lo hi, if i ≤ k ∧ k - i < lw - 1 then g (D (k - i)) (C i) else 0 := by
  unfold divValues
  rw [List.map_map]
  have h1 : ∀ l : List ℕ, ((l.filter fun i => decide (i ≤ k ∧ k - i < lw - 1)).map ((fun p : ℚ × ℚ => g p.1 p.2) ∘ fun i => (D (k - i), C i))).sum =
      (l.map fun i => if i ≤ k ∧ k - i < lw - 1 then g (D (k - i)) (C i) else 0).sum := fun l => by
    induction l with
    | nil => rfl
    | cons i l ih =>
      by_cases h : i ≤ k ∧ k - i < lw - 1
      · rw [List.filter_cons_of_pos (by simpa using h), List.map_cons, List.map_cons, List.sum_cons, List.sum_cons, ih, if_pos h]
        rfl
      · rw [List.filter_cons_of_neg (by simpa using h), List.map_cons, List.sum_cons, ih, if_neg h, zero_add]
  rw [h1, List.map_reverse, List.sum_reverse, ← List.sum_toFinset _ List.nodup_range']
  congr 1
  ext i
  rw [List.mem_toFinset, List.mem_range'_1, Finset.mem_Ico]
  omega

end lists

variable [Cfg]

/-- The error of adding products to a number, measured against the result. -/
theorem addProducts_error {add : F.Val → F.Val → Res F.Val} (hadd : ∀ a b x y, FloatRep a x → FloatRep b y → Rounded (add a b) (x + y))
    {a t : F.Val} {x : ℚ} {ps : List (F.Val × F.Val)} {qs : List (ℚ × ℚ)} (ha : FloatRep a x)
    (hp : List.Forall₂ (fun p q => FloatRep p.1 q.1 ∧ FloatRep p.2 q.2) ps qs)
    (he : addProducts (ApproxFloats.field F).mul add a ps = .ok t) :
    ∃ y, FloatRep t y ∧ |x - (y - (qs.map fun q => q.1 * q.2).sum)| ≤
      dotBound F qs.length (|y| + (qs.map fun q => |q.1 * q.2|).sum) (2 ^ F.emin / 2) := by
  have hη : (0 : ℚ) ≤ 2 ^ F.emin / 2 := by positivity
  have hs : ∀ qs : List (ℚ × ℚ), |(qs.map fun q => q.1 * q.2).sum| ≤ (qs.map fun q => |q.1 * q.2|).sum := fun qs => by
    induction qs with
    | nil => simp
    | cons q qs ih =>
      rw [List.map_cons, List.map_cons, List.sum_cons, List.sum_cons]
      exact (abs_add_le _ _).trans (add_le_add le_rfl ih)
  induction hp generalizing a x with
  | nil =>
    cases he
    exact ⟨x, ha, by simp [dotBound]⟩
  | @cons p b ps qs hpb hp ih =>
    obtain ⟨hu, hl⟩ := hpb
    have he' : ((ApproxFloats.field F).mul p.1 p.2).bind (fun q => (add a q).bind fun s => addProducts (ApproxFloats.field F).mul add s ps) = .ok t := he
    cases h3 : (ApproxFloats.field F).mul p.1 p.2 with
    | panic => rw [h3] at he'; cases he'
    | diverge => rw [h3] at he'; cases he'
    | ok q =>
    rw [h3] at he'
    replace he' : (add a q).bind (fun s => addProducts (ApproxFloats.field F).mul add s ps) = .ok t := he'
    cases h4 : add a q with
    | panic => rw [h4] at he'; cases he'
    | diverge => rw [h4] at he'; cases he'
    | ok a' =>
    rw [h4] at he'
    obtain ⟨q', hq, hq1, hq2⟩ := rounded_of_ok (C55_mul hu hl).1 h3
    obtain ⟨x', hx, hx1, hx2⟩ := rounded_of_ok (hadd _ _ _ _ ha hq) h4
    obtain ⟨y, hy, e⟩ := ih hx he'
    refine ⟨y, hy, ?_⟩
    have h6 := hq1.mixed hq2
    have h7 : |x' - (x + q')| ≤ unitRoundoff F * |x'| := by
      have := (sum_error ha.isFloat hq.isFloat hx2 hx1).2.2.2.2
      unfold unitRoundoff
      rwa [div_mul_eq_mul_div, one_mul]
    rw [List.map_cons, List.map_cons, List.sum_cons, List.sum_cons, List.length_cons, add_left_comm |y|]
    have hST := hs qs
    set S := (qs.map fun q => q.1 * q.2).sum
    set T := (qs.map fun q => |q.1 * q.2|).sum
    refine le_trans ?_ (dotBound_step qs.length hη (abs_nonneg (b.1 * b.2)))
    have hu0 := (unitRoundoff_pos (F := F)).le
    have h9 : |x'| ≤ |y| + T + dotBound F qs.length (|y| + T) (2 ^ F.emin / 2) := by
      have := abs_add_le (x' - (y - S)) (y - S)
      rw [sub_add_cancel] at this
      have h' := abs_sub y S
      linarith
    have h10 : x - (y - (b.1 * b.2 + S)) = -(x' - (x + q')) + (x' - (y - S)) - (q' - b.1 * b.2) := by ring
    rw [h10]
    have h11 := abs_sub (-(x' - (x + q')) + (x' - (y - S))) (q' - b.1 * b.2)
    have h12 := abs_add_le (-(x' - (x + q'))) (x' - (y - S))
    rw [abs_neg] at h12
    have h14 := h7.trans (mul_le_mul_of_nonneg_left h9 hu0)
    linarith

omit [Cfg] in
/-- The error of a quotient, measured against it. -/
theorem quotient_error {y z w : ℚ} (hz : z ≠ 0) (h : RoundsTo F (y / z) w) (ho : ¬ Overflows F (y / z)) :
    |y - z * w| ≤ unitRoundoff F * |z * w| + |z| * (2 ^ F.emin / 2) := by
  have hu := (unitRoundoff_pos (F := F)).le
  have h2 : |w - y / z| ≤ unitRoundoff F * |w| + 2 ^ F.emin / 2 := by
    have h3 := mul_nonneg hu (abs_nonneg w)
    rcases h.error ho with ⟨h2, -⟩ | ⟨-, h2⟩
    · linarith
    · refine h2.trans ?_
      rw [div_eq_mul_one_div, mul_comm]
      exact le_add_of_nonneg_right (by positivity)
  have h3 : y - z * w = -(z * (w - y / z)) := by field_simp; ring
  rw [h3, abs_neg, abs_mul, abs_mul]
  have := mul_le_mul_of_nonneg_left h2 (abs_nonneg z)
  linarith

omit [Cfg] in
theorem exists_poly (n : ℕ) (f : ℕ → ℚ) : ∃ Q : ℚ[X], ∀ i, Q.coeff i = if i < n then f i else 0 := by
  refine ⟨∑ i ∈ Finset.range n, monomial i (f i), fun i => ?_⟩
  rw [finsetSum_coeff]
  simp [coeff_monomial]

omit [Cfg] in
theorem sum_quotients {Q d : ℚ[X]} {g : ℚ → ℚ → ℚ} (hg : ∀ y, g 0 y = 0) {lq : ℕ} (hQ : ∀ i, lq ≤ i → Q.coeff i = 0) (k : ℕ) :
    ∑ i ∈ Finset.antidiagonal k, g (Q.coeff i.1) (d.coeff i.2) =
      ∑ i ∈ Finset.Ico 0 lq, if i ≤ k then g (Q.coeff i) (d.coeff (k - i)) else 0 := by
  rw [Finset.Nat.sum_antidiagonal_eq_sum_range_succ (fun i j => g (Q.coeff i) (d.coeff j)), ← Finset.sum_filter]
  refine Finset.sum_subset_zero_on_sdiff (s₁ := _) ?_ ?_ ?_ |>.symm
  · intro i hi
    rw [Finset.mem_filter] at hi
    exact Finset.mem_range.2 (Nat.lt_succ_of_le hi.2)
  · intro i hi
    rw [Finset.mem_sdiff, Finset.mem_filter, Finset.mem_range, Finset.mem_Ico] at hi
    rw [hQ i (by omega), hg]
  · intro i _
    rfl

omit [Cfg] in
theorem sum_quotients_low {Q d : ℚ[X]} {g : ℚ → ℚ → ℚ} (hg : ∀ y, g 0 y = 0) {lq lw k : ℕ} (hQ : ∀ i, lq ≤ i → Q.coeff i = 0)
    (hk : k < lw - 1) : ∑ i ∈ Finset.antidiagonal k, g (Q.coeff i.1) (d.coeff i.2) =
      ∑ i ∈ Finset.Ico 0 lq, if i ≤ k ∧ k - i < lw - 1 then g (Q.coeff i) (d.coeff (k - i)) else 0 := by
  rw [sum_quotients hg hQ]
  refine Finset.sum_congr rfl fun i _ => if_congr ⟨fun h => ⟨h, by omega⟩, fun h => h.1⟩ rfl rfl

omit [Cfg] in
theorem sum_quotients_high {Q d : ℚ[X]} {g : ℚ → ℚ → ℚ} (hg : ∀ y, g 0 y = 0) (hg' : ∀ y, g y 0 = 0) {lq lw j : ℕ}
    (hQ : ∀ i, lq ≤ i → Q.coeff i = 0) (hd : ∀ i, lw ≤ i → d.coeff i = 0) (hj : j < lq) :
    ∑ i ∈ Finset.antidiagonal (j + (lw - 1)), g (Q.coeff i.1) (d.coeff i.2) = g (Q.coeff j) (d.coeff (lw - 1)) +
      ∑ i ∈ Finset.Ico (j + 1) lq, if i ≤ j + (lw - 1) ∧ j + (lw - 1) - i < lw - 1 then g (Q.coeff i) (d.coeff (j + (lw - 1) - i)) else 0 := by
  rw [sum_quotients hg hQ, ← Finset.sum_Ico_consecutive _ (Nat.zero_le j) hj.le, Finset.sum_eq_sum_Ico_succ_bot hj, if_pos (by omega),
    Nat.add_sub_cancel_left, Finset.sum_eq_zero, zero_add]
  · congr 1
    refine Finset.sum_congr rfl fun i hi => if_congr ⟨fun h => ⟨h, ?_⟩, fun h => h.1⟩ rfl rfl
    rw [Finset.mem_Ico] at hi
    omega
  · intro i hi
    rw [Finset.mem_Ico] at hi
    rw [if_pos (by omega), hd _ (by omega), hg']

omit [Cfg] in
theorem sum_quotients_none {Q d : ℚ[X]} {g : ℚ → ℚ → ℚ} (hg : ∀ y, g 0 y = 0) (hg' : ∀ y, g y 0 = 0) {lq lw k : ℕ}
    (hQ : ∀ i, lq ≤ i → Q.coeff i = 0) (hd : ∀ i, lw ≤ i → d.coeff i = 0) (hk : lq + lw ≤ k + 1) :
    ∑ i ∈ Finset.antidiagonal k, g (Q.coeff i.1) (d.coeff i.2) = 0 := by
  rw [sum_quotients hg hQ]
  refine Finset.sum_eq_zero fun i hi => ?_
  rw [Finset.mem_Ico] at hi
  split
  · rw [hd _ (by omega), hg']
  · rfl

/-- The error of the long division. -/
theorem longDivision_error {add : F.Val → F.Val → Res F.Val} (hadd : ∀ a b x y, FloatRep a x → FloatRep b y → Rounded (add a b) (x + y))
    {D : F.Val → F.Val → Prop} {v w q nq t : List F.Val} {p d : ℚ[X]} (hv : CoefRep FloatRep v p) (hw : CoefRep FloatRep w d) (hw0 : w ≠ [])
    (hlen : q.length + w.length = v.length + 1) (hD : ∀ s x, D s x → ∃ z, FloatRep x z)
    (hD' : ∀ s x y z, FloatRep s y → FloatRep x z → D s x → |y - d.coeff (w.length - 1) * z| ≤
      unitRoundoff F * |d.coeff (w.length - 1) * z| + |d.coeff (w.length - 1)| * (2 ^ F.emin / 2))
    (h : LongDivision (ApproxFloats.field F).mul add (ApproxFloats.field F).neg D w v q nq t) :
    ∃ Q R : ℚ[X], CoefRep FloatRep q Q ∧ (∀ k, k < w.length - 1 → ∃ b, t[k]? = some b ∧ FloatRep b (R.coeff k)) ∧
      (∀ k, w.length - 1 ≤ k → R.coeff k = 0) ∧
      ∀ k, |p.coeff k - (Q * d + R).coeff k| ≤ divisionBound F (min q.length (w.length - 1))
        (∑ i ∈ Finset.antidiagonal k, |Q.coeff i.1 * d.coeff i.2| + |R.coeff k|) (d.coeff (w.length - 1)) := by
  have hlw : w.length ≠ 0 := fun h => hw0 (List.length_eq_zero_iff.1 h)
  -- the values of the quotient
  have hq : ∀ i, ∃ z, ∀ (hi : i < q.length), FloatRep q[i] z := fun i => by
    by_cases hi : i < q.length
    · obtain ⟨b, s, c, -, -, h1, -⟩ := h.quo i q[i] (List.getElem?_eq_getElem hi)
      obtain ⟨z, hz⟩ := hD _ _ h1
      exact ⟨z, fun _ => hz⟩
    · exact ⟨0, fun h => absurd h hi⟩
  choose qv hqv using hq
  obtain ⟨Q, hQ⟩ := exists_poly q.length qv
  have hQ0 : ∀ i, q.length ≤ i → Q.coeff i = 0 := fun i hi => by rw [hQ, if_neg (by omega)]
  have hQr : ∀ i (hi : i < q.length), FloatRep q[i] (Q.coeff i) := fun i hi => by rw [hQ, if_pos hi]; exact hqv i hi
  have hnq : ∀ i (hi : i < nq.length), FloatRep nq[i] (-Q.coeff i) := fun i hi => by
    have hi' : i < q.length := h.neg_len ▸ hi
    obtain ⟨b, s, c, -, -, -, h2, h3⟩ := h.quo i q[i] (List.getElem?_eq_getElem hi')
    obtain ⟨c', h4, -, h5⟩ := C55_neg (hQr i hi')
    rw [List.getElem?_eq_getElem hi] at h3
    rw [h2] at h4
    cases h4
    cases h3
    exact h5
  have pairs : ∀ lo k, List.Forall₂ (fun p q => FloatRep p.1 q.1 ∧ FloatRep p.2 q.2) (divPairs w nq lo q.length k)
      (divValues d.coeff (fun i => -Q.coeff i) w.length lo q.length k) := fun lo k => divPairs_values hw.1 h.neg_len hnq lo k
  -- the errors of the sums
  have hsum : ∀ lo ≤ q.length, ∀ k (hk : k < v.length) b,
      addProducts (ApproxFloats.field F).mul add v[k] (divPairs w nq lo q.length k) = .ok b → ∃ y, FloatRep b y ∧
        |p.coeff k - (y + ∑ i ∈ Finset.Ico lo q.length, if i ≤ k ∧ k - i < w.length - 1 then Q.coeff i * d.coeff (k - i) else 0)| ≤
          dotBound F (min q.length (w.length - 1)) (|y| + ∑ i ∈ Finset.Ico lo q.length,
            if i ≤ k ∧ k - i < w.length - 1 then |Q.coeff i * d.coeff (k - i)| else 0) (2 ^ F.emin / 2) := by
    intro lo hlo k hk b hb
    obtain ⟨y, hy, he⟩ := addProducts_error hadd (hv.1 k hk) (pairs lo k) hb
    refine ⟨y, hy, ?_⟩
    rw [divValues_sum _ _ (fun x y => x * y) hlo, divValues_sum _ _ (fun x y => |x * y|) hlo] at he
    have e1 : (∑ i ∈ Finset.Ico lo q.length, if i ≤ k ∧ k - i < w.length - 1 then d.coeff (k - i) * -Q.coeff i else 0) =
        -∑ i ∈ Finset.Ico lo q.length, if i ≤ k ∧ k - i < w.length - 1 then Q.coeff i * d.coeff (k - i) else 0 := by
      rw [← Finset.sum_neg_distrib]
      refine Finset.sum_congr rfl fun i _ => ?_
      split
      · ring
      · rw [neg_zero]
    have e2 : (∑ i ∈ Finset.Ico lo q.length, if i ≤ k ∧ k - i < w.length - 1 then |d.coeff (k - i) * -Q.coeff i| else 0) =
        ∑ i ∈ Finset.Ico lo q.length, if i ≤ k ∧ k - i < w.length - 1 then |Q.coeff i * d.coeff (k - i)| else 0 := by
      refine Finset.sum_congr rfl fun i _ => ?_
      rw [mul_neg, abs_neg, mul_comm]
    rw [e1, e2, sub_neg_eq_add] at he
    refine he.trans (dotBound_mono (by positivity) ?_ le_rfl (divValues_length _ _ _ _ _ _))
    refine add_nonneg (abs_nonneg _) (Finset.sum_nonneg fun i _ => ?_)
    split <;> positivity
  have hr : ∀ k, ∃ y, k < w.length - 1 → ∃ b, t[k]? = some b ∧ FloatRep b y ∧
      |p.coeff k - (y + ∑ i ∈ Finset.Ico 0 q.length, if i ≤ k ∧ k - i < w.length - 1 then Q.coeff i * d.coeff (k - i) else 0)| ≤
          dotBound F (min q.length (w.length - 1)) (|y| + ∑ i ∈ Finset.Ico 0 q.length,
            if i ≤ k ∧ k - i < w.length - 1 then |Q.coeff i * d.coeff (k - i)| else 0) (2 ^ F.emin / 2) := fun k => by
    by_cases hk : k < w.length - 1
    · by_cases hkv : k < v.length
      · obtain ⟨b, h1, h2⟩ := h.rem k v[k] (List.getElem?_eq_getElem hkv)
        obtain ⟨y, h3, h4⟩ := hsum 0 (Nat.zero_le _) k hkv b h2
        exact ⟨y, fun _ => ⟨b, h1, h3, h4⟩⟩
      · have hq0 : q.length = 0 := by omega
        exact absurd hlen (by omega)
    · exact ⟨0, fun h => absurd h hk⟩
  choose rv hrv using hr
  obtain ⟨R, hR⟩ := exists_poly (w.length - 1) rv
  have hR0 : ∀ k, w.length - 1 ≤ k → R.coeff k = 0 := fun k hk => by rw [hR, if_neg (by omega)]
  refine ⟨Q, R, ⟨hQr, hQ0⟩, fun k hk => ?_, hR0, fun k => ?_⟩
  · obtain ⟨b, h1, h2, -⟩ := hrv k hk
    exact ⟨b, h1, by rw [hR, if_pos hk]; exact h2⟩
  have hg : ∀ y : ℚ, |0 * y| = 0 := fun y => by rw [zero_mul, abs_zero]
  have hg' : ∀ y : ℚ, |y * 0| = 0 := fun y => by rw [mul_zero, abs_zero]
  have hu := (unitRoundoff_pos (F := F)).le
  have hη : (0 : ℚ) ≤ 2 ^ F.emin / 2 := by positivity
  unfold dotBound at hsum hrv
  unfold divisionBound
  rw [coeff_add, coeff_mul]
  set m := min q.length (w.length - 1)
  set a := d.coeff (w.length - 1)
  have hm1 : 1 ≤ (1 + unitRoundoff F) ^ m := one_le_pow₀ (by linarith)
  have hmm : (m : ℚ) * (1 + unitRoundoff F) ^ (m - 1) * (2 ^ F.emin / 2) ≤ m * (1 + unitRoundoff F) ^ m * (2 ^ F.emin / 2) := by
    gcongr
    · linarith
    · omega
  have hpow : (1 + unitRoundoff F) ^ (m + 1) = (1 + unitRoundoff F) ^ m * (1 + unitRoundoff F) := pow_succ _ _
  rw [hpow]
  set u := unitRoundoff F
  set η := (2 : ℚ) ^ F.emin / 2
  set G := (1 + u) ^ m
  have hGη : 0 ≤ |a| * G * η := by positivity
  by_cases hk : k < w.length - 1
  · obtain ⟨-, -, -, h1⟩ := hrv k hk
    rw [sum_quotients_low (g := fun x y => x * y) zero_mul hQ0 hk, sum_quotients_low (g := fun x y => |x * y|) hg hQ0 hk, hR, if_pos hk]
    rw [add_comm (rv k), add_comm |rv k|] at h1
    set S := ∑ i ∈ Finset.Ico 0 q.length, if i ≤ k ∧ k - i < w.length - 1 then |Q.coeff i * d.coeff (k - i)| else 0
    have hS : 0 ≤ S + |rv k| := add_nonneg (Finset.sum_nonneg fun i _ => by split <;> positivity) (abs_nonneg _)
    have h2 : 0 ≤ G * u * (S + |rv k|) := by positivity
    refine h1.trans ?_
    nlinarith
  · rw [hR0 k (by omega), add_zero, abs_zero, add_zero]
    obtain ⟨j, rfl⟩ : ∃ j, k = j + (w.length - 1) := ⟨k - (w.length - 1), by omega⟩
    by_cases hj : j < q.length
    · obtain ⟨b, s, c, h1, h2, h3, -⟩ := h.quo j q[j] (List.getElem?_eq_getElem hj)
      have hkv : j + (w.length - 1) < v.length := by omega
      rw [List.getElem?_eq_getElem hkv] at h1
      cases h1
      obtain ⟨y, h4, h5⟩ := hsum (j + 1) hj _ hkv s h2
      have h6 := hD' s q[j] y (Q.coeff j) h4 (hQr j hj) h3
      rw [sum_quotients_high (g := fun x y => x * y) zero_mul mul_zero hQ0 hw.2 hj,
        sum_quotients_high (g := fun x y => |x * y|) hg hg' hQ0 hw.2 hj]
      set S := ∑ i ∈ Finset.Ico (j + 1) q.length,
        if i ≤ j + (w.length - 1) ∧ j + (w.length - 1) - i < w.length - 1 then Q.coeff i * d.coeff (j + (w.length - 1) - i) else 0
      set T := ∑ i ∈ Finset.Ico (j + 1) q.length,
        if i ≤ j + (w.length - 1) ∧ j + (w.length - 1) - i < w.length - 1 then |Q.coeff i * d.coeff (j + (w.length - 1) - i)| else 0
      have hT : 0 ≤ T := Finset.sum_nonneg fun i _ => by split <;> positivity
      rw [mul_comm (Q.coeff j)]
      change |y - a * Q.coeff j| ≤ u * |a * Q.coeff j| + |a| * η at h6
      show |p.coeff _ - (a * Q.coeff j + S)| ≤ _ * (|a * Q.coeff j| + T) + _
      set z := a * Q.coeff j
      have h7 := abs_add_le (p.coeff (j + (w.length - 1)) - (y + S)) (y - z)
      rw [show p.coeff (j + (w.length - 1)) - (y + S) + (y - z) = p.coeff (j + (w.length - 1)) - (z + S) by ring] at h7
      have h8 : |y| ≤ (1 + u) * |z| + |a| * η := by
        have := abs_add_le (y - z) z
        rw [sub_add_cancel] at this
        linarith
      have h9 := mul_le_mul_of_nonneg_left h8 (sub_nonneg.2 hm1)
      have h10 : 0 ≤ G * u * T := by positivity
      refine h7.trans ?_
      nlinarith
    · rw [hv.2 _ (by omega), sum_quotients_none (g := fun x y => x * y) zero_mul mul_zero hQ0 hw.2 (by omega),
        sum_quotients_none (g := fun x y => |x * y|) hg hg' hQ0 hw.2 (by omega), sub_zero, abs_zero, mul_zero, zero_add]
      positivity

end Abstalg
