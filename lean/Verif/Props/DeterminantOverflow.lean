import Verif.Proofs.Minors
import Verif.Props.MatrixOverflow
import Verif.Props.Matrices
import Mathlib.LinearAlgebra.Matrix.AbsoluteValue
import Mathlib.Data.Matrix.ColumnRowPartitioned

/-! # Determinants and inverses of integer matrices over fractions of machine integers: C65 -/

set_option linter.unusedSectionVars false

set_option autoImplicit false

namespace Abstalg

section arithmetic

variable [Cfg] {w : ℕ} [Width w] {H : ℤ} {a b : SInt w × SInt w} {q r : ℚ}

theorem inRange_of_abs {x : ℤ} (h : |x| < 2 ^ (w - 1)) : InRange w x := by
  have := abs_lt.1 h
  unfold InRange
  omega

theorem HeightLe.one_le (h : HeightLe H q) : 1 ≤ H := by
  have h1 : (0 : ℤ) < q.den := by exact_mod_cast q.den_pos
  exact le_trans (by omega) h.2

theorem isZero_fraction (ha : MFracRep w a q) :
    (ReducedFractions.ops (CheckedInts.euclidean w)).isZero a = .ok (decide (q = 0)) := by
  have h1 : Decides True ((ReducedFractions.ops (CheckedInts.euclidean w)).isZero a) (q = 0) :=
    C57_checked_fractions.isZero ha
  have h2 : ∃ z, (ReducedFractions.ops (CheckedInts.euclidean w)).isZero a = .ok z := by
    show ∃ z, (if (a.1 == CheckedInts.c0 w) = true then Res.ok (a.2 == CheckedInts.c1 w) else Res.ok false) = .ok z
    split <;> exact ⟨_, rfl⟩
  obtain ⟨z, hz⟩ := h2
  rw [hz] at h1 ⊢
  have h1 : z = true ↔ q = 0 := h1
  congr 1
  rw [Bool.eq_iff_iff, h1, decide_eq_true_eq]

variable (hw : 2 * H ^ 3 < 2 ^ (w - 1))

include hw

theorem lt_of_height {x : ℤ} (h1 : 1 ≤ H) (h : |x| ≤ H * H) : InRange w x := by
  refine inRange_of_abs (lt_of_le_of_lt h (lt_of_le_of_lt ?_ hw))
  nlinarith [mul_le_mul h1 h1 zero_le_one (by omega), mul_self_nonneg H]

theorem mul_heights (ha : MFracRep w a q) (hb : MFracRep w b r) (hq : HeightLe H q) (hr : HeightLe H r) :
    ∃ x, (ReducedFractions.ops (CheckedInts.euclidean w)).mul a b = .ok x ∧ MFracRep w x (q * r) := by
  refine (C65_fractions_mul ha hb).1 ⟨lt_of_height hw hq.one_le ?_, lt_of_height hw hq.one_le ?_⟩
  · rw [abs_mul]
    exact mul_le_mul hq.1 hr.1 (abs_nonneg _) (by have := hq.one_le; omega)
  · rw [abs_of_nonneg (by positivity)]
    exact mul_le_mul hq.2 hr.2 (by positivity) (by have := hq.one_le; omega)

theorem add_heights (ha : MFracRep w a q) (hb : MFracRep w b r) (hq : HeightLe H q) (hr : HeightLe (H * H) r) :
    ∃ x, (ReducedFractions.ops (CheckedInts.euclidean w)).addAssign a b = .ok x ∧ MFracRep w x (q + r) := by
  have h1 := hq.one_le
  have h2 : 1 ≤ H * H := by nlinarith
  have h3 : H * H ≤ H ^ 3 := by nlinarith
  have h4 : H ≤ H ^ 3 := by nlinarith
  have e : H * (H * H) = H ^ 3 := by ring
  have hqd : (0 : ℤ) ≤ q.den := by positivity
  have hrd : (0 : ℤ) ≤ r.den := by positivity
  have b1 : |q.num * r.den| ≤ H ^ 3 := by
    rw [abs_mul, abs_of_nonneg hrd, ← e]
    exact mul_le_mul hq.1 hr.2 hrd (by omega)
  have b2 : |q.den * r.num| ≤ H ^ 3 := by
    rw [abs_mul, abs_of_nonneg hqd, ← e]
    exact mul_le_mul hq.2 hr.1 (abs_nonneg _) (by omega)
  have b3 : |(q.den * r.den : ℤ)| ≤ H ^ 3 := by
    rw [abs_of_nonneg (by positivity), ← e]
    exact mul_le_mul hq.2 hr.2 hrd (by omega)
  refine (C65_fractions_add ha hb).1 ⟨fun _ => inRange_of_abs ?_, fun _ => ⟨inRange_of_abs ?_, inRange_of_abs ?_, inRange_of_abs ?_,
    inRange_of_abs ?_⟩⟩
  · have := abs_add_le q.num r.num
    have := hq.1
    have := hr.1
    omega
  · omega
  · omega
  · have := abs_add_le (q.num * r.den) (q.den * r.num)
    omega
  · omega

theorem neg_heights (ha : MFracRep w a q) (hq : HeightLe H q) :
    ∃ x, (ReducedFractions.ops (CheckedInts.euclidean w)).neg a = .ok x ∧ MFracRep w x (-q) := by
  refine (C65_fractions_neg ha).1 (lt_of_height hw hq.one_le ?_)
  rw [abs_neg]
  exact hq.1.trans (by nlinarith [hq.one_le])

theorem inv_heights (ha : MFracRep w a q) (hq : HeightLe H q) (h0 : q ≠ 0) :
    ∃ x, (ReducedFractions.ops (CheckedInts.euclidean w)).inv a = .ok x ∧ MFracRep w x q⁻¹ := by
  refine (C65_fractions_inv ha).1 ⟨h0, lt_of_height hw hq.one_le ?_⟩
  rw [abs_neg]
  exact hq.1.trans (by nlinarith [hq.one_le])

end arithmetic

section elimination

universe u

variable [Cfg] {w : ℕ} [Width w] {H : ℤ} {n : ℕ} {κ : Type u} (hw : 2 * H ^ 3 < 2 ^ (w - 1))

include hw

/-- The pivot row is divided by the pivot. -/
theorem scale_heights {x : κ → SInt w × SInt w} {b : κ → ℚ} (hx : ∀ j, MFracRep w (x j) (b j)) {d : ℚ} (hd : d ≠ 0)
    (hd' : ∃ Z : ℤ, |Z| ≤ H ∧ d = Z) (hb : ∀ j, ∃ Z : ℤ, |Z| ≤ H ∧ b j * d = Z) {j₀ : κ} (h0 : b j₀ ≠ 0) :
    ∃ c, (ReducedFractions.ops (CheckedInts.euclidean w)).inv (x j₀) = .ok c ∧ ∃ y : κ → SInt w × SInt w,
      (∀ j, (ReducedFractions.ops (CheckedInts.euclidean w)).mulAssign (x j) c = .ok (y j)) ∧
      (∀ j, MFracRep w (y j) ((b j₀)⁻¹ * b j)) ∧ ∀ j, HeightLe H ((b j₀)⁻¹ * b j) := by
  obtain ⟨D, hD, rfl⟩ := hd'
  have hD0 : D ≠ 0 := by exact_mod_cast hd
  have hh : ∀ j, HeightLe H (b j) := fun j => by
    obtain ⟨Z, hZ, h⟩ := hb j
    exact heightLe_of_quotient hZ hD hD0 h
  obtain ⟨Z₀, hZ₀, hb₀⟩ := hb j₀
  have hZ : Z₀ ≠ 0 := fun e => by
    rw [e, Int.cast_zero] at hb₀
    exact (mul_ne_zero h0 hd) hb₀
  have hinv : HeightLe H (b j₀)⁻¹ := by
    refine heightLe_of_quotient hD hZ₀ hZ ?_
    rw [← hb₀]
    field_simp
  obtain ⟨c, hc, hc'⟩ := inv_heights hw (hx j₀) (hh j₀) h0
  refine ⟨c, hc, ?_⟩
  choose y hy hy' using fun j => mul_heights hw (hx j) hc' (hh j) hinv
  refine ⟨y, hy, fun j => by rw [mul_comm]; exact hy' j, fun j => ?_⟩
  obtain ⟨Z, hZ', hb'⟩ := hb j
  refine heightLe_of_quotient hZ' hZ₀ hZ ?_
  rw [← hb₀, ← hb']
  field_simp

/-- A multiple of the pivot row is added to a row. -/
theorem clear_heights {x y : κ → SInt w × SInt w} {b e : κ → ℚ} (hx : ∀ j, MFracRep w (x j) (b j)) (hy : ∀ j, MFracRep w (y j) (e j))
    (hb : ∀ j, HeightLe H (b j)) (he : ∀ j, HeightLe H (e j)) (j₀ : κ) :
    ∃ m, (ReducedFractions.ops (CheckedInts.euclidean w)).neg (x j₀) = .ok m ∧ ∃ z : κ → SInt w × SInt w,
      (∀ j, ∃ q, (ReducedFractions.ops (CheckedInts.euclidean w)).mul (y j) m = .ok q ∧
        (ReducedFractions.ops (CheckedInts.euclidean w)).addAssign (x j) q = .ok (z j)) ∧
      ∀ j, MFracRep w (z j) (b j + -b j₀ * e j) := by
  obtain ⟨m, hm, hm'⟩ := neg_heights hw (hx j₀) (hb j₀)
  refine ⟨m, hm, ?_⟩
  have : ∀ j, ∃ z, (∃ q, (ReducedFractions.ops (CheckedInts.euclidean w)).mul (y j) m = .ok q ∧
      (ReducedFractions.ops (CheckedInts.euclidean w)).addAssign (x j) q = .ok z) ∧ MFracRep w z (b j + -b j₀ * e j) := fun j => by
    obtain ⟨q, hq, hq'⟩ := mul_heights hw (hy j) hm' (he j) (hb j₀).neg
    obtain ⟨z, hz, hz'⟩ := add_heights hw (hx j) hq' (hb j) ((he j).mul (hb j₀).neg)
    exact ⟨z, ⟨q, hq, hz⟩, by rw [mul_comm (-b j₀)]; exact hz'⟩
  choose z hz using this
  exact ⟨z, fun j => (hz j).1, fun j => (hz j).2⟩

theorem detRun_heights : ∀ k c, c + k = n → ∀ {X : Fin n → Fin n → SInt w × SInt w} {B : Matrix (Fin n) (Fin n) ℚ}
    {d : SInt w × SInt w} {D : ℚ}, (∀ r j, MFracRep w (X r j) (B r j)) → MFracRep w d D → D ≠ 0 → MinorInv H c B D →
    EchelonCols id B c → ∃ x, DetRun (ReducedFractions.ops (CheckedInts.euclidean w)) ((List.finRange n).drop c) X d x := by
  intro k
  induction k with
  | zero =>
    intro c hc X B d D _ _ _ _ _
    rw [List.drop_eq_nil_of_le (by rw [List.length_finRange]; omega)]
    exact ⟨d, .done _ _⟩
  | succ k ih =>
    intro c hc X B d D hX hd hD hinv hech
    have hcn : c < n := by omega
    rw [List.drop_eq_getElem_cons (by rw [List.length_finRange]; exact hcn), List.getElem_finRange]
    obtain ⟨i, hi, hic⟩ : ∃ i : Fin n, i = Fin.cast (List.length_finRange (n := n)) ⟨c, by rw [List.length_finRange]; exact hcn⟩ ∧ i.1 = c := ⟨_, rfl, rfl⟩
    rw [← hi]
    have hpiv := hinv.pivots hech hcn.le
    have hent : ∀ r : Fin n, i ≤ r → ∀ j, ∃ Z : ℤ, |Z| ≤ H ∧ B r j * D = Z := fun r hr j => hinv.entry hech (hic ▸ hr) j
    have hheight : ∀ r : Fin n, i ≤ r → ∀ j, HeightLe H (B r j) := fun r hr j => by
      obtain ⟨Z, hZ, h⟩ := hent r hr j
      obtain ⟨D', hD', rfl⟩ := hpiv
      exact heightLe_of_quotient hZ hD' (by exact_mod_cast hD) h
    by_cases hno : ∀ r, i ≤ r → B r i = 0
    · exact ⟨_, .singular (fun r hr => by rw [isZero_fraction (hX r i), decide_eq_true (hno r hr)]) rfl⟩
    · push Not at hno
      obtain ⟨p, ⟨hip, hp⟩, hmin⟩ := WellFounded.has_min (wellFounded_lt (α := Fin n)) {r | i ≤ r ∧ B r i ≠ 0} hno
      obtain ⟨s, hs, y, hy, hy', hyh⟩ := scale_heights hw (hX p) hD hpiv (hent p hip) hp
      obtain ⟨d', hd', hd''⟩ : ∃ x, (ReducedFractions.ops (CheckedInts.euclidean w)).mulAssign d (X p i) = .ok x ∧
          MFracRep w x (D * B p i) := by
        refine mul_heights hw hd (hX p i) ?_ (hheight p hip i)
        obtain ⟨D', hD', rfl⟩ := hpiv
        exact heightLe_of_quotient hD' (z := 1) (by rw [abs_one]; exact (hheight p hip i).one_le) one_ne_zero (by simp)
      -- the matrix with the pivot row scaled
      let X₁ : Fin n → Fin n → SInt w × SInt w := fun r => if r = i then y else X (Equiv.swap i p r)
      have hsw : ∀ r, i ≤ r → i ≤ Equiv.swap i p r := fun r hr => by
        rw [Equiv.swap_apply_def]
        split_ifs
        · exact hip
        · exact le_rfl
        · exact hr
      have hX₁ : ∀ r j, MFracRep w (X₁ r j) (scaledRow B i p (B p i)⁻¹ r j) := fun r j => by
        by_cases hr : r = i
        · subst hr
          simpa only [X₁, scaledRow, if_true, Equiv.swap_apply_left] using hy' j
        · simpa only [X₁, scaledRow, if_neg hr, one_mul] using hX (Equiv.swap i p r) j
      have hH₁ : ∀ r, i ≤ r → ∀ j, HeightLe H (scaledRow B i p (B p i)⁻¹ r j) := fun r hir j => by
        by_cases hr : r = i
        · subst hr
          simpa only [scaledRow, if_true, Equiv.swap_apply_left] using hyh j
        · simpa only [scaledRow, if_neg hr, one_mul] using hheight _ (hsw r hir) j
      let m : Fin n → ℚ := fun r => if r ≤ i then 0 else -scaledRow B i p (B p i)⁻¹ r i
      have hrow : ∀ r, ∃ z : Fin n → SInt w × SInt w, (∀ j, MFracRep w (z j) (clearedRows (scaledRow B i p (B p i)⁻¹) i m r j)) ∧
          (r ≤ i → z = X₁ r) ∧ (i < r →
            ((ReducedFractions.ops (CheckedInts.euclidean w)).isZero (X₁ r i) = .ok true ∧ z = X₁ r) ∨
            (ReducedFractions.ops (CheckedInts.euclidean w)).isZero (X₁ r i) = .ok false ∧
              ∃ l, (ReducedFractions.ops (CheckedInts.euclidean w)).neg (X₁ r i) = .ok l ∧
                AddRow (ReducedFractions.ops (CheckedInts.euclidean w)) l (X₁ i) (X₁ r) z) := fun r => by
        by_cases hr : r ≤ i
        · refine ⟨X₁ r, fun j => ?_, fun _ => rfl, fun h => absurd h (not_lt.2 hr)⟩
          simpa only [clearedRows, m, if_pos hr, zero_mul, add_zero] using hX₁ r j
        · by_cases h0 : scaledRow B i p (B p i)⁻¹ r i = 0
          · refine ⟨X₁ r, fun j => ?_, fun _ => rfl, fun _ => .inl ⟨by rw [isZero_fraction (hX₁ r i), decide_eq_true h0], rfl⟩⟩
            simpa only [clearedRows, m, if_neg hr, h0, neg_zero, zero_mul, add_zero] using hX₁ r j
          · obtain ⟨l, hl, z, hz, hz'⟩ := clear_heights hw (hX₁ r) (hX₁ i) (hH₁ r (not_le.1 hr).le) (hH₁ i le_rfl) i
            refine ⟨z, fun j => ?_, fun h => absurd h hr, fun _ => .inr ⟨by rw [isZero_fraction (hX₁ r i), decide_eq_false h0],
              l, hl, hz⟩⟩
            simpa only [clearedRows, m, if_neg hr] using hz' j
      choose X₂ hX₂ h1 h2 using hrow
      have hmi : m i = 0 := if_pos le_rfl
      have hone : scaledRow B i p (B p i)⁻¹ i i = 1 := by
        simp only [scaledRow, if_true, Equiv.swap_apply_left]
        exact inv_mul_cancel₀ hp
      have hzero : ∀ k : Fin n, k.1 < c → ∀ r, i ≤ r → scaledRow B i p (B p i)⁻¹ r k = 0 := fun k hk r hr => by
        have : B (Equiv.swap i p r) k = 0 := (hech _ k hk).2 (lt_of_lt_of_le (show k < i by rw [Fin.lt_def]; omega) (hsw r hr))
        simp only [scaledRow, this, mul_zero]
      have hstep := hinv.step (m := m) hic hip hp hmi
      obtain ⟨x, hx⟩ := ih (c + 1) (by omega) hX₂ hd'' (mul_ne_zero hD hp) hstep (fun r k hk => by
        show (_ → clearedRows _ _ _ r k = 1) ∧ (_ → clearedRows _ _ _ r k = 0)
        by_cases hkc : k.1 < c
        · by_cases hr : i ≤ r
          · refine ⟨fun e => absurd hr (by rw [e, not_le, Fin.lt_def]; omega), fun _ => ?_⟩
            simp only [clearedRows, hzero k hkc r hr, hzero k hkc i le_rfl, mul_zero, add_zero]
          · have hr' : r ≤ i := (not_le.1 hr).le
            have hri : r ≠ i := fun e => hr e.ge
            have hrp : r ≠ p := fun e => hr (e ▸ hip)
            have : clearedRows (scaledRow B i p (B p i)⁻¹) i m r k = B r k := by
              simp only [clearedRows, scaledRow, m, if_pos hr', if_neg hri, Equiv.swap_apply_of_ne_of_ne hri hrp, zero_mul, add_zero,
                one_mul]
            rw [this]
            exact hech r k hkc
        · obtain rfl : k = i := Fin.ext (by omega)
          constructor
          · rintro rfl
            simp only [clearedRows, hmi, zero_mul, add_zero, hone]
          · intro hr
            simp only [clearedRows, m, if_neg (not_le.2 hr), hone, mul_one, add_neg_cancel])
      refine ⟨x, .step p d' s X₁ X₂ ⟨hip, ?_, fun r hr hrp => ?_⟩ hd' hs ⟨?_, fun r hr => ?_⟩ h1 h2 hx⟩
      · rw [isZero_fraction (hX p i), decide_eq_false hp]
      · rw [isZero_fraction (hX r i), decide_eq_true]
        by_contra h
        exact hmin r ⟨hr, h⟩ hrp
      · simpa only [ScaleRow, X₁, if_pos rfl] using hy
      · simp only [X₁, if_neg hr]

theorem invRun_heights : ∀ k c, c + k = n → ∀ {X : Fin n → Fin n ⊕ Fin n → SInt w × SInt w} {B : Matrix (Fin n) (Fin n ⊕ Fin n) ℚ}
    {D : ℚ}, (∀ r j, MFracRep w (X r j) (B r j)) → D ≠ 0 → MinorInv H c B D →
    (∀ r k : Fin n, k.1 < c → B r (.inl k) = if r = k then 1 else 0) →
    ∃ x, InvRun (ReducedFractions.ops (CheckedInts.euclidean w)) ((List.finRange n).drop c) (fun r j => X r (.inl j))
        (fun r j => X r (.inr j)) x ∧
      ∀ A C, x = some (A, C) → ∀ r k, MFracRep w (A r k) (if r = k then 1 else 0) := by
  intro k
  induction k with
  | zero =>
    intro c hc X B D hX _ _ hech
    rw [List.drop_eq_nil_of_le (by rw [List.length_finRange]; omega)]
    refine ⟨_, .done _ _, fun A C h r k => ?_⟩
    cases h
    rw [← hech r k (by have := k.2; omega)]
    exact hX r (.inl k)
  | succ k ih =>
    intro c hc X B D hX hD hinv hech
    have hcn : c < n := by omega
    rw [List.drop_eq_getElem_cons (by rw [List.length_finRange]; exact hcn), List.getElem_finRange]
    obtain ⟨i, hi, hic⟩ : ∃ i : Fin n, i = Fin.cast (List.length_finRange (n := n)) ⟨c, by rw [List.length_finRange]; exact hcn⟩ ∧
      i.1 = c := ⟨_, rfl, rfl⟩
    rw [← hi]
    have hech' : EchelonCols Sum.inl B c := fun r k hk => by
      rw [hech r k hk]
      exact ⟨fun e => if_pos e, fun e => if_neg (ne_of_gt e)⟩
    have hpiv := hinv.pivots hech' hcn.le
    have hent : ∀ r j, ∃ Z : ℤ, |Z| ≤ H ∧ B r j * D = Z := fun r j => by
      by_cases hr : r.1 < c
      · exact hinv.entry_done hech hcn.le hr j
      · exact hinv.entry hech' (not_lt.1 hr) j
    have hheight : ∀ r j, HeightLe H (B r j) := fun r j => by
      obtain ⟨Z, hZ, h⟩ := hent r j
      obtain ⟨D', hD', rfl⟩ := hpiv
      exact heightLe_of_quotient hZ hD' (by exact_mod_cast hD) h
    by_cases hno : ∀ r, i ≤ r → B r (.inl i) = 0
    · exact ⟨_, .singular fun r hr => by rw [isZero_fraction (hX r (.inl i)), decide_eq_true (hno r hr)], fun _ _ h => (nomatch h)⟩
    · push Not at hno
      obtain ⟨p, ⟨hip, hp⟩, hmin⟩ := WellFounded.has_min (wellFounded_lt (α := Fin n)) {r | i ≤ r ∧ B r (.inl i) ≠ 0} hno
      obtain ⟨s, hs, y, hy, hy', hyh⟩ := scale_heights hw (hX p) hD hpiv (hent p) hp
      let X₁ : Fin n → Fin n ⊕ Fin n → SInt w × SInt w := fun r => if r = i then y else X (Equiv.swap i p r)
      have hX₁ : ∀ r j, MFracRep w (X₁ r j) (scaledRow B i p (B p (.inl i))⁻¹ r j) := fun r j => by
        by_cases hr : r = i
        · subst hr
          simpa only [X₁, scaledRow, if_true, Equiv.swap_apply_left] using hy' j
        · simpa only [X₁, scaledRow, if_neg hr, one_mul] using hX (Equiv.swap i p r) j
      have hH₁ : ∀ r j, HeightLe H (scaledRow B i p (B p (.inl i))⁻¹ r j) := fun r j => by
        by_cases hr : r = i
        · subst hr
          simpa only [scaledRow, if_true, Equiv.swap_apply_left] using hyh j
        · simpa only [scaledRow, if_neg hr, one_mul] using hheight _ j
      let m : Fin n → ℚ := fun r => if r = i then 0 else -scaledRow B i p (B p (.inl i))⁻¹ r (.inl i)
      have hrow : ∀ r, ∃ z : Fin n ⊕ Fin n → SInt w × SInt w,
          (∀ j, MFracRep w (z j) (clearedRows (scaledRow B i p (B p (.inl i))⁻¹) i m r j)) ∧
          (r = i → z = X₁ r) ∧ (r ≠ i →
            ((ReducedFractions.ops (CheckedInts.euclidean w)).isZero (X₁ r (.inl i)) = .ok true ∧ z = X₁ r) ∨
            (ReducedFractions.ops (CheckedInts.euclidean w)).isZero (X₁ r (.inl i)) = .ok false ∧
              ∃ l, (ReducedFractions.ops (CheckedInts.euclidean w)).neg (X₁ r (.inl i)) = .ok l ∧
                ∀ j, ∃ q, (ReducedFractions.ops (CheckedInts.euclidean w)).mul (X₁ i j) l = .ok q ∧
                  (ReducedFractions.ops (CheckedInts.euclidean w)).addAssign (X₁ r j) q = .ok (z j)) := fun r => by
        by_cases hr : r = i
        · refine ⟨X₁ r, fun j => ?_, fun _ => rfl, fun h => absurd hr h⟩
          simpa only [clearedRows, m, if_pos hr, zero_mul, add_zero] using hX₁ r j
        · by_cases h0 : scaledRow B i p (B p (.inl i))⁻¹ r (.inl i) = 0
          · refine ⟨X₁ r, fun j => ?_, fun _ => rfl, fun _ => .inl ⟨by rw [isZero_fraction (hX₁ r _), decide_eq_true h0], rfl⟩⟩
            simpa only [clearedRows, m, if_neg hr, h0, neg_zero, zero_mul, add_zero] using hX₁ r j
          · obtain ⟨l, hl, z, hz, hz'⟩ := clear_heights hw (hX₁ r) (hX₁ i) (hH₁ r) (hH₁ i) (.inl i)
            refine ⟨z, fun j => ?_, fun h => absurd h hr, fun _ => .inr ⟨by rw [isZero_fraction (hX₁ r _), decide_eq_false h0],
              l, hl, hz⟩⟩
            simpa only [clearedRows, m, if_neg hr] using hz' j
      choose X₂ hX₂ h1 h2 using hrow
      have hmi : m i = 0 := if_pos rfl
      have hone : scaledRow B i p (B p (.inl i))⁻¹ i (.inl i) = 1 := by
        simp only [scaledRow, if_true, Equiv.swap_apply_left]
        exact inv_mul_cancel₀ hp
      have hne : ∀ k : Fin n, k.1 < c → k ≠ i ∧ k ≠ p := fun k hk => by
        have hip' : i.1 ≤ p.1 := hip
        exact ⟨fun e => by rw [e] at hk; omega, fun e => by rw [e] at hk; omega⟩
      have hzero : ∀ k : Fin n, k.1 < c → scaledRow B i p (B p (.inl i))⁻¹ i (.inl k) = 0 := fun k hk => by
        simp only [scaledRow, Equiv.swap_apply_left, hech p k hk, if_neg (hne k hk).2.symm, mul_zero]
      have hkeep : ∀ k : Fin n, k.1 < c → ∀ r, r ≠ i → scaledRow B i p (B p (.inl i))⁻¹ r (.inl k) = if r = k then 1 else 0 :=
        fun k hk r hr => by
          simp only [scaledRow, if_neg hr, one_mul, hech _ k hk]
          by_cases e : r = k
          · rw [if_pos e, if_pos (by rw [e, Equiv.swap_apply_of_ne_of_ne (hne k hk).1 (hne k hk).2])]
          · refine (if_neg fun e' => e ?_).trans (if_neg e).symm
            rw [← Equiv.swap_apply_of_ne_of_ne (hne k hk).1 (hne k hk).2] at e'
            exact (Equiv.swap i p).injective e'
      have hstep := hinv.step (m := m) hic hip hp hmi
      obtain ⟨x, hx, hx'⟩ := ih (c + 1) (by omega) hX₂ (mul_ne_zero hD hp) hstep (fun r k hk => by
        by_cases hkc : k.1 < c
        · by_cases hr : r = i
          · rw [if_neg (by rw [hr]; exact (hne k hkc).1.symm), hr]
            simp only [clearedRows, hzero k hkc, mul_zero, add_zero]
          · simp only [clearedRows, hzero k hkc, mul_zero, add_zero, hkeep k hkc r hr]
        · obtain rfl : k = i := Fin.ext (by omega)
          by_cases hr : r = k
          · rw [hr, if_pos rfl]
            simp only [clearedRows, hmi, zero_mul, add_zero, hone]
          · simp only [clearedRows, m, if_neg hr, hone, mul_one, add_neg_cancel])
      refine ⟨x, .step p s (fun r j => X₁ r (.inl j)) (fun r j => X₁ r (.inr j)) (fun r j => X₂ r (.inl j)) (fun r j => X₂ r (.inr j))
        ⟨hip, ?_, fun r hr hrp => ?_⟩ hs ⟨?_, fun r hr => ?_⟩ ⟨?_, fun r hr => ?_⟩ ?_ ?_ (fun r hr => ?_) hx, hx'⟩
      · rw [isZero_fraction (hX p _), decide_eq_false hp]
      · rw [isZero_fraction (hX r _), decide_eq_true]
        by_contra h
        exact hmin r ⟨hr, h⟩ hrp
      · intro j
        simpa only [X₁, if_true] using hy (.inl j)
      · simp only [X₁, if_neg hr]
      · intro j
        simpa only [X₁, if_true] using hy (.inr j)
      · simp only [X₁, if_neg hr]
      · rw [h1 i rfl]
      · rw [h1 i rfl]
      · rcases h2 r hr with ⟨h3, h4⟩ | ⟨h3, l, h4, h5⟩
        · exact .inl ⟨h3, by rw [h4], by rw [h4]⟩
        · exact .inr ⟨h3, l, h4, fun j => h5 _, fun j => h5 _⟩

end elimination

theorem MinorsWithin.one_le {n : ℕ} {κ : Type} {H : ℤ} {M : Matrix (Fin n) κ ℤ} (h : MinorsWithin H M) : 1 ≤ H := by
  have := h 0 Fin.elim0 Fin.elim0
  rwa [Matrix.det_fin_zero, abs_one] at this

theorem allRes_total {α : Type} {f : α → Res Bool} (h : ∀ a, ∃ z, f a = .ok z) : ∀ l, ∃ z, allRes f l = .ok z
  | [] => ⟨true, rfl⟩
  | a :: l => by
    obtain ⟨z, hz⟩ := h a
    obtain ⟨y, hy⟩ := allRes_total h l
    rw [allRes, hz]
    cases z
    · exact ⟨false, rfl⟩
    · exact ⟨y, hy⟩

section theorems

variable [Cfg] {w : ℕ} [Width w] {H : ℤ} {n : ℕ} {u : List (SInt w × SInt w)} {M : Matrix (Fin n) (Fin n) ℤ}

theorem exists_entries {A : Matrix (Fin n) (Fin n) ℚ} (hA : MatRep (MFracRep w) u A) :
    ∃ a, u = flatVec a ∧ ∀ i j, MFracRep w (a i j) (A i j) := by
  obtain ⟨a, rfl⟩ := flatVec_surj hA.1
  refine ⟨a, rfl, fun i j => ?_⟩
  obtain ⟨x, hx, hx'⟩ := hA.2 i j
  rw [flatVec_get] at hx
  cases hx
  exact hx'

/-- C65: the determinant of a matrix of integers whose minors are at most `H` is computed over the fractions of machine integers
without overflow if `2 * H ^ 3` is representable. -/
theorem C65_determinant (hM : MatRep (MFracRep w) u (M.map fun x : ℤ => (x : ℚ))) (hH : MinorsWithin H M)
    (hw : 2 * H ^ 3 < 2 ^ (w - 1)) :
    ∃ x, MatrixRing.determinant (ReducedFractions.ops (CheckedInts.euclidean w)) n u = .ok x ∧
      (MFracRep w x M.det ∨ MFracRep w x (-M.det)) := by
  have hspec : Returns True (MatrixRing.determinant (ReducedFractions.ops (CheckedInts.euclidean w)) n u) fun e =>
      MFracRep w e (M.map fun x : ℤ => (x : ℚ)).det ∨ MFracRep w e (-(M.map fun x : ℤ => (x : ℚ)).det) :=
    C41_up_to_sign n C57_checked_fractions hM
  have hdet : (M.map fun x : ℤ => (x : ℚ)).det = M.det := ((Int.castRingHom ℚ).map_det M).symm
  rw [hdet] at hspec
  obtain ⟨a, rfl, ha⟩ := exists_entries hM
  obtain ⟨x, hx⟩ := detRun_heights hw n 0 (by omega) (d := (CheckedInts.c1 w, CheckedInts.c1 w)) ha ⟨rfl, rfl⟩ one_ne_zero
    (MinorInv.start hH) fun i k hk => absurd hk (Nat.not_lt_zero _)
  have h := (C80_determinant _ a x).2 ⟨_, rfl, hx⟩
  rw [h] at hspec
  exact ⟨x, h, hspec⟩

/-- C65: nor does `invertible` overflow then. -/
theorem C65_invertible (hM : MatRep (MFracRep w) u (M.map fun x : ℤ => (x : ℚ))) (hH : MinorsWithin H M)
    (hw : 2 * H ^ 3 < 2 ^ (w - 1)) :
    (MatrixRing.ops (ReducedFractions.ops (CheckedInts.euclidean w)) n).invertible u = .ok (decide (M.det ≠ 0)) := by
  obtain ⟨x, hx, hd⟩ := C65_determinant hM hH hw
  show (do return !(← (ReducedFractions.ops (CheckedInts.euclidean w)).isZero (← MatrixRing.determinant
    (ReducedFractions.ops (CheckedInts.euclidean w)) n u))) = _
  rw [hx, ok_bind]
  have h : (ReducedFractions.ops (CheckedInts.euclidean w)).isZero x = .ok (decide (M.det = 0)) := by
    rcases hd with hd | hd
    · rw [isZero_fraction hd]
      exact congrArg Res.ok (decide_eq_decide.2 Int.cast_eq_zero)
    · rw [isZero_fraction hd]
      exact congrArg Res.ok (decide_eq_decide.2 (neg_eq_zero.trans Int.cast_eq_zero))
  rw [h, ok_bind, ← decide_not]
  rfl

theorem isOne_heights {B : Fin n → Fin n → SInt w × SInt w} (hw : InRange w 1)
    (hB : ∀ r k, MFracRep w (B r k) (if r = k then 1 else 0)) :
    (MatrixRing.ops (ReducedFractions.ops (CheckedInts.euclidean w)) n).isOne (flatVec B) = .ok true := by
  have hrep : MatRep (MFracRep w) (flatVec B) (1 : Matrix (Fin n) (Fin n) ℚ) :=
    ⟨flatVec_length B, fun i j => ⟨_, flatVec_get B i j, by rw [Matrix.one_apply]; exact hB i j⟩⟩
  have hspec : Decides True (MatrixRing.isOne (ReducedFractions.ops (CheckedInts.euclidean w)) n (flatVec B))
      ((1 : Matrix (Fin n) (Fin n) ℚ) = 1) := MatrixRing.isOne_spec C57_checked_fractions hrep
  have hok : ∃ z, MatrixRing.isOne (ReducedFractions.ops (CheckedInts.euclidean w)) n (flatVec B) = .ok z := by
    obtain ⟨e, he, -⟩ := (C65_fractions_times (a := (CheckedInts.c1 w, CheckedInts.c1 w)) (q := 1) ⟨rfl, rfl⟩ 1).1
      ⟨hw, by simpa using hw⟩
    have hint := (MatrixRing.int_ok_iff (n := n) (ReducedFractions.ops (CheckedInts.euclidean w)) 1 _).2 ⟨e, _, he, rfl, rfl⟩
    unfold MatrixRing.isOne
    rw [hint]
    show ∃ z, (Res.assert _ >>= fun _ => allRes _ _) = .ok z
    rw [flatVec_length, flatVec_length, beq_self_eq_true, Bool.and_self, assert_true, ok_bind]
    refine allRes_total (fun p => ?_) _
    show ∃ z, (if (p.1.1 == p.2.1) = true then Res.ok (p.1.2 == p.2.2) else Res.ok false) = .ok z
    split <;> exact ⟨_, rfl⟩
  obtain ⟨z, hz⟩ := hok
  rw [hz] at hspec
  show MatrixRing.isOne _ n _ = _
  rw [hz]
  exact congrArg Res.ok ((show z = true ↔ _ from hspec).2 rfl)

/-- C65: with a bound for the minors of the matrix next to the identity matrix also `try_inv` does not overflow: it returns the
inverse, or `None` if there is none. -/
theorem C65_try_inv (hM : MatRep (MFracRep w) u (M.map fun x : ℤ => (x : ℚ))) (hH : MinorsWithin H (Matrix.fromCols M (1 : Matrix (Fin n) (Fin n) ℤ)))
    (hw : 2 * H ^ 3 < 2 ^ (w - 1)) :
    (M.det ≠ 0 → ∃ x, (MatrixRing.ops (ReducedFractions.ops (CheckedInts.euclidean w)) n).tryInv u = .ok (some x) ∧
      MatRep (MFracRep w) x (M.map fun x : ℤ => (x : ℚ))⁻¹) ∧
    (M.det = 0 → (MatrixRing.ops (ReducedFractions.ops (CheckedInts.euclidean w)) n).tryInv u = .ok none) := by
  have hspec : Returns True ((MatrixRing.ops (ReducedFractions.ops (CheckedInts.euclidean w)) n).tryInv u) fun
      | some v => ∃ N : Matrix (Fin n) (Fin n) ℚ, MatRep (MFracRep w) v N ∧ M.map (fun x : ℤ => (x : ℚ)) * N = 1 ∧
          N * M.map (fun x : ℤ => (x : ℚ)) = 1
      | none => ¬ IsUnit (M.map fun x : ℤ => (x : ℚ)) := by
    refine (C40_try_inv n C57_checked_fractions hM).mono fun o ho => ?_
    cases o <;> exact ho
  have hdet : (M.map fun x : ℤ => (x : ℚ)).det = M.det := ((Int.castRingHom ℚ).map_det M).symm
  have hunit : IsUnit (M.map fun x : ℤ => (x : ℚ)) ↔ M.det ≠ 0 := by
    rw [Matrix.isUnit_iff_isUnit_det, hdet, isUnit_iff_ne_zero, Int.cast_ne_zero]
  have h1 : InRange w 1 := by
    refine inRange_of_abs (lt_of_le_of_lt ?_ hw)
    have h1 : 1 ≤ H := hH.one_le
    have : 1 ≤ H ^ 3 := one_le_pow₀ h1
    rw [abs_one]
    omega
  have hok : ∃ o, (MatrixRing.ops (ReducedFractions.ops (CheckedInts.euclidean w)) n).tryInv u = .ok o := by
    obtain ⟨a, rfl, ha⟩ := exists_entries hM
    obtain ⟨e, he, he'⟩ := (C65_fractions_times (a := (CheckedInts.c1 w, CheckedInts.c1 w)) (q := 1) ⟨rfl, rfl⟩ 1).1
      ⟨h1, by simpa using h1⟩
    have hz : MFracRep w (CheckedInts.c0 w, CheckedInts.c1 w) 0 := ⟨rfl, rfl⟩
    obtain ⟨x, hx, hx'⟩ := invRun_heights hw n 0 (by omega)
      (X := fun r => Sum.elim (a r) fun j => if r = j then e else (CheckedInts.c0 w, CheckedInts.c1 w))
      (B := (Matrix.fromCols M (1 : Matrix (Fin n) (Fin n) ℤ)).map fun x : ℤ => (x : ℚ)) (fun r j => by
        cases j with
        | inl j => exact ha r j
        | inr j =>
          show MFracRep w (if r = j then e else (CheckedInts.c0 w, CheckedInts.c1 w)) (((1 : Matrix (Fin n) (Fin n) ℤ) r j : ℤ) : ℚ)
          rw [Matrix.one_apply]
          split
          · simpa using he'
          · simpa using hz) one_ne_zero (MinorInv.start hH) fun i k hk => absurd hk (Nat.not_lt_zero _)
    rcases x with _ | ⟨B, C⟩
    · exact ⟨none, (C80_try_inv_none _ a).2 ⟨_, _, he, rfl, hx⟩⟩
    · exact ⟨some (flatVec C), (C80_try_inv _ a _).2 ⟨_, _, B, C, he, rfl, hx, fun _ => isOne_heights h1 (hx' B C rfl), rfl⟩⟩
  obtain ⟨o, ho⟩ := hok
  rw [ho] at hspec ⊢
  cases o with
  | some v =>
    obtain ⟨N, hN, h2, -⟩ := hspec
    have hd : M.det ≠ 0 := hunit.1 (IsUnit.of_mul_eq_one N h2)
    refine ⟨fun _ => ⟨v, rfl, ?_⟩, fun h => absurd h hd⟩
    rwa [Matrix.inv_eq_right_inv h2]
  | none =>
    have hd : M.det = 0 := by
      by_contra h
      exact hspec (hunit.2 h)
    exact ⟨fun h => absurd hd h, fun _ => rfl⟩

/-- The minors of a matrix with entries at most `b`. -/
theorem minorsWithin_of_entries {κ : Type} {A : Matrix (Fin n) κ ℤ} {b : ℤ} (hb : 1 ≤ b) (h : ∀ i j, |A i j| ≤ b) :
    MinorsWithin (n.factorial * b ^ n) A := by
  intro m ρ γ
  by_cases hm : m ≤ n
  · have h1 := Matrix.det_le (A := A.submatrix ρ γ) (abv := AbsoluteValue.abs) (x := b) fun i j => h _ _
    rw [Fintype.card_fin, nsmul_eq_mul] at h1
    refine h1.trans (mul_le_mul ?_ (pow_le_pow_right₀ hb hm) (by positivity) (by positivity))
    exact_mod_cast Nat.factorial_le hm
  · obtain ⟨i, j, hij, e⟩ := Fintype.exists_ne_map_eq_of_card_lt ρ (by rw [Fintype.card_fin, Fintype.card_fin]; omega)
    rw [Matrix.det_zero_of_row_eq hij (by funext k; rw [Matrix.submatrix_apply, Matrix.submatrix_apply, e]), abs_zero]
    positivity

/-- C65: for integers at most `b` it is enough that `2 * (n! * b ^ n) ^ 3` is representable. -/
theorem C65_determinant_bound {b : ℤ} (hM : MatRep (MFracRep w) u (M.map fun x : ℤ => (x : ℚ))) (hb : 1 ≤ b)
    (h : ∀ i j, |M i j| ≤ b) (hw : 2 * (n.factorial * b ^ n) ^ 3 < 2 ^ (w - 1)) :
    (∃ x, MatrixRing.determinant (ReducedFractions.ops (CheckedInts.euclidean w)) n u = .ok x ∧
      (MFracRep w x M.det ∨ MFracRep w x (-M.det))) ∧
    (M.det ≠ 0 → ∃ x, (MatrixRing.ops (ReducedFractions.ops (CheckedInts.euclidean w)) n).tryInv u = .ok (some x) ∧
      MatRep (MFracRep w) x (M.map fun x : ℤ => (x : ℚ))⁻¹) ∧
    (M.det = 0 → (MatrixRing.ops (ReducedFractions.ops (CheckedInts.euclidean w)) n).tryInv u = .ok none) := by
  refine ⟨C65_determinant hM (minorsWithin_of_entries hb h) hw, C65_try_inv hM (minorsWithin_of_entries hb fun i j => ?_) hw⟩
  cases j with
  | inl j => exact h i j
  | inr j =>
    show |(1 : Matrix (Fin n) (Fin n) ℤ) i j| ≤ b
    rw [Matrix.one_apply]
    split
    · rwa [abs_one]
    · rw [abs_zero]
      omega

end theorems

namespace DeterminantOverflowExamples

local instance : Cfg := ⟨true, true, 64, by decide⟩

/-- In 64 bits the determinant and the inverse of matrices of size two with entries up to 912, of size three with entries up
to 65 and of size four with entries up to 16 do not overflow. -/
example : (2 : ℤ) * ((Nat.factorial 2 : ℕ) * 912 ^ 2) ^ 3 < 2 ^ (64 - 1) ∧ (2 : ℤ) * ((Nat.factorial 3 : ℕ) * 65 ^ 3) ^ 3 < 2 ^ (64 - 1) ∧
    (2 : ℤ) * ((Nat.factorial 4 : ℕ) * 16 ^ 4) ^ 3 < 2 ^ (64 - 1) := by decide

/-- The matrix (1 2; 1 1) in sixteen bits. -/
example : ∃ u : List (SInt 16 × SInt 16),
    MatRep (MFracRep 16) u ((!![1, 2; 1, 1] : Matrix (Fin 2) (Fin 2) ℤ).map fun x : ℤ => (x : ℚ)) ∧
    (∃ x, MatrixRing.determinant (ReducedFractions.ops (CheckedInts.euclidean 16)) 2 u = .ok x ∧
      (MFracRep 16 x (-1) ∨ MFracRep 16 x 1)) ∧
    ∃ x, (MatrixRing.ops (ReducedFractions.ops (CheckedInts.euclidean 16)) 2).tryInv u = .ok (some x) := by
  let e (k : ℤ) (h : -128 ≤ k ∧ k ≤ 127) : SInt 16 × SInt 16 := (SInt.lit k h, SInt.lit 1 (by decide))
  have hu : MatRep (MFracRep 16) [e 1 (by decide), e 2 (by decide), e 1 (by decide), e 1 (by decide)]
      ((!![1, 2; 1, 1] : Matrix (Fin 2) (Fin 2) ℤ).map fun x : ℤ => (x : ℚ)) := by
    refine ⟨rfl, fun i j => ?_⟩
    fin_cases i <;> fin_cases j <;> exact ⟨_, rfl, by constructor <;> decide +kernel⟩
  have hdet : (!![1, 2; 1, 1] : Matrix (Fin 2) (Fin 2) ℤ).det = -1 := by decide
  obtain ⟨h1, h2, -⟩ := C65_determinant_bound (b := 2) hu (by decide) (by decide) (by decide)
  rw [hdet] at h1 h2
  refine ⟨_, hu, by simpa using h1, ?_⟩
  obtain ⟨x, hx, -⟩ := h2 (by decide)
  exact ⟨x, hx⟩

/-- The matrix (11 12; 12 13) in eight bits: the determinant is -1, but the product of 12/11 and -12 is not representable. -/
example {u : List (SInt 8 × SInt 8)} (hu : MatRep (MFracRep 8) u ((!![11, 12; 12, 13] : Matrix (Fin 2) (Fin 2) ℤ).map fun x : ℤ => (x : ℚ))) :
    MatrixRing.determinant (ReducedFractions.ops (CheckedInts.euclidean 8)) 2 u = .panic := by
  have hspec := C41_up_to_sign 2 C57_checked_fractions hu
  obtain ⟨a, rfl, ha⟩ := exists_entries hu
  have h00 : MFracRep 8 (a 0 0) 11 := ha 0 0
  have h01 : MFracRep 8 (a 0 1) 12 := ha 0 1
  have h10 : MFracRep 8 (a 1 0) 12 := ha 1 0
  cases h : MatrixRing.determinant (ReducedFractions.ops (CheckedInts.euclidean 8)) 2 (flatVec a) with
  | panic => rfl
  | diverge => rw [h] at hspec; exact hspec.elim
  | ok x =>
    exfalso
    have hnz : (ReducedFractions.ops (CheckedInts.euclidean 8)).isZero (a 0 0) ≠ .ok true := by
      rw [isZero_fraction h00]
      simp
    obtain ⟨o, -, hrun⟩ := (C80_determinant _ a x).1 h
    rw [show List.finRange 2 = [0, 1] from rfl] at hrun
    cases hrun with
    | singular hno => exact hnz (hno 0 le_rfl)
    | step p d' c A₁ A₂ hp _ hc hs _ hrows _ =>
      obtain rfl : p = 0 := by
        by_contra hne
        exact hnz (hp.2.2 0 le_rfl (Fin.pos_of_ne_zero hne))
      have hc' := C57_checked_fractions.inv h00 (by norm_num)
      rw [hc] at hc'
      have hy : Returns True ((ReducedFractions.ops (CheckedInts.euclidean 8)).mul (a 0 1) c) (MFracRep 8 · (12 * 11⁻¹)) :=
        C57_checked_fractions.mul h01 hc'
      rw [show (ReducedFractions.ops (CheckedInts.euclidean 8)).mul (a 0 1) c = .ok (A₁ 0 1) from hs.1 1] at hy
      have e1 : A₁ 1 = a 1 := by rw [hs.2 1 (by decide)]; rfl
      rcases hrows 1 (by decide) with ⟨hz, -⟩ | ⟨-, m, hm, hadd⟩
      · rw [e1, isZero_fraction h10] at hz
        simp at hz
      · rw [e1] at hm
        have hm' : Returns True ((ReducedFractions.ops (CheckedInts.euclidean 8)).neg (a 1 0)) (MFracRep 8 · (-12)) :=
          C57_checked_fractions.neg h10
        rw [hm] at hm'
        obtain ⟨q, hq, -⟩ := hadd 1
        rw [(C65_fractions_mul hy hm').2 (by unfold InRange; decide +kernel)] at hq
        cases hq

end DeterminantOverflowExamples

end Abstalg
