import Verif.Model.CheckedInts
import Verif.Proofs.Integers
import Mathlib.Tactic.Linarith

/-! # Machine integers: exact behaviour of each method, and refinement of `ℤ` -/

set_option autoImplicit false

namespace Abstalg

set_option linter.unusedSectionVars false

/-- A machine integer represents the integer it denotes. -/
def SRep (w : ℕ) (a : SInt w) (x : ℤ) : Prop := a.1 = x

/-- The integer is representable in the primitive type with `w` bits. -/
def Fits (w : ℕ) (x : ℤ) : Prop := sMin w ≤ x ∧ x ≤ sMax w

instance (w : ℕ) (x : ℤ) : Decidable (Fits w x) := inferInstanceAs (Decidable (_ ∧ _))

namespace SInt

variable {w : ℕ}

theorem fits_iff {x : ℤ} : Fits w x ↔ -(2 ^ (w - 1)) ≤ x ∧ x ≤ 2 ^ (w - 1) - 1 := Iff.rfl

theorem fits (a : SInt w) : Fits w a.1 := a.2

theorem eq_iff {a b : SInt w} : a = b ↔ a.1 = b.1 := Subtype.ext_iff

/-- The machine integer with a given value. -/
def mk (x : ℤ) (h : Fits w x) : SInt w := ⟨x, h⟩

theorem unwrap_ofInt (x : ℤ) :
    Res.unwrap (ofInt? (w := w) x) = if h : Fits w x then .ok (mk x h) else .panic := by
  unfold ofInt?
  split
  · rename_i h; rw [dif_pos (show Fits w x from h)]; rfl
  · rename_i h; rw [dif_neg (show ¬ Fits w x from h)]; rfl

theorem wrap_of_fits [Width w] (x : ℤ) (h : Fits w x) : wrap (w := w) x = mk x h := by
  have h2 := pow_two_eq (w := w) Width.ge
  obtain ⟨h3, h4⟩ := fits_iff.1 h
  apply Subtype.ext
  show (x + 2 ^ (w - 1)) % 2 ^ w - 2 ^ (w - 1) = x
  rw [Int.emod_eq_of_lt (by omega) (by omega)]
  omega

theorem raw_of_fits [Cfg] [Width w] (x : ℤ) (h : Fits w x) :
    raw (w := w) x = .ok (mk x h) := by
  unfold raw
  rw [if_pos (show sMin w ≤ x ∧ x ≤ sMax w from h), wrap_of_fits x h]

theorem pow_ge [Width w] : (128 : ℤ) ≤ 2 ^ (w - 1) := pow_two_ge Width.ge

end SInt

namespace CheckedInts

open SInt

variable [Cfg] (w : ℕ) [Width w]

theorem fits_abs {x y : ℤ} (hy : Fits w y) (h : |x| ≤ |y|) (h' : x ≠ 2 ^ (w - 1)) : Fits w x := by
  rw [fits_iff] at *
  have h3 := pow_ge (w := w)
  have h1 := abs_le.1 h
  rcases abs_cases y with h2 | h2 <;> rcases abs_cases x with h4 | h4 <;> omega

theorem fits_zero : Fits w 0 := by
  have h3 := pow_ge (w := w)
  rw [fits_iff]; omega

theorem fits_one : Fits w 1 := by
  have h3 := pow_ge (w := w)
  rw [fits_iff]; omega

theorem fits_ediv {x y : ℤ} (hx : Fits w x) (hy0 : y ≠ 0) (h : ¬ (x = sMin w ∧ y = -1)) :
    Fits w (x / y) := by
  have h3 := pow_ge (w := w)
  unfold sMin at h
  rw [fits_iff] at *
  generalize (2 : ℤ) ^ (w - 1) = M at *
  have h1 := Int.mul_ediv_add_emod x y
  have h2 := Int.emod_nonneg x hy0
  have h4 := Int.emod_lt_abs x hy0
  generalize x / y = q at *
  generalize x % y = r at *
  rcases lt_or_gt_of_ne hy0 with hy | hy
  · rw [abs_of_neg hy] at h4
    rcases eq_or_ne y (-1) with rfl | hy1
    · have : r = 0 := by omega
      subst this
      have : x ≠ -M := fun h' => h ⟨h', rfl⟩
      omega
    · have : y ≤ -2 := by omega
      constructor <;> by_contra hc <;> nlinarith
  · rw [abs_of_pos hy] at h4
    constructor <;> by_contra hc <;> nlinarith

theorem not_fits_min : ¬ Fits w (sMin w / -1) := by
  rw [fits_iff, Int.ediv_neg, Int.ediv_one]
  unfold sMin
  omega

theorem fits_emod {x y : ℤ} (hy : Fits w y) (hy0 : y ≠ 0) : Fits w (x % y) := by
  have h2 := Int.emod_nonneg x hy0
  have h4 := Int.emod_lt_abs x hy0
  have h3 := pow_ge (w := w)
  rw [fits_iff] at *
  rcases abs_cases y with h5 | h5 <;> omega

theorem fits_tdiv {x y : ℤ} (hx : Fits w x) (h : ¬ (x = sMin w ∧ y = -1)) :
    Fits w (Int.tdiv x y) := by
  rcases eq_or_ne y 0 with rfl | hy0
  · simpa using fits_zero w
  refine fits_abs w hx ?_ fun h' => ?_
  · rw [Int.abs_eq_natAbs, Int.abs_eq_natAbs, Int.natAbs_tdiv]
    exact_mod_cast Nat.div_le_self _ _
  · have h1 := Int.mul_tdiv_add_tmod x y
    have h0 : (x.tmod y).natAbs < y.natAbs := by
      rw [Int.natAbs_tmod]
      exact Nat.mod_lt _ (by omega)
    have h3 := pow_ge (w := w)
    have h5 : (Int.tdiv x y).natAbs = x.natAbs / y.natAbs := Int.natAbs_tdiv x y
    rw [h'] at h1 h5
    unfold sMin at h
    rw [fits_iff] at hx
    have h6 : y.natAbs = 1 := by
      by_contra hc
      have : x.natAbs / y.natAbs ≤ x.natAbs / 2 := Nat.div_le_div_left (by omega) (by omega)
      omega
    have h7 : x.tmod y = 0 := by omega
    rw [h7] at h1
    rcases Int.natAbs_eq y with hy | hy <;> rw [h6] at hy
    · subst hy; simp at h1; omega
    · subst hy
      apply h
      refine ⟨?_, rfl⟩
      simp at h1
      exact h1.symm

theorem not_fits_tdiv_min : ¬ Fits w (Int.tdiv (sMin w) (-1)) := by
  rw [fits_iff, Int.tdiv_neg, Int.tdiv_one]
  unfold sMin
  omega

/-- The exceptional operands of division. -/
def Bad (a b : SInt w) : Prop := a.1 = sMin w ∧ b.1 = -1

instance (a b : SInt w) : Decidable (Bad w a b) := inferInstanceAs (Decidable (_ ∧ _))

theorem beq_c0 (b : SInt w) : (b != c0 w) = decide (b.1 ≠ 0) := by
  rw [Bool.eq_iff_iff]
  simp only [bne_iff_ne, ne_eq, decide_eq_true_eq, eq_iff]
  rfl

theorem add_eq (a b : SInt w) : (unitaryRing w).add a b =
    if h : Fits w (a.1 + b.1) then .ok (mk _ h) else .panic := unwrap_ofInt _

theorem mul_eq (a b : SInt w) : (unitaryRing w).mul a b =
    if h : Fits w (a.1 * b.1) then .ok (mk _ h) else .panic := unwrap_ofInt _

theorem sub_eq (a b : SInt w) : (unitaryRing w).sub a b =
    if h : Fits w (a.1 - b.1) then .ok (mk _ h) else .panic := unwrap_ofInt _

theorem neg_eq (a : SInt w) : (unitaryRing w).neg a =
    if h : Fits w (-a.1) then .ok (mk _ h) else .panic := by
  show Res.unwrap (ofInt? (0 - a.1)) = _
  rw [unwrap_ofInt]
  simp only [zero_sub]

theorem times_eq (n : ℤ) (a : SInt w) : (unitaryRing w).times n a =
    if h : Fits w n ∧ Fits w (n * a.1) then .ok (mk _ h.2) else .panic := by
  show (do let num : SInt w ← Res.unwrap (ofInt? n); Res.unwrap (ofInt? (a.1 * num.1))) = _
  rw [unwrap_ofInt]
  by_cases h : Fits w n
  · rw [dif_pos h]
    show Res.unwrap (ofInt? (a.1 * n)) = _
    rw [unwrap_ofInt]
    simp only [h, true_and, mul_comm a.1 n]
  · rw [dif_neg h, dif_neg fun h' => h h'.1]; rfl

theorem checkedDiv_bad (a b : SInt w) (h : Bad w a b) : checkedDiv w a b = none := by
  obtain ⟨h1, h2⟩ := h
  unfold checkedDiv ofInt?
  rw [if_neg (by omega), h1, h2, dif_neg]
  exact not_fits_tdiv_min w

theorem checkedDiv_good (a b : SInt w) (hb : b.1 ≠ 0) (h : ¬ Bad w a b) :
    checkedDiv w a b = some (mk (Int.tdiv a.1 b.1) (fits_tdiv w a.2 h)) := by
  unfold checkedDiv ofInt?
  rw [if_neg hb]
  exact dif_pos (fits_tdiv w a.2 h)

theorem fits_prod (a b : SInt w) (_hb : b.1 ≠ 0) (_h : ¬ Bad w a b) :
    Fits w (Int.tdiv a.1 b.1 * b.1) := by
  have h1 := Int.mul_tdiv_add_tmod a.1 b.1
  have h2 : (Int.tdiv a.1 b.1 * b.1).natAbs ≤ a.1.natAbs := by
    rw [Int.natAbs_mul, Int.natAbs_tdiv]
    exact Nat.div_mul_le_self _ _
  refine fits_abs w a.2 ?_ fun h' => ?_
  · rw [Int.abs_eq_natAbs, Int.abs_eq_natAbs]; exact_mod_cast h2
  · rw [mul_comm] at h'
    have h3 := pow_ge (w := w)
    have h4 := fits_iff.1 a.2
    rw [h'] at h1
    have h5 : (a.1.tmod b.1).natAbs = a.1.natAbs % b.1.natAbs := Int.natAbs_tmod _ _
    have h6 := Nat.mod_le a.1.natAbs b.1.natAbs
    have h7 := Int.tmod_nonneg (a := a.1) b.1
    omega

theorem tmod_eq (a b : ℤ) : a - Int.tdiv a b * b = Int.tmod a b := by
  have h1 := Int.mul_tdiv_add_tmod a b
  linear_combination -h1

theorem quoRem_zero (a b : SInt w) (hb : b.1 = 0) : (euclidean w).quoRem a b = .panic := by
  simp [euclidean, beq_c0, hb]

theorem quoRem_bad (a b : SInt w) (h : Bad w a b) : (euclidean w).quoRem a b = .panic := by
  have hb : b.1 ≠ 0 := by rw [h.2]; decide
  simp [euclidean, beq_c0, hb, checkedDiv_bad w a b h]

theorem quoRem_eq (a b : SInt w) (hb : b.1 ≠ 0) (h : ¬ Bad w a b) :
    (euclidean w).quoRem a b =
      .ok (mk (a.1 / b.1) (fits_ediv w a.2 hb h), mk (a.1 % b.1) (fits_emod w b.2 hb)) := by
  have hz := Integers.quoRem_eq a.1 b.1 hb
  have hrem : Fits w (a.1.tmod b.1) := by
    have h0 : (a.1.tmod b.1).natAbs < b.1.natAbs := by
      rw [Int.natAbs_tmod]
      exact Nat.mod_lt _ (by omega)
    have h2 := fits_iff.1 b.2
    rw [fits_iff]
    omega
  simp only [Integers.euclidean, show (b.1 == 0) = false by simpa using hb, Bool.not_false,
    assert_true, ok_bind] at hz
  simp only [euclidean, beq_c0, hb, ne_eq, not_false_eq_true, decide_true, assert_true, ok_bind,
    checkedDiv_good w a b hb h, unwrap_some]
  rw [show (mk (Int.tdiv a.1 b.1) (fits_tdiv w a.2 h)).1 * b.1 = Int.tdiv a.1 b.1 * b.1 from rfl,
    raw_of_fits _ (fits_prod w a b hb h)]
  simp only [ok_bind]
  rw [show a.1 - (mk (Int.tdiv a.1 b.1 * b.1) (fits_prod w a b hb h)).1 = Int.tmod a.1 b.1 from
    tmod_eq _ _, raw_of_fits _ hrem]
  simp only [ok_bind]
  show (if a.1.tmod b.1 < 0 then
    if b.1 < 0 then (do return (← raw (a.1.tdiv b.1 + 1), ← raw (a.1.tmod b.1 - b.1)))
    else (do return (← raw (a.1.tdiv b.1 - 1), ← raw (a.1.tmod b.1 + b.1)))
    else pure (mk (Int.tdiv a.1 b.1) (fits_tdiv w a.2 h), mk _ hrem)) = _
  split
  · rename_i h1
    rw [if_pos h1] at hz
    split
    · rename_i h2
      rw [if_pos h2] at hz
      injection hz with hz
      injection hz with hz1 hz2
      rw [raw_of_fits _ (by rw [hz1]; exact fits_ediv w a.2 hb h),
        raw_of_fits _ (by rw [hz2]; exact fits_emod w b.2 hb)]
      simp only [ok_bind, pure_eq_ok, Res.ok.injEq, Prod.mk.injEq, eq_iff]
      exact ⟨hz1, hz2⟩
    · rename_i h2
      rw [if_neg h2] at hz
      injection hz with hz
      injection hz with hz1 hz2
      rw [raw_of_fits _ (by rw [hz1]; exact fits_ediv w a.2 hb h),
        raw_of_fits _ (by rw [hz2]; exact fits_emod w b.2 hb)]
      simp only [ok_bind, pure_eq_ok, Res.ok.injEq, Prod.mk.injEq, eq_iff]
      exact ⟨hz1, hz2⟩
  · rename_i h1
    rw [if_neg h1] at hz
    injection hz with hz
    injection hz with hz1 hz2
    simp only [pure_eq_ok, Res.ok.injEq, Prod.mk.injEq, eq_iff]
    exact ⟨hz1, hz2⟩

theorem tryDiv_zero (a b : SInt w) (hb : b.1 = 0) : (integralDomain w).tryDiv a b = .panic := by
  simp [integralDomain, beq_c0, hb]

theorem tryDiv_bad (a b : SInt w) (h : Bad w a b) : (integralDomain w).tryDiv a b = .panic := by
  have hb : b.1 ≠ 0 := by rw [h.2]; decide
  simp [integralDomain, beq_c0, hb, checkedDiv_bad w a b h]

theorem tryDiv_eq (a b : SInt w) (hb : b.1 ≠ 0) (h : ¬ Bad w a b) :
    (integralDomain w).tryDiv a b =
      .ok (if b.1 ∣ a.1 then some (mk (a.1 / b.1) (fits_ediv w a.2 hb h)) else none) := by
  simp only [integralDomain, beq_c0, hb, ne_eq, not_false_eq_true, decide_true, assert_true,
    ok_bind, checkedDiv_good w a b hb h, unwrap_some]
  rw [show (mk (Int.tdiv a.1 b.1) (fits_tdiv w a.2 h)).1 * b.1 = Int.tdiv a.1 b.1 * b.1 from rfl,
    raw_of_fits _ (fits_prod w a b hb h)]
  simp only [ok_bind, beq_iff_eq, eq_iff]
  show (if a.1 = Int.tdiv a.1 b.1 * b.1 then _ else _) = _
  by_cases hd : b.1 ∣ a.1
  · rw [if_pos (Int.tdiv_mul_cancel hd).symm, if_pos hd]
    simp only [pure_eq_ok, Res.ok.injEq, Option.some.injEq, eq_iff]
    exact Int.tdiv_eq_ediv_of_dvd hd
  · rw [if_neg fun h' => hd ⟨_, by rw [mul_comm]; exact h'⟩, if_neg hd]
    rfl

theorem divisible_eq (a b : SInt w) (h : ¬ Bad w a b) :
    (integralDomain w).divisible a b = .ok (decide (b.1 ∣ a.1)) := by
  show (Res.ok (b.1 == 0) >>= fun z => if z = true then (Res.ok (a.1 == 0) : Res Bool)
    else (integralDomain w).tryDiv a b >>= fun o => pure o.isSome) = _
  by_cases hb : b.1 = 0
  · simp [hb, zero_dvd_iff, Bool.beq_eq_decide_eq]
  · rw [tryDiv_eq w a b hb h]
    by_cases hd : b.1 ∣ a.1 <;> simp [hb, hd]

theorem divisible_bad (a b : SInt w) (h : Bad w a b) :
    (integralDomain w).divisible a b = .panic := by
  have hb : b.1 ≠ 0 := by rw [h.2]; decide
  show (Res.ok (b.1 == 0) >>= fun z => if z = true then (Res.ok (a.1 == 0) : Res Bool)
    else (integralDomain w).tryDiv a b >>= fun o => pure o.isSome) = _
  rw [tryDiv_bad w a b h]
  simp [hb]

theorem reduced_eq (a b : SInt w) :
    (euclidean w).reduced a b = .ok (decide (b.1 = 0 ∨ a.1 / b.1 = 0)) := by
  have hred := Integers.euclidean_spec.reduced (a := a.1) (b := b.1) rfl rfl
  simp only [euclidean]
  have hz : (b == c0 w) = decide (b.1 = 0) := by
    rw [Bool.eq_iff_iff]
    simp only [beq_iff_eq, decide_eq_true_eq, eq_iff]
    rfl
  rw [hz]
  by_cases hb : b.1 = 0
  · simp [hb]
  simp only [hb, decide_false, Bool.false_eq_true, if_false, false_or]
  simp only [Integers.euclidean, show (b.1 == 0) = false by simpa using hb, Bool.false_eq_true,
    if_false] at hred
  replace hred : (!decide (a.1 < 0) && decide (a.1 < (b.1.natAbs : ℤ))) = true ↔ a.1 / b.1 = 0 := by
    simpa [hb, Decides] using hred
  have h0 : (c0 w).1 = 0 := rfl
  rw [h0]
  split
  · rename_i ha
    simp [ha] at hred
    simp [hred]
  · rename_i ha
    split
    · rename_i hb'
      rw [pure_eq_ok]
      congr 1
      rw [Bool.eq_iff_iff, decide_eq_true_eq, decide_eq_true_eq, ← hred]
      simp only [Bool.and_eq_true, Bool.not_eq_true', decide_eq_false_iff_not, decide_eq_true_eq]
      omega
    · rename_i hb'
      have hf : Fits w (-a.1) := by
        have h2 := fits_iff.1 a.2
        rw [fits_iff]; omega
      rw [raw_of_fits _ hf]
      simp only [ok_bind, pure_eq_ok]
      congr 1
      rw [Bool.eq_iff_iff, decide_eq_true_eq, decide_eq_true_eq, ← hred]
      simp only [Bool.and_eq_true, Bool.not_eq_true', decide_eq_false_iff_not, decide_eq_true_eq]
      show -a.1 > b.1 ↔ _
      omega

theorem returns_dite {P : SInt w → Prop} {c : Prop} [Decidable c] {f : c → SInt w}
    (h : ∀ hc, P (f hc)) : Returns True (if hc : c then Res.ok (f hc) else .panic) P := by
  split
  · exact h _
  · trivial

theorem isUnit_iff' (x : ℤ) : IsUnit x ↔ x = 1 ∨ x = -1 := Int.isUnit_iff

theorem invertible_eq (a : SInt w) : invertible w a = .ok (decide (a.1 = 1 ∨ a.1 = -1)) := by
  unfold invertible
  congr 1
  rw [Bool.eq_iff_iff]
  simp only [Bool.or_eq_true, beq_iff_eq, decide_eq_true_eq, eq_iff]
  rfl

theorem unitaryRing_spec : UnitaryRingSpec True (unitaryRing w) (SRep w) := by
  have hadd : ∀ {a b : SInt w} {x y : ℤ}, SRep w a x → SRep w b y →
      Returns True ((unitaryRing w).add a b) (SRep w · (x + y)) := by
    rintro a b x y rfl rfl
    rw [add_eq]
    exact returns_dite w fun _ => rfl
  have hmul : ∀ {a b : SInt w} {x y : ℤ}, SRep w a x → SRep w b y →
      Returns True ((unitaryRing w).mul a b) (SRep w · (x * y)) := by
    rintro a b x y rfl rfl
    rw [mul_eq]
    exact returns_dite w fun _ => rfl
  have hneg : ∀ {a : SInt w} {x : ℤ}, SRep w a x →
      Returns True ((unitaryRing w).neg a) (SRep w · (-x)) := by
    rintro a x rfl
    rw [neg_eq]
    exact returns_dite w fun _ => rfl
  have hsub : ∀ {a b : SInt w} {x y : ℤ}, SRep w a x → SRep w b y →
      Returns True ((unitaryRing w).sub a b) (SRep w · (x - y)) := by
    rintro a b x y rfl rfl
    rw [sub_eq]
    exact returns_dite w fun _ => rfl
  have htimes : ∀ (n : ℤ), n ≠ isizeMin → ∀ {a : SInt w} {x : ℤ}, SRep w a x →
      Returns True ((unitaryRing w).times n a) (SRep w · (n • x)) := by
    rintro n _ a x rfl
    rw [times_eq]
    exact returns_dite w fun _ => (zsmul_eq_mul _ _).symm
  exact
  { rep_unique := by rintro a x y rfl rfl; rfl
    contains := by intro a x _; rfl
    equals := by
      rintro a b x y rfl rfl
      exact decides_ok (by simp)
    mul := hmul
    mulAssign := hmul
    square := fun ha => hmul ha ha
    one := rfl
    isOne := by rintro a x rfl; exact decides_ok (by simp only [beq_iff_eq, eq_iff]; rfl)
    tryInv := by
      rintro a x rfl
      show Returns True (do if ← invertible w a then return some a else return none) _
      rw [invertible_eq]
      by_cases h : a.1 = 1 ∨ a.1 = -1
      · simp only [h, decide_true, ok_bind, if_true, returns_pure]
        exact ⟨a.1, rfl, by rcases h with h | h <;> simp [h], by rcases h with h | h <;> simp [h]⟩
      · simp only [h, decide_false, ok_bind, returns_pure, Bool.false_eq_true, if_false]
        rwa [isUnit_iff']
    invertible := by
      rintro a x rfl
      show Decides True (invertible w a) _
      rw [invertible_eq]
      exact decides_ok (by rw [isUnit_iff']; simp)
    zero := rfl
    isZero := by rintro a x rfl; exact decides_ok (by simp)
    add := hadd
    addAssign := hadd
    double := fun ha => hadd ha ha
    utimes := fun n a x ha => by
      have := utimes_default (rep := SRep w) (zero := (unitaryRing w).zero) (mp := True) rfl hadd
        (fun ha => hadd ha ha) n ha
      exact this
    neg := hneg
    negAssign := hneg
    sub := hsub
    subAssign := fun ha hb => by
      have := subAssign_default (rep := SRep w) hadd hneg ha hb
      exact this
    times := htimes
    int := fun n hn => by
      have := int_default (rep := SRep w) (one := (unitaryRing w).one) (mp := True) rfl htimes n hn
      exact this }

theorem integralDomain_spec : IntegralDomainSpec True (integralDomain w) (SRep w) := by
  have hdvd : ∀ {a b : SInt w} {x y : ℤ}, SRep w a x → SRep w b y →
      Decides True ((integralDomain w).divisible a b) (y ∣ x) := by
    rintro a b x y rfl rfl
    by_cases h : Bad w a b
    · rw [divisible_bad w a b h]; trivial
    · rw [divisible_eq w a b h]; exact decides_ok (by simp)
  exact
  { toUnitaryRingSpec := unitaryRing_spec w
    tryDiv := by
      rintro a b x y rfl rfl hb
      by_cases h : Bad w a b
      · rw [tryDiv_bad w a b h]; trivial
      · rw [tryDiv_eq w a b hb h]
        by_cases hd : b.1 ∣ a.1
        · simp only [hd, if_true, returns_ok]
          exact ⟨a.1 / b.1, rfl, (Int.mul_ediv_cancel' hd).symm⟩
        · simp [hd]
    tryDiv_zero := by
      rintro a b x rfl hb
      exact tryDiv_zero w a b hb
    divisible := hdvd
    associates := fun ha hb => by
      have := associates_default (rep := SRep w) hdvd ha hb
      exact this
    associateRepr := by
      rintro a x rfl
      rw [Integers.normalize_eq]
      show Returns True (if a.1 < 0 then (unitaryRing w).neg a else .ok a) _
      split
      · exact (unitaryRing_spec w).neg rfl
      · rfl
    associateCoef := by
      rintro a x rfl hx
      simp only [integralDomain, Integers.normUnit_eq, beq_c0, hx, ne_eq, not_false_eq_true,
        decide_true, assert_true, ok_bind]
      show Returns True (if a.1 < 0 then _ else _) _
      split <;> rfl
    associateCoef_zero := by
      intro a ha
      have ha : a.1 = 0 := ha
      simp [integralDomain, beq_c0, ha, Panics] }

theorem euclidean_spec : EuclideanSpec True (euclidean w) (SRep w) := by
  have hqr : ∀ {a b : SInt w} {x y : ℤ}, SRep w a x → SRep w b y → y ≠ 0 →
      Returns True ((euclidean w).quoRem a b) fun p => SRep w p.1 (x / y) ∧ SRep w p.2 (x % y) := by
    rintro a b x y rfl rfl hb
    by_cases h : Bad w a b
    · rw [quoRem_bad w a b h]; trivial
    · rw [quoRem_eq w a b hb h]; exact ⟨rfl, rfl⟩
  have hqz : ∀ {a b : SInt w} {x : ℤ}, SRep w a x → SRep w b 0 →
      Panics ((euclidean w).quoRem a b) := fun {a b _} _ hb => quoRem_zero w a b hb
  have hquo : ∀ {a b : SInt w} {x y : ℤ}, SRep w a x → SRep w b y → y ≠ 0 →
      Returns True ((euclidean w).quo a b) (SRep w · (x / y)) :=
    fun ha hb hy => quo_default (rep := SRep w) hqr ha hb hy
  have hrem : ∀ {a b : SInt w} {x y : ℤ}, SRep w a x → SRep w b y → y ≠ 0 →
      Returns True ((euclidean w).rem a b) (SRep w · (x % y)) :=
    fun ha hb hy => rem_default (rep := SRep w) hqr ha hb hy
  have h := integralDomain_spec w
  have hgcd : ∀ {a b : SInt w} {x y : ℤ}, SRep w a x → SRep w b y →
      Returns True ((euclidean w).gcd a b) fun c => ∃ g, SRep w c g ∧ IsGcd x y g :=
    fun ha hb => gcdDefault_spec (rep := SRep w) h.isZero hrem ha hb
  exact
  { toIntegralDomainSpec := h
    quoRem := hqr
    quoRem_zero := hqz
    quo := hquo
    quo_zero := fun ha hb => panics_bind (hqz ha hb)
    rem := hrem
    rem_zero := fun ha hb => panics_bind (hqz ha hb)
    reduced := by
      rintro a b x y rfl rfl
      rw [reduced_eq]
      exact decides_ok (by simp)
    gcd := hgcd
    lcm := fun ha hb => by
      have := lcm_default (rep := SRep w) h.isZero hgcd hquo h.mul ha hb
      exact this
    extendedGcd := fun ha hb => by
      have := extendedGcdDefault_spec (rep := SRep w) h.isZero h.one h.zero hqr h.sub h.mul ha hb
      exact this
    relativePrimes := fun ha hb => by
      have := relativePrimes_default (rep := SRep w) hgcd h.invertible ha hb
      exact this }

omit [Cfg] in
theorem lattice_spec : LatticeSpec False (lattice w) (SRep w) := by
  have heq : ∀ {a b : SInt w} {x y : ℤ}, SRep w a x → SRep w b y →
      Decides False ((lattice w).equals a b) (x = y) := by
    rintro a b x y rfl rfl
    exact decides_ok (by simp)
  have hle : ∀ {a b : SInt w} {x y : ℤ}, SRep w a x → SRep w b y →
      Decides False ((lattice w).leq a b) (x ≤ y) := by
    rintro a b x y rfl rfl
    exact decides_ok (by simp)
  exact
  { rep_unique := by rintro a x y rfl rfl; rfl
    contains := by intro a x _; rfl
    equals := heq
    leq := hle
    lessThan := fun ha hb => by
      have := lessThan_default (rep := SRep w) heq hle ha hb
      exact this
    comparable := fun ha hb => by
      have := comparable_default (rep := SRep w) hle ha hb
      exact this
    meet := by
      rintro a b x y rfl rfl
      refine ⟨_, rfl, ?_⟩
      have := isGLB_min' a.1 b.1
      split_ifs at this ⊢ <;> exact this
    join := by
      rintro a b x y rfl rfl
      refine ⟨_, rfl, ?_⟩
      have := isLUB_max' a.1 b.1
      split_ifs at this ⊢ <;> exact this }

end CheckedInts

end Abstalg
