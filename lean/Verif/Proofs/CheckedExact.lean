import Verif.Proofs.EuclidExact
import Verif.Proofs.QuotientInts
import Verif.Proofs.NoOverflow
import Verif.Model.DivisibilityOrder
import Verif.Model.QuotientField

/-! # Exact overflow conditions of the Euclidean methods of `CheckedInts` -/

set_option linter.unusedSectionVars false

set_option autoImplicit false

universe u

namespace Abstalg

theorem ReturnsIff.mono {α : Type u} {p : Prop} {c : Res α} {P Q : α → Prop} (h : ReturnsIff p c P)
    (hpq : ∀ a, P a → Q a) : ReturnsIff p c Q :=
  ⟨fun hp => (h.1 hp).imp fun a ha => ⟨ha.1, hpq a ha.2⟩, h.2⟩

theorem ReturnsIff.ok {α : Type u} {p : Prop} {c : Res α} {P : α → Prop} {a : α} (hp : p)
    (h : c = .ok a) (hP : P a) : ReturnsIff p c P :=
  ⟨fun _ => ⟨a, h, hP⟩, fun h' => absurd hp h'⟩

theorem ReturnsIff.panic {α : Type u} {p : Prop} {c : Res α} {P : α → Prop} (hp : ¬ p)
    (h : c = .panic) : ReturnsIff p c P :=
  ⟨fun h' => absurd h' hp, fun _ => h⟩

theorem Exactly.returnsIff {w : ℕ} {c : Res (SInt w)} {x : ℤ} (h : Exactly c x) :
    ReturnsIff (InRange w x) c fun a => a.1 = x := h

theorem ReturnsIff.bind {α β : Type u} {p q : Prop} {c : Res α} {f : α → Res β}
    {P : α → Prop} {Q : β → Prop} (h : ReturnsIff p c P)
    (hf : p → ∀ a, P a → ReturnsIff q (f a) Q) : ReturnsIff (p ∧ q) (c >>= f) Q := by
  by_cases hp : p
  · obtain ⟨a, ha, hP⟩ := h.1 hp
    rw [ha]
    exact (hf hp a hP).congr (by simp [hp])
  · rw [h.2 hp]
    exact .panic (fun h => hp h.1) rfl

namespace CheckedInts

open SInt Integers

variable [Cfg] {w : ℕ} [Width w]

theorem gcd_value (a b : SInt w) (h : ¬ Bad w a b) :
    ∃ g, (euclidean w).gcd a b = .ok g ∧ g.1 = gcdValue a.1 b.1 := by
  obtain ⟨g, _, _, h1, _⟩ := gcd_total w a b h
  refine ⟨g, h1, ?_⟩
  rcases (refines w).gcd (a := a) (b := b) rfl rfl with h2 | ⟨g', x, h2, h3, h4⟩
  · rw [h1] at h2; cases h2
  · rw [h1] at h2; cases h2
    rw [gcd_eq] at h3; cases h3
    exact h4

theorem gcd_bad (a b : SInt w) (h : Bad w a b) : (euclidean w).gcd a b = .panic := by
  have hb0 : b.1 ≠ 0 := by rw [h.2]; decide
  show gcdDefault (euclidean w).isZero (euclidean w).rem a b = _
  rw [gcdDefault]
  show (Res.ok (b.1 == 0) >>= fun z => if z = true then _ else
    (((euclidean w).quoRem a b >>= fun p => pure p.2) >>= fun r => _)) = _
  rw [quoRem_bad w a b h]
  show (if (b.1 == 0) = true then _ else _) = _
  rw [if_neg (by simpa using hb0)]
  rfl

theorem gcd_iff (a b : SInt w) :
    ReturnsIff (¬ Bad w a b) ((euclidean w).gcd a b) fun g => g.1 = gcdValue a.1 b.1 :=
  ⟨fun h => gcd_value a b h, fun h => gcd_bad a b (not_not.1 h)⟩

theorem sMin_eq : sMin w = -(2 ^ (w - 1)) := rfl

theorem gcdValue_ne (a b : SInt w) (h : ¬ Bad w a b) (ha : a.1 = sMin w) : gcdValue a.1 b.1 ≠ -1 := by
  have hM := pow_ge (w := w)
  have := sMin_eq (w := w)
  unfold gcdValue
  split_ifs with h1 h2
  · omega
  · exact fun h' => h ⟨ha, h'⟩
  · omega

theorem quo_iff (a b : SInt w) (hb : b.1 ≠ 0) (h : ¬ Bad w a b) :
    ∃ q, (euclidean w).quo a b = .ok q ∧ q.1 = a.1 / b.1 := by
  refine ⟨mk (a.1 / b.1) (fits_ediv w a.2 hb h), ?_, rfl⟩
  show ((euclidean w).quoRem a b >>= fun p => pure p.1) = _
  rw [quoRem_eq w a b hb h]
  rfl

theorem lcm_iff (a b : SInt w) :
    ReturnsIff (¬ Bad w a b ∧ InRange w (lcmValue a.1 b.1)) ((euclidean w).lcm a b)
      fun c => c.1 = lcmValue a.1 b.1 := by
  show ReturnsIff _ ((euclidean w).gcd a b >>= fun g => Res.ok (g.1 == 0) >>= fun z =>
    if z = true then pure g else (euclidean w).quo a g >>= fun q => (unitaryRing w).mul q b) _
  refine (gcd_iff a b).bind fun hb g hg => ?_
  show ReturnsIff _ (if (g.1 == 0) = true then _ else _) _
  by_cases h0 : g.1 = 0
  · rw [if_pos (by simpa using h0)]
    obtain ⟨h1, h2⟩ := (gcdValue_eq_zero _ _).1 (hg.symm.trans h0)
    have h3 : lcmValue a.1 b.1 = 0 := by rw [h1, h2]; rfl
    refine .ok ?_ rfl (h0.trans h3.symm)
    rw [h3, ← h0]; exact inRange_val g
  · rw [if_neg (by simpa using h0)]
    have h1 : ¬ Bad w a g := fun h => gcdValue_ne a b hb h.1 (hg ▸ h.2)
    obtain ⟨q, hq, hq'⟩ := quo_iff a g h0 h1
    rw [hq]
    have h2 : lcmValue a.1 b.1 = q.1 * b.1 := by
      rw [hq', hg, lcmValue_eq]
      exact fun h => h0 (hg.trans ((gcdValue_eq_zero _ _).2 h))
    rw [h2]
    exact exactly_mul q b

theorem relativePrimes_iff (a b : SInt w) :
    ReturnsIff (¬ Bad w a b) ((euclidean w).relativePrimes a b)
      fun r => r = true ↔ Int.gcd a.1 b.1 = 1 := by
  show ReturnsIff _ ((euclidean w).gcd a b >>= fun g => invertible w g) _
  refine ((gcd_iff a b).bind (q := True) (Q := fun r => r = true ↔ Int.gcd a.1 b.1 = 1)
    fun _ g hg => ?_).congr (by simp)
  rw [invertible_eq]
  refine .ok trivial rfl ?_
  rw [decide_eq_true_iff, hg]
  unfold gcdValue
  split_ifs with h1 h2
  · rw [h1, Int.gcd_zero_right]; omega
  · rw [Int.gcd_comm, Int.gcd_eq_natAbs_left h2]; omega
  · constructor
    · rintro (h | h)
      · exact_mod_cast h
      · exact h.elim
    · exact fun h => .inl (by rw [h]; rfl)

theorem associateRepr_iff (a : SInt w) : Exactly ((euclidean w).associateRepr a) |a.1| := by
  show Exactly (if a.1 < 0 then (unitaryRing w).neg a else .ok a) _
  split_ifs with h
  · rw [abs_of_neg h]; exact exactly_neg a
  · rw [abs_of_nonneg (not_lt.1 h)]
    exact ⟨fun _ => ⟨a, rfl, rfl⟩, fun h' => absurd (inRange_val a) h'⟩

theorem associates_iff (a b : SInt w) :
    ReturnsIff (¬ Bad w a b) ((euclidean w).associates a b)
      fun r => r = true ↔ |a.1| = |b.1| := by
  have hM := pow_ge (w := w)
  have hs := sMin_eq (w := w)
  show ReturnsIff _ ((integralDomain w).divisible a b >>= fun z =>
    if z = true then (integralDomain w).divisible b a else pure false) _
  by_cases h1 : Bad w a b
  · rw [divisible_bad w a b h1]
    exact .panic (fun h => h h1) rfl
  rw [divisible_eq w a b h1]
  show ReturnsIff _ (if decide (b.1 ∣ a.1) = true then _ else _) _
  by_cases h2 : b.1 ∣ a.1
  · rw [if_pos (by simpa using h2)]
    have h3 : ¬ Bad w b a := fun h => by
      rw [h.1, h.2, Int.dvd_neg, hs, Int.neg_dvd] at h2
      have := Int.le_of_dvd one_pos h2
      omega
    rw [divisible_eq w b a h3]
    refine .ok h1 rfl ?_
    rw [decide_eq_true_iff, Int.abs_eq_natAbs, Int.abs_eq_natAbs, Nat.cast_inj, ← Int.natAbs_dvd_natAbs]
    rw [← Int.natAbs_dvd_natAbs] at h2
    exact ⟨fun h => Nat.dvd_antisymm h h2, fun h => h ▸ dvd_refl _⟩
  · rw [if_neg (by simpa using h2)]
    refine .ok h1 rfl ?_
    simp only [Bool.false_eq_true, false_iff]
    exact fun h => h2 ((abs_dvd_abs _ _).1 (h ▸ dvd_refl _))

theorem abs_gcdValue (x y : ℤ) : |gcdValue x y| = Int.gcd x y := by
  unfold gcdValue
  split_ifs with h1 h2
  · rw [h1, Int.gcd_zero_right, Int.abs_eq_natAbs]
  · rw [Int.gcd_comm, Int.gcd_eq_natAbs_left h2, Int.abs_eq_natAbs]
  · exact abs_of_nonneg (by omega)

theorem abs_lcmValue (x y : ℤ) : |lcmValue x y| = Int.lcm x y := by
  by_cases h : x = 0 ∧ y = 0
  · rw [h.1, h.2]; rfl
  · have h0 : gcdValue x y ≠ 0 := fun h' => h ((gcdValue_eq_zero x y).1 h')
    have hd : gcdValue x y ∣ x := by
      rw [← abs_dvd, abs_gcdValue]; exact Int.gcd_dvd_left ..
    have h1 : lcmValue x y * gcdValue x y = x * y := by
      rw [← lcmValue_eq x y h, mul_right_comm, Int.ediv_mul_cancel hd]
    have h2 : |lcmValue x y| * Int.gcd x y = (Int.lcm x y : ℤ) * Int.gcd x y := by
      rw [← abs_gcdValue, ← abs_mul, h1, abs_gcdValue, mul_comm (Int.lcm x y : ℤ), ← Nat.cast_mul,
        Int.gcd_mul_lcm, Int.abs_eq_natAbs, Int.natAbs_mul]
    refine mul_right_cancel₀ ?_ h2
    rw [← abs_gcdValue]; exact abs_ne_zero.2 h0

theorem inRange_of_abs {x : ℤ} (h : InRange w |x|) : InRange w x := by
  have h1 := neg_abs_le x
  have h2 := le_abs_self x
  unfold InRange at h ⊢
  omega

theorem meet_iff (a b : SInt w) : ReturnsIff (¬ Bad w a b ∧ InRange w (Int.gcd a.1 b.1))
    ((DivisibilityOrder.lattice (euclidean w)).meet a b) fun c => c.1 = Int.gcd a.1 b.1 := by
  show ReturnsIff _ ((euclidean w).gcd a b >>= fun g => (euclidean w).associateRepr g) _
  refine (gcd_iff a b).bind fun _ g hg => ?_
  have := associateRepr_iff g
  rw [hg, abs_gcdValue] at this
  exact this

theorem join_iff (a b : SInt w) : Exactly ((DivisibilityOrder.lattice (euclidean w)).join a b)
    (Int.lcm a.1 b.1) := by
  have hM := pow_ge (w := w)
  have hs := sMin_eq (w := w)
  have : ReturnsIff ((¬ Bad w a b ∧ InRange w (lcmValue a.1 b.1)) ∧ InRange w (Int.lcm a.1 b.1))
      ((euclidean w).lcm a b >>= fun g => (euclidean w).associateRepr g)
      fun c => c.1 = Int.lcm a.1 b.1 := by
    refine (lcm_iff a b).bind fun _ g hg => ?_
    have := associateRepr_iff g
    rw [hg, abs_lcmValue] at this
    exact this
  refine this.congr ⟨fun h => h.2, fun h => ⟨⟨fun hb => ?_, ?_⟩, h⟩⟩
  · have h1 : (Int.lcm a.1 b.1 : ℤ) = 2 ^ (w - 1) := by
      rw [← abs_lcmValue, lcmValue, if_pos (by rw [hb.2]; simp), hb.1, hs, abs_neg,
        abs_of_nonneg (by omega)]
    rw [h1] at h
    exact absurd h.2 (lt_irrefl _)
  · rw [← abs_lcmValue] at h
    exact inRange_of_abs h

theorem rem_of_pos (a m : SInt w) (hm : 0 < m.1) :
    ∃ r, (euclidean w).rem a m = .ok r ∧ r.1 = a.1 % m.1 := by
  have hm0 : m.1 ≠ 0 := by omega
  have hbad : ¬ Bad w a m := fun h => by have := h.2; omega
  refine ⟨mk _ (fits_emod w m.2 hm0), ?_, rfl⟩
  show ((euclidean w).quoRem a m >>= fun p => pure p.2) = _
  rw [quoRem_eq w a m hm0 hbad]
  rfl

section residues

variable (m : SInt w) (hm : 0 < m.1)

include hm

theorem Exactly_rem {c : Res (SInt w)} {x : ℤ} (h : Exactly c x) :
    ReturnsIff (InRange w x) (c >>= fun d => (euclidean w).rem d m) fun d => d.1 = x % m.1 := by
  refine (h.returnsIff.bind (q := True) (Q := fun d : SInt w => d.1 = x % m.1) fun _ d hd => ?_).congr
    (and_iff_left trivial)
  obtain ⟨r, h1, h2⟩ := rem_of_pos d m hm
  exact .ok trivial h1 (by rw [h2, hd])

theorem quotient_add (a b : SInt w) : ReturnsIff (InRange w (a.1 + b.1))
    ((QuotientRing.ops (euclidean w) m).add a b) fun c => c.1 = (a.1 + b.1) % m.1 :=
  Exactly_rem m hm (exactly_add a b)

theorem quotient_mul (a b : SInt w) : ReturnsIff (InRange w (a.1 * b.1))
    ((QuotientRing.ops (euclidean w) m).mul a b) fun c => c.1 = (a.1 * b.1) % m.1 :=
  Exactly_rem m hm (exactly_mul a b)

theorem quotient_neg (a : SInt w) : ReturnsIff (InRange w (-a.1))
    ((QuotientRing.ops (euclidean w) m).neg a) fun c => c.1 = -a.1 % m.1 :=
  Exactly_rem m hm (exactly_neg a)

theorem quotient_sub (a b : SInt w) : ReturnsIff (InRange w (-b.1) ∧ InRange w (-b.1 % m.1 + a.1))
    ((QuotientRing.ops (euclidean w) m).sub a b) fun c => c.1 = (a.1 - b.1) % m.1 := by
  show ReturnsIff _ ((QuotientRing.ops (euclidean w) m).neg b >>= fun e =>
    (QuotientRing.ops (euclidean w) m).add e a) _
  refine (quotient_neg m hm b).bind fun _ e he => ?_
  have := quotient_add m hm e a
  rw [he] at this
  refine this.mono fun c hc => ?_
  rw [hc, Int.emod_add_emod]
  congr 1; ring

theorem quotient_subAssign (a b : SInt w) :
    ReturnsIff (InRange w (-b.1) ∧ InRange w (a.1 + -b.1 % m.1))
    ((QuotientRing.ops (euclidean w) m).subAssign a b) fun c => c.1 = (a.1 - b.1) % m.1 := by
  show ReturnsIff _ ((QuotientRing.ops (euclidean w) m).neg b >>= fun e =>
    (QuotientRing.ops (euclidean w) m).add a e) _
  refine (quotient_neg m hm b).bind fun _ e he => ?_
  have := quotient_add m hm a e
  rw [he] at this
  refine this.mono fun c hc => ?_
  rw [hc, Int.add_emod_emod]
  congr 1

/-- `try_inv` never panics. -/
theorem quotient_tryInv (a : SInt w) :
    ∃ o, (QuotientRing.ops (euclidean w) m).tryInv a = .ok o ∧
      (∀ b, o = some b → 0 ≤ b.1 ∧ b.1 < m.1 ∧ m.1 ∣ a.1 * b.1 - 1) ∧
      (o = none ↔ Int.gcd a.1 m.1 ≠ 1) := by
  have hbad : ¬ Bad w m a := fun h => by
    have h1 := h.1.trans sMin_eq
    have hM := pow_ge (w := w)
    omega
  obtain ⟨g, s, t, h1, h2⟩ := gcd_total w m a hbad
  obtain ⟨g', s', t', h3, h4, h5⟩ := extendedGcd_total w m a hbad
  rw [h2] at h3
  cases h3
  obtain ⟨g', h6, h7⟩ := gcd_value m a hbad
  rw [h1] at h6
  cases h6
  have habs : |g.1| = Int.gcd a.1 m.1 := by rw [h7, abs_gcdValue, Int.gcd_comm]
  rw [QuotientRing.tryInv_eq, h2]
  simp only [ok_bind]
  by_cases hg : g.1 = 1 ∨ g.1 = -1
  · have h8 : (euclidean w).tryInv g = .ok (some g) := by
      show (invertible w g >>= fun b => if b = true then pure (some g) else pure none) = _
      rw [invertible_eq, decide_eq_true hg]
      rfl
    have hgg : g.1 * g.1 = 1 := by rcases hg with h | h <;> rw [h] <;> rfl
    have hf : InRange w (g.1 * t.1) := by
      rcases hg with h | h
      · rw [h, one_mul]; exact inRange_val t
      · have ha : a.1 = -1 := by
          rw [h7] at h
          unfold gcdValue at h
          split_ifs at h with h9 h10
          · omega
          · exact h
        have ha0 : a.1 ≠ 0 := by omega
        have h9 := extendedGcd_zero w a (mk (m.1 % a.1) (fits_emod w a.2 ha0))
          (by show m.1 % a.1 = 0; rw [ha]; simp)
        have hz : (c0 w).1 * (m.1 / a.1) = 0 := zero_mul _
        have hz' : (c1 w).1 - (c0 w).1 * (m.1 / a.1) = 1 := by rw [hz]; rfl
        have h10 := extendedGcd_step w m a ha0 hbad h9 (by rw [hz]; exact (c0 w).2)
          (by rw [hz']; exact (c1 w).2)
        rw [h2] at h10
        cases h10
        show InRange w (a.1 * ((c1 w).1 - (c0 w).1 * (m.1 / a.1)))
        rw [hz', mul_one]
        exact inRange_val a
    obtain ⟨r, h9, h10⟩ := (quotient_mul m hm g t).1 hf
    rw [h8]
    refine ⟨some r, ?_, ?_, ?_⟩
    · show (QuotientRing.mul (euclidean w) m g t >>= fun b => pure (some b)) = _
      rw [show QuotientRing.mul (euclidean w) m g t = .ok r from h9]
      rfl
    · rintro _ ⟨⟩
      rw [h10]
      refine ⟨Int.emod_nonneg _ hm.ne', Int.emod_lt_of_pos _ hm, ?_⟩
      obtain ⟨k, hk⟩ := dvd_mod_sub (g.1 * t.1) m.1
      exact ⟨a.1 * k - g.1 * s.1, by linear_combination a.1 * hk + g.1 * h4 + hgg⟩
    · refine iff_of_false (by simp) (not_not.2 ?_)
      have : |g.1| = 1 := by rcases hg with h | h <;> rw [h] <;> rfl
      rw [this] at habs
      exact_mod_cast habs.symm
  · have h8 : (euclidean w).tryInv g = .ok none := by
      show (invertible w g >>= fun b => if b = true then pure (some g) else pure none) = _
      rw [invertible_eq, decide_eq_false hg]
      rfl
    rw [h8]
    refine ⟨none, rfl, by simp, iff_of_true rfl fun h => hg ?_⟩
    rw [h] at habs
    exact (abs_eq (by decide)).1 habs

end residues

end CheckedInts

end Abstalg
