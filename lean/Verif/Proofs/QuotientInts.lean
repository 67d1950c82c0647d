import Verif.Proofs.Quotient
import Verif.Proofs.CheckedGcd
import Mathlib.Algebra.Field.ZMod

/-! # Integers and machine integers modulo `m` -/

set_option linter.unusedSectionVars false

set_option autoImplicit false

universe u

namespace Abstalg

instance : CanonicalRem ℤ where
  mod_eq := fun _ h => Int.emod_eq_emod_iff_emod_sub_eq_zero.2 (Int.emod_eq_zero_of_dvd h)
  one_div := fun {m} h0 hu => by
    refine Int.ediv_eq_zero_of_lt_abs (by decide) ?_
    rw [Int.isUnit_iff] at hu
    rcases abs_cases m with h | h <;> omega

instance {K : Type u} [Field K] : CanonicalRem K where
  mod_eq := fun {m x y} h0 _ => by
    have h : ∀ z : K, z % m = 0 := fun z => EuclideanDomain.mod_eq_zero.2 (IsUnit.mk0 m h0).dvd
    rw [h, h]
  one_div := fun h0 hu => (hu (IsUnit.mk0 _ h0)).elim

/-- `ZMod n` is the factor ring of the integers by `n`. -/
theorem zmod_isFactor (n : ℕ) : IsFactor (Int.castRingHom (ZMod n)) (n : ℤ) where
  surjective := ZMod.intCast_surjective
  ker := fun x => ZMod.intCast_zmod_eq_zero_iff_dvd x n

namespace CheckedInts

variable [Cfg] (w : ℕ) [Width w]

open SInt

theorem ediv_eq_zero_iff {x m : ℤ} (hm : 0 < m) : x / m = 0 ↔ 0 ≤ x ∧ x < m := by
  constructor
  · intro h
    have h1 := Int.emod_nonneg x hm.ne'
    have h2 := Int.emod_lt_of_pos x hm
    have h3 := Int.mul_ediv_add_emod x m
    rw [h, mul_zero, zero_add] at h3
    omega
  · rintro ⟨h1, h2⟩
    exact Int.ediv_eq_zero_of_lt h1 h2

theorem rem_ok (a m : SInt w) (hm : 2 ≤ m.1) :
    ∃ r, (euclidean w).rem a m = .ok r ∧ r.1 = a.1 % m.1 := by
  have hm0 : m.1 ≠ 0 := by omega
  have hbad : ¬ Bad w a m := fun h => by have := h.2; omega
  refine ⟨mk _ (fits_emod w m.2 hm0), ?_, rfl⟩
  show ((euclidean w).quoRem a m >>= fun p => pure p.2) = _
  rw [quoRem_eq w a m hm0 hbad]
  rfl

theorem add_ok (a b : SInt w) (h : Fits w (a.1 + b.1)) :
    (euclidean w).add a b = .ok (mk _ h) := (add_eq w a b).trans (dif_pos h)

theorem mul_ok (a b : SInt w) (h : Fits w (a.1 * b.1)) :
    (euclidean w).mul a b = .ok (mk _ h) := (mul_eq w a b).trans (dif_pos h)

theorem neg_ok (a : SInt w) (h : Fits w (-a.1)) :
    (euclidean w).neg a = .ok (mk _ h) := (neg_eq w a).trans (dif_pos h)

theorem tryInv_one (a : SInt w) (h : a.1 = 1) : (euclidean w).tryInv a = .ok (some a) := by
  show (invertible w a >>= fun b => if b = true then pure (some a) else pure none) = _
  rw [invertible_eq]
  simp [h]

theorem tryInv_none (a : SInt w) (h : 1 < a.1) : (euclidean w).tryInv a = .ok none := by
  show (invertible w a >>= fun b => if b = true then pure (some a) else pure none) = _
  rw [invertible_eq, decide_eq_false (by omega)]
  rfl

/-- Machine integers modulo `m` never overflow when `(m-1)^2` is representable. -/
theorem residue (m : SInt w) (hm : 2 ≤ m.1) (hmax : (m.1 - 1) * (m.1 - 1) ≤ 2 ^ (w - 1) - 1) :
    ResidueSpec False (euclidean w) m (SRep w) m.1 := by
  have hs := euclidean_spec w
  have hM := pow_ge (w := w)
  have hfm := fits_iff.1 m.2
  have hm0 : (0 : ℤ) < m.1 := by omega
  have h2m : 2 * (m.1 - 1) ≤ 2 ^ (w - 1) - 1 := by
    by_cases h : m.1 = 2
    · rw [h]; omega
    · nlinarith [mul_nonneg (show 0 ≤ m.1 - 1 by omega) (show 0 ≤ m.1 - 3 by omega)]
  exact
  { rep_unique := hs.rep_unique
    reduced := fun {a x} ha => by
      obtain rfl : a.1 = x := ha
      rw [reduced_eq]
      exact decides_ok (by simp [hm0.ne'])
    equals := fun {a b x y} ha hb => by
      obtain rfl : a.1 = x := ha
      obtain rfl : b.1 = y := hb
      exact decides_ok (by rw [beq_iff_eq, eq_iff])
    zero := (show (c0 w).1 = 0 from rfl)
    one := (show (c1 w).1 = 1 from rfl)
    isOne := fun {a x} ha => by
      obtain rfl : a.1 = x := ha
      exact decides_ok (by rw [beq_iff_eq, eq_iff]; rfl)
    add := fun {a b x y} ha hb hx hy => by
      obtain rfl : a.1 = x := ha
      obtain rfl : b.1 = y := hb
      rw [ediv_eq_zero_iff hm0] at hx hy
      rw [add_ok w a b (by rw [fits_iff]; omega)]
      obtain ⟨r, h1, h2⟩ := rem_ok w (mk (a.1 + b.1) (by rw [fits_iff]; omega)) m hm
      rw [ok_bind, h1]
      exact h2
    mul := fun {a b x y} ha hb hx hy => by
      obtain rfl : a.1 = x := ha
      obtain rfl : b.1 = y := hb
      rw [ediv_eq_zero_iff hm0] at hx hy
      have hf : Fits w (a.1 * b.1) := by
        rw [fits_iff]
        have h1 : 0 ≤ a.1 * b.1 := mul_nonneg hx.1 hy.1
        have h2 : a.1 * b.1 ≤ (m.1 - 1) * (m.1 - 1) :=
          mul_le_mul (by omega) (by omega) hy.1 (by omega)
        omega
      rw [mul_ok w a b hf]
      obtain ⟨r, h1, h2⟩ := rem_ok w (mk (a.1 * b.1) hf) m hm
      rw [ok_bind, h1]
      exact h2
    neg := fun {a x} ha hx => by
      obtain rfl : a.1 = x := ha
      rw [ediv_eq_zero_iff hm0] at hx
      rw [neg_ok w a (by rw [fits_iff]; omega)]
      obtain ⟨r, h1, h2⟩ := rem_ok w (mk (-a.1) (by rw [fits_iff]; omega)) m hm
      rw [ok_bind, h1]
      exact h2
    tryInv := fun {a x} ha hx => by
      obtain rfl : a.1 = x := ha
      rw [ediv_eq_zero_iff hm0] at hx
      rw [QuotientRing.tryInv_eq]
      by_cases hx0 : a.1 = 0
      · rw [extendedGcd_zero w m a hx0]
        simp only [ok_bind]
        rw [tryInv_none w m (by omega)]
        show ¬ IsCoprime m.1 a.1
        rw [hx0, isCoprime_zero_right, Int.isUnit_iff]
        omega
      · obtain ⟨g, s, t, he, hbz, hg1, hg2, hbd⟩ :=
          extendedGcd_nonneg w _ m a hm0.le (by omega) (le_refl _)
        rw [he]
        simp only [ok_bind]
        have hg0 : 0 < g.1 := by
          rcases hbd with ⟨_, h, _⟩ | ⟨_, h, _⟩ <;> omega
        by_cases hg : g.1 = 1
        · rw [tryInv_one w g hg]
          simp only [ok_bind]
          have hf : Fits w (g.1 * t.1) := by rw [hg, one_mul]; exact t.2
          obtain ⟨r, h1, h2⟩ := rem_ok w (mk (g.1 * t.1) hf) m hm
          have hq : QuotientRing.mul (euclidean w) m g t = .ok r := by
            show ((euclidean w).mul g t >>= fun c => (euclidean w).rem c m) = _
            rw [mul_ok w g t hf]
            exact h1
          rw [hq]
          refine ⟨r.1, rfl, ?_, ?_⟩
          · rw [h2]; exact mod_div_eq_zero hm0.ne' _
          · replace h2 : r.1 = t.1 % m.1 := by
              rw [h2]; show (g.1 * t.1) % m.1 = _; rw [hg, one_mul]
            obtain ⟨k, hk⟩ := dvd_mod_sub t.1 m.1
            rw [h2]
            exact ⟨a.1 * k - s.1, by linear_combination a.1 * hk + hbz + hg⟩
        · rw [tryInv_none w g (by omega)]
          show ¬ IsCoprime m.1 a.1
          rintro ⟨u, v, h⟩
          have : g.1 ∣ 1 := h ▸ dvd_add (hg1.mul_left u) (hg2.mul_left v)
          exact hg (le_antisymm (Int.le_of_dvd one_pos this) hg0) }

end CheckedInts

end Abstalg
