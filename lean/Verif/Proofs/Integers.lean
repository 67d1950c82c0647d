import Verif.Model.Integers
import Verif.Model.Naturals
import Verif.Proofs.Basic
import Mathlib.Algebra.EuclideanDomain.Int
import Mathlib.Algebra.GCDMonoid.Nat
import Mathlib.Order.Lattice
import Mathlib.Data.Int.Lemmas
import Mathlib.Algebra.Order.Ring.Int

/-! # `ZZ` implements `ℤ`, `NN` implements `ℕ` -/

set_option autoImplicit false

universe u

namespace Abstalg

set_option linter.unusedSectionVars false

/-- An integer object represents itself. -/
def ZRep (a x : ℤ) : Prop := a = x

/-- A natural number object represents itself. -/
def NRep (a x : ℕ) : Prop := a = x

namespace Integers

variable [Cfg]

theorem isUnit_iff' (x : ℤ) : IsUnit x ↔ x = 1 ∨ -x = 1 := by
  rw [Int.isUnit_iff]; omega

theorem unitaryRing_spec : UnitaryRingSpec False unitaryRing ZRep where
  rep_unique := by rintro a x y rfl rfl; rfl
  contains := by intro a x _; rfl
  equals := by
    rintro a b x y rfl rfl
    exact decides_ok (by simp)
  mul := by rintro a b x y rfl rfl; rfl
  mulAssign := by rintro a b x y rfl rfl; rfl
  square := by rintro a x rfl; rfl
  one := rfl
  isOne := by rintro a x rfl; exact decides_ok (by simp)
  tryInv := by
    rintro a x rfl
    show Returns False (do if ← invertible a then return some a else return none) _
    unfold invertible
    simp only [ok_bind]
    split
    · rename_i h
      have : a = 1 ∨ -a = 1 := by simpa using h
      refine ⟨a, rfl, ?_, ?_⟩ <;> rcases this with h | h
      · simp [h]
      · have : a = -1 := by omega
        simp [this]
      · simp [h]
      · have : a = -1 := by omega
        simp [this]
    · rename_i h
      show ¬ IsUnit a
      rw [isUnit_iff']
      simpa using h
  invertible := by
    rintro a x rfl
    exact decides_ok (by rw [isUnit_iff']; simp)
  zero := rfl
  isZero := by rintro a x rfl; exact decides_ok (by simp)
  add := by rintro a b x y rfl rfl; rfl
  addAssign := by rintro a b x y rfl rfl; rfl
  double := by rintro a x rfl; exact mul_two a
  utimes := by rintro n a x rfl; exact (nsmul_eq_mul n a).symm
  neg := by rintro a x rfl; rfl
  negAssign := by rintro a x rfl; rfl
  sub := by rintro a b x y rfl rfl; rfl
  subAssign := by rintro a b x y rfl rfl; exact (sub_eq_add_neg a b).symm
  times := by rintro n _ a x rfl; exact (zsmul_eq_mul a n).symm
  int := by intro n _; exact mul_one n

theorem quoRem_eq (a b : ℤ) (hb : b ≠ 0) : euclidean.quoRem a b = .ok (a / b, a % b) := by
  have h1 := (Int.mul_tdiv_add_tmod a b).symm
  have h0 : (a.tmod b).natAbs < b.natAbs := by
    rw [Int.natAbs_tmod]
    exact Nat.mod_lt _ (by omega)
  have habs := Int.abs_eq_natAbs b
  simp only [euclidean]
  have : (b == 0) = false := by simpa using hb
  simp only [this, Bool.not_false, assert_true, ok_bind]
  split
  · rename_i h
    split
    · rename_i hb'
      have h2 : a = (a.tmod b - b) + b * (a.tdiv b + 1) := by linear_combination h1
      rw [pure_eq_ok]
      congr 1
      have h5 := (Int.ediv_emod_unique'' (a := a) (b := b) (r := a.tmod b - b)
        (q := a.tdiv b + 1) hb).2 ⟨by linear_combination -h2, by omega, by omega⟩
      rw [h5.1, h5.2]
    · rename_i hb'
      rw [pure_eq_ok]
      congr 1
      have h5 := (Int.ediv_emod_unique'' (a := a) (b := b) (r := a.tmod b + b)
        (q := a.tdiv b - 1) hb).2 ⟨by linear_combination -h1, by omega, by omega⟩
      rw [h5.1, h5.2]
  · rename_i h
    rw [pure_eq_ok]
    congr 1
    have h5 := (Int.ediv_emod_unique'' (a := a) (b := b) (r := a.tmod b)
      (q := a.tdiv b) hb).2 ⟨by linear_combination -h1, by omega, by omega⟩
    rw [h5.1, h5.2]

theorem tryDiv_eq (a b : ℤ) (hb : b ≠ 0) :
    integralDomain.tryDiv a b = .ok (if b ∣ a then some (a / b) else none) := by
  simp only [integralDomain]
  have : (b == 0) = false := by simpa using hb
  simp only [this, Bool.not_false, assert_true, ok_bind]
  by_cases h : b ∣ a
  · have h0 : a.tmod b = 0 := Int.tmod_eq_zero_of_dvd h
    simp [h, h0, Int.tdiv_eq_ediv_of_dvd h]
  · have h0 : ¬ a.tmod b = 0 := fun h' => h (Int.dvd_of_tmod_eq_zero h')
    simp [h, h0]

theorem normalize_eq (x : ℤ) : normalize x = if x < 0 then -x else x := by
  rw [← Int.abs_eq_normalize]
  split
  · rw [abs_of_neg ‹_›]
  · rw [abs_of_nonneg (by omega)]

theorem normUnit_eq (x : ℤ) : (normUnit x : ℤ) = if x < 0 then -1 else 1 := by
  rw [Int.normUnit_eq]
  split <;> split <;> first | omega | simp

theorem integralDomain_spec : IntegralDomainSpec False integralDomain ZRep := by
  have hdvd : ∀ {a b x y}, ZRep a x → ZRep b y →
      Decides False (integralDomain.divisible a b) (y ∣ x) := by
    rintro a b x y rfl rfl
    simp only [integralDomain]
    split
    · rename_i h
      have : b = 0 := by simpa using h
      subst this
      exact decides_ok (by simp)
    · exact decides_ok (by simp [Int.dvd_iff_tmod_eq_zero])
  exact
  { toUnitaryRingSpec := unitaryRing_spec
    tryDiv := by
      rintro a b x y rfl rfl hb
      rw [tryDiv_eq a b hb]
      by_cases h : b ∣ a
      · simpa [h] using ⟨a / b, rfl, (Int.mul_ediv_cancel' h).symm⟩
      · simp [h]
    tryDiv_zero := by rintro a b x rfl rfl; rfl
    divisible := hdvd
    associates := fun ha hb => by
      have := associates_default (rep := ZRep) hdvd ha hb
      exact this
    associateRepr := by
      rintro a x rfl
      simp only [integralDomain, normalize_eq]
      split
      · exact unitaryRing_spec.neg rfl
      · rfl
    associateCoef := by
      rintro a x rfl hx
      simp only [integralDomain, normUnit_eq]
      have : (a == 0) = false := by simpa using hx
      simp only [this, Bool.not_false, assert_true, ok_bind]
      split <;> rfl
    associateCoef_zero := by rintro a rfl; rfl }

theorem euclidean_spec : EuclideanSpec False euclidean ZRep := by
  have hqr : ∀ {a b x y}, ZRep a x → ZRep b y → y ≠ 0 →
      Returns False (euclidean.quoRem a b) fun p => ZRep p.1 (x / y) ∧ ZRep p.2 (x % y) := by
    rintro a b x y rfl rfl hb
    rw [quoRem_eq a b hb]
    exact ⟨rfl, rfl⟩
  have hqz : ∀ {a b x : ℤ}, ZRep a x → ZRep b 0 → Panics (euclidean.quoRem a b) := by
    rintro a b x rfl rfl; rfl
  have hquo : ∀ {a b x y}, ZRep a x → ZRep b y → y ≠ 0 →
      Returns False (euclidean.quo a b) (ZRep · (x / y)) :=
    fun ha hb hy => quo_default (rep := ZRep) hqr ha hb hy
  have hrem : ∀ {a b x y}, ZRep a x → ZRep b y → y ≠ 0 →
      Returns False (euclidean.rem a b) (ZRep · (x % y)) :=
    fun ha hb hy => rem_default (rep := ZRep) hqr ha hb hy
  have h := integralDomain_spec
  have hgcd : ∀ {a b x y}, ZRep a x → ZRep b y →
      Returns False (euclidean.gcd a b) fun c => ∃ g, ZRep c g ∧ IsGcd x y g :=
    fun ha hb => gcdDefault_spec (rep := ZRep) h.isZero hrem ha hb
  exact
  { toIntegralDomainSpec := h
    quoRem := hqr
    quoRem_zero := hqz
    quo := hquo
    quo_zero := fun ha hb => panics_bind (hqz ha hb)
    rem := hrem
    rem_zero := fun ha hb => panics_bind (hqz ha hb)
    reduced := by
      rintro a b x y rfl rfl
      simp only [euclidean]
      split
      · rename_i h
        exact decides_ok (by simp [show b = 0 by simpa using h])
      · rename_i h
        have hb : b ≠ 0 := by simpa using h
        refine decides_ok ?_
        have h1 : 0 ≤ a % b := Int.emod_nonneg a hb
        have h2 : a % b < |b| := Int.emod_lt_abs a hb
        have h3 := Int.mul_ediv_add_emod a b
        simp only [hb, false_or, Bool.and_eq_true, Bool.not_eq_true', decide_eq_false_iff_not,
          decide_eq_true_eq, Int.natCast_natAbs]
        constructor
        · rintro ⟨h4, h5⟩
          exact (Int.ediv_emod_unique'' (a := a) (b := b) (r := a) (q := 0) hb).2
            ⟨by ring, by omega, by omega⟩ |>.1
        · intro h0
          rw [h0, mul_zero, zero_add] at h3
          omega
    gcd := hgcd
    lcm := fun ha hb => by
      have := lcm_default (rep := ZRep) h.isZero hgcd hquo h.mul ha hb
      exact this
    extendedGcd := fun ha hb => by
      have := extendedGcdDefault_spec (rep := ZRep) h.isZero h.one h.zero hqr h.sub h.mul ha hb
      exact this
    relativePrimes := fun ha hb => by
      have := relativePrimes_default (rep := ZRep) hgcd h.invertible ha hb
      exact this }

end Integers

/-- The order methods by which `min` and `max` of a linear order are implemented. -/
theorem isGLB_min' {R : Type u} [LinearOrder R] (x y : R) :
    IsGLB {x, y} (if y < x then y else x) := by
  have : (if y < x then y else x) = x ⊓ y := by
    split
    · exact (inf_eq_right.2 (le_of_lt ‹_›)).symm
    · exact (inf_eq_left.2 (not_lt.1 ‹_›)).symm
  rw [this]
  exact isGLB_pair

theorem isLUB_max' {R : Type u} [LinearOrder R] (x y : R) :
    IsLUB {x, y} (if y < x then x else y) := by
  have : (if y < x then x else y) = x ⊔ y := by
    split
    · exact (sup_eq_left.2 (le_of_lt ‹_›)).symm
    · exact (sup_eq_right.2 (not_lt.1 ‹_›)).symm
  rw [this]
  exact isLUB_pair

theorem Integers.lattice_spec : LatticeSpec False Integers.lattice ZRep := by
  have heq : ∀ {a b x y}, ZRep a x → ZRep b y → Decides False (lattice.equals a b) (x = y) := by
    rintro a b x y rfl rfl
    exact decides_ok (by simp)
  have hle : ∀ {a b x y}, ZRep a x → ZRep b y → Decides False (lattice.leq a b) (x ≤ y) := by
    rintro a b x y rfl rfl
    exact decides_ok (by simp)
  exact
  { rep_unique := by rintro a x y rfl rfl; rfl
    contains := by intro a x _; rfl
    equals := heq
    leq := hle
    lessThan := fun ha hb => by
      have := lessThan_default (rep := ZRep) heq hle ha hb
      exact this
    comparable := fun ha hb => by
      have := comparable_default (rep := ZRep) hle ha hb
      exact this
    meet := by rintro a b x y rfl rfl; exact ⟨_, rfl, isGLB_min' a b⟩
    join := by rintro a b x y rfl rfl; exact ⟨_, rfl, isLUB_max' a b⟩ }

theorem Naturals.semiRing_spec : SemiRingSpec False Naturals.semiRing NRep where
  rep_unique := by rintro a x y rfl rfl; rfl
  contains := by intro a x _; rfl
  equals := by
    rintro a b x y rfl rfl
    exact decides_ok (by simp)
  mul := by rintro a b x y rfl rfl; rfl
  mulAssign := by rintro a b x y rfl rfl; rfl
  square := by rintro a x rfl; rfl
  one := rfl
  isOne := by rintro a x rfl; exact decides_ok (by simp)
  tryInv := by
    rintro a x rfl
    simp only [semiRing]
    split
    · rename_i h
      have : a = 1 := by simpa using h
      subst this
      exact ⟨1, rfl, rfl, rfl⟩
    · rename_i h
      have : a ≠ 1 := by simpa using h
      simpa using this
  invertible := by
    rintro a x rfl
    exact decides_ok (by simp)
  zero := rfl
  isZero := by rintro a x rfl; exact decides_ok (by simp)
  add := by rintro a b x y rfl rfl; rfl
  addAssign := by rintro a b x y rfl rfl; rfl
  double := by rintro a x rfl; exact mul_two a
  utimes := by rintro n a x rfl; exact (nsmul_eq_mul n a).symm

theorem Naturals.lattice_spec : LatticeSpec False Naturals.lattice NRep := by
  have heq : ∀ {a b x y}, NRep a x → NRep b y → Decides False (lattice.equals a b) (x = y) := by
    rintro a b x y rfl rfl
    exact decides_ok (by simp)
  have hle : ∀ {a b x y}, NRep a x → NRep b y → Decides False (lattice.leq a b) (x ≤ y) := by
    rintro a b x y rfl rfl
    exact decides_ok (by simp)
  exact
  { rep_unique := by rintro a x y rfl rfl; rfl
    contains := by intro a x _; rfl
    equals := heq
    leq := hle
    lessThan := fun ha hb => by
      have := lessThan_default (rep := NRep) heq hle ha hb
      exact this
    comparable := fun ha hb => by
      have := comparable_default (rep := NRep) hle ha hb
      exact this
    meet := by rintro a b x y rfl rfl; exact ⟨_, rfl, isGLB_min' a b⟩
    join := by rintro a b x y rfl rfl; exact ⟨_, rfl, isLUB_max' a b⟩ }

end Abstalg
