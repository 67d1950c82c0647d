import Verif.Proofs.PolyGroup
import Mathlib.Algebra.Polynomial.Coeff
import Mathlib.Algebra.Polynomial.Degree.Operations
import Mathlib.Algebra.Polynomial.RingDivision

/-! # Polynomials over a ring -/

set_option linter.unusedSectionVars false

set_option autoImplicit false

universe u

namespace Abstalg

open Polynomial

namespace PolynomialAlgebra

variable [Cfg] {E : Type} {R : Type u} {mp : Prop} {rep : E → R → Prop}

section

variable [Ring R]

/-- The polynomial with the first `n` coefficients of `p`. -/
noncomputable def upTo (p : R[X]) (n : ℕ) : R[X] := ∑ i ∈ Finset.range n, monomial i (p.coeff i)

theorem upTo_zero (p : R[X]) : upTo p 0 = 0 := rfl

theorem upTo_succ (p : R[X]) (n : ℕ) : upTo p (n + 1) = upTo p n + monomial n (p.coeff n) :=
  Finset.sum_range_succ _ _

theorem upTo_coeff (p : R[X]) (n k : ℕ) : (upTo p n).coeff k = if k < n then p.coeff k else 0 := by
  induction n with
  | zero => simp [upTo_zero]
  | succ n ih =>
    rw [upTo_succ, coeff_add, ih, coeff_monomial]
    by_cases h : n = k
    · subst h; simp
    · by_cases h' : k < n
      · simp [h, h', Nat.lt_succ_of_lt h']
      · rw [if_neg h', if_neg h, if_neg (by omega), add_zero]

theorem upTo_eq {p : R[X]} {n : ℕ} (h : ∀ i, n ≤ i → p.coeff i = 0) : upTo p n = p := by
  ext k
  rw [upTo_coeff]
  split
  · rfl
  · rw [h k (by omega)]

variable {base : UnitaryRingOps E} (h : UnitaryRingSpec mp base rep)

include h

/-- `mul` returns the coefficients of the product, whatever the base ring. -/
theorem mul_cells {v w : List E} {p q : R[X]} {n m : ℕ} (hv : Cells rep v n p.coeff)
    (hp : ∀ i, n ≤ i → p.coeff i = 0) (hw : Cells rep w m q.coeff)
    (hq : ∀ i, m ≤ i → q.coeff i = 0) (hn : n ≠ 0) (hm : m ≠ 0) :
    Returns mp (mul base v w) fun u => Cells rep u (n + m - 1) (p * q).coeff := by
  obtain rfl := hv.1
  obtain rfl := hw.1
  unfold mul
  rw [if_neg (by simpa using ⟨by simpa using hn, by simpa using hm⟩)]
  refine Returns.bind h.zero fun z hz => ?_
  refine (forLoop_range (fun i u => Cells rep u (v.length + w.length - 1) (upTo p i * q).coeff)
    ?_ fun i hi u hu => ?_).mono fun u hu => ?_
  · exact (Cells.replicate hz).congr fun k _ => by rw [upTo_zero, zero_mul, coeff_zero]
  · refine (forLoop_range (fun j u => Cells rep u (v.length + w.length - 1)
      (upTo p i * q + monomial i (p.coeff i) * upTo q j).coeff) ?_ fun j hj u hu => ?_).mono
      fun u hu => ?_
    · simpa [upTo_zero] using hu
    · refine Returns.bind (hv.idx hi) fun a ha => Returns.bind (hw.idx hj) fun b hb =>
        Returns.bind (h.mul ha hb) fun s hs => Returns.bind (hu.idx (i := i + j) (by omega))
        fun t ht => Returns.bind (h.add ht hs) fun r hr => ?_
      refine (hu.setIdx (by omega) hr).mono fun u' hu' => hu'.congr fun k _ => ?_
      rw [upTo_succ, mul_add, ← add_assoc, coeff_add _ (monomial i _ * monomial j _),
        monomial_mul_monomial, coeff_monomial]
      by_cases hk : k = i + j
      · subst hk; simp
      · rw [Function.update_of_ne hk, if_neg (Ne.symm hk), add_zero]
    · rw [upTo_eq hq] at hu
      rwa [upTo_succ, add_mul]
  · rwa [upTo_eq hp] at hu

end

variable [Ring R]

theorem _root_.Abstalg.RingPolyRep.mk {v : List E} {n : ℕ} {p : R[X]} (h : Cells rep v n p.coeff)
    (h0 : ∀ i, n ≤ i → p.coeff i = 0) (h1 : n ≠ 0 → p.coeff (n - 1) ≠ 0) : RingPolyRep rep v p :=
  canon_iff.2 (Canon.mk h h0 h1)

theorem _root_.Abstalg.RingPolyRep.cells {v : List E} {p : R[X]} (h : RingPolyRep rep v p) :
    Cells rep v v.length p.coeff := (canon_iff.1 h).1

theorem _root_.Abstalg.RingPolyRep.coeff_eq_zero {v : List E} {p : R[X]} (h : RingPolyRep rep v p) :
    ∀ i, v.length ≤ i → p.coeff i = 0 := (canon_iff.1 h).2.1

theorem _root_.Abstalg.RingPolyRep.last {v : List E} {p : R[X]} (h : RingPolyRep rep v p) :
    v.length ≠ 0 → p.coeff (v.length - 1) ≠ 0 := (canon_iff.1 h).2.2

theorem _root_.Abstalg.RingPolyRep.natDegree {v : List E} {p : R[X]} (h : RingPolyRep rep v p) :
    p.natDegree = v.length - 1 := by
  by_cases h0 : v.length = 0
  · have : p = 0 := by ext i; rw [h.coeff_eq_zero i (by omega), coeff_zero]
    rw [this, natDegree_zero, h0]
  · refine le_antisymm ?_ (le_natDegree_of_ne_zero (h.last h0))
    rw [natDegree_le_iff_coeff_eq_zero]
    exact fun i hi => h.coeff_eq_zero i (by omega)

theorem _root_.Abstalg.RingPolyRep.eq_zero_iff {v : List E} {p : R[X]} (h : RingPolyRep rep v p) :
    p = 0 ↔ v.length = 0 := by
  constructor
  · rintro rfl
    by_contra h0
    exact h.last h0 (coeff_zero _)
  · intro h0
    ext i; rw [h.coeff_eq_zero i (by omega), coeff_zero]

theorem _root_.Abstalg.RingPolyRep.leadingCoeff {v : List E} {p : R[X]} (h : RingPolyRep rep v p) :
    p.leadingCoeff = p.coeff (v.length - 1) := by rw [Polynomial.leadingCoeff, h.natDegree]

/-- A constant polynomial. -/
theorem _root_.Abstalg.RingPolyRep.const {a : E} {x : R} (ha : rep a x) (hx : x ≠ 0) :
    RingPolyRep rep [a] (C x) := by
  refine RingPolyRep.mk (n := 1) ⟨rfl, fun i hi => ?_⟩ (fun i hi => ?_) fun _ => ?_
  · obtain rfl : i = 0 := by simpa using hi
    simpa using ha
  · exact coeff_C_of_ne_zero (by omega)
  · simpa using hx

theorem _root_.Abstalg.RingPolyRep.eq_C {v : List E} {p : R[X]} (h : RingPolyRep rep v p) (hv : v.length = 1) :
    p = C (p.coeff 0) := by
  ext i
  rw [coeff_C]
  split
  · rename_i h; rw [h]
  · exact h.coeff_eq_zero i (by omega)

/-- The coefficients as a homomorphism. -/
noncomputable def coeffHom : R[X] →+ (ℕ → R) where
  toFun := coeff
  map_zero' := funext fun _ => coeff_zero _
  map_add' p q := funext fun i => coeff_add p q i

variable {base : UnitaryRingOps E} (h : UnitaryRingSpec mp base rep)

include h

theorem polyGroup_spec :
    AbelianGroupSpec mp (abelianGroup base.toAbelianGroupOps) (RingPolyRep rep) :=
  group_spec h.toAbelianGroupSpec coeffHom coeff_injective

theorem mul_spec [NoZeroDivisors R] {v w : List E} {p q : R[X]} (hp : RingPolyRep rep v p)
    (hq : RingPolyRep rep w q) : Returns mp (mul base v w) (RingPolyRep rep · (p * q)) := by
  by_cases hn : v.length = 0
  · rw [hp.eq_zero_iff.2 hn, zero_mul]
    obtain rfl : v = [] := List.length_eq_zero_iff.1 hn
    exact (polyGroup_spec h).zero
  by_cases hm : w.length = 0
  · rw [hq.eq_zero_iff.2 hm, mul_zero]
    obtain rfl : w = [] := List.length_eq_zero_iff.1 hm
    unfold mul
    rw [if_pos (by simp)]
    exact (polyGroup_spec h).zero
  refine (mul_cells h hp.cells hp.coeff_eq_zero hq.cells hq.coeff_eq_zero hn hm).mono fun u hu => ?_
  have hd : (p * q).natDegree = v.length + w.length - 2 := by
    rw [natDegree_mul (fun h0 => hn (hp.eq_zero_iff.1 h0)) (fun h0 => hm (hq.eq_zero_iff.1 h0)),
      hp.natDegree, hq.natDegree]
    omega
  refine RingPolyRep.mk hu (fun i hi => ?_) fun _ => ?_
  · exact coeff_eq_zero_of_natDegree_lt (by omega)
  · rw [show v.length + w.length - 1 - 1 = (p * q).natDegree by omega]
    exact leadingCoeff_ne_zero.2
      (mul_ne_zero (fun h0 => hn (hp.eq_zero_iff.1 h0)) (fun h0 => hm (hq.eq_zero_iff.1 h0)))

theorem one_spec [Nontrivial R] : Returns mp (unitaryRing base).one (RingPolyRep rep · 1) := by
  refine Returns.bind h.one fun o ho => Decides.assertNot (h.isZero ho) one_ne_zero ?_
  refine Returns.bind h.one fun o ho => ?_
  rw [← C_1]
  exact RingPolyRep.const ho one_ne_zero

theorem isOne_spec [Nontrivial R] {v : List E} {p : R[X]} (hp : RingPolyRep rep v p) :
    Decides mp ((unitaryRing base).isOne v) (p = 1) := by
  simp only [unitaryRing]
  split
  · rename_i hv
    have hv : v.length = 1 := by simpa using hv
    refine Returns.bind (hp.cells.idx (i := 0) (by omega)) fun a ha => (h.isOne ha).iff ?_
    constructor
    · intro h1; rw [hp.eq_C hv, h1, C_1]
    · rintro rfl; simp
  · rename_i hv
    refine decides_ok ⟨nofun, ?_⟩
    rintro rfl
    have h1 := hp.natDegree
    have h2 : v.length ≠ 0 := fun h0 => one_ne_zero (hp.eq_zero_iff.2 h0)
    rw [natDegree_one] at h1
    exact absurd (show v.length = 1 by omega) (by simpa using hv)

theorem tryInv_spec [Nontrivial R] [NoZeroDivisors R] {v : List E} {p : R[X]}
    (hp : RingPolyRep rep v p) :
    Returns mp ((unitaryRing base).tryInv v) fun
      | some w => ∃ q, RingPolyRep rep w q ∧ p * q = 1 ∧ q * p = 1
      | none => ¬ IsUnit p := by
  simp only [unitaryRing]
  split
  · rename_i hv
    have hv : v.length = 1 := by simpa using hv
    refine Returns.bind (hp.cells.idx (i := 0) (by omega)) fun a ha => ?_
    refine Returns.bind (h.tryInv ha) fun o ho => ?_
    cases o with
    | some b =>
      obtain ⟨y, hb, h1, h2⟩ := ho
      refine ⟨C y, RingPolyRep.const hb ?_, ?_, ?_⟩
      · rintro rfl; rw [mul_zero] at h1; exact zero_ne_one h1
      · rw [hp.eq_C hv, ← C_mul, h1, C_1]
      · rw [hp.eq_C hv, ← C_mul, h2, C_1]
    | none =>
      intro hu
      obtain ⟨r, hr, h1⟩ := isUnit_iff.1 hu
      rw [← h1, coeff_C_zero] at ho
      exact ho hr
  · rename_i hv
    intro hu
    obtain ⟨r, hr, h1⟩ := isUnit_iff.1 hu
    have h2 := hp.natDegree
    rw [← h1, natDegree_C] at h2
    have h3 : v.length ≠ 0 := fun h0 => hu.ne_zero (hp.eq_zero_iff.2 h0)
    exact absurd (show v.length = 1 by omega) (by simpa using hv)

theorem unitaryRing_spec [Nontrivial R] [NoZeroDivisors R] :
    UnitaryRingSpec mp (unitaryRing base) (RingPolyRep rep) := by
  have hg := polyGroup_spec h
  have hmul : ∀ {a b : List E} {k l : R[X]}, RingPolyRep rep a k → RingPolyRep rep b l →
      Returns mp ((unitaryRing base).mul a b) (RingPolyRep rep · (k * l)) := mul_spec h
  have hone := one_spec h
  exact
  { hg with
    mul := hmul
    mulAssign := hmul
    square := fun ha => hmul ha ha
    one := hone
    isOne := isOne_spec h
    tryInv := fun ha => (tryInv_spec h ha).mono fun o ho => by cases o <;> exact ho
    invertible := fun {a k} ha => by
      have := invertible_default (rep := RingPolyRep rep)
        (fun ha => (tryInv_spec h ha).mono fun o ho => by cases o <;> exact ho) ha
      exact this
    int := fun n hn => by
      have := int_default (rep := RingPolyRep rep) hone
        (fun n hn {a k} ha => hg.times n hn ha) n hn
      exact this }

end PolynomialAlgebra

end Abstalg
