import Verif.Proofs.Groups
import Verif.Proofs.PolyOf
import Verif.Proofs.PolyDiv
import Verif.Proofs.Integers
import Verif.Props.Quotient
import Verif.Props.Fractions
import Mathlib.RingTheory.AdjoinRoot
import Mathlib.Algebra.Polynomial.SpecificDegree

/-! # Polynomials: C25, C29-C35, C57 -/

set_option linter.unusedSectionVars false

set_option autoImplicit false

universe u w

namespace Abstalg

open Polynomial

section group

variable [Cfg] {E : Type} {R : Type u} [AddCommGroup R] {mp : Prop} {rep : E → R → Prop}
  {base : AbelianGroupOps E}

/-- The terms of a finitely supported sequence, as a homomorphism. -/
def seqHom : (ℕ →₀ R) →+ (ℕ → R) where
  toFun f i := f i
  map_zero' := rfl
  map_add' _ _ := rfl

/-- C29: the polynomials over an abelian group are the group of finitely supported sequences,
each represented by the vector of its terms up to the last that is not zero. -/
theorem C29_polynomial_group (h : AbelianGroupSpec mp base rep) :
    AbelianGroupSpec mp (PolynomialAlgebra.abelianGroup base) fun v (f : ℕ →₀ R) =>
      (∀ i (hi : i < v.length), rep v[i] (f i)) ∧ (∀ i, v.length ≤ i → f i = 0) ∧
        (v ≠ [] → f (v.length - 1) ≠ 0) :=
  PolynomialAlgebra.group_spec h seqHom DFunLike.coe_injective

/-- C29: the sum of `1 + 3x + 5x^2` and `2 + x - 5x^2` loses its leading term. -/
example : (PolynomialAlgebra.abelianGroup Integers.unitaryRing.toAbelianGroupOps).add [1, 3, 5] [2, 1, -5] =
    .ok [3, 4] := rfl

/-- C29: multiplying by zero cancels all terms. -/
example : (PolynomialAlgebra.abelianGroup Integers.unitaryRing.toAbelianGroupOps).times 0 [1, 3, 5] =
    .ok [] := rfl

theorem contains_exact {M : Type w} {coef : M → ℕ → R}
    (hsurj : ∀ (c : ℕ → R) (n : ℕ), (∀ i, n ≤ i → c i = 0) → ∃ m, coef m = c)
    (h : AbelianGroupSpec mp base rep) {dom : E → Prop} (hc : ContainsExact mp base.toDomainOps rep dom)
    {v : List E} (hv : ∀ a, a ∈ v → dom a) :
    Decides mp ((PolynomialAlgebra.abelianGroup base).contains v) (∃ m, PolyRep rep coef v m) := by
  show Decides mp (if v.isEmpty then .ok true else _) _
  split
  · rename_i hv
    obtain rfl : v = [] := by simpa using hv
    obtain ⟨m, hm⟩ := hsurj (fun _ => 0) 0 fun _ _ => rfl
    refine decides_ok ⟨fun _ => ⟨m, fun i hi => absurd hi (Nat.not_lt_zero _), fun i _ => ?_,
      fun h => absurd rfl h⟩, fun _ => rfl⟩
    rw [hm]
  · rename_i hne
    have hl : v.length ≠ 0 := by simpa using hne
    refine Decides.bindD (allRes_spec (q := fun a => ∃ x, rep a x) fun a ha => hc a (hv a ha))
      (fun h1 => ?_) fun h1 => ?_
    · have : ∀ i : ℕ, ∃ x : R, (∀ hi : i < v.length, rep v[i] x) ∧ (v.length ≤ i → x = 0) := by
        intro i
        by_cases hi : i < v.length
        · obtain ⟨x, hx⟩ := h1 v[i] (List.getElem_mem hi)
          exact ⟨x, fun _ => hx, fun h => absurd hi (by omega)⟩
        · exact ⟨0, fun h => absurd h hi, fun _ => rfl⟩
      choose c hc1 hc2 using this
      have hcells : Cells rep v v.length c := ⟨rfl, hc1⟩
      refine Returns.bind (hcells.idx (i := v.length - 1) (by omega)) fun a ha => ?_
      refine (Decides.not (h.isZero ha)).iff ⟨fun h0 => ?_, ?_⟩
      · obtain ⟨m, hm⟩ := hsurj c v.length hc2
        exact ⟨m, by rw [canon_iff, hm]; exact ⟨hcells, hc2, fun _ => h0⟩⟩
      · rintro ⟨m, hm⟩ h0
        rw [canon_iff] at hm
        refine hm.2.2 hl ?_
        rw [← h0]
        exact Cells.unique (rep := rep) h.rep_unique hm.1 hcells _ (by omega)
    · refine decides_ok ⟨nofun, ?_⟩
      rintro ⟨m, hm⟩
      refine absurd (fun a ha => ?_) h1
      obtain ⟨i, hi, rfl⟩ := List.getElem_of_mem ha
      exact ⟨_, hm.1 i hi⟩

/-- C35: `contains` accepts exactly the canonical vectors, if `contains` of the base is exact on
the coefficients. -/
theorem C35_contains (h : AbelianGroupSpec mp base rep) {dom : E → Prop}
    (hc : ContainsExact mp base.toDomainOps rep dom) {v : List E} (hv : ∀ a, a ∈ v → dom a) :
    Decides mp ((PolynomialAlgebra.abelianGroup base).contains v) (∃ f : ℕ →₀ R,
      (∀ i (hi : i < v.length), rep v[i] (f i)) ∧ (∀ i, v.length ≤ i → f i = 0) ∧
        (v ≠ [] → f (v.length - 1) ≠ 0)) :=
  contains_exact (coef := fun (f : ℕ →₀ R) i => f i)
    (fun c n hc => ⟨Finsupp.onFinset (Finset.range n) c fun i hi => by
      rw [Finset.mem_range]; by_contra h; exact hi (hc i (by omega)), rfl⟩) h hc hv

/-- The hypotheses are met by the integers, where `contains` is exact on all objects; `[1, 0, 2]` is
a member and `[1, 2, 0]` is not. -/
example : AbelianGroupSpec False Integers.unitaryRing.toAbelianGroupOps ZRep ∧
    ContainsExact False Integers.unitaryRing.toDomainOps ZRep (fun _ => True) ∧
    (PolynomialAlgebra.abelianGroup Integers.unitaryRing.toAbelianGroupOps).contains [1, 0, 2] =
      .ok true ∧
    (PolynomialAlgebra.abelianGroup Integers.unitaryRing.toAbelianGroupOps).contains [1, 2, 0] =
      .ok false :=
  ⟨Integers.unitaryRing_spec.toAbelianGroupSpec,
    fun a _ => decides_ok ⟨fun _ => ⟨a, rfl⟩, fun _ => rfl⟩, rfl, rfl⟩

/-- C35: every polynomial has a canonical vector, if every coefficient has an object. -/
theorem C35_surjective {R : Type u} [Semiring R] {rep : E → R → Prop} (hs : ∀ x, ∃ a, rep a x)
    (f : R[X]) : ∃ v, RingPolyRep rep v f := by
  choose o ho using hs
  by_cases hf : f = 0
  · subst hf
    exact ⟨[], fun i hi => absurd hi (Nat.not_lt_zero _), fun i _ => coeff_zero i,
      fun h => absurd rfl h⟩
  · refine ⟨List.ofFn fun i : Fin (f.natDegree + 1) => o (f.coeff i), fun i hi => ?_, fun i hi => ?_,
      fun _ => ?_⟩
    · rw [List.getElem_ofFn]; exact ho _
    · rw [List.length_ofFn] at hi
      exact coeff_eq_zero_of_natDegree_lt (by omega)
    · rw [List.length_ofFn, Nat.add_sub_cancel]
      exact leadingCoeff_ne_zero.2 hf

/-- Every polynomial with integer coefficients has a vector. -/
example (f : ℤ[X]) : ∃ v, RingPolyRep ZRep v f := C35_surjective (fun x => ⟨x, rfl⟩) f

/-- C35: the canonical vector is unique, if the objects of the coefficients are. -/
theorem C35_unique {R : Type u} [Semiring R] {rep : E → R → Prop}
    (hu : ∀ {a b x}, rep a x → rep b x → a = b) {f : R[X]} {v w : List E}
    (hv : RingPolyRep rep v f) (hw : RingPolyRep rep w f) : v = w := by
  refine List.ext_getElem (PolynomialAlgebra.Canon.length_eq (canon_iff.1 hv) (canon_iff.1 hw))
    fun i h1 h2 => hu (hv.1 i h1) (hw.1 i h2)

/-- The vector of a polynomial with integer coefficients is unique. -/
example {f : ℤ[X]} {v w : List ℤ} (hv : RingPolyRep ZRep v f) (hw : RingPolyRep ZRep w f) : v = w :=
  C35_unique (rep := ZRep) (fun h1 h2 => Eq.trans h1 (Eq.symm h2)) hv hw

end group

section ring

variable [Cfg] {E : Type} {R : Type u} [Ring R] {mp : Prop} {rep : E → R → Prop}
  {base : UnitaryRingOps E}

/-- C30: over a ring without zero divisors the polynomials are the ring `R[X]`. -/
theorem C30_polynomial_ring [Nontrivial R] [NoZeroDivisors R] (h : UnitaryRingSpec mp base rep) :
    UnitaryRingSpec mp (PolynomialAlgebra.unitaryRing base) fun v (f : R[X]) =>
      (∀ i (hi : i < v.length), rep v[i] (f.coeff i)) ∧ (∀ i, v.length ≤ i → f.coeff i = 0) ∧
        (v ≠ [] → f.coeff (v.length - 1) ≠ 0) :=
  PolynomialAlgebra.unitaryRing_spec h

/-- The vector `[1, -2, 3]` stands for the polynomial `1 - 2x + 3x^2`; its square, by evaluation. -/
example : RingPolyRep ZRep [1, -2, 3] (polyOf [1, -2, 3]) ∧
    (PolynomialAlgebra.unitaryRing Integers.unitaryRing).mul [1, -2, 3] [1, -2, 3] =
      .ok [1, -4, 10, -12, 9] :=
  ⟨polyOf_rep (by simp [ZRep]) (by decide), rfl⟩

/-- C30: the degree of a product is the sum of the degrees. -/
theorem C30_degree [NoZeroDivisors R] (h : UnitaryRingSpec mp base rep) {v w : List E} {f g : R[X]}
    (hf : RingPolyRep rep v f) (hg : RingPolyRep rep w g) :
    Returns mp ((PolynomialAlgebra.unitaryRing base).mul v w) fun u =>
      PolynomialAlgebra.degree u = (do
        let n ← PolynomialAlgebra.degree v
        let m ← PolynomialAlgebra.degree w
        return n + m) := by
  classical
  refine (PolynomialAlgebra.mul_spec h hf hg).mono fun u hu => ?_
  have hd : ∀ {v : List E} {f : R[X]}, RingPolyRep rep v f →
      PolynomialAlgebra.degree v = if f = 0 then none else some f.natDegree := by
    intro v f hf
    unfold PolynomialAlgebra.degree
    by_cases hf0 : f = 0
    · rw [if_pos hf0, if_pos (by simpa using hf.eq_zero_iff.1 hf0)]
    · rw [if_neg hf0, if_neg (by simpa using fun h => hf0 (hf.eq_zero_iff.2 (by simpa using h))),
        hf.natDegree]
  rw [hd hu, hd hf, hd hg]
  by_cases hf0 : f = 0
  · rw [if_pos (by rw [hf0, zero_mul]), if_pos hf0]; rfl
  · by_cases hg0 : g = 0
    · rw [if_pos (by rw [hg0, mul_zero]), if_pos hg0, if_neg hf0]; rfl
    · rw [if_neg (mul_ne_zero hf0 hg0), if_neg hf0, if_neg hg0, natDegree_mul hf0 hg0]; rfl

/-- The degree of the product of `1 + 2x` and `3x^2` is three, that of the product with zero is
undefined. -/
example : ((PolynomialAlgebra.unitaryRing Integers.unitaryRing).mul [1, 2] [0, 0, 3] >>= fun u =>
      .ok (PolynomialAlgebra.degree u)) = .ok (some 3) ∧
    ((PolynomialAlgebra.unitaryRing Integers.unitaryRing).mul [1, 2] [] >>= fun u =>
      .ok (PolynomialAlgebra.degree u)) = .ok none :=
  ⟨rfl, rfl⟩

/-- C31: over every ring `mul` returns the coefficients of the product. -/
theorem C31_coefficients (h : UnitaryRingSpec mp base rep) {v w : List E} {f g : R[X]}
    (hf : RingPolyRep rep v f) (hg : RingPolyRep rep w g) :
    Returns mp ((PolynomialAlgebra.unitaryRing base).mul v w) fun u =>
      (∀ i (hi : i < u.length), rep u[i] ((f * g).coeff i)) ∧
      (∀ i, u.length ≤ i → (f * g).coeff i = 0) := by
  by_cases hv : v.length = 0
  · obtain rfl : v = [] := List.length_eq_zero_iff.1 hv
    rw [hf.eq_zero_iff.2 rfl, zero_mul]
    exact ⟨fun i hi => absurd hi (Nat.not_lt_zero _), fun i _ => coeff_zero i⟩
  by_cases hw : w.length = 0
  · obtain rfl : w = [] := List.length_eq_zero_iff.1 hw
    rw [hg.eq_zero_iff.2 rfl, mul_zero]
    show Returns mp (PolynomialAlgebra.mul base v []) _
    unfold PolynomialAlgebra.mul
    rw [if_pos (by simp)]
    exact ⟨fun i hi => absurd hi (Nat.not_lt_zero _), fun i _ => coeff_zero i⟩
  refine (PolynomialAlgebra.mul_cells h hf.cells hf.coeff_eq_zero hg.cells hg.coeff_eq_zero hv
    hw).mono fun u hu => ⟨hu.2, fun i hi => ?_⟩
  rw [hu.1] at hi
  refine coeff_eq_zero_of_natDegree_lt (lt_of_le_of_lt natDegree_mul_le ?_)
  rw [hf.natDegree, hg.natDegree]
  omega

example : UnitaryRingSpec False Integers.unitaryRing ZRep ∧
    RingPolyRep ZRep [1, 0, 2] (polyOf [1, 0, 2]) ∧ RingPolyRep ZRep [-3, 1] (polyOf [-3, 1]) ∧
    (PolynomialAlgebra.unitaryRing Integers.unitaryRing).mul [1, 0, 2] [-3, 1] = .ok [-3, 1, -6, 2] :=
  ⟨Integers.unitaryRing_spec, polyOf_rep (by simp [ZRep]) (by decide),
    polyOf_rep (by simp [ZRep]) (by decide), rfl⟩

/-- C31: the product vector is accepted by `contains` iff one factor is zero or the product of
the leading coefficients is not zero. -/
theorem C31_canonical (h : UnitaryRingSpec mp base rep) {v w : List E} {f g : R[X]}
    (hf : RingPolyRep rep v f) (hg : RingPolyRep rep w g) :
    Decides mp ((PolynomialAlgebra.unitaryRing base).mul v w >>= fun u =>
        (PolynomialAlgebra.unitaryRing base).contains u)
      (f = 0 ∨ g = 0 ∨ f.leadingCoeff * g.leadingCoeff ≠ 0) := by
  by_cases hv : v.length = 0
  · obtain rfl : v = [] := List.length_eq_zero_iff.1 hv
    exact decides_ok ⟨fun _ => Or.inl (hf.eq_zero_iff.2 rfl), fun _ => rfl⟩
  by_cases hw : w.length = 0
  · obtain rfl : w = [] := List.length_eq_zero_iff.1 hw
    show Decides mp (PolynomialAlgebra.mul base v [] >>= fun u =>
      (PolynomialAlgebra.unitaryRing base).contains u) _
    unfold PolynomialAlgebra.mul
    rw [if_pos (by simp)]
    exact decides_ok ⟨fun _ => Or.inr (Or.inl (hg.eq_zero_iff.2 rfl)), fun _ => rfl⟩
  refine Returns.bind (PolynomialAlgebra.mul_cells h hf.cells hf.coeff_eq_zero hg.cells
    hg.coeff_eq_zero hv hw) fun u hu => ?_
  have hl : u.length ≠ 0 := by rw [hu.1]; omega
  show Decides mp (if u.isEmpty then .ok true else _) _
  rw [if_neg (by simpa using hl)]
  refine Decides.bindD (hu.all (q := fun _ => True) fun i hi a ha =>
    (h.contains ha).mono fun b hb => by simpa using hb) (fun _ => ?_)
    fun h => absurd (fun _ _ => trivial) h
  refine Returns.bind (hu.idx (i := u.length - 1) (by rw [hu.1]; omega)) fun a ha => ?_
  refine (Decides.not (h.isZero ha)).iff ?_
  rw [hu.1, show v.length + w.length - 1 - 1 = f.natDegree + g.natDegree by
    rw [hf.natDegree, hg.natDegree]; omega, coeff_mul_degree_add_degree]
  have h1 : f ≠ 0 := fun h => hv (hf.eq_zero_iff.1 h)
  have h2 : g ≠ 0 := fun h => hw (hg.eq_zero_iff.1 h)
  simp [h1, h2]

/-- Over the integers modulo 6 the product of `1 + 2x` and `1 + 3x` is `1 + 5x`, but the vector
returned is `[1, 5, 0]`. -/
example : (PolynomialAlgebra.unitaryRing (QuotientRing.ops Integers.euclidean 6)).mul [1, 2] [1, 3] =
      .ok [1, 5, 0] ∧
    (PolynomialAlgebra.unitaryRing (QuotientRing.ops Integers.euclidean 6)).contains [1, 5, 0] =
      .ok false :=
  ⟨rfl, rfl⟩

/-- C32: over a ring without zero divisors `try_inv` is exact. -/
theorem C32_try_inv [Nontrivial R] [NoZeroDivisors R] (h : UnitaryRingSpec mp base rep)
    {v : List E} {f : R[X]} (hf : RingPolyRep rep v f) :
    Returns mp ((PolynomialAlgebra.unitaryRing base).tryInv v) fun
      | some w => ∃ g, RingPolyRep rep w g ∧ f * g = 1 ∧ g * f = 1
      | none => ¬ ∃ g, f * g = 1 ∧ g * f = 1 :=
  (PolynomialAlgebra.tryInv_spec h hf).mono fun o ho => by
    cases o with
    | some w => exact ho
    | none => exact fun ⟨g, h1, h2⟩ => ho ⟨⟨f, g, h1, h2⟩, rfl⟩

/-- Over the integers `-1` is invertible, `2` and `1 + x` are not. -/
example : (PolynomialAlgebra.unitaryRing Integers.unitaryRing).tryInv [-1] = .ok (some [-1]) ∧
    (PolynomialAlgebra.unitaryRing Integers.unitaryRing).tryInv [2] = .ok none ∧
    (PolynomialAlgebra.unitaryRing Integers.unitaryRing).tryInv [1, 1] = .ok none :=
  ⟨rfl, rfl, rfl⟩

/-- C32: over any ring an inverse that is returned is right. -/
theorem C32_some_sound [Nontrivial R] (h : UnitaryRingSpec mp base rep) {v : List E} {f : R[X]}
    (hf : RingPolyRep rep v f) :
    Returns mp ((PolynomialAlgebra.unitaryRing base).tryInv v) fun o =>
      ∀ w, o = some w → ∃ g, RingPolyRep rep w g ∧ f * g = 1 ∧ g * f = 1 := by
  show Returns mp (if v.length == 1 then _ else _) _
  split
  · rename_i hv
    have hv : v.length = 1 := by simpa using hv
    refine Returns.bind (hf.cells.idx (i := 0) (by omega)) fun a ha => ?_
    refine Returns.bind (h.tryInv ha) fun o ho => ?_
    cases o with
    | none => exact nofun
    | some b =>
      rintro w ⟨rfl⟩
      obtain ⟨y, hb, h1, h2⟩ := ho
      refine ⟨C y, RingPolyRep.const hb ?_, ?_, ?_⟩
      · rintro rfl; rw [mul_zero] at h1; exact zero_ne_one h1
      · rw [hf.eq_C hv, ← C_mul, h1, C_1]
      · rw [hf.eq_C hv, ← C_mul, h2, C_1]
  · exact nofun

/-- The inverse of the constant polynomial `5` modulo `12`. -/
example : (PolynomialAlgebra.unitaryRing (QuotientRing.ops Integers.euclidean 12)).mul [5] [5] =
    .ok [1] := rfl

/-- C35: `degree` is the degree, and there is none for zero. -/
theorem C35_degree {v : List E} {f : R[X]} (hf : RingPolyRep rep v f) :
    (f = 0 → PolynomialAlgebra.degree v = none) ∧
    (f ≠ 0 → PolynomialAlgebra.degree v = some f.natDegree) := by
  unfold PolynomialAlgebra.degree
  constructor
  · intro hf0
    rw [if_pos (by simpa using hf.eq_zero_iff.1 hf0)]
  · intro hf0
    rw [if_neg (by simpa using fun h => hf0 (hf.eq_zero_iff.2 (by simpa using h))), hf.natDegree]

example : RingPolyRep ZRep [1, 0, 2] (polyOf [1, 0, 2]) ∧
    PolynomialAlgebra.degree [(1 : ℤ), 0, 2] = some 2 :=
  ⟨polyOf_rep (by simp [ZRep]) (by decide), rfl⟩

/-- C35: `leading_coef` is the leading coefficient, and there is none for zero. -/
theorem C35_leading_coef {v : List E} {f : R[X]} (hf : RingPolyRep rep v f) :
    (f = 0 → PolynomialAlgebra.leadingCoef v = .ok none) ∧
    (f ≠ 0 → ∃ a, PolynomialAlgebra.leadingCoef v = .ok (some a) ∧ rep a f.leadingCoeff) := by
  constructor
  · intro hf0
    obtain rfl : v = [] := List.length_eq_zero_iff.1 (hf.eq_zero_iff.1 hf0)
    rfl
  · intro hf0
    have hl : v.length ≠ 0 := fun h => hf0 (hf.eq_zero_iff.2 h)
    obtain ⟨a, h1, h2⟩ := returns_false_iff.1 (hf.cells.idx (i := v.length - 1) (by omega))
    refine ⟨a, ?_, by rw [hf.leadingCoeff]; exact h2⟩
    unfold PolynomialAlgebra.leadingCoef
    rw [if_neg (by simpa using hl), h1]
    rfl

/-- Degree and leading coefficient of `1 - 2x + 3x^2` and of zero. -/
example : PolynomialAlgebra.degree [(1 : ℤ), -2, 3] = some 2 ∧
    PolynomialAlgebra.leadingCoef [(1 : ℤ), -2, 3] = .ok (some 3) ∧
    PolynomialAlgebra.degree ([] : List ℤ) = none ∧
    PolynomialAlgebra.leadingCoef ([] : List ℤ) = .ok none :=
  ⟨rfl, rfl, rfl, rfl⟩

/-- C35: `equals` decides equality of the polynomials, over every ring. -/
theorem C35_equals (h : UnitaryRingSpec mp base rep) {v w : List E} {f g : R[X]}
    (hf : RingPolyRep rep v f) (hg : RingPolyRep rep w g) :
    Decides mp ((PolynomialAlgebra.unitaryRing base).equals v w) (f = g) :=
  (PolynomialAlgebra.polyGroup_spec h).equals hf hg

/-- Vectors of different lengths are not equal. -/
example : (PolynomialAlgebra.unitaryRing Integers.unitaryRing).equals [1, 2] [1, 2, 3] = .ok false ∧
    (PolynomialAlgebra.unitaryRing Integers.unitaryRing).equals [1, 2] [1, 2] = .ok true :=
  ⟨rfl, rfl⟩

end ring

section domain

variable [Cfg] {E : Type} {R : Type u} [CommRing R] [IsDomain R] [NormalizationMonoid R]
  {mp : Prop} {rep : E → R → Prop} {base : IntegralDomainOps E}

/-- C33: exact division of polynomials over an integral domain. -/
theorem C33_try_div (h : IntegralDomainSpec mp base rep) {v w : List E} {f g : R[X]}
    (hf : RingPolyRep rep v f) (hg : RingPolyRep rep w g) :
    (g ≠ 0 → Returns mp ((PolynomialAlgebra.integralDomain base).tryDiv v w) fun
      | some u => ∃ q, RingPolyRep rep u q ∧ f = g * q
      | none => ¬ ∃ q, f = g * q) ∧
    (g = 0 → Panics ((PolynomialAlgebra.integralDomain base).tryDiv v w)) := by
  constructor
  · intro hg0
    refine (PolynomialAlgebra.tryDiv_spec h hf hg hg0).mono fun o ho => ?_
    cases o with
    | some u => exact ho
    | none => exact ho
  · rintro rfl
    exact PolynomialAlgebra.tryDiv_panics h hg

/-- Over the integers `-1 + x^2` divided by `1 + x` is `-1 + x`; `1 + x^2` is not divisible by it, nor
is `1 + x` by two. -/
example : (PolynomialAlgebra.integralDomain Integers.integralDomain).tryDiv [-1, 0, 1] [1, 1] =
      .ok (some [-1, 1]) ∧
    (PolynomialAlgebra.integralDomain Integers.integralDomain).tryDiv [1, 0, 1] [1, 1] = .ok none ∧
    (PolynomialAlgebra.integralDomain Integers.integralDomain).tryDiv [1, 1] [2] = .ok none ∧
    (PolynomialAlgebra.integralDomain Integers.integralDomain).tryDiv [1, 1] [] = .panic :=
  ⟨rfl, rfl, rfl, rfl⟩

/-- C33, C07: the polynomials over an integral domain are an integral domain, where the canonical
associate has a canonical leading coefficient. -/
theorem C33_polynomial_domain (h : IntegralDomainSpec mp base rep) :
    IntegralDomainSpec mp (PolynomialAlgebra.integralDomain base) (RingPolyRep rep) :=
  PolynomialAlgebra.integralDomain_spec h

example : IntegralDomainSpec False (PolynomialAlgebra.integralDomain
    (PolynomialAlgebra.integralDomain Integers.integralDomain)) (RingPolyRep (RingPolyRep ZRep)) :=
  C33_polynomial_domain (C33_polynomial_domain Integers.integralDomain_spec)

/-- C07: `divisible` and `associates` of polynomials over an integral domain, which are inherited,
and `associate_repr`, `associate_coef`. -/
theorem C07_polynomials (h : IntegralDomainSpec mp base rep) {v w : List E} {f g : R[X]}
    (hf : RingPolyRep rep v f) (hg : RingPolyRep rep w g) :
    let A := PolynomialAlgebra.integralDomain base
    Decides mp (A.divisible v w) (g ∣ f) ∧ Decides mp (A.associates v w) (Associated f g) ∧
    Returns mp (A.associateRepr v) (RingPolyRep rep ·
      (f * C (normUnit f.leadingCoeff : R))) ∧
    (f ≠ 0 → Returns mp (A.associateCoef v) (RingPolyRep rep · (C (normUnit f.leadingCoeff : R)))) ∧
    (f = 0 → Panics (A.associateCoef v)) := by
  have hI := PolynomialAlgebra.integralDomain_spec h
  refine ⟨hI.divisible hf hg, hI.associates hf hg, ?_, fun h0 => ?_, fun h0 => ?_⟩
  · have := hI.associateRepr hf
    rwa [normalize_apply, coe_normUnit] at this
  · have := hI.associateCoef hf h0
    rwa [coe_normUnit] at this
  · subst h0
    exact hI.associateCoef_zero hf

/-- The canonical associate of `1 - 2x` is `-1 + 2x`. -/
example : IntegralDomainSpec False Integers.integralDomain ZRep ∧
    (PolynomialAlgebra.integralDomain Integers.integralDomain).associateRepr [1, -2] = .ok [-1, 2] ∧
    (PolynomialAlgebra.integralDomain Integers.integralDomain).associateCoef [1, -2] = .ok [-1] ∧
    (PolynomialAlgebra.integralDomain Integers.integralDomain).associates [1, -2] [-1, 2] =
      .ok true :=
  ⟨Integers.integralDomain_spec, rfl, rfl, rfl⟩

end domain

section field

variable [Cfg] {E : Type} {R : Type u} [Field R] {mp : Prop} {rep : E → R → Prop}
  {base : FieldOps E}

/-- C34: division with remainder of polynomials over a field. -/
theorem C34_quo_rem (h : FieldSpec mp base rep) {v w : List E} {f g : R[X]}
    (hf : RingPolyRep rep v f) (hg : RingPolyRep rep w g) :
    (g ≠ 0 → Returns mp ((PolynomialAlgebra.euclidean base).quoRem v w) fun p =>
      ∃ q r, RingPolyRep rep p.1 q ∧ RingPolyRep rep p.2 r ∧ f = g * q + r ∧
        r.degree < g.degree) ∧
    (g = 0 → Panics ((PolynomialAlgebra.euclidean base).quoRem v w)) := by
  constructor
  · intro hg0
    refine (PolynomialAlgebra.quoRem_spec h hf hg hg0).mono fun p hp => ⟨_, _, hp.1, hp.2, ?_, ?_⟩
    · exact (EuclideanDomain.div_add_mod f g).symm
    · exact degree_mod_lt f hg0
  · rintro rfl
    obtain rfl : w = [] := List.length_eq_zero_iff.1 (hg.eq_zero_iff.1 rfl)
    rfl

/-- Over the field with two elements `x^3 + x + 1` divided by `x^2 + 1` is `x` with remainder one. -/
example : FieldSpec False TwoElementAlgebra.field TwoElementAlgebra.FRep ∧
    RingPolyRep TwoElementAlgebra.FRep [true, false, true] (polyOf [1, 0, 1]) ∧
    (PolynomialAlgebra.euclidean TwoElementAlgebra.field).quoRem [true, true, false, true]
      [true, false, true] = .ok ([false, true], [true]) ∧
    (PolynomialAlgebra.euclidean TwoElementAlgebra.field).quoRem [true] [] = .panic :=
  ⟨TwoElementAlgebra.spec, polyOf_rep (by simp [TwoElementAlgebra.FRep]) (by decide), rfl, rfl⟩

/-- C34: polynomials over a field are a Euclidean domain, with all methods correct. -/
theorem C34_polynomial_euclidean [DecidableEq R] (h : FieldSpec mp base rep) :
    EuclideanSpec mp (PolynomialAlgebra.euclidean base) (RingPolyRep rep) :=
  PolynomialAlgebra.euclidean_spec h

/-- The remainder is reduced. -/
example : (PolynomialAlgebra.euclidean TwoElementAlgebra.field).reduced [true]
      [true, false, true] = .ok true ∧
    (PolynomialAlgebra.euclidean TwoElementAlgebra.field).reduced [true, true, true]
      [true, false, true] = .ok false :=
  ⟨rfl, rfl⟩

/-- C03-C05 for polynomials over a field: greatest common divisor, Bezout coefficients and least
common multiple. -/
theorem C03_polynomials (h : FieldSpec mp base rep) {v w : List E} {f g : R[X]}
    (hf : RingPolyRep rep v f) (hg : RingPolyRep rep w g) :
    let A := PolynomialAlgebra.euclidean base
    (Returns mp (A.gcd v w) fun c => ∃ d, RingPolyRep rep c d ∧
      d ∣ f ∧ d ∣ g ∧ ∀ e, e ∣ f → e ∣ g → e ∣ d) ∧
    (Returns mp (A.extendedGcd v w) fun c => ∃ d s t, RingPolyRep rep c.1 d ∧
      RingPolyRep rep c.2.1 s ∧ RingPolyRep rep c.2.2 t ∧ f * s + g * t = d ∧
      d ∣ f ∧ d ∣ g ∧ ∀ e, e ∣ f → e ∣ g → e ∣ d) ∧
    (Returns mp (A.lcm v w) fun c => ∃ m, RingPolyRep rep c m ∧
      f ∣ m ∧ g ∣ m ∧ ∀ e, f ∣ e → g ∣ e → m ∣ e) ∧
    Decides mp (A.relativePrimes v w) (IsCoprime f g) := by
  classical
  have hE := PolynomialAlgebra.euclidean_spec h
  exact ⟨hE.gcd hf hg, hE.extendedGcd hf hg, hE.lcm hf hg, hE.relativePrimes hf hg⟩

/-- Over the field with two elements `x^2 + 1 = (x + 1)^2` and `x^2 + x = x (x + 1)` are not
relatively prime. -/
example : (PolynomialAlgebra.euclidean TwoElementAlgebra.field).relativePrimes [true, false, true]
    [false, true, true] = .ok false := by
  have h1 : RingPolyRep TwoElementAlgebra.FRep [true, false, true] (polyOf [1, 0, 1]) :=
    polyOf_rep (by simp [TwoElementAlgebra.FRep]) (by decide)
  have h2 : RingPolyRep TwoElementAlgebra.FRep [false, true, true] (polyOf [0, 1, 1]) :=
    polyOf_rep (by simp [TwoElementAlgebra.FRep]) (by decide)
  obtain ⟨b, hb, h⟩ := returns_false_iff.1 (C03_polynomials TwoElementAlgebra.spec h1 h2).2.2.2
  rw [hb]
  cases b with
  | false => rfl
  | true =>
    obtain ⟨u, v, huv⟩ := h.1 rfl
    have := congrArg (eval 1) huv
    simp only [polyOf, eval_add, eval_mul, eval_C, eval_X, eval_zero, eval_one] at this
    have h3 : (1 : ZMod 2) + 1 * (0 + 1 * (1 + 1 * 0)) = 0 := by decide
    have h4 : (0 : ZMod 2) + 1 * (1 + 1 * (1 + 1 * 0)) = 0 := by decide
    rw [h3, h4] at this
    revert this
    simp

theorem adjoinRoot_isFactor (f : R[X]) : IsFactor (AdjoinRoot.mk f) f where
  surjective := AdjoinRoot.mk_surjective
  ker := fun _ => AdjoinRoot.mk_eq_zero

theorem residueRep_poly {f : R[X]} (hf : f ≠ 0) :
    ResidueRep (RingPolyRep rep) (AdjoinRoot.mk f) f = fun w (s : AdjoinRoot f) =>
      ∃ g : R[X], RingPolyRep rep w g ∧ g.degree < f.degree ∧ AdjoinRoot.mk f g = s := by
  funext w s
  simp only [ResidueRep, Polynomial.div_eq_zero_iff hf]

/-- C25: for an irreducible polynomial `f` over a field the quotient of the polynomials is the
field obtained by adjoining a root of `f`. -/
theorem C25_extension_field (h : FieldSpec mp base rep) {v : List E} {f : R[X]}
    (hf : RingPolyRep rep v f) [Fact (Irreducible f)] :
    FieldSpec mp (QuotientField.ops (PolynomialAlgebra.euclidean base) v)
      fun w (s : AdjoinRoot f) =>
        ∃ g : R[X], RingPolyRep rep w g ∧ g.degree < f.degree ∧ AdjoinRoot.mk f g = s := by
  classical
  have h0 : f ≠ 0 := (Fact.out : Irreducible f).ne_zero
  rw [← residueRep_poly h0]
  exact C21_quotient_field_any (adjoinRoot_isFactor f) (PolynomialAlgebra.euclidean_spec h) hf h0

/-- The polynomial `1 + x + x^2` over the field with two elements is irreducible; larger examples are
in `Verif.Props.FiniteFields`. -/
example : RingPolyRep TwoElementAlgebra.FRep [true, true, true] (polyOf [1, 1, 1]) ∧
    Irreducible (polyOf [1, 1, 1] : (ZMod 2)[X]) := by
  have h : RingPolyRep TwoElementAlgebra.FRep [true, true, true] (polyOf [1, 1, 1]) :=
    polyOf_rep (by simp [TwoElementAlgebra.FRep]) (by decide)
  have hd : (polyOf [1, 1, 1] : (ZMod 2)[X]).natDegree = 2 := h.natDegree
  refine ⟨h, irreducible_of_degree_le_three_of_not_isRoot (by rw [hd]; decide) fun x => ?_⟩
  simp only [polyOf, IsRoot, eval_add, eval_mul, eval_C, eval_X, eval_zero]
  revert x
  decide

end field

section finite

variable [Cfg] (p : ℕ) [Fact p.Prime]

/-- C25: finite fields as polynomials over `QuotientField(ZZ, p)` modulo an irreducible one. -/
theorem C25_finite_field {v : List ℤ} {f : (ZMod p)[X]} [Fact (Irreducible f)]
    (hf : RingPolyRep (fun (a : ℤ) (s : ZMod p) => 0 ≤ a ∧ a < p ∧ (a : ZMod p) = s) v f) :
    FieldSpec False (QuotientField.ops (PolynomialAlgebra.euclidean
        (QuotientField.ops Integers.euclidean (p : ℤ))) v)
      fun w (s : AdjoinRoot f) => ∃ g : (ZMod p)[X],
        RingPolyRep (fun (a : ℤ) (s : ZMod p) => 0 ≤ a ∧ a < p ∧ (a : ZMod p) = s) w g ∧
        g.degree < f.degree ∧ AdjoinRoot.mk f g = s :=
  C25_extension_field (C21_integers p) hf

/-- C25: the same with machine integers: there is no overflow if `(p-1)^2` is representable. -/
theorem C25_finite_field_checked {w : ℕ} [Width w] (m : SInt w) (hm : m.1 = p)
    (hmax : ((p : ℤ) - 1) ^ 2 ≤ 2 ^ (w - 1) - 1) {v : List (SInt w)} {f : (ZMod p)[X]}
    [Fact (Irreducible f)]
    (hf : RingPolyRep (fun (a : SInt w) (s : ZMod p) => 0 ≤ a.1 ∧ a.1 < p ∧ (a.1 : ZMod p) = s) v f) :
    FieldSpec False (QuotientField.ops (PolynomialAlgebra.euclidean
        (QuotientField.ops (CheckedInts.euclidean w) m)) v)
      fun u (s : AdjoinRoot f) => ∃ g : (ZMod p)[X],
        RingPolyRep (fun (a : SInt w) (s : ZMod p) => 0 ≤ a.1 ∧ a.1 < p ∧ (a.1 : ZMod p) = s) u g ∧
        g.degree < f.degree ∧ AdjoinRoot.mk f g = s :=
  C25_extension_field (C24_prime_field p m hm hmax) hf

/-- The polynomial `1 + x` over `I8` modulo three meets the condition on the coefficients. -/
example : RingPolyRep (fun (a : SInt 8) (s : ZMod 3) => 0 ≤ a.1 ∧ a.1 < (3 : ℕ) ∧ (a.1 : ZMod 3) = s)
    [SInt.lit 1 (by decide), SInt.lit 1 (by decide)] (polyOf [1, 1]) :=
  polyOf_rep (by refine .cons ⟨?_, ?_, ?_⟩ (.cons ⟨?_, ?_, ?_⟩ .nil) <;> decide) (by decide)

end finite

section witness

variable [Cfg]

/-- C31: over the integers modulo 4 the product of `2` and `2` is not canonical. -/
theorem C31_noncanonical :
    let ring := PolynomialAlgebra.unitaryRing (QuotientRing.ops Integers.euclidean 4)
    ring.contains [2] = .ok true ∧ ring.mul [2] [2] = .ok [0] ∧ ring.contains [0] = .ok false ∧
    ring.equals [0] [] = .ok false :=
  ⟨rfl, rfl, rfl, rfl⟩

/-- Modulo 6 as well: `2 * 3 = 0`. -/
example : (PolynomialAlgebra.unitaryRing (QuotientRing.ops Integers.euclidean 6)).mul [2] [3] = .ok [0] := rfl

/-- C32: over the integers modulo 4 the polynomial `1 + 2x` is its own inverse, but `try_inv`
returns `None`. -/
theorem C32_incomplete :
    let ring := PolynomialAlgebra.unitaryRing (QuotientRing.ops Integers.euclidean 4)
    ∃ f : (ZMod 4)[X],
      RingPolyRep (fun (a : ℤ) (s : ZMod 4) => 0 ≤ a ∧ a < 4 ∧ (a : ZMod 4) = s) [1, 2] f ∧
      f * f = 1 ∧ ring.contains [1, 2] = .ok true ∧ ring.tryInv [1, 2] = .ok none ∧
      ring.invertible [1, 2] = .ok false := by
  refine ⟨1 + C 2 * X, ⟨?_, ?_, ?_⟩, ?_, rfl, rfl, rfl⟩
  · intro i hi
    have hi : i < 2 := hi
    interval_cases i
    · simp [coeff_one]
    · simp [coeff_one]
  · intro i hi
    have hi : 2 ≤ i := hi
    rw [coeff_add, coeff_C_mul, coeff_X_of_ne_one (by omega), coeff_one, if_neg (by omega)]
    simp
  · intro _
    simp [coeff_one]
    decide
  · have h4 : (C 2 : (ZMod 4)[X]) * C 2 = 0 := by rw [← C_mul, show (2 * 2 : ZMod 4) = 0 from rfl, C_0]
    have h5 : (2 : (ZMod 4)[X]) = C 2 := rfl
    linear_combination X ^ 2 * h4 + X * h4 + C 2 * X * h5

/-- The hypotheses of the theorems of this file are met: coefficients in the integers, in `ZMod 4`
and in the rationals. -/
example : IntegralDomainSpec False Integers.integralDomain ZRep ∧
    UnitaryRingSpec False (QuotientRing.ops Integers.euclidean ((4 : ℕ) : ℤ))
      (fun (a : ℤ) (s : ZMod 4) => 0 ≤ a ∧ a < (4 : ℕ) ∧ (a : ZMod 4) = s) ∧
    FieldSpec False ReducedFractions.QQ (fun (a : ℤ × ℤ) (q : ℚ) => a.1 = q.num ∧ a.2 = q.den) :=
  ⟨Integers.integralDomain_spec, C18_integers 4 (by decide), C26_rationals⟩

/-- C57: polynomials with coefficients that are fractions of machine integers. -/
theorem C57_checked_polynomials {w : ℕ} [Width w] :
    EuclideanSpec True
      (PolynomialAlgebra.euclidean (ReducedFractions.ops (CheckedInts.euclidean w)))
      (RingPolyRep fun (a : SInt w × SInt w) (q : ℚ) => a.1.1 = q.num ∧ a.2.1 = q.den) :=
  PolynomialAlgebra.euclidean_spec C57_checked_fractions

/-- In eight bits the square of the polynomial 12 is not returned. -/
example (e : List (SInt 8 × SInt 8)) :
    (PolynomialAlgebra.euclidean (ReducedFractions.ops (CheckedInts.euclidean 8))).mul
      [(SInt.lit 12 (by decide), SInt.lit 1 (by decide))]
      [(SInt.lit 12 (by decide), SInt.lit 1 (by decide))] ≠ .ok e := by
  intro h
  have h1 : RingPolyRep (fun (a : SInt 8 × SInt 8) (q : ℚ) => a.1.1 = q.num ∧ a.2.1 = q.den)
      [(SInt.lit 12 (by decide), SInt.lit 1 (by decide))] (C 12) :=
    RingPolyRep.const ⟨rfl, rfl⟩ (by norm_num)
  have h2 : Returns True (Res.ok e) (RingPolyRep (fun (a : SInt 8 × SInt 8) (q : ℚ) =>
      a.1.1 = q.num ∧ a.2.1 = q.den) · (C 12 * C 12)) := by
    rw [← h]
    exact (C57_checked_polynomials (w := 8)).mul h1 h1
  have h2 : RingPolyRep (fun (a : SInt 8 × SInt 8) (q : ℚ) => a.1.1 = q.num ∧ a.2.1 = q.den) e
    (C 12 * C 12) := h2
  rw [← C_mul] at h2
  have h3 : e.length = 1 := by
    have := h2.natDegree
    rw [natDegree_C] at this
    have h4 : e.length ≠ 0 := fun h => by
      have := h2.eq_zero_iff.2 h
      rw [C_eq_zero] at this
      norm_num at this
    omega
  have h4 := (h2.1 0 (by omega)).1
  rw [coeff_C_zero, show (12 * 12 : ℚ).num = 144 by norm_num] at h4
  have h5 : e[0].1.1 ≤ 127 := e[0].1.2.2
  omega

end witness

end Abstalg
