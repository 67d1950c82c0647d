import Verif.Proofs.PolyCoef
import Verif.Props.Polynomials

/-! # Coefficient vectors with leading zeros: C73

`CoefRep rep v p` allows zeros at the end of `v`, which `contains` rejects but no operation checks
for.  The product of two members can be such a vector over a ring with zero divisors
(`C31_noncanonical`). -/

set_option linter.unusedSectionVars false

set_option autoImplicit false

universe u

namespace Abstalg

open Polynomial

/-- Every list of representatives holds the coefficients of a polynomial. -/
theorem polyOf_coef {E : Type} {R : Type u} [Semiring R] {rep : E → R → Prop} {v : List E}
    {l : List R} (h : List.Forall₂ rep v l) : CoefRep rep v (polyOf l) := by
  have hl := h.length_eq
  refine ⟨fun i hi => ?_, fun i hi => ?_⟩
  · rw [polyOf_coeff, List.getElem?_eq_getElem (hl ▸ hi), Option.getD_some]
    exact List.forall₂_iff_get.1 h |>.2 i hi (hl ▸ hi)
  · rw [polyOf_coeff, List.getElem?_eq_none (hl ▸ hi), Option.getD_none]

variable [Cfg] {E : Type} {R : Type u} {mp : Prop} {rep : E → R → Prop}

section ring

variable [Ring R] {base : UnitaryRingOps E} (h : UnitaryRingSpec mp base rep)
  {v w : List E} {p q : R[X]}

include h

/-- C73: `contains` accepts exactly the vectors without a leading zero, which are the members. -/
theorem C73_contains (hp : CoefRep rep v p) :
    Decides mp ((PolynomialAlgebra.unitaryRing base).contains v) (RingPolyRep rep v p) :=
  (PolynomialAlgebra.contains_coef h hp).iff
    ⟨fun hz => PolynomialAlgebra.ringPolyRep_iff.2 ⟨hp, hz⟩,
      fun hr => (PolynomialAlgebra.ringPolyRep_iff.1 hr).2⟩

/-- `1 + 0x` is not a member, `1 + 2x` is one. -/
example : (PolynomialAlgebra.unitaryRing Integers.unitaryRing).contains [1, 0] = .ok false ∧
    (PolynomialAlgebra.unitaryRing Integers.unitaryRing).contains [1, 2] = .ok true ∧
    CoefRep ZRep [1, 0] (polyOf [1, 0]) :=
  ⟨rfl, rfl, polyOf_coef (by simp [ZRep])⟩

/-- C73: `add` returns the coefficients of the sum.  For operands of different lengths the
length is the greater one; for operands of equal length the result is a member. -/
theorem C73_add (hp : CoefRep rep v p) (hq : CoefRep rep w q) :
    Returns mp ((PolynomialAlgebra.unitaryRing base).add v w) fun u => CoefRep rep u (p + q) ∧
      (v.length ≠ w.length → u.length = max v.length w.length) ∧
      (v.length = w.length → RingPolyRep rep u (p + q)) :=
  PolynomialAlgebra.add_coef h hp hq

/-- A leading zero of the longer operand stays, those of operands of equal length do not. -/
example : (PolynomialAlgebra.unitaryRing Integers.unitaryRing).add [1, 2, 0] [3] = .ok [4, 2, 0] ∧
    (PolynomialAlgebra.unitaryRing Integers.unitaryRing).add [1, 2, 0] [3, -2, 0] = .ok [4] :=
  ⟨rfl, rfl⟩

/-- C73: `neg` returns the negated coefficients, in a vector of the same length. -/
theorem C73_neg (hp : CoefRep rep v p) :
    Returns mp ((PolynomialAlgebra.unitaryRing base).neg v) fun u =>
      CoefRep rep u (-p) ∧ u.length = v.length :=
  PolynomialAlgebra.neg_coef h hp

example : (PolynomialAlgebra.unitaryRing Integers.unitaryRing).neg [1, -2, 0] = .ok [-1, 2, 0] := rfl

/-- C73: `sub` and `sub_assign` return the coefficients of the difference, which is a member if
the operands have equal length. -/
theorem C73_sub (hp : CoefRep rep v p) (hq : CoefRep rep w q) :
    (Returns mp ((PolynomialAlgebra.unitaryRing base).sub v w) fun u => CoefRep rep u (p - q) ∧
      (v.length ≠ w.length → u.length = max v.length w.length) ∧
      (v.length = w.length → RingPolyRep rep u (p - q))) ∧
    (Returns mp ((PolynomialAlgebra.unitaryRing base).subAssign v w) fun u =>
      CoefRep rep u (p - q) ∧
      (v.length ≠ w.length → u.length = max v.length w.length) ∧
      (v.length = w.length → RingPolyRep rep u (p - q))) := by
  constructor
  · refine Returns.bind (P := fun u => CoefRep rep u (-q) ∧ u.length = w.length)
      (PolynomialAlgebra.neg_coef h hq) fun e he => ?_
    have := PolynomialAlgebra.add_coef h he.1 hp
    rw [he.2, neg_add_eq_sub] at this
    exact this.mono fun u hu => ⟨hu.1, fun hl => by rw [hu.2.1 (Ne.symm hl), max_comm],
      fun hl => hu.2.2 hl.symm⟩
  · refine Returns.bind (P := fun u => CoefRep rep u (-q) ∧ u.length = w.length)
      (PolynomialAlgebra.neg_coef h hq) fun e he => ?_
    have := PolynomialAlgebra.add_coef h hp he.1
    rw [he.2, ← sub_eq_add_neg] at this
    exact this

example : (PolynomialAlgebra.unitaryRing Integers.unitaryRing).sub [1, 2, 0] [1, 2] = .ok [0, 0, 0] ∧
    (PolynomialAlgebra.unitaryRing Integers.unitaryRing).sub [1, 2, 0] [1, 2, 0] = .ok [] :=
  ⟨rfl, rfl⟩

/-- C73: `times` returns a member for every vector; in particular `times(1, v)` is the member
with the coefficients of `v`. -/
theorem C73_times (n : ℤ) (hn : n ≠ isizeMin) (hp : CoefRep rep v p) :
    Returns mp ((PolynomialAlgebra.unitaryRing base).times n v) (RingPolyRep rep · (n • p)) :=
  PolynomialAlgebra.times_coef h n hn hp

example : (PolynomialAlgebra.unitaryRing Integers.unitaryRing).times 1 [1, 2, 0, 0] = .ok [1, 2] ∧
    (PolynomialAlgebra.unitaryRing Integers.unitaryRing).times (-3) [0, 2, 0] = .ok [0, -6] :=
  ⟨rfl, rfl⟩

/-- C73: `utimes` returns the coefficients of the multiple. -/
theorem C73_utimes (n : ℕ) (hp : CoefRep rep v p) :
    Returns mp ((PolynomialAlgebra.unitaryRing base).utimes n v) (CoefRep rep · (n • p)) := by
  have hadd : ∀ {a b : List E} {x y : R[X]}, CoefRep rep a x → CoefRep rep b y →
      Returns mp ((PolynomialAlgebra.unitaryRing base).add a b) (CoefRep rep · (x + y)) :=
    fun ha hb => (PolynomialAlgebra.add_coef h ha hb).mono fun _ hu => hu.1
  have := utimes_default (rep := CoefRep rep) (mp := mp)
    (zero := (PolynomialAlgebra.unitaryRing base).zero)
    (addAssign := (PolynomialAlgebra.unitaryRing base).addAssign)
    (double := (PolynomialAlgebra.unitaryRing base).double)
    CoefRep.nil hadd (fun ha => hadd ha ha) n hp
  exact this

/-- The vector is added to the empty one, so its zero stays; doubling removes it. -/
example : (PolynomialAlgebra.unitaryRing Integers.unitaryRing).utimes 1 [1, 2, 0] = .ok [1, 2, 0] ∧
    (PolynomialAlgebra.unitaryRing Integers.unitaryRing).utimes 2 [1, 2, 0] = .ok [2, 4] := by
  have hu : ∀ n v, (PolynomialAlgebra.unitaryRing Integers.unitaryRing).utimes n v =
      timesLoop (PolynomialAlgebra.unitaryRing Integers.unitaryRing).addAssign
        (PolynomialAlgebra.unitaryRing Integers.unitaryRing).double n [] v := fun _ _ => rfl
  rw [hu, hu]
  constructor
  · rw [timesLoop]
    show timesLoop _ _ 0 [1, 2, 0] [2, 4] = _
    rw [timesLoop]
    rfl
  · rw [timesLoop]
    show timesLoop _ _ 1 [] [2, 4] = _
    rw [timesLoop]
    show timesLoop _ _ 0 [2, 4] [4, 8] = _
    rw [timesLoop]
    rfl

/-- C73: `mul` returns the coefficients of the product, and the lengths of the operands
determine the length of the result. -/
theorem C73_mul (hp : CoefRep rep v p) (hq : CoefRep rep w q) :
    Returns mp ((PolynomialAlgebra.unitaryRing base).mul v w) fun u => CoefRep rep u (p * q) ∧
      u.length = if v.length = 0 ∨ w.length = 0 then 0 else v.length + w.length - 1 :=
  PolynomialAlgebra.mul_coef h hp hq

example : (PolynomialAlgebra.unitaryRing Integers.unitaryRing).mul [1, 2, 0] [1, -2] =
    .ok [1, 0, -4, 0] := rfl

/-- C73: `equals` compares the lengths as well: equal polynomials of different lengths differ. -/
theorem C73_equals (hp : CoefRep rep v p) (hq : CoefRep rep w q) :
    Decides mp ((PolynomialAlgebra.unitaryRing base).equals v w) (v.length = w.length ∧ p = q) :=
  PolynomialAlgebra.equals_coef h hp hq

/-- `1 + 2x` is not equal to `1 + 2x + 0x^2`. -/
example : (PolynomialAlgebra.unitaryRing Integers.unitaryRing).equals [1, 2] [1, 2, 0] = .ok false ∧
    (PolynomialAlgebra.unitaryRing Integers.unitaryRing).equals [1, 2, 0] [1, 2, 0] = .ok true :=
  ⟨rfl, rfl⟩

/-- C73: `is_zero` and `is_one` accept only the canonical vectors of zero and one. -/
theorem C73_constants [Nontrivial R] (hp : CoefRep rep v p) :
    Decides mp ((PolynomialAlgebra.unitaryRing base).isZero v) (v.length = 0 ∧ p = 0) ∧
    Decides mp ((PolynomialAlgebra.unitaryRing base).isOne v) (v.length = 1 ∧ p = 1) := by
  refine ⟨decides_ok ⟨fun hv => ?_, fun hv => ?_⟩, PolynomialAlgebra.isOne_coef h hp⟩
  · obtain rfl : v = [] := by simpa using hv
    exact ⟨rfl, hp.of_nil⟩
  · simpa using hv.1

example : (PolynomialAlgebra.unitaryRing Integers.unitaryRing).isZero [0] = .ok false ∧
    (PolynomialAlgebra.unitaryRing Integers.unitaryRing).isOne [1, 0] = .ok false ∧
    (PolynomialAlgebra.unitaryRing Integers.unitaryRing).isOne [1] = .ok true :=
  ⟨rfl, rfl, rfl⟩

/-- C73: `try_inv` finds the inverse of vectors of length one only. -/
theorem C73_try_inv (hp : CoefRep rep v p) :
    Returns mp ((PolynomialAlgebra.unitaryRing base).tryInv v) fun
      | some w => ∃ q, CoefRep rep w q ∧ w.length = 1 ∧ p * q = 1 ∧ q * p = 1
      | none => v.length ≠ 1 ∨ ¬ IsUnit (p.coeff 0) :=
  (PolynomialAlgebra.tryInv_coef h hp).mono fun o ho => by cases o <;> exact ho

example : (PolynomialAlgebra.unitaryRing Integers.unitaryRing).tryInv [-1] = .ok (some [-1]) ∧
    (PolynomialAlgebra.unitaryRing Integers.unitaryRing).tryInv [-1, 0] = .ok none :=
  ⟨rfl, rfl⟩

end ring

section domain

variable [CommRing R] [IsDomain R] [NormalizationMonoid R] {base : IntegralDomainOps E}
  (h : IntegralDomainSpec mp base rep) {v w : List E} {f g : R[X]}

include h

/-- C73: `try_div` is exact if the last coefficient of the divisor is not zero and the dividend
is not shorter.  The quotient has one coefficient for each possible position. -/
theorem C73_try_div (hf : CoefRep rep v f) (hg : CoefRep rep w g) (hw : w ≠ [])
    (hz : ¬ ZeroLast w g) (hl : w.length ≤ v.length) :
    Returns mp ((PolynomialAlgebra.integralDomain base).tryDiv v w) fun
      | some u => ∃ q, CoefRep rep u q ∧ u.length = v.length - w.length + 1 ∧ f = g * q
      | none => ¬ g ∣ f :=
  (PolynomialAlgebra.tryDiv_coef h hf hg hw hz hl).mono fun o ho => by cases o <;> exact ho

/-- `x^2 - 1`, given with two leading zeros, by `x + 1`; and `1 + 0x` by `2`. -/
example : (PolynomialAlgebra.integralDomain Integers.integralDomain).tryDiv [-1, 0, 1, 0, 0] [1, 1] =
      .ok (some [-1, 1, 0, 0]) ∧
    (PolynomialAlgebra.integralDomain Integers.integralDomain).tryDiv [1, 0] [2] = .ok none :=
  ⟨rfl, rfl⟩

/-- C73: if the divisor is longer `try_div` looks at the lengths only, even if it ends in zero. -/
theorem C73_try_div_short (hl : v.length < w.length) :
    (PolynomialAlgebra.integralDomain base).tryDiv v w = .ok (if v = [] then some [] else none) :=
  PolynomialAlgebra.tryDiv_short hl

/-- The zero polynomial given as `[0]` is not recognised as a multiple of `1 + x`, nor `6` as a
multiple of `2 + 0x`. -/
example : (PolynomialAlgebra.integralDomain Integers.integralDomain).tryDiv [0] [1, 1] = .ok none ∧
    (PolynomialAlgebra.integralDomain Integers.integralDomain).tryDiv [6] [2, 0] = .ok none ∧
    (PolynomialAlgebra.integralDomain Integers.integralDomain).tryDiv [] [2, 0] = .ok (some []) :=
  ⟨rfl, rfl, rfl⟩

/-- C73: `try_div` panics exactly for an empty divisor, and for a divisor ending in zero that is
not longer than the dividend. -/
theorem C73_try_div_panics (hg : CoefRep rep w g) :
    (w = [] ∨ (ZeroLast w g ∧ w.length ≤ v.length) →
      Panics ((PolynomialAlgebra.integralDomain base).tryDiv v w)) ∧
    (¬ mp → CoefRep rep v f → Panics ((PolynomialAlgebra.integralDomain base).tryDiv v w) →
      w = [] ∨ (ZeroLast w g ∧ w.length ≤ v.length)) := by
  constructor
  · rintro (rfl | ⟨hz, hl⟩)
    · rfl
    · exact PolynomialAlgebra.tryDiv_zeroLast h hg hz hl
  · intro hmp hf hP
    by_contra hc
    push Not at hc
    change PolynomialAlgebra.tryDiv base v w = .panic at hP
    by_cases hl : v.length < w.length
    · rw [PolynomialAlgebra.tryDiv_short hl] at hP
      exact absurd hP nofun
    · have := PolynomialAlgebra.tryDiv_coef h hf hg hc.1
        (fun hz => absurd (hc.2 hz) (by omega)) (by omega)
      rw [hP] at this
      exact hmp this

example : (PolynomialAlgebra.integralDomain Integers.integralDomain).tryDiv [1, 2] [1, 0] = .panic ∧
    (PolynomialAlgebra.integralDomain Integers.integralDomain).tryDiv [1, 2] [] = .panic ∧
    ZeroLast [(1 : ℤ), 0] (polyOf [(1 : ℤ), 0]) :=
  ⟨rfl, rfl, nofun, by rw [polyOf_coeff]; rfl⟩

/-- C73: `associate_repr` and `associate_coef` panic for vectors ending in zero. -/
theorem C73_associates_panic (hf : CoefRep rep v f) (hz : ZeroLast v f) :
    Panics ((PolynomialAlgebra.integralDomain base).associateRepr v) ∧
      Panics ((PolynomialAlgebra.integralDomain base).associateCoef v) :=
  PolynomialAlgebra.associateRepr_coef h hf hz

example : (PolynomialAlgebra.integralDomain Integers.integralDomain).associateRepr [-2, 0] = .panic ∧
    (PolynomialAlgebra.integralDomain Integers.integralDomain).associateRepr [0, -2] = .ok [0, 2] :=
  ⟨rfl, rfl⟩

end domain

section field

variable [Field R] {base : FieldOps E} (h : FieldSpec mp base rep) {v w : List E} {f g : R[X]}

include h

/-- C73: `quo_rem` by a vector that does not end in zero returns quotient and remainder.  The
remainder is a member whatever the dividend, unless the dividend is shorter and returned as is. -/
theorem C73_quo_rem (hf : CoefRep rep v f) (hg : CoefRep rep w g) (hw : w ≠ [])
    (hz : ¬ ZeroLast w g) :
    Returns mp ((PolynomialAlgebra.euclidean base).quoRem v w) fun p =>
      CoefRep rep p.1 (f / g) ∧ CoefRep rep p.2 (f % g) ∧
      p.1.length = v.length + 1 - w.length ∧
      (w.length ≤ v.length → RingPolyRep rep p.2 (f % g)) ∧
      (v.length < w.length → p.2 = v) := by
  by_cases hl : v.length < w.length
  · rw [PolynomialAlgebra.quoRem_short hl]
    have hgd : g.coeff (w.length - 1) ≠ 0 := fun h0 => hz ⟨hw, h0⟩
    have := PolynomialAlgebra.division_unique (f := f) (g := g) (q := 0) (r := f)
      (by rintro rfl; exact hgd (coeff_zero _)) (by rw [mul_zero, zero_add])
      (lt_of_lt_of_le ((degree_lt_iff_coeff_zero _ (w.length - 1)).2 fun k hk => hf.2 k (by omega))
        (le_degree_of_ne_zero hgd))
    rw [← this.1, ← this.2]
    refine ⟨CoefRep.nil, hf, ?_, fun h => absurd h (by omega), fun _ => rfl⟩
    show 0 = _
    omega
  · refine (PolynomialAlgebra.quoRem_coef h hf hg hw hz (by omega)).mono fun p hp =>
      ⟨hp.1, hp.2.2.coef, by rw [hp.2.1]; omega, fun _ => hp.2.2, fun h => absurd h hl⟩

/-- `1 + x^2 + 0x^3` by `1 + x` over the field of two elements, and `1 + 0x` by `1 + x + x^2`. -/
example : (PolynomialAlgebra.euclidean TwoElementAlgebra.field).quoRem [true, false, true, false]
      [true, true] = .ok ([true, true, false], []) ∧
    (PolynomialAlgebra.euclidean TwoElementAlgebra.field).quoRem [true, false]
      [true, true, true] = .ok ([], [true, false]) :=
  ⟨rfl, rfl⟩

/-- C73: `quo_rem` by an empty vector panics, by a longer vector it returns the dividend, and by
a vector ending in zero that is not longer it panics. -/
theorem C73_quo_rem_cases (hg : CoefRep rep w g) :
    (w = [] → Panics ((PolynomialAlgebra.euclidean base).quoRem v w)) ∧
    (v.length < w.length → (PolynomialAlgebra.euclidean base).quoRem v w = .ok ([], v)) ∧
    (ZeroLast w g → w.length ≤ v.length →
      Panics ((PolynomialAlgebra.euclidean base).quoRem v w)) :=
  ⟨by rintro rfl; rfl, PolynomialAlgebra.quoRem_short, PolynomialAlgebra.quoRem_zeroLast h hg⟩

example : (PolynomialAlgebra.euclidean TwoElementAlgebra.field).quoRem [true] [true, false] =
      .ok ([], [true]) ∧
    (PolynomialAlgebra.euclidean TwoElementAlgebra.field).quoRem [true, true] [true, false] = .panic :=
  ⟨rfl, rfl⟩

/-- C73: the greatest common divisor.  It exists unless the shorter operand, the second one for
equal lengths, ends in zero, when `gcd` panics.  The result is a member if no operand is empty;
otherwise it is the other operand. -/
theorem C73_gcd (hf : CoefRep rep v f) (hg : CoefRep rep w g) :
    let A := PolynomialAlgebra.euclidean base
    (w = [] → A.gcd v w = .ok v) ∧ (v = [] → A.gcd v w = .ok w) ∧
    (v ≠ [] → w ≠ [] →
      ((if v.length < w.length then ZeroLast v f else ZeroLast w g) → Panics (A.gcd v w)) ∧
      ((if v.length < w.length then ¬ ZeroLast v f else ¬ ZeroLast w g) →
        Returns mp (A.gcd v w) fun u => ∃ x, RingPolyRep rep u x ∧
          x ∣ f ∧ x ∣ g ∧ ∀ d, d ∣ f → d ∣ g → d ∣ x)) := by
  have hs : v.length < w.length → (PolynomialAlgebra.euclidean base).gcd v w =
      (PolynomialAlgebra.euclidean base).gcd w v := fun hl => by
    rw [PolynomialAlgebra.gcd_cons v (by rintro rfl; exact absurd hl (Nat.not_lt_zero _))]
    show ((PolynomialAlgebra.euclidean base).quoRem v w >>= fun x => .ok x.2) >>= _ = _
    rw [PolynomialAlgebra.quoRem_short hl]
    rfl
  refine ⟨?_, ?_, fun hv hw => ?_⟩
  · rintro rfl; exact PolynomialAlgebra.gcd_nil v
  · rintro rfl
    cases w with
    | nil => exact PolynomialAlgebra.gcd_nil []
    | cons a l => rw [hs (Nat.succ_pos _)]; exact PolynomialAlgebra.gcd_nil _
  · by_cases hl : v.length < w.length
    · simp only [if_pos hl]
      rw [hs hl]
      have := PolynomialAlgebra.gcd_long h hg hf hv hl.le
      exact ⟨this.1, fun hz => (this.2 hz).mono fun u ⟨x, hu, h1, h2, h3⟩ =>
        ⟨x, hu, h2, h1, fun d hd hd' => h3 d hd' hd⟩⟩
    · simp only [if_neg hl]
      exact PolynomialAlgebra.gcd_long h hf hg hw (by omega)

/-- The hypotheses hold for `1 + x^2 + 0x^3` and `1 + x` over the field of two elements, in this
order and in the other one. -/
example : ∃ f g : (ZMod 2)[X], CoefRep TwoElementAlgebra.FRep [true, false, true, false] f ∧
    CoefRep TwoElementAlgebra.FRep [true, true] g ∧ ZeroLast [true, false, true, false] f ∧
    ¬ ZeroLast [true, true] g :=
  ⟨polyOf [1, 0, 1, 0], polyOf [1, 1], polyOf_coef (by simp [TwoElementAlgebra.FRep]),
    polyOf_coef (by simp [TwoElementAlgebra.FRep]), ⟨nofun, by rw [polyOf_coeff]; rfl⟩,
    fun hz => by have := hz.2; rw [polyOf_coeff] at this; exact absurd this (by decide)⟩

end field

end Abstalg
