import Verif.Props.Polynomials
import Verif.Proofs.Groups
import Verif.Model.MultiplicativeGroup
import Mathlib.RingTheory.AdjoinRoot
import Mathlib.LinearAlgebra.FiniteDimensional.Basic
import Mathlib.FieldTheory.Finiteness
import Mathlib.GroupTheory.OrderOfElement
import Mathlib.Data.ZMod.QuotientGroup

/-! # The finite fields of the crate's own tests: C59 -/

set_option linter.unusedSectionVars false

set_option autoImplicit false

namespace Abstalg

open Polynomial

section two

variable [Cfg]

/-- A polynomial over the field with two elements is irreducible if the implementation finds no
divisor up to half its degree. -/
theorem irreducible_of_check {v : List Bool} {f : (ZMod 2)[X]}
    (hv : RingPolyRep TwoElementAlgebra.FRep v f) (hl : 2 ≤ v.length)
    (hc : ∀ w : List Bool, 2 ≤ w.length → w.length ≤ (v.length - 1) / 2 + 1 →
      w.getLast? = some true →
      (PolynomialAlgebra.euclidean TwoElementAlgebra.field).divisible v w = .ok false) :
    Irreducible f := by
  have hd := hv.natDegree
  have hm : ∀ g : (ZMod 2)[X], g ≠ 0 → g.Monic := by
    intro g hg
    have h1 : g.leadingCoeff ≠ 0 := leadingCoeff_ne_zero.2 hg
    have : ∀ x : ZMod 2, x ≠ 0 → x = 1 := by decide
    exact this _ h1
  have hf0 : f ≠ 0 := fun h => by rw [hv.eq_zero_iff] at h; omega
  rw [(hm f hf0).irreducible_iff_lt_natDegree_lt (by rintro rfl; rw [natDegree_one] at hd; omega)]
  intro q hq hq' hqf
  rw [Finset.mem_Ioc, hd] at hq'
  obtain ⟨w, hw⟩ := C35_surjective (rep := TwoElementAlgebra.FRep)
    (fun x => by rcases TwoElementAlgebra.frep_surj x with h | h; exacts [⟨false, h⟩, ⟨true, h⟩]) q
  have hqd := hw.natDegree
  have hw0 : w.length ≠ 0 := fun h => hq.ne_zero (hw.eq_zero_iff.2 h)
  have h1 := hc w (by omega) (by omega) ?_
  · obtain ⟨b, hb, h2⟩ := returns_false_iff.1
      ((C34_polynomial_euclidean TwoElementAlgebra.spec).divisible hv hw)
    rw [h1] at hb
    cases hb
    exact absurd (h2.2 hqf) (by simp)
  · have h2 := hw.1 (w.length - 1) (by omega)
    have h3 := hw.2.2 (by rintro rfl; exact hw0 rfl)
    rw [List.getLast?_eq_getElem?, List.getElem?_eq_getElem (by omega)]
    cases hb : w[w.length - 1] with
    | true => rfl
    | false => rw [hb] at h2; exact absurd h2 h3

/-- The polynomial `1 + x + x^3 + x^4 + x^8` of the test `field_256`. -/
noncomputable def f256 : (ZMod 2)[X] := polyOf [1, 1, 0, 1, 1, 0, 0, 0, 1]

/-- The vector of `f256` with coefficients in `BB`. -/
def v256 : List Bool := [true, true, false, true, true, false, false, false, true]

theorem v256_rep : RingPolyRep TwoElementAlgebra.FRep v256 f256 := by
  refine polyOf_rep ?_ (by decide)
  repeat' constructor

theorem f256_natDegree : f256.natDegree = 8 := v256_rep.natDegree

theorem f256_irreducible : Irreducible f256 := by
  refine irreducible_of_check v256_rep (by decide) fun w h1 h2 h3 => ?_
  have h2 : w.length ≤ 5 := h2
  rcases w with - | ⟨a, - | ⟨b, - | ⟨c, - | ⟨d, - | ⟨e, - | ⟨f, w⟩⟩⟩⟩⟩⟩
  · simp at h1
  · simp at h1
  · obtain rfl : b = true := by simpa using h3
    clear h1 h2 h3
    cases a <;> rfl
  · obtain rfl : c = true := by simpa using h3
    clear h1 h2 h3
    cases a <;> cases b <;> rfl
  · obtain rfl : d = true := by simpa using h3
    clear h1 h2 h3
    cases a <;> cases b <;> cases c <;> rfl
  · obtain rfl : e = true := by simpa using h3
    clear h1 h2 h3
    cases a <;> cases b <;> cases c <;> cases d <;> rfl
  · simp at h2
    omega

instance : Fact (Irreducible f256) := by
  let : Cfg := ⟨true, true, 64, by decide⟩
  exact ⟨f256_irreducible⟩

end two

section field256

variable [Cfg]

/-- `QuotientField::new(I32, 2)` of polynomial_algebra.rs:294. -/
def field2 : FieldOps (SInt 32) :=
  QuotientField.ops (CheckedInts.euclidean 32) (SInt.lit 2 (by decide))

/-- The polynomial of polynomial_algebra.rs:298. -/
def poly256 : List (SInt 32) :=
  let o := SInt.lit 1 (by decide)
  let z := SInt.lit 0 (by decide)
  [o, o, z, o, o, z, z, z, o]

/-- `QuotientField::new(ring, poly)` of polynomial_algebra.rs:301. -/
def field256 : FieldOps (List (SInt 32)) :=
  QuotientField.ops (PolynomialAlgebra.euclidean field2) poly256

/-- The objects 0 and 1 of `I32` as residues. -/
def BitRep (a : SInt 32) (s : ZMod 2) : Prop := 0 ≤ a.1 ∧ a.1 < (2 : ℕ) ∧ (a.1 : ZMod 2) = s

/-- The polynomials of degree less than eight as elements of the extension field. -/
def Rep256 (w : List (SInt 32)) (s : AdjoinRoot f256) : Prop :=
  ∃ g : (ZMod 2)[X], RingPolyRep BitRep w g ∧ g.degree < f256.degree ∧ AdjoinRoot.mk f256 g = s

theorem poly256_rep : RingPolyRep BitRep poly256 f256 := by
  refine polyOf_rep ?_ (by decide)
  unfold poly256 BitRep
  repeat' constructor

/-- C59: both calls of `QuotientField::new` in the test return. -/
theorem C59_constructors :
    QuotientField.new (CheckedInts.euclidean 32) (SInt.lit 2 (by decide)) = .ok field2 ∧
    QuotientField.new (PolynomialAlgebra.euclidean field2) poly256 = .ok field256 := by
  have : Fact (Nat.Prime 2) := ⟨by decide⟩
  have h := C24_prime_field (w := 32) 2 (SInt.lit 2 (by decide)) rfl (by norm_num)
  refine ⟨rfl, C22_new_accepts_everything (C34_polynomial_euclidean h) poly256_rep⟩

example : poly256.length = 9 ∧ field2.contains (SInt.lit 1 (by decide)) = .ok true := ⟨rfl, rfl⟩

/-- C59: `field2` of the test is the field with two elements and `field256` its extension by a root
of `1 + x + x^3 + x^4 + x^8`; no operation panics on members, other than dividing by zero. -/
theorem C59_field_256 : FieldSpec False field2 BitRep ∧ FieldSpec False field256 Rep256 :=
  have : Fact (Nat.Prime 2) := ⟨by decide⟩
  ⟨C24_prime_field (w := 32) 2 (SInt.lit 2 (by decide)) rfl (by norm_num),
    C25_finite_field_checked (w := 32) 2 (SInt.lit 2 (by decide)) rfl (by norm_num) poly256_rep⟩

/-- C59: the extension has 256 elements. -/
theorem C59_card : Nat.card (AdjoinRoot f256) = 256 := by
  have h0 : f256 ≠ 0 := (Fact.out : Irreducible f256).ne_zero
  have := Module.Finite.of_basis (AdjoinRoot.powerBasis h0).basis
  rw [Module.natCard_eq_pow_finrank (K := ZMod 2), Nat.card_zmod,
    (AdjoinRoot.powerBasis h0).finrank, AdjoinRoot.powerBasis_dim, f256_natDegree]
  rfl

/-- C59: the members are the vectors of at most eight zeros and ones that do not end in zero. -/
theorem C59_members (w : List (SInt 32)) : (∃ s, Rep256 w s) ↔
    w.length ≤ 8 ∧ (∀ a ∈ w, a.1 = 0 ∨ a.1 = 1) ∧ ∀ a, w.getLast? = some a → a.1 = 1 := by
  have hb : ∀ {a : SInt 32} {s : ZMod 2}, BitRep a s → a.1 = 0 ∨ a.1 = 1 := by
    rintro a s ⟨h1, h2, -⟩
    push_cast at h2
    omega
  constructor
  · rintro ⟨s, g, hg, hd, -⟩
    refine ⟨?_, fun a ha => ?_, fun a ha => ?_⟩
    · by_cases h0 : g = 0
      · rw [hg.eq_zero_iff.1 h0]; decide
      · have := natDegree_lt_natDegree h0 hd
        rw [f256_natDegree, hg.natDegree] at this
        omega
    · obtain ⟨i, hi, rfl⟩ := List.getElem_of_mem ha
      exact hb (hg.1 i hi)
    · have hw : w ≠ [] := by rintro rfl; cases ha
      have hl := List.length_pos_iff.2 hw
      have h1 := hg.1 (w.length - 1) (by omega)
      rw [List.getLast?_eq_getElem?, List.getElem?_eq_getElem (by omega), Option.some_inj] at ha
      rw [ha] at h1
      refine (hb h1).resolve_left fun h2 => hg.2.2 hw ?_
      rw [← h1.2.2, h2]
      rfl
  · rintro ⟨h1, h2, h3⟩
    have hr : RingPolyRep BitRep w (polyOf (w.map fun a => (a.1 : ZMod 2))) := by
      refine polyOf_rep ?_ fun h => ?_
      · rw [List.forall₂_map_right_iff, List.forall₂_same]
        intro a ha
        refine ⟨?_, ?_, rfl⟩ <;> rcases h2 a ha with h | h <;> simp [h]
      · rw [List.getLast?_map] at h
        cases hw : w.getLast? with
        | none => rw [hw] at h; cases h
        | some a =>
          rw [hw, Option.map_some, h3 a hw] at h
          revert h
          decide
    refine ⟨_, _, hr, ?_, rfl⟩
    by_cases h0 : polyOf (w.map fun a => (a.1 : ZMod 2)) = 0
    · rw [h0, degree_zero]
      exact bot_lt_iff_ne_bot.2 (degree_ne_bot.2 (Fact.out : Irreducible f256).ne_zero)
    · refine degree_lt_degree ?_
      have := fun h => h0 (hr.eq_zero_iff.2 h)
      rw [f256_natDegree, hr.natDegree]
      omega

/-- The same field with coefficients in `BB`. -/
def fieldBB : FieldOps (List Bool) :=
  QuotientField.ops (PolynomialAlgebra.euclidean TwoElementAlgebra.field) v256

/-- Powers of `1 + x`, by repeated multiplication. -/
def powersBB : ℕ → Res (List Bool)
  | 0 => .ok [true]
  | k + 1 => powersBB k >>= fun a => fieldBB.mul a [true, true]

theorem fieldBB_spec : FieldSpec False fieldBB fun w (s : AdjoinRoot f256) => ∃ g : (ZMod 2)[X],
    RingPolyRep TwoElementAlgebra.FRep w g ∧ g.degree < f256.degree ∧ AdjoinRoot.mk f256 g = s :=
  C25_extension_field TwoElementAlgebra.spec v256_rep

theorem powersBB_spec (k : ℕ) : Returns False (powersBB k) fun w => ∃ g : (ZMod 2)[X],
    RingPolyRep TwoElementAlgebra.FRep w g ∧ g.degree < f256.degree ∧
      AdjoinRoot.mk f256 g = AdjoinRoot.mk f256 (polyOf [1, 1]) ^ k := by
  have hd : ∀ {w : List Bool} {g : (ZMod 2)[X]}, RingPolyRep TwoElementAlgebra.FRep w g →
      w.length = 1 ∨ w.length = 2 → g.degree < f256.degree := by
    intro w g hg hl
    refine degree_lt_degree ?_
    rw [f256_natDegree, hg.natDegree]
    omega
  have h1 : RingPolyRep TwoElementAlgebra.FRep [true] (polyOf [1]) :=
    polyOf_rep (.cons rfl .nil) (by decide)
  have h2 : RingPolyRep TwoElementAlgebra.FRep [true, true] (polyOf [1, 1]) :=
    polyOf_rep (.cons rfl (.cons rfl .nil)) (by decide)
  induction k with
  | zero =>
    refine ⟨_, h1, hd h1 (.inl rfl), ?_⟩
    simp [polyOf]
  | succ k ih =>
    refine Returns.bind ih fun w hw => ?_
    rw [pow_succ]
    exact fieldBB_spec.mul hw ⟨_, h2, hd h2 (.inr rfl), rfl⟩

theorem order_of_one_add_x : orderOf (AdjoinRoot.mk f256 (polyOf [1, 1])) = 255 := by
  let cfg : Cfg := ⟨true, true, 64, by decide⟩
  have hone : ∀ k b, (@powersBB cfg k >>= fun w => (@fieldBB cfg).isOne w) = .ok b →
      (AdjoinRoot.mk f256 (polyOf [1, 1]) ^ k = 1 ↔ b = true) := by
    intro k b hk
    obtain ⟨c, hc, h⟩ := returns_false_iff.1 (Returns.bind (@powersBB_spec cfg k) fun w hw =>
      (@fieldBB_spec cfg).isOne hw)
    rw [hk] at hc
    cases hc
    exact h.symm
  have h1 := hone 255 true (by decide +kernel)
  have h2 := hone 85 false (by decide +kernel)
  have h3 := hone 51 false (by decide +kernel)
  have h4 := hone 15 false (by decide +kernel)
  refine orderOf_eq_of_pow_and_pow_div_prime (by decide) (h1.2 rfl) fun p hp hd => ?_
  have h5 : p ∣ 3 * (5 * 17) := hd
  rw [hp.dvd_mul, hp.dvd_mul, Nat.prime_dvd_prime_iff_eq hp (by norm_num),
    Nat.prime_dvd_prime_iff_eq hp (by norm_num), Nat.prime_dvd_prime_iff_eq hp (by norm_num)] at h5
  rcases h5 with rfl | rfl | rfl
  · exact fun h => absurd (h2.1 h) (by decide)
  · exact fun h => absurd (h3.1 h) (by decide)
  · exact fun h => absurd (h4.1 h) (by decide)

/-- C59: `1 + x` generates the multiplicative group. -/
theorem C59_primitive {g : AdjoinRoot f256}
    (hg : Rep256 [SInt.lit 1 (by decide), SInt.lit 1 (by decide)] g) :
    orderOf g = 255 ∧ ∀ s : AdjoinRoot f256, s ≠ 0 → ∃ k < 255, g ^ k = s := by
  have hr : RingPolyRep BitRep [SInt.lit 1 (by decide), SInt.lit 1 (by decide)] (polyOf [1, 1]) := by
    refine polyOf_rep ?_ (by decide)
    unfold BitRep
    repeat' constructor
  obtain rfl : g = AdjoinRoot.mk f256 (polyOf [1, 1]) :=
    C59_field_256.2.rep_unique hg ⟨_, hr, degree_lt_degree (by
      rw [f256_natDegree, hr.natDegree]; decide), rfl⟩
  have h255 := order_of_one_add_x
  refine ⟨h255, fun s hs => ?_⟩
  have hu : IsUnit (AdjoinRoot.mk f256 (polyOf [1, 1])) := by
    refine IsUnit.of_pow_eq_one (n := 255) ?_ (by decide)
    rw [← h255, pow_orderOf_eq_one]
  obtain ⟨u, hu⟩ := hu
  have hfin : Finite (AdjoinRoot f256) := Nat.finite_of_card_ne_zero (by rw [C59_card]; decide)
  have hcard : Nat.card (AdjoinRoot f256)ˣ = 255 := by
    rw [Nat.card_units, C59_card]
  have hou : orderOf u = 255 := by rw [← orderOf_units, hu, h255]
  have htop : Subgroup.zpowers u = ⊤ :=
    Subgroup.eq_top_of_card_eq _ ((Nat.card_zpowers u).trans (hou.trans hcard.symm))
  have hmem : Units.mk0 s hs ∈ Subgroup.zpowers u := htop ▸ Subgroup.mem_top _
  rw [← mem_powers_iff_mem_zpowers] at hmem
  obtain ⟨k, hk⟩ := hmem
  refine ⟨k % 255, Nat.mod_lt _ (by decide), ?_⟩
  have hk : u ^ k = Units.mk0 s hs := hk
  rw [← hu, ← Units.val_pow_eq_pow_val, ← hou, pow_mod_orderOf, hk]
  rfl

/-- `1 + x` is a member; the vector `[1, 0]` is not. -/
example : (∃ s, Rep256 [SInt.lit 1 (by decide), SInt.lit 1 (by decide)] s) ∧
    ¬ ∃ s, Rep256 [SInt.lit 1 (by decide), SInt.lit 0 (by decide)] s := by
  rw [C59_members, C59_members]
  decide

instance : Fact (Nat.Prime 1721) := ⟨by norm_num⟩

/-- C59: the field of the test `field_1721`, quotient_field.rs:148-160. -/
theorem C59_field_1721 : FieldSpec False
    (QuotientField.ops (CheckedInts.euclidean 32) ⟨1721, by decide⟩)
    fun (a : SInt 32) (s : ZMod 1721) => 0 ≤ a.1 ∧ a.1 < 1721 ∧ (a.1 : ZMod 1721) = s :=
  C24_prime_field (w := 32) 1721 ⟨1721, by decide⟩ rfl (by norm_num)

end field256

end Abstalg
