import Verif.Props.Cases
import Verif.Props.Simulation
import Verif.Props.FiniteFields
import Verif.Props.Polynomials
import Verif.Props.Towers
import Verif.Props.Order
import Verif.Props.FloatExact

/-! # Concrete cases, continued -/

set_option autoImplicit false

set_option linter.unusedSectionVars false

namespace Abstalg.Cases

open Polynomial

local instance : Cfg := ⟨true, true, 64, by decide⟩

/-- The 8-bit integer `z`. -/
abbrev i8 (z : ℤ) (h : sMin 8 ≤ z ∧ z ≤ sMax 8 := by decide) : SInt 8 := SInt.lit z h

/-! ## C67 to C70 -/

example : (CheckedInts.lattice 8).meet (i8 (-3)) (i8 5) = .ok (i8 (-3)) ∧ Follows (SRep 8) ((CheckedInts.lattice 8).meet (i8 (-3)) (i8 5))
    (Integers.lattice.meet (-3) 5) := ⟨rfl, (C68_integers_lattice (w := 8)).meet rfl rfl⟩
example : Follows (URep 8) ((CheckedUints.semiRing 8).mul ⟨100, by decide⟩ ⟨3, by decide⟩) (Naturals.semiRing.mul 100 3) ∧
    (CheckedUints.semiRing 8).mul ⟨100, by decide⟩ ⟨3, by decide⟩ = .panic := 
  ⟨(C68_uints 8).1.mul (a := ⟨100, by decide⟩) (b := ⟨3, by decide⟩) rfl rfl, rfl⟩
example : Follows (LRel (SRep 8)) ((PolynomialAlgebra.integralDomain (CheckedInts.integralDomain 8)).add [i8 1, i8 2] [i8 3])
    ((PolynomialAlgebra.integralDomain Integers.integralDomain).add [1, 2] [3]) ∧
    (PolynomialAlgebra.integralDomain (CheckedInts.integralDomain 8)).add [i8 1, i8 2] [i8 3] = .ok [i8 4, i8 2] :=
  ⟨(C68_polynomials (w := 8)).add (.cons rfl (.cons rfl .nil)) (.cons rfl .nil), rfl⟩
example : Follows (SRep 8) ((QuotientRing.ops (CheckedInts.euclidean 8) (i8 12)).mul (i8 7) (i8 11))
    ((QuotientRing.ops Integers.euclidean 12).mul 7 11) ∧ (QuotientRing.ops (CheckedInts.euclidean 8) (i8 12)).mul (i8 7) (i8 11) = .ok (i8 5) :=
  ⟨(C68_quotient_ring 8 (i8 12)).mul rfl rfl, rfl⟩
example : Follows (SRep 8) ((QuotientField.ops (CheckedInts.euclidean 8) (i8 17)).add (i8 7) (i8 11))
    ((QuotientField.ops Integers.euclidean 17).add 7 11) ∧ (QuotientField.ops (CheckedInts.euclidean 8) (i8 17)).add (i8 7) (i8 11) = .ok (i8 1) :=
  ⟨(C68_quotient_field 8 (i8 17)).add rfl rfl, rfl⟩
example : Follows Eq ((DivisibilityOrder.lattice (CheckedInts.euclidean 8)).leq (i8 3) (i8 12)) ((DivisibilityOrder.lattice Integers.euclidean).leq 3 12) ∧
    (DivisibilityOrder.lattice (CheckedInts.euclidean 8)).leq (i8 3) (i8 12) = .ok true :=
  ⟨(C68_divisibility (w := 8)).2.leq rfl rfl, rfl⟩
example := C68_determinant 8 1 (v := [(i8 2, i8 3)]) (p := (i8 2, i8 3))
example := (C68_matrices_of_fractions 8 1).add (a := [(i8 2, i8 3)]) (b := [(i8 1, i8 3)]) (a' := [(2, 3)]) (b' := [(1, 3)]) (.cons ⟨rfl, rfl⟩ .nil) (.cons ⟨rfl, rfl⟩ .nil)
/-- With and without overflow checks, on 32 and on 64 bits. -/
example := (C69_checked_ints ⟨true, true, 64, by decide⟩ ⟨false, false, 32, by decide⟩ 8).quoRem (a := i8 (-7)) (b := i8 2) rfl rfl
example := (C69_integers ⟨true, true, 64, by decide⟩ ⟨false, false, 32, by decide⟩).gcd (a := 12) (b := -18) rfl rfl
example := (C69_two_element ⟨true, true, 64, by decide⟩ ⟨false, false, 32, by decide⟩).div (a := true) (b := true) rfl rfl
example := (C70_integers_lattice 8 16).join (a := i8 (-3)) (b := i8 5) (a' := ⟨-3, by decide⟩) (b' := ⟨5, by decide⟩) rfl rfl

/-- The bits follow the bits. -/
theorem bits_follow : FollowsBooleanAlgebra Eq TwoElementAlgebra.booleanAlgebra TwoElementAlgebra.booleanAlgebra where
  contains := by rintro a _ rfl; exact .refl _
  equals := by rintro a b _ _ rfl rfl; exact .refl _
  leq := by rintro a b _ _ rfl rfl; exact .refl _
  lessThan := by rintro a b _ _ rfl rfl; exact .refl _
  comparable := by rintro a b _ _ rfl rfl; exact .refl _
  meet := by rintro a b _ _ rfl rfl; exact .refl _
  join := by rintro a b _ _ rfl rfl; exact .refl _
  max := .refl _
  min := .refl _
  not := by rintro a _ rfl; exact .refl _

example := (C67_vectors_boolean_algebra 2 bits_follow).not (a := [true, false]) (a' := [true, false]) (.cons rfl (.cons rfl .nil))
example (n : ℕ) := C97_follows_boolean_algebras (adder LatticeMethod.join) bits_follow n
  (c := ((0 : ℕ), fun _ => true)) (d := ((0 : ℕ), fun _ => true)) ⟨rfl, fun _ => rfl⟩
example (n : ℕ) := C97_states_groups (adder GroupMethod.mul)
  (StatefulExamples.ticking_tracks TwoElementAlgebra.field (I := fun _ => True) (f := (· + 1)) fun _ _ => trivial).toTracksAbelianGroup.additiveGroup n
  (c := ((0 : ℕ), fun _ => true)) (d := ((0 : ℕ), fun _ => true)) ⟨rfl, fun _ => rfl⟩

/-! ## C62 and C63 -/

example := C62_sharp 5
example : Integers.euclidean.gcdWithin 6 21 13 = .diverge := (C62_sharp 5).1
example := (C62_gcd_limit (isZero := Integers.euclidean.isZero) (rem := Integers.euclidean.rem) (a := 21) (b := 13)).1 6
/-- Ten additions or doublings are too few for `2 ^ 10`, and enough for `2 ^ 10 - 1`. -/
example : timesLoopWithin (fun a b : ℤ => .ok (a + b)) (fun a => .ok (a + a)) 11 (2 ^ 10) 0 1 = .diverge :=
  (C63_times _ _ 10 (2 ^ 10) 0 1).2 (fun _ _ => ⟨_, rfl⟩) (fun _ => ⟨_, rfl⟩) le_rfl
example : timesLoopWithin (fun a b : ℤ => .ok (a + b)) (fun a => .ok (a + a)) 11 1023 0 1 =
    timesLoop (fun a b : ℤ => .ok (a + b)) (fun a => .ok (a + a)) 1023 0 1 :=
  (C63_times _ _ 10 1023 0 1).1 (by decide)
example : powerLoopWithin (fun a b : ℤ => .ok (a * b)) (fun a => .ok (a * a)) 4 8 1 3 = .diverge :=
  (C63_power _ _ 3 8 1 3).2 (fun _ _ => ⟨_, rfl⟩) (fun _ => ⟨_, rfl⟩) (by decide)
example := (C63_pointer (op := fun a b : ℤ => .ok (a + b)) (dbl := fun a => .ok (a + a)) 0 1).1 1000 (by decide)

/-! ## C84, C85 -/

example : (DivisibilityOrder.lattice TwoElementAlgebra.field.toEuclidean).leq true false = .ok true := by
  rw [(C84_divisibility_bits true false).1]; rfl

/-! ## C93 -/

example := C93_vectors 2 .mul TwoElementAlgebra.field.mul TwoElementAlgebra.field.neg [true, true] [false, true]
example := (C93_outcomes_matrices TwoElementAlgebra.field 2 [true, true, false, true] [true, true, false, true]).2.1
example := (C93_outcomes_polynomials TwoElementAlgebra.field.toAbelianGroupOps TwoElementAlgebra.field.toUnitaryRingOps
  TwoElementAlgebra.field.toIntegralDomain TwoElementAlgebra.field [true, true] [true]).2.2.2.1

/-! ## C98 -/

example := C98_observed_multiples Integers.euclidean.toCommutativeMonoidOps (AdditiveGroup.ops Integers.euclidean.toAbelianGroupOps) 5 (-5) 3
example := C98_observed_vectors 2 .mul TwoElementAlgebra.field.mul TwoElementAlgebra.field.neg [true, true] [false, true]
example := (C98_metered_domain Integers.integralDomain).tryDiv (a := 6) (b := 3) (a' := 6) (b' := 3) rfl rfl
example := (C98_metered_group (AdditiveGroup.ops Integers.euclidean.toAbelianGroupOps)).mulAssign (a := 6) (b := 3) (a' := 6) (b' := 3) rfl rfl
/-- Products of 3 by 3 matrices over an extension of degree 4. -/
example := C98_matrix_product_of_residues 3 4

/-! ## C95 -/

example := C95_constructors
  (StatefulExamples.ticking_tracks TwoElementAlgebra.field (I := fun _ => True) (f := (· + 1)) fun _ _ => trivial).toEuclidean
  (m := false) (m' := false) rfl
  (StatefulExamples.ticking_tracks TwoElementAlgebra.field (I := fun _ => True) (f := (· + 1)) fun _ _ => trivial) 3

/-! ## C94 -/

example := C94_try_div_capacity TwoElementAlgebra.field.toIntegralDomain TwoElementAlgebra.field
  (v := List.replicate isizeMax.toNat true) (w := List.replicate isizeMax.toNat true) List.length_replicate List.length_replicate

/-! ## C92 -/

example := (C92_vector_binary (E := SInt 8) 2 (a := [i8 1, i8 100]) (b := [i8 2, i8 100]) (out := [i8 3, i8 100])).2.1
  (A := (CheckedInts.euclidean 8).toCommutativeMonoidOps)
example := (C92_vector_unary (E := SInt 8) 2 (a := [i8 1, i8 100]) (out := [i8 2, i8 100])).2.1
  (A := (CheckedInts.euclidean 8).toCommutativeMonoidOps)
example := C92_default_agrees Integers.euclidean.toAbelianGroupOps Integers.euclidean.toSemigroupOps (fun _ _ => rfl) (fun _ => rfl)
  (fun _ _ => rfl) (fun a => congrArg Res.ok (mul_two a)) (fun _ => rfl) fun _ _ => rfl

/-! ## C86, C87 -/

example {b a : FloatFormat.f32.Val} (h : BoundsAbs FloatRep b a) := C86_float_power (n := 5) (by decide) h
example {b a c d : FloatFormat.f32.Val} (h : BoundsAbs FloatRep b a) (hc : FloatRep c (-3)) (hd : FloatRep d 2) :=
  C86_float_div h hc hd (by norm_num) (by norm_num)
example {b a d : FloatFormat.f32.Val} {y : ℚ} (h : BoundsAbs FloatRep b a) (hd : (ApproxFloats.field FloatFormat.f32).times 7 b = .ok d) :=
  C86_float_times (n := -5) (y := y) h (by decide) hd
example := (C86_checked_ints_nonneg (w := 8)).mul (b := i8 7) (a := i8 5) (d := i8 9) (c := i8 8) ⟨_, _, rfl, rfl, by decide, by decide⟩
  ⟨_, _, rfl, rfl, by decide, by decide⟩
example := C87_integers (F := FloatFormat.f32) (w := 16) (by decide)

/-! ## C08, C25, C53 -/

example := C53_fractions Integers.euclidean (fun a b => congrArg Res.ok (add_comm a b)) (fun a b => congrArg Res.ok (mul_comm a b))
  (fun _ _ => nofun) (fun a b => congrArg Res.ok (Bool.beq_comm ..)) fun a b h => by
    have : (a == b) = true := by injection h
    exact beq_iff_eq.1 this
example := C41_pivot_order_unique (M := (1 : Matrix (Fin 1) (Fin 1) ℚ)) (σ := 1) (τ := 1)

end Abstalg.Cases
