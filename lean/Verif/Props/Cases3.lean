import Verif.Props.Cases2
import Verif.Props.Shared
import Verif.Props.Coordinates

/-! # Concrete cases, continued -/

set_option autoImplicit false

set_option linter.unusedSectionVars false

namespace Abstalg.Cases

open Polynomial

local instance : Cfg := ⟨true, true, 64, by decide⟩

/-! ## C102 -/

section

open Stateful

/-- One call of a counter that others set to 7 before: it leaves 8. -/
example := (C102_call ((StatefulExamples.counted_tracks 0).mul (a := true) (b := true) rfl rfl) (s := 0)
  (Nat.le_refl 0) (e := fun _ _ => 7) fun _ _ _ => Nat.zero_le 7).1
example : StatefulExamples.counted.shared.mul true true (0, fun _ _ => 7) = .ok true (8, fun _ _ => 7) := rfl
example := (C102_multiplicative (I := (2 ≤ ·)) (r := Eq)).2.2.1 (StatefulExamples.counted_tracks 2).toTracksMonoid
example := (C102_rings (I := (2 ≤ ·)) (r := Eq)).2.2.2.1 (StatefulExamples.counted_tracks 2).toTracksUnitaryRing
example := (C102_orders (I := (2 ≤ ·)) (r := Eq)).2.2.2 (StatefulExamples.countedOrder_tracks 2)
example := C102_provided_euclidean (StatefulExamples.counted_tracks 2).toIntegralDomain (StatefulExamples.counted_tracks 2).toEuclidean.quoRem
example := C102_extensions_of_domains (StatefulExamples.counted_tracks 2).toEuclidean (m := false) (m' := false) rfl

end

/-! ## C08 -/

/-- The cube of a cycle of length three, and its inverse. -/
example : ∃ σ : (Equiv.Perm (Fin (3 : UInt32).toNat))ᵐᵒᵖ, PermRep [1, 2, 0] σ ∧
    Returns False ((Permutations.ops 3).power 3 [1, 2, 0]) (PermRep · (σ ^ (3 : ℤ))) ∧
    Returns False ((Permutations.ops 3).inv [1, 2, 0]) (PermRep · σ⁻¹) := by
  obtain ⟨σ, hσ⟩ := (C42_members (size := 3) (v := [1, 2, 0])).2 (by decide)
  exact ⟨σ, hσ, C08_permutations 3 (by decide) 3 hσ⟩

example : (Permutations.ops 3).inv [1, 2, 0] = .ok [2, 0, 1] := by decide +kernel

/-! ## C80 and C81 -/

/-- The matrix with rows (1, 1), (0, 1) over the field with two elements is its own inverse. -/
example := (C80_try_inv (n := 2) TwoElementAlgebra.field (fun i j => ![![true, true], ![false, true]] i j) [true, true, false, true]).1 rfl

/-- The gcd of `1 + x^2` and `1 + x`. -/
example := (C81_poly_gcd TwoElementAlgebra.field [true, false, true] [true, true] [true, true]).1 (by
  show gcdDefault _ _ _ _ = _
  rw [gcdDefault]
  show gcdDefault _ (PolynomialAlgebra.euclidean TwoElementAlgebra.field).rem [true, true] [] = _
  rw [gcdDefault]
  rfl)

/-! ## C82 -/

example := C82_rational_functions (TwoElementAlgebra.spec)

/-! ## C85 and C86 -/

example (a b : FloatFormat.f32.Val) (h : SignedBy 1 a b) := (C85_lattice (F := .f32) (fun _ _ => true) fun _ _ => false).meet h h
example {b a : FloatFormat.f32.Val} (h : BoundsNonneg FloatRep b a) := (C86_floats_nonneg (F := .f32)).mul h h

/-! ## C87 -/

/-- The sum of 2^24 and 1 rounds to 2^24: the rounding error is a float. -/
example {a b c : FloatFormat.f32.Val} (ha : FloatRep a (2 ^ 24)) (hb : FloatRep b 1) (hc : FloatRep c (2 ^ 24))
    (h : (ApproxFloats.field .f32).add a b = .ok c) : ∃ d : FloatFormat.f32.Val, FloatRep d 1 := by
  simpa using (C87_add_error ha hb hc).1 h
/-- The double of 1/2. -/
example : ∃ a c : FloatFormat.f32.Val, (ApproxFloats.field .f32).double a = .ok c ∧ FloatRep a (1 / 2) ∧ FloatRep c (1 / 2 + 1 / 2) := by
  obtain ⟨a, ha⟩ := f32_half.rep
  obtain ⟨c, hc, -⟩ := (C55_add ha ha).2.2.exact (by
    have := f32_integer 1 (by decide)
    norm_num at this ⊢
    exact this)
  exact ⟨a, c, hc, ha, C87_double ha hc⟩

end Abstalg.Cases
