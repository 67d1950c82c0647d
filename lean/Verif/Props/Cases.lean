import Verif.Props.EuclidClients
import Verif.Props.Agreement
import Verif.Props.Charges
import Verif.Props.Counted
import Verif.Props.Embeddings
import Verif.Props.Instances
import Verif.Props.Mutation
import Verif.Props.Pivots
import Verif.Props.Signs
import Verif.Props.Usize
import Verif.Props.Coordinates
import Verif.Props.Cost
import Verif.Props.Majorants
import Verif.Props.Generated
import Verif.Props.InPlace

/-! # Further concrete cases of theorems of other files -/

set_option autoImplicit false

set_option linter.unusedSectionVars false

namespace Abstalg.Cases

open Polynomial

local instance : Cfg := ⟨true, true, 64, by decide⟩

/-! ## C97 and C99 -/

/-- A program that adds its second register to the first until it panics. -/
def adder {ι : Type} (m : ι) : Client ι where
  Q := ℕ
  act _ := some (m, 0, 1, 0)
  next q _ := q + 1

example (n : ℕ) := C97_uncaught (adder RingMethod.add) (C97_rings (C11_checked_ints_contract 8).toUnitaryRingSpec)
  (fun _ _ _ _ _ h => by cases h; trivial) n (c := ((0 : ℕ), fun _ => SInt.lit 5 (by decide))) (x := ((0 : ℕ), fun _ => 5)) ⟨rfl, fun _ => rfl⟩
example (n : ℕ) := C97_indistinguishable (adder FieldMethod.div) (C97_fields C24_GF2) (C97_fields C46_two_field)
  (fun _ _ _ _ _ h => by cases h; trivial) n (q := (0 : ℕ)) (f := fun _ => SInt.lit 0 (by decide)) (g := fun _ => false)
  fun _ => ⟨0, ⟨by decide, by decide, rfl⟩, rfl⟩
example := C97_two_elements (adder FieldMethod.div) (fun _ _ _ _ _ h => by cases h; trivial) 7 (q := (0 : ℕ))
  (f := fun i => if i = 0 then SInt.lit 1 (by decide) else SInt.lit 0 (by decide)) (g := fun i => i = 0) fun i => by
    by_cases h : i = 0 <;> simp [h, SInt.lit]
example := C97_residues (adder RingMethod.mul) (fun _ _ _ _ _ h => by cases h; trivial) 8 (m := 12) (by decide) (k := SInt.lit 12 (by decide)) rfl
  (by decide) 9 (q := (0 : ℕ)) (f := fun _ => SInt.lit 11 (by decide)) fun _ => ⟨by decide, by decide⟩
example := C97_machine_integers (adder (.ring .add)) 8 3 (q := (0 : ℕ)) (f := fun _ => SInt.lit 30 (by decide)) (q' := (3 : ℕ))
  (f' := fun i => if i = 0 then SInt.lit 120 (by decide) else SInt.lit 30 (by decide)) (by
    refine congrArg Res.ok (Prod.ext rfl (funext fun i => ?_))
    by_cases h : i = 0
    · subst h; rfl
    · show (if i = 0 then _ else if i = 0 then _ else if i = 0 then _ else _) = _; simp [h])
example (n : ℕ) := C97_follows_rings (adder RingMethod.mul) (C68_integers 8).toFollowsUnitaryRing n
  (c := ((0 : ℕ), fun _ => SInt.lit 5 (by decide))) (d := ((0 : ℕ), fun _ => 5)) ⟨rfl, fun _ => rfl⟩
example (n : ℕ) := C97_follows_fields (adder FieldMethod.div) (C68_fractions 8) n
  (c := ((0 : ℕ), fun _ => (SInt.lit 2 (by decide), SInt.lit 3 (by decide)))) (d := ((0 : ℕ), fun _ => (2, 3))) ⟨rfl, fun _ => ⟨rfl, rfl⟩⟩
example (n : ℕ) := C97_follows_euclidean (adder EuclideanMethod.lcm) (C68_integers 8) n
  (c := ((0 : ℕ), fun _ => SInt.lit 5 (by decide))) (d := ((0 : ℕ), fun _ => 5)) ⟨rfl, fun _ => rfl⟩
example (n : ℕ) := C97_follows_groups (adder GroupMethod.mul) (C68_groups 8).1 n
  (c := ((0 : ℕ), fun _ => SInt.lit 5 (by decide))) (d := ((0 : ℕ), fun _ => 5)) ⟨rfl, fun _ => rfl⟩
example (n : ℕ) := C97_states_fields (adder FieldMethod.div)
  (StatefulExamples.ticking_tracks TwoElementAlgebra.field (I := fun _ => True) (f := (· + 1)) fun _ _ => trivial) n
  (c := ((0 : ℕ), fun _ => true)) (d := ((0 : ℕ), fun _ => true)) ⟨rfl, fun _ => rfl⟩
example (n : ℕ) := C97_states_rings (adder RingMethod.add)
  (StatefulExamples.ticking_tracks TwoElementAlgebra.field (I := fun _ => True) (f := (· + 1)) fun _ _ => trivial).toTracksUnitaryRing n
  (c := ((0 : ℕ), fun _ => true)) (d := ((0 : ℕ), fun _ => true)) ⟨rfl, fun _ => rfl⟩
example (n : ℕ) := C97_states_boolean_algebras (adder LatticeMethod.join) (StatefulExamples.countedOrder_tracks 3) n
  (c := ((0 : ℕ), fun _ => true)) (d := ((0 : ℕ), fun _ => true)) ⟨rfl, fun _ => rfl⟩
example (n : ℕ) := C97_states_euclidean (adder EuclideanMethod.gcd)
  (C95_poly_euclidean (StatefulExamples.ticking_tracks TwoElementAlgebra.field (I := fun _ => True) (f := (· + 1)) fun _ _ => trivial)) n
  (c := ((0 : ℕ), fun _ => [true])) (d := ((0 : ℕ), fun _ => [true])) ⟨rfl, fun _ => .cons rfl .nil⟩
example := C99_euclidean C02_integers_ring (C99_provided TwoElementAlgebra.field 8).1

/-! ## C84 and C88 -/

theorem unipotent : MatRep TwoElementAlgebra.FRep [true, true, false, true] !![(1 : ZMod 2), 1; 0, 1] :=
  ⟨rfl, fun i j => by fin_cases i <;> fin_cases j <;> exact ⟨_, rfl, rfl⟩⟩
example := C84_transpose_mul TwoElementAlgebra.spec unipotent unipotent
example := C88_constant_polynomials C02_integers_ring.toUnitaryRingSpec
example := C88_block_determinant (n := 1) (m := 1) (u := [true]) (w := [true]) TwoElementAlgebra.spec unipotent (fun i j => by
    fin_cases i; fin_cases j; rfl) ⟨rfl, fun i j => by fin_cases i; fin_cases j; exact ⟨_, rfl, rfl⟩⟩
  ⟨rfl, fun i j => by fin_cases i; fin_cases j; exact ⟨_, rfl, rfl⟩⟩ (a := true) (b := true) (y := 1) (z := 1) rfl rfl rfl rfl

/-! ## C08, C10, C41 -/

example := C10_matrices (-3) (by decide) 2 TwoElementAlgebra.spec unipotent 5
example := C41_exact 2 TwoElementAlgebra.spec unipotent

/-! ## C85 and C86 -/

section floats
variable {F : FloatFormat} (a b : F.Val)
example := (C85_chain (F := F) (u := -1) (w := -1) (a := a) (b := a.neg) (c := a)).2 (C85_neg a)
  ((C85_chain (F := F) (u := -1) (w := 1) (a := a) (b := a.neg) (c := a)).1 (C85_neg a))
example := (C85_group (F := F) (-1)).add (C85_neg a) (C85_neg b)

example {M P : Fin 2 → Fin 2 → F.Val} (h : (MatrixRing.ops (ApproxFloats.field F) 2).mul (flatVec M) (flatVec M) = .ok (flatVec P)) :=
  C85_matrix_mul (ρ := fun _ => -1) (σ := fun _ => 1) (κ := fun _ => -1) (M := M) (N := M) (M' := fun i j => (M i j).neg)
    (N' := fun i j => (M i j).neg) (fun i j => by simpa using C85_neg (M i j)) (fun i j => by simpa using C85_neg (M i j)) h
example {M : Fin 3 → Fin 3 → F.Val} {x : F.Val} (h : MatrixRing.determinant (ApproxFloats.field F) 3 (flatVec M) = .ok x) :=
  C85_determinant_neg h
example {M P : Fin 3 → Fin 3 → F.Val} := C85_try_inv (ρ := fun i => if i = 0 then -1 else 1) (κ := fun _ => 1) (M := M) (P := P)
  (M' := fun i j => if i = 0 then (M i j).neg else M i j) fun i j => by
    by_cases h : i = 0
    · simpa [h] using C85_neg (M i j)
    · simpa [h] using (C85_chain (u := -1) (w := -1) (a := M i j) (b := (M i j).neg) (c := M i j)).2 (C85_neg _)
        ((C85_chain (u := -1) (w := 1) (a := M i j) (b := (M i j).neg) (c := M i j)).1 (C85_neg _))
example := C85_quo_rem (p := [a, b]) (p' := [a.neg, b.neg]) (q := [b]) (q' := [b.neg]) (u := -1) (w := -1) (s := 1)
  ⟨rfl, fun k x y h1 h2 => by
    rcases k with _ | _ | k <;> simp at h1 h2 <;> subst h1 h2 <;> simpa using C85_neg _⟩
  ⟨rfl, fun k x y h1 h2 => by
    rcases k with _ | k <;> simp at h1 h2; subst h1 h2; simpa using C85_neg _⟩

end floats

example := (C86_checked_uints (w := 8)).add (b := ⟨7, by decide⟩) (a := ⟨5, by decide⟩) (d := ⟨200, by decide⟩) (c := ⟨100, by decide⟩)
  ⟨_, _, rfl, rfl, by decide, by decide⟩ ⟨_, _, rfl, rfl, by decide, by decide⟩
example := C86_vectors (C86_checked_ints (w := 8)).toBoundedSemiRing 3
example := C86_vector_rings (C86_checked_ints (w := 8)) 3

/-! ## C90 -/

/-- The quadratic form of the identity. -/
example := C90_anisotropic 2 (M := (1 : Matrix (Fin 2) (Fin 2) ℚ)) (v := [(1, 1), (0, 1), (0, 1), (1, 1)]) C26_rationals
  ⟨rfl, fun i j => by fin_cases i <;> fin_cases j <;> exact ⟨_, rfl, by simp⟩⟩ fun x hx h => hx (by
    rw [Matrix.one_mulVec] at h
    rw [dotProduct, Fin.sum_univ_two] at h
    funext i
    have h0 := mul_self_nonneg (x 0); have h1 := mul_self_nonneg (x 1)
    fin_cases i
    · exact mul_self_eq_zero.1 (show x 0 * x 0 = 0 by linarith)
    · exact mul_self_eq_zero.1 (show x 1 * x 1 = 0 by linarith))

/-! ## C92, C93, C98 -/

example := C92_vector_ints 2 8 (a := [SInt.lit 1 (by decide), SInt.lit 100 (by decide)]) (b := [SInt.lit 2 (by decide), SInt.lit 100 (by decide)])
  (out := [SInt.lit 3 (by decide), SInt.lit 100 (by decide)]) rfl rfl rfl
example := C93_poly_add TwoElementAlgebra.field.toAbelianGroupOps [true, false, true] [true, true, true]
example := C98_extended_gcd TwoElementAlgebra.field [true, false, true, true] [true, true]
example := C98_residues TwoElementAlgebra.field (f := [true, true, true]) (v := [true, true]) (w := [false, true]) (d := 2) (by decide) rfl
  (by decide) (by decide)

example := C98_tower (C98_metered_field TwoElementAlgebra.field) (f := [true, true, true]) (.cons rfl (.cons rfl (.cons rfl .nil))) (d := 2)
  (by decide) rfl

/-! ## C94 -/

example := C94_new TwoElementAlgebra.field (2 ^ 32)
example := C94_matrices (bytes := 1) TwoElementAlgebra.field (size := 2) (by decide) [true, true, false, true] [true, true, false, true]
example := (C94_matrix_constants (bytes := 1) TwoElementAlgebra.field (size := 2 ^ 32 - 1) (by decide) 3 []).2 (by unfold FitsVec; decide)
example := C94_vectors 8 (2 ^ 60) true TwoElementAlgebra.field.toMonoidOps [true]
example := C94_polynomials (bytes := 8) (by decide) TwoElementAlgebra.field.toAbelianGroupOps TwoElementAlgebra.field.toIntegralDomain
  TwoElementAlgebra.field 3 (v := [true, false, true]) (w := [true, true]) (by unfold FitsVec; decide) (by unfold FitsVec; decide)
example := C94_poly_capacity (bytes := 8) (by decide) Integers.unitaryRing Integers.integralDomain (v := [1, 2]) (w := [3])
  (by unfold FitsVec; decide) (by unfold FitsVec; decide)
example := C94_permutations 4 (v := [1, 0, 2, 3]) (w := [3, 2, 1, 0]) (by unfold FitsVec; decide)

/-! ## C08 -/

/-- Powers of vectors of the additive group of the integers. -/
example : (VectorAlgebra.group 2 (AdditiveGroup.ops Integers.unitaryRing.toAbelianGroupOps)).power (-3) [2, -5] = .ok [-6, 15] ∧
    (VectorAlgebra.group 2 (AdditiveGroup.ops Integers.unitaryRing.toAbelianGroupOps)).inv [2, -5] = .ok [-2, 5] :=
  ⟨by decide +kernel, by decide +kernel⟩

end Abstalg.Cases
