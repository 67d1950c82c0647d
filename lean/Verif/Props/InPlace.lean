import Verif.Proofs.InPlace
import Verif.Props.Permutations
import Verif.Model.Naturals
import Verif.Model.CheckedUints
import Verif.Model.QuotientRing
import Verif.Model.QuotientField
import Verif.Model.TwoElementAlgebra
import Verif.Model.MatrixRing
import Verif.Model.AdditiveGroup
import Verif.Model.MultiplicativeGroup
import Verif.Model.ApproxFloats

/-! # In-place methods: C53 -/

set_option linter.unusedSectionVars false

set_option autoImplicit false

namespace Abstalg

variable [Cfg] {E : Type}

/-- C53: `ZZ`. -/
theorem C53_integers : InPlaceMul Integers.unitaryRing.toSemigroupOps ∧
    InPlaceAdd Integers.unitaryRing.toCommutativeMonoidOps ∧
    InPlaceNeg Integers.unitaryRing.toAbelianGroupOps :=
  ⟨⟨fun _ _ => rfl, fun _ => rfl⟩, ⟨fun _ _ => rfl, fun a => congrArg Res.ok (mul_two a)⟩,
    ⟨fun _ => rfl, fun a b => congrArg Res.ok (sub_eq_add_neg a b).symm⟩⟩

/-- In-place methods of `ZZ`, by evaluation. -/
example : Integers.unitaryRing.mulAssign (-3) 4 = .ok (-12) ∧ Integers.unitaryRing.square (-3) = .ok 9 ∧
    Integers.unitaryRing.double (-3) = .ok (-6) ∧ Integers.unitaryRing.subAssign 3 5 = .ok (-2) :=
  ⟨rfl, rfl, rfl, rfl⟩

/-- C53: `NN`. -/
theorem C53_naturals : InPlaceMul Naturals.semiRing.toSemigroupOps ∧
    InPlaceAdd Naturals.semiRing.toCommutativeMonoidOps :=
  ⟨⟨fun _ _ => rfl, fun _ => rfl⟩, ⟨fun _ _ => rfl, fun a => congrArg Res.ok (Nat.mul_two a)⟩⟩

example : Naturals.semiRing.mulAssign 3 4 = .ok 12 ∧ Naturals.semiRing.double 3 = .ok 6 := ⟨rfl, rfl⟩

/-- C53: unsigned machine integers. -/
theorem C53_checked_uints (w : ℕ) [UWidth w] : InPlaceMul (CheckedUints.semiRing w).toSemigroupOps ∧
    InPlaceAdd (CheckedUints.semiRing w).toCommutativeMonoidOps :=
  ⟨⟨fun _ _ => rfl, fun _ => rfl⟩, ⟨fun _ _ => rfl, fun _ => rfl⟩⟩

/-- Both variants overflow in eight bits. -/
example : (CheckedUints.semiRing 8).add ⟨200, by decide⟩ ⟨56, by decide⟩ = .panic ∧
    (CheckedUints.semiRing 8).addAssign ⟨200, by decide⟩ ⟨56, by decide⟩ = .panic := ⟨rfl, rfl⟩

/-- C53: signed machine integers, all but `sub_assign`. -/
theorem C53_checked_ints (w : ℕ) [Width w] :
    InPlaceMul (CheckedInts.unitaryRing w).toSemigroupOps ∧
    InPlaceAdd (CheckedInts.unitaryRing w).toCommutativeMonoidOps ∧
    ∀ a, (CheckedInts.unitaryRing w).negAssign a = (CheckedInts.unitaryRing w).neg a :=
  ⟨⟨fun _ _ => rfl, fun _ => rfl⟩, ⟨fun _ _ => rfl, fun _ => rfl⟩, fun _ => rfl⟩

/-- Overflow makes both methods panic. -/
example : (CheckedInts.unitaryRing 8).add (SInt.lit 100 (by decide)) (SInt.lit 28 (by decide)) = .panic ∧
    (CheckedInts.unitaryRing 8).addAssign (SInt.lit 100 (by decide)) (SInt.lit 28 (by decide)) = .panic :=
  ⟨rfl, rfl⟩

/-- C53: on signed machine integers `sub_assign(a, b)` agrees with `sub(a, b)` unless `b` is the least
value; then `sub_assign` always panics, whereas `sub` returns the difference if `a` is negative. -/
theorem C53_checked_ints_sub (w : ℕ) [Width w] (a b : SInt w) :
    (b.1 ≠ sMin w →
      (CheckedInts.unitaryRing w).subAssign a b = (CheckedInts.unitaryRing w).sub a b) ∧
    (b.1 = sMin w → (CheckedInts.unitaryRing w).subAssign a b = .panic ∧
      (a.1 < 0 → ∃ c, (CheckedInts.unitaryRing w).sub a b = .ok c ∧ c.1 = a.1 - b.1)) := by
  have hneg : (CheckedInts.unitaryRing w).neg b = Res.unwrap (SInt.ofInt? (0 - b.1)) := rfl
  have key : (CheckedInts.unitaryRing w).subAssign a b =
    (Res.unwrap (SInt.ofInt? (w := w) (0 - b.1)) >>= fun c => Res.unwrap (SInt.ofInt? (a.1 + c.1))) :=
    rfl
  have hb := b.2
  have ha := a.2
  constructor
  · intro h
    have : sMin w ≤ 0 - b.1 ∧ 0 - b.1 ≤ sMax w := by
      unfold sMin sMax at *
      omega
    rw [key, SInt.ofInt?, dif_pos this]
    show Res.unwrap (SInt.ofInt? (a.1 + (0 - b.1))) = Res.unwrap (SInt.ofInt? (a.1 - b.1))
    rw [show a.1 + (0 - b.1) = a.1 - b.1 by ring]
  · intro h
    have : ¬ (sMin w ≤ 0 - b.1 ∧ 0 - b.1 ≤ sMax w) := by
      unfold sMin sMax at *
      omega
    refine ⟨by rw [key, SInt.ofInt?, dif_neg this]; rfl, fun h0 => ?_⟩
    have : sMin w ≤ a.1 - b.1 ∧ a.1 - b.1 ≤ sMax w := by
      unfold sMin sMax at *
      omega
    refine ⟨⟨a.1 - b.1, this⟩, ?_, rfl⟩
    show Res.unwrap (SInt.ofInt? (a.1 - b.1)) = _
    rw [SInt.ofInt?, dif_pos this]
    rfl

/-- The two cases, `100 - 28` and `-1 - MIN` in eight bits. -/
example : (CheckedInts.unitaryRing 8).subAssign (SInt.lit 100 (by decide)) (SInt.lit 28 (by decide)) =
      .ok (SInt.lit 72 (by decide)) ∧
    (CheckedInts.unitaryRing 8).subAssign (SInt.lit (-1) (by decide)) (SInt.lit (-128) (by decide)) = .panic ∧
    (CheckedInts.unitaryRing 8).sub (SInt.lit (-1) (by decide)) (SInt.lit (-128) (by decide)) =
      .ok (SInt.lit 127 (by decide)) := ⟨rfl, rfl, rfl⟩

/-- C53: the two-element field. -/
theorem C53_two_element : InPlaceMul TwoElementAlgebra.field.toSemigroupOps ∧
    InPlaceAdd TwoElementAlgebra.field.toCommutativeMonoidOps ∧
    InPlaceNeg TwoElementAlgebra.field.toAbelianGroupOps :=
  ⟨⟨fun _ _ => rfl, fun a => by cases a <;> rfl⟩, ⟨fun _ _ => rfl, fun a => by cases a <;> rfl⟩,
    ⟨fun _ => rfl, fun _ _ => rfl⟩⟩

example : TwoElementAlgebra.field.addAssign true true = .ok false ∧
    TwoElementAlgebra.field.square true = .ok true := ⟨rfl, rfl⟩

/-- C53: quotient rings over a base whose addition commutes. -/
theorem C53_quotient_ring (base : EuclideanDomainOps E) (m : E)
    (h : ∀ a b, base.add a b = base.add b a) :
    InPlaceMul (QuotientRing.ops base m).toSemigroupOps ∧
    InPlaceAdd (QuotientRing.ops base m).toCommutativeMonoidOps ∧
    InPlaceNeg (QuotientRing.ops base m).toAbelianGroupOps := by
  refine ⟨⟨fun _ _ => rfl, fun _ => rfl⟩, ⟨fun _ _ => rfl, fun _ => rfl⟩, ⟨fun _ => rfl,
    fun a b => ?_⟩⟩
  show ((QuotientRing.ops base m).neg b >>= fun e => (QuotientRing.ops base m).add a e) =
    ((QuotientRing.ops base m).neg b >>= fun e => (QuotientRing.ops base m).add e a)
  refine congrArg ((QuotientRing.ops base m).neg b >>= ·) (funext fun e => ?_)
  show (base.add a e >>= fun c => base.rem c m) = (base.add e a >>= fun c => base.rem c m)
  rw [h]

/-- The integers meet the hypothesis. -/
example : (∀ a b, Integers.euclidean.add a b = Integers.euclidean.add b a) ∧
    (QuotientRing.ops Integers.euclidean 12).subAssign 5 7 = .ok 10 :=
  ⟨fun a b => congrArg Res.ok (add_comm a b), rfl⟩

/-- C53: quotient fields over a base whose addition commutes. -/
theorem C53_quotient_field (base : EuclideanDomainOps E) (m : E)
    (h : ∀ a b, base.add a b = base.add b a) :
    InPlaceMul (QuotientField.ops base m).toSemigroupOps ∧
    InPlaceAdd (QuotientField.ops base m).toCommutativeMonoidOps ∧
    InPlaceNeg (QuotientField.ops base m).toAbelianGroupOps := by
  refine ⟨⟨fun _ _ => rfl, fun _ => rfl⟩, ⟨fun _ _ => rfl, fun _ => rfl⟩, ⟨fun _ => rfl,
    fun a b => ?_⟩⟩
  show ((QuotientField.ops base m).neg b >>= fun e => (QuotientField.ops base m).add a e) =
    ((QuotientField.ops base m).neg b >>= fun e => (QuotientField.ops base m).add e a)
  refine congrArg ((QuotientField.ops base m).neg b >>= ·) (funext fun e => ?_)
  show (base.add a e >>= fun c => base.rem c m) = (base.add e a >>= fun c => base.rem c m)
  rw [h]

example : InPlaceNeg (QuotientField.ops Integers.euclidean 7).toAbelianGroupOps ∧
    (QuotientField.ops Integers.euclidean 7).subAssign 2 5 = .ok 4 :=
  ⟨(C53_quotient_field _ 7 fun a b => congrArg Res.ok (add_comm a b)).2.2, rfl⟩

/-- C53: reduced fractions over a base with commuting operations and the equality of objects. -/
theorem C53_fractions (base : EuclideanDomainOps E) (hadd : ∀ a b, base.add a b = base.add b a)
    (hmul : ∀ a b, base.mul a b = base.mul b a) (hdiv : ∀ a b, base.mul a b ≠ .diverge)
    (heq : ∀ a b, base.equals a b = base.equals b a)
    (heq' : ∀ a b, base.equals a b = .ok true → a = b) :
    InPlaceMul (ReducedFractions.ops base).toSemigroupOps ∧
    InPlaceAdd (ReducedFractions.ops base).toCommutativeMonoidOps ∧
    InPlaceNeg (ReducedFractions.ops base).toAbelianGroupOps :=
  ⟨⟨fun _ _ => rfl, fun _ => rfl⟩, ⟨fun _ _ => rfl, fun _ => rfl⟩, ⟨fun _ => rfl, fun a b =>
    congrArg ((ReducedFractions.ops base).neg b >>= ·) (funext fun e => ReducedFractions.add_comm hadd hmul hdiv heq heq' a e)⟩⟩

/-- C53: fractions of machine integers. -/
theorem C53_checked_fractions (w : ℕ) [Width w] :
    InPlaceMul (ReducedFractions.ops (CheckedInts.euclidean w)).toSemigroupOps ∧
    InPlaceAdd (ReducedFractions.ops (CheckedInts.euclidean w)).toCommutativeMonoidOps ∧
    InPlaceNeg (ReducedFractions.ops (CheckedInts.euclidean w)).toAbelianGroupOps := by
  refine C53_fractions _ (fun a b => ?_) (fun a b => ?_) (fun a b => ?_) (fun a b => ?_)
    fun a b h => ?_
  · show Res.unwrap (SInt.ofInt? (a.1 + b.1)) = Res.unwrap (SInt.ofInt? (b.1 + a.1))
    rw [add_comm]
  · show Res.unwrap (SInt.ofInt? (a.1 * b.1)) = Res.unwrap (SInt.ofInt? (b.1 * a.1))
    rw [mul_comm]
  · show Res.unwrap (SInt.ofInt? (w := w) (a.1 * b.1)) ≠ .diverge
    cases SInt.ofInt? (w := w) (a.1 * b.1) <;> exact nofun
  · exact congrArg Res.ok (Bool.beq_comm ..)
  · have : (a == b) = true := by injection h
    exact beq_iff_eq.1 this

/-- `1/100 + 1/100` overflows in eight bits, in both variants. -/
example : InPlaceAdd (ReducedFractions.ops (CheckedInts.euclidean 8)).toCommutativeMonoidOps ∧
    (ReducedFractions.ops (CheckedInts.euclidean 8)).addAssign (SInt.lit 1 (by decide), SInt.lit 100 (by decide))
      (SInt.lit 1 (by decide), SInt.lit 99 (by decide)) = .panic :=
  ⟨(C53_checked_fractions 8).2.1, rfl⟩

/-- C53: the rational numbers. -/
theorem C53_rationals : InPlaceMul ReducedFractions.QQ.toSemigroupOps ∧
    InPlaceAdd ReducedFractions.QQ.toCommutativeMonoidOps ∧
    InPlaceNeg ReducedFractions.QQ.toAbelianGroupOps := by
  refine C53_fractions _ (fun a b => congrArg Res.ok (add_comm a b))
    (fun a b => congrArg Res.ok (mul_comm a b)) (fun a b => nofun)
    (fun a b => congrArg Res.ok (Bool.beq_comm ..)) fun a b h => ?_
  have : (a == b) = true := by injection h
  exact beq_iff_eq.1 this

/-- The rationals meet the hypotheses of `C53_fractions`. -/
example : ReducedFractions.QQ.addAssign (1, 2) (1, 3) = ReducedFractions.QQ.add (1, 2) (1, 3) :=
  C53_rationals.2.1.addAssign _ _

/-- C53: polynomials over a base whose addition commutes. -/
theorem C53_polynomials (base : UnitaryRingOps E) (h : ∀ a b, base.add a b = base.add b a) :
    InPlaceMul (PolynomialAlgebra.unitaryRing base).toSemigroupOps ∧
    InPlaceAdd (PolynomialAlgebra.unitaryRing base).toCommutativeMonoidOps ∧
    InPlaceNeg (PolynomialAlgebra.unitaryRing base).toAbelianGroupOps :=
  ⟨⟨fun _ _ => rfl, fun _ => rfl⟩, ⟨fun _ _ => rfl, fun _ => rfl⟩, ⟨fun _ => rfl, fun a b =>
    congrArg ((PolynomialAlgebra.unitaryRing base).neg b >>= ·) (funext fun e => PolynomialAlgebra.add_comm h a e)⟩⟩

example : (∀ a b, Integers.unitaryRing.add a b = Integers.unitaryRing.add b a) ∧
    (PolynomialAlgebra.unitaryRing Integers.unitaryRing).subAssign [1, 2, 3] [5, 1, 3] = .ok [-4, 1] :=
  ⟨fun a b => congrArg Res.ok (add_comm a b), rfl⟩

/-- C53: vectors, whose methods are all implemented separately, over a base where the methods
agree. -/
theorem C53_vectors_mul (n : ℕ) (base : SemigroupOps E) (h : InPlaceMul base) :
    InPlaceMul (VectorAlgebra.semigroup n base) := by
  constructor
  · intro a b
    show VectorAlgebra.zipEach n base.mulAssign a b = VectorAlgebra.zipMap n base.mul a b
    rw [VectorAlgebra.zipEach_eq, funext fun a => funext (h.mulAssign a)]
  · intro a
    show VectorAlgebra.mapEach n base.square a = VectorAlgebra.zipMap n base.mul a a
    rw [← VectorAlgebra.mapEach_eq, funext h.square]

example : InPlaceMul Integers.unitaryRing.toSemigroupOps ∧
    (VectorAlgebra.semigroup 2 Integers.unitaryRing.toSemigroupOps).mulAssign [2, 3] [5, -1] = .ok [10, -3] :=
  ⟨C53_integers.1, rfl⟩

/-- C53: vectors, addition. -/
theorem C53_vectors_add (n : ℕ) (base : CommutativeMonoidOps E) (h : InPlaceAdd base) :
    InPlaceAdd (VectorAlgebra.commutativeMonoid n base) := by
  constructor
  · intro a b
    show VectorAlgebra.zipEach n base.addAssign a b = VectorAlgebra.zipMap n base.add a b
    rw [VectorAlgebra.zipEach_eq, funext fun a => funext (h.addAssign a)]
  · intro a
    show VectorAlgebra.mapEach n base.double a = VectorAlgebra.zipMap n base.add a a
    rw [← VectorAlgebra.mapEach_eq, funext h.double]

example : InPlaceAdd Integers.unitaryRing.toCommutativeMonoidOps ∧
    (VectorAlgebra.commutativeMonoid 2 Integers.unitaryRing.toCommutativeMonoidOps).double [2, 3] = .ok [4, 6] :=
  ⟨C53_integers.2.1, rfl⟩

/-- C53: vectors, subtraction. -/
theorem C53_vectors_neg (n : ℕ) (base : AbelianGroupOps E) (h : InPlaceNeg base) :
    InPlaceNeg (VectorAlgebra.abelianGroup n base) := by
  constructor
  · intro a
    show VectorAlgebra.mapEach n base.negAssign a = VectorAlgebra.mapEach n base.neg a
    rw [funext h.negAssign]
  · intro a b
    show VectorAlgebra.zipEach n base.subAssign a b = VectorAlgebra.zipMap n base.sub a b
    rw [VectorAlgebra.zipEach_eq, funext fun a => funext (h.subAssign a)]

/-- Vectors of integers meet the hypotheses. -/
example : InPlaceNeg (VectorAlgebra.abelianGroup 2 Integers.unitaryRing.toAbelianGroupOps) ∧
    (VectorAlgebra.abelianGroup 2 Integers.unitaryRing.toAbelianGroupOps).subAssign [1, 2] [3, 5] =
      .ok [-2, -3] :=
  ⟨C53_vectors_neg 2 _ C53_integers.2.2, rfl⟩

/-- C53: matrices over a base where the methods agree. -/
theorem C53_matrices (n : ℕ) (base : FieldOps E) (h1 : InPlaceAdd base.toCommutativeMonoidOps)
    (h2 : InPlaceNeg base.toAbelianGroupOps) :
    InPlaceMul (MatrixRing.ops base n).toSemigroupOps ∧
    InPlaceAdd (MatrixRing.ops base n).toCommutativeMonoidOps ∧
    InPlaceNeg (MatrixRing.ops base n).toAbelianGroupOps := by
  have h3 := C53_vectors_add (n * n) base.toCommutativeMonoidOps h1
  have h4 := C53_vectors_neg (n * n) base.toAbelianGroupOps h2
  exact ⟨⟨fun _ _ => rfl, fun _ => rfl⟩, ⟨h3.addAssign, h3.double⟩, ⟨h4.negAssign, h4.subAssign⟩⟩

/-- Matrices over the field with two elements meet the hypotheses. -/
example : InPlaceMul (MatrixRing.ops TwoElementAlgebra.field 2).toSemigroupOps :=
  (C53_matrices 2 _ C53_two_element.2.1 C53_two_element.2.2).1

/-- C53: the additive group. -/
theorem C53_additive_group (base : AbelianGroupOps E) (h : InPlaceAdd base.toCommutativeMonoidOps) :
    InPlaceMul (AdditiveGroup.ops base).toSemigroupOps := ⟨h.addAssign, h.double⟩

example : InPlaceMul (AdditiveGroup.ops Integers.unitaryRing.toAbelianGroupOps).toSemigroupOps :=
  C53_additive_group _ C53_integers.2.1

/-- C53: the multiplicative group. -/
theorem C53_multiplicative_group (base : MonoidOps E) (h : InPlaceMul base.toSemigroupOps) :
    InPlaceMul (MultiplicativeGroup.ops base).toSemigroupOps := ⟨h.mulAssign, h.square⟩

/-- The additive and the multiplicative group of the integers meet the hypotheses. -/
example : InPlaceMul (AdditiveGroup.ops Integers.unitaryRing.toAbelianGroupOps).toSemigroupOps ∧
    InPlaceMul (MultiplicativeGroup.ops Integers.unitaryRing.toMonoidOps).toSemigroupOps :=
  ⟨C53_additive_group _ C53_integers.2.1, C53_multiplicative_group _ C53_integers.1⟩

/-- C53: floats, on all values, NaN and infinities included. -/
theorem C53_floats (F : FloatFormat) : InPlaceMul (ApproxFloats.field F).toSemigroupOps ∧
    InPlaceAdd (ApproxFloats.field F).toCommutativeMonoidOps ∧
    InPlaceNeg (ApproxFloats.field F).toAbelianGroupOps := by
  refine ⟨⟨fun _ _ => rfl, fun _ => rfl⟩, ⟨fun _ _ => rfl, fun _ => rfl⟩, ⟨fun _ => rfl, fun a b => ?_⟩⟩
  show (ApproxFloats.checked b.neg >>= fun e => ApproxFloats.checked (a.add e)) =
    ApproxFloats.checked (a.add b.neg)
  cases b with
  | nan => cases a <;> rfl
  | inf s => 
    rw [show ApproxFloats.checked (FloatFormat.Val.neg (.inf s) : F.Val) = .panic from rfl]
    cases a with
    | nan => rfl
    | inf t => cases s <;> cases t <;> rfl
    | fin => rfl
  | fin => rfl

/-- Subtracting infinity from one panics either way. -/
example : (ApproxFloats.field .f64).sub FloatFormat.Val.one (.inf false) = .panic ∧
    (ApproxFloats.field .f64).subAssign FloatFormat.Val.one (.inf false) = .panic := by
  have h := (C53_floats .f64).2.2.subAssign FloatFormat.Val.one (.inf false)
  exact ⟨rfl, h.trans rfl⟩

/-- C53: permutations; here the methods agree on members. -/
theorem C53_permutations (size : UInt32) {a b : List UInt32}
    {σ τ : (Equiv.Perm (Fin size.toNat))ᵐᵒᵖ} (ha : PermRep a σ) (hb : PermRep b τ) :
    (Permutations.ops size).mulAssign a b = (Permutations.ops size).mul a b ∧
    (Permutations.ops size).square a = (Permutations.ops size).mul a a := by
  obtain ⟨c, h1, h2, -⟩ := C42_mul_entries size ha hb
  exact ⟨h2.trans h1.symm, rfl⟩

/-- Vectors of vectors of machine integers meet the hypotheses. -/
example : InPlaceMul (VectorAlgebra.semigroup 3 (VectorAlgebra.semigroup 2
    (CheckedInts.unitaryRing 32).toSemigroupOps)) :=
  C53_vectors_mul 3 _ (C53_vectors_mul 2 _ (C53_checked_ints 32).1)

/-- Polynomials over a quotient of machine integers meet the hypotheses. -/
example : InPlaceNeg (PolynomialAlgebra.unitaryRing (QuotientRing.ops (CheckedInts.euclidean 32)
    ⟨6, by decide⟩)).toAbelianGroupOps := by
  have h : ∀ a b, (CheckedInts.euclidean 32).add a b = (CheckedInts.euclidean 32).add b a :=
    fun a b => by
      show Res.unwrap (SInt.ofInt? (a.1 + b.1)) = Res.unwrap (SInt.ofInt? (b.1 + a.1))
      rw [add_comm]
  refine (C53_polynomials _ fun a b => ?_).2.2
  show ((CheckedInts.euclidean 32).add a b >>= _) = ((CheckedInts.euclidean 32).add b a >>= _)
  rw [h]

/-- `I32.sub(-1, i32::MIN)` is `i32::MAX` but `I32.sub_assign` panics. -/
example : (CheckedInts.unitaryRing 32).sub ⟨-1, by decide⟩ ⟨-2147483648, by decide⟩ =
      .ok ⟨2147483647, by decide⟩ ∧
    (CheckedInts.unitaryRing 32).subAssign ⟨-1, by decide⟩ ⟨-2147483648, by decide⟩ = .panic := by
  obtain ⟨-, h⟩ := C53_checked_ints_sub 32 ⟨-1, by decide⟩ ⟨-2147483648, by decide⟩
  obtain ⟨h1, h2⟩ := h (by decide)
  obtain ⟨c, hc, hc'⟩ := h2 (by decide)
  exact ⟨by rw [hc]; exact congrArg _ (Subtype.ext hc'), h1⟩

end Abstalg
