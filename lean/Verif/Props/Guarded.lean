import Verif.Proofs.Guarded
import Verif.Props.Simulation
import Verif.Props.Clients

/-! # C103: computations with machine integers return exactly as long as every integer stays in range

`Guarded.euclidean w` (`Spec/Guarded`) is the ring of integers in which each method checks that the integer
it is about to return lies in the range of the machine integers with `w` bits. A structure of the crate over
the machine integers returns if and only if the same structure over these integers returns, and then the
same value. In particular none of the panics is due to an intermediate value of an implementation in
`CheckedInts`, and no overflow goes unnoticed. -/

set_option autoImplicit false

namespace Abstalg

section

variable [Cfg] (w : ℕ) [Width w]

/-- The integer is denoted by the machine integer. -/
abbrev DenotedBy (x : ℤ) (a : SInt w) : Prop := SRep w a x

/-- C103: all methods of the machine integers. -/
theorem C103_integers :
    FollowsEuclideanDomain (SRep w) (CheckedInts.euclidean w) (Guarded.euclidean w) ∧
    FollowsEuclideanDomain (DenotedBy w) (Guarded.euclidean w) (CheckedInts.euclidean w) :=
  ⟨Guarded.required.all (Guarded.provided_checked w) (Guarded.provided w),
    Guarded.required'.all (Guarded.provided w) (Guarded.provided_checked w)⟩

/-- C103: rational numbers with machine integers as numerators and denominators. -/
theorem C103_fractions :
    FollowsField (PRel (SRep w)) (ReducedFractions.ops (CheckedInts.euclidean w))
      (ReducedFractions.ops (Guarded.euclidean w)) ∧
    FollowsField (PRel (DenotedBy w)) (ReducedFractions.ops (Guarded.euclidean w))
      (ReducedFractions.ops (CheckedInts.euclidean w)) :=
  ⟨C67_fractions (.refl _) (C103_integers w).1, C67_fractions (.refl _) (C103_integers w).2⟩

/-- C103: matrices of such rational numbers. -/
theorem C103_matrices (size : ℕ) :
    FollowsUnitaryRing (LRel (PRel (SRep w)))
      (MatrixRing.ops (ReducedFractions.ops (CheckedInts.euclidean w)) size)
      (MatrixRing.ops (ReducedFractions.ops (Guarded.euclidean w)) size) ∧
    FollowsUnitaryRing (LRel (PRel (DenotedBy w)))
      (MatrixRing.ops (ReducedFractions.ops (Guarded.euclidean w)) size)
      (MatrixRing.ops (ReducedFractions.ops (CheckedInts.euclidean w)) size) :=
  ⟨C67_matrices (.refl _) size (C103_fractions w).1, C67_matrices (.refl _) size (C103_fractions w).2⟩

/-- C103: the determinant over machine fractions. -/
theorem C103_determinant (size : ℕ) (v : List (SInt w × SInt w)) (p : SInt w × SInt w) :
    MatrixRing.determinant (ReducedFractions.ops (CheckedInts.euclidean w)) size v = .ok p ↔
    MatrixRing.determinant (ReducedFractions.ops (Guarded.euclidean w)) size
      (v.map fun q => (q.1.1, q.2.1)) = .ok (p.1.1, p.2.1) := by
  have hv : LRel (PRel (SRep w)) v (v.map fun q => (q.1.1, q.2.1)) :=
    List.forall₂_map_right_iff.2 (List.forall₂_same.2 fun _ _ => ⟨rfl, rfl⟩)
  have hv' : LRel (PRel (DenotedBy w)) (v.map fun q => (q.1.1, q.2.1)) v :=
    List.forall₂_map_left_iff.2 (List.forall₂_same.2 fun _ _ => ⟨rfl, rfl⟩)
  constructor
  · intro h
    obtain ⟨⟨n, d⟩, h1, h2, h3⟩ := C67_determinant size (C103_fractions w).1 hv p h
    rw [h1, ← show p.1.1 = n from h2, ← show p.2.1 = d from h3]
  · intro h
    obtain ⟨⟨n, d⟩, h1, h2, h3⟩ := C67_determinant size (C103_fractions w).2 hv' _ h
    rw [h1]
    exact congrArg Res.ok (Prod.ext (Subtype.ext h2) (Subtype.ext h3))

/-- C103: polynomials with machine integers as coefficients. -/
theorem C103_polynomials :
    FollowsIntegralDomain (LRel (SRep w)) (PolynomialAlgebra.integralDomain (CheckedInts.integralDomain w))
      (PolynomialAlgebra.integralDomain (Guarded.euclidean w).toIntegralDomainOps) ∧
    FollowsIntegralDomain (LRel (DenotedBy w))
      (PolynomialAlgebra.integralDomain (Guarded.euclidean w).toIntegralDomainOps)
      (PolynomialAlgebra.integralDomain (CheckedInts.integralDomain w)) :=
  ⟨C67_polynomials_domain (C103_integers w).1.toFollowsIntegralDomain,
    C67_polynomials_domain (C103_integers w).2.toFollowsIntegralDomain⟩

/-- C103: polynomials with such rational numbers as coefficients. -/
theorem C103_polynomials_of_fractions :
    FollowsEuclideanDomain (LRel (PRel (SRep w)))
      (PolynomialAlgebra.euclidean (ReducedFractions.ops (CheckedInts.euclidean w)))
      (PolynomialAlgebra.euclidean (ReducedFractions.ops (Guarded.euclidean w))) ∧
    FollowsEuclideanDomain (LRel (PRel (DenotedBy w)))
      (PolynomialAlgebra.euclidean (ReducedFractions.ops (Guarded.euclidean w)))
      (PolynomialAlgebra.euclidean (ReducedFractions.ops (CheckedInts.euclidean w))) :=
  ⟨C67_polynomials_euclidean (C103_fractions w).1, C67_polynomials_euclidean (C103_fractions w).2⟩

/-- C103: vectors of machine integers. -/
theorem C103_vectors (len : ℕ) :
    FollowsUnitaryRing (LRel (SRep w)) (VectorAlgebra.unitaryRing len (CheckedInts.unitaryRing w))
      (VectorAlgebra.unitaryRing len (Guarded.euclidean w).toUnitaryRingOps) ∧
    FollowsUnitaryRing (LRel (DenotedBy w))
      (VectorAlgebra.unitaryRing len (Guarded.euclidean w).toUnitaryRingOps)
      (VectorAlgebra.unitaryRing len (CheckedInts.unitaryRing w)) :=
  ⟨C67_vectors (.refl _) len (C103_integers w).1.toFollowsUnitaryRing,
    C67_vectors (.refl _) len (C103_integers w).2.toFollowsUnitaryRing⟩

/-- C103: residues of machine integers. -/
theorem C103_quotient_ring (m : SInt w) :
    FollowsUnitaryRing (SRep w) (QuotientRing.ops (CheckedInts.euclidean w) m)
      (QuotientRing.ops (Guarded.euclidean w) m.1) ∧
    FollowsUnitaryRing (DenotedBy w) (QuotientRing.ops (Guarded.euclidean w) m.1)
      (QuotientRing.ops (CheckedInts.euclidean w) m) :=
  ⟨C67_quotient_ring (.refl _) (C103_integers w).1 rfl, C67_quotient_ring (.refl _) (C103_integers w).2 rfl⟩

/-- C103: the quotient field of the machine integers. -/
theorem C103_quotient_field (m : SInt w) :
    FollowsField (SRep w) (QuotientField.ops (CheckedInts.euclidean w) m)
      (QuotientField.ops (Guarded.euclidean w) m.1) ∧
    FollowsField (DenotedBy w) (QuotientField.ops (Guarded.euclidean w) m.1)
      (QuotientField.ops (CheckedInts.euclidean w) m) :=
  ⟨C67_quotient_field (.refl _) (C103_integers w).1 rfl,
    C67_quotient_field (.refl _) (C103_integers w).2 rfl⟩

/-- C103: the extension field given by a polynomial over residues of machine integers. -/
theorem C103_extension_field (m : SInt w) (f : List (SInt w)) :
    FollowsField (LRel (SRep w))
      (QuotientField.ops (PolynomialAlgebra.euclidean
        (QuotientField.ops (CheckedInts.euclidean w) m)) f)
      (QuotientField.ops (PolynomialAlgebra.euclidean
        (QuotientField.ops (Guarded.euclidean w) m.1)) (f.map Subtype.val)) ∧
    FollowsField (LRel (DenotedBy w))
      (QuotientField.ops (PolynomialAlgebra.euclidean
        (QuotientField.ops (Guarded.euclidean w) m.1)) (f.map Subtype.val))
      (QuotientField.ops (PolynomialAlgebra.euclidean
        (QuotientField.ops (CheckedInts.euclidean w) m)) f) :=
  ⟨C67_quotient_field (.refl _) (C67_polynomials_euclidean (C103_quotient_field w m).1)
      (List.forall₂_map_right_iff.2 (List.forall₂_same.2 fun _ _ => rfl)),
    C67_quotient_field (.refl _) (C67_polynomials_euclidean (C103_quotient_field w m).2)
      (List.forall₂_map_left_iff.2 (List.forall₂_same.2 fun _ _ => rfl))⟩

/-- C103: the additive group and the group of units. -/
theorem C103_groups :
    (FollowsGroup (SRep w) (AdditiveGroup.ops (CheckedInts.euclidean w).toAbelianGroupOps)
      (AdditiveGroup.ops (Guarded.euclidean w).toAbelianGroupOps) ∧
    FollowsGroup (DenotedBy w) (AdditiveGroup.ops (Guarded.euclidean w).toAbelianGroupOps)
      (AdditiveGroup.ops (CheckedInts.euclidean w).toAbelianGroupOps)) ∧
    (FollowsGroup (SRep w) (MultiplicativeGroup.ops (CheckedInts.euclidean w).toMonoidOps)
      (MultiplicativeGroup.ops (Guarded.euclidean w).toMonoidOps) ∧
    FollowsGroup (DenotedBy w) (MultiplicativeGroup.ops (Guarded.euclidean w).toMonoidOps)
      (MultiplicativeGroup.ops (CheckedInts.euclidean w).toMonoidOps)) :=
  ⟨⟨C67_additive_group (.refl _) (C103_integers w).1.toFollowsAbelianGroup,
    C67_additive_group (.refl _) (C103_integers w).2.toFollowsAbelianGroup⟩,
    C67_multiplicative_group (.refl _) (C103_integers w).1.toFollowsMonoid,
    C67_multiplicative_group (.refl _) (C103_integers w).2.toFollowsMonoid⟩

/-- C103: divisibility. -/
theorem C103_divisibility :
    (FollowsBoundedOrder (SRep w) (DivisibilityOrder.boundedOrder (CheckedInts.integralDomain w))
      (DivisibilityOrder.boundedOrder (Guarded.euclidean w).toIntegralDomainOps) ∧
    FollowsBoundedOrder (DenotedBy w)
      (DivisibilityOrder.boundedOrder (Guarded.euclidean w).toIntegralDomainOps)
      (DivisibilityOrder.boundedOrder (CheckedInts.integralDomain w))) ∧
    (FollowsLattice (SRep w) (DivisibilityOrder.lattice (CheckedInts.euclidean w))
      (DivisibilityOrder.lattice (Guarded.euclidean w)) ∧
    FollowsLattice (DenotedBy w) (DivisibilityOrder.lattice (Guarded.euclidean w))
      (DivisibilityOrder.lattice (CheckedInts.euclidean w))) :=
  ⟨⟨C67_divisibility_order (C103_integers w).1.toFollowsIntegralDomain,
    C67_divisibility_order (C103_integers w).2.toFollowsIntegralDomain⟩,
    C67_divisibility_lattice (C103_integers w).1, C67_divisibility_lattice (C103_integers w).2⟩

/-- C103: the integers with checks are integers: whatever they return for operands in range, `ZZ` returns. -/
theorem C103_guarded_follows_integers :
    FollowsEuclideanDomain (fun x y => x = y ∧ InRange w x) (Guarded.euclidean w) Integers.euclidean :=
  (C103_integers w).2.comp (C68_integers w)
    (by
      rintro x _ ⟨rfl, hx⟩
      exact ⟨SInt.mk x (Guarded.fits_inRange.2 hx), rfl, rfl⟩)
    (by
      rintro _ a _ rfl rfl
      exact ⟨rfl, CheckedInts.inRange_val a⟩)

/-- C103: a program that calls methods of `CheckedInts` and does not catch panics runs to the same memory and registers as over the
integers with checks, and stops at a panic in the same cases. -/
theorem C103_programs (C : Client EuclideanMethod) (n : ℕ) (q q' : C.Q) (f f' : ℕ → SInt w) :
    C.run (EuclideanMethod.table (CheckedInts.euclidean w)) false n (q, f) = .ok (q', f') ↔
    C.run (EuclideanMethod.table (Guarded.euclidean w)) false n (q, fun i => (f i).1) =
      .ok (q', fun i => (f' i).1) := by
  constructor
  · intro h
    obtain ⟨⟨p, g⟩, h1, h2, h3⟩ := C97_follows_euclidean C (C103_integers w).1 n
      (c := (q, f)) (d := (q, fun i => (f i).1)) ⟨rfl, fun _ => rfl⟩ _ h
    rw [h1]
    exact congrArg Res.ok (Prod.ext h2.symm (funext fun i => (h3 i).symm))
  · intro h
    obtain ⟨⟨p, g⟩, h1, h2, h3⟩ := C97_follows_euclidean C (C103_integers w).2 n
      (c := (q, fun i => (f i).1)) (d := (q, f)) ⟨rfl, fun _ => rfl⟩ _ h
    rw [h1]
    exact congrArg Res.ok (Prod.ext h2.symm (funext fun i => Subtype.ext (h3 i)))

/-- C103: a program that calls methods of fractions of machine integers. -/
theorem C103_programs_of_fractions (C : Client FieldMethod) (n : ℕ) (q q' : C.Q) (f f' : ℕ → SInt w × SInt w) :
    C.run (FieldMethod.table (ReducedFractions.ops (CheckedInts.euclidean w))) false n (q, f) = .ok (q', f') ↔
    C.run (FieldMethod.table (ReducedFractions.ops (Guarded.euclidean w))) false n
        (q, fun i => ((f i).1.1, (f i).2.1)) =
      .ok (q', fun i => ((f' i).1.1, (f' i).2.1)) := by
  constructor
  · intro h
    obtain ⟨⟨p, g⟩, h1, h2, h3⟩ := C97_follows_fields C (C103_fractions w).1 n
      (c := (q, f)) (d := (q, fun i => ((f i).1.1, (f i).2.1))) ⟨rfl, fun _ => ⟨rfl, rfl⟩⟩ _ h
    rw [h1]
    exact congrArg Res.ok (Prod.ext h2.symm (funext fun i => Prod.ext (h3 i).1.symm (h3 i).2.symm))
  · intro h
    obtain ⟨⟨p, g⟩, h1, h2, h3⟩ := C97_follows_fields C (C103_fractions w).2 n
      (c := (q, fun i => ((f i).1.1, (f i).2.1))) (d := (q, f)) ⟨rfl, fun _ => ⟨rfl, rfl⟩⟩ _ h
    rw [h1]
    exact congrArg Res.ok (Prod.ext h2.symm
      (funext fun i => Prod.ext (Subtype.ext (h3 i).1) (Subtype.ext (h3 i).2)))

omit [Cfg] [Width w] in
/-- C103: unsigned machine integers. -/
theorem C103_uints (w : ℕ) [UWidth w] :
    FollowsSemiRing (URep w) (CheckedUints.semiRing w) (Guarded.naturals w) ∧
    FollowsSemiRing (fun x a => URep w a x) (Guarded.naturals w) (CheckedUints.semiRing w) :=
  ⟨Guarded.uints_follow, Guarded.naturals_follow⟩

omit [Cfg] [Width w] in
/-- C103: vectors of unsigned machine integers. -/
theorem C103_vectors_of_uints (len w : ℕ) [UWidth w] :
    FollowsSemiRing (LRel (URep w)) (VectorAlgebra.semiRing len (CheckedUints.semiRing w))
      (VectorAlgebra.semiRing len (Guarded.naturals w)) ∧
    FollowsSemiRing (LRel fun x a => URep w a x) (VectorAlgebra.semiRing len (Guarded.naturals w))
      (VectorAlgebra.semiRing len (CheckedUints.semiRing w)) :=
  ⟨C67_vectors_semiring len (C103_uints w).1, C67_vectors_semiring len (C103_uints w).2⟩

end

namespace GuardedExamples

local instance : Cfg := ⟨true, true, 64, by decide⟩

-- the integers with checks in eight bits
example : (Guarded.euclidean 8).add 100 27 = .ok 127 ∧ (Guarded.euclidean 8).add 100 28 = .panic ∧
    (Guarded.euclidean 8).neg (-128) = .panic ∧ (Guarded.euclidean 8).associateRepr (-127) = .ok 127 ∧
    (Guarded.euclidean 8).quoRem (-128) (-1) = .panic ∧ (Guarded.euclidean 8).quoRem (-128) 127 = .ok (-2, 126) ∧
    (Guarded.euclidean 8).tryDiv (-128) (-1) = .panic ∧ (Guarded.euclidean 8).tryDiv (-128) 3 = .ok none ∧
    (Guarded.euclidean 8).times 128 0 = .panic ∧ (Guarded.euclidean 8).subAssign 100 (-128) = .panic := by
  decide

-- `times` doubles once more than needed: twice 70 needs 280
example : (Guarded.naturals 8).utimes 3 40 = .ok 120 ∧ (Guarded.naturals 8).utimes 2 70 = .panic := by
  decide +kernel

-- `(100 + 100 x) (1 - x)` returns and `(100 + 100 x) (1 + x)` does not, over both
example :
    (PolynomialAlgebra.integralDomain (Guarded.euclidean 8).toIntegralDomainOps).mul [100, 100] [1, -1] =
      .ok [100, 0, -100] ∧
    (PolynomialAlgebra.integralDomain (Guarded.euclidean 8).toIntegralDomainOps).mul [100, 100] [1, 1] =
      .panic ∧
    (PolynomialAlgebra.integralDomain (CheckedInts.integralDomain 8)).mul
      [SInt.lit 100 (by decide), SInt.lit 100 (by decide)]
      [SInt.lit 1 (by decide), SInt.lit (-1) (by decide)] =
      .ok [SInt.lit 100 (by decide), SInt.lit 0 (by decide), SInt.lit (-100) (by decide)] := by
  decide +kernel

-- the product is `-65 + 127 x ^ 2 - 68 x ^ 3 + 3 x ^ 4`, but the partial sum `65 + 65` is not in range
example :
    (PolynomialAlgebra.integralDomain (Guarded.euclidean 8).toIntegralDomainOps).mul [65, -65, 3] [-1, -1, 1] =
      .panic ∧
    (PolynomialAlgebra.integralDomain (Guarded.euclidean 16).toIntegralDomainOps).mul [65, -65, 3] [-1, -1, 1] =
      .ok [-65, 0, 127, -68, 3] := by
  decide +kernel

-- 30 is added to itself until the sum leaves the range: three times, but not four times
def adding : Client EuclideanMethod where
  Q := ℕ
  act _ := some (.ring .add, 0, 1, 0)
  next q _ := q + 1

example : ∃ f' : ℕ → SInt 8, (f' 0).1 = 120 ∧
    adding.run (EuclideanMethod.table (CheckedInts.euclidean 8)) false 3
      ((0 : ℕ), fun _ => SInt.lit 30 (by decide)) = .ok ((3 : ℕ), f') := by
  refine ⟨fun i => if i = 0 then SInt.lit 120 (by decide) else SInt.lit 30 (by decide), rfl,
    (C103_programs 8 adding 3 (0 : ℕ) (3 : ℕ) _ _).2 ?_⟩
  refine congrArg Res.ok (Prod.ext rfl (funext fun i => ?_))
  by_cases h : i = 0
  · subst h; rfl
  · show (if i = 0 then _ else if i = 0 then _ else if i = 0 then _ else _) = _; simp [h]

example (q' : ℕ) (f' : ℕ → SInt 8) :
    adding.run (EuclideanMethod.table (CheckedInts.euclidean 8)) false 4
      ((0 : ℕ), fun _ => SInt.lit 30 (by decide)) ≠ .ok (q', f') := by
  intro h
  have h := (C103_programs 8 adding 4 (0 : ℕ) q' _ f').1 h
  cases h

end GuardedExamples

end Abstalg
