import Verif.Proofs.SimBase
import Verif.Proofs.SimMatrix
import Verif.Proofs.SimPoly
import Verif.Proofs.SimWrappers

/-! # C67-C70: comparing two builds, two widths, and machine integers with integers

`FollowsX r A B` (`Spec/Simulation`): whenever a method of `A` returns a value, the same method of `B`
returns a corresponding value for the corresponding operands. Nothing is assumed about the operands, in
particular they need not be members. -/

set_option autoImplicit false

namespace Abstalg

/-! ## C67: the structures of the crate over a base that follows another -/

section structures

variable {c₁ c₂ : Cfg} {E F : Type} {r : E → F → Prop}

/-- C67: rings of vectors. -/
theorem C67_vectors (hc : Cfg.Relaxes c₁ c₂) (len : ℕ) {A : @UnitaryRingOps c₁ E}
    {B : @UnitaryRingOps c₂ F} (h : FollowsUnitaryRing r A B) :
    FollowsUnitaryRing (LRel r) (@VectorAlgebra.unitaryRing E len c₁ A)
      (@VectorAlgebra.unitaryRing F len c₂ B) := h.vector len hc

/-- C67: semirings of vectors. -/
theorem C67_vectors_semiring (len : ℕ) {A : SemiRingOps E} {B : SemiRingOps F}
    (h : FollowsSemiRing r A B) :
    FollowsSemiRing (LRel r) (VectorAlgebra.semiRing len A) (VectorAlgebra.semiRing len B) :=
  h.vector len

/-- C67: groups of vectors. -/
theorem C67_vectors_group (hc : Cfg.Relaxes c₁ c₂) (len : ℕ) {A : @GroupOps c₁ E}
    {B : @GroupOps c₂ F} (h : FollowsGroup r A B) :
    FollowsGroup (LRel r) (@VectorAlgebra.group E len c₁ A) (@VectorAlgebra.group F len c₂ B) :=
  h.vector len hc

/-- C67: abelian groups of vectors. -/
theorem C67_vectors_abelian_group (hc : Cfg.Relaxes c₁ c₂) (len : ℕ) {A : @AbelianGroupOps c₁ E}
    {B : @AbelianGroupOps c₂ F} (h : FollowsAbelianGroup r A B) :
    FollowsAbelianGroup (LRel r) (@VectorAlgebra.abelianGroup E len c₁ A)
      (@VectorAlgebra.abelianGroup F len c₂ B) := h.vector len hc

/-- C67: lattices of vectors. -/
theorem C67_vectors_lattice (len : ℕ) {A : LatticeOps E} {B : LatticeOps F}
    (h : FollowsLattice r A B) :
    FollowsLattice (LRel r) (VectorAlgebra.lattice len A) (VectorAlgebra.lattice len B) :=
  h.vector len

/-- C67: bounded orders of vectors. -/
theorem C67_vectors_bounded_order (len : ℕ) {A : BoundedOrderOps E} {B : BoundedOrderOps F}
    (h : FollowsBoundedOrder r A B) :
    FollowsBoundedOrder (LRel r) (VectorAlgebra.boundedOrder len A)
      (VectorAlgebra.boundedOrder len B) := h.vector len

/-- C67: Boolean algebras of vectors. -/
theorem C67_vectors_boolean_algebra (len : ℕ) {A : BooleanAlgebraOps E} {B : BooleanAlgebraOps F}
    (h : FollowsBooleanAlgebra r A B) :
    FollowsBooleanAlgebra (LRel r) (VectorAlgebra.booleanAlgebra len A)
      (VectorAlgebra.booleanAlgebra len B) := h.vector len

/-- C67: matrices. -/
theorem C67_matrices (hc : Cfg.Relaxes c₁ c₂) (size : ℕ) {A : @FieldOps c₁ E} {B : @FieldOps c₂ F}
    (h : FollowsField r A B) :
    FollowsUnitaryRing (LRel r) (@MatrixRing.ops c₁ E A size) (@MatrixRing.ops c₂ F B size) :=
  h.matrix hc size

/-- C67: `MatrixRing::new`. -/
theorem C67_matrices_new (hc : Cfg.Relaxes c₁ c₂) (size : ℕ) {A : @FieldOps c₁ E} {B : @FieldOps c₂ F}
    (h : FollowsField r A B) :
    Follows (FollowsUnitaryRing (LRel r)) (@MatrixRing.new c₁ E A size) (@MatrixRing.new c₂ F B size) :=
  Follows.bind (Follows.assert (by unfold usizeMax; rw [hc.ptrBits])) fun _ _ _ =>
    .ok (h.matrix hc size)

/-- C67: determinants. -/
theorem C67_determinant (size : ℕ) {A : @FieldOps c₁ E} {B : @FieldOps c₂ F} (h : FollowsField r A B)
    {v : List E} {v' : List F} (hv : LRel r v v') :
    Follows r (@MatrixRing.determinant c₁ E A size v) (@MatrixRing.determinant c₂ F B size v') :=
  MatrixRing.follows_determinant h size hv

/-- C67: transposition. -/
theorem C67_transpose (size : ℕ) {v : List E} {v' : List F} (hv : LRel r v v') :
    Follows (LRel r) (MatrixRing.transpose size v) (MatrixRing.transpose size v') :=
  MatrixRing.follows_transpose size hv

/-- C67: abelian groups of polynomials. -/
theorem C67_polynomials_group {A : @AbelianGroupOps c₁ E} {B : @AbelianGroupOps c₂ F}
    (h : FollowsAbelianGroup r A B) :
    FollowsAbelianGroup (LRel r) (@PolynomialAlgebra.abelianGroup E c₁ A)
      (@PolynomialAlgebra.abelianGroup F c₂ B) := h.polynomial

/-- C67: rings of polynomials. -/
theorem C67_polynomials {A : @UnitaryRingOps c₁ E} {B : @UnitaryRingOps c₂ F}
    (h : FollowsUnitaryRing r A B) :
    FollowsUnitaryRing (LRel r) (@PolynomialAlgebra.unitaryRing E c₁ A)
      (@PolynomialAlgebra.unitaryRing F c₂ B) := h.polynomial

/-- C67: polynomials over an integral domain. -/
theorem C67_polynomials_domain {A : @IntegralDomainOps c₁ E} {B : @IntegralDomainOps c₂ F}
    (h : FollowsIntegralDomain r A B) :
    FollowsIntegralDomain (LRel r) (@PolynomialAlgebra.integralDomain E c₁ A)
      (@PolynomialAlgebra.integralDomain F c₂ B) := h.polynomial

/-- C67: polynomials over a field. -/
theorem C67_polynomials_euclidean {A : @FieldOps c₁ E} {B : @FieldOps c₂ F} (h : FollowsField r A B) :
    FollowsEuclideanDomain (LRel r) (@PolynomialAlgebra.euclidean E c₁ A)
      (@PolynomialAlgebra.euclidean F c₂ B) := h.polynomial

/-- C67: quotient rings. -/
theorem C67_quotient_ring (hc : Cfg.Relaxes c₁ c₂) {A : @EuclideanDomainOps c₁ E}
    {B : @EuclideanDomainOps c₂ F} (h : FollowsEuclideanDomain r A B) {m : E} {m' : F} (hm : r m m') :
    FollowsUnitaryRing r (@QuotientRing.ops c₁ E A m) (@QuotientRing.ops c₂ F B m') :=
  h.quotientRing hc hm

/-- C67: `QuotientRing::new`. -/
theorem C67_quotient_ring_new (hc : Cfg.Relaxes c₁ c₂) {A : @EuclideanDomainOps c₁ E}
    {B : @EuclideanDomainOps c₂ F} (h : FollowsEuclideanDomain r A B) {m : E} {m' : F} (hm : r m m') :
    Follows (FollowsUnitaryRing r) (@QuotientRing.new c₁ E A m) (@QuotientRing.new c₂ F B m') :=
  Follows.bind (h.contains hm) fun _ _ hb => Follows.bind (Follows.assert hb) fun _ _ _ =>
    .ok (h.quotientRing hc hm)

/-- C67: quotient fields. -/
theorem C67_quotient_field (hc : Cfg.Relaxes c₁ c₂) {A : @EuclideanDomainOps c₁ E}
    {B : @EuclideanDomainOps c₂ F} (h : FollowsEuclideanDomain r A B) {m : E} {m' : F} (hm : r m m') :
    FollowsField r (@QuotientField.ops c₁ E A m) (@QuotientField.ops c₂ F B m') :=
  h.quotientField hc hm

/-- C67: `QuotientField::new`. -/
theorem C67_quotient_field_new (hc : Cfg.Relaxes c₁ c₂) {A : @EuclideanDomainOps c₁ E}
    {B : @EuclideanDomainOps c₂ F} (h : FollowsEuclideanDomain r A B) {m : E} {m' : F} (hm : r m m') :
    Follows (FollowsField r) (@QuotientField.new c₁ E A m) (@QuotientField.new c₂ F B m') :=
  Follows.bind (h.contains hm) fun _ _ hb => Follows.bind (Follows.assert hb) fun _ _ _ =>
    Follows.bind h.one fun _ _ h1 => Follows.bind (h.rem h1 h1) fun _ _ hr =>
      Follows.bind (h.isZero hr) fun _ _ hb => Follows.bind (Follows.assert hb) fun _ _ _ =>
        .ok (h.quotientField hc hm)

/-- C67: reduced fractions. -/
theorem C67_fractions (hc : Cfg.Relaxes c₁ c₂) {A : @EuclideanDomainOps c₁ E}
    {B : @EuclideanDomainOps c₂ F} (h : FollowsEuclideanDomain r A B) :
    FollowsField (PRel r) (@ReducedFractions.ops c₁ E A) (@ReducedFractions.ops c₂ F B) :=
  h.reducedFractions hc

/-- C67: `ReducedFractions::new`. -/
theorem C67_fractions_new (hc : Cfg.Relaxes c₁ c₂) {A : @EuclideanDomainOps c₁ E}
    {B : @EuclideanDomainOps c₂ F} (h : FollowsEuclideanDomain r A B) :
    Follows (FollowsField (PRel r)) (@ReducedFractions.new c₁ E A) (@ReducedFractions.new c₂ F B) :=
  Follows.bind h.one fun _ _ h1 => Follows.check (h.isZero h1) (.ok (h.reducedFractions hc))

/-- C67: additive groups. -/
theorem C67_additive_group (hc : Cfg.Relaxes c₁ c₂) {A : @AbelianGroupOps c₁ E}
    {B : @AbelianGroupOps c₂ F} (h : FollowsAbelianGroup r A B) :
    FollowsGroup r (@AdditiveGroup.ops c₁ E A) (@AdditiveGroup.ops c₂ F B) := h.additiveGroup hc

/-- C67: multiplicative groups. -/
theorem C67_multiplicative_group (hc : Cfg.Relaxes c₁ c₂) {A : MonoidOps E} {B : MonoidOps F}
    (h : FollowsMonoid r A B) :
    FollowsGroup r (@MultiplicativeGroup.ops c₁ E A) (@MultiplicativeGroup.ops c₂ F B) :=
  h.multiplicativeGroup hc

/-- C67: the divisibility order. -/
theorem C67_divisibility_order {A : @IntegralDomainOps c₁ E} {B : @IntegralDomainOps c₂ F}
    (h : FollowsIntegralDomain r A B) :
    FollowsBoundedOrder r (@DivisibilityOrder.boundedOrder c₁ E A)
      (@DivisibilityOrder.boundedOrder c₂ F B) := h.boundedOrder

/-- C67: the divisibility lattice. -/
theorem C67_divisibility_lattice {A : @EuclideanDomainOps c₁ E} {B : @EuclideanDomainOps c₂ F}
    (h : FollowsEuclideanDomain r A B) :
    FollowsLattice r (@DivisibilityOrder.lattice c₁ E A) (@DivisibilityOrder.lattice c₂ F B) :=
  h.lattice

/-- C67: a field as a Euclidean domain. -/
theorem C67_field_euclidean {A : @FieldOps c₁ E} {B : @FieldOps c₂ F} (h : FollowsField r A B) :
    FollowsEuclideanDomain r (@FieldOps.toEuclidean c₁ E A) (@FieldOps.toEuclidean c₂ F B) :=
  h.toEuclidean

end structures

/-! Cases that meet the hypotheses of C67. -/

section cases

variable [Cfg]

-- from debug to release builds, and from machine integers to integers
example : Cfg.Relaxes ⟨true, true, 64, by decide⟩ ⟨false, false, 64, by decide⟩ :=
  ⟨rfl, fun _ => rfl, fun _ => rfl⟩
example := C67_vectors (.refl _) 3 (CheckedInts.refines 8).follows.toFollowsUnitaryRing

example := C67_vectors_semiring 3 (CheckedInts.refines 8).follows.toFollowsSemiRing

example {c₁ c₂ : Cfg} (hc : Cfg.Relaxes c₁ c₂) := C67_vectors_group hc 2 (Permutations.follows hc 4)

example :=
  C67_vectors_abelian_group (.refl _) 3 (CheckedInts.refines 8).follows.toFollowsAbelianGroup

example := C67_vectors_lattice 3 (CheckedInts.lattice_follows_integers 8)

example :=
  C67_vectors_bounded_order 3 (CheckedInts.refines 8).follows.toFollowsIntegralDomain.boundedOrder

example := C67_matrices (.refl _) 3 ((CheckedInts.refines 8).follows.reducedFractions (.refl _))

example :=
  C67_matrices_new (.refl _) 3 ((CheckedInts.refines 8).follows.reducedFractions (.refl _))

example {c₁ c₂ : Cfg} (hc : Cfg.Relaxes c₁ c₂) (F : FloatFormat) (v : List F.Val) :=
  C67_determinant (v := v) (v' := v) 3 (ApproxFloats.follows hc F) (by rw [lRel_eq])

example := C67_transpose (r := fun (b : Bool) n => b = true ↔ n = 1) 2
  (.cons (by decide) (.cons (by decide) (.cons (by decide) (.cons (by decide) .nil))) :
    LRel _ [true, false, true, false] [1, 0, 1, 2])

example := C67_polynomials_group (CheckedInts.refines 8).follows.toFollowsAbelianGroup

example := C67_polynomials (CheckedInts.refines 8).follows.toFollowsUnitaryRing

-- polynomials in two variables
example := C67_polynomials_domain
  (C67_polynomials_domain (CheckedInts.refines 8).follows.toFollowsIntegralDomain)

example :=
  C67_polynomials_euclidean ((CheckedInts.refines 8).follows.reducedFractions (.refl _))

example := C67_quotient_ring (.refl _) (CheckedInts.refines 8).follows
  (m := SInt.lit (w := 8) 10 (by decide)) (m' := 10) rfl

example := C67_quotient_ring_new (.refl _) (CheckedInts.refines 8).follows
  (m := SInt.lit (w := 8) 10 (by decide)) (m' := 10) rfl

example := C67_quotient_field (.refl _) (CheckedInts.refines 8).follows
  (m := SInt.lit (w := 8) 7 (by decide)) (m' := 7) rfl

example := C67_quotient_field_new (.refl _) (CheckedInts.refines 8).follows
  (m := SInt.lit (w := 8) 7 (by decide)) (m' := 7) rfl

-- rational functions with machine rationals as coefficients
example := C67_fractions (.refl _) (C67_polynomials_euclidean
  (C67_fractions (.refl _) (CheckedInts.refines 8).follows))

example := C67_fractions_new (.refl _) (CheckedInts.refines 8).follows

example := C67_additive_group (.refl _) (CheckedInts.refines 8).follows.toFollowsAbelianGroup

example := C67_multiplicative_group (.refl ‹Cfg›) (CheckedInts.refines 8).follows.toFollowsMonoid

example := C67_divisibility_order (CheckedInts.refines 8).follows.toFollowsIntegralDomain

example := C67_divisibility_lattice (CheckedInts.refines 8).follows

example {c₁ c₂ : Cfg} (hc : Cfg.Relaxes c₁ c₂) (F : FloatFormat) :=
  C67_field_euclidean (c₁ := c₁) (c₂ := c₂) (ApproxFloats.follows hc F)

end cases

/-! ## C68: machine integers against integers -/

section machine

variable [Cfg] (w : ℕ) [Width w]

/-- C68: whatever a method of `CheckedInts` returns, the same method of `ZZ` returns. -/
theorem C68_integers : FollowsEuclideanDomain (SRep w) (CheckedInts.euclidean w) Integers.euclidean :=
  (CheckedInts.refines w).follows

-- `100 + 27` returns in both, `100 + 28` only in the second
example : letI : Cfg := ⟨true, true, 64, by decide⟩
    (CheckedInts.euclidean 8).add (SInt.lit 100 (by decide)) (SInt.lit 27 (by decide)) =
      .ok (SInt.lit 127 (by decide)) ∧
    (CheckedInts.euclidean 8).add (SInt.lit 100 (by decide)) (SInt.lit 28 (by decide)) = .panic ∧
    Integers.euclidean.add 100 28 = .ok 128 := ⟨rfl, rfl, rfl⟩

omit [Cfg] [Width w] in
/-- C68: the order of the machine integers. -/
theorem C68_integers_lattice : FollowsLattice (SRep w) (CheckedInts.lattice w) Integers.lattice :=
  CheckedInts.lattice_follows_integers w

omit [Cfg] in
/-- C68: unsigned machine integers against natural numbers. -/
theorem C68_uints (w : ℕ) [UWidth w] :
    FollowsSemiRing (URep w) (CheckedUints.semiRing w) Naturals.semiRing ∧
    FollowsLattice (URep w) (CheckedUints.lattice w) Naturals.lattice :=
  ⟨CheckedUints.follows_naturals, CheckedUints.lattice_follows_naturals w⟩

/-- C68: rational numbers with machine integers as numerators and denominators. -/
theorem C68_fractions :
    FollowsField (PRel (SRep w)) (ReducedFractions.ops (CheckedInts.euclidean w))
      ReducedFractions.QQ := C67_fractions (.refl _) (C68_integers w)

/-- C68: matrices of such rational numbers. -/
theorem C68_matrices_of_fractions (size : ℕ) :
    FollowsUnitaryRing (LRel (PRel (SRep w)))
      (MatrixRing.ops (ReducedFractions.ops (CheckedInts.euclidean w)) size)
      (MatrixRing.ops ReducedFractions.QQ size) := C67_matrices (.refl _) size (C68_fractions w)

/-- C68: if the determinant over machine fractions returns then it is the one over `QQ`. -/
theorem C68_determinant (size : ℕ) {v : List (SInt w × SInt w)} {p : SInt w × SInt w}
    (h : MatrixRing.determinant (ReducedFractions.ops (CheckedInts.euclidean w)) size v = .ok p) :
    MatrixRing.determinant ReducedFractions.QQ size (v.map fun q => (q.1.1, q.2.1)) =
      .ok (p.1.1, p.2.1) := by
  have hv : LRel (PRel (SRep w)) v (v.map fun q => (q.1.1, q.2.1)) := by
    induction v with
    | nil => exact .nil
    | cons q v ih => exact .cons ⟨rfl, rfl⟩ (List.forall₂_map_right_iff.2
        (List.forall₂_same.2 fun _ _ => ⟨rfl, rfl⟩))
  obtain ⟨⟨n, d⟩, h1, h2, h3⟩ := C67_determinant size (C68_fractions w) hv p h
  rw [h1, ← show p.1.1 = n from h2, ← show p.2.1 = d from h3]

/-- C68: polynomials with machine integers as coefficients. -/
theorem C68_polynomials :
    FollowsIntegralDomain (LRel (SRep w)) (PolynomialAlgebra.integralDomain (CheckedInts.integralDomain w))
      (PolynomialAlgebra.integralDomain Integers.integralDomain) :=
  C67_polynomials_domain (C68_integers w).toFollowsIntegralDomain

/-- C68: vectors of machine integers. -/
theorem C68_vectors (len : ℕ) :
    FollowsUnitaryRing (LRel (SRep w)) (VectorAlgebra.unitaryRing len (CheckedInts.unitaryRing w))
      (VectorAlgebra.unitaryRing len Integers.unitaryRing) :=
  C67_vectors (.refl _) len (C68_integers w).toFollowsUnitaryRing

example : letI : Cfg := ⟨true, true, 64, by decide⟩
    (VectorAlgebra.unitaryRing 2 (CheckedInts.unitaryRing 8)).mul
      [SInt.lit 10 (by decide), SInt.lit 3 (by decide)]
      [SInt.lit 12 (by decide), SInt.lit (-4) (by decide)] =
      .ok [SInt.lit 120 (by decide), SInt.lit (-12) (by decide)] := rfl

/-- C68: residues of machine integers. -/
theorem C68_quotient_ring (m : SInt w) :
    FollowsUnitaryRing (SRep w) (QuotientRing.ops (CheckedInts.euclidean w) m)
      (QuotientRing.ops Integers.euclidean m.1) := C67_quotient_ring (.refl _) (C68_integers w) rfl

/-- C68: the quotient field of the machine integers. -/
theorem C68_quotient_field (m : SInt w) :
    FollowsField (SRep w) (QuotientField.ops (CheckedInts.euclidean w) m)
      (QuotientField.ops Integers.euclidean m.1) := C67_quotient_field (.refl _) (C68_integers w) rfl

/-- C68: the extension field given by a polynomial over residues of machine integers, as in the tests
of the crate. -/
theorem C68_extension_field (m : SInt w) {f : List (SInt w)} {f' : List ℤ} (hf : LRel (SRep w) f f') :
    FollowsField (LRel (SRep w))
      (QuotientField.ops (PolynomialAlgebra.euclidean
        (QuotientField.ops (CheckedInts.euclidean w) m)) f)
      (QuotientField.ops (PolynomialAlgebra.euclidean
        (QuotientField.ops Integers.euclidean m.1)) f') :=
  C67_quotient_field (.refl _) (C67_polynomials_euclidean (C68_quotient_field w m)) hf

-- the field of 25 elements as the quotient by `x ^ 2 + 2`
example := C68_extension_field 8 (SInt.lit 5 (by decide))
  (f := [SInt.lit 2 (by decide), SInt.lit 0 (by decide), SInt.lit 1 (by decide)]) (f' := [2, 0, 1])
  (.cons rfl (.cons rfl (.cons rfl .nil)))

/-- C68: the groups of units and the additive groups. -/
theorem C68_groups :
    FollowsGroup (SRep w) (AdditiveGroup.ops (CheckedInts.euclidean w).toAbelianGroupOps)
      (AdditiveGroup.ops Integers.euclidean.toAbelianGroupOps) ∧
    FollowsGroup (SRep w) (MultiplicativeGroup.ops (CheckedInts.euclidean w).toMonoidOps)
      (MultiplicativeGroup.ops Integers.euclidean.toMonoidOps) :=
  ⟨C67_additive_group (.refl _) (C68_integers w).toFollowsAbelianGroup,
    C67_multiplicative_group (.refl _) (C68_integers w).toFollowsMonoid⟩

/-- C68: divisibility. -/
theorem C68_divisibility :
    FollowsBoundedOrder (SRep w) (DivisibilityOrder.boundedOrder (CheckedInts.integralDomain w))
      (DivisibilityOrder.boundedOrder Integers.integralDomain) ∧
    FollowsLattice (SRep w) (DivisibilityOrder.lattice (CheckedInts.euclidean w))
      (DivisibilityOrder.lattice Integers.euclidean) :=
  ⟨C67_divisibility_order (C68_integers w).toFollowsIntegralDomain,
    C67_divisibility_lattice (C68_integers w)⟩

end machine

/-! ## C69: build profiles -/

section profiles

variable {c₁ c₂ : Cfg}

/-- C69: `ZZ` behaves the same in all builds. -/
theorem C69_integers (c₁ c₂ : Cfg) :
    FollowsEuclideanDomain Eq (@Integers.euclidean c₁) (@Integers.euclidean c₂) := Integers.follows

/-- C69: the two-element field behaves the same in all builds. -/
theorem C69_two_element (c₁ c₂ : Cfg) :
    FollowsField Eq (@TwoElementAlgebra.field c₁) (@TwoElementAlgebra.field c₂) :=
  TwoElementAlgebra.follows

/-- C69: so do the machine integers, on every target, although `try_div`, `quo_rem` and `reduced` use
unchecked arithmetic. -/
theorem C69_checked_ints (c₁ c₂ : Cfg) (w : ℕ) [Width w] :
    FollowsEuclideanDomain Eq (@CheckedInts.euclidean c₁ w _) (@CheckedInts.euclidean c₂ w _) := by
  have h := CheckedInts.follows_euclidean (c₁ := c₁) (c₂ := c₂) (le_refl w)
  have he : SameVal w w = Eq := by
    funext a b
    exact propext Subtype.ext_iff.symm
  rwa [he] at h

/-- C69: floating-point numbers, of which `power` negates an `isize`: removing checks only removes
panics. -/
theorem C69_floats (hc : Cfg.Relaxes c₁ c₂) (F : FloatFormat) :
    FollowsField Eq (@ApproxFloats.field c₁ F) (@ApproxFloats.field c₂ F) := ApproxFloats.follows hc F

-- `power` of the least `isize` panics in a debug build only
example : (letI : Cfg := ⟨true, true, 64, by decide⟩; isizeNeg (-9223372036854775808)) = .panic ∧
    (letI : Cfg := ⟨false, true, 64, by decide⟩; isizeNeg (-9223372036854775808)) =
      .ok (-9223372036854775808) := ⟨rfl, rfl⟩

/-- C69: permutations, which have debug assertions. -/
theorem C69_permutations (hc : Cfg.Relaxes c₁ c₂) (size : UInt32) :
    FollowsGroup Eq (@Permutations.ops c₁ size) (@Permutations.ops c₂ size) :=
  Permutations.follows hc size

-- on a vector of the wrong length the debug build panics and the release build returns
example : (@Permutations.ops ⟨true, true, 64, by decide⟩ 2).isOne [0] = .panic ∧
    (@Permutations.ops ⟨true, false, 64, by decide⟩ 2).isOne [0] = .ok true := by decide
example (size : UInt32) := C69_permutations (c₁ := ⟨true, true, 64, by decide⟩)
  (c₂ := ⟨false, false, 64, by decide⟩) ⟨rfl, fun _ => rfl, fun _ => rfl⟩ size

/-- C69: rational numbers, matrices of them and their determinants. -/
theorem C69_rationals (hc : Cfg.Relaxes c₁ c₂) (size : ℕ) :
    FollowsField Eq (@ReducedFractions.QQ c₁) (@ReducedFractions.QQ c₂) ∧
    FollowsUnitaryRing Eq (@MatrixRing.ops c₁ _ (@ReducedFractions.QQ c₁) size)
      (@MatrixRing.ops c₂ _ (@ReducedFractions.QQ c₂) size) ∧
    ∀ v p, @MatrixRing.determinant c₁ _ (@ReducedFractions.QQ c₁) size v = .ok p →
      @MatrixRing.determinant c₂ _ (@ReducedFractions.QQ c₂) size v = .ok p := by
  have h : FollowsField Eq (@ReducedFractions.QQ c₁) (@ReducedFractions.QQ c₂) := by
    have := C67_fractions hc (C69_integers c₁ c₂)
    rwa [pRel_eq] at this
  have h2 := C67_matrices hc size h
  rw [lRel_eq] at h2
  refine ⟨h, h2, fun v p hd => ?_⟩
  obtain ⟨q, h1, h2⟩ := C67_determinant size h (v := v) (v' := v) (by rw [lRel_eq]) p hd
  rw [h1, h2]

example := C69_rationals (c₁ := ⟨true, true, 64, by decide⟩) (c₂ := ⟨false, false, 64, by decide⟩)
  ⟨rfl, fun _ => rfl, fun _ => rfl⟩ 3

/-- C69: a finite extension of a prime field over machine integers. -/
theorem C69_extension_field (hc : Cfg.Relaxes c₁ c₂) (w : ℕ) [Width w] (m : SInt w)
    (f : List (SInt w)) :
    FollowsField Eq
      (@QuotientField.ops c₁ _ (@PolynomialAlgebra.euclidean _ c₁
        (@QuotientField.ops c₁ _ (@CheckedInts.euclidean c₁ w _) m)) f)
      (@QuotientField.ops c₂ _ (@PolynomialAlgebra.euclidean _ c₂
        (@QuotientField.ops c₂ _ (@CheckedInts.euclidean c₂ w _) m)) f) := by
  have h1 := C67_polynomials_euclidean (C67_quotient_field hc (C69_checked_ints c₁ c₂ w) (rfl : m = m))
  rw [lRel_eq] at h1
  exact C67_quotient_field hc h1 rfl

example := C69_extension_field (c₁ := ⟨true, true, 64, by decide⟩)
  (c₂ := ⟨false, false, 64, by decide⟩) ⟨rfl, fun _ => rfl, fun _ => rfl⟩ 8
  (SInt.lit 5 (by decide)) [SInt.lit 2 (by decide), SInt.lit 0 (by decide), SInt.lit 1 (by decide)]

end profiles

/-! ## C70: wider machine integers -/

section widening

variable {c₁ c₂ : Cfg} {w w' : ℕ}

/-- C70: whatever the machine integers of one width return, those of a larger width return. -/
theorem C70_integers [Width w] [Width w'] (hw : w ≤ w') :
    FollowsEuclideanDomain (SameVal w w') (@CheckedInts.euclidean c₁ w _)
      (@CheckedInts.euclidean c₂ w' _) := CheckedInts.follows_euclidean hw

-- `i8` and `i16`
example := C70_integers (c₁ := c₁) (c₂ := c₂) (w := 8) (w' := 16) (by decide)
-- the negative of the least `i8` is an `i16`
example : letI : Cfg := ⟨true, true, 64, by decide⟩
    (CheckedInts.euclidean 8).neg (SInt.lit (-128) (by decide)) = .panic ∧
    (CheckedInts.euclidean 16).neg (SInt.lit (-128) (by decide)) =
      .ok ⟨128, by decide⟩ := ⟨rfl, rfl⟩

/-- C70: the order. -/
theorem C70_integers_lattice (w w' : ℕ) :
    FollowsLattice (SameVal w w') (CheckedInts.lattice w) (CheckedInts.lattice w') :=
  CheckedInts.lattice_follows w w'

/-- C70: unsigned machine integers. -/
theorem C70_uints [UWidth w] [UWidth w'] (hw : w ≤ w') :
    FollowsSemiRing (SameUVal w w') (CheckedUints.semiRing w) (CheckedUints.semiRing w') ∧
    FollowsLattice (SameUVal w w') (CheckedUints.lattice w) (CheckedUints.lattice w') :=
  ⟨CheckedUints.follows_semiRing hw, CheckedUints.lattice_follows w w'⟩

example := C70_uints (w := 8) (w' := 16) (by decide)

/-- C70: `rem`, `reduced`, `gcd`, `lcm` and `extended_gcd` of the wider integers on the same values. -/
theorem C70_gcd [Width w] [Width w'] (hw : w ≤ w') {a b : SInt w} {a' b' : SInt w'}
    (ha : a.1 = a'.1) (hb : b.1 = b'.1) :
    Follows (SameVal w w') (@EuclideanDomainOps.gcd c₁ _ (@CheckedInts.euclidean c₁ w _) a b)
      (@EuclideanDomainOps.gcd c₂ _ (@CheckedInts.euclidean c₂ w' _) a' b') ∧
    Follows (SameVal w w') (@EuclideanDomainOps.lcm c₁ _ (@CheckedInts.euclidean c₁ w _) a b)
      (@EuclideanDomainOps.lcm c₂ _ (@CheckedInts.euclidean c₂ w' _) a' b') ∧
    Follows (fun p q => SameVal w w' p.1 q.1 ∧ SameVal w w' p.2.1 q.2.1 ∧ SameVal w w' p.2.2 q.2.2)
      (@EuclideanDomainOps.extendedGcd c₁ _ (@CheckedInts.euclidean c₁ w _) a b)
      (@EuclideanDomainOps.extendedGcd c₂ _ (@CheckedInts.euclidean c₂ w' _) a' b') := by
  have h := C70_integers (c₁ := c₁) (c₂ := c₂) (w := w) (w' := w') hw
  exact ⟨h.gcd ha hb, h.lcm ha hb, h.extendedGcd ha hb⟩

example := C70_gcd (c₁ := c₁) (c₂ := c₂) (w := 8) (w' := 16) (a := SInt.lit (-128) (by decide))
  (b := SInt.lit 6 (by decide)) (a' := SInt.lit (-128) (by decide)) (b' := SInt.lit 6 (by decide))
  (by decide) rfl rfl

/-- C70: rational numbers and matrices of them. -/
theorem C70_fractions [Width w] [Width w'] (hc : Cfg.Relaxes c₁ c₂) (hw : w ≤ w') (size : ℕ) :
    FollowsField (PRel (SameVal w w')) (@ReducedFractions.ops c₁ _ (@CheckedInts.euclidean c₁ w _))
      (@ReducedFractions.ops c₂ _ (@CheckedInts.euclidean c₂ w' _)) ∧
    FollowsUnitaryRing (LRel (PRel (SameVal w w')))
      (@MatrixRing.ops c₁ _ (@ReducedFractions.ops c₁ _ (@CheckedInts.euclidean c₁ w _)) size)
      (@MatrixRing.ops c₂ _ (@ReducedFractions.ops c₂ _ (@CheckedInts.euclidean c₂ w' _)) size) :=
  have h := C67_fractions hc (C70_integers (c₁ := c₁) (c₂ := c₂) hw)
  ⟨h, C67_matrices hc size h⟩

example (hc : Cfg.Relaxes c₁ c₂) := C70_fractions hc (w := 64) (w' := 128) (by decide) 3

/-- C70: polynomials. -/
theorem C70_polynomials [Width w] [Width w'] (hw : w ≤ w') :
    FollowsIntegralDomain (LRel (SameVal w w'))
      (@PolynomialAlgebra.integralDomain _ c₁ (@CheckedInts.integralDomain c₁ w _))
      (@PolynomialAlgebra.integralDomain _ c₂ (@CheckedInts.integralDomain c₂ w' _)) :=
  C67_polynomials_domain (C70_integers (c₁ := c₁) (c₂ := c₂) hw).toFollowsIntegralDomain

example := C70_polynomials (c₁ := c₁) (c₂ := c₂) (w := 64) (w' := 128) (by decide)

/-- C70: residues. -/
theorem C70_quotient_field [Width w] [Width w'] (hc : Cfg.Relaxes c₁ c₂) (hw : w ≤ w') {m : SInt w}
    {m' : SInt w'} (hm : m.1 = m'.1) :
    FollowsField (SameVal w w') (@QuotientField.ops c₁ _ (@CheckedInts.euclidean c₁ w _) m)
      (@QuotientField.ops c₂ _ (@CheckedInts.euclidean c₂ w' _) m') :=
  C67_quotient_field hc (C70_integers hw) hm

example (hc : Cfg.Relaxes c₁ c₂) := C70_quotient_field hc (w := 8) (w' := 16)
  (m := SInt.lit 7 (by decide)) (m' := SInt.lit 7 (by decide)) (by decide) rfl

end widening

end Abstalg
