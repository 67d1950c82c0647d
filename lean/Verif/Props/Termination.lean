import Verif.Proofs.TermBase
import Verif.Proofs.Cost

/-! # C75: termination on all objects

The contracts of the other properties speak about members. Here nothing is assumed about the objects or
about the laws of the base: vectors may have any length, polynomials leading zeros, floats may be NaN and
moduli zero. -/

set_option autoImplicit false

namespace Abstalg

variable [Cfg] {E : Type}

/-- C75: all methods of the basic algebras return or panic on all objects. -/
theorem C75_basic :
    StopsEuclideanDomain Integers.euclidean ∧ StopsLattice Integers.lattice ∧
    StopsSemiRing Naturals.semiRing ∧ StopsLattice Naturals.lattice ∧
    (∀ (w : ℕ) [Width w], StopsEuclideanDomain (CheckedInts.euclidean w) ∧
      StopsLattice (CheckedInts.lattice w)) ∧
    (∀ (w : ℕ) [UWidth w], StopsSemiRing (CheckedUints.semiRing w) ∧
      StopsLattice (CheckedUints.lattice w)) ∧
    (∀ F : FloatFormat, StopsField (ApproxFloats.field F) ∧
      ∀ pick, StopsLattice (ApproxFloats.lattice F pick)) ∧
    (∀ n, StopsGroup (Permutations.ops n)) ∧
    StopsField TwoElementAlgebra.field ∧ StopsBooleanAlgebra TwoElementAlgebra.booleanAlgebra :=
  ⟨Integers.stops_euclidean, Integers.stops_lattice, Naturals.stops_semiRing, Naturals.stops_lattice,
    fun w _ => ⟨CheckedInts.stops_euclidean w, CheckedInts.stops_lattice w⟩,
    fun w _ => ⟨CheckedUints.stops_semiRing w, CheckedUints.stops_lattice w⟩,
    fun F => ⟨ApproxFloats.stops_field F, ApproxFloats.stops_lattice F⟩, Permutations.stops_ops,
    TwoElementAlgebra.stops_field, TwoElementAlgebra.stops_booleanAlgebra⟩

/-- The least `i8` and minus one, on which the division overflows. -/
example : Stops ((CheckedInts.euclidean 8).gcd ⟨-128, by decide⟩ ⟨-1, by decide⟩) :=
  (C75_basic.2.2.2.2.1 8).1.gcd _ _

/-- C75: the methods of vectors return or panic if those of the coordinates do. -/
theorem C75_vectors (len : ℕ) :
    (∀ {A : DomainOps E}, StopsDomain A → StopsDomain (VectorAlgebra.domain len A)) ∧
    (∀ {A : SemigroupOps E}, StopsSemigroup A → StopsSemigroup (VectorAlgebra.semigroup len A)) ∧
    (∀ {A : MonoidOps E}, StopsMonoid A → StopsMonoid (VectorAlgebra.monoid len A)) ∧
    (∀ {A : GroupOps E}, StopsGroup A → StopsGroup (VectorAlgebra.group len A)) ∧
    (∀ {A : CommutativeMonoidOps E}, StopsCommutativeMonoid A →
      StopsCommutativeMonoid (VectorAlgebra.commutativeMonoid len A)) ∧
    (∀ {A : AbelianGroupOps E}, StopsAbelianGroup A →
      StopsAbelianGroup (VectorAlgebra.abelianGroup len A)) ∧
    (∀ {A : SemiRingOps E}, StopsSemiRing A → StopsSemiRing (VectorAlgebra.semiRing len A)) ∧
    (∀ {A : UnitaryRingOps E}, StopsUnitaryRing A →
      StopsUnitaryRing (VectorAlgebra.unitaryRing len A)) ∧
    (∀ {A : PartialOrderOps E}, StopsPartialOrder A →
      StopsPartialOrder (VectorAlgebra.partialOrder len A)) ∧
    (∀ {A : BoundedOrderOps E}, StopsBoundedOrder A →
      StopsBoundedOrder (VectorAlgebra.boundedOrder len A)) ∧
    (∀ {A : LatticeOps E}, StopsLattice A → StopsLattice (VectorAlgebra.lattice len A)) ∧
    (∀ {A : BooleanAlgebraOps E}, StopsBooleanAlgebra A →
      StopsBooleanAlgebra (VectorAlgebra.booleanAlgebra len A)) :=
  ⟨VectorAlgebra.stops_domain len, VectorAlgebra.stops_semigroup len, VectorAlgebra.stops_monoid len,
    VectorAlgebra.stops_group len, VectorAlgebra.stops_commutativeMonoid len,
    VectorAlgebra.stops_abelianGroup len, VectorAlgebra.stops_semiRing len,
    VectorAlgebra.stops_unitaryRing len, VectorAlgebra.stops_partialOrder len,
    VectorAlgebra.stops_boundedOrder len, VectorAlgebra.stops_lattice len,
    VectorAlgebra.stops_booleanAlgebra len⟩

example (v w : List FloatFormat.f64.Val) :
    Stops ((VectorAlgebra.unitaryRing 3 (ApproxFloats.field .f64).toUnitaryRingOps).mul v w) :=
  ((C75_vectors 3).2.2.2.2.2.2.2.1 (C75_basic.2.2.2.2.2.2.1 .f64).1.toStopsUnitaryRing).mul v w

/-- C75: the methods of matrices, and the elimination, return or panic if those of the entries do, on
vectors of any length and with row numbers of any size. -/
theorem C75_matrices {A : FieldOps E} (h : StopsField A) (size : ℕ) :
    StopsUnitaryRing (MatrixRing.ops A size) ∧ Stops (MatrixRing.new A size) ∧ ∀ v : List E,
      Stops (MatrixRing.determinant A size v) ∧ Stops (MatrixRing.transpose size v) ∧
      ∀ i j, Stops (MatrixRing.swapRows size v i j) ∧ Stops (MatrixRing.findRow A size v i) ∧
        ∀ c, Stops (MatrixRing.mulRow A size v i c) ∧ Stops (MatrixRing.addRows A size v i j c) :=
  ⟨MatrixRing.stops_ops h size, Stops.bind (.assert _) fun _ => .pure _, fun v =>
    ⟨MatrixRing.stops_determinant h size v, MatrixRing.stops_transpose size v, fun i j =>
      ⟨MatrixRing.stops_swapRows size v i j, MatrixRing.stops_findRow h size v i, fun c =>
        ⟨MatrixRing.stops_mulRow h size v i c, MatrixRing.stops_addRows h size v i j c⟩⟩⟩⟩

example (v : List FloatFormat.f64.Val) :
    Stops ((MatrixRing.ops (ApproxFloats.field .f64) 5).tryInv v) :=
  (C75_matrices (C75_basic.2.2.2.2.2.2.1 .f64).1 5).1.tryInv v

/-- C75: the methods of polynomials return or panic if those of the coefficients do. In particular `gcd`
and `extended_gcd` need no law of the base field. -/
theorem C75_polynomials :
    (∀ {A : AbelianGroupOps E}, StopsAbelianGroup A →
      StopsAbelianGroup (PolynomialAlgebra.abelianGroup A)) ∧
    (∀ {A : UnitaryRingOps E}, StopsUnitaryRing A →
      StopsUnitaryRing (PolynomialAlgebra.unitaryRing A)) ∧
    (∀ {A : IntegralDomainOps E}, StopsIntegralDomain A →
      StopsIntegralDomain (PolynomialAlgebra.integralDomain A)) ∧
    (∀ {A : FieldOps E}, StopsField A → StopsEuclideanDomain (PolynomialAlgebra.euclidean A)) :=
  ⟨PolynomialAlgebra.stops_abelianGroup, PolynomialAlgebra.stops_unitaryRing,
    PolynomialAlgebra.stops_integralDomain, PolynomialAlgebra.stops_euclidean⟩

example (F : FloatFormat) (v w : List F.Val) :
    Stops ((PolynomialAlgebra.euclidean (ApproxFloats.field F)).extendedGcd v w) :=
  (C75_polynomials.2.2.2 (C75_basic.2.2.2.2.2.2.1 F).1).extendedGcd v w

omit [Cfg] in
theorem gcdWithin_stops {isZero : E → Res Bool} {rem : E → E → Res E} (size : E → ℕ)
    (h0 : ∀ a, Stops (isZero a)) (h1 : ∀ a b, Stops (rem a b))
    (h2 : ∀ a b r, rem a b = .ok r → size r < size b) (n : ℕ) (a b : E) (hn : size b < n) :
    Stops (gcdWithin isZero rem n a b) := by
  induction n generalizing a b with
  | zero => omega
  | succ n ih =>
    rw [gcdWithin]
    refine Stops.bind' (h0 b) fun z _ => ?_
    cases z with
    | true => exact .ok _
    | false =>
      refine Stops.bind' (h1 a b) fun r hr => ih _ _ ?_
      have := h2 a b r hr
      omega

omit [Cfg] in
theorem extendedGcdWithin_stops {isZero : E → Res Bool} {one zero : Res E}
    {quoRem : E → E → Res (E × E)} {sub mul : E → E → Res E} (size : E → ℕ)
    (h0 : ∀ a, Stops (isZero a)) (h1 : ∀ a b, Stops (quoRem a b)) (hone : Stops one)
    (hzero : Stops zero) (hsub : ∀ a b, Stops (sub a b)) (hmul : ∀ a b, Stops (mul a b))
    (h2 : ∀ a b q r, quoRem a b = .ok (q, r) → size r < size b) (n : ℕ) (a b : E) (hn : size b < n) :
    Stops (extendedGcdWithin isZero one zero quoRem sub mul n a b) := by
  induction n generalizing a b with
  | zero => omega
  | succ n ih =>
    rw [extendedGcdWithin]
    refine Stops.bind' (h0 b) fun z _ => ?_
    cases z with
    | true => exact Stops.bind hone fun _ => Stops.bind hzero fun _ => .ok _
    | false =>
      refine Stops.bind' (h1 a b) fun r hr => ?_
      obtain ⟨q, r⟩ := r
      have := h2 a b q r hr
      exact Stops.bind (ih _ _ (by omega)) fun t => Stops.bind (hmul _ _) fun _ =>
        Stops.bind (hsub _ _) fun _ => .ok _

/-- C75: whatever the base computes, `gcd` of polynomials evaluates its condition at most once more than
the second operand has coefficients, and `extended_gcd` nests at most as many calls. -/
theorem C75_polynomial_steps {A : FieldOps E} (h : StopsField A) (v w : List E) :
    (PolynomialAlgebra.euclidean A).gcdWithin (w.length + 1) v w =
      (PolynomialAlgebra.euclidean A).gcd v w ∧
    (PolynomialAlgebra.euclidean A).extendedGcdWithin (w.length + 1) v w =
      (PolynomialAlgebra.euclidean A).extendedGcd v w := by
  have h' := PolynomialAlgebra.stops_euclidean h
  refine ⟨(gcdWithin_sound _ _ _ v w).resolve_left ?_,
    (extendedGcdWithin_sound _ _ _ _ _ _ _ v w).resolve_left ?_⟩
  · refine gcdWithin_stops List.length h'.isZero h'.rem (fun a b r hr => ?_) _ _ _ (Nat.lt_succ_self _)
    obtain ⟨⟨q, s⟩, hs, hr⟩ := ok_of_bind hr
    cases hr
    exact PolynomialAlgebra.quoRem_shorter hs
  · exact extendedGcdWithin_stops List.length h'.isZero h'.quoRem h'.one h'.zero h'.sub h'.mul
      (fun a b q r hr => PolynomialAlgebra.quoRem_shorter hr) _ _ _ (Nat.lt_succ_self _)

example (F : FloatFormat) (v : List F.Val) :
    (PolynomialAlgebra.euclidean (ApproxFloats.field F)).gcdWithin 3 v [.nan, .nan] =
      (PolynomialAlgebra.euclidean (ApproxFloats.field F)).gcd v [.nan, .nan] :=
  (C75_polynomial_steps (C75_basic.2.2.2.2.2.2.1 F).1 v [.nan, .nan]).1

/-- C75: the methods of quotients and fractions, and the constructors, return or panic if those of the base
do, for every modulus. -/
theorem C75_quotients {A : EuclideanDomainOps E} (h : StopsEuclideanDomain A) :
    (∀ m, StopsUnitaryRing (QuotientRing.ops A m) ∧ Stops (QuotientRing.new A m) ∧
      StopsField (QuotientField.ops A m) ∧ Stops (QuotientField.new A m)) ∧
    StopsField (ReducedFractions.ops A) ∧ Stops (ReducedFractions.new A) ∧
    ∀ a, Stops (ReducedFractions.reduce A a) := by
  refine ⟨fun m => ⟨QuotientRing.stops_ops h m, ?_, QuotientField.stops_ops h m, ?_⟩,
    ReducedFractions.stops_ops h, ?_, fun a => ?_⟩
  · unfold QuotientRing.new; stops h
  · unfold QuotientField.new; stops h
  · unfold ReducedFractions.new; stops h
  · unfold ReducedFractions.reduce; stops h

/-- Inverses modulo zero. -/
example (a : ℤ) : Stops ((QuotientField.ops Integers.euclidean 0).inv a) :=
  ((C75_quotients C75_basic.1).1 0).2.2.1.inv a

/-- C75: the methods of additive groups, multiplicative groups and divisibility orders return or panic if
those of the base do. -/
theorem C75_wrappers :
    (∀ {A : AbelianGroupOps E}, StopsAbelianGroup A → StopsGroup (AdditiveGroup.ops A)) ∧
    (∀ {A : MonoidOps E}, StopsMonoid A → StopsGroup (MultiplicativeGroup.ops A)) ∧
    (∀ {A : IntegralDomainOps E}, StopsIntegralDomain A →
      StopsBoundedOrder (DivisibilityOrder.boundedOrder A)) ∧
    (∀ {A : EuclideanDomainOps E}, StopsEuclideanDomain A →
      StopsLattice (DivisibilityOrder.lattice A)) :=
  ⟨AdditiveGroup.stops_ops, MultiplicativeGroup.stops_ops, DivisibilityOrder.stops_boundedOrder,
    DivisibilityOrder.stops_lattice⟩

example (a b : ℤ) : Stops ((DivisibilityOrder.lattice Integers.euclidean).join a b) :=
  (C75_wrappers.2.2.2 C75_basic.1).join a b

/-- C75: the blanket implementations for fields return or panic if the methods of the field do and zero is
not found to differ from zero. -/
theorem C75_blanket {A : FieldOps E} (h : StopsField A) :
    StopsIntegralDomain A.toIntegralDomain ∧
    (SoundConstants A.toUnitaryRingOps → StopsEuclideanDomain A.toEuclidean) :=
  ⟨FieldOps.stops_toIntegralDomain h, fun h' => FieldOps.stops_toEuclidean h h'.isZero⟩

omit [Cfg] in
theorem bind_ne_false {c : Res Bool} {f : Bool → Res Bool} (h : c ≠ .ok false)
    (hf : f true ≠ .ok false) : (c >>= f) ≠ .ok false := by
  intro hc
  obtain ⟨b, hb, hc⟩ := ok_of_bind hc
  cases b with
  | true => exact hf hc
  | false => exact h hb

omit [Cfg] in
theorem ne_false {b : Bool} (h : b = true) : (Res.ok b : Res Bool) ≠ .ok false := by
  subst h
  nofun

/-- C75: zero and one are not found to differ from themselves in the basic algebras. -/
theorem C75_constants :
    SoundConstants Integers.unitaryRing ∧
    (∀ (w : ℕ) [Width w], SoundConstants (CheckedInts.unitaryRing w)) ∧
    (∀ F, SoundConstants (ApproxFloats.field F).toUnitaryRingOps) ∧
    SoundConstants TwoElementAlgebra.field.toUnitaryRingOps := by
  refine ⟨⟨?_, ?_, ?_⟩, fun w _ => ⟨?_, ?_, ?_⟩, fun F => ⟨?_, ?_, ?_⟩, ⟨?_, ?_, ?_⟩⟩
  iterate 3 · rintro z ⟨⟩; exact ne_false (by decide)
  iterate 3 · rintro z ⟨⟩; exact ne_false (beq_self_eq_true _)
  iterate 3 · rintro z ⟨⟩; exact ne_false (by simp [FloatFormat.Val.eq, FloatFormat.Val.zero, FloatFormat.Val.one])
  iterate 3 · rintro z ⟨⟩; exact ne_false (by decide)

example : SoundConstants (CheckedInts.unitaryRing 8) := C75_constants.2.1 8

/-- C75: zero and one are not found to differ from themselves in polynomials, quotients and fractions over
an algebra where they are not. -/
theorem C75_constants_kept :
    (∀ {A : UnitaryRingOps E}, SoundConstants A → SoundConstants (PolynomialAlgebra.unitaryRing A)) ∧
    (∀ {A : EuclideanDomainOps E}, SoundConstants A.toUnitaryRingOps →
      (∀ m, SoundConstants (QuotientRing.ops A m) ∧
        SoundConstants (QuotientField.ops A m).toUnitaryRingOps) ∧
      SoundConstants (ReducedFractions.ops A).toUnitaryRingOps) := by
  refine ⟨fun h => ⟨?_, ?_, ?_⟩,
    fun {A} h => ⟨fun m => ⟨⟨?_, ?_, ?_⟩, ⟨?_, ?_, ?_⟩⟩, ⟨?_, ?_, ?_⟩⟩⟩
  · rintro z ⟨⟩; exact ne_false rfl
  · rintro z ⟨⟩; exact ne_false rfl
  · intro z hz
    obtain ⟨_, _, hz⟩ := ok_of_bind hz
    obtain ⟨_, _, hz⟩ := ok_of_bind hz
    obtain ⟨_, _, hz⟩ := ok_of_bind hz
    obtain ⟨e, he, hz⟩ := ok_of_bind hz
    cases hz
    exact bind_ne_false (h.one _ he) (ne_false rfl)
  · exact h.zero
  · intro z hz
    have hz : A.zero = .ok z := hz
    show (A.zero >>= fun o => A.equals z o) ≠ _
    rw [hz]
    exact h.zero z hz
  · exact h.one
  · exact h.zero
  · intro z hz
    have hz : A.zero = .ok z := hz
    show (A.zero >>= fun o => A.equals z o) ≠ _
    rw [hz]
    exact h.zero z hz
  · exact h.one
  · intro z hz
    obtain ⟨a, ha, hz⟩ := ok_of_bind hz
    obtain ⟨b, hb, hz⟩ := ok_of_bind hz
    cases hz
    exact bind_ne_false (h.zero _ ha) (h.one _ hb)
  · intro z hz
    show ((ReducedFractions.ops A).zero >>= fun o => (ReducedFractions.ops A).equals z o) ≠ _
    rw [hz]
    obtain ⟨a, ha, hz⟩ := ok_of_bind hz
    obtain ⟨b, hb, hz⟩ := ok_of_bind hz
    cases hz
    exact bind_ne_false (h.zero _ ha) (h.one _ hb)
  · intro z hz
    obtain ⟨a, ha, hz⟩ := ok_of_bind hz
    obtain ⟨b, hb, hz⟩ := ok_of_bind hz
    cases hz
    exact bind_ne_false (h.one _ ha) (h.one _ hb)

/-- Rational functions over floats: fractions of polynomials. -/
example (F : FloatFormat) (a b : List F.Val × List F.Val) :
    Stops ((ReducedFractions.ops
      (PolynomialAlgebra.euclidean (ApproxFloats.field F))).toEuclidean.extendedGcd a b) :=
  ((C75_blanket (C75_quotients (C75_polynomials.2.2.2 (C75_basic.2.2.2.2.2.2.1 F).1)).2.1).2
    (C75_constants_kept.2 (C75_constants_kept.1 (C75_constants.2.2.1 F))).2).extendedGcd a b

/-- C75: the assumption on zero is needed. If nothing is found to be zero and divisions return,
`extended_gcd` of the blanket implementation never returns. -/
theorem C75_blanket_diverges {A : FieldOps E} (h : ∀ a, A.isZero a = .ok false) {z : E}
    (hz : A.zero = .ok z) (hd : ∀ a b, ∃ c, A.div a b = .ok c) (a b : E) :
    A.toEuclidean.extendedGcd a b = .diverge := by
  have key : ∀ n a b, A.toEuclidean.extendedGcdWithin n a b = .diverge := fun n => by
    induction n with
    | zero => exact fun _ _ => rfl
    | succ n ih =>
      intro a b
      obtain ⟨c, hc⟩ := hd a b
      have hq : A.toEuclidean.quoRem a b = .ok (c, z) := by
        simp [FieldOps.toEuclidean, h, hc, hz]
      have hi : A.toEuclidean.isZero b = .ok false := h b
      unfold EuclideanDomainOps.extendedGcdWithin at ih ⊢
      rw [extendedGcdWithin, hi, ok_bind, hq]
      simp [ih]
      rfl
  by_contra hne
  obtain ⟨n, hn⟩ := extendedGcdWithin_exists _ _ _ _ _ _ a b hne
  exact hne (hn.symm.trans (key n a b))

/-- The two element field with a faulty test. -/
example : (FieldOps.toEuclidean { TwoElementAlgebra.field with
    isZero := fun _ => .ok false
    div := fun a _ => .ok a }).extendedGcd true true = .diverge :=
  C75_blanket_diverges (fun _ => rfl) (z := false) rfl (fun a _ => ⟨a, rfl⟩) _ _

end Abstalg
