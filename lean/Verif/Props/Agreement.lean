import Verif.Proofs.Agreement
import Verif.Props.Quotient
import Verif.Props.Groups
import Verif.Props.Vectors
import Verif.Props.Permutations
import Verif.Props.Matrices
import Verif.Props.Fractions
import Verif.Props.Divisibility
import Verif.Proofs.SimTraits

/-! # Different constructions of the same structure: C84 -/

set_option linter.unusedSectionVars false

set_option autoImplicit false

universe u

namespace Abstalg

section general

variable [Cfg] {E F : Type} {R : Type u} {mp : Prop} {rep : E → R → Prop} {rep' : F → R → Prop}
  {a b : E} {a' b' : F}

/-- C84: the multiplicative methods of two implementations of the same monoid return the same element, as far
as the first returns at all. -/
theorem C84_monoid [Monoid R] {A : MonoidOps E} {B : MonoidOps F} (hA : MonoidSpec mp A rep)
    (hB : MonoidSpec False B rep') (ha : Same rep rep' a a') (hb : Same rep rep' b b') :
    Follows Eq (A.contains a) (B.contains a') ∧ Follows Eq (A.equals a b) (B.equals a' b') ∧
    Follows (Same rep rep') (A.mul a b) (B.mul a' b') ∧
    Follows (Same rep rep') (A.mulAssign a b) (B.mulAssign a' b') ∧
    Follows (Same rep rep') (A.square a) (B.square a') ∧ Follows (Same rep rep') A.one B.one ∧
    Follows Eq (A.isOne a) (B.isOne a') ∧ Follows Eq (A.invertible a) (B.invertible a') ∧
    Follows (Option.Rel (Same rep rep')) (A.tryInv a) (B.tryInv a') := by
  obtain ⟨x, ha, ha'⟩ := ha
  obtain ⟨y, hb, hb'⟩ := hb
  refine ⟨?_, decides_follows (hA.equals ha hb) (hB.equals ha' hb'), returns_follows (hA.mul ha hb) (hB.mul ha' hb'),
    returns_follows (hA.mulAssign ha hb) (hB.mulAssign ha' hb'), returns_follows (hA.square ha) (hB.square ha'),
    returns_follows hA.one hB.one, decides_follows (hA.isOne ha) (hB.isOne ha'),
    decides_follows (hA.invertible ha) (hB.invertible ha'), ?_⟩
  · intro c hc
    have h1 := hA.contains ha
    rw [hc] at h1
    obtain ⟨d, h2, h3⟩ := returns_false_iff.1 (hB.contains ha')
    exact ⟨d, h2, h1.trans h3.symm⟩
  · refine option_follows (p := fun y => x * y = 1 ∧ y * x = 1) ?_ ?_ (hA.tryInv ha) (hB.tryInv ha')
    · rintro y z ⟨h1, h2⟩ ⟨h3, h4⟩
      exact left_inv_eq_right_inv h2 h3
    · rintro ⟨y, h1, h2⟩ h3
      exact h3 ⟨⟨x, y, h1, h2⟩, rfl⟩

/-- C84: residues modulo 2 in 8 bits, and `BB`. -/
example : Follows (Same (fun (a : SInt 8) (s : ZMod 2) => 0 ≤ a.1 ∧ a.1 < 2 ∧ (a.1 : ZMod 2) = s)
      (fun (a : Bool) (x : ZMod 2) => x = if a then 1 else 0))
    (QuotientField.GF2.mul (SInt.lit 1 (by decide)) (SInt.lit 1 (by decide)))
    (TwoElementAlgebra.field.mul true true) :=
  (C84_monoid C24_GF2.toMonoidSpec C46_two_field.toMonoidSpec
    ⟨1, ⟨by decide, by decide, rfl⟩, rfl⟩ ⟨1, ⟨by decide, by decide, rfl⟩, rfl⟩).2.2.1

/-- C84: likewise `inv` and `power` of two implementations of the same group. -/
theorem C84_group [Group R] {A : GroupOps E} {B : GroupOps F} (hA : GroupSpec mp A rep)
    (hB : GroupSpec False B rep') (ha : Same rep rep' a a') :
    Follows (Same rep rep') (A.inv a) (B.inv a') ∧
    ∀ n, n ≠ isizeMin → Follows (Same rep rep') (A.power n a) (B.power n a') := by
  obtain ⟨x, ha, ha'⟩ := ha
  exact ⟨returns_follows (hA.inv ha) (hB.inv ha'), fun n hn =>
    returns_follows (hA.power n hn ha) (hB.power n hn ha')⟩

/-- C84: the additive groups of the 8-bit integers and of `ZZ`. -/
example : Follows (Same (fun a (x : Multiplicative ℤ) => SRep 8 a x.toAdd) (fun a (x : Multiplicative ℤ) => ZRep a x.toAdd))
    ((AdditiveGroup.ops (CheckedInts.euclidean 8).toAbelianGroupOps).inv (SInt.lit 5 (by decide)))
    ((AdditiveGroup.ops Integers.euclidean.toAbelianGroupOps).inv 5) :=
  (C84_group (rep := fun a (x : Multiplicative ℤ) => SRep 8 a x.toAdd)
    (rep' := fun a (x : Multiplicative ℤ) => ZRep a x.toAdd)
    (C45_additive_group (CheckedInts.unitaryRing_spec 8).toAbelianGroupSpec)
    (C45_additive_group Integers.unitaryRing_spec.toAbelianGroupSpec)
    (by exact ⟨Multiplicative.ofAdd 5, rfl, rfl⟩)).1

/-- C84: the additive methods of two implementations of the same commutative monoid. -/
theorem C84_commutative_monoid [AddCommMonoid R] {A : CommutativeMonoidOps E} {B : CommutativeMonoidOps F}
    (hA : CommutativeMonoidSpec mp A rep)
    (hB : CommutativeMonoidSpec False B rep') (ha : Same rep rep' a a') (hb : Same rep rep' b b') :
    Follows (Same rep rep') A.zero B.zero ∧ Follows Eq (A.isZero a) (B.isZero a') ∧
    Follows (Same rep rep') (A.add a b) (B.add a' b') ∧
    Follows (Same rep rep') (A.addAssign a b) (B.addAssign a' b') ∧
    Follows (Same rep rep') (A.double a) (B.double a') ∧
    ∀ n, Follows (Same rep rep') (A.utimes n a) (B.utimes n a') := by
  obtain ⟨x, ha, ha'⟩ := ha
  obtain ⟨y, hb, hb'⟩ := hb
  exact ⟨returns_follows hA.zero hB.zero, decides_follows (hA.isZero ha) (hB.isZero ha'),
    returns_follows (hA.add ha hb) (hB.add ha' hb'), returns_follows (hA.addAssign ha hb) (hB.addAssign ha' hb'),
    returns_follows (hA.double ha) (hB.double ha'), fun n => returns_follows (hA.utimes n ha) (hB.utimes n ha')⟩

/-- C84: unsigned 16-bit integers and `NN`. -/
example : Follows (Same (URep 16) NRep) ((CheckedUints.semiRing 16).add ⟨7, by decide⟩ ⟨9, by decide⟩)
    (Naturals.semiRing.add 7 9) :=
  (C84_commutative_monoid (CheckedUints.semiRing_spec 16).toCommutativeMonoidSpec
    Naturals.semiRing_spec.toCommutativeMonoidSpec (by exact ⟨7, rfl, rfl⟩) (by exact ⟨9, rfl, rfl⟩)).2.2.1

/-- C84: differences and multiples of two implementations of the same abelian group. -/
theorem C84_abelian_group [AddCommGroup R] {A : AbelianGroupOps E} {B : AbelianGroupOps F}
    (hA : AbelianGroupSpec mp A rep)
    (hB : AbelianGroupSpec False B rep') (ha : Same rep rep' a a') (hb : Same rep rep' b b') :
    Follows (Same rep rep') (A.neg a) (B.neg a') ∧ Follows (Same rep rep') (A.negAssign a) (B.negAssign a') ∧
    Follows (Same rep rep') (A.sub a b) (B.sub a' b') ∧
    Follows (Same rep rep') (A.subAssign a b) (B.subAssign a' b') ∧
    ∀ n, n ≠ isizeMin → Follows (Same rep rep') (A.times n a) (B.times n a') := by
  obtain ⟨x, ha, ha'⟩ := ha
  obtain ⟨y, hb, hb'⟩ := hb
  exact ⟨returns_follows (hA.neg ha) (hB.neg ha'), returns_follows (hA.negAssign ha) (hB.negAssign ha'),
    returns_follows (hA.sub ha hb) (hB.sub ha' hb'), returns_follows (hA.subAssign ha hb) (hB.subAssign ha' hb'),
    fun n hn => returns_follows (hA.times n hn ha) (hB.times n hn ha')⟩

/-- C84: 8-bit integers and `ZZ`. -/
example : Follows (Same (SRep 8) ZRep)
    ((CheckedInts.euclidean 8).sub (SInt.lit 100 (by decide)) (SInt.lit (-20) (by decide)))
    (Integers.euclidean.sub 100 (-20)) :=
  (C84_abelian_group (a := SInt.lit 100 (by decide)) (b := SInt.lit (-20) (by decide)) (a' := 100) (b' := -20)
    (CheckedInts.euclidean_spec 8).toAbelianGroupSpec
    Integers.euclidean_spec.toAbelianGroupSpec ⟨100, rfl, rfl⟩ ⟨-20, rfl, rfl⟩).2.2.1

/-- C84: the methods of two implementations of the same field. -/
theorem C84_field [Field R] {A : FieldOps E} {B : FieldOps F} (hA : FieldSpec mp A rep)
    (hB : FieldSpec False B rep') (ha : Same rep rep' a a') (hb : Same rep rep' b b') :
    Follows (Same rep rep') (A.inv a) (B.inv a') ∧ Follows (Same rep rep') (A.div a b) (B.div a' b') ∧
    ∀ n, n ≠ isizeMin → Follows (Same rep rep') (A.power n a) (B.power n a') ∧
      Follows (Same rep rep') (A.int n) (B.int n) := by
  obtain ⟨x, ha, ha'⟩ := ha
  obtain ⟨y, hb, hb'⟩ := hb
  refine ⟨?_, ?_, fun n hn => ⟨?_, returns_follows (hA.int n hn) (hB.int n hn)⟩⟩
  · by_cases hx : x = 0
    · subst hx; exact panics_follows (hA.inv_zero ha)
    · exact returns_follows (hA.inv ha hx) (hB.inv ha' hx)
  · by_cases hy : y = 0
    · subst hy; exact panics_follows (hA.div_zero ha hb)
    · exact returns_follows (hA.div ha hb hy) (hB.div ha' hb' hy)
  · by_cases hx : x = 0
    · subst hx; exact returns_follows (hA.power_zero n ha) (hB.power_zero n ha')
    · exact returns_follows (hA.power n hn ha hx) (hB.power n hn ha' hx)

/-- C84: the inverse of 1 modulo 2, and in `BB`. -/
example : Follows (Same (fun (a : SInt 8) (s : ZMod 2) => 0 ≤ a.1 ∧ a.1 < 2 ∧ (a.1 : ZMod 2) = s)
      (fun (a : Bool) (x : ZMod 2) => x = if a then 1 else 0))
    (QuotientField.GF2.inv (SInt.lit 1 (by decide))) (TwoElementAlgebra.field.inv true) :=
  (C84_field C24_GF2 C46_two_field (a := SInt.lit 1 (by decide)) (b := SInt.lit 1 (by decide)) (a' := true) (b' := true)
    ⟨1, ⟨by decide, by decide, rfl⟩, rfl⟩ ⟨1, ⟨by decide, by decide, rfl⟩, rfl⟩).1

/-- C84: division with remainder, divisibility and normal forms of two implementations of the same
Euclidean domain; greatest common divisors may differ by a unit and are not compared here. -/
theorem C84_euclidean [EuclideanDomain R] [NormalizationMonoid R] {A : EuclideanDomainOps E}
    {B : EuclideanDomainOps F} (hA : EuclideanSpec mp A rep)
    (hB : EuclideanSpec False B rep') (ha : Same rep rep' a a') (hb : Same rep rep' b b') :
    Follows (Option.Rel (Same rep rep')) (A.tryDiv a b) (B.tryDiv a' b') ∧
    Follows Eq (A.divisible a b) (B.divisible a' b') ∧ Follows Eq (A.associates a b) (B.associates a' b') ∧
    Follows (Same rep rep') (A.associateRepr a) (B.associateRepr a') ∧
    Follows (Same rep rep') (A.associateCoef a) (B.associateCoef a') ∧
    Follows (PRel (Same rep rep')) (A.quoRem a b) (B.quoRem a' b') ∧
    Follows (Same rep rep') (A.quo a b) (B.quo a' b') ∧ Follows (Same rep rep') (A.rem a b) (B.rem a' b') ∧
    Follows Eq (A.reduced a b) (B.reduced a' b') ∧
    Follows Eq (A.relativePrimes a b) (B.relativePrimes a' b') := by
  obtain ⟨x, ha, ha'⟩ := ha
  obtain ⟨y, hb, hb'⟩ := hb
  refine ⟨?_, decides_follows (hA.divisible ha hb) (hB.divisible ha' hb'),
    decides_follows (hA.associates ha hb) (hB.associates ha' hb'),
    returns_follows (hA.associateRepr ha) (hB.associateRepr ha'), ?_, ?_, ?_, ?_,
    decides_follows (hA.reduced ha hb) (hB.reduced ha' hb'),
    decides_follows (hA.relativePrimes ha hb) (hB.relativePrimes ha' hb')⟩
  · by_cases hy : y = 0
    · subst hy; exact panics_follows (hA.tryDiv_zero ha hb)
    · refine option_follows (p := fun z => x = y * z) ?_ ?_ (hA.tryDiv ha hb hy) (hB.tryDiv ha' hb' hy)
      · rintro z z' h1 h2
        exact mul_left_cancel₀ hy (h1.symm.trans h2)
      · rintro ⟨z, h1⟩ h2
        exact h2 ⟨z, h1⟩
  · by_cases hx : x = 0
    · subst hx; exact panics_follows (hA.associateCoef_zero ha)
    · exact returns_follows (hA.associateCoef ha hx) (hB.associateCoef ha' hx)
  · by_cases hy : y = 0
    · subst hy; exact panics_follows (hA.quoRem_zero ha hb)
    · intro p hp
      have h1 := hA.quoRem ha hb hy
      rw [hp] at h1
      obtain ⟨q, h2, h3⟩ := returns_false_iff.1 (hB.quoRem ha' hb' hy)
      exact ⟨q, h2, ⟨_, h1.1, h3.1⟩, ⟨_, h1.2, h3.2⟩⟩
  · by_cases hy : y = 0
    · subst hy; exact panics_follows (hA.quo_zero ha hb)
    · exact returns_follows (hA.quo ha hb hy) (hB.quo ha' hb' hy)
  · by_cases hy : y = 0
    · subst hy; exact panics_follows (hA.rem_zero ha hb)
    · exact returns_follows (hA.rem ha hb hy) (hB.rem ha' hb' hy)

/-- C84: 16-bit integers and `ZZ`. -/
example : Follows (PRel (Same (SRep 16) ZRep))
    ((CheckedInts.euclidean 16).quoRem (SInt.lit (-100) (by decide)) (SInt.lit (-7) (by decide)))
    (Integers.euclidean.quoRem (-100) (-7)) :=
  (C84_euclidean (CheckedInts.euclidean_spec 16) Integers.euclidean_spec
    (by exact ⟨-100, rfl, rfl⟩) (by exact ⟨-7, rfl, rfl⟩)).2.2.2.2.2.1

end general

section lawless

variable [Cfg] {E : Type}

/-- C84: over every base, with laws or without, `QuotientField` and `QuotientRing` share all methods but those
about inverses. -/
theorem C84_quotient (base : EuclideanDomainOps E) (m : E) :
    (QuotientField.ops base m).toAbelianGroupOps = (QuotientRing.ops base m).toAbelianGroupOps ∧
    (QuotientField.ops base m).toSemigroupOps = (QuotientRing.ops base m).toSemigroupOps ∧
    (QuotientField.ops base m).one = (QuotientRing.ops base m).one ∧
    (QuotientField.ops base m).isOne = (QuotientRing.ops base m).isOne ∧
    (QuotientField.ops base m).int = (QuotientRing.ops base m).int := ⟨rfl, rfl, rfl, rfl, rfl⟩

/-- C84: five and four modulo seven. -/
example : (QuotientField.ops Integers.euclidean 7).add 5 4 = .ok 2 ∧
    (QuotientRing.ops Integers.euclidean 7).add 5 4 = .ok 2 :=
  ⟨by rw [show (QuotientField.ops Integers.euclidean 7).add = (QuotientRing.ops Integers.euclidean 7).add from
    congrArg (fun A : AbelianGroupOps ℤ => A.add) (C84_quotient Integers.euclidean 7).1]; rfl, rfl⟩

/-- C84: an inverse found by `QuotientField` is the one found by `QuotientRing`; where the ring finds none the
field panics, unless the element is zero. -/
theorem C84_quotient_inverse (base : EuclideanDomainOps E) (m a b : E) :
    ((QuotientField.ops base m).tryInv a = .ok (some b) → (QuotientRing.ops base m).tryInv a = .ok (some b)) ∧
    ((QuotientField.ops base m).inv a = .ok b → (QuotientRing.ops base m).tryInv a = .ok (some b)) ∧
    ((QuotientRing.ops base m).tryInv a = .ok (some b) → (QuotientRing.ops base m).isZero a = .ok false →
      (QuotientField.ops base m).tryInv a = .ok (some b) ∧ (QuotientField.ops base m).inv a = .ok b) ∧
    ((QuotientRing.ops base m).tryInv a = .ok none → (QuotientRing.ops base m).isZero a = .ok false →
      (QuotientField.ops base m).tryInv a = .panic ∧ (QuotientField.ops base m).inv a = .panic) ∧
    ((QuotientRing.ops base m).isZero a = .ok true →
      (QuotientField.ops base m).tryInv a = .ok none ∧ (QuotientField.ops base m).inv a = .panic) := by
  have hz : (QuotientRing.ops base m).isZero a = QuotientField.isZero base m a := rfl
  have hF : (QuotientField.ops base m).tryInv a = (QuotientField.isZero base m a >>= fun z =>
    if z = true then pure none else QuotientField.inv base m a >>= fun r => pure (some r)) := rfl
  have hI : (QuotientField.ops base m).inv a = QuotientField.inv base m a := rfl
  have hi : QuotientField.inv base m a = (QuotientField.isZero base m a >>= fun z =>
    Res.assert (!z) >>= fun _ => base.extendedGcd m a >>= fun t => base.tryInv t.1 >>= fun o =>
      Res.unwrap o >>= fun c => QuotientField.mul base m c t.2.2) := rfl
  have hR : (QuotientRing.ops base m).tryInv a = (base.extendedGcd m a >>= fun t => base.tryInv t.1 >>= fun o =>
      match o with
      | some c => QuotientField.mul base m c t.2.2 >>= fun r => pure (some r)
      | none => pure none) := rfl
  rw [hz, hF, hI, hR, hi]
  cases hz : QuotientField.isZero base m a with
  | panic => simp
  | diverge => simp [diverge_bind]
  | ok z =>
    cases z
    · cases ht : base.extendedGcd m a with
      | panic => simp
      | diverge => simp [diverge_bind]
      | ok t =>
        cases ho : base.tryInv t.1 with
        | panic => simp [ho]
        | diverge => simp [ho, diverge_bind]
        | ok o =>
          cases o with
          | none => simp [ho]
          | some c =>
            cases hm : QuotientField.mul base m c t.2.2 <;> simp [ho, hm, diverge_bind]
    · simp

/-- C84: in the residues modulo 6 the ring finds no inverse of 4, the field panics. -/
example : (QuotientRing.ops Integers.euclidean 6).tryInv 4 = .ok none →
    (QuotientField.ops Integers.euclidean 6).tryInv 4 = .panic :=
  fun h => ((C84_quotient_inverse Integers.euclidean 6 4 0).2.2.2.1 h rfl).1

open VectorAlgebra

/-- C84: the additive group of vectors is the vectors over the additive group; only on vectors of a wrong length
`invertible` answers true in the one and panics in the other. -/
theorem C84_vector_additive_group (n : ℕ) (base : AbelianGroupOps E) (v : List E) :
    { AdditiveGroup.ops (VectorAlgebra.abelianGroup n base) with
      invertible := (VectorAlgebra.group n (AdditiveGroup.ops base)).invertible } =
        VectorAlgebra.group n (AdditiveGroup.ops base) ∧
    (AdditiveGroup.ops (VectorAlgebra.abelianGroup n base)).invertible v = .ok true ∧
    (VectorAlgebra.group n (AdditiveGroup.ops base)).invertible v = if v.length = n then .ok true else .panic := by
  refine ⟨?_, rfl, ?_⟩
  · apply GroupOps.ext <;> try rfl
    funext v
    show ((mapEach n base.neg v) >>= fun r => pure (some r)) =
      (Res.assert (lenIs n v) >>= fun _ => tryInvLoop (fun a => (base.neg a).bind fun y => .ok (some y)) v [])
    rw [tryInvLoop_some]
    unfold mapEach
    cases lenIs n v <;> rfl
  · show (Res.assert (v.length == n) >>= fun _ => allRes (fun _ : E => Res.ok true) v) = _
    have h : allRes (fun _ : E => Res.ok true) v = .ok true := by
      induction v with
      | nil => rfl
      | cons a v ih => rw [allRes]; exact ih
    rw [h]
    by_cases hv : v.length = n
    · simp [hv]
    · rw [show (v.length == n) = false from by simpa using hv, if_neg hv]; rfl

/-- C84: pairs of integers. -/
example : (AdditiveGroup.ops (VectorAlgebra.abelianGroup 2 Integers.euclidean.toAbelianGroupOps)).tryInv [3, -4] =
    .ok (some [-3, 4]) := by
  have h := congrArg (fun A : GroupOps (List ℤ) => A.tryInv [3, -4])
    (C84_vector_additive_group 2 Integers.euclidean.toAbelianGroupOps []).1
  exact h.trans rfl

/-- C84: the units of the vectors are the vectors of units; only on vectors of a wrong length `contains` and
`invertible` differ. -/
theorem C84_vector_multiplicative_group (n : ℕ) (base : MonoidOps E) (v : List E) :
    { MultiplicativeGroup.ops (VectorAlgebra.monoid n base) with
      contains := (VectorAlgebra.group n (MultiplicativeGroup.ops base)).contains
      invertible := (VectorAlgebra.group n (MultiplicativeGroup.ops base)).invertible } =
        VectorAlgebra.group n (MultiplicativeGroup.ops base) ∧
    (v.length = n →
      (MultiplicativeGroup.ops (VectorAlgebra.monoid n base)).contains v =
        (VectorAlgebra.group n (MultiplicativeGroup.ops base)).contains v ∧
      (MultiplicativeGroup.ops (VectorAlgebra.monoid n base)).invertible v =
        (VectorAlgebra.group n (MultiplicativeGroup.ops base)).invertible v) ∧
    (v.length ≠ n →
      (MultiplicativeGroup.ops (VectorAlgebra.monoid n base)).contains v = .panic ∧
      (VectorAlgebra.group n (MultiplicativeGroup.ops base)).contains v = .ok false ∧
      (MultiplicativeGroup.ops (VectorAlgebra.monoid n base)).invertible v = .ok true ∧
      (VectorAlgebra.group n (MultiplicativeGroup.ops base)).invertible v = .panic) := by
  have hinv : (MultiplicativeGroup.ops (VectorAlgebra.monoid n base)).inv =
      (VectorAlgebra.group n (MultiplicativeGroup.ops base)).inv := by
    funext v
    show ((Res.assert (lenIs n v) >>= fun _ => tryInvLoop base.tryInv v []) >>= fun o => Res.unwrap o) =
      mapEach n (fun a => (base.tryInv a).bind Res.unwrap) v
    unfold mapEach
    cases lenIs n v
    · rfl
    · show (tryInvLoop base.tryInv v []).bind Res.unwrap = mapRes _ v
      rw [tryInvLoop_unwrap]
      cases mapRes (fun a => (base.tryInv a).bind Res.unwrap) v <;> rfl
  have hall : allRes (fun _ : E => Res.ok true) v = .ok true := by
    induction v with
    | nil => rfl
    | cons a v ih => rw [allRes]; exact ih
  refine ⟨?_, fun h => ⟨?_, ?_⟩, fun h => ⟨?_, ?_, rfl, ?_⟩⟩
  · apply GroupOps.ext <;> try rfl
    · exact hinv
    · show powerDefault _ _ _ (MultiplicativeGroup.ops (VectorAlgebra.monoid n base)).inv = _
      rw [hinv]
      rfl
  · show (Res.assert (v.length == n) >>= fun _ => allRes base.invertible v) =
      if v.length != n then .ok false else allRes (fun a => base.invertible a) v
    simp [h]
  · show Res.ok true = (Res.assert (v.length == n) >>= fun _ => allRes (fun _ : E => Res.ok true) v)
    rw [hall]; simp [h]
  · show (Res.assert (v.length == n) >>= fun _ => allRes base.invertible v) = _
    rw [show (v.length == n) = false from by simpa using h]; rfl
  · show (if v.length != n then Res.ok false else allRes (fun a => base.invertible a) v) = _
    simp [h]
  · show (Res.assert (v.length == n) >>= fun _ => allRes (fun _ : E => Res.ok true) v) = _
    rw [show (v.length == n) = false from by simpa using h]; rfl

/-- C84: the vector (1, -1) of units of `ZZ`. -/
example : (MultiplicativeGroup.ops (VectorAlgebra.monoid 2 Integers.euclidean.toMonoidOps)).contains [1, -1] = .ok true :=
  ((C84_vector_multiplicative_group 2 Integers.euclidean.toMonoidOps [1, -1]).2.1 rfl).1.trans rfl

/-- C84: vectors of length one behave as the base. -/
theorem C84_vector_one (base : UnitaryRingOps E) (a b : E) :
    (VectorAlgebra.unitaryRing 1 base).contains [a] = base.contains a ∧
    (VectorAlgebra.unitaryRing 1 base).equals [a] [b] = base.equals a b ∧
    (VectorAlgebra.unitaryRing 1 base).mul [a] [b] = (do return [← base.mul a b]) ∧
    (VectorAlgebra.unitaryRing 1 base).mulAssign [a] [b] = (do return [← base.mulAssign a b]) ∧
    (VectorAlgebra.unitaryRing 1 base).square [a] = (do return [← base.square a]) ∧
    (VectorAlgebra.unitaryRing 1 base).one = (do return [← base.one]) ∧
    (VectorAlgebra.unitaryRing 1 base).isOne [a] = base.isOne a ∧
    (VectorAlgebra.unitaryRing 1 base).tryInv [a] = (do return (← base.tryInv a).map fun c => [c]) ∧
    (VectorAlgebra.unitaryRing 1 base).invertible [a] = base.invertible a ∧
    (VectorAlgebra.unitaryRing 1 base).zero = (do return [← base.zero]) ∧
    (VectorAlgebra.unitaryRing 1 base).isZero [a] = base.isZero a ∧
    (VectorAlgebra.unitaryRing 1 base).add [a] [b] = (do return [← base.add a b]) ∧
    (VectorAlgebra.unitaryRing 1 base).addAssign [a] [b] = (do return [← base.addAssign a b]) ∧
    (VectorAlgebra.unitaryRing 1 base).double [a] = (do return [← base.double a]) ∧
    (VectorAlgebra.unitaryRing 1 base).neg [a] = (do return [← base.neg a]) ∧
    (VectorAlgebra.unitaryRing 1 base).negAssign [a] = (do return [← base.negAssign a]) ∧
    (VectorAlgebra.unitaryRing 1 base).sub [a] [b] = (do return [← base.sub a b]) ∧
    (VectorAlgebra.unitaryRing 1 base).subAssign [a] [b] = (do return [← base.subAssign a b]) ∧
    ∀ n, (VectorAlgebra.unitaryRing 1 base).int n = (do return [← base.int n]) := by
  refine ⟨allRes_singleton _ a, zipAll_one _ a b, zipMap_one _ a b, zipEach_one _ a b, mapRes_singleton _ a, rfl,
    allRes_singleton _ a, ?_, allRes_singleton _ a, rfl, allRes_singleton _ a, zipMap_one _ a b, zipEach_one _ a b,
    mapRes_singleton _ a, mapRes_singleton _ a, mapRes_singleton _ a, zipMap_one _ a b, zipEach_one _ a b,
    fun n => rfl⟩
  · show (base.tryInv a >>= fun o => match o with
      | some y => Res.ok (some [y])
      | none => pure none) = _
    cases base.tryInv a with
    | ok o => cases o <;> rfl
    | panic => rfl
    | diverge => rfl

example : (VectorAlgebra.unitaryRing 1 Integers.unitaryRing).mul [6] [7] = .ok [42] :=
  (C84_vector_one Integers.unitaryRing 6 7).2.2.1

/-- C84: vectors of length `m` over the vectors of length `n` are vectors of length `m * n`. -/
theorem C84_vector_nested (m n : ℕ) (base : UnitaryRingOps E) {v w : List (List E)} (hv : v.length = m)
    (hw : w.length = m) (hv' : ∀ a ∈ v, a.length = n) (hw' : ∀ a ∈ w, a.length = n) :
    let A := VectorAlgebra.unitaryRing m (VectorAlgebra.unitaryRing n base)
    let B := VectorAlgebra.unitaryRing (m * n) base
    B.equals v.flatten w.flatten = A.equals v w ∧
    B.mul v.flatten w.flatten = (do return (← A.mul v w).flatten) ∧
    B.add v.flatten w.flatten = (do return (← A.add v w).flatten) ∧
    B.sub v.flatten w.flatten = (do return (← A.sub v w).flatten) ∧
    B.neg v.flatten = (do return (← A.neg v).flatten) ∧
    B.double v.flatten = (do return (← A.double v).flatten) ∧
    B.square v.flatten = (do return (← A.square v).flatten) ∧
    B.isZero v.flatten = A.isZero v ∧ B.isOne v.flatten = A.isOne v ∧
    B.invertible v.flatten = A.invertible v ∧
    B.zero = (do return (← A.zero).flatten) ∧ B.one = (do return (← A.one).flatten) ∧
    ∀ z, B.int z = (do return (← A.int z).flatten) := by
  have hd : ∀ c : Res E, (do return diagonal (m * n) (← c)) =
      (do return (← (do return diagonal m (← (do return diagonal n (← c))))).flatten) := by
    intro c
    cases c with
    | ok a =>
      refine congrArg Res.ok ?_
      show List.replicate (m * n) a = (List.replicate m (List.replicate n a)).flatten
      rw [List.flatten_replicate_replicate]
    | panic => rfl
    | diverge => rfl
  exact ⟨zipAll_nested _ hv hw hv' hw', zipMap_nested _ hv hw hv' hw', zipMap_nested _ hv hw hv' hw',
    zipMap_nested _ hv hw hv' hw', mapEach_nested _ hv hv', mapEach_nested _ hv hv', mapEach_nested _ hv hv',
    allEach_nested _ hv hv', allEach_nested _ hv hv', allEach_nested _ hv hv', hd _, hd _, fun z => hd _⟩

/-- C84: two times two integers. -/
example : (VectorAlgebra.unitaryRing 4 Integers.unitaryRing).add [1, 2, 3, 4] [10, 20, 30, 40] =
    (do return (← (VectorAlgebra.unitaryRing 2 (VectorAlgebra.unitaryRing 2 Integers.unitaryRing)).add
      [[1, 2], [3, 4]] [[10, 20], [30, 40]]).flatten) :=
  (C84_vector_nested 2 2 Integers.unitaryRing (v := [[1, 2], [3, 4]]) (w := [[10, 20], [30, 40]]) rfl rfl
    (by simp) (by simp)).2.2.1

end lawless

section lawful

variable [Cfg] {E : Type} {R : Type u} [Field R] {mp : Prop} {base : FieldOps E} {rep : E → R → Prop} {n : ℕ}
  {v w : List E} {M N : Matrix (Fin n) (Fin n) R}

/-- C84: the transpose of a product is the product of the transposes in the other order. -/
theorem C84_transpose_mul (h : FieldSpec mp base rep) (hv : MatRep rep v M) (hw : MatRep rep w N) :
    Returns mp ((MatrixRing.ops base n).mul v w) fun x =>
      Returns mp (MatrixRing.transpose n x) fun x' =>
      Returns mp (MatrixRing.transpose n v) fun v' =>
      Returns mp (MatrixRing.transpose n w) fun w' =>
      Returns mp ((MatrixRing.ops base n).mul w' v') fun y =>
      Returns mp ((MatrixRing.ops base n).equals x' y) (· = true) := by
  refine ((C39_matrix_ring n h).mul hv hw).mono fun x hx => ?_
  refine (C39_transpose n hx).mono fun x' hx' => ?_
  refine (C39_transpose n hv).mono fun v' hv' => ?_
  refine (C39_transpose n hw).mono fun w' hw' => ?_
  refine ((C39_matrix_ring n h).mul hw' hv').mono fun y hy => ?_
  exact ((C39_matrix_ring n h).equals hx' hy).mono fun b hb => hb.2 (Matrix.transpose_mul M N)

/-- C84: the inverse of the transpose is the transpose of the inverse, and there is one iff there is the other. -/
theorem C84_transpose_inv (h : FieldSpec mp base rep) (hv : MatRep rep v M) :
    Returns mp (MatrixRing.transpose n v) fun v' =>
      Returns mp ((MatrixRing.ops base n).tryInv v) fun o =>
      Returns mp ((MatrixRing.ops base n).tryInv v') fun o' =>
        match o, o' with
        | some x, some y => Returns mp (MatrixRing.transpose n x) fun x' =>
            Returns mp ((MatrixRing.ops base n).equals x' y) (· = true)
        | none, none => True
        | _, _ => False := by
  refine (C39_transpose n hv).mono fun v' hv' => ?_
  refine (C40_try_inv n h hv).mono fun o ho => ?_
  refine (C40_try_inv n h hv').mono fun o' ho' => ?_
  rcases o with _ | x <;> rcases o' with _ | y
  · trivial
  · obtain ⟨N, -, h1, h2⟩ := ho'
    refine ho ⟨⟨M, N.transpose, ?_, ?_⟩, rfl⟩
    · rw [← Matrix.transpose_inj, Matrix.transpose_mul, Matrix.transpose_transpose, h2, Matrix.transpose_one]
    · rw [← Matrix.transpose_inj, Matrix.transpose_mul, Matrix.transpose_transpose, h1, Matrix.transpose_one]
  · obtain ⟨N, -, h1, h2⟩ := ho
    refine ho' ⟨⟨M.transpose, N.transpose, ?_, ?_⟩, rfl⟩
    · rw [← Matrix.transpose_mul, h2, Matrix.transpose_one]
    · rw [← Matrix.transpose_mul, h1, Matrix.transpose_one]
  · obtain ⟨N, hN, h1, h2⟩ := ho
    obtain ⟨N', hN', h3, h4⟩ := ho'
    refine (C39_transpose n hN).mono fun x' hx' => ?_
    refine ((C39_matrix_ring n h).equals hx' hN').mono fun b hb => hb.2 ?_
    refine left_inv_eq_right_inv (a := M.transpose) ?_ h3
    rw [← Matrix.transpose_mul, h1, Matrix.transpose_one]

/-- C84: over the field with two elements. -/
example : (MatrixRing.ops TwoElementAlgebra.field 2).mul [true, true, false, true] [false, true, true, true] =
      .ok [true, false, true, true] ∧
    MatrixRing.transpose 2 [true, false, true, true] = .ok [true, true, false, true] ∧
    (MatrixRing.ops TwoElementAlgebra.field 2).mul [false, true, true, true] [true, false, true, true] =
      .ok [true, true, false, true] := ⟨rfl, rfl, rfl⟩

/-- The matrix of a permutation: row `i` has its one in column `σ i`. -/
def permMat (R : Type u) [Field R] {n : ℕ} (σ : (Equiv.Perm (Fin n))ᵐᵒᵖ) : Matrix (Fin n) (Fin n) R :=
  fun i j => if σ.unop i = j then 1 else 0

omit [Cfg] in
theorem permMat_mul (σ τ : (Equiv.Perm (Fin n))ᵐᵒᵖ) : permMat R (σ * τ) = permMat R σ * permMat R τ := by
  ext i j
  simp only [permMat, Matrix.mul_apply, MulOpposite.unop_mul, Equiv.Perm.mul_apply, ite_mul, one_mul, zero_mul]
  rw [Finset.sum_ite_eq]
  simp only [Finset.mem_univ, if_true]
  congr

omit [Cfg] in
theorem permMat_one : permMat R (1 : (Equiv.Perm (Fin n))ᵐᵒᵖ) = 1 := by
  ext i j
  simp only [permMat, Matrix.one_apply, MulOpposite.unop_one, Equiv.Perm.one_apply]
  congr

omit [Cfg] in
theorem permMat_transpose (σ : (Equiv.Perm (Fin n))ᵐᵒᵖ) : (permMat R σ).transpose = permMat R σ⁻¹ := by
  ext i j
  simp only [permMat, Matrix.transpose_apply, MulOpposite.unop_inv]
  congr 1
  rw [Equiv.Perm.inv_eq_iff_eq, eq_iff_iff, eq_comm]

omit [Cfg] in
/-- The pivots of the matrix of a permutation are its ones. -/
theorem permMat_pivots (τ : (Equiv.Perm (Fin n))ᵐᵒᵖ) {k : ℕ} {ρ : Equiv.Perm (Fin n)}
    (h : PivotOrder (permMat R τ) k ρ) : ∀ i : Fin n, i.1 < k → τ.unop (ρ i) = i := by
  induction h with
  | start => intro i hi; omega
  | @step c r σ h hcr hr hmin ih =>
    intro i hi
    rw [Equiv.Perm.mul_apply]
    rcases Nat.lt_or_ge i.1 c.1 with hic | hic
    · rw [Equiv.swap_apply_of_ne_of_ne (by rintro rfl; omega) (by rintro rfl; exact absurd hcr (by simpa using hic))]
      exact ih i hic
    · obtain rfl : i = c := Fin.ext (by omega)
      rw [Equiv.swap_apply_left]
      have h1 : (τ.unop (σ r)).1 ≤ i.1 := by
        by_contra hc
        refine hr (Matrix.det_eq_zero_of_row_eq_zero ⟨i.1, by omega⟩ fun j => ?_)
        simp only [Matrix.submatrix_apply, permMat, lt_irrefl, if_false, id]
        rw [if_neg]
        intro he
        have := congrArg Fin.val he
        have := j.2
        simp only [Fin.val_castLE] at *
        omega
      rcases Nat.lt_or_ge (τ.unop (σ r)).1 i.1 with h2 | h2
      · have h3 := ih _ h2
        have h4 := σ.injective (τ.unop.injective h3)
        rw [h4] at h2
        exact absurd hcr (by simpa using h2)
      · exact Fin.ext (by omega)

/-- C84: the matrices of permutations multiply and are inverted like the permutations, the transpose is the inverse,
and `determinant` returns one for all of them, be they even or odd. -/
theorem C84_permutation_matrices (size : UInt32) (h : FieldSpec False base rep) {a b : List UInt32}
    {σ τ : (Equiv.Perm (Fin size.toNat))ᵐᵒᵖ} (ha : PermRep a σ) (hb : PermRep b τ)
    (hv : MatRep rep v (permMat R σ)) (hw : MatRep rep w (permMat R τ)) :
    (∃ (c : List UInt32) (ρ : (Equiv.Perm (Fin size.toNat))ᵐᵒᵖ) (x : List E), (Permutations.ops size).mul a b = .ok c ∧ PermRep c ρ ∧
      (MatrixRing.ops base size.toNat).mul v w = .ok x ∧ MatRep rep x (permMat R ρ)) ∧
    (∃ (c : List UInt32) (ρ : (Equiv.Perm (Fin size.toNat))ᵐᵒᵖ) (x y : List E), (Permutations.ops size).inv a = .ok c ∧ PermRep c ρ ∧
      (MatrixRing.ops base size.toNat).tryInv v = .ok (some x) ∧ MatRep rep x (permMat R ρ) ∧
      MatrixRing.transpose size.toNat v = .ok y ∧ MatRep rep y (permMat R ρ)) ∧
    (∃ (c : List UInt32) (ρ : (Equiv.Perm (Fin size.toNat))ᵐᵒᵖ) (x : List E), (Permutations.ops size).one = .ok c ∧ PermRep c ρ ∧
      (MatrixRing.ops base size.toNat).one = .ok x ∧ MatRep rep x (permMat R ρ)) ∧
    ∃ d, MatrixRing.determinant base size.toNat v = .ok d ∧ rep d 1 := by
  have hi : permMat R σ * permMat R σ⁻¹ = 1 := by rw [← permMat_mul, mul_inv_cancel, permMat_one]
  have hi' : permMat R σ⁻¹ * permMat R σ = 1 := by rw [← permMat_mul, inv_mul_cancel, permMat_one]
  refine ⟨?_, ?_, ?_, ?_⟩
  · obtain ⟨c, h1, h2⟩ := returns_false_iff.1 ((C42_group size).mul ha hb)
    obtain ⟨x, h3, h4⟩ := returns_false_iff.1 ((C39_matrix_ring _ h).mul hv hw)
    exact ⟨c, _, x, h1, h2, h3, by rwa [permMat_mul]⟩
  · obtain ⟨c, h1, h2⟩ := returns_false_iff.1 ((C42_group size).inv ha)
    obtain ⟨o, h3, h4⟩ := returns_false_iff.1 (C40_try_inv _ h hv)
    obtain ⟨y, h5, h6⟩ := returns_false_iff.1 (C39_transpose (mp := False) _ hv)
    cases o with
    | none => exact absurd ⟨⟨_, _, hi, hi'⟩, rfl⟩ h4
    | some x =>
      obtain ⟨N, hN, h7, h8⟩ := h4
      refine ⟨c, _, x, y, h1, h2, h3, ?_, h5, ?_⟩
      · rwa [← left_inv_eq_right_inv h8 hi]
      · rwa [← permMat_transpose]
  · obtain ⟨c, h1, h2⟩ := returns_false_iff.1 (C42_group size).one
    obtain ⟨x, h3, h4⟩ := returns_false_iff.1 (C39_matrix_ring size.toNat h).one
    exact ⟨c, _, x, h1, h2, h3, by rwa [permMat_one]⟩
  · obtain ⟨d, h1, h2⟩ := returns_false_iff.1 (C41_exact _ h hv)
    refine ⟨d, h1, ?_⟩
    rcases h2 with ⟨h2, -⟩ | ⟨ρ, h2, -, h3⟩
    · have := congrArg Matrix.det hi
      rw [Matrix.det_mul, h2, zero_mul, Matrix.det_one] at this
      exact absurd this zero_ne_one
    · have : (permMat R σ).submatrix ρ id = 1 := by
        ext i j
        simp only [Matrix.submatrix_apply, permMat, id, Matrix.one_apply, permMat_pivots σ h2 i i.2]
      rwa [this, Matrix.det_one] at h3

/-- C84: the cyclic permutations of three rows over the field with two elements. -/
example : letI : Cfg := ⟨true, true, 64, by decide⟩; (Permutations.ops 3).mul [1, 2, 0] [1, 2, 0] = .ok [2, 0, 1] ∧
    (MatrixRing.ops TwoElementAlgebra.field 3).mul
      [false, true, false, false, false, true, true, false, false]
      [false, true, false, false, false, true, true, false, false] =
      .ok [false, false, true, true, false, false, false, true, false] := ⟨rfl, rfl⟩

/-- C84: in the divisibility order of a field there are only two elements, the greatest, zero, and the least, one;
`leq` holds unless the first is zero and the second is not. -/
theorem C84_divisibility_field [DecidableEq R] (h : FieldSpec mp base rep) {a b : E} {x y : R} (ha : rep a x)
    (hb : rep b y) :
    Decides mp ((DivisibilityOrder.boundedOrder base.toIntegralDomain).contains a) (x = 0 ∨ x = 1) ∧
    Decides mp ((DivisibilityOrder.boundedOrder base.toIntegralDomain).leq a b) (x = 0 → y = 0) := by
  have h' := h.toIntegralDomain
  refine ⟨(C49_contains h' ha).iff (or_congr_right' fun hx => ?_), (h'.divisible hb ha).iff field_dvd_iff⟩
  rw [normalize_eq_one.2 (IsUnit.mk0 x hx), eq_comm]

example : (DivisibilityOrder.boundedOrder QuotientField.GF3.toIntegralDomain).contains (SInt.lit 2 (by decide)) =
    .ok false := by
  obtain ⟨c, h1, h2⟩ := returns_false_iff.1 (C84_divisibility_field C24_GF3 (a := SInt.lit 2 (by decide))
    (b := SInt.lit 2 (by decide)) ⟨by decide, by decide, rfl⟩ ⟨by decide, by decide, rfl⟩).1
  rw [h1]
  exact congrArg Res.ok (Bool.eq_false_iff.2 fun h => absurd (h2.1 h) (by decide))

/-- C84: hence the divisibility order of `BB` is its lattice upside down. -/
theorem C84_divisibility_bits (a b : Bool) :
    (DivisibilityOrder.lattice TwoElementAlgebra.field.toEuclidean).leq a b = TwoElementAlgebra.booleanAlgebra.leq b a ∧
    (DivisibilityOrder.lattice TwoElementAlgebra.field.toEuclidean).meet a b = TwoElementAlgebra.booleanAlgebra.join a b ∧
    (DivisibilityOrder.lattice TwoElementAlgebra.field.toEuclidean).join a b = TwoElementAlgebra.booleanAlgebra.meet a b := by
  cases a <;> cases b <;> exact ⟨rfl, rfl, rfl⟩

/-- C84: the fractions over a field are the field: the denominators are one. -/
theorem C84_fractions_field [DecidableEq R] (h : FieldSpec mp base rep) :
    Returns mp (ReducedFractions.new base.toEuclidean) fun A =>
      FieldSpec mp A fun (e : E × E) (x : R) => rep e.1 x ∧ rep e.2 1 := by
  refine (C26_fraction_field h.toEuclidean R).mono fun A hA => ?_
  convert hA using 3 with e x
  refine ⟨fun ⟨h1, h2⟩ => ⟨x, 1, h1, h2, one_ne_zero, isCoprime_one_right, normalize_one, by simp⟩, ?_⟩
  rintro ⟨y, z, h1, h2, h3, -, h4, rfl⟩
  rw [normalize_eq_one.2 (IsUnit.mk0 z h3)] at h4
  subst h4
  simpa using ⟨h1, h2⟩

/-- C84: the sum of one and one over the fractions of the residues modulo three. -/
example : Returns False (ReducedFractions.new QuotientField.GF3.toEuclidean) fun A =>
    FieldSpec False A fun (e : SInt 8 × SInt 8) (x : ZMod 3) =>
      (0 ≤ e.1.1 ∧ e.1.1 < 3 ∧ (e.1.1 : ZMod 3) = x) ∧ 0 ≤ e.2.1 ∧ e.2.1 < 3 ∧ (e.2.1 : ZMod 3) = 1 :=
  C84_fractions_field C24_GF3

/-- C84: matrices of size one are elements: product, inverse and determinant. -/
theorem C84_matrix_one (h : FieldSpec mp base rep) {a b : E} {x y : R} (ha : rep a x) (hb : rep b y) :
    Returns mp ((MatrixRing.ops base 1).mul [a] [b]) (fun v => ∃ c, v = [c] ∧ rep c (x * y)) ∧
    Returns mp ((MatrixRing.ops base 1).add [a] [b]) (fun v => ∃ c, v = [c] ∧ rep c (x + y)) ∧
    Returns mp ((MatrixRing.ops base 1).tryInv [a]) (fun
      | some v => ∃ c, v = [c] ∧ rep c x⁻¹ ∧ x ≠ 0
      | none => x = 0) ∧
    Returns mp (MatrixRing.determinant base 1 [a]) (rep · x) := by
  have hm : ∀ {a x}, rep a x → MatRep rep [a] (Matrix.of fun _ _ : Fin 1 => x) := fun {a x} ha =>
    ⟨rfl, fun i j => ⟨a, by fin_cases i; fin_cases j; rfl, ha⟩⟩
  have hs : ∀ {v : List E} {M : Matrix (Fin 1) (Fin 1) R}, MatRep rep v M → ∃ c, v = [c] ∧ rep c (M 0 0) := by
    rintro v M ⟨h1, h2⟩
    obtain ⟨c, rfl⟩ := List.length_eq_one_iff.1 h1
    obtain ⟨d, h3, h4⟩ := h2 0 0
    simp only [Fin.val_zero, zero_mul, add_zero, List.getElem?_cons_zero, Option.some.injEq] at h3
    exact ⟨c, rfl, h3 ▸ h4⟩
  refine ⟨((C39_matrix_ring 1 h).mul (hm ha) (hm hb)).mono fun v hv => ?_,
    ((C39_matrix_ring 1 h).add (hm ha) (hm hb)).mono fun v hv => hs hv,
    (C40_try_inv 1 h (hm ha)).mono fun o ho => ?_, ?_⟩
  · obtain ⟨c, h1, h2⟩ := hs hv
    exact ⟨c, h1, by simpa [Matrix.mul_apply] using h2⟩
  · cases o with
    | none =>
      by_contra hx
      have hx' : x ≠ 0 := hx
      refine ho ⟨⟨Matrix.of fun _ _ => x, Matrix.of fun _ _ => x⁻¹, ?_, ?_⟩, rfl⟩ <;> ext i j <;>
        rw [Subsingleton.elim i j] <;> simp [Matrix.mul_apply, hx']
    | some v =>
      obtain ⟨N, h1, h2, -⟩ := ho
      obtain ⟨c, h3, h4⟩ := hs h1
      have h5 : x * N 0 0 = 1 := by simpa [Matrix.mul_apply] using congrFun (congrFun h2 0) 0
      have hx : x ≠ 0 := by rintro rfl; simp at h5
      exact ⟨c, h3, by rwa [← eq_inv_of_mul_eq_one_right h5], hx⟩
  · refine (C41_no_swap 1 h (hm ha) fun k hk => ?_).mono fun d hd => ?_
    · obtain rfl : k = 0 := by omega
      simp [leadingMinor]
    · simpa using hd

/-- C84: one over itself in the field with two elements. -/
example : letI : Cfg := ⟨true, true, 64, by decide⟩
    (MatrixRing.ops TwoElementAlgebra.field 1).tryInv [true] = .ok (some [true]) ∧
    MatrixRing.determinant TwoElementAlgebra.field 1 [false] = .ok false := ⟨rfl, rfl⟩

end lawful

end Abstalg
