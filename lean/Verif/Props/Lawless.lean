import Verif.Spec.Lawless
import Verif.Proofs.LawlessWrappers
import Verif.Model.TwoElementAlgebra

/-! # Bases with state and without laws: C96

Whatever the base answers, the structures over it index no vector out of bounds, return vectors of the right length with
elements of the base, and loop for ever only in `gcd` and `extended_gcd`. -/

set_option linter.unusedSectionVars false

set_option autoImplicit false

namespace Abstalg

open Stateful (Out St Limits Yields Answers Maybe Negatable Vec Each KeepsDomain KeepsSemigroup KeepsMonoid KeepsGroup
  KeepsCommutativeMonoid KeepsAbelianGroup KeepsSemiRing KeepsUnitaryRing KeepsIntegralDomain KeepsEuclideanDomain KeepsField
  KeepsPartialOrder KeepsBoundedOrder KeepsLattice KeepsBooleanAlgebra)

section

variable [Cfg] {σ E : Type} {T : Limits σ} {S U : E → Prop}

/-! ## Provided methods -/

/-- C96: the provided methods of the traits keep to the limits, if the required ones do. -/
theorem C96_provided_semigroup {A : Stateful.DomainOps σ E} (h : KeepsDomain T S A) {mul : E → E → St σ E}
    (hmul : ∀ {a b}, S a → S b → Yields T S (mul a b)) : KeepsSemigroup T S { toDomainOps := A, mul } :=
  { toKeepsDomain := h, mul := hmul, mulAssign := hmul, square := fun ha => hmul ha ha }

theorem C96_provided_monoid {A : Stateful.SemigroupOps σ E} (h : KeepsSemigroup T S A) {one : St σ E} (h1 : Yields T S one)
    {tryInv : E → St σ (Option E)} (hi : ∀ {a}, S a → Yields T (Maybe S) (tryInv a)) :
    KeepsMonoid T S { toSemigroupOps := A, one, tryInv } := Stateful.keeps_monoid_default h h1 hi

/-- `power` of a group whose `try_inv` always finds an inverse. -/
theorem C96_provided_group {A : Stateful.MonoidOps σ E} (h : KeepsMonoid T S A)
    (hi : ∀ {a}, S a → Yields T (fun o => ∃ b, o = some b ∧ S b) (A.tryInv a)) : KeepsGroup T S { toMonoidOps := A } :=
  have hinv {a : E} (ha : S a) : Yields T S (do Res.unwrap (← A.tryInv a)) :=
    (hi ha).bind fun _ ⟨_, ho, hb⟩ => ho ▸ Yields.lok hb
  { toKeepsMonoid := h, inv := hinv,
    power := fun hn ha => Stateful.yields_powerDefault (inv := fun a => do Res.unwrap (← A.tryInv a)) h.one h.mulAssign
      h.square hn (hinv ha) ha }

theorem C96_provided_commutative_monoid {A : Stateful.DomainOps σ E} (h : KeepsDomain T S A) {zero : St σ E}
    (h0 : Yields T S zero) {add : E → E → St σ E} (hadd : ∀ {a b}, S a → S b → Yields T S (add a b)) :
    KeepsCommutativeMonoid T S { toDomainOps := A, zero, add } := Stateful.keeps_commutativeMonoid_default h h0 hadd

theorem C96_provided_abelian_group {A : Stateful.CommutativeMonoidOps σ E} (h : KeepsCommutativeMonoid T S A)
    {neg : E → St σ E} (hneg : ∀ {a}, S a → Yields T S (neg a)) :
    KeepsAbelianGroup T S { toCommutativeMonoidOps := A, neg } := Stateful.keeps_abelianGroup_default h hneg

theorem C96_provided_integral_domain {A : Stateful.UnitaryRingOps σ E} (h : KeepsUnitaryRing T S A)
    (hz : ∀ {a}, S a → Yields T (fun b => b = false → U a) (A.isZero a)) {tryDiv : E → E → St σ (Option E)}
    (hd : ∀ {a b}, S a → U b → Yields T (Maybe S) (tryDiv a b)) {rep coef : E → St σ E}
    (hr : ∀ {a}, S a → Yields T S (rep a)) (hc : ∀ {a}, U a → Yields T S (coef a)) :
    KeepsIntegralDomain T S U { toUnitaryRingOps := A, tryDiv, associateRepr := rep, associateCoef := coef } :=
  Stateful.keeps_integralDomain_default h hz hd hr hc

/-- `gcd` and `extended_gcd` may never return. -/
theorem C96_provided_euclidean_domain (hD : T.diverge) {A : Stateful.IntegralDomainOps σ E} (h : KeepsIntegralDomain T S U A)
    {quoRem : E → E → St σ (E × E)} (hq : ∀ {a b}, S a → U b → Yields T (fun p => S p.1 ∧ S p.2) (quoRem a b)) :
    KeepsEuclideanDomain T S U { toIntegralDomainOps := A, quoRem } := Stateful.keeps_euclidean_default hD h hq

/-- `inv` is asked only for elements that were not called zero. -/
theorem C96_provided_field {A : Stateful.UnitaryRingOps σ E} (h : KeepsUnitaryRing T S A)
    (hz : ∀ {a}, S a → Yields T (fun b => b = false → U a) (A.isZero a))
    (hi : ∀ {a}, U a → Yields T (fun o => ∃ b, o = some b ∧ S b) (A.tryInv a)) {inv : E → St σ E}
    (hinv : ∀ {a}, U a → Yields T S (inv a)) : KeepsField T S U { toUnitaryRingOps := A, inv } :=
  { toKeepsUnitaryRing := h, nonzero := hz, inv := hinv, div := fun ha hb => (hinv hb).bind fun _ hx => h.mul ha hx,
    power := fun hn ha => Stateful.yields_fieldPower h hz
      (fun ha => (hi ha).bind fun _ ⟨_, ho, hb⟩ => ho ▸ Yields.lok hb) hn ha }

theorem C96_provided_partial_order {A : Stateful.DomainOps σ E} (h : KeepsDomain T S A) {leq : E → E → St σ Bool}
    (hl : ∀ {a b}, S a → S b → Answers T (leq a b)) : KeepsPartialOrder T S { toDomainOps := A, leq } :=
  { toKeepsDomain := h, leq := hl, lessThan := Stateful.yields_lessThan h hl,
    comparable := fun ha hb => Stateful.yields_comparable (leq := leq) hl ha hb }

/-! ## Vectors -/

/-- C96: the methods on vectors of the right length return such vectors. -/
theorem C96_vector_domain {A : Stateful.DomainOps σ E} (h : KeepsDomain T S A) (len : ℕ) :
    KeepsDomain T (Vec S len) (Stateful.VectorAlgebra.domain len A) := h.vector len

theorem C96_vector_semigroup {A : Stateful.SemigroupOps σ E} (h : KeepsSemigroup T S A) (len : ℕ) :
    KeepsSemigroup T (Vec S len) (Stateful.VectorAlgebra.semigroup len A) := h.vector len

theorem C96_vector_monoid {A : Stateful.MonoidOps σ E} (h : KeepsMonoid T S A) (len : ℕ) :
    KeepsMonoid T (Vec S len) (Stateful.VectorAlgebra.monoid len A) := h.vector len

theorem C96_vector_group {A : Stateful.GroupOps σ E} (h : KeepsGroup T S A) (len : ℕ) :
    KeepsGroup T (Vec S len) (Stateful.VectorAlgebra.group len A) := h.vector len

theorem C96_vector_commutative_monoid {A : Stateful.CommutativeMonoidOps σ E} (h : KeepsCommutativeMonoid T S A) (len : ℕ) :
    KeepsCommutativeMonoid T (Vec S len) (Stateful.VectorAlgebra.commutativeMonoid len A) := h.vector len

theorem C96_vector_abelian_group {A : Stateful.AbelianGroupOps σ E} (h : KeepsAbelianGroup T S A) (len : ℕ) :
    KeepsAbelianGroup T (Vec S len) (Stateful.VectorAlgebra.abelianGroup len A) := h.vector len

theorem C96_vector_semi_ring {A : Stateful.SemiRingOps σ E} (h : KeepsSemiRing T S A) (len : ℕ) :
    KeepsSemiRing T (Vec S len) (Stateful.VectorAlgebra.semiRing len A) := h.vector len

theorem C96_vector_unitary_ring {A : Stateful.UnitaryRingOps σ E} (h : KeepsUnitaryRing T S A) (len : ℕ) :
    KeepsUnitaryRing T (Vec S len) (Stateful.VectorAlgebra.unitaryRing len A) := h.vector len

theorem C96_vector_partial_order {A : Stateful.PartialOrderOps σ E} (h : KeepsPartialOrder T S A) (len : ℕ) :
    KeepsPartialOrder T (Vec S len) (Stateful.VectorAlgebra.partialOrder len A) := h.vector len

theorem C96_vector_bounded_order {A : Stateful.BoundedOrderOps σ E} (h : KeepsBoundedOrder T S A) (len : ℕ) :
    KeepsBoundedOrder T (Vec S len) (Stateful.VectorAlgebra.boundedOrder len A) := h.vector len

theorem C96_vector_lattice {A : Stateful.LatticeOps σ E} (h : KeepsLattice T S A) (len : ℕ) :
    KeepsLattice T (Vec S len) (Stateful.VectorAlgebra.lattice len A) := h.vector len

theorem C96_vector_boolean_algebra {A : Stateful.BooleanAlgebraOps σ E} (h : KeepsBooleanAlgebra T S A) (len : ℕ) :
    KeepsBooleanAlgebra T (Vec S len) (Stateful.VectorAlgebra.booleanAlgebra len A) := h.vector len

/-- C96: with an operand of another length the methods on vectors panic before they call the base. -/
theorem C96_vector_length (A : Stateful.UnitaryRingOps σ E) {len : ℕ} {v w : List E} (h : v.length ≠ len ∨ w.length ≠ len)
    (s : σ) :
    let B := Stateful.VectorAlgebra.unitaryRing len A
    B.equals v w s = .panic s ∧ B.mul v w s = .panic s ∧ B.mulAssign v w s = .panic s ∧ B.add v w s = .panic s ∧
      B.addAssign v w s = .panic s ∧ B.sub v w s = .panic s ∧ B.subAssign v w s = .panic s ∧
      (v.length ≠ len → B.contains v s = .ok false s ∧ B.square v s = .panic s ∧ B.isOne v s = .panic s ∧
        B.tryInv v s = .panic s ∧ B.invertible v s = .panic s ∧ B.isZero v s = .panic s ∧ B.double v s = .panic s ∧
        B.neg v s = .panic s ∧ B.negAssign v s = .panic s) := by
  have hand : (VectorAlgebra.lenIs len v && VectorAlgebra.lenIs len w) = false := by
    unfold VectorAlgebra.lenIs
    rcases h with h | h
    · rw [beq_eq_false_iff_ne.2 h]; rfl
    · rw [beq_eq_false_iff_ne.2 h, Bool.and_false]
  have zmap (f : E → E → St σ E) : Stateful.VectorAlgebra.zipMap len f v w s = .panic s := by
    unfold Stateful.VectorAlgebra.zipMap; rw [hand]; rfl
  have zeach (f : E → E → St σ E) : Stateful.VectorAlgebra.zipEach len f v w s = .panic s := by
    unfold Stateful.VectorAlgebra.zipEach; rw [hand]; rfl
  have zall (f : E → E → St σ Bool) : Stateful.VectorAlgebra.zipAll len f v w s = .panic s := by
    unfold Stateful.VectorAlgebra.zipAll; rw [hand]; rfl
  refine ⟨zall _, zmap _, zeach _, zmap _, zeach _, zmap _, zeach _, fun hv => ?_⟩
  have hl : VectorAlgebra.lenIs len v = false := beq_eq_false_iff_ne.2 hv
  have each (f : E → St σ E) : Stateful.VectorAlgebra.mapEach len f v s = .panic s := by
    unfold Stateful.VectorAlgebra.mapEach; rw [hl]; rfl
  have all (f : E → St σ Bool) : Stateful.VectorAlgebra.allEach len f v s = .panic s := by
    unfold Stateful.VectorAlgebra.allEach; rw [hl]; rfl
  refine ⟨?_, each _, all _, ?_, all _, all _, each _, each _, each _⟩
  · show (if (v.length != len) = true then pure false else Stateful.allRes (fun a => A.contains a) v : St σ Bool) s = _
    rw [if_pos (bne_iff_ne.2 hv)]; rfl
  · show (do
      Res.assert (VectorAlgebra.lenIs len v)
      Stateful.VectorAlgebra.tryInvLoop A.tryInv v [] : St σ (Option (List E))) s = _
    rw [hl]; rfl

/-! ## Matrices -/

/-- C96: the methods on matrices of the right size. In builds with debug assertions `try_inv` checks its work, and this check
may fail if the base obeys no laws. -/
theorem C96_matrices {A : Stateful.FieldOps σ E} (h : KeepsField T S U A)
    (hd : Cfg.debugAssertions = true → ∀ s, T.state s → T.panic s) (n : ℕ) :
    KeepsUnitaryRing T (Vec S (n * n)) (Stateful.MatrixRing.ops A n) := h.matrix hd n

/-- C96: the methods but `try_inv`, in all builds. -/
theorem C96_matrix_methods {A : Stateful.FieldOps σ E} (h : KeepsField T S U A) {n : ℕ} {v w : List E}
    (hv : Vec S (n * n) v) (hw : Vec S (n * n) w) :
    let B := Stateful.MatrixRing.ops A n
    Answers T (B.contains v) ∧ Answers T (B.equals v w) ∧ Yields T (Vec S (n * n)) (B.mul v w) ∧
      Yields T (Vec S (n * n)) (B.add v w) ∧ Yields T (Vec S (n * n)) B.one ∧ Yields T (Vec S (n * n)) B.zero ∧
      Answers T (B.isOne v) ∧ Answers T (B.invertible v) ∧ (∀ k, Negatable k → Yields T (Vec S (n * n)) (B.int k)) :=
  ⟨(Stateful.MatrixRing.keeps_domain h).contains hv, (Stateful.MatrixRing.keeps_domain h).equals hv hw,
    Stateful.MatrixRing.yields_mul h hv hw, (h.toKeepsAbelianGroup.vector (n * n)).add hv hw,
    Stateful.MatrixRing.yields_int h (Stateful.MatrixRing.one_negatable h), Stateful.MatrixRing.yields_zero h,
    Stateful.MatrixRing.yields_isOne h hv,
    Yields.bind (Stateful.MatrixRing.yields_determinant h hv) fun _ hx => (h.isZero hx).not,
    fun _ hk => Stateful.MatrixRing.yields_int h hk⟩

/-- C96: the determinant; the base inverts only elements that it did not call zero. -/
theorem C96_determinant {A : Stateful.FieldOps σ E} (h : KeepsField T S U A) {n : ℕ} {v : List E} (hv : Vec S (n * n) v) :
    Yields T S (Stateful.MatrixRing.determinant A n v) := Stateful.MatrixRing.yields_determinant h hv

/-! ## Polynomials -/

/-- C96: polynomials with any coefficients, also with leading zeros. -/
theorem C96_poly_abelian_group {A : Stateful.AbelianGroupOps σ E} (h : KeepsAbelianGroup T S A) :
    KeepsAbelianGroup T (Each S) (Stateful.PolynomialAlgebra.abelianGroup A) := Stateful.PolynomialAlgebra.keeps_abelianGroup h

/-- C96: the lengths of sums, negatives and multiples. -/
theorem C96_poly_sum_length {A : Stateful.AbelianGroupOps σ E} (h : KeepsAbelianGroup T S A) {v w : List E} (hv : Each S v)
    (hw : Each S w) :
    Yields T (fun u => u.length ≤ max v.length w.length ∧ (v.length ≠ w.length → u.length = max v.length w.length))
        ((Stateful.PolynomialAlgebra.abelianGroup A).add v w) ∧
      Yields T (fun u => u.length = v.length) ((Stateful.PolynomialAlgebra.abelianGroup A).neg v) ∧
      (∀ n, Negatable n → Yields T (fun u => u.length ≤ v.length) ((Stateful.PolynomialAlgebra.abelianGroup A).times n v)) :=
  ⟨(Stateful.PolynomialAlgebra.yields_add h hv hw).mono fun _ h => h.2,
    (Stateful.PolynomialAlgebra.yields_neg h hv).mono fun _ h => h.1,
    fun _ hn => (Stateful.PolynomialAlgebra.yields_times h hv hn).mono fun _ h => h.2⟩

/-- C96: the ring of polynomials, over a base that never calls its one zero. -/
theorem C96_poly_unitary_ring {A : Stateful.UnitaryRingOps σ E} (h : KeepsUnitaryRing T S A)
    (h1 : Yields T (fun b => b = false) (A.one >>= fun a => A.isZero a)) :
    KeepsUnitaryRing T (Each S) (Stateful.PolynomialAlgebra.unitaryRing A) :=
  Stateful.PolynomialAlgebra.keeps_unitaryRing h ((Stateful.PolynomialAlgebra.yields_one h h1).mono fun _ h => h.2)

/-- C96: products, tests and inverses of polynomials, with their lengths, over any base. -/
theorem C96_poly_mul {A : Stateful.UnitaryRingOps σ E} (h : KeepsUnitaryRing T S A) {v w : List E} (hv : Each S v)
    (hw : Each S w) :
    let B := Stateful.PolynomialAlgebra.unitaryRing A
    Yields T (Vec S (if v.isEmpty || w.isEmpty then 0 else v.length + w.length - 1)) (B.mul v w) ∧ Answers T (B.isOne v) ∧
      Yields T (Maybe (Vec S 1)) (B.tryInv v) ∧ Answers T (B.invertible v) :=
  ⟨Stateful.PolynomialAlgebra.yields_mul h hv hw, Stateful.PolynomialAlgebra.yields_isOne h hv,
    Stateful.PolynomialAlgebra.yields_tryInv h hv, (Stateful.PolynomialAlgebra.yields_tryInv h hv).isSome⟩

/-- C96: `try_div`, if the base never calls the leading coefficient of the divisor zero. -/
theorem C96_poly_try_div {A : Stateful.IntegralDomainOps σ E} (h : KeepsIntegralDomain T S U A) {v w : List E} (hv : Each S v)
    (hw : Each S w) (hne : w ≠ []) (hz : ∀ a, w.getLast? = some a → Yields T (fun b => b = false) (A.isZero a)) :
    Yields T (Maybe (Vec S (v.length + 1 - w.length))) ((Stateful.PolynomialAlgebra.integralDomain A).tryDiv v w) :=
  Stateful.PolynomialAlgebra.yields_tryDiv h hv hw
    (Yields.assert (by cases w with | nil => exact absurd rfl hne | cons a w => rfl)) fun a ha =>
      Stateful.PolynomialAlgebra.yields_leading (h.nonzero (hw a (List.mem_of_getLast? ha))) (hz a ha)

/-- C96: `quo_rem` likewise: the remainder is shorter than the divisor. -/
theorem C96_poly_quo_rem {A : Stateful.FieldOps σ E} (h : KeepsField T S U A) {v w : List E} (hv : Each S v)
    (hw : Each S w) (hne : w ≠ []) (hz : ∀ a, w.getLast? = some a → Yields T (fun b => b = false) (A.isZero a)) :
    Yields T (fun p => Vec S (v.length + 1 - w.length) p.1 ∧ Each S p.2 ∧ p.2.length ≤ v.length ∧ p.2.length < w.length)
      ((Stateful.PolynomialAlgebra.euclidean A).quoRem v w) :=
  Stateful.PolynomialAlgebra.yields_quoRem h hv hw
    (Yields.assert (by cases w with | nil => exact absurd rfl hne | cons a w => rfl)) fun a ha =>
      Stateful.PolynomialAlgebra.yields_leading (h.nonzero (hw a (List.mem_of_getLast? ha))) (hz a ha)

/-- C96: division by the empty list panics without a call of the base. -/
theorem C96_poly_empty_divisor (A : Stateful.IntegralDomainOps σ E) (B : Stateful.FieldOps σ E) (v : List E) (s : σ) :
    (Stateful.PolynomialAlgebra.integralDomain A).tryDiv v [] s = .panic s ∧
      (Stateful.PolynomialAlgebra.euclidean B).quoRem v [] s = .panic s ∧
      (Stateful.PolynomialAlgebra.integralDomain A).associateCoef [] s = .panic s := ⟨rfl, rfl, rfl⟩

/-- C96: if the base calls the leading coefficient zero, then division panics in the state that this answer leaves. -/
theorem C96_poly_zero_divisor (A : Stateful.FieldOps σ E) {v w : List E} {a z : E} {s t u : σ} (hl : w.getLast? = some a)
    (hlen : w.length ≤ v.length) (h0 : A.zero s = .ok z t) (ha : A.isZero a t = .ok true u) :
    (Stateful.PolynomialAlgebra.euclidean A).tryDiv v w s = .panic u ∧
      (Stateful.PolynomialAlgebra.euclidean A).quoRem v w s = .panic u := by
  have hne : w ≠ [] := by rintro rfl; cases hl
  have hlast : idx w (w.length - 1) = .ok a := by
    rw [List.getLast?_eq_getElem?] at hl
    unfold idx; rw [hl]
  have hemp : w.isEmpty = false := by cases w with | nil => exact absurd rfl hne | cons a w => rfl
  constructor
  · show Stateful.PolynomialAlgebra.tryDiv A.toIntegralDomain v w s = _
    unfold Stateful.PolynomialAlgebra.tryDiv
    rw [hemp, if_neg (by omega), hlast]
    show St.bind A.zero _ s = _
    unfold St.bind
    rw [h0]
    show St.bind (A.isZero a) _ t = _
    unfold St.bind
    rw [ha]
    rfl
  · show Stateful.PolynomialAlgebra.quoRem A v w s = _
    unfold Stateful.PolynomialAlgebra.quoRem
    rw [hemp, if_neg (by omega), hlast]
    show St.bind A.zero _ s = _
    unfold St.bind
    rw [h0]
    show St.bind (A.isZero a) _ t = _
    unfold St.bind
    rw [ha]
    rfl

/-- C96: representatives of polynomials whose leading coefficient the base divides by. -/
theorem C96_poly_associates {A : Stateful.IntegralDomainOps σ E} (h : KeepsIntegralDomain T S U A) {v : List E}
    (hv : Each S v) (hl : ∀ a, v.getLast? = some a → U a) :
    Yields T (Vec S v.length) ((Stateful.PolynomialAlgebra.integralDomain A).associateRepr v) ∧
      (v ≠ [] → Yields T (Vec S 1) ((Stateful.PolynomialAlgebra.integralDomain A).associateCoef v)) :=
  ⟨Stateful.PolynomialAlgebra.yields_associateRepr h hv hl, fun hne => Stateful.PolynomialAlgebra.yields_associateCoef h hne hl⟩

/-- C96: all methods of polynomials, where panics are allowed: the results are polynomials over the base. -/
theorem C96_poly_integral_domain {A : Stateful.IntegralDomainOps σ E} (h : KeepsIntegralDomain T S S A)
    (hp : ∀ s, T.state s → T.panic s) :
    KeepsIntegralDomain T (Each S) (Each S) (Stateful.PolynomialAlgebra.integralDomain A) := h.polynomials hp

theorem C96_poly_euclidean {A : Stateful.FieldOps σ E} (h : KeepsField T S S A) (hp : ∀ s, T.state s → T.panic s)
    (hD : T.diverge) : KeepsEuclideanDomain T (Each S) (Each S) (Stateful.PolynomialAlgebra.euclidean A) :=
  h.polynomials hD hp

/-! ## Fields, residues, fractions, groups and orders -/

/-- C96: the implementations of `IntegralDomain` and `EuclideanDomain` for fields. -/
theorem C96_field_integral_domain {A : Stateful.FieldOps σ E} (h : KeepsField T S U A) :
    KeepsIntegralDomain T S U A.toIntegralDomain := h.integralDomain

theorem C96_field_euclidean {A : Stateful.FieldOps σ E} (h : KeepsField T S U A) (hD : T.diverge)
    (hu : ∀ {b}, U b → Yields T (fun z => z = false) (A.isZero b)) : KeepsEuclideanDomain T S U A.toEuclidean :=
  h.euclidean hD fun hb => (hu hb).bind fun _ hz => Yields.assert (by rw [hz]; rfl)

/-- C96: residues modulo an element that the base divides by: no panic but those of the base. -/
theorem C96_quotient_ring {A : Stateful.EuclideanDomainOps σ E} (h : KeepsEuclideanDomain T S U A) {m : E} (hm : S m)
    (hu : U m) : KeepsUnitaryRing T S (Stateful.QuotientRing.ops A m) := h.quotientRing hm hu

theorem C96_quotient_field {A : Stateful.EuclideanDomainOps σ E} (h : KeepsEuclideanDomain T S U A) {m : E} (hm : S m)
    (hu : U m) (hp : ∀ s, T.state s → T.panic s) : KeepsField T S S (Stateful.QuotientField.ops A m) :=
  h.quotientField hm hu hp

theorem C96_fractions {A : Stateful.EuclideanDomainOps σ E} (h : KeepsEuclideanDomain T S S A)
    (hp : ∀ s, T.state s → T.panic s) :
    KeepsField T (fun p => S p.1 ∧ S p.2) (fun p => S p.1 ∧ S p.2) (Stateful.ReducedFractions.ops A) := h.fractions hp

theorem C96_additive_group {A : Stateful.AbelianGroupOps σ E} (h : KeepsAbelianGroup T S A) :
    KeepsGroup T S (Stateful.AdditiveGroup.ops A) := h.additive

theorem C96_multiplicative_group {A : Stateful.MonoidOps σ E} (h : KeepsMonoid T S A) (hp : ∀ s, T.state s → T.panic s) :
    KeepsGroup T S (Stateful.MultiplicativeGroup.ops A) := h.multiplicative hp

theorem C96_divisibility {A : Stateful.IntegralDomainOps σ E} (h : KeepsIntegralDomain T S U A)
    {B : Stateful.EuclideanDomainOps σ E} (h' : KeepsEuclideanDomain T S U B) :
    KeepsBoundedOrder T S (Stateful.DivisibilityOrder.boundedOrder A) ∧
      KeepsLattice T S (Stateful.DivisibilityOrder.lattice B) := ⟨h.divisibility, h'.divisibility⟩

theorem st_bind_eq_ok {α β : Type} {x : St σ α} {f : α → St σ β} {s u : σ} {b : β} :
    (x >>= f) s = .ok b u ↔ ∃ a t, x s = .ok a t ∧ f a t = .ok b u := by
  show St.bind x f s = _ ↔ _
  unfold St.bind
  cases x s with
  | ok a t => exact ⟨fun h => ⟨a, t, rfl, h⟩, fun ⟨_, _, h, h'⟩ => by cases h; exact h'⟩
  | panic t => exact ⟨nofun, nofun⟩
  | diverge => exact ⟨nofun, nofun⟩

theorem st_assert_eq_ok {c : Bool} {s u : σ} : (liftM (Res.assert c) : St σ Unit) s = .ok () u ↔ c = true ∧ s = u := by
  cases c with
  | true => exact ⟨fun h => by cases h; exact ⟨rfl, rfl⟩, fun h => by cases h.2; rfl⟩
  | false => exact ⟨nofun, nofun⟩

theorem st_pure_eq_ok {α : Type} {a b : α} {s u : σ} : (pure a : St σ α) s = .ok b u ↔ a = b ∧ s = u :=
  ⟨fun h => by cases h; exact ⟨rfl, rfl⟩, fun h => by cases h.1; cases h.2; rfl⟩

/-- C96: a constructor returns exactly if the base answers as it should, whatever else the base does: the modulus is an element
of the base, `rem(1, 1)` is zero, one is not zero. Matrices are constructed without the base, exactly if the number of entries is
a `usize`. -/
theorem C96_constructors (A : Stateful.EuclideanDomainOps σ E) (A' : Stateful.FieldOps σ E) (m : E) (n : ℕ) (s u : σ) :
    (Stateful.QuotientRing.new A m s = .ok (Stateful.QuotientRing.ops A m) u ↔ A.contains m s = .ok true u) ∧
    (Stateful.QuotientField.new A m s = .ok (Stateful.QuotientField.ops A m) u ↔
      ∃ t t' t'' e z, A.contains m s = .ok true t ∧ A.one t = .ok e t' ∧ A.rem e e t' = .ok z t'' ∧
        A.isZero z t'' = .ok true u) ∧
    (Stateful.ReducedFractions.new A s = .ok (Stateful.ReducedFractions.ops A) u ↔
      ∃ t e, A.one s = .ok e t ∧ A.isZero e t = .ok false u) ∧
    Stateful.MatrixRing.new A' n s = if n * n < 2 ^ Cfg.ptrBits then .ok (Stateful.MatrixRing.ops A' n) s else .panic s := by
  refine ⟨⟨fun h => ?_, fun h => ?_⟩, ⟨fun h => ?_, ?_⟩, ⟨fun h => ?_, ?_⟩, ?_⟩
  · obtain ⟨b, t, h0, h⟩ := st_bind_eq_ok.1 h
    obtain ⟨_, _, hb, h⟩ := st_bind_eq_ok.1 h
    obtain ⟨rfl, rfl⟩ := st_assert_eq_ok.1 hb
    obtain ⟨-, rfl⟩ := st_pure_eq_ok.1 h
    exact h0
  · exact st_bind_eq_ok.2 ⟨_, _, h, st_bind_eq_ok.2 ⟨_, _, st_assert_eq_ok.2 ⟨rfl, rfl⟩, st_pure_eq_ok.2 ⟨rfl, rfl⟩⟩⟩
  · obtain ⟨b, t, h0, h⟩ := st_bind_eq_ok.1 h
    obtain ⟨_, _, hb, h⟩ := st_bind_eq_ok.1 h
    obtain ⟨rfl, rfl⟩ := st_assert_eq_ok.1 hb
    obtain ⟨e, t', h1, h⟩ := st_bind_eq_ok.1 h
    obtain ⟨z, t'', h2, h⟩ := st_bind_eq_ok.1 h
    obtain ⟨c, v, h3, h⟩ := st_bind_eq_ok.1 h
    obtain ⟨_, _, hb, h⟩ := st_bind_eq_ok.1 h
    obtain ⟨rfl, rfl⟩ := st_assert_eq_ok.1 hb
    obtain ⟨-, rfl⟩ := st_pure_eq_ok.1 h
    exact ⟨_, _, _, _, _, h0, h1, h2, h3⟩
  · rintro ⟨_, _, _, _, _, h0, h1, h2, h3⟩
    exact st_bind_eq_ok.2 ⟨_, _, h0, st_bind_eq_ok.2 ⟨_, _, st_assert_eq_ok.2 ⟨rfl, rfl⟩, st_bind_eq_ok.2 ⟨_, _, h1,
      st_bind_eq_ok.2 ⟨_, _, h2, st_bind_eq_ok.2 ⟨_, _, h3, st_bind_eq_ok.2 ⟨_, _, st_assert_eq_ok.2 ⟨rfl, rfl⟩,
      st_pure_eq_ok.2 ⟨rfl, rfl⟩⟩⟩⟩⟩⟩⟩
  · obtain ⟨e, t, h1, h⟩ := st_bind_eq_ok.1 h
    obtain ⟨b, v, h2, h⟩ := st_bind_eq_ok.1 h
    obtain ⟨_, _, hb, h⟩ := st_bind_eq_ok.1 h
    obtain ⟨hb, rfl⟩ := st_assert_eq_ok.1 hb
    obtain ⟨-, rfl⟩ := st_pure_eq_ok.1 h
    cases b with
    | true => cases hb
    | false => exact ⟨t, e, h1, h2⟩
  · rintro ⟨t, e, h1, h2⟩
    exact st_bind_eq_ok.2 ⟨_, _, h1, st_bind_eq_ok.2 ⟨_, _, h2, st_bind_eq_ok.2 ⟨_, _, st_assert_eq_ok.2 ⟨rfl, rfl⟩,
      st_pure_eq_ok.2 ⟨rfl, rfl⟩⟩⟩⟩
  · have hp : 0 < 2 ^ Cfg.ptrBits := Nat.two_pow_pos _
    by_cases h : n * n < 2 ^ Cfg.ptrBits
    · have h' : n * n ≤ usizeMax := by unfold usizeMax; omega
      unfold Stateful.MatrixRing.new
      rw [if_pos h, decide_eq_true h']; rfl
    · have h' : ¬n * n ≤ usizeMax := by unfold usizeMax; omega
      unfold Stateful.MatrixRing.new
      rw [if_neg h, decide_eq_false h']; rfl

/-! ## Panics of the base -/

theorem yields_marked {α : Type} (x : St σ α) : Answers (Limits.mark σ) (Stateful.marked x) := by
  intro s hs
  unfold Stateful.marked
  cases x s.1 with
  | ok a t => exact ⟨trivial, hs⟩
  | panic t => exact (rfl : true = true)
  | diverge => trivial

/-- Any base keeps to the limits of its mark. -/
theorem keeps_marked (A : Stateful.FieldOps σ E) : KeepsField (Limits.mark σ) (fun _ => True) (fun _ => True) A.marked where
  contains := fun _ => yields_marked _
  equals := fun _ _ => yields_marked _
  mul := fun _ _ => yields_marked _
  mulAssign := fun _ _ => yields_marked _
  square := fun _ => yields_marked _
  one := yields_marked _
  isOne := fun _ => yields_marked _
  tryInv := fun _ => (yields_marked _).mono fun _ _ _ _ => trivial
  invertible := fun _ => yields_marked _
  zero := yields_marked _
  isZero := fun _ => yields_marked _
  add := fun _ _ => yields_marked _
  addAssign := fun _ _ => yields_marked _
  double := fun _ => yields_marked _
  utimes := fun _ => yields_marked _
  neg := fun _ => yields_marked _
  negAssign := fun _ => yields_marked _
  sub := fun _ _ => yields_marked _
  subAssign := fun _ _ => yields_marked _
  times := fun _ _ => yields_marked _
  int := fun _ => yields_marked _
  nonzero := fun _ => (yields_marked _).mono fun _ _ _ => trivial
  inv := fun _ => yields_marked _
  div := fun _ _ => yields_marked _
  power := fun _ _ => yields_marked _

/-- C96: over any field whatever, every panic of the determinant or the product of matrices, of the sum or the product of
polynomials is a panic of a method of the field. -/
theorem C96_panic_of_the_base (A : Stateful.FieldOps σ E) {n : ℕ} {v w : List E} (s : σ) {t : σ × Bool} :
    (v.length = n * n → Stateful.MatrixRing.determinant A.marked n v (s, false) = .panic t → t.2 = true) ∧
      (v.length = n * n → w.length = n * n → Stateful.MatrixRing.mul A.marked n v w (s, false) = .panic t → t.2 = true) ∧
      (Stateful.PolynomialAlgebra.add A.marked.toAbelianGroupOps v w (s, false) = .panic t → t.2 = true) ∧
      (Stateful.PolynomialAlgebra.mul A.marked.toUnitaryRingOps v w (s, false) = .panic t → t.2 = true) := by
  have h := keeps_marked A
  have key {α : Type} {Q : α → Prop} {x : St (σ × Bool) α} (hx : Yields (Limits.mark σ) Q x) (hp : x (s, false) = .panic t) :
      t.2 = true := by
    have := hx (s, false) rfl
    rw [hp] at this
    exact this
  have hall {v : List E} : Each (fun _ => True) v := fun _ _ => trivial
  exact ⟨fun hv => key (C96_determinant h ⟨hv, hall⟩), fun hv hw => key (Stateful.MatrixRing.yields_mul h ⟨hv, hall⟩ ⟨hw, hall⟩),
    key (Stateful.PolynomialAlgebra.yields_add h.toKeepsAbelianGroup hall hall),
    key (Stateful.PolynomialAlgebra.yields_mul h.toKeepsUnitaryRing hall hall)⟩

end

/-! ## Examples -/

namespace LawlessExamples

local instance lawlessProfile : Cfg := ⟨false, false, 64, by decide⟩

/-- A number drawn from the state. -/
def draw : St ℕ ℕ := fun s => .ok (s / 7 % 10) ((s * 137 + 11) % 1000)

/-- A coin drawn from the state. -/
def coin : St ℕ Bool := fun s => .ok (s / 7 % 2 == 0) ((s * 137 + 11) % 1000)

/-- A base that answers at random. -/
def dice : Stateful.FieldOps ℕ ℕ where
  contains := fun _ => coin
  equals := fun _ _ => coin
  mul := fun _ _ => draw
  one := draw
  tryInv := fun _ => do if ← coin then return none else return some (← draw)
  zero := draw
  add := fun _ _ => draw
  neg := fun _ => draw
  inv := fun _ => draw
  power := fun _ _ => draw

/-- No panics and no endless loops. -/
def safe : Limits ℕ := ⟨fun _ => True, fun _ => False, False⟩

/-- No limits: panics and endless loops are allowed. -/
def free : Limits ℕ := ⟨fun _ => True, fun _ => True, True⟩

section

variable {T : Limits ℕ} (hT : ∀ s, T.state s)

include hT

theorem yields_draw : Yields T (· < 10) draw := fun _ _ => ⟨Nat.mod_lt _ (by decide), hT _⟩

theorem yields_coin : Answers T coin := fun _ _ => ⟨trivial, hT _⟩

theorem dice_within : KeepsField T (· < 10) (· < 10) dice :=
  have yields_draw := yields_draw hT
  have yields_coin := yields_coin hT
  have hd : KeepsDomain T (· < 10) dice.toDomainOps :=
    { contains := fun _ => yields_coin, equals := fun _ _ => yields_coin }
  have hs := C96_provided_semigroup hd (mul := fun _ _ => draw) (fun _ _ => yields_draw)
  have hm := C96_provided_monoid hs yields_draw (tryInv := dice.tryInv)
    (fun _ => yields_coin.bind fun _ _ => .ite (fun _ => .ok fun _ h => by cases h) fun _ =>
      yields_draw.bind fun _ hx => .ok fun _ h => by cases h; exact hx)
  have hc := C96_provided_commutative_monoid hd yields_draw (add := fun _ _ => draw) (fun _ _ => yields_draw)
  have ha := C96_provided_abelian_group hc (neg := fun _ => draw) (fun _ => yields_draw)
  { hm, ha with
    int := fun hn => yields_draw.bind fun _ h1 => ha.times hn h1
    nonzero := fun h => (hc.isZero h).mono fun _ _ _ => h
    inv := fun _ => yields_draw
    div := fun _ _ => yields_draw.bind fun _ _ => yields_draw
    power := fun _ _ => yields_draw }

end

theorem dice_keeps : KeepsField safe (· < 10) (· < 10) dice := dice_within fun _ => trivial

theorem dice_free : KeepsField free (· < 10) (· < 10) dice := dice_within fun _ => trivial

/-- The inverse of a matrix over numbers at random, if one is found, has four entries. -/
example : Yields safe (Maybe (Vec (· < 10) 4)) ((Stateful.MatrixRing.ops dice 2).tryInv [1, 2, 3, 4]) :=
  (C96_matrices dice_keeps (fun h => absurd h (by decide)) 2).tryInv ⟨rfl, by decide⟩

example : Stateful.PolynomialAlgebra.mul dice.toUnitaryRingOps [1, 2, 3] [4, 5] 1
    = .ok [1, 6, 3, 7] 768 := rfl


/-- `gcd` may never return, so the limits must allow it. -/
example : KeepsEuclideanDomain ⟨fun _ => True, fun _ => True, True⟩ (Each fun _ => True) (Each fun _ => True)
    (Stateful.PolynomialAlgebra.euclidean (σ := ℕ) dice) :=
  C96_poly_euclidean (S := fun _ => True)
    (have any {α : Type} (x : St ℕ α) : Answers (⟨fun _ => True, fun _ => True, True⟩ : Limits ℕ) x := fun s _ => by
      cases x s with
      | ok a t => exact ⟨trivial, trivial⟩
      | panic t => trivial
      | diverge => trivial
    { contains := fun _ => any _, equals := fun _ _ => any _, mul := fun _ _ => any _, mulAssign := fun _ _ => any _,
      square := fun _ => any _, one := any _, isOne := fun _ => any _, tryInv := fun _ => (any _).mono fun _ _ _ _ => trivial,
      invertible := fun _ => any _, zero := any _, isZero := fun _ => any _, add := fun _ _ => any _,
      addAssign := fun _ _ => any _, double := fun _ => any _, utimes := fun _ => any _, neg := fun _ => any _,
      negAssign := fun _ => any _, sub := fun _ _ => any _, subAssign := fun _ _ => any _, times := fun _ _ => any _,
      int := fun _ => any _, nonzero := fun _ => (any _).mono fun _ _ _ => trivial, inv := fun _ => any _,
      div := fun _ _ => any _, power := fun _ _ => any _ }) (fun _ _ => trivial) trivial

/-- The field of two elements counting its calls: it panics only when asked to invert zero, and is never asked to. -/
def counting : Stateful.FieldOps ℕ Bool where
  equals := fun a b s => .ok (a == b) (s + 1)
  mul := fun a b s => .ok (a && b) (s + 1)
  one := fun s => .ok true (s + 1)
  tryInv := fun a s => .ok (if a then some true else none) (s + 1)
  zero := fun s => .ok false (s + 1)
  add := fun a b s => .ok (xor a b) (s + 1)
  neg := fun a s => .ok a (s + 1)
  inv := fun a s => if a then .ok true (s + 1) else .panic s

theorem counting_keeps : KeepsField safe (fun _ => True) (· = true) counting :=
  have hd : KeepsDomain safe (fun _ => True) counting.toDomainOps :=
    { contains := fun _ => .ok trivial, equals := fun _ _ _ _ => ⟨trivial, trivial⟩ }
  have hs := C96_provided_semigroup hd (mul := counting.mul) (fun _ _ _ _ => ⟨trivial, trivial⟩)
  have hm := C96_provided_monoid hs (one := counting.one) (fun _ _ => ⟨trivial, trivial⟩) (tryInv := counting.tryInv)
    (fun _ _ _ => ⟨fun _ _ => trivial, trivial⟩)
  have hc := C96_provided_commutative_monoid hd (zero := counting.zero) (fun _ _ => ⟨trivial, trivial⟩) (add := counting.add)
    (fun _ _ _ _ => ⟨trivial, trivial⟩)
  have ha := C96_provided_abelian_group hc (neg := counting.neg) (fun _ _ _ => ⟨trivial, trivial⟩)
  have hr : KeepsUnitaryRing safe (fun _ => True) counting.toUnitaryRingOps :=
    { hm, ha with
      int := fun hn => hm.one.bind fun _ h1 => ha.times hn h1 }
  C96_provided_field hr (fun {a} _ _ _ => ⟨fun h => by cases a; exact absurd h (by decide); rfl, trivial⟩)
    (fun {a} h => by subst h; exact fun _ _ => ⟨⟨true, rfl, trivial⟩, trivial⟩)
    (fun {a} h => by subst h; exact fun _ _ => ⟨trivial, trivial⟩)

/-- So no determinant panics. -/
example (n : ℕ) (v : List Bool) (hv : v.length = n * n) (s t : ℕ) :
    Stateful.MatrixRing.determinant counting n v s ≠ .panic t := fun h => by
  have := C96_determinant counting_keeps ⟨hv, fun _ _ => trivial⟩ s trivial
  rw [h] at this
  exact this

/-- With a wrong length an index is out of bounds; the mark is not set. -/
example : Stateful.MatrixRing.determinant counting.marked 2 [true] (0, false) = .panic (5, false) := rfl

/-- The same modulus is accepted or not. -/
example : (∃ B, Stateful.QuotientRing.new dice.toEuclidean 5 1 = .ok B 148) ∧
    Stateful.QuotientRing.new dice.toEuclidean 5 7 = .panic 970 := ⟨⟨_, rfl⟩, rfl⟩

/-- One that is called zero. -/
example : Stateful.ReducedFractions.new dice.toEuclidean 7 = .panic 448 := rfl

/-! The statements above, of the bases above. -/

/-- A group that answers at random, and finds an inverse of every element. -/
example : KeepsGroup safe (· < 10)
    { toSemigroupOps := dice.toSemigroupOps, one := draw, tryInv := fun _ => do return some (← draw) } :=
  have hi {a : ℕ} (_ : a < 10) : Yields safe (fun o => ∃ b, o = some b ∧ b < 10) (do return some (← draw) : St ℕ (Option ℕ)) :=
    (yields_draw fun _ => trivial).bind fun b hb => .ok ⟨b, rfl, hb⟩
  C96_provided_group (C96_provided_monoid dice_keeps.toKeepsSemigroup (yields_draw fun _ => trivial)
    fun ha => (hi ha).mono fun _ ⟨_, ho, hb⟩ _ h => by cases ho.symm.trans h; exact hb) hi

example : KeepsIntegralDomain safe (· < 10) (· < 10)
    { toUnitaryRingOps := dice.toUnitaryRingOps, tryDiv := fun _ => dice.tryInv, associateRepr := fun _ => draw,
      associateCoef := fun _ => draw } :=
  C96_provided_integral_domain dice_keeps.toKeepsUnitaryRing dice_keeps.nonzero (fun _ hb => dice_keeps.tryInv hb)
    (fun _ => yields_draw fun _ => trivial) fun _ => yields_draw fun _ => trivial

example : KeepsEuclideanDomain free (· < 10) (· < 10)
    { toIntegralDomainOps := dice.toIntegralDomain, quoRem := fun _ _ => do return (← draw, ← draw) } :=
  C96_provided_euclidean_domain trivial (C96_field_integral_domain dice_free) fun _ _ =>
    (yields_draw fun _ => trivial).bind fun _ h => (yields_draw fun _ => trivial).bind fun _ h' => .ok ⟨h, h'⟩

/-- An order that answers at random. -/
def diceOrder : Stateful.BooleanAlgebraOps ℕ ℕ where
  equals := fun _ _ => coin
  leq := fun _ _ => coin
  max := draw
  min := draw
  meet := fun _ _ => draw
  join := fun _ _ => draw
  not := fun _ => draw

theorem diceOrder_keeps : KeepsBooleanAlgebra safe (· < 10) diceOrder :=
  have hd := yields_draw (T := safe) fun _ => trivial
  have hc := yields_coin (T := safe) fun _ => trivial
  { toKeepsPartialOrder := C96_provided_partial_order (A := diceOrder.toDomainOps)
      { contains := fun _ => .ok trivial, equals := fun _ _ => hc } fun _ _ => hc,
    max := hd, min := hd, meet := fun _ _ => hd, join := fun _ _ => hd, not := fun _ => hd }

example : KeepsDomain safe (Vec (· < 10) 3) (Stateful.VectorAlgebra.domain 3 dice.toDomainOps) :=
  C96_vector_domain dice_keeps.toKeepsDomain 3

example : KeepsSemigroup safe (Vec (· < 10) 3) (Stateful.VectorAlgebra.semigroup 3 dice.toSemigroupOps) :=
  C96_vector_semigroup dice_keeps.toKeepsSemigroup 3

example : KeepsMonoid safe (Vec (· < 10) 3) (Stateful.VectorAlgebra.monoid 3 dice.toMonoidOps) :=
  C96_vector_monoid dice_keeps.toKeepsMonoid 3

example : KeepsCommutativeMonoid safe (Vec (· < 10) 3) (Stateful.VectorAlgebra.commutativeMonoid 3 dice.toCommutativeMonoidOps) :=
  C96_vector_commutative_monoid dice_keeps.toKeepsCommutativeMonoid 3

example : KeepsAbelianGroup safe (Vec (· < 10) 3) (Stateful.VectorAlgebra.abelianGroup 3 dice.toAbelianGroupOps) :=
  C96_vector_abelian_group dice_keeps.toKeepsAbelianGroup 3

example : KeepsSemiRing safe (Vec (· < 10) 3) (Stateful.VectorAlgebra.semiRing 3 dice.toSemiRingOps) :=
  C96_vector_semi_ring dice_keeps.toKeepsSemiRing 3

example : KeepsUnitaryRing safe (Vec (· < 10) 3) (Stateful.VectorAlgebra.unitaryRing 3 dice.toUnitaryRingOps) :=
  C96_vector_unitary_ring dice_keeps.toKeepsUnitaryRing 3

example : KeepsGroup safe (Vec (· < 10) 3) (Stateful.VectorAlgebra.group 3 (Stateful.AdditiveGroup.ops dice.toAbelianGroupOps)) :=
  C96_vector_group (C96_additive_group dice_keeps.toKeepsAbelianGroup) 3

example : KeepsGroup free (Vec (· < 10) 3) (Stateful.VectorAlgebra.group 3 (Stateful.MultiplicativeGroup.ops dice.toMonoidOps)) :=
  C96_vector_group (C96_multiplicative_group dice_free.toKeepsMonoid fun _ _ => trivial) 3

example : KeepsPartialOrder safe (Vec (· < 10) 3) (Stateful.VectorAlgebra.partialOrder 3 diceOrder.toPartialOrderOps) :=
  C96_vector_partial_order diceOrder_keeps.toKeepsPartialOrder 3

example : KeepsBoundedOrder safe (Vec (· < 10) 3) (Stateful.VectorAlgebra.boundedOrder 3 diceOrder.toBoundedOrderOps) :=
  C96_vector_bounded_order diceOrder_keeps.toKeepsBoundedOrder 3

example : KeepsLattice safe (Vec (· < 10) 3) (Stateful.VectorAlgebra.lattice 3 diceOrder.toLatticeOps) :=
  C96_vector_lattice diceOrder_keeps.toKeepsLattice 3

example : KeepsBooleanAlgebra safe (Vec (· < 10) 3) (Stateful.VectorAlgebra.booleanAlgebra 3 diceOrder) :=
  C96_vector_boolean_algebra diceOrder_keeps 3

/-- A vector that is too short: the counter stays as it is. -/
example : (Stateful.VectorAlgebra.unitaryRing 3 counting.toUnitaryRingOps).mul [true, true] [true, true, true] 7 = .panic 7 :=
  (C96_vector_length counting.toUnitaryRingOps (Or.inl (by decide)) 7).2.1

/-- Also in builds with debug assertions. -/
example : Yields safe (Vec (· < 10) 4) ((Stateful.MatrixRing.ops dice 2).mul [1, 2, 3, 4] [5, 6, 7, 8]) :=
  (C96_matrix_methods dice_keeps (n := 2) (v := [1, 2, 3, 4]) (w := [5, 6, 7, 8]) ⟨rfl, by decide⟩ ⟨rfl, by decide⟩).2.2.1

example : KeepsAbelianGroup safe (Each (· < 10)) (Stateful.PolynomialAlgebra.abelianGroup dice.toAbelianGroupOps) :=
  C96_poly_abelian_group dice_keeps.toKeepsAbelianGroup

example : Yields safe (fun u => u.length ≤ 3 ∧ (3 ≠ 2 → u.length = 3))
    ((Stateful.PolynomialAlgebra.abelianGroup dice.toAbelianGroupOps).add [1, 2, 3] [4, 5]) :=
  (C96_poly_sum_length dice_keeps.toKeepsAbelianGroup (v := [1, 2, 3]) (w := [4, 5]) (by unfold Each; decide)
    (by unfold Each; decide)).1

/-- The one of `counting` is never called zero. -/
example : KeepsUnitaryRing safe (Each fun _ => True) (Stateful.PolynomialAlgebra.unitaryRing counting.toUnitaryRingOps) :=
  C96_poly_unitary_ring counting_keeps.toKeepsUnitaryRing fun _ _ => ⟨rfl, trivial⟩

example : Yields safe (Vec (· < 10) 4) ((Stateful.PolynomialAlgebra.unitaryRing dice.toUnitaryRingOps).mul [1, 2, 3] [4, 5]) :=
  (C96_poly_mul dice_keeps.toKeepsUnitaryRing (v := [1, 2, 3]) (w := [4, 5]) (by unfold Each; decide) (by unfold Each; decide)).1

example : Yields safe (Maybe (Vec (fun _ => True) 2))
    ((Stateful.PolynomialAlgebra.integralDomain counting.toIntegralDomain).tryDiv [true, false, true] [true, true]) :=
  C96_poly_try_div (C96_field_integral_domain counting_keeps) (v := [true, false, true]) (w := [true, true])
    (fun _ _ => trivial) (fun _ _ => trivial) (by decide) fun _ h => by cases h; exact fun _ _ => ⟨rfl, trivial⟩

example : Yields safe (fun p => Vec (fun _ => True) 2 p.1 ∧ Each (fun _ => True) p.2 ∧ p.2.length ≤ 3 ∧ p.2.length < 2)
    ((Stateful.PolynomialAlgebra.euclidean counting).quoRem [true, false, true] [true, true]) :=
  C96_poly_quo_rem counting_keeps (v := [true, false, true]) (w := [true, true])
    (fun _ _ => trivial) (fun _ _ => trivial) (by decide) fun _ h => by cases h; exact fun _ _ => ⟨rfl, trivial⟩

example : (Stateful.PolynomialAlgebra.euclidean counting).quoRem [true] [] 7 = .panic 7 :=
  (C96_poly_empty_divisor counting.toIntegralDomain counting [true] 7).2.1

/-- A divisor with a leading zero: two calls of `zero` and one of `equals` before the panic. -/
example : (Stateful.PolynomialAlgebra.euclidean counting).quoRem [true, true] [true, false] 7 = .panic 10 :=
  (C96_poly_zero_divisor counting (v := [true, true]) (w := [true, false]) (a := false) (z := false) (t := 8) rfl (by decide)
    rfl rfl).2

example : Yields safe (Vec (fun _ => True) 3)
    ((Stateful.PolynomialAlgebra.integralDomain counting.toIntegralDomain).associateRepr [true, false, true]) :=
  (C96_poly_associates (C96_field_integral_domain counting_keeps) (v := [true, false, true]) (fun _ _ => trivial)
    fun _ h => by cases h; rfl).1

example : KeepsIntegralDomain free (Each (· < 10)) (Each (· < 10))
    (Stateful.PolynomialAlgebra.integralDomain dice.toIntegralDomain) :=
  C96_poly_integral_domain (C96_field_integral_domain dice_free) fun _ _ => trivial

theorem dice_polynomials : KeepsEuclideanDomain free (Each (· < 10)) (Each (· < 10)) (Stateful.PolynomialAlgebra.euclidean dice) :=
  C96_poly_euclidean dice_free (fun _ _ => trivial) trivial

/-- Without limits every computation answers. -/
theorem answers_free {α : Type} (x : St ℕ α) : Answers free x := fun s _ => by
  cases x s with
  | ok a t => exact ⟨trivial, trivial⟩
  | panic t => trivial
  | diverge => trivial

theorem counting_free : KeepsField free (fun _ => True) (· = true) counting where
  contains := fun _ => answers_free _
  equals := fun _ _ => answers_free _
  mul := fun _ _ => answers_free _
  mulAssign := fun _ _ => answers_free _
  square := fun _ => answers_free _
  one := answers_free _
  isOne := fun _ => answers_free _
  tryInv := fun _ => (answers_free _).mono fun _ _ _ _ => trivial
  invertible := fun _ => answers_free _
  zero := answers_free _
  isZero := fun _ => answers_free _
  add := fun _ _ => answers_free _
  addAssign := fun _ _ => answers_free _
  double := fun _ => answers_free _
  utimes := fun _ => answers_free _
  neg := fun _ => answers_free _
  negAssign := fun _ => answers_free _
  sub := fun _ _ => answers_free _
  subAssign := fun _ _ => answers_free _
  times := fun _ _ => answers_free _
  int := fun _ => answers_free _
  nonzero := fun {a} _ _ _ => ⟨fun h => by cases a; exact absurd h (by decide); rfl, trivial⟩
  inv := fun _ => answers_free _
  div := fun _ _ => answers_free _
  power := fun _ _ => answers_free _

/-- The nonzero element of `counting` is never called zero, though `gcd` is allowed not to return. -/
example : KeepsEuclideanDomain free (fun _ => True) (· = true) counting.toEuclidean :=
  C96_field_euclidean counting_free trivial fun h => by subst h; exact fun _ _ => ⟨rfl, trivial⟩

/-- Residues and fractions of polynomials with coefficients at random. -/
example : KeepsUnitaryRing free (Each (· < 10))
    (Stateful.QuotientRing.ops (Stateful.PolynomialAlgebra.euclidean dice) [1, 2, 3]) :=
  C96_quotient_ring dice_polynomials (by unfold Each; decide) (by unfold Each; decide)

example : KeepsField free (Each (· < 10)) (Each (· < 10))
    (Stateful.QuotientField.ops (Stateful.PolynomialAlgebra.euclidean dice) [1, 2, 3]) :=
  C96_quotient_field dice_polynomials (by unfold Each; decide) (by unfold Each; decide) fun _ _ => trivial

example : KeepsField free (fun p => Each (· < 10) p.1 ∧ Each (· < 10) p.2) (fun p => Each (· < 10) p.1 ∧ Each (· < 10) p.2)
    (Stateful.ReducedFractions.ops (Stateful.PolynomialAlgebra.euclidean dice)) :=
  C96_fractions dice_polynomials fun _ _ => trivial

example : KeepsLattice free (Each (· < 10)) (Stateful.DivisibilityOrder.lattice (Stateful.PolynomialAlgebra.euclidean dice)) :=
  (C96_divisibility dice_polynomials.toKeepsIntegralDomain dice_polynomials).2

/-- Fractions of `counting` are constructed with three calls. -/
example : Stateful.ReducedFractions.new counting.toEuclidean 0 = .ok (Stateful.ReducedFractions.ops counting.toEuclidean) 3 :=
  (C96_constructors counting.toEuclidean counting true 2 0 3).2.2.1.2 ⟨1, true, rfl, rfl⟩

end LawlessExamples

end Abstalg
