import Verif.Spec.Stateful
import Verif.Proofs.StatefulMatrix
import Verif.Proofs.StatefulPoly
import Verif.Proofs.StatefulWrappers
import Verif.Model.TwoElementAlgebra
import Verif.Model.Integers

/-! # Bases with state: C95

The methods over a base with state do what they do over a base without state, if the base does. -/

set_option linter.unusedSectionVars false

set_option autoImplicit false

namespace Abstalg

open Stateful (Out St Tracks TracksDomain TracksSemigroup TracksMonoid TracksGroup TracksCommutativeMonoid
  TracksAbelianGroup TracksSemiRing TracksUnitaryRing TracksIntegralDomain TracksEuclideanDomain TracksField
  TracksPartialOrder TracksBoundedOrder TracksLattice TracksBooleanAlgebra)

section

variable [Cfg] {σ E F : Type} {I : σ → Prop} {r : E → F → Prop}

/-! ## Provided methods -/

/-- C95: the provided methods of the traits, for a base with state that implements the required methods only. -/
theorem C95_provided_semigroup {A : Stateful.DomainOps σ E} {B : DomainOps F} (h : TracksDomain I r A B)
    {mul : E → E → St σ E} {mul' : F → F → Res F}
    (hmul : ∀ {a b a' b'}, r a a' → r b b' → Tracks I r (mul a b) (mul' a' b')) :
    TracksSemigroup I r { toDomainOps := A, mul } { toDomainOps := B, mul := mul' } :=
  { toTracksDomain := h, mul := hmul, mulAssign := hmul, square := fun ha => hmul ha ha }

theorem C95_provided_monoid {A : Stateful.SemigroupOps σ E} {B : SemigroupOps F} (h : TracksSemigroup I r A B)
    {one : St σ E} {one' : Res F} (h1 : Tracks I r one one') {tryInv : E → St σ (Option E)} {tryInv' : F → Res (Option F)}
    (hi : ∀ {a a'}, r a a' → Tracks I (Option.Rel r) (tryInv a) (tryInv' a')) :
    TracksMonoid I r { toSemigroupOps := A, one, tryInv } { toSemigroupOps := B, one := one', tryInv := tryInv' } :=
  { toTracksSemigroup := h, one := h1, isOne := fun ha => Stateful.tracks_isDefault r h.equals h1 ha, tryInv := hi,
    invertible := fun ha => Tracks.isSome (hi ha) }

theorem C95_provided_group {A : Stateful.MonoidOps σ E} {B : MonoidOps F} (h : TracksMonoid I r A B) :
    TracksGroup I r { toMonoidOps := A } { toMonoidOps := B } :=
  have hi {a a'} (ha : r a a') : Tracks I r (do Res.unwrap (← A.tryInv a)) (do Res.unwrap (← B.tryInv a')) :=
    Stateful.tracks_unwrapInv r h.tryInv ha
  { toTracksMonoid := h, inv := hi,
    power := fun n _ _ ha => Stateful.tracks_powerDefault (r := r) h.one h.mulAssign h.square hi n ha }

theorem C95_provided_commutative_monoid {A : Stateful.DomainOps σ E} {B : DomainOps F} (h : TracksDomain I r A B)
    {zero : St σ E} {zero' : Res F} (h0 : Tracks I r zero zero') {add : E → E → St σ E} {add' : F → F → Res F}
    (hadd : ∀ {a b a' b'}, r a a' → r b b' → Tracks I r (add a b) (add' a' b')) :
    TracksCommutativeMonoid I r { toDomainOps := A, zero, add } { toDomainOps := B, zero := zero', add := add' } :=
  { toTracksDomain := h, zero := h0, isZero := fun ha => Stateful.tracks_isDefault r h.equals h0 ha, add := hadd,
    addAssign := hadd, double := fun ha => hadd ha ha,
    utimes := fun n _ _ ha => Stateful.tracks_utimes r h0 hadd (fun ha => hadd ha ha) n ha }

theorem C95_provided_abelian_group {A : Stateful.CommutativeMonoidOps σ E} {B : CommutativeMonoidOps F}
    (h : TracksCommutativeMonoid I r A B) {neg : E → St σ E} {neg' : F → Res F}
    (hneg : ∀ {a a'}, r a a' → Tracks I r (neg a) (neg' a')) :
    TracksAbelianGroup I r { toCommutativeMonoidOps := A, neg } { toCommutativeMonoidOps := B, neg := neg' } :=
  { toTracksCommutativeMonoid := h, neg := hneg, negAssign := hneg,
    sub := fun ha hb => Stateful.tracks_sub r hneg h.addAssign ha hb,
    subAssign := fun ha hb => Stateful.tracks_subAssign r hneg h.addAssign ha hb,
    times := fun n _ _ ha => Stateful.tracks_powerDefault (r := r) h.zero h.addAssign h.double hneg n ha }

theorem C95_provided_unitary_ring {A : Stateful.SemiRingOps σ E} {B : SemiRingOps F} (h : TracksSemiRing I r A B)
    {A' : Stateful.AbelianGroupOps σ E} {B' : AbelianGroupOps F} (h' : TracksAbelianGroup I r A' B') :
    TracksUnitaryRing I r
      { toSemiRingOps := A, neg := A'.neg, negAssign := A'.negAssign, sub := A'.sub, subAssign := A'.subAssign, times := A'.times }
      { toSemiRingOps := B, neg := B'.neg, negAssign := B'.negAssign, sub := B'.sub, subAssign := B'.subAssign,
        times := B'.times } :=
  { toTracksSemiRing := h, neg := h'.neg, negAssign := h'.negAssign, sub := h'.sub, subAssign := h'.subAssign,
    times := h'.times, int := fun n => Stateful.tracks_int r h'.times h.one n }

theorem C95_provided_integral_domain {A : Stateful.UnitaryRingOps σ E} {B : UnitaryRingOps F} (h : TracksUnitaryRing I r A B)
    {tryDiv : E → E → St σ (Option E)} {tryDiv' : F → F → Res (Option F)}
    (hd : ∀ {a b a' b'}, r a a' → r b b' → Tracks I (Option.Rel r) (tryDiv a b) (tryDiv' a' b'))
    {rep coef : E → St σ E} {rep' coef' : F → Res F} (hr : ∀ {a a'}, r a a' → Tracks I r (rep a) (rep' a'))
    (hc : ∀ {a a'}, r a a' → Tracks I r (coef a) (coef' a')) :
    TracksIntegralDomain I r { toUnitaryRingOps := A, tryDiv, associateRepr := rep, associateCoef := coef }
      { toUnitaryRingOps := B, tryDiv := tryDiv', associateRepr := rep', associateCoef := coef' } :=
  { toTracksUnitaryRing := h, tryDiv := hd,
    divisible := fun ha hb => Stateful.tracks_divisible r h.isZero hd ha hb,
    associates := fun ha hb => Stateful.tracks_associates r
      (fun ha hb => Stateful.tracks_divisible r h.isZero hd ha hb) ha hb,
    associateRepr := hr, associateCoef := hc }

theorem C95_provided_euclidean_domain {A : Stateful.IntegralDomainOps σ E} {B : IntegralDomainOps F}
    (h : TracksIntegralDomain I r A B) {quoRem : E → E → St σ (E × E)} {quoRem' : F → F → Res (F × F)}
    (hqr : ∀ {a b a' b'}, r a a' → r b b' → Tracks I (PRel r) (quoRem a b) (quoRem' a' b')) :
    TracksEuclideanDomain I r { toIntegralDomainOps := A, quoRem } { toIntegralDomainOps := B, quoRem := quoRem' } :=
  have hq {a b a' b'} (ha : r a a') (hb : r b b') :
      Tracks I r (do return (← quoRem a b).1) (do return (← quoRem' a' b').1) := Stateful.tracks_quo r hqr ha hb
  have hrem {a b a' b'} (ha : r a a') (hb : r b b') :
      Tracks I r (do return (← quoRem a b).2) (do return (← quoRem' a' b').2) := Stateful.tracks_rem r hqr ha hb
  have hg {a b a' b'} (ha : r a a') (hb : r b b') :
      Tracks I r (Stateful.gcdDefault A.isZero (fun a b => do return (← quoRem a b).2) a b)
        (gcdDefault B.isZero (fun a b => do return (← quoRem' a b).2) a' b') := Stateful.tracks_gcd (r := r) h.isZero hrem ha hb
  { toTracksIntegralDomain := h, quoRem := hqr, quo := hq, rem := hrem,
    reduced := fun ha hb => Stateful.tracks_reduced r h.isZero hq ha hb, gcd := hg,
    lcm := fun ha hb => Stateful.tracks_lcm r h.isZero hg hq h.mul ha hb,
    extendedGcd := fun ha hb => Stateful.tracks_extendedGcd (r := r) h.isZero h.one h.zero hqr h.sub h.mul ha hb,
    relativePrimes := fun ha hb => Stateful.tracks_relativePrimes r hg h.invertible ha hb }

theorem C95_provided_field {A : Stateful.UnitaryRingOps σ E} {B : UnitaryRingOps F} (h : TracksUnitaryRing I r A B)
    {inv : E → St σ E} {inv' : F → Res F} (hi : ∀ {a a'}, r a a' → Tracks I r (inv a) (inv' a')) :
    TracksField I r { toUnitaryRingOps := A, inv } { toUnitaryRingOps := B, inv := inv' } :=
  { toTracksUnitaryRing := h, inv := hi, div := fun ha hb => Stateful.tracks_div r hi h.mul ha hb,
    power := fun n _ _ ha => Stateful.tracks_fieldPower r h.isZero h.zero h.one h.mulAssign h.square h.tryInv n ha }

theorem C95_provided_partial_order {A : Stateful.DomainOps σ E} {B : DomainOps F} (h : TracksDomain I r A B)
    {leq : E → E → St σ Bool} {leq' : F → F → Res Bool}
    (hl : ∀ {a b a' b'}, r a a' → r b b' → Tracks I Eq (leq a b) (leq' a' b')) :
    TracksPartialOrder I r { toDomainOps := A, leq } { toDomainOps := B, leq := leq' } :=
  { toTracksDomain := h, leq := hl, lessThan := fun ha hb => Stateful.tracks_lessThan r h.equals hl ha hb,
    comparable := fun ha hb => Stateful.tracks_comparable r hl ha hb }

/-! ## Vectors -/

/-- C95: vectors over a base with state, the traits of multiplication. -/
theorem C95_vector_domain (len : ℕ) {A : Stateful.DomainOps σ E} {B : DomainOps F} (h : TracksDomain I r A B) :
    TracksDomain I (LRel r) (Stateful.VectorAlgebra.domain len A) (VectorAlgebra.domain len B) := h.vector len

theorem C95_vector_semigroup (len : ℕ) {A : Stateful.SemigroupOps σ E} {B : SemigroupOps F} (h : TracksSemigroup I r A B) :
    TracksSemigroup I (LRel r) (Stateful.VectorAlgebra.semigroup len A) (VectorAlgebra.semigroup len B) := h.vector len

theorem C95_vector_monoid (len : ℕ) {A : Stateful.MonoidOps σ E} {B : MonoidOps F} (h : TracksMonoid I r A B) :
    TracksMonoid I (LRel r) (Stateful.VectorAlgebra.monoid len A) (VectorAlgebra.monoid len B) := h.vector len

theorem C95_vector_group (len : ℕ) {A : Stateful.GroupOps σ E} {B : GroupOps F} (h : TracksGroup I r A B) :
    TracksGroup I (LRel r) (Stateful.VectorAlgebra.group len A) (VectorAlgebra.group len B) := h.vector len

/-- C95: vectors over a base with state, the traits of addition and of rings. -/
theorem C95_vector_commutative_monoid (len : ℕ) {A : Stateful.CommutativeMonoidOps σ E} {B : CommutativeMonoidOps F}
    (h : TracksCommutativeMonoid I r A B) : TracksCommutativeMonoid I (LRel r)
      (Stateful.VectorAlgebra.commutativeMonoid len A) (VectorAlgebra.commutativeMonoid len B) := h.vector len

theorem C95_vector_abelian_group (len : ℕ) {A : Stateful.AbelianGroupOps σ E} {B : AbelianGroupOps F}
    (h : TracksAbelianGroup I r A B) : TracksAbelianGroup I (LRel r)
      (Stateful.VectorAlgebra.abelianGroup len A) (VectorAlgebra.abelianGroup len B) := h.vector len

theorem C95_vector_semi_ring (len : ℕ) {A : Stateful.SemiRingOps σ E} {B : SemiRingOps F} (h : TracksSemiRing I r A B) :
    TracksSemiRing I (LRel r) (Stateful.VectorAlgebra.semiRing len A) (VectorAlgebra.semiRing len B) := h.vector len

theorem C95_vector_unitary_ring (len : ℕ) {A : Stateful.UnitaryRingOps σ E} {B : UnitaryRingOps F}
    (h : TracksUnitaryRing I r A B) : TracksUnitaryRing I (LRel r)
      (Stateful.VectorAlgebra.unitaryRing len A) (VectorAlgebra.unitaryRing len B) := h.vector len

/-- C95: vectors over a base with state, the traits of orders. -/
theorem C95_vector_partial_order (len : ℕ) {A : Stateful.PartialOrderOps σ E} {B : PartialOrderOps F}
    (h : TracksPartialOrder I r A B) : TracksPartialOrder I (LRel r)
      (Stateful.VectorAlgebra.partialOrder len A) (VectorAlgebra.partialOrder len B) := h.vector len

theorem C95_vector_bounded_order (len : ℕ) {A : Stateful.BoundedOrderOps σ E} {B : BoundedOrderOps F}
    (h : TracksBoundedOrder I r A B) : TracksBoundedOrder I (LRel r)
      (Stateful.VectorAlgebra.boundedOrder len A) (VectorAlgebra.boundedOrder len B) := h.vector len

theorem C95_vector_lattice (len : ℕ) {A : Stateful.LatticeOps σ E} {B : LatticeOps F} (h : TracksLattice I r A B) :
    TracksLattice I (LRel r) (Stateful.VectorAlgebra.lattice len A) (VectorAlgebra.lattice len B) := h.vector len

theorem C95_vector_boolean_algebra (len : ℕ) {A : Stateful.BooleanAlgebraOps σ E} {B : BooleanAlgebraOps F}
    (h : TracksBooleanAlgebra I r A B) : TracksBooleanAlgebra I (LRel r)
      (Stateful.VectorAlgebra.booleanAlgebra len A) (VectorAlgebra.booleanAlgebra len B) := h.vector len

/-! ## Fields, matrices, polynomials -/

/-- C95: a field with state as a Euclidean domain, by the blanket implementations. -/
theorem C95_field {A : Stateful.FieldOps σ E} {B : FieldOps F} (h : TracksField I r A B) :
    TracksIntegralDomain I r A.toIntegralDomain B.toIntegralDomain ∧
    TracksEuclideanDomain I r A.toEuclidean B.toEuclidean := ⟨h.toIntegralDomain, h.toEuclidean⟩

/-- C95: matrices over a field with state. -/
theorem C95_matrices (size : ℕ) {A : Stateful.FieldOps σ E} {B : FieldOps F} (h : TracksField I r A B) :
    TracksUnitaryRing I (LRel r) (Stateful.MatrixRing.ops A size) (MatrixRing.ops B size) := h.matrix size

/-- C95: determinants and row operations over a field with state. -/
theorem C95_determinant (size : ℕ) {A : Stateful.FieldOps σ E} {B : FieldOps F} (h : TracksField I r A B)
    {v : List E} {v' : List F} (hv : LRel r v v') :
    Tracks I r (Stateful.MatrixRing.determinant A size v) (MatrixRing.determinant B size v') ∧
    (∀ row a a', r a a' →
      Tracks I (LRel r) (Stateful.MatrixRing.mulRow A size v row a) (MatrixRing.mulRow B size v' row a')) ∧
    (∀ i j a a', r a a' →
      Tracks I (LRel r) (Stateful.MatrixRing.addRows A size v i j a) (MatrixRing.addRows B size v' i j a')) ∧
    (∀ col, Tracks I Eq (Stateful.MatrixRing.findRow A size v col) (MatrixRing.findRow B size v' col)) :=
  ⟨Stateful.MatrixRing.tracks_determinant h size hv,
    fun row _ _ ha => Stateful.MatrixRing.tracks_mulRow h size hv row ha,
    fun i j _ _ ha => Stateful.MatrixRing.tracks_addRows h size hv i j ha,
    fun col => Stateful.MatrixRing.tracks_findRow h size hv col⟩

/-- C95: polynomials over a group, a ring, an integral domain or a field with state. -/
theorem C95_poly_abelian_group {A : Stateful.AbelianGroupOps σ E} {B : AbelianGroupOps F}
    (h : TracksAbelianGroup I r A B) : TracksAbelianGroup I (LRel r)
      (Stateful.PolynomialAlgebra.abelianGroup A) (PolynomialAlgebra.abelianGroup B) := h.polynomial

theorem C95_poly_unitary_ring {A : Stateful.UnitaryRingOps σ E} {B : UnitaryRingOps F} (h : TracksUnitaryRing I r A B) :
    TracksUnitaryRing I (LRel r) (Stateful.PolynomialAlgebra.unitaryRing A) (PolynomialAlgebra.unitaryRing B) := h.polynomial

theorem C95_poly_integral_domain {A : Stateful.IntegralDomainOps σ E} {B : IntegralDomainOps F}
    (h : TracksIntegralDomain I r A B) : TracksIntegralDomain I (LRel r)
      (Stateful.PolynomialAlgebra.integralDomain A) (PolynomialAlgebra.integralDomain B) := h.polynomial

theorem C95_poly_euclidean {A : Stateful.FieldOps σ E} {B : FieldOps F} (h : TracksField I r A B) :
    TracksEuclideanDomain I (LRel r) (Stateful.PolynomialAlgebra.euclidean A) (PolynomialAlgebra.euclidean B) :=
  h.polynomial

/-! ## Residues, fractions, groups and orders -/

/-- C95: residues over a Euclidean domain with state. -/
theorem C95_quotients {A : Stateful.EuclideanDomainOps σ E} {B : EuclideanDomainOps F}
    (h : TracksEuclideanDomain I r A B) {m : E} {m' : F} (hm : r m m') :
    TracksUnitaryRing I r (Stateful.QuotientRing.ops A m) (QuotientRing.ops B m') ∧
    TracksField I r (Stateful.QuotientField.ops A m) (QuotientField.ops B m') :=
  ⟨h.quotientRing hm, h.quotientField hm⟩

/-- C95: fractions over a Euclidean domain with state. -/
theorem C95_fractions {A : Stateful.EuclideanDomainOps σ E} {B : EuclideanDomainOps F}
    (h : TracksEuclideanDomain I r A B) :
    TracksField I (PRel r) (Stateful.ReducedFractions.ops A) (ReducedFractions.ops B) ∧
    ∀ p q, PRel r p q →
      Tracks I (PRel r) (Stateful.ReducedFractions.reduce A p) (ReducedFractions.reduce B q) :=
  ⟨h.reducedFractions, fun _ _ hp => h.reduce hp⟩

/-- C95: the additive group of a group with state. -/
theorem C95_additive_group {A : Stateful.AbelianGroupOps σ E} {B : AbelianGroupOps F} (h : TracksAbelianGroup I r A B) :
    TracksGroup I r (Stateful.AdditiveGroup.ops A) (AdditiveGroup.ops B) := h.additiveGroup

/-- C95: the multiplicative group of a monoid with state. -/
theorem C95_multiplicative_group {A : Stateful.MonoidOps σ E} {B : MonoidOps F} (h : TracksMonoid I r A B) :
    TracksGroup I r (Stateful.MultiplicativeGroup.ops A) (MultiplicativeGroup.ops B) := h.multiplicativeGroup

/-- C95: the order by divisibility over a domain with state. -/
theorem C95_divisibility {A : Stateful.EuclideanDomainOps σ E} {B : EuclideanDomainOps F}
    (h : TracksEuclideanDomain I r A B) :
    TracksBoundedOrder I r (Stateful.DivisibilityOrder.boundedOrder A.toIntegralDomainOps)
      (DivisibilityOrder.boundedOrder B.toIntegralDomainOps) ∧
    TracksLattice I r (Stateful.DivisibilityOrder.lattice A) (DivisibilityOrder.lattice B) :=
  ⟨h.toTracksIntegralDomain.boundedOrder, h.lattice⟩

/-- C95: the constructors, which ask the base; the structure that they return is the one of the statements above. -/
theorem C95_constructors {A : Stateful.EuclideanDomainOps σ E} {B : EuclideanDomainOps F}
    (h : TracksEuclideanDomain I r A B) {m : E} {m' : F} (hm : r m m') {A' : Stateful.FieldOps σ E} {B' : FieldOps F}
    (h' : TracksField I r A' B') (size : ℕ) :
    Tracks I (TracksUnitaryRing I r) (Stateful.QuotientRing.new A m) (QuotientRing.new B m') ∧
    Tracks I (TracksField I r) (Stateful.QuotientField.new A m) (QuotientField.new B m') ∧
    Tracks I (TracksField I (PRel r)) (Stateful.ReducedFractions.new A) (ReducedFractions.new B) ∧
    Tracks I (TracksUnitaryRing I (LRel r)) (Stateful.MatrixRing.new A' size) (MatrixRing.new B' size) :=
  ⟨Tracks.bind (h.contains hm) fun _ _ hc => Tracks.bind (Tracks.assert hc) fun _ _ _ => .ok (h.quotientRing hm),
    Tracks.bind (h.contains hm) fun _ _ hc => Tracks.bind (Tracks.assert hc) fun _ _ _ =>
      Tracks.bind h.one fun _ _ h1 => Tracks.bind (h.rem h1 h1) fun _ _ hr => Tracks.bind (h.isZero hr) fun _ _ hz =>
        Tracks.bind (Tracks.assert hz) fun _ _ _ => .ok (h.quotientField hm),
    Tracks.bind h.one fun _ _ h1 => Tracks.check (h.isZero h1) (.ok h.reducedFractions),
    Tracks.bind (Tracks.assert rfl) fun _ _ _ => .ok (h'.matrix size)⟩

end

/-! ## What tracking says -/

section

variable {σ E F : Type} {I : σ → Prop} {r : E → F → Prop} {x : St σ E} {y : Res F}

/-- C95: what tracking says of one run: it returns, panics or goes on forever as the computation without state, and leaves
a state with `I`. -/
theorem C95_outcome (h : Tracks I r x y) {s : σ} (hs : I s) :
    (∀ b, y = .ok b → ∃ a t, x s = .ok a t ∧ r a b ∧ I t) ∧
    (y = .panic → ∃ t, x s = .panic t ∧ I t) ∧
    (y = .diverge → x s = .diverge) := by
  have := h s hs
  revert this
  cases y with
  | ok b =>
    cases hx : x s with
    | ok a t => exact fun h => ⟨fun _ hb => by cases hb; exact ⟨a, t, rfl, h⟩, nofun, nofun⟩
    | panic t => exact False.elim
    | diverge => exact False.elim
  | panic =>
    cases hx : x s with
    | ok a t => exact False.elim
    | panic t => exact fun h => ⟨nofun, fun _ => ⟨t, rfl, h⟩, nofun⟩
    | diverge => exact False.elim
  | diverge =>
    cases hx : x s with
    | ok a t => exact False.elim
    | panic t => exact False.elim
    | diverge => exact fun _ => ⟨nofun, nofun, fun _ => rfl⟩

/-- C95: the value does not depend on the state that a run begins with. -/
theorem C95_state_independent {x : St σ E} {y : Res E} (h : Tracks I Eq x y) {s s' : σ} (hs : I s) (hs' : I s') {a : E}
    {t : σ} (hx : x s = .ok a t) : ∃ t', x s' = .ok a t' := by
  have h1 := h s hs
  rw [hx] at h1
  cases y with
  | ok b =>
    obtain ⟨rfl, -⟩ := h1
    obtain ⟨a', t', h', rfl, -⟩ := (C95_outcome h hs').1 a rfl
    exact ⟨t', h'⟩
  | panic => exact h1.elim
  | diverge => exact h1.elim

/-- C95: a preorder that each step of a computation follows is followed from its beginning to its end. So the statements
above, with the invariant `I t ∧ R s₀ t`, say that a counter only increases, that a log only grows, or, with equality as
`R`, that the state stays as it is, if the methods of the base do that. -/
theorem C95_preorder {R : σ → σ → Prop} (hrefl : ∀ s, R s s) (htrans : ∀ s t u, R s t → R t u → R s u) :
    (∀ s, I s → (x s).Matches (fun t => I t ∧ R s t) r y) ↔ ∀ s₀, Tracks (fun t => I t ∧ R s₀ t) r x y := by
  constructor
  · intro h s₀ s hs
    have := h s hs.1
    revert this
    cases x s with
    | ok a t =>
      cases y with
      | ok b => exact fun h => ⟨h.1, h.2.1, htrans _ _ _ hs.2 h.2.2⟩
      | panic => exact id
      | diverge => exact id
    | panic t =>
      cases y with
      | ok b => exact id
      | panic => exact fun h => ⟨h.1, htrans _ _ _ hs.2 h.2⟩
      | diverge => exact id
    | diverge => cases y <;> exact id
  · exact fun h s hs => h s s ⟨hs, hrefl s⟩

end

/-! ## Examples -/

namespace StatefulExamples

section

variable [Cfg] {σ E : Type}

/-- The methods of a field, each of which first changes the state. -/
def ticking (B : FieldOps E) (f : σ → σ) : Stateful.FieldOps σ E where
  contains a := fun s => St.lift (B.contains a) (f s)
  equals a b := fun s => St.lift (B.equals a b) (f s)
  mul a b := fun s => St.lift (B.mul a b) (f s)
  mulAssign a b := fun s => St.lift (B.mulAssign a b) (f s)
  square a := fun s => St.lift (B.square a) (f s)
  one := fun s => St.lift B.one (f s)
  isOne a := fun s => St.lift (B.isOne a) (f s)
  tryInv a := fun s => St.lift (B.tryInv a) (f s)
  invertible a := fun s => St.lift (B.invertible a) (f s)
  zero := fun s => St.lift B.zero (f s)
  isZero a := fun s => St.lift (B.isZero a) (f s)
  add a b := fun s => St.lift (B.add a b) (f s)
  addAssign a b := fun s => St.lift (B.addAssign a b) (f s)
  double a := fun s => St.lift (B.double a) (f s)
  utimes n a := fun s => St.lift (B.utimes n a) (f s)
  neg a := fun s => St.lift (B.neg a) (f s)
  negAssign a := fun s => St.lift (B.negAssign a) (f s)
  sub a b := fun s => St.lift (B.sub a b) (f s)
  subAssign a b := fun s => St.lift (B.subAssign a b) (f s)
  times n a := fun s => St.lift (B.times n a) (f s)
  int n := fun s => St.lift (B.int n) (f s)
  inv a := fun s => St.lift (B.inv a) (f s)
  div a b := fun s => St.lift (B.div a b) (f s)
  power n a := fun s => St.lift (B.power n a) (f s)

omit [Cfg] in
theorem tick {α : Type} {I : σ → Prop} {f : σ → σ} (hf : ∀ s, I s → I (f s)) (c : Res α) :
    Tracks I Eq (fun s => St.lift c (f s)) c := by
  intro s hs
  cases c with
  | ok a => exact ⟨rfl, hf s hs⟩
  | panic => exact hf s hs
  | diverge => trivial

omit [Cfg] in
theorem tickOption {α : Type} {I : σ → Prop} {f : σ → σ} (hf : ∀ s, I s → I (f s)) (c : Res (Option α)) :
    Tracks I (Option.Rel Eq) (fun s => St.lift c (f s)) c :=
  (tick hf c).mono fun a b h => by
    subst h
    cases a with
    | none => exact .none
    | some a => exact .some rfl

theorem ticking_tracks (B : FieldOps E) {I : σ → Prop} {f : σ → σ} (hf : ∀ s, I s → I (f s)) :
    TracksField I Eq (ticking B f) B where
  contains := fun h => by subst h; exact tick hf _
  equals := fun h h' => by subst h; subst h'; exact tick hf _
  mul := fun h h' => by subst h; subst h'; exact tick hf _
  mulAssign := fun h h' => by subst h; subst h'; exact tick hf _
  square := fun h => by subst h; exact tick hf _
  one := tick hf _
  isOne := fun h => by subst h; exact tick hf _
  tryInv := fun h => by subst h; exact tickOption hf _
  invertible := fun h => by subst h; exact tick hf _
  zero := tick hf _
  isZero := fun h => by subst h; exact tick hf _
  add := fun h h' => by subst h; subst h'; exact tick hf _
  addAssign := fun h h' => by subst h; subst h'; exact tick hf _
  double := fun h => by subst h; exact tick hf _
  utimes := fun n _ _ h => by subst h; exact tick hf _
  neg := fun h => by subst h; exact tick hf _
  negAssign := fun h => by subst h; exact tick hf _
  sub := fun h h' => by subst h; subst h'; exact tick hf _
  subAssign := fun h h' => by subst h; subst h'; exact tick hf _
  times := fun n _ _ h => by subst h; exact tick hf _
  int := fun n => tick hf _
  inv := fun h => by subst h; exact tick hf _
  div := fun h h' => by subst h; subst h'; exact tick hf _
  power := fun n _ _ h => by subst h; exact tick hf _

/-- A field that keeps a table of the inverses that it has computed. -/
def caching [DecidableEq E] (B : FieldOps E) : Stateful.FieldOps (List (E × E)) E :=
  { ticking B id with
    inv := fun a s =>
      match s.find? (fun p => p.1 == a) with
      | some p => .ok p.2 s
      | none =>
        match B.inv a with
        | .ok b => .ok b ((a, b) :: s)
        | .panic => .panic s
        | .diverge => .diverge }

/-- The table holds inverses. -/
def Table (B : FieldOps E) (s : List (E × E)) : Prop := ∀ p ∈ s, B.inv p.1 = .ok p.2

theorem caching_tracks [DecidableEq E] (B : FieldOps E) : TracksField (Table B) Eq (caching B) B :=
  { ticking_tracks B (I := Table B) (f := id) (fun _ h => h) with
    inv := fun {a a'} h => by
      subst h
      intro s hs
      show Out.Matches _ _ (match s.find? (fun p => p.1 == a) with
        | some p => .ok p.2 s
        | none =>
          match B.inv a with
          | .ok b => .ok b ((a, b) :: s)
          | .panic => .panic s
          | .diverge => .diverge) (B.inv a)
      cases hp : s.find? (fun p => p.1 == a) with
      | some p =>
        have h1 := List.find?_some hp
        rw [← eq_of_beq h1, hs p (List.mem_of_find?_eq_some hp)]
        exact ⟨rfl, hs⟩
      | none =>
        cases hb : B.inv a with
        | ok b =>
          refine ⟨rfl, fun q hq => ?_⟩
          rcases List.mem_cons.1 hq with rfl | hq
          · exact hb
          · exact hs q hq
        | panic => exact hs
        | diverge => trivial }

/-- The determinant over a field with a table of inverses is the determinant over the field, whatever inverses are in the
table before. -/
example [DecidableEq E] (B : FieldOps E) (size : ℕ) (v : List E) (d : E)
    (hd : MatrixRing.determinant B size v = .ok d) (s : List (E × E)) (hs : Table B s) :
    ∃ t, Stateful.MatrixRing.determinant (caching B) size v s = .ok d t ∧ Table B t := by
  obtain ⟨a, t, h, rfl, ht⟩ := (C95_outcome (C95_determinant size (caching_tracks B) (by rw [lRel_eq])).1 hs).1 d hd
  exact ⟨t, h, ht⟩

/-- A counter of the calls only increases, also in a call that panics. -/
example (B : FieldOps E) (v w : List E) (s : ℕ) :
    (Stateful.PolynomialAlgebra.quoRem (ticking B (· + 1)) v w s).Matches (fun t => True ∧ s ≤ t)
      (fun p q => LRel Eq p.1 q.1 ∧ LRel Eq p.2 q.2) (PolynomialAlgebra.quoRem B v w) :=
  (C95_preorder (R := (· ≤ ·)) (fun s => Nat.le_refl s) (fun _ _ _ h h' => Nat.le_trans h h')).2
    (fun s₀ => (C95_poly_euclidean (ticking_tracks B (I := fun t => True ∧ s₀ ≤ t)
      fun t h => ⟨trivial, Nat.le_succ_of_le h.2⟩)).quoRem (by rw [lRel_eq]) (by rw [lRel_eq])) s trivial

end

local instance statefulProfile : Cfg := ⟨true, true, 64, by decide⟩

/-- A base that answers differently the second time that it is asked: no base without state that it tracks. -/
def moody : Stateful.DomainOps Bool Bool where
  equals a b := fun s => .ok (s && (a == b)) (!s)

example (r : Bool → Bool → Prop) (B : DomainOps Bool) (hr : ∀ a, r a a) :
    ¬ TracksDomain (fun _ => True) r moody B := by
  intro h
  have h1 := h.equals (hr true) (hr true) true trivial
  have h2 := h.equals (hr true) (hr true) false trivial
  revert h1 h2
  show Out.Matches _ _ (.ok true false) _ → Out.Matches _ _ (.ok false true) _ → False
  cases B.equals true true with
  | ok b => exact fun h1 h2 => by cases h1.1.trans h2.1.symm
  | panic => exact fun h1 _ => h1
  | diverge => exact fun h1 _ => h1

/-- The number of calls that the determinant of a matrix makes. -/
example : Stateful.MatrixRing.determinant (ticking TwoElementAlgebra.field (· + 1)) 2 [false, true, true, true] 0
    = .ok true 13 := rfl

/-- A determinant that fills the table. -/
example : Stateful.MatrixRing.determinant (caching TwoElementAlgebra.field) 2 [false, true, true, true] []
    = .ok true [(true, true)] := rfl

/-- A panic leaves the state of the base at the panic: here after the check that 0 is zero. -/
example : (Stateful.PolynomialAlgebra.euclidean (ticking TwoElementAlgebra.field (· + 1))).quoRem [true, true] [true, false] 0
    = .panic 2 := rfl

/-- The constructor of fractions makes two calls, of `one` and `is_zero`. -/
example : ∃ B, Stateful.ReducedFractions.new (ticking TwoElementAlgebra.field (· + 1)).toEuclidean 0 = .ok B 2 := ⟨_, rfl⟩

/-! The statements above, of the field with two elements and a counter. -/

/-- The field with two elements, which counts the calls. -/
def counted : Stateful.FieldOps ℕ Bool := ticking TwoElementAlgebra.field (· + 1)

theorem counted_tracks (n : ℕ) : TracksField (n ≤ ·) Eq counted TwoElementAlgebra.field :=
  ticking_tracks _ fun _ h => Nat.le_succ_of_le h

/-- The order of the two elements, which counts the calls. -/
def countedOrder : Stateful.BooleanAlgebraOps ℕ Bool where
  equals a b := fun s => .ok (a == b) (s + 1)
  leq a b := fun s => .ok (!a || b) (s + 1)
  lessThan a b := fun s => .ok (!a && b) (s + 1)
  comparable _ _ := fun s => .ok true (s + 1)
  max := fun s => .ok true (s + 1)
  min := fun s => .ok false (s + 1)
  meet a b := fun s => .ok (a && b) (s + 1)
  join a b := fun s => .ok (a || b) (s + 1)
  not a := fun s => .ok (!a) (s + 1)

example (n : ℕ) : TracksSemigroup (n ≤ ·) Eq { toDomainOps := counted.toDomainOps, mul := counted.mul }
    { toDomainOps := TwoElementAlgebra.field.toDomainOps, mul := TwoElementAlgebra.field.mul } :=
  C95_provided_semigroup (counted_tracks n).toTracksDomain (counted_tracks n).mul

example (n : ℕ) : TracksMonoid (n ≤ ·) Eq
    { toSemigroupOps := counted.toSemigroupOps, one := counted.one, tryInv := counted.tryInv }
    { toSemigroupOps := TwoElementAlgebra.field.toSemigroupOps, one := TwoElementAlgebra.field.one,
      tryInv := TwoElementAlgebra.field.tryInv } :=
  C95_provided_monoid (counted_tracks n).toTracksSemigroup (counted_tracks n).one (counted_tracks n).tryInv

example (n : ℕ) : TracksGroup (n ≤ ·) Eq { toMonoidOps := counted.toMonoidOps }
    { toMonoidOps := TwoElementAlgebra.field.toMonoidOps } := C95_provided_group (counted_tracks n).toTracksMonoid

example (n : ℕ) : TracksCommutativeMonoid (n ≤ ·) Eq
    { toDomainOps := counted.toDomainOps, zero := counted.zero, add := counted.add }
    { toDomainOps := TwoElementAlgebra.field.toDomainOps, zero := TwoElementAlgebra.field.zero,
      add := TwoElementAlgebra.field.add } :=
  C95_provided_commutative_monoid (counted_tracks n).toTracksDomain (counted_tracks n).zero (counted_tracks n).add

example (n : ℕ) : TracksAbelianGroup (n ≤ ·) Eq
    { toCommutativeMonoidOps := counted.toCommutativeMonoidOps, neg := counted.neg }
    { toCommutativeMonoidOps := TwoElementAlgebra.field.toCommutativeMonoidOps, neg := TwoElementAlgebra.field.neg } :=
  C95_provided_abelian_group (counted_tracks n).toTracksCommutativeMonoid (counted_tracks n).neg

example (n : ℕ) : TracksUnitaryRing (n ≤ ·) Eq
    { toSemiRingOps := counted.toSemiRingOps, neg := counted.neg, negAssign := counted.negAssign, sub := counted.sub,
      subAssign := counted.subAssign, times := counted.times }
    { toSemiRingOps := TwoElementAlgebra.field.toSemiRingOps, neg := TwoElementAlgebra.field.neg,
      negAssign := TwoElementAlgebra.field.negAssign, sub := TwoElementAlgebra.field.sub,
      subAssign := TwoElementAlgebra.field.subAssign, times := TwoElementAlgebra.field.times } :=
  C95_provided_unitary_ring (counted_tracks n).toTracksSemiRing (counted_tracks n).toTracksAbelianGroup

example (n : ℕ) : TracksIntegralDomain (n ≤ ·) Eq
    { toUnitaryRingOps := counted.toUnitaryRingOps, tryDiv := counted.toIntegralDomain.tryDiv, associateRepr := counted.neg,
      associateCoef := counted.neg }
    { toUnitaryRingOps := TwoElementAlgebra.field.toUnitaryRingOps, tryDiv := TwoElementAlgebra.field.toIntegralDomain.tryDiv,
      associateRepr := TwoElementAlgebra.field.neg, associateCoef := TwoElementAlgebra.field.neg } :=
  C95_provided_integral_domain (counted_tracks n).toTracksUnitaryRing (C95_field (counted_tracks n)).1.tryDiv
    (counted_tracks n).neg (counted_tracks n).neg

example (n : ℕ) : TracksEuclideanDomain (n ≤ ·) Eq
    { toIntegralDomainOps := counted.toIntegralDomain, quoRem := counted.toEuclidean.quoRem }
    { toIntegralDomainOps := TwoElementAlgebra.field.toIntegralDomain,
      quoRem := TwoElementAlgebra.field.toEuclidean.quoRem } :=
  C95_provided_euclidean_domain (C95_field (counted_tracks n)).1 (C95_field (counted_tracks n)).2.quoRem

example (n : ℕ) : TracksField (n ≤ ·) Eq { toUnitaryRingOps := counted.toUnitaryRingOps, inv := counted.inv }
    { toUnitaryRingOps := TwoElementAlgebra.field.toUnitaryRingOps, inv := TwoElementAlgebra.field.inv } :=
  C95_provided_field (counted_tracks n).toTracksUnitaryRing (counted_tracks n).inv

theorem countedOrder_tracks (n : ℕ) : TracksBooleanAlgebra (n ≤ ·) Eq countedOrder TwoElementAlgebra.booleanAlgebra :=
  have ok {α : Type} (a : α) : Tracks (n ≤ ·) Eq (fun s => .ok a (s + 1)) (.ok a) := fun _ h => ⟨rfl, Nat.le_succ_of_le h⟩
  have two {α : Type} (f : Bool → Bool → α) {a b a' b' : Bool} (h : a = a') (h' : b = b') :
      Tracks (n ≤ ·) Eq (fun s => .ok (f a b) (s + 1)) (.ok (f a' b')) := by subst h; subst h'; exact ok _
  { contains := fun _ _ h => ⟨rfl, h⟩, equals := fun h h' => two (· == ·) h h',
    leq := fun h h' => two (fun a b => !a || b) h h', lessThan := fun h h' => two (fun a b => !a && b) h h',
    comparable := fun _ _ => ok _, max := ok _, min := ok _, meet := fun h h' => two (· && ·) h h',
    join := fun h h' => two (· || ·) h h', not := fun h => by subst h; exact ok _ }

example (n : ℕ) : TracksPartialOrder (n ≤ ·) Eq { toDomainOps := countedOrder.toDomainOps, leq := countedOrder.leq }
    { toDomainOps := TwoElementAlgebra.domain, leq := TwoElementAlgebra.booleanAlgebra.leq } :=
  C95_provided_partial_order (countedOrder_tracks n).toTracksDomain (countedOrder_tracks n).leq

example (n : ℕ) : TracksDomain (n ≤ ·) (LRel Eq) (Stateful.VectorAlgebra.domain 3 counted.toDomainOps)
    (VectorAlgebra.domain 3 TwoElementAlgebra.field.toDomainOps) :=
  C95_vector_domain 3 (counted_tracks n).toTracksDomain

example (n : ℕ) : TracksSemigroup (n ≤ ·) (LRel Eq) (Stateful.VectorAlgebra.semigroup 3 counted.toSemigroupOps)
    (VectorAlgebra.semigroup 3 TwoElementAlgebra.field.toSemigroupOps) :=
  C95_vector_semigroup 3 (counted_tracks n).toTracksSemigroup

example (n : ℕ) : TracksMonoid (n ≤ ·) (LRel Eq) (Stateful.VectorAlgebra.monoid 3 counted.toMonoidOps)
    (VectorAlgebra.monoid 3 TwoElementAlgebra.field.toMonoidOps) :=
  C95_vector_monoid 3 (counted_tracks n).toTracksMonoid

example (n : ℕ) : TracksCommutativeMonoid (n ≤ ·) (LRel Eq) (Stateful.VectorAlgebra.commutativeMonoid 3 counted.toCommutativeMonoidOps)
    (VectorAlgebra.commutativeMonoid 3 TwoElementAlgebra.field.toCommutativeMonoidOps) :=
  C95_vector_commutative_monoid 3 (counted_tracks n).toTracksCommutativeMonoid

example (n : ℕ) : TracksAbelianGroup (n ≤ ·) (LRel Eq) (Stateful.VectorAlgebra.abelianGroup 3 counted.toAbelianGroupOps)
    (VectorAlgebra.abelianGroup 3 TwoElementAlgebra.field.toAbelianGroupOps) :=
  C95_vector_abelian_group 3 (counted_tracks n).toTracksAbelianGroup

example (n : ℕ) : TracksSemiRing (n ≤ ·) (LRel Eq) (Stateful.VectorAlgebra.semiRing 3 counted.toSemiRingOps)
    (VectorAlgebra.semiRing 3 TwoElementAlgebra.field.toSemiRingOps) :=
  C95_vector_semi_ring 3 (counted_tracks n).toTracksSemiRing

example (n : ℕ) : TracksUnitaryRing (n ≤ ·) (LRel Eq) (Stateful.VectorAlgebra.unitaryRing 3 counted.toUnitaryRingOps)
    (VectorAlgebra.unitaryRing 3 TwoElementAlgebra.field.toUnitaryRingOps) :=
  C95_vector_unitary_ring 3 (counted_tracks n).toTracksUnitaryRing

example (n : ℕ) : TracksGroup (n ≤ ·) (LRel Eq) (Stateful.VectorAlgebra.group 3 (Stateful.AdditiveGroup.ops counted.toAbelianGroupOps))
    (VectorAlgebra.group 3 (AdditiveGroup.ops TwoElementAlgebra.field.toAbelianGroupOps)) :=
  C95_vector_group 3 (C95_additive_group (counted_tracks n).toTracksAbelianGroup)

example (n : ℕ) : TracksGroup (n ≤ ·) (LRel Eq) (Stateful.VectorAlgebra.group 3 (Stateful.MultiplicativeGroup.ops counted.toMonoidOps))
    (VectorAlgebra.group 3 (MultiplicativeGroup.ops TwoElementAlgebra.field.toMonoidOps)) :=
  C95_vector_group 3 (C95_multiplicative_group (counted_tracks n).toTracksMonoid)

example (n : ℕ) : TracksPartialOrder (n ≤ ·) (LRel Eq) (Stateful.VectorAlgebra.partialOrder 3 countedOrder.toPartialOrderOps)
    (VectorAlgebra.partialOrder 3 TwoElementAlgebra.booleanAlgebra.toPartialOrderOps) :=
  C95_vector_partial_order 3 (countedOrder_tracks n).toTracksPartialOrder

example (n : ℕ) : TracksBoundedOrder (n ≤ ·) (LRel Eq) (Stateful.VectorAlgebra.boundedOrder 3 countedOrder.toBoundedOrderOps)
    (VectorAlgebra.boundedOrder 3 TwoElementAlgebra.booleanAlgebra.toBoundedOrderOps) :=
  C95_vector_bounded_order 3 (countedOrder_tracks n).toTracksBoundedOrder

example (n : ℕ) : TracksLattice (n ≤ ·) (LRel Eq) (Stateful.VectorAlgebra.lattice 3 countedOrder.toLatticeOps)
    (VectorAlgebra.lattice 3 TwoElementAlgebra.booleanAlgebra.toLatticeOps) :=
  C95_vector_lattice 3 (countedOrder_tracks n).toTracksLattice

example (n : ℕ) : TracksBooleanAlgebra (n ≤ ·) (LRel Eq) (Stateful.VectorAlgebra.booleanAlgebra 3 countedOrder)
    (VectorAlgebra.booleanAlgebra 3 TwoElementAlgebra.booleanAlgebra) :=
  C95_vector_boolean_algebra 3 (countedOrder_tracks n)

example (n : ℕ) : TracksUnitaryRing (n ≤ ·) (LRel Eq) (Stateful.MatrixRing.ops counted 3)
    (MatrixRing.ops TwoElementAlgebra.field 3) :=
  C95_matrices 3 (counted_tracks n)

example (n : ℕ) : TracksAbelianGroup (n ≤ ·) (LRel Eq) (Stateful.PolynomialAlgebra.abelianGroup counted.toAbelianGroupOps)
    (PolynomialAlgebra.abelianGroup TwoElementAlgebra.field.toAbelianGroupOps) :=
  C95_poly_abelian_group (counted_tracks n).toTracksAbelianGroup

example (n : ℕ) : TracksUnitaryRing (n ≤ ·) (LRel Eq) (Stateful.PolynomialAlgebra.unitaryRing counted.toUnitaryRingOps)
    (PolynomialAlgebra.unitaryRing TwoElementAlgebra.field.toUnitaryRingOps) :=
  C95_poly_unitary_ring (counted_tracks n).toTracksUnitaryRing

example (n : ℕ) : TracksIntegralDomain (n ≤ ·) (LRel Eq) (Stateful.PolynomialAlgebra.integralDomain counted.toIntegralDomain)
    (PolynomialAlgebra.integralDomain TwoElementAlgebra.field.toIntegralDomain) :=
  C95_poly_integral_domain (C95_field (counted_tracks n)).1

/-- Polynomials over the field with two elements, and what is made of them: the field with four elements, fractions, the
order by divisibility. -/
example (n : ℕ) :
    TracksField (n ≤ ·) (LRel Eq)
      (Stateful.QuotientField.ops (Stateful.PolynomialAlgebra.euclidean counted) [true, true, true])
      (QuotientField.ops (PolynomialAlgebra.euclidean TwoElementAlgebra.field) [true, true, true]) :=
  (C95_quotients (C95_poly_euclidean (counted_tracks n)) (by rw [lRel_eq])).2

example (n : ℕ) :
    TracksField (n ≤ ·) (PRel (LRel Eq)) (Stateful.ReducedFractions.ops (Stateful.PolynomialAlgebra.euclidean counted))
      (ReducedFractions.ops (PolynomialAlgebra.euclidean TwoElementAlgebra.field)) :=
  (C95_fractions (C95_poly_euclidean (counted_tracks n))).1

example (n : ℕ) :
    TracksLattice (n ≤ ·) (LRel Eq) (Stateful.DivisibilityOrder.lattice (Stateful.PolynomialAlgebra.euclidean counted))
      (DivisibilityOrder.lattice (PolynomialAlgebra.euclidean TwoElementAlgebra.field)) :=
  (C95_divisibility (C95_poly_euclidean (counted_tracks n))).2

/-- A determinant after any number of calls. -/
example (s : ℕ) : ∃ t, Stateful.MatrixRing.determinant counted 2 [false, true, true, true] s = .ok true t :=
  C95_state_independent (C95_determinant 2 (counted_tracks 0) (v := [false, true, true, true]) (by rw [lRel_eq])).1
    (Nat.zero_le 0) (Nat.zero_le s) (t := 13) rfl

end StatefulExamples

end Abstalg
