import Verif.Proofs.Shared
import Verif.Props.Stateful

/-! # Bases used by several threads: C102

Whatever others do to the state of the base between the calls that a method makes, the method does what it does over a base
without state, as long as the others keep the states sound. -/

set_option linter.unusedSectionVars false

set_option autoImplicit false

namespace Abstalg

open Stateful (Out St Shared Safe Tracks TracksDomain TracksSemigroup TracksMonoid TracksGroup TracksCommutativeMonoid
  TracksAbelianGroup TracksSemiRing TracksUnitaryRing TracksIntegralDomain TracksEuclideanDomain TracksField
  TracksPartialOrder TracksBoundedOrder TracksLattice TracksBooleanAlgebra)

section

variable [Cfg] {σ E F : Type} {I : σ → Prop} {r : E → F → Prop}

/-! ## Calls of the base -/

/-- C102: one call, made after the others have changed the state: it returns what it always returns, and leaves a sound state
with the rest of what the others are going to do. The state that it leaves is its effect when others make it. -/
theorem C102_call {α β : Type} {q : α → β → Prop} {x : St σ α} {y : Res β} (h : Tracks I q x y) {s : σ} (hs : I s)
    {e : ℕ → σ → σ} (he : ∀ n t, I t → I (e n t)) :
    (∀ b, y = .ok b → ∃ a t, x (e 0 s) = .ok a t ∧ q a b ∧ I t ∧ x.shared (s, e) = .ok a (t, fun n => e (n + 1)) ∧
      x.effect (e 0 s) = t) ∧
    (y = .panic → ∃ t, x (e 0 s) = .panic t ∧ I t ∧ x.shared (s, e) = .panic (t, fun n => e (n + 1)) ∧
      x.effect (e 0 s) = t) ∧
    (y = .diverge → x.shared (s, e) = .diverge) := by
  obtain ⟨h1, h2, h3⟩ := C95_outcome h (he 0 s hs)
  refine ⟨fun b hb => ?_, fun hp => ?_, fun hd => ?_⟩
  · obtain ⟨a, t, ha, hq, ht⟩ := h1 b hb
    exact ⟨a, t, ha, hq, ht, by simp only [St.shared, ha], by simp only [St.effect, ha]⟩
  · obtain ⟨t, ha, ht⟩ := h2 hp
    exact ⟨t, ha, ht, by simp only [St.shared, ha], by simp only [St.effect, ha]⟩
  · simp only [St.shared, h3 hd]

/-- C102: what the others do is sound if each of their steps is a sequence of calls of methods of the base, on operands that
correspond to operands of the base without state, some of which may panic. -/
theorem C102_calls_of_others {s : σ} (hs : I s) {α β : ℕ → ℕ → Type} {q : ∀ n k, α n k → β n k → Prop}
    {x : ∀ n k, St σ (α n k)} {y : ∀ n k, Res (β n k)} (h : ∀ n k, Tracks I (q n k) (x n k) (y n k)) (m : ℕ → ℕ) :
    Safe I (s, fun n t => (List.range (m n)).foldl (fun t k => (x n k).effect t) t) := by
  refine ⟨hs, fun n t ht => ?_⟩
  show I ((List.range (m n)).foldl (fun t k => (x n k).effect t) t)
  induction m n with
  | zero => exact ht
  | succ k ih =>
    rw [List.range_succ, List.foldl_append]
    exact (h n k).effect ih

/-- C102: the traits of multiplication. -/
theorem C102_multiplicative :
    (∀ {A : Stateful.DomainOps σ E} {B : DomainOps F}, TracksDomain I r A B → TracksDomain (Safe I) r A.shared B) ∧
    (∀ {A : Stateful.SemigroupOps σ E} {B : SemigroupOps F}, TracksSemigroup I r A B →
      TracksSemigroup (Safe I) r A.shared B) ∧
    (∀ {A : Stateful.MonoidOps σ E} {B : MonoidOps F}, TracksMonoid I r A B → TracksMonoid (Safe I) r A.shared B) ∧
    (∀ {A : Stateful.GroupOps σ E} {B : GroupOps F}, TracksGroup I r A B → TracksGroup (Safe I) r A.shared B) :=
  ⟨TracksDomain.shared, TracksSemigroup.shared, TracksMonoid.shared, TracksGroup.shared⟩

/-- C102: the traits of addition and of rings. -/
theorem C102_rings :
    (∀ {A : Stateful.CommutativeMonoidOps σ E} {B : CommutativeMonoidOps F}, TracksCommutativeMonoid I r A B →
      TracksCommutativeMonoid (Safe I) r A.shared B) ∧
    (∀ {A : Stateful.AbelianGroupOps σ E} {B : AbelianGroupOps F}, TracksAbelianGroup I r A B →
      TracksAbelianGroup (Safe I) r A.shared B) ∧
    (∀ {A : Stateful.SemiRingOps σ E} {B : SemiRingOps F}, TracksSemiRing I r A B →
      TracksSemiRing (Safe I) r A.shared B) ∧
    (∀ {A : Stateful.UnitaryRingOps σ E} {B : UnitaryRingOps F}, TracksUnitaryRing I r A B →
      TracksUnitaryRing (Safe I) r A.shared B) ∧
    (∀ {A : Stateful.IntegralDomainOps σ E} {B : IntegralDomainOps F}, TracksIntegralDomain I r A B →
      TracksIntegralDomain (Safe I) r A.shared B) ∧
    (∀ {A : Stateful.EuclideanDomainOps σ E} {B : EuclideanDomainOps F}, TracksEuclideanDomain I r A B →
      TracksEuclideanDomain (Safe I) r A.shared B) ∧
    (∀ {A : Stateful.FieldOps σ E} {B : FieldOps F}, TracksField I r A B → TracksField (Safe I) r A.shared B) :=
  ⟨TracksCommutativeMonoid.shared, TracksAbelianGroup.shared, TracksSemiRing.shared, TracksUnitaryRing.shared,
    TracksIntegralDomain.shared, TracksEuclideanDomain.shared, TracksField.shared⟩

/-- C102: the traits of orders. -/
theorem C102_orders :
    (∀ {A : Stateful.PartialOrderOps σ E} {B : PartialOrderOps F}, TracksPartialOrder I r A B →
      TracksPartialOrder (Safe I) r A.shared B) ∧
    (∀ {A : Stateful.BoundedOrderOps σ E} {B : BoundedOrderOps F}, TracksBoundedOrder I r A B →
      TracksBoundedOrder (Safe I) r A.shared B) ∧
    (∀ {A : Stateful.LatticeOps σ E} {B : LatticeOps F}, TracksLattice I r A B → TracksLattice (Safe I) r A.shared B) ∧
    (∀ {A : Stateful.BooleanAlgebraOps σ E} {B : BooleanAlgebraOps F}, TracksBooleanAlgebra I r A B →
      TracksBooleanAlgebra (Safe I) r A.shared B) :=
  ⟨TracksPartialOrder.shared, TracksBoundedOrder.shared, TracksLattice.shared, TracksBooleanAlgebra.shared⟩

/-! ## Methods over a shared base -/

/-- C102: the provided methods of a Euclidean domain are made of several calls, between which the others make their steps:
the loops of `gcd` and `extended_gcd` ask the shared base again in each round. -/
theorem C102_provided_euclidean {A : Stateful.IntegralDomainOps σ E} {B : IntegralDomainOps F}
    (h : TracksIntegralDomain I r A B) {quoRem : E → E → St σ (E × E)} {quoRem' : F → F → Res (F × F)}
    (hqr : ∀ {a b a' b'}, r a a' → r b b' → Tracks I (PRel r) (quoRem a b) (quoRem' a' b')) :
    TracksEuclideanDomain (Safe I) r { toIntegralDomainOps := A.shared, quoRem := fun a b => (quoRem a b).shared }
      { toIntegralDomainOps := B, quoRem := quoRem' } :=
  C95_provided_euclidean_domain h.shared fun ha hb => (hqr ha hb).shared

/-- C102: matrices, determinants and polynomials over a field used by others at the same time. -/
theorem C102_extensions_of_fields {A : Stateful.FieldOps σ E} {B : FieldOps F} (h : TracksField I r A B) (size : ℕ) :
    TracksUnitaryRing (Safe I) (LRel r) (Stateful.MatrixRing.ops A.shared size) (MatrixRing.ops B size) ∧
    (∀ {v v'}, LRel r v v' →
      Tracks (Safe I) r (Stateful.MatrixRing.determinant A.shared size v) (MatrixRing.determinant B size v')) ∧
    TracksEuclideanDomain (Safe I) (LRel r) (Stateful.PolynomialAlgebra.euclidean A.shared) (PolynomialAlgebra.euclidean B) ∧
    TracksUnitaryRing (Safe I) (LRel r) (Stateful.VectorAlgebra.unitaryRing size A.shared.toUnitaryRingOps)
      (VectorAlgebra.unitaryRing size B.toUnitaryRingOps) ∧
    TracksEuclideanDomain (Safe I) r A.shared.toEuclidean B.toEuclidean :=
  ⟨h.shared.matrix size, fun hv => (C95_determinant size h.shared hv).1, h.shared.polynomial,
    C95_vector_unitary_ring size h.shared.toTracksUnitaryRing, h.shared.toEuclidean⟩

/-- C102: residues, fractions, groups and orders over a Euclidean domain used by others at the same time. -/
theorem C102_extensions_of_domains {A : Stateful.EuclideanDomainOps σ E} {B : EuclideanDomainOps F}
    (h : TracksEuclideanDomain I r A B) {m : E} {m' : F} (hm : r m m') :
    TracksUnitaryRing (Safe I) r (Stateful.QuotientRing.ops A.shared m) (QuotientRing.ops B m') ∧
    TracksField (Safe I) r (Stateful.QuotientField.ops A.shared m) (QuotientField.ops B m') ∧
    TracksField (Safe I) (PRel r) (Stateful.ReducedFractions.ops A.shared) (ReducedFractions.ops B) ∧
    TracksIntegralDomain (Safe I) (LRel r) (Stateful.PolynomialAlgebra.integralDomain A.shared.toIntegralDomainOps)
      (PolynomialAlgebra.integralDomain B.toIntegralDomainOps) ∧
    TracksGroup (Safe I) r (Stateful.AdditiveGroup.ops A.shared.toAbelianGroupOps) (AdditiveGroup.ops B.toAbelianGroupOps) ∧
    TracksGroup (Safe I) r (Stateful.MultiplicativeGroup.ops A.shared.toMonoidOps)
      (MultiplicativeGroup.ops B.toMonoidOps) ∧
    TracksLattice (Safe I) r (Stateful.DivisibilityOrder.lattice A.shared) (DivisibilityOrder.lattice B) :=
  ⟨(C95_quotients h.shared hm).1, (C95_quotients h.shared hm).2, (C95_fractions h.shared).1,
    C95_poly_integral_domain h.shared.toTracksIntegralDomain, C95_additive_group h.shared.toTracksAbelianGroup,
    C95_multiplicative_group h.shared.toTracksMonoid, (C95_divisibility h.shared).2⟩

/-- C102: two runs of a method on the same operands, begun in any sound states and with any sound steps of others, return the
same value. -/
theorem C102_schedule_independent {x : St (Shared σ) E} {y : Res E} (h : Tracks (Safe I) Eq x y) {s s' : σ} (hs : I s)
    (hs' : I s') {e e' : ℕ → σ → σ} (he : ∀ n t, I t → I (e n t)) (he' : ∀ n t, I t → I (e' n t)) {a : E} {t : Shared σ}
    (hx : x (s, e) = .ok a t) : ∃ t', x (s', e') = .ok a t' :=
  C95_state_independent h ⟨hs, he⟩ ⟨hs', he'⟩ hx

end

/-! ## Examples -/

namespace SharedExamples

instance : Cfg := ⟨true, true, 64, by decide⟩

open StatefulExamples

/-- A table of inverses used by two threads: another thread asks for inverses before each call. -/
example (v : List Bool) (e : ℕ → List Bool) (s : List (Bool × Bool)) (hs : Table TwoElementAlgebra.field s) (d : Bool)
    (hd : MatrixRing.determinant TwoElementAlgebra.field 3 v = .ok d) :
    ∃ t, Stateful.MatrixRing.determinant (caching TwoElementAlgebra.field).shared 3 v
      (s, fun n t => (List.range (e n).length).foldl
        (fun t k => ((caching TwoElementAlgebra.field).inv ((e n).getD k true)).effect t) t) = .ok d t := by
  have h := caching_tracks TwoElementAlgebra.field
  have hp := C102_calls_of_others (I := Table TwoElementAlgebra.field) hs (α := fun _ _ => Bool) (β := fun _ _ => Bool)
    (q := fun _ _ => Eq) (x := fun n k => (caching TwoElementAlgebra.field).inv ((e n).getD k true))
    (y := fun n k => TwoElementAlgebra.field.inv ((e n).getD k true)) (fun n k => h.inv rfl) fun n => (e n).length
  obtain ⟨a, t, h1, rfl, -⟩ := (C95_outcome ((C102_extensions_of_fields h 3).2.1 (by rw [lRel_eq])) hp).1 d hd
  exact ⟨t, h1⟩

/-- The value returned. -/
def value {σ α : Type} : Out σ α → Option α
  | .ok a _ => some a
  | _ => none

/-- Others that write a wrong inverse into the table change the result: their steps must be sound. -/
example : value (Stateful.MatrixRing.determinant (caching TwoElementAlgebra.field).shared 2 [true, true, true, false]
      ([], fun _ _ => [])) = some true ∧
    value (Stateful.MatrixRing.determinant (caching TwoElementAlgebra.field).shared 2 [true, true, true, false]
      ([], fun _ _ => [(true, false)])) = some false := by
  decide +kernel

/-- A counter that others increase by any amounts. -/
example (e : ℕ → ℕ) (v w : List Bool) (s : ℕ) (q : List Bool × List Bool)
    (hq : (PolynomialAlgebra.euclidean TwoElementAlgebra.field).quoRem v w = .ok q) :
    ∃ t : Shared ℕ, (Stateful.PolynomialAlgebra.euclidean counted.shared).quoRem v w (s, fun n t => t + e n) = .ok q t ∧
      s ≤ t.1 := by
  have h := (C102_extensions_of_fields (counted_tracks s) 0).2.2.1.quoRem (a := v) (a' := v) (b := w) (b' := w)
    (by rw [lRel_eq]) (by rw [lRel_eq])
  obtain ⟨a, t, h1, h2, h3⟩ := (C95_outcome h (s := (s, fun n t => t + e n)) ⟨Nat.le_refl s, fun n t ht => by
    show s ≤ t + e n; omega⟩).1 q hq
  have : a = q := Prod.ext (by have := h2.1; rwa [lRel_eq] at this) (by have := h2.2; rwa [lRel_eq] at this)
  exact ⟨t, this ▸ h1, h3.1⟩

end SharedExamples

end Abstalg
