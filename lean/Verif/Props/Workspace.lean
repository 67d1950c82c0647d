import Verif.Spec.Workspace
import Verif.Props.GuardedOutcomes
import Verif.Props.Clients
import Verif.Props.Stateful
import Verif.Props.Agreement

/-! # C105: programs that use a field and the structures over it at the same time -/

set_option autoImplicit false
set_option linter.unusedSectionVars false

namespace Abstalg

section sorts

variable {E F : Type} {r : E → F → Prop} {r' : F → E → Prop}

theorem Value.Rel.flip (hr : ∀ a b, r a b → r' b a) (x : Value E) (y : Value F) (h : Value.Rel r x y) : Value.Rel r' y x := by
  cases x <;> cases y <;> first | exact h.elim | exact hr _ _ h | exact List.Forall₂.flip (h.imp fun _ _ => hr _ _)

theorem Value.Rel.asScalar {x : Value E} {y : Value F} (h : Value.Rel r x y) : Follows r x.asScalar y.asScalar := by
  cases x <;> cases y <;> first | exact h.elim | exact .ok h | exact nofun

theorem Value.Rel.asVec {x : Value E} {y : Value F} (h : Value.Rel r x y) : Follows (LRel r) x.asVec y.asVec := by
  cases x <;> cases y <;> first | exact h.elim | exact .ok h | exact nofun

theorem Value.stops_asScalar (x : Value E) : Stops x.asScalar := by cases x <;> exact nofun

theorem Value.stops_asVec (x : Value E) : Stops x.asVec := by cases x <;> exact nofun

theorem reply_map {α β : Type} {s : α → β → Prop} {f : α → Value E} {g : β → Value F}
    (h : ∀ a b, s a b → Value.Rel r (f a) (g b)) {x : Reply α} {y : Reply β} (hxy : Reply.Rel s x y) :
    Reply.Rel (Value.Rel r) (x.map f) (y.map g) := by
  cases x <;> cases y <;> first | exact hxy.elim | exact hxy | skip
  rename_i l m
  replace hxy : LRel s l m := hxy
  show LRel _ (l.map f) (m.map g)
  induction hxy with
  | nil => exact .nil
  | cons h1 _ ih => exact .cons (h _ _ h1) ih

theorem lrel_diagonal (len : ℕ) {a : E} {b : F} (h : r a b) :
    LRel r (VectorAlgebra.diagonal len a) (VectorAlgebra.diagonal len b) := by
  unfold VectorAlgebra.diagonal
  induction len with
  | zero => exact .nil
  | succ n ih => exact .cons h ih

theorem stops_leadingCoef (v : List E) : Stops (PolynomialAlgebra.leadingCoef v) := by
  unfold PolynomialAlgebra.leadingCoef
  split
  · exact .ok _
  · exact (Stops.idx _ _).bind fun _ => .pure _

theorem both_leadingCoef {v : List E} {w : List F} (h : LRel r v w) :
    Stateful.Both (Reply.Rel r) (PolynomialAlgebra.leadingCoef v).option (PolynomialAlgebra.leadingCoef w).option := by
  cases h with
  | nil => exact trivial
  | cons h1 h2 =>
    unfold PolynomialAlgebra.leadingCoef
    simp only [List.isEmpty_cons, Bool.false_eq_true, if_false]
    rw [show _ = _ from (List.Forall₂.cons h1 h2).length_eq]
    exact ((Stateful.Both.idx (List.Forall₂.cons h1 h2) _).bind (q := Option.Rel r) (f := fun a => pure (some a))
      (g := fun a => pure (some a)) fun _ _ h => Option.Rel.some h).bind fun o o' h => by
      cases h with
      | some h => exact .cons h .nil
      | none => exact trivial

end sorts

section follows

variable {c₁ c₂ : Cfg} {E F : Type} {r : E → F → Prop}

theorem follows_work (hc : Cfg.Relaxes c₁ c₂) {A : @FieldOps c₁ E} {B : @FieldOps c₂ F} (h : FollowsField r A B) (i : WorkCall)
    {x y : Value E} {x' y' : Value F} (hx : Value.Rel r x x') (hy : Value.Rel r y y') :
    Follows (Reply.Rel (Value.Rel r)) (@WorkCall.table c₁ E A i x y) (@WorkCall.table c₂ F B i x' y') := by
  cases i with
  | field m =>
    exact hx.asScalar.bind fun _ _ ha => hy.asScalar.bind fun _ _ hb => (follows_field_method h m ha hb).bind fun _ _ hr =>
      .ok (reply_map (fun _ _ h => h) hr)
  | euclidean m =>
    exact hx.asScalar.bind fun _ _ ha => hy.asScalar.bind fun _ _ hb =>
      (follows_euclidean_method (C67_field_euclidean h) m ha hb).bind fun _ _ hr => .ok (reply_map (fun _ _ h => h) hr)
  | zero => exact h.zero.bind fun _ _ ha => .ok (.cons ha .nil)
  | one => exact h.one.bind fun _ _ ha => .ok (.cons ha .nil)
  | int n => exact (h.int n).bind fun _ _ ha => .ok (.cons ha .nil)
  | vector len m =>
    exact hx.asVec.bind fun _ _ ha => hy.asVec.bind fun _ _ hb =>
      (follows_ring_method (C67_vectors hc len h.toFollowsUnitaryRing) m ha hb).bind fun _ _ hr =>
        .ok (reply_map (fun _ _ h => h) hr)
  | matrix size m =>
    exact hx.asVec.bind fun _ _ ha => hy.asVec.bind fun _ _ hb =>
      (follows_ring_method (C67_matrices hc size h) m ha hb).bind fun _ _ hr => .ok (reply_map (fun _ _ h => h) hr)
  | determinant size =>
    exact hx.asVec.bind fun _ _ ha => (C67_determinant size h ha).bind fun _ _ hd => .ok (.cons hd .nil)
  | transpose size => exact hx.asVec.bind fun _ _ ha => (C67_transpose size ha).bind fun _ _ hd => .ok (.cons hd .nil)
  | diagonal len => exact hx.asScalar.bind fun _ _ ha => .ok (.cons (lrel_diagonal len ha) .nil)
  | leadingCoef =>
    exact hx.asVec.bind fun _ _ ha => (follows_option (PolynomialAlgebra.follows_leadingCoef ha)).bind fun _ _ hr =>
      .ok (reply_map (fun _ _ h => h) hr)
  | polynomial m =>
    exact hx.asVec.bind fun _ _ ha => hy.asVec.bind fun _ _ hb =>
      (follows_euclidean_method (C67_polynomials_euclidean h) m ha hb).bind fun _ _ hr => .ok (reply_map (fun _ _ h => h) hr)
  | empty => exact .ok (.cons .nil .nil)
  | push =>
    exact hx.asVec.bind fun _ _ ha => hy.asScalar.bind fun _ _ hb => .ok (.cons (List.rel_append ha (.cons hb .nil)) .nil)
  | get i => exact hx.asVec.bind fun _ _ ha => (ha.idx i).bind fun _ _ hd => .ok (.cons hd .nil)
  | set i =>
    exact hx.asVec.bind fun _ _ ha => hy.asScalar.bind fun _ _ hb => (ha.setIdx i hb).bind fun _ _ hd => .ok (.cons hd .nil)
  | truncate n => exact hx.asVec.bind fun _ _ ha => .ok (.cons (List.forall₂_take n ha) .nil)
  | hasLength n => exact hx.asVec.bind fun _ _ ha => .ok (by rw [ha.length_eq]; rfl)

/-- C105: if a field follows another one, every program that uses the field and structures over it does over the first what it does over
the second, until a call over the first panics or does not return. -/
theorem C105_follows (C : Client WorkCall) (hc : Cfg.Relaxes c₁ c₂) {A : @FieldOps c₁ E} {B : @FieldOps c₂ F}
    (h : FollowsField r A B) (n : ℕ) {c : C.Q × (ℕ → Value E)} {d : C.Q × (ℕ → Value F)} (hcd : C.Rel (Value.Rel r) c d) :
    Follows (C.Rel (Value.Rel r)) (C.run (@WorkCall.table c₁ E A) false n c) (C.run (@WorkCall.table c₂ F B) false n d) :=
  C.run_follows (fun i _ _ _ _ ha hb => follows_work hc h i ha hb) n hcd

theorem stops_work {A : @FieldOps c₁ E} (h : @StopsField c₁ E A) (h0 : ∀ z, A.zero = .ok z → A.isZero z ≠ .ok false)
    (i : WorkCall) (x y : Value E) : Stops (@WorkCall.table c₁ E A i x y) := by
  cases i with
  | field m =>
    exact x.stops_asScalar.bind fun _ => y.stops_asScalar.bind fun _ => (stops_field_method h m _ _).bind fun _ => .pure _
  | euclidean m =>
    exact x.stops_asScalar.bind fun _ => y.stops_asScalar.bind fun _ =>
      (stops_euclidean_method (FieldOps.stops_toEuclidean h h0) m _ _).bind fun _ => .pure _
  | zero => exact h.zero.bind fun _ => .pure _
  | one => exact h.one.bind fun _ => .pure _
  | int n => exact (h.int n).bind fun _ => .pure _
  | vector len m =>
    exact x.stops_asVec.bind fun _ => y.stops_asVec.bind fun _ =>
      (stops_ring_method (VectorAlgebra.stops_unitaryRing len h.toStopsUnitaryRing) m _ _).bind fun _ => .pure _
  | matrix size m =>
    exact x.stops_asVec.bind fun _ => y.stops_asVec.bind fun _ =>
      (stops_ring_method (MatrixRing.stops_ops h size) m _ _).bind fun _ => .pure _
  | determinant size => exact x.stops_asVec.bind fun _ => (MatrixRing.stops_determinant h size _).bind fun _ => .pure _
  | transpose size => exact x.stops_asVec.bind fun _ => (MatrixRing.stops_transpose size _).bind fun _ => .pure _
  | diagonal len => exact x.stops_asScalar.bind fun _ => .pure _
  | leadingCoef =>
    exact x.stops_asVec.bind fun v => (Stops.option (stops_leadingCoef v)).bind fun _ => .pure _
  | polynomial m =>
    exact x.stops_asVec.bind fun _ => y.stops_asVec.bind fun _ =>
      (stops_euclidean_method (PolynomialAlgebra.stops_euclidean h) m _ _).bind fun _ => .pure _
  | empty => exact .ok _
  | push => exact x.stops_asVec.bind fun _ => y.stops_asScalar.bind fun _ => .pure _
  | get i => exact x.stops_asVec.bind fun _ => (Stops.idx _ _).bind fun _ => .pure _
  | set i =>
    exact x.stops_asVec.bind fun _ => y.stops_asScalar.bind fun _ => (Stops.setIdx _ _ _).bind fun _ => .pure _
  | truncate n => exact x.stops_asVec.bind fun _ => .pure _
  | hasLength n => exact x.stops_asVec.bind fun _ => .pure _

theorem alike_work {r' : F → E → Prop} (hr : ∀ a b, r a b → r' b a) (hc : Cfg.Relaxes c₁ c₂) (hc' : Cfg.Relaxes c₂ c₁)
    {A : @FieldOps c₁ E} {B : @FieldOps c₂ F}
    (h : FollowsField r A B) (h' : FollowsField r' B A) (hA : @StopsField c₁ E A) (hB : @StopsField c₂ F B)
    (hA0 : ∀ z, A.zero = .ok z → A.isZero z ≠ .ok false) (hB0 : ∀ z, B.zero = .ok z → B.isZero z ≠ .ok false) (i : WorkCall)
    {x y : Value E} {x' y' : Value F} (hx : Value.Rel r x x') (hy : Value.Rel r y y') :
    Alike (Reply.Rel (Value.Rel r)) (@WorkCall.table c₁ E A i x y) (@WorkCall.table c₂ F B i x' y') :=
  (follows_work hc h i hx hy).alike (follows_work hc' h' i (.flip hr _ _ hx) (.flip hr _ _ hy))
    (stops_work hA hA0 i x y) (stops_work hB hB0 i x' y')

/-- C105: two fields that follow each other and whose methods stop: every such program has the same outcome over both, whether it
catches panics or not. -/
theorem C105_alike (C : Client WorkCall) {r' : F → E → Prop} (hr : ∀ a b, r a b → r' b a) (hc : Cfg.Relaxes c₁ c₂)
    (hc' : Cfg.Relaxes c₂ c₁) {A : @FieldOps c₁ E} {B : @FieldOps c₂ F}
    (h : FollowsField r A B) (h' : FollowsField r' B A) (hA : @StopsField c₁ E A) (hB : @StopsField c₂ F B)
    (hA0 : ∀ z, A.zero = .ok z → A.isZero z ≠ .ok false) (hB0 : ∀ z, B.zero = .ok z → B.isZero z ≠ .ok false)
    (catching : Bool) (n : ℕ) {c : C.Q × (ℕ → Value E)} {d : C.Q × (ℕ → Value F)} (hcd : C.Rel (Value.Rel r) c d) :
    Alike (C.Rel (Value.Rel r)) (C.run (@WorkCall.table c₁ E A) catching n c) (C.run (@WorkCall.table c₂ F B) catching n d) :=
  C.run_alike (fun i _ _ _ _ ha hb => alike_work hr hc hc' h h' hA hB hA0 hB0 i ha hb) catching n hcd

end follows

/-! ## Bases with state -/

section states

open _root_.Abstalg.Stateful (St Tracks Both TracksField TracksEuclideanDomain)

variable [Cfg] {σ E F : Type} {I : σ → Prop} {r : E → F → Prop}

theorem tracks_field_method {A : Stateful.FieldOps σ E} {B : FieldOps F} (h : TracksField I r A B) (i : FieldMethod)
    {a b : E} {a' b' : F} (ha : r a a') (hb : r b b') :
    Tracks I (Reply.Rel r) (FieldMethod.tableState A i a b) (FieldMethod.table B i a' b') := by
  cases i with
  | ring m => exact tracks_ring_method h.toTracksUnitaryRing m ha hb
  | inv => exact tracks_element (h.inv ha)
  | div => exact tracks_element (h.div ha hb)
  | power n => exact tracks_element (h.power n ha)

theorem tracks_euclidean_method {A : Stateful.EuclideanDomainOps σ E} {B : EuclideanDomainOps F}
    (h : TracksEuclideanDomain I r A B) (i : EuclideanMethod) {a b : E} {a' b' : F} (ha : r a a') (hb : r b b') :
    Tracks I (Reply.Rel r) (EuclideanMethod.tableState A i a b) (EuclideanMethod.table B i a' b') := by
  cases i with
  | ring m => exact tracks_ring_method h.toTracksUnitaryRing m ha hb
  | tryDiv => exact tracks_option (h.tryDiv ha hb)
  | divisible => exact tracks_answer (h.divisible ha hb)
  | associates => exact tracks_answer (h.associates ha hb)
  | associateRepr => exact tracks_element (h.associateRepr ha)
  | associateCoef => exact tracks_element (h.associateCoef ha)
  | quoRem => exact tracks_pair (h.quoRem ha hb)
  | quo => exact tracks_element (h.quo ha hb)
  | rem => exact tracks_element (h.rem ha hb)
  | reduced => exact tracks_answer (h.reduced ha hb)
  | gcd => exact tracks_element (h.gcd ha hb)
  | lcm => exact tracks_element (h.lcm ha hb)
  | extendedGcd => exact tracks_triple (h.extendedGcd ha hb)
  | relativePrimes => exact tracks_answer (h.relativePrimes ha hb)

theorem Value.Rel.tracks_scalar {x : Value E} {y : Value F} (h : Value.Rel r x y) : Tracks I r (liftM x.asScalar) y.asScalar := by
  cases x <;> cases y <;> first | exact h.elim | exact .lok h | exact .panic

theorem Value.Rel.tracks_vec {x : Value E} {y : Value F} (h : Value.Rel r x y) : Tracks I (LRel r) (liftM x.asVec) y.asVec := by
  cases x <;> cases y <;> first | exact h.elim | exact .lok h | exact .panic

theorem tracks_work {A : Stateful.FieldOps σ E} {B : FieldOps F} (h : TracksField I r A B) (i : WorkCall)
    {x y : Value E} {x' y' : Value F} (hx : Value.Rel r x x') (hy : Value.Rel r y y') :
    Tracks I (Reply.Rel (Value.Rel r)) (WorkCall.tableState A i x y) (WorkCall.table B i x' y') := by
  cases i with
  | field m =>
    exact hx.tracks_scalar.bind fun _ _ ha => hy.tracks_scalar.bind fun _ _ hb => (tracks_field_method h m ha hb).bind fun _ _ hr =>
      .ok (reply_map (fun _ _ h => h) hr)
  | euclidean m =>
    exact hx.tracks_scalar.bind fun _ _ ha => hy.tracks_scalar.bind fun _ _ hb =>
      (tracks_euclidean_method (C95_field h).2 m ha hb).bind fun _ _ hr => .ok (reply_map (fun _ _ h => h) hr)
  | zero => exact h.zero.bind fun _ _ ha => .ok (.cons ha .nil)
  | one => exact h.one.bind fun _ _ ha => .ok (.cons ha .nil)
  | int n => exact (h.int n).bind fun _ _ ha => .ok (.cons ha .nil)
  | vector len m =>
    exact hx.tracks_vec.bind fun _ _ ha => hy.tracks_vec.bind fun _ _ hb =>
      (tracks_ring_method (C95_vector_unitary_ring len h.toTracksUnitaryRing) m ha hb).bind fun _ _ hr =>
        .ok (reply_map (fun _ _ h => h) hr)
  | matrix size m =>
    exact hx.tracks_vec.bind fun _ _ ha => hy.tracks_vec.bind fun _ _ hb =>
      (tracks_ring_method (C95_matrices size h) m ha hb).bind fun _ _ hr => .ok (reply_map (fun _ _ h => h) hr)
  | determinant size =>
    exact hx.tracks_vec.bind fun _ _ ha => (C95_determinant size h ha).1.bind fun _ _ hd => .ok (.cons hd .nil)
  | transpose size =>
    exact hx.tracks_vec.bind fun _ _ ha => (Stateful.MatrixRing.tracks_transpose size ha).bind fun _ _ hd => .ok (.cons hd .nil)
  | diagonal len => exact hx.tracks_scalar.bind fun _ _ ha => .ok (.cons (lrel_diagonal len ha) .nil)
  | leadingCoef =>
    exact hx.tracks_vec.bind fun _ _ ha => (both_leadingCoef ha).tracks.bind fun _ _ hr => .ok (reply_map (fun _ _ h => h) hr)
  | polynomial m =>
    exact hx.tracks_vec.bind fun _ _ ha => hy.tracks_vec.bind fun _ _ hb =>
      (tracks_euclidean_method (C95_poly_euclidean h) m ha hb).bind fun _ _ hr => .ok (reply_map (fun _ _ h => h) hr)
  | empty => exact .ok (.cons .nil .nil)
  | push =>
    exact hx.tracks_vec.bind fun _ _ ha => hy.tracks_scalar.bind fun _ _ hb =>
      .ok (.cons (List.rel_append ha (.cons hb .nil)) .nil)
  | get i => exact hx.tracks_vec.bind fun _ _ ha => (Both.idx ha i).tracks.bind fun _ _ hd => .ok (.cons hd .nil)
  | set i =>
    exact hx.tracks_vec.bind fun _ _ ha => hy.tracks_scalar.bind fun _ _ hb =>
      (Both.setIdx ha i hb).tracks.bind fun _ _ hd => .ok (.cons hd .nil)
  | truncate n => exact hx.tracks_vec.bind fun _ _ ha => .ok (.cons (List.forall₂_take n ha) .nil)
  | hasLength n => exact hx.tracks_vec.bind fun _ _ ha => .ok (by rw [ha.length_eq]; rfl)

/-- C105: over a field with state that tracks a field, every such program does what it does over the field, panics being caught. -/
theorem C105_states (C : Client WorkCall) {A : Stateful.FieldOps σ E} {B : FieldOps F} (h : TracksField I r A B) (n : ℕ)
    {c : C.Q × (ℕ → Value E)} {d : C.Q × (ℕ → Value F)} (hcd : C.Rel (Value.Rel r) c d) :
    Tracks I (C.Rel (Value.Rel r)) (C.runState (WorkCall.tableState A) n c) (C.run (WorkCall.table B) true n d) :=
  C.run_tracks (fun i _ _ _ _ ha hb => tracks_work h i ha hb) n hcd

end states

/-! ## Two implementations of the same field -/

section same

variable [Cfg] {E F : Type}

/-- The field without multiples and powers by `isize::MIN`. -/
def FieldOps.tame (A : FieldOps E) : FieldOps E :=
  { A with
    times := fun n a => if n = isizeMin then .panic else A.times n a
    int := fun n => if n = isizeMin then .panic else A.int n
    power := fun n a => if n = isizeMin then .panic else A.power n a }

theorem one_ne_isizeMin : (1 : ℤ) ≠ isizeMin := by
  unfold isizeMin
  have : (0 : ℤ) < 2 ^ (Cfg.ptrBits - 1) := by positivity
  omega

theorem FieldOps.stops_tame {A : FieldOps E} (h : StopsField A) : StopsField A.tame :=
  { h with
    times := fun n a => by dsimp only [tame]; split; exacts [.panic, h.times n a]
    int := fun n => by dsimp only [tame]; split; exacts [.panic, h.int n]
    power := fun n a => by dsimp only [tame]; split; exacts [.panic, h.power n a] }

theorem Follows.unless {α β : Type} {r : α → β → Prop} {p : Prop} [Decidable p] {c : Res α} {d : Res β} (h : ¬ p → Follows r c d) :
    Follows r (if p then .panic else c) (if p then .panic else d) := by
  split
  · exact nofun
  · exact h ‹_›

universe u

theorem FieldOps.follows_tame {R : Type u} [Field R] {mp : Prop} {rep : E → R → Prop} {rep' : F → R → Prop} {A : FieldOps E}
    {B : FieldOps F} (hA : FieldSpec mp A rep) (hB : FieldSpec False B rep') : FollowsField (Same rep rep') A.tame B.tame where
  contains := fun ha => (C84_monoid hA.toMonoidSpec hB.toMonoidSpec ha ha).1
  equals := fun ha hb => (C84_monoid hA.toMonoidSpec hB.toMonoidSpec ha hb).2.1
  mul := fun ha hb => (C84_monoid hA.toMonoidSpec hB.toMonoidSpec ha hb).2.2.1
  mulAssign := fun ha hb => (C84_monoid hA.toMonoidSpec hB.toMonoidSpec ha hb).2.2.2.1
  square := fun ha => (C84_monoid hA.toMonoidSpec hB.toMonoidSpec ha ha).2.2.2.2.1
  one := returns_follows hA.one hB.one
  isOne := fun ha => (C84_monoid hA.toMonoidSpec hB.toMonoidSpec ha ha).2.2.2.2.2.2.1
  invertible := fun ha => (C84_monoid hA.toMonoidSpec hB.toMonoidSpec ha ha).2.2.2.2.2.2.2.1
  tryInv := fun ha => (C84_monoid hA.toMonoidSpec hB.toMonoidSpec ha ha).2.2.2.2.2.2.2.2
  zero := returns_follows hA.zero hB.zero
  isZero := fun ha => (C84_commutative_monoid hA.toCommutativeMonoidSpec hB.toCommutativeMonoidSpec ha ha).2.1
  add := fun ha hb => (C84_commutative_monoid hA.toCommutativeMonoidSpec hB.toCommutativeMonoidSpec ha hb).2.2.1
  addAssign := fun ha hb => (C84_commutative_monoid hA.toCommutativeMonoidSpec hB.toCommutativeMonoidSpec ha hb).2.2.2.1
  double := fun ha => (C84_commutative_monoid hA.toCommutativeMonoidSpec hB.toCommutativeMonoidSpec ha ha).2.2.2.2.1
  utimes := fun n _ _ ha => (C84_commutative_monoid hA.toCommutativeMonoidSpec hB.toCommutativeMonoidSpec ha ha).2.2.2.2.2 n
  neg := fun ha => (C84_abelian_group hA.toAbelianGroupSpec hB.toAbelianGroupSpec ha ha).1
  negAssign := fun ha => (C84_abelian_group hA.toAbelianGroupSpec hB.toAbelianGroupSpec ha ha).2.1
  sub := fun ha hb => (C84_abelian_group hA.toAbelianGroupSpec hB.toAbelianGroupSpec ha hb).2.2.1
  subAssign := fun ha hb => (C84_abelian_group hA.toAbelianGroupSpec hB.toAbelianGroupSpec ha hb).2.2.2.1
  times := fun n _ _ ha => .unless fun hn => (C84_abelian_group hA.toAbelianGroupSpec hB.toAbelianGroupSpec ha ha).2.2.2.2 n hn
  int := fun n => .unless fun hn => returns_follows (hA.int n hn) (hB.int n hn)
  inv := fun ha => (C84_field hA hB ha ha).1
  div := fun ha hb => (C84_field hA hB ha hb).2.1
  power := fun n _ _ ha => .unless fun hn => ((C84_field hA hB ha ha).2.2 n hn).1

theorem FieldOps.tame_int (A : FieldOps E) {n : ℤ} (hn : n ≠ isizeMin) : A.tame.int n = A.int n := if_neg hn

theorem FieldOps.tame_times (A : FieldOps E) {n : ℤ} (hn : n ≠ isizeMin) (a : E) : A.tame.times n a = A.times n a := if_neg hn

theorem FieldOps.tame_power (A : FieldOps E) {n : ℤ} (hn : n ≠ isizeMin) (a : E) : A.tame.power n a = A.power n a := if_neg hn

theorem tame_ring {A : FieldOps E} {m : RingMethod} (hm : m.Fits) (a b : E) :
    m.table A.tame.toUnitaryRingOps a b = m.table A.toUnitaryRingOps a b := by
  cases m <;> first
    | rfl
    | exact congrArg Res.element (A.tame_times hm a)
    | exact congrArg Res.element (A.tame_int hm)

theorem tame_vectors {A : FieldOps E} (len : ℕ) {m : RingMethod} (hm : m.Fits) (a b : List E) :
    m.table (VectorAlgebra.unitaryRing len A.tame.toUnitaryRingOps) a b =
    m.table (VectorAlgebra.unitaryRing len A.toUnitaryRingOps) a b := by
  cases m <;> first
    | rfl
    | (refine congrArg Res.element ?_
       dsimp only [VectorAlgebra.unitaryRing, VectorAlgebra.abelianGroup]
       rw [A.tame_int hm])

theorem MatrixRing.tame_int {A : FieldOps E} (size : ℕ) {n : ℤ} (hn : n ≠ isizeMin) :
    MatrixRing.int A.tame size n = MatrixRing.int A size n := by
  unfold MatrixRing.int; rw [A.tame_int hn]; rfl

theorem MatrixRing.tame_detLoop {A : FieldOps E} (size : ℕ) (l : List ℕ) :
    ∀ (v : List E) (d : E), MatrixRing.detLoop A.tame size l v d = MatrixRing.detLoop A size l v d := by
  induction l with
  | nil => exact fun _ _ => rfl
  | cons k l ih =>
    intro v d
    unfold MatrixRing.detLoop
    simp only [ih]
    rfl

theorem MatrixRing.tame_invLoop {A : FieldOps E} (size : ℕ) (l : List ℕ) :
    ∀ v w : List E, MatrixRing.invLoop A.tame size l v w = MatrixRing.invLoop A size l v w := by
  induction l with
  | nil => exact fun _ _ => rfl
  | cons k l ih =>
    intro v w
    unfold MatrixRing.invLoop
    simp only [ih]
    rfl

theorem MatrixRing.tame_determinant {A : FieldOps E} (size : ℕ) (v : List E) :
    MatrixRing.determinant A.tame size v = MatrixRing.determinant A size v := by
  unfold MatrixRing.determinant
  simp only [MatrixRing.tame_detLoop]
  rfl

theorem tame_matrices {A : FieldOps E} (size : ℕ) {m : RingMethod} (hm : m.Fits) (a b : List E) :
    m.table (MatrixRing.ops A.tame size) a b = m.table (MatrixRing.ops A size) a b := by
  have h1 : MatrixRing.int A.tame size 1 = MatrixRing.int A size 1 := MatrixRing.tame_int size one_ne_isizeMin
  have h2 : MatrixRing.isOne A.tame size = MatrixRing.isOne A size := by
    funext v; unfold MatrixRing.isOne; rw [h1]; rfl
  have h3 : MatrixRing.tryInv A.tame size a = MatrixRing.tryInv A size a := by
    unfold MatrixRing.tryInv
    simp only [h1, h2, MatrixRing.tame_invLoop]
  have h4 : (MatrixRing.ops A.tame size).invertible a = (MatrixRing.ops A size).invertible a := by
    show (do return !(← A.tame.isZero (← MatrixRing.determinant A.tame size a))) = _
    rw [MatrixRing.tame_determinant]
    rfl
  cases m with
  | one => exact congrArg Res.element h1
  | isOne => exact congrArg (fun f => (f a : Res Bool).answer) h2
  | tryInv => exact congrArg Res.option h3
  | invertible => exact congrArg Res.answer h4
  | int n => exact congrArg Res.element (MatrixRing.tame_int size hm)
  | _ => rfl

namespace PolynomialAlgebra

theorem tame_timesTrim {A : FieldOps E} (v : List E) (n : ℕ) :
    timesTrim A.tame.toAbelianGroupOps v n = timesTrim A.toAbelianGroupOps v n := by
  induction n with
  | zero => rfl
  | succ n ih => unfold timesTrim; simp only [ih]; rfl

theorem tame_tryDivLoop {A : FieldOps E} (u : List E) (a : E) (n : ℕ) :
    ∀ q v, tryDivLoop A.tame.toIntegralDomain u a n q v = tryDivLoop A.toIntegralDomain u a n q v := by
  induction n with
  | zero => exact fun _ _ => rfl
  | succ n ih => intro q v; unfold tryDivLoop; simp only [ih]; rfl

theorem tame_quoRemLoop {A : FieldOps E} (u : List E) (a : E) (n : ℕ) :
    ∀ q v, quoRemLoop A.tame u a n q v = quoRemLoop A u a n q v := by
  induction n with
  | zero => exact fun _ _ => rfl
  | succ n ih => intro q v; unfold quoRemLoop; simp only [ih]; rfl

theorem tame_trimLen {A : FieldOps E} (v : List E) (n : ℕ) : trimLen A.tame v n = trimLen A v n := by
  induction n with
  | zero => rfl
  | succ n ih => unfold trimLen; simp only [ih]; rfl

theorem tame_tryDiv {A : FieldOps E} : tryDiv A.tame.toIntegralDomain = tryDiv A.toIntegralDomain := by
  funext v w
  unfold tryDiv
  simp only [tame_tryDivLoop]
  rfl

theorem tame_quoRem {A : FieldOps E} : quoRem A.tame = quoRem A := by
  funext v w
  unfold quoRem
  simp only [tame_quoRemLoop, tame_trimLen]
  rfl

theorem tame_times {A : FieldOps E} {n : ℤ} (hn : n ≠ isizeMin) (v : List E) :
    (euclidean A.tame).times n v = (euclidean A).times n v := by
  show (do let w ← mapRes (fun a => A.tame.times n a) v; timesTrim A.tame.toAbelianGroupOps w w.length) = _
  simp only [tame_timesTrim, A.tame_times hn]
  rfl

theorem tame_gcd {A : FieldOps E} (v w : List E) : (euclidean A.tame).gcd v w = (euclidean A).gcd v w := by
  show gcdDefault (fun v => .ok v.isEmpty) (fun a b => do return (← quoRem A.tame a b).2) v w = _
  rw [tame_quoRem]; rfl

end PolynomialAlgebra

theorem tame_polynomials {A : FieldOps E} {m : EuclideanMethod} (hm : m.Fits) (a b : List E) :
    m.table (PolynomialAlgebra.euclidean A.tame) a b = m.table (PolynomialAlgebra.euclidean A) a b := by
  have hq : (PolynomialAlgebra.euclidean A.tame).quoRem = (PolynomialAlgebra.euclidean A).quoRem := PolynomialAlgebra.tame_quoRem
  have hd : (PolynomialAlgebra.euclidean A.tame).tryDiv = (PolynomialAlgebra.euclidean A).tryDiv := PolynomialAlgebra.tame_tryDiv
  have hv : (PolynomialAlgebra.euclidean A.tame).divisible = (PolynomialAlgebra.euclidean A).divisible :=
    congrArg (fun f a b => do
      if ← (PolynomialAlgebra.euclidean A).isZero b then (PolynomialAlgebra.euclidean A).isZero a
      else return (← f a b).isSome) hd
  have hu : (PolynomialAlgebra.euclidean A.tame).quo = (PolynomialAlgebra.euclidean A).quo :=
    congrArg (fun f a b => do return (← f a b).1) hq
  have hg : (PolynomialAlgebra.euclidean A.tame).gcd = (PolynomialAlgebra.euclidean A).gcd := by
    funext v w; exact PolynomialAlgebra.tame_gcd v w
  cases m with
  | ring m =>
    cases m with
    | times n => exact congrArg Res.element (PolynomialAlgebra.tame_times hm a)
    | int n =>
      refine congrArg Res.element ?_
      show (do (PolynomialAlgebra.euclidean A.tame).times n (← (PolynomialAlgebra.euclidean A).one)) = _
      simp only [PolynomialAlgebra.tame_times hm]
      rfl
    | _ => rfl
  | tryDiv => exact congrArg (fun f => (f a b : Res (Option (List E))).option) hd
  | divisible => exact congrArg (fun f => (f a b : Res Bool).answer) hv
  | quoRem => exact congrArg (fun f => (do
      let p ← (f a b : Res (List E × List E))
      return Reply.elements [p.1, p.2])) hq
  | quo => exact congrArg (fun f => (f a b : Res (List E)).element) hu
  | rem => exact congrArg (fun f => (do return (← f a b : List E × List E).2 : Res (List E)).element) hq
  | reduced => exact congrArg (fun f => (do
      if ← (PolynomialAlgebra.euclidean A).isZero b then return true
      else (PolynomialAlgebra.euclidean A).isZero (← f a b) : Res Bool).answer) hu
  | gcd => exact congrArg (fun f => (f a b : Res (List E)).element) hg
  | lcm => exact congrArg₂ (fun f h => (do
      let g ← f a b
      if ← (PolynomialAlgebra.euclidean A).isZero g then return g
      else (PolynomialAlgebra.euclidean A).mul (← h a g) b : Res (List E)).element) hg hu
  | extendedGcd => exact congrArg (fun f => (do
      let p ← (extendedGcdDefault (PolynomialAlgebra.euclidean A).isZero (PolynomialAlgebra.euclidean A).one
        (PolynomialAlgebra.euclidean A).zero f (PolynomialAlgebra.euclidean A).sub (PolynomialAlgebra.euclidean A).mul a b)
      return Reply.elements [p.1, p.2.1, p.2.2])) hq
  | relativePrimes => exact congrArg (fun f => (do
      let g ← (f a b : Res (List E))
      (PolynomialAlgebra.euclidean A).invertible g : Res Bool).answer) hg
  | associates => exact congrArg (fun f => (do
      if ← f a b then f b a else return false : Res Bool).answer) hv
  | associateRepr => rfl
  | associateCoef => rfl

theorem WorkCall.table_tame {A : FieldOps E} {i : WorkCall} (hi : i.Fits) (x y : Value E) :
    WorkCall.table A.tame i x y = WorkCall.table A i x y := by
  cases i with
  | field m =>
    have h : ∀ a b, m.table A.tame a b = m.table A a b := fun a b => by
      cases m with
      | ring m => exact tame_ring hi a b
      | power n => exact congrArg Res.element (A.tame_power hi a)
      | _ => rfl
    unfold WorkCall.table; simp only [h]
  | euclidean m =>
    have h : ∀ a b, m.table A.tame.toEuclidean a b = m.table A.toEuclidean a b := fun a b => by
      cases m with
      | ring m => exact tame_ring hi a b
      | _ => rfl
    unfold WorkCall.table; simp only [h]
  | int n => unfold WorkCall.table; simp only [A.tame_int hi]
  | vector len m => unfold WorkCall.table; simp only [tame_vectors len hi]
  | matrix size m => unfold WorkCall.table; simp only [tame_matrices size hi]
  | determinant size => unfold WorkCall.table; simp only [MatrixRing.tame_determinant]
  | polynomial m => unfold WorkCall.table; simp only [tame_polynomials hi]
  | _ => rfl

theorem Client.step_table {ι : Type} (C : Client ι) {P : ι → Prop} (hC : C.Only P) {T T' : ι → E → E → Res (Reply E)}
    (h : ∀ i, P i → T i = T' i) (catching : Bool) (c : C.Q × (ℕ → E)) : C.step T catching c = C.step T' catching c := by
  unfold Client.step
  cases hact : C.act c.1 with
  | none => rfl
  | some w =>
    obtain ⟨i, a, b, d⟩ := w
    dsimp only
    rw [h i (hC _ _ _ _ _ hact)]

theorem Client.run_table {ι : Type} (C : Client ι) {P : ι → Prop} (hC : C.Only P) {T T' : ι → E → E → Res (Reply E)}
    (h : ∀ i, P i → T i = T' i) (catching : Bool) (n : ℕ) (c : C.Q × (ℕ → E)) :
    C.run T catching n c = C.run T' catching n c := by
  induction n generalizing c with
  | zero => rfl
  | succ n ih =>
    unfold Client.run
    rw [C.step_table hC h]
    simp only [ih]

theorem zero_isZero {R : Type u} [Field R] {rep : E → R → Prop} {A : FieldOps E} (hA : FieldSpec False A rep) (z : E)
    (hz : A.zero = .ok z) : A.isZero z ≠ .ok false := by
  have h := hA.zero
  rw [hz] at h
  have h1 := hA.isZero h
  intro h2
  rw [h2] at h1
  simp [Decides, Returns] at h1

/-- C105: two implementations of the same field whose methods stop: a program that uses the field, vectors, matrices and polynomials over
it, and takes them apart, has the same outcome over both, whether it catches panics or not. -/
theorem C105_indistinguishable (C : Client WorkCall) (hC : C.Only WorkCall.Fits) {R : Type u} [Field R] {rep : E → R → Prop}
    {rep' : F → R → Prop} {A : FieldOps E} {B : FieldOps F} (hA : FieldSpec False A rep) (hB : FieldSpec False B rep')
    (sA : StopsField A) (sB : StopsField B) (catching : Bool) (n : ℕ) {c : C.Q × (ℕ → Value E)} {d : C.Q × (ℕ → Value F)}
    (hcd : C.Rel (Value.Rel (Same rep rep')) c d) :
    Alike (C.Rel (Value.Rel (Same rep rep'))) (C.run (WorkCall.table A) catching n c) (C.run (WorkCall.table B) catching n d) := by
  rw [← C.run_table (T := WorkCall.table A.tame) hC fun i hi => by funext x y; exact WorkCall.table_tame hi x y,
    ← C.run_table (T := WorkCall.table B.tame) hC fun i hi => by funext x y; exact WorkCall.table_tame hi x y]
  exact C105_alike C (r' := Same rep' rep) (fun _ _ ⟨x, h1, h2⟩ => ⟨x, h2, h1⟩) (.refl _) (.refl _)
    (FieldOps.follows_tame hA hB) (FieldOps.follows_tame hB hA) (FieldOps.stops_tame sA) (FieldOps.stops_tame sB)
    (zero_isZero (A := A) hA) (zero_isZero (A := B) hB) catching n hcd

open Classical in
theorem FieldOps.exact_spec (K : Type) [Field K] : FieldSpec False (FieldOps.exact K) Eq where
  rep_unique := fun h h' => h.symm.trans h'
  contains := fun _ => rfl
  equals := by rintro _ _ _ _ rfl rfl; exact decide_eq_true_iff
  mul := by rintro _ _ _ _ rfl rfl; exact rfl
  mulAssign := by rintro _ _ _ _ rfl rfl; exact rfl
  square := by rintro _ _ rfl; exact rfl
  one := rfl
  isOne := by rintro _ _ rfl; exact decide_eq_true_iff
  tryInv := by
    rintro x _ rfl
    by_cases hx : x = 0
    · rw [show (FieldOps.exact K).toMonoidOps.tryInv x = .ok none from congrArg _ (if_pos hx)]
      exact fun h => h.ne_zero hx
    · rw [show (FieldOps.exact K).toMonoidOps.tryInv x = .ok (some x⁻¹) from congrArg _ (if_neg hx)]
      exact ⟨x⁻¹, rfl, mul_inv_cancel₀ hx, inv_mul_cancel₀ hx⟩
  invertible := by
    rintro x _ rfl
    by_cases hx : x = 0
    · rw [show (FieldOps.exact K).toMonoidOps.invertible x = .ok false from congrArg (fun o : Option K => Res.ok o.isSome) (if_pos hx)]
      exact ⟨nofun, fun h => (h.ne_zero hx).elim⟩
    · rw [show (FieldOps.exact K).toMonoidOps.invertible x = .ok true from congrArg (fun o : Option K => Res.ok o.isSome) (if_neg hx)]
      exact ⟨fun _ => isUnit_iff_ne_zero.2 hx, fun _ => rfl⟩
  zero := rfl
  isZero := by rintro _ _ rfl; exact decide_eq_true_iff
  add := by rintro _ _ _ _ rfl rfl; exact rfl
  addAssign := by rintro _ _ _ _ rfl rfl; exact rfl
  double := by rintro _ _ rfl; exact rfl
  utimes := by rintro n _ _ rfl; exact rfl
  neg := by rintro _ _ rfl; exact rfl
  negAssign := by rintro _ _ rfl; exact rfl
  sub := by rintro _ _ _ _ rfl rfl; exact rfl
  subAssign := by rintro _ _ _ _ rfl rfl; exact rfl
  times := by rintro n _ _ _ rfl; exact rfl
  int := fun _ _ => rfl
  inv := by
    rintro x _ rfl hx
    rw [show (FieldOps.exact K).inv x = .ok x⁻¹ from if_neg hx]
    exact rfl
  inv_zero := by rintro _ rfl; exact if_pos rfl
  div := by
    rintro x y _ _ rfl rfl hy
    rw [show (FieldOps.exact K).div x y = .ok (x / y) from if_neg hy]
    exact rfl
  div_zero := by rintro _ _ _ rfl rfl; exact if_pos rfl
  power := by
    rintro n _ x _ rfl hx
    rw [show (FieldOps.exact K).power n x = .ok (x ^ n) from congrArg _ (if_neg hx)]
    exact rfl
  power_zero := by rintro n _ rfl; exact if_pos rfl

theorem FieldOps.stops_exact (K : Type) [Field K] : StopsField (FieldOps.exact K) := by
  stops_fields <;> first | exact Stops.ok _ | (unfold FieldOps.exact; dsimp only; split; exacts [.panic, .ok _])

/-- C105: over an implementation of a field whose methods stop such a program does what it does with the elements of the field, and panics
where it panics there. -/
theorem C105_exact (C : Client WorkCall) (hC : C.Only WorkCall.Fits) {K : Type} [Field K] {rep : E → K → Prop}
    {A : FieldOps E} (hA : FieldSpec False A rep) (sA : StopsField A) (catching : Bool) (n : ℕ) {c : C.Q × (ℕ → Value E)}
    {x : C.Q × (ℕ → Value K)} (hcx : C.Rel (Value.Rel rep) c x) :
    Alike (C.Rel (Value.Rel rep)) (C.run (WorkCall.table A) catching n c)
      (C.run (WorkCall.table (FieldOps.exact K)) catching n x) := by
  have he : Same rep (Eq : K → K → Prop) = rep := by
    funext a x
    exact propext ⟨fun ⟨y, h1, h2⟩ => h2 ▸ h1, fun h => ⟨x, h, rfl⟩⟩
  have := C105_indistinguishable C hC hA (FieldOps.exact_spec K) sA (FieldOps.stops_exact K) catching n (c := c) (d := x)
  rw [he] at this
  exact this hcx

/-- C105: if the contract of the implementation allows panics, then the program does over it what it does with the elements of the field
until the first panic. -/
theorem C105_faithful (C : Client WorkCall) (hC : C.Only WorkCall.Fits) {mp : Prop} {K : Type} [Field K] {rep : E → K → Prop}
    {A : FieldOps E} (hA : FieldSpec mp A rep) (n : ℕ) {c : C.Q × (ℕ → Value E)}
    {x : C.Q × (ℕ → Value K)} (hcx : C.Rel (Value.Rel rep) c x) :
    Follows (C.Rel (Value.Rel rep)) (C.run (WorkCall.table A) false n c)
      (C.run (WorkCall.table (FieldOps.exact K)) false n x) := by
  have he : Same rep (Eq : K → K → Prop) = rep := by
    funext a x
    exact propext ⟨fun ⟨y, h1, h2⟩ => h2 ▸ h1, fun h => ⟨x, h, rfl⟩⟩
  rw [← C.run_table (T := WorkCall.table A.tame) hC fun i hi => by funext x y; exact WorkCall.table_tame hi x y,
    ← C.run_table (T := WorkCall.table (FieldOps.exact K).tame) hC fun i hi => by funext x y; exact WorkCall.table_tame hi x y]
  have := C105_follows C (.refl _) (FieldOps.follows_tame hA (FieldOps.exact_spec K)) n (c := c) (d := x)
  rw [he] at this
  exact this hcx

end same

/-! ## Fields of the crate -/

section crate

/-- C105: no such program can tell `GF2` from `BB`. -/
theorem C105_two_elements [Cfg] (C : Client WorkCall) (hC : C.Only WorkCall.Fits) (catching : Bool) (n : ℕ)
    {c : C.Q × (ℕ → Value (SInt 8))} {d : C.Q × (ℕ → Value Bool)}
    (hcd : C.Rel (Value.Rel fun a b => a.1 = if b then 1 else 0) c d) :
    Alike (C.Rel (Value.Rel fun a b => a.1 = if b then 1 else 0)) (C.run (WorkCall.table QuotientField.GF2) catching n c)
      (C.run (WorkCall.table TwoElementAlgebra.field) catching n d) := by
  have he : Same (fun (a : SInt 8) (s : ZMod 2) => 0 ≤ a.1 ∧ a.1 < 2 ∧ (a.1 : ZMod 2) = s)
      (fun (a : Bool) (x : ZMod 2) => x = if a then 1 else 0) = fun a b => a.1 = if b then 1 else 0 := by
    funext a b
    refine propext ⟨?_, fun h => ⟨_, ⟨?_, ?_, rfl⟩, ?_⟩⟩
    · rintro ⟨x, ⟨h4, h5, h6⟩, h7⟩
      have h8 : (a.1 : ZMod 2) = if b then 1 else 0 := h6.trans h7
      have h9 : a.1 = 0 ∨ a.1 = 1 := by omega
      rcases h9 with h9 | h9 <;> rw [h9] at h8 ⊢ <;> cases b
      · rfl
      · revert h8; decide
      · revert h8; decide
      · rfl
    all_goals rw [h]; cases b <;> decide
  rw [← he] at hcd ⊢
  exact C105_indistinguishable C hC C24_GF2 C46_two_field (QuotientField.stops_ops (CheckedInts.stops_euclidean 8) _)
    TwoElementAlgebra.stops_field catching n hcd

/-- C105: over fractions of machine integers such a program does what it does over fractions of integers with checks, and panics where it
panics over these. -/
theorem C105_machine_fractions [Cfg] (w : ℕ) [Width w] (C : Client WorkCall) (catching : Bool) (n : ℕ)
    {c : C.Q × (ℕ → Value (SInt w × SInt w))} {d : C.Q × (ℕ → Value (ℤ × ℤ))} (hcd : C.Rel (Value.Rel (PRel (SRep w))) c d) :
    Alike (C.Rel (Value.Rel (PRel (SRep w))))
      (C.run (WorkCall.table (ReducedFractions.ops (CheckedInts.euclidean w))) catching n c)
      (C.run (WorkCall.table (ReducedFractions.ops (Guarded.euclidean w))) catching n d) := by
  refine C105_alike C (denoted_pair w) (.refl _) (.refl _) (C103_fractions w).1 (C103_fractions w).2
    (ReducedFractions.stops_ops (CheckedInts.stops_euclidean w)) (ReducedFractions.stops_ops (C103_stops w)) ?_ ?_ catching n hcd
  · intro z hz
    cases hz
    exact fun h => by cases h
  · intro z hz
    cases hz
    exact fun h => by cases h

/-- C105: such a program with rational numbers that does not panic with all checks does the same without them. -/
theorem C105_builds {c₁ c₂ : Cfg} (hc : Cfg.Relaxes c₁ c₂) (C : Client WorkCall) (n : ℕ) {c d}
    (h : C.run (@WorkCall.table c₁ _ (@ReducedFractions.QQ c₁)) false n c = .ok d) :
    C.run (@WorkCall.table c₂ _ (@ReducedFractions.QQ c₂)) false n c = .ok d := by
  have he : (Value.Rel Eq : Value (ℤ × ℤ) → Value (ℤ × ℤ) → Prop) = Eq := by
    funext x y
    cases x <;> cases y <;> simp [Value.Rel, List.forall₂_eq_eq_eq]
  obtain ⟨e, h1, h2, h3⟩ := C105_follows C hc (C69_rationals hc 0).1 n (c := c) (d := c) ⟨rfl, fun _ => by rw [he]⟩ _ h
  rw [he] at h3
  rw [h1, show d = e from Prod.ext h2 (funext h3)]

/-- C105: such a program cannot tell a field from the same field with a memory or with a counter of its calls. -/
theorem C105_same_field [Cfg] (C : Client WorkCall) {σ E : Type} {I : σ → Prop} {A : Stateful.FieldOps σ E} {B : FieldOps E}
    (h : Stateful.TracksField I Eq A B) (n : ℕ) {c c' : C.Q × (ℕ → Value E)}
    (hc : C.run (WorkCall.table B) true n c = .ok c') {s : σ} (hs : I s) :
    ∃ t, C.runState (WorkCall.tableState A) n c s = .ok c' t ∧ I t := by
  have he : (Value.Rel Eq : Value E → Value E → Prop) = Eq := by
    funext x y
    cases x <;> cases y <;> simp [Value.Rel, List.forall₂_eq_eq_eq]
  have := C105_states C h n (c := c) (d := c) ⟨rfl, fun _ => by rw [he]⟩ s hs
  rw [hc, he] at this
  revert this
  cases C.runState (WorkCall.tableState A) n c s with
  | ok d t =>
    rintro ⟨⟨h1, h2⟩, h3⟩
    exact ⟨t, by rw [show d = c' from Prod.ext h1 (funext h2)], h3⟩
  | panic => exact fun h => h.elim
  | diverge => exact fun h => h.elim

end crate

/-! ## Concrete cases -/

namespace WorkspaceExamples

local instance : Cfg := ⟨true, true, 64, by decide⟩

/-- The matrix with rows 1 1 and 0 1 of the entries 1, 1, 0, 1, its determinant in register 2, its inverse in register 3, and an attempt to
add the determinant to the inverse. -/
def builder : Client WorkCall where
  Q := ℕ
  act
    | 0 => some (.one, 0, 0, 0)
    | 1 => some (.empty, 0, 0, 1)
    | 2 | 3 => some (.push, 1, 0, 1)
    | 4 => some (.push, 1, 5, 1)
    | 5 => some (.push, 1, 0, 1)
    | 6 => some (.determinant 2, 1, 1, 2)
    | 7 => some (.matrix 2 .tryInv, 1, 1, 3)
    | 8 => some (.polynomial (.ring .mul), 1, 3, 4)
    | 9 => some (.field (.ring .add), 2, 3, 6)
    | _ => none
  next q s := match s with
    | .panicked => q + 100
    | _ => q + 1

theorem builder_fits : builder.Only WorkCall.Fits := by
  intro q i a b d h
  rcases q with _|_|_|_|_|_|_|_|_|_|_ <;> cases h <;> trivial

-- over `BB`: the determinant is 1, and the matrix is its own inverse
example : ∃ f, builder.run (WorkCall.table TwoElementAlgebra.field) true 12 ((0 : ℕ), fun _ => .scalar false) = .ok ((109 : ℕ), f) ∧
    f 2 = .scalar true ∧ f 3 = .vec [true, true, false, true] ∧ f 4 = .vec [true, false, true, false, false, false, true] :=
  ⟨_, rfl, rfl, rfl, rfl⟩

-- hence over `GF2`
example : ∃ f : ℕ → Value (SInt 8), builder.run (WorkCall.table QuotientField.GF2) true 12
      ((0 : ℕ), fun _ => .scalar (SInt.lit 0 (by decide))) = .ok ((109 : ℕ), f) ∧
    Value.Rel (fun (a : SInt 8) b => a.1 = if b then 1 else 0) (f 2) (.scalar true) := by
  have h := C105_two_elements builder builder_fits true 12
    (c := ((0 : ℕ), fun _ => .scalar (SInt.lit 0 (by decide)))) (d := ((0 : ℕ), fun _ => .scalar false)) ⟨rfl, fun _ => rfl⟩
  revert h
  generalize builder.run (WorkCall.table QuotientField.GF2) true 12 _ = s
  intro h
  cases h with
  | @ok a _ h =>
    obtain ⟨q, f⟩ := a
    exact ⟨f, by rw [show q = (109 : ℕ) from h.1], h.2 2⟩

-- without `catch_unwind` the addition of a matrix to an element ends it
example : builder.run (WorkCall.table TwoElementAlgebra.field) false 12 ((0 : ℕ), fun _ => .scalar false) = .panic := rfl

-- a field that counts its calls: the program does the same, and 77 calls were made
example : ∃ f, builder.runState (WorkCall.tableState (StatefulExamples.ticking TwoElementAlgebra.field (· + 1))) 12
    ((0 : ℕ), fun _ => .scalar false) 0 = .ok ((109 : ℕ), f) 77 := ⟨_, rfl⟩
example {c} (h : builder.run (WorkCall.table TwoElementAlgebra.field) true 12 ((0 : ℕ), fun _ => .scalar false) = .ok c) :=
  C105_same_field builder (StatefulExamples.ticking_tracks TwoElementAlgebra.field (I := fun _ => True) (f := (· + 1)) fun _ _ => trivial)
    12 h (s := 0) trivial

-- fractions of 8-bit integers, of integers with checks, and of integers in another build
example (n : ℕ) := C105_machine_fractions 8 builder true n
  (c := ((0 : ℕ), fun _ => .scalar (SInt.lit 16 (by decide), SInt.lit 1 (by decide)))) (d := ((0 : ℕ), fun _ => .scalar (16, 1)))
  ⟨rfl, fun _ => ⟨rfl, rfl⟩⟩
example (n : ℕ) {d} := C105_builds (c₁ := ⟨true, true, 64, by decide⟩) (c₂ := ⟨false, false, 64, by decide⟩)
  ⟨rfl, fun _ => rfl, fun _ => rfl⟩ builder n (c := ((0 : ℕ), fun _ => .scalar (0, 1))) (d := d)

-- what it does with the elements of the field with two elements, and with fractions
example : ∃ f, builder.run (WorkCall.table (FieldOps.exact (ZMod 2))) true 12 ((0 : ℕ), fun _ => .scalar 0) = .ok ((109 : ℕ), f) ∧
    Value.Rel (fun (a : Bool) (x : ZMod 2) => x = if a then 1 else 0) (.vec [true, true, false, true]) (f 3) := by
  have h := C105_exact builder builder_fits C46_two_field TwoElementAlgebra.stops_field true 12
    (c := ((0 : ℕ), fun _ => .scalar false)) (x := ((0 : ℕ), fun _ => .scalar 0)) ⟨rfl, fun _ => rfl⟩
  revert h
  generalize builder.run (WorkCall.table (FieldOps.exact (ZMod 2))) true 12 _ = s
  intro h
  cases h with
  | @ok _ a h =>
    obtain ⟨q, f⟩ := a
    exact ⟨f, by rw [show (109 : ℕ) = q from h.1], h.2 3⟩
example (n : ℕ) := C105_faithful builder builder_fits (C57_checked_fractions (w := 8)) n
  (c := ((0 : ℕ), fun _ => .scalar (SInt.lit 0 (by decide), SInt.lit 1 (by decide)))) (x := ((0 : ℕ), fun _ => .scalar 0))
  ⟨rfl, fun _ => ⟨rfl, rfl⟩⟩

end WorkspaceExamples

end Abstalg
