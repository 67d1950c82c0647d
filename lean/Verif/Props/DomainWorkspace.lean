import Verif.Spec.DomainWorkspace
import Verif.Props.Workspace

/-! # C106: programs that use a Euclidean domain and the structures over it at the same time -/

set_option autoImplicit false
set_option linter.unusedSectionVars false

namespace Abstalg

section sorts

variable {E F : Type} {r : E → F → Prop} {r' : F → E → Prop}

theorem Item.Rel.flip (hr : ∀ a b, r a b → r' b a) (x : Item E) (y : Item F) (h : Item.Rel r x y) : Item.Rel r' y x := by
  cases x <;> cases y <;> first
    | exact h.elim
    | exact hr _ _ h
    | exact ⟨hr _ _ h.1, hr _ _ h.2⟩
    | exact List.Forall₂.flip (h.imp fun _ _ => hr _ _)

theorem Item.rel_eq : (Item.Rel Eq : Item E → Item E → Prop) = Eq := by
  funext x y
  cases x <;> cases y <;> simp [Item.Rel, List.forall₂_eq_eq_eq, PRel, Prod.ext_iff]

theorem Item.Rel.asScalar {x : Item E} {y : Item F} (h : Item.Rel r x y) : Follows r x.asScalar y.asScalar := by
  cases x <;> cases y <;> first | exact h.elim | exact .ok h | exact nofun

theorem Item.Rel.asPair {x : Item E} {y : Item F} (h : Item.Rel r x y) : Follows (PRel r) x.asPair y.asPair := by
  cases x <;> cases y <;> first | exact h.elim | exact .ok h | exact nofun

theorem Item.Rel.asVec {x : Item E} {y : Item F} (h : Item.Rel r x y) : Follows (LRel r) x.asVec y.asVec := by
  cases x <;> cases y <;> first | exact h.elim | exact .ok h | exact nofun

theorem Item.stops_asScalar (x : Item E) : Stops x.asScalar := by cases x <;> exact nofun

theorem Item.stops_asPair (x : Item E) : Stops x.asPair := by cases x <;> exact nofun

theorem Item.stops_asVec (x : Item E) : Stops x.asVec := by cases x <;> exact nofun

theorem reply_map_item {α β : Type} {s : α → β → Prop} {f : α → Item E} {g : β → Item F}
    (h : ∀ a b, s a b → Item.Rel r (f a) (g b)) {x : Reply α} {y : Reply β} (hxy : Reply.Rel s x y) :
    Reply.Rel (Item.Rel r) (x.map f) (y.map g) := by
  cases x <;> cases y <;> first | exact hxy.elim | exact hxy | skip
  rename_i l m
  replace hxy : LRel s l m := hxy
  show LRel _ (l.map f) (m.map g)
  induction hxy with
  | nil => exact .nil
  | cons h1 _ ih => exact .cons (h _ _ h1) ih

theorem reply_residue {m : E} {m' : F} (hm : r m m') {x : Reply E} {y : Reply F} (hxy : Reply.Rel r x y) :
    Reply.Rel (Item.Rel r) (x.map fun a => .pair (m, a)) (y.map fun a => .pair (m', a)) :=
  reply_map_item (r := r) (s := r) (f := fun a => .pair (m, a)) (g := fun a => .pair (m', a)) (fun _ _ h => And.intro hm h) hxy

end sorts

section follows

variable {c₁ c₂ : Cfg} {E F : Type} {r : E → F → Prop}

theorem follows_domain (hc : Cfg.Relaxes c₁ c₂) {A : @EuclideanDomainOps c₁ E} {B : @EuclideanDomainOps c₂ F}
    (h : FollowsEuclideanDomain r A B) (i : DomainCall)
    {x y : Item E} {x' y' : Item F} (hx : Item.Rel r x x') (hy : Item.Rel r y y') :
    Follows (Reply.Rel (Item.Rel r)) (@DomainCall.table c₁ E A i x y) (@DomainCall.table c₂ F B i x' y') := by
  cases i with
  | euclidean m =>
    exact hx.asScalar.bind fun _ _ ha => hy.asScalar.bind fun _ _ hb => (follows_euclidean_method h m ha hb).bind fun _ _ hr =>
      .ok (reply_map_item (fun _ _ h => h) hr)
  | zero => exact h.zero.bind fun _ _ ha => .ok (.cons ha .nil)
  | one => exact h.one.bind fun _ _ ha => .ok (.cons ha .nil)
  | int n => exact (h.int n).bind fun _ _ ha => .ok (.cons ha .nil)
  | leq =>
    exact hx.asScalar.bind fun _ _ ha => hy.asScalar.bind fun _ _ hb => (h.lattice.leq ha hb).bind fun _ _ hd => .ok hd
  | lessThan =>
    exact hx.asScalar.bind fun _ _ ha => hy.asScalar.bind fun _ _ hb => (h.lattice.lessThan ha hb).bind fun _ _ hd => .ok hd
  | comparable =>
    exact hx.asScalar.bind fun _ _ ha => hy.asScalar.bind fun _ _ hb => (h.lattice.comparable ha hb).bind fun _ _ hd => .ok hd
  | meet =>
    exact hx.asScalar.bind fun _ _ ha => hy.asScalar.bind fun _ _ hb => (h.lattice.meet ha hb).bind fun _ _ hd =>
      .ok (.cons hd .nil)
  | join =>
    exact hx.asScalar.bind fun _ _ ha => hy.asScalar.bind fun _ _ hb => (h.lattice.join ha hb).bind fun _ _ hd =>
      .ok (.cons hd .nil)
  | newFractions => exact (C67_fractions_new hc h).bind fun _ _ _ => .ok rfl
  | fraction m =>
    exact hx.asPair.bind fun _ _ ha => hy.asPair.bind fun _ _ hb => (follows_field_method (C67_fractions hc h) m ha hb).bind
      fun _ _ hr => .ok (reply_map_item (fun _ _ h => h) hr)
  | reduce => exact hx.asPair.bind fun _ _ ha => (h.reduce ha).bind fun _ _ hd => .ok (.cons hd .nil)
  | makePair => exact hx.asScalar.bind fun _ _ ha => hy.asScalar.bind fun _ _ hb => .ok (.cons ⟨ha, hb⟩ .nil)
  | first => exact hx.asPair.bind fun _ _ ha => .ok (.cons ha.1 .nil)
  | second => exact hx.asPair.bind fun _ _ ha => .ok (.cons ha.2 .nil)
  | newResidues => exact hx.asScalar.bind fun _ _ ha => (C67_quotient_ring_new hc h ha).bind fun _ _ _ => .ok rfl
  | residue m =>
    exact hx.asPair.bind fun _ _ ha => hy.asPair.bind fun _ _ hb =>
      (follows_ring_method (C67_quotient_ring hc h ha.1) m ha.2 hb.2).bind fun _ _ hr =>
        .ok (reply_residue ha.1 hr)
  | newResidueField => exact hx.asScalar.bind fun _ _ ha => (C67_quotient_field_new hc h ha).bind fun _ _ _ => .ok rfl
  | residueField m =>
    exact hx.asPair.bind fun _ _ ha => hy.asPair.bind fun _ _ hb =>
      (follows_field_method (C67_quotient_field hc h ha.1) m ha.2 hb.2).bind fun _ _ hr =>
        .ok (reply_residue ha.1 hr)
  | vector len m =>
    exact hx.asVec.bind fun _ _ ha => hy.asVec.bind fun _ _ hb =>
      (follows_ring_method (C67_vectors hc len h.toFollowsUnitaryRing) m ha hb).bind fun _ _ hr =>
        .ok (reply_map_item (fun _ _ h => h) hr)
  | polynomial m =>
    exact hx.asVec.bind fun _ _ ha => hy.asVec.bind fun _ _ hb =>
      (follows_ring_method (C67_polynomials h.toFollowsUnitaryRing) m ha hb).bind fun _ _ hr =>
        .ok (reply_map_item (fun _ _ h => h) hr)
  | polynomialTryDiv =>
    exact hx.asVec.bind fun _ _ ha => hy.asVec.bind fun _ _ hb =>
      (follows_option ((C67_polynomials_domain h.toFollowsIntegralDomain).tryDiv ha hb)).bind fun _ _ hr =>
        .ok (reply_map_item (fun _ _ h => h) hr)
  | polynomialAssociate =>
    exact hx.asVec.bind fun _ _ ha => ((C67_polynomials_domain h.toFollowsIntegralDomain).associateRepr ha).bind fun _ _ hd =>
      .ok (.cons hd .nil)
  | empty => exact .ok (.cons .nil .nil)
  | push =>
    exact hx.asVec.bind fun _ _ ha => hy.asScalar.bind fun _ _ hb => .ok (.cons (List.rel_append ha (.cons hb .nil)) .nil)
  | get i => exact hx.asVec.bind fun _ _ ha => (ha.idx i).bind fun _ _ hd => .ok (.cons hd .nil)
  | set i =>
    exact hx.asVec.bind fun _ _ ha => hy.asScalar.bind fun _ _ hb => (ha.setIdx i hb).bind fun _ _ hd => .ok (.cons hd .nil)
  | truncate n => exact hx.asVec.bind fun _ _ ha => .ok (.cons (List.forall₂_take n ha) .nil)
  | hasLength n => exact hx.asVec.bind fun _ _ ha => .ok (by rw [ha.length_eq]; rfl)

/-- C106: if a Euclidean domain follows another one, every program that uses the domain, its fractions, its residues, its divisibility
order, and vectors and polynomials over it does over the first what it does over the second, until a call over the first panics or does not
return. -/
theorem C106_follows (C : Client DomainCall) (hc : Cfg.Relaxes c₁ c₂) {A : @EuclideanDomainOps c₁ E} {B : @EuclideanDomainOps c₂ F}
    (h : FollowsEuclideanDomain r A B) (n : ℕ) {c : C.Q × (ℕ → Item E)} {d : C.Q × (ℕ → Item F)} (hcd : C.Rel (Item.Rel r) c d) :
    Follows (C.Rel (Item.Rel r)) (C.run (@DomainCall.table c₁ E A) false n c) (C.run (@DomainCall.table c₂ F B) false n d) :=
  C.run_follows (fun i _ _ _ _ ha hb => follows_domain hc h i ha hb) n hcd

theorem stops_reduce [Cfg] {A : EuclideanDomainOps E} (h : StopsEuclideanDomain A) (p : E × E) :
    Stops (ReducedFractions.reduce A p) := by
  unfold ReducedFractions.reduce; stops h

theorem stops_newFractions [Cfg] {A : EuclideanDomainOps E} (h : StopsEuclideanDomain A) : Stops (ReducedFractions.new A) := by
  unfold ReducedFractions.new; stops h

theorem stops_newResidues [Cfg] {A : EuclideanDomainOps E} (h : StopsEuclideanDomain A) (m : E) : Stops (QuotientRing.new A m) := by
  unfold QuotientRing.new; stops h

theorem stops_newResidueField [Cfg] {A : EuclideanDomainOps E} (h : StopsEuclideanDomain A) (m : E) :
    Stops (QuotientField.new A m) := by
  unfold QuotientField.new; stops h

theorem stops_domain [Cfg] {A : EuclideanDomainOps E} (h : StopsEuclideanDomain A) (i : DomainCall) (x y : Item E) :
    Stops (DomainCall.table A i x y) := by
  have hl := DivisibilityOrder.stops_lattice h
  cases i with
  | euclidean m =>
    exact x.stops_asScalar.bind fun _ => y.stops_asScalar.bind fun _ => (stops_euclidean_method h m _ _).bind fun _ => .pure _
  | zero => exact h.zero.bind fun _ => .pure _
  | one => exact h.one.bind fun _ => .pure _
  | int n => exact (h.int n).bind fun _ => .pure _
  | leq => exact x.stops_asScalar.bind fun _ => y.stops_asScalar.bind fun _ => (hl.leq _ _).bind fun _ => .pure _
  | lessThan => exact x.stops_asScalar.bind fun _ => y.stops_asScalar.bind fun _ => (hl.lessThan _ _).bind fun _ => .pure _
  | comparable => exact x.stops_asScalar.bind fun _ => y.stops_asScalar.bind fun _ => (hl.comparable _ _).bind fun _ => .pure _
  | meet => exact x.stops_asScalar.bind fun _ => y.stops_asScalar.bind fun _ => (hl.meet _ _).bind fun _ => .pure _
  | join => exact x.stops_asScalar.bind fun _ => y.stops_asScalar.bind fun _ => (hl.join _ _).bind fun _ => .pure _
  | newFractions => exact (stops_newFractions h).bind fun _ => .pure _
  | fraction m =>
    exact x.stops_asPair.bind fun _ => y.stops_asPair.bind fun _ =>
      (stops_field_method (ReducedFractions.stops_ops h) m _ _).bind fun _ => .pure _
  | reduce => exact x.stops_asPair.bind fun _ => (stops_reduce h _).bind fun _ => .pure _
  | makePair => exact x.stops_asScalar.bind fun _ => y.stops_asScalar.bind fun _ => .pure _
  | first => exact x.stops_asPair.bind fun _ => .pure _
  | second => exact x.stops_asPair.bind fun _ => .pure _
  | newResidues => exact x.stops_asScalar.bind fun _ => (stops_newResidues h _).bind fun _ => .pure _
  | residue m =>
    exact x.stops_asPair.bind fun _ => y.stops_asPair.bind fun _ =>
      (stops_ring_method (QuotientRing.stops_ops h _) m _ _).bind fun _ => .pure _
  | newResidueField => exact x.stops_asScalar.bind fun _ => (stops_newResidueField h _).bind fun _ => .pure _
  | residueField m =>
    exact x.stops_asPair.bind fun _ => y.stops_asPair.bind fun _ =>
      (stops_field_method (QuotientField.stops_ops h _) m _ _).bind fun _ => .pure _
  | vector len m =>
    exact x.stops_asVec.bind fun _ => y.stops_asVec.bind fun _ =>
      (stops_ring_method (VectorAlgebra.stops_unitaryRing len h.toStopsUnitaryRing) m _ _).bind fun _ => .pure _
  | polynomial m =>
    exact x.stops_asVec.bind fun _ => y.stops_asVec.bind fun _ =>
      (stops_ring_method (PolynomialAlgebra.stops_unitaryRing h.toStopsUnitaryRing) m _ _).bind fun _ => .pure _
  | polynomialTryDiv =>
    exact x.stops_asVec.bind fun _ => y.stops_asVec.bind fun _ =>
      (Stops.option ((PolynomialAlgebra.stops_integralDomain h.toStopsIntegralDomain).tryDiv _ _)).bind fun _ => .pure _
  | polynomialAssociate =>
    exact x.stops_asVec.bind fun _ =>
      ((PolynomialAlgebra.stops_integralDomain h.toStopsIntegralDomain).associateRepr _).bind fun _ => .pure _
  | empty => exact .ok _
  | push => exact x.stops_asVec.bind fun _ => y.stops_asScalar.bind fun _ => .pure _
  | get i => exact x.stops_asVec.bind fun _ => (Stops.idx _ _).bind fun _ => .pure _
  | set i =>
    exact x.stops_asVec.bind fun _ => y.stops_asScalar.bind fun _ => (Stops.setIdx _ _ _).bind fun _ => .pure _
  | truncate n => exact x.stops_asVec.bind fun _ => .pure _
  | hasLength n => exact x.stops_asVec.bind fun _ => .pure _

/-- C106: two Euclidean domains that follow each other and whose methods stop: every such program has the same outcome over both, whether it
catches panics or not. -/
theorem C106_alike (C : Client DomainCall) {r' : F → E → Prop} (hr : ∀ a b, r a b → r' b a) (hc : Cfg.Relaxes c₁ c₂)
    (hc' : Cfg.Relaxes c₂ c₁) {A : @EuclideanDomainOps c₁ E} {B : @EuclideanDomainOps c₂ F}
    (h : FollowsEuclideanDomain r A B) (h' : FollowsEuclideanDomain r' B A) (hA : @StopsEuclideanDomain c₁ E A)
    (hB : @StopsEuclideanDomain c₂ F B)
    (catching : Bool) (n : ℕ) {c : C.Q × (ℕ → Item E)} {d : C.Q × (ℕ → Item F)} (hcd : C.Rel (Item.Rel r) c d) :
    Alike (C.Rel (Item.Rel r)) (C.run (@DomainCall.table c₁ E A) catching n c) (C.run (@DomainCall.table c₂ F B) catching n d) :=
  C.run_alike (fun i x y x' y' ha hb => (follows_domain hc h i ha hb).alike
    (follows_domain hc' h' i (.flip hr _ _ ha) (.flip hr _ _ hb))
    (@stops_domain E c₁ A hA i x y) (@stops_domain F c₂ B hB i x' y')) catching n hcd

end follows

/-! ## Bases with state -/

section states

open _root_.Abstalg.Stateful (St Tracks Both TracksField TracksEuclideanDomain)

variable [Cfg] {σ E F : Type} {I : σ → Prop} {r : E → F → Prop}

theorem Item.Rel.tracks_scalar {x : Item E} {y : Item F} (h : Item.Rel r x y) : Tracks I r (liftM x.asScalar) y.asScalar := by
  cases x <;> cases y <;> first | exact h.elim | exact .lok h | exact .panic

theorem Item.Rel.tracks_pair {x : Item E} {y : Item F} (h : Item.Rel r x y) : Tracks I (PRel r) (liftM x.asPair) y.asPair := by
  cases x <;> cases y <;> first | exact h.elim | exact .lok h | exact .panic

theorem Item.Rel.tracks_vec {x : Item E} {y : Item F} (h : Item.Rel r x y) : Tracks I (LRel r) (liftM x.asVec) y.asVec := by
  cases x <;> cases y <;> first | exact h.elim | exact .lok h | exact .panic

theorem tracks_domain {A : Stateful.EuclideanDomainOps σ E} {B : EuclideanDomainOps F} (h : TracksEuclideanDomain I r A B)
    (i : DomainCall)
    {x y : Item E} {x' y' : Item F} (hx : Item.Rel r x x') (hy : Item.Rel r y y') :
    Tracks I (Reply.Rel (Item.Rel r)) (DomainCall.tableState A i x y) (DomainCall.table B i x' y') := by
  have hl := (C95_divisibility h).2
  cases i with
  | euclidean m =>
    exact hx.tracks_scalar.bind fun _ _ ha => hy.tracks_scalar.bind fun _ _ hb =>
      (tracks_euclidean_method h m ha hb).bind fun _ _ hr => .ok (reply_map_item (fun _ _ h => h) hr)
  | zero => exact h.zero.bind fun _ _ ha => .ok (.cons ha .nil)
  | one => exact h.one.bind fun _ _ ha => .ok (.cons ha .nil)
  | int n => exact (h.int n).bind fun _ _ ha => .ok (.cons ha .nil)
  | leq =>
    exact hx.tracks_scalar.bind fun _ _ ha => hy.tracks_scalar.bind fun _ _ hb => (hl.leq ha hb).bind fun _ _ hd => .ok hd
  | lessThan =>
    exact hx.tracks_scalar.bind fun _ _ ha => hy.tracks_scalar.bind fun _ _ hb => (hl.lessThan ha hb).bind fun _ _ hd => .ok hd
  | comparable =>
    exact hx.tracks_scalar.bind fun _ _ ha => hy.tracks_scalar.bind fun _ _ hb => (hl.comparable ha hb).bind fun _ _ hd => .ok hd
  | meet =>
    exact hx.tracks_scalar.bind fun _ _ ha => hy.tracks_scalar.bind fun _ _ hb => (hl.meet ha hb).bind fun _ _ hd =>
      .ok (.cons hd .nil)
  | join =>
    exact hx.tracks_scalar.bind fun _ _ ha => hy.tracks_scalar.bind fun _ _ hb => (hl.join ha hb).bind fun _ _ hd =>
      .ok (.cons hd .nil)
  | newFractions =>
    have hn : Tracks I (TracksField I (PRel r)) (Stateful.ReducedFractions.new A) (ReducedFractions.new B) :=
      Tracks.bind h.one fun _ _ h1 => Tracks.check (h.isZero h1) (.ok (C95_fractions h).1)
    exact hn.bind fun _ _ _ => .ok rfl
  | fraction m =>
    exact hx.tracks_pair.bind fun _ _ ha => hy.tracks_pair.bind fun _ _ hb =>
      (tracks_field_method (C95_fractions h).1 m ha hb).bind fun _ _ hr => .ok (reply_map_item (fun _ _ h => h) hr)
  | reduce =>
    exact hx.tracks_pair.bind fun _ _ ha => ((C95_fractions h).2 _ _ ha).bind fun _ _ hd => .ok (.cons hd .nil)
  | makePair => exact hx.tracks_scalar.bind fun _ _ ha => hy.tracks_scalar.bind fun _ _ hb => .ok (.cons ⟨ha, hb⟩ .nil)
  | first => exact hx.tracks_pair.bind fun _ _ ha => .ok (.cons ha.1 .nil)
  | second => exact hx.tracks_pair.bind fun _ _ ha => .ok (.cons ha.2 .nil)
  | newResidues =>
    exact hx.tracks_scalar.bind fun _ _ ha => (Tracks.bind (h.contains ha) fun _ _ hc => Tracks.bind (Tracks.assert hc)
      fun _ _ _ => .ok (C95_quotients h ha).1).bind fun _ _ _ => .ok rfl
  | residue m =>
    exact hx.tracks_pair.bind fun _ _ ha => hy.tracks_pair.bind fun _ _ hb =>
      (tracks_ring_method (C95_quotients h ha.1).1 m ha.2 hb.2).bind fun _ _ hr =>
        .ok (reply_residue ha.1 hr)
  | newResidueField =>
    exact hx.tracks_scalar.bind fun _ _ ha => (Tracks.bind (h.contains ha) fun _ _ hc => Tracks.bind (Tracks.assert hc)
      fun _ _ _ => Tracks.bind h.one fun _ _ h1 => Tracks.bind (h.rem h1 h1) fun _ _ hr => Tracks.bind (h.isZero hr) fun _ _ hz =>
        Tracks.bind (Tracks.assert hz) fun _ _ _ => .ok (C95_quotients h ha).2).bind fun _ _ _ => .ok rfl
  | residueField m =>
    exact hx.tracks_pair.bind fun _ _ ha => hy.tracks_pair.bind fun _ _ hb =>
      (tracks_field_method (C95_quotients h ha.1).2 m ha.2 hb.2).bind fun _ _ hr =>
        .ok (reply_residue ha.1 hr)
  | vector len m =>
    exact hx.tracks_vec.bind fun _ _ ha => hy.tracks_vec.bind fun _ _ hb =>
      (tracks_ring_method (C95_vector_unitary_ring len h.toTracksUnitaryRing) m ha hb).bind fun _ _ hr =>
        .ok (reply_map_item (fun _ _ h => h) hr)
  | polynomial m =>
    exact hx.tracks_vec.bind fun _ _ ha => hy.tracks_vec.bind fun _ _ hb =>
      (tracks_ring_method (C95_poly_unitary_ring h.toTracksUnitaryRing) m ha hb).bind fun _ _ hr =>
        .ok (reply_map_item (fun _ _ h => h) hr)
  | polynomialTryDiv =>
    exact hx.tracks_vec.bind fun _ _ ha => hy.tracks_vec.bind fun _ _ hb =>
      (tracks_option ((C95_poly_integral_domain h.toTracksIntegralDomain).tryDiv ha hb)).bind fun _ _ hr =>
        .ok (reply_map_item (fun _ _ h => h) hr)
  | polynomialAssociate =>
    exact hx.tracks_vec.bind fun _ _ ha => ((C95_poly_integral_domain h.toTracksIntegralDomain).associateRepr ha).bind
      fun _ _ hd => .ok (.cons hd .nil)
  | empty => exact .ok (.cons .nil .nil)
  | push =>
    exact hx.tracks_vec.bind fun _ _ ha => hy.tracks_scalar.bind fun _ _ hb =>
      .ok (.cons (List.rel_append ha (.cons hb .nil)) .nil)
  | get i => exact hx.tracks_vec.bind fun _ _ ha => (Both.idx ha i).tracks.bind fun _ _ hd => .ok (.cons hd .nil)
  | set i =>
    exact hx.tracks_vec.bind fun _ _ ha => hy.tracks_scalar.bind fun _ _ hb =>
      (Both.setIdx ha i hb).tracks.bind fun _ _ hd => .ok (.cons hd .nil)
  | truncate n => exact hx.tracks_vec.bind fun _ _ ha => .ok (.cons (List.forall₂_take n ha) .nil)
  | hasLength n => exact hx.tracks_vec.bind fun _ _ ha => .ok (by rw [ha.length_eq]; rfl)

/-- C106: over a Euclidean domain with state that tracks a domain, every such program does what it does over the domain, panics being
caught. -/
theorem C106_states (C : Client DomainCall) {A : Stateful.EuclideanDomainOps σ E} {B : EuclideanDomainOps F}
    (h : TracksEuclideanDomain I r A B) (n : ℕ)
    {c : C.Q × (ℕ → Item E)} {d : C.Q × (ℕ → Item F)} (hcd : C.Rel (Item.Rel r) c d) :
    Tracks I (C.Rel (Item.Rel r)) (C.runState (DomainCall.tableState A) n c) (C.run (DomainCall.table B) true n d) :=
  C.run_tracks (fun i _ _ _ _ ha hb => tracks_domain h i ha hb) n hcd

end states

/-! ## Domains of the crate -/

section crate

variable [Cfg] (w : ℕ) [Width w]

/-- C106: over the machine integers of a width such a program does what it does over the integers with checks, and panics where it panics
over these. -/
theorem C106_machine_integers (C : Client DomainCall) (catching : Bool) (n : ℕ)
    {c : C.Q × (ℕ → Item (SInt w))} {d : C.Q × (ℕ → Item ℤ)} (hcd : C.Rel (Item.Rel (SRep w)) c d) :
    Alike (C.Rel (Item.Rel (SRep w))) (C.run (DomainCall.table (CheckedInts.euclidean w)) catching n c)
      (C.run (DomainCall.table (Guarded.euclidean w)) catching n d) :=
  C106_alike C (denoted w) (.refl _) (.refl _) (C103_integers w).1 (C103_integers w).2 (CheckedInts.stops_euclidean w)
    (C103_stops w) catching n hcd

/-- C106: a program over machine integers that does not panic does what it does over `ZZ`. -/
theorem C106_integers (C : Client DomainCall) (n : ℕ) {c : C.Q × (ℕ → Item (SInt w))} {d : C.Q × (ℕ → Item ℤ)}
    (hcd : C.Rel (Item.Rel (SRep w)) c d) {c' : C.Q × (ℕ → Item (SInt w))}
    (hc : C.run (DomainCall.table (CheckedInts.euclidean w)) false n c = .ok c') :
    ∃ d', C.run (DomainCall.table Integers.euclidean) false n d = .ok d' ∧ C.Rel (Item.Rel (SRep w)) c' d' :=
  C106_follows C (.refl _) (C68_integers w) n hcd c' hc

omit [Cfg] [Width w] in
/-- C106: such a program over `ZZ` that does not panic with all checks does the same without them. -/
theorem C106_builds {c₁ c₂ : Cfg} (hc : Cfg.Relaxes c₁ c₂) (C : Client DomainCall) (n : ℕ) {c d}
    (h : C.run (@DomainCall.table c₁ _ (@Integers.euclidean c₁)) false n c = .ok d) :
    C.run (@DomainCall.table c₂ _ (@Integers.euclidean c₂)) false n c = .ok d := by
  obtain ⟨e, h1, h2, h3⟩ := C106_follows C hc (C69_integers c₁ c₂) n (c := c) (d := c) ⟨rfl, fun _ => by rw [Item.rel_eq]⟩ _ h
  rw [Item.rel_eq] at h3
  rw [h1, show d = e from Prod.ext h2 (funext h3)]

/-- C106: such programs over the polynomials over a field, hence with rational functions and residues of polynomials, over two
implementations of the field. -/
theorem C106_polynomials (C : Client DomainCall) {E F : Type} {r : E → F → Prop} {A : FieldOps E} {B : FieldOps F}
    (h : FollowsField r A B) (n : ℕ) {c : C.Q × (ℕ → Item (List E))} {d : C.Q × (ℕ → Item (List F))}
    (hcd : C.Rel (Item.Rel (LRel r)) c d) :
    Follows (C.Rel (Item.Rel (LRel r))) (C.run (DomainCall.table (PolynomialAlgebra.euclidean A)) false n c)
      (C.run (DomainCall.table (PolynomialAlgebra.euclidean B)) false n d) :=
  C106_follows C (.refl _) (C67_polynomials_euclidean h) n hcd

/-- C106: such a program cannot tell a domain from the same domain with a memory or with a counter of its calls. -/
theorem C106_same_domain (C : Client DomainCall) {σ E : Type} {I : σ → Prop} {A : Stateful.EuclideanDomainOps σ E}
    {B : EuclideanDomainOps E} (h : Stateful.TracksEuclideanDomain I Eq A B) (n : ℕ) {c c' : C.Q × (ℕ → Item E)}
    (hc : C.run (DomainCall.table B) true n c = .ok c') {s : σ} (hs : I s) :
    ∃ t, C.runState (DomainCall.tableState A) n c s = .ok c' t ∧ I t := by
  have := C106_states C h n (c := c) (d := c) ⟨rfl, fun _ => by rw [Item.rel_eq]⟩ s hs
  rw [hc, Item.rel_eq] at this
  revert this
  cases C.runState (DomainCall.tableState A) n c s with
  | ok d t =>
    rintro ⟨⟨h1, h2⟩, h3⟩
    exact ⟨t, by rw [show d = c' from Prod.ext h1 (funext h2)], h3⟩
  | panic => exact fun h => h.elim
  | diverge => exact fun h => h.elim

end crate

/-! ## Concrete cases -/

namespace DomainWorkspaceExamples

local instance : Cfg := ⟨true, true, 64, by decide⟩

/-- 2 and 3 from the constants, 6 = 2 · 3, the fraction 3 / 6 reduced, its denominator as a modulus with the residue of 3, 6 squared
twice, and an attempt to take the numerator of an integer. -/
def reducer : Client DomainCall where
  Q := ℕ
  act
    | 0 => some (.int 2, 0, 0, 0)
    | 1 => some (.int 3, 0, 0, 1)
    | 2 => some (.euclidean (.ring .mul), 0, 1, 2)
    | 3 => some (.makePair, 1, 2, 3)
    | 4 => some (.reduce, 3, 3, 3)
    | 5 => some (.second, 3, 3, 4)
    | 6 => some (.makePair, 4, 0, 5)
    | 7 => some (.residue (.isZero), 5, 5, 5)
    | 8 => some (.residue (.one), 5, 5, 6)
    | 9 => some (.residue (.add), 6, 6, 7)
    | 10 | 11 => some (.euclidean (.ring .square), 2, 2, 2)
    | 12 => some (.first, 2, 2, 8)
    | _ => none
  next q s := match s with
    | .panicked => q + 100
    | _ => q + 1

theorem gcd_guarded : (Guarded.euclidean 8).gcd 3 6 = .ok 3 := by
  show gcdDefault _ _ _ _ = _
  have h0 : gcdDefault (Guarded.euclidean 8).isZero (Guarded.euclidean 8).rem 3 0 = .ok 3 := by rw [gcdDefault]; rfl
  have h1 : gcdDefault (Guarded.euclidean 8).isZero (Guarded.euclidean 8).rem 6 3 = .ok 3 := by rw [gcdDefault]; exact h0
  rw [gcdDefault]
  exact h1

theorem run_succ (C : Client DomainCall) {E : Type} {T : DomainCall → Item E → Item E → Res (Reply (Item E))} {b : Bool} {n : ℕ}
    {c : C.Q × (ℕ → Item E)} {i : DomainCall} {x y k : ℕ} {s : Reply (Item E)} (h1 : C.act c.1 = some (i, x, y, k))
    (h2 : T i (c.2 x) (c.2 y) = .ok s) : C.run T b (n + 1) c = C.run T b n (C.next c.1 s.seen, store c.2 k s.list) := by
  show (do C.run T b n (← C.step T b c)) = _
  unfold Client.step
  rw [h1]
  dsimp only
  rw [h2]
  rfl

theorem reduce_half (y : Item ℤ) :
    DomainCall.table (Guarded.euclidean 8) .reduce (.pair (3, 6)) y = .ok (.elements [.pair (1, 2)]) := by
  show ((Guarded.euclidean 8).gcd 3 6 >>= fun g => (Guarded.euclidean 8).quo 3 g >>= fun n => (Guarded.euclidean 8).quo 6 g >>= fun d =>
    (Guarded.euclidean 8).associateCoef d >>= fun c => (Guarded.euclidean 8).isOne c >>= fun b =>
      if (!b) = true then (Guarded.euclidean 8).mul n c >>= fun x => (Guarded.euclidean 8).mul d c >>= fun y => pure (x, y)
      else pure (n, d)) >>= (fun p => pure (Reply.elements [Item.pair p])) = _
  rw [gcd_guarded]
  rfl

theorem run_reducer : ∃ f, reducer.run (DomainCall.table (Guarded.euclidean 8)) true 14 ((0 : ℕ), fun _ => .scalar 0) =
      .ok ((111 : ℕ), f) ∧ f 2 = .scalar 36 ∧ f 3 = .pair (1, 2) ∧ f 7 = .pair (2, 0) := by
  rw [run_succ reducer (i := .int 2) rfl rfl, run_succ reducer (i := .int 3) rfl rfl,
    run_succ reducer (i := .euclidean (.ring .mul)) rfl rfl, run_succ reducer (i := .makePair) rfl rfl,
    run_succ reducer (i := .reduce) rfl (reduce_half _)]
  exact ⟨_, rfl, rfl, rfl, rfl⟩

-- over the integers of 8 bits with checks 36 squared is out of range: the program goes on in the state 111 with 36 in the register 2, and
-- so it does over `i8`
example : ∃ f : ℕ → Item (SInt 8), reducer.run (DomainCall.table (CheckedInts.euclidean 8)) true 14
      ((0 : ℕ), fun _ => .scalar (SInt.lit 0 (by decide))) = .ok ((111 : ℕ), f) ∧
    Item.Rel (SRep 8) (f 2) (.scalar 36) ∧ Item.Rel (SRep 8) (f 3) (.pair (1, 2)) := by
  have h := C106_machine_integers 8 reducer true 14
    (c := ((0 : ℕ), fun _ => .scalar (SInt.lit 0 (by decide)))) (d := ((0 : ℕ), fun _ => .scalar 0)) ⟨rfl, fun _ => rfl⟩
  obtain ⟨f, h1, h2, h3, _⟩ := run_reducer
  rw [h1] at h
  generalize reducer.run (DomainCall.table (CheckedInts.euclidean 8)) true 14 _ = x at h
  cases h with
  | ok h =>
    rename_i c
    obtain ⟨q, g⟩ := c
    obtain ⟨h4, h5⟩ := h
    replace h4 : q = (111 : ℕ) := h4
    subst h4
    exact ⟨g, rfl, h2 ▸ h5 2, h3 ▸ h5 3⟩

-- a product of a number and a pair panics in the model, where Rust does not compile
example : DomainCall.table Integers.euclidean (.euclidean (.ring .mul)) (.scalar 2) (.pair (1, 2)) = .panic := rfl

end DomainWorkspaceExamples

end Abstalg
