import Verif.Proofs.Clients
import Verif.Props.Simulation
import Verif.Props.Stateful
import Verif.Props.Quotient
import Verif.Props.Groups
import Verif.Props.Permutations
import Verif.Spec.Agreement

/-! # C97: programs cannot tell implementations of the same structure apart -/

set_option autoImplicit false

set_option linter.unusedSectionVars false

universe u

namespace Abstalg

section replies

open scoped Classical

variable {E : Type} {R : Type u} {mp : Prop} {rep : E → R → Prop}

theorem answer_rel {c : Res Bool} {p : Prop} (h : Decides mp c p) :
    Returns mp (c.answer : Res (Reply E)) fun e => match (holds p : Option (Reply R)) with
      | some r => Reply.Rel rep e r
      | none => False := by
  cases c with
  | ok b =>
    show b = _
    by_cases hp : p
    · rw [decide_eq_true hp]; exact h.2 hp
    · rw [decide_eq_false hp]; exact Bool.eq_false_iff.2 fun hb => hp (h.1 hb)
  | panic => exact h
  | diverge => exact h

theorem element_rel {c : Res E} {x : R} (h : Returns mp c (rep · x)) :
    Returns mp c.element (Reply.Rel rep · (.elements [x])) := by
  cases c with
  | ok b => exact .cons h .nil
  | panic => exact h
  | diverge => exact h

theorem option_rel {c : Res (Option E)} {o : Option R}
    (h : Returns mp c fun b => Option.Rel rep b o) :
    Returns mp c.option (Reply.Rel rep · (o.elim .missing fun x => .elements [x])) := by
  cases c with
  | ok b =>
    change Option.Rel rep b o at h
    cases h with
    | some h => exact .cons h .nil
    | none => trivial
  | panic => exact h
  | diverge => exact h

end replies

section

variable [Cfg] {ι : Type} (C : Client ι) {E F : Type} {R : Type u} {mp : Prop} {rep : E → R → Prop}

/-! ## Runs of a client -/

/-- C97: over an implementation with a contract that forbids panics a client does what it would do with the elements themselves, for any
number of steps, panics being caught: they happen exactly where the mathematics has no result. -/
theorem C97_caught {P : ι → Prop} {T : ι → E → E → Res (Reply E)} {M : ι → R → R → Option (Reply R)}
    (h : Computes False P rep T M) (hC : C.Only P) (n : ℕ) {c : C.Q × (ℕ → E)} {x : C.Q × (ℕ → R)} (hc : C.Rel rep c x) :
    ∃ c', C.run T true n c = .ok c' ∧ C.Rel rep c' (C.idealRun M n x) := C.run_caught h hC n hc

/-- C97: if the contract allows panics the client does the same until the first panic, and no call runs forever. -/
theorem C97_uncaught {P : ι → Prop} {T : ι → E → E → Res (Reply E)} {M : ι → R → R → Option (Reply R)}
    (h : Computes mp P rep T M) (hC : C.Only P) (n : ℕ) {c : C.Q × (ℕ → E)} {x : C.Q × (ℕ → R)} (hc : C.Rel rep c x) :
    Returns True (C.run T false n c) (C.Rel rep · (C.idealRun M n x)) := C.run_strict h hC n hc

/-- C97: two implementations of the same structure: the client remembers the same after any number of steps, and its registers stand for
the same elements. -/
theorem C97_indistinguishable {rep' : F → R → Prop} {P : ι → Prop} {T : ι → E → E → Res (Reply E)}
    {T' : ι → F → F → Res (Reply F)} {M : ι → R → R → Option (Reply R)} (h : Computes False P rep T M)
    (h' : Computes False P rep' T' M) (hC : C.Only P) (n : ℕ) {q : C.Q} {f : ℕ → E} {g : ℕ → F}
    (hfg : ∀ i, Same rep rep' (f i) (g i)) :
    ∃ q' f' g', C.run T true n (q, f) = .ok (q', f') ∧ C.run T' true n (q, g) = .ok (q', g') ∧
      ∀ i, Same rep rep' (f' i) (g' i) := by
  choose x hx using hfg
  obtain ⟨⟨q₁, f'⟩, h1, hq1, hr1⟩ := C97_caught C h hC n (c := (q, f)) (x := (q, x)) ⟨rfl, fun i => (hx i).1⟩
  obtain ⟨⟨q₂, g'⟩, h2, hq2, hr2⟩ := C97_caught C h' hC n (c := (q, g)) (x := (q, x)) ⟨rfl, fun i => (hx i).2⟩
  cases hq1.trans hq2.symm
  exact ⟨q₁, f', g', h1, h2, fun i => ⟨_, hr1 i, hr2 i⟩⟩

/-! ## The traits -/

open scoped Classical

/-- C97: rings. -/
theorem C97_rings [Ring R] {A : UnitaryRingOps E} (h : UnitaryRingSpec mp A rep) :
    Computes mp RingMethod.Fits rep (RingMethod.table A) RingMethod.meaning := by
  intro i hi a b x y ha hb
  cases i with
  | contains => exact answer_rel ((h.contains ha).mono fun _ h => ⟨fun _ => trivial, fun _ => h⟩)
  | equals => exact answer_rel (h.equals ha hb)
  | mul => exact element_rel (h.mul ha hb)
  | mulAssign => exact element_rel (h.mulAssign ha hb)
  | square => exact element_rel (h.square ha)
  | one => exact element_rel h.one
  | isOne => exact answer_rel (h.isOne ha)
  | tryInv =>
    have := h.tryInv ha
    by_cases hx : IsUnit x
    · show match (if IsUnit x then element (Ring.inverse x) else some .missing : Option (Reply R)) with | some r => _ | none => _
      rw [if_pos hx]
      refine option_rel (o := some (Ring.inverse x)) (this.mono fun o ho => ?_)
      cases o with
      | none => exact absurd hx ho
      | some b =>
        obtain ⟨y, hb, h1, h2⟩ := ho
        have : Ring.inverse x = y := by
          have := Ring.inverse_unit (⟨x, y, h1, h2⟩ : Rˣ)
          exact this
        rw [this]; exact .some hb
    · show match (if IsUnit x then element (Ring.inverse x) else some .missing : Option (Reply R)) with | some r => _ | none => _
      rw [if_neg hx]
      refine option_rel (o := none) (this.mono fun o ho => ?_)
      cases o with
      | none => exact .none
      | some b =>
        obtain ⟨y, hb, h1, h2⟩ := ho
        exact absurd ⟨⟨x, y, h1, h2⟩, rfl⟩ hx
  | invertible => exact answer_rel (h.invertible ha)
  | zero => exact element_rel h.zero
  | isZero => exact answer_rel (h.isZero ha)
  | add => exact element_rel (h.add ha hb)
  | addAssign => exact element_rel (h.addAssign ha hb)
  | double => exact element_rel (h.double ha)
  | utimes n => exact element_rel (h.utimes n ha)
  | neg => exact element_rel (h.neg ha)
  | negAssign => exact element_rel (h.negAssign ha)
  | sub => exact element_rel (h.sub ha hb)
  | subAssign => exact element_rel (h.subAssign ha hb)
  | times n => exact element_rel (h.times n hi ha)
  | int n => exact element_rel (h.int n hi)

/-- C97: fields. -/
theorem C97_fields [Field R] {A : FieldOps E} (h : FieldSpec mp A rep) :
    Computes mp FieldMethod.Fits rep (FieldMethod.table A) FieldMethod.meaning := by
  intro i hi a b x y ha hb
  cases i with
  | ring m => exact C97_rings h.toUnitaryRingSpec m hi a b x y ha hb
  | inv =>
    show match (if x = 0 then none else element x⁻¹ : Option (Reply R)) with | some r => _ | none => _
    by_cases hx : x = 0
    · subst hx
      rw [if_pos rfl]
      show (A.inv a).element = _
      rw [show A.inv a = .panic from h.inv_zero ha]; rfl
    · rw [if_neg hx]; exact element_rel (h.inv ha hx)
  | div =>
    show match (if y = 0 then none else element (x / y) : Option (Reply R)) with | some r => _ | none => _
    by_cases hy : y = 0
    · subst hy
      rw [if_pos rfl]
      show (A.div a b).element = _
      rw [show A.div a b = .panic from h.div_zero ha hb]; rfl
    · rw [if_neg hy]; exact element_rel (h.div ha hb hy)
  | power n =>
    show Returns mp (A.power n a).element (Reply.Rel rep · (.elements [if x = 0 then 0 else x ^ n]))
    by_cases hx : x = 0
    · subst hx
      rw [if_pos rfl]; exact element_rel (h.power_zero n ha)
    · rw [if_neg hx]; exact element_rel (h.power n hi ha hx)

/-- C97: groups. -/
theorem C97_groups [Group R] {A : GroupOps E} (h : GroupSpec mp A rep) :
    Computes mp GroupMethod.Fits rep (GroupMethod.table A) GroupMethod.meaning := by
  intro i hi a b x y ha hb
  cases i with
  | contains => exact answer_rel ((h.contains ha).mono fun _ h => ⟨fun _ => trivial, fun _ => h⟩)
  | equals => exact answer_rel (h.equals ha hb)
  | mul => exact element_rel (h.mul ha hb)
  | mulAssign => exact element_rel (h.mulAssign ha hb)
  | square => exact element_rel (h.square ha)
  | one => exact element_rel h.one
  | isOne => exact answer_rel (h.isOne ha)
  | tryInv =>
    refine option_rel (o := some x⁻¹) ((h.tryInv ha).mono fun o ho => ?_)
    cases o with
    | none => exact absurd (Group.isUnit x) ho
    | some b =>
      obtain ⟨y, hb, h1, h2⟩ := ho
      rw [inv_eq_of_mul_eq_one_right h1]; exact .some hb
  | invertible =>
    exact answer_rel ((h.invertible ha).mono fun _ h => ⟨fun _ => trivial, fun _ => h.2 (Group.isUnit x)⟩)
  | inv => exact element_rel (h.inv ha)
  | power n => exact element_rel (h.power n hi ha)

/-- C97: boolean algebras. -/
theorem C97_boolean_algebras [BooleanAlgebra R] {A : BooleanAlgebraOps E} (h : BooleanAlgebraSpec mp A rep) :
    Computes mp (fun _ => True) rep (LatticeMethod.table A) LatticeMethod.meaning := by
  intro i hi a b x y ha hb
  cases i with
  | contains => exact answer_rel ((h.contains ha).mono fun _ h => ⟨fun _ => trivial, fun _ => h⟩)
  | equals => exact answer_rel (h.equals ha hb)
  | leq => exact answer_rel (h.leq ha hb)
  | lessThan => exact answer_rel (h.lessThan ha hb)
  | comparable => exact answer_rel (h.comparable ha hb)
  | meet => exact element_rel ((h.meet ha hb).mono fun c ⟨z, hc, hz⟩ => hz.unique isGLB_pair ▸ hc)
  | join => exact element_rel ((h.join ha hb).mono fun c ⟨z, hc, hz⟩ => hz.unique isLUB_pair ▸ hc)
  | max => exact element_rel (h.max.mono fun c ⟨z, hc, hz⟩ => top_le_iff.1 (hz ⊤) ▸ hc)
  | min => exact element_rel (h.min.mono fun c ⟨z, hc, hz⟩ => le_bot_iff.1 (hz ⊥) ▸ hc)
  | not => exact element_rel (h.not ha)

end


/-! ## One implementation that does what another does -/

section follows

variable {E F : Type} {r : E → F → Prop}

theorem follows_answer {c d : Res Bool} (h : Follows Eq c d) :
    Follows (Reply.Rel r) (c.answer : Res (Reply E)) (d.answer : Res (Reply F)) := by
  intro x hx
  cases c with
  | ok b =>
    cases hx
    obtain ⟨_, rfl, rfl⟩ := h _ rfl
    exact ⟨_, rfl, rfl⟩
  | panic => cases hx
  | diverge => cases hx

theorem follows_element {c : Res E} {d : Res F} (h : Follows r c d) : Follows (Reply.Rel r) c.element d.element := by
  intro x hx
  cases c with
  | ok b =>
    cases hx
    obtain ⟨_, rfl, hr⟩ := h _ rfl
    exact ⟨_, rfl, .cons hr .nil⟩
  | panic => cases hx
  | diverge => cases hx

theorem follows_option {c : Res (Option E)} {d : Res (Option F)} (h : Follows (Option.Rel r) c d) :
    Follows (Reply.Rel r) c.option d.option := by
  intro x hx
  cases c with
  | ok b =>
    obtain ⟨_, rfl, hr⟩ := h _ rfl
    cases hr with
    | some hr => cases hx; exact ⟨_, rfl, .cons hr .nil⟩
    | none => cases hx; exact ⟨_, rfl, trivial⟩
  | panic => cases hx
  | diverge => cases hx

theorem follows_pair {c : Res (E × E)} {d : Res (F × F)} (h : Follows (fun p q => r p.1 q.1 ∧ r p.2 q.2) c d) :
    Follows (Reply.Rel r) (do let p ← c; return .elements [p.1, p.2]) (do let p ← d; return .elements [p.1, p.2]) := by
  intro x hx
  cases c with
  | ok b =>
    cases hx
    obtain ⟨_, rfl, h1, h2⟩ := h _ rfl
    exact ⟨_, rfl, .cons h1 (.cons h2 .nil)⟩
  | panic => cases hx
  | diverge => cases hx

theorem follows_triple {c : Res (E × E × E)} {d : Res (F × F × F)}
    (h : Follows (fun p q => r p.1 q.1 ∧ r p.2.1 q.2.1 ∧ r p.2.2 q.2.2) c d) :
    Follows (Reply.Rel r) (do let p ← c; return .elements [p.1, p.2.1, p.2.2])
      (do let p ← d; return .elements [p.1, p.2.1, p.2.2]) := by
  intro x hx
  cases c with
  | ok b =>
    cases hx
    obtain ⟨_, rfl, h1, h2, h3⟩ := h _ rfl
    exact ⟨_, rfl, .cons h1 (.cons h2 (.cons h3 .nil))⟩
  | panic => cases hx
  | diverge => cases hx

variable {c₁ c₂ : Cfg}

theorem follows_ring_method {A : @UnitaryRingOps c₁ E} {B : @UnitaryRingOps c₂ F} (h : FollowsUnitaryRing r A B) (i : RingMethod)
    {a b : E} {a' b' : F} (ha : r a a') (hb : r b b') :
    Follows (Reply.Rel r) (@RingMethod.table c₁ E A i a b) (@RingMethod.table c₂ F B i a' b') := by
  cases i with
  | contains => exact follows_answer (h.contains ha)
  | equals => exact follows_answer (h.equals ha hb)
  | mul => exact follows_element (h.mul ha hb)
  | mulAssign => exact follows_element (h.mulAssign ha hb)
  | square => exact follows_element (h.square ha)
  | one => exact follows_element h.one
  | isOne => exact follows_answer (h.isOne ha)
  | tryInv => exact follows_option (h.tryInv ha)
  | invertible => exact follows_answer (h.invertible ha)
  | zero => exact follows_element h.zero
  | isZero => exact follows_answer (h.isZero ha)
  | add => exact follows_element (h.add ha hb)
  | addAssign => exact follows_element (h.addAssign ha hb)
  | double => exact follows_element (h.double ha)
  | utimes n => exact follows_element (h.utimes n ha)
  | neg => exact follows_element (h.neg ha)
  | negAssign => exact follows_element (h.negAssign ha)
  | sub => exact follows_element (h.sub ha hb)
  | subAssign => exact follows_element (h.subAssign ha hb)
  | times n => exact follows_element (h.times n ha)
  | int n => exact follows_element (h.int n)

/-- C97: if one implementation of a ring does what another does whenever it returns, a client over the first that runs into no panic does
the same over the second. -/
theorem C97_follows_rings (C : Client RingMethod) {A : @UnitaryRingOps c₁ E} {B : @UnitaryRingOps c₂ F} (h : FollowsUnitaryRing r A B)
    (n : ℕ) {c : C.Q × (ℕ → E)} {d : C.Q × (ℕ → F)} (hc : C.Rel r c d) :
    Follows (C.Rel r) (C.run (@RingMethod.table c₁ E A) false n c) (C.run (@RingMethod.table c₂ F B) false n d) :=
  C.run_follows (fun i _ _ _ _ ha hb => follows_ring_method h i ha hb) n hc

/-- C97: fields. -/
theorem C97_follows_fields (C : Client FieldMethod) {A : @FieldOps c₁ E} {B : @FieldOps c₂ F} (h : FollowsField r A B)
    (n : ℕ) {c : C.Q × (ℕ → E)} {d : C.Q × (ℕ → F)} (hc : C.Rel r c d) :
    Follows (C.Rel r) (C.run (@FieldMethod.table c₁ E A) false n c) (C.run (@FieldMethod.table c₂ F B) false n d) := by
  refine C.run_follows (fun i a b a' b' ha hb => ?_) n hc
  cases i with
  | ring m => exact follows_ring_method h.toFollowsUnitaryRing m ha hb
  | inv => exact follows_element (h.inv ha)
  | div => exact follows_element (h.div ha hb)
  | power n => exact follows_element (h.power n ha)

/-- C97: Euclidean domains, with their divisions and greatest common divisors. -/
theorem C97_follows_euclidean (C : Client EuclideanMethod) {A : @EuclideanDomainOps c₁ E} {B : @EuclideanDomainOps c₂ F} (h : FollowsEuclideanDomain r A B)
    (n : ℕ) {c : C.Q × (ℕ → E)} {d : C.Q × (ℕ → F)} (hc : C.Rel r c d) :
    Follows (C.Rel r) (C.run (@EuclideanMethod.table c₁ E A) false n c) (C.run (@EuclideanMethod.table c₂ F B) false n d) := by
  refine C.run_follows (fun i a b a' b' ha hb => ?_) n hc
  cases i with
  | ring m => exact follows_ring_method h.toFollowsUnitaryRing m ha hb
  | tryDiv => exact follows_option (h.tryDiv ha hb)
  | divisible => exact follows_answer (h.divisible ha hb)
  | associates => exact follows_answer (h.associates ha hb)
  | associateRepr => exact follows_element (h.associateRepr ha)
  | associateCoef => exact follows_element (h.associateCoef ha)
  | quoRem => exact follows_pair (h.quoRem ha hb)
  | quo => exact follows_element (h.quo ha hb)
  | rem => exact follows_element (h.rem ha hb)
  | reduced => exact follows_answer (h.reduced ha hb)
  | gcd => exact follows_element (h.gcd ha hb)
  | lcm => exact follows_element (h.lcm ha hb)
  | extendedGcd => exact follows_triple (h.extendedGcd ha hb)
  | relativePrimes => exact follows_answer (h.relativePrimes ha hb)

/-- C97: groups. -/
theorem C97_follows_groups (C : Client GroupMethod) {A : @GroupOps c₁ E} {B : @GroupOps c₂ F} (h : FollowsGroup r A B)
    (n : ℕ) {c : C.Q × (ℕ → E)} {d : C.Q × (ℕ → F)} (hc : C.Rel r c d) :
    Follows (C.Rel r) (C.run (@GroupMethod.table c₁ E A) false n c) (C.run (@GroupMethod.table c₂ F B) false n d) := by
  refine C.run_follows (fun i a b a' b' ha hb => ?_) n hc
  cases i with
  | contains => exact follows_answer (h.contains ha)
  | equals => exact follows_answer (h.equals ha hb)
  | mul => exact follows_element (h.mul ha hb)
  | mulAssign => exact follows_element (h.mulAssign ha hb)
  | square => exact follows_element (h.square ha)
  | one => exact follows_element h.one
  | isOne => exact follows_answer (h.isOne ha)
  | tryInv => exact follows_option (h.tryInv ha)
  | invertible => exact follows_answer (h.invertible ha)
  | inv => exact follows_element (h.inv ha)
  | power n => exact follows_element (h.power n ha)

/-- C97: boolean algebras. -/
theorem C97_follows_boolean_algebras (C : Client LatticeMethod) {A : BooleanAlgebraOps E} {B : BooleanAlgebraOps F} (h : FollowsBooleanAlgebra r A B)
    (n : ℕ) {c : C.Q × (ℕ → E)} {d : C.Q × (ℕ → F)} (hc : C.Rel r c d) :
    Follows (C.Rel r) (C.run (LatticeMethod.table A) false n c) (C.run (LatticeMethod.table B) false n d) := by
  refine C.run_follows (fun i a b a' b' ha hb => ?_) n hc
  cases i with
  | contains => exact follows_answer (h.contains ha)
  | equals => exact follows_answer (h.equals ha hb)
  | leq => exact follows_answer (h.leq ha hb)
  | lessThan => exact follows_answer (h.lessThan ha hb)
  | comparable => exact follows_answer (h.comparable ha hb)
  | meet => exact follows_element (h.meet ha hb)
  | join => exact follows_element (h.join ha hb)
  | max => exact follows_element h.max
  | min => exact follows_element h.min
  | not => exact follows_element (h.not ha)

end follows

/-! ## Bases with state -/

section states

open _root_.Abstalg.Stateful (St Tracks TracksUnitaryRing TracksField TracksEuclideanDomain TracksGroup TracksBooleanAlgebra)

variable [Cfg] {σ E F : Type} {I : σ → Prop} {r : E → F → Prop}

theorem tracks_answer {c : St σ Bool} {d : Res Bool} (h : Tracks I Eq c d) :
    Tracks I (Reply.Rel r) (c.answer : St σ (Reply E)) (d.answer : Res (Reply F)) :=
  h.bind fun _ _ h => .ok h

theorem tracks_element {c : St σ E} {d : Res F} (h : Tracks I r c d) : Tracks I (Reply.Rel r) c.element d.element :=
  h.bind fun _ _ h => .ok (.cons h .nil)

theorem tracks_option {c : St σ (Option E)} {d : Res (Option F)} (h : Tracks I (Option.Rel r) c d) :
    Tracks I (Reply.Rel r) c.option d.option :=
  h.bind fun _ _ h => by
    cases h with
    | some h => exact .ok (.cons h .nil)
    | none => exact .ok trivial

theorem tracks_pair {c : St σ (E × E)} {d : Res (F × F)} (h : Tracks I (fun p q => r p.1 q.1 ∧ r p.2 q.2) c d) :
    Tracks I (Reply.Rel r) (do let p ← c; return .elements [p.1, p.2]) (do let p ← d; return .elements [p.1, p.2]) :=
  h.bind fun _ _ h => .ok (.cons h.1 (.cons h.2 .nil))

theorem tracks_triple {c : St σ (E × E × E)} {d : Res (F × F × F)}
    (h : Tracks I (fun p q => r p.1 q.1 ∧ r p.2.1 q.2.1 ∧ r p.2.2 q.2.2) c d) :
    Tracks I (Reply.Rel r) (do let p ← c; return .elements [p.1, p.2.1, p.2.2])
      (do let p ← d; return .elements [p.1, p.2.1, p.2.2]) :=
  h.bind fun _ _ h => .ok (.cons h.1 (.cons h.2.1 (.cons h.2.2 .nil)))

theorem tracks_ring_method {A : Stateful.UnitaryRingOps σ E} {B : UnitaryRingOps F} (h : TracksUnitaryRing I r A B) (i : RingMethod)
    {a b : E} {a' b' : F} (ha : r a a') (hb : r b b') :
    Tracks I (Reply.Rel r) (RingMethod.tableState A i a b) (RingMethod.table B i a' b') := by
  cases i with
  | contains => exact tracks_answer (h.contains ha)
  | equals => exact tracks_answer (h.equals ha hb)
  | mul => exact tracks_element (h.mul ha hb)
  | mulAssign => exact tracks_element (h.mulAssign ha hb)
  | square => exact tracks_element (h.square ha)
  | one => exact tracks_element h.one
  | isOne => exact tracks_answer (h.isOne ha)
  | tryInv => exact tracks_option (h.tryInv ha)
  | invertible => exact tracks_answer (h.invertible ha)
  | zero => exact tracks_element h.zero
  | isZero => exact tracks_answer (h.isZero ha)
  | add => exact tracks_element (h.add ha hb)
  | addAssign => exact tracks_element (h.addAssign ha hb)
  | double => exact tracks_element (h.double ha)
  | utimes n => exact tracks_element (h.utimes n ha)
  | neg => exact tracks_element (h.neg ha)
  | negAssign => exact tracks_element (h.negAssign ha)
  | sub => exact tracks_element (h.sub ha hb)
  | subAssign => exact tracks_element (h.subAssign ha hb)
  | times n => exact tracks_element (h.times n ha)
  | int n => exact tracks_element (h.int n)

/-- C97: over an object with state whose methods answer as those of an implementation without state, a client does what it does over
that implementation, panics being caught. -/
theorem C97_states_rings (C : Client RingMethod) {A : Stateful.UnitaryRingOps σ E} {B : UnitaryRingOps F} (h : TracksUnitaryRing I r A B)
    (n : ℕ) {c : C.Q × (ℕ → E)} {d : C.Q × (ℕ → F)} (hc : C.Rel r c d) :
    Tracks I (C.Rel r) (C.runState (RingMethod.tableState A) n c) (C.run (RingMethod.table B) true n d) :=
  C.run_tracks (fun i _ _ _ _ ha hb => tracks_ring_method h i ha hb) n hc

/-- C97: fields. -/
theorem C97_states_fields (C : Client FieldMethod) {A : Stateful.FieldOps σ E} {B : FieldOps F}
    (h : TracksField I r A B) (n : ℕ) {c : C.Q × (ℕ → E)} {d : C.Q × (ℕ → F)} (hc : C.Rel r c d) :
    Tracks I (C.Rel r) (C.runState (FieldMethod.tableState A) n c) (C.run (FieldMethod.table B) true n d) := by
  refine C.run_tracks (fun i a b a' b' ha hb => ?_) n hc
  cases i with
  | ring m => exact tracks_ring_method h.toTracksUnitaryRing m ha hb
  | inv => exact tracks_element (h.inv ha)
  | div => exact tracks_element (h.div ha hb)
  | power n => exact tracks_element (h.power n ha)

/-- C97: Euclidean domains. -/
theorem C97_states_euclidean (C : Client EuclideanMethod) {A : Stateful.EuclideanDomainOps σ E} {B : EuclideanDomainOps F}
    (h : TracksEuclideanDomain I r A B) (n : ℕ) {c : C.Q × (ℕ → E)} {d : C.Q × (ℕ → F)} (hc : C.Rel r c d) :
    Tracks I (C.Rel r) (C.runState (EuclideanMethod.tableState A) n c) (C.run (EuclideanMethod.table B) true n d) := by
  refine C.run_tracks (fun i a b a' b' ha hb => ?_) n hc
  cases i with
  | ring m => exact tracks_ring_method h.toTracksUnitaryRing m ha hb
  | tryDiv => exact tracks_option (h.tryDiv ha hb)
  | divisible => exact tracks_answer (h.divisible ha hb)
  | associates => exact tracks_answer (h.associates ha hb)
  | associateRepr => exact tracks_element (h.associateRepr ha)
  | associateCoef => exact tracks_element (h.associateCoef ha)
  | quoRem => exact tracks_pair (h.quoRem ha hb)
  | quo => exact tracks_element (h.quo ha hb)
  | rem => exact tracks_element (h.rem ha hb)
  | reduced => exact tracks_answer (h.reduced ha hb)
  | gcd => exact tracks_element (h.gcd ha hb)
  | lcm => exact tracks_element (h.lcm ha hb)
  | extendedGcd => exact tracks_triple (h.extendedGcd ha hb)
  | relativePrimes => exact tracks_answer (h.relativePrimes ha hb)

/-- C97: groups. -/
theorem C97_states_groups (C : Client GroupMethod) {A : Stateful.GroupOps σ E} {B : GroupOps F}
    (h : TracksGroup I r A B) (n : ℕ) {c : C.Q × (ℕ → E)} {d : C.Q × (ℕ → F)} (hc : C.Rel r c d) :
    Tracks I (C.Rel r) (C.runState (GroupMethod.tableState A) n c) (C.run (GroupMethod.table B) true n d) := by
  refine C.run_tracks (fun i a b a' b' ha hb => ?_) n hc
  cases i with
  | contains => exact tracks_answer (h.contains ha)
  | equals => exact tracks_answer (h.equals ha hb)
  | mul => exact tracks_element (h.mul ha hb)
  | mulAssign => exact tracks_element (h.mulAssign ha hb)
  | square => exact tracks_element (h.square ha)
  | one => exact tracks_element h.one
  | isOne => exact tracks_answer (h.isOne ha)
  | tryInv => exact tracks_option (h.tryInv ha)
  | invertible => exact tracks_answer (h.invertible ha)
  | inv => exact tracks_element (h.inv ha)
  | power n => exact tracks_element (h.power n ha)

/-- C97: boolean algebras. -/
theorem C97_states_boolean_algebras (C : Client LatticeMethod) {A : Stateful.BooleanAlgebraOps σ E} {B : BooleanAlgebraOps F}
    (h : TracksBooleanAlgebra I r A B) (n : ℕ) {c : C.Q × (ℕ → E)} {d : C.Q × (ℕ → F)} (hc : C.Rel r c d) :
    Tracks I (C.Rel r) (C.runState (LatticeMethod.tableState A) n c) (C.run (LatticeMethod.table B) true n d) := by
  refine C.run_tracks (fun i a b a' b' ha hb => ?_) n hc
  cases i with
  | contains => exact tracks_answer (h.contains ha)
  | equals => exact tracks_answer (h.equals ha hb)
  | leq => exact tracks_answer (h.leq ha hb)
  | lessThan => exact tracks_answer (h.lessThan ha hb)
  | comparable => exact tracks_answer (h.comparable ha hb)
  | meet => exact tracks_element (h.meet ha hb)
  | join => exact tracks_element (h.join ha hb)
  | max => exact tracks_element h.max
  | min => exact tracks_element h.min
  | not => exact tracks_element (h.not ha)

end states

/-! ## Implementations of the crate -/

section crate

variable [Cfg]

/-- C97: no client can tell `GF2` from `BB`, even if it inverts zero and catches the panic. -/
theorem C97_two_elements (C : Client FieldMethod) (hC : C.Only FieldMethod.Fits) (n : ℕ) {q : C.Q} {f : ℕ → SInt 8} {g : ℕ → Bool}
    (hfg : ∀ i, (f i).1 = if g i then 1 else 0) :
    ∃ q' f' g', C.run (FieldMethod.table QuotientField.GF2) true n (q, f) = .ok (q', f') ∧
      C.run (FieldMethod.table TwoElementAlgebra.field) true n (q, g) = .ok (q', g') ∧ ∀ i, (f' i).1 = if g' i then 1 else 0 := by
  obtain ⟨q', f', g', h1, h2, h3⟩ := C97_indistinguishable C (C97_fields C24_GF2) (C97_fields C46_two_field) hC n (q := q)
    (f := f) (g := g) fun i => by
      refine ⟨if g i then 1 else 0, ⟨?_, ?_, ?_⟩, rfl⟩ <;> rw [hfg i] <;> cases g i <;> decide
  refine ⟨q', f', g', h1, h2, fun i => ?_⟩
  obtain ⟨x, ⟨h4, h5, h6⟩, h7⟩ := h3 i
  have h8 : ((f' i).1 : ZMod 2) = if g' i then 1 else 0 := h6.trans h7
  have h9 : (f' i).1 = 0 ∨ (f' i).1 = 1 := by omega
  rcases h9 with h9 | h9 <;> rw [h9] at h8 ⊢ <;> cases hg : g' i <;> rw [hg] at h8
  · rfl
  · revert h8; decide
  · revert h8; decide
  · rfl

/-- C97: no client can tell residues in machine integers from residues in `ZZ`, as long as the modulus is small enough. -/
theorem C97_residues (C : Client RingMethod) (hC : C.Only RingMethod.Fits) (w : ℕ) [Width w] {m : ℕ} (hm : 2 ≤ m) {k : SInt w}
    (hk : k.1 = m) (hmax : ((m : ℤ) - 1) ^ 2 ≤ 2 ^ (w - 1) - 1) (n : ℕ) {q : C.Q} {f : ℕ → SInt w}
    (hf : ∀ i, 0 ≤ (f i).1 ∧ (f i).1 < m) :
    ∃ q' f', C.run (RingMethod.table (QuotientRing.ops (CheckedInts.euclidean w) k)) true n (q, f) = .ok (q', f') ∧
      C.run (RingMethod.table (QuotientRing.ops Integers.euclidean (m : ℤ))) true n (q, fun i => (f i).1) =
        .ok (q', fun i => (f' i).1) := by
  obtain ⟨q', f', g', h1, h2, h3⟩ := C97_indistinguishable C (C97_rings (C24_residue_ring m hm k hk hmax))
    (C97_rings (C18_integers m hm)) hC n (q := q) (f := f) (g := fun i => (f i).1)
    fun i => ⟨_, ⟨(hf i).1, (hf i).2, rfl⟩, (hf i).1, (hf i).2, rfl⟩
  refine ⟨q', f', h1, ?_⟩
  have : g' = fun i => (f' i).1 := by
    funext i
    obtain ⟨x, ⟨h4, h5, h6⟩, h7, h8, h9⟩ := h3 i
    have h10 := (ZMod.intCast_eq_intCast_iff' _ _ m).1 (h9.trans h6.symm)
    rwa [Int.emod_eq_of_lt h7 h8, Int.emod_eq_of_lt h4 h5] at h10
  rw [← this]; exact h2

/-- C97: a client of machine integers that does not overflow computes with integers. -/
theorem C97_machine_integers (C : Client EuclideanMethod) (w : ℕ) [Width w] (n : ℕ) {q q' : C.Q} {f f' : ℕ → SInt w}
    (h : C.run (EuclideanMethod.table (CheckedInts.euclidean w)) false n (q, f) = .ok (q', f')) :
    C.run (EuclideanMethod.table Integers.euclidean) false n (q, fun i => (f i).1) = .ok (q', fun i => (f' i).1) := by
  obtain ⟨⟨q'', g⟩, h1, h2, h3⟩ := C97_follows_euclidean C (C68_integers w) n (c := (q, f)) (d := (q, fun i => (f i).1))
    ⟨rfl, fun i => rfl⟩ _ h
  cases h2
  have : g = fun i => (f' i).1 := funext fun i => (h3 i).symm
  rw [h1, this]

/-- C97: neither can a client tell a field from the same field with a memory or with a counter of its calls, as long as every state that it
may have answers as the field does. -/
theorem C97_same_field (C : Client FieldMethod) {σ E : Type} {I : σ → Prop} {A : Stateful.FieldOps σ E} {B : FieldOps E}
    (h : Stateful.TracksField I Eq A B) (n : ℕ) {c c' : C.Q × (ℕ → E)}
    (hc : C.run (FieldMethod.table B) true n c = .ok c') {s : σ} (hs : I s) :
    ∃ t, C.runState (FieldMethod.tableState A) n c s = .ok c' t ∧ I t := by
  have := C97_states_fields C h n (c := c) (d := c) ⟨rfl, fun _ => rfl⟩ s hs
  rw [hc] at this
  revert this
  cases C.runState (FieldMethod.tableState A) n c s with
  | ok d t =>
    rintro ⟨⟨h1, h2⟩, h3⟩
    exact ⟨t, by rw [show d = c' from Prod.ext h1 (funext h2)], h3⟩
  | panic => exact fun h => h.elim
  | diverge => exact fun h => h.elim

end crate

/-- C97: a client of permutations, of rational numbers or of matrices of them that does not panic with all checks does the same without them. -/
theorem C97_builds {c₁ c₂ : Cfg} (hc : Cfg.Relaxes c₁ c₂) (n : ℕ) :
    (∀ (C : Client GroupMethod) (size : UInt32) c d, C.run (@GroupMethod.table c₁ _ (@Permutations.ops c₁ size)) false n c = .ok d →
      C.run (@GroupMethod.table c₂ _ (@Permutations.ops c₂ size)) false n c = .ok d) ∧
    (∀ (C : Client FieldMethod) c d, C.run (@FieldMethod.table c₁ _ (@ReducedFractions.QQ c₁)) false n c = .ok d →
      C.run (@FieldMethod.table c₂ _ (@ReducedFractions.QQ c₂)) false n c = .ok d) ∧
    (∀ (C : Client RingMethod) (size : ℕ) c d,
      C.run (@RingMethod.table c₁ _ (@MatrixRing.ops c₁ _ (@ReducedFractions.QQ c₁) size)) false n c = .ok d →
      C.run (@RingMethod.table c₂ _ (@MatrixRing.ops c₂ _ (@ReducedFractions.QQ c₂) size)) false n c = .ok d) := by
  refine ⟨fun C size c d h => ?_, fun C c d h => ?_, fun C size c d h => ?_⟩
  · obtain ⟨e, h1, h2, h3⟩ := C97_follows_groups C (C69_permutations hc size) n (c := c) (d := c) ⟨rfl, fun _ => rfl⟩ _ h
    rw [h1, show d = e from Prod.ext h2 (funext h3)]
  · obtain ⟨e, h1, h2, h3⟩ := C97_follows_fields C (C69_rationals hc 0).1 n (c := c) (d := c) ⟨rfl, fun _ => rfl⟩ _ h
    rw [h1, show d = e from Prod.ext h2 (funext h3)]
  · obtain ⟨e, h1, h2, h3⟩ := C97_follows_rings C (C69_rationals hc size).2.1 n (c := c) (d := c) ⟨rfl, fun _ => rfl⟩ _ h
    rw [h1, show d = e from Prod.ext h2 (funext h3)]

/-! ## Examples -/

section ClientExamples

local instance clientProfile : Cfg := ⟨true, true, 64, by decide⟩

/-- A client that counts how often one can be added to zero until the sum is zero: `none` at the beginning, then the number of ones that it
has added, and whether it is about to add or to compare. -/
def order : Client RingMethod where
  Q := Option (ℕ × Bool × Bool)
  act
    | none => some (.one, 0, 0, 1)
    | some (_, false, false) => some (.addAssign, 0, 1, 0)
    | some (_, true, false) => some (.isZero, 0, 0, 0)
    | some (_, _, true) => none
  next
    | none, _ => some (0, false, false)
    | some (k, false, _), _ => some (k + 1, true, false)
    | some (k, true, _), .answer b => some (k, false, b)
    | some (k, true, _), _ => some (k, false, false)

-- it finds 5 in eight bits and in `ZZ`
example : order.Only RingMethod.Fits := by
  rintro (_ | ⟨k, _ | _, _ | _⟩) i a b d h <;> cases h <;> trivial
example : ∃ f, order.run (RingMethod.table (QuotientRing.ops (CheckedInts.euclidean 8) (SInt.lit 5 (by decide)))) true 30
    (none, fun _ => SInt.lit 0 (by decide)) = .ok (some (5, false, true), f) := ⟨_, rfl⟩
example : ∃ f, order.run (RingMethod.table (QuotientRing.ops Integers.euclidean 5)) true 30
    (none, fun _ => 0) = .ok (some (5, false, true), f) := ⟨_, rfl⟩
-- two steps of it with integers
example : (order.idealRun RingMethod.meaning 2 ((none : Option (ℕ × Bool × Bool)), fun _ => (0 : ℤ))).1 = some (1, true, false) := rfl

/-- A client that inverts zero, catches the panic and then inverts one: it sees a panic and a result. -/
def prober : Client FieldMethod where
  Q := List Seen
  act
    | [] => some (.inv, 0, 0, 0)
    | [_] => some (.ring .one, 0, 0, 0)
    | [_, _] => some (.inv, 0, 0, 0)
    | _ => none
  next q e := q ++ [e]

example : ∃ f, prober.run (FieldMethod.table TwoElementAlgebra.field) true 5 ([], fun _ => false) =
    .ok ([.panicked, .found, .found], f) := ⟨_, rfl⟩
-- without `catch_unwind` it ends with the panic
example : prober.run (FieldMethod.table TwoElementAlgebra.field) false 5 ([], fun _ => false) = .panic := rfl
example : prober.Only FieldMethod.Fits := by
  rintro (_ | ⟨_, _ | ⟨_, _ | ⟨_, _⟩⟩⟩) i a b d h <;> cases h <;> trivial

/-- A client that computes the powers of two until it panics. -/
def doubler : Client EuclideanMethod where
  Q := ℕ
  act _ := some (.ring .double, 0, 0, 0)
  next q _ := q + 1

-- in eight bits six times, the seventh time only in `ZZ`
example : (∃ f, doubler.run (EuclideanMethod.table (CheckedInts.euclidean 8)) false 6 ((0 : ℕ), fun _ => SInt.lit 1 (by decide)) =
      .ok ((6 : ℕ), f)) ∧
    doubler.run (EuclideanMethod.table (CheckedInts.euclidean 8)) false 7 ((0 : ℕ), fun _ => SInt.lit 1 (by decide)) = .panic ∧
    ∃ f, doubler.run (EuclideanMethod.table Integers.euclidean) false 7 ((0 : ℕ), fun _ => 1) = .ok ((7 : ℕ), f) ∧ f 0 = 128 :=
  ⟨⟨_, rfl⟩, rfl, _, rfl, rfl⟩

/-- A field that counts its calls has made one call per step of `prober`. -/
example : ∃ f, prober.runState (FieldMethod.tableState (StatefulExamples.ticking TwoElementAlgebra.field (· + 1))) 5 ([], fun _ => false) 0 =
    .ok ([.panicked, .found, .found], f) 3 := ⟨_, rfl⟩
example (n : ℕ) {c : prober.Q × (ℕ → Bool)} (h : prober.run (FieldMethod.table TwoElementAlgebra.field) true n
      ([], fun _ => false) = .ok c) :=
  C97_same_field prober (StatefulExamples.ticking_tracks TwoElementAlgebra.field (I := fun _ => True) (f := (· + 1)) fun _ _ => trivial) n h (s := 0) trivial
example (C : Client GroupMethod) := (C97_builds (c₁ := ⟨true, true, 64, by decide⟩) (c₂ := ⟨false, false, 64, by decide⟩)
  ⟨rfl, fun _ => rfl, fun _ => rfl⟩ 9).1 C 7
-- permutations and boolean algebras
example (C : Client GroupMethod) (hC : C.Only GroupMethod.Fits) (n : ℕ) (q : C.Q) :=
  C97_caught C (C97_groups (C42_group (size := 4))) hC n (c := (q, fun _ => [1, 0, 2, 3])) (x := (q, fun _ => .op (Equiv.swap (0 : Fin 4) (1 : Fin 4))))
    ⟨rfl, fun _ => ⟨rfl, show ∀ i : Fin 4, ([1, 0, 2, 3] : List UInt32)[i].toNat = (Equiv.swap (0 : Fin 4) 1 i).1 by decide⟩⟩
example (C : Client LatticeMethod) (n : ℕ) (q : C.Q) :=
  C97_caught C (C97_boolean_algebras C46_two_boolean) (fun _ _ _ _ _ _ => trivial) n (c := (q, fun _ => true)) (x := (q, fun _ => true))
    ⟨rfl, fun _ => rfl⟩

end ClientExamples

end Abstalg
