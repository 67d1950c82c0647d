import Verif.Spec.Outcomes
import Verif.Props.Guarded
import Verif.Props.Termination

/-! # C103: the same outcome, and programs that catch panics

No method of the integers with checks runs forever, nor does one of the machine integers (C75). Hence a
method of a structure over the machine integers panics if and only if it panics over the integers with
checks, and a program that catches panics and goes on reaches the same memory and the same registers. -/

set_option autoImplicit false
set_option linter.unusedSectionVars false

namespace Abstalg

/-! ## The integers with checks stop -/

theorem Guarded.stops_guard (w : ℕ) (x : ℤ) : Stops (Guarded.guard w x) := by
  unfold Guarded.guard; stops ()

theorem Guarded.stops_uguard (w x : ℕ) : Stops (Guarded.uguard w x) := by
  unfold Guarded.uguard; stops ()

theorem Guarded.stops_integralDomain [Cfg] (w : ℕ) : StopsIntegralDomain (Guarded.euclidean w).toIntegralDomainOps := by
  have h := stops_guard w
  stops_fields <;> dsimp only [euclidean] <;> stops h

/-- C103: no method of the integers with checks runs forever. -/
theorem C103_stops [Cfg] (w : ℕ) : StopsEuclideanDomain (Guarded.euclidean w) := by
  have h := Guarded.stops_guard w
  refine .of_size (Guarded.stops_integralDomain w) ?_ ?_ Int.natAbs ?_
  · intro a b; stops h
  · intro a b; stops h
  · intro a b q r hb hr
    have hb : b ≠ 0 := by rintro rfl; cases hb
    have hr : (do return (← Guarded.guard w (a / b), a % b) : Res (ℤ × ℤ)) = .ok (q, r) := by
      have : (Guarded.euclidean w).quoRem a b = (do return (← Guarded.guard w (a / b), a % b)) := if_neg hb
      exact this.symm.trans hr
    obtain ⟨g, _, hr⟩ := ok_of_bind hr
    cases hr
    have h1 := Int.emod_nonneg a hb
    have h2 := Int.emod_lt_abs a hb
    rw [Int.abs_eq_natAbs] at h2
    refine .inr ?_
    show (a % b).natAbs < _
    omega

/-- C103: nor one of the natural numbers with checks. -/
theorem C103_stops_naturals (w : ℕ) : StopsSemiRing (Guarded.naturals w) := by
  have h := Guarded.stops_uguard w
  stops_fields <;> dsimp only [Guarded.naturals] <;> stops h

/-! ## The same outcome -/

section alike

universe u v

theorem Alike.panic_iff {α β : Type} {r : α → β → Prop} {c : Res α} {d : Res β} (h : Alike r c d) :
    c = .panic ↔ d = .panic := by
  cases h with
  | ok h => exact ⟨nofun, nofun⟩
  | panic => exact ⟨fun _ => rfl, fun _ => rfl⟩

theorem Follows.alike {α β : Type} {r : α → β → Prop} {r' : β → α → Prop} {c : Res α} {d : Res β} (h : Follows r c d)
    (h' : Follows r' d c) (hc : Stops c) (hd : Stops d) : Alike r c d := by
  cases c with
  | ok a =>
    obtain ⟨_, rfl, hr⟩ := h a rfl
    exact .ok hr
  | panic =>
    cases d with
    | ok b => obtain ⟨_, h, _⟩ := h' b rfl; cases h
    | panic => exact .panic
    | diverge => exact absurd rfl hd
  | diverge => exact absurd rfl hc

variable {ι : Type} (C : Client ι) {E F : Type} {r : E → F → Prop}

theorem Client.step_alike {T : ι → E → E → Res (Reply E)} {T' : ι → F → F → Res (Reply F)}
    (h : ∀ i {a b a' b'}, r a a' → r b b' → Alike (Reply.Rel r) (T i a b) (T' i a' b')) (catching : Bool)
    {c : C.Q × (ℕ → E)} {d : C.Q × (ℕ → F)} (hc : C.Rel r c d) :
    Alike (C.Rel r) (C.step T catching c) (C.step T' catching d) := by
  obtain ⟨hq, hr⟩ := hc
  unfold Client.step
  rw [← hq]
  cases C.act c.1 with
  | none => exact .ok ⟨hq, hr⟩
  | some w =>
    obtain ⟨i, a, b, k⟩ := w
    dsimp only
    have := h i (hr a) (hr b)
    revert this
    generalize T i (c.2 a) (c.2 b) = s
    generalize T' i (d.2 a) (d.2 b) = t
    intro hst
    cases hst with
    | ok h => exact .ok ⟨by rw [h.seen], store_rel h.list hr k⟩
    | panic =>
      cases catching with
      | true => exact .ok ⟨rfl, hr⟩
      | false => exact .panic

theorem Client.run_alike {T : ι → E → E → Res (Reply E)} {T' : ι → F → F → Res (Reply F)}
    (h : ∀ i {a b a' b'}, r a a' → r b b' → Alike (Reply.Rel r) (T i a b) (T' i a' b')) (catching : Bool) (n : ℕ) :
    ∀ {c : C.Q × (ℕ → E)} {d : C.Q × (ℕ → F)}, C.Rel r c d →
      Alike (C.Rel r) (C.run T catching n c) (C.run T' catching n d) := by
  induction n with
  | zero => exact fun hc => .ok hc
  | succ n ih =>
    intro c d hc
    have hs := C.step_alike h catching hc
    unfold Client.run
    revert hs
    generalize C.step T catching c = s
    generalize C.step T' catching d = t
    intro hs
    cases hs with
    | ok h => exact ih h
    | panic => exact .panic

theorem Stops.answer {c : Res Bool} (h : Stops c) : Stops (c.answer : Res (Reply E)) := Stops.bind h fun _ => .pure _

theorem Stops.element {c : Res E} (h : Stops c) : Stops c.element := Stops.bind h fun _ => .pure _

theorem Stops.option {c : Res (Option E)} (h : Stops c) : Stops c.option :=
  Stops.bind h fun o => by cases o <;> exact .pure _

variable {c₁ c₂ : Cfg}

theorem stops_ring_method {A : @UnitaryRingOps c₁ E} (h : @StopsUnitaryRing c₁ E A) (i : RingMethod) (a b : E) :
    Stops (@RingMethod.table c₁ E A i a b) := by
  cases i with
  | contains => exact .answer (h.contains a)
  | equals => exact .answer (h.equals a b)
  | mul => exact .element (h.mul a b)
  | mulAssign => exact .element (h.mulAssign a b)
  | square => exact .element (h.square a)
  | one => exact .element h.one
  | isOne => exact .answer (h.isOne a)
  | tryInv => exact .option (h.tryInv a)
  | invertible => exact .answer (h.invertible a)
  | zero => exact .element h.zero
  | isZero => exact .answer (h.isZero a)
  | add => exact .element (h.add a b)
  | addAssign => exact .element (h.addAssign a b)
  | double => exact .element (h.double a)
  | utimes n => exact .element (h.utimes n a)
  | neg => exact .element (h.neg a)
  | negAssign => exact .element (h.negAssign a)
  | sub => exact .element (h.sub a b)
  | subAssign => exact .element (h.subAssign a b)
  | times n => exact .element (h.times n a)
  | int n => exact .element (h.int n)

theorem stops_field_method {A : @FieldOps c₁ E} (h : @StopsField c₁ E A) (i : FieldMethod) (a b : E) :
    Stops (@FieldMethod.table c₁ E A i a b) := by
  cases i with
  | ring m => exact stops_ring_method h.toStopsUnitaryRing m a b
  | inv => exact .element (h.inv a)
  | div => exact .element (h.div a b)
  | power n => exact .element (h.power n a)

theorem stops_euclidean_method {A : @EuclideanDomainOps c₁ E} (h : @StopsEuclideanDomain c₁ E A) (i : EuclideanMethod) (a b : E) :
    Stops (@EuclideanMethod.table c₁ E A i a b) := by
  cases i with
  | ring m => exact stops_ring_method h.toStopsUnitaryRing m a b
  | tryDiv => exact .option (h.tryDiv a b)
  | divisible => exact .answer (h.divisible a b)
  | associates => exact .answer (h.associates a b)
  | associateRepr => exact .element (h.associateRepr a)
  | associateCoef => exact .element (h.associateCoef a)
  | quoRem => exact Stops.bind (h.quoRem a b) fun _ => .pure _
  | quo => exact .element (h.quo a b)
  | rem => exact .element (h.rem a b)
  | reduced => exact .answer (h.reduced a b)
  | gcd => exact .element (h.gcd a b)
  | lcm => exact .element (h.lcm a b)
  | extendedGcd => exact Stops.bind (h.extendedGcd a b) fun _ => .pure _
  | relativePrimes => exact .answer (h.relativePrimes a b)

theorem stops_group_method {A : @GroupOps c₁ E} (h : @StopsGroup c₁ E A) (i : GroupMethod) (a b : E) :
    Stops (@GroupMethod.table c₁ E A i a b) := by
  cases i with
  | contains => exact .answer (h.contains a)
  | equals => exact .answer (h.equals a b)
  | mul => exact .element (h.mul a b)
  | mulAssign => exact .element (h.mulAssign a b)
  | square => exact .element (h.square a)
  | one => exact .element h.one
  | isOne => exact .answer (h.isOne a)
  | tryInv => exact .option (h.tryInv a)
  | invertible => exact .answer (h.invertible a)
  | inv => exact .element (h.inv a)
  | power n => exact .element (h.power n a)

theorem follows_field_method {A : @FieldOps c₁ E} {B : @FieldOps c₂ F} (h : FollowsField r A B) (i : FieldMethod)
    {a b : E} {a' b' : F} (ha : r a a') (hb : r b b') :
    Follows (Reply.Rel r) (@FieldMethod.table c₁ E A i a b) (@FieldMethod.table c₂ F B i a' b') := by
  cases i with
  | ring m => exact follows_ring_method h.toFollowsUnitaryRing m ha hb
  | inv => exact follows_element (h.inv ha)
  | div => exact follows_element (h.div ha hb)
  | power n => exact follows_element (h.power n ha)

theorem follows_euclidean_method {A : @EuclideanDomainOps c₁ E} {B : @EuclideanDomainOps c₂ F}
    (h : FollowsEuclideanDomain r A B) (i : EuclideanMethod) {a b : E} {a' b' : F} (ha : r a a') (hb : r b b') :
    Follows (Reply.Rel r) (@EuclideanMethod.table c₁ E A i a b) (@EuclideanMethod.table c₂ F B i a' b') := by
  cases i with
  | ring m => exact follows_ring_method h.toFollowsUnitaryRing m ha hb
  | tryDiv => exact follows_option (h.tryDiv ha hb)
  | divisible => exact follows_answer (h.divisible ha hb)
  | associates => exact follows_answer (h.associates ha hb)
  | associateRepr => exact follows_element (h.associateRepr ha)
  | associateCoef => exact follows_element (h.associateCoef ha)
  | quoRem => exact follows_pair (h.quoRem ha hb)
  | quo => exact follows_element (h.quo ha hb)
  | rem => exact follows_element (h.rem ha hb)
  | reduced => exact follows_answer (h.reduced ha hb)
  | gcd => exact follows_element (h.gcd ha hb)
  | lcm => exact follows_element (h.lcm ha hb)
  | extendedGcd => exact follows_triple (h.extendedGcd ha hb)
  | relativePrimes => exact follows_answer (h.relativePrimes ha hb)

theorem follows_group_method {A : @GroupOps c₁ E} {B : @GroupOps c₂ F} (h : FollowsGroup r A B) (i : GroupMethod)
    {a b : E} {a' b' : F} (ha : r a a') (hb : r b b') :
    Follows (Reply.Rel r) (@GroupMethod.table c₁ E A i a b) (@GroupMethod.table c₂ F B i a' b') := by
  cases i with
  | contains => exact follows_answer (h.contains ha)
  | equals => exact follows_answer (h.equals ha hb)
  | mul => exact follows_element (h.mul ha hb)
  | mulAssign => exact follows_element (h.mulAssign ha hb)
  | square => exact follows_element (h.square ha)
  | one => exact follows_element h.one
  | isOne => exact follows_answer (h.isOne ha)
  | tryInv => exact follows_option (h.tryInv ha)
  | invertible => exact follows_answer (h.invertible ha)
  | inv => exact follows_element (h.inv ha)
  | power n => exact follows_element (h.power n ha)

variable {r' : F → E → Prop} (hr : ∀ a b, r a b → r' b a)
include hr

/-- C103: two implementations of a ring that follow each other and whose methods stop: every client has the same outcome over both,
whether it catches panics or not. -/
theorem C103_rings (C : Client RingMethod) {A : @UnitaryRingOps c₁ E} {B : @UnitaryRingOps c₂ F} (h : FollowsUnitaryRing r A B)
    (h' : FollowsUnitaryRing r' B A) (hA : @StopsUnitaryRing c₁ E A) (hB : @StopsUnitaryRing c₂ F B) (catching : Bool) (n : ℕ)
    {c : C.Q × (ℕ → E)} {d : C.Q × (ℕ → F)} (hc : C.Rel r c d) :
    Alike (C.Rel r) (C.run (@RingMethod.table c₁ E A) catching n c) (C.run (@RingMethod.table c₂ F B) catching n d) :=
  C.run_alike (fun i _ _ _ _ ha hb => (follows_ring_method h i ha hb).alike
    (follows_ring_method h' i (hr _ _ ha) (hr _ _ hb)) (stops_ring_method hA _ _ _) (stops_ring_method hB _ _ _)) catching n hc

/-- C103: fields. -/
theorem C103_fields (C : Client FieldMethod) {A : @FieldOps c₁ E} {B : @FieldOps c₂ F} (h : FollowsField r A B)
    (h' : FollowsField r' B A) (hA : @StopsField c₁ E A) (hB : @StopsField c₂ F B) (catching : Bool) (n : ℕ)
    {c : C.Q × (ℕ → E)} {d : C.Q × (ℕ → F)} (hc : C.Rel r c d) :
    Alike (C.Rel r) (C.run (@FieldMethod.table c₁ E A) catching n c) (C.run (@FieldMethod.table c₂ F B) catching n d) :=
  C.run_alike (fun i _ _ _ _ ha hb => (follows_field_method h i ha hb).alike
    (follows_field_method h' i (hr _ _ ha) (hr _ _ hb)) (stops_field_method hA _ _ _) (stops_field_method hB _ _ _)) catching n hc

/-- C103: Euclidean domains. -/
theorem C103_euclidean_domains (C : Client EuclideanMethod) {A : @EuclideanDomainOps c₁ E} {B : @EuclideanDomainOps c₂ F}
    (h : FollowsEuclideanDomain r A B) (h' : FollowsEuclideanDomain r' B A) (hA : @StopsEuclideanDomain c₁ E A)
    (hB : @StopsEuclideanDomain c₂ F B) (catching : Bool) (n : ℕ)
    {c : C.Q × (ℕ → E)} {d : C.Q × (ℕ → F)} (hc : C.Rel r c d) :
    Alike (C.Rel r) (C.run (@EuclideanMethod.table c₁ E A) catching n c)
      (C.run (@EuclideanMethod.table c₂ F B) catching n d) :=
  C.run_alike (fun i _ _ _ _ ha hb => (follows_euclidean_method h i ha hb).alike
    (follows_euclidean_method h' i (hr _ _ ha) (hr _ _ hb)) (stops_euclidean_method hA _ _ _)
    (stops_euclidean_method hB _ _ _)) catching n hc

/-- C103: groups. -/
theorem C103_all_groups (C : Client GroupMethod) {A : @GroupOps c₁ E} {B : @GroupOps c₂ F} (h : FollowsGroup r A B)
    (h' : FollowsGroup r' B A) (hA : @StopsGroup c₁ E A) (hB : @StopsGroup c₂ F B) (catching : Bool) (n : ℕ)
    {c : C.Q × (ℕ → E)} {d : C.Q × (ℕ → F)} (hc : C.Rel r c d) :
    Alike (C.Rel r) (C.run (@GroupMethod.table c₁ E A) catching n c) (C.run (@GroupMethod.table c₂ F B) catching n d) :=
  C.run_alike (fun i _ _ _ _ ha hb => (follows_group_method h i ha hb).alike
    (follows_group_method h' i (hr _ _ ha) (hr _ _ hb)) (stops_group_method hA _ _ _) (stops_group_method hB _ _ _)) catching n hc

end alike

/-! ## Structures over the machine integers -/

section

variable [Cfg] (w : ℕ) [Width w]

theorem denoted (a : SInt w) (x : ℤ) (h : SRep w a x) : DenotedBy w x a := h

theorem denoted_pair (p : SInt w × SInt w) (q : ℤ × ℤ) (h : PRel (SRep w) p q) : PRel (DenotedBy w) q p := h

theorem denoted_list {α β : Type} {r : α → β → Prop} {r' : β → α → Prop} (h : ∀ a b, r a b → r' b a) (l : List α) (m : List β)
    (hl : LRel r l m) : LRel r' m l := (List.Forall₂.imp (fun a b hab => h a b hab) hl).flip

/-- C103: programs over the machine integers, with panics caught or not. -/
theorem C103_caught (C : Client EuclideanMethod) (catching : Bool) (n : ℕ) (q : C.Q) (f : ℕ → SInt w) :
    Alike (C.Rel (SRep w)) (C.run (EuclideanMethod.table (CheckedInts.euclidean w)) catching n (q, f))
      (C.run (EuclideanMethod.table (Guarded.euclidean w)) catching n (q, fun i => (f i).1)) :=
  C103_euclidean_domains (denoted w) C (C103_integers w).1 (C103_integers w).2 (CheckedInts.stops_euclidean w) (C103_stops w)
    catching n ⟨rfl, fun _ => rfl⟩

/-- C103: programs over fractions. -/
theorem C103_caught_fractions (C : Client FieldMethod) (catching : Bool) (n : ℕ) (q : C.Q) (f : ℕ → SInt w × SInt w) :
    Alike (C.Rel (PRel (SRep w)))
      (C.run (FieldMethod.table (ReducedFractions.ops (CheckedInts.euclidean w))) catching n (q, f))
      (C.run (FieldMethod.table (ReducedFractions.ops (Guarded.euclidean w))) catching n
        (q, fun i => ((f i).1.1, (f i).2.1))) :=
  C103_fields (denoted_pair w) C (C103_fractions w).1 (C103_fractions w).2
    (ReducedFractions.stops_ops (CheckedInts.stops_euclidean w)) (ReducedFractions.stops_ops (C103_stops w))
    catching n ⟨rfl, fun _ => ⟨rfl, rfl⟩⟩

/-- C103: programs over matrices of fractions. -/
theorem C103_caught_matrices (size : ℕ) (C : Client RingMethod) (catching : Bool) (n : ℕ)
    {c : C.Q × (ℕ → List (SInt w × SInt w))} {d : C.Q × (ℕ → List (ℤ × ℤ))} (hc : C.Rel (LRel (PRel (SRep w))) c d) :
    Alike (C.Rel (LRel (PRel (SRep w))))
      (C.run (RingMethod.table (MatrixRing.ops (ReducedFractions.ops (CheckedInts.euclidean w)) size)) catching n c)
      (C.run (RingMethod.table (MatrixRing.ops (ReducedFractions.ops (Guarded.euclidean w)) size)) catching n d) :=
  C103_rings (denoted_list (denoted_pair w)) C (C103_matrices w size).1 (C103_matrices w size).2
    (MatrixRing.stops_ops (ReducedFractions.stops_ops (CheckedInts.stops_euclidean w)) size)
    (MatrixRing.stops_ops (ReducedFractions.stops_ops (C103_stops w)) size) catching n hc

/-- C103: the determinant panics over the machine integers if and only if it does over the integers with checks. -/
theorem C103_determinant_panics (size : ℕ) (v : List (SInt w × SInt w)) :
    MatrixRing.determinant (ReducedFractions.ops (CheckedInts.euclidean w)) size v = .panic ↔
    MatrixRing.determinant (ReducedFractions.ops (Guarded.euclidean w)) size (v.map fun q => (q.1.1, q.2.1)) = .panic := by
  have hv : LRel (PRel (SRep w)) v (v.map fun q => (q.1.1, q.2.1)) :=
    List.forall₂_map_right_iff.2 (List.forall₂_same.2 fun _ _ => ⟨rfl, rfl⟩)
  have h : Alike (PRel (SRep w)) _ _ := (C67_determinant size (C103_fractions w).1 hv).alike
    (C67_determinant size (C103_fractions w).2 (denoted_list (denoted_pair w) _ _ hv))
    (MatrixRing.stops_determinant (ReducedFractions.stops_ops (CheckedInts.stops_euclidean w)) size v)
    (MatrixRing.stops_determinant (ReducedFractions.stops_ops (C103_stops w)) size _)
  exact h.panic_iff

/-- C103: programs over polynomials of fractions. -/
theorem C103_caught_polynomials_of_fractions (C : Client EuclideanMethod) (catching : Bool) (n : ℕ)
    {c : C.Q × (ℕ → List (SInt w × SInt w))} {d : C.Q × (ℕ → List (ℤ × ℤ))} (hc : C.Rel (LRel (PRel (SRep w))) c d) :
    Alike (C.Rel (LRel (PRel (SRep w))))
      (C.run (EuclideanMethod.table (PolynomialAlgebra.euclidean (ReducedFractions.ops (CheckedInts.euclidean w)))) catching n c)
      (C.run (EuclideanMethod.table (PolynomialAlgebra.euclidean (ReducedFractions.ops (Guarded.euclidean w)))) catching n d) :=
  C103_euclidean_domains (denoted_list (denoted_pair w)) C (C103_polynomials_of_fractions w).1 (C103_polynomials_of_fractions w).2
    (PolynomialAlgebra.stops_euclidean (ReducedFractions.stops_ops (CheckedInts.stops_euclidean w)))
    (PolynomialAlgebra.stops_euclidean (ReducedFractions.stops_ops (C103_stops w))) catching n hc

/-- C103: programs over polynomials of machine integers. -/
theorem C103_caught_polynomials (C : Client RingMethod) (catching : Bool) (n : ℕ)
    {c : C.Q × (ℕ → List (SInt w))} {d : C.Q × (ℕ → List ℤ)} (hc : C.Rel (LRel (SRep w)) c d) :
    Alike (C.Rel (LRel (SRep w)))
      (C.run (RingMethod.table (PolynomialAlgebra.integralDomain (CheckedInts.integralDomain w)).toUnitaryRingOps) catching n c)
      (C.run (RingMethod.table
        (PolynomialAlgebra.integralDomain (Guarded.euclidean w).toIntegralDomainOps).toUnitaryRingOps) catching n d) :=
  C103_rings (denoted_list (denoted w)) C (C103_polynomials w).1.toFollowsUnitaryRing (C103_polynomials w).2.toFollowsUnitaryRing
    (PolynomialAlgebra.stops_integralDomain (CheckedInts.stops_integralDomain w)).toStopsUnitaryRing
    (PolynomialAlgebra.stops_integralDomain (C103_stops w).toStopsIntegralDomain).toStopsUnitaryRing catching n hc

/-- C103: the exact division of polynomials of machine integers. -/
theorem C103_try_div_panics (v u : List (SInt w)) :
    (PolynomialAlgebra.integralDomain (CheckedInts.integralDomain w)).tryDiv v u = .panic ↔
    (PolynomialAlgebra.integralDomain (Guarded.euclidean w).toIntegralDomainOps).tryDiv
      (v.map Subtype.val) (u.map Subtype.val) = .panic := by
  have hv (v : List (SInt w)) : LRel (SRep w) v (v.map Subtype.val) :=
    List.forall₂_map_right_iff.2 (List.forall₂_same.2 fun _ _ => rfl)
  exact (((C103_polynomials w).1.tryDiv (hv v) (hv u)).alike
    ((C103_polynomials w).2.tryDiv (denoted_list (denoted w) _ _ (hv v)) (denoted_list (denoted w) _ _ (hv u)))
    ((PolynomialAlgebra.stops_integralDomain (CheckedInts.stops_integralDomain w)).tryDiv _ _)
    ((PolynomialAlgebra.stops_integralDomain (C103_stops w).toStopsIntegralDomain).tryDiv _ _)).panic_iff

/-- C103: programs over vectors. -/
theorem C103_caught_vectors (len : ℕ) (C : Client RingMethod) (catching : Bool) (n : ℕ)
    {c : C.Q × (ℕ → List (SInt w))} {d : C.Q × (ℕ → List ℤ)} (hc : C.Rel (LRel (SRep w)) c d) :
    Alike (C.Rel (LRel (SRep w)))
      (C.run (RingMethod.table (VectorAlgebra.unitaryRing len (CheckedInts.unitaryRing w))) catching n c)
      (C.run (RingMethod.table (VectorAlgebra.unitaryRing len (Guarded.euclidean w).toUnitaryRingOps)) catching n d) :=
  C103_rings (denoted_list (denoted w)) C (C103_vectors w len).1 (C103_vectors w len).2
    (VectorAlgebra.stops_unitaryRing len (CheckedInts.stops_integralDomain w).toStopsUnitaryRing)
    (VectorAlgebra.stops_unitaryRing len (C103_stops w).toStopsUnitaryRing) catching n hc

/-- C103: programs over residue rings and fields. -/
theorem C103_caught_residues (m : SInt w) (catching : Bool) (n : ℕ) :
    (∀ (C : Client RingMethod) (q : C.Q) (f : ℕ → SInt w), Alike (C.Rel (SRep w))
      (C.run (RingMethod.table (QuotientRing.ops (CheckedInts.euclidean w) m)) catching n (q, f))
      (C.run (RingMethod.table (QuotientRing.ops (Guarded.euclidean w) m.1)) catching n (q, fun i => (f i).1))) ∧
    (∀ (C : Client FieldMethod) (q : C.Q) (f : ℕ → SInt w), Alike (C.Rel (SRep w))
      (C.run (FieldMethod.table (QuotientField.ops (CheckedInts.euclidean w) m)) catching n (q, f))
      (C.run (FieldMethod.table (QuotientField.ops (Guarded.euclidean w) m.1)) catching n (q, fun i => (f i).1))) :=
  ⟨fun C _ _ => C103_rings (denoted w) C (C103_quotient_ring w m).1 (C103_quotient_ring w m).2
      (QuotientRing.stops_ops (CheckedInts.stops_euclidean w) m) (QuotientRing.stops_ops (C103_stops w) m.1) catching n
      ⟨rfl, fun _ => rfl⟩,
    fun C _ _ => C103_fields (denoted w) C (C103_quotient_field w m).1 (C103_quotient_field w m).2
      (QuotientField.stops_ops (CheckedInts.stops_euclidean w) m) (QuotientField.stops_ops (C103_stops w) m.1) catching n
      ⟨rfl, fun _ => rfl⟩⟩

/-- C103: programs over extensions of residue fields. -/
theorem C103_caught_extension_field (m : SInt w) (g : List (SInt w)) (C : Client FieldMethod) (catching : Bool) (n : ℕ)
    {c : C.Q × (ℕ → List (SInt w))} {d : C.Q × (ℕ → List ℤ)} (hc : C.Rel (LRel (SRep w)) c d) :
    Alike (C.Rel (LRel (SRep w)))
      (C.run (FieldMethod.table (QuotientField.ops (PolynomialAlgebra.euclidean
        (QuotientField.ops (CheckedInts.euclidean w) m)) g)) catching n c)
      (C.run (FieldMethod.table (QuotientField.ops (PolynomialAlgebra.euclidean
        (QuotientField.ops (Guarded.euclidean w) m.1)) (g.map Subtype.val))) catching n d) :=
  C103_fields (denoted_list (denoted w)) C (C103_extension_field w m g).1 (C103_extension_field w m g).2
    (QuotientField.stops_ops (PolynomialAlgebra.stops_euclidean (QuotientField.stops_ops (CheckedInts.stops_euclidean w) m)) g)
    (QuotientField.stops_ops (PolynomialAlgebra.stops_euclidean (QuotientField.stops_ops (C103_stops w) m.1)) _) catching n hc

/-- C103: programs over the additive and the multiplicative group. -/
theorem C103_caught_groups (C : Client GroupMethod) (catching : Bool) (n : ℕ) (q : C.Q) (f : ℕ → SInt w) :
    Alike (C.Rel (SRep w))
      (C.run (GroupMethod.table (AdditiveGroup.ops (CheckedInts.euclidean w).toAbelianGroupOps)) catching n (q, f))
      (C.run (GroupMethod.table (AdditiveGroup.ops (Guarded.euclidean w).toAbelianGroupOps)) catching n
        (q, fun i => (f i).1)) ∧
    Alike (C.Rel (SRep w))
      (C.run (GroupMethod.table (MultiplicativeGroup.ops (CheckedInts.euclidean w).toMonoidOps)) catching n (q, f))
      (C.run (GroupMethod.table (MultiplicativeGroup.ops (Guarded.euclidean w).toMonoidOps)) catching n
        (q, fun i => (f i).1)) :=
  ⟨C103_all_groups (denoted w) C (C103_groups w).1.1 (C103_groups w).1.2
      (AdditiveGroup.stops_ops (CheckedInts.stops_euclidean w).toStopsAbelianGroup)
      (AdditiveGroup.stops_ops (C103_stops w).toStopsAbelianGroup) catching n ⟨rfl, fun _ => rfl⟩,
    C103_all_groups (denoted w) C (C103_groups w).2.1 (C103_groups w).2.2
      (MultiplicativeGroup.stops_ops (CheckedInts.stops_euclidean w).toStopsMonoid)
      (MultiplicativeGroup.stops_ops (C103_stops w).toStopsMonoid) catching n ⟨rfl, fun _ => rfl⟩⟩

omit [Cfg] [Width w] in
/-- C103: the methods of the unsigned machine integers that compute return and panic exactly as those of the natural numbers with
checks. -/
theorem C103_uints_alike (w : ℕ) [UWidth w] (a b : UInt' w) (n : ℕ) :
    Alike (URep w) ((CheckedUints.semiRing w).add a b) ((Guarded.naturals w).add a.1 b.1) ∧
    Alike (URep w) ((CheckedUints.semiRing w).addAssign a b) ((Guarded.naturals w).addAssign a.1 b.1) ∧
    Alike (URep w) ((CheckedUints.semiRing w).double a) ((Guarded.naturals w).double a.1) ∧
    Alike (URep w) ((CheckedUints.semiRing w).utimes n a) ((Guarded.naturals w).utimes n a.1) ∧
    Alike (URep w) ((CheckedUints.semiRing w).mul a b) ((Guarded.naturals w).mul a.1 b.1) ∧
    Alike (URep w) ((CheckedUints.semiRing w).mulAssign a b) ((Guarded.naturals w).mulAssign a.1 b.1) ∧
    Alike (URep w) ((CheckedUints.semiRing w).square a) ((Guarded.naturals w).square a.1) := by
  have h := (C103_uints w).1
  have h' := (C103_uints w).2
  have s := CheckedUints.stops_semiRing w
  have s' := C103_stops_naturals w
  exact ⟨(h.add rfl rfl).alike (h'.add rfl rfl) (s.add _ _) (s'.add _ _),
    (h.addAssign rfl rfl).alike (h'.addAssign rfl rfl) (s.addAssign _ _) (s'.addAssign _ _),
    (h.double rfl).alike (h'.double rfl) (s.double _) (s'.double _),
    (h.utimes n rfl).alike (h'.utimes n rfl) (s.utimes _ _) (s'.utimes _ _),
    (h.mul rfl rfl).alike (h'.mul rfl rfl) (s.mul _ _) (s'.mul _ _),
    (h.mulAssign rfl rfl).alike (h'.mulAssign rfl rfl) (s.mulAssign _ _) (s'.mulAssign _ _),
    (h.square rfl).alike (h'.square rfl) (s.square _) (s'.square _)⟩

end

/-! ## Concrete cases -/

namespace OutcomesExamples

local instance : Cfg := ⟨true, true, 64, by decide⟩

/-- Doubles the number in the first register until that panics, and then multiplies it by the one in the second register. -/
def growing : Client EuclideanMethod where
  Q := ℕ
  act := fun q => if q = 0 then some (.ring .double, 0, 0, 0) else if q = 1 then some (.ring .mul, 0, 1, 0) else none
  next := fun q s => match s with
    | .panicked => q + 1
    | _ => if q = 0 then 0 else 2

-- 5, 10, 20, 40, 80, a panic at 160, and then 80 times -1
example : ∃ f' : ℕ → SInt 8, (f' 0).1 = -80 ∧
    growing.run (EuclideanMethod.table (CheckedInts.euclidean 8)) true 6
      ((0 : ℕ), fun i => if i = 0 then SInt.lit 5 (by decide) else SInt.lit (-1) (by decide)) = .ok ((2 : ℕ), f') := by
  have h := C103_caught 8 growing true 6 (0 : ℕ)
    fun i => if i = 0 then SInt.lit 5 (by decide) else SInt.lit (-1) (by decide)
  revert h
  generalize growing.run (EuclideanMethod.table (CheckedInts.euclidean 8)) true 6 _ = s
  intro h
  cases h with
  | @ok a _ h =>
    obtain ⟨q, f⟩ := a
    obtain ⟨h1, h2⟩ := h
    refine ⟨f, (h2 0).trans rfl, ?_⟩
    rw [show q = (2 : ℕ) from h1]

-- if the panic is not caught it ends the program, over both
example :
    growing.run (EuclideanMethod.table (CheckedInts.euclidean 8)) false 6
      ((0 : ℕ), fun i => if i = 0 then SInt.lit 5 (by decide) else SInt.lit (-1) (by decide)) = .panic :=
  (C103_caught 8 growing false 6 (0 : ℕ) _).panic_iff.2 rfl

end OutcomesExamples

end Abstalg
