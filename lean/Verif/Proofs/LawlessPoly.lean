import Verif.Proofs.LawlessVector
import Verif.Model.StatefulPolynomials

/-! # Yielding through polynomials -/

set_option linter.unusedSectionVars false

set_option autoImplicit false

namespace Abstalg.Stateful

theorem bind_assoc {σ α β γ : Type} (x : St σ α) (f : α → St σ β) (g : β → St σ γ) :
    (x >>= f) >>= g = x >>= fun a => f a >>= g := by
  funext s
  show St.bind (St.bind x f) g s = St.bind x (fun a => St.bind (f a) g) s
  unfold St.bind
  cases x s <;> rfl

/-! ## The default methods of groups -/

section

variable {σ E : Type} {T : Limits σ} {S : E → Prop}

theorem yields_isDefault {A : DomainOps σ E} (h : KeepsDomain T S A) {one : St σ E} (h1 : Yields T S one) {a : E} (ha : S a) :
    Answers T (do A.equals a (← one)) := h1.bind fun _ h1 => h.equals ha h1

theorem yields_sub {neg : E → St σ E} {add : E → E → St σ E} (hneg : ∀ {a}, S a → Yields T S (neg a))
    (hadd : ∀ {a b}, S a → S b → Yields T S (add a b)) {a b : E} (ha : S a) (hb : S b) :
    Yields T S (do let e ← neg b; add e a) := (hneg hb).bind fun _ h => hadd h ha

theorem yields_subAssign {neg : E → St σ E} {add : E → E → St σ E} (hneg : ∀ {a}, S a → Yields T S (neg a))
    (hadd : ∀ {a b}, S a → S b → Yields T S (add a b)) {a b : E} (ha : S a) (hb : S b) :
    Yields T S (do add a (← neg b)) := (hneg hb).bind fun _ h => hadd ha h

end

namespace PolynomialAlgebra

variable [Cfg] {σ E : Type} {T : Limits σ} {S U : E → Prop} {v w : List E}

section group

variable {A : AbelianGroupOps σ E} (hA : KeepsAbelianGroup T S A)

include hA

theorem keeps_domain : KeepsDomain T (Each S) (domain A) where
  contains := fun {v} hv => by
    refine .ite (fun _ => .ok trivial) fun he => ?_
    refine Yields.bind (yields_allRes fun a ha => hA.contains (hv a ha)) fun b _ => .ite (fun _ => ?_) fun _ => .ok trivial
    refine Yields.bind (yields_idx hv ?_) fun _ h => (hA.isZero h).not
    cases v with
    | nil => exact absurd rfl he
    | cons a v => rw [List.length_cons]; omega
  equals := fun hv hw => .ite (fun _ => .ok trivial) fun _ =>
    yields_allRes fun p hp => hA.equals (hv _ (List.of_mem_zip hp).1) (hw _ (List.of_mem_zip hp).2)

theorem yields_add_longer (hv : Each S v) (hw : Each S w) (hl : w.length ≤ v.length) : Yields T (Vec S v.length)
    (forLoop (List.range w.length) v fun elem3 i => do
      let a ← A.add (← idx elem3 i) (← idx w i)
      setIdx elem3 i a) := by
  refine yields_forLoop (fun i hi u hu => ?_) ⟨rfl, hv⟩
  have hi := List.mem_range.1 hi
  exact Yields.bind (yields_idx hu.2 (by rw [hu.1]; omega)) fun _ hx => Yields.bind (yields_idx hw hi) fun _ hy =>
    Yields.bind (hA.add hx hy) fun _ hz => yields_setIdx hu (by omega) hz

theorem yields_add (hv : Each S v) (hw : Each S w) :
    Yields T (fun u => Each S u ∧ u.length ≤ max v.length w.length ∧
      (v.length ≠ w.length → u.length = max v.length w.length)) (PolynomialAlgebra.add A v w) := by
  unfold PolynomialAlgebra.add
  refine .ite (fun hne => ?_) fun he => ?_
  · by_cases hl : v.length > w.length
    · rw [if_pos hl]
      exact (yields_add_longer hA hv hw (by omega)).mono fun u hu => ⟨hu.2, by rw [hu.1]; omega, fun _ => by rw [hu.1]; omega⟩
    · rw [if_neg hl]
      exact (yields_add_longer hA hw hv (by omega)).mono fun u hu => ⟨hu.2, by rw [hu.1]; omega, fun _ => by rw [hu.1]; omega⟩
  · have he : v.length = w.length := by simpa using he
    refine (yields_forRange (T := T) (n := v.length) (fun i (u : List E) => Each S u ∧ u.length ≤ i)
      (fun i hi u hu => ?_) ⟨Each.nil, Nat.le_refl 0⟩).mono fun u hu => ⟨hu.1, by omega, fun h => absurd he h⟩
    refine Yields.bind (yields_idx hv hi) fun _ hx => Yields.bind (yields_idx hw (by omega)) fun _ hy =>
      Yields.bind (hA.add hx hy) fun a ha => Yields.bind (hA.isZero ha) fun _ _ => .ite (fun _ => ?_) fun _ => ?_
    · refine Yields.bind hA.zero fun z hz => ?_
      have hr : Vec S (i + 1) (resize u (i + 1) z) := by
        unfold resize
        refine ⟨?_, Each.append (Each.take hu.1 _) (Each.replicate _ hz)⟩
        have := hu.2
        rw [List.length_append, List.length_take, List.length_replicate]
        omega
      exact (yields_setIdx hr (Nat.lt_succ_self i) ha).mono fun u hu => ⟨hu.2, Nat.le_of_eq hu.1⟩
    · exact .ok ⟨hu.1, by omega⟩

theorem yields_timesTrim (hv : Each S v) {n : ℕ} (hn : n ≤ v.length) :
    Yields T (fun u => Each S u ∧ u.length ≤ n) (timesTrim A v n) := by
  induction n with
  | zero => exact .ok ⟨Each.nil, Nat.le_refl 0⟩
  | succ n ih =>
    refine Yields.bind (yields_idx hv hn) fun _ hx => Yields.bind (hA.isZero hx) fun _ _ => .ite (fun _ => ?_) fun _ => ?_
    · refine Yields.bind hA.zero fun z hz => .ok ⟨Each.append (Each.take hv _) (Each.replicate _ hz), ?_⟩
      unfold resize
      rw [List.length_append, List.length_take, List.length_replicate]
      omega
    · exact (ih (by omega)).mono fun u hu => ⟨hu.1, by omega⟩

theorem yields_times (hv : Each S v) {n : ℤ} (hn : Negatable n) :
    Yields T (fun u => Each S u ∧ u.length ≤ v.length) ((abelianGroup A).times n v) := by
  refine Yields.bind (yields_mapRes fun a ha => hA.times hn (hv a ha)) fun u hu => ?_
  exact (yields_timesTrim hA hu.2 (Nat.le_refl _)).mono fun _ h => ⟨h.1, hu.1 ▸ h.2⟩

theorem yields_neg (hv : Each S v) : Yields T (Vec S v.length) ((abelianGroup A).neg v) :=
  yields_mapRes fun a ha => hA.neg (hv a ha)

end group

theorem keeps_abelianGroup {A : AbelianGroupOps σ E} (hA : KeepsAbelianGroup T S A) :
    KeepsAbelianGroup T (Each S) (abelianGroup A) :=
  have hadd {v w : List E} (hv : Each S v) (hw : Each S w) : Yields T (Each S) (PolynomialAlgebra.add A v w) :=
    (yields_add hA hv hw).mono fun _ h => h.1
  have hneg {v : List E} (hv : Each S v) : Yields T (Each S) ((abelianGroup A).neg v) :=
    (yields_neg hA hv).mono fun _ h => h.2
  { toKeepsDomain := keeps_domain hA
    zero := .ok Each.nil
    isZero := fun _ => .ok trivial
    add := hadd
    addAssign := hadd
    double := fun h => hadd h h
    utimes := fun h => yields_utimes (S := Each S) (.ok Each.nil) (add := PolynomialAlgebra.add A) hadd (fun h => hadd h h) _ h
    neg := hneg
    negAssign := hneg
    sub := yields_sub (S := Each S) (neg := (abelianGroup A).neg) (add := PolynomialAlgebra.add A) hneg hadd
    subAssign := yields_subAssign (S := Each S) (neg := (abelianGroup A).neg) (add := PolynomialAlgebra.add A) hneg hadd
    times := fun hn hv => (yields_times hA hv hn).mono fun _ h => h.1 }

section ring

variable {A : UnitaryRingOps σ E} (hA : KeepsUnitaryRing T S A)

include hA

theorem yields_mul (hv : Each S v) (hw : Each S w) :
    Yields T (Vec S (if v.isEmpty || w.isEmpty then 0 else v.length + w.length - 1)) (PolynomialAlgebra.mul A v w) := by
  unfold PolynomialAlgebra.mul
  by_cases he : (v.isEmpty || w.isEmpty) = true
  · rw [if_pos he, if_pos he]; exact .ok ⟨rfl, Each.nil⟩
  · rw [if_neg he, if_neg he]
    refine Yields.bind hA.zero fun z hz => ?_
    refine yields_forLoop (fun i hi u hu => ?_) (Vec.replicate _ hz)
    refine yields_forLoop (fun j hj u hu => ?_) hu
    have hi := List.mem_range.1 hi
    have hj := List.mem_range.1 hj
    exact Yields.bind (yields_idx hv hi) fun _ hx => Yields.bind (yields_idx hw hj) fun _ hy =>
      Yields.bind (hA.mul hx hy) fun _ ha => Yields.bind (yields_idx hu.2 (by rw [hu.1]; omega)) fun _ hc =>
        Yields.bind (hA.add hc ha) fun _ hb => yields_setIdx hu (by omega) hb

theorem yields_one (h1 : Yields T (fun b => b = false) (A.one >>= fun a => A.isZero a)) :
    Yields T (Vec S 1) (unitaryRing A).one := by
  show Yields T (Vec S 1) (A.one >>= fun a => A.isZero a >>= fun b => liftM (Res.assert (!b)) >>= fun _ =>
    A.one >>= fun c => pure [c])
  rw [← bind_assoc]
  exact h1.bind fun b hb => Yields.bind (Yields.assert (by rw [hb]; rfl)) fun _ _ => hA.one.bind fun _ h =>
    .ok ⟨rfl, Each.single h⟩

theorem yields_oneAllowed (hp : ∀ s, T.state s → T.panic s) : Yields T (Each S) (unitaryRing A).one :=
  Yields.bind hA.one fun _ h => Yields.bind (hA.isZero h) fun b _ => Yields.bind (Yields.assertAllowed hp (!b)) fun _ _ =>
    hA.one.bind fun _ h => .ok (Each.single h)

theorem yields_isOne (hv : Each S v) : Answers T ((unitaryRing A).isOne v) :=
  .ite (fun h => Yields.bind (yields_idx hv (by rw [show v.length = 1 by simpa using h]; exact Nat.one_pos)) fun _ h => hA.isOne h)
    fun _ => .ok trivial

theorem yields_tryInv (hv : Each S v) : Yields T (Maybe (Vec S 1)) ((unitaryRing A).tryInv v) := by
  refine .ite (fun h => Yields.bind (yields_idx hv (by rw [show v.length = 1 by simpa using h]; exact Nat.one_pos))
    fun _ h => Yields.bind (hA.tryInv h) fun o ho => ?_) fun _ => .ok Maybe.none
  cases o with
  | none => exact .ok Maybe.none
  | some a => exact .ok (Maybe.some ⟨rfl, Each.single (ho a rfl)⟩)

theorem keeps_unitaryRing (h1 : Yields T (Each S) (unitaryRing A).one) : KeepsUnitaryRing T (Each S) (unitaryRing A) :=
  have ha := keeps_abelianGroup hA.toKeepsAbelianGroup
  have hmul {v w : List E} (hv : Each S v) (hw : Each S w) : Yields T (Each S) (PolynomialAlgebra.mul A v w) :=
    (yields_mul hA hv hw).mono fun _ h => h.2
  { toKeepsAbelianGroup := ha
    mul := hmul
    mulAssign := hmul
    square := fun h => hmul h h
    one := h1
    isOne := yields_isOne hA
    tryInv := fun hv => (yields_tryInv hA hv).mono fun _ h a ha => (h a ha).2
    invertible := fun hv => (yields_tryInv hA hv).isSome
    int := fun hn => h1.bind fun _ h => ha.times hn h }

end ring

/-! ### Division -/

/-- The check of the leading coefficient. -/
def leading (A : UnitaryRingOps σ E) (a : E) : St σ Unit := A.isZero a >>= fun b => liftM (Res.assert (!b))

theorem yields_leading {A : UnitaryRingOps σ E} {a : E} (h : Yields T (fun b => b = false → U a) (A.isZero a))
    (hz : Yields T (fun b => b = false) (A.isZero a)) : Yields T (fun _ => U a) (leading A a) :=
  (h.and hz).bind fun _ hb => (Yields.assert (by rw [hb.2]; rfl)).mono fun _ _ => hb.1 hb.2

theorem yields_leadingAllowed {A : UnitaryRingOps σ E} {a : E} (hp : ∀ s, T.state s → T.panic s)
    (h : Yields T (fun b => b = false → U a) (A.isZero a)) : Yields T (fun _ => U a) (leading A a) :=
  h.bind fun b hb => (Yields.assertAllowed hp (!b)).mono fun _ h => hb (by simpa using h)

theorem last_lt (hw : w ≠ []) : w.length - 1 < w.length := by
  have := List.length_pos_iff.2 hw
  omega

section integral

variable {A : IntegralDomainOps σ E} (hA : KeepsIntegralDomain T S U A)

include hA

theorem yields_tryDivLoop (hw : Each S w) (hne : w ≠ []) {a : E} (ha : U a) {m : ℕ} (hm : w.length ≤ m) {k : ℕ}
    (hk : k ≤ m + 1 - w.length) {quo rem : List E} (hq : Vec S (m + 1 - w.length) quo) (hr : Vec S m rem) :
    Yields T (Maybe fun p => Vec S (m + 1 - w.length) p.1 ∧ Vec S m p.2) (tryDivLoop A w a k quo rem) := by
  have hpos := List.length_pos_iff.2 hne
  induction k generalizing quo rem with
  | zero => exact .ok (Maybe.some ⟨hq, hr⟩)
  | succ i ih =>
    unfold tryDivLoop
    refine Yields.bind (yields_idx hr.2 (by rw [hr.1]; omega)) fun x hx => Yields.bind (hA.tryDiv hx ha) fun o ho => ?_
    cases o with
    | none => exact .ok Maybe.none
    | some q =>
      refine Yields.bind (yields_setIdx hq (by omega) (ho q rfl)) fun quo hq =>
        Yields.bind (yields_idx hq.2 (by rw [hq.1]; omega)) fun y hy => Yields.bind (hA.neg hy) fun b hb =>
          Yields.bind (yields_forLoop (Q := Vec S m) (fun j hj u hu => ?_) hr) fun rem hr => ih (by omega) hq hr
      have hj := List.mem_range.1 hj
      exact Yields.bind (yields_idx hw (by omega)) fun _ hx => Yields.bind (hA.mul hx hb) fun _ hc =>
        Yields.bind (yields_idx hu.2 (by rw [hu.1]; omega)) fun _ hx => Yields.bind (hA.addAssign hx hc) fun _ hd =>
          yields_setIdx hu (by omega) hd

theorem yields_tryDiv (hv : Each S v) (hw : Each S w) (hne : Answers T (liftM (Res.assert (!w.isEmpty)) : St σ Unit))
    (hl : ∀ a, w.getLast? = some a → Yields T (fun _ => U a) (leading A.toUnitaryRingOps a)) :
    Yields T (Maybe (Vec S (v.length + 1 - w.length))) (PolynomialAlgebra.tryDiv A v w) := by
  unfold PolynomialAlgebra.tryDiv
  by_cases he : w = []
  · subst he
    refine Yields.bind (Q := fun _ => False) (fun s hs => ?_) fun _ h => h.elim
    exact hne s hs
  refine hne.bind fun _ _ => .ite (fun hlt => .ite (fun _ => .ok (Maybe.some ⟨?_, Each.nil⟩)) fun _ => .ok Maybe.none) fun hge => ?_
  · rw [List.length_nil]; omega
  have hlast : w.getLast? = some (w[w.length - 1]'(last_lt he)) := by
    rw [List.getLast?_eq_getElem?, List.getElem?_eq_getElem (last_lt he)]
  refine Yields.bind hA.zero fun z hz => ?_
  rw [idx_lt (last_lt he)]
  refine Yields.bind (Yields.lok (Q := fun a => a = w[w.length - 1]'(last_lt he)) rfl) fun a ha => ?_
  subst ha
  have hl := hl _ hlast
  show Yields T _ (A.isZero _ >>= fun b => liftM (Res.assert (!b)) >>= fun _ => _)
  rw [← bind_assoc]
  refine Yields.bind hl fun _ hu => ?_
  rw [List.length_replicate, show v.length - w.length + 1 = v.length + 1 - w.length by omega]
  refine Yields.bind (yields_tryDivLoop hA hw he hu (m := v.length) (by omega) (Nat.le_refl _) (Vec.replicate _ hz) ⟨rfl, hv⟩)
    fun o ho => ?_
  cases o with
  | none => exact .ok Maybe.none
  | some p =>
    obtain ⟨q, r⟩ := p
    have ho := ho _ rfl
    exact Yields.bind (yields_allRes fun a ha => hA.isZero (Each.take ho.2.2 _ a ha)) fun _ _ =>
      .ite (fun _ => .ok (Maybe.some ho.1)) fun _ => .ok Maybe.none

theorem yields_associateRepr (hv : Each S v) (hl : ∀ a, v.getLast? = some a → U a) :
    Yields T (Vec S v.length) ((integralDomain A).associateRepr v) := by
  refine .ite (fun h => ?_) fun h => ?_
  · rw [List.isEmpty_iff.1 h]; exact .ok ⟨rfl, Each.nil⟩
  · have hne : v ≠ [] := fun h' => h (by rw [h']; rfl)
    rw [idx_lt (last_lt hne)]
    refine Yields.bind (Yields.lok (Q := U) (hl _ ?_)) fun a ha => Yields.bind (hA.associateCoef ha) fun c hc =>
      yields_mapRes fun x hx => hA.mul (hv x hx) hc
    rw [List.getLast?_eq_getElem?, List.getElem?_eq_getElem (last_lt hne)]

theorem yields_associateCoef (hne : v ≠ []) (hl : ∀ a, v.getLast? = some a → U a) :
    Yields T (Vec S 1) ((integralDomain A).associateCoef v) := by
  refine Yields.bind (Yields.assert (by cases v with | nil => exact absurd rfl hne | cons a v => rfl)) fun _ _ => ?_
  rw [idx_lt (last_lt hne)]
  refine Yields.bind (Yields.lok (Q := U) (hl _ ?_)) fun a ha => Yields.bind (hA.associateCoef ha) fun c hc =>
    .ok ⟨rfl, Each.single hc⟩
  rw [List.getLast?_eq_getElem?, List.getElem?_eq_getElem (last_lt hne)]

end integral

section field

variable {A : FieldOps σ E} (hA : KeepsField T S U A)

include hA

theorem yields_quoRemLoop (hw : Each S w) (hne : w ≠ []) {a : E} (ha : U a) {m : ℕ} (hm : w.length ≤ m) {k : ℕ}
    (hk : k ≤ m + 1 - w.length) {quo rem : List E} (hq : Vec S (m + 1 - w.length) quo) (hr : Vec S m rem) :
    Yields T (fun p => Vec S (m + 1 - w.length) p.1 ∧ Vec S m p.2) (quoRemLoop A w a k quo rem) := by
  have hpos := List.length_pos_iff.2 hne
  induction k generalizing quo rem with
  | zero => exact .ok ⟨hq, hr⟩
  | succ i ih =>
    unfold quoRemLoop
    refine Yields.bind (yields_idx hr.2 (by rw [hr.1]; omega)) fun x hx => Yields.bind (hA.div hx ha) fun q hq' =>
      Yields.bind (yields_setIdx hq (by omega) hq') fun quo hq =>
        Yields.bind (yields_idx hq.2 (by rw [hq.1]; omega)) fun y hy => Yields.bind (hA.neg hy) fun b hb =>
          Yields.bind (yields_forLoop (Q := Vec S m) (fun j hj u hu => ?_) hr) fun rem hr => ih (by omega) hq hr
    have hj := List.mem_range.1 hj
    exact Yields.bind (yields_idx hw (by omega)) fun _ hx => Yields.bind (hA.mul hx hb) fun _ hc =>
      Yields.bind (yields_idx hu.2 (by rw [hu.1]; omega)) fun _ hx => Yields.bind (hA.add hx hc) fun _ hd =>
        yields_setIdx hu (by omega) hd

theorem yields_trimLen (hv : Each S v) {n : ℕ} (hn : n ≤ v.length) : Yields T (fun k => k ≤ n) (trimLen A v n) := by
  induction n with
  | zero => exact .ok (Nat.le_refl 0)
  | succ n ih =>
    exact Yields.bind (yields_idx hv hn) fun _ hx => Yields.bind (hA.isZero hx) fun _ _ =>
      .ite (fun _ => (ih (by omega)).mono fun k hk => Nat.le_succ_of_le hk) fun _ => .ok (Nat.le_refl _)

theorem yields_quoRem (hv : Each S v) (hw : Each S w) (hne : Answers T (liftM (Res.assert (!w.isEmpty)) : St σ Unit))
    (hl : ∀ a, w.getLast? = some a → Yields T (fun _ => U a) (leading A.toUnitaryRingOps a)) :
    Yields T (fun p => Vec S (v.length + 1 - w.length) p.1 ∧ Each S p.2 ∧ p.2.length ≤ v.length ∧ p.2.length < w.length)
      (PolynomialAlgebra.quoRem A v w) := by
  unfold PolynomialAlgebra.quoRem
  by_cases he : w = []
  · subst he
    refine Yields.bind (Q := fun _ => False) (fun s hs => ?_) fun _ h => h.elim
    exact hne s hs
  have hpos := List.length_pos_iff.2 he
  refine hne.bind fun _ _ => .ite (fun hlt => .ok ⟨⟨?_, Each.nil⟩, hv, Nat.le_refl _, hlt⟩) fun hge => ?_
  · rw [List.length_nil]; omega
  have hlast : w.getLast? = some (w[w.length - 1]'(last_lt he)) := by
    rw [List.getLast?_eq_getElem?, List.getElem?_eq_getElem (last_lt he)]
  refine Yields.bind hA.zero fun z hz => ?_
  rw [idx_lt (last_lt he)]
  refine Yields.bind (Yields.lok (Q := fun a => a = w[w.length - 1]'(last_lt he)) rfl) fun a ha => ?_
  subst ha
  have hl := hl _ hlast
  show Yields T _ (A.isZero _ >>= fun b => liftM (Res.assert (!b)) >>= fun _ => _)
  rw [← bind_assoc]
  refine Yields.bind hl fun _ hu => ?_
  rw [List.length_replicate, show v.length - w.length + 1 = v.length + 1 - w.length by omega]
  refine Yields.bind (yields_quoRemLoop hA hw he hu (m := v.length) (by omega) (Nat.le_refl _) (Vec.replicate _ hz) ⟨rfl, hv⟩) ?_
  rintro ⟨q, r⟩ ⟨hq, hr⟩
  refine Yields.bind (yields_trimLen hA hr.2 (by rw [hr.1]; omega)) fun k hk => .ok ⟨hq, Each.take hr.2 _, ?_, ?_⟩
  · rw [List.length_take, hr.1]; omega
  · rw [List.length_take]; omega

end field

end PolynomialAlgebra

end Abstalg.Stateful
