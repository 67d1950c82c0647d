import Verif.Spec.Vectors
import Verif.Proofs.Lists
import Verif.Model.VectorAlgebra
import Mathlib.Algebra.Ring.Pi
import Mathlib.Algebra.Group.Pi.Units
import Mathlib.Order.BooleanAlgebra.Basic
import Mathlib.Order.Bounds.Basic

/-! # Vectors -/

set_option linter.unusedSectionVars false

set_option autoImplicit false

universe u v

namespace Abstalg

section

variable {E : Type} {R : Type u} {rep : E → R → Prop} {n : ℕ} {v w : List E} {f : Fin n → R}

/-- What the cell at position `i` has to satisfy. -/
def cellOf (rep : E → R → Prop) (f : Fin n → R) (i : ℕ) (a : E) : Prop :=
  ∃ h : i < n, rep a (f ⟨i, h⟩)

theorem vecRep_iff : VecRep rep v f ↔ Cells (fun a P => P a) v n (cellOf rep f) := by
  constructor
  · rintro ⟨h, h'⟩
    exact ⟨h, fun i hi => ⟨h ▸ hi, h' ⟨i, h ▸ hi⟩⟩⟩
  · rintro ⟨h, h'⟩
    exact ⟨h, fun i => (h' i.1 (h ▸ i.2)).2⟩

theorem VecRep.length (h : VecRep rep v f) : v.length = n := h.1

end

namespace VectorAlgebra

variable {E : Type} {R : Type u} {mp : Prop} {rep : E → R → Prop} {n : ℕ} {v w : List E}
  {f g : Fin n → R}

theorem lenIs_eq (h : VecRep rep v f) : lenIs n v = true := by simp [lenIs, h.length]

theorem lenIs_ne (h : v.length ≠ n) : lenIs n v = false := by simp [lenIs, h]

section

variable {F : Type}

theorem zipMap_panics (op : E → E → Res F) (h : v.length ≠ n ∨ w.length ≠ n) :
    zipMap n op v w = .panic := by
  unfold zipMap
  rcases h with h | h <;> simp [lenIs_ne h]

theorem zipEach_panics (op : E → E → Res E) (h : v.length ≠ n ∨ w.length ≠ n) :
    zipEach n op v w = .panic := by
  unfold zipEach
  rcases h with h | h <;> simp [lenIs_ne h]

theorem zipAll_panics (op : E → E → Res Bool) (h : v.length ≠ n ∨ w.length ≠ n) :
    zipAll n op v w = .panic := by
  unfold zipAll
  rcases h with h | h <;> simp [lenIs_ne h]

theorem mapEach_panics (op : E → Res E) (h : v.length ≠ n) : mapEach n op v = .panic := by
  unfold mapEach
  simp [lenIs_ne h]

theorem allEach_panics (op : E → Res Bool) (h : v.length ≠ n) : allEach n op v = .panic := by
  unfold allEach
  simp [lenIs_ne h]

end

theorem diagonal_spec {a : E} {x : R} (ha : rep a x) :
    VecRep rep (diagonal n a) (fun _ : Fin n => x) :=
  ⟨by simp [diagonal], fun i => by simpa [diagonal] using ha⟩

theorem const_spec {c : Res E} {x : R} (h : Returns mp c (rep · x)) :
    Returns mp (do return diagonal n (← c)) (VecRep rep · (fun _ : Fin n => x)) :=
  Returns.bind h fun _ ha => diagonal_spec ha

theorem zipMap_spec {F : Type} {S : Type v} {rep' : F → S → Prop} {op : E → E → Res F}
    {o : R → R → S}
    (h : ∀ {a b x y}, rep a x → rep b y → Returns mp (op a b) (rep' · (o x y)))
    (hv : VecRep rep v f) (hw : VecRep rep w g) :
    Returns mp (zipMap n op v w) (VecRep rep' · (fun i => o (f i) (g i))) := by
  unfold zipMap
  rw [lenIs_eq hv, lenIs_eq hw]
  refine (((vecRep_iff.1 hv).zip (vecRep_iff.1 hw)).map (rep' := fun a P => P a)
    (d := cellOf rep' fun i => o (f i) (g i)) fun i hi p hp => ?_).mono fun _ h => vecRep_iff.2 h
  exact (h hp.1.2 hp.2.2).mono fun _ h => ⟨hi, h⟩

theorem zipEach_spec {op : E → E → Res E} {o : R → R → R}
    (h : ∀ {a b x y}, rep a x → rep b y → Returns mp (op a b) (rep · (o x y)))
    (hv : VecRep rep v f) (hw : VecRep rep w g) :
    Returns mp (zipEach n op v w) (VecRep rep · (fun i => o (f i) (g i))) := by
  unfold zipEach
  rw [lenIs_eq hv, lenIs_eq hw]
  refine ((vecRep_iff.1 hv).zipForEach (vecRep_iff.1 hw)
    (e := cellOf rep fun i => o (f i) (g i)) fun i hi a b ha hb => ?_).mono
    fun _ h => vecRep_iff.2 h
  exact (h ha.2 hb.2).mono fun _ h => ⟨hi, h⟩

theorem zipAll_spec {p : E → E → Res Bool} {q : R → R → Prop}
    (h : ∀ {a b x y}, rep a x → rep b y → Decides mp (p a b) (q x y))
    (hv : VecRep rep v f) (hw : VecRep rep w g) :
    Decides mp (zipAll n p v w) (∀ i, q (f i) (g i)) := by
  unfold zipAll
  rw [lenIs_eq hv, lenIs_eq hw]
  refine (((vecRep_iff.1 hv).zip (vecRep_iff.1 hw)).all
    (q := fun i => ∀ h : i < n, q (f ⟨i, h⟩) (g ⟨i, h⟩)) fun i hi p hp => ?_).iff ?_
  · exact (h hp.1.2 hp.2.2).iff ⟨fun h _ => h, fun h => h hi⟩
  · exact ⟨fun h i => h i.1 i.2 i.2, fun h i hi _ => h ⟨i, hi⟩⟩

theorem mapEach_spec {op : E → Res E} {o : R → R}
    (h : ∀ {a x}, rep a x → Returns mp (op a) (rep · (o x))) (hv : VecRep rep v f) :
    Returns mp (mapEach n op v) (VecRep rep · (fun i => o (f i))) := by
  unfold mapEach
  rw [lenIs_eq hv]
  refine ((vecRep_iff.1 hv).map (rep' := fun a P => P a)
    (d := cellOf rep fun i => o (f i)) fun i hi a ha => ?_).mono fun _ h => vecRep_iff.2 h
  exact (h ha.2).mono fun _ h => ⟨hi, h⟩

theorem allEach_spec {p : E → Res Bool} {q : R → Prop}
    (h : ∀ {a x}, rep a x → Decides mp (p a) (q x)) (hv : VecRep rep v f) :
    Decides mp (allEach n p v) (∀ i, q (f i)) := by
  unfold allEach
  rw [lenIs_eq hv]
  refine ((vecRep_iff.1 hv).all (q := fun i => ∀ h : i < n, q (f ⟨i, h⟩)) fun i hi a ha => ?_).iff ?_
  · exact (h ha.2).iff ⟨fun h _ => h, fun h => h hi⟩
  · exact ⟨fun h i => h i.1 i.2 i.2, fun h i hi _ => h ⟨i, hi⟩⟩

theorem domain_spec {base : DomainOps E} (h : DomainSpec mp base rep) :
    DomainSpec mp (domain n base) (VecRep (n := n) rep) where
  rep_unique := fun h1 h2 => funext fun i => h.rep_unique (h1.2 i) (h2.2 i)
  contains := by
    intro v f hv
    simp only [domain]
    rw [if_neg (by simp [hv.length])]
    refine ((vecRep_iff.1 hv).all (q := fun _ => True) fun i hi a ha =>
      (h.contains ha.2).mono fun b hb => by simpa using hb).mono fun b hb => ?_
    exact hb.2 fun _ _ => trivial
  equals := fun hv hw => (zipAll_spec (rep := rep) (p := base.equals) (q := Eq) h.equals hv hw).iff funext_iff.symm

theorem domain_exact {base : DomainOps E} {dom : E → Prop} (h : ContainsExact mp base rep dom) :
    ContainsExact mp (domain n base) (VecRep (n := n) rep) fun v => ∀ a, a ∈ v → dom a := by
  intro v hd
  simp only [domain]
  split
  · rename_i hl
    refine decides_ok ⟨nofun, ?_⟩
    rintro ⟨f, hf⟩
    exact absurd hf.length (by simpa using hl)
  · rename_i hl
    have hl : v.length = n := by simpa using hl
    refine (allRes_spec (q := fun a => ∃ x, rep a x) fun a ha => h a (hd a ha)).iff ⟨fun h1 => ?_, ?_⟩
    · choose f hf using fun i : Fin n => h1 (v[i.1]'(hl ▸ i.2)) (List.getElem_mem _)
      exact ⟨f, hl, hf⟩
    · rintro ⟨f, _, hf⟩ a ha
      obtain ⟨i, hi, rfl⟩ := List.mem_iff_getElem.1 ha
      exact ⟨f ⟨i, hl ▸ hi⟩, hf ⟨i, hl ▸ hi⟩⟩

theorem semigroup_spec [Mul R] {base : SemigroupOps E} (h : SemigroupSpec mp base rep) :
    SemigroupSpec mp (semigroup n base) (VecRep (n := n) rep) where
  toDomainSpec := domain_spec h.toDomainSpec
  mul := fun hv hw => zipMap_spec h.mul hv hw
  mulAssign := fun hv hw => zipEach_spec h.mulAssign hv hw
  square := fun hv => mapEach_spec (o := fun x => x * x) h.square hv

theorem tryInvLoop_spec [Monoid R] {tryInv : E → Res (Option E)}
    (h : ∀ {a x}, rep a x → Returns mp (tryInv a) fun
      | some b => ∃ y, rep b y ∧ x * y = 1 ∧ y * x = 1
      | none => ¬ IsUnit x) (f : ℕ → R) :
    ∀ {l : List E} {n k : ℕ} {acc : List E}, Cells rep l n (fun i => f (k + i)) →
      Cells (fun b x => ∃ y, rep b y ∧ x * y = 1 ∧ y * x = 1) acc k f →
      Returns mp (tryInvLoop tryInv l acc) fun
      | some w => Cells (fun b x => ∃ y, rep b y ∧ x * y = 1 ∧ y * x = 1) w (k + n) f
      | none => ∃ i, i < k + n ∧ ¬ IsUnit (f i) := by
  intro l
  induction l with
  | nil =>
    intro n k acc hl ha
    obtain rfl : n = 0 := hl.1.symm
    exact ha
  | cons a l ih =>
    intro n k acc hl ha
    obtain rfl : l.length + 1 = n := by simpa using hl.1
    rw [Cells.cons_iff] at hl
    rw [tryInvLoop]
    refine Returns.bind (h hl.1) fun o ho => ?_
    cases o with
    | none => exact ⟨k, by omega, ho⟩
    | some b =>
      have := ih (n := l.length) (k := k + 1) (acc := acc ++ [b])
        ((hl.2).congr fun i _ => by rw [add_assoc, add_comm 1]) ?_
      · rwa [show k + 1 + l.length = k + (l.length + 1) by omega] at this
      · refine (ha.append (w := [b]) (m := 1) (d := fun i => f (k + i))
          ⟨rfl, fun i hi => ?_⟩).congr fun i _ => ?_
        · obtain rfl : i = 0 := by simpa using hi
          exact ho
        · split
          · rfl
          · rw [Nat.add_sub_cancel' (by omega)]

theorem monoid_spec [Monoid R] {base : MonoidOps E} (h : MonoidSpec mp base rep) :
    MonoidSpec mp (monoid n base) (VecRep (n := n) rep) where
  toSemigroupSpec := semigroup_spec h.toSemigroupSpec
  one := const_spec h.one
  isOne := fun hv => (allEach_spec (rep := rep) (p := base.isOne) (q := (· = 1)) h.isOne hv).iff funext_iff.symm
  tryInv := by
    intro v f hv
    have hf : ∀ i : Fin n, (fun i => if h : i < n then f ⟨i, h⟩ else 1) i.1 = f i := fun i =>
      dif_pos i.2
    have hc : Cells rep v n fun i => (fun i => if h : i < n then f ⟨i, h⟩ else 1) (0 + i) := by
      refine ⟨hv.length, fun i hi => ?_⟩
      have hi' : i < n := hv.length ▸ hi
      simpa [hi'] using hv.2 ⟨i, hi'⟩
    simp only [monoid]
    rw [lenIs_eq hv, assert_true, ok_bind]
    refine (tryInvLoop_spec (rep := rep) h.tryInv (fun i => if h : i < n then f ⟨i, h⟩ else 1) hc Cells.nil).mono fun o ho => ?_
    cases o with
    | some w =>
      obtain ⟨hl, hw⟩ := ho
      rw [zero_add] at hl
      have hw' : ∀ i : Fin n, ∃ y, rep (w[i.1]'(hl ▸ i.2)) y ∧ f i * y = 1 ∧ y * f i = 1 := fun i => by
        have := hw i.1 (hl ▸ i.2)
        rwa [hf] at this
      choose g hg using hw'
      exact ⟨g, ⟨hl, fun i => (hg i).1⟩, funext fun i => (hg i).2.1, funext fun i => (hg i).2.2⟩
    | none =>
      obtain ⟨i, hi, hu⟩ := ho
      rw [zero_add] at hi
      intro hu'
      refine hu ?_
      rw [dif_pos hi]
      exact Pi.isUnit_iff.1 hu' ⟨i, hi⟩
  invertible := fun hv => (allEach_spec (rep := rep) (p := base.invertible) (q := IsUnit) h.invertible hv).iff Pi.isUnit_iff.symm

theorem group_spec [Cfg] [Group R] {base : GroupOps E} (h : GroupSpec mp base rep) :
    GroupSpec mp (group n base) (VecRep (n := n) rep) :=
  have hm := monoid_spec (n := n) h.toMonoidSpec
  have hinv : ∀ {v : List E} {f : Fin n → R}, VecRep rep v f →
      Returns mp ((group n base).inv v) (VecRep rep · f⁻¹) := fun hv =>
    mapEach_spec (o := fun x => x⁻¹) h.inv hv
  { toMonoidSpec := hm
    inv := hinv
    power := fun k hk v f hv => by
      have := group_power_default (rep := VecRep (n := n) rep) hm.one hm.mulAssign hm.square hinv
        k hk hv
      exact this }

theorem commutativeMonoid_spec [AddCommMonoid R] {base : CommutativeMonoidOps E}
    (h : CommutativeMonoidSpec mp base rep) :
    CommutativeMonoidSpec mp (commutativeMonoid n base) (VecRep (n := n) rep) :=
  have hzero : Returns mp (commutativeMonoid n base).zero (VecRep (n := n) rep · 0) :=
    const_spec h.zero
  have hadd : ∀ {v w : List E} {f g : Fin n → R}, VecRep rep v f → VecRep rep w g →
      Returns mp ((commutativeMonoid n base).addAssign v w) (VecRep rep · (f + g)) :=
    fun hv hw => zipEach_spec h.addAssign hv hw
  have hdbl : ∀ {v : List E} {f : Fin n → R}, VecRep rep v f →
      Returns mp ((commutativeMonoid n base).double v) (VecRep rep · (f + f)) :=
    fun hv => mapEach_spec (o := fun x => x + x) h.double hv
  { toDomainSpec := domain_spec h.toDomainSpec
    zero := hzero
    isZero := fun hv => (allEach_spec (rep := rep) (p := base.isZero) (q := (· = 0)) h.isZero hv).iff funext_iff.symm
    add := fun hv hw => zipMap_spec h.add hv hw
    addAssign := hadd
    double := hdbl
    utimes := fun k v f hv => by
      have := utimes_default (rep := VecRep (n := n) rep) hzero hadd hdbl k hv
      exact this }

theorem abelianGroup_spec [Cfg] [AddCommGroup R] {base : AbelianGroupOps E}
    (h : AbelianGroupSpec mp base rep) :
    AbelianGroupSpec mp (abelianGroup n base) (VecRep (n := n) rep) :=
  have hc := commutativeMonoid_spec (n := n) h.toCommutativeMonoidSpec
  have hneg : ∀ {v : List E} {f : Fin n → R}, VecRep rep v f →
      Returns mp ((abelianGroup n base).neg v) (VecRep rep · (-f)) :=
    fun hv => mapEach_spec (o := fun x => -x) h.neg hv
  { toCommutativeMonoidSpec := hc
    neg := hneg
    negAssign := fun hv => mapEach_spec (o := fun x => -x) h.negAssign hv
    sub := fun hv hw => zipMap_spec h.sub hv hw
    subAssign := fun hv hw => zipEach_spec h.subAssign hv hw
    times := fun k hk v f hv => by
      have := times_default (rep := VecRep (n := n) rep) hc.zero hc.addAssign hc.double hneg k hk hv
      exact this }

theorem semiRing_spec [Semiring R] {base : SemiRingOps E} (h : SemiRingSpec mp base rep) :
    SemiRingSpec mp (semiRing n base) (VecRep (n := n) rep) :=
  have hc := commutativeMonoid_spec (n := n) h.toCommutativeMonoidSpec
  have hm := monoid_spec (n := n) h.toMonoidSpec
  { hc, hm with }

theorem unitaryRing_spec [Cfg] [Ring R] {base : UnitaryRingOps E} (h : UnitaryRingSpec mp base rep) :
    UnitaryRingSpec mp (unitaryRing n base) (VecRep (n := n) rep) :=
  have hc := abelianGroup_spec (n := n) h.toAbelianGroupSpec
  have hm := monoid_spec (n := n) h.toMonoidSpec
  { hc, hm with
    int := fun k hk => const_spec (h.int k hk) }

theorem partialOrder_spec [PartialOrder R] {base : PartialOrderOps E}
    (h : PartialOrderSpec mp base rep) :
    PartialOrderSpec mp (partialOrder n base) (VecRep (n := n) rep) :=
  have hd := domain_spec (n := n) h.toDomainSpec
  have hleq : ∀ {v w : List E} {f g : Fin n → R}, VecRep rep v f → VecRep rep w g →
      Decides mp ((partialOrder n base).leq v w) (f ≤ g) :=
    fun hv hw => (zipAll_spec (rep := rep) (p := base.leq) (q := (· ≤ ·)) h.leq hv hw).iff Iff.rfl
  { toDomainSpec := hd
    leq := hleq
    lessThan := fun hv hw => by
      have := lessThan_default (rep := VecRep (n := n) rep) hd.equals hleq hv hw
      exact this
    comparable := fun hv hw => by
      have := comparable_default (rep := VecRep (n := n) rep) hleq hv hw
      exact this }

theorem boundedOrder_spec [PartialOrder R] {base : BoundedOrderOps E}
    (h : BoundedOrderSpec mp base rep) :
    BoundedOrderSpec mp (boundedOrder n base) (VecRep (n := n) rep) where
  toPartialOrderSpec := partialOrder_spec h.toPartialOrderSpec
  max := Returns.bind h.max fun _ ⟨x, ha, hx⟩ => ⟨fun _ => x, diagonal_spec ha, fun y i => hx (y i)⟩
  min := Returns.bind h.min fun _ ⟨x, ha, hx⟩ => ⟨fun _ => x, diagonal_spec ha, fun y i => hx (y i)⟩

/-- As `zipMap_spec`, for results specified by a relation. -/
theorem zipMap_rel {op : E → E → Res E} {o : R → R → R → Prop}
    (h : ∀ {a b x y}, rep a x → rep b y → Returns mp (op a b) fun c => ∃ z, rep c z ∧ o x y z)
    (hv : VecRep rep v f) (hw : VecRep rep w g) :
    Returns mp (zipMap n op v w) fun u => ∃ e : Fin n → R, VecRep rep u e ∧
      ∀ i, o (f i) (g i) (e i) := by
  refine (zipMap_spec (rep := rep) (rep' := fun c (P : R → Prop) => ∃ z, rep c z ∧ P z) (o := o)
    (fun ha hb => h ha hb) hv hw).mono fun u hu => ?_
  obtain ⟨hl, hu⟩ := hu
  choose e he using hu
  exact ⟨e, ⟨hl, fun i => (he i).1⟩, fun i => (he i).2⟩

theorem lattice_spec [PartialOrder R] {base : LatticeOps E} (h : LatticeSpec mp base rep) :
    LatticeSpec mp (lattice n base) (VecRep (n := n) rep) where
  toPartialOrderSpec := partialOrder_spec h.toPartialOrderSpec
  meet := fun hv hw => (zipMap_rel h.meet hv hw).mono fun u ⟨e, hu, he⟩ => ⟨e, hu, by
    rw [isGLB_pi]; intro i; rw [Set.image_pair]; exact he i⟩
  join := fun hv hw => (zipMap_rel h.join hv hw).mono fun u ⟨e, hu, he⟩ => ⟨e, hu, by
    rw [isLUB_pi]; intro i; rw [Set.image_pair]; exact he i⟩

theorem booleanAlgebra_spec [BooleanAlgebra R] {base : BooleanAlgebraOps E}
    (h : BooleanAlgebraSpec mp base rep) :
    BooleanAlgebraSpec mp (booleanAlgebra n base) (VecRep (n := n) rep) :=
  have hl := lattice_spec (n := n) h.toLatticeSpec
  have hb := boundedOrder_spec (n := n) h.toBoundedOrderSpec
  { hl, hb with
    not := fun hv => mapEach_spec (o := fun x => xᶜ) h.not hv }

end VectorAlgebra

/-- `times(usize)` by its loop on an object for which the methods in the loop panic. -/
theorem utimes_panics {E : Type} {add : E → E → Res E} {dbl : E → Res E} (zero : Res E) {v : E}
    (ha : ∀ r, add r v = .panic) (hd : dbl v = .panic) (k : ℕ) :
    (zero >>= fun r => timesLoop add dbl k r v) = if k = 0 then zero else zero.bind fun _ => .panic := by
  rcases zero with r | _ | _ <;> try split <;> rfl
  show timesLoop add dbl k r v = if k = 0 then .ok r else .panic
  rw [timesLoop]
  rcases Nat.eq_zero_or_pos k with rfl | hk
  · rfl
  · rw [dif_pos hk, if_neg hk.ne']
    split
    · rw [ha]; rfl
    · show (dbl v >>= _) = _
      rw [hd]; rfl

/-- `power` by its loop on an object for which the methods used panic. -/
theorem powerDefault_panics [Cfg] {E : Type} {mul : E → E → Res E} {sq inv : E → Res E} (one : Res E) {v : E}
    (ha : ∀ r, mul r v = .panic) (hd : sq v = .panic) (hi : inv v = .panic) (k : ℤ) :
    powerDefault one mul sq inv k v =
      if k = 0 then one else if k < 0 then .panic else one.bind fun _ => .panic := by
  rw [powerDefault]
  rcases lt_trichotomy k 0 with hk | rfl | hk
  · rw [if_pos hk, if_neg hk.ne, if_pos hk]
    have h : ∀ (c : Res ℤ) (f : ℤ → E → Res E), c ≠ .diverge →
        (c >>= fun m => inv v >>= fun e => f m e) = .panic := by
      intro c f hc
      cases c with
      | ok m => show (inv v >>= _) = _; rw [hi]; rfl
      | panic => rfl
      | diverge => exact absurd rfl hc
    refine h _ _ ?_
    unfold isizeNeg
    split
    · split <;> simp
    · simp
  · simp only [lt_irrefl, if_false, if_true]
    show (one >>= fun r => powerLoop mul sq 0 r v) = one
    cases one with
    | ok r => show powerLoop mul sq 0 r v = _; rw [powerLoop]; rfl
    | panic => rfl
    | diverge => rfl
  · rw [if_neg hk.not_gt, if_neg hk.ne', if_neg hk.not_gt]
    show (one >>= fun r => powerLoop mul sq k r v) = _
    cases one with
    | ok r =>
      show powerLoop mul sq k r v = .panic
      rw [powerLoop, dif_pos hk]
      split
      · rw [ha]; rfl
      · show (sq v >>= _) = _
        rw [hd]; rfl
    | panic => rfl
    | diverge => rfl

end Abstalg
