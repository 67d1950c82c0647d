import Verif.Proofs.Laws
import Mathlib.Algebra.Ring.MinimalAxioms
import Mathlib.Algebra.Group.MinimalAxioms
import Mathlib.Algebra.Field.IsField
import Mathlib.Order.BooleanAlgebra.Basic

/-! # From the laws to the contracts

An algebra that satisfies the documented laws on its members implements, in the sense of
`Spec/Contracts`, the structure of the classes of members modulo `equals`. -/

set_option autoImplicit false

universe u

namespace Abstalg.Laws

variable {E : Type} {M : E → Prop}

section domain

variable {A : DomainOps E}

theorem SameBool.eq {c d : Res Bool} (h : SameBool False c d) : ∃ b, c = .ok b ∧ d = .ok b := by
  obtain ⟨a, ha, h⟩ := returns_false_iff.1 h
  obtain ⟨b, hb, h⟩ := returns_false_iff.1 h
  exact ⟨a, ha, h ▸ hb⟩

theorem Same.ok {c d : Res E} (h : Same False M A c d) :
    ∃ a b, c = .ok a ∧ d = .ok b ∧ M a ∧ M b ∧ A.equals a b = .ok true := by
  obtain ⟨a, ha, hm, h⟩ := returns_false_iff.1 h
  obtain ⟨b, hb, hm', h⟩ := returns_false_iff.1 h
  obtain ⟨t, ht, rfl⟩ := returns_false_iff.1 h
  exact ⟨a, b, ha, hb, hm, hm', ht⟩

/-- `equals` as an equivalence relation on the members. -/
def setoid (h : DomainLaws False M A) : Setoid {a // M a} where
  r a b := A.equals a b = .ok true
  iseqv := by
    refine ⟨fun a => ?_, fun {a b} hab => ?_, fun {a b c} hab hbc => ?_⟩
    · obtain ⟨t, ht, rfl⟩ := returns_false_iff.1 (h.refl a.2)
      exact ht
    · obtain ⟨t, h1, h2⟩ := (h.symm a.2 b.2).eq
      rw [hab] at h1
      obtain rfl := Res.ok.inj h1
      exact h2
    · obtain ⟨t, ht, rfl⟩ := returns_false_iff.1 (h.trans a.2 b.2 c.2 hab hbc)
      exact ht

/-- The members represent the elements of `R`, and every element is represented. -/
structure Full {R : Type u} (M : E → Prop) (A : DomainOps E) (rep : E → R → Prop) : Prop
    extends DomainSpec False A rep where
  exact : Exact M rep
  surj : ∀ x, ∃ a, rep a x

theorem exists_full (h : DomainLaws False M A) :
    ∃ (R : Type) (rep : E → R → Prop), Full M A rep := by
  refine ⟨Quotient (setoid h), fun a x => ∃ ha : M a, x = Quotient.mk (setoid h) ⟨a, ha⟩,
    ⟨?_, ?_, ?_⟩, ?_, ?_⟩
  · rintro a x y ⟨h1, rfl⟩ ⟨h2, rfl⟩
    rfl
  · rintro a x ⟨h1, rfl⟩
    exact h.contains h1
  · rintro a b x y ⟨h1, rfl⟩ ⟨h2, rfl⟩
    obtain ⟨t, ht, -⟩ := (h.symm h1 h2).eq
    rw [ht]
    refine decides_ok ?_
    rw [Quotient.eq]
    show _ ↔ A.equals a b = .ok true
    rw [ht, Res.ok.injEq]
  · exact fun a => ⟨fun ha => ⟨_, ha, rfl⟩, fun ⟨_, ha, _⟩ => ha⟩
  · intro x
    obtain ⟨a, rfl⟩ := Quotient.exists_rep x
    exact ⟨a.1, a.2, rfl⟩

end domain

section full

variable {R : Type u} {rep : E → R → Prop} {A : DomainOps E} (hf : Full M A rep)

include hf

theorem Full.mem {a : E} {x : R} (ha : rep a x) : M a := (hf.exact a).2 ⟨x, ha⟩

theorem Full.equals_iff {a b : E} {x y : R} (ha : rep a x) (hb : rep b y) :
    A.equals a b = .ok true ↔ x = y := by
  have := hf.equals ha hb
  refine ⟨fun h => of_ok_true this h, fun h => ?_⟩
  obtain ⟨t, ht, rfl⟩ := returns_false_iff.1 (decides_true this h)
  exact ht

theorem Full.eq_of_same {c d : Res E} (hs : Same False M A c d) {x y : R}
    (hc : Returns False c (rep · x)) (hd : Returns False d (rep · y)) : x = y := by
  obtain ⟨a, b, rfl, rfl, -, -, h⟩ := hs.ok
  exact (hf.equals_iff hc hd).1 h

/-- The value of the left side, if that of the right side is known. -/
theorem Full.left_of_same {c d : Res E} (hs : Same False M A c d) {x : R}
    (hd : Returns False d (rep · x)) : Returns False c (rep · x) := by
  obtain ⟨a, b, rfl, rfl, h1, h2, h⟩ := hs.ok
  obtain ⟨y, hy⟩ := (hf.exact a).1 h1
  obtain rfl := (hf.equals_iff hy hd).1 h
  exact hy

theorem Full.value {c d : Res E} (hs : Same False M A c d) : ∃ x : R, Returns False c (rep · x) := by
  obtain ⟨a, b, rfl, rfl, h1, h2, h⟩ := hs.ok
  exact (hf.exact a).1 h1

theorem Full.op1 {f : E → Res E} (h : ∀ {a b}, M a → M b → A.equals a b = .ok true →
    Same False M A (f a) (f b)) :
    ∃ g : R → R, ∀ {a x}, rep a x → Returns False (f a) (rep · (g x)) := by
  have : ∀ x : R, ∃ y : R, ∀ {a}, rep a x → Returns False (f a) (rep · y) := fun x => by
    obtain ⟨a, ha⟩ := hf.surj x
    have h1 := hf.mem ha
    obtain ⟨y, hy⟩ := hf.value (h h1 h1 ((hf.equals_iff ha ha).2 rfl))
    exact ⟨y, fun {b} hb => hf.left_of_same
      (h (hf.mem hb) h1 ((hf.equals_iff hb ha).2 rfl)) hy⟩
  choose g hg using this
  exact ⟨g, fun {_ _} ha => hg _ ha⟩

theorem Full.op2 {f : E → E → Res E} (h : ∀ {a b c d}, M a → M b → M c → M d →
    A.equals a c = .ok true → A.equals b d = .ok true → Same False M A (f a b) (f c d)) :
    ∃ g : R → R → R, ∀ {a b x y}, rep a x → rep b y → Returns False (f a b) (rep · (g x y)) := by
  have : ∀ x y : R, ∃ z : R, ∀ {a b}, rep a x → rep b y → Returns False (f a b) (rep · z) :=
    fun x y => by
    obtain ⟨a, ha⟩ := hf.surj x
    obtain ⟨b, hb⟩ := hf.surj y
    have h1 := hf.mem ha
    have h2 := hf.mem hb
    obtain ⟨z, hz⟩ := hf.value (h h1 h2 h1 h2 ((hf.equals_iff ha ha).2 rfl) ((hf.equals_iff hb hb).2 rfl))
    exact ⟨z, fun {c d} hc hd => hf.left_of_same
      (h (hf.mem hc) (hf.mem hd) h1 h2 ((hf.equals_iff hc ha).2 rfl) ((hf.equals_iff hd hb).2 rfl)) hz⟩
  choose g hg using this
  exact ⟨g, fun {_ _ _ _} ha hb => hg _ _ ha hb⟩

end full

/-! ## From laws to contracts, given the structure on the classes -/

section spec

variable {R : Type u} {rep : E → R → Prop}

theorem semigroupSpec [Semigroup R] {A : SemigroupOps E} (hf : Full M A.toDomainOps rep)
    (h : SemigroupLaws False M A)
    (hmul : ∀ {a b x y}, rep a x → rep b y → Returns False (A.mul a b) (rep · (x * y))) :
    SemigroupSpec False A rep where
  toDomainSpec := hf.toDomainSpec
  mul := hmul
  mulAssign := fun ha hb => hf.left_of_same (h.mulAssign (hf.mem ha) (hf.mem hb)) (hmul ha hb)
  square := fun ha => hf.left_of_same (h.square (hf.mem ha)) (hmul ha ha)

theorem same_decides {c d : Res Bool} {p : Prop} (h : SameBool False c d) (hd : Decides False d p) :
    Decides False c p := by
  obtain ⟨b, rfl, rfl⟩ := h.eq
  exact hd

theorem monoidSpec [Monoid R] {A : MonoidOps E} (hf : Full M A.toDomainOps rep)
    (h : MonoidLaws False M A)
    (hmul : ∀ {a b x y}, rep a x → rep b y → Returns False (A.mul a b) (rep · (x * y)))
    (hone : Returns False A.one (rep · 1)) :
    MonoidSpec False A rep := by
  have hti : ∀ {a x}, rep a x → Returns False (A.tryInv a) fun
      | some b => ∃ y, rep b y ∧ x * y = 1 ∧ y * x = 1
      | none => ¬ IsUnit x := fun {a x} ha => by
    refine (h.tryInv (hf.mem ha)).mono fun o ho => ?_
    cases o with
    | some b =>
      obtain ⟨hb, h1, h2⟩ := ho
      obtain ⟨y, hb⟩ := (hf.exact b).1 hb
      exact ⟨y, hb, hf.eq_of_same h1 (hmul ha hb) hone, hf.eq_of_same h2 (hmul hb ha) hone⟩
    | none =>
      rintro ⟨u, rfl⟩
      obtain ⟨b, hb⟩ := hf.surj (↑u⁻¹ : R)
      obtain ⟨o, ho1, ho2⟩ := returns_false_iff.1 hone
      obtain ⟨c, hc, hc'⟩ := returns_false_iff.1 (hmul ha hb)
      obtain ⟨d, hd, hd'⟩ := returns_false_iff.1 (hmul hb ha)
      exact ho b (hf.mem hb) ⟨⟨c, o, hc, ho1, (hf.equals_iff hc' ho2).2 u.mul_inv⟩,
        ⟨d, o, hd, ho1, (hf.equals_iff hd' ho2).2 u.inv_mul⟩⟩
  refine { semigroupSpec hf h.toSemigroupLaws hmul with
    one := hone
    isOne := fun ha => same_decides (h.isOne (hf.mem ha)) (Returns.bind hone fun _ ho => hf.equals ha ho)
    tryInv := hti
    invertible := fun {a x} ha => same_decides (h.invertible (hf.mem ha))
      (Returns.bind (hti ha) fun o ho => ?_) }
  cases o with
  | some b =>
    obtain ⟨y, -, h1, h2⟩ := ho
    exact decides_ok ⟨fun _ => ⟨⟨x, y, h1, h2⟩, rfl⟩, fun _ => rfl⟩
  | none => exact decides_ok ⟨nofun, fun hu => (ho hu).elim⟩

theorem commutativeMonoidSpec [AddCommMonoid R] {A : CommutativeMonoidOps E}
    (hf : Full M A.toDomainOps rep) (h : CommutativeMonoidLaws False M A)
    (hadd : ∀ {a b x y}, rep a x → rep b y → Returns False (A.add a b) (rep · (x + y)))
    (hzero : Returns False A.zero (rep · 0)) : CommutativeMonoidSpec False A rep where
  toDomainSpec := hf.toDomainSpec
  zero := hzero
  isZero := fun ha => same_decides (h.isZero (hf.mem ha)) (Returns.bind hzero fun _ ho => hf.equals ha ho)
  add := hadd
  addAssign := fun ha hb => hf.left_of_same (h.addAssign (hf.mem ha) (hf.mem hb)) (hadd ha hb)
  double := fun ha => hf.left_of_same (h.double (hf.mem ha)) (hadd ha ha)
  utimes := fun n a x ha => by
    induction n with
    | zero =>
      rw [zero_nsmul]
      exact hf.left_of_same (h.utimes_zero (hf.mem ha)) hzero
    | succ n ih =>
      rw [succ_nsmul]
      exact hf.left_of_same (h.utimes_succ n (hf.mem ha)) (ih.bind fun _ hp => hadd hp ha)

variable [Cfg]

theorem groupSpec [Group R] {A : GroupOps E} (hf : Full M A.toDomainOps rep) (h : GroupLaws False M A)
    (hmul : ∀ {a b x y}, rep a x → rep b y → Returns False (A.mul a b) (rep · (x * y)))
    (hone : Returns False A.one (rep · 1)) : GroupSpec False A rep := by
  have hinv : ∀ {a x}, rep a x → Returns False (A.inv a) (rep · x⁻¹) := fun {a x} ha => by
    obtain ⟨b, hb, hm⟩ := returns_false_iff.1 (h.inv_mem (hf.mem ha))
    obtain ⟨y, hy⟩ := (hf.exact b).1 hm
    have h1 := h.mul_inv (hf.mem ha)
    rw [hb] at h1 ⊢
    rw [← eq_inv_of_mul_eq_one_right (hf.eq_of_same h1 (hmul ha hy) hone)]
    exact hy
  have hpow : ∀ (n : ℕ) {a x}, rep a x → Returns False (A.power n a) (rep · (x ^ n)) := fun n a x ha => by
    induction n with
    | zero =>
      rw [pow_zero]
      exact hf.left_of_same (h.power_zero (hf.mem ha)) hone
    | succ n ih =>
      rw [pow_succ]
      exact hf.left_of_same (h.power_succ n (hf.mem ha)) (ih.bind fun _ hp => hmul hp ha)
  refine { monoidSpec hf h.toMonoidLaws hmul hone with
    inv := hinv
    power := fun n hn a x ha => ?_ }
  obtain ⟨n, rfl | rfl⟩ := n.eq_nat_or_neg
  · rw [zpow_natCast]
    exact hpow n ha
  · rw [zpow_neg, zpow_natCast]
    exact hf.left_of_same (h.power_neg n hn (hf.mem ha)) ((hpow n ha).bind fun _ hp => hinv hp)

theorem abelianGroupSpec [AddCommGroup R] {A : AbelianGroupOps E} (hf : Full M A.toDomainOps rep)
    (h : AbelianGroupLaws False M A)
    (hadd : ∀ {a b x y}, rep a x → rep b y → Returns False (A.add a b) (rep · (x + y)))
    (hzero : Returns False A.zero (rep · 0)) : AbelianGroupSpec False A rep := by
  have hneg : ∀ {a x}, rep a x → Returns False (A.neg a) (rep · (-x)) := fun {a x} ha => by
    obtain ⟨b, hb, hm⟩ := returns_false_iff.1 (h.neg_mem (hf.mem ha))
    obtain ⟨y, hy⟩ := (hf.exact b).1 hm
    have h1 := h.add_neg (hf.mem ha)
    rw [hb] at h1 ⊢
    rw [← eq_neg_of_add_eq_zero_right (hf.eq_of_same h1 (hadd ha hy) hzero)]
    exact hy
  have hsub : ∀ {a b x y}, rep a x → rep b y → Returns False (A.sub a b) (rep · (x - y)) :=
    fun {a b x y} ha hb => by
    rw [sub_eq_add_neg]
    exact hf.left_of_same (h.sub (hf.mem ha) (hf.mem hb)) ((hneg hb).bind fun _ hp => hadd ha hp)
  have ht : ∀ (n : ℕ) {a x}, rep a x → Returns False (A.times n a) (rep · (n • x)) := fun n a x ha => by
    induction n with
    | zero =>
      rw [zero_nsmul]
      exact hf.left_of_same (h.times_zero (hf.mem ha)) hzero
    | succ n ih =>
      rw [succ_nsmul]
      exact hf.left_of_same (h.times_succ n (hf.mem ha)) (ih.bind fun _ hp => hadd hp ha)
  refine { commutativeMonoidSpec hf h.toCommutativeMonoidLaws hadd hzero with
    neg := hneg
    negAssign := fun ha => hf.left_of_same (h.negAssign (hf.mem ha)) (hneg ha)
    sub := hsub
    subAssign := fun ha hb => hf.left_of_same (h.subAssign (hf.mem ha) (hf.mem hb)) (hsub ha hb)
    times := fun n hn a x ha => ?_ }
  obtain ⟨n, rfl | rfl⟩ := n.eq_nat_or_neg
  · rw [natCast_zsmul]
    exact ht n ha
  · rw [neg_zsmul, natCast_zsmul]
    exact hf.left_of_same (h.times_neg n hn (hf.mem ha)) ((ht n ha).bind fun _ hp => hneg hp)

omit [Cfg] in
theorem semiRingSpec [Semiring R] {A : SemiRingOps E} (hf : Full M A.toDomainOps rep)
    (h : SemiRingLaws False M A)
    (hadd : ∀ {a b x y}, rep a x → rep b y → Returns False (A.add a b) (rep · (x + y)))
    (hzero : Returns False A.zero (rep · 0))
    (hmul : ∀ {a b x y}, rep a x → rep b y → Returns False (A.mul a b) (rep · (x * y)))
    (hone : Returns False A.one (rep · 1)) : SemiRingSpec False A rep :=
  { commutativeMonoidSpec (A := A.toCommutativeMonoidOps) hf h.toCommutativeMonoidLaws hadd hzero,
    monoidSpec (A := A.toMonoidOps) hf h.toMonoidLaws hmul hone with }

theorem unitaryRingSpec [Ring R] {A : UnitaryRingOps E} (hf : Full M A.toDomainOps rep)
    (h : UnitaryRingLaws False M A)
    (hadd : ∀ {a b x y}, rep a x → rep b y → Returns False (A.add a b) (rep · (x + y)))
    (hzero : Returns False A.zero (rep · 0))
    (hmul : ∀ {a b x y}, rep a x → rep b y → Returns False (A.mul a b) (rep · (x * y)))
    (hone : Returns False A.one (rep · 1)) : UnitaryRingSpec False A rep := by
  have h1 := abelianGroupSpec (A := A.toAbelianGroupOps) hf h.toAbelianGroupLaws hadd hzero
  refine { semiRingSpec (A := A.toSemiRingOps) hf h.toSemiRingLaws hadd hzero hmul hone, h1 with
    int := fun n hn => hf.left_of_same (h.int n hn) (hone.bind fun p hp => ?_) }
  have := h1.times n hn hp
  rwa [zsmul_one] at this

theorem fieldSpec [Field R] {A : FieldOps E} (hf : Full M A.toDomainOps rep)
    (h : FieldLaws False M A)
    (hadd : ∀ {a b x y}, rep a x → rep b y → Returns False (A.add a b) (rep · (x + y)))
    (hzero : Returns False A.zero (rep · 0))
    (hmul : ∀ {a b x y}, rep a x → rep b y → Returns False (A.mul a b) (rep · (x * y)))
    (hone : Returns False A.one (rep · 1)) : FieldSpec False A rep := by
  have hu := unitaryRingSpec (A := A.toUnitaryRingOps) hf h.toUnitaryRingLaws hadd hzero hmul hone
  have hz0 : ∀ {a}, rep a 0 → A.isZero a = .ok true := fun ha => by
    obtain ⟨t, ht, rfl⟩ := returns_false_iff.1 (decides_true (hu.isZero ha) rfl)
    exact ht
  have hz1 : ∀ {a x}, rep a x → x ≠ 0 → A.isZero a = .ok false := fun ha hx => by
    obtain ⟨t, ht, rfl⟩ := returns_false_iff.1 (decides_false (hu.isZero ha) hx)
    exact ht
  have hinv : ∀ {a x}, rep a x → x ≠ 0 → Returns False (A.inv a) (rep · x⁻¹) := fun {a x} ha h0 => by
    obtain ⟨b, hb, hm⟩ := returns_false_iff.1 (h.inv_mem (hf.mem ha) (hz1 ha h0))
    obtain ⟨y, hy⟩ := (hf.exact b).1 hm
    have h1 := h.mul_inv (hf.mem ha) (hz1 ha h0)
    rw [hb] at h1 ⊢
    rw [← eq_inv_of_mul_eq_one_right (hf.eq_of_same h1 (hmul ha hy) hone)]
    exact hy
  have hpow : ∀ (n : ℕ) {a x}, rep a x → x ≠ 0 → Returns False (A.power n a) (rep · (x ^ n)) :=
    fun n a x ha h0 => by
    induction n with
    | zero =>
      rw [pow_zero]
      exact hf.left_of_same (h.power_zero (hf.mem ha) (hz1 ha h0)) hone
    | succ n ih =>
      rw [pow_succ]
      exact hf.left_of_same (h.power_succ n (hf.mem ha) (hz1 ha h0)) (ih.bind fun _ hp => hmul hp ha)
  refine { hu with
    inv := hinv
    inv_zero := fun ha => h.inv_zero (hf.mem ha) (hz0 ha)
    div := fun {a b x y} ha hb h0 => ?_
    div_zero := fun ha hb => h.div_zero (hf.mem ha) (hf.mem hb) (hz0 hb)
    power := fun n hn a x ha h0 => ?_
    power_zero := fun n a ha => hf.left_of_same (h.power_of_zero n (hf.mem ha) (hz0 ha)) hzero }
  · obtain ⟨c, hc, hm⟩ := returns_false_iff.1 (h.div_mem (hf.mem ha) (hf.mem hb) (hz1 hb h0))
    obtain ⟨z, hz⟩ := (hf.exact c).1 hm
    have h1 := h.div (hf.mem ha) (hf.mem hb) (hz1 hb h0)
    rw [hc] at h1 ⊢
    rw [← hf.eq_of_same h1 (hmul hz hb) ha, mul_div_cancel_right₀ _ h0]
    exact hz
  · obtain ⟨n, rfl | rfl⟩ := n.eq_nat_or_neg
    · rw [zpow_natCast]
      exact hpow n ha h0
    · rw [zpow_neg, zpow_natCast]
      exact hf.left_of_same (h.power_neg n hn (hf.mem ha) (hz1 ha h0))
        ((hpow n ha h0).bind fun _ hp => hinv hp (pow_ne_zero _ h0))

end spec

/-! ## The structure on the classes -/

section structures

variable {R : Type u} {rep : E → R → Prop}

theorem Full.const {A : DomainOps E} (hf : Full M A rep) {c : Res E} (h : Returns False c M) :
    ∃ x : R, Returns False c (rep · x) := by
  obtain ⟨a, rfl, ha⟩ := returns_false_iff.1 h
  exact (hf.exact a).1 ha

theorem exists_monoid {A : MonoidOps E} (hf : Full M A.toDomainOps rep) (h : MonoidLaws False M A) :
    ∃ _ : Monoid R, MonoidSpec False A rep := by
  obtain ⟨mul, hmul⟩ := hf.op2 h.mul_congr
  obtain ⟨one, hone⟩ := hf.const h.one_mem
  let inst : Monoid R :=
    { mul := mul
      one := one
      mul_assoc := fun x y z => by
        obtain ⟨a, ha⟩ := hf.surj x
        obtain ⟨b, hb⟩ := hf.surj y
        obtain ⟨c, hc⟩ := hf.surj z
        exact hf.eq_of_same (h.mul_assoc (hf.mem ha) (hf.mem hb) (hf.mem hc))
          ((hmul ha hb).bind fun _ hp => hmul hp hc) ((hmul hb hc).bind fun _ hp => hmul ha hp)
      one_mul := fun x => by
        obtain ⟨a, ha⟩ := hf.surj x
        exact hf.eq_of_same (h.one_mul (hf.mem ha)) (hone.bind fun _ hp => hmul hp ha) ha
      mul_one := fun x => by
        obtain ⟨a, ha⟩ := hf.surj x
        exact hf.eq_of_same (h.mul_one (hf.mem ha)) (hone.bind fun _ hp => hmul ha hp) ha }
  exact ⟨inst, monoidSpec hf h hmul hone⟩

theorem exists_commutativeMonoid {A : CommutativeMonoidOps E} (hf : Full M A.toDomainOps rep)
    (h : CommutativeMonoidLaws False M A) : ∃ _ : AddCommMonoid R,
      (∀ {a b x y}, rep a x → rep b y → Returns False (A.add a b) (rep · (x + y))) ∧
      Returns False A.zero (rep · 0) := by
  obtain ⟨add, hadd⟩ := hf.op2 h.add_congr
  obtain ⟨zero, hzero⟩ := hf.const h.zero_mem
  have hcomm : ∀ x y, add x y = add y x := fun x y => by
    obtain ⟨a, ha⟩ := hf.surj x
    obtain ⟨b, hb⟩ := hf.surj y
    exact hf.eq_of_same (h.add_comm (hf.mem ha) (hf.mem hb)) (hadd ha hb) (hadd hb ha)
  have hzadd : ∀ x, add x zero = x := fun x => by
    obtain ⟨a, ha⟩ := hf.surj x
    exact hf.eq_of_same (h.add_zero (hf.mem ha)) (hzero.bind fun _ hp => hadd ha hp) ha
  let inst : AddCommMonoid R :=
    { add := add
      zero := zero
      nsmul := @nsmulRec R ⟨zero⟩ ⟨add⟩
      add_assoc := fun x y z => by
        obtain ⟨a, ha⟩ := hf.surj x
        obtain ⟨b, hb⟩ := hf.surj y
        obtain ⟨c, hc⟩ := hf.surj z
        exact hf.eq_of_same (h.add_assoc (hf.mem ha) (hf.mem hb) (hf.mem hc))
          ((hadd ha hb).bind fun _ hp => hadd hp hc) ((hadd hb hc).bind fun _ hp => hadd ha hp)
      add_comm := hcomm
      zero_add := fun x => (hcomm zero x).trans (hzadd x)
      add_zero := hzadd }
  exact ⟨inst, hadd, hzero⟩

theorem exists_semiRing {A : SemiRingOps E} (hf : Full M A.toDomainOps rep)
    (h : SemiRingLaws False M A) : ∃ _ : Semiring R,
      (∀ {a b x y}, rep a x → rep b y → Returns False (A.add a b) (rep · (x + y))) ∧
      Returns False A.zero (rep · 0) ∧
      (∀ {a b x y}, rep a x → rep b y → Returns False (A.mul a b) (rep · (x * y))) ∧
      Returns False A.one (rep · 1) := by
  obtain ⟨i1, hadd, hzero⟩ := exists_commutativeMonoid (A := A.toCommutativeMonoidOps) hf
    h.toCommutativeMonoidLaws
  obtain ⟨i2, hm⟩ := exists_monoid (A := A.toMonoidOps) hf h.toMonoidLaws
  let inst : Semiring R :=
    { i1, i2 with
      left_distrib := fun x y z => by
        obtain ⟨a, ha⟩ := hf.surj x
        obtain ⟨b, hb⟩ := hf.surj y
        obtain ⟨c, hc⟩ := hf.surj z
        exact hf.eq_of_same (h.mul_add (hf.mem ha) (hf.mem hb) (hf.mem hc))
          ((hadd hb hc).bind fun _ hp => hm.mul ha hp)
          ((hm.mul ha hb).bind fun _ hp => (hm.mul ha hc).bind fun _ hq => hadd hp hq)
      right_distrib := fun x y z => by
        obtain ⟨a, ha⟩ := hf.surj x
        obtain ⟨b, hb⟩ := hf.surj y
        obtain ⟨c, hc⟩ := hf.surj z
        exact hf.eq_of_same (h.add_mul (hf.mem ha) (hf.mem hb) (hf.mem hc))
          ((hadd ha hb).bind fun _ hp => hm.mul hp hc)
          ((hm.mul ha hc).bind fun _ hp => (hm.mul hb hc).bind fun _ hq => hadd hp hq)
      mul_zero := fun x => by
        obtain ⟨a, ha⟩ := hf.surj x
        exact hf.eq_of_same (h.mul_zero (hf.mem ha)) (hzero.bind fun _ hp => hm.mul ha hp) hzero
      zero_mul := fun x => by
        obtain ⟨a, ha⟩ := hf.surj x
        exact hf.eq_of_same (h.zero_mul (hf.mem ha)) (hzero.bind fun _ hp => hm.mul hp ha) hzero }
  exact ⟨inst, hadd, hzero, hm.mul, hm.one⟩

variable [Cfg]

theorem exists_group {A : GroupOps E} (hf : Full M A.toDomainOps rep) (h : GroupLaws False M A) :
    ∃ _ : Group R, GroupSpec False A rep := by
  obtain ⟨i, hm⟩ := exists_monoid hf h.toMonoidLaws
  have : ∀ x : R, ∃ y : R, y * x = 1 := fun x => by
    obtain ⟨a, ha⟩ := hf.surj x
    obtain ⟨b, hb, hb'⟩ := returns_false_iff.1 (h.inv_mem (hf.mem ha))
    obtain ⟨y, hy⟩ := (hf.exact b).1 hb'
    have h1 := h.inv_mul (hf.mem ha)
    rw [hb] at h1
    exact ⟨y, hf.eq_of_same h1 (hm.mul hy ha) hm.one⟩
  choose inv hinv using this
  let inst : Group R := { i with inv := inv, inv_mul_cancel := hinv }
  exact ⟨inst, groupSpec hf h hm.mul hm.one⟩

theorem exists_neg {A : AbelianGroupOps E} [AddCommMonoid R] (hf : Full M A.toDomainOps rep)
    (h : AbelianGroupLaws False M A)
    (hadd : ∀ {a b x y}, rep a x → rep b y → Returns False (A.add a b) (rep · (x + y)))
    (hzero : Returns False A.zero (rep · 0)) (x : R) : ∃ y : R, y + x = 0 := by
  obtain ⟨a, ha⟩ := hf.surj x
  obtain ⟨b, hb, hb'⟩ := returns_false_iff.1 (h.neg_mem (hf.mem ha))
  obtain ⟨y, hy⟩ := (hf.exact b).1 hb'
  have h1 := h.add_neg (hf.mem ha)
  rw [hb] at h1
  exact ⟨y, (add_comm y x).trans (hf.eq_of_same h1 (hadd ha hy) hzero)⟩

theorem exists_abelianGroup {A : AbelianGroupOps E} (hf : Full M A.toDomainOps rep)
    (h : AbelianGroupLaws False M A) : ∃ _ : AddCommGroup R, AbelianGroupSpec False A rep := by
  obtain ⟨i, hadd, hzero⟩ := exists_commutativeMonoid (A := A.toCommutativeMonoidOps) hf
    h.toCommutativeMonoidLaws
  choose neg hneg using exists_neg hf h hadd hzero
  let inst : AddCommGroup R := { i with neg := neg, zsmul := @zsmulRec R _ _ ⟨neg⟩ nsmulRec, neg_add_cancel := hneg }
  exact ⟨inst, abelianGroupSpec hf h hadd hzero⟩

theorem exists_unitaryRing {A : UnitaryRingOps E} (hf : Full M A.toDomainOps rep)
    (h : UnitaryRingLaws False M A) : ∃ _ : Ring R, UnitaryRingSpec False A rep := by
  obtain ⟨i, hadd, hzero, hmul, hone⟩ := exists_semiRing (A := A.toSemiRingOps) hf h.toSemiRingLaws
  choose neg hneg using exists_neg (A := A.toAbelianGroupOps) hf h.toAbelianGroupLaws hadd hzero
  let inst : Ring R := { i with neg := neg, zsmul := @zsmulRec R _ _ ⟨neg⟩ nsmulRec, neg_add_cancel := hneg }
  exact ⟨inst, unitaryRingSpec hf h hadd hzero hmul hone⟩

theorem exists_field {A : FieldOps E} (hf : Full M A.toDomainOps rep)
    (h : FieldLaws False M A) : ∃ _ : Field R, FieldSpec False A rep := by
  obtain ⟨i, hu⟩ := exists_unitaryRing (A := A.toUnitaryRingOps) hf h.toUnitaryRingLaws
  let c : CommRing R := { i with
    mul_comm := fun x y => by
      obtain ⟨a, ha⟩ := hf.surj x
      obtain ⟨b, hb⟩ := hf.surj y
      exact hf.eq_of_same (h.mul_comm (hf.mem ha) (hf.mem hb)) (hu.mul ha hb) (hu.mul hb ha) }
  have h01 : (0 : R) ≠ 1 := fun h0 => by
    obtain ⟨o, ho, ho'⟩ := returns_false_iff.1 hu.one
    have h1 : Returns False (A.isZero o) (· = false) := by
      have := h.one_ne_zero
      rwa [show A.one = .ok o from ho] at this
    obtain ⟨t, ht, rfl⟩ := returns_false_iff.1 h1
    exact of_ok_false (hu.isZero ho') ht h0.symm
  have hF : IsField R :=
    { exists_pair_ne := ⟨0, 1, h01⟩
      mul_comm := mul_comm
      mul_inv_cancel := fun {x} hx => by
        obtain ⟨a, ha⟩ := hf.surj x
        obtain ⟨t, hz, rfl⟩ := returns_false_iff.1 (decides_false (hu.isZero ha) hx)
        obtain ⟨b, hb, hb'⟩ := returns_false_iff.1 (h.inv_mem (hf.mem ha) hz)
        obtain ⟨y, hy⟩ := (hf.exact b).1 hb'
        have h1 := h.mul_inv (hf.mem ha) hz
        rw [hb] at h1
        exact ⟨y, hf.eq_of_same h1 (hu.mul ha hy) hu.one⟩ }
  let inst : Field R := hF.toField
  exact ⟨inst, fieldSpec hf h hu.add hu.zero hu.mul hu.one⟩

omit [Cfg]

theorem exists_partialOrder {A : PartialOrderOps E} (hf : Full M A.toDomainOps rep)
    (h : PartialOrderLaws False M A) : ∃ _ : PartialOrder R, PartialOrderSpec False A rep := by
  have hle : ∀ x y : R, ∃ p : Prop, ∀ {a b}, rep a x → rep b y → Decides False (A.leq a b) p :=
    fun x y => by
    obtain ⟨a, ha⟩ := hf.surj x
    obtain ⟨b, hb⟩ := hf.surj y
    obtain ⟨t, ht, -⟩ := (h.le_congr (hf.mem ha) (hf.mem hb) (hf.mem ha) (hf.mem hb)
      ((hf.equals_iff ha ha).2 rfl) ((hf.equals_iff hb hb).2 rfl)).eq
    refine ⟨t = true, fun {c d} hc hd => same_decides (h.le_congr (hf.mem hc) (hf.mem hd) (hf.mem ha)
      (hf.mem hb) ((hf.equals_iff hc ha).2 rfl) ((hf.equals_iff hd hb).2 rfl)) ?_⟩
    rw [ht]
    exact decides_ok Iff.rfl
  choose le hle using hle
  have hok : ∀ {a b x y}, rep a x → rep b y → le x y → A.leq a b = .ok true := fun ha hb h => by
    obtain ⟨t, ht, rfl⟩ := returns_false_iff.1 (decides_true (hle _ _ ha hb) h)
    exact ht
  let inst : PartialOrder R :=
    { le := le
      le_refl := fun x => by
        obtain ⟨a, ha⟩ := hf.surj x
        obtain ⟨t, ht, rfl⟩ := returns_false_iff.1 (h.le_refl (hf.mem ha))
        exact of_ok_true (hle x x ha ha) ht
      le_trans := fun x y z h1 h2 => by
        obtain ⟨a, ha⟩ := hf.surj x
        obtain ⟨b, hb⟩ := hf.surj y
        obtain ⟨c, hc⟩ := hf.surj z
        obtain ⟨t, ht, rfl⟩ := returns_false_iff.1 (h.le_trans (hf.mem ha) (hf.mem hb) (hf.mem hc)
          (hok ha hb h1) (hok hb hc h2))
        exact of_ok_true (hle x z ha hc) ht
      le_antisymm := fun x y h1 h2 => by
        obtain ⟨a, ha⟩ := hf.surj x
        obtain ⟨b, hb⟩ := hf.surj y
        obtain ⟨t, ht, rfl⟩ := returns_false_iff.1 (h.le_antisymm (hf.mem ha) (hf.mem hb)
          (hok ha hb h1) (hok hb ha h2))
        exact (hf.equals_iff ha hb).1 ht }
  have hle' : ∀ {a b} {x y : R}, rep a x → rep b y → Decides False (A.leq a b) (x ≤ y) :=
    fun ha hb => hle _ _ ha hb
  refine ⟨inst, { hf.toDomainSpec with
    leq := hle'
    lessThan := fun {a b x y} ha hb => same_decides (h.lessThan (hf.mem ha) (hf.mem hb))
      (Returns.bind (hle' ha hb) fun p hp => Returns.bind (hf.equals ha hb) fun q hq => ?_)
    comparable := fun {a b x y} ha hb => same_decides (h.comparable (hf.mem ha) (hf.mem hb))
      (Returns.bind (hle' ha hb) fun p hp => Returns.bind (hle' hb ha) fun q hq => ?_) }⟩
  · show (p && !q) = true ↔ _
    rw [lt_iff_le_and_ne, ← hp, Ne, ← hq]
    simp
  · show (p || q) = true ↔ _
    rw [Bool.or_eq_true, hp, hq]

theorem boundedOrderSpec [PartialOrder R] {A : BoundedOrderOps E} (hf : Full M A.toDomainOps rep)
    (hp : PartialOrderSpec False A.toPartialOrderOps rep) (h : BoundedOrderLaws False M A) :
    BoundedOrderSpec False A rep := by
  refine { hp with max := ?_, min := ?_ }
  · obtain ⟨a, ha, hm⟩ := returns_false_iff.1 h.max_mem
    obtain ⟨x, hx⟩ := (hf.exact a).1 hm
    rw [ha]
    refine ⟨x, hx, fun y => ?_⟩
    obtain ⟨b, hb⟩ := hf.surj y
    have h1 := h.le_max (hf.mem hb)
    rw [ha] at h1
    obtain ⟨t, ht, rfl⟩ := returns_false_iff.1 h1
    exact of_ok_true (hp.leq hb hx) ht
  · obtain ⟨a, ha, hm⟩ := returns_false_iff.1 h.min_mem
    obtain ⟨x, hx⟩ := (hf.exact a).1 hm
    rw [ha]
    refine ⟨x, hx, fun y => ?_⟩
    obtain ⟨b, hb⟩ := hf.surj y
    have h1 := h.min_le (hf.mem hb)
    rw [ha] at h1
    obtain ⟨t, ht, rfl⟩ := returns_false_iff.1 h1
    exact of_ok_true (hp.leq hx hb) ht

theorem latticeSpec [PartialOrder R] {A : LatticeOps E} (hf : Full M A.toDomainOps rep)
    (hp : PartialOrderSpec False A.toPartialOrderOps rep) (h : LatticeLaws False M A) :
    LatticeSpec False A rep := by
  have hle : ∀ {a b x y}, rep a x → rep b y → Returns False (A.leq a b) (· = true) → x ≤ y :=
    fun ha hb h1 => by
      obtain ⟨t, ht, rfl⟩ := returns_false_iff.1 h1
      exact of_ok_true (hp.leq ha hb) ht
  have hok : ∀ {a b x y}, rep a x → rep b y → x ≤ y → A.leq a b = .ok true := fun ha hb h1 => by
    obtain ⟨t, ht, rfl⟩ := returns_false_iff.1 (decides_true (hp.leq ha hb) h1)
    exact ht
  refine { hp with
    meet := fun {a b x y} ha hb => (h.meet (hf.mem ha) (hf.mem hb)).mono ?_
    join := fun {a b x y} ha hb => (h.join (hf.mem ha) (hf.mem hb)).mono ?_ }
  · rintro c ⟨hc, h1, h2, h3⟩
    obtain ⟨z, hz⟩ := (hf.exact c).1 hc
    refine ⟨z, hz, ?_, fun w hw => ?_⟩
    · rintro t (rfl | rfl)
      · exact hle hz ha h1
      · exact hle hz hb h2
    · obtain ⟨d, hd⟩ := hf.surj w
      exact hle hd hz (h3 d (hf.mem hd) (hok hd ha (hw (by simp))) (hok hd hb (hw (by simp))))
  · rintro c ⟨hc, h1, h2, h3⟩
    obtain ⟨z, hz⟩ := (hf.exact c).1 hc
    refine ⟨z, hz, ?_, fun w hw => ?_⟩
    · rintro t (rfl | rfl)
      · exact hle ha hz h1
      · exact hle hb hz h2
    · obtain ⟨d, hd⟩ := hf.surj w
      exact hle hz hd (h3 d (hf.mem hd) (hok ha hd (hw (by simp))) (hok hb hd (hw (by simp))))

theorem exists_lattice {A : LatticeOps E} (hf : Full M A.toDomainOps rep)
    (h : LatticeLaws False M A) : ∃ _ : PartialOrder R, LatticeSpec False A rep := by
  obtain ⟨i, hp⟩ := exists_partialOrder hf h.toPartialOrderLaws
  exact ⟨i, latticeSpec hf hp h⟩

theorem exists_distributiveLattice {A : LatticeOps E} (hf : Full M A.toDomainOps rep)
    (h : DistributiveLatticeLaws False M A) : ∃ _ : DistribLattice R, LatticeSpec False A rep := by
  obtain ⟨i, hl⟩ := exists_lattice hf h.toLatticeLaws
  have hm : ∀ x y : R, ∃ z : R, IsGLB {x, y} z := fun x y => by
    obtain ⟨a, ha⟩ := hf.surj x
    obtain ⟨b, hb⟩ := hf.surj y
    obtain ⟨c, -, z, -, hz⟩ := returns_false_iff.1 (hl.meet ha hb)
    exact ⟨z, hz⟩
  have hj : ∀ x y : R, ∃ z : R, IsLUB {x, y} z := fun x y => by
    obtain ⟨a, ha⟩ := hf.surj x
    obtain ⟨b, hb⟩ := hf.surj y
    obtain ⟨c, -, z, -, hz⟩ := returns_false_iff.1 (hl.join ha hb)
    exact ⟨z, hz⟩
  choose inf hinf using hm
  choose sup hsup using hj
  have hmeet : ∀ {a b x y}, rep a x → rep b y → Returns False (A.meet a b) (rep · (inf x y)) :=
    fun ha hb => (hl.meet ha hb).mono fun c ⟨z, hc, hz⟩ => hz.unique (hinf _ _) ▸ hc
  have hjoin : ∀ {a b x y}, rep a x → rep b y → Returns False (A.join a b) (rep · (sup x y)) :=
    fun ha hb => (hl.join ha hb).mono fun c ⟨z, hc, hz⟩ => hz.unique (hsup _ _) ▸ hc
  let inst : DistribLattice R :=
    { i with
      inf := inf
      sup := sup
      le_sup_left := fun x y => (hsup x y).1 (by simp)
      le_sup_right := fun x y => (hsup x y).1 (by simp)
      sup_le := fun x y z h1 h2 => (hsup x y).2 (by rintro t (rfl | rfl) <;> assumption)
      inf_le_left := fun x y => (hinf x y).1 (by simp)
      inf_le_right := fun x y => (hinf x y).1 (by simp)
      le_inf := fun x y z h1 h2 => (hinf y z).2 (by rintro t (rfl | rfl) <;> assumption)
      le_sup_inf := fun x y z => by
        obtain ⟨a, ha⟩ := hf.surj x
        obtain ⟨b, hb⟩ := hf.surj y
        obtain ⟨c, hc⟩ := hf.surj z
        exact (hf.eq_of_same (h.join_meet (hf.mem ha) (hf.mem hb) (hf.mem hc))
          ((hmeet hb hc).bind fun _ hp => hjoin ha hp)
          ((hjoin ha hb).bind fun _ hp => (hjoin ha hc).bind fun _ hq => hmeet hp hq)).ge }
  exact ⟨inst, hl⟩

theorem exists_booleanAlgebra {A : BooleanAlgebraOps E} (hf : Full M A.toDomainOps rep)
    (h : BooleanAlgebraLaws False M A) : ∃ _ : BooleanAlgebra R, BooleanAlgebraSpec False A rep := by
  obtain ⟨i, hl⟩ := exists_distributiveLattice (A := A.toLatticeOps) hf h.toDistributiveLatticeLaws
  have hb := boundedOrderSpec (A := A.toBoundedOrderOps) hf hl.toPartialOrderSpec h.toBoundedOrderLaws
  obtain ⟨t, ht, top, htop, htop'⟩ := returns_false_iff.1 hb.max
  obtain ⟨f, hff, bot, hbot, hbot'⟩ := returns_false_iff.1 hb.min
  have hmeet : ∀ {a b x y}, rep a x → rep b y → Returns False (A.meet a b) (rep · (x ⊓ y)) :=
    fun ha hb => (hl.meet ha hb).mono fun c ⟨z, hc, hz⟩ => hz.unique isGLB_pair ▸ hc
  have hjoin : ∀ {a b x y}, rep a x → rep b y → Returns False (A.join a b) (rep · (x ⊔ y)) :=
    fun ha hb => (hl.join ha hb).mono fun c ⟨z, hc, hz⟩ => hz.unique isLUB_pair ▸ hc
  have hnot : ∀ x : R, ∃ y : R, (∀ {a}, rep a x → Returns False (A.not a) (rep · y)) ∧
      x ⊓ y = bot ∧ x ⊔ y = top := fun x => by
    have key : ∀ {a}, rep a x → ∃ b y, A.not a = .ok b ∧ rep b y ∧ x ⊓ y = bot ∧ x ⊔ y = top :=
      fun {a} ha => by
      obtain ⟨b, hb, hm⟩ := returns_false_iff.1 (h.not_mem (hf.mem ha))
      obtain ⟨y, hy⟩ := (hf.exact b).1 hm
      have h1 := h.meet_not (hf.mem ha)
      have h2 := h.join_not (hf.mem ha)
      rw [hb] at h1 h2
      rw [show A.min = .ok f from hff] at h1
      rw [show A.max = .ok t from ht] at h2
      exact ⟨b, y, hb, hy, hf.eq_of_same h1 (hmeet ha hy) hbot, hf.eq_of_same h2 (hjoin ha hy) htop⟩
    obtain ⟨a, ha⟩ := hf.surj x
    obtain ⟨b, y, h1, h2, h3, h4⟩ := key ha
    refine ⟨y, fun {a'} ha' => ?_, h3, h4⟩
    obtain ⟨b', y', h1', h2', h3', h4'⟩ := key ha'
    rw [h1']
    rwa [show y = y' from eq_of_inf_eq_sup_eq (by rw [inf_comm, h3, inf_comm, h3'])
      (by rw [sup_comm, h4, sup_comm, h4'])]
  choose compl hcompl using hnot
  let inst : BooleanAlgebra R :=
    { i with
      top := top
      bot := bot
      compl := compl
      le_top := fun x => htop' x
      bot_le := fun x => hbot' x
      inf_compl_le_bot := fun x => (hcompl x).2.1.le
      top_le_sup_compl := fun x => (hcompl x).2.2.ge }
  exact ⟨inst, { hl, hb with not := fun {a x} ha => (hcompl x).1 ha }⟩

end structures

end Abstalg.Laws
