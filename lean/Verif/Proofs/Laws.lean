import Verif.Spec.Laws
import Verif.Proofs.Basic
import Mathlib.Algebra.GroupWithZero.Basic
import Mathlib.Order.BooleanAlgebra.Basic
import Mathlib.Order.Lattice
import Mathlib.Tactic.Abel
import Mathlib.Tactic.Ring

/-! # The documented laws follow from the contracts -/

set_option autoImplicit false

universe u

namespace Abstalg.Laws

variable {E : Type} {R : Type u} {mp : Prop} {rep : E → R → Prop} {M : E → Prop}

/-- The members are the objects that represent something. -/
def Exact (M : E → Prop) (rep : E → R → Prop) : Prop := ∀ a, M a ↔ ∃ x, rep a x

theorem returns_of_not {α : Type u} {c : Res α} {P : α → Prop} (hmp : ¬ mp) (h : Returns mp c P) :
    ∃ a, c = .ok a ∧ P a := by
  cases c with
  | ok a => exact ⟨a, rfl, h⟩
  | panic => exact (hmp h).elim
  | diverge => exact h.elim

theorem returns_ok {α : Type u} {a : α} {P : α → Prop} (h : P a) : Returns mp (.ok a) P := h

theorem decides_true {c : Res Bool} {p : Prop} (h : Decides mp c p) (hp : p) : Returns mp c (· = true) :=
  h.mono fun _ hb => hb.2 hp

theorem decides_false {c : Res Bool} {p : Prop} (h : Decides mp c p) (hp : ¬ p) :
    Returns mp c (· = false) :=
  h.mono fun b hb => by cases b <;> simp_all

theorem of_ok_true {c : Res Bool} {p : Prop} (h : Decides mp c p) (hc : c = .ok true) : p := by
  subst hc; exact h.1 rfl

theorem of_ok_false {c : Res Bool} {p : Prop} (h : Decides mp c p) (hc : c = .ok false) : ¬ p := by
  subst hc
  exact fun hp => Bool.false_ne_true (h.2 hp)

theorem sameBool {c d : Res Bool} {p : Prop} (hc : Decides mp c p) (hd : Decides mp d p) :
    SameBool mp c d :=
  hc.mono fun _ ha => hd.mono fun _ hb => Bool.eq_iff_iff.2 (ha.trans hb.symm)

section domain

variable {A : DomainOps E} (h : DomainSpec mp A rep)
include h

theorem same (hx : Exact M rep) {c d : Res E} {x : R} (hc : Returns mp c (rep · x))
    (hd : Returns mp d (rep · x)) : Same mp M A c d :=
  hc.mono fun _ ha => ⟨(hx _).2 ⟨_, ha⟩,
    hd.mono fun _ hb => ⟨(hx _).2 ⟨_, hb⟩, decides_true (h.equals ha hb) rfl⟩⟩

theorem equal_eq {c d : Res E} {x y : R} (hc : Returns mp c (rep · x)) (hd : Returns mp d (rep · y))
    (he : Equal A c d) : x = y := by
  obtain ⟨a, b, rfl, rfl, he⟩ := he
  exact of_ok_true (h.equals hc hd) he

theorem domainLaws (hx : Exact M rep) : DomainLaws mp M A where
  contains := fun ha => by
    obtain ⟨x, ha⟩ := (hx _).1 ha
    exact h.contains ha
  refl := fun ha => by
    obtain ⟨x, ha⟩ := (hx _).1 ha
    exact decides_true (h.equals ha ha) rfl
  symm := fun ha hb => by
    obtain ⟨x, ha⟩ := (hx _).1 ha
    obtain ⟨y, hb⟩ := (hx _).1 hb
    exact sameBool (h.equals ha hb) ((h.equals hb ha).iff eq_comm)
  trans := fun ha hb hc h1 h2 => by
    obtain ⟨x, ha⟩ := (hx _).1 ha
    obtain ⟨y, hb⟩ := (hx _).1 hb
    obtain ⟨z, hc⟩ := (hx _).1 hc
    exact decides_true (h.equals ha hc) ((of_ok_true (h.equals ha hb) h1).trans
      (of_ok_true (h.equals hb hc) h2))

end domain

theorem semigroupLaws [Semigroup R] {A : SemigroupOps E} (h : SemigroupSpec mp A rep)
    (hx : Exact M rep) : SemigroupLaws mp M A where
  toDomainLaws := domainLaws h.toDomainSpec hx
  mul_congr := fun ha hb hc hd h1 h2 => by
    obtain ⟨x, ha⟩ := (hx _).1 ha
    obtain ⟨y, hb⟩ := (hx _).1 hb
    obtain ⟨z, hc⟩ := (hx _).1 hc
    obtain ⟨w, hd⟩ := (hx _).1 hd
    obtain rfl := of_ok_true (h.equals ha hc) h1
    obtain rfl := of_ok_true (h.equals hb hd) h2
    exact same h.toDomainSpec hx (h.mul ha hb) (h.mul hc hd)
  mul_assoc := fun ha hb hc => by
    obtain ⟨x, ha⟩ := (hx _).1 ha
    obtain ⟨y, hb⟩ := (hx _).1 hb
    obtain ⟨z, hc⟩ := (hx _).1 hc
    refine same (x := x * y * z) h.toDomainSpec hx ((h.mul ha hb).bind fun p hp => h.mul hp hc)
      ((h.mul hb hc).bind fun p hp => ?_)
    rw [mul_assoc]
    exact h.mul ha hp
  mulAssign := fun ha hb => by
    obtain ⟨x, ha⟩ := (hx _).1 ha
    obtain ⟨y, hb⟩ := (hx _).1 hb
    exact same h.toDomainSpec hx (h.mulAssign ha hb) (h.mul ha hb)
  square := fun ha => by
    obtain ⟨x, ha⟩ := (hx _).1 ha
    exact same h.toDomainSpec hx (h.square ha) (h.mul ha ha)

theorem isOne_sameBool [Monoid R] {A : MonoidOps E} (h : MonoidSpec mp A rep) {a : E} {x : R}
    (ha : rep a x) : SameBool mp (A.isOne a) (do A.equals a (← A.one)) :=
  sameBool (h.isOne ha) (Returns.bind h.one fun _ ho => h.equals ha ho)

theorem monoidLaws [Monoid R] {A : MonoidOps E} (h : MonoidSpec mp A rep)
    (hx : Exact M rep) : MonoidLaws mp M A where
  toSemigroupLaws := semigroupLaws h.toSemigroupSpec hx
  one_mem := h.one.mono fun _ hp => (hx _).2 ⟨_, hp⟩
  mul_one := fun ha => by
    obtain ⟨x, ha⟩ := (hx _).1 ha
    refine same (x := x * 1) h.toDomainSpec hx (h.one.bind fun p hp => h.mul ha hp) ?_
    rw [mul_one]
    exact ha
  one_mul := fun ha => by
    obtain ⟨x, ha⟩ := (hx _).1 ha
    refine same (x := 1 * x) h.toDomainSpec hx (h.one.bind fun p hp => h.mul hp ha) ?_
    rw [one_mul]
    exact ha
  isOne := fun ha => by
    obtain ⟨x, ha⟩ := (hx _).1 ha
    exact isOne_sameBool h ha
  tryInv := fun {a} ha => by
    obtain ⟨x, ha⟩ := (hx _).1 ha
    refine (h.tryInv ha).mono fun r hr => ?_
    cases r with
    | some b =>
      obtain ⟨y, hb, h1, h2⟩ := hr
      refine ⟨(hx _).2 ⟨_, hb⟩, same (x := x * y) h.toDomainSpec hx (h.mul ha hb) ?_,
        same (x := y * x) h.toDomainSpec hx (h.mul hb ha) ?_⟩
      · rw [h1]; exact h.one
      · rw [h2]; exact h.one
    | none =>
      rintro b hb ⟨h1, h2⟩
      obtain ⟨y, hb⟩ := (hx _).1 hb
      have e1 := equal_eq h.toDomainSpec (h.mul ha hb) h.one h1
      have e2 := equal_eq h.toDomainSpec (h.mul hb ha) h.one h2
      exact hr ⟨⟨x, y, e1, e2⟩, rfl⟩
  invertible := fun ha => by
    obtain ⟨x, ha⟩ := (hx _).1 ha
    refine sameBool (h.invertible ha) (Returns.bind (h.tryInv ha) fun r hr => ?_)
    cases r with
    | some b =>
      obtain ⟨y, hb, h1, h2⟩ := hr
      exact iff_of_true rfl ⟨⟨x, y, h1, h2⟩, rfl⟩
    | none => exact iff_of_false Bool.false_ne_true hr

theorem commutativeMonoidLaws [AddCommMonoid R] {A : CommutativeMonoidOps E}
    (h : CommutativeMonoidSpec mp A rep) (hx : Exact M rep) : CommutativeMonoidLaws mp M A where
  toDomainLaws := domainLaws h.toDomainSpec hx
  add_congr := fun ha hb hc hd h1 h2 => by
    obtain ⟨x, ha⟩ := (hx _).1 ha
    obtain ⟨y, hb⟩ := (hx _).1 hb
    obtain ⟨z, hc⟩ := (hx _).1 hc
    obtain ⟨w, hd⟩ := (hx _).1 hd
    obtain rfl := of_ok_true (h.equals ha hc) h1
    obtain rfl := of_ok_true (h.equals hb hd) h2
    exact same h.toDomainSpec hx (h.add ha hb) (h.add hc hd)
  add_assoc := fun ha hb hc => by
    obtain ⟨x, ha⟩ := (hx _).1 ha
    obtain ⟨y, hb⟩ := (hx _).1 hb
    obtain ⟨z, hc⟩ := (hx _).1 hc
    refine same (x := x + y + z) h.toDomainSpec hx ((h.add ha hb).bind fun p hp => h.add hp hc)
      ((h.add hb hc).bind fun p hp => ?_)
    rw [add_assoc]
    exact h.add ha hp
  add_comm := fun ha hb => by
    obtain ⟨x, ha⟩ := (hx _).1 ha
    obtain ⟨y, hb⟩ := (hx _).1 hb
    refine same (x := x + y) h.toDomainSpec hx (h.add ha hb) ?_
    rw [add_comm]
    exact h.add hb ha
  zero_mem := h.zero.mono fun _ hp => (hx _).2 ⟨_, hp⟩
  add_zero := fun ha => by
    obtain ⟨x, ha⟩ := (hx _).1 ha
    refine same (x := x + 0) h.toDomainSpec hx (h.zero.bind fun p hp => h.add ha hp) ?_
    rw [add_zero]
    exact ha
  isZero := fun ha => by
    obtain ⟨x, ha⟩ := (hx _).1 ha
    exact sameBool (h.isZero ha) (Returns.bind h.zero fun _ ho => h.equals ha ho)
  addAssign := fun ha hb => by
    obtain ⟨x, ha⟩ := (hx _).1 ha
    obtain ⟨y, hb⟩ := (hx _).1 hb
    exact same h.toDomainSpec hx (h.addAssign ha hb) (h.add ha hb)
  double := fun ha => by
    obtain ⟨x, ha⟩ := (hx _).1 ha
    exact same h.toDomainSpec hx (h.double ha) (h.add ha ha)
  utimes_zero := fun ha => by
    obtain ⟨x, ha⟩ := (hx _).1 ha
    refine same (x := 0 • x) h.toDomainSpec hx (h.utimes 0 ha) ?_
    rw [zero_nsmul]
    exact h.zero
  utimes_succ := fun n ha => by
    obtain ⟨x, ha⟩ := (hx _).1 ha
    refine same (x := (n + 1) • x) h.toDomainSpec hx (h.utimes _ ha) ?_
    rw [succ_nsmul]
    exact (h.utimes n ha).bind fun p hp => h.add hp ha

variable [Cfg]

theorem zero_ne_isizeMin : (0 : ℤ) ≠ isizeMin := by
  have : (0 : ℤ) < 2 ^ (Cfg.ptrBits - 1) := by positivity
  unfold isizeMin
  omega

theorem ofNat_ne_isizeMin (n : ℕ) : (n : ℤ) ≠ isizeMin := by
  have : (0 : ℤ) < 2 ^ (Cfg.ptrBits - 1) := by positivity
  unfold isizeMin
  omega

theorem succ_ne_isizeMin (n : ℕ) : (n : ℤ) + 1 ≠ isizeMin := by
  have := ofNat_ne_isizeMin (n + 1)
  rwa [Nat.cast_succ] at this

theorem groupLaws [Group R] {A : GroupOps E} (h : GroupSpec mp A rep) (hx : Exact M rep) :
    GroupLaws mp M A where
  toMonoidLaws := monoidLaws h.toMonoidSpec hx
  inv_mem := fun ha => by
    obtain ⟨x, ha⟩ := (hx _).1 ha
    exact (h.inv ha).mono fun _ hp => (hx _).2 ⟨_, hp⟩
  mul_inv := fun ha => by
    obtain ⟨x, ha⟩ := (hx _).1 ha
    refine same (x := x * x⁻¹) h.toDomainSpec hx ((h.inv ha).bind fun p hp => h.mul ha hp) ?_
    rw [mul_inv_cancel]
    exact h.one
  inv_mul := fun ha => by
    obtain ⟨x, ha⟩ := (hx _).1 ha
    refine same (x := x⁻¹ * x) h.toDomainSpec hx ((h.inv ha).bind fun p hp => h.mul hp ha) ?_
    rw [inv_mul_cancel]
    exact h.one
  power_zero := fun ha => by
    obtain ⟨x, ha⟩ := (hx _).1 ha
    refine same (x := x ^ (0 : ℤ)) h.toDomainSpec hx (h.power 0 zero_ne_isizeMin ha) ?_
    rw [zpow_zero]
    exact h.one
  power_succ := fun n ha => by
    obtain ⟨x, ha⟩ := (hx _).1 ha
    refine same (x := x ^ ((n : ℤ) + 1)) h.toDomainSpec hx (h.power _ (succ_ne_isizeMin n) ha) ?_
    rw [zpow_add_one]
    exact (h.power n (ofNat_ne_isizeMin n) ha).bind fun p hp => h.mul hp ha
  power_neg := fun n hn ha => by
    obtain ⟨x, ha⟩ := (hx _).1 ha
    refine same (x := x ^ (-n : ℤ)) h.toDomainSpec hx (h.power _ hn ha) ?_
    rw [zpow_neg]
    exact (h.power n (ofNat_ne_isizeMin n) ha).bind fun p hp => h.inv hp

theorem abelianGroupLaws [AddCommGroup R] {A : AbelianGroupOps E} (h : AbelianGroupSpec mp A rep)
    (hx : Exact M rep) : AbelianGroupLaws mp M A where
  toCommutativeMonoidLaws := commutativeMonoidLaws h.toCommutativeMonoidSpec hx
  neg_mem := fun ha => by
    obtain ⟨x, ha⟩ := (hx _).1 ha
    exact (h.neg ha).mono fun _ hp => (hx _).2 ⟨_, hp⟩
  add_neg := fun ha => by
    obtain ⟨x, ha⟩ := (hx _).1 ha
    refine same (x := x + -x) h.toDomainSpec hx ((h.neg ha).bind fun p hp => h.add ha hp) ?_
    rw [add_neg_cancel]
    exact h.zero
  negAssign := fun ha => by
    obtain ⟨x, ha⟩ := (hx _).1 ha
    exact same h.toDomainSpec hx (h.negAssign ha) (h.neg ha)
  sub := fun ha hb => by
    obtain ⟨x, ha⟩ := (hx _).1 ha
    obtain ⟨y, hb⟩ := (hx _).1 hb
    refine same (x := x - y) h.toDomainSpec hx (h.sub ha hb) ((h.neg hb).bind fun p hp => ?_)
    rw [sub_eq_add_neg]
    exact h.add ha hp
  subAssign := fun ha hb => by
    obtain ⟨x, ha⟩ := (hx _).1 ha
    obtain ⟨y, hb⟩ := (hx _).1 hb
    exact same h.toDomainSpec hx (h.subAssign ha hb) (h.sub ha hb)
  times_zero := fun ha => by
    obtain ⟨x, ha⟩ := (hx _).1 ha
    refine same (x := (0 : ℤ) • x) h.toDomainSpec hx (h.times 0 zero_ne_isizeMin ha) ?_
    rw [zero_zsmul]
    exact h.zero
  times_succ := fun n ha => by
    obtain ⟨x, ha⟩ := (hx _).1 ha
    refine same (x := ((n : ℤ) + 1) • x) h.toDomainSpec hx (h.times _ (succ_ne_isizeMin n) ha) ?_
    rw [add_zsmul, one_zsmul]
    exact (h.times n (ofNat_ne_isizeMin n) ha).bind fun p hp => h.add hp ha
  times_neg := fun n hn ha => by
    obtain ⟨x, ha⟩ := (hx _).1 ha
    refine same (x := (-n : ℤ) • x) h.toDomainSpec hx (h.times _ hn ha) ?_
    rw [neg_zsmul]
    exact (h.times n (ofNat_ne_isizeMin n) ha).bind fun p hp => h.neg hp

omit [Cfg] in
theorem semiRingLaws [Semiring R] {A : SemiRingOps E} (h : SemiRingSpec mp A rep)
    (hx : Exact M rep) : SemiRingLaws mp M A where
  toCommutativeMonoidLaws := commutativeMonoidLaws h.toCommutativeMonoidSpec hx
  __ := monoidLaws h.toMonoidSpec hx
  mul_add := fun ha hb hc => by
    obtain ⟨x, ha⟩ := (hx _).1 ha
    obtain ⟨y, hb⟩ := (hx _).1 hb
    obtain ⟨z, hc⟩ := (hx _).1 hc
    refine same (x := x * (y + z)) h.toDomainSpec hx ((h.add hb hc).bind fun p hp => h.mul ha hp) ?_
    rw [mul_add]
    exact (h.mul ha hb).bind fun p hp => (h.mul ha hc).bind fun q hq => h.add hp hq
  add_mul := fun ha hb hc => by
    obtain ⟨x, ha⟩ := (hx _).1 ha
    obtain ⟨y, hb⟩ := (hx _).1 hb
    obtain ⟨z, hc⟩ := (hx _).1 hc
    refine same (x := (x + y) * z) h.toDomainSpec hx ((h.add ha hb).bind fun p hp => h.mul hp hc) ?_
    rw [add_mul]
    exact (h.mul ha hc).bind fun p hp => (h.mul hb hc).bind fun q hq => h.add hp hq
  mul_zero := fun ha => by
    obtain ⟨x, ha⟩ := (hx _).1 ha
    refine same (x := x * 0) h.toDomainSpec hx (h.zero.bind fun p hp => h.mul ha hp) ?_
    rw [mul_zero]
    exact h.zero
  zero_mul := fun ha => by
    obtain ⟨x, ha⟩ := (hx _).1 ha
    refine same (x := 0 * x) h.toDomainSpec hx (h.zero.bind fun p hp => h.mul hp ha) ?_
    rw [zero_mul]
    exact h.zero

theorem unitaryRingLaws [Ring R] {A : UnitaryRingOps E} (h : UnitaryRingSpec mp A rep)
    (hx : Exact M rep) : UnitaryRingLaws mp M A where
  toSemiRingLaws := semiRingLaws h.toSemiRingSpec hx
  __ := abelianGroupLaws h.toAbelianGroupSpec hx
  int := fun n hn => by
    refine same (x := (n : R)) h.toDomainSpec hx (h.int n hn) (h.one.bind fun p hp => ?_)
    have := h.times n hn hp
    rwa [zsmul_one] at this

theorem integralDomainLaws [CommRing R] [IsDomain R] [NormalizationMonoid R] {A : IntegralDomainOps E}
    (h : IntegralDomainSpec mp A rep) (hx : Exact M rep) : IntegralDomainLaws mp M A where
  toUnitaryRingLaws := unitaryRingLaws h.toUnitaryRingSpec hx
  mul_comm := fun ha hb => by
    obtain ⟨x, ha⟩ := (hx _).1 ha
    obtain ⟨y, hb⟩ := (hx _).1 hb
    refine same (x := x * y) h.toDomainSpec hx (h.mul ha hb) ?_
    rw [mul_comm]
    exact h.mul hb ha
  one_ne_zero := h.one.bind fun _ hp => decides_false (h.isZero hp) one_ne_zero
  no_zero_divisors := fun ha hb h1 h2 => by
    obtain ⟨x, ha⟩ := (hx _).1 ha
    obtain ⟨y, hb⟩ := (hx _).1 hb
    exact (h.mul ha hb).bind fun _ hp => decides_false (h.isZero hp)
      (mul_ne_zero (of_ok_false (h.isZero ha) h1) (of_ok_false (h.isZero hb) h2))
  tryDiv := fun ha hb h1 => by
    obtain ⟨x, ha⟩ := (hx _).1 ha
    obtain ⟨y, hb⟩ := (hx _).1 hb
    have hy := of_ok_false (h.isZero hb) h1
    refine (h.tryDiv ha hb hy).mono fun r hr => ?_
    cases r with
    | some q =>
      obtain ⟨z, hq, rfl⟩ := hr
      refine ⟨(hx _).2 ⟨_, hq⟩, same h.toDomainSpec hx (h.mul hb hq) ha, fun q' hq' he => ?_⟩
      obtain ⟨z', hq'⟩ := (hx _).1 hq'
      have := equal_eq h.toDomainSpec (h.mul hb hq') (d := .ok _) ha he
      exact decides_true (h.equals hq hq') (mul_left_cancel₀ hy this).symm
    | none =>
      intro q hq he
      obtain ⟨z, hq⟩ := (hx _).1 hq
      have := equal_eq h.toDomainSpec (h.mul hb hq) (d := .ok _) ha he
      exact hr ⟨z, this.symm⟩
  tryDiv_zero := fun ha hb h1 => by
    obtain ⟨x, ha⟩ := (hx _).1 ha
    obtain ⟨y, hb⟩ := (hx _).1 hb
    obtain rfl := of_ok_true (h.isZero hb) h1
    exact h.tryDiv_zero ha hb
  divisible := fun {a b} ha hb => by
    obtain ⟨x, ha⟩ := (hx _).1 ha
    obtain ⟨y, hb⟩ := (hx _).1 hb
    refine (h.divisible ha hb).mono fun r hr => ?_
    cases r with
    | true =>
      by_cases hmp : mp
      · exact .inl hmp
      refine .inr ?_
      have key : ∀ q z, rep q z → y * z = x → M q ∧
          Equal A.toDomainOps (A.mul b q) (.ok a) := fun q z hq hz => by
        obtain ⟨c, hc, h1⟩ := returns_of_not hmp (h.mul hb hq)
        obtain ⟨t', ht', h3⟩ := returns_of_not hmp (h.equals h1 ha)
        rw [h3.2 hz] at ht'
        exact ⟨(hx _).2 ⟨_, hq⟩, c, a, hc, rfl, ht'⟩
      by_cases hy : y = 0
      · obtain ⟨z, hz, h1⟩ := returns_of_not hmp h.zero
        obtain ⟨w, hw⟩ := hr.1 rfl
        exact ⟨z, key z 0 h1 (by rw [hw, hy]; simp)⟩
      · obtain ⟨r, h1, h2⟩ := returns_of_not hmp (h.tryDiv ha hb hy)
        cases r with
        | some q =>
          obtain ⟨z, hq, hz⟩ := h2
          exact ⟨q, key q z hq hz.symm⟩
        | none => exact (h2 (hr.1 rfl)).elim
    | false =>
      intro q hq he
      obtain ⟨z, hq⟩ := (hx _).1 hq
      have := equal_eq h.toDomainSpec (h.mul hb hq) (d := .ok _) ha he
      exact Bool.false_ne_true (hr.2 ⟨z, this.symm⟩)
  associates := fun ha hb => by
    obtain ⟨x, ha⟩ := (hx _).1 ha
    obtain ⟨y, hb⟩ := (hx _).1 hb
    refine sameBool (h.associates ha hb) (Returns.bind (h.divisible ha hb) fun p hp =>
      Returns.bind (h.divisible hb ha) fun q hq => ?_)
    show (p && q) = true ↔ _
    rw [Bool.and_eq_true, hp, hq, ← dvd_dvd_iff_associated, and_comm]
  associateRepr := fun ha => by
    obtain ⟨x, ha⟩ := (hx _).1 ha
    exact ⟨(h.associateRepr ha).mono fun _ hp => (hx _).2 ⟨_, hp⟩,
      (h.associateRepr ha).bind fun p hp => decides_true (h.associates ha hp)
        (normalize_associated x).symm⟩
  associateRepr_congr := fun ha hb h1 => by
    obtain ⟨x, ha⟩ := (hx _).1 ha
    obtain ⟨y, hb⟩ := (hx _).1 hb
    have := of_ok_true (h.associates ha hb) h1
    refine same (x := normalize x) h.toDomainSpec hx (h.associateRepr ha) ?_
    rw [normalize_eq_normalize this.dvd this.symm.dvd]
    exact h.associateRepr hb
  associateCoef := fun ha h1 => by
    obtain ⟨x, ha⟩ := (hx _).1 ha
    have h0 := of_ok_false (h.isZero ha) h1
    refine ⟨(h.associateCoef ha h0).mono fun _ hp => (hx _).2 ⟨_, hp⟩, same (x := x * normUnit x) h.toDomainSpec hx
      ((h.associateCoef ha h0).bind fun p hp => h.mul ha hp) ?_,
      (h.associateCoef ha h0).bind fun p hp => decides_true (h.invertible hp) (normUnit x).isUnit⟩
    rw [← normalize_apply]
    exact h.associateRepr ha
  associateCoef_zero := fun ha h1 => by
    obtain ⟨x, ha⟩ := (hx _).1 ha
    obtain rfl := of_ok_true (h.isZero ha) h1
    exact h.associateCoef_zero ha

theorem euclideanDomainLaws [EuclideanDomain R] [NormalizationMonoid R] {A : EuclideanDomainOps E}
    (h : EuclideanSpec mp A rep) (hx : Exact M rep)
    (hred : ∀ x y : R, y ≠ 0 → x % y / y = 0) : EuclideanDomainLaws mp M A where
  toIntegralDomainLaws := integralDomainLaws h.toIntegralDomainSpec hx
  quoRem := fun ha hb h1 => by
    obtain ⟨x, ha⟩ := (hx _).1 ha
    obtain ⟨y, hb⟩ := (hx _).1 hb
    have hy := of_ok_false (h.isZero hb) h1
    refine (h.quoRem ha hb hy).mono fun p ⟨hq, hr⟩ => ⟨(hx _).2 ⟨_, hq⟩, (hx _).2 ⟨_, hr⟩, ?_,
      decides_true (h.reduced hr hb) (.inr (hred x y hy)), same h.toDomainSpec hx (h.quo ha hb hy) hq,
      same h.toDomainSpec hx (h.rem ha hb hy) hr⟩
    refine same (x := y * (x / y) + x % y) h.toDomainSpec hx
      ((h.mul hb hq).bind fun c hc => h.add hc hr) ?_
    rw [EuclideanDomain.div_add_mod]
    exact ha
  quoRem_zero := fun ha hb h1 => by
    obtain ⟨x, ha⟩ := (hx _).1 ha
    obtain ⟨y, hb⟩ := (hx _).1 hb
    obtain rfl := of_ok_true (h.isZero hb) h1
    exact ⟨h.quoRem_zero ha hb, h.quo_zero ha hb, h.rem_zero ha hb⟩
  reduced := fun ha hb h1 => by
    obtain ⟨x, ha⟩ := (hx _).1 ha
    obtain ⟨y, hb⟩ := (hx _).1 hb
    have hy := of_ok_false (h.isZero hb) h1
    exact sameBool ((h.reduced ha hb).iff (or_iff_right hy))
      (Returns.bind (h.quo ha hb hy) fun p hp => h.isZero hp)
  reduced_zero := fun ha hb h1 => by
    obtain ⟨x, ha⟩ := (hx _).1 ha
    obtain ⟨y, hb⟩ := (hx _).1 hb
    exact decides_true (h.reduced ha hb) (.inl (of_ok_true (h.isZero hb) h1))
  gcd := fun ha hb => by
    obtain ⟨x, ha⟩ := (hx _).1 ha
    obtain ⟨y, hb⟩ := (hx _).1 hb
    refine (h.gcd ha hb).mono fun c ⟨g, hc, h1, h2, h3⟩ => ⟨(hx _).2 ⟨_, hc⟩,
      decides_true (h.divisible ha hc) h1, decides_true (h.divisible hb hc) h2, fun d hd e1 e2 => ?_⟩
    obtain ⟨z, hd⟩ := (hx _).1 hd
    exact decides_true (h.divisible hc hd) (h3 z (of_ok_true (h.divisible ha hd) e1)
      (of_ok_true (h.divisible hb hd) e2))
  lcm := fun ha hb => by
    obtain ⟨x, ha⟩ := (hx _).1 ha
    obtain ⟨y, hb⟩ := (hx _).1 hb
    refine (h.lcm ha hb).mono fun c ⟨g, hc, h1, h2, h3⟩ => ⟨(hx _).2 ⟨_, hc⟩,
      decides_true (h.divisible hc ha) h1, decides_true (h.divisible hc hb) h2, fun d hd e1 e2 => ?_⟩
    obtain ⟨z, hd⟩ := (hx _).1 hd
    exact decides_true (h.divisible hd hc) (h3 z (of_ok_true (h.divisible hd ha) e1)
      (of_ok_true (h.divisible hd hb) e2))
  extendedGcd := fun ha hb => by
    obtain ⟨x, ha⟩ := (hx _).1 ha
    obtain ⟨y, hb⟩ := (hx _).1 hb
    refine (h.extendedGcd ha hb).mono fun c ⟨g, s, t, hg, hs, ht, h1, h2⟩ => ⟨(hx _).2 ⟨_, hg⟩,
      (hx _).2 ⟨_, hs⟩, (hx _).2 ⟨_, ht⟩, ?_, (h.gcd ha hb).bind fun d ⟨g', hg', h3⟩ =>
        decides_true (h.associates hg hg') (associated_of_dvd_dvd (h3.2.2 _ h2.1 h2.2.1)
          (h2.2.2 _ h3.1 h3.2.1))⟩
    refine same (x := x * s + y * t) h.toDomainSpec hx
      ((h.mul ha hs).bind fun p hp => (h.mul hb ht).bind fun q hq => h.add hp hq) ?_
    rw [h1]
    exact hg
  relativePrimes := fun ha hb => by
    obtain ⟨x, ha⟩ := (hx _).1 ha
    obtain ⟨y, hb⟩ := (hx _).1 hb
    refine sameBool (h.relativePrimes ha hb) (Returns.bind (h.gcd ha hb) fun c ⟨g, hc, h1, h2, h3⟩ =>
      (h.invertible hc).iff ⟨fun hu => ?_, fun hc => ?_⟩)
    · classical
      have e : Associated (EuclideanDomain.gcd x y) g := associated_of_dvd_dvd
        (h3 _ (EuclideanDomain.gcd_dvd_left x y) (EuclideanDomain.gcd_dvd_right x y))
        (EuclideanDomain.dvd_gcd h1 h2)
      exact EuclideanDomain.gcd_isUnit_iff.1 (e.isUnit_iff.2 hu)
    · exact hc.isUnit_of_dvd' h1 h2

theorem fieldLaws [Field R] {A : FieldOps E} (h : FieldSpec mp A rep) (hx : Exact M rep) :
    FieldLaws mp M A where
  toUnitaryRingLaws := unitaryRingLaws h.toUnitaryRingSpec hx
  mul_comm := fun ha hb => by
    obtain ⟨x, ha⟩ := (hx _).1 ha
    obtain ⟨y, hb⟩ := (hx _).1 hb
    refine same (x := x * y) h.toDomainSpec hx (h.mul ha hb) ?_
    rw [mul_comm]
    exact h.mul hb ha
  one_ne_zero := h.one.bind fun _ hp => decides_false (h.isZero hp) one_ne_zero
  inv_mem := fun ha h1 => by
    obtain ⟨x, ha⟩ := (hx _).1 ha
    exact (h.inv ha (of_ok_false (h.isZero ha) h1)).mono fun _ hp => (hx _).2 ⟨_, hp⟩
  mul_inv := fun ha h1 => by
    obtain ⟨x, ha⟩ := (hx _).1 ha
    have h0 := of_ok_false (h.isZero ha) h1
    refine same (x := x * x⁻¹) h.toDomainSpec hx ((h.inv ha h0).bind fun p hp => h.mul ha hp) ?_
    rw [mul_inv_cancel₀ h0]
    exact h.one
  inv_zero := fun ha h1 => by
    obtain ⟨x, ha⟩ := (hx _).1 ha
    obtain rfl := of_ok_true (h.isZero ha) h1
    exact h.inv_zero ha
  div_mem := fun ha hb h1 => by
    obtain ⟨x, ha⟩ := (hx _).1 ha
    obtain ⟨y, hb⟩ := (hx _).1 hb
    exact (h.div ha hb (of_ok_false (h.isZero hb) h1)).mono fun _ hp => (hx _).2 ⟨_, hp⟩
  div := fun ha hb h1 => by
    obtain ⟨x, ha⟩ := (hx _).1 ha
    obtain ⟨y, hb⟩ := (hx _).1 hb
    have h0 := of_ok_false (h.isZero hb) h1
    refine same (x := x / y * y) h.toDomainSpec hx ((h.div ha hb h0).bind fun p hp => h.mul hp hb) ?_
    rw [div_mul_cancel₀ _ h0]
    exact ha
  div_zero := fun ha hb h1 => by
    obtain ⟨x, ha⟩ := (hx _).1 ha
    obtain ⟨y, hb⟩ := (hx _).1 hb
    obtain rfl := of_ok_true (h.isZero hb) h1
    exact h.div_zero ha hb
  power_zero := fun ha h1 => by
    obtain ⟨x, ha⟩ := (hx _).1 ha
    refine same (x := x ^ (0 : ℤ)) h.toDomainSpec hx
      (h.power 0 zero_ne_isizeMin ha (of_ok_false (h.isZero ha) h1)) ?_
    rw [zpow_zero]
    exact h.one
  power_succ := fun n ha h1 => by
    obtain ⟨x, ha⟩ := (hx _).1 ha
    have h0 := of_ok_false (h.isZero ha) h1
    refine same (x := x ^ ((n : ℤ) + 1)) h.toDomainSpec hx (h.power _ (succ_ne_isizeMin n) ha h0) ?_
    rw [zpow_add_one₀ h0]
    exact (h.power n (ofNat_ne_isizeMin n) ha h0).bind fun p hp => h.mul hp ha
  power_neg := fun n hn ha h1 => by
    obtain ⟨x, ha⟩ := (hx _).1 ha
    have h0 := of_ok_false (h.isZero ha) h1
    refine same (x := x ^ (-n : ℤ)) h.toDomainSpec hx (h.power _ hn ha h0) ?_
    rw [zpow_neg]
    exact (h.power n (ofNat_ne_isizeMin n) ha h0).bind fun p hp => h.inv hp (zpow_ne_zero _ h0)
  power_of_zero := fun n ha h1 => by
    obtain ⟨x, ha⟩ := (hx _).1 ha
    obtain rfl := of_ok_true (h.isZero ha) h1
    exact same h.toDomainSpec hx (h.power_zero n ha) h.zero

omit [Cfg]

theorem partialOrderLaws [PartialOrder R] {A : PartialOrderOps E} (h : PartialOrderSpec mp A rep)
    (hx : Exact M rep) : PartialOrderLaws mp M A where
  toDomainLaws := domainLaws h.toDomainSpec hx
  le_refl := fun ha => by
    obtain ⟨x, ha⟩ := (hx _).1 ha
    exact decides_true (h.leq ha ha) le_rfl
  le_trans := fun ha hb hc h1 h2 => by
    obtain ⟨x, ha⟩ := (hx _).1 ha
    obtain ⟨y, hb⟩ := (hx _).1 hb
    obtain ⟨z, hc⟩ := (hx _).1 hc
    exact decides_true (h.leq ha hc) ((of_ok_true (h.leq ha hb) h1).trans (of_ok_true (h.leq hb hc) h2))
  le_antisymm := fun ha hb h1 h2 => by
    obtain ⟨x, ha⟩ := (hx _).1 ha
    obtain ⟨y, hb⟩ := (hx _).1 hb
    exact decides_true (h.equals ha hb) (le_antisymm (of_ok_true (h.leq ha hb) h1)
      (of_ok_true (h.leq hb ha) h2))
  le_congr := fun ha hb hc hd h1 h2 => by
    obtain ⟨x, ha⟩ := (hx _).1 ha
    obtain ⟨y, hb⟩ := (hx _).1 hb
    obtain ⟨z, hc⟩ := (hx _).1 hc
    obtain ⟨w, hd⟩ := (hx _).1 hd
    obtain rfl := of_ok_true (h.equals ha hc) h1
    obtain rfl := of_ok_true (h.equals hb hd) h2
    exact sameBool (h.leq ha hb) (h.leq hc hd)
  lessThan := fun ha hb => by
    obtain ⟨x, ha⟩ := (hx _).1 ha
    obtain ⟨y, hb⟩ := (hx _).1 hb
    refine sameBool (h.lessThan ha hb) (Returns.bind (h.leq ha hb) fun p hp =>
      Returns.bind (h.equals ha hb) fun q hq => ?_)
    show (p && !q) = true ↔ _
    rw [lt_iff_le_and_ne, ← hp, Ne, ← hq]
    simp
  comparable := fun ha hb => by
    obtain ⟨x, ha⟩ := (hx _).1 ha
    obtain ⟨y, hb⟩ := (hx _).1 hb
    refine sameBool (h.comparable ha hb) (Returns.bind (h.leq ha hb) fun p hp =>
      Returns.bind (h.leq hb ha) fun q hq => ?_)
    show (p || q) = true ↔ _
    rw [← hp, ← hq]
    simp

theorem boundedOrderLaws [PartialOrder R] {A : BoundedOrderOps E} (h : BoundedOrderSpec mp A rep)
    (hx : Exact M rep) : BoundedOrderLaws mp M A where
  toPartialOrderLaws := partialOrderLaws h.toPartialOrderSpec hx
  max_mem := h.max.mono fun _ ⟨_, ha, _⟩ => (hx _).2 ⟨_, ha⟩
  min_mem := h.min.mono fun _ ⟨_, ha, _⟩ => (hx _).2 ⟨_, ha⟩
  le_max := fun ha => by
    obtain ⟨x, ha⟩ := (hx _).1 ha
    exact h.max.bind fun p ⟨y, hp, hy⟩ => decides_true (h.leq ha hp) (hy x)
  min_le := fun ha => by
    obtain ⟨x, ha⟩ := (hx _).1 ha
    exact h.min.bind fun p ⟨y, hp, hy⟩ => decides_true (h.leq hp ha) (hy x)

theorem latticeLaws [PartialOrder R] {A : LatticeOps E} (h : LatticeSpec mp A rep)
    (hx : Exact M rep) : LatticeLaws mp M A where
  toPartialOrderLaws := partialOrderLaws h.toPartialOrderSpec hx
  meet := fun ha hb => by
    obtain ⟨x, ha⟩ := (hx _).1 ha
    obtain ⟨y, hb⟩ := (hx _).1 hb
    refine (h.meet ha hb).mono fun c ⟨z, hc, h1, h2⟩ => ⟨(hx _).2 ⟨_, hc⟩,
      decides_true (h.leq hc ha) (h1 (by simp)), decides_true (h.leq hc hb) (h1 (by simp)),
      fun d hd e1 e2 => ?_⟩
    obtain ⟨w, hd⟩ := (hx _).1 hd
    refine decides_true (h.leq hd hc) (h2 ?_)
    rintro v (rfl | rfl)
    · exact of_ok_true (h.leq hd ha) e1
    · exact of_ok_true (h.leq hd hb) e2
  join := fun ha hb => by
    obtain ⟨x, ha⟩ := (hx _).1 ha
    obtain ⟨y, hb⟩ := (hx _).1 hb
    refine (h.join ha hb).mono fun c ⟨z, hc, h1, h2⟩ => ⟨(hx _).2 ⟨_, hc⟩,
      decides_true (h.leq ha hc) (h1 (by simp)), decides_true (h.leq hb hc) (h1 (by simp)),
      fun d hd e1 e2 => ?_⟩
    obtain ⟨w, hd⟩ := (hx _).1 hd
    refine decides_true (h.leq hc hd) (h2 ?_)
    rintro v (rfl | rfl)
    · exact of_ok_true (h.leq ha hd) e1
    · exact of_ok_true (h.leq hb hd) e2

section lattice

variable [DistribLattice R] {A : LatticeOps E} (h : LatticeSpec mp A rep)
include h

theorem meet_inf {a b : E} {x y : R} (ha : rep a x) (hb : rep b y) :
    Returns mp (A.meet a b) (rep · (x ⊓ y)) :=
  (h.meet ha hb).mono fun _ ⟨_, hc, hz⟩ => hz.unique isGLB_pair ▸ hc

theorem join_sup {a b : E} {x y : R} (ha : rep a x) (hb : rep b y) :
    Returns mp (A.join a b) (rep · (x ⊔ y)) :=
  (h.join ha hb).mono fun _ ⟨_, hc, hz⟩ => hz.unique isLUB_pair ▸ hc

theorem distributiveLatticeLaws (hx : Exact M rep) : DistributiveLatticeLaws mp M A where
  toLatticeLaws := latticeLaws h hx
  meet_join := fun ha hb hc => by
    obtain ⟨x, ha⟩ := (hx _).1 ha
    obtain ⟨y, hb⟩ := (hx _).1 hb
    obtain ⟨z, hc⟩ := (hx _).1 hc
    refine same (x := x ⊓ (y ⊔ z)) h.toDomainSpec hx
      ((join_sup h hb hc).bind fun p hp => meet_inf h ha hp) ?_
    rw [inf_sup_left]
    exact (meet_inf h ha hb).bind fun p hp => (meet_inf h ha hc).bind fun q hq => join_sup h hp hq
  join_meet := fun ha hb hc => by
    obtain ⟨x, ha⟩ := (hx _).1 ha
    obtain ⟨y, hb⟩ := (hx _).1 hb
    obtain ⟨z, hc⟩ := (hx _).1 hc
    refine same (x := x ⊔ (y ⊓ z)) h.toDomainSpec hx
      ((meet_inf h hb hc).bind fun p hp => join_sup h ha hp) ?_
    rw [sup_inf_left]
    exact (join_sup h ha hb).bind fun p hp => (join_sup h ha hc).bind fun q hq => meet_inf h hp hq

end lattice

theorem booleanAlgebraLaws [BooleanAlgebra R] {A : BooleanAlgebraOps E} (h : BooleanAlgebraSpec mp A rep)
    (hx : Exact M rep) : BooleanAlgebraLaws mp M A where
  toDistributiveLatticeLaws := distributiveLatticeLaws h.toLatticeSpec hx
  __ := boundedOrderLaws h.toBoundedOrderSpec hx
  not_mem := fun ha => by
    obtain ⟨x, ha⟩ := (hx _).1 ha
    exact (h.not ha).mono fun _ hp => (hx _).2 ⟨_, hp⟩
  meet_not := fun ha => by
    obtain ⟨x, ha⟩ := (hx _).1 ha
    refine same (x := x ⊓ xᶜ) h.toDomainSpec hx
      ((h.not ha).bind fun p hp => meet_inf h.toLatticeSpec ha hp) ?_
    rw [inf_compl_eq_bot]
    exact h.min.mono fun p ⟨y, hp, hy⟩ => (le_bot_iff.1 (hy ⊥)) ▸ hp
  join_not := fun ha => by
    obtain ⟨x, ha⟩ := (hx _).1 ha
    refine same (x := x ⊔ xᶜ) h.toDomainSpec hx
      ((h.not ha).bind fun p hp => join_sup h.toLatticeSpec ha hp) ?_
    rw [sup_compl_eq_top]
    exact h.max.mono fun p ⟨y, hp, hy⟩ => (top_le_iff.1 (hy ⊤)) ▸ hp

end Abstalg.Laws
