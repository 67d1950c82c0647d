import Verif.Proofs.Overrides
import Verif.Proofs.Field

/-! # Implementations without their overrides meet the contracts of the traits -/

set_option linter.unusedSectionVars false

set_option autoImplicit false

universe u

namespace Abstalg

variable {E : Type} {R : Type u} {mp : Prop} {rep : E → R → Prop}

theorem DomainSpec.withDefaults {A B : DomainOps E} (h : DomainSpec mp A rep) (h1 : B.contains = A.contains)
    (h2 : B.equals = A.equals) : DomainSpec mp B rep where
  rep_unique := h.rep_unique
  contains := by rw [h1]; exact h.contains
  equals := by rw [h2]; exact h.equals

theorem MonoidSpec.withDefaults [Monoid R] {A : MonoidOps E} (h : MonoidSpec mp A rep) :
    MonoidSpec mp A.withDefaults rep where
  toDomainSpec := h.toDomainSpec.withDefaults rfl rfl
  mul := h.mul
  mulAssign := h.mul
  square := fun ha => h.mul ha ha
  one := h.one
  isOne := fun ha => isConst_default (rep := rep) h.equals h.one ha
  tryInv := h.tryInv
  invertible := fun ha => invertible_default (rep := rep) h.tryInv ha

theorem CommutativeMonoidSpec.withDefaults [AddCommMonoid R] {A : CommutativeMonoidOps E}
    (h : CommutativeMonoidSpec mp A rep) : CommutativeMonoidSpec mp A.withDefaults rep where
  toDomainSpec := h.toDomainSpec.withDefaults rfl rfl
  zero := h.zero
  isZero := fun ha => isConst_default (rep := rep) h.equals h.zero ha
  add := h.add
  addAssign := h.add
  double := fun ha => h.add ha ha
  utimes := fun n _ _ ha => utimes_default (rep := rep) h.zero h.add (fun ha => h.add ha ha) n ha

theorem SemiRingSpec.withDefaults [Semiring R] {A : SemiRingOps E} (h : SemiRingSpec mp A rep) :
    SemiRingSpec mp A.withDefaults rep :=
  { h.toCommutativeMonoidSpec.withDefaults, h.toMonoidSpec.withDefaults with }

variable [Cfg]

theorem GroupSpec.withDefaults [Group R] {A : GroupOps E} (h : GroupSpec mp A rep) :
    GroupSpec mp A.withDefaults rep := by
  have hinv : ∀ {a x}, rep a x → Returns mp (A.withDefaults.inv a) (rep · x⁻¹) := fun {a x} ha => by
    refine Returns.bind (h.tryInv ha) fun o ho => ?_
    cases o with
    | none => exact (ho (Group.isUnit x)).elim
    | some b =>
      obtain ⟨y, hy, h1, _⟩ := ho
      rw [eq_inv_of_mul_eq_one_right h1] at hy
      exact hy
  exact
  { toMonoidSpec := h.toMonoidSpec.withDefaults
    inv := hinv
    power := fun n hn _ _ ha =>
      group_power_default (rep := rep) h.one h.mul (fun ha => h.mul ha ha) hinv n hn ha }

theorem AbelianGroupSpec.withDefaults [AddCommGroup R] {A : AbelianGroupOps E}
    (h : AbelianGroupSpec mp A rep) : AbelianGroupSpec mp A.withDefaults rep where
  toCommutativeMonoidSpec := h.toCommutativeMonoidSpec.withDefaults
  neg := h.neg
  negAssign := h.neg
  sub := fun ha hb => sub_default (rep := rep) h.add h.neg ha hb
  subAssign := fun ha hb => subAssign_default (rep := rep) h.add h.neg ha hb
  times := fun n hn _ _ ha => times_default (rep := rep) h.zero h.add (fun ha => h.add ha ha) h.neg n hn ha

theorem UnitaryRingSpec.withDefaults [Ring R] {A : UnitaryRingOps E}
    (h : UnitaryRingSpec mp A rep) : UnitaryRingSpec mp A.withDefaults rep :=
  { h.toSemiRingSpec.withDefaults, h.toAbelianGroupSpec.withDefaults with
    int := fun n hn => int_default (rep := rep) h.one h.toAbelianGroupSpec.withDefaults.times n hn }

theorem FieldSpec.withDefaults [Field R] {A : FieldOps E}
    (h : FieldSpec mp A rep) : FieldSpec mp A.withDefaults rep :=
  { toUnitaryRingSpec := h.toUnitaryRingSpec.withDefaults
    inv := h.inv
    inv_zero := h.inv_zero
    div := fun ha hb hy => div_default (rep := rep) h.mul h.inv ha hb hy
    div_zero := fun _ hb => panics_bind (h.inv_zero hb)
    power := fun n hn _ _ ha hx => fieldPower_default (rep := rep) h.toUnitaryRingSpec.withDefaults.isZero h.one h.mul
      (fun ha => h.mul ha ha) h.tryInv n hn ha hx
    power_zero := fun _ _ ha => fieldPower_zero (rep := rep) h.toUnitaryRingSpec.withDefaults.isZero h.zero ha }

theorem EuclideanSpec.withDefaults [EuclideanDomain R] [NormalizationMonoid R] {A : EuclideanDomainOps E}
    (h : EuclideanSpec mp A rep) : EuclideanSpec mp A.withDefaults rep := by
  have hU := h.toUnitaryRingSpec.withDefaults
  have hdiv : ∀ {a b x y}, rep a x → rep b y → Decides mp (A.withDefaults.divisible a b) (y ∣ x) :=
    fun ha hb => divisible_default (rep := rep) hU.isZero h.tryDiv ha hb
  have hquo : ∀ {a b x y}, rep a x → rep b y → y ≠ 0 →
      Returns mp (A.withDefaults.quo a b) (rep · (x / y)) := fun ha hb hy => quo_default (rep := rep) h.quoRem ha hb hy
  have hrem : ∀ {a b x y}, rep a x → rep b y → y ≠ 0 →
      Returns mp (A.withDefaults.rem a b) (rep · (x % y)) := fun ha hb hy => rem_default (rep := rep) h.quoRem ha hb hy
  have hgcd : ∀ {a b x y}, rep a x → rep b y →
      Returns mp (A.withDefaults.gcd a b) fun c => ∃ g, rep c g ∧ IsGcd x y g :=
    fun ha hb => gcdDefault_spec (rep := rep) hU.isZero hrem ha hb
  exact
  { toUnitaryRingSpec := hU
    tryDiv := h.tryDiv
    tryDiv_zero := h.tryDiv_zero
    divisible := hdiv
    associates := fun ha hb => associates_default (rep := rep) hdiv ha hb
    associateRepr := h.associateRepr
    associateCoef := h.associateCoef
    associateCoef_zero := h.associateCoef_zero
    quoRem := h.quoRem
    quoRem_zero := h.quoRem_zero
    quo := hquo
    quo_zero := fun ha hb => panics_bind (h.quoRem_zero ha hb)
    rem := hrem
    rem_zero := fun ha hb => panics_bind (h.quoRem_zero ha hb)
    reduced := fun ha hb => reduced_default (rep := rep) hU.isZero hquo ha hb
    gcd := hgcd
    lcm := fun ha hb => lcm_default (rep := rep) hU.isZero hgcd hquo h.mul ha hb
    extendedGcd := fun ha hb => extendedGcdDefault_spec (rep := rep) hU.isZero h.one h.zero h.quoRem hU.sub h.mul ha hb
    relativePrimes := fun ha hb => relativePrimes_default (rep := rep) hgcd hU.invertible ha hb }

theorem decides_eq {c d : Res Bool} {p : Prop} (hc : Decides False c p) (hd : Decides False d p) : c = d := by
  classical
  rw [decides_false_iff] at hc hd
  exact hc.trans hd.symm

theorem returns_eq (hu : ∀ {a b x}, rep a x → rep b x → a = b) {c d : Res E} {x : R}
    (hc : Returns False c (rep · x)) (hd : Returns False d (rep · x)) : c = d := by
  obtain ⟨s, rfl, hs⟩ := returns_false_iff.1 hc
  obtain ⟨t, rfl, ht⟩ := returns_false_iff.1 hd
  exact congrArg Res.ok (hu hs ht)

theorem vecRep_unique {n : ℕ} (hu : ∀ {a b x}, rep a x → rep b x → a = b) :
    ∀ {a b : List E} {x : Fin n → R}, VecRep rep a x → VecRep rep b x → a = b := by
  rintro a b x ⟨h1, h2⟩ ⟨h3, h4⟩
  refine List.ext_getElem (h1.trans h3.symm) fun i hi hj => ?_
  exact hu (h2 ⟨i, h1 ▸ hi⟩) (h4 ⟨i, h1 ▸ hi⟩)

end Abstalg
