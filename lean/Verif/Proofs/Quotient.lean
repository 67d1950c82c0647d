import Verif.Spec.Quotient
import Verif.Proofs.Basic
import Verif.Proofs.Field
import Verif.Model.QuotientRing
import Verif.Model.QuotientField
import Mathlib.Tactic.LinearCombination

/-! # Quotient rings and fields -/

set_option linter.unusedSectionVars false

set_option autoImplicit false

universe u v

namespace Abstalg

theorem QuotientRing.tryInv_eq [Cfg] {E : Type} (base : EuclideanDomainOps E) (modulo a : E) :
    (QuotientRing.ops base modulo).tryInv a =
      (base.extendedGcd modulo a >>= fun c => base.tryInv c.1 >>= fun o =>
        match o with
        | some u => (QuotientRing.mul base modulo u c.2.2 >>= fun b => pure (some b))
        | none => pure none) := rfl

section canonical

variable {R : Type u} [EuclideanDomain R] [CanonicalRem R] {μ x y : R}

theorem dvd_mod_sub (x μ : R) : μ ∣ x % μ - x :=
  ⟨-(x / μ), by linear_combination EuclideanDomain.div_add_mod x μ⟩

theorem eq_mod_of_div_eq_zero (h : x / μ = 0) : x % μ = x := by
  have := EuclideanDomain.div_add_mod x μ
  rw [h, mul_zero, zero_add] at this
  exact this

theorem mod_div_eq_zero (hμ : μ ≠ 0) (x : R) : x % μ / μ = 0 := by
  have h1 : x % μ % μ = x % μ := CanonicalRem.mod_eq hμ (dvd_mod_sub x μ)
  have h2 := EuclideanDomain.div_add_mod (x % μ) μ
  rw [h1] at h2
  have : μ * (x % μ / μ) = 0 := by linear_combination h2
  exact (mul_eq_zero.1 this).resolve_left hμ

theorem zero_div' (μ : R) : (0 : R) / μ = 0 := EuclideanDomain.zero_div

theorem eq_of_reduced (hμ : μ ≠ 0) (hx : x / μ = 0) (hy : y / μ = 0) (h : μ ∣ x - y) : x = y := by
  rw [← eq_mod_of_div_eq_zero hx, ← eq_mod_of_div_eq_zero hy]
  exact CanonicalRem.mod_eq hμ h

end canonical

/-- What a quotient needs from its base. -/
structure ResidueSpec [Cfg] {R : Type u} [EuclideanDomain R] (mp : Prop) {E : Type}
    (base : EuclideanDomainOps E) (modulo : E) (rep : E → R → Prop) (μ : R) : Prop where
  rep_unique : ∀ {a x y}, rep a x → rep a y → x = y
  reduced : ∀ {a x}, rep a x → Decides mp (base.reduced a modulo) (x / μ = 0)
  equals : ∀ {a b x y}, rep a x → rep b y → Decides mp (base.equals a b) (x = y)
  zero : Returns mp base.zero (rep · 0)
  one : Returns mp base.one (rep · 1)
  isOne : ∀ {a x}, rep a x → Decides mp (base.isOne a) (x = 1)
  add : ∀ {a b x y}, rep a x → rep b y → x / μ = 0 → y / μ = 0 →
    Returns mp (do base.rem (← base.add a b) modulo) (rep · ((x + y) % μ))
  mul : ∀ {a b x y}, rep a x → rep b y → x / μ = 0 → y / μ = 0 →
    Returns mp (do base.rem (← base.mul a b) modulo) (rep · ((x * y) % μ))
  neg : ∀ {a x}, rep a x → x / μ = 0 →
    Returns mp (do base.rem (← base.neg a) modulo) (rep · ((-x) % μ))
  tryInv : ∀ {a x}, rep a x → x / μ = 0 →
    Returns mp ((QuotientRing.ops base modulo).tryInv a) fun
    | some b => ∃ y, rep b y ∧ y / μ = 0 ∧ μ ∣ x * y - 1
    | none => ¬ IsCoprime μ x

section

variable [Cfg] {E : Type} {R : Type u} [EuclideanDomain R] [CanonicalRem R] {S : Type v}
  {mp : Prop} {rep : E → R → Prop} {base : EuclideanDomainOps E} {modulo : E} {μ : R}

/-- A base meeting the full contract of a Euclidean domain meets the requirements. -/
theorem EuclideanSpec.residue [NormalizationMonoid R] (h : EuclideanSpec mp base rep)
    (hm : rep modulo μ) (hμ : μ ≠ 0) : ResidueSpec mp base modulo rep μ where
  rep_unique := h.rep_unique
  reduced := fun ha => (h.reduced ha hm).iff (or_iff_right hμ)
  equals := h.equals
  zero := h.zero
  one := h.one
  isOne := h.isOne
  add := fun ha hb _ _ => Returns.bind (h.add ha hb) fun _ hc => h.rem hc hm hμ
  mul := fun ha hb _ _ => Returns.bind (h.mul ha hb) fun _ hc => h.rem hc hm hμ
  neg := fun ha _ => Returns.bind (h.neg ha) fun _ hc => h.rem hc hm hμ
  tryInv := fun {a x} ha _ => by
    refine Returns.bind (h.extendedGcd hm ha) fun c hc => ?_
    obtain ⟨cg, cs, ct⟩ := c
    obtain ⟨g, s, t, h1, _, h3, h4, h5⟩ := hc
    refine Returns.bind (h.tryInv h1) fun o ho => ?_
    cases o with
    | none => exact fun h => ho ((isUnit_gcd_iff h5).2 h)
    | some u =>
      obtain ⟨v, hv, hgv, _⟩ := ho
      refine Returns.bind (Returns.bind (h.mul hv h3) fun _ hc => h.rem hc hm hμ) fun b hb => ?_
      refine ⟨_, hb, mod_div_eq_zero hμ _, ?_⟩
      obtain ⟨k, hk⟩ := dvd_mod_sub (v * t) μ
      exact ⟨x * k - v * s, by linear_combination x * hk + v * h4 + hgv⟩

variable [CommRing S] {φ : R →+* S}

theorem IsFactor.mod (hφ : IsFactor φ μ) (x : R) : φ (x % μ) = φ x := by
  have := (hφ.ker _).2 (dvd_mod_sub x μ)
  rw [map_sub] at this
  exact sub_eq_zero.1 this

theorem IsFactor.eq_iff (hφ : IsFactor φ μ) (x y : R) : φ x = φ y ↔ μ ∣ x - y := by
  rw [← hφ.ker, map_sub, sub_eq_zero]

theorem IsFactor.isUnit_iff (hφ : IsFactor φ μ) (x : R) : IsUnit (φ x) ↔ IsCoprime μ x := by
  constructor
  · intro hu
    obtain ⟨s, hs⟩ := hu.exists_right_inv
    obtain ⟨y, rfl⟩ := hφ.surjective s
    obtain ⟨k, hk⟩ := (hφ.eq_iff (x * y) 1).1 (by rw [map_mul, map_one, hs])
    exact ⟨-k, y, by linear_combination hk⟩
  · rintro ⟨s, t, h⟩
    have := congrArg φ h
    rw [map_add, map_mul, map_mul, (hφ.ker μ).2 (dvd_refl μ), mul_zero, zero_add, map_one] at this
    exact IsUnit.of_mul_eq_one _ ((mul_comm _ _).trans this)

namespace QuotientRing

variable (hr : ResidueSpec mp base modulo rep μ) (hφ : IsFactor φ μ) (hμ : μ ≠ 0)
  (hu : ¬ IsUnit μ)

include hr hφ hμ

theorem residue_mod {a : E} {x : R} (ha : rep a (x % μ)) : ResidueRep rep φ μ a (φ x) :=
  ⟨_, ha, mod_div_eq_zero hμ x, hφ.mod x⟩

theorem equals_spec {a b : E} {s t : S} (ha : ResidueRep rep φ μ a s)
    (hb : ResidueRep rep φ μ b t) : Decides mp (base.equals a b) (s = t) := by
  obtain ⟨x, hx, hx0, rfl⟩ := ha
  obtain ⟨y, hy, hy0, rfl⟩ := hb
  refine (hr.equals hx hy).iff ⟨fun h => by rw [h], fun h => ?_⟩
  exact eq_of_reduced hμ hx0 hy0 ((hφ.eq_iff x y).1 h)

theorem domain_spec : DomainSpec mp (domain base modulo) (ResidueRep rep φ μ) where
  rep_unique := by
    rintro a s t ⟨x, hx, _, rfl⟩ ⟨y, hy, _, rfl⟩
    rw [hr.rep_unique hx hy]
  contains := by
    rintro a s ⟨x, hx, hx0, rfl⟩
    exact (hr.reduced hx).mono fun b hb => hb.2 hx0
  equals := equals_spec hr hφ hμ

theorem add_spec {a b : E} {s t : S} (ha : ResidueRep rep φ μ a s)
    (hb : ResidueRep rep φ μ b t) :
    Returns mp (do base.rem (← base.add a b) modulo) (ResidueRep rep φ μ · (s + t)) := by
  obtain ⟨x, hx, hx0, rfl⟩ := ha
  obtain ⟨y, hy, hy0, rfl⟩ := hb
  rw [← map_add]
  exact (hr.add hx hy hx0 hy0).mono fun c hc => residue_mod hr hφ hμ hc

theorem mul_spec {a b : E} {s t : S} (ha : ResidueRep rep φ μ a s)
    (hb : ResidueRep rep φ μ b t) :
    Returns mp (mul base modulo a b) (ResidueRep rep φ μ · (s * t)) := by
  obtain ⟨x, hx, hx0, rfl⟩ := ha
  obtain ⟨y, hy, hy0, rfl⟩ := hb
  rw [← map_mul]
  exact (hr.mul hx hy hx0 hy0).mono fun c hc => residue_mod hr hφ hμ hc

theorem neg_spec {a : E} {s : S} (ha : ResidueRep rep φ μ a s) :
    Returns mp (do base.rem (← base.neg a) modulo) (ResidueRep rep φ μ · (-s)) := by
  obtain ⟨x, hx, hx0, rfl⟩ := ha
  rw [← map_neg]
  exact (hr.neg hx hx0).mono fun c hc => residue_mod hr hφ hμ hc

theorem zero_spec : Returns mp base.zero (ResidueRep rep φ μ · 0) :=
  hr.zero.mono fun _ hc => ⟨0, hc, zero_div' μ, map_zero φ⟩

theorem tryInv_spec {a : E} {s : S} (ha : ResidueRep rep φ μ a s) :
    Returns mp ((ops base modulo).tryInv a) fun
      | some b => ∃ t, ResidueRep rep φ μ b t ∧ s * t = 1 ∧ t * s = 1
      | none => ¬ IsUnit s := by
  obtain ⟨x, hx, hx0, rfl⟩ := ha
  refine (hr.tryInv hx hx0).mono fun o ho => ?_
  cases o with
  | none => exact fun h => ho ((hφ.isUnit_iff x).1 h)
  | some b =>
    obtain ⟨y, hy, hy0, h⟩ := ho
    have : φ x * φ y = 1 := by
      rw [← map_mul, ← map_one φ]; exact (hφ.eq_iff _ _).2 h
    exact ⟨φ y, ⟨y, hy, hy0, rfl⟩, this, (mul_comm _ _).trans this⟩

include hu

theorem one_spec : Returns mp base.one (ResidueRep rep φ μ · 1) :=
  hr.one.mono fun _ hc => ⟨1, hc, CanonicalRem.one_div hμ hu, map_one φ⟩

theorem isOne_spec {a : E} {s : S} (ha : ResidueRep rep φ μ a s) :
    Decides mp (base.isOne a) (s = 1) := by
  obtain ⟨x, hx, hx0, rfl⟩ := ha
  refine (hr.isOne hx).iff ⟨fun h => by rw [h, map_one], fun h => ?_⟩
  refine eq_of_reduced hμ hx0 (CanonicalRem.one_div hμ hu) ((hφ.eq_iff x 1).1 ?_)
  rw [h, map_one]

theorem spec : UnitaryRingSpec mp (ops base modulo) (ResidueRep rep φ μ) := by
  have hd := domain_spec hr hφ hμ
  have hadd := @add_spec _ _ _ _ _ _ _ _ _ _ _ _ _ hr hφ hμ
  have hmul := @mul_spec _ _ _ _ _ _ _ _ _ _ _ _ _ hr hφ hμ
  have hneg := @neg_spec _ _ _ _ _ _ _ _ _ _ _ _ _ hr hφ hμ
  have hone := one_spec hr hφ hμ hu
  have hzero := zero_spec hr hφ hμ
  have hinv := @tryInv_spec _ _ _ _ _ _ _ _ _ _ _ _ _ hr hφ hμ
  have htimes : ∀ (n : ℤ), n ≠ isizeMin → ∀ {a : E} {s : S}, ResidueRep rep φ μ a s →
      Returns mp ((ops base modulo).times n a) (ResidueRep rep φ μ · (n • s)) :=
    fun n hn {a s} ha => by
      have := times_default (rep := ResidueRep rep φ μ) hzero hadd (fun ha => hadd ha ha) hneg
        n hn ha
      exact this
  exact
  { toDomainSpec := hd
    zero := hzero
    isZero := fun ha => isConst_default (rep := ResidueRep rep φ μ) hd.equals hzero ha
    add := hadd
    addAssign := hadd
    double := fun ha => hadd ha ha
    utimes := fun n {a s} ha => by
      have := utimes_default (rep := ResidueRep rep φ μ) hzero hadd (fun ha => hadd ha ha) n ha
      exact this
    mul := hmul
    mulAssign := hmul
    square := fun ha => hmul ha ha
    one := hone
    isOne := fun ha => isOne_spec hr hφ hμ hu ha
    tryInv := hinv
    invertible := fun ha => by
      have := invertible_default (rep := ResidueRep rep φ μ) hinv ha
      exact this
    neg := hneg
    negAssign := hneg
    sub := fun ha hb => by
      have := sub_default (rep := ResidueRep rep φ μ) hadd hneg ha hb
      exact this
    subAssign := fun ha hb => by
      have := subAssign_default (rep := ResidueRep rep φ μ) hadd hneg ha hb
      exact this
    times := htimes
    int := fun n hn => by
      have := int_default (rep := ResidueRep rep φ μ) hone htimes n hn
      exact this }

end QuotientRing

end

namespace QuotientField

variable [Cfg] {E : Type} {R : Type u} [EuclideanDomain R] [CanonicalRem R] {S : Type v} [Field S]
  {mp : Prop} {rep : E → R → Prop} {base : EuclideanDomainOps E} {modulo : E} {μ : R}
  {φ : R →+* S}

/-- `inv` is `try_inv` of the quotient ring after the check for zero. -/
theorem inv_eq (a : E) : inv base modulo a =
    (isZero base modulo a >>= fun z => Res.assert (!z) >>= fun _ =>
      (QuotientRing.ops base modulo).tryInv a >>= fun o => Res.unwrap o) := by
  show (isZero base modulo a >>= fun z => Res.assert (!z) >>= fun _ =>
    base.extendedGcd modulo a >>= fun c => base.tryInv c.1 >>= fun o =>
      Res.unwrap o >>= fun u => mul base modulo u c.2.2) =
    (isZero base modulo a >>= fun z => Res.assert (!z) >>= fun _ =>
    (base.extendedGcd modulo a >>= fun c => base.tryInv c.1 >>= fun o =>
      match o with
      | some u => (QuotientRing.mul base modulo u c.2.2 >>= fun b => pure (some b))
      | none => pure none) >>= fun o => Res.unwrap o)
  cases isZero base modulo a with
  | panic => rfl
  | diverge => rfl
  | ok z =>
    cases z with
    | true => rfl
    | false =>
      simp only [ok_bind, Bool.not_false, assert_true]
      cases base.extendedGcd modulo a with
      | panic => rfl
      | diverge => rfl
      | ok c =>
        simp only [ok_bind]
        cases base.tryInv c.1 with
        | panic => rfl
        | diverge => rfl
        | ok o =>
          cases o with
          | none => rfl
          | some u =>
            simp only [ok_bind, unwrap_some]
            show mul base modulo u c.2.2 = (mul base modulo u c.2.2 >>= _) >>= _
            cases mul base modulo u c.2.2 <;> rfl

variable (hr : ResidueSpec mp base modulo rep μ) (hφ : IsFactor φ μ) (hμ : μ ≠ 0)

include hr hφ hμ

theorem not_isUnit : ¬ IsUnit μ := fun h => by
  have h1 := (hφ.ker 1).2 (h.dvd)
  rw [map_one] at h1
  exact one_ne_zero h1

theorem spec : FieldSpec mp (ops base modulo) (ResidueRep rep φ μ) := by
  have h := QuotientRing.spec hr hφ hμ (not_isUnit hr hφ hμ)
  have hz : ∀ {a : E} {s : S}, ResidueRep rep φ μ a s →
      Decides mp (isZero base modulo a) (s = 0) := h.isZero
  have hinv : ∀ {a : E} {s : S}, ResidueRep rep φ μ a s → s ≠ 0 →
      Returns mp (inv base modulo a) (ResidueRep rep φ μ · s⁻¹) := by
    intro a s ha hs
    rw [inv_eq]
    refine Decides.assertNot (hz ha) hs ?_
    refine Returns.bind (h.tryInv ha) fun o ho => ?_
    cases o with
    | none => exact (ho (IsUnit.mk0 s hs)).elim
    | some b =>
      obtain ⟨t, ht, h1, _⟩ := ho
      rw [eq_inv_of_mul_eq_one_right h1] at ht
      exact ht
  have hinv0 : ∀ {a : E}, ResidueRep rep φ μ a 0 → Panics (inv base modulo a) := by
    intro a ha
    rw [inv_eq]
    exact Decides.assertNot_panics (hz ha) rfl
  have htry : ∀ {a : E} {s : S}, ResidueRep rep φ μ a s →
      Returns mp ((ops base modulo).tryInv a) fun
        | some b => ∃ t, ResidueRep rep φ μ b t ∧ s * t = 1 ∧ t * s = 1
        | none => ¬ IsUnit s := by
    intro a s ha
    refine Decides.ite (hz ha) ?_ ?_
    · rintro rfl; exact not_isUnit_zero
    · intro hs
      exact Returns.bind (hinv ha hs) fun b hb =>
        ⟨s⁻¹, hb, mul_inv_cancel₀ hs, inv_mul_cancel₀ hs⟩
  exact
  { toDomainSpec := h.toDomainSpec
    zero := h.zero
    isZero := h.isZero
    add := h.add
    addAssign := h.addAssign
    double := h.double
    utimes := h.utimes
    mul := h.mul
    mulAssign := h.mulAssign
    square := h.square
    one := h.one
    isOne := h.isOne
    tryInv := htry
    invertible := fun {a s} ha => (Decides.not (hz ha)).iff
      (by rw [isUnit_iff_ne_zero])
    neg := h.neg
    negAssign := h.negAssign
    sub := h.sub
    subAssign := h.subAssign
    times := h.times
    int := h.int
    inv := hinv
    inv_zero := hinv0
    div := fun ha hb hy => by
      have := div_default (rep := ResidueRep rep φ μ) h.mul hinv ha hb hy
      exact this
    div_zero := fun ha hb => panics_bind (hinv0 hb)
    power := fun n hn a s ha hs => by
      have := fieldPower_default (rep := ResidueRep rep φ μ) (zero := base.zero) hz h.one h.mulAssign
        h.square htry n hn ha hs
      exact this
    power_zero := fun n a ha => by
      have := fieldPower_zero (rep := ResidueRep rep φ μ) (c := fun a =>
        powerDefault (ops base modulo).one (ops base modulo).mulAssign (ops base modulo).square
          (fun e => do Res.unwrap (← (ops base modulo).tryInv e)) n a) hz h.zero ha
      exact this }

end QuotientField

end Abstalg
