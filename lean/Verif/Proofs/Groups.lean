import Verif.Model.AdditiveGroup
import Verif.Model.MultiplicativeGroup
import Verif.Model.TwoElementAlgebra
import Verif.Proofs.Field
import Mathlib.Algebra.Group.TypeTags.Basic
import Mathlib.Algebra.Field.ZMod
import Mathlib.Order.BooleanAlgebra.Basic

/-! # Additive and multiplicative groups, the two-element algebra -/

set_option linter.unusedSectionVars false

set_option autoImplicit false

universe u

namespace Abstalg

namespace AdditiveGroup

variable [Cfg] {E : Type} {R : Type u} [AddCommGroup R] {mp : Prop} {rep : E → R → Prop}
  {base : AbelianGroupOps E}

/-- Elements of the additive group, written multiplicatively. -/
def AddRep (rep : E → R → Prop) (a : E) (x : Multiplicative R) : Prop := rep a x.toAdd

/-- `AbelianGroup::times` is defined through `AdditiveGroup::power` (traits.rs:158-161). -/
theorem power_eq_times (D : CommutativeMonoidOps E) (neg negAssign : E → Res E)
    (sub subAssign : E → E → Res E) (n : ℤ) (a : E) :
    (ops { toCommutativeMonoidOps := D, neg := neg, negAssign := negAssign, sub := sub,
           subAssign := subAssign }).power n a =
    AbelianGroupOps.times { toCommutativeMonoidOps := D, neg := neg, negAssign := negAssign,
                            sub := sub, subAssign := subAssign } n a := rfl

theorem spec (h : AbelianGroupSpec mp base rep) : GroupSpec mp (ops base) (AddRep rep) where
  rep_unique := fun ha hb => h.rep_unique ha hb
  contains := fun ha => h.contains ha
  equals := fun ha hb => h.equals ha hb
  mul := fun ha hb => h.add ha hb
  mulAssign := fun ha hb => h.addAssign ha hb
  square := fun ha => h.double ha
  one := h.zero
  isOne := fun ha => h.isZero ha
  tryInv := fun {a x} ha => Returns.bind (h.neg ha) fun b hb =>
    ⟨x⁻¹, hb, mul_inv_cancel x, inv_mul_cancel x⟩
  invertible := fun {a x} _ => decides_ok (by simp [Group.isUnit x])
  inv := fun ha => h.neg ha
  power := fun n hn a x ha => by
    have := times_default (rep := rep) h.zero h.addAssign h.double h.neg n hn ha
    exact this

end AdditiveGroup

namespace MultiplicativeGroup

variable [Cfg] {E : Type} {R : Type u} [Monoid R] {mp : Prop} {rep : E → R → Prop}
  {base : MonoidOps E}

/-- Elements of the group of units. -/
def UnitRep (rep : E → R → Prop) (a : E) (u : Rˣ) : Prop := rep a (u : R)

theorem inv_spec (h : MonoidSpec mp base rep) {a : E} {u : Rˣ} (ha : UnitRep rep a u) :
    Returns mp ((ops base).inv a) (UnitRep rep · u⁻¹) := by
  refine Returns.bind (h.tryInv ha) fun o ho => ?_
  cases o with
  | none => exact (ho u.isUnit).elim
  | some b =>
    obtain ⟨y, hy, h1, _⟩ := ho
    rw [← Units.inv_eq_of_mul_eq_one_right h1] at hy
    exact hy

theorem spec (h : MonoidSpec mp base rep) : GroupSpec mp (ops base) (UnitRep rep) where
  rep_unique := fun ha hb => Units.ext (h.rep_unique ha hb)
  contains := fun {a u} ha => (h.invertible ha).mono fun b hb => hb.2 u.isUnit
  equals := fun ha hb => (h.equals ha hb).iff Units.ext_iff.symm
  mul := fun ha hb => h.mul ha hb
  mulAssign := fun ha hb => h.mulAssign ha hb
  square := fun ha => h.square ha
  one := h.one
  isOne := fun ha => (h.isOne ha).iff (by simp)
  tryInv := fun {a u} ha => (h.tryInv ha).mono fun o ho => by
    cases o with
    | none => exact (ho u.isUnit).elim
    | some b =>
      obtain ⟨y, hy, h1, _⟩ := ho
      rw [← Units.inv_eq_of_mul_eq_one_right h1] at hy
      exact ⟨u⁻¹, hy, mul_inv_cancel u, inv_mul_cancel u⟩
  invertible := fun {a u} _ => decides_ok (by simp [Group.isUnit u])
  inv := fun ha => inv_spec h ha
  power := fun n hn a x ha => by
    have := group_power_default (rep := UnitRep rep) h.one (fun ha hb => h.mulAssign ha hb)
      (fun ha => h.square ha) (fun ha => inv_spec h ha) n hn ha
    exact this

/-- `Field::power` is defined through `MultiplicativeGroup::power` (traits.rs:311-318). -/
theorem power_eq_fieldPower (U : UnitaryRingOps E) (inv : E → Res E) (n : ℤ) (a : E)
    (h : U.isZero a = .ok false) :
    FieldOps.power { toUnitaryRingOps := U, inv := inv } n a =
      (ops U.toMonoidOps).power n a := by
  show (U.isZero a >>= fun z => if z = true then _ else _) = _
  rw [h]
  rfl

end MultiplicativeGroup

namespace TwoElementAlgebra

variable [Cfg]

/-- `false` is zero and `true` is one of the field with two elements. -/
def FRep (a : Bool) (x : ZMod 2) : Prop := x = if a then 1 else 0

theorem frep_surj (x : ZMod 2) : x = 0 ∨ x = 1 := by
  revert x; decide

theorem spec : FieldSpec False field FRep := by
  have h01 : (0 : ZMod 2) ≠ 1 := by decide
  have h2 : (1 : ZMod 2) + 1 = 0 := by decide
  exact
  { rep_unique := by rintro a x y rfl rfl; rfl
    contains := by intro a x _; rfl
    equals := by
      rintro a b x y rfl rfl
      refine decides_ok ?_
      cases a <;> cases b <;> decide
    mul := by rintro a b x y rfl rfl; cases a <;> cases b <;> rfl
    mulAssign := by rintro a b x y rfl rfl; cases a <;> cases b <;> rfl
    square := by rintro a x rfl; cases a <;> rfl
    one := rfl
    isOne := by rintro a x rfl; refine decides_ok ?_; cases a <;> decide
    tryInv := by
      rintro a x rfl
      cases a with
      | false => exact not_isUnit_zero
      | true => exact ⟨1, rfl, by decide, by decide⟩
    invertible := by
      rintro a x rfl
      refine decides_ok ?_
      cases a <;> simp
    zero := rfl
    isZero := by rintro a x rfl; refine decides_ok ?_; cases a <;> decide
    add := by rintro a b x y rfl rfl; cases a <;> cases b <;> rfl
    addAssign := by rintro a b x y rfl rfl; cases a <;> cases b <;> rfl
    double := by rintro a x rfl; cases a <;> rfl
    utimes := fun n a x ha => by
      have := utimes_default (rep := FRep) (mp := False) (zero := field.zero)
        (addAssign := field.addAssign) (double := field.double) rfl
        (by rintro a b x y rfl rfl; cases a <;> cases b <;> rfl)
        (by rintro a x rfl; cases a <;> rfl) n ha
      exact this
    neg := by rintro a x rfl; cases a <;> rfl
    negAssign := by rintro a x rfl; cases a <;> rfl
    sub := by rintro a b x y rfl rfl; cases a <;> cases b <;> rfl
    subAssign := by rintro a b x y rfl rfl; cases a <;> cases b <;> rfl
    times := by
      rintro n _ a x rfl
      show n • (if a then 1 else 0 : ZMod 2) = if (a && Int.tmod n 2 != 0) then 1 else 0
      cases a with
      | false => simp
      | true =>
        have h := (ZMod.intCast_zmod_eq_zero_iff_dvd n 2)
        by_cases hn : Int.tmod n 2 = 0
        · simp only [Bool.true_and, hn, zsmul_one, if_true]
          rw [(ZMod.intCast_zmod_eq_zero_iff_dvd n 2).2 (Int.dvd_of_tmod_eq_zero hn)]
          rfl
        · simp only [zsmul_one, if_true]
          have h0 : (n : ZMod 2) ≠ 0 := fun h => hn
            (Int.tmod_eq_zero_of_dvd ((ZMod.intCast_zmod_eq_zero_iff_dvd n 2).1 h))
          rw [(frep_surj _).resolve_left h0]
          simp [hn]
    int := by
      intro n _
      show (n : ZMod 2) = if (true && Int.tmod n 2 != 0) then 1 else 0
      by_cases hn : Int.tmod n 2 = 0
      · rw [(ZMod.intCast_zmod_eq_zero_iff_dvd n 2).2 (Int.dvd_of_tmod_eq_zero hn)]
        simp [hn]
      · have h0 : (n : ZMod 2) ≠ 0 := fun h => hn
          (Int.tmod_eq_zero_of_dvd ((ZMod.intCast_zmod_eq_zero_iff_dvd n 2).1 h))
        rw [(frep_surj _).resolve_left h0]
        simp [hn]
    inv := by
      rintro a x rfl hx
      cases a with
      | false => exact (hx rfl).elim
      | true => exact inv_one
    inv_zero := by
      intro a ha
      cases a with
      | false => rfl
      | true => exact (h01 ha).elim
    div := by
      rintro a b x y rfl rfl hy
      cases b with
      | false => exact (hy rfl).elim
      | true => exact div_one _
    div_zero := by
      intro a b x _ hb
      cases b with
      | false => rfl
      | true => exact (h01 hb).elim
    power := by
      rintro n _ a x rfl hx
      cases a with
      | false => exact (hx rfl).elim
      | true => exact one_zpow n
    power_zero := by
      intro n a ha
      exact ha }

/-- In the boolean algebra a `bool` stands for itself. -/
def BRep (a : Bool) (x : Bool) : Prop := a = x

omit [Cfg] in
theorem boolean_spec : BooleanAlgebraSpec False booleanAlgebra BRep where
  rep_unique := by rintro a x y rfl rfl; rfl
  contains := by intro a x _; rfl
  equals := by rintro a b x y rfl rfl; exact decides_ok (by simp)
  leq := by
    rintro a b x y rfl rfl
    refine decides_ok ?_
    cases a <;> cases b <;> decide
  lessThan := by
    rintro a b x y rfl rfl
    refine decides_ok ?_
    cases a <;> cases b <;> decide
  comparable := by
    rintro a b x y rfl rfl
    refine decides_ok ?_
    cases a <;> cases b <;> decide
  max := ⟨true, rfl, fun y => le_top⟩
  min := ⟨false, rfl, fun y => bot_le⟩
  meet := by
    rintro a b x y rfl rfl
    exact ⟨a ⊓ b, by cases a <;> cases b <;> rfl, isGLB_pair⟩
  join := by
    rintro a b x y rfl rfl
    exact ⟨a ⊔ b, by cases a <;> cases b <;> rfl, isLUB_pair⟩
  not := by rintro a x rfl; cases a <;> rfl

end TwoElementAlgebra

end Abstalg
