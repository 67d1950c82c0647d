import Verif.Spec.Embeddings
import Verif.Proofs.Basic
import Mathlib.Algebra.Ring.Hom.Defs
import Mathlib.Algebra.Group.Units.Hom
import Mathlib.RingTheory.SimpleRing.Basic
import Mathlib.RingTheory.SimpleRing.Field

/-! # Contracts of embedded structures -/

set_option autoImplicit false

universe u v

namespace Abstalg

variable {mp : Prop} {E : Type} {R : Type u} {S : Type v} {rep : E → S → Prop}

theorem DomainSpec.via {A : DomainOps E} (h : DomainSpec mp A rep) {φ : R → S} (hφ : Function.Injective φ) :
    DomainSpec mp A (RepVia rep φ) where
  rep_unique := fun h1 h2 => hφ (h.rep_unique h1 h2)
  contains := fun h1 => h.contains h1
  equals := fun h1 h2 => (h.equals h1 h2).iff hφ.eq_iff

theorem SemigroupSpec.via [Mul R] [Mul S] {A : SemigroupOps E} (h : SemigroupSpec mp A rep) (φ : R →ₙ* S)
    (hφ : Function.Injective φ) : SemigroupSpec mp A (RepVia rep φ) where
  toDomainSpec := h.toDomainSpec.via hφ
  mul := fun {a b x y} h1 h2 => by
    unfold RepVia
    rw [map_mul]
    exact h.mul h1 h2
  mulAssign := fun {a b x y} h1 h2 => by
    unfold RepVia
    rw [map_mul]
    exact h.mulAssign h1 h2
  square := fun {a x} h1 => by
    unfold RepVia
    rw [map_mul]
    exact h.square h1

theorem MonoidSpec.via [Monoid R] [Monoid S] {A : MonoidOps E} (h : MonoidSpec mp A rep) (φ : R →* S)
    (hφ : Function.Injective φ) (hu : ∀ x, IsUnit (φ x) → IsUnit x) : MonoidSpec mp A (RepVia rep φ) where
  toSemigroupSpec := h.toSemigroupSpec.via φ.toMulHom hφ
  one := by
    unfold RepVia
    rw [map_one]
    exact h.one
  isOne := fun {a x} h1 => (h.isOne h1).iff (map_eq_one_iff φ hφ)
  tryInv := fun {a x} h1 => (h.tryInv h1).mono fun o ho => by
    cases o with
    | none => exact fun hx => ho (hx.map φ)
    | some b =>
      obtain ⟨y, h2, h3, h4⟩ := ho
      obtain ⟨u, rfl⟩ := hu x (isUnit_iff_exists.2 ⟨y, h3, h4⟩)
      refine ⟨(u⁻¹ : Rˣ), ?_, u.mul_inv, u.inv_mul⟩
      have h5 : φ (u⁻¹ : Rˣ) = y := by
        calc φ (u⁻¹ : Rˣ) = φ (u⁻¹ : Rˣ) * (φ u * y) := by rw [h3, mul_one]
          _ = y := by rw [← mul_assoc, ← map_mul, u.inv_mul, map_one, one_mul]
      unfold RepVia
      rwa [h5]
  invertible := fun {a x} h1 => (h.invertible h1).iff ⟨hu x, fun hx => hx.map φ⟩

theorem CommutativeMonoidSpec.via [AddCommMonoid R] [AddCommMonoid S] {A : CommutativeMonoidOps E}
    (h : CommutativeMonoidSpec mp A rep) (φ : R →+ S) (hφ : Function.Injective φ) :
    CommutativeMonoidSpec mp A (RepVia rep φ) where
  toDomainSpec := h.toDomainSpec.via hφ
  zero := by
    unfold RepVia
    rw [map_zero]
    exact h.zero
  isZero := fun {a x} h1 => (h.isZero h1).iff (map_eq_zero_iff φ hφ)
  add := fun {a b x y} h1 h2 => by
    unfold RepVia
    rw [map_add]
    exact h.add h1 h2
  addAssign := fun {a b x y} h1 h2 => by
    unfold RepVia
    rw [map_add]
    exact h.addAssign h1 h2
  double := fun {a x} h1 => by
    unfold RepVia
    rw [map_add]
    exact h.double h1
  utimes := fun n {a x} h1 => by
    unfold RepVia
    rw [map_nsmul]
    exact h.utimes n h1

variable [Cfg]

theorem AbelianGroupSpec.via [AddCommGroup R] [AddCommGroup S] {A : AbelianGroupOps E}
    (h : AbelianGroupSpec mp A rep) (φ : R →+ S) (hφ : Function.Injective φ) :
    AbelianGroupSpec mp A (RepVia rep φ) where
  toCommutativeMonoidSpec := h.toCommutativeMonoidSpec.via φ hφ
  neg := fun {a x} h1 => by
    unfold RepVia
    rw [map_neg]
    exact h.neg h1
  negAssign := fun {a x} h1 => by
    unfold RepVia
    rw [map_neg]
    exact h.negAssign h1
  sub := fun {a b x y} h1 h2 => by
    unfold RepVia
    rw [map_sub]
    exact h.sub h1 h2
  subAssign := fun {a b x y} h1 h2 => by
    unfold RepVia
    rw [map_sub]
    exact h.subAssign h1 h2
  times := fun n hn {a x} h1 => by
    unfold RepVia
    rw [map_zsmul]
    exact h.times n hn h1

theorem GroupSpec.via [Group R] [Group S] {A : GroupOps E} (h : GroupSpec mp A rep) (φ : R →* S)
    (hφ : Function.Injective φ) : GroupSpec mp A (RepVia rep φ) where
  toMonoidSpec := h.toMonoidSpec.via φ hφ fun x _ => Group.isUnit x
  inv := fun {a x} h1 => by
    unfold RepVia
    rw [map_inv]
    exact h.inv h1
  power := fun n hn {a x} h1 => by
    unfold RepVia
    rw [map_zpow]
    exact h.power n hn h1

theorem UnitaryRingSpec.via [Ring R] [Ring S] {A : UnitaryRingOps E} (h : UnitaryRingSpec mp A rep) (φ : R →+* S)
    (hφ : Function.Injective φ) (hu : ∀ x, IsUnit (φ x) → IsUnit x) : UnitaryRingSpec mp A (RepVia rep φ) :=
  { h.toSemiRingSpec.toMonoidSpec.via φ.toMonoidHom hφ hu, h.toAbelianGroupSpec.via φ.toAddMonoidHom hφ with
    int := fun n hn => by
      unfold RepVia
      rw [map_intCast]
      exact h.int n hn }

theorem FieldSpec.via [Field R] [Field S] {A : FieldOps E} (h : FieldSpec mp A rep) (φ : R →+* S) :
    FieldSpec mp A (RepVia rep φ) where
  toUnitaryRingSpec := h.toUnitaryRingSpec.via φ φ.injective fun x hx => by
    rw [isUnit_iff_ne_zero] at hx ⊢
    exact fun h0 => hx (by rw [h0, map_zero])
  inv := fun {a x} h1 hx => by
    unfold RepVia
    rw [map_inv₀]
    exact h.inv h1 ((map_ne_zero φ).2 hx)
  inv_zero := fun {a} h1 => h.inv_zero (by
    unfold RepVia at h1
    rwa [map_zero] at h1)
  div := fun {a b x y} h1 h2 hy => by
    unfold RepVia
    rw [map_div₀]
    exact h.div h1 h2 ((map_ne_zero φ).2 hy)
  div_zero := fun {a b x} h1 h2 => h.div_zero h1 (by
    unfold RepVia at h2
    rwa [map_zero] at h2)
  power := fun n hn {a x} h1 hx => by
    unfold RepVia
    rw [map_zpow₀]
    exact h.power n hn h1 ((map_ne_zero φ).2 hx)
  power_zero := fun n {a} h1 => by
    unfold RepVia
    rw [map_zero]
    refine h.power_zero n ?_
    unfold RepVia at h1
    rwa [map_zero] at h1

end Abstalg
