import Verif.Proofs.Basic
import Mathlib.Algebra.GroupWithZero.Basic
import Mathlib.Algebra.EuclideanDomain.Field

/-! # The blanket implementations for fields -/

set_option autoImplicit false

universe u

namespace Abstalg

set_option linter.unusedSectionVars false

section

variable [Cfg] {E : Type} {R : Type u} [Field R] {mp : Prop} {rep : E → R → Prop}
  {A : FieldOps E}

/-- traits.rs:306-308 `Field::div` -/
theorem div_default {mul : E → E → Res E} {inv : E → Res E}
    (hmul : ∀ {a b x y}, rep a x → rep b y → Returns mp (mul a b) (rep · (x * y)))
    (hinv : ∀ {a x}, rep a x → x ≠ 0 → Returns mp (inv a) (rep · x⁻¹))
    {a b x y} (ha : rep a x) (hb : rep b y) (hy : y ≠ 0) :
    Returns mp (do mul a (← inv b)) (rep · (x / y)) :=
  Returns.bind (hinv hb hy) fun c hc => by
    simpa [div_eq_mul_inv] using hmul ha hc

/-- traits.rs:311-318 `Field::power` at non-zero elements -/
theorem fieldPower_default {isZero : E → Res Bool} {zero one : Res E}
    {mulAssign : E → E → Res E} {square : E → Res E} {tryInv : E → Res (Option E)}
    (hz : ∀ {a x}, rep a x → Decides mp (isZero a) (x = 0))
    (hone : Returns mp one (rep · 1))
    (hmul : ∀ {a b x y}, rep a x → rep b y → Returns mp (mulAssign a b) (rep · (x * y)))
    (hsq : ∀ {a x}, rep a x → Returns mp (square a) (rep · (x * x)))
    (hinv : ∀ {a x}, rep a x → Returns mp (tryInv a) fun
      | some b => ∃ y, rep b y ∧ x * y = 1 ∧ y * x = 1
      | none => ¬ IsUnit x)
    (n : ℤ) (hn : n ≠ isizeMin) {a x} (ha : rep a x) (hx : x ≠ 0) :
    Returns mp (do
      if ← isZero a then zero
      else powerDefault one mulAssign square (fun e => do Res.unwrap (← tryInv e)) n a)
      (rep · (x ^ n)) := by
  refine Decides.ite (hz ha) (fun h => (hx h).elim) fun _ => ?_
  refine (powerDefault_spec (y := x⁻¹) hone hmul hsq n hn ha fun _ => ?_).mono fun b hb => ?_
  · refine Returns.bind (hinv ha) fun o ho => ?_
    cases o with
    | none => exact (ho (IsUnit.mk0 x hx)).elim
    | some b =>
      obtain ⟨y, hy, h1, _⟩ := ho
      rw [eq_inv_of_mul_eq_one_right h1] at hy
      exact hy
  · split at hb
    · obtain ⟨m, rfl⟩ : ∃ m : ℕ, n = -(m : ℤ) := ⟨n.natAbs, by omega⟩
      simpa using hb
    · obtain ⟨m, rfl⟩ : ∃ m : ℕ, n = (m : ℤ) := ⟨n.natAbs, by omega⟩
      simpa using hb

theorem fieldPower_zero {isZero : E → Res Bool} {zero : Res E} {c : E → Res E}
    (hz : ∀ {a x}, rep a x → Decides mp (isZero a) (x = 0))
    (hzero : Returns mp zero (rep · 0)) {a} (ha : rep a 0) :
    Returns mp (do if ← isZero a then zero else c a) (rep · 0) :=
  Decides.ite (hz ha) (fun _ => hzero) fun h => (h rfl).elim

theorem field_dvd_iff {x y : R} : y ∣ x ↔ (y = 0 → x = 0) := by
  constructor
  · rintro h rfl; exact zero_dvd_iff.1 h
  · intro h
    by_cases hy : y = 0
    · simp [hy, h hy]
    · exact (IsUnit.mk0 y hy).dvd

theorem field_mod_eq_zero {x y : R} (hy : y ≠ 0) : x % y = 0 :=
  (EuclideanDomain.mod_eq_zero).2 (IsUnit.mk0 y hy).dvd

variable [DecidableEq R]

/-- traits.rs:321-337 -/
theorem FieldSpec.toIntegralDomain (h : FieldSpec mp A rep) :
    IntegralDomainSpec mp A.toIntegralDomain rep := by
  have hdiv : ∀ {a b x y}, rep a x → rep b y → y ≠ 0 →
      Returns mp (A.toIntegralDomain.tryDiv a b) fun
        | some c => ∃ z, rep c z ∧ x = y * z
        | none => ¬ y ∣ x := fun {a b x y} ha hb hy =>
    Returns.bind (h.div ha hb hy) fun c hc => ⟨x / y, hc, by rw [mul_div_cancel₀ _ hy]⟩
  have hdvd : ∀ {a b x y}, rep a x → rep b y →
      Decides mp (A.toIntegralDomain.divisible a b) (y ∣ x) :=
    fun ha hb => divisible_default (rep := rep) h.isZero hdiv ha hb
  exact
  { toUnitaryRingSpec := h.toUnitaryRingSpec
    tryDiv := hdiv
    tryDiv_zero := fun ha hb => panics_bind (h.div_zero ha hb)
    divisible := hdvd
    associates := fun ha hb => associates_default (rep := rep) hdvd ha hb
    associateRepr := fun {a x} ha => by
      refine Decides.ite (h.isZero ha) ?_ ?_
      · rintro rfl; simpa using h.zero
      · intro hx
        have : normalize x = 1 := normalize_eq_one.2 (IsUnit.mk0 x hx)
        simpa [this] using h.one
    associateCoef := fun {a x} ha hx => by
      rw [CommGroupWithZero.coe_normUnit R hx]; exact h.inv ha hx
    associateCoef_zero := fun ha => h.inv_zero ha }

/-- traits.rs:339-374 -/
theorem FieldSpec.toEuclidean (h : FieldSpec mp A rep) :
    EuclideanSpec mp A.toEuclidean rep := by
  have hqr : ∀ {a b x y}, rep a x → rep b y → y ≠ 0 →
      Returns mp (A.toEuclidean.quoRem a b) fun p => rep p.1 (x / y) ∧ rep p.2 (x % y) :=
    fun {a b x y} ha hb hy => Decides.assertNot (h.isZero hb) hy <|
      Returns.bind (h.div ha hb hy) fun q hq => Returns.bind h.zero fun r hr =>
        ⟨hq, by rw [field_mod_eq_zero hy]; exact hr⟩
  have hgcd : ∀ {a b x y}, rep a x → rep b y →
      Returns mp (A.toEuclidean.gcd a b) fun c => ∃ g, rep c g ∧ IsGcd x y g :=
    fun {a b x y} ha hb => Decides.ite (Decides.and (h.isZero ha) fun _ => h.isZero hb)
      (fun ⟨hx, hy⟩ => h.zero.mono fun c hc => ⟨0, hc, by simp [hx], by simp [hy], by simp⟩)
      (fun hxy => h.one.mono fun c hc => ⟨1, hc, one_dvd _, one_dvd _, fun d hd1 hd2 => by
        rw [field_dvd_iff] at *
        intro hd
        exact (hxy ⟨hd1 hd, hd2 hd⟩).elim⟩)
  exact
  { toIntegralDomainSpec := h.toIntegralDomain
    quoRem := hqr
    quoRem_zero := fun _ hb => Decides.assertNot_panics (h.isZero hb) rfl
    quo := fun ha hb hy => Decides.assertNot (h.isZero hb) hy (h.div ha hb hy)
    quo_zero := fun _ hb => Decides.assertNot_panics (h.isZero hb) rfl
    rem := fun {a b x y} ha hb hy => Decides.assertNot (h.isZero hb) hy <| by
      rw [field_mod_eq_zero hy]; exact h.zero
    rem_zero := fun _ hb => Decides.assertNot_panics (h.isZero hb) rfl
    reduced := fun {a b x y} ha hb =>
      (Decides.or (h.isZero ha) fun _ => h.isZero hb).iff <| by
        show (x = 0 ∨ y = 0) ↔ (y = 0 ∨ x / y = 0)
        rw [div_eq_zero_iff]; tauto
    gcd := hgcd
    lcm := fun {a b x y} ha hb =>
      Decides.ite (Decides.or (h.isZero ha) fun _ => h.isZero hb)
      (fun hxy => h.zero.mono fun c hc => ⟨0, hc, dvd_zero _, dvd_zero _, fun d hd1 hd2 => by
        rw [field_dvd_iff] at *
        intro _
        rcases hxy with rfl | rfl
        · exact hd1 rfl
        · exact hd2 rfl⟩)
      (fun hxy => h.one.mono fun c hc => ⟨1, hc,
        field_dvd_iff.2 fun hx => (hxy (.inl hx)).elim,
        field_dvd_iff.2 fun hy => (hxy (.inr hy)).elim, fun d _ _ => one_dvd d⟩)
    extendedGcd := fun ha hb => by
      have := extendedGcdDefault_spec (rep := rep) h.isZero h.one h.zero hqr h.sub h.mul ha hb
      exact this
    relativePrimes := fun ha hb => by
      have := relativePrimes_default (rep := rep) hgcd h.invertible ha hb
      exact this }

end

end Abstalg
