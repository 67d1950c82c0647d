import Verif.Spec.Fractions
import Verif.Proofs.Basic
import Verif.Proofs.Field
import Verif.Model.ReducedFractions
import Mathlib.Tactic.LinearCombination
import Mathlib.Tactic.FieldSimp

/-! # Fields of fractions -/

set_option linter.unusedSectionVars false

set_option autoImplicit false

universe u v

namespace Abstalg

section algebra

variable {R : Type u} [EuclideanDomain R] [NormalizationMonoid R]

theorem isGcd_coprime {x y g : R} (hg : IsGcd (g * x) (g * y) g) (h0 : g ≠ 0) : IsCoprime x y := by
  refine (isUnit_gcd_iff (g := 1) ⟨one_dvd _, one_dvd _, fun d h1 h2 => ?_⟩).1 isUnit_one
  have := hg.2.2 (g * d) (mul_dvd_mul_left g h1) (mul_dvd_mul_left g h2)
  obtain ⟨k, hk⟩ := this
  exact ⟨k, mul_left_cancel₀ h0 (by linear_combination hk)⟩

theorem normUnit_eq_one_iff {y : R} (hy : y ≠ 0) : (normUnit y : R) = 1 ↔ normalize y = y := by
  rw [normalize_apply]
  constructor
  · intro h; rw [h, mul_one]
  · intro h; exact mul_left_cancel₀ hy (by rw [h, mul_one])

theorem normalize_normalized {y : R} : normalize (y * (normUnit y : R)) = y * (normUnit y : R) := by
  have := normalize_idem y
  rwa [normalize_apply y] at this

theorem frac_unique {x y x' y' : R} (hy : y ≠ 0) (hy' : y' ≠ 0) (hc : IsCoprime x y)
    (hc' : IsCoprime x' y') (hn : normalize y = y) (hn' : normalize y' = y')
    (h : x * y' = x' * y) : x = x' ∧ y = y' := by
  have h1 : y ∣ y' := hc.symm.dvd_of_dvd_mul_left ⟨x', by rw [h, mul_comm]⟩
  have h2 : y' ∣ y := hc'.symm.dvd_of_dvd_mul_left ⟨x, by rw [← h, mul_comm]⟩
  have h3 : y = y' := by
    rw [← hn, ← hn']
    exact normalize_eq_normalize h1 h2
  subst h3
  exact ⟨mul_right_cancel₀ hy h, rfl⟩

end algebra

namespace ReducedFractions

variable [Cfg] {E : Type} {R : Type u} [EuclideanDomain R] [NormalizationMonoid R] {K : Type v}
  [Field K] [Algebra R K] [IsFractionRing R K] {mp : Prop} {rep : E → R → Prop}
  {base : EuclideanDomainOps E}

local notation "ι" => algebraMap R K

theorem map_ne_zero {x : R} (hx : x ≠ 0) : ι x ≠ 0 := by
  rw [Ne, ← map_zero ι]
  exact fun h => hx (IsFractionRing.injective R K h)

theorem map_div_eq_iff {x y x' y' : R} (hy : y ≠ 0) (hy' : y' ≠ 0) :
    ι x / ι y = ι x' / ι y' ↔ x * y' = x' * y := by
  rw [div_eq_div_iff (map_ne_zero hy) (map_ne_zero hy'), ← map_mul, ← map_mul]
  exact (IsFractionRing.injective R K).eq_iff

variable (h : EuclideanSpec mp base rep)

include h

/-- The last step of `reduce` and of `inv`. -/
theorem normalize_spec {n d : E} {x y : R} (hn : rep n x) (hd : rep d y) (hy : y ≠ 0)
    (hc : IsCoprime x y) :
    Returns mp (do
      let coef ← base.associateCoef d
      if !(← base.isOne coef) then
        return (← base.mul n coef, ← base.mul d coef)
      else return (n, d)) (FracRep rep · (ι x / ι y)) := by
  refine Returns.bind (h.associateCoef hd hy) fun c hcf => ?_
  have hu : (normUnit y : R) ≠ 0 := (normUnit y).ne_zero
  refine Decides.bind (h.isOne hcf) (fun h1 => ?_) fun _ => ?_
  · exact ⟨x, y, hn, hd, hy, hc, (normUnit_eq_one_iff hy).1 h1, rfl⟩
  · refine Returns.bind (h.mul hn hcf) fun n' hn' => Returns.bind (h.mul hd hcf) fun d' hd' => ?_
    refine ⟨_, _, hn', hd', mul_ne_zero hy hu, ?_, normalize_normalized, ?_⟩
    · have : IsUnit (normUnit y : R) := (normUnit y).isUnit
      exact (isCoprime_mul_unit_right this x y).2 hc
    · rw [map_div_eq_iff hy (mul_ne_zero hy hu)]; ring

theorem reduce_spec {n d : E} {x y : R} (hn : rep n x) (hd : rep d y) (hy : y ≠ 0) :
    Returns mp (reduce base (n, d)) (FracRep rep · (ι x / ι y)) := by
  refine Decides.assertNot (h.isZero hd) hy ?_
  refine Returns.bind (h.gcd hn hd) fun c hc => ?_
  obtain ⟨g, hcg, hg⟩ := hc
  have hg0 : g ≠ 0 := by rintro rfl; exact hy (zero_dvd_iff.1 hg.2.1)
  obtain ⟨x', rfl⟩ := hg.1
  obtain ⟨y', rfl⟩ := hg.2.1
  have hy' : y' ≠ 0 := right_ne_zero_of_mul hy
  have hq := h.quo hn hcg hg0
  have hq' := h.quo hd hcg hg0
  rw [mul_div_cancel_left₀ _ hg0] at hq hq'
  refine Returns.bind hq fun n' hn' => Returns.bind hq' fun d' hd' => ?_
  have := normalize_spec (K := K) h hn' hd' hy' (isGcd_coprime hg hg0)
  rw [show ι (g * x') / ι (g * y') = ι x' / ι y' by
    rw [map_div_eq_iff hy hy']; ring]
  exact this

theorem reduce_panics {n d : E} (hd : rep d 0) : reduce base (n, d) = .panic :=
  Decides.assertNot_panics (h.isZero hd) rfl

theorem contains_spec {n d : E} {x y : R} (hn : rep n x) (hd : rep d y) (hy : y ≠ 0) :
    Decides mp ((domain base).contains (n, d)) (IsCoprime x y ∧ normalize y = y) := by
  refine Decides.and (h.relativePrimes hn hd) fun _ => ?_
  refine Returns.bind (h.associateCoef hd hy) fun c hc => ?_
  exact (h.isOne hc).iff (normUnit_eq_one_iff hy)

theorem equals_spec {a b : E × E} {k l : K} (ha : FracRep rep a k) (hb : FracRep rep b l) :
    Decides mp ((domain base).equals a b) (k = l) := by
  obtain ⟨x, y, h1, h2, hy, hc, hn, rfl⟩ := ha
  obtain ⟨x', y', h1', h2', hy', hc', hn', rfl⟩ := hb
  refine (Decides.and (h.equals h1 h1') fun _ => h.equals h2 h2').iff ⟨?_, fun h => ?_⟩
  · rintro ⟨rfl, rfl⟩; rfl
  · exact frac_unique hy hy' hc hc' hn hn' ((map_div_eq_iff hy hy').1 h)

theorem domain_spec : DomainSpec mp (domain base) (FracRep (K := K) rep) where
  rep_unique := by
    rintro a k l ⟨x, y, h1, h2, _, _, _, rfl⟩ ⟨x', y', h1', h2', _, _, _, rfl⟩
    rw [h.rep_unique h1 h1', h.rep_unique h2 h2']
  contains := by
    rintro a k ⟨x, y, h1, h2, hy, hc, hn, rfl⟩
    exact (contains_spec h h1 h2 hy).mono fun b hb => hb.2 ⟨hc, hn⟩
  equals := equals_spec h

theorem mul_spec {a b : E × E} {k l : K} (ha : FracRep rep a k) (hb : FracRep rep b l) :
    Returns mp ((ops base).mul a b) (FracRep rep · (k * l)) := by
  obtain ⟨x, y, h1, h2, hy, hc, hn, rfl⟩ := ha
  obtain ⟨x', y', h1', h2', hy', hc', hn', rfl⟩ := hb
  refine Returns.bind (h.mul h1 h1') fun n hn => Returns.bind (h.mul h2 h2') fun d hd => ?_
  rw [div_mul_div_comm, ← map_mul, ← map_mul]
  exact reduce_spec h hn hd (mul_ne_zero hy hy')

theorem add_spec {a b : E × E} {k l : K} (ha : FracRep rep a k) (hb : FracRep rep b l) :
    Returns mp ((ops base).add a b) (FracRep rep · (k + l)) := by
  obtain ⟨x, y, h1, h2, hy, hc, hn, rfl⟩ := ha
  obtain ⟨x', y', h1', h2', hy', hc', hn', rfl⟩ := hb
  refine Decides.ite (h.equals h2 h2') ?_ ?_
  · rintro rfl
    refine Returns.bind (h.add h1 h1') fun n hn => ?_
    rw [← add_div, ← map_add]
    exact reduce_spec h hn h2 hy
  · intro _
    refine Returns.bind (h.mul h1 h2') fun s hs => Returns.bind (h.mul h2 h1') fun t ht =>
      Returns.bind (h.add hs ht) fun n hn => Returns.bind (h.mul h2 h2') fun d hd => ?_
    rw [div_add_div _ _ (map_ne_zero hy) (map_ne_zero hy'), ← map_mul, ← map_mul, ← map_mul,
      ← map_add]
    exact reduce_spec h hn hd (mul_ne_zero hy hy')

theorem neg_spec {a : E × E} {k : K} (ha : FracRep rep a k) :
    Returns mp ((ops base).neg a) (FracRep rep · (-k)) := by
  obtain ⟨x, y, h1, h2, hy, hc, hn, rfl⟩ := ha
  exact Returns.bind (h.neg h1) fun n hn' => ⟨-x, y, hn', h2, hy, hc.neg_left, hn, by
    rw [map_neg, neg_div]⟩

theorem times_spec (n : ℤ) (hn : n ≠ isizeMin) {a : E × E} {k : K} (ha : FracRep rep a k) :
    Returns mp ((ops base).times n a) (FracRep rep · (n • k)) := by
  obtain ⟨x, y, h1, h2, hy, hc, hn', rfl⟩ := ha
  refine Returns.bind (h.times n hn h1) fun m hm => ?_
  rw [show n • (ι x / ι y) = ι (n • x) / ι y by rw [map_zsmul, smul_div_assoc]]
  exact reduce_spec h hm h2 hy

theorem one_spec : Returns mp (ops base).one (FracRep (K := K) rep · 1) :=
  Returns.bind h.one fun n hn => Returns.bind h.one fun d hd =>
    ⟨1, 1, hn, hd, one_ne_zero, isCoprime_one_left, normalize_one, by rw [map_one, div_one]⟩

theorem zero_spec : Returns mp (ops base).zero (FracRep (K := K) rep · 0) :=
  Returns.bind h.zero fun n hn => Returns.bind h.one fun d hd =>
    ⟨0, 1, hn, hd, one_ne_zero, isCoprime_one_right, normalize_one, by rw [map_zero, zero_div]⟩

theorem isOne_spec {a : E × E} {k : K} (ha : FracRep rep a k) :
    Decides mp ((ops base).isOne a) (k = 1) := by
  obtain ⟨x, y, h1, h2, hy, hc, hn, rfl⟩ := ha
  refine (Decides.and (h.isOne h1) fun _ => h.isOne h2).iff ⟨?_, fun h => ?_⟩
  · rintro ⟨rfl, rfl⟩; rw [map_one, div_one]
  · rw [show (1 : K) = ι 1 / ι 1 by rw [map_one, div_one], map_div_eq_iff hy one_ne_zero] at h
    exact frac_unique hy one_ne_zero hc isCoprime_one_left hn normalize_one h

theorem numer_spec {a : E × E} {k : K} (ha : FracRep rep a k) :
    Decides mp (base.isZero a.1) (k = 0) := by
  obtain ⟨x, y, h1, h2, hy, hc, hn, rfl⟩ := ha
  refine (h.isZero h1).iff ?_
  rw [div_eq_zero_iff, or_iff_left (map_ne_zero hy)]
  exact ⟨fun h => by rw [h, map_zero], fun h => by by_contra hx; exact map_ne_zero hx h⟩

theorem inv_spec {a : E × E} {k : K} (ha : FracRep rep a k) (hk : k ≠ 0) :
    Returns mp ((ops base).inv a) (FracRep rep · k⁻¹) := by
  refine Decides.assertNot (numer_spec h ha) hk ?_
  obtain ⟨x, y, h1, h2, hy, hc, hn, rfl⟩ := ha
  have hx : x ≠ 0 := by rintro rfl; simp at hk
  rw [inv_div]
  exact normalize_spec h h2 h1 hx hc.symm

theorem tryInv_spec {a : E × E} {k : K} (ha : FracRep rep a k) :
    Returns mp ((ops base).tryInv a) fun
      | some b => ∃ l, FracRep rep b l ∧ k * l = 1 ∧ l * k = 1
      | none => ¬ IsUnit k := by
  refine Decides.bind (Decides.not (numer_spec h ha)) (fun hk => ?_) fun hk => ?_
  · obtain ⟨x, y, h1, h2, hy, hc, hn, rfl⟩ := ha
    have hx : x ≠ 0 := by rintro rfl; simp at hk
    refine Returns.bind (reduce_spec (K := K) h h2 h1 hx) fun b hb => ⟨_, hb, ?_, ?_⟩
    · field_simp [map_ne_zero hx, map_ne_zero hy]
    · field_simp [map_ne_zero hx, map_ne_zero hy]
  · have : k = 0 := by by_contra h; exact hk h
    rw [this]
    exact not_isUnit_zero

theorem spec : FieldSpec mp (ops base) (FracRep (K := K) rep) := by
  have hd := domain_spec (K := K) h
  have hadd : ∀ {a b : E × E} {k l : K}, FracRep rep a k → FracRep rep b l →
      Returns mp ((ops base).add a b) (FracRep rep · (k + l)) := add_spec h
  have hmul : ∀ {a b : E × E} {k l : K}, FracRep rep a k → FracRep rep b l →
      Returns mp ((ops base).mul a b) (FracRep rep · (k * l)) := mul_spec h
  have hneg : ∀ {a : E × E} {k : K}, FracRep rep a k →
      Returns mp ((ops base).neg a) (FracRep rep · (-k)) := neg_spec h
  have hone := one_spec (K := K) h
  have hzero := zero_spec (K := K) h
  have htry : ∀ {a : E × E} {k : K}, FracRep rep a k → Returns mp ((ops base).tryInv a) fun
      | some b => ∃ l, FracRep rep b l ∧ k * l = 1 ∧ l * k = 1
      | none => ¬ IsUnit k := tryInv_spec h
  have hz : ∀ {a : E × E} {k : K}, FracRep rep a k → Decides mp ((ops base).isZero a) (k = 0) :=
    fun ha => isConst_default (rep := FracRep (K := K) rep) hd.equals hzero ha
  have hinv : ∀ {a : E × E} {k : K}, FracRep rep a k → k ≠ 0 →
      Returns mp ((ops base).inv a) (FracRep rep · k⁻¹) := inv_spec h
  have hinv0 : ∀ {a : E × E}, FracRep rep a (0 : K) → Panics ((ops base).inv a) :=
    fun ha => Decides.assertNot_panics (numer_spec h ha) rfl
  exact
  { toDomainSpec := hd
    zero := hzero
    isZero := hz
    add := hadd
    addAssign := hadd
    double := fun ha => hadd ha ha
    utimes := fun n {a s} ha => by
      have := utimes_default (rep := FracRep (K := K) rep) hzero hadd (fun ha => hadd ha ha) n ha
      exact this
    mul := hmul
    mulAssign := hmul
    square := fun ha => hmul ha ha
    one := hone
    isOne := fun ha => isOne_spec h ha
    tryInv := fun ha => (htry ha).mono fun o ho => by cases o <;> exact ho
    invertible := fun {a k} ha => (Decides.not (numer_spec h ha)).iff
      (by rw [isUnit_iff_ne_zero])
    neg := hneg
    negAssign := hneg
    sub := fun ha hb => by
      have := sub_default (rep := FracRep (K := K) rep) hadd hneg ha hb
      exact this
    subAssign := fun ha hb => by
      have := subAssign_default (rep := FracRep (K := K) rep) hadd hneg ha hb
      exact this
    times := fun n hn {a k} ha => times_spec h n hn ha
    int := fun n hn => by
      have := int_default (rep := FracRep (K := K) rep) hone
        (fun n hn {a k} ha => times_spec h n hn ha) n hn
      exact this
    inv := hinv
    inv_zero := hinv0
    div := fun ha hb hy => by
      have := div_default (rep := FracRep (K := K) rep) hmul hinv ha hb hy
      exact this
    div_zero := fun ha hb => panics_bind (hinv0 hb)
    power := fun n hn a s ha hs => by
      have := fieldPower_default (rep := FracRep (K := K) rep) (zero := (ops base).zero) hz hone hmul
        (fun ha => hmul ha ha)
        (fun ha => (htry ha).mono fun o ho => by cases o <;> exact ho) n hn ha hs
      exact this
    power_zero := fun n a ha => by
      have := fieldPower_zero (rep := FracRep (K := K) rep) (c := fun a =>
        powerDefault (ops base).one (ops base).mulAssign (ops base).square
          (fun e => do Res.unwrap (← (ops base).tryInv e)) n a) hz hzero ha
      exact this }

end ReducedFractions

end Abstalg
