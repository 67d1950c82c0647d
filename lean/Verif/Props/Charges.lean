import Verif.Proofs.ChargesTower
import Verif.Model.TwoElementAlgebra
import Verif.Model.Integers

/-! # The costs of the calls of a base with state: C98 -/

set_option autoImplicit false

namespace Abstalg

open Stateful Counted

variable {E F σ : Type}

/-! ## From charges to counters -/

theorem out_of_counters {α : Type} {x : St (Call → ℕ) α} {y : Counted α}
    (h : Charges .counters (fun _ => True) Eq x y) : Observes x y := by
  intro s
  have h1 := h s trivial
  revert h1
  cases x s with
  | ok a t =>
    cases y.res with
    | ok b => exact fun h1 => by rw [h1.1]; exact congrArg _ (funext h1.2.2)
    | panic => exact False.elim
    | diverge => exact False.elim
  | panic t =>
    cases y.res with
    | ok b => exact False.elim
    | panic => exact fun h1 => congrArg Out.panic (funext h1.2)
    | diverge => exact False.elim
  | diverge =>
    cases y.res with
    | ok b => exact False.elim
    | panic => exact False.elim
    | diverge => exact fun _ => rfl

theorem lrel_eq {α : Type} {v w : List α} (h : LRel Eq v w) : v = w := by
  induction h with
  | nil => rfl
  | cons h _ ih => rw [h, ih]

theorem lrel_refl {α : Type} (v : List α) : LRel Eq v v := by
  induction v with
  | nil => exact .nil
  | cons a v ih => exact .cons rfl ih

theorem orel_eq {α : Type} {r : α → α → Prop} (hr : ∀ a b, r a b → a = b) {v w : Option α} (h : Option.Rel r v w) : v = w := by
  cases h with
  | none => rfl
  | some h => rw [hr _ _ h]

theorem charges_tick {α : Type} (c : Call) (y : Res α) : Charges .counters (fun _ => True) Eq (tick c y) (call c y) := by
  have key : ∀ (s : Call → ℕ) (d : Call), (if d = c then s d + 1 else s d) = s d + (if d = c then 1 else 0) := by
    intro s d
    split <;> rfl
  intro s _
  unfold tick
  cases y with
  | ok a => exact ⟨rfl, trivial, key s⟩
  | panic => exact ⟨trivial, key s⟩
  | diverge => trivial

theorem orel_of_eq {α : Type} (v w : Option α) (h : v = w) : Option.Rel Eq v w := by
  subst h
  cases v with
  | none => exact .none
  | some a => exact .some rfl

/-! ## Counters -/

/-- C98: the methods of a base with a counter for each method are charged exactly one call. -/
theorem C98_metered_monoid (B : CommutativeMonoidOps E) :
    ChargesCommutativeMonoid .counters (fun _ => True) Eq (meteredMonoid B) B where
  equals := by rintro a b _ _ rfl rfl; exact charges_tick _ _
  zero := charges_tick _ _
  isZero := by rintro a _ rfl; exact charges_tick _ _
  add := by rintro a b _ _ rfl rfl; exact charges_tick _ _
  addAssign := by rintro a b _ _ rfl rfl; exact charges_tick _ _
  double := by rintro a _ rfl; exact charges_tick _ _

section
variable [Cfg]

/-- C98: groups. -/
theorem C98_metered_group (B : GroupOps E) : ChargesGroup .counters (fun _ => True) Eq (meteredGroup B) B where
  one := charges_tick _ _
  mulAssign := by rintro a b _ _ rfl rfl; exact charges_tick _ _
  square := by rintro a _ rfl; exact charges_tick _ _
  inv := by rintro a _ rfl; exact charges_tick _ _

/-- C98: abelian groups. -/
theorem C98_metered_abelian_group (B : AbelianGroupOps E) :
    ChargesAbelianGroup .counters (fun _ => True) Eq (meteredAbelianGroup B) B where
  toChargesCommutativeMonoid := C98_metered_monoid B.toCommutativeMonoidOps
  neg := by rintro a _ rfl; exact charges_tick _ _
  sub := by rintro a b _ _ rfl rfl; exact charges_tick _ _

/-- C98: rings. -/
theorem C98_metered_ring (B : UnitaryRingOps E) : ChargesUnitaryRing .counters (fun _ => True) Eq (meteredRing B) B where
  toChargesAbelianGroup := C98_metered_abelian_group B.toAbelianGroupOps
  one := charges_tick _ _
  intOne := charges_tick _ _
  mul := by rintro a b _ _ rfl rfl; exact charges_tick _ _
  mulAssign := by rintro a b _ _ rfl rfl; exact charges_tick _ _
  square := by rintro a _ rfl; exact charges_tick _ _
  tryInv := by rintro a _ rfl; exact (charges_tick _ _).mono orel_of_eq

/-- C98: integral domains. -/
theorem C98_metered_domain (B : IntegralDomainOps E) :
    ChargesIntegralDomain .counters (fun _ => True) Eq (meteredDomain B) B where
  toChargesUnitaryRing := C98_metered_ring B.toUnitaryRingOps
  tryDiv := by rintro a b _ _ rfl rfl; exact (charges_tick _ _).mono orel_of_eq

/-- C98: fields. -/
theorem C98_metered_field (B : FieldOps E) : ChargesField .counters (fun _ => True) Eq (meteredField B) B where
  toChargesUnitaryRing := C98_metered_ring B.toUnitaryRingOps
  inv := by rintro a _ rfl; exact charges_tick _ _
  div := by rintro a b _ _ rfl rfl; exact charges_tick _ _

/-- C98: the counters of a base show, after a multiple or a power, exactly the calls of C93, also after a panic. -/
theorem C98_observed_multiples (A : CommutativeMonoidOps E) (G : GroupOps E) (n : ℕ) (z : ℤ) (a : E) :
    Observes (do let res ← (meteredMonoid A).zero; Stateful.timesLoop (meteredMonoid A).addAssign (meteredMonoid A).double n res a)
      (utimes A n a) ∧
    Observes (Stateful.powerDefault (meteredGroup G).one (meteredGroup G).mulAssign (meteredGroup G).square (meteredGroup G).inv z a)
      (Counted.power G z a) :=
  ⟨out_of_counters (charges_utimes (C98_metered_monoid A) n rfl), out_of_counters (charges_power (C98_metered_group G) z rfl)⟩

omit [Cfg] in
/-- C98: coordinate-wise methods of vectors. -/
theorem C98_observed_vectors (n : ℕ) (c : Call) (f : E → E → Res E) (g : E → Res E) (v w : List E) :
    Observes (Stateful.VectorAlgebra.zipMap n (fun a b => tick c (f a b)) v w) (Counted.zipMap n c f v w) ∧
    Observes (Stateful.VectorAlgebra.zipEach n (fun a b => tick c (f a b)) v w) (Counted.zipEach n c f v w) ∧
    Observes (Stateful.VectorAlgebra.mapEach n (fun a => tick c (g a)) v) (Counted.mapEach n c g v) := by
  refine ⟨out_of_counters ((charges_zipMap n ?_ (lrel_refl v) (lrel_refl w)).mono fun _ _ => lrel_eq),
    out_of_counters ((charges_zipEach n ?_ (lrel_refl v) (lrel_refl w)).mono fun _ _ => lrel_eq),
    out_of_counters ((charges_mapEach n ?_ (lrel_refl v)).mono fun _ _ => lrel_eq)⟩
  · rintro a b _ _ rfl rfl; exact charges_tick _ _
  · rintro a b _ _ rfl rfl; exact charges_tick _ _
  · rintro a _ rfl; exact charges_tick _ _

/-- C98: product, determinant and inverse of matrices. -/
theorem C98_observed_matrices (B : FieldOps E) (n : ℕ) (v w : List E) :
    Observes ((Stateful.MatrixRing.ops (meteredField B) n).mul v w) (matMul B n v w) ∧
    Observes (Stateful.MatrixRing.determinant (meteredField B) n v) (Counted.determinant B n v) ∧
    Observes ((Stateful.MatrixRing.ops (meteredField B) n).tryInv v) (matTryInv B n v) :=
  ⟨out_of_counters ((MatrixRing.charges_mul (C98_metered_field B) n (lrel_refl v) (lrel_refl w)).mono fun _ _ => lrel_eq),
    out_of_counters (MatrixRing.charges_determinant (C98_metered_field B) n (lrel_refl v)),
    out_of_counters ((MatrixRing.charges_tryInv (C98_metered_field B) n (lrel_refl v)).mono fun _ _ => orel_eq fun _ _ => lrel_eq)⟩

/-- C98: sum, product, exact division, division with remainder, gcd and extended gcd of polynomials. -/
theorem C98_observed_polynomials (G : AbelianGroupOps E) (R : UnitaryRingOps E) (D : IntegralDomainOps E) (B : FieldOps E)
    (v w : List E) :
    Observes ((Stateful.PolynomialAlgebra.abelianGroup (meteredAbelianGroup G)).add v w) (polyAdd G v w) ∧
    Observes ((Stateful.PolynomialAlgebra.unitaryRing (meteredRing R)).mul v w) (polyMul R v w) ∧
    Observes ((Stateful.PolynomialAlgebra.integralDomain (meteredDomain D)).tryDiv v w) (polyTryDiv D v w) ∧
    Observes ((Stateful.PolynomialAlgebra.euclidean (meteredField B)).quoRem v w) (polyQuoRem B v w) ∧
    Observes ((Stateful.PolynomialAlgebra.euclidean (meteredField B)).gcd v w) (polyGcdWithin B (w.length + 1) v w) ∧
    Observes ((Stateful.PolynomialAlgebra.euclidean (meteredField B)).extendedGcd v w)
      (polyExtendedGcdWithin B (w.length + 1) v w) := by
  refine ⟨out_of_counters ((PolynomialAlgebra.charges_add (C98_metered_abelian_group G) (lrel_refl v) (lrel_refl w)).mono fun _ _ => lrel_eq),
    out_of_counters ((PolynomialAlgebra.charges_mul (C98_metered_ring R) (lrel_refl v) (lrel_refl w)).mono fun _ _ => lrel_eq),
    out_of_counters ((PolynomialAlgebra.charges_tryDiv (C98_metered_domain D) (lrel_refl v) (lrel_refl w)).mono
      fun _ _ => orel_eq fun _ _ => lrel_eq),
    out_of_counters ((PolynomialAlgebra.charges_quoRem (C98_metered_field B) (lrel_refl v) (lrel_refl w)).mono fun p q h => ?_),
    out_of_counters ((PolynomialAlgebra.charges_gcd (C98_metered_field B) _ (lrel_refl v) (lrel_refl w) (Nat.lt_succ_self _)).mono fun _ _ => lrel_eq),
    out_of_counters ((PolynomialAlgebra.charges_extendedGcd (C98_metered_field B) _ (lrel_refl v) (lrel_refl w) (Nat.lt_succ_self _)).mono
      fun p q h => ?_)⟩
  · exact Prod.ext (lrel_eq h.1) (lrel_eq h.2)
  · exact Prod.ext (lrel_eq h.1) (Prod.ext (lrel_eq h.2.1) (lrel_eq h.2.2))

/-- C98: residues of polynomials. -/
theorem C98_observed_residues (B : FieldOps E) (f v w : List E) :
    Observes ((Stateful.QuotientField.ops (Stateful.PolynomialAlgebra.euclidean (meteredField B)) f).add v w) (residueAdd B f v w) ∧
    Observes ((Stateful.QuotientField.ops (Stateful.PolynomialAlgebra.euclidean (meteredField B)) f).neg v) (residueNeg B f v) ∧
    Observes ((Stateful.QuotientField.ops (Stateful.PolynomialAlgebra.euclidean (meteredField B)) f).sub v w) (residueSub B f v w) ∧
    Observes ((Stateful.QuotientField.ops (Stateful.PolynomialAlgebra.euclidean (meteredField B)) f).mul v w) (residueMul B f v w) ∧
    Observes ((Stateful.QuotientField.ops (Stateful.PolynomialAlgebra.euclidean (meteredField B)) f).inv v) (residueInv B f v) ∧
    Observes ((Stateful.QuotientField.ops (Stateful.PolynomialAlgebra.euclidean (meteredField B)) f).div v w) (residueDiv B f v w) :=
  ⟨out_of_counters ((QuotientField.charges_add (C98_metered_field B) (lrel_refl f) (lrel_refl v) (lrel_refl w)).mono fun _ _ => lrel_eq),
    out_of_counters ((QuotientField.charges_neg (C98_metered_field B) (lrel_refl f) (lrel_refl v)).mono fun _ _ => lrel_eq),
    out_of_counters ((QuotientField.charges_sub (C98_metered_field B) (lrel_refl f) (lrel_refl v) (lrel_refl w)).mono fun _ _ => lrel_eq),
    out_of_counters ((QuotientField.charges_mul (C98_metered_field B) (lrel_refl f) (lrel_refl v) (lrel_refl w)).mono fun _ _ => lrel_eq),
    out_of_counters ((QuotientField.charges_inv (C98_metered_field B) (lrel_refl f) (lrel_refl v)).mono fun _ _ => lrel_eq),
    out_of_counters ((QuotientField.charges_div (C98_metered_field B) (lrel_refl f) (lrel_refl v) (lrel_refl w)).mono fun _ _ => lrel_eq)⟩

end

section
local instance : Cfg := ⟨true, true, 64, by decide⟩

/-- The counters of a run: the product of two matrices, and a determinant. -/
example : (∃ t, (Stateful.MatrixRing.ops (meteredField TwoElementAlgebra.field) 2).mul [true, true, false, true] [true, false, true, true]
      (fun _ => 5) = .ok [false, true, true, true] t ∧ t .zero = 9 ∧ t .mul = 13 ∧ t .addAssign = 13 ∧ t .add = 5) ∧
    ∃ t, Stateful.MatrixRing.determinant (meteredField TwoElementAlgebra.field) 2 [false, true, true, true] (fun _ => 0) =
      .ok true t ∧ t .inv = 2 ∧ t .mulAssign = 6 ∧ t .isZero = 4 ∧ t .zero = 0 := by
  have h := (C98_observed_matrices TwoElementAlgebra.field 2 [true, true, false, true] [true, false, true, true]).1 fun _ => 5
  have h' := (C98_observed_matrices TwoElementAlgebra.field 2 [false, true, true, true] []).2.1 fun _ => 0
  rw [show (matMul TwoElementAlgebra.field 2 [true, true, false, true] [true, false, true, true]).res = .ok [false, true, true, true] by
    decide +kernel] at h
  rw [show (Counted.determinant TwoElementAlgebra.field 2 [false, true, true, true]).res = .ok true by decide +kernel] at h'
  exact ⟨⟨_, h, by decide +kernel⟩, ⟨_, h', by decide +kernel⟩⟩

/-- A panic in the third product: the counter shows three calls. -/
example : ∃ t, Stateful.VectorAlgebra.mapEach 4 (fun a : ℕ => tick .neg (if a = 7 then .panic else .ok (a + 1))) [1, 2, 7, 4]
    (fun _ => 0) = .panic t ∧ t .neg = 3 := ⟨_, rfl, rfl⟩

/-- The counters of `extended_gcd`, which is not a bounded loop, are those of the counted model. -/
example : ∃ t, (Stateful.PolynomialAlgebra.euclidean (meteredField TwoElementAlgebra.field)).extendedGcd
      [true, true, false, true] [true, true, true] (fun _ => 0) = .ok ([true], [true, true], [false, false, true]) t ∧
    t .div = 6 ∧ t .mul = 12 ∧ t .one = 2 := by
  have hr : (polyExtendedGcdWithin TwoElementAlgebra.field 4 [true, true, false, true] [true, true, true]).res =
    .ok ([true], [true, true], [false, false, true]) := by decide +kernel
  have h := (C98_observed_polynomials TwoElementAlgebra.field.toAbelianGroupOps TwoElementAlgebra.field.toUnitaryRingOps
    TwoElementAlgebra.field.toIntegralDomain TwoElementAlgebra.field [true, true, false, true] [true, true, true]).2.2.2.2.2 fun _ => 0
  rw [show [true, true, true].length + 1 = 4 from rfl, hr] at h
  exact ⟨_, h, by decide +kernel, by decide +kernel, by decide +kernel⟩

end

section
variable [Cfg]

/-! ## Counts of the extended gcd and of residues -/

/-- C98: `extended_gcd` of polynomials over any base, in any order of the lengths: numbers of calls of the base, and lengths of the
coefficients if the second polynomial is not the longer one. -/
theorem C98_extended_gcd (B : FieldOps E) (v w : List E) :
    (polyExtendedGcdWithin B (w.length + 1) v w).res = (PolynomialAlgebra.euclidean B).extendedGcd v w ∧
    Within (polyExtendedGcdWithin B (w.length + 1) v w) (extendedGcdCost (max v.length w.length) (min v.length w.length)) ∧
    (w.length ≤ v.length → ∀ g x y, (PolynomialAlgebra.euclidean B).extendedGcd v w = .ok (g, x, y) →
      x.length ≤ max 1 w.length ∧ y.length ≤ v.length) := by
  have h0 := res_polyExtendedGcdWithin B (w.length + 1) v w (Nat.lt_succ_self _)
  refine ⟨h0, ?_, fun hl g x y h => ?_⟩
  · by_cases hl : w.length ≤ v.length
    · rw [max_eq_left hl, min_eq_right hl]
      exact (within_polyExtendedGcd B _ v w hl).1
    · have hl' := not_le.1 hl
      rw [max_eq_right hl'.le, min_eq_left hl'.le]
      unfold polyExtendedGcdWithin
      have hw : ¬ w.isEmpty = true := by
        cases w with
        | nil => exact fun _ => absurd hl' (by simp)
        | cons a w => exact Bool.false_ne_true
      rw [if_neg hw]
      refine within_mono (within_bind (m := extendedGcdCost w.length v.length + (0 + (0 + 0))) ((C93_poly_quo_rem B v w).1 hl').1 fun p hp => ?_) ?_
      · obtain ⟨q, r⟩ := p
        rw [res_polyQuoRem] at hp
        unfold PolynomialAlgebra.quoRem at hp
        obtain ⟨_, -, hp⟩ := res_ok_of_bind hp
        rw [if_pos hl'] at hp
        cases hp
        refine within_bind (within_polyExtendedGcd B _ w v hl'.le).1 fun t _ => ?_
        obtain ⟨g, x, y⟩ := t
        have hm : polyMul B.toUnitaryRingOps y [] = pure [] := by
          unfold polyMul
          rw [if_pos (by simp)]
        show Within (polyMul B.toUnitaryRingOps y [] >>= fun u => polySub B.toAbelianGroupOps x u >>= fun z => pure (g, y, z)) _
        rw [hm]
        refine within_bind (takes_pure _).1 fun u hu => within_bind (k := 0) ?_ fun _ _ => (takes_pure _).1
        cases hu
        refine within_mono (within_polySub _ x [] (n := 0) (by simp)) fun c => ?_
        cases c <;> simp [table]
      · intro c
        simp
  · rw [← h0] at h
    exact (within_polyExtendedGcd B _ v w hl).2 _ h

/-- C98: each method of residues of polynomials modulo a polynomial of length `d + 1` over any base, for residues of length at most `d`. -/
theorem C98_residues (B : FieldOps E) {f v w : List E} {d : ℕ} (hd : 1 ≤ d) (hf : f.length = d + 1) (hv : v.length ≤ d)
    (hw : w.length ≤ d) :
    Within (polyEquals B.toAbelianGroupOps v w) (residueCost d .equals) ∧
    Within (residueIsZero B v) (residueCost d .isZero) ∧
    Within (residueAdd B f v w) (residueCost d .add) ∧
    Within (residueNeg B f v) (residueCost d .neg) ∧
    Within (residueSub B f v w) (residueCost d .sub) ∧
    Within (polyOne B.toUnitaryRingOps) (residueCost d .one) ∧
    Within (residueIntOne B f) (residueCost d .int) ∧
    Within (residueMul B f v w) (residueCost d .mul) ∧
    Within (residueInv B f v) (residueCost d .inv) ∧
    Within (residueDiv B f v w) (residueCost d .div) :=
  ⟨within_polyEquals _ _ _ ((min_le_left _ _).trans hv), within_residueIsZero B, within_residueAdd B hf hv hw,
    within_residueNeg B hf hv, within_residueSub B hf hv hw, within_polyOne _, within_residueIntOne B hf hd,
    within_residueMul B hf hv hw, within_residueInv B hf hv, within_residueDiv B hf hv hw⟩

/-- C98: the outcomes of the counted methods of residues are those of the methods. -/
theorem C98_outcomes_residues (B : FieldOps E) (f v w : List E) :
    (residueAdd B f v w).res = (QuotientField.ops (PolynomialAlgebra.euclidean B) f).add v w ∧
    (residueNeg B f v).res = (QuotientField.ops (PolynomialAlgebra.euclidean B) f).neg v ∧
    (residueSub B f v w).res = (QuotientField.ops (PolynomialAlgebra.euclidean B) f).sub v w ∧
    (residueIntOne B f).res = (QuotientField.ops (PolynomialAlgebra.euclidean B) f).int 1 ∧
    (residueMul B f v w).res = (QuotientField.ops (PolynomialAlgebra.euclidean B) f).mul v w ∧
    (residueInv B f v).res = (QuotientField.ops (PolynomialAlgebra.euclidean B) f).inv v ∧
    (residueDiv B f v w).res = (QuotientField.ops (PolynomialAlgebra.euclidean B) f).div v w :=
  ⟨res_residueAdd B f v w, res_residueNeg B f v, res_residueSub B f v w, res_residueIntOne B f, res_residueMul B f v w,
    res_residueInv B f v, res_residueDiv B f v w⟩

end

section
local instance : Cfg := ⟨true, true, 64, by decide⟩

/-- The inverse of `x` in the field of four elements, and the bounds for it. -/
example : (residueInv TwoElementAlgebra.field [true, true, true] [false, true]).res = .ok [true, true] ∧
    (residueInv TwoElementAlgebra.field [true, true, true] [false, true]).calls .tryInv = 1 ∧
    residueCost 2 .inv .tryInv = 1 ∧ residueCost 2 .inv .div = 6 ∧
    (residueInv TwoElementAlgebra.field [true, true, true] [false, true]).calls .div = 4 := by decide +kernel

/-- The product of two residues reaches the bound. -/
example : (residueMul TwoElementAlgebra.field [true, true, true] [false, true] [true, true]).calls .mul = residueCost 2 .mul .mul ∧
    (residueMul TwoElementAlgebra.field [true, true, true] [false, true] [true, true]).calls .div = residueCost 2 .mul .div ∧
    residueCost 2 .mul .mul = 6 := by decide +kernel

end

section
variable [Cfg]

/-! ## Clocks -/

omit [Cfg] in
theorem total_mono {f g : Call → ℕ} (h : ∀ c, f c ≤ g c) : Call.total f ≤ Call.total g := by
  unfold Call.total
  induction Call.all with
  | nil => exact le_rfl
  | cons c l ih =>
    simp only [List.map_cons, List.sum_cons]
    exact Nat.add_le_add (h c) ih

omit [Cfg] in
theorem elapses_mono {α β : Type} {μ : σ → ℕ} {I : σ → Prop} {r : α → β → Prop} {x : St σ α} {z : Res β} {a b a' b' : ℕ}
    (h : Elapses μ I r x z a b) (ha : a' ≤ a) (hb : b ≤ b') : Elapses μ I r x z a' b' := by
  intro s hs
  have h1 := h s hs
  revert h1
  cases x s <;> cases z <;> first | exact id | skip
  · exact fun h1 => ⟨h1.1, h1.2.1, (Nat.add_le_add_left ha _).trans h1.2.2.1, h1.2.2.2.trans (Nat.add_le_add_left hb _)⟩
  · exact fun h1 => ⟨h1.1, h1.2.1, h1.2.2.trans (Nat.add_le_add_left hb _)⟩

omit [Cfg] in
theorem clock_bounds {μ : σ → ℕ} {lo hi k : Call → ℕ} {s t : σ} (h : (Account.clock μ lo hi).rel k s t) :
    μ s + Call.total (fun c => lo c * k c) ≤ μ t ∧ μ t ≤ μ s + Call.total fun c => hi c * k c := h

omit [Cfg] in
theorem elapses_of_takes {α β : Type} {μ : σ → ℕ} {lo hi : Call → ℕ} {I : σ → Prop} {r : α → β → Prop} {x : St σ α} {y : Counted β}
    (h : Charges (.clock μ lo hi) I r x y) {k : Call → ℕ} (hk : Takes y k) {z : Res β} (hz : y.res = z) :
    Elapses μ I r x z (Call.total fun c => lo c * k c) (Call.total fun c => hi c * k c) := by
  intro s hs
  have hm := total_mono fun c => Nat.mul_le_mul_left (hi c) (hk.1 c)
  generalize (Call.total fun c => hi c * k c) = b at hm ⊢
  have hl : ∀ a, y.res = .ok a → (Call.total fun c => lo c * k c) = Call.total fun c => lo c * y.calls c := fun a ha => by rw [hk.2 a ha]
  generalize (Call.total fun c => lo c * k c) = a at hl ⊢
  have h1 := h s hs
  revert h1
  rw [← hz]
  cases hy : y.res with
  | ok u =>
    cases x s with
    | ok a t =>
      intro h1
      have h2 := clock_bounds h1.2.2
      rw [← hl u hy] at h2
      exact ⟨h1.1, h1.2.1, h2.1, h2.2.trans (Nat.add_le_add_left hm _)⟩
    | panic t => exact False.elim
    | diverge => exact False.elim
  | panic =>
    cases x s with
    | ok a t => exact False.elim
    | panic t =>
      intro h1
      have h2 := clock_bounds h1.2
      exact ⟨h1.1, (Nat.le_add_right _ _).trans h2.1, h2.2.trans (Nat.add_le_add_left hm _)⟩
    | diverge => exact False.elim
  | diverge =>
    cases x s with
    | ok a t => exact False.elim
    | panic t => exact False.elim
    | diverge => exact id

omit [Cfg] in
theorem elapses_of_within {α β : Type} {μ : σ → ℕ} {lo hi : Call → ℕ} {I : σ → Prop} {r : α → β → Prop} {x : St σ α} {y : Counted β}
    (h : Charges (.clock μ lo hi) I r x y) {k : Call → ℕ} (hk : Within y k) {z : Res β} (hz : y.res = z) :
    Elapses μ I r x z 0 (Call.total fun c => hi c * k c) := by
  have hm := total_mono fun c => Nat.mul_le_mul_left (hi c) (hk c)
  exact elapses_mono (elapses_of_takes h (k := y.calls) ⟨fun _ => le_rfl, fun _ _ => rfl⟩ hz) (Nat.zero_le _) hm

section clocks

variable {μ : σ → ℕ} {lo hi : Call → ℕ} {I : σ → Prop} {r : E → F → Prop}

/-- C98: the time of matrix methods over a base whose methods take, by a clock of its state, at least `lo` and at most `hi`. -/
theorem C98_time_matrices {A : Stateful.FieldOps σ E} {B : FieldOps F} (hA : ChargesField (.clock μ lo hi) I r A B) (n : ℕ)
    {v w : List E} {v' w' : List F} (hv : LRel r v v') (hw : LRel r w w') :
    Elapses μ I (LRel r) ((Stateful.MatrixRing.ops A n).mul v w) ((MatrixRing.ops B n).mul v' w')
      (n ^ 2 * lo .zero + n ^ 3 * lo .mul + n ^ 3 * lo .addAssign) (n ^ 2 * hi .zero + n ^ 3 * hi .mul + n ^ 3 * hi .addAssign) ∧
    Elapses μ I r (Stateful.MatrixRing.determinant A n v) (MatrixRing.determinant B n v') 0
      (hi .one + hi .zero + n ^ 2 * hi .isZero + n * hi .inv + n * (n + 1) * hi .mulAssign + n * (n - 1) / 2 * hi .neg +
        n * (n * (n - 1) / 2) * hi .mul + n * (n * (n - 1) / 2) * hi .addAssign) ∧
    Elapses μ I (Option.Rel (LRel r)) ((Stateful.MatrixRing.ops A n).tryInv v) ((MatrixRing.ops B n).tryInv v') 0
      (2 * hi .int + 2 * hi .zero + n ^ 2 * hi .equals + (n * (n + 1) / 2 + n * (n - 1)) * hi .isZero + n * hi .inv +
        2 * n ^ 2 * hi .mulAssign + n * (n - 1) * hi .neg + 2 * n ^ 2 * (n - 1) * hi .mul + 2 * n ^ 2 * (n - 1) * hi .addAssign) := by
  refine ⟨?_, ?_, ?_⟩
  · have h := elapses_of_takes (MatrixRing.charges_mul hA n hv hw) (C93_matrix_mul B n v' w') (res_matMul B n v' w')
    simp only [Call.total, Call.all, List.map_cons, List.map_nil, List.sum_cons, List.sum_nil, table] at h
    refine elapses_mono h (le_of_eq ?_) (le_of_eq ?_) <;> simp <;> ring
  · refine elapses_mono (elapses_of_within (MatrixRing.charges_determinant hA n hv) (C93_determinant B n v').1 (res_determinant B n v')) le_rfl ?_
    simp only [Call.total, Call.all, List.map_cons, List.map_nil, List.sum_cons, List.sum_nil, table]
    refine le_of_eq ?_
    simp
    ring
  · refine elapses_mono (elapses_of_within (MatrixRing.charges_tryInv hA n hv) (C93_matrix_try_inv B n v').1 (res_matTryInv B n v')) le_rfl ?_
    simp only [Call.total, Call.all, List.map_cons, List.map_nil, List.sum_cons, List.sum_nil, table]
    cases Cfg.debugAssertions <;> simp <;> nlinarith [Nat.zero_le (hi .int), Nat.zero_le (hi .zero), Nat.zero_le (n ^ 2 * hi .equals)]

/-- C98: the time of the product, the gcd and the extended gcd of polynomials. -/
theorem C98_time_polynomials {A : Stateful.FieldOps σ E} {B : FieldOps F} (hA : ChargesField (.clock μ lo hi) I r A B)
    {v w : List E} {v' w' : List F} (hv : LRel r v v') (hw : LRel r w w') :
    Elapses μ I (LRel r) ((Stateful.PolynomialAlgebra.euclidean A).mul v w) ((PolynomialAlgebra.euclidean B).mul v' w') 0
      (hi .zero + v'.length * w'.length * (hi .mul + hi .add)) ∧
    (v' ≠ [] → w' ≠ [] → Elapses μ I (LRel r) ((Stateful.PolynomialAlgebra.euclidean A).mul v w)
      ((PolynomialAlgebra.euclidean B).mul v' w') (lo .zero + v'.length * w'.length * (lo .mul + lo .add))
      (hi .zero + v'.length * w'.length * (hi .mul + hi .add))) ∧
    Elapses μ I (LRel r) ((Stateful.PolynomialAlgebra.euclidean A).gcd v w) ((PolynomialAlgebra.euclidean B).gcd v' w') 0
      (w'.length * (hi .zero + 2 * hi .isZero) + (v'.length + w'.length) * (hi .div + hi .neg) +
        v'.length * w'.length * (hi .mul + hi .add)) ∧
    Elapses μ I (fun p q => LRel r p.1 q.1 ∧ LRel r p.2.1 q.2.1 ∧ LRel r p.2.2 q.2.2)
      ((Stateful.PolynomialAlgebra.euclidean A).extendedGcd v w) ((PolynomialAlgebra.euclidean B).extendedGcd v' w') 0
      (2 * hi .one + hi .isZero + (v'.length + w'.length) * hi .div +
        v'.length * w'.length * (2 * hi .isZero + 3 * hi .zero + 2 * hi .neg + 2 * hi .mul + 3 * hi .add)) := by
  refine ⟨?_, fun h1 h2 => ?_, ?_, ?_⟩
  · refine elapses_mono (elapses_of_within (PolynomialAlgebra.charges_mul hA.toChargesUnitaryRing hv hw)
      (within_polyMul B.toUnitaryRingOps v' w' le_rfl) (res_polyMul _ v' w')) le_rfl ?_
    simp only [Call.total, Call.all, List.map_cons, List.map_nil, List.sum_cons, List.sum_nil, table]
    refine le_of_eq ?_
    simp
    ring
  · have h := elapses_of_takes (PolynomialAlgebra.charges_mul hA.toChargesUnitaryRing hv hw)
      (C93_poly_mul B.toUnitaryRingOps v' w') (res_polyMul _ v' w')
    rw [if_neg (by simp [h1, h2])] at h
    simp only [Call.total, Call.all, List.map_cons, List.map_nil, List.sum_cons, List.sum_nil, table] at h
    refine elapses_mono h (le_of_eq ?_) (le_of_eq ?_) <;> simp <;> ring
  · refine elapses_mono (elapses_of_within (PolynomialAlgebra.charges_gcd hA _ hv hw (Nat.lt_succ_self _)) (C93_poly_gcd B v' w')
      (res_polyGcdWithin B _ v' w' (Nat.lt_succ_self _))) le_rfl ?_
    simp only [Call.total, Call.all, List.map_cons, List.map_nil, List.sum_cons, List.sum_nil, table]
    refine le_of_eq ?_
    simp
    ring
  · refine elapses_mono (elapses_of_within (PolynomialAlgebra.charges_extendedGcd hA _ hv hw (Nat.lt_succ_self _)) (C98_extended_gcd B v' w').2.1
      (res_polyExtendedGcdWithin B _ v' w' (Nat.lt_succ_self _))) le_rfl ?_
    have e1 : max v'.length w'.length + min v'.length w'.length = v'.length + w'.length := max_add_min _ _
    have e2 : max v'.length w'.length * min v'.length w'.length = v'.length * w'.length := max_mul_min _ _
    simp only [Call.total, Call.all, List.map_cons, List.map_nil, List.sum_cons, List.sum_nil, table, extendedGcdCost, mul_assoc, e1, e2]
    refine le_of_eq ?_
    simp
    ring

end clocks

omit [Cfg] in
/-- C98: the weighted sum of the counters is a clock. -/
theorem C98_clock_of_counters {α β : Type} (w : Call → ℕ) {I : (Call → ℕ) → Prop} {r : α → β → Prop} {x : St (Call → ℕ) α} {y : Counted β}
    (h : Charges .counters I r x y) : Charges (.clock (fun s => Call.total fun c => w c * s c) w w) I r x y := by
  have key : ∀ {k s t : Call → ℕ}, (∀ c, t c = s c + k c) →
      (Call.total fun c => w c * t c) = (Call.total fun c => w c * s c) + Call.total fun c => w c * k c := by
    intro k s t h
    rw [← Call.total_add]
    exact congrArg Call.total (funext fun c => by rw [h])
  intro s hs
  have h1 := h s hs
  revert h1
  cases x s with
  | ok a t =>
    cases y.res with
    | ok b => exact fun h1 => ⟨h1.1, h1.2.1, (key h1.2.2).ge, (key h1.2.2).le⟩
    | panic => exact False.elim
    | diverge => exact False.elim
  | panic t =>
    cases y.res with
    | ok b => exact False.elim
    | panic => exact fun h1 => ⟨h1.1, (key h1.2).ge, (key h1.2).le⟩
    | diverge => exact False.elim
  | diverge =>
    cases y.res with
    | ok b => exact False.elim
    | panic => exact False.elim
    | diverge => exact id

/-- C98: the field that counts its calls, with any prices of the calls. -/
theorem C98_clock_field (B : FieldOps E) (w : Call → ℕ) :
    ChargesField (.clock (fun s => Call.total fun c => w c * s c) w w) (fun _ => True) Eq (meteredField B) B := by
  have h := C98_metered_field B
  constructor
  case inv => exact fun a => C98_clock_of_counters _ (h.inv a)
  case div => exact fun a b => C98_clock_of_counters _ (h.div a b)
  constructor
  case one => exact C98_clock_of_counters _ h.one
  case intOne => exact C98_clock_of_counters _ h.intOne
  case mul => exact fun a b => C98_clock_of_counters _ (h.mul a b)
  case mulAssign => exact fun a b => C98_clock_of_counters _ (h.mulAssign a b)
  case square => exact fun a => C98_clock_of_counters _ (h.square a)
  case tryInv => exact fun a => C98_clock_of_counters _ (h.tryInv a)
  constructor
  case neg => exact fun a => C98_clock_of_counters _ (h.neg a)
  case sub => exact fun a b => C98_clock_of_counters _ (h.sub a b)
  constructor
  case equals => exact fun a b => C98_clock_of_counters _ (h.equals a b)
  case zero => exact C98_clock_of_counters _ h.zero
  case isZero => exact fun a => C98_clock_of_counters _ (h.isZero a)
  case add => exact fun a b => C98_clock_of_counters _ (h.add a b)
  case addAssign => exact fun a b => C98_clock_of_counters _ (h.addAssign a b)
  case double => exact fun a => C98_clock_of_counters _ (h.double a)

/-- Each product takes five, each inverse fifty, everything else one: the product of two by two matrices takes at most 52. -/
example (B : FieldOps E) (v w : List E) := (C98_time_matrices (C98_clock_field B fun c => if c = .mul then 5 else if c = .inv then 50 else 1)
  2 (lrel_refl v) (lrel_refl w)).1

example (B : FieldOps E) (v w : List E) := C98_time_polynomials (C98_clock_field B fun c => if c = .mul then 5 else if c = .inv then 50 else 1)
  (lrel_refl v) (lrel_refl w)

/-! ## Towers -/

omit [Cfg] in
theorem compose_mono {k m : Call → ℕ} (h : ∀ c, k c ≤ m c) (cost : Call → Call → ℕ) (c : Call) : compose k cost c ≤ compose m cost c :=
  total_mono fun e => Nat.mul_le_mul_left _ (h e)

omit [Cfg] in
/-- Calls of the outermost base charged twice are charged to the composed costs. -/
theorem over_over {acc : Account σ} {cost cost' : Call → Call → ℕ} {k : Call → ℕ} {s t : σ}
    (h : ((acc.over cost).over cost').rel k s t) : ∃ m, (∀ c, m c ≤ compose (compose k cost') cost c) ∧ acc.rel m s t := by
  obtain ⟨m, hm, m', hm', h⟩ := h
  exact ⟨m', fun c => (hm' c).trans (compose_mono hm cost c), h⟩

omit [Cfg] in
theorem spends_of_bills {α : Type} {acc : Account (Call → ℕ)} {bound : (Call → ℕ) → Call → ℕ}
    (hacc : ∀ {k s t}, acc.rel k s t → ∃ m : Call → ℕ, (∀ c, m c ≤ bound k c) ∧ Account.counters.rel m s t)
    (hmono : ∀ {k m : Call → ℕ}, (∀ c, k c ≤ m c) → ∀ c, bound k c ≤ bound m c) {r : α → α → Prop} (hr : ∀ a b, r a b → a = b)
    {x : St (Call → ℕ) α} {y : Counted α} {k : Call → ℕ} (h : Charges acc (fun _ => True) r x y) (hk : Within y k) {z : Res α}
    (hz : y.res = z) : Spends x z (bound k) := by
  intro s
  have h1 := h s trivial
  rw [hz] at h1
  revert h1
  cases x s with
  | ok a t =>
    cases z with
    | ok b =>
      intro h1
      obtain ⟨m, hm, h2⟩ := hacc h1.2.2
      refine ⟨m, fun c => (hm c).trans (hmono hk c), ?_⟩
      rw [hr _ _ h1.1]
      exact congrArg _ (funext h2)
    | panic => exact False.elim
    | diverge => exact False.elim
  | panic t =>
    cases z with
    | ok b => exact False.elim
    | panic =>
      intro h1
      obtain ⟨m, hm, h2⟩ := hacc h1.2
      exact ⟨m, fun c => (hm c).trans (hmono hk c), congrArg Out.panic (funext h2)⟩
    | diverge => exact False.elim
  | diverge =>
    cases z with
    | ok b => exact False.elim
    | panic => exact False.elim
    | diverge => exact fun _ => ⟨fun _ => 0, fun _ => Nat.zero_le _, rfl⟩

omit [Cfg] in
theorem shortRel_eq {d : ℕ} {v w : List E} (h : ShortRel Eq d v w) : v = w := lrel_eq h.1

omit [Cfg] in
theorem forall2_eq {r : E → E → Prop} (hr : ∀ a b, r a b → a = b) {v w : List E} (h : LRel r v w) : v = w :=
  lrel_eq (List.Forall₂.imp hr h)

omit [Cfg] in
theorem short_refl {d : ℕ} {v : List E} (h : v.length ≤ d) : ShortRel Eq d v v := ⟨lrel_refl v, h⟩

omit [Cfg] in
theorem short_list {r : E → E → Prop} {v : List E} (h : ∀ a ∈ v, r a a) : LRel r v v := by
  induction v with
  | nil => exact .nil
  | cons a v ih => exact .cons (h a (List.mem_cons_self ..)) (ih fun b hb => h b (List.mem_cons_of_mem _ hb))

/-- C98: residues of polynomials over a field whose calls are charged to its state are again a field whose calls are charged to that state,
each call with the calls of `residueCost`; so the same holds for towers of any height. -/
theorem C98_tower {acc : Account σ} {I : σ → Prop} {r : E → F → Prop} {A : Stateful.FieldOps σ E} {B : FieldOps F}
    (hA : ChargesField acc I r A B) {f : List E} {f' : List F} (hf : LRel r f f') {d : ℕ} (hd : 1 ≤ d) (hl : f'.length = d + 1) :
    ChargesField (acc.over (residueCost d)) I (ShortRel r d)
      (Stateful.QuotientField.ops (Stateful.PolynomialAlgebra.euclidean A) f)
      (QuotientField.ops (PolynomialAlgebra.euclidean B) f') :=
  QuotientField.charges_tower hA hf hd hl

/-- C98: product, determinant and inverse of matrices of residues of polynomials: the counters of the field of coefficients. -/
theorem C98_matrices_over_residues (B : FieldOps E) {f : List E} {d : ℕ} (hd : 1 ≤ d) (hl : f.length = d + 1) (n : ℕ)
    {v w : List (List E)} (hv : ∀ a ∈ v, a.length ≤ d) (hw : ∀ a ∈ w, a.length ≤ d) :
    Spends ((Stateful.MatrixRing.ops (Stateful.QuotientField.ops (Stateful.PolynomialAlgebra.euclidean (meteredField B)) f) n).mul v w)
      ((MatrixRing.ops (QuotientField.ops (PolynomialAlgebra.euclidean B) f) n).mul v w)
      (compose (table [(.zero, n ^ 2), (.mul, n ^ 3), (.addAssign, n ^ 3)]) (residueCost d)) ∧
    Spends (Stateful.MatrixRing.determinant (Stateful.QuotientField.ops (Stateful.PolynomialAlgebra.euclidean (meteredField B)) f) n v)
      (MatrixRing.determinant (QuotientField.ops (PolynomialAlgebra.euclidean B) f) n v)
      (compose (table [(.one, 1), (.zero, 1), (.isZero, n ^ 2), (.inv, n), (.mulAssign, n * (n + 1)), (.neg, n * (n - 1) / 2),
        (.mul, n * (n * (n - 1) / 2)), (.addAssign, n * (n * (n - 1) / 2))]) (residueCost d)) ∧
    Spends ((Stateful.MatrixRing.ops (Stateful.QuotientField.ops (Stateful.PolynomialAlgebra.euclidean (meteredField B)) f) n).tryInv v)
      ((MatrixRing.ops (QuotientField.ops (PolynomialAlgebra.euclidean B) f) n).tryInv v)
      (compose (table [(.int, if Cfg.debugAssertions then 2 else 1), (.zero, if Cfg.debugAssertions then 2 else 1),
        (.equals, if Cfg.debugAssertions then n ^ 2 else 0), (.isZero, n * (n + 1) / 2 + n * (n - 1)), (.inv, n),
        (.mulAssign, 2 * n ^ 2), (.neg, n * (n - 1)), (.mul, 2 * n ^ 2 * (n - 1)), (.addAssign, 2 * n ^ 2 * (n - 1))]) (residueCost d)) := by
  have hA := C98_tower (C98_metered_field B) (lrel_refl f) hd hl
  have hv' : LRel (ShortRel Eq d) v v := short_list fun a ha => short_refl (hv a ha)
  have hw' : LRel (ShortRel Eq d) w w := short_list fun a ha => short_refl (hw a ha)
  have he : ∀ a b : List (List E), LRel (ShortRel Eq d) a b → a = b := fun _ _ => forall2_eq fun _ _ => shortRel_eq
  refine ⟨spends_of_bills (bound := fun k => compose k (residueCost d)) (fun h => h) (fun h => compose_mono h _) he
    (MatrixRing.charges_mul hA n hv' hw') (C93_matrix_mul _ n v w).1 (res_matMul _ n v w), ?_, ?_⟩
  · exact spends_of_bills (bound := fun k => compose k (residueCost d)) (fun h => h) (fun h => compose_mono h _) (fun _ _ => shortRel_eq)
      (MatrixRing.charges_determinant hA n hv') (C93_determinant _ n v).1 (res_determinant _ n v)
  · exact spends_of_bills (bound := fun k => compose k (residueCost d)) (fun h => h) (fun h => compose_mono h _) (fun _ _ => orel_eq he)
      (MatrixRing.charges_tryInv hA n hv') (C93_matrix_try_inv _ n v).1 (res_matTryInv _ n v)

omit [Cfg] in
/-- C98: in a product of matrices of residues, the coefficients are multiplied at most `n³ (2d² - d)` times and never divided more than
`n³ (d - 1)` times. -/
theorem C98_matrix_product_of_residues (n d : ℕ) :
    compose (table [(.zero, n ^ 2), (.mul, n ^ 3), (.addAssign, n ^ 3)]) (residueCost d) .mul = n ^ 3 * (2 * d ^ 2 - d) ∧
    compose (table [(.zero, n ^ 2), (.mul, n ^ 3), (.addAssign, n ^ 3)]) (residueCost d) .add = n ^ 3 * (2 * d ^ 2 - d) + n ^ 3 * d ∧
    compose (table [(.zero, n ^ 2), (.mul, n ^ 3), (.addAssign, n ^ 3)]) (residueCost d) .div = n ^ 3 * (d - 1) := by
  have e : d * d + (d - 1) * d = 2 * d ^ 2 - d := by
    rw [Nat.sub_mul, one_mul, pow_two]
    cases d with
    | zero => rfl
    | succ d =>
      have : d + 1 ≤ (d + 1) * (d + 1) := Nat.le_mul_of_pos_left _ (Nat.succ_pos _)
      omega
  rw [← e]
  refine ⟨?_, ?_, ?_⟩ <;> simp [compose, Call.total, Call.all, table, residueCost, residueMulCost] <;> ring

/-- C98: product and inverse in a tower of two extensions: the counters of the field below. -/
theorem C98_two_extensions (B : FieldOps E) {f : List E} {d : ℕ} (hd : 1 ≤ d) (hl : f.length = d + 1) {g : List (List E)} {e : ℕ}
    (hg : g.length = e + 1) (hg' : ∀ a ∈ g, a.length ≤ d) {v w : List (List E)} (hv : v.length ≤ e) (hw : w.length ≤ e)
    (hv' : ∀ a ∈ v, a.length ≤ d) (hw' : ∀ a ∈ w, a.length ≤ d) :
    Spends ((Stateful.QuotientField.ops (Stateful.PolynomialAlgebra.euclidean (Stateful.QuotientField.ops
        (Stateful.PolynomialAlgebra.euclidean (meteredField B)) f)) g).mul v w)
      ((QuotientField.ops (PolynomialAlgebra.euclidean (QuotientField.ops (PolynomialAlgebra.euclidean B) f)) g).mul v w)
      (compose (residueMulCost e) (residueCost d)) ∧
    Spends ((Stateful.QuotientField.ops (Stateful.PolynomialAlgebra.euclidean (Stateful.QuotientField.ops
        (Stateful.PolynomialAlgebra.euclidean (meteredField B)) f)) g).inv v)
      ((QuotientField.ops (PolynomialAlgebra.euclidean (QuotientField.ops (PolynomialAlgebra.euclidean B) f)) g).inv v)
      (compose (residueInvCost e) (residueCost d)) := by
  have hA := C98_tower (C98_metered_field B) (lrel_refl f) hd hl
  have h1 : LRel (ShortRel Eq d) v v := short_list fun a ha => short_refl (hv' a ha)
  have h2 : LRel (ShortRel Eq d) w w := short_list fun a ha => short_refl (hw' a ha)
  have h3 : LRel (ShortRel Eq d) g g := short_list fun a ha => short_refl (hg' a ha)
  have hq : ∀ a b : List (List E), LRel (ShortRel Eq d) a b → a = b := fun _ _ => forall2_eq fun _ _ => shortRel_eq
  exact ⟨spends_of_bills (bound := fun k => compose k (residueCost d)) (fun h => h) (fun h => compose_mono h _) hq
      (QuotientField.charges_mul hA h3 h1 h2) (within_residueMul _ hg hv hw) (res_residueMul _ g v w),
    spends_of_bills (bound := fun k => compose k (residueCost d)) (fun h => h) (fun h => compose_mono h _) hq
      (QuotientField.charges_inv hA h3 h1) (within_residueInv _ hg hv) (res_residueInv _ g v)⟩

/-- C98: a determinant of residues in a tower of two extensions. -/
theorem C98_determinant_over_two_extensions (B : FieldOps E) {f : List E} {d : ℕ} (hd : 1 ≤ d) (hl : f.length = d + 1)
    {g : List (List E)} {e : ℕ} (he : 1 ≤ e) (hg : g.length = e + 1) (hg' : ∀ a ∈ g, a.length ≤ d) (n : ℕ) {v : List (List (List E))}
    (hv : ∀ a ∈ v, a.length ≤ e) (hv' : ∀ a ∈ v, ∀ b ∈ a, b.length ≤ d) :
    Spends (Stateful.MatrixRing.determinant (Stateful.QuotientField.ops (Stateful.PolynomialAlgebra.euclidean (Stateful.QuotientField.ops
        (Stateful.PolynomialAlgebra.euclidean (meteredField B)) f)) g) n v)
      (MatrixRing.determinant (QuotientField.ops (PolynomialAlgebra.euclidean (QuotientField.ops (PolynomialAlgebra.euclidean B) f)) g) n v)
      (compose (compose (table [(.one, 1), (.zero, 1), (.isZero, n ^ 2), (.inv, n), (.mulAssign, n * (n + 1)), (.neg, n * (n - 1) / 2),
        (.mul, n * (n * (n - 1) / 2)), (.addAssign, n * (n * (n - 1) / 2))]) (residueCost e)) (residueCost d)) := by
  have hg3 : LRel (ShortRel Eq d) g g := short_list fun a ha => short_refl (hg' a ha)
  have hA := C98_tower (C98_tower (C98_metered_field B) (lrel_refl f) hd hl) hg3 he hg
  have h1 : LRel (ShortRel (ShortRel Eq d) e) v v :=
    short_list fun a ha => ⟨short_list fun b hb => short_refl (hv' a ha b hb), hv a ha⟩
  exact spends_of_bills (bound := fun k => compose (compose k (residueCost e)) (residueCost d)) over_over
    (fun h => compose_mono (compose_mono h _) _) (fun _ _ h => forall2_eq (fun _ _ => shortRel_eq) h.1)
    (MatrixRing.charges_determinant hA n h1) (C93_determinant _ n v).1 (res_determinant _ n v)

end

section
local instance : Cfg := ⟨true, true, 64, by decide⟩

/-- A determinant of order two over the field of four elements: the counters of the two-element field below. -/
example : ∃ m : Call → ℕ, m .mul ≤ 104 ∧
    Stateful.MatrixRing.determinant (Stateful.QuotientField.ops (Stateful.PolynomialAlgebra.euclidean
      (meteredField TwoElementAlgebra.field)) [true, true, true]) 2 [[false, true], [true], [true], [true, true]] (fun _ => 0) =
    .of (MatrixRing.determinant (QuotientField.ops (PolynomialAlgebra.euclidean TwoElementAlgebra.field) [true, true, true]) 2
      [[false, true], [true], [true], [true, true]]) (fun c => 0 + m c) := by
  obtain ⟨m, hm, h⟩ := (C98_matrices_over_residues TwoElementAlgebra.field (f := [true, true, true]) (d := 2) (by decide) rfl 2
    (v := [[false, true], [true], [true], [true, true]]) (w := []) (by decide) (by decide)).2.1 fun _ => 0
  exact ⟨m, (hm .mul).trans (by decide +kernel), h⟩

/-- The field of four elements, and over it a quadratic extension: a product there. -/
example : ∃ m : Call → ℕ, m .mul ≤ 36 + 1 * 29 * 2 ∧
    (Stateful.QuotientField.ops (Stateful.PolynomialAlgebra.euclidean (Stateful.QuotientField.ops (Stateful.PolynomialAlgebra.euclidean
      (meteredField TwoElementAlgebra.field)) [true, true, true])) [[false, true], [true], [true]]).mul [[true], [true]] [[false, true], [true]]
      (fun _ => 0) =
    .of ((QuotientField.ops (PolynomialAlgebra.euclidean (QuotientField.ops (PolynomialAlgebra.euclidean TwoElementAlgebra.field)
      [true, true, true])) [[false, true], [true], [true]]).mul [[true], [true]] [[false, true], [true]]) (fun c => 0 + m c) := by
  obtain ⟨m, hm, h⟩ := (C98_two_extensions TwoElementAlgebra.field (f := [true, true, true]) (d := 2) (by decide) rfl
    (g := [[false, true], [true], [true]]) (e := 2) rfl (by decide) (v := [[true], [true]]) (w := [[false, true], [true]])
    (by decide) (by decide) (by decide) (by decide)).1 fun _ => 0
  exact ⟨m, (hm .mul).trans (by decide +kernel), h⟩

end

end Abstalg
