import Verif.Props.Quotient
import Verif.Props.Fractions
import Verif.Props.Traits

/-!
# C60: operands that are not in reduced form

The contracts of quotients and fractions speak about members, which are reduced. Here the operands are arbitrary members of the
base: the arithmetic methods reduce their result, the comparisons do not reduce their operands.
-/

set_option autoImplicit false

universe u v

namespace Abstalg

/-- A computation that goes on to panic after a terminating one panics. -/
theorem Returns.bind_panics {α β : Type} {mp : Prop} {c : Res α} {P : α → Prop} {f : α → Res β}
    (hc : Returns mp c P) (hf : ∀ a, P a → f a = .panic) : (c >>= f) = .panic := by
  cases c with
  | ok a => exact hf a hc
  | panic => rfl
  | diverge => exact hc.elim

section quotient

variable [Cfg] {E : Type} {R : Type u} [EuclideanDomain R] [CanonicalRem R] [NormalizationMonoid R]
  {mp : Prop} {rep : E → R → Prop} {base : EuclideanDomainOps E} {modulo : E} {μ : R}

/-- C60: the arithmetic methods of `QuotientRing` on base members that need not be reduced. -/
theorem C60_quotient_ring {S : Type v} [CommRing S] {φ : R →+* S} (hφ : IsFactor φ μ)
    (h : EuclideanSpec mp base rep) (hm : rep modulo μ) (h0 : μ ≠ 0)
    {a b : E} {x y : R} (ha : rep a x) (hb : rep b y) :
    let A := QuotientRing.ops base modulo
    Returns mp (A.add a b) (ResidueRep rep φ μ · (φ x + φ y)) ∧
    Returns mp (A.mul a b) (ResidueRep rep φ μ · (φ x * φ y)) ∧
    Returns mp (A.neg a) (ResidueRep rep φ μ · (-φ x)) ∧
    Returns mp (A.sub a b) (ResidueRep rep φ μ · (φ x - φ y)) ∧
    (Returns mp (A.tryInv a) fun
      | some c => ∃ t, ResidueRep rep φ μ c t ∧ φ x * t = 1
      | none => ¬ IsUnit (φ x)) := by
  have hred : ∀ {c : E} {z : R}, rep c z →
      Returns mp (base.rem c modulo) (ResidueRep rep φ μ · (φ z)) := fun hc =>
    (h.rem hc hm h0).mono fun _ hd => ⟨_, hd, mod_div_eq_zero h0 _, hφ.mod _⟩
  refine ⟨?_, ?_, ?_, ?_, ?_⟩
  · rw [← map_add]
    exact Returns.bind (h.add ha hb) fun _ hc => hred hc
  · rw [← map_mul]
    exact Returns.bind (h.mul ha hb) fun _ hc => hred hc
  · rw [← map_neg]
    exact Returns.bind (h.neg ha) fun _ hc => hred hc
  · refine Returns.bind (Returns.bind (h.neg hb) fun _ hc => hred hc) fun c hc => ?_
    obtain ⟨z, hz, _, hz'⟩ := hc
    rw [sub_eq_neg_add, ← map_neg, ← hz', ← map_add]
    exact Returns.bind (h.add hz ha) fun _ hc => hred hc
  · have hr := h.residue hm h0
    refine (QuotientRing.tryInv_eq base modulo a) ▸ ?_
    refine Returns.bind (h.extendedGcd hm ha) fun c hc => ?_
    obtain ⟨cg, cs, ct⟩ := c
    obtain ⟨g, s, t, h1, _, h3, h4, h5⟩ := hc
    refine Returns.bind (h.tryInv h1) fun o ho => ?_
    cases o with
    | none => exact fun hu => ho ((isUnit_gcd_iff h5).2 ((hφ.isUnit_iff x).1 hu))
    | some u =>
      obtain ⟨v, hv, hgv, _⟩ := ho
      refine Returns.bind (Returns.bind (h.mul hv h3) fun _ hc => hred hc) fun b hb => ?_
      refine ⟨_, hb, ?_⟩
      rw [← map_mul, ← map_one φ]
      exact (hφ.eq_iff _ _).2 ⟨-(v * s), by linear_combination v * h4 + hgv⟩

/-- Modulo 12, the sum of 25 and 100, and the inverse of 65. -/
example : (QuotientRing.ops Integers.euclidean 12).add 25 100 = .ok 5 ∧
    (QuotientRing.ops Integers.euclidean 12).mul (-5) 100 = .ok 4 ∧
    (QuotientRing.ops Integers.euclidean 12).neg 100 = .ok 8 := ⟨rfl, rfl, rfl⟩

omit [CanonicalRem R] in
/-- C60: `equals`, `is_zero` and `is_one` compare the objects and do not reduce them. -/
theorem C60_quotient_equals (h : EuclideanSpec mp base rep)
    {a b : E} {x y : R} (ha : rep a x) (hb : rep b y) :
    Decides mp ((QuotientRing.ops base modulo).equals a b) (x = y) ∧
    Decides mp ((QuotientRing.ops base modulo).isZero a) (x = 0) ∧
    Decides mp ((QuotientRing.ops base modulo).isOne a) (x = 1) :=
  ⟨h.equals ha hb, Returns.bind h.zero fun _ hz => h.equals ha hz, h.isOne ha⟩

example : (QuotientRing.ops Integers.euclidean 12).equals 1 13 = .ok false ∧
    (QuotientRing.ops Integers.euclidean 12).isZero 12 = .ok false := ⟨rfl, rfl⟩

/-- C60: in a quotient field a non-zero multiple of the modulus is taken for invertible, but `inv` and
`try_inv` panic on it; on all other base members they return the inverse of the class. -/
theorem C60_quotient_field {S : Type v} [Field S] {φ : R →+* S} (hφ : IsFactor φ μ)
    (h : EuclideanSpec mp base rep) (hm : rep modulo μ) (h0 : μ ≠ 0)
    {a : E} {x : R} (ha : rep a x) :
    let A := QuotientField.ops base modulo
    Decides mp (A.invertible a) (x ≠ 0) ∧
    (φ x ≠ 0 → Returns mp (A.inv a) (ResidueRep rep φ μ · (φ x)⁻¹)) ∧
    (φ x = 0 → A.inv a = .panic) ∧
    (φ x = 0 → x ≠ 0 → A.tryInv a = .panic) := by
  have hz : Decides mp (QuotientField.isZero base modulo a) (x = 0) :=
    Returns.bind h.zero fun _ hz => h.equals ha hz
  have ht := (C60_quotient_ring hφ h hm h0 ha ha).2.2.2.2
  have hp : φ x = 0 → QuotientField.inv base modulo a = .panic := by
    intro hx
    rw [QuotientField.inv_eq]
    refine Returns.bind_panics hz fun z _ => ?_
    cases z with
    | true => rfl
    | false =>
      simp only [Bool.not_false, assert_true, ok_bind]
      refine Returns.bind_panics ht fun o ho => ?_
      cases o with
      | none => rfl
      | some c =>
        obtain ⟨t, _, h1⟩ := ho
        rw [hx, zero_mul] at h1
        exact absurd h1 zero_ne_one
  refine ⟨Decides.not hz, fun hx => ?_, fun hx => ?_, fun hx hx0 => ?_⟩
  · show Returns mp (QuotientField.inv base modulo a) _
    rw [QuotientField.inv_eq]
    refine Decides.assertNot hz (fun hx' => hx (by rw [hx', map_zero])) ?_
    refine Returns.bind ht fun o ho => ?_
    cases o with
    | none => exact (ho (IsUnit.mk0 _ hx)).elim
    | some b =>
      obtain ⟨t, ht, h1⟩ := ho
      rw [eq_inv_of_mul_eq_one_right h1] at ht
      exact ht
  · exact hp hx
  · refine Returns.bind_panics hz fun z hz' => ?_
    cases z with
    | true => exact absurd (hz'.1 rfl) hx0
    | false =>
      show (QuotientField.inv base modulo a >>= _) = _
      rw [hp hx]
      rfl

/-- Modulo 7, the object 14 denotes zero, but only 0 itself is recognised. -/
example [Fact (Nat.Prime 7)] : (QuotientField.ops Integers.euclidean 7).invertible 14 = .ok true ∧
    (QuotientField.ops Integers.euclidean 7).inv 14 = .panic ∧
    (QuotientField.ops Integers.euclidean 7).tryInv 14 = .panic ∧
    (QuotientField.ops Integers.euclidean 7).tryInv 0 = .ok none := by
  have h0 : (Int.castRingHom (ZMod 7)) 14 = 0 := by
    exact ((zmod_isFactor 7).ker 14).2 (by decide)
  have h := C60_quotient_field (zmod_isFactor 7) Integers.euclidean_spec (show ZRep 7 ((7 : ℕ) : ℤ) from rfl)
    (by decide) (show ZRep 14 14 from rfl)
  exact ⟨rfl, h.2.2.1 h0, h.2.2.2 h0 (by decide), rfl⟩

end quotient

section fractions

variable [Cfg] {E : Type} {R : Type u} [EuclideanDomain R] [NormalizationMonoid R] {K : Type v}
  [Field K] [Algebra R K] [IsFractionRing R K] {mp : Prop} {rep : E → R → Prop}
  {base : EuclideanDomainOps E}

/-- C60: the methods of `ReducedFractions` that reduce their result do so for all fractions of base members with
non-zero denominators, in lowest terms or not. -/
theorem C60_fractions (h : EuclideanSpec mp base rep) {a b c d : E} {x y z w : R}
    (ha : rep a x) (hb : rep b y) (hy : y ≠ 0) (hc : rep c z) (hd : rep d w) (hw : w ≠ 0)
    (n : ℤ) (hn : n ≠ isizeMin) :
    let A := ReducedFractions.ops base
    let p := algebraMap R K x / algebraMap R K y
    let q := algebraMap R K z / algebraMap R K w
    Returns mp (A.add (a, b) (c, d)) (FracRep rep · (p + q)) ∧
    Returns mp (A.mul (a, b) (c, d)) (FracRep rep · (p * q)) ∧
    Returns mp (A.sub (a, b) (c, d)) (FracRep rep · (p - q)) ∧
    Returns mp (A.times n (a, b)) (FracRep rep · (n • p)) ∧
    (x ≠ 0 → Returns mp (A.tryInv (a, b)) fun o => ∃ e, o = some e ∧ FracRep rep e p⁻¹) := by
  have hadd : ∀ {a b c d : E} {x y z w : R}, rep a x → rep b y → y ≠ 0 → rep c z → rep d w → w ≠ 0 →
      Returns mp ((ReducedFractions.ops base).add (a, b) (c, d)) (FracRep rep ·
        (algebraMap R K x / algebraMap R K y + algebraMap R K z / algebraMap R K w)) := by
    intro a b c d x y z w ha hb hy hc hd hw
    refine Decides.ite (h.equals hb hd) ?_ ?_
    · rintro rfl
      refine Returns.bind (h.add ha hc) fun n hn => ?_
      rw [← add_div, ← map_add]
      exact ReducedFractions.reduce_spec h hn hb hy
    · intro _
      refine Returns.bind (h.mul ha hd) fun _ h1 => Returns.bind (h.mul hb hc) fun _ h2 =>
        Returns.bind (h.add h1 h2) fun n hn => Returns.bind (h.mul hb hd) fun m hm => ?_
      rw [div_add_div _ _ (ReducedFractions.map_ne_zero hy) (ReducedFractions.map_ne_zero hw), ← map_mul, ← map_mul, ← map_mul,
        ← map_add]
      exact ReducedFractions.reduce_spec h hn hm (mul_ne_zero hy hw)
  refine ⟨hadd ha hb hy hc hd hw, ?_, ?_, ?_, fun hx => ?_⟩
  · refine Returns.bind (h.mul ha hc) fun n hn => Returns.bind (h.mul hb hd) fun m hm => ?_
    rw [div_mul_div_comm, ← map_mul, ← map_mul]
    exact ReducedFractions.reduce_spec h hn hm (mul_ne_zero hy hw)
  · show Returns mp ((base.neg c >>= fun e => pure (e, d)) >>= fun e =>
      (ReducedFractions.ops base).add e (a, b)) _
    refine Returns.bind (P := fun e => rep e.1 (-z) ∧ e.2 = d)
      (Returns.bind (h.neg hc) fun e he => ⟨he, rfl⟩) fun e he => ?_
    obtain ⟨e1, e2⟩ := e
    obtain ⟨he, rfl⟩ := he
    have := hadd he hd hw ha hb hy
    rw [map_neg, neg_div, neg_add_eq_sub] at this
    exact this
  · refine Returns.bind (h.times n hn ha) fun m hm => ?_
    rw [← smul_div_assoc, ← map_zsmul]
    exact ReducedFractions.reduce_spec h hm hb hy
  · refine Decides.bind (Decides.not (h.isZero ha)) (fun _ => ?_) fun hx' => absurd hx hx'
    refine Returns.bind (ReducedFractions.reduce_spec (K := K) h hb ha hx) fun e he => ⟨e, rfl, ?_⟩
    rw [inv_div]
    exact he

/-- `2/4` and `3/6` meet the hypotheses. -/
example : EuclideanSpec False Integers.euclidean ZRep ∧ ZRep 2 2 ∧ ZRep 4 4 ∧ ZRep 3 3 ∧ ZRep 6 6 ∧
    algebraMap ℤ ℚ 2 / algebraMap ℤ ℚ 4 + algebraMap ℤ ℚ 3 / algebraMap ℤ ℚ 6 = 1 :=
  ⟨Integers.euclidean_spec, rfl, rfl, rfl, rfl, by norm_num⟩

/-- C60: `equals` compares numerators and denominators, `neg` and `inv` keep common factors. -/
theorem C60_fractions_equals (h : EuclideanSpec mp base rep) {a b c d : E} {x y z w : R}
    (ha : rep a x) (hb : rep b y) (hc : rep c z) (hd : rep d w) :
    Decides mp ((ReducedFractions.ops base).equals (a, b) (c, d)) (x = z ∧ y = w) ∧
    (Returns mp ((ReducedFractions.ops base).neg (a, b)) fun e => rep e.1 (-x) ∧ e.2 = b) ∧
    (x ≠ 0 → Returns mp ((ReducedFractions.ops base).inv (a, b)) fun e => ∃ u : Rˣ,
      rep e.1 (y * u) ∧ rep e.2 (normalize x) ∧ x * u = normalize x) := by
  refine ⟨Decides.and (h.equals ha hc) fun _ => h.equals hb hd,
    Returns.bind (h.neg ha) fun e he => ⟨he, rfl⟩, fun hx => ?_⟩
  refine Decides.assertNot (h.isZero ha) hx ?_
  refine Returns.bind (h.associateCoef ha hx) fun e he => ?_
  refine Decides.bind (h.isOne he) (fun h1 => ?_) fun _ => ?_
  · exact ⟨normUnit x, by rw [h1, mul_one]; exact hb, by rw [normalize_apply, h1, mul_one]; exact ha,
      (normalize_apply x).symm⟩
  · exact Returns.bind (h.mul hb he) fun _ h1 => Returns.bind (h.mul ha he) fun _ h2 =>
      ⟨normUnit x, h1, by rw [normalize_apply]; exact h2, (normalize_apply x).symm⟩

/-- The halves 2/4 and 1/2 are different objects for `equals`, and the inverse of -2/4 is 4/2 with the
sign in the numerator. -/
example : ReducedFractions.QQ.equals (2, 4) (1, 2) = .ok false ∧
    ReducedFractions.QQ.inv (-2, 4) = .ok (-4, 2) ∧ ReducedFractions.QQ.neg (2, 4) = .ok (-2, 4) :=
  ⟨rfl, rfl, rfl⟩

end fractions

section concrete

variable [Cfg]

/-- C60 for the integers modulo `m`. -/
theorem C60_integers (m : ℕ) (hm : m ≠ 0) (a b : ℤ) :
    let A := QuotientRing.ops Integers.euclidean (m : ℤ)
    A.add a b = .ok ((a + b) % m) ∧ A.mul a b = .ok (a * b % m) ∧ A.neg a = .ok (-a % m) ∧
    A.sub a b = .ok ((a - b) % m) := by
  have hm' : (m : ℤ) ≠ 0 := by exact_mod_cast hm
  have key : ∀ {c : Res ℤ} {u : ℤ} {s : ZMod m}, (u : ZMod m) = s →
      Returns False c (ResidueRep ZRep (Int.castRingHom (ZMod m)) (m : ℤ) · s) →
      c = .ok (u % m) := by
    intro c u s hs hc
    obtain ⟨e, rfl, x, rfl, hx, hx'⟩ := returns_false_iff.1 hc
    rw [← hs] at hx'
    have h2 := (ZMod.intCast_eq_intCast_iff' _ _ _).1 hx'
    rw [← h2, eq_mod_of_div_eq_zero (μ := (m : ℤ)) hx]
  obtain ⟨h1, h2, h3, h4, _⟩ := C60_quotient_ring (zmod_isFactor m) Integers.euclidean_spec
    (show ZRep (m : ℤ) m from rfl) hm' (show ZRep a a from rfl) (show ZRep b b from rfl)
  exact ⟨key (by simp) h1, key (by simp) h2, key (by simp) h3, key (by simp) h4⟩

example : (QuotientRing.ops Integers.euclidean 12).sub 25 (-100) = .ok 5 :=
  (C60_integers 12 (by decide) 25 (-100)).2.2.2

/-- C60 for the rationals: sum, product and difference of arbitrary ratios are in lowest terms. -/
theorem C60_rationals (a b c d : ℤ) (hb : b ≠ 0) (hd : d ≠ 0) :
    let A := ReducedFractions.QQ
    A.add (a, b) (c, d) = .ok (((a / b + c / d : ℚ)).num, ((a / b + c / d : ℚ)).den) ∧
    A.mul (a, b) (c, d) = .ok (((a / b * (c / d) : ℚ)).num, ((a / b * (c / d) : ℚ)).den) ∧
    A.sub (a, b) (c, d) = .ok (((a / b - c / d : ℚ)).num, ((a / b - c / d : ℚ)).den) := by
  have key : ∀ {r : Res (ℤ × ℤ)} {q : ℚ}, Returns False r (FracRep ZRep · q) →
      r = .ok (q.num, (q.den : ℤ)) := by
    intro r q hr
    obtain ⟨e, rfl, he⟩ := returns_false_iff.1 hr
    have := (fracRep_int (fun x => x) e q).1 he
    rw [← this.1, ← this.2]
  obtain ⟨h1, h2, h3, _⟩ := C60_fractions (K := ℚ) Integers.euclidean_spec (show ZRep a a from rfl)
    (show ZRep b b from rfl) hb (show ZRep c c from rfl) (show ZRep d d from rfl) hd 0
    (by have := isizeMin_neg; omega)
  exact ⟨key h1, key h2, key h3⟩

/-- The sum of 2/4 and 2/4 is 1/1. -/
example : ReducedFractions.QQ.add (2, 4) (2, 4) = .ok (1, 1) := by
  rw [(C60_rationals 2 4 2 4 (by decide) (by decide)).1]
  have h : ((2 : ℤ) / (4 : ℤ) + (2 : ℤ) / (4 : ℤ) : ℚ) = 1 := by norm_num
  rw [h]
  rfl

end concrete

end Abstalg
