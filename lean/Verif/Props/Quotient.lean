import Verif.Proofs.QuotientInts
import Verif.Proofs.Integers
import Verif.Model.PolynomialAlgebra
import Verif.Model.TwoElementAlgebra
import Mathlib.RingTheory.Ideal.Quotient.Operations
import Mathlib.RingTheory.PrincipalIdealDomain
import Mathlib.RingTheory.Int.Basic
import Mathlib.Tactic.NormNum.Prime

/-! # Quotient rings and fields: C18-C24 -/

set_option linter.unusedSectionVars false

set_option autoImplicit false

universe u v

namespace Abstalg

section

variable [Cfg] {E : Type} {R : Type u} [EuclideanDomain R] [NormalizationMonoid R]
  {mp : Prop} {rep : E → R → Prop} {base : EuclideanDomainOps E} {modulo : E} {μ : R}

/-- Mathlib's factor ring is a factor ring in the sense of `IsFactor`. -/
theorem mk_isFactor (μ : R) : IsFactor (Ideal.Quotient.mk (Ideal.span {μ})) μ where
  surjective := Ideal.Quotient.mk_surjective
  ker := fun x => by rw [Ideal.Quotient.eq_zero_iff_mem, Ideal.mem_span_singleton]

section ring

variable [CanonicalRem R]

/-- C18: `QuotientRing::new` returns an implementation of the factor ring. -/
theorem C18_quotient_ring (h : EuclideanSpec mp base rep) (hm : rep modulo μ) (h0 : μ ≠ 0)
    (hu : ¬ IsUnit μ) :
    Returns mp (QuotientRing.new base modulo) fun A =>
      UnitaryRingSpec mp A fun e (s : R ⧸ Ideal.span {μ}) =>
        ∃ x, rep e x ∧ x / μ = 0 ∧ Ideal.Quotient.mk _ x = s :=
  Returns.bind (h.contains hm) fun b hb => by
    obtain rfl : b = true := hb
    exact QuotientRing.spec (h.residue hm h0) (mk_isFactor μ) h0 hu

/-- The integers modulo 12 meet the hypotheses; the class of -1 is represented by 11. -/
example : EuclideanSpec False Integers.euclidean ZRep ∧ ZRep 12 12 ∧ (12 : ℤ) ≠ 0 ∧
    ¬ IsUnit (12 : ℤ) ∧ ∃ x, ZRep 11 x ∧ x / 12 = 0 ∧
      Ideal.Quotient.mk (Ideal.span {(12 : ℤ)}) x = Ideal.Quotient.mk _ (-1) :=
  ⟨Integers.euclidean_spec, rfl, by decide, by decide, 11, rfl, by decide,
    Ideal.Quotient.eq.2 (Ideal.mem_span_singleton.2 ⟨1, by decide⟩)⟩

/-- C18: the same for any presentation of the factor ring, such as `ZMod n`. -/
theorem C18_quotient_ring_any {S : Type v} [CommRing S] {φ : R →+* S} (hφ : IsFactor φ μ)
    (h : EuclideanSpec mp base rep) (hm : rep modulo μ) (h0 : μ ≠ 0) (hu : ¬ IsUnit μ) :
    UnitaryRingSpec mp (QuotientRing.ops base modulo) (ResidueRep rep φ μ) :=
  QuotientRing.spec (h.residue hm h0) hφ h0 hu

/-- The reduction of integers modulo 12 is such a presentation. -/
example : IsFactor (Int.castRingHom (ZMod 12)) (12 : ℤ) := zmod_isFactor 12

/-- C18: every residue class has a member, and only one up to `equals`. -/
theorem C18_unique_member (h : EuclideanSpec False base rep) (hm : rep modulo μ) (h0 : μ ≠ 0)
    (hall : ∀ x, ∃ e, rep e x) (x : R) :
    (∃ e y, rep e y ∧ μ ∣ x - y ∧ (QuotientRing.ops base modulo).contains e = .ok true) ∧
    (∀ e e' y y', rep e y → rep e' y' → μ ∣ x - y → μ ∣ x - y' →
      (QuotientRing.ops base modulo).contains e = .ok true →
      (QuotientRing.ops base modulo).contains e' = .ok true →
      y = y' ∧ (QuotientRing.ops base modulo).equals e e' = .ok true) := by
  have hc : ∀ {e y}, rep e y →
      ((QuotientRing.ops base modulo).contains e = .ok true ↔ y / μ = 0) := by
    intro e y he
    obtain ⟨b, hb, hb'⟩ := returns_false_iff.1 ((h.residue hm h0).reduced he)
    show base.reduced e modulo = _ ↔ _
    rw [hb, ← hb']
    simp
  constructor
  · obtain ⟨e, he⟩ := hall (x % μ)
    refine ⟨e, x % μ, he, ?_, (hc he).2 (mod_div_eq_zero h0 x)⟩
    rw [← neg_sub]
    exact (dvd_neg.2 (dvd_mod_sub x μ))
  · intro e e' y y' he he' hy hy' h1 h2
    rw [hc he] at h1
    rw [hc he'] at h2
    have : y = y' := eq_of_reduced h0 h1 h2 (by
      have := dvd_sub hy' hy
      rwa [sub_sub_sub_cancel_left] at this)
    refine ⟨this, ?_⟩
    obtain ⟨b, hb, hb'⟩ := returns_false_iff.1 (h.equals he he')
    rw [hb'.2 this] at hb
    exact hb

/-- Modulo 12, both 5 and 17 denote the class of -7, but only 5 is a member. -/
example : (12 : ℤ) ∣ -7 - 5 ∧ (12 : ℤ) ∣ -7 - 17 ∧
    (QuotientRing.ops Integers.euclidean 12).contains 5 = .ok true ∧
    (QuotientRing.ops Integers.euclidean 12).contains 17 = .ok false ∧
    (QuotientRing.ops Integers.euclidean 12).contains (-7) = .ok false := by
  refine ⟨by decide, by decide, rfl, rfl, rfl⟩

/-- C19: `try_inv` finds an inverse whenever there is one, and only then. -/
theorem C19_quotient_try_inv (h : EuclideanSpec mp base rep) (hm : rep modulo μ) (h0 : μ ≠ 0)
    {a : E} {x : R} (ha : rep a x) (hx : x / μ = 0) :
    (Returns mp ((QuotientRing.ops base modulo).tryInv a) fun
      | some b => ∃ y, rep b y ∧ y / μ = 0 ∧ μ ∣ x * y - 1
      | none => ¬ ∃ y, μ ∣ x * y - 1) ∧
    Decides mp ((QuotientRing.ops base modulo).invertible a) (∃ y, μ ∣ x * y - 1) := by
  have key : Returns mp ((QuotientRing.ops base modulo).tryInv a) fun
      | some b => ∃ y, rep b y ∧ y / μ = 0 ∧ μ ∣ x * y - 1
      | none => ¬ ∃ y, μ ∣ x * y - 1 := by
    refine ((h.residue hm h0).tryInv ha hx).mono fun o ho => ?_
    cases o with
    | some b => exact ho
    | none =>
      rintro ⟨y, k, hk⟩
      exact ho ⟨-k, y, by linear_combination hk⟩
  refine ⟨key, Returns.bind key fun o ho => ?_⟩
  cases o with
  | some b => obtain ⟨y, _, _, h⟩ := ho; exact ⟨fun _ => ⟨y, h⟩, fun _ => rfl⟩
  | none => exact ⟨fun h => (by cases h), fun h => (ho h).elim⟩

/-- Modulo 12, five is its own inverse and eight has none. -/
example : (QuotientRing.ops Integers.euclidean 12).invertible 5 = .ok true ∧
    (QuotientRing.ops Integers.euclidean 12).invertible 8 = .ok false ∧
    (QuotientRing.ops Integers.euclidean 12).tryInv 8 = .ok none := by
  have h8 : ¬ ∃ y : ℤ, 12 ∣ 8 * y - 1 := by rintro ⟨y, h⟩; omega
  obtain ⟨b, hb, h⟩ := returns_false_iff.1 (C19_quotient_try_inv Integers.euclidean_spec
    (show ZRep 12 12 from rfl) (by decide) (show ZRep 5 5 from rfl) (by decide)).2
  obtain ⟨h1, h2⟩ := C19_quotient_try_inv Integers.euclidean_spec
    (show ZRep 12 12 from rfl) (by decide) (show ZRep 8 8 from rfl) (by decide)
  obtain ⟨c, hc, h'⟩ := returns_false_iff.1 h2
  obtain ⟨o, ho, ho'⟩ := returns_false_iff.1 h1
  rw [hb, hc, ho, h.2 ⟨5, by decide⟩]
  refine ⟨rfl, ?_, ?_⟩
  · cases c with
    | false => rfl
    | true => exact (h8 (h'.1 rfl)).elim
  · cases o with
    | none => rfl
    | some y =>
      obtain ⟨z, -, -, hz⟩ := ho'
      exact (h8 ⟨z, hz⟩).elim

/-- C20: a zero modulus is accepted, and then addition, multiplication and negation panic. -/
theorem C20_zero_modulus (h : EuclideanSpec mp base rep) (hm : rep modulo 0) :
    Returns mp (QuotientRing.new base modulo) (fun A => ∀ {a b x y}, rep a x → rep b y →
      A.add a b = .panic ∧ A.mul a b = .panic ∧ A.neg a = .panic) := by
  refine Returns.bind (h.contains hm) fun b hb => ?_
  obtain rfl : b = true := hb
  have key : ∀ {c : Res E} {z : R}, Returns mp c (rep · z) →
      (c >>= fun e => base.rem e modulo) = .panic := by
    intro c z hc
    cases c with
    | ok e => exact h.rem_zero hc hm
    | panic => rfl
    | diverge => exact hc.elim
  intro a b x y ha hb'
  exact ⟨key (h.add ha hb'), key (h.mul ha hb'), key (h.neg ha)⟩

/-- The integers modulo zero. -/
example : (QuotientRing.ops Integers.euclidean 0).add 2 3 = .panic ∧
    (QuotientRing.ops Integers.euclidean 0).mul 2 3 = .panic ∧
    (QuotientRing.ops Integers.euclidean 0).neg 2 = .panic :=
  ⟨rfl, rfl, rfl⟩

/-- C20: a unit modulus is accepted, and then `one` is not a member. -/
theorem C20_unit_modulus (h : EuclideanSpec False base rep) (hm : rep modulo μ) (hu : IsUnit μ) :
    ∃ A o, QuotientRing.new base modulo = .ok A ∧ A.one = .ok o ∧ A.contains o = .ok false := by
  have h0 : μ ≠ 0 := hu.ne_zero
  obtain ⟨b, hb, rfl⟩ := returns_false_iff.1 (h.contains hm)
  obtain ⟨o, ho, ho'⟩ := returns_false_iff.1 h.one
  obtain ⟨c, hc, hc'⟩ := returns_false_iff.1 ((h.residue hm h0).reduced ho')
  refine ⟨QuotientRing.ops base modulo, o, ?_, ho, ?_⟩
  · show (base.contains modulo >>= fun b => Res.assert b >>= fun _ => _) = _
    rw [hb]
    rfl
  · show base.reduced o modulo = _
    rw [hc]
    cases c with
    | false => rfl
    | true =>
      have h1 := eq_mod_of_div_eq_zero (hc'.1 rfl)
      have h2 : (1 : R) % μ = 0 := EuclideanDomain.mod_eq_zero.2 hu.dvd
      rw [h2] at h1
      exact (zero_ne_one h1).elim

/-- The integers modulo minus one. -/
example : IsUnit (-1 : ℤ) ∧ (QuotientRing.ops Integers.euclidean (-1)).one = .ok 1 ∧
    (QuotientRing.ops Integers.euclidean (-1)).contains 1 = .ok false :=
  ⟨by decide, rfl, rfl⟩

/-- C20: over any base, `QuotientRing::new` returns exactly if the base contains the modulus. -/
theorem C20_checks (base : EuclideanDomainOps E) (modulo : E) :
    (∀ A, QuotientRing.new base modulo = .ok A ↔
      base.contains modulo = .ok true ∧ A = QuotientRing.ops base modulo) ∧
    (base.contains modulo = .ok false → QuotientRing.new base modulo = .panic) := by
  unfold QuotientRing.new
  constructor
  · intro A
    rcases base.contains modulo with (_ | _) | _ | _
    · exact ⟨nofun, nofun⟩
    · exact ⟨fun h => ⟨rfl, by injection h with h; exact h.symm⟩, fun h => by rw [h.2]; rfl⟩
    · exact ⟨nofun, nofun⟩
    · exact ⟨nofun, nofun⟩
  · intro h
    rw [h]
    rfl

/-- A polynomial with leading coefficient zero is rejected. -/
example : QuotientRing.new (PolynomialAlgebra.euclidean TwoElementAlgebra.field) [true, false] = .panic :=
  (C20_checks _ _).2 rfl

/-- C22: over any base, `QuotientField::new` returns exactly if the base contains the modulus and finds
the remainder of one by one to be zero. -/
theorem C22_checks (base : EuclideanDomainOps E) (modulo : E) :
    (∀ A, QuotientField.new base modulo = .ok A ↔
      base.contains modulo = .ok true ∧ (∃ o r, base.one = .ok o ∧ base.rem o o = .ok r ∧
        base.isZero r = .ok true) ∧ A = QuotientField.ops base modulo) ∧
    (base.contains modulo = .ok false → QuotientField.new base modulo = .panic) := by
  unfold QuotientField.new
  constructor
  · intro A
    rcases base.contains modulo with (_ | _) | _ | _
    · exact ⟨nofun, nofun⟩
    · rw [ok_bind, assert_true, ok_bind]
      constructor
      · intro h
        obtain ⟨o, h1, h⟩ := ok_of_bind h
        obtain ⟨r, h2, h⟩ := ok_of_bind h
        obtain ⟨z, h3, h⟩ := ok_of_bind h
        cases z with
        | false => cases h
        | true => exact ⟨rfl, ⟨o, r, h1, h2, h3⟩, by injection h with h; exact h.symm⟩
      · rintro ⟨-, ⟨o, r, h1, h2, h3⟩, rfl⟩
        rw [h1, ok_bind, h2, ok_bind, h3]
        rfl
    · exact ⟨nofun, nofun⟩
    · exact ⟨nofun, nofun⟩
  · intro h
    rw [h]
    rfl

/-- A polynomial with leading coefficient zero is rejected. -/
example : QuotientField.new (PolynomialAlgebra.euclidean TwoElementAlgebra.field) [true, false] = .panic :=
  (C22_checks _ _).2 rfl

/-- C22: `QuotientField::new` accepts every member of the base as modulus. -/
theorem C22_new_accepts_everything (h : EuclideanSpec False base rep) (hm : rep modulo μ) :
    QuotientField.new base modulo = .ok (QuotientField.ops base modulo) := by
  obtain ⟨b, hb, rfl⟩ := returns_false_iff.1 (h.contains hm)
  obtain ⟨o, ho, ho'⟩ := returns_false_iff.1 h.one
  obtain ⟨r, hr, hr'⟩ := returns_false_iff.1 (h.rem ho' ho' one_ne_zero)
  obtain ⟨z, hz, hz'⟩ := returns_false_iff.1 (h.isZero hr')
  rw [hz'.2 (EuclideanDomain.mod_one 1)] at hz
  show (base.contains modulo >>= fun b => Res.assert b >>= fun _ => base.one >>= fun o =>
    base.rem o o >>= fun r => base.isZero r >>= fun z => Res.assert z >>= fun _ => _) = _
  simp only [hb, ok_bind, assert_true]
  have ho2 : base.one = .ok o := ho
  rw [ho2]
  simp only [ok_bind, hr, hz, assert_true]
  rfl

/-- The moduli 0 and 12 are accepted. -/
example : QuotientField.new Integers.euclidean 0 = .ok (QuotientField.ops Integers.euclidean 0) ∧
    QuotientField.new Integers.euclidean 12 = .ok (QuotientField.ops Integers.euclidean 12) :=
  ⟨C22_new_accepts_everything Integers.euclidean_spec rfl,
    C22_new_accepts_everything Integers.euclidean_spec rfl⟩

/-- C22: with a unit as modulus `one` is not a member and zero is the only member. -/
theorem C22_unit_modulus (h : EuclideanSpec False base rep) (hm : rep modulo μ) (hu : IsUnit μ) :
    (∃ o, (QuotientField.ops base modulo).one = .ok o ∧
      (QuotientField.ops base modulo).contains o = .ok false) ∧
    (∀ {a x}, rep a x → ((QuotientField.ops base modulo).contains a = .ok true ↔ x = 0)) := by
  have h0 : μ ≠ 0 := hu.ne_zero
  have key : ∀ {a x}, rep a x →
      ((QuotientField.ops base modulo).contains a = .ok true ↔ x = 0) := by
    intro a x ha
    obtain ⟨c, hc, hc'⟩ := returns_false_iff.1 ((h.residue hm h0).reduced ha)
    have : (QuotientField.ops base modulo).contains a = .ok c := hc
    rw [this]
    refine Iff.trans (by simp) (hc'.trans ⟨fun hx => ?_, ?_⟩)
    · rw [← eq_mod_of_div_eq_zero hx]
      exact EuclideanDomain.mod_eq_zero.2 hu.dvd
    · rintro rfl; exact zero_div' μ
  refine ⟨?_, key⟩
  obtain ⟨o, ho, ho'⟩ := returns_false_iff.1 h.one
  obtain ⟨c, hc, hc'⟩ := returns_false_iff.1 ((h.residue hm h0).reduced ho')
  refine ⟨o, ho, ?_⟩
  have hc2 : (QuotientField.ops base modulo).contains o = .ok c := hc
  have := key ho'
  rw [hc2] at this ⊢
  cases c with
  | false => rfl
  | true => exact (one_ne_zero (this.1 rfl)).elim

/-- The integers modulo one. -/
example : (QuotientField.ops Integers.euclidean 1).contains 1 = .ok false ∧
    (QuotientField.ops Integers.euclidean 1).contains 0 = .ok true :=
  ⟨rfl, rfl⟩

/-- C23: on members of the base, `contains` of both quotients is exact: it holds iff the
element is the remainder of its class. -/
theorem C23_contains_exact (h : EuclideanSpec mp base rep) (hm : rep modulo μ) (h0 : μ ≠ 0)
    {a : E} {x : R} (ha : rep a x) :
    Decides mp ((QuotientRing.ops base modulo).contains a) (x % μ = x) ∧
    Decides mp ((QuotientField.ops base modulo).contains a) (x % μ = x) := by
  have key : Decides mp (base.reduced a modulo) (x % μ = x) :=
    ((h.residue hm h0).reduced ha).iff ⟨eq_mod_of_div_eq_zero, fun hx => by
      rw [← hx]; exact mod_div_eq_zero h0 x⟩
  exact ⟨key, key⟩

/-- Modulo 7, six is a member and minus one and seven are not. -/
example : (QuotientField.ops Integers.euclidean 7).contains 6 = .ok true ∧
    (QuotientField.ops Integers.euclidean 7).contains (-1) = .ok false ∧
    (QuotientRing.ops Integers.euclidean 7).contains 7 = .ok false :=
  ⟨rfl, rfl, rfl⟩

end ring

/-- The field structure of the factor ring by an irreducible element. -/
noncomputable abbrev factorField (hμ : Irreducible μ) : Field (R ⧸ Ideal.span {μ}) :=
  have := PrincipalIdealRing.isMaximal_of_irreducible hμ
  Ideal.Quotient.field _

variable [CanonicalRem R]

/-- C21: for an irreducible modulus `QuotientField::new` returns an implementation of the
factor field, in which exactly the inversion of and division by zero panic (`inv_zero`,
`div_zero` of the contract). -/
theorem C21_quotient_field (h : EuclideanSpec mp base rep) (hm : rep modulo μ)
    (hμ : Irreducible μ) :
    letI := factorField hμ
    Returns mp (QuotientField.new base modulo) fun A =>
      FieldSpec mp A fun e (s : R ⧸ Ideal.span {μ}) =>
        ∃ x, rep e x ∧ x / μ = 0 ∧ Ideal.Quotient.mk _ x = s := by
  let := factorField hμ
  refine Returns.bind (h.contains hm) fun b hb => ?_
  obtain rfl : b = true := hb
  rw [assert_true, ok_bind]
  refine Returns.bind h.one fun o ho => Returns.bind (h.rem ho ho one_ne_zero) fun r hr =>
    Returns.bind (h.isZero hr) fun z hz => ?_
  obtain rfl : z = true := hz.2 (EuclideanDomain.mod_one 1)
  exact QuotientField.spec (h.residue hm hμ.ne_zero) (mk_isFactor μ) hμ.ne_zero

/-- The integers modulo 7 meet the hypotheses. -/
example : EuclideanSpec False Integers.euclidean ZRep ∧ ZRep 7 7 ∧ Irreducible (7 : ℤ) :=
  ⟨Integers.euclidean_spec, rfl, (Nat.prime_iff_prime_int.1 (by norm_num)).irreducible⟩

/-- C21: and it is a Euclidean domain through the blanket implementations. -/
theorem C21_quotient_euclidean (h : EuclideanSpec mp base rep) (hm : rep modulo μ)
    (hμ : Irreducible μ) :
    letI := factorField hμ
    letI : DecidableEq (R ⧸ Ideal.span {μ}) := Classical.decEq _
    EuclideanSpec mp (QuotientField.ops base modulo).toEuclidean
      fun e (s : R ⧸ Ideal.span {μ}) => ∃ x, rep e x ∧ x / μ = 0 ∧ Ideal.Quotient.mk _ x = s := by
  let := factorField hμ
  let : DecidableEq (R ⧸ Ideal.span {μ}) := Classical.decEq _
  exact (QuotientField.spec (h.residue hm hμ.ne_zero) (mk_isFactor μ) hμ.ne_zero).toEuclidean

/-- The modulus 7. -/
example : EuclideanSpec False Integers.euclidean ZRep ∧ ZRep 7 7 ∧ Irreducible (7 : ℤ) :=
  ⟨Integers.euclidean_spec, rfl, (Int.prime_iff_natAbs_prime.2 (by norm_num)).irreducible⟩

/-- C21: the same for any presentation of the factor field. -/
theorem C21_quotient_field_any {S : Type v} [Field S] {φ : R →+* S} (hφ : IsFactor φ μ)
    (h : EuclideanSpec mp base rep) (hm : rep modulo μ) (h0 : μ ≠ 0) :
    FieldSpec mp (QuotientField.ops base modulo) (ResidueRep rep φ μ) :=
  QuotientField.spec (h.residue hm h0) hφ h0

end

section integers

variable [Cfg]

/-- The hypotheses are met by the integers modulo 12 (a ring) and modulo 7 (a field). -/
example : EuclideanSpec False Integers.euclidean ZRep ∧ ZRep 12 12 ∧ (12 : ℤ) ≠ 0 ∧
    ¬ IsUnit (12 : ℤ) ∧ (∀ x, ∃ e, ZRep e x) ∧ Irreducible (7 : ℤ) ∧ IsUnit (-1 : ℤ) :=
  ⟨Integers.euclidean_spec, rfl, by decide, by decide, fun x => ⟨x, rfl⟩,
    (Nat.prime_iff_prime_int.1 (by norm_num)).irreducible, isUnit_one.neg⟩

theorem residueRep_int (n : ℕ) (hn : 2 ≤ n) :
    ResidueRep ZRep (Int.castRingHom (ZMod n)) (n : ℤ) =
      fun (a : ℤ) (s : ZMod n) => 0 ≤ a ∧ a < n ∧ (a : ZMod n) = s := by
  funext a s
  apply propext
  constructor
  · rintro ⟨x, rfl, h1, rfl⟩
    have := (CheckedInts.ediv_eq_zero_iff (by omega)).1 h1
    exact ⟨this.1, this.2, rfl⟩
  · rintro ⟨h1, h2, rfl⟩
    exact ⟨a, rfl, (CheckedInts.ediv_eq_zero_iff (by omega)).2 ⟨h1, h2⟩, rfl⟩

/-- C21 for the integers: `QuotientField(ZZ, p)` is `ZMod p`. -/
theorem C21_integers (p : ℕ) [Fact p.Prime] :
    FieldSpec False (QuotientField.ops Integers.euclidean (p : ℤ))
      fun (a : ℤ) (s : ZMod p) => 0 ≤ a ∧ a < p ∧ (a : ZMod p) = s := by
  have hp : 2 ≤ p := (Fact.out : p.Prime).two_le
  have h := C21_quotient_field_any (zmod_isFactor p) Integers.euclidean_spec
    (show ZRep (p : ℤ) (p : ℤ) from rfl) (by omega)
  rw [residueRep_int p hp] at h
  exact h

/-- The inverse of 3 modulo 7 is 5. -/
example : (QuotientField.ops Integers.euclidean 7).inv 3 = .ok 5 := by
  have h0 : (3 : ZMod 7) ≠ 0 := by decide
  have h5 : (3 : ZMod 7) * (5 : ℤ) = 1 := by decide
  have : Fact (Nat.Prime 7) := ⟨by norm_num⟩
  obtain ⟨b, hb, h1, h2, h3⟩ := returns_false_iff.1 ((C21_integers 7).inv (a := 3) (x := 3)
    ⟨by decide, by decide, rfl⟩ h0)
  have h4 : ((b : ℤ) : ZMod 7) = ((5 : ℤ) : ZMod 7) := h3.trans (inv_eq_of_mul_eq_one_right h5)
  rw [ZMod.intCast_eq_intCast_iff_dvd_sub] at h4
  have h5 : b = 5 := by omega
  rw [← h5]
  exact hb

/-- C19 for the integers: a number below `n` has an inverse modulo `n` iff it is prime to `n`; the
inverse returned is a number below `n`. -/
theorem C19_integers (n : ℕ) (hn : 2 ≤ n) (a : ℤ) (h0 : 0 ≤ a) (h1 : a < n) :
    (Int.gcd a n = 1 → ∃ b, (QuotientRing.ops Integers.euclidean (n : ℤ)).tryInv a = .ok (some b) ∧
      0 ≤ b ∧ b < n ∧ (n : ℤ) ∣ a * b - 1) ∧
    (Int.gcd a n ≠ 1 → (QuotientRing.ops Integers.euclidean (n : ℤ)).tryInv a = .ok none) ∧
    (QuotientRing.ops Integers.euclidean (n : ℤ)).invertible a = .ok (decide (Int.gcd a n = 1)) := by
  have hg : Int.gcd a n = 1 ↔ ∃ y, (n : ℤ) ∣ a * y - 1 := by
    rw [← Int.isCoprime_iff_gcd_eq_one]
    constructor
    · rintro ⟨u, v, h⟩
      exact ⟨u, -v, by linear_combination h⟩
    · rintro ⟨y, k, h⟩
      exact ⟨y, -k, by linear_combination h⟩
  obtain ⟨h2, h3⟩ := C19_quotient_try_inv Integers.euclidean_spec (show ZRep (n : ℤ) n from rfl)
    (by omega) (show ZRep a a from rfl) ((CheckedInts.ediv_eq_zero_iff (by omega)).2 ⟨h0, h1⟩)
  obtain ⟨o, ho, ho'⟩ := returns_false_iff.1 h2
  refine ⟨fun h => ?_, fun h => ?_, decides_false_iff.1 (h3.iff hg.symm)⟩
  · cases o with
    | none => exact (ho' (hg.1 h)).elim
    | some b =>
      obtain ⟨y, rfl, h4, h5⟩ := ho'
      have := (CheckedInts.ediv_eq_zero_iff (by omega)).1 h4
      exact ⟨_, ho, this.1, this.2, h5⟩
  · cases o with
    | none => exact ho
    | some b =>
      obtain ⟨y, -, -, h5⟩ := ho'
      exact (h (hg.2 ⟨y, h5⟩)).elim

/-- Modulo 12. -/
example : Int.gcd 5 (12 : ℕ) = 1 ∧ Int.gcd 8 (12 : ℕ) ≠ 1 := by decide

/-- C18 for the integers: `QuotientRing(ZZ, n)` is `ZMod n`. -/
theorem C18_integers (n : ℕ) (hn : 2 ≤ n) :
    UnitaryRingSpec False (QuotientRing.ops Integers.euclidean (n : ℤ))
      fun (a : ℤ) (s : ZMod n) => 0 ≤ a ∧ a < n ∧ (a : ZMod n) = s := by
  have h := C18_quotient_ring_any (zmod_isFactor n) Integers.euclidean_spec
    (show ZRep (n : ℤ) (n : ℤ) from rfl) (by omega)
    (by rw [Int.isUnit_iff]; omega)
  rw [residueRep_int n hn] at h
  exact h

/-- Modulo 12 the product of 5 and 7 is 11. -/
example : (QuotientRing.ops Integers.euclidean 12).mul 5 7 = .ok 11 ∧
    (QuotientRing.ops Integers.euclidean 12).sub 5 7 = .ok 10 :=
  ⟨rfl, rfl⟩

variable (w : ℕ) [Width w]

theorem residueRep_checked (n : ℕ) (hn : 2 ≤ n) :
    ResidueRep (SRep w) (Int.castRingHom (ZMod n)) (n : ℤ) =
      fun (a : SInt w) (s : ZMod n) => 0 ≤ a.1 ∧ a.1 < n ∧ (a.1 : ZMod n) = s := by
  funext a s
  apply propext
  constructor
  · rintro ⟨x, rfl, h1, rfl⟩
    have := (CheckedInts.ediv_eq_zero_iff (by omega)).1 h1
    exact ⟨this.1, this.2, rfl⟩
  · rintro ⟨h1, h2, rfl⟩
    exact ⟨a.1, rfl, (CheckedInts.ediv_eq_zero_iff (by omega)).2 ⟨h1, h2⟩, rfl⟩

variable {w}

/-- C24: prime fields over machine integers: no operation overflows if `(p-1)^2` is
representable. -/
theorem C24_prime_field (p : ℕ) [Fact p.Prime] (m : SInt w) (hm : m.1 = p)
    (hmax : ((p : ℤ) - 1) ^ 2 ≤ 2 ^ (w - 1) - 1) :
    FieldSpec False (QuotientField.ops (CheckedInts.euclidean w) m)
      fun (a : SInt w) (s : ZMod p) => 0 ≤ a.1 ∧ a.1 < p ∧ (a.1 : ZMod p) = s := by
  have hp : 2 ≤ p := (Fact.out : p.Prime).two_le
  rw [← residueRep_checked w p hp, ← hm]
  refine QuotientField.spec (CheckedInts.residue w m (by omega) ?_) ?_ (by omega)
  · rw [hm, ← sq]; exact hmax
  · rw [hm]; exact zmod_isFactor p

/-- The prime 11 in eight bits meets the bound, 13 does not. -/
example : (((11 : ℕ) : ℤ) - 1) ^ 2 ≤ 2 ^ (8 - 1) - 1 ∧ ¬ (((13 : ℕ) : ℤ) - 1) ^ 2 ≤ 2 ^ (8 - 1) - 1 ∧
    (QuotientField.ops (CheckedInts.euclidean 8) (SInt.lit 11 (by decide))).mul
      (SInt.lit 10 (by decide)) (SInt.lit 9 (by decide)) = .ok (SInt.lit 2 (by decide)) ∧
    (QuotientField.ops (CheckedInts.euclidean 8) (SInt.lit 13 (by decide))).mul
      (SInt.lit 12 (by decide)) (SInt.lit 11 (by decide)) = .panic :=
  ⟨by decide, by decide, rfl, rfl⟩

/-- C24: likewise the residue rings modulo composite numbers. -/
theorem C24_residue_ring (n : ℕ) (hn : 2 ≤ n) (m : SInt w) (hm : m.1 = n)
    (hmax : ((n : ℤ) - 1) ^ 2 ≤ 2 ^ (w - 1) - 1) :
    UnitaryRingSpec False (QuotientRing.ops (CheckedInts.euclidean w) m)
      fun (a : SInt w) (s : ZMod n) => 0 ≤ a.1 ∧ a.1 < n ∧ (a.1 : ZMod n) = s := by
  rw [← residueRep_checked w n hn, ← hm]
  refine QuotientRing.spec (CheckedInts.residue w m (by omega) ?_) ?_ (by omega) ?_
  · rw [hm, ← sq]; exact hmax
  · rw [hm]; exact zmod_isFactor n
  · rw [Int.isUnit_iff]; omega

/-- The number 12 in eight bits meets the bound. -/
example : (((12 : ℕ) : ℤ) - 1) ^ 2 ≤ 2 ^ (8 - 1) - 1 ∧
    (QuotientRing.ops (CheckedInts.euclidean 8) (SInt.lit 12 (by decide))).mul
      (SInt.lit 11 (by decide)) (SInt.lit 11 (by decide)) = .ok (SInt.lit 1 (by decide)) :=
  ⟨by decide, rfl⟩

/-- C24: `contains` is exact on all objects. -/
theorem C24_contains (m : SInt w) (hm : 2 ≤ m.1) (a : SInt w) :
    (QuotientField.ops (CheckedInts.euclidean w) m).contains a =
      .ok (decide (0 ≤ a.1 ∧ a.1 < m.1)) := by
  show (CheckedInts.euclidean w).reduced a m = _
  rw [CheckedInts.reduced_eq]
  have : m.1 ≠ 0 := by omega
  simp only [this, false_or, CheckedInts.ediv_eq_zero_iff (show 0 < m.1 by omega)]

/-- Modulo 11 in eight bits. -/
example : (QuotientField.ops (CheckedInts.euclidean 8) (SInt.lit 11 (by decide))).contains
      (SInt.lit (-1) (by decide)) = .ok false ∧
    (QuotientField.ops (CheckedInts.euclidean 8) (SInt.lit 11 (by decide))).contains
      (SInt.lit 10 (by decide)) = .ok true :=
  ⟨rfl, rfl⟩

/-- C24: `GF2` is the field with two elements. -/
theorem C24_GF2 : FieldSpec False QuotientField.GF2
    fun (a : SInt 8) (s : ZMod 2) => 0 ≤ a.1 ∧ a.1 < 2 ∧ (a.1 : ZMod 2) = s :=
  have : Fact (Nat.Prime 2) := ⟨by decide⟩
  C24_prime_field 2 (SInt.lit 2 (by decide)) rfl (by norm_num)

/-- One and one is zero. -/
example : QuotientField.GF2.add (SInt.lit 1 (by decide)) (SInt.lit 1 (by decide)) =
    .ok (SInt.lit 0 (by decide)) := rfl

/-- C24: `GF3` is the field with three elements. -/
theorem C24_GF3 : FieldSpec False QuotientField.GF3
    fun (a : SInt 8) (s : ZMod 3) => 0 ≤ a.1 ∧ a.1 < 3 ∧ (a.1 : ZMod 3) = s :=
  have : Fact (Nat.Prime 3) := ⟨by decide⟩
  C24_prime_field 3 (SInt.lit 3 (by decide)) rfl (by norm_num)

/-- Two times two is one. -/
example : QuotientField.GF3.mul (SInt.lit 2 (by decide)) (SInt.lit 2 (by decide)) =
    .ok (SInt.lit 1 (by decide)) := rfl

/-- The bound holds for the prime 46337 in 32 bits. -/
example : (((46337 : ℕ) : ℤ) - 1) ^ 2 ≤ 2 ^ (32 - 1) - 1 := by norm_num

end integers

section witness

variable [Cfg]

/-- C23: `contains` does not consult the base: modulo `x^2 + x + 1` over `BB` the vector
`[1, 0]`, which is not a polynomial in canonical form, is accepted, and it is not equal to the
member `[1]` it denotes. -/
theorem C23_accepts_nonmember :
    let base := PolynomialAlgebra.euclidean TwoElementAlgebra.field
    base.contains [true, false] = .ok false ∧
    (QuotientField.ops base [true, true, true]).contains [true, false] = .ok true ∧
    (QuotientRing.ops base [true, true, true]).contains [true, false] = .ok true ∧
    (QuotientField.ops base [true, true, true]).contains [true] = .ok true ∧
    (QuotientField.ops base [true, true, true]).equals [true, false] [true] = .ok false :=
  ⟨rfl, rfl, rfl, rfl, rfl⟩

/-- The member and the vector that is accepted differ in their length only. -/
example : (PolynomialAlgebra.euclidean TwoElementAlgebra.field).contains [true] = .ok true ∧
    (PolynomialAlgebra.euclidean TwoElementAlgebra.field).contains [true, false, false] = .ok false :=
  ⟨rfl, rfl⟩

end witness

end Abstalg
