import Verif.Proofs.Groups
import Verif.Proofs.Euclid
import Verif.Proofs.Field
import Verif.Proofs.Integers
import Verif.Proofs.CheckedInts

/-!
# Default methods of the traits: C03-C10, C47, C52, C54

The theorems hold for every implementation of a trait, given the contract of its required
methods.
-/

set_option linter.unusedSectionVars false

set_option autoImplicit false

universe u

namespace Abstalg

section euclid

variable [Cfg] {E : Type} {R : Type u} [CommRing R] {mp : Prop} {rep : E → R → Prop}
  {lt : R → R → Prop} {I : IntegralDomainOps E} {quoRem : E → E → Res (E × E)}

/-- C03: the inherited `gcd` terminates and returns a greatest common divisor; it panics only
if a required method does. -/
theorem C03_gcd (hI : UnitaryRingSpec mp I.toUnitaryRingOps rep)
    (hd : DivisionSpec mp quoRem rep lt) {a b : E} {x y : R} (ha : rep a x) (hb : rep b y) :
    Returns mp ((inheritEuclidean I quoRem).gcd a b) fun c =>
      ∃ g, rep c g ∧ g ∣ x ∧ g ∣ y ∧ ∀ d, d ∣ x → d ∣ y → d ∣ g :=
  (gcd_of_division hI hd ha hb).mono fun _ ⟨g, h1, h2, _⟩ => ⟨g, h1, h2⟩

/-- C03 for machine integers, where the hypotheses hold with `mp := True`. -/
example (a b : SInt 8) : Returns True
    ((inheritEuclidean (CheckedInts.integralDomain 8) (CheckedInts.euclidean 8).quoRem).gcd a b)
    fun c => ∃ g : ℤ, c.1 = g ∧ g ∣ a.1 ∧ g ∣ b.1 ∧ ∀ d, d ∣ a.1 → d ∣ b.1 → d ∣ g :=
  C03_gcd (CheckedInts.unitaryRing_spec 8) (CheckedInts.euclidean_spec 8).division
    (rep := SRep 8) rfl rfl

/-- C04: the inherited `extended_gcd` returns Bezout coefficients, and its first component is
the object that `gcd` returns. -/
theorem C04_extended_gcd (hI : UnitaryRingSpec mp I.toUnitaryRingOps rep)
    (hd : DivisionSpec mp quoRem rep lt) {a b : E} {x y : R} (ha : rep a x) (hb : rep b y) :
    Returns mp ((inheritEuclidean I quoRem).extendedGcd a b) fun c =>
      (∃ g s t, rep c.1 g ∧ rep c.2.1 s ∧ rep c.2.2 t ∧ x * s + y * t = g ∧
        g ∣ x ∧ g ∣ y ∧ ∀ d, d ∣ x → d ∣ y → d ∣ g) ∧
      (inheritEuclidean I quoRem).gcd a b = .ok c.1 :=
  extendedGcd_of_division hI hd ha hb

/-- C04 for 12 and -18. -/
example : Returns False
    ((inheritEuclidean Integers.integralDomain Integers.euclidean.quoRem).extendedGcd 12 (-18))
    fun c => 12 * c.2.1 + -18 * c.2.2 = c.1 ∧ c.1 ∣ 12 ∧ c.1 ∣ -18 := by
  refine (C04_extended_gcd (I := Integers.integralDomain) Integers.unitaryRing_spec
    Integers.euclidean_spec.division (show ZRep 12 12 from rfl)
    (show ZRep (-18) (-18) from rfl)).mono ?_
  rintro ⟨g, s, t⟩ ⟨⟨_, _, _, rfl, rfl, rfl, h, h1, h2, _⟩, _⟩
  exact ⟨h, h1, h2⟩

/-- C05: the inherited `lcm` returns a least common multiple, zero iff an operand is. -/
theorem C05_lcm [IsDomain R] (hI : UnitaryRingSpec mp I.toUnitaryRingOps rep)
    (hd : DivisionSpec mp quoRem rep lt) {a b : E} {x y : R} (ha : rep a x) (hb : rep b y) :
    Returns mp ((inheritEuclidean I quoRem).lcm a b) fun c => ∃ m, rep c m ∧
      x ∣ m ∧ y ∣ m ∧ (∀ d, x ∣ d → y ∣ d → m ∣ d) ∧ (m = 0 ↔ x = 0 ∨ y = 0) :=
  (lcm_of_division hI hd ha hb).mono fun _ ⟨m, h1, h2, h3, h4⟩ => ⟨m, h1, h2, h3, h4, by
    constructor
    · rintro rfl
      exact mul_eq_zero.1 (zero_dvd_iff.1 (h4 _ (dvd_mul_right x y) (dvd_mul_left y x)))
    · rintro (rfl | rfl)
      · exact zero_dvd_iff.1 h2
      · exact zero_dvd_iff.1 h3⟩

/-- C05 for 0 and 5: the lcm is 0. -/
example : Returns False
    ((inheritEuclidean Integers.integralDomain Integers.euclidean.quoRem).lcm 0 5) (· = 0) := by
  refine (C05_lcm (I := Integers.integralDomain) Integers.unitaryRing_spec
    Integers.euclidean_spec.division (show ZRep 0 0 from rfl) (show ZRep 5 5 from rfl)).mono ?_
  rintro c ⟨_, rfl, _, _, _, h⟩
  exact h.2 (Or.inl rfl)

/-- C06: the inherited `relative_primes` decides whether one is a linear combination. -/
theorem C06_relative_primes (hI : UnitaryRingSpec mp I.toUnitaryRingOps rep)
    (hd : DivisionSpec mp quoRem rep lt) {a b : E} {x y : R} (ha : rep a x) (hb : rep b y) :
    Decides mp ((inheritEuclidean I quoRem).relativePrimes a b) (∃ s t, s * x + t * y = 1) :=
  relativePrimes_of_division hI hd ha hb

/-- C06 for 9 and 4, of which one is a combination. -/
example : Returns False
    ((inheritEuclidean Integers.integralDomain Integers.euclidean.quoRem).relativePrimes 9 4)
    (· = true) :=
  (C06_relative_primes (I := Integers.integralDomain) Integers.unitaryRing_spec
    Integers.euclidean_spec.division (show ZRep 9 9 from rfl) (show ZRep 4 4 from rfl)).mono
    fun _ h => h.2 ⟨1, -2, by norm_num⟩

end euclid

section integers

variable [Cfg]

/-- The hypotheses of C03-C06 are met by the integers. -/
example : UnitaryRingSpec False Integers.integralDomain.toUnitaryRingOps ZRep ∧
    DivisionSpec False Integers.euclidean.quoRem ZRep EuclideanDomain.r ∧
    ZRep 12 12 ∧ ZRep (-18) (-18) :=
  ⟨Integers.unitaryRing_spec, Integers.euclidean_spec.division, rfl, rfl⟩

/-- The hypotheses of C03-C06 are met by machine integers, with `mp := True`. -/
example : UnitaryRingSpec True (CheckedInts.integralDomain 32).toUnitaryRingOps (SRep 32) ∧
    DivisionSpec True (CheckedInts.euclidean 32).quoRem (SRep 32) EuclideanDomain.r :=
  ⟨CheckedInts.unitaryRing_spec 32, (CheckedInts.euclidean_spec 32).division⟩

/-- C03 for `ZZ`. -/
theorem C03_integers_gcd (a b : ℤ) : ∃ g, Integers.euclidean.gcd a b = .ok g ∧
    g ∣ a ∧ g ∣ b ∧ ∀ d, d ∣ a → d ∣ b → d ∣ g := by
  obtain ⟨c, hc, g, rfl, h⟩ := returns_false_iff.1
    (C03_gcd (I := Integers.integralDomain) Integers.unitaryRing_spec Integers.euclidean_spec.division
      (show ZRep a a from rfl) (show ZRep b b from rfl))
  exact ⟨c, hc, h⟩

example : ∃ g, Integers.euclidean.gcd 12 (-18) = .ok g ∧ g ∣ 6 ∧ 6 ∣ g := by
  obtain ⟨g, h1, h2, h3, h4⟩ := C03_integers_gcd 12 (-18)
  exact ⟨g, h1, by simpa using dvd_neg.2 (dvd_add h2 h3), h4 6 (by decide) (by decide)⟩

/-- C04 for `ZZ`. -/
theorem C04_integers_extended_gcd (a b : ℤ) :
    ∃ g s t, Integers.euclidean.extendedGcd a b = .ok (g, s, t) ∧ a * s + b * t = g ∧
      Integers.euclidean.gcd a b = .ok g := by
  obtain ⟨⟨g, s, t⟩, hc, ⟨_, _, _, rfl, rfl, rfl, h, _⟩, hg⟩ := returns_false_iff.1
    (C04_extended_gcd (I := Integers.integralDomain) Integers.unitaryRing_spec Integers.euclidean_spec.division
      (show ZRep a a from rfl) (show ZRep b b from rfl))
  exact ⟨g, s, t, hc, h, hg⟩

example : ∃ g s t, Integers.euclidean.extendedGcd 12 (-18) = .ok (g, s, t) ∧ 12 * s + -18 * t = g := by
  obtain ⟨g, s, t, h1, h2, -⟩ := C04_integers_extended_gcd 12 (-18)
  exact ⟨g, s, t, h1, h2⟩

/-- C05 for `ZZ`. -/
theorem C05_integers_lcm (a b : ℤ) : ∃ m, Integers.euclidean.lcm a b = .ok m ∧
    a ∣ m ∧ b ∣ m ∧ (∀ d, a ∣ d → b ∣ d → m ∣ d) ∧ (m = 0 ↔ a = 0 ∨ b = 0) := by
  obtain ⟨c, hc, g, rfl, h⟩ := returns_false_iff.1
    (C05_lcm (I := Integers.integralDomain) Integers.unitaryRing_spec Integers.euclidean_spec.division
      (show ZRep a a from rfl) (show ZRep b b from rfl))
  exact ⟨c, hc, h⟩

example : ∃ m, Integers.euclidean.lcm 12 (-18) = .ok m ∧ 12 ∣ m ∧ m ∣ 36 := by
  obtain ⟨m, h1, h2, -, h3, -⟩ := C05_integers_lcm 12 (-18)
  exact ⟨m, h1, h2, h3 36 (by decide) (by decide)⟩

/-- C06 for `ZZ`. -/
theorem C06_integers_relative_primes (a b : ℤ) :
    ∃ r, Integers.euclidean.relativePrimes a b = .ok r ∧
      (r = true ↔ ∃ s t, s * a + t * b = 1) :=
  returns_false_iff.1
    (C06_relative_primes (I := Integers.integralDomain) Integers.unitaryRing_spec Integers.euclidean_spec.division
      (show ZRep a a from rfl) (show ZRep b b from rfl))

example : Integers.euclidean.relativePrimes 12 35 = .ok true := by
  obtain ⟨r, h1, h2⟩ := C06_integers_relative_primes 12 35
  rw [h1, h2.2 ⟨3, -1, by norm_num⟩]

end integers

section associates

variable [Cfg] {E : Type} {R : Type u} [CommRing R] [IsDomain R] {mp : Prop}
  {rep : E → R → Prop}

/-- C07: the inherited `divisible` and `associates`, given the contracts of `try_div` and
`is_zero`. -/
theorem C07_divisible {U : UnitaryRingOps E} {tryDiv : E → E → Res (Option E)}
    {repr coef : E → Res E} (hU : UnitaryRingSpec mp U rep)
    (hd : ∀ {a b x y}, rep a x → rep b y → y ≠ 0 → Returns mp (tryDiv a b) fun
      | some c => ∃ z, rep c z ∧ x = y * z
      | none => ¬ ∃ z, x = y * z)
    {a b : E} {x y : R} (ha : rep a x) (hb : rep b y) :
    let A : IntegralDomainOps E :=
      { toUnitaryRingOps := U, tryDiv := tryDiv, associateRepr := repr, associateCoef := coef }
    Decides mp (A.divisible a b) (∃ z, x = y * z) ∧
    Decides mp (A.associates a b) ((∃ z, x = y * z) ∧ (∃ z, y = x * z)) := by
  have h1 : ∀ {a b x y}, rep a x → rep b y → Decides mp (IntegralDomainOps.divisible
      { toUnitaryRingOps := U, tryDiv := tryDiv, associateRepr := repr, associateCoef := coef }
      a b) (y ∣ x) := fun ha hb => divisible_default (rep := rep) hU.isZero hd ha hb
  refine ⟨h1 ha hb, (associates_default (rep := rep) h1 ha hb).iff ?_⟩
  constructor
  · intro h; exact ⟨h.symm.dvd, h.dvd⟩
  · rintro ⟨h, h'⟩; exact associated_of_dvd_dvd h' h

/-- C07 for the integers: 12 is divisible by -4. -/
example (repr coef : ℤ → Res ℤ) : Returns False (IntegralDomainOps.divisible
    { toUnitaryRingOps := Integers.unitaryRing, tryDiv := Integers.integralDomain.tryDiv,
      associateRepr := repr, associateCoef := coef } 12 (-4)) (· = true) :=
  (C07_divisible Integers.unitaryRing_spec (fun ha hb hy =>
    (Integers.integralDomain_spec.tryDiv ha hb hy).mono fun o ho => by cases o <;> exact ho)
    (show ZRep 12 12 from rfl) (show ZRep (-4) (-4) from rfl)).1.mono
    fun _ h => h.2 ⟨-3, by norm_num⟩

variable [NormalizationMonoid R]

/-- C07: `associate_repr` returns an associate that depends only on the class; `associate_coef`
returns a unit whose product with the element is `associate_repr`. -/
theorem C07_associates {A : IntegralDomainOps E} (h : IntegralDomainSpec False A rep)
    {a b : E} {x y : R} (ha : rep a x) (hb : rep b y) :
    ∃ r s, A.associateRepr a = .ok r ∧ A.associateRepr b = .ok s ∧
      A.associates a r = .ok true ∧
      (A.associates a b = .ok true ↔ A.equals r s = .ok true) ∧
      (x = 0 → A.associateCoef a = .panic) ∧
      (x ≠ 0 → ∃ c p, A.associateCoef a = .ok c ∧ A.invertible c = .ok true ∧
        A.mul a c = .ok p ∧ A.equals p r = .ok true) := by
  have dec : ∀ {c : Res Bool} {p : Prop}, Decides False c p → (c = .ok true ↔ p) := by
    intro c p hc
    obtain ⟨t, rfl, ht⟩ := returns_false_iff.1 hc
    rw [← ht]; simp
  obtain ⟨r, hr, hr'⟩ := returns_false_iff.1 (h.associateRepr ha)
  obtain ⟨s, hs, hs'⟩ := returns_false_iff.1 (h.associateRepr hb)
  refine ⟨r, s, hr, hs, ?_, ?_, ?_, fun hx => ?_⟩
  · rw [dec (h.associates ha hr')]; exact (normalize_associated x).symm
  · rw [dec (h.associates ha hb), dec (h.equals hr' hs')]
    exact normalize_eq_normalize_iff_associated.symm
  · rintro rfl; exact h.associateCoef_zero ha
  · obtain ⟨c, hc, hc'⟩ := returns_false_iff.1 (h.associateCoef ha hx)
    obtain ⟨p, hp, hp'⟩ := returns_false_iff.1 (h.mul ha hc')
    refine ⟨c, p, hc, ?_, hp, ?_⟩
    · rw [dec (h.invertible hc')]; exact Units.isUnit _
    · rw [dec (h.equals hp' hr')]; rfl

example : IntegralDomainSpec False Integers.integralDomain ZRep ∧ ZRep (-4) (-4) :=
  ⟨Integers.integralDomain_spec, rfl⟩

end associates

section groups

variable [Cfg] {E : Type} {R : Type u} {mp : Prop} {rep : E → R → Prop}

theorem isizeMin_neg : (isizeMin : ℤ) < 0 := by
  have : (0 : ℤ) < 2 ^ (Cfg.ptrBits - 1) := by positivity
  unfold isizeMin
  omega

/-- C08: the inherited `inv` is the inverse in the group. -/
theorem C08_group_inv [Group R] {M : MonoidOps E} (hM : MonoidSpec mp M rep)
    {a : E} {x : R} (ha : rep a x) : Returns mp ((inheritGroup M).inv a) (rep · x⁻¹) := by
  refine Returns.bind (hM.tryInv ha) fun o ho => ?_
  cases o with
  | none => exact (ho (Group.isUnit x)).elim
  | some b =>
    obtain ⟨y, hy, h1, _⟩ := ho
    rw [eq_inv_of_mul_eq_one_right h1] at hy
    exact hy

/-- C08 for the additive group of the integers. -/
example (a : ℤ) : Returns False
    ((inheritGroup (AdditiveGroup.ops Integers.unitaryRing.toAbelianGroupOps).toMonoidOps).inv a)
    (· = -a) :=
  C08_group_inv (AdditiveGroup.spec Integers.unitaryRing_spec.toAbelianGroupSpec).toMonoidSpec
    (show AdditiveGroup.AddRep ZRep a (Multiplicative.ofAdd a) from rfl)

/-- C08: the inherited `power` computes integer powers. -/
theorem C08_power [Group R] {M : MonoidOps E} {inv : E → Res E} (hM : MonoidSpec mp M rep)
    (hinv : ∀ {a x}, rep a x → Returns mp (inv a) (rep · x⁻¹))
    (n : ℤ) (hn : n ≠ isizeMin) {a : E} {x : R} (ha : rep a x) :
    Returns mp ((inheritPower M inv).power n a) (rep · (x ^ n)) :=
  group_power_default hM.one hM.mulAssign hM.square hinv n hn ha

/-- C08 for the additive group of the integers: the "power" is the multiple. -/
example (a : ℤ) : Returns False ((inheritPower
    (AdditiveGroup.ops Integers.unitaryRing.toAbelianGroupOps).toMonoidOps
    (AdditiveGroup.ops Integers.unitaryRing.toAbelianGroupOps).inv).power 3 a) (· = 3 * a) := by
  have hG := AdditiveGroup.spec (Integers.unitaryRing_spec.toAbelianGroupSpec)
  refine (C08_power hG.toMonoidSpec hG.inv 3 (by have := isizeMin_neg; omega)
    (show AdditiveGroup.AddRep ZRep a (Multiplicative.ofAdd a) from rfl)).mono fun c hc => ?_
  simpa [AdditiveGroup.AddRep, ZRep] using hc

/-- C09: with overflow checks `power` panics at `isize::MIN`. -/
theorem C09_power_min_checked (M : MonoidOps E) (inv : E → Res E)
    (hc : Cfg.overflowChecks = true) (a : E) :
    (inheritPower M inv).power isizeMin a = .panic := by
  show powerDefault M.one M.mulAssign M.square inv isizeMin a = _
  simp [powerDefault, isizeMin_neg, isizeNeg, hc]

/-- C09: in a debug build the multiple of 5 by `isize::MIN` panics. -/
example (hc : Cfg.overflowChecks = true) :
    (AdditiveGroup.ops Integers.unitaryRing.toAbelianGroupOps).power isizeMin 5 = .panic :=
  C09_power_min_checked _ _ hc 5

/-- C09: without overflow checks `power` returns one at `isize::MIN`, whatever the
element is. -/
theorem C09_power_min_unchecked (M : MonoidOps E) (inv : E → Res E)
    (hc : Cfg.overflowChecks = false) (a b : E) (hinv : inv a = .ok b) :
    (inheritPower M inv).power isizeMin a = M.one := by
  show powerDefault M.one M.mulAssign M.square inv isizeMin a = _
  have h := isizeMin_neg
  simp only [powerDefault, h, if_true, isizeNeg, hc, hinv, ok_bind, Bool.false_eq_true, if_false,
    pure_bind']
  cases hone : M.one with
  | ok e =>
    simp only [ok_bind]
    rw [powerLoop, dif_neg (by omega)]
  | panic => rfl
  | diverge => rfl

/-- C09: in a release build the multiple of 5 by `isize::MIN` is 0. -/
example (hc : Cfg.overflowChecks = false) :
    (AdditiveGroup.ops Integers.unitaryRing.toAbelianGroupOps).power isizeMin 5 = .ok 0 :=
  C09_power_min_unchecked _ _ hc 5 (-5) rfl

/-- C10: the inherited `CommuntativeMonoid::times`. -/
theorem C10_monoid_times [AddCommMonoid R] {D : DomainOps E} {zero : Res E}
    {isZero : E → Res Bool} {add addAssign : E → E → Res E} {double : E → Res E}
    (hzero : Returns mp zero (rep · 0))
    (hadd : ∀ {a b x y}, rep a x → rep b y → Returns mp (addAssign a b) (rep · (x + y)))
    (hdbl : ∀ {a x}, rep a x → Returns mp (double a) (rep · (x + x)))
    (n : ℕ) {a : E} {x : R} (ha : rep a x) :
    let A : CommutativeMonoidOps E :=
      { toDomainOps := D, zero := zero, isZero := isZero,
        add := add, addAssign := addAssign, double := double }
    Returns mp (A.utimes n a) (rep · (n • x)) :=
  utimes_default hzero hadd hdbl n ha

/-- C10: `7` times `-6` with the inherited method, on the integers. -/
example (D : DomainOps ℤ) (isZero : ℤ → Res Bool) (add : ℤ → ℤ → Res ℤ) :
    Returns False (CommutativeMonoidOps.utimes
      { toDomainOps := D, zero := .ok 0, isZero := isZero,
        add := add, addAssign := fun a b => .ok (a + b), double := fun a => .ok (a + a) } 7 (-6))
      (· = 7 • (-6)) :=
  C10_monoid_times (rep := fun (a x : ℤ) => a = x) (mp := False) (zero := .ok 0)
    (addAssign := fun a b => .ok (a + b)) (double := fun a => .ok (a + a)) rfl
    (by rintro a b x y rfl rfl; rfl) (by rintro a x rfl; rfl) 7 rfl

/-- C10: the inherited `AbelianGroup::times`. -/
theorem C10_group_times [AddCommGroup R] {A : CommutativeMonoidOps E} {neg negAssign : E → Res E}
    {sub subAssign : E → E → Res E}
    (hA : CommutativeMonoidSpec mp A rep)
    (hneg : ∀ {a x}, rep a x → Returns mp (neg a) (rep · (-x)))
    (n : ℤ) (hn : n ≠ isizeMin) {a : E} {x : R} (ha : rep a x) :
    let G : AbelianGroupOps E :=
      { toCommutativeMonoidOps := A, neg := neg,
        negAssign := negAssign, sub := sub, subAssign := subAssign }
    Returns mp (G.times n a) (rep · (n • x)) :=
  times_default hA.zero hA.addAssign hA.double hneg n hn ha

/-- C10: a negative multiple of an integer. -/
example (negAssign : ℤ → Res ℤ) (sub subAssign : ℤ → ℤ → Res ℤ) :
    Returns False (AbelianGroupOps.times
      { toCommutativeMonoidOps := Integers.unitaryRing.toCommutativeMonoidOps,
        neg := fun a => .ok (-a), negAssign := negAssign, sub := sub, subAssign := subAssign }
      (-7) 6) (· = -42) :=
  C10_group_times (rep := ZRep) (mp := False) Integers.unitaryRing_spec.toCommutativeMonoidSpec
    (by rintro a x rfl; rfl) (-7) (by
      have h : (2 : ℤ) ^ 31 ≤ 2 ^ (Cfg.ptrBits - 1) :=
        pow_le_pow_right₀ (by norm_num) (by have := Cfg.ptrBits_ge; omega)
      unfold isizeMin
      omega) rfl

/-- C10: the inherited `AbelianGroup::sub` and `sub_assign`. -/
theorem C10_group_sub [AddCommGroup R] {A : CommutativeMonoidOps E} {neg negAssign : E → Res E}
    (hA : CommutativeMonoidSpec mp A rep)
    (hneg : ∀ {a x}, rep a x → Returns mp (neg a) (rep · (-x)))
    {a b : E} {x y : R} (ha : rep a x) (hb : rep b y) :
    let G : AbelianGroupOps E :=
      { toCommutativeMonoidOps := A, neg := neg,
        negAssign := negAssign }
    Returns mp (G.sub a b) (rep · (x - y)) ∧ Returns mp (G.subAssign a b) (rep · (x - y)) :=
  ⟨sub_default hA.addAssign hneg ha hb, subAssign_default hA.addAssign hneg ha hb⟩

/-- C10: the difference of two integers with the inherited method. -/
example (negAssign : ℤ → Res ℤ) : Returns False (AbelianGroupOps.sub
      { toCommutativeMonoidOps := Integers.unitaryRing.toCommutativeMonoidOps,
        neg := fun a => .ok (-a), negAssign := negAssign } 3 10) (· = -7) :=
  (C10_group_sub (rep := ZRep) (mp := False) Integers.unitaryRing_spec.toCommutativeMonoidSpec
    (by rintro a x rfl; rfl) rfl rfl).1

/-- C10: the inherited `UnitaryRing::int`. -/
theorem C10_int [Ring R] {S : SemiRingOps E} {neg negAssign : E → Res E}
    {sub subAssign : E → E → Res E} {times : ℤ → E → Res E}
    (hS : SemiRingSpec mp S rep)
    (htimes : ∀ (n : ℤ), n ≠ isizeMin → ∀ {a x}, rep a x → Returns mp (times n a) (rep · (n • x)))
    (n : ℤ) (hn : n ≠ isizeMin) :
    let A : UnitaryRingOps E :=
      { toSemiRingOps := S, neg := neg, negAssign := negAssign,
        sub := sub, subAssign := subAssign, times := times }
    Returns mp (A.int n) (rep · (n : R)) :=
  int_default hS.one htimes n hn

/-- The additive hypotheses are met by `ZZ`. -/
example : CommutativeMonoidSpec False Integers.integralDomain.toCommutativeMonoidOps ZRep ∧
    SemiRingSpec False Integers.integralDomain.toSemiRingOps ZRep :=
  ⟨Integers.unitaryRing_spec.toCommutativeMonoidSpec, Integers.unitaryRing_spec.toSemiRingSpec⟩

/-- The exponent -3 is allowed, on every target. -/
example : (-3 : ℤ) ≠ isizeMin := by
  have h : (2 : ℤ) ^ 31 ≤ 2 ^ (Cfg.ptrBits - 1) := by
    have := Cfg.ptrBits_ge
    exact pow_le_pow_right₀ (by norm_num) (by omega)
  unfold isizeMin
  omega

end groups

section fields

variable [Cfg] {E : Type} {R : Type u} [Field R] {mp : Prop} {rep : E → R → Prop}

/-- A type that implements `Field::inv` and inherits `div` and `power`. -/
def inheritField (U : UnitaryRingOps E) (inv : E → Res E) : FieldOps E :=
  { toUnitaryRingOps := U, inv := inv }

/-- C47: the inherited `Field::power` at non-zero elements. -/
theorem C47_field_power {U : UnitaryRingOps E} {inv : E → Res E} (hU : UnitaryRingSpec mp U rep)
    (n : ℤ) (hn : n ≠ isizeMin) {a : E} {x : R} (ha : rep a x) (hx : x ≠ 0) :
    Returns mp ((inheritField U inv).power n a) (rep · (x ^ n)) :=
  fieldPower_default (rep := rep) hU.isZero hU.one hU.mulAssign hU.square hU.tryInv n hn ha hx

/-- C47: the cube of `true` in the field with two elements. -/
example (inv : Bool → Res Bool) : Returns False
    ((inheritField TwoElementAlgebra.field.toUnitaryRingOps inv).power 3 true)
    (TwoElementAlgebra.FRep · 1) :=
  (C47_field_power TwoElementAlgebra.spec.toUnitaryRingSpec 3 (by have := isizeMin_neg; omega)
    (show TwoElementAlgebra.FRep true 1 from rfl) (by decide)).mono fun c hc => by
      rwa [one_zpow] at hc

/-- C47: the inherited `Field::power` returns zero at zero, for every exponent: also for
zero and negative ones. -/
theorem C47_field_power_zero {U : UnitaryRingOps E} {inv : E → Res E}
    (hU : UnitaryRingSpec mp U rep) (n : ℤ) {a : E} (ha : rep a 0) :
    Returns mp ((inheritField U inv).power n a) (rep · 0) :=
  fieldPower_zero (rep := rep) (c := fun a => powerDefault U.one U.mulAssign U.square
    (fun e => do Res.unwrap (← U.tryInv e)) n a) hU.isZero hU.zero ha

/-- C47: the inverse square of `false` in the field with two elements is `false`. -/
example (inv : Bool → Res Bool) : Returns False
    ((inheritField TwoElementAlgebra.field.toUnitaryRingOps inv).power (-2) false)
    (TwoElementAlgebra.FRep · 0) :=
  C47_field_power_zero TwoElementAlgebra.spec.toUnitaryRingSpec (-2) rfl

/-- C47: hence `power(0, 0)` is not the empty product, and `power(-1, 0)` does not panic. -/
theorem C47_zero_to_the_zero {U : UnitaryRingOps E} {inv : E → Res E}
    (hU : UnitaryRingSpec False U rep) {a : E} (ha : rep a 0) :
    (∃ b, (inheritField U inv).power 0 a = .ok b ∧ ¬ rep b ((0 : R) ^ (0 : ℤ))) ∧
    (inheritField U inv).power (-1) a ≠ .panic := by
  constructor
  · obtain ⟨b, hb, hb'⟩ := returns_false_iff.1 (C47_field_power_zero (inv := inv) hU 0 ha)
    refine ⟨b, hb, fun h => ?_⟩
    rw [zpow_zero] at h
    exact one_ne_zero (hU.rep_unique h hb')
  · obtain ⟨b, hb, _⟩ := returns_false_iff.1 (C47_field_power_zero (inv := inv) hU (-1) ha)
    rw [hb]
    exact fun h => by cases h

example : UnitaryRingSpec False TwoElementAlgebra.field.toUnitaryRingOps TwoElementAlgebra.FRep ∧
    TwoElementAlgebra.FRep false 0 :=
  ⟨TwoElementAlgebra.spec.toUnitaryRingSpec, rfl⟩

/-- C52: the inherited `Field::div`. -/
theorem C52_field_div {U : UnitaryRingOps E} {inv : E → Res E} (hU : UnitaryRingSpec mp U rep)
    (hinv : ∀ {a x}, rep a x → x ≠ 0 → Returns mp (inv a) (rep · x⁻¹))
    {a b : E} {x y : R} (ha : rep a x) (hb : rep b y) (hy : y ≠ 0) :
    Returns mp ((inheritField U inv).div a b) (rep · (x / y)) :=
  div_default hU.mul hinv ha hb hy

/-- C52: division by `true` in the field with two elements. -/
example : Returns False ((inheritField TwoElementAlgebra.field.toUnitaryRingOps
    TwoElementAlgebra.field.inv).div true true) (TwoElementAlgebra.FRep · (1 / 1)) :=
  C52_field_div TwoElementAlgebra.spec.toUnitaryRingSpec TwoElementAlgebra.spec.inv rfl rfl
    (by decide)

variable [DecidableEq R]

/-- C52: every field is a Euclidean domain through the blanket implementations. -/
theorem C52_field_euclidean {A : FieldOps E} (h : FieldSpec mp A rep) :
    EuclideanSpec mp A.toEuclidean rep := h.toEuclidean

example : EuclideanSpec False TwoElementAlgebra.field.toEuclidean TwoElementAlgebra.FRep :=
  C52_field_euclidean TwoElementAlgebra.spec

/-- C52: the values of the Euclidean methods of a field. -/
theorem C52_field_values {A : FieldOps E} (h : FieldSpec mp A rep) {a b : E} {x y : R}
    (ha : rep a x) (hb : rep b y) :
    (y ≠ 0 → Returns mp (A.toEuclidean.quoRem a b) fun p => rep p.1 (x / y) ∧ rep p.2 0) ∧
    (y = 0 → A.toEuclidean.quoRem a b = .panic ∧ A.toEuclidean.quo a b = .panic ∧
      A.toEuclidean.rem a b = .panic ∧ A.toEuclidean.tryDiv a b = .panic) ∧
    Returns mp (A.toEuclidean.gcd a b) (rep · (if x = 0 ∧ y = 0 then 0 else 1)) ∧
    Returns mp (A.toEuclidean.lcm a b) (rep · (if x = 0 ∨ y = 0 then 0 else 1)) ∧
    Decides mp (A.toEuclidean.divisible a b) (y = 0 → x = 0) ∧
    Decides mp (A.toEuclidean.associates a b) (x = 0 ↔ y = 0) ∧
    Decides mp (A.toEuclidean.reduced a b) (x = 0 ∨ y = 0) ∧
    Decides mp (A.toEuclidean.relativePrimes a b) (x ≠ 0 ∨ y ≠ 0) := by
  have he := h.toEuclidean
  refine ⟨fun hy => ?_, ?_, ?_, ?_, ?_, ?_, ?_, ?_⟩
  · have := he.quoRem ha hb hy
    rwa [field_mod_eq_zero hy] at this
  · rintro rfl
    exact ⟨he.quoRem_zero ha hb, he.quo_zero ha hb, he.rem_zero ha hb, he.tryDiv_zero ha hb⟩
  · exact Decides.ite (Decides.and (h.isZero ha) fun _ => h.isZero hb)
      (fun hxy => by rw [if_pos hxy]; exact h.zero) (fun hxy => by rw [if_neg hxy]; exact h.one)
  · exact Decides.ite (Decides.or (h.isZero ha) fun _ => h.isZero hb)
      (fun hxy => by rw [if_pos hxy]; exact h.zero) (fun hxy => by rw [if_neg hxy]; exact h.one)
  · exact (he.divisible ha hb).iff field_dvd_iff
  · refine (he.associates ha hb).iff ⟨fun h => h.eq_zero_iff, fun h => ?_⟩
    exact associated_of_dvd_dvd (field_dvd_iff.2 h.1) (field_dvd_iff.2 h.2)
  · refine (he.reduced ha hb).iff ?_
    rw [show (x / y = 0) ↔ _ from div_eq_zero_iff]; tauto
  · refine (he.relativePrimes ha hb).iff ⟨?_, ?_⟩
    · rintro ⟨s, t, hst⟩
      by_contra hxy
      push Not at hxy
      simp [hxy] at hst
    · rintro (hx | hy)
      · exact ⟨x⁻¹, 0, by simp [hx]⟩
      · exact ⟨0, y⁻¹, by simp [hy]⟩

/-- C52: the gcd of `true` and `false` is one. -/
example : Returns False (TwoElementAlgebra.field.toEuclidean.gcd true false)
    (TwoElementAlgebra.FRep · 1) :=
  (C52_field_values TwoElementAlgebra.spec (show TwoElementAlgebra.FRep true 1 from rfl)
    (show TwoElementAlgebra.FRep false 0 from rfl)).2.2.1

/-- C04: in a field `gcd` is overridden but `extended_gcd` is not: with a zero second operand
the former returns one and the latter the first operand. -/
theorem C04_field_gcd {A : FieldOps E} (h : FieldSpec False A rep) {a b : E} {x : R}
    (ha : rep a x) (hb : rep b 0) (hx : x ≠ 0) :
    (∃ g, A.toEuclidean.gcd a b = .ok g ∧ rep g 1) ∧
    (∃ s t, A.toEuclidean.extendedGcd a b = .ok (a, s, t) ∧ rep s 1 ∧ rep t 0) := by
  constructor
  · have := (C52_field_values h ha hb).2.2.1
    rw [if_neg (fun h => hx h.1)] at this
    exact returns_false_iff.1 this
  · obtain ⟨z, hz, hz'⟩ := returns_false_iff.1 (h.isZero hb)
    obtain ⟨s, hs, hs'⟩ := returns_false_iff.1 h.one
    obtain ⟨t, ht, ht'⟩ := returns_false_iff.1 h.zero
    refine ⟨s, t, ?_, hs', ht'⟩
    show extendedGcdDefault A.isZero A.one A.zero _ A.sub A.mul a b = _
    obtain rfl := hz'.2 rfl
    rw [extendedGcdDefault]
    have hs2 : A.one = .ok s := hs
    simp [hz, hs2, ht]

example : FieldSpec False TwoElementAlgebra.field TwoElementAlgebra.FRep ∧
    TwoElementAlgebra.FRep true 1 ∧ TwoElementAlgebra.FRep false 0 ∧ (1 : ZMod 2) ≠ 0 :=
  ⟨TwoElementAlgebra.spec, rfl, rfl, by decide⟩

end fields

section orders

variable {E : Type} {R : Type u} [PartialOrder R] {mp : Prop} {rep : E → R → Prop}

/-- C54: the inherited `less_than` and `comparable`. -/
theorem C54_less_than_comparable {D : DomainOps E} {leq : E → E → Res Bool}
    (hD : DomainSpec mp D rep)
    (hle : ∀ {a b x y}, rep a x → rep b y → Decides mp (leq a b) (x ≤ y))
    {a b : E} {x y : R} (ha : rep a x) (hb : rep b y) :
    let A : PartialOrderOps E := { toDomainOps := D, leq := leq }
    Decides mp (A.lessThan a b) (x ≤ y ∧ x ≠ y) ∧
    Decides mp (A.comparable a b) (x ≤ y ∨ y ≤ x) :=
  ⟨(lessThan_default (rep := rep) hD.equals hle ha hb).iff lt_iff_le_and_ne,
    comparable_default (rep := rep) hle ha hb⟩

example [Cfg] : DomainSpec False Integers.lattice.toDomainOps ZRep :=
  Integers.lattice_spec.toDomainSpec

end orders

end Abstalg
