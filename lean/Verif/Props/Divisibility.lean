import Verif.Proofs.Divisibility
import Verif.Proofs.Integers
import Verif.Proofs.CheckedRefines
import Verif.Proofs.Field

/-! # The divisibility order: C48, C49, C57 -/

set_option linter.unusedSectionVars false

set_option autoImplicit false

universe u

namespace Abstalg

variable [Cfg] {E : Type} {R : Type u} {mp : Prop} {rep : E → R → Prop}

section

variable [EuclideanDomain R] [NormalizationMonoid R] {base : EuclideanDomainOps E}

/-- C48: the canonical elements form the lattice of the classes of associated elements: `leq` is
divisibility, `meet` the greatest lower and `join` the least upper bound, again canonical. -/
theorem C48_lattice (h : EuclideanSpec mp base rep) :
    LatticeSpec mp (DivisibilityOrder.lattice base) (AssocRep rep) :=
  DivisibilityOrder.lattice_spec h

example : LatticeSpec False (DivisibilityOrder.lattice Integers.euclidean) (AssocRep ZRep) :=
  C48_lattice Integers.euclidean_spec

/-- C48: in terms of elements, `meet` returns the canonical greatest common divisor and `join` the
canonical least common multiple. -/
theorem C48_gcd_lcm (h : EuclideanSpec mp base rep) {a b : E} {x y : R} (ha : rep a x)
    (hb : rep b y) :
    Returns mp ((DivisibilityOrder.lattice base).meet a b)
      (fun c => ∃ g, rep c g ∧ normalize g = g ∧ IsGcd x y g) ∧
    Returns mp ((DivisibilityOrder.lattice base).join a b)
      (fun c => ∃ m, rep c m ∧ normalize m = m ∧ IsLcm x y m) := by
  constructor
  · refine Returns.bind (h.gcd ha hb) fun c ⟨g, hc, h1, h2, h3⟩ => (h.associateRepr hc).mono
      fun d hd => ⟨_, hd, normalize_idem g, ?_⟩
    exact ⟨normalize_dvd_iff.2 h1, normalize_dvd_iff.2 h2, fun d h4 h5 =>
      dvd_normalize_iff.2 (h3 d h4 h5)⟩
  · refine Returns.bind (h.lcm ha hb) fun c ⟨g, hc, h1, h2, h3⟩ => (h.associateRepr hc).mono
      fun d hd => ⟨_, hd, normalize_idem g, ?_⟩
    exact ⟨dvd_normalize_iff.2 h1, dvd_normalize_iff.2 h2, fun d h4 h5 =>
      normalize_dvd_iff.2 (h3 d h4 h5)⟩

/-- C48: the canonical gcd of -12 and 18, which are not both members, is not negative. -/
example : Returns False ((DivisibilityOrder.lattice Integers.euclidean).meet (-12) 18)
    (fun c => ∃ g, ZRep c g ∧ normalize g = g ∧ IsGcd (-12) 18 g) :=
  (C48_gcd_lcm Integers.euclidean_spec (show ZRep (-12) (-12) from rfl)
    (show ZRep 18 18 from rfl)).1

/-- C48: `meet` distributes over `join`: the two sides, computed by the operations, are found equal
by `equals`. -/
theorem C48_meet_distributes (h : EuclideanSpec mp base rep) {a b c : E} {x y z : Associates R}
    (ha : AssocRep rep a x) (hb : AssocRep rep b y) (hc : AssocRep rep c z) :
    Returns mp (do
      let l ← (DivisibilityOrder.lattice base).meet a (← (DivisibilityOrder.lattice base).join b c)
      let p ← (DivisibilityOrder.lattice base).meet a b
      let q ← (DivisibilityOrder.lattice base).meet a c
      (DivisibilityOrder.lattice base).equals l (← (DivisibilityOrder.lattice base).join p q))
      (· = true) := by
  let _ := associatesDistrib (R := R)
  have hL := C48_lattice h
  have hinf : ∀ {p q r : Associates R}, IsGLB {p, q} r → r = p ⊓ q := fun h => h.unique isGLB_pair
  have hsup : ∀ {p q r : Associates R}, IsLUB {p, q} r → r = p ⊔ q := fun h => h.unique isLUB_pair
  refine Returns.bind (hL.join hb hc) fun d ⟨u, hd, hu⟩ => Returns.bind (hL.meet ha hd)
    fun l ⟨v, hl, hv⟩ => Returns.bind (hL.meet ha hb) fun p ⟨w, hp, hw⟩ =>
    Returns.bind (hL.meet ha hc) fun q ⟨s, hq, hs⟩ => Returns.bind (hL.join hp hq)
    fun r ⟨t, hr, ht⟩ => (hL.equals hl hr).mono fun e he => he.2 ?_
  rw [hinf hv, hsup hu, hsup ht, hinf hw, hinf hs]
  exact inf_sup_left x y z

example : EuclideanSpec False Integers.euclidean ZRep ∧ AssocRep ZRep 4 (Associates.mk (4 : ℤ)) ∧
    AssocRep ZRep 6 (Associates.mk (6 : ℤ)) ∧ AssocRep ZRep 0 (Associates.mk (0 : ℤ)) :=
  ⟨Integers.euclidean_spec, ⟨4, rfl, rfl, rfl⟩, ⟨6, rfl, rfl, rfl⟩, ⟨0, rfl, normalize_zero, rfl⟩⟩

/-- C48: `join` distributes over `meet`. -/
theorem C48_join_distributes (h : EuclideanSpec mp base rep) {a b c : E} {x y z : Associates R}
    (ha : AssocRep rep a x) (hb : AssocRep rep b y) (hc : AssocRep rep c z) :
    Returns mp (do
      let l ← (DivisibilityOrder.lattice base).join a (← (DivisibilityOrder.lattice base).meet b c)
      let p ← (DivisibilityOrder.lattice base).join a b
      let q ← (DivisibilityOrder.lattice base).join a c
      (DivisibilityOrder.lattice base).equals l (← (DivisibilityOrder.lattice base).meet p q))
      (· = true) := by
  let _ := associatesDistrib (R := R)
  have hL := C48_lattice h
  have hinf : ∀ {p q r : Associates R}, IsGLB {p, q} r → r = p ⊓ q := fun h => h.unique isGLB_pair
  have hsup : ∀ {p q r : Associates R}, IsLUB {p, q} r → r = p ⊔ q := fun h => h.unique isLUB_pair
  refine Returns.bind (hL.meet hb hc) fun d ⟨u, hd, hu⟩ => Returns.bind (hL.join ha hd)
    fun l ⟨v, hl, hv⟩ => Returns.bind (hL.join ha hb) fun p ⟨w, hp, hw⟩ =>
    Returns.bind (hL.join ha hc) fun q ⟨s, hq, hs⟩ => Returns.bind (hL.meet hp hq)
    fun r ⟨t, hr, ht⟩ => (hL.equals hl hr).mono fun e he => he.2 ?_
  rw [hsup hv, hinf hu, hinf ht, hsup hw, hsup hs]
  exact sup_inf_left x y z

/-- C48 for the members 4, 6 and 9 of the divisibility order of the integers. -/
example : Returns False (do
      let l ← (DivisibilityOrder.lattice Integers.euclidean).join 4
        (← (DivisibilityOrder.lattice Integers.euclidean).meet 6 9)
      let p ← (DivisibilityOrder.lattice Integers.euclidean).join 4 6
      let q ← (DivisibilityOrder.lattice Integers.euclidean).join 4 9
      (DivisibilityOrder.lattice Integers.euclidean).equals l
        (← (DivisibilityOrder.lattice Integers.euclidean).meet p q)) (· = true) :=
  C48_join_distributes Integers.euclidean_spec (rep := ZRep)
    ⟨4, rfl, rfl, rfl⟩ ⟨6, rfl, rfl, rfl⟩ ⟨9, rfl, rfl, rfl⟩

end

section

variable [CommRing R] [IsDomain R] [NormalizationMonoid R] {base : IntegralDomainOps E}

/-- C48: the order is bounded for every integral domain. -/
theorem C48_bounded_order (h : IntegralDomainSpec mp base rep) :
    BoundedOrderSpec mp (DivisibilityOrder.boundedOrder base) (AssocRep rep) :=
  DivisibilityOrder.boundedOrder_spec h

example : IntegralDomainSpec False Integers.integralDomain ZRep ∧
    (DivisibilityOrder.boundedOrder Integers.integralDomain).max = .ok 0 ∧
    (DivisibilityOrder.boundedOrder Integers.integralDomain).min = .ok 1 ∧
    (DivisibilityOrder.boundedOrder Integers.integralDomain).leq 3 12 = .ok true :=
  ⟨Integers.integralDomain_spec, rfl, rfl, rfl⟩

/-- C48: the least element is one and the largest is zero. -/
theorem C48_bounds (h : IntegralDomainSpec mp base rep) :
    Returns mp (DivisibilityOrder.boundedOrder base).min (rep · 1) ∧
    Returns mp (DivisibilityOrder.boundedOrder base).max (rep · 0) :=
  ⟨h.one, h.zero⟩

example : Returns False (DivisibilityOrder.boundedOrder Integers.integralDomain).max (ZRep · 0) :=
  (C48_bounds Integers.integralDomain_spec).2

/-- C49: on elements of the base `contains` holds exactly for zero and for the elements that are
their own representative. -/
theorem C49_contains (h : IntegralDomainSpec mp base rep) {a : E} {x : R} (ha : rep a x) :
    Decides mp ((DivisibilityOrder.boundedOrder base).contains a) (x = 0 ∨ normalize x = x) := by
  refine (DivisibilityOrder.contains_spec h ha).iff ⟨.inr, ?_⟩
  rintro (rfl | h)
  · exact normalize_zero
  · exact h

/-- C49: -5 is not its own representative. -/
example : Returns False ((DivisibilityOrder.boundedOrder Integers.integralDomain).contains (-5))
    (· = false) :=
  (C49_contains Integers.integralDomain_spec (show ZRep (-5) (-5) from rfl)).mono
    fun b h => by
      have : ¬ ((-5 : ℤ) = 0 ∨ normalize (-5 : ℤ) = -5) := by decide
      rw [← Bool.not_eq_true, h]
      exact this

/-- C49: relative to the classes, `contains` is exact. -/
theorem C49_exact (h : IntegralDomainSpec mp base rep) :
    ContainsExact mp (DivisibilityOrder.boundedOrder base).toDomainOps (AssocRep rep)
      fun a => ∃ x, rep a x := by
  rintro a ⟨x, ha⟩
  refine (DivisibilityOrder.contains_spec h ha).iff ⟨fun h1 => ⟨_, x, ha, h1, rfl⟩, ?_⟩
  rintro ⟨c, hc⟩
  exact (DivisibilityOrder.assocRep_unique h ha hc).1

example : ContainsExact False
    (DivisibilityOrder.boundedOrder Integers.integralDomain).toDomainOps (AssocRep ZRep)
      fun a => ∃ x, ZRep a x := C49_exact Integers.integralDomain_spec

/-- C49: every class has exactly one canonical element. -/
theorem C49_unique_member (c : Associates R) : ∃! x : R, normalize x = x ∧ Associates.mk x = c := by
  obtain ⟨x, rfl⟩ := Associates.mk_surjective c
  refine ⟨normalize x, ⟨normalize_idem x, associates_mk_normalize x⟩, ?_⟩
  rintro y ⟨h1, h2⟩
  refine (DivisibilityOrder.eq_of_mk_eq h1 (normalize_idem x)).2 ?_
  rw [h2, associates_mk_normalize]

example : ∃! x : ℤ, normalize x = x ∧ Associates.mk x = Associates.mk (-7) := C49_unique_member _

/-- C49: `leq` is antisymmetric on members. -/
theorem C49_antisymmetric (h : IntegralDomainSpec False base rep) {a b : E}
    {x y : R} (ha : rep a x) (hb : rep b y)
    (h1 : (DivisibilityOrder.boundedOrder base).contains a = .ok true)
    (h2 : (DivisibilityOrder.boundedOrder base).contains b = .ok true)
    (h3 : (DivisibilityOrder.boundedOrder base).leq a b = .ok true)
    (h4 : (DivisibilityOrder.boundedOrder base).leq b a = .ok true) :
    x = y ∧ (DivisibilityOrder.boundedOrder base).equals a b = .ok true := by
  have hm : ∀ {a : E} {x : R}, rep a x →
      (DivisibilityOrder.boundedOrder base).contains a = .ok true → AssocRep rep a (Associates.mk x) := by
    intro a x ha h1
    have := DivisibilityOrder.contains_spec h ha
    rw [show (DivisibilityOrder.domain base).contains a = .ok true from h1] at this
    exact ⟨x, ha, this.1 rfl, rfl⟩
  have hA := C48_bounded_order h
  have e1 := hA.leq (hm ha h1) (hm hb h2)
  have e2 := hA.leq (hm hb h2) (hm ha h1)
  rw [h3] at e1
  rw [h4] at e2
  have e3 : Associates.mk x = Associates.mk y := le_antisymm (e1.1 rfl) (e2.1 rfl)
  obtain ⟨-, -, hx, -⟩ := hm ha h1
  have hx := (DivisibilityOrder.assocRep_unique h ha (hm ha h1)).1
  have hy := (DivisibilityOrder.assocRep_unique h hb (hm hb h2)).1
  have hxy := (DivisibilityOrder.eq_of_mk_eq hx hy).2 e3
  refine ⟨hxy, ?_⟩
  obtain ⟨b, hb, hb'⟩ := returns_false_iff.1 (hA.equals (hm ha h1) (hm hb h2))
  rw [hb, hb'.2 e3]

/-- The hypotheses are met by 12 and 12, and by nothing else with 12. -/
example : IntegralDomainSpec False Integers.integralDomain ZRep ∧
    (DivisibilityOrder.boundedOrder Integers.integralDomain).contains 12 = .ok true ∧
    (DivisibilityOrder.boundedOrder Integers.integralDomain).leq 12 12 = .ok true ∧
    (DivisibilityOrder.boundedOrder Integers.integralDomain).leq 24 12 = .ok false :=
  ⟨Integers.integralDomain_spec, rfl, rfl, rfl⟩

end

section examples

/-- C48 for all integers, members or not. -/
theorem C48_integers (a b : ℤ) :
    (DivisibilityOrder.lattice Integers.euclidean).meet a b = .ok (Int.gcd a b : ℤ) ∧
    (DivisibilityOrder.lattice Integers.euclidean).join a b = .ok (Int.lcm a b : ℤ) := by
  obtain ⟨h1, h2⟩ := C48_gcd_lcm (Integers.euclidean_spec) (a := a) (b := b) rfl rfl
  obtain ⟨c, hc, g, hg, h3, h4, h5, h6⟩ := returns_false_iff.1 h1
  obtain ⟨d, hd, m, hm, h7, h8, h9, h10⟩ := returns_false_iff.1 h2
  have nonneg : ∀ {x : ℤ}, normalize x = x → 0 ≤ x := fun h => by
    rw [← h, ← Int.abs_eq_normalize]; exact abs_nonneg _
  obtain rfl : c = g := hg
  obtain rfl : d = m := hm
  rw [hc, hd]
  constructor
  · refine congrArg _ (Int.dvd_antisymm (nonneg h3) (by positivity) (Int.dvd_coe_gcd h4 h5) ?_)
    exact h6 _ (Int.gcd_dvd_left ..) (Int.gcd_dvd_right ..)
  · refine congrArg _ (Int.dvd_antisymm (nonneg h7) (by positivity) ?_ (Int.coe_lcm_dvd h8 h9))
    exact h10 _ (Int.dvd_lcm_left ..) (Int.dvd_lcm_right ..)

/-- The meet of 12 and 18 is 6 and their join is 36. -/
example : (DivisibilityOrder.lattice Integers.euclidean).meet 12 18 = .ok 6 ∧
    (DivisibilityOrder.lattice Integers.euclidean).join 12 18 = .ok 36 := C48_integers 12 18

/-- Members of the divisibility order of the integers are not negative. -/
example : AssocRep ZRep 12 (Associates.mk (12 : ℤ)) ∧
    (DivisibilityOrder.lattice Integers.euclidean).contains 12 = .ok true ∧
    (DivisibilityOrder.lattice Integers.euclidean).contains (-12) = .ok false :=
  ⟨⟨12, rfl, rfl, rfl⟩, rfl, rfl⟩

/-- C57: the divisibility order of machine integers never returns a wrong result. -/
theorem C57_checked_divisibility {w : ℕ} [Width w] :
    LatticeSpec True (DivisibilityOrder.lattice (CheckedInts.euclidean w))
      (AssocRep fun (a : SInt w) (x : ℤ) => a.1 = x) :=
  C48_lattice (CheckedInts.euclidean_spec w)

/-- C57: 100 and 64 are canonical in 8 bits; their join, 1600, is not representable. -/
example : AssocRep (fun (a : SInt 8) (x : ℤ) => a.1 = x) (SInt.lit 100 (by decide))
    (Associates.mk 100) := ⟨100, rfl, rfl, rfl⟩

end examples

end Abstalg
