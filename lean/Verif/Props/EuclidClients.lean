import Verif.Proofs.EuclidClients
import Verif.Props.Clients
import Verif.Props.Polynomials
import Verif.Props.Integers
import Verif.Proofs.Agreement
import Verif.Props.Fractions
import Verif.Props.CheckedInts
import Verif.Props.PolyGcd

/-! # C99: which greatest common divisor, and programs that use a Euclidean domain -/

set_option autoImplicit false

set_option linter.unusedSectionVars false

universe u

namespace Abstalg

open Polynomial

section

variable [Cfg] {E F : Type} {R : Type u} {mp : Prop} {rep : E → R → Prop} {rep' : F → R → Prop}
  [EuclideanDomain R] [NormalizationMonoid R] {A : EuclideanDomainOps E} {B : EuclideanDomainOps F}

/-! ## The methods -/

/-- C99: among the greatest common divisors `gcd` finds the one of Mathlib, with the operands exchanged. -/
theorem C99_gcd [DecidableEq R] (h : EuclideanSpec mp A rep) (hp : ProvidedGcd A) {a b : E} {x y : R} (ha : rep a x) (hb : rep b y) :
    Returns mp (A.gcd a b) (rep · (EuclideanDomain.gcd y x)) := by
  rw [hp.gcd]; exact gcdDefault_exact (rep := rep) h.isZero h.rem ha hb

/-- C99: the same for the least common multiple. -/
theorem C99_lcm [DecidableEq R] (h : EuclideanSpec mp A rep) (hp : ProvidedGcd A) {a b : E} {x y : R} (ha : rep a x) (hb : rep b y) :
    Returns mp (A.lcm a b) (rep · (EuclideanDomain.lcm y x)) := by
  rw [hp.lcm]
  refine Returns.bind (C99_gcd h hp ha hb) fun g hg => Decides.bind (h.isZero hg) (fun h0 => ?_) fun h0 => ?_
  · have : EuclideanDomain.lcm y x = EuclideanDomain.gcd y x := by
      rw [h0]; rw [EuclideanDomain.gcd_eq_zero_iff] at h0; rw [h0.1, EuclideanDomain.lcm_zero_left]
    rw [this]; exact hg
  · simp only [Bool.false_eq_true, if_false]
    refine Returns.bind (h.quo ha hg h0) fun q hq => ?_
    rw [show EuclideanDomain.lcm y x = x / EuclideanDomain.gcd y x * y by
      rw [EuclideanDomain.lcm, EuclideanDomain.mul_div_assoc _ (EuclideanDomain.gcd_dvd_right y x), mul_comm]]
    exact h.mul hq hb

/-- C99: `extended_gcd` finds the coefficients of Mathlib. -/
theorem C99_extended_gcd [DecidableEq R] (h : EuclideanSpec mp A rep)
    (he : A.extendedGcd = extendedGcdDefault A.isZero A.one A.zero A.quoRem A.sub A.mul) {a b : E} {x y : R} (ha : rep a x)
    (hb : rep b y) : Returns mp (A.extendedGcd a b) fun c =>
      rep c.1 (EuclideanDomain.gcd y x) ∧ rep c.2.1 (EuclideanDomain.gcdB y x) ∧ rep c.2.2 (EuclideanDomain.gcdA y x) := by
  rw [he]
  exact extendedGcdDefault_exact (rep := rep) h.isZero h.one h.zero h.quoRem h.sub h.mul ha hb

/-- C99: so two implementations of the same Euclidean domain find the same divisors, multiples and coefficients, not only up to units: this
completes C84. -/
theorem C99_agreement (hA : EuclideanSpec mp A rep) (hB : EuclideanSpec False B rep') (pA : ProvidedGcd A) (pB : ProvidedGcd B)
    {a b : E} {a' b' : F} (ha : Same rep rep' a a') (hb : Same rep rep' b b') :
    Follows (Same rep rep') (A.gcd a b) (B.gcd a' b') ∧ Follows (Same rep rep') (A.lcm a b) (B.lcm a' b') ∧
    Follows (fun c d => Same rep rep' c.1 d.1 ∧ Same rep rep' c.2.1 d.2.1 ∧ Same rep rep' c.2.2 d.2.2) (A.extendedGcd a b)
      (B.extendedGcd a' b') := by
  classical
  obtain ⟨x, ha, ha'⟩ := ha
  obtain ⟨y, hb, hb'⟩ := hb
  refine ⟨returns_follows (C99_gcd hA pA ha hb) (C99_gcd hB pB ha' hb'),
    returns_follows (C99_lcm hA pA ha hb) (C99_lcm hB pB ha' hb'), fun c hc => ?_⟩
  have h1 := C99_extended_gcd hA pA.extendedGcd ha hb
  rw [hc] at h1
  obtain ⟨d, hd, h2⟩ := returns_false_iff.1 (C99_extended_gcd hB pB.extendedGcd ha' hb')
  exact ⟨d, hd, ⟨_, h1.1, h2.1⟩, ⟨_, h1.2.1, h2.2.1⟩, ⟨_, h1.2.2, h2.2.2⟩⟩

/-! ## Programs -/

open scoped Classical

theorem computes_euclidean (h : EuclideanSpec mp A rep) {g l : R → R → R}
    (hg : ∀ {a b x y}, rep a x → rep b y → Returns mp (A.gcd a b) (rep · (g x y)))
    (hl : ∀ {a b x y}, rep a x → rep b y → Returns mp (A.lcm a b) (rep · (l x y)))
    (he : A.extendedGcd = extendedGcdDefault A.isZero A.one A.zero A.quoRem A.sub A.mul) :
    Computes mp EuclideanMethod.Fits rep (EuclideanMethod.table A) (EuclideanMethod.meaningWith g l) := by
  intro i hi a b x y ha hb
  cases i with
  | ring m => exact C97_rings h.toUnitaryRingSpec m hi a b x y ha hb
  | tryDiv =>
    show match (if y = 0 then none else if y ∣ x then element (x / y) else some .missing : Option (Reply R)) with
      | some r => _ | none => _
    by_cases hy : y = 0
    · subst hy
      rw [if_pos rfl]
      show (A.tryDiv a b).option = _
      rw [show A.tryDiv a b = .panic from h.tryDiv_zero ha hb]; rfl
    · rw [if_neg hy]
      by_cases hd : y ∣ x
      · rw [if_pos hd]
        refine option_rel (o := some (x / y)) ((h.tryDiv ha hb hy).mono fun o ho => ?_)
        cases o with
        | none => exact absurd hd ho
        | some c =>
          obtain ⟨z, hc, rfl⟩ := ho
          rw [mul_div_cancel_left₀ _ hy]; exact .some hc
      · rw [if_neg hd]
        refine option_rel (o := none) ((h.tryDiv ha hb hy).mono fun o ho => ?_)
        cases o with
        | none => exact .none
        | some c =>
          obtain ⟨z, hc, rfl⟩ := ho
          exact absurd ⟨z, rfl⟩ hd
  | divisible => exact answer_rel (h.divisible ha hb)
  | associates => exact answer_rel (h.associates ha hb)
  | associateRepr => exact element_rel (h.associateRepr ha)
  | associateCoef =>
    show match (if x = 0 then none else element (normUnit x : R) : Option (Reply R)) with | some r => _ | none => _
    by_cases hx : x = 0
    · subst hx
      rw [if_pos rfl]
      show (A.associateCoef a).element = _
      rw [show A.associateCoef a = .panic from h.associateCoef_zero ha]; rfl
    · rw [if_neg hx]; exact element_rel (h.associateCoef ha hx)
  | quoRem =>
    show match (if y = 0 then none else some (.elements [x / y, x % y]) : Option (Reply R)) with | some r => _ | none => _
    by_cases hy : y = 0
    · subst hy
      rw [if_pos rfl]
      show (do let p ← A.quoRem a b; return .elements [p.1, p.2] : Res (Reply E)) = _
      rw [show A.quoRem a b = .panic from h.quoRem_zero ha hb]; rfl
    · rw [if_neg hy]
      exact Returns.bind (h.quoRem ha hb hy) fun p hp => .cons hp.1 (.cons hp.2 .nil)
  | quo =>
    show match (if y = 0 then none else element (x / y) : Option (Reply R)) with | some r => _ | none => _
    by_cases hy : y = 0
    · subst hy
      rw [if_pos rfl]
      show (A.quo a b).element = _
      rw [show A.quo a b = .panic from h.quo_zero ha hb]; rfl
    · rw [if_neg hy]; exact element_rel (h.quo ha hb hy)
  | rem =>
    show match (if y = 0 then none else element (x % y) : Option (Reply R)) with | some r => _ | none => _
    by_cases hy : y = 0
    · subst hy
      rw [if_pos rfl]
      show (A.rem a b).element = _
      rw [show A.rem a b = .panic from h.rem_zero ha hb]; rfl
    · rw [if_neg hy]; exact element_rel (h.rem ha hb hy)
  | reduced => exact answer_rel (h.reduced ha hb)
  | gcd => exact element_rel (hg ha hb)
  | lcm => exact element_rel (hl ha hb)
  | extendedGcd =>
    exact Returns.bind (C99_extended_gcd h he ha hb) fun p hp => .cons hp.1 (.cons hp.2.1 (.cons hp.2.2 .nil))
  | relativePrimes => exact answer_rel (h.relativePrimes ha hb)

/-- C99: every method of a Euclidean domain, in the form that C97 needs. -/
theorem C99_euclidean (h : EuclideanSpec mp A rep) (hp : ProvidedGcd A) :
    Computes mp EuclideanMethod.Fits rep (EuclideanMethod.table A) EuclideanMethod.meaning :=
  computes_euclidean h (C99_gcd h hp) (C99_lcm h hp) hp.extendedGcd

end

/-! ## Implementations of the crate -/

section crate

variable [Cfg]

/-- C99: `ZZ`, machine integers and polynomials have no `gcd`, `lcm` or `extended_gcd` of their own. -/
theorem C99_provided {E : Type} (base : FieldOps E) (w : ℕ) [Width w] :
    ProvidedGcd Integers.euclidean ∧ ProvidedGcd (CheckedInts.euclidean w) ∧ ProvidedGcd (PolynomialAlgebra.euclidean base) :=
  ⟨⟨rfl, rfl, rfl⟩, ⟨rfl, rfl, rfl⟩, ⟨rfl, rfl, rfl⟩⟩

/-- C99: every method of a field as a Euclidean domain. Fields have their own `gcd` and `lcm`, which return zero or one, but the provided
`extended_gcd`, whose first result need not be the one of `gcd`. -/
theorem C99_fields {E : Type} {R : Type u} [Field R] [DecidableEq R] {mp : Prop} {rep : E → R → Prop} {A : FieldOps E} (h : FieldSpec mp A rep) :
    Computes mp EuclideanMethod.Fits rep (EuclideanMethod.table A.toEuclidean) EuclideanMethod.meaningField := by
  refine computes_euclidean h.toEuclidean (fun ha hb => ?_) (fun ha hb => ?_) rfl
  · convert (C52_field_values h ha hb).2.2.1
  · convert (C52_field_values h ha hb).2.2.2.1

/-- C99: a program that uses `ZZ` computes with integers as Mathlib has them. -/
theorem C99_integers (C : Client EuclideanMethod) (hC : C.Only EuclideanMethod.Fits) (n : ℕ) (c : C.Q × (ℕ → ℤ)) :
    C.run (EuclideanMethod.table Integers.euclidean) true n c = .ok (C.idealRun EuclideanMethod.meaning n c) := by
  obtain ⟨d, h1, h2, h3⟩ := C97_caught C (C99_euclidean C02_integers_ring (C99_provided TwoElementAlgebra.field 8).1) hC n (c := c) (x := c)
    ⟨rfl, fun _ => rfl⟩
  rw [h1, show d = _ from Prod.ext h2 (funext h3)]

/-- C99: no program can tell polynomials over two implementations of the same field apart. -/
theorem C99_polynomials (C : Client EuclideanMethod) (hC : C.Only EuclideanMethod.Fits) {E F : Type} {R : Type u} [Field R]
    [DecidableEq R] {rep : E → R → Prop} {rep' : F → R → Prop} {A : FieldOps E} {B : FieldOps F} (hA : FieldSpec False A rep) (hB : FieldSpec False B rep')
    (n : ℕ) {q : C.Q} {f : ℕ → List E} {g : ℕ → List F} (hfg : ∀ i, Same (RingPolyRep rep) (RingPolyRep rep') (f i) (g i)) :
    ∃ q' f' g', C.run (EuclideanMethod.table (PolynomialAlgebra.euclidean A)) true n (q, f) = .ok (q', f') ∧
      C.run (EuclideanMethod.table (PolynomialAlgebra.euclidean B)) true n (q, g) = .ok (q', g') ∧
      ∀ i, Same (RingPolyRep rep) (RingPolyRep rep') (f' i) (g' i) :=
  C97_indistinguishable C (C99_euclidean (C34_polynomial_euclidean hA) (C99_provided A 8).2.2)
    (C99_euclidean (C34_polynomial_euclidean hB) (C99_provided B 8).2.2) hC n hfg

/-- C99: a program over machine integers computes with integers as Mathlib has them until the first panic, and no call runs forever. -/
theorem C99_machine_integers (C : Client EuclideanMethod) (hC : C.Only EuclideanMethod.Fits) (w : ℕ) [Width w] (n : ℕ) (q : C.Q)
    (f : ℕ → SInt w) :
    Returns True (C.run (EuclideanMethod.table (CheckedInts.euclidean w)) false n (q, f)) fun c =>
      (c.1, fun i => (c.2 i).1) = C.idealRun EuclideanMethod.meaning n (q, fun i => (f i).1) := by
  refine (C97_uncaught C (C99_euclidean (C11_checked_ints_contract w) (C99_provided TwoElementAlgebra.field w).2.1) hC n
    (c := (q, f)) (x := (q, fun i => (f i).1)) ⟨rfl, fun _ => rfl⟩).mono fun c hc => ?_
  exact Prod.ext hc.1 (funext hc.2)

end crate

/-! ## Examples -/

namespace EuclidClientExamples

local instance : Cfg := ⟨true, true, 64, by decide⟩

/-- The steps of Euclid's algorithm for -12 and 18. -/
theorem gcd_example : EuclideanDomain.gcd (18 : ℤ) (-12) = 6 ∧ EuclideanDomain.gcdB (18 : ℤ) (-12) = 1 ∧
    EuclideanDomain.gcdA (18 : ℤ) (-12) = 1 := by
  have h1 : (-12 % 18 : ℤ) = 6 := by decide
  have h2 : (18 % 6 : ℤ) = 0 := by decide
  have h3 : (-12 / 18 : ℤ) = -1 := by decide
  have h4 : (18 / 6 : ℤ) = 3 := by decide
  refine ⟨?_, ?_, ?_⟩
  · rw [EuclideanDomain.gcd_val, h1, EuclideanDomain.gcd_val, h2, EuclideanDomain.gcd_zero_left]
  · rw [gcdB_step (by decide), h1, gcdA_step (by decide), h2, EuclideanDomain.gcdA_zero_left, EuclideanDomain.gcdB_zero_left]; decide
  · rw [gcdA_step (by decide), h1, h3, gcdA_step (by decide), gcdB_step (by decide), h2, EuclideanDomain.gcdA_zero_left,
      EuclideanDomain.gcdB_zero_left]; decide

-- the divisor and the coefficients that `ZZ` finds, and those in eight bits if there is no overflow
example : Integers.euclidean.gcd (-12) 18 = .ok 6 := by
  obtain ⟨c, h1, h2⟩ := returns_false_iff.1 (C99_gcd C02_integers_ring (C99_provided TwoElementAlgebra.field 8).1 (a := -12) (b := 18) rfl rfl)
  rw [h1, show c = 6 from h2.trans gcd_example.1]
example : Integers.euclidean.extendedGcd (-12) 18 = .ok (6, 1, 1) := by
  obtain ⟨⟨c, d, e⟩, h1, h2, h3, h4⟩ := returns_false_iff.1 (C99_extended_gcd C02_integers_ring
    (C99_provided TwoElementAlgebra.field 8).1.extendedGcd (a := -12) (b := 18) rfl rfl)
  rw [h1, show c = 6 from h2.trans gcd_example.1, show d = 1 from h3.trans gcd_example.2.1, show e = 1 from h4.trans gcd_example.2.2]
example : Integers.euclidean.lcm (-12) 18 = .ok (-36) := by
  obtain ⟨c, h1, h2⟩ := returns_false_iff.1 (C99_lcm C02_integers_ring (C99_provided TwoElementAlgebra.field 8).1 (a := -12) (b := 18) rfl rfl)
  have h3 : c = 18 * -12 / EuclideanDomain.gcd (18 : ℤ) (-12) := h2
  rw [gcd_example.1] at h3
  rw [h1, h3]; rfl
example := C99_agreement (C11_checked_ints_contract 8) C02_integers_ring (C99_provided TwoElementAlgebra.field 8).2.1
  (C99_provided TwoElementAlgebra.field 8).1 (a := SInt.lit (-12) (by decide)) (b := SInt.lit 18 (by decide)) (a' := -12) (b' := 18)
  ⟨-12, rfl, rfl⟩ ⟨18, rfl, rfl⟩

/-- A program that reduces the fraction of registers 0 and 1: it divides both by their greatest common divisor in register 2, and stops early
if there is a panic. -/
def reducer : Client EuclideanMethod where
  Q := List Seen
  act
    | [] => some (.gcd, 0, 1, 2)
    | [.found] => some (.quo, 0, 2, 0)
    | [.found, .found] => some (.quo, 1, 2, 1)
    | _ => none
  next q e := q ++ [e]

theorem reducer_only : reducer.Only EuclideanMethod.Fits := by
  intro q i a b d h
  rcases q with _ | ⟨_ | _ | _ | _, _ | ⟨_ | _ | _ | _, _ | _⟩⟩ <;> cases h <;> trivial

-- zero over zero: there is a divisor, zero, and the division panics
example : ∃ f, reducer.run (EuclideanMethod.table Integers.euclidean) true 9 ([], fun _ => 0) = .ok ([.found, .panicked], f) ∧ f 2 = 0 := by
  rw [C99_integers reducer reducer_only]
  have h0 : EuclideanMethod.gcd.meaning (0 : ℤ) 0 = some (.elements [0]) := by
    classical exact congrArg element (@EuclideanDomain.gcd_zero_left ℤ _ (fun a b => Classical.propDecidable (a = b)) 0)
  have h1 : EuclideanMethod.quo.meaning (0 : ℤ) 0 = none := if_pos rfl
  have s0 : reducer.ideal EuclideanMethod.meaning (([] : List Seen), fun _ => (0 : ℤ)) = ([.found], fun _ => 0) := by
    simp only [Client.ideal, reducer, h0]; refine Prod.ext rfl (funext fun i => ?_); show (if i = 2 then (0 : ℤ) else 0) = 0; split <;> rfl
  have s1 : reducer.ideal EuclideanMethod.meaning (([.found] : List Seen), fun _ => (0 : ℤ)) = ([.found, .panicked], fun _ => 0) := by
    simp only [Client.ideal, reducer, h1]; rfl
  refine ⟨fun _ => 0, ?_, rfl⟩
  exact (congrArg (fun c => Res.ok (reducer.idealRun EuclideanMethod.meaning 7 (reducer.ideal EuclideanMethod.meaning c))) s0).trans
    (congrArg (fun c => Res.ok (reducer.idealRun EuclideanMethod.meaning 7 c)) s1)

-- polynomials over `GF2` and over `BB`
example (n : ℕ) := C99_polynomials reducer reducer_only C24_GF2 C46_two_field n (q := [])
  (f := fun _ => [SInt.lit 1 (by decide), SInt.lit 1 (by decide)]) (g := fun _ => [true, true]) fun _ =>
    ⟨polyOf [1, 1], polyOf_rep (.cons ⟨by decide, by decide, rfl⟩ (.cons ⟨by decide, by decide, rfl⟩ .nil)) (by decide),
      polyOf_rep (.cons rfl (.cons rfl .nil)) (by decide)⟩
example (n : ℕ) := C99_machine_integers reducer reducer_only 8 n [] fun _ => SInt.lit 12 (by decide)
example (C : Client EuclideanMethod) (hC : C.Only EuclideanMethod.Fits) (n : ℕ) (q : C.Q) :=
  C97_caught C (C99_fields C46_two_field) hC n (c := (q, fun _ => true)) (x := (q, fun _ => 1)) ⟨rfl, fun _ => rfl⟩

end EuclidClientExamples

end Abstalg
