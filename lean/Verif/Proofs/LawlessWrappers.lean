import Verif.Proofs.LawlessPoly
import Verif.Proofs.LawlessMatrix
import Verif.Model.StatefulResidues

/-! # Yielding through residues, fractions, groups and orders, and through the provided methods -/

set_option linter.unusedSectionVars false

set_option autoImplicit false

namespace Abstalg.Stateful

variable [Cfg] {σ E : Type} {T : Limits σ} {S U : E → Prop}

/-! ## Provided methods -/

theorem keeps_monoid_default {A : SemigroupOps σ E} (h : KeepsSemigroup T S A) {one : St σ E} (h1 : Yields T S one)
    {tryInv : E → St σ (Option E)} (hi : ∀ {a}, S a → Yields T (Maybe S) (tryInv a)) :
    KeepsMonoid T S { toSemigroupOps := A, one, tryInv } :=
  { toKeepsSemigroup := h, one := h1, isOne := yields_isDefault h.toKeepsDomain h1, tryInv := hi,
    invertible := fun ha => (hi ha).isSome }

theorem keeps_commutativeMonoid_default {A : DomainOps σ E} (h : KeepsDomain T S A) {zero : St σ E} (h0 : Yields T S zero)
    {add : E → E → St σ E} (hadd : ∀ {a b}, S a → S b → Yields T S (add a b)) :
    KeepsCommutativeMonoid T S { toDomainOps := A, zero, add } :=
  { toKeepsDomain := h, zero := h0, isZero := yields_isDefault h h0, add := hadd, addAssign := hadd,
    double := fun ha => hadd ha ha, utimes := fun ha => yields_utimes h0 hadd (fun ha => hadd ha ha) _ ha }

theorem keeps_abelianGroup_default {A : CommutativeMonoidOps σ E} (h : KeepsCommutativeMonoid T S A) {neg : E → St σ E}
    (hneg : ∀ {a}, S a → Yields T S (neg a)) : KeepsAbelianGroup T S { toCommutativeMonoidOps := A, neg } :=
  { toKeepsCommutativeMonoid := h, neg := hneg, negAssign := hneg, sub := yields_sub hneg h.addAssign,
    subAssign := yields_subAssign hneg h.addAssign,
    times := fun hn ha => yields_powerDefault h.zero h.addAssign h.double hn (hneg ha) ha }

theorem yields_divisible {isZero : E → St σ Bool} {tryDiv : E → E → St σ (Option E)}
    (hz : ∀ {a}, S a → Yields T (fun b => b = false → U a) (isZero a))
    (hd : ∀ {a b}, S a → U b → Yields T (Maybe S) (tryDiv a b)) {a b : E} (ha : S a) (hb : S b) :
    Answers T (do if ← isZero b then isZero a else return (← tryDiv a b).isSome) :=
  (hz hb).bind fun _ hc => .ite (fun _ => (hz ha).answers) fun h => (hd ha (hc (by simpa using h))).isSome

theorem yields_associates {divisible : E → E → St σ Bool} (hd : ∀ {a b}, S a → S b → Answers T (divisible a b))
    {a b : E} (ha : S a) (hb : S b) : Answers T (do if ← divisible a b then divisible b a else return false) :=
  (hd ha hb).bind fun _ _ => .ite (fun _ => hd hb ha) fun _ => .ok trivial

theorem keeps_integralDomain_default {A : UnitaryRingOps σ E} (h : KeepsUnitaryRing T S A)
    (hz : ∀ {a}, S a → Yields T (fun b => b = false → U a) (A.isZero a)) {tryDiv : E → E → St σ (Option E)}
    (hd : ∀ {a b}, S a → U b → Yields T (Maybe S) (tryDiv a b)) {rep coef : E → St σ E}
    (hr : ∀ {a}, S a → Yields T S (rep a)) (hc : ∀ {a}, U a → Yields T S (coef a)) :
    KeepsIntegralDomain T S U { toUnitaryRingOps := A, tryDiv, associateRepr := rep, associateCoef := coef } :=
  have hdiv {a b : E} (ha : S a) (hb : S b) := yields_divisible hz hd ha hb
  { toKeepsUnitaryRing := h, nonzero := hz, tryDiv := hd, divisible := hdiv, associates := fun ha hb => yields_associates
      (divisible := fun a b => do if ← A.isZero b then A.isZero a else return (← tryDiv a b).isSome) hdiv ha hb,
    associateRepr := hr, associateCoef := hc }

theorem keeps_euclidean_default (hD : T.diverge) {A : IntegralDomainOps σ E} (h : KeepsIntegralDomain T S U A)
    {quoRem : E → E → St σ (E × E)} (hq : ∀ {a b}, S a → U b → Yields T (fun p => S p.1 ∧ S p.2) (quoRem a b)) :
    KeepsEuclideanDomain T S U { toIntegralDomainOps := A, quoRem } :=
  have quo {a b : E} (ha : S a) (hb : U b) : Yields T S (do return (← quoRem a b).1) := (hq ha hb).bind fun _ h => .ok h.1
  have rem {a b : E} (ha : S a) (hb : U b) : Yields T S (do return (← quoRem a b).2) := (hq ha hb).bind fun _ h => .ok h.2
  have gcd {a b : E} (ha : S a) (hb : S b) := yields_gcd (rem := fun a b => do return (← quoRem a b).2) hD h.nonzero rem ha hb
  { toKeepsIntegralDomain := h, quoRem := hq, quo := quo, rem := rem, gcd := gcd
    reduced := fun ha hb => (h.nonzero hb).bind fun _ hc => .ite (fun _ => .ok trivial) fun hn =>
      (quo ha (hc (by simpa using hn))).bind fun _ hx => h.isZero hx
    lcm := fun ha hb => (gcd ha hb).bind fun g hg => (h.nonzero hg).bind fun _ hc => .ite (fun _ => .ok hg) fun hn =>
      (quo ha (hc (by simpa using hn))).bind fun _ hx => h.mul hx hb
    extendedGcd := fun ha hb => yields_extendedGcd hD h.nonzero h.one h.zero hq h.sub h.mul ha hb
    relativePrimes := fun ha hb => (gcd ha hb).bind fun _ hg => h.invertible hg }

theorem yields_fieldPower {A : UnitaryRingOps σ E} (h : KeepsUnitaryRing T S A)
    (hz : ∀ {a}, S a → Yields T (fun b => b = false → U a) (A.isZero a))
    (hi : ∀ {a}, U a → Yields T S (do Res.unwrap (← A.tryInv a))) {n : ℤ} (hn : Negatable n) {a : E} (ha : S a) :
    Yields T S (do
      if ← A.isZero a then A.zero
      else powerDefault A.one A.mulAssign A.square (fun e => do Res.unwrap (← A.tryInv e)) n a) :=
  (hz ha).bind fun _ hc => .ite (fun _ => h.zero) fun h' =>
    yields_powerDefault h.one h.mulAssign h.square hn (hi (hc (by simpa using h'))) ha

/-! ## The blanket implementations for fields -/

theorem KeepsField.integralDomain {A : FieldOps σ E} (h : KeepsField T S U A) :
    KeepsIntegralDomain T S U A.toIntegralDomain :=
  keeps_integralDomain_default h.toKeepsUnitaryRing h.nonzero
    (fun ha hb => (h.div ha hb).bind fun _ hx => .ok (Maybe.some hx))
    (fun ha => Yields.bindIf (h.isZero ha) h.zero h.one) h.inv

theorem KeepsField.euclidean (hD : T.diverge) {A : FieldOps σ E} (h : KeepsField T S U A)
    (hu : ∀ {b}, U b → Answers T (A.isZero b >>= fun c => liftM (Res.assert (!c)))) :
    KeepsEuclideanDomain T S U A.toEuclidean :=
  have check {α : Type} {Q : α → Prop} {b : E} (hb : U b) {k : Unit → St σ α} (hk : Yields T Q (k ())) :
      Yields T Q (A.isZero b >>= fun c => liftM (Res.assert (!c)) >>= k) := by
    rw [← bind_assoc]; exact (hu hb).bind fun _ _ => hk
  have quoRem {a b : E} (ha : S a) (hb : U b) : Yields T (fun p => S p.1 ∧ S p.2) (A.toEuclidean.quoRem a b) :=
    check hb ((h.div ha hb).bind fun _ hx => h.zero.bind fun _ h0 => .ok ⟨hx, h0⟩)
  have gcd {a b : E} (ha : S a) (hb : S b) : Yields T S (A.toEuclidean.gcd a b) :=
    Yields.bind (Q := fun _ => True)
      ((h.isZero ha).bind fun _ _ => .ite (fun _ => h.isZero hb) fun _ => .ok trivial) fun _ _ =>
      .ite (fun _ => h.zero) fun _ => h.one
  { toKeepsIntegralDomain := h.integralDomain
    quoRem := quoRem
    quo := fun ha hb => check hb (h.div ha hb)
    rem := fun _ hb => check hb h.zero
    reduced := fun ha hb => (h.isZero ha).bind fun _ _ => .ite (fun _ => .ok trivial) fun _ => h.isZero hb
    gcd := gcd
    lcm := fun ha hb => Yields.bind (Q := fun _ => True)
      ((h.isZero ha).bind fun _ _ => .ite (fun _ => .ok trivial) fun _ => h.isZero hb) fun _ _ =>
      .ite (fun _ => h.zero) fun _ => h.one
    extendedGcd := fun ha hb => yields_extendedGcd hD h.nonzero h.one h.zero quoRem h.sub h.mul ha hb
    relativePrimes := fun ha hb => (gcd ha hb).bind fun _ hg => h.invertible hg }

/-! ## Polynomials, where a panic is allowed -/

theorem KeepsIntegralDomain.polynomials {A : IntegralDomainOps σ E} (hA : KeepsIntegralDomain T S S A)
    (hp : ∀ s, T.state s → T.panic s) : KeepsIntegralDomain T (Each S) (Each S) (PolynomialAlgebra.integralDomain A) :=
  keeps_integralDomain_default
    (PolynomialAlgebra.keeps_unitaryRing hA.toKeepsUnitaryRing (PolynomialAlgebra.yields_oneAllowed hA.toKeepsUnitaryRing hp))
    (fun hv => .ok fun _ => hv)
    (fun hv hw => (PolynomialAlgebra.yields_tryDiv hA hv hw (Yields.assertAllowed hp _).answers fun a ha =>
      PolynomialAlgebra.yields_leadingAllowed hp (hA.nonzero (hw a (List.mem_of_getLast? ha)))).mono
        fun _ h q hq => (h q hq).2)
    (fun hv => (PolynomialAlgebra.yields_associateRepr hA hv fun a ha => hv a (List.mem_of_getLast? ha)).mono fun _ h => h.2)
    (fun {v} hv => by
      by_cases he : v = []
      · subst he; exact fun s hs => hp s hs
      · exact (PolynomialAlgebra.yields_associateCoef hA he fun a ha => hv a (List.mem_of_getLast? ha)).mono fun _ h => h.2)

theorem KeepsField.polynomials (hD : T.diverge) {A : FieldOps σ E} (hA : KeepsField T S S A)
    (hp : ∀ s, T.state s → T.panic s) : KeepsEuclideanDomain T (Each S) (Each S) (PolynomialAlgebra.euclidean A) :=
  keeps_euclidean_default hD (hA.integralDomain.polynomials hp) fun hv hw =>
    (PolynomialAlgebra.yields_quoRem hA hv hw (Yields.assertAllowed hp _).answers fun a ha =>
      PolynomialAlgebra.yields_leadingAllowed hp (hA.nonzero (hw a (List.mem_of_getLast? ha)))).mono
        fun _ h => ⟨h.1.2, h.2.1⟩

/-! ## Residues -/

theorem KeepsEuclideanDomain.quotientRing {A : EuclideanDomainOps σ E} (h : KeepsEuclideanDomain T S U A) {m : E} (hm : S m)
    (hu : U m) : KeepsUnitaryRing T S (QuotientRing.ops A m) :=
  have hd : KeepsDomain T S (QuotientRing.domain A m) :=
    { contains := fun ha => h.reduced ha hm, equals := fun ha hb => h.equals ha hb }
  have hmul {a b : E} (ha : S a) (hb : S b) : Yields T S (QuotientRing.mul A m a b) := (h.mul ha hb).bind fun _ hx => h.rem hx hu
  have hadd {a b : E} (ha : S a) (hb : S b) : Yields T S (do A.rem (← A.add a b) m) := (h.add ha hb).bind fun _ hx => h.rem hx hu
  have hneg {a : E} (ha : S a) : Yields T S (do A.rem (← A.neg a) m) := (h.neg ha).bind fun _ hx => h.rem hx hu
  have htry {a : E} (ha : S a) : Yields T (Maybe S) ((QuotientRing.ops A m).tryInv a) := by
    refine (h.extendedGcd hm ha).bind ?_
    rintro ⟨g, x, r⟩ ⟨hg, -, hr⟩
    refine (h.tryInv hg).bind fun o ho => ?_
    cases o with
    | none => exact .ok Maybe.none
    | some a => exact (hmul (ho a rfl) hr).bind fun _ hx => .ok (Maybe.some hx)
  have hc := keeps_commutativeMonoid_default hd h.zero hadd
  have ha := keeps_abelianGroup_default hc hneg
  { toKeepsCommutativeMonoid := hc
    mul := hmul
    mulAssign := hmul
    square := fun ha => hmul ha ha
    one := h.one
    isOne := h.isOne
    tryInv := htry
    invertible := fun ha => (htry ha).isSome
    neg := ha.neg
    negAssign := ha.negAssign
    sub := ha.sub
    subAssign := ha.subAssign
    times := ha.times
    int := fun hn => h.one.bind fun _ h1 => ha.times hn h1 }

theorem KeepsEuclideanDomain.quotientField {A : EuclideanDomainOps σ E} (h : KeepsEuclideanDomain T S U A) {m : E} (hm : S m)
    (hu : U m) (hp : ∀ s, T.state s → T.panic s) : KeepsField T S S (QuotientField.ops A m) :=
  have hd : KeepsDomain T S (QuotientField.domain A m) :=
    { contains := fun ha => h.reduced ha hm, equals := fun ha hb => h.equals ha hb }
  have hmul {a b : E} (ha : S a) (hb : S b) : Yields T S (QuotientField.mul A m a b) := (h.mul ha hb).bind fun _ hx => h.rem hx hu
  have hadd {a b : E} (ha : S a) (hb : S b) : Yields T S (do A.rem (← A.add a b) m) := (h.add ha hb).bind fun _ hx => h.rem hx hu
  have hneg {a : E} (ha : S a) : Yields T S (do A.rem (← A.neg a) m) := (h.neg ha).bind fun _ hx => h.rem hx hu
  have hz {a : E} (ha : S a) : Answers T (QuotientField.isZero A m a) := h.zero.bind fun _ h0 => h.equals ha h0
  have hinv {a : E} (ha : S a) : Yields T S (QuotientField.inv A m a) := by
    refine (hz ha).bind fun b _ => Yields.bind (Yields.assertAllowed hp (!b)) fun _ _ => (h.extendedGcd hm ha).bind ?_
    rintro ⟨g, x, r⟩ ⟨hg, -, hr⟩
    exact (h.tryInv hg).bind fun o ho => (Yields.unwrapAllowed hp ho).bind fun _ hx => hmul hx hr
  have htry {a : E} (ha : S a) : Yields T (Maybe S) ((QuotientField.ops A m).tryInv a) :=
    Yields.bindIf (hz ha) (.ok Maybe.none) ((hinv ha).bind fun _ hx => .ok (Maybe.some hx))
  have hc := keeps_commutativeMonoid_default hd h.zero hadd
  have ha := keeps_abelianGroup_default hc hneg
  have hr : KeepsUnitaryRing T S (QuotientField.ops A m).toUnitaryRingOps :=
    { toKeepsCommutativeMonoid := hc
      mul := hmul
      mulAssign := hmul
      square := fun ha => hmul ha ha
      one := h.one
      isOne := h.isOne
      tryInv := htry
      invertible := fun ha => (hz ha).not
      neg := ha.neg
      negAssign := ha.negAssign
      sub := ha.sub
      subAssign := ha.subAssign
      times := ha.times
      int := fun hn => h.one.bind fun _ h1 => ha.times hn h1 }
  { toKeepsUnitaryRing := hr
    nonzero := fun ha => (hz ha).mono fun _ _ _ => ha
    inv := hinv
    div := fun ha hb => (hinv hb).bind fun _ hx => hmul ha hx
    power := fun hn ha => yields_fieldPower (U := S) hr (fun ha => (hz ha).mono fun _ _ _ => ha)
      (fun ha => (htry ha).bind fun _ ho => Yields.unwrapAllowed hp ho) hn ha }

/-! ## Fractions -/

section fractions

variable {A : EuclideanDomainOps σ E} (h : KeepsEuclideanDomain T S S A) (hp : ∀ s, T.state s → T.panic s)

include h

theorem yields_normal {n d : E} (hn : S n) (hd : S d) : Yields T (fun p => S p.1 ∧ S p.2) (do
    let coef ← A.associateCoef d
    if !(← A.isOne coef) then return (← A.mul n coef, ← A.mul d coef) else return (n, d)) :=
  (h.associateCoef hd).bind fun _ hc => (h.isOne hc).bind fun _ _ =>
    .ite (fun _ => (h.mul hn hc).bind fun _ hx => (h.mul hd hc).bind fun _ hy => .ok ⟨hx, hy⟩) fun _ => .ok ⟨hn, hd⟩

include hp

theorem yields_reduce {n d : E} (hn : S n) (hd : S d) :
    Yields T (fun p => S p.1 ∧ S p.2) (ReducedFractions.reduce A (n, d)) :=
  (h.isZero hd).bind fun b _ => Yields.bind (Yields.assertAllowed hp (!b)) fun _ _ => (h.gcd hn hd).bind fun _ hg =>
    (h.quo hn hg).bind fun _ hx => (h.quo hd hg).bind fun _ hy => yields_normal h hx hy

theorem KeepsEuclideanDomain.fractions :
    KeepsField T (fun p => S p.1 ∧ S p.2) (fun p => S p.1 ∧ S p.2) (ReducedFractions.ops A) :=
  have hd : KeepsDomain T (fun p => S p.1 ∧ S p.2) (ReducedFractions.domain A) :=
    { contains := fun ha => (h.relativePrimes ha.1 ha.2).bind fun _ _ =>
        .ite (fun _ => (h.associateCoef ha.2).bind fun _ hx => h.isOne hx) fun _ => .ok trivial
      equals := fun ha hb => (h.equals ha.1 hb.1).bind fun _ _ => .ite (fun _ => h.equals ha.2 hb.2) fun _ => .ok trivial }
  have hmul {a b : E × E} (ha : S a.1 ∧ S a.2) (hb : S b.1 ∧ S b.2) :
      Yields T (fun p => S p.1 ∧ S p.2) ((ReducedFractions.ops A).mul a b) :=
    (h.mul ha.1 hb.1).bind fun _ hx => (h.mul ha.2 hb.2).bind fun _ hy => yields_reduce h hp hx hy
  have hadd {a b : E × E} (ha : S a.1 ∧ S a.2) (hb : S b.1 ∧ S b.2) :
      Yields T (fun p => S p.1 ∧ S p.2) ((ReducedFractions.ops A).add a b) :=
    (h.equals ha.2 hb.2).bind fun _ _ => .ite
      (fun _ => (h.add ha.1 hb.1).bind fun _ hx => yields_reduce h hp hx ha.2)
      fun _ => (h.mul ha.1 hb.2).bind fun _ hx => (h.mul ha.2 hb.1).bind fun _ hy => (h.add hx hy).bind fun _ hn =>
        (h.mul ha.2 hb.2).bind fun _ hd => yields_reduce h hp hn hd
  have hneg {a : E × E} (ha : S a.1 ∧ S a.2) : Yields T (fun p => S p.1 ∧ S p.2) ((ReducedFractions.ops A).neg a) :=
    (h.neg ha.1).bind fun _ hx => .ok ⟨hx, ha.2⟩
  have hone : Yields T (fun p => S p.1 ∧ S p.2) (ReducedFractions.ops A).one :=
    h.one.bind fun _ hx => h.one.bind fun _ hy => .ok ⟨hx, hy⟩
  have htry {a : E × E} (ha : S a.1 ∧ S a.2) :
      Yields T (Maybe fun p => S p.1 ∧ S p.2) ((ReducedFractions.ops A).tryInv a) :=
    Yields.bindIf (h.isZero ha.1).not ((yields_reduce h hp ha.2 ha.1).bind fun _ hx => .ok (Maybe.some hx)) (.ok Maybe.none)
  have hinv {a : E × E} (ha : S a.1 ∧ S a.2) : Yields T (fun p => S p.1 ∧ S p.2) ((ReducedFractions.ops A).inv a) :=
    (h.isZero ha.1).bind fun b _ => Yields.bind (Yields.assertAllowed hp (!b)) fun _ _ => yields_normal h ha.2 ha.1
  have htimes {n : ℤ} {a : E × E} (hn : Negatable n) (ha : S a.1 ∧ S a.2) :
      Yields T (fun p => S p.1 ∧ S p.2) ((ReducedFractions.ops A).times n a) :=
    (h.times hn ha.1).bind fun _ hx => yields_reduce h hp hx ha.2
  have hc := keeps_commutativeMonoid_default hd
    (zero := (ReducedFractions.ops A).zero) (h.zero.bind fun _ hx => h.one.bind fun _ hy => .ok ⟨hx, hy⟩) hadd
  have ha := keeps_abelianGroup_default hc hneg
  have hr : KeepsUnitaryRing T (fun p => S p.1 ∧ S p.2) (ReducedFractions.ops A).toUnitaryRingOps :=
    { toKeepsCommutativeMonoid := hc
      mul := hmul
      mulAssign := hmul
      square := fun ha => hmul ha ha
      one := hone
      isOne := fun ha => (h.isOne ha.1).bind fun _ _ => .ite (fun _ => h.isOne ha.2) fun _ => .ok trivial
      tryInv := htry
      invertible := fun ha => (h.isZero ha.1).not
      neg := ha.neg
      negAssign := ha.negAssign
      sub := ha.sub
      subAssign := ha.subAssign
      times := htimes
      int := fun hn => hone.bind fun _ h1 => htimes hn h1 }
  { toKeepsUnitaryRing := hr
    nonzero := fun ha => (hc.isZero ha).mono fun _ _ _ => ha
    inv := hinv
    div := fun ha hb => (hinv hb).bind fun _ hx => hmul ha hx
    power := fun hn ha => yields_fieldPower (U := fun p => S p.1 ∧ S p.2) hr
      (fun ha => (hc.isZero ha).mono fun _ _ _ => ha)
      (fun ha => (htry ha).bind fun _ ho => Yields.unwrapAllowed hp ho) hn ha }

end fractions

/-! ## Groups and orders -/

theorem KeepsAbelianGroup.additive {A : AbelianGroupOps σ E} (h : KeepsAbelianGroup T S A) :
    KeepsGroup T S (AdditiveGroup.ops A) :=
  { contains := h.contains, equals := h.equals, mul := h.add, mulAssign := h.addAssign, square := h.double, one := h.zero,
    isOne := h.isZero, tryInv := fun ha => (h.neg ha).bind fun _ hx => .ok (Maybe.some hx), invertible := fun _ => .ok trivial,
    inv := h.neg, power := fun hn ha => yields_powerDefault h.zero h.addAssign h.double hn (h.neg ha) ha }

theorem KeepsMonoid.multiplicative {A : MonoidOps σ E} (h : KeepsMonoid T S A) (hp : ∀ s, T.state s → T.panic s) :
    KeepsGroup T S (MultiplicativeGroup.ops A) :=
  have hinv {a : E} (ha : S a) : Yields T S (do Res.unwrap (← A.tryInv a)) :=
    (h.tryInv ha).bind fun _ ho => Yields.unwrapAllowed hp ho
  { contains := h.invertible, equals := h.equals, mul := h.mul, mulAssign := h.mulAssign, square := h.square, one := h.one,
    isOne := h.isOne, tryInv := h.tryInv, invertible := fun _ => .ok trivial, inv := hinv,
    power := fun hn ha => yields_powerDefault (inv := fun a => do Res.unwrap (← A.tryInv a)) h.one h.mulAssign h.square hn
      (hinv ha) ha }

theorem KeepsIntegralDomain.divisibility {A : IntegralDomainOps σ E} (h : KeepsIntegralDomain T S U A) :
    KeepsBoundedOrder T S (DivisibilityOrder.boundedOrder A) :=
  have hd : KeepsDomain T S (DivisibilityOrder.domain A) :=
    { contains := fun ha => (h.nonzero ha).bind fun _ hc => .ite (fun _ => .ok trivial) fun hn =>
        (h.associateCoef (hc (by simpa using hn))).bind fun _ hx => h.isOne hx
      equals := h.equals }
  have hl {a b : E} (ha : S a) (hb : S b) : Answers T ((DivisibilityOrder.boundedOrder A).leq a b) := h.divisible hb ha
  { toKeepsDomain := hd, leq := hl, lessThan := yields_lessThan hd hl, comparable := fun ha hb =>
      yields_comparable (leq := (DivisibilityOrder.boundedOrder A).leq) hl ha hb, max := h.zero,
    min := h.one }

theorem KeepsEuclideanDomain.divisibility {A : EuclideanDomainOps σ E} (h : KeepsEuclideanDomain T S U A) :
    KeepsLattice T S (DivisibilityOrder.lattice A) :=
  { toKeepsPartialOrder := h.toKeepsIntegralDomain.divisibility.toKeepsPartialOrder
    meet := fun ha hb => (h.gcd ha hb).bind fun _ hx => h.associateRepr hx
    join := fun ha hb => (h.lcm ha hb).bind fun _ hx => h.associateRepr hx }

end Abstalg.Stateful
