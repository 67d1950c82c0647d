import Verif.Proofs.SimTraits
import Verif.Model.AdditiveGroup
import Verif.Model.MultiplicativeGroup
import Verif.Model.DivisibilityOrder
import Verif.Model.QuotientRing
import Verif.Model.QuotientField
import Verif.Model.ReducedFractions

/-! # Following through groups, orders, quotients and fractions -/

set_option linter.unusedSectionVars false

set_option autoImplicit false

namespace Abstalg

variable {c₁ c₂ : Cfg} {E F : Type} {r : E → F → Prop}

theorem FollowsAbelianGroup.additiveGroup (hc : Cfg.Relaxes c₁ c₂) {A : @AbelianGroupOps c₁ E}
    {B : @AbelianGroupOps c₂ F} (h : FollowsAbelianGroup r A B) :
    FollowsGroup r (@AdditiveGroup.ops c₁ E A) (@AdditiveGroup.ops c₂ F B) where
  contains := h.contains
  equals := h.equals
  mul := h.add
  mulAssign := h.addAssign
  square := h.double
  one := h.zero
  isOne := h.isZero
  tryInv := fun ha => Follows.bind (h.neg ha) fun _ _ h => .ok (.some h)
  invertible := fun _ => .ok rfl
  inv := h.neg
  power := fun n _ _ ha => follows_powerDefault (r := r) hc h.zero h.addAssign h.double h.neg n ha

theorem FollowsMonoid.multiplicativeGroup (hc : Cfg.Relaxes c₁ c₂) {A : MonoidOps E}
    {B : MonoidOps F} (h : FollowsMonoid r A B) :
    FollowsGroup r (@MultiplicativeGroup.ops c₁ E A) (@MultiplicativeGroup.ops c₂ F B) where
  contains := h.invertible
  equals := h.equals
  mul := h.mul
  mulAssign := h.mulAssign
  square := h.square
  one := h.one
  isOne := h.isOne
  tryInv := h.tryInv
  invertible := fun _ => .ok rfl
  inv := fun ha => follows_unwrapInv r h.tryInv ha
  power := fun n _ _ ha => follows_powerDefault (r := r) hc h.one h.mulAssign h.square
    (fun ha => follows_unwrapInv r h.tryInv ha) n ha

theorem FollowsIntegralDomain.boundedOrder {A : @IntegralDomainOps c₁ E} {B : @IntegralDomainOps c₂ F}
    (h : FollowsIntegralDomain r A B) :
    FollowsBoundedOrder r (@DivisibilityOrder.boundedOrder c₁ E A)
      (@DivisibilityOrder.boundedOrder c₂ F B) :=
  have hleq {a b a' b'} (ha : r a a') (hb : r b b') :
      Follows Eq ((@DivisibilityOrder.boundedOrder c₁ E A).leq a b)
        ((@DivisibilityOrder.boundedOrder c₂ F B).leq a' b') := h.divisible hb ha
  { contains := fun ha => Follows.bindIf (h.isZero ha) (.ok rfl)
      (Follows.bind (h.associateCoef ha) fun _ _ h' => h.isOne h')
    equals := h.equals
    leq := hleq
    lessThan := fun ha hb => follows_lessThan r h.equals hleq ha hb
    comparable := fun ha hb => follows_comparable r
      (leq := (@DivisibilityOrder.boundedOrder c₁ E A).leq)
      (leq' := (@DivisibilityOrder.boundedOrder c₂ F B).leq) hleq ha hb
    max := h.zero
    min := h.one }

theorem FollowsEuclideanDomain.lattice {A : @EuclideanDomainOps c₁ E} {B : @EuclideanDomainOps c₂ F}
    (h : FollowsEuclideanDomain r A B) :
    FollowsLattice r (@DivisibilityOrder.lattice c₁ E A) (@DivisibilityOrder.lattice c₂ F B) where
  toFollowsPartialOrder := h.toFollowsIntegralDomain.boundedOrder.toFollowsPartialOrder
  meet := fun ha hb => Follows.bind (h.gcd ha hb) fun _ _ h' => h.associateRepr h'
  join := fun ha hb => Follows.bind (h.lcm ha hb) fun _ _ h' => h.associateRepr h'

section quotient

variable {A : @EuclideanDomainOps c₁ E} {B : @EuclideanDomainOps c₂ F} {m : E} {m' : F}

theorem FollowsEuclideanDomain.quotientRing (hc : Cfg.Relaxes c₁ c₂)
    (h : FollowsEuclideanDomain r A B) (hm : r m m') :
    FollowsUnitaryRing r (@QuotientRing.ops c₁ E A m) (@QuotientRing.ops c₂ F B m') :=
  have hmul {a b a' b'} (ha : r a a') (hb : r b b') :
      Follows r (@QuotientRing.mul c₁ E A m a b) (@QuotientRing.mul c₂ F B m' a' b') :=
    Follows.bind (h.mul ha hb) fun _ _ h' => h.rem h' hm
  have hadd {a b a' b'} (ha : r a a') (hb : r b b') :
      Follows r (do @EuclideanDomainOps.rem c₁ E A (← A.add a b) m)
        (do @EuclideanDomainOps.rem c₂ F B (← B.add a' b') m') :=
    Follows.bind (h.add ha hb) fun _ _ h' => h.rem h' hm
  have hneg {a a'} (ha : r a a') :
      Follows r (do @EuclideanDomainOps.rem c₁ E A (← @AbelianGroupOps.neg c₁ E (@A.toAbelianGroupOps) a) m)
        (do @EuclideanDomainOps.rem c₂ F B (← @AbelianGroupOps.neg c₂ F (@B.toAbelianGroupOps) a') m') :=
    Follows.bind (h.neg ha) fun _ _ h' => h.rem h' hm
  have htry {a a'} (ha : r a a') : Follows (Option.Rel r) ((@QuotientRing.ops c₁ E A m).tryInv a)
      ((@QuotientRing.ops c₂ F B m').tryInv a') := by
    refine Follows.bind (h.extendedGcd hm ha) ?_
    rintro ⟨g, x, y⟩ ⟨g', x', y'⟩ ⟨hg, hx, hy⟩
    refine Follows.bind (h.tryInv hg) ?_
    intro o o' ho
    cases ho with
    | none => exact .ok .none
    | some ho => exact Follows.bind (hmul ho hy) fun _ _ h => .ok (.some h)
  have htimes (n : ℤ) {a a'} (ha : r a a') : Follows r
      (@AbelianGroupOps.times c₁ E (@UnitaryRingOps.toAbelianGroupOps c₁ E (@QuotientRing.ops c₁ E A m)) n a)
      (@AbelianGroupOps.times c₂ F (@UnitaryRingOps.toAbelianGroupOps c₂ F (@QuotientRing.ops c₂ F B m')) n a') :=
    follows_powerDefault (r := r) hc h.zero hadd (fun h => hadd h h) hneg n ha
  { contains := fun ha => h.reduced ha hm
    equals := h.equals
    mul := hmul
    mulAssign := hmul
    square := fun ha => hmul ha ha
    one := h.one
    isOne := h.isOne
    tryInv := htry
    invertible := fun ha => Follows.isSome (htry ha)
    zero := h.zero
    isZero := fun ha => follows_isDefault r h.equals h.zero ha
    add := hadd
    addAssign := hadd
    double := fun ha => hadd ha ha
    utimes := fun n _ _ ha => follows_utimes r h.zero hadd (fun h => hadd h h) n ha
    neg := hneg
    negAssign := hneg
    sub := fun ha hb => follows_sub r hneg hadd ha hb
    subAssign := fun ha hb => follows_subAssign r hneg hadd ha hb
    times := htimes
    int := fun n => follows_int r htimes h.one n }

theorem FollowsEuclideanDomain.quotientField (hc : Cfg.Relaxes c₁ c₂)
    (h : FollowsEuclideanDomain r A B) (hm : r m m') :
    FollowsField r (@QuotientField.ops c₁ E A m) (@QuotientField.ops c₂ F B m') :=
  have hmul {a b a' b'} (ha : r a a') (hb : r b b') :
      Follows r (@QuotientField.mul c₁ E A m a b) (@QuotientField.mul c₂ F B m' a' b') :=
    Follows.bind (h.mul ha hb) fun _ _ h' => h.rem h' hm
  have hadd {a b a' b'} (ha : r a a') (hb : r b b') :
      Follows r (do @EuclideanDomainOps.rem c₁ E A (← A.add a b) m)
        (do @EuclideanDomainOps.rem c₂ F B (← B.add a' b') m') :=
    Follows.bind (h.add ha hb) fun _ _ h' => h.rem h' hm
  have hneg {a a'} (ha : r a a') :
      Follows r (do @EuclideanDomainOps.rem c₁ E A (← @AbelianGroupOps.neg c₁ E (@A.toAbelianGroupOps) a) m)
        (do @EuclideanDomainOps.rem c₂ F B (← @AbelianGroupOps.neg c₂ F (@B.toAbelianGroupOps) a') m') :=
    Follows.bind (h.neg ha) fun _ _ h' => h.rem h' hm
  have hzero {a a'} (ha : r a a') :
      Follows Eq (@QuotientField.isZero c₁ E A m a) (@QuotientField.isZero c₂ F B m' a') :=
    follows_isDefault r h.equals h.zero ha
  have hinv {a a'} (ha : r a a') :
      Follows r (@QuotientField.inv c₁ E A m a) (@QuotientField.inv c₂ F B m' a') := by
    refine Follows.check (hzero ha) (Follows.bind (h.extendedGcd hm ha) ?_)
    rintro ⟨g, x, y⟩ ⟨g', x', y'⟩ ⟨hg, hx, hy⟩
    exact Follows.bind (h.tryInv hg) fun o o' ho => Follows.bind (Follows.unwrap ho)
      fun _ _ h => hmul h hy
  have htry {a a'} (ha : r a a') : Follows (Option.Rel r) ((@QuotientField.ops c₁ E A m).tryInv a)
      ((@QuotientField.ops c₂ F B m').tryInv a') :=
    Follows.bindIf (hzero ha) (.ok .none) (Follows.bind (hinv ha) fun _ _ h => .ok (.some h))
  have htimes (n : ℤ) {a a'} (ha : r a a') : Follows r
      (@AbelianGroupOps.times c₁ E (@UnitaryRingOps.toAbelianGroupOps c₁ E (@FieldOps.toUnitaryRingOps c₁ E (@QuotientField.ops c₁ E A m))) n a)
      (@AbelianGroupOps.times c₂ F (@UnitaryRingOps.toAbelianGroupOps c₂ F (@FieldOps.toUnitaryRingOps c₂ F (@QuotientField.ops c₂ F B m'))) n a') :=
    follows_powerDefault (r := r) hc h.zero hadd (fun h => hadd h h) hneg n ha
  { contains := fun ha => h.reduced ha hm
    equals := h.equals
    mul := hmul
    mulAssign := hmul
    square := fun ha => hmul ha ha
    one := h.one
    isOne := h.isOne
    tryInv := htry
    invertible := fun ha => Follows.not (hzero ha)
    zero := h.zero
    isZero := hzero
    add := hadd
    addAssign := hadd
    double := fun ha => hadd ha ha
    utimes := fun n _ _ ha => follows_utimes r h.zero hadd (fun h => hadd h h) n ha
    neg := hneg
    negAssign := hneg
    sub := fun ha hb => follows_sub r hneg hadd ha hb
    subAssign := fun ha hb => follows_subAssign r hneg hadd ha hb
    times := htimes
    int := fun n => follows_int r htimes h.one n
    inv := hinv
    div := fun ha hb => follows_div r hinv hmul ha hb
    power := fun n _ _ ha => follows_fieldPower r hc hzero h.zero h.one hmul (fun h => hmul h h) htry n ha }

end quotient

/-! ## Fractions -/

section fractions

variable {A : @EuclideanDomainOps c₁ E} {B : @EuclideanDomainOps c₂ F}

theorem FollowsEuclideanDomain.reduce (h : FollowsEuclideanDomain r A B) {p : E × E} {q : F × F}
    (hp : PRel r p q) :
    Follows (PRel r) (@ReducedFractions.reduce c₁ E A p) (@ReducedFractions.reduce c₂ F B q) := by
  refine Follows.check (h.isZero hp.2) ?_
  refine Follows.bind (h.gcd hp.1 hp.2) fun g g' hg => ?_
  refine Follows.bind (h.quo hp.1 hg) fun n n' hn => ?_
  refine Follows.bind (h.quo hp.2 hg) fun d d' hd => ?_
  refine Follows.bind (h.associateCoef hd) fun x x' hx => ?_
  refine Follows.bind (h.isOne hx) fun b b' hb => ?_
  subst hb
  exact Follows.same (Follows.bind (h.mul hn hx) fun _ _ h1 => Follows.bind (h.mul hd hx)
    fun _ _ h2 => .ok ⟨h1, h2⟩) (.ok ⟨hn, hd⟩)

theorem FollowsEuclideanDomain.reducedFractions (hc : Cfg.Relaxes c₁ c₂)
    (h : FollowsEuclideanDomain r A B) :
    FollowsField (PRel r) (@ReducedFractions.ops c₁ E A) (@ReducedFractions.ops c₂ F B) :=
  have heq {a b a' b'} (ha : PRel r a a') (hb : PRel r b b') :
      Follows Eq ((@ReducedFractions.ops c₁ E A).equals a b)
        ((@ReducedFractions.ops c₂ F B).equals a' b') :=
    Follows.bindIf (h.equals ha.1 hb.1) (h.equals ha.2 hb.2) (.ok rfl)
  have hmul {a b a' b'} (ha : PRel r a a') (hb : PRel r b b') :
      Follows (PRel r) ((@ReducedFractions.ops c₁ E A).mul a b)
        ((@ReducedFractions.ops c₂ F B).mul a' b') :=
    Follows.bind (h.mul ha.1 hb.1) fun _ _ h1 => Follows.bind (h.mul ha.2 hb.2)
      fun _ _ h2 => h.reduce ⟨h1, h2⟩
  have hadd {a b a' b'} (ha : PRel r a a') (hb : PRel r b b') :
      Follows (PRel r) ((@ReducedFractions.ops c₁ E A).add a b)
        ((@ReducedFractions.ops c₂ F B).add a' b') :=
    Follows.bindIf (h.equals ha.2 hb.2)
      (Follows.bind (h.add ha.1 hb.1) fun _ _ h1 => h.reduce ⟨h1, ha.2⟩)
      (Follows.bind (h.mul ha.1 hb.2) fun _ _ h1 => Follows.bind (h.mul ha.2 hb.1)
        fun _ _ h2 => Follows.bind (h.add h1 h2) fun _ _ h3 => Follows.bind (h.mul ha.2 hb.2)
        fun _ _ h4 => h.reduce ⟨h3, h4⟩)
  have hneg {a a'} (ha : PRel r a a') : Follows (PRel r)
      (@AbelianGroupOps.neg c₁ _ (@UnitaryRingOps.toAbelianGroupOps c₁ _ (@FieldOps.toUnitaryRingOps c₁ _ (@ReducedFractions.ops c₁ E A))) a)
      (@AbelianGroupOps.neg c₂ _ (@UnitaryRingOps.toAbelianGroupOps c₂ _ (@FieldOps.toUnitaryRingOps c₂ _ (@ReducedFractions.ops c₂ F B))) a') :=
    Follows.bind (h.neg ha.1) fun _ _ h1 => .ok ⟨h1, ha.2⟩
  have hone : Follows (PRel r) (@ReducedFractions.ops c₁ E A).one (@ReducedFractions.ops c₂ F B).one :=
    Follows.bind h.one fun _ _ h1 => Follows.bind h.one fun _ _ h2 => .ok ⟨h1, h2⟩
  have hz : Follows (PRel r) (@ReducedFractions.ops c₁ E A).zero (@ReducedFractions.ops c₂ F B).zero :=
    Follows.bind h.zero fun _ _ h1 => Follows.bind h.one fun _ _ h2 => .ok ⟨h1, h2⟩
  have hzero {a a'} (ha : PRel r a a') :
      Follows Eq ((@ReducedFractions.ops c₁ E A).isZero a) ((@ReducedFractions.ops c₂ F B).isZero a') :=
    follows_isDefault (PRel r) heq hz ha
  have hinv {a a'} (ha : PRel r a a') : Follows (PRel r)
      (@FieldOps.inv c₁ _ (@ReducedFractions.ops c₁ E A) a)
      (@FieldOps.inv c₂ _ (@ReducedFractions.ops c₂ F B) a') := by
    refine Follows.check (h.isZero ha.1) ?_
    refine Follows.bind (h.associateCoef ha.1) fun x x' hx => ?_
    refine Follows.bind (h.isOne hx) fun b b' hb => ?_
    subst hb
    exact Follows.same (Follows.bind (h.mul ha.2 hx) fun _ _ h1 => Follows.bind (h.mul ha.1 hx)
      fun _ _ h2 => .ok ⟨h1, h2⟩) (.ok ⟨ha.2, ha.1⟩)
  have hinvertible {a a'} (ha : PRel r a a') : Follows Eq (@ReducedFractions.invertible c₁ E A a)
      (@ReducedFractions.invertible c₂ F B a') := Follows.not (h.isZero ha.1)
  have htry {a a'} (ha : PRel r a a') : Follows (Option.Rel (PRel r))
      ((@ReducedFractions.ops c₁ E A).tryInv a) ((@ReducedFractions.ops c₂ F B).tryInv a') :=
    Follows.bindIf (hinvertible ha)
      (Follows.bind (h.reduce ⟨ha.2, ha.1⟩) fun _ _ h => .ok (.some h)) (.ok .none)
  have htimes (n : ℤ) {a a'} (ha : PRel r a a') : Follows (PRel r)
      (@AbelianGroupOps.times c₁ _ (@UnitaryRingOps.toAbelianGroupOps c₁ _ (@FieldOps.toUnitaryRingOps c₁ _ (@ReducedFractions.ops c₁ E A))) n a)
      (@AbelianGroupOps.times c₂ _ (@UnitaryRingOps.toAbelianGroupOps c₂ _ (@FieldOps.toUnitaryRingOps c₂ _ (@ReducedFractions.ops c₂ F B))) n a') :=
    Follows.bind (h.times n ha.1) fun _ _ h1 => h.reduce ⟨h1, ha.2⟩
  { contains := fun ha => Follows.bindIf (h.relativePrimes ha.1 ha.2)
      (Follows.bind (h.associateCoef ha.2) fun _ _ h1 => h.isOne h1) (.ok rfl)
    equals := heq
    mul := hmul
    mulAssign := hmul
    square := fun ha => hmul ha ha
    one := hone
    isOne := fun ha => Follows.bindIf (h.isOne ha.1) (h.isOne ha.2) (.ok rfl)
    tryInv := htry
    invertible := hinvertible
    zero := hz
    isZero := hzero
    add := hadd
    addAssign := hadd
    double := fun ha => hadd ha ha
    utimes := fun n _ _ ha => follows_utimes (PRel r) hz hadd (fun h => hadd h h) n ha
    neg := hneg
    negAssign := hneg
    sub := fun ha hb => follows_sub (PRel r) hneg hadd ha hb
    subAssign := fun ha hb => follows_subAssign (PRel r) hneg hadd ha hb
    times := htimes
    int := fun n => follows_int (PRel r) htimes hone n
    inv := hinv
    div := fun ha hb => follows_div (PRel r) hinv hmul ha hb
    power := fun n _ _ ha => follows_fieldPower (PRel r) hc hzero hz hone hmul (fun h => hmul h h)
      htry n ha }

end fractions

end Abstalg
