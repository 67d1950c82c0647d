import Verif.Proofs.SimTraits
import Verif.Proofs.CheckedRefines
import Verif.Model.TwoElementAlgebra
import Verif.Model.Naturals
import Verif.Model.ApproxFloats

/-! # Following for the base structures -/

set_option linter.unusedSectionVars false

set_option autoImplicit false

universe u v

namespace Abstalg

theorem Agree.follows {α : Type u} {β : Type v} {r : α → β → Prop} {c : Res α} {d : Res β}
    (h : Agree r c d) : Follows r c d := by
  rcases h with rfl | ⟨a, b, rfl, rfl, h⟩
  · exact .panic
  · exact .ok h

/-- A refinement is followed. -/
theorem Refines.follows [Cfg] {E F : Type} {r : E → F → Prop} {A : EuclideanDomainOps E}
    {B : EuclideanDomainOps F} (h : Refines r A B) : FollowsEuclideanDomain r A B where
  contains := fun ha => (h.contains ha).follows
  equals := fun ha hb => (h.equals ha hb).follows
  mul := fun ha hb => (h.mul ha hb).follows
  mulAssign := fun ha hb => (h.mulAssign ha hb).follows
  square := fun ha => (h.square ha).follows
  one := h.one.follows
  isOne := fun ha => (h.isOne ha).follows
  tryInv := fun ha => (h.tryInv ha).follows
  invertible := fun ha => (h.invertible ha).follows
  zero := h.zero.follows
  isZero := fun ha => (h.isZero ha).follows
  add := fun ha hb => (h.add ha hb).follows
  addAssign := fun ha hb => (h.addAssign ha hb).follows
  double := fun ha => (h.double ha).follows
  utimes := fun n _ _ ha => (h.utimes n ha).follows
  neg := fun ha => (h.neg ha).follows
  negAssign := fun ha => (h.negAssign ha).follows
  sub := fun ha hb => (h.sub ha hb).follows
  subAssign := fun ha hb => (h.subAssign ha hb).follows
  times := fun n _ _ ha => (h.times n ha).follows
  int := fun n => (h.int n).follows
  tryDiv := fun ha hb => (h.tryDiv ha hb).follows
  divisible := fun ha hb => (h.divisible ha hb).follows
  associates := fun ha hb => (h.associates ha hb).follows
  associateRepr := fun ha => (h.associateRepr ha).follows
  associateCoef := fun ha => (h.associateCoef ha).follows
  quoRem := fun ha hb => (h.quoRem ha hb).follows
  quo := fun ha hb => (h.quo ha hb).follows
  rem := fun ha hb => (h.rem ha hb).follows
  reduced := fun ha hb => (h.reduced ha hb).follows
  gcd := fun ha hb => (h.gcd ha hb).follows
  lcm := fun ha hb => (h.lcm ha hb).follows
  extendedGcd := fun ha hb => (h.extendedGcd ha hb).follows
  relativePrimes := fun ha hb => (h.relativePrimes ha hb).follows

/-! ## Structures whose methods are the same for every configuration -/

section same

variable {c₁ c₂ : Cfg}

theorem Follows.of_eq {α : Type u} {c d : Res α} (h : c = d) : Follows Eq c d := h ▸ .refl c

theorem Follows.some_eq {α : Type} {c d : Res (Option α)} (h : c = d) :
    Follows (Option.Rel Eq) c d := by
  subst h
  exact (Follows.refl c).mono fun a b h => by subst h; cases a <;> constructor; rfl

theorem Follows.pair_eq {α β : Type} {c d : Res (α × β)} (h : c = d) :
    Follows (fun p q => p.1 = q.1 ∧ p.2 = q.2) c d := by
  subst h
  exact (Follows.refl c).mono fun a b h => by subst h; exact ⟨rfl, rfl⟩

theorem Follows.triple_eq {α β γ : Type} {c d : Res (α × β × γ)} (h : c = d) :
    Follows (fun p q => p.1 = q.1 ∧ p.2.1 = q.2.1 ∧ p.2.2 = q.2.2) c d := by
  subst h
  exact (Follows.refl c).mono fun a b h => by subst h; exact ⟨rfl, rfl, rfl⟩

theorem Integers.follows :
    FollowsEuclideanDomain Eq (@Integers.euclidean c₁) (@Integers.euclidean c₂) where
  contains := by rintro a _ rfl; exact .of_eq rfl
  equals := by rintro a b _ _ rfl rfl; exact .of_eq rfl
  mul := by rintro a b _ _ rfl rfl; exact .of_eq rfl
  mulAssign := by rintro a b _ _ rfl rfl; exact .of_eq rfl
  square := by rintro a _ rfl; exact .of_eq rfl
  one := .of_eq rfl
  isOne := by rintro a _ rfl; exact .of_eq rfl
  tryInv := by rintro a _ rfl; exact .some_eq rfl
  invertible := by rintro a _ rfl; exact .of_eq rfl
  zero := .of_eq rfl
  isZero := by rintro a _ rfl; exact .of_eq rfl
  add := by rintro a b _ _ rfl rfl; exact .of_eq rfl
  addAssign := by rintro a b _ _ rfl rfl; exact .of_eq rfl
  double := by rintro a _ rfl; exact .of_eq rfl
  utimes := by rintro n a _ rfl; exact .of_eq rfl
  neg := by rintro a _ rfl; exact .of_eq rfl
  negAssign := by rintro a _ rfl; exact .of_eq rfl
  sub := by rintro a b _ _ rfl rfl; exact .of_eq rfl
  subAssign := by rintro a b _ _ rfl rfl; exact .of_eq rfl
  times := by rintro n a _ rfl; exact .of_eq rfl
  int := fun n => .of_eq rfl
  tryDiv := by rintro a b _ _ rfl rfl; exact .some_eq rfl
  divisible := by rintro a b _ _ rfl rfl; exact .of_eq rfl
  associates := by rintro a b _ _ rfl rfl; exact .of_eq rfl
  associateRepr := by rintro a _ rfl; exact .of_eq rfl
  associateCoef := by rintro a _ rfl; exact .of_eq rfl
  quoRem := by rintro a b _ _ rfl rfl; exact .pair_eq rfl
  quo := by rintro a b _ _ rfl rfl; exact .of_eq rfl
  rem := by rintro a b _ _ rfl rfl; exact .of_eq rfl
  reduced := by rintro a b _ _ rfl rfl; exact .of_eq rfl
  gcd := by rintro a b _ _ rfl rfl; exact .of_eq rfl
  lcm := by rintro a b _ _ rfl rfl; exact .of_eq rfl
  extendedGcd := by rintro a b _ _ rfl rfl; exact .triple_eq rfl
  relativePrimes := by rintro a b _ _ rfl rfl; exact .of_eq rfl

theorem TwoElementAlgebra.follows :
    FollowsField Eq (@TwoElementAlgebra.field c₁) (@TwoElementAlgebra.field c₂) where
  contains := by rintro a _ rfl; exact .of_eq rfl
  equals := by rintro a b _ _ rfl rfl; exact .of_eq rfl
  mul := by rintro a b _ _ rfl rfl; exact .of_eq rfl
  mulAssign := by rintro a b _ _ rfl rfl; exact .of_eq rfl
  square := by rintro a _ rfl; exact .of_eq rfl
  one := .of_eq rfl
  isOne := by rintro a _ rfl; exact .of_eq rfl
  tryInv := by rintro a _ rfl; exact .some_eq rfl
  invertible := by rintro a _ rfl; exact .of_eq rfl
  zero := .of_eq rfl
  isZero := by rintro a _ rfl; exact .of_eq rfl
  add := by rintro a b _ _ rfl rfl; exact .of_eq rfl
  addAssign := by rintro a b _ _ rfl rfl; exact .of_eq rfl
  double := by rintro a _ rfl; exact .of_eq rfl
  utimes := by rintro n a _ rfl; exact .of_eq rfl
  neg := by rintro a _ rfl; exact .of_eq rfl
  negAssign := by rintro a _ rfl; exact .of_eq rfl
  sub := by rintro a b _ _ rfl rfl; exact .of_eq rfl
  subAssign := by rintro a b _ _ rfl rfl; exact .of_eq rfl
  times := by rintro n a _ rfl; exact .of_eq rfl
  int := fun n => .of_eq rfl
  inv := by rintro a _ rfl; exact .of_eq rfl
  div := by rintro a b _ _ rfl rfl; exact .of_eq rfl
  power := by rintro n a _ rfl; exact .of_eq rfl

theorem ApproxFloats.follows (hc : Cfg.Relaxes c₁ c₂) (F : FloatFormat) :
    FollowsField Eq (@ApproxFloats.field c₁ F) (@ApproxFloats.field c₂ F) where
  contains := by rintro a _ rfl; exact .of_eq rfl
  equals := by rintro a b _ _ rfl rfl; exact .of_eq rfl
  mul := by rintro a b _ _ rfl rfl; exact .of_eq rfl
  mulAssign := by rintro a b _ _ rfl rfl; exact .of_eq rfl
  square := by rintro a _ rfl; exact .of_eq rfl
  one := .of_eq rfl
  isOne := by rintro a _ rfl; exact .of_eq rfl
  tryInv := by rintro a _ rfl; exact .some_eq rfl
  invertible := by rintro a _ rfl; exact .of_eq rfl
  zero := .of_eq rfl
  isZero := by rintro a _ rfl; exact .of_eq rfl
  add := by rintro a b _ _ rfl rfl; exact .of_eq rfl
  addAssign := by rintro a b _ _ rfl rfl; exact .of_eq rfl
  double := by rintro a _ rfl; exact .of_eq rfl
  utimes := by rintro n a _ rfl; exact .of_eq rfl
  neg := by rintro a _ rfl; exact .of_eq rfl
  negAssign := by rintro a _ rfl; exact .of_eq rfl
  sub := by rintro a b _ _ rfl rfl; exact .of_eq rfl
  subAssign := by rintro a b _ _ rfl rfl; exact .of_eq rfl
  times := by rintro n a _ rfl; exact .of_eq rfl
  int := fun n => .of_eq rfl
  inv := by rintro a _ rfl; exact .of_eq rfl
  div := by rintro a b _ _ rfl rfl; exact .of_eq rfl
  power := fun n a a' ha => follows_fieldPower Eq
    (isZero := (@ApproxFloats.field c₁ F).isZero) (isZero' := (@ApproxFloats.field c₂ F).isZero)
    (zero := (@ApproxFloats.field c₁ F).zero) (zero' := (@ApproxFloats.field c₂ F).zero)
    (one := (@ApproxFloats.field c₁ F).one) (one' := (@ApproxFloats.field c₂ F).one)
    (mul := (@ApproxFloats.field c₁ F).mulAssign) (mul' := (@ApproxFloats.field c₂ F).mulAssign)
    (square := (@ApproxFloats.field c₁ F).square) (square' := (@ApproxFloats.field c₂ F).square)
    (tryInv := (@ApproxFloats.field c₁ F).tryInv) (tryInv' := (@ApproxFloats.field c₂ F).tryInv) hc
    (by rintro a _ rfl; exact .of_eq rfl) (.of_eq rfl) (.of_eq rfl)
    (by rintro a b _ _ rfl rfl; exact .of_eq rfl)
    (by rintro a _ rfl; exact .of_eq rfl) (by rintro a _ rfl; exact .some_eq rfl) n ha

end same

/-! ## Machine integers of two widths -/

/-- Machine integers of the same value. -/
def SameVal (w w' : ℕ) (a : SInt w) (b : SInt w') : Prop := a.1 = b.1

namespace CheckedInts

open SInt

variable {w w' : ℕ} [Width w] [Width w'] {c₁ c₂ : Cfg}

theorem pow_le_pow_width (hw : w ≤ w') : (2 : ℤ) ^ (w - 1) ≤ 2 ^ (w' - 1) :=
  pow_le_pow_right₀ (by decide) (by omega)

theorem Fits.widen (hw : w ≤ w') {x : ℤ} (h : Fits w x) : Fits w' x := by
  have := pow_le_pow_width (w := w) (w' := w') hw
  rw [fits_iff] at h ⊢
  omega

theorem Bad.narrow (hw : w ≤ w') {a b : SInt w} {a' b' : SInt w'} (ha : SameVal w w' a a')
    (hb : SameVal w w' b b') (h : Bad w' a' b') : Bad w a b := by
  have h1 := pow_le_pow_width (w := w) (w' := w') hw
  have h2 := fits_iff.1 a.2
  refine ⟨?_, hb.trans h.2⟩
  have h3 : a.1 = -(2 ^ (w' - 1)) := ha.trans h.1
  show a.1 = -(2 ^ (w - 1))
  omega

theorem follows_ofInt (hw : w ≤ w') (x : ℤ) :
    Follows (SameVal w w') (Res.unwrap (ofInt? (w := w) x)) (Res.unwrap (ofInt? (w := w') x)) := by
  rw [unwrap_ofInt, unwrap_ofInt]
  by_cases h : Fits w x
  · rw [dif_pos h, dif_pos (Fits.widen hw h)]
    exact .ok rfl
  · rw [dif_neg h]
    exact .panic

theorem sameVal_beq {a b : SInt w} {a' b' : SInt w'} (ha : SameVal w w' a a') (hb : SameVal w w' b b') :
    (a == b) = (a' == b') := by
  rw [Bool.eq_iff_iff, beq_iff_eq, beq_iff_eq, eq_iff, eq_iff, ha, hb]

theorem follows_unitaryRing (hw : w ≤ w') :
    FollowsUnitaryRing (SameVal w w') (@unitaryRing c₁ w _) (@unitaryRing c₂ w' _) :=
  have hmul {a b a' b'} (ha : SameVal w w' a a') (hb : SameVal w w' b b') : Follows (SameVal w w')
      (Res.unwrap (ofInt? (a.1 * b.1))) (Res.unwrap (ofInt? (a'.1 * b'.1))) := by
    rw [ha, hb]; exact follows_ofInt hw _
  have hadd {a b a' b'} (ha : SameVal w w' a a') (hb : SameVal w w' b b') : Follows (SameVal w w')
      (Res.unwrap (ofInt? (a.1 + b.1))) (Res.unwrap (ofInt? (a'.1 + b'.1))) := by
    rw [ha, hb]; exact follows_ofInt hw _
  have hsub {a b a' b'} (ha : SameVal w w' a a') (hb : SameVal w w' b b') : Follows (SameVal w w')
      (Res.unwrap (ofInt? (a.1 - b.1))) (Res.unwrap (ofInt? (a'.1 - b'.1))) := by
    rw [ha, hb]; exact follows_ofInt hw _
  have hneg {a a'} (ha : SameVal w w' a a') : Follows (SameVal w w')
      (Res.unwrap (ofInt? ((c0 w).1 - a.1))) (Res.unwrap (ofInt? ((c0 w').1 - a'.1))) := by
    rw [ha]; exact follows_ofInt hw _
  have htimes (n : ℤ) {a a'} (ha : SameVal w w' a a') : Follows (SameVal w w')
      (@AbelianGroupOps.times c₁ _ (@UnitaryRingOps.toAbelianGroupOps c₁ _ (@unitaryRing c₁ w _)) n a)
      (@AbelianGroupOps.times c₂ _ (@UnitaryRingOps.toAbelianGroupOps c₂ _ (@unitaryRing c₂ w' _)) n a') :=
    Follows.bind (follows_ofInt hw n) fun m m' hm => by
      rw [ha, hm]; exact follows_ofInt hw _
  have hinvertible {a a'} (ha : SameVal w w' a a') : Follows Eq (invertible w a) (invertible w' a') :=
    .ok (by rw [sameVal_beq ha (show SameVal w w' (c1 w) (c1 w') from rfl),
      sameVal_beq ha (show SameVal w w' (cm1 w) (cm1 w') from rfl)])
  have hz : Follows (SameVal w w') (Res.ok (c0 w)) (Res.ok (c0 w')) := .ok rfl
  have ho : Follows (SameVal w w') (Res.ok (c1 w)) (Res.ok (c1 w')) := .ok rfl
  { contains := fun _ => .ok rfl
    equals := fun ha hb => .ok (sameVal_beq ha hb)
    mul := hmul
    mulAssign := hmul
    square := fun ha => hmul ha ha
    one := .ok rfl
    isOne := fun ha => .ok (sameVal_beq ha rfl)
    tryInv := fun ha => Follows.bindIf (hinvertible ha) (.ok (.some ha)) (.ok .none)
    invertible := hinvertible
    zero := hz
    isZero := fun ha => .ok (by rw [ha])
    add := hadd
    addAssign := hadd
    double := fun ha => hadd ha ha
    utimes := fun n _ _ ha => follows_utimes (SameVal w w') hz hadd (fun h => hadd h h) n ha
    neg := hneg
    negAssign := hneg
    sub := hsub
    subAssign := fun ha hb => follows_subAssign (SameVal w w') hneg hadd ha hb
    times := htimes
    int := fun n => follows_int (SameVal w w') htimes ho n }

theorem follows_integralDomain (hw : w ≤ w') :
    FollowsIntegralDomain (SameVal w w') (@integralDomain c₁ w _) (@integralDomain c₂ w' _) :=
  have hring := follows_unitaryRing (c₁ := c₁) (c₂ := c₂) hw
  have hd {a b a' b'} (ha : SameVal w w' a a') (hb : SameVal w w' b b') :
      Follows (Option.Rel (SameVal w w')) (@IntegralDomainOps.tryDiv c₁ _ (@integralDomain c₁ w _) a b)
        (@IntegralDomainOps.tryDiv c₂ _ (@integralDomain c₂ w' _) a' b') := by
    by_cases h0 : b.1 = 0
    · rw [@tryDiv_zero c₁ w _ a b h0]; exact .panic
    · by_cases h : Bad w a b
      · rw [@tryDiv_bad c₁ w _ a b h]; exact .panic
      · rw [@tryDiv_eq c₁ w _ a b h0 h, @tryDiv_eq c₂ w' _ a' b' (hb ▸ h0) fun h' => h (h'.narrow hw ha hb)]
        refine .ok ?_
        by_cases hdvd : b.1 ∣ a.1
        · rw [if_pos hdvd, if_pos (by rwa [← ha, ← hb])]
          exact .some (show a.1 / b.1 = a'.1 / b'.1 by rw [ha, hb])
        · rw [if_neg hdvd, if_neg (by rwa [← ha, ← hb])]
          exact .none
  have hdiv {a b a' b'} (ha : SameVal w w' a a') (hb : SameVal w w' b b') : Follows Eq
      (@IntegralDomainOps.divisible c₁ _ (@integralDomain c₁ w _) a b)
      (@IntegralDomainOps.divisible c₂ _ (@integralDomain c₂ w' _) a' b') :=
    follows_divisible (SameVal w w') hring.isZero hd ha hb
  { toFollowsUnitaryRing := hring
    tryDiv := hd
    divisible := hdiv
    associates := follows_associates (SameVal w w') hdiv
    associateRepr := fun {a a'} ha => Follows.ite (by rw [ha]; rfl) (fun _ => hring.neg ha) fun _ => .ok ha
    associateCoef := fun {a a'} ha => by
      refine Follows.bind (Follows.assert (b := a != c0 w) (b' := a' != c0 w') ?_) fun _ _ _ =>
        Follows.ite (by rw [ha]; rfl) (fun _ => .ok rfl) fun _ => .ok rfl
      rw [beq_c0, beq_c0, ha] }

theorem follows_euclidean (hw : w ≤ w') :
    FollowsEuclideanDomain (SameVal w w') (@euclidean c₁ w _) (@euclidean c₂ w' _) :=
  have hdom := follows_integralDomain (c₁ := c₁) (c₂ := c₂) hw
  have hqr {a b a' b'} (ha : SameVal w w' a a') (hb : SameVal w w' b b') :
      Follows (fun p q => SameVal w w' p.1 q.1 ∧ SameVal w w' p.2 q.2)
        (@EuclideanDomainOps.quoRem c₁ _ (@euclidean c₁ w _) a b)
        (@EuclideanDomainOps.quoRem c₂ _ (@euclidean c₂ w' _) a' b') := by
    by_cases h0 : b.1 = 0
    · rw [@quoRem_zero c₁ w _ a b h0]; exact .panic
    · by_cases h : Bad w a b
      · rw [@quoRem_bad c₁ w _ a b h]; exact .panic
      · rw [@quoRem_eq c₁ w _ a b h0 h, @quoRem_eq c₂ w' _ a' b' (hb ▸ h0) fun h' => h (h'.narrow hw ha hb)]
        exact .ok ⟨show a.1 / b.1 = a'.1 / b'.1 by rw [ha, hb],
          show a.1 % b.1 = a'.1 % b'.1 by rw [ha, hb]⟩
  have hq {a b a' b'} (ha : SameVal w w' a a') (hb : SameVal w w' b b') : Follows (SameVal w w')
      (@EuclideanDomainOps.quo c₁ _ (@euclidean c₁ w _) a b)
      (@EuclideanDomainOps.quo c₂ _ (@euclidean c₂ w' _) a' b') :=
    follows_quo (SameVal w w') hqr ha hb
  have hrem {a b a' b'} (ha : SameVal w w' a a') (hb : SameVal w w' b b') : Follows (SameVal w w')
      (@EuclideanDomainOps.rem c₁ _ (@euclidean c₁ w _) a b)
      (@EuclideanDomainOps.rem c₂ _ (@euclidean c₂ w' _) a' b') :=
    follows_rem (SameVal w w') hqr ha hb
  have hg {a b a' b'} (ha : SameVal w w' a a') (hb : SameVal w w' b b') : Follows (SameVal w w')
      (@EuclideanDomainOps.gcd c₁ _ (@euclidean c₁ w _) a b)
      (@EuclideanDomainOps.gcd c₂ _ (@euclidean c₂ w' _) a' b') :=
    follows_gcd (r := SameVal w w') hdom.isZero hrem ha hb
  { toFollowsIntegralDomain := hdom
    quoRem := hqr
    quo := hq
    rem := hrem
    reduced := fun {a b a' b'} ha hb => by
      rw [@reduced_eq c₁ w _ a b, @reduced_eq c₂ w' _ a' b', ha, hb]
      exact .ok rfl
    gcd := hg
    lcm := fun ha hb => follows_lcm (SameVal w w') hdom.isZero hg hq hdom.mul ha hb
    extendedGcd := fun ha hb => follows_extendedGcd (r := SameVal w w') hdom.isZero hdom.one hdom.zero
      hqr hdom.sub hdom.mul ha hb
    relativePrimes := fun ha hb => follows_relativePrimes (SameVal w w') hg hdom.invertible ha hb }

end CheckedInts

/-! ## Orders of machine integers, and unsigned machine integers -/

/-- A total order given by the values. -/
theorem followsLattice_values {α β γ : Type} [LinearOrder γ] {f : α → γ} {g : β → γ}
    {A : LatticeOps α} {B : LatticeOps β}
    (hA : A.contains = fun _ => .ok true) (hB : B.contains = fun _ => .ok true)
    (heA : A.equals = fun a b => .ok (decide (f a = f b)))
    (heB : B.equals = fun a b => .ok (decide (g a = g b)))
    (hlA : A.leq = fun a b => .ok (decide (f a ≤ f b)))
    (hlB : B.leq = fun a b => .ok (decide (g a ≤ g b)))
    (hltA : A.lessThan = fun a b => do if !(← A.equals a b) then A.leq a b else return false)
    (hltB : B.lessThan = fun a b => do if !(← B.equals a b) then B.leq a b else return false)
    (hcA : A.comparable = fun a b => do if ← A.leq a b then return true else A.leq b a)
    (hcB : B.comparable = fun a b => do if ← B.leq a b then return true else B.leq b a)
    (hmA : A.meet = fun a b => .ok (if f b < f a then b else a))
    (hmB : B.meet = fun a b => .ok (if g b < g a then b else a))
    (hjA : A.join = fun a b => .ok (if f b < f a then a else b))
    (hjB : B.join = fun a b => .ok (if g b < g a then a else b)) :
    FollowsLattice (fun a b => f a = g b) A B :=
  have heq {a b a' b'} (ha : f a = g a') (hb : f b = g b') :
      Follows Eq (A.equals a b) (B.equals a' b') := by rw [heA, heB]; exact .ok (by rw [ha, hb])
  have hle {a b a' b'} (ha : f a = g a') (hb : f b = g b') :
      Follows Eq (A.leq a b) (B.leq a' b') := by rw [hlA, hlB]; exact .ok (by rw [ha, hb])
  { contains := fun _ => by rw [hA, hB]; exact .ok rfl
    equals := heq
    leq := hle
    lessThan := fun ha hb => by
      rw [hltA, hltB]; exact follows_lessThan (fun a b => f a = g b) heq hle ha hb
    comparable := fun ha hb => by
      rw [hcA, hcB]; exact follows_comparable (fun a b => f a = g b) hle ha hb
    meet := fun {a b a' b'} ha hb => by
      rw [hmA, hmB]
      refine .ok ?_
      show f _ = g _
      rw [ha, hb]
      split <;> assumption
    join := fun {a b a' b'} ha hb => by
      rw [hjA, hjB]
      refine .ok ?_
      show f _ = g _
      rw [ha, hb]
      split <;> assumption }

theorem CheckedInts.lattice_follows_integers (w : ℕ) :
    FollowsLattice (SRep w) (CheckedInts.lattice w) Integers.lattice :=
  followsLattice_values (f := Subtype.val) (g := id) rfl rfl
    (by funext a b; exact congrArg Res.ok (by rw [Bool.eq_iff_iff]; simp))
    (by funext a b; exact congrArg Res.ok (by rw [Bool.eq_iff_iff]; simp))
    rfl rfl rfl rfl rfl rfl rfl rfl rfl rfl

theorem CheckedInts.lattice_follows (w w' : ℕ) :
    FollowsLattice (SameVal w w') (CheckedInts.lattice w) (CheckedInts.lattice w') :=
  followsLattice_values (f := Subtype.val) (g := Subtype.val) rfl rfl
    (by funext a b; exact congrArg Res.ok (by rw [Bool.eq_iff_iff]; simp))
    (by funext a b; exact congrArg Res.ok (by rw [Bool.eq_iff_iff]; simp))
    rfl rfl rfl rfl rfl rfl rfl rfl rfl rfl

/-- Unsigned machine integers of the same value. -/
def SameUVal (w w' : ℕ) (a : UInt' w) (b : UInt' w') : Prop := a.1 = b.1

theorem CheckedUints.lattice_follows_naturals (w : ℕ) :
    FollowsLattice (URep w) (CheckedUints.lattice w) Naturals.lattice :=
  followsLattice_values (f := Subtype.val) (g := id) rfl rfl
    (by funext a b; exact congrArg Res.ok (by rw [Bool.eq_iff_iff]; simp))
    (by funext a b; exact congrArg Res.ok (by rw [Bool.eq_iff_iff]; simp))
    rfl rfl rfl rfl rfl rfl rfl rfl rfl rfl

theorem CheckedUints.lattice_follows (w w' : ℕ) :
    FollowsLattice (SameUVal w w') (CheckedUints.lattice w) (CheckedUints.lattice w') :=
  followsLattice_values (f := Subtype.val) (g := Subtype.val) rfl rfl
    (by funext a b; exact congrArg Res.ok (by rw [Bool.eq_iff_iff]; simp))
    (by funext a b; exact congrArg Res.ok (by rw [Bool.eq_iff_iff]; simp))
    rfl rfl rfl rfl rfl rfl rfl rfl rfl rfl

namespace CheckedUints

open UInt'

variable {w w' : ℕ} [UWidth w] [UWidth w']

theorem follows_semiRing (hw : w ≤ w') : FollowsSemiRing (SameUVal w w') (semiRing w) (semiRing w') :=
  have hfit {x : ℕ} (h : x ≤ uMax w) : x ≤ uMax w' := by
    have : (2 : ℕ) ^ w ≤ 2 ^ w' := Nat.pow_le_pow_right (by decide) hw
    unfold uMax at h ⊢
    omega
  have hof (x : ℕ) : Follows (SameUVal w w') (Res.unwrap (ofNat? (w := w) x))
      (Res.unwrap (ofNat? (w := w') x)) := by
    unfold ofNat?
    by_cases h : x ≤ uMax w
    · rw [dif_pos h, dif_pos (hfit h)]; exact .ok rfl
    · rw [dif_neg h]; exact .panic
  have heq {a b a' b'} (ha : SameUVal w w' a a') (hb : SameUVal w w' b b') : (a == b) = (a' == b') := by
    rw [Bool.eq_iff_iff, beq_iff_eq, beq_iff_eq, Subtype.ext_iff, Subtype.ext_iff, ha, hb]
  have hmul {a b a' b'} (ha : SameUVal w w' a a') (hb : SameUVal w w' b b') : Follows (SameUVal w w')
      (Res.unwrap (ofNat? (a.1 * b.1))) (Res.unwrap (ofNat? (a'.1 * b'.1))) := by
    rw [ha, hb]; exact hof _
  have hadd {a b a' b'} (ha : SameUVal w w' a a') (hb : SameUVal w w' b b') : Follows (SameUVal w w')
      (Res.unwrap (ofNat? (a.1 + b.1))) (Res.unwrap (ofNat? (a'.1 + b'.1))) := by
    rw [ha, hb]; exact hof _
  have hz : Follows (SameUVal w w') (Res.ok (c0 w)) (Res.ok (c0 w')) := .ok rfl
  { contains := fun _ => .ok rfl
    equals := fun ha hb => .ok (heq ha hb)
    zero := hz
    isZero := fun ha => .ok (by rw [ha])
    add := hadd
    addAssign := hadd
    double := fun ha => hadd ha ha
    utimes := fun n _ _ ha => follows_utimes (SameUVal w w') hz hadd (fun h => hadd h h) n ha
    mul := hmul
    mulAssign := hmul
    square := fun ha => hmul ha ha
    one := .ok rfl
    isOne := fun ha => .ok (heq ha rfl)
    tryInv := fun ha => Follows.ite (by rw [heq ha (show SameUVal w w' (c1 w) (c1 w') from rfl)])
      (fun _ => .ok (.some rfl)) fun _ => .ok .none
    invertible := fun ha => .ok (heq ha rfl) }

/-- The provided `times` against the one of the natural numbers. -/
theorem utimes_follows (n : ℕ) {a : UInt' w} {x : ℕ} (ha : URep w a x) :
    Follows (URep w) ((semiRing w).utimes n a) (Naturals.semiRing.utimes n x) := by
  have h := (semiRing_spec w).utimes n ha
  intro b hb
  rw [hb] at h
  exact ⟨n * x, rfl, h.trans (nsmul_eq_mul n x)⟩

theorem follows_naturals : FollowsSemiRing (URep w) (semiRing w) Naturals.semiRing :=
  have hof (x : ℕ) : Follows (URep w) (Res.unwrap (ofNat? (w := w) x)) (Res.ok x) := by
    unfold ofNat?
    by_cases h : x ≤ uMax w
    · rw [dif_pos h]; exact .ok rfl
    · rw [dif_neg h]; exact .panic
  have heq {a b : UInt' w} {x y : ℕ} (ha : URep w a x) (hb : URep w b y) : (a == b) = (x == y) := by
    rw [Bool.eq_iff_iff, beq_iff_eq, beq_iff_eq, Subtype.ext_iff, ha, hb]
  have hmul {a b x y} (ha : URep w a x) (hb : URep w b y) : Follows (URep w)
      (Res.unwrap (ofNat? (a.1 * b.1))) (Res.ok (x * y)) := by
    rw [ha, hb]; exact hof _
  have hadd {a b x y} (ha : URep w a x) (hb : URep w b y) : Follows (URep w)
      (Res.unwrap (ofNat? (a.1 + b.1))) (Res.ok (x + y)) := by
    rw [ha, hb]; exact hof _
  { contains := fun _ => .ok rfl
    equals := fun ha hb => .ok (heq ha hb)
    zero := .ok rfl
    isZero := fun ha => .ok (by rw [ha])
    add := hadd
    addAssign := hadd
    double := fun {a x} ha => by
      show Follows _ _ (Res.ok (x * 2))
      rw [mul_two]
      exact hadd ha ha
    utimes := fun n _ _ ha => utimes_follows n ha
    mul := hmul
    mulAssign := hmul
    square := fun ha => hmul ha ha
    one := .ok rfl
    isOne := fun ha => .ok (heq ha rfl)
    tryInv := fun ha => Follows.ite (by rw [heq ha (show URep w (c1 w) 1 from rfl)])
      (fun _ => .ok (.some rfl)) fun _ => .ok .none
    invertible := fun ha => .ok (heq ha rfl) }

end CheckedUints

end Abstalg
