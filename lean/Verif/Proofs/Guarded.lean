import Verif.Spec.Guarded
import Verif.Proofs.SimBase
import Verif.Proofs.NoOverflow

/-! # Machine integers and integers with checks: the required methods -/

set_option autoImplicit false

namespace Abstalg

set_option linter.unusedSectionVars false

/-- The methods that `CheckedInts` does not implement are those provided by the traits. -/
structure Provided [Cfg] {E : Type} (A : EuclideanDomainOps E) : Prop where
  contains : A.contains = fun _ => .ok true
  mulAssign : A.mulAssign = fun a b => A.mul a b
  square : A.square = fun a => A.mul a a
  addAssign : A.addAssign = fun a b => A.add a b
  double : A.double = fun a => A.add a a
  utimes : A.utimes = fun n a => do
    let res ← A.zero
    timesLoop A.addAssign A.double n res a
  negAssign : A.negAssign = fun a => A.neg a
  subAssign : A.subAssign = fun a b => do A.addAssign a (← A.neg b)
  int : A.int = fun n => do A.times n (← A.one)
  divisible : A.divisible = fun a b => do
    if ← A.isZero b then A.isZero a
    else return (← A.tryDiv a b).isSome
  associates : A.associates = fun a b => do
    if ← A.divisible a b then A.divisible b a else return false
  quo : A.quo = fun a b => do return (← A.quoRem a b).1
  rem : A.rem = fun a b => do return (← A.quoRem a b).2
  gcd : A.gcd = gcdDefault A.isZero A.rem
  lcm : A.lcm = fun a b => do
    let g ← A.gcd a b
    if ← A.isZero g then return g
    else A.mul (← A.quo a g) b
  extendedGcd : A.extendedGcd = extendedGcdDefault A.isZero A.one A.zero A.quoRem A.sub A.mul
  relativePrimes : A.relativePrimes = fun a b => do
    let g ← A.gcd a b
    A.invertible g

/-- The methods that `CheckedInts` implements, followed by those of another dictionary. -/
structure FollowsRequired [Cfg] {E F : Type} (r : E → F → Prop) (A : EuclideanDomainOps E)
    (B : EuclideanDomainOps F) : Prop where
  equals : ∀ {a b a' b'}, r a a' → r b b' → Follows Eq (A.equals a b) (B.equals a' b')
  mul : ∀ {a b a' b'}, r a a' → r b b' → Follows r (A.mul a b) (B.mul a' b')
  one : Follows r A.one B.one
  isOne : ∀ {a a'}, r a a' → Follows Eq (A.isOne a) (B.isOne a')
  tryInv : ∀ {a a'}, r a a' → Follows (Option.Rel r) (A.tryInv a) (B.tryInv a')
  invertible : ∀ {a a'}, r a a' → Follows Eq (A.invertible a) (B.invertible a')
  zero : Follows r A.zero B.zero
  isZero : ∀ {a a'}, r a a' → Follows Eq (A.isZero a) (B.isZero a')
  add : ∀ {a b a' b'}, r a a' → r b b' → Follows r (A.add a b) (B.add a' b')
  neg : ∀ {a a'}, r a a' → Follows r (A.neg a) (B.neg a')
  sub : ∀ {a b a' b'}, r a a' → r b b' → Follows r (A.sub a b) (B.sub a' b')
  times : ∀ n {a a'}, r a a' → Follows r (A.times n a) (B.times n a')
  tryDiv : ∀ {a b a' b'}, r a a' → r b b' → Follows (Option.Rel r) (A.tryDiv a b) (B.tryDiv a' b')
  associateRepr : ∀ {a a'}, r a a' → Follows r (A.associateRepr a) (B.associateRepr a')
  associateCoef : ∀ {a a'}, r a a' → Follows r (A.associateCoef a) (B.associateCoef a')
  quoRem : ∀ {a b a' b'}, r a a' → r b b' →
    Follows (fun p q => r p.1 q.1 ∧ r p.2 q.2) (A.quoRem a b) (B.quoRem a' b')
  reduced : ∀ {a b a' b'}, r a a' → r b b' → Follows Eq (A.reduced a b) (B.reduced a' b')

theorem FollowsRequired.all [Cfg] {E F : Type} {r : E → F → Prop} {A : EuclideanDomainOps E}
    {B : EuclideanDomainOps F} (h : FollowsRequired r A B) (hA : Provided A) (hB : Provided B) :
    FollowsEuclideanDomain r A B :=
  have haa {a b a' b'} (ha : r a a') (hb : r b b') : Follows r (A.addAssign a b) (B.addAssign a' b') := by
    rw [hA.addAssign, hB.addAssign]; exact h.add ha hb
  have hdo {a a'} (ha : r a a') : Follows r (A.double a) (B.double a') := by
    rw [hA.double, hB.double]; exact h.add ha ha
  have hdiv {a b a' b'} (ha : r a a') (hb : r b b') :
      Follows Eq (A.divisible a b) (B.divisible a' b') := by
    rw [hA.divisible, hB.divisible]; exact follows_divisible r h.isZero h.tryDiv ha hb
  have hq {a b a' b'} (ha : r a a') (hb : r b b') : Follows r (A.quo a b) (B.quo a' b') := by
    rw [hA.quo, hB.quo]; exact follows_quo r h.quoRem ha hb
  have hrem {a b a' b'} (ha : r a a') (hb : r b b') : Follows r (A.rem a b) (B.rem a' b') := by
    rw [hA.rem, hB.rem]; exact follows_rem r h.quoRem ha hb
  have hg {a b a' b'} (ha : r a a') (hb : r b b') : Follows r (A.gcd a b) (B.gcd a' b') := by
    rw [hA.gcd, hB.gcd]; exact follows_gcd (r := r) h.isZero hrem ha hb
  have hma {a b a' b'} (ha : r a a') (hb : r b b') : Follows r (A.mulAssign a b) (B.mulAssign a' b') := by
    rw [hA.mulAssign, hB.mulAssign]; exact h.mul ha hb
  have hsq {a a'} (ha : r a a') : Follows r (A.square a) (B.square a') := by
    rw [hA.square, hB.square]; exact h.mul ha ha
  have hna {a a'} (ha : r a a') : Follows r (A.negAssign a) (B.negAssign a') := by
    rw [hA.negAssign, hB.negAssign]; exact h.neg ha
  have hsa {a b a' b'} (ha : r a a') (hb : r b b') : Follows r (A.subAssign a b) (B.subAssign a' b') := by
    rw [hA.subAssign, hB.subAssign]; exact follows_subAssign r h.neg haa ha hb
  have hco {a : E} {a' : F} : Follows Eq (A.contains a) (B.contains a') := by
    rw [hA.contains, hB.contains]; exact .ok rfl
  have hut (n) {a a'} (ha : r a a') : Follows r (A.utimes n a) (B.utimes n a') := by
    rw [hA.utimes, hB.utimes]; exact follows_utimes r h.zero haa hdo n ha
  { contains := fun _ => hco
    equals := h.equals
    mul := h.mul
    mulAssign := hma
    square := hsq
    one := h.one
    isOne := h.isOne
    tryInv := h.tryInv
    invertible := h.invertible
    zero := h.zero
    isZero := h.isZero
    add := h.add
    addAssign := haa
    double := hdo
    utimes := hut
    neg := h.neg
    negAssign := hna
    sub := h.sub
    subAssign := hsa
    times := h.times
    int := fun n => by rw [hA.int, hB.int]; exact follows_int r h.times h.one n
    tryDiv := h.tryDiv
    divisible := hdiv
    associates := fun ha hb => by
      rw [hA.associates, hB.associates]; exact follows_associates r hdiv ha hb
    associateRepr := h.associateRepr
    associateCoef := h.associateCoef
    quoRem := h.quoRem
    quo := hq
    rem := hrem
    reduced := h.reduced
    gcd := hg
    lcm := fun ha hb => by
      rw [hA.lcm, hB.lcm]; exact follows_lcm r h.isZero hg hq h.mul ha hb
    extendedGcd := fun ha hb => by
      rw [hA.extendedGcd, hB.extendedGcd]
      exact follows_extendedGcd (r := r) h.isZero h.one h.zero h.quoRem h.sub h.mul ha hb
    relativePrimes := fun ha hb => by
      rw [hA.relativePrimes, hB.relativePrimes]
      exact follows_relativePrimes r hg h.invertible ha hb }

section comp

variable {E F G : Type} {r₁ : E → F → Prop} {r₂ : F → G → Prop} {r : E → G → Prop}

theorem Follows.comp {α β γ : Type} {s₁ : α → β → Prop} {s₂ : β → γ → Prop} {s : α → γ → Prop}
    {c : Res α} {d : Res β} {e : Res γ} (h₁ : Follows s₁ c d) (h₂ : Follows s₂ d e)
    (hs : ∀ a b c, s₁ a b → s₂ b c → s a c) : Follows s c e := by
  intro a ha
  obtain ⟨b, hb, hab⟩ := h₁ a ha
  obtain ⟨c, hc, hbc⟩ := h₂ b hb
  exact ⟨c, hc, hs a b c hab hbc⟩

/-- Following is transitive. -/
theorem FollowsEuclideanDomain.comp [Cfg] {A : EuclideanDomainOps E} {B : EuclideanDomainOps F}
    {C : EuclideanDomainOps G} (h₁ : FollowsEuclideanDomain r₁ A B) (h₂ : FollowsEuclideanDomain r₂ B C)
    (hin : ∀ {a c}, r a c → ∃ b, r₁ a b ∧ r₂ b c) (hout : ∀ a b c, r₁ a b → r₂ b c → r a c) :
    FollowsEuclideanDomain r A C :=
  have he {α : Type} (a b c : α) (h : a = b) (h' : b = c) : a = c := h.trans h'
  have ho (a : Option E) (b : Option F) (c : Option G) (h : Option.Rel r₁ a b) (h' : Option.Rel r₂ b c) :
      Option.Rel r a c := by
    cases h with
    | none => cases h'; exact .none
    | some h => cases h' with | some h' => exact .some (hout _ _ _ h h')
  { contains := fun hac => by
      obtain ⟨b, h, h'⟩ := hin hac
      exact (h₁.contains h).comp (h₂.contains h') he
    equals := fun hac hac' => by
      obtain ⟨b, h, h'⟩ := hin hac
      obtain ⟨b', k, k'⟩ := hin hac'
      exact (h₁.equals h k).comp (h₂.equals h' k') he
    mul := fun hac hac' => by
      obtain ⟨b, h, h'⟩ := hin hac
      obtain ⟨b', k, k'⟩ := hin hac'
      exact (h₁.mul h k).comp (h₂.mul h' k') hout
    mulAssign := fun hac hac' => by
      obtain ⟨b, h, h'⟩ := hin hac
      obtain ⟨b', k, k'⟩ := hin hac'
      exact (h₁.mulAssign h k).comp (h₂.mulAssign h' k') hout
    square := fun hac => by
      obtain ⟨b, h, h'⟩ := hin hac
      exact (h₁.square h).comp (h₂.square h') hout
    one := h₁.one.comp h₂.one hout
    isOne := fun hac => by
      obtain ⟨b, h, h'⟩ := hin hac
      exact (h₁.isOne h).comp (h₂.isOne h') he
    tryInv := fun hac => by
      obtain ⟨b, h, h'⟩ := hin hac
      exact (h₁.tryInv h).comp (h₂.tryInv h') ho
    invertible := fun hac => by
      obtain ⟨b, h, h'⟩ := hin hac
      exact (h₁.invertible h).comp (h₂.invertible h') he
    zero := h₁.zero.comp h₂.zero hout
    isZero := fun hac => by
      obtain ⟨b, h, h'⟩ := hin hac
      exact (h₁.isZero h).comp (h₂.isZero h') he
    add := fun hac hac' => by
      obtain ⟨b, h, h'⟩ := hin hac
      obtain ⟨b', k, k'⟩ := hin hac'
      exact (h₁.add h k).comp (h₂.add h' k') hout
    addAssign := fun hac hac' => by
      obtain ⟨b, h, h'⟩ := hin hac
      obtain ⟨b', k, k'⟩ := hin hac'
      exact (h₁.addAssign h k).comp (h₂.addAssign h' k') hout
    double := fun hac => by
      obtain ⟨b, h, h'⟩ := hin hac
      exact (h₁.double h).comp (h₂.double h') hout
    utimes := fun n _ _ hac => by
      obtain ⟨b, h, h'⟩ := hin hac
      exact (h₁.utimes n h).comp (h₂.utimes n h') hout
    neg := fun hac => by
      obtain ⟨b, h, h'⟩ := hin hac
      exact (h₁.neg h).comp (h₂.neg h') hout
    negAssign := fun hac => by
      obtain ⟨b, h, h'⟩ := hin hac
      exact (h₁.negAssign h).comp (h₂.negAssign h') hout
    sub := fun hac hac' => by
      obtain ⟨b, h, h'⟩ := hin hac
      obtain ⟨b', k, k'⟩ := hin hac'
      exact (h₁.sub h k).comp (h₂.sub h' k') hout
    subAssign := fun hac hac' => by
      obtain ⟨b, h, h'⟩ := hin hac
      obtain ⟨b', k, k'⟩ := hin hac'
      exact (h₁.subAssign h k).comp (h₂.subAssign h' k') hout
    times := fun n _ _ hac => by
      obtain ⟨b, h, h'⟩ := hin hac
      exact (h₁.times n h).comp (h₂.times n h') hout
    int := fun n => (h₁.int n).comp (h₂.int n) hout
    tryDiv := fun hac hac' => by
      obtain ⟨b, h, h'⟩ := hin hac
      obtain ⟨b', k, k'⟩ := hin hac'
      exact (h₁.tryDiv h k).comp (h₂.tryDiv h' k') ho
    divisible := fun hac hac' => by
      obtain ⟨b, h, h'⟩ := hin hac
      obtain ⟨b', k, k'⟩ := hin hac'
      exact (h₁.divisible h k).comp (h₂.divisible h' k') he
    associates := fun hac hac' => by
      obtain ⟨b, h, h'⟩ := hin hac
      obtain ⟨b', k, k'⟩ := hin hac'
      exact (h₁.associates h k).comp (h₂.associates h' k') he
    associateRepr := fun hac => by
      obtain ⟨b, h, h'⟩ := hin hac
      exact (h₁.associateRepr h).comp (h₂.associateRepr h') hout
    associateCoef := fun hac => by
      obtain ⟨b, h, h'⟩ := hin hac
      exact (h₁.associateCoef h).comp (h₂.associateCoef h') hout
    quoRem := fun hac hac' => by
      obtain ⟨b, h, h'⟩ := hin hac
      obtain ⟨b', k, k'⟩ := hin hac'
      exact (h₁.quoRem h k).comp (h₂.quoRem h' k') (fun _ _ _ h h' => ⟨hout _ _ _ h.1 h'.1, hout _ _ _ h.2 h'.2⟩)
    quo := fun hac hac' => by
      obtain ⟨b, h, h'⟩ := hin hac
      obtain ⟨b', k, k'⟩ := hin hac'
      exact (h₁.quo h k).comp (h₂.quo h' k') hout
    rem := fun hac hac' => by
      obtain ⟨b, h, h'⟩ := hin hac
      obtain ⟨b', k, k'⟩ := hin hac'
      exact (h₁.rem h k).comp (h₂.rem h' k') hout
    reduced := fun hac hac' => by
      obtain ⟨b, h, h'⟩ := hin hac
      obtain ⟨b', k, k'⟩ := hin hac'
      exact (h₁.reduced h k).comp (h₂.reduced h' k') he
    gcd := fun hac hac' => by
      obtain ⟨b, h, h'⟩ := hin hac
      obtain ⟨b', k, k'⟩ := hin hac'
      exact (h₁.gcd h k).comp (h₂.gcd h' k') hout
    lcm := fun hac hac' => by
      obtain ⟨b, h, h'⟩ := hin hac
      obtain ⟨b', k, k'⟩ := hin hac'
      exact (h₁.lcm h k).comp (h₂.lcm h' k') hout
    extendedGcd := fun hac hac' => by
      obtain ⟨b, h, h'⟩ := hin hac
      obtain ⟨b', k, k'⟩ := hin hac'
      exact (h₁.extendedGcd h k).comp (h₂.extendedGcd h' k') (fun _ _ _ h h' => ⟨hout _ _ _ h.1 h'.1, hout _ _ _ h.2.1 h'.2.1, hout _ _ _ h.2.2 h'.2.2⟩)
    relativePrimes := fun hac hac' => by
      obtain ⟨b, h, h'⟩ := hin hac
      obtain ⟨b', k, k'⟩ := hin hac'
      exact (h₁.relativePrimes h k).comp (h₂.relativePrimes h' k') he }

end comp

namespace Guarded

open CheckedInts SInt

variable [Cfg] (w : ℕ) [Width w]

theorem provided : Provided (euclidean w) := by
  constructor <;> rfl

theorem provided_checked : Provided (CheckedInts.euclidean w) := by
  constructor <;> rfl

variable {w}

/-- Each computation returns if and only if the other does, and then corresponding values. -/
def Tallies {α β : Type} (r : α → β → Prop) (c : Res α) (d : Res β) : Prop :=
  Follows r c d ∧ Follows (fun b a => r a b) d c

omit [Cfg] [Width w] in
theorem Tallies.ok {α β : Type} {r : α → β → Prop} {a : α} {b : β} (h : r a b) :
    Tallies r (.ok a) (.ok b) := ⟨.ok h, .ok h⟩

omit [Cfg] [Width w] in
theorem Tallies.panic {α β : Type} {r : α → β → Prop} : Tallies r .panic .panic := ⟨.panic, .panic⟩

theorem fits_inRange {x : ℤ} : Fits w x ↔ InRange w x := by
  rw [fits_iff]; unfold InRange; omega

theorem tallies_dite {x : ℤ} : Tallies (SRep w)
    (if h : Fits w x then .ok (mk x h) else .panic) (guard w x) := by
  unfold guard
  by_cases h : Fits w x
  · rw [dif_pos h, if_pos (fits_inRange.1 h)]; exact .ok rfl
  · rw [dif_neg h, if_neg fun h' => h (fits_inRange.2 h')]; exact .panic

theorem tallies_equals (a b : SInt w) :
    (CheckedInts.euclidean w).equals a b = (euclidean w).equals a.1 b.1 := by
  show Res.ok (a == b) = .ok (decide (a.1 = b.1))
  congr 1

theorem tallies_times (n : ℤ) (a : SInt w) :
    Tallies (SRep w) ((CheckedInts.euclidean w).times n a) ((euclidean w).times n a.1) := by
  show Tallies _ ((unitaryRing w).times n a) (guard w n >>= fun m => guard w (m * a.1))
  rw [times_eq]
  unfold guard
  by_cases h1 : Fits w n
  · rw [if_pos (fits_inRange.1 h1)]
    simp only [ok_bind]
    by_cases h2 : Fits w (n * a.1)
    · rw [dif_pos ⟨h1, h2⟩, if_pos (fits_inRange.1 h2)]; exact .ok rfl
    · rw [dif_neg fun h => h2 h.2, if_neg fun h => h2 (fits_inRange.2 h)]; exact .panic
  · rw [dif_neg fun h => h1 h.1, if_neg fun h => h1 (fits_inRange.2 h)]; exact .panic

theorem bad_iff {a b : SInt w} (hb : b.1 ≠ 0) : Bad w a b ↔ ¬ InRange w (a.1 / b.1) := by
  rw [← fits_inRange]
  constructor
  · intro h
    rw [h.1, h.2]
    exact not_fits_min w
  · intro h
    by_contra hbad
    exact h (fits_ediv w a.2 hb hbad)

theorem tallies_tryDiv (a b : SInt w) : Tallies (Option.Rel (SRep w))
    ((CheckedInts.euclidean w).tryDiv a b) ((euclidean w).tryDiv a.1 b.1) := by
  show Tallies _ ((integralDomain w).tryDiv a b) (if b.1 = 0 then .panic
    else if b.1 ∣ a.1 then guard w (a.1 / b.1) >>= fun q => pure (some q) else .ok none)
  unfold guard
  by_cases h0 : b.1 = 0
  · rw [tryDiv_zero w a b h0, if_pos h0]; exact .panic
  · rw [if_neg h0]
    by_cases h : Bad w a b
    · rw [tryDiv_bad w a b h, if_pos (by rw [h.2]; exact ⟨-a.1, by ring⟩), if_neg ((bad_iff h0).1 h)]
      exact .panic
    · rw [tryDiv_eq w a b h0 h]
      by_cases hd : b.1 ∣ a.1
      · rw [if_pos hd, if_pos hd, if_pos (not_not.1 fun h' => h ((bad_iff h0).2 h'))]
        exact ⟨.ok (.some rfl), .ok (.some rfl)⟩
      · rw [if_neg hd, if_neg hd]
        exact ⟨.ok .none, .ok .none⟩

theorem tallies_quoRem (a b : SInt w) :
    Tallies (fun p q => SRep w p.1 q.1 ∧ SRep w p.2 q.2)
      ((CheckedInts.euclidean w).quoRem a b) ((euclidean w).quoRem a.1 b.1) := by
  show Tallies _ ((CheckedInts.euclidean w).quoRem a b) (if b.1 = 0 then .panic
    else guard w (a.1 / b.1) >>= fun q => pure (q, a.1 % b.1))
  unfold guard
  by_cases h0 : b.1 = 0
  · rw [quoRem_zero w a b h0, if_pos h0]; exact .panic
  · rw [if_neg h0]
    by_cases h : Bad w a b
    · rw [quoRem_bad w a b h, if_neg ((bad_iff h0).1 h)]
      exact .panic
    · rw [quoRem_eq w a b h0 h, if_pos (not_not.1 fun h' => h ((bad_iff h0).2 h'))]
      exact .ok ⟨rfl, rfl⟩

theorem tallies_associateRepr (a : SInt w) : Tallies (SRep w)
    ((CheckedInts.euclidean w).associateRepr a) ((euclidean w).associateRepr a.1) := by
  show Tallies _ (if a.1 < 0 then (unitaryRing w).neg a else .ok a) (guard w (a.1.natAbs : ℤ))
  rw [← Int.abs_eq_natAbs]
  split
  · rename_i h
    rw [abs_of_neg h, neg_eq]
    exact tallies_dite
  · rename_i h
    rw [abs_of_nonneg (not_lt.1 h)]
    unfold guard
    rw [if_pos (inRange_val a)]
    exact .ok rfl

theorem tallies_associateCoef (a : SInt w) : Tallies (SRep w)
    ((CheckedInts.euclidean w).associateCoef a) ((euclidean w).associateCoef a.1) := by
  show Tallies _ (Res.assert (a != c0 w) >>= fun _ => if a.1 < 0 then pure (cm1 w) else pure (c1 w))
    (if a.1 = 0 then .panic else .ok (if a.1 < 0 then -1 else 1))
  rw [beq_c0]
  by_cases h0 : a.1 = 0
  · rw [if_pos h0]
    simp only [h0, ne_eq, not_true_eq_false, decide_false, assert_false, panic_bind]
    exact .panic
  · rw [if_neg h0]
    simp only [h0, ne_eq, not_false_eq_true, decide_true, assert_true, ok_bind]
    split <;> exact .ok rfl

theorem eq_invertible (a : SInt w) :
    (CheckedInts.euclidean w).invertible a = (euclidean w).invertible a.1 := invertible_eq w a

theorem tallies_tryInv (a : SInt w) : Tallies (Option.Rel (SRep w))
    ((CheckedInts.euclidean w).tryInv a) ((euclidean w).tryInv a.1) := by
  show Tallies _ (invertible w a >>= fun b => if b = true then pure (some a) else pure none)
    (.ok (if a.1 = 1 ∨ a.1 = -1 then some a.1 else none))
  rw [invertible_eq]
  by_cases h : a.1 = 1 ∨ a.1 = -1
  · simp only [h, decide_true, ok_bind, if_true]
    exact ⟨.ok (.some rfl), .ok (.some rfl)⟩
  · simp only [h, decide_false, ok_bind, Bool.false_eq_true, if_false]
    exact ⟨.ok .none, .ok .none⟩

theorem eq_isOne (a : SInt w) : (CheckedInts.euclidean w).isOne a = (euclidean w).isOne a.1 := by
  show Res.ok (a == c1 w) = .ok (decide (a.1 = 1))
  congr 1

theorem eq_isZero (a : SInt w) : (CheckedInts.euclidean w).isZero a = (euclidean w).isZero a.1 := by
  show Res.ok (a.1 == 0) = .ok (decide (a.1 = 0))
  rfl

theorem required : FollowsRequired (SRep w) (CheckedInts.euclidean w) (euclidean w) where
  equals := by rintro a b _ _ rfl rfl; rw [tallies_equals]; exact .refl _
  mul := by rintro a b _ _ rfl rfl; rw [show (CheckedInts.euclidean w).mul a b = _ from mul_eq w a b]; exact tallies_dite.1
  one := .ok rfl
  isOne := by rintro a _ rfl; rw [eq_isOne]; exact .refl _
  tryInv := by rintro a _ rfl; exact (tallies_tryInv a).1
  invertible := by rintro a _ rfl; rw [eq_invertible]; exact .refl _
  zero := .ok rfl
  isZero := by rintro a _ rfl; rw [eq_isZero]; exact .refl _
  add := by rintro a b _ _ rfl rfl; rw [show (CheckedInts.euclidean w).add a b = _ from add_eq w a b]; exact tallies_dite.1
  neg := by rintro a _ rfl; rw [show (CheckedInts.euclidean w).neg a = _ from neg_eq w a]; exact tallies_dite.1
  sub := by rintro a b _ _ rfl rfl; rw [show (CheckedInts.euclidean w).sub a b = _ from sub_eq w a b]; exact tallies_dite.1
  times := by rintro n a _ rfl; exact (tallies_times n a).1
  tryDiv := by rintro a b _ _ rfl rfl; exact (tallies_tryDiv a b).1
  associateRepr := by rintro a _ rfl; exact (tallies_associateRepr a).1
  associateCoef := by rintro a _ rfl; exact (tallies_associateCoef a).1
  quoRem := by rintro a b _ _ rfl rfl; exact (tallies_quoRem a b).1
  reduced := by
    rintro a b _ _ rfl rfl
    rw [show (CheckedInts.euclidean w).reduced a b = _ from reduced_eq w a b]; exact .refl _

theorem rel_swap {o : Option (SInt w)} {p : Option ℤ} (h : Option.Rel (SRep w) o p) :
    Option.Rel (fun x a => SRep w a x) p o := by
  cases h
  · exact .some ‹_›
  · exact .none

theorem required' : FollowsRequired (fun x a => SRep w a x) (euclidean w) (CheckedInts.euclidean w) where
  equals := by rintro _ _ a b rfl rfl; rw [tallies_equals]; exact .refl _
  mul := by rintro _ _ a b rfl rfl; rw [show (CheckedInts.euclidean w).mul a b = _ from mul_eq w a b]; exact tallies_dite.2
  one := .ok rfl
  isOne := by rintro _ a rfl; rw [eq_isOne]; exact .refl _
  tryInv := by rintro _ a rfl; exact (tallies_tryInv a).2.mono fun _ _ h => rel_swap h
  invertible := by rintro _ a rfl; rw [eq_invertible]; exact .refl _
  zero := .ok rfl
  isZero := by rintro _ a rfl; rw [eq_isZero]; exact .refl _
  add := by rintro _ _ a b rfl rfl; rw [show (CheckedInts.euclidean w).add a b = _ from add_eq w a b]; exact tallies_dite.2
  neg := by rintro _ a rfl; rw [show (CheckedInts.euclidean w).neg a = _ from neg_eq w a]; exact tallies_dite.2
  sub := by rintro _ _ a b rfl rfl; rw [show (CheckedInts.euclidean w).sub a b = _ from sub_eq w a b]; exact tallies_dite.2
  times := by rintro n _ a rfl; exact (tallies_times n a).2
  tryDiv := by rintro _ _ a b rfl rfl; exact (tallies_tryDiv a b).2.mono fun _ _ h => rel_swap h
  associateRepr := by rintro _ a rfl; exact (tallies_associateRepr a).2
  associateCoef := by rintro _ a rfl; exact (tallies_associateCoef a).2
  quoRem := by rintro _ _ a b rfl rfl; exact (tallies_quoRem a b).2
  reduced := by
    rintro _ _ a b rfl rfl
    rw [show (CheckedInts.euclidean w).reduced a b = _ from reduced_eq w a b]; exact .refl _

section naturals

variable {w : ℕ} [UWidth w]

omit [Cfg] in
theorem tallies_ofNat (x : ℕ) :
    Tallies (URep w) (Res.unwrap (UInt'.ofNat? (w := w) x)) (uguard w x) := by
  have h1 : 0 < 2 ^ w := Nat.two_pow_pos w
  unfold UInt'.ofNat? uguard
  by_cases h : x ≤ uMax w
  · rw [dif_pos h, if_pos (by unfold uMax at h; omega)]; exact .ok rfl
  · rw [dif_neg h, if_neg (by unfold uMax at h; omega)]; exact .panic

omit [Cfg] in
theorem tallies_unitInv (a : UInt' w) :
    Follows (Option.Rel (URep w)) ((CheckedUints.semiRing w).tryInv a) ((naturals w).tryInv a.1) ∧
    Follows (Option.Rel fun x a => URep w a x) ((naturals w).tryInv a.1)
      ((CheckedUints.semiRing w).tryInv a) := by
  show Follows _ (if (a == CheckedUints.c1 w) = true then .ok (some (CheckedUints.c1 w)) else .ok none)
      (.ok (if a.1 = 1 then some 1 else none)) ∧
    Follows _ (.ok (if a.1 = 1 then some 1 else none))
      (if (a == CheckedUints.c1 w) = true then .ok (some (CheckedUints.c1 w)) else .ok none)
  have h : ((a == CheckedUints.c1 w) = true) ↔ a.1 = 1 := by
    rw [beq_iff_eq, Subtype.ext_iff]; rfl
  by_cases h1 : a.1 = 1
  · rw [if_pos h1, if_pos (h.2 h1)]
    exact ⟨.ok (.some rfl), .ok (.some rfl)⟩
  · rw [if_neg h1, if_neg fun h' => h1 (h.1 h')]
    exact ⟨.ok .none, .ok .none⟩

omit [Cfg] in
theorem uints_follow : FollowsSemiRing (URep w) (CheckedUints.semiRing w) (naturals w) :=
  have hmul {a b a' b'} (ha : (URep w) a a') (hb : (URep w) b b') :
      Follows (URep w) ((CheckedUints.semiRing w).mul a b) ((naturals w).mul a' b') := by
    obtain rfl := ha
    obtain rfl := hb
    exact (tallies_ofNat _).1
  have hadd {a b a' b'} (ha : (URep w) a a') (hb : (URep w) b b') :
      Follows (URep w) ((CheckedUints.semiRing w).add a b) ((naturals w).add a' b') := by
    obtain rfl := ha
    obtain rfl := hb
    exact (tallies_ofNat _).1
  have hz : Follows (URep w) (CheckedUints.semiRing w).zero (naturals w).zero := .ok rfl
  { contains := fun _ => .ok rfl
    equals := by rintro a b _ _ rfl rfl; exact .of_eq rfl
    zero := hz
    isZero := by rintro a _ rfl; exact .of_eq rfl
    add := hadd
    addAssign := hadd
    double := fun ha => hadd ha ha
    utimes := fun n _ _ ha => follows_utimes (URep w) hz hadd (fun h => hadd h h) n ha
    mul := hmul
    mulAssign := hmul
    square := fun ha => hmul ha ha
    one := .ok rfl
    isOne := by rintro a _ rfl; exact .of_eq rfl
    tryInv := by rintro a _ rfl; exact (tallies_unitInv a).1
    invertible := by rintro a _ rfl; exact .of_eq rfl }

omit [Cfg] in
theorem naturals_follow : FollowsSemiRing (fun x a => URep w a x) (naturals w) (CheckedUints.semiRing w) :=
  have hmul {a b a' b'} (ha : (fun x a => URep w a x) a a') (hb : (fun x a => URep w a x) b b') :
      Follows (fun x a => URep w a x) ((naturals w).mul a b) ((CheckedUints.semiRing w).mul a' b') := by
    obtain rfl := ha
    obtain rfl := hb
    exact (tallies_ofNat _).2
  have hadd {a b a' b'} (ha : (fun x a => URep w a x) a a') (hb : (fun x a => URep w a x) b b') :
      Follows (fun x a => URep w a x) ((naturals w).add a b) ((CheckedUints.semiRing w).add a' b') := by
    obtain rfl := ha
    obtain rfl := hb
    exact (tallies_ofNat _).2
  have hz : Follows (fun x a => URep w a x) (naturals w).zero (CheckedUints.semiRing w).zero := .ok rfl
  { contains := fun _ => .ok rfl
    equals := by rintro _ _ a b rfl rfl; exact .of_eq rfl
    zero := hz
    isZero := by rintro _ a rfl; exact .of_eq rfl
    add := hadd
    addAssign := hadd
    double := fun ha => hadd ha ha
    utimes := fun n _ _ ha => follows_utimes (fun x a => URep w a x) hz hadd (fun h => hadd h h) n ha
    mul := hmul
    mulAssign := hmul
    square := fun ha => hmul ha ha
    one := .ok rfl
    isOne := by rintro _ a rfl; exact .of_eq rfl
    tryInv := by rintro _ a rfl; exact (tallies_unitInv a).2
    invertible := by rintro _ a rfl; exact .of_eq rfl }

end naturals

end Guarded

end Abstalg
