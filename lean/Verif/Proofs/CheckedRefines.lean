import Verif.Spec.Machine
import Verif.Proofs.CheckedGcd
import Verif.Proofs.CheckedTimes

/-! # Machine integers refine the integers -/

set_option linter.unusedSectionVars false

set_option autoImplicit false

universe u v

namespace Abstalg

section agree

variable {α β : Type u} {α' β' : Type v} {r : α → α' → Prop} {s : β → β' → Prop}

theorem Agree.bind {c : Res α} {d : Res α'} {f : α → Res β} {g : α' → Res β'}
    (h : Agree r c d) (hf : ∀ a b, r a b → Agree s (f a) (g b)) :
    Agree s (c >>= f) (d >>= g) := by
  rcases h with rfl | ⟨a, b, rfl, rfl, h⟩
  · exact .inl rfl
  · exact hf a b h

theorem Agree.ok {a : α} {b : α'} (h : r a b) : Agree r (.ok a) (.ok b) := .inr ⟨a, b, rfl, rfl, h⟩

theorem Agree.panic {d : Res α'} : Agree r .panic d := .inl rfl

theorem agree_of {w : ℕ} {c : Res (SInt w)} {d : Res ℤ} {x : ℤ}
    (h : Returns True c (SRep w · x)) (h' : Returns False d (ZRep · x)) : Agree (SRep w) c d := by
  obtain ⟨z, rfl, rfl⟩ := returns_false_iff.1 h'
  cases c with
  | ok a => exact .ok h
  | panic => exact .panic
  | diverge => exact h.elim

theorem agree_bool {c d : Res Bool} {p : Prop} (h : Decides True c p) (h' : Decides False d p) :
    Agree Eq c d := by
  obtain ⟨z, rfl, hz⟩ := returns_false_iff.1 h'
  cases c with
  | ok a => exact .ok (by rw [Bool.eq_iff_iff, hz]; exact h)
  | panic => exact .panic
  | diverge => exact h.elim

end agree

namespace CheckedInts

open SInt

variable [Cfg] (w : ℕ) [Width w]

theorem times_agree (n : ℤ) (a : SInt w) :
    Agree (SRep w) ((euclidean w).times n a) (Integers.euclidean.times n a.1) := by
  show Agree (SRep w) ((unitaryRing w).times n a) _
  rw [times_eq]
  split
  · exact .ok rfl
  · exact .panic

theorem quoRem_agree (a b : SInt w) :
    Agree (fun p q => SRep w p.1 q.1 ∧ SRep w p.2 q.2) ((euclidean w).quoRem a b)
      (Integers.euclidean.quoRem a.1 b.1) := by
  by_cases hb : b.1 = 0
  · rw [quoRem_zero w a b hb]; exact .panic
  · by_cases h : Bad w a b
    · rw [quoRem_bad w a b h]; exact .panic
    · rw [quoRem_eq w a b hb h, Integers.quoRem_eq _ _ hb]; exact .ok ⟨rfl, rfl⟩

theorem quo_agree (a b : SInt w) :
    Agree (SRep w) ((euclidean w).quo a b) (Integers.euclidean.quo a.1 b.1) :=
  Agree.bind (quoRem_agree w a b) fun _ _ h => .ok h.1

theorem rem_agree (a b : SInt w) :
    Agree (SRep w) ((euclidean w).rem a b) (Integers.euclidean.rem a.1 b.1) :=
  Agree.bind (quoRem_agree w a b) fun _ _ h => .ok h.2

theorem gcd_agree (a b : SInt w) :
    Agree (SRep w) ((euclidean w).gcd a b) (Integers.euclidean.gcd a.1 b.1) := by
  induction hn : b.1.natAbs using Nat.strongRecOn generalizing a b with
  | _ n ih =>
    show Agree _ (gcdDefault (euclidean w).isZero (euclidean w).rem a b)
      (gcdDefault Integers.euclidean.isZero Integers.euclidean.rem a.1 b.1)
    rw [gcdDefault, gcdDefault]
    refine Agree.bind (r := fun z z' => z = z' ∧ (z = true ↔ b.1 = 0))
      (.ok ⟨rfl, by simp⟩) ?_
    rintro z _ ⟨rfl, hz⟩
    cases z with
    | true => exact .ok rfl
    | false =>
      have hb : b.1 ≠ 0 := fun h => by simpa using hz.2 h
      simp only [Bool.false_eq_true, if_false]
      refine Agree.bind (r := fun c d => SRep w c d ∧ d.natAbs < n) ?_ ?_
      · rcases rem_agree w a b with h | ⟨c, d, h1, h2, h3⟩
        · exact .inl h
        · refine .inr ⟨c, d, h1, h2, h3, ?_⟩
          have : Integers.euclidean.rem a.1 b.1 = .ok (a.1 % b.1) := by
            show (Integers.euclidean.quoRem a.1 b.1 >>= _) = _
            rw [Integers.quoRem_eq _ _ hb]; rfl
          rw [this] at h2
          cases h2
          have h4 := Int.emod_nonneg a.1 hb
          have h5 := Int.emod_lt_abs a.1 hb
          rcases abs_cases b.1 with h6 | h6 <;> omega
      · rintro c _ ⟨rfl, hd⟩
        exact ih _ hd b c rfl

theorem extendedGcd_agree (a b : SInt w) :
    Agree (fun p q => SRep w p.1 q.1 ∧ SRep w p.2.1 q.2.1 ∧ SRep w p.2.2 q.2.2)
      ((euclidean w).extendedGcd a b) (Integers.euclidean.extendedGcd a.1 b.1) := by
  induction hn : b.1.natAbs using Nat.strongRecOn generalizing a b with
  | _ n ih =>
    show Agree _ (extendedGcdDefault (euclidean w).isZero (euclidean w).one (euclidean w).zero
      (euclidean w).quoRem (euclidean w).sub (euclidean w).mul a b)
      (extendedGcdDefault Integers.euclidean.isZero Integers.euclidean.one Integers.euclidean.zero
      Integers.euclidean.quoRem Integers.euclidean.sub Integers.euclidean.mul a.1 b.1)
    rw [extendedGcdDefault, extendedGcdDefault]
    refine Agree.bind (r := fun z z' => z = z' ∧ (z = true ↔ b.1 = 0))
      (.ok ⟨rfl, by simp⟩) ?_
    rintro z _ ⟨rfl, hz⟩
    cases z with
    | true => exact .ok ⟨rfl, rfl, rfl⟩
    | false =>
      have hb : b.1 ≠ 0 := fun h => by simpa using hz.2 h
      simp only [Bool.false_eq_true, if_false]
      refine Agree.bind (r := fun p q => (SRep w p.1 q.1 ∧ SRep w p.2 q.2) ∧ q.2.natAbs < n) ?_ ?_
      · rcases quoRem_agree w a b with h | ⟨c, d, h1, h2, h3⟩
        · exact .inl h
        · refine .inr ⟨c, d, h1, h2, h3, ?_⟩
          rw [Integers.quoRem_eq _ _ hb] at h2
          cases h2
          have h4 := Int.emod_nonneg a.1 hb
          have h5 := Int.emod_lt_abs a.1 hb
          rcases abs_cases b.1 with h6 | h6 <;> simp only <;> omega
      · rintro ⟨q, c⟩ ⟨_, _⟩ ⟨⟨rfl, rfl⟩, hd⟩
        refine Agree.bind (ih _ hd b c rfl) ?_
        rintro ⟨g, x, y⟩ ⟨_, _, _⟩ ⟨rfl, rfl, rfl⟩
        refine Agree.bind (agree_of ((unitaryRing_spec w).mul (a := y) (b := q) rfl rfl)
          (Integers.unitaryRing_spec.mul rfl rfl)) ?_
        rintro m _ rfl
        refine Agree.bind (agree_of ((unitaryRing_spec w).sub (a := x) (b := m) rfl rfl)
          (Integers.unitaryRing_spec.sub rfl rfl)) ?_
        rintro z _ rfl
        exact .ok ⟨rfl, rfl, rfl⟩

theorem refines : Refines (SRep w) (euclidean w) Integers.euclidean := by
  have hs := euclidean_spec w
  have hz := Integers.euclidean_spec
  have hmul : ∀ {a b : SInt w} {a' b' : ℤ}, SRep w a a' → SRep w b b' →
      Agree (SRep w) ((euclidean w).mul a b) (Integers.euclidean.mul a' b') :=
    fun ha hb => agree_of (hs.mul ha hb) (hz.mul rfl rfl)
  exact
  { contains := fun _ => .ok rfl
    equals := fun ha hb => agree_bool (hs.equals ha hb) (hz.equals rfl rfl)
    mul := hmul
    mulAssign := hmul
    square := fun ha => hmul ha ha
    one := .ok rfl
    isOne := fun ha => agree_bool (hs.isOne ha) (hz.isOne rfl)
    tryInv := by
      rintro a _ rfl
      refine Agree.bind (r := Eq) (agree_bool (hs.invertible (x := a.1) rfl) (hz.invertible rfl)) ?_
      rintro z _ rfl
      cases z with
      | true => exact .ok (.some rfl)
      | false => exact .ok .none
    invertible := fun ha => agree_bool (hs.invertible ha) (hz.invertible rfl)
    zero := .ok rfl
    isZero := fun ha => agree_bool (hs.isZero ha) (hz.isZero rfl)
    add := fun ha hb => agree_of (hs.add ha hb) (hz.add rfl rfl)
    addAssign := fun ha hb => agree_of (hs.addAssign ha hb) (hz.addAssign rfl rfl)
    double := fun ha => agree_of (hs.double ha) (hz.double rfl)
    utimes := fun n _ _ ha => agree_of (hs.utimes n ha) (hz.utimes n rfl)
    neg := fun ha => agree_of (hs.neg ha) (hz.neg rfl)
    negAssign := fun ha => agree_of (hs.negAssign ha) (hz.negAssign rfl)
    sub := fun ha hb => agree_of (hs.sub ha hb) (hz.sub rfl rfl)
    subAssign := fun ha hb => agree_of (hs.subAssign ha hb) (hz.subAssign rfl rfl)
    times := by rintro n a _ rfl; exact times_agree w n a
    int := fun n => by
      have h1 : (euclidean w).int n = (unitaryRing w).times n (c1 w) := rfl
      have h2 : Integers.euclidean.int n = Integers.euclidean.times n 1 := rfl
      rw [h1, h2]
      exact times_agree w n (c1 w)
    tryDiv := by
      rintro a b _ _ rfl rfl
      show Agree _ ((integralDomain w).tryDiv a b) (Integers.integralDomain.tryDiv a.1 b.1)
      by_cases hb : b.1 = 0
      · rw [tryDiv_zero w a b hb]; exact .panic
      · by_cases h : Bad w a b
        · rw [tryDiv_bad w a b h]; exact .panic
        · rw [tryDiv_eq w a b hb h, Integers.tryDiv_eq _ _ hb]
          refine .ok ?_
          split
          · exact .some rfl
          · exact .none
    divisible := fun ha hb => agree_bool (hs.divisible ha hb) (hz.divisible rfl rfl)
    associates := fun ha hb => agree_bool (hs.associates ha hb) (hz.associates rfl rfl)
    associateRepr := fun ha => agree_of (hs.associateRepr ha) (hz.associateRepr rfl)
    associateCoef := by
      rintro a _ rfl
      by_cases h : a.1 = 0
      · exact .inl (hs.associateCoef_zero h)
      · exact agree_of (hs.associateCoef rfl h) (hz.associateCoef rfl h)
    quoRem := by rintro a b _ _ rfl rfl; exact quoRem_agree w a b
    quo := by rintro a b _ _ rfl rfl; exact quo_agree w a b
    rem := by rintro a b _ _ rfl rfl; exact rem_agree w a b
    reduced := fun ha hb => agree_bool (hs.reduced ha hb) (hz.reduced rfl rfl)
    gcd := by rintro a b _ _ rfl rfl; exact gcd_agree w a b
    lcm := by
      rintro a b _ _ rfl rfl
      refine Agree.bind (gcd_agree w a b) ?_
      rintro g _ rfl
      refine Agree.bind (r := Eq) (.ok rfl) ?_
      rintro z _ rfl
      cases z with
      | true => exact .ok rfl
      | false =>
        simp only [Bool.false_eq_true, if_false]
        refine Agree.bind (quo_agree w a g) ?_
        rintro q _ rfl
        exact hmul rfl rfl
    extendedGcd := by rintro a b _ _ rfl rfl; exact extendedGcd_agree w a b
    relativePrimes := fun ha hb => agree_bool (hs.relativePrimes ha hb)
      (hz.relativePrimes rfl rfl) }

end CheckedInts

end Abstalg
