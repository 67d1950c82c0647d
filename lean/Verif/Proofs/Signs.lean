import Verif.Spec.Signs
import Verif.Props.Floats
import Verif.Proofs.SimTraits
import Verif.Proofs.Graded

/-! # Floats up to signs -/

set_option linter.unusedSectionVars false

set_option autoImplicit false

namespace Abstalg

open FloatFormat

variable {F : FloatFormat} {m n : Bool} {a b a' b' : F.Val}

theorem bySign_bySign (x : ℚ) : bySign m (bySign n x) = bySign (m ^^ n) x := by
  cases m <;> cases n <;> simp [bySign]

theorem bySign_mul (x y : ℚ) : bySign m x * bySign n y = bySign (m ^^ n) (x * y) := by
  cases m <;> cases n <;> simp [bySign]

theorem bySign_div (x y : ℚ) : bySign m x / bySign n y = bySign (m ^^ n) (x / y) := by
  cases m <;> cases n <;> simp [bySign, neg_div, div_neg]

theorem bySign_add (x y : ℚ) : bySign n x + bySign n y = bySign n (x + y) := by
  cases n <;> simp [bySign]; ring

theorem bySign_eq_zero {x : ℚ} : bySign n x = 0 ↔ x = 0 := by
  cases n <;> simp [bySign]

theorem bySign_inj {x y : ℚ} : bySign n x = bySign n y ↔ x = y := by
  cases n <;> simp [bySign]

theorem abs_bySign (x : ℚ) : |bySign n x| = |x| := by
  cases n <;> simp [bySign]

theorem signed_eq_bySign (s : Bool) (p : ℚ) : Val.signed s p = bySign s p := rfl

theorem SignRel.fin {s t : Bool} {p q : ℚ} {h : F.Mag p} {h' : F.Mag q} (e : bySign t q = bySign n (bySign s p)) :
    SignRel n (.fin s p h : F.Val) (.fin t q h') :=
  .number ⟨s, p, h, rfl, rfl⟩ ⟨t, q, h', rfl, e.symm⟩

/-- Rounding commutes with the change of sign. -/
theorem SignRel.round (s t : Bool) (x : ℚ) : SignRel n (F.round s x) (F.round t (bySign n x)) := by
  by_cases hx : x = 0
  · subst hx
    have h0 : bySign n 0 = 0 := by cases n <;> simp [bySign]
    rw [h0]
    have key : ∀ s, ∃ h, F.round s 0 = .fin s 0 h := by
      intro s
      have := round_spec s (0 : ℚ) (F := F)
      unfold FloatFormat.round
      have h1 : F.rnd |(0 : ℚ)| ≤ F.maxFin := by
        rw [abs_zero, rnd_zero]; unfold maxFin
        have : (1 : ℚ) ≤ 2 ^ F.prec := one_le_pow₀ (by norm_num)
        have h2 : (0 : ℚ) < 2 ^ F.emax := by positivity
        nlinarith
      have h2 : F.rnd |(0 : ℚ)| = 0 := by rw [abs_zero, rnd_zero]
      refine ⟨F.mag_zero, ?_⟩
      rw [roundMag_le _ _ h1, if_pos rfl]
      congr 1
    obtain ⟨h1, e1⟩ := key s
    obtain ⟨h2, e2⟩ := key t
    rw [e1, e2]
    exact SignRel.fin (by cases s <;> cases t <;> cases n <;> simp [bySign])
  · have hs : decide (bySign n x < 0) = (decide (x < 0) ^^ n) := by
      rcases lt_or_gt_of_ne hx with h | h
      · cases n
        · simp [bySign, h]
        · have : ¬ (-x < 0) := by linarith
          simp [bySign, h, h.le]
      · cases n
        · have : ¬ (x < 0) := by linarith
          simp [bySign, this]
        · have : ¬ (x < 0) := by linarith
          simp [bySign, h, this]
    unfold FloatFormat.round
    rw [if_neg hx, if_neg (by rwa [bySign_eq_zero]), hs]
    simp only [abs_bySign]
    unfold roundMag
    split_ifs with h
    · refine SignRel.fin ?_
      cases n <;> cases decide (x < 0) <;> simp [bySign]
    · exact .inf _

theorem SignRel.refl (a : F.Val) : SignRel false a a := by
  cases a with
  | nan => exact .nan
  | inf s => simpa using SignRel.inf (F := F) (n := false) s
  | fin s p h => exact SignRel.fin (by simp [bySign])

theorem SignRel.neg_self (a : F.Val) : SignRel true a a.neg := by
  cases a with
  | nan => exact .nan
  | inf s =>
    have := SignRel.inf (F := F) (n := true) s
    rwa [Bool.xor_true] at this
  | fin s p h => exact SignRel.fin (by cases s <;> simp [bySign])

theorem SignRel.symm (h : SignRel n a b) : SignRel n b a := by
  cases h with
  | nan => exact .nan
  | inf s =>
    have := SignRel.inf (F := F) (n := n) (s ^^ n)
    simpa using this
  | number h1 h2 => exact .number h2 (by rw [bySign_bySign]; simpa [bySign] using h1)

theorem mag_nonneg {p : ℚ} (h : F.Mag p) : 0 ≤ p := by
  obtain ⟨k, e, -, -, -, rfl⟩ := h
  positivity

/-- The three cases. -/
theorem SignRel.cases (h : SignRel n a b) : (a = .nan ∧ b = .nan) ∨ (∃ s, a = .inf s ∧ b = .inf (s ^^ n)) ∨
    ∃ s t p h, a = .fin s p h ∧ b = .fin t p h ∧ (p ≠ 0 → t = (s ^^ n)) := by
  cases h with
  | nan => exact .inl ⟨rfl, rfl⟩
  | inf s => exact .inr (.inl ⟨s, rfl, rfl⟩)
  | number h1 h2 =>
    obtain ⟨s, p, hp, rfl, rfl⟩ := h1
    obtain ⟨t, q, hq, rfl, e⟩ := h2
    change bySign n (bySign s p) = bySign t q at e
    have e1 := congrArg abs e
    rw [abs_bySign, abs_bySign, abs_bySign, abs_of_nonneg (mag_nonneg hp), abs_of_nonneg (mag_nonneg hq)] at e1
    subst e1
    refine .inr (.inr ⟨s, t, p, hp, rfl, rfl, fun h0 => ?_⟩)
    have h1 : p ≠ -p := fun h => h0 (by linarith)
    have h2 : -p ≠ p := fun h => h0 (by linarith)
    revert e
    cases n <;> cases s <;> cases t <;> simp [bySign, h1, h2]

theorem SignRel.of_fin {s t : Bool} {p : ℚ} {h : F.Mag p} (e : p ≠ 0 → t = (s ^^ n)) :
    SignRel n (.fin s p h : F.Val) (.fin t p h) := by
  by_cases hp : p = 0
  · subst hp
    exact SignRel.fin (by cases s <;> cases t <;> cases n <;> simp [bySign])
  · rw [e hp]
    exact SignRel.fin (by cases s <;> cases n <;> simp [bySign])

theorem bySign_of {s t : Bool} {p : ℚ} (e : p ≠ 0 → t = (s ^^ n)) : Val.signed t p = bySign n (Val.signed s p) := by
  by_cases hp : p = 0
  · subst hp
    cases s <;> cases t <;> cases n <;> simp [bySign, Val.signed]
  · rw [e hp]
    cases s <;> cases n <;> simp [bySign, Val.signed]

theorem SignRel.inf' {s t : Bool} (h : t = (s ^^ n)) : SignRel n (.inf s : F.Val) (.inf t) := h ▸ .inf s

theorem SignRel.mul (ha : SignRel m a a') (hb : SignRel n b b') : SignRel (m ^^ n) (a.mul b) (a'.mul b') := by
  rcases ha.cases with ⟨rfl, rfl⟩ | ⟨s, rfl, rfl⟩ | ⟨s, s', p, hp, rfl, rfl, e⟩ <;>
  rcases hb.cases with ⟨rfl, rfl⟩ | ⟨t, rfl, rfl⟩ | ⟨t, t', q, hq, rfl, rfl, e'⟩
  · exact .nan
  · exact .nan
  · exact .nan
  · exact .nan
  · exact .inf' (by cases s <;> cases t <;> cases m <;> cases n <;> rfl)
  · simp only [Val.mul]
    split_ifs with h0
    · exact .nan
    · exact .inf' (by rw [e' h0]; cases s <;> cases t <;> cases m <;> cases n <;> rfl)
  · exact .nan
  · simp only [Val.mul]
    split_ifs with h0
    · exact .nan
    · exact .inf' (by rw [e h0]; cases s <;> cases t <;> cases m <;> cases n <;> rfl)
  · simp only [Val.mul, bySign_of e, bySign_of e', bySign_mul]
    exact .round _ _ _

theorem SignRel.div (ha : SignRel m a a') (hb : SignRel n b b') (h0 : ¬ FloatRep b 0) :
    SignRel (m ^^ n) (a.div b) (a'.div b') := by
  rcases ha.cases with ⟨rfl, rfl⟩ | ⟨s, rfl, rfl⟩ | ⟨s, s', p, hp, rfl, rfl, e⟩ <;>
  rcases hb.cases with ⟨rfl, rfl⟩ | ⟨t, rfl, rfl⟩ | ⟨t, t', q, hq, rfl, rfl, e'⟩
  · exact .nan
  · exact .nan
  · exact .nan
  · exact .nan
  · exact .nan
  · have hq0 : q ≠ 0 := fun h => h0 ⟨t, q, hq, rfl, by simp [h]⟩
    exact .inf' (by rw [e' hq0]; cases s <;> cases t <;> cases m <;> cases n <;> rfl)
  · exact .nan
  · exact SignRel.of_fin (fun h => absurd rfl h)
  · have hq0 : q ≠ 0 := fun h => h0 ⟨t, q, hq, rfl, by simp [h]⟩
    simp only [Val.div, if_neg hq0, bySign_of e, bySign_of e', bySign_div]
    exact .round _ _ _

theorem SignRel.add (ha : SignRel n a a') (hb : SignRel n b b') : SignRel n (a.add b) (a'.add b') := by
  rcases ha.cases with ⟨rfl, rfl⟩ | ⟨s, rfl, rfl⟩ | ⟨s, s', p, hp, rfl, rfl, e⟩ <;>
  rcases hb.cases with ⟨rfl, rfl⟩ | ⟨t, rfl, rfl⟩ | ⟨t, t', q, hq, rfl, rfl, e'⟩
  · exact .nan
  · exact .nan
  · exact .nan
  · exact .nan
  · simp only [Val.add]
    by_cases h : s = t
    · subst h
      rw [if_pos rfl, if_pos rfl]
      exact .inf _
    · rw [if_neg h, if_neg (by revert h; cases s <;> cases t <;> cases n <;> simp)]
      exact .nan
  · exact .inf _
  · exact .nan
  · exact .inf _
  · simp only [Val.add, bySign_of e, bySign_of e', bySign_add]
    exact .round _ _ _

theorem SignRel.neg (ha : SignRel n a a') : SignRel n a.neg a'.neg := by
  rcases ha.cases with ⟨rfl, rfl⟩ | ⟨s, rfl, rfl⟩ | ⟨s, s', p, hp, rfl, rfl, e⟩
  · exact .nan
  · exact .inf' (by cases s <;> cases n <;> rfl)
  · exact SignRel.of_fin fun h => by rw [e h]; cases s <;> cases n <;> rfl

theorem SignRel.sub (ha : SignRel n a a') (hb : SignRel n b b') : SignRel n (a.sub b) (a'.sub b') :=
  ha.add hb.neg

theorem SignRel.isFinite (ha : SignRel n a a') : a.isFinite = a'.isFinite := by
  rcases ha.cases with ⟨rfl, rfl⟩ | ⟨s, rfl, rfl⟩ | ⟨s, s', p, hp, rfl, rfl, e⟩ <;> rfl

theorem SignRel.isNan (ha : SignRel n a a') : a.isNan = a'.isNan := by
  rcases ha.cases with ⟨rfl, rfl⟩ | ⟨s, rfl, rfl⟩ | ⟨s, s', p, hp, rfl, rfl, e⟩ <;> rfl

theorem SignRel.eq (ha : SignRel n a a') (hb : SignRel n b b') : a.eq b = a'.eq b' := by
  rcases ha.cases with ⟨rfl, rfl⟩ | ⟨s, rfl, rfl⟩ | ⟨s, s', p, hp, rfl, rfl, e⟩ <;>
  rcases hb.cases with ⟨rfl, rfl⟩ | ⟨t, rfl, rfl⟩ | ⟨t, t', q, hq, rfl, rfl, e'⟩ <;> try rfl
  · cases s <;> cases t <;> cases n <;> rfl
  · simp only [Val.eq, bySign_of e, bySign_of e', bySign_inj]

theorem SignRel.le (ha : SignRel false a a') (hb : SignRel false b b') : a.le b = a'.le b' := by
  rcases ha.cases with ⟨rfl, rfl⟩ | ⟨s, rfl, rfl⟩ | ⟨s, s', p, hp, rfl, rfl, e⟩ <;>
  rcases hb.cases with ⟨rfl, rfl⟩ | ⟨t, rfl, rfl⟩ | ⟨t, t', q, hq, rfl, rfl, e'⟩ <;> try rfl
  · cases s <;> cases t <;> rfl
  · cases s <;> rfl
  · cases t <;> rfl
  · simp only [Val.le, bySign_of e, bySign_of e']
    rfl

theorem SignRel.le_neg (ha : SignRel true a a') (hb : SignRel true b b') : a.le b = b'.le a' := by
  rcases ha.cases with ⟨rfl, rfl⟩ | ⟨s, rfl, rfl⟩ | ⟨s, s', p, hp, rfl, rfl, e⟩ <;>
  rcases hb.cases with ⟨rfl, rfl⟩ | ⟨t, rfl, rfl⟩ | ⟨t, t', q, hq, rfl, rfl, e'⟩
  · rfl
  · cases t <;> rfl
  · rfl
  · cases s <;> rfl
  · cases s <;> cases t <;> rfl
  · cases s <;> rfl
  · rfl
  · cases t <;> rfl
  · simp only [Val.le, bySign_of e, bySign_of e', bySign, if_true, neg_le_neg_iff]

theorem signRel_zero_iff : (a.eq Val.zero = true) ↔ FloatRep a 0 := by
  cases a with
  | nan => exact Iff.intro (fun h => nomatch h) (fun ⟨_, _, _, h, _⟩ => nomatch h)
  | inf s => exact Iff.intro (fun h => nomatch h) (fun ⟨_, _, _, h, _⟩ => nomatch h)
  | fin s p h =>
    have h1 := floatRep_fin s h
    rw [h1.eq floatRep_zero, decide_eq_true_iff]
    exact ⟨fun h2 => h2 ▸ h1, fun h2 => h1.unique h2⟩

theorem SignRel.trans {c : F.Val} (h : SignRel m a b) (h' : SignRel n b c) : SignRel (m ^^ n) a c := by
  rcases h.cases with ⟨rfl, rfl⟩ | ⟨s, rfl, rfl⟩ | ⟨s, s', p, hp, rfl, rfl, e⟩
  · rcases h'.cases with ⟨h1, rfl⟩ | ⟨t, h1, rfl⟩ | ⟨t, t', q, hq, h1, rfl, e'⟩ <;> cases h1
    exact .nan
  · rcases h'.cases with ⟨h1, rfl⟩ | ⟨t, h1, rfl⟩ | ⟨t, t', q, hq, h1, rfl, e'⟩ <;> cases h1
    exact .inf' (by cases s <;> cases m <;> cases n <;> rfl)
  · rcases h'.cases with ⟨h1, rfl⟩ | ⟨t, h1, rfl⟩ | ⟨t, t', q, hq, h1, rfl, e'⟩ <;> cases h1
    exact .of_fin fun h => by rw [e' h, e h]; cases s <;> cases m <;> cases n <;> rfl

/-- Apart from NaN, two floats are the same number iff `==` says so. -/
theorem signRel_iff_eq : a.eq b = true ↔ SignRel false a b ∧ a.isNan = false := by
  constructor
  · intro h
    cases a with
    | nan => cases h
    | inf s => cases b with
      | nan => cases h
      | inf t =>
        have : s = t := by simpa [Val.eq] using h
        subst this
        exact ⟨.refl _, rfl⟩
      | fin t q hq => cases h
    | fin s p hp => cases b with
      | nan => cases h
      | inf t => cases h
      | fin t q hq =>
        have : Val.signed s p = Val.signed t q := by simpa [Val.eq] using h
        exact ⟨SignRel.fin this.symm, rfl⟩
  · rintro ⟨h, h1⟩
    rcases h.cases with ⟨rfl, rfl⟩ | ⟨s, rfl, rfl⟩ | ⟨s, s', p, hp, rfl, rfl, e⟩
    · cases h1
    · cases s <;> rfl
    · simp only [Val.eq, bySign_of e]
      simp [bySign]

variable [Cfg]

theorem SignRel.checked (h : SignRel n a a') :
    Follows (SignRel n) (ApproxFloats.checked a) (ApproxFloats.checked a') :=
  Follows.bind (Follows.assert h.isFinite) fun _ _ _ => .ok h

theorem SignRel.isZero (h : SignRel n a a') : a.eq Val.zero = a'.eq Val.zero :=
  h.eq (.number floatRep_zero (by
    have h0 : bySign n 0 = 0 := by cases n <;> simp [bySign]
    rw [h0]; exact floatRep_zero))

theorem signRel_zero : SignRel n (Val.zero : F.Val) Val.zero :=
  .number floatRep_zero (by
    have h0 : bySign n 0 = 0 := by cases n <;> simp [bySign]
    rw [h0]; exact floatRep_zero)

theorem SignRel.fieldDiv (ha : SignRel m a a') (hb : SignRel n b b') :
    Follows (SignRel (m ^^ n)) (ApproxFloats.div F a b) (ApproxFloats.div F a' b') := by
  unfold ApproxFloats.div
  rw [← hb.isZero]
  cases h0 : b.eq Val.zero
  · refine Follows.bind (Follows.assert rfl) fun _ _ _ => (ha.div hb fun h => ?_).checked
    rw [signRel_zero_iff.2 h] at h0
    cases h0
  · exact .panic

theorem SignRel.tryInv (ha : SignRel n a a') : Follows (Option.Rel (SignRel n)) ((ApproxFloats.field F).tryInv a)
    ((ApproxFloats.field F).tryInv a') := by
  show Follows _ (if (Val.one.div a).isFinite then .ok (some (Val.one.div a)) else .ok none)
    (if (Val.one.div a').isFinite then .ok (some (Val.one.div a')) else .ok none)
  by_cases h0 : FloatRep a 0
  · have h1 := (C55_try_inv h0).1 (.inl rfl)
    have h2 : FloatRep a' 0 := signRel_zero_iff.1 (ha.isZero ▸ signRel_zero_iff.2 h0)
    have h3 := (C55_try_inv h2).1 (.inl rfl)
    rw [show (if (Val.one.div a).isFinite then Res.ok (some (Val.one.div a)) else .ok none) = .ok none from h1.1,
      show (if (Val.one.div a').isFinite then Res.ok (some (Val.one.div a')) else .ok none) = .ok none from h3.1]
    exact .ok .none
  · have h1 := (SignRel.refl (Val.one : F.Val)).div ha h0
    rw [Bool.false_xor] at h1
    rw [← h1.isFinite]
    split_ifs
    · exact .ok (.some h1)
    · exact .ok .none

/-- The additive group of the floats, up to signs. -/
theorem SignRel.follows_group (n : Bool) : FollowsAbelianGroup (SignRel n)
    (ApproxFloats.field F).toAbelianGroupOps (ApproxFloats.field F).toAbelianGroupOps := by
  have hadd : ∀ {a b a' b' : F.Val}, SignRel n a a' → SignRel n b b' →
      Follows (SignRel n) ((ApproxFloats.field F).add a b) ((ApproxFloats.field F).add a' b') :=
    fun ha hb => (ha.add hb).checked
  have hneg : ∀ {a a' : F.Val}, SignRel n a a' →
      Follows (SignRel n) ((ApproxFloats.field F).neg a) ((ApproxFloats.field F).neg a') :=
    fun ha => ha.neg.checked
  have hzero : Follows (SignRel n) (ApproxFloats.field F).zero (ApproxFloats.field F).zero := .ok signRel_zero
  exact
  { contains := fun ha => .of_eq (congrArg Res.ok ha.isFinite)
    equals := fun ha hb => .of_eq (congrArg Res.ok (ha.eq hb))
    zero := hzero
    isZero := fun ha => .of_eq (congrArg Res.ok ha.isZero)
    add := hadd
    addAssign := hadd
    double := fun ha => hadd ha ha
    utimes := fun k _ _ ha => follows_utimes _ hzero hadd (fun ha => hadd ha ha) k ha
    neg := hneg
    negAssign := hneg
    sub := fun ha hb => (ha.sub hb).checked
    subAssign := fun ha hb => follows_subAssign _ hneg hadd ha hb
    times := fun k _ _ ha => .ok (by
      have := (SignRel.refl (Val.ofInt k : F.Val)).mul ha
      rwa [Bool.false_xor] at this) }

/-- The field of the floats, up to the signs of zeros. -/
theorem SignRel.follows_field : FollowsField (SignRel false) (ApproxFloats.field F) (ApproxFloats.field F) := by
  have hg := SignRel.follows_group (F := F) false
  have hmul : ∀ {a b a' b' : F.Val}, SignRel false a a' → SignRel false b b' →
      Follows (SignRel false) ((ApproxFloats.field F).mul a b) ((ApproxFloats.field F).mul a' b') :=
    fun ha hb => (ha.mul hb).checked
  have hone : Follows (SignRel false) (ApproxFloats.field F).one (ApproxFloats.field F).one :=
    .ok (.refl _)
  exact
  { toFollowsCommutativeMonoid := hg.toFollowsCommutativeMonoid
    mul := hmul
    mulAssign := hmul
    square := fun ha => hmul ha ha
    one := hone
    isOne := fun ha => hg.equals ha (.refl _)
    tryInv := SignRel.tryInv
    invertible := fun ha => Follows.isSome (SignRel.tryInv ha)
    neg := hg.neg
    negAssign := hg.negAssign
    sub := hg.sub
    subAssign := hg.subAssign
    times := hg.times
    int := fun k => hg.times k (.refl _)
    inv := fun ha => (SignRel.refl _).fieldDiv ha
    div := fun ha hb => ha.fieldDiv hb
    power := fun k _ _ ha => follows_fieldPower (SignRel false)
      (isZero := (ApproxFloats.field F).isZero) (isZero' := (ApproxFloats.field F).isZero)
      (zero := (ApproxFloats.field F).zero) (zero' := (ApproxFloats.field F).zero)
      (one := (ApproxFloats.field F).one) (one' := (ApproxFloats.field F).one)
      (mul := (ApproxFloats.field F).mulAssign) (mul' := (ApproxFloats.field F).mulAssign)
      (square := (ApproxFloats.field F).square) (square' := (ApproxFloats.field F).square)
      (tryInv := (ApproxFloats.field F).tryInv) (tryInv' := (ApproxFloats.field F).tryInv) (.refl _)
      hg.isZero hg.zero hone hmul (fun ha => hmul ha ha) SignRel.tryInv k ha }

theorem SignRel.min (ha : SignRel false a a') (hb : SignRel false b b') (pick pick' : F.Val → F.Val → Bool) :
    SignRel false (a.min pick b) (a'.min pick' b') := by
  unfold Val.min
  rw [← ha.isNan, ← hb.isNan, ← ha.eq hb, ← ha.le hb]
  by_cases h1 : a.isNan = true
  · simpa only [h1, if_true] using hb
  by_cases h2 : b.isNan = true
  · simpa [h1, h2] using ha
  by_cases h3 : a.eq b = true
  · simp only [h1, h2, h3, if_true, if_false]
    have hab := (signRel_iff_eq.1 h3).1
    have h4 : SignRel false a b' := by simpa using hab.trans hb
    have h5 : SignRel false b a' := by simpa using hab.symm.trans ha
    cases pick a b <;> cases pick' a' b' <;> simp [ha, hb, h4, h5]
  simp only [h1, h2, h3, if_false]
  cases a.le b
  · exact hb
  · exact ha

theorem SignRel.max (ha : SignRel false a a') (hb : SignRel false b b') (pick pick' : F.Val → F.Val → Bool) :
    SignRel false (a.max pick b) (a'.max pick' b') := by
  unfold Val.max
  rw [← ha.isNan, ← hb.isNan, ← ha.eq hb, ← ha.le hb]
  by_cases h1 : a.isNan = true
  · simpa only [h1, if_true] using hb
  by_cases h2 : b.isNan = true
  · simpa [h1, h2] using ha
  by_cases h3 : a.eq b = true
  · simp only [h1, h2, h3, if_true, if_false]
    have hab := (signRel_iff_eq.1 h3).1
    have h4 : SignRel false a b' := by simpa using hab.trans hb
    have h5 : SignRel false b a' := by simpa using hab.symm.trans ha
    cases pick a b <;> cases pick' a' b' <;> simp [ha, hb, h4, h5]
  simp only [h1, h2, h3, if_false]
  cases a.le b
  · exact ha
  · exact hb

theorem eq_of_le_of_le (h : a.le b = true) (h' : b.le a = true) : a.eq b = true := by
  cases a with
  | nan => cases h
  | inf s => cases b with
    | nan => cases s <;> cases h
    | inf t => cases s <;> cases t <;> simp [Val.le, Val.eq] at *
    | fin t q hq => cases s <;> simp [Val.le] at *
  | fin s p hp => cases b with
    | nan => cases h
    | inf t => cases t <;> simp [Val.le] at *
    | fin t q hq =>
      simp only [Val.le, decide_eq_true_eq] at h h'
      simpa [Val.eq] using le_antisymm h h'

theorem le_total_of (ha : a.isNan = false) (hb : b.isNan = false) : a.le b = true ∨ b.le a = true := by
  cases a with
  | nan => cases ha
  | inf s => cases b with
    | nan => cases hb
    | inf t => cases s <;> cases t <;> first | exact .inl rfl | exact .inr rfl
    | fin t q hq => cases s <;> first | exact .inl rfl | exact .inr rfl
  | fin s p hp => cases b with
    | nan => cases hb
    | inf t => cases t <;> first | exact .inl rfl | exact .inr rfl
    | fin t q hq =>
      simp only [Val.le, decide_eq_true_eq]
      exact le_total _ _

/-- The negatives of the smaller and of the larger of two floats. -/
theorem SignRel.min_max (ha : SignRel true a a') (hb : SignRel true b b') (pick pick' : F.Val → F.Val → Bool) :
    SignRel true (a.min pick b) (a'.max pick' b') ∧ SignRel true (a.max pick b) (a'.min pick' b') := by
  unfold Val.max Val.min
  rw [← ha.isNan, ← hb.isNan, ← ha.eq hb, ← hb.le_neg ha]
  by_cases h1 : a.isNan = true
  · simp only [h1, if_true]; exact ⟨hb, hb⟩
  by_cases h2 : b.isNan = true
  · simp only [h1, h2, if_true, if_false]; exact ⟨ha, ha⟩
  by_cases h3 : a.eq b = true
  · simp only [h1, h2, h3, if_true, if_false]
    have hab := (signRel_iff_eq.1 h3).1
    have h4 : SignRel true a b' := by simpa using hab.trans hb
    have h5 : SignRel true b a' := by simpa using hab.symm.trans ha
    cases pick a b <;> cases pick' a' b' <;> simp [ha, hb, h4, h5]
  simp only [h1, h2, h3, if_false]
  have h1' : a.isNan = false := by simpa using h1
  have h2' : b.isNan = false := by simpa using h2
  cases h4 : a.le b <;> cases h5 : b.le a
  · rcases le_total_of h1' h2' with h | h
    · rw [h4] at h; cases h
    · rw [h5] at h; cases h
  · exact ⟨hb, ha⟩
  · exact ⟨ha, hb⟩
  · exact absurd (eq_of_le_of_le h4 h5) h3

/-- The order of the floats, up to the signs of zeros. -/
theorem SignRel.follows_lattice (pick pick' : F.Val → F.Val → Bool) :
    FollowsLattice (SignRel false) (ApproxFloats.lattice F pick) (ApproxFloats.lattice F pick') := by
  have heq : ∀ {a b a' b' : F.Val}, SignRel false a a' → SignRel false b b' →
      Follows Eq ((ApproxFloats.lattice F pick).equals a b) ((ApproxFloats.lattice F pick').equals a' b') :=
    fun ha hb => .of_eq (congrArg Res.ok (ha.eq hb))
  have hle : ∀ {a b a' b' : F.Val}, SignRel false a a' → SignRel false b b' →
      Follows Eq ((ApproxFloats.lattice F pick).leq a b) ((ApproxFloats.lattice F pick').leq a' b') :=
    fun ha hb => .of_eq (congrArg Res.ok (ha.le hb))
  exact
  { contains := fun ha => .of_eq (congrArg Res.ok ha.isFinite)
    equals := heq
    leq := hle
    lessThan := fun ha hb => follows_lessThan (SignRel false) heq hle ha hb
    comparable := fun ha hb => follows_comparable (SignRel false) hle ha hb
    meet := fun ha hb => .ok (ha.min hb pick pick')
    join := fun ha hb => .ok (ha.max hb pick pick') }

omit [Cfg] in
theorem sign_mul (u v : ℤˣ) : decide (u * v = -1) = (decide (u = -1) ^^ decide (v = -1)) := by
  rcases Int.units_eq_one_or u with rfl | rfl <;> rcases Int.units_eq_one_or v with rfl | rfl <;> decide

omit [Cfg] in
theorem sign_inv (u : ℤˣ) : u⁻¹ = u := Int.units_inv_eq_self u

/-- The floats, graded by the signs. -/
theorem SignRel.graded : Graded (fun u : ℤˣ => SignedBy (F := F) u) (ApproxFloats.field F) (ApproxFloats.field F) := by
  have h1 : decide ((1 : ℤˣ) = -1) = false := by decide
  have hmul : ∀ {g h : ℤˣ} {a b a' b' : F.Val}, SignedBy g a a' → SignedBy h b b' →
      Follows (SignedBy (g * h)) ((ApproxFloats.field F).mul a b) ((ApproxFloats.field F).mul a' b') :=
    fun {g h} _ _ _ _ ha hb => by
      unfold SignedBy
      rw [sign_mul]
      exact (SignRel.mul ha hb).checked
  have hone : SignedBy 1 (Val.one : F.Val) Val.one := by
    unfold SignedBy; rw [h1]; exact .refl _
  have hdiv : ∀ {g h : ℤˣ} {a b a' b' : F.Val}, SignedBy g a a' → SignedBy h b b' →
      Follows (SignedBy (g / h)) ((ApproxFloats.field F).div a b) ((ApproxFloats.field F).div a' b') :=
    fun {g h} _ _ _ _ ha hb => by
      unfold SignedBy
      rw [div_eq_mul_inv, sign_inv, sign_mul]
      exact SignRel.fieldDiv ha hb
  exact
  { group := fun u => SignRel.follows_group _
    one := .ok hone
    int := fun n => by
      unfold SignedBy; rw [h1]; exact SignRel.follows_field.int n
    mul := hmul
    mulAssign := hmul
    inv := fun {g} _ _ ha => by
      have := hdiv hone ha
      rwa [one_div] at this
    div := hdiv }

theorem SignedBy.powerLoop (k : ℤ) : ∀ {u v : ℤˣ} {a a' b b' : F.Val}, SignedBy u a a' → SignedBy v b b' →
    Follows (SignedBy (u * v ^ k.toNat))
      (Abstalg.powerLoop (ApproxFloats.field F).mulAssign (ApproxFloats.field F).square k a b)
      (Abstalg.powerLoop (ApproxFloats.field F).mulAssign (ApproxFloats.field F).square k a' b') := by
  induction hk : k.toNat using Nat.strongRecOn generalizing k with
  | _ m ih =>
    intro u v a a' b b' ha hb
    rw [Abstalg.powerLoop, Abstalg.powerLoop]
    by_cases hn : 0 < k
    · rw [dif_pos hn, dif_pos hn]
      have hdiv : Int.tdiv k 2 = k / 2 := Int.tdiv_eq_ediv_of_nonneg (by omega)
      have hmod : Int.tmod k 2 = k % 2 := Int.tmod_eq_emod_of_nonneg (by omega)
      have hlt : (Int.tdiv k 2).toNat < m := by rw [hdiv]; omega
      have hsq : ∀ {w : ℤˣ} {c c' : F.Val}, SignedBy w c c' → Follows (SignedBy (w * (v ^ 2) ^ (Int.tdiv k 2).toNat))
          ((ApproxFloats.field F).square b >>= fun b => Abstalg.powerLoop (ApproxFloats.field F).mulAssign
            (ApproxFloats.field F).square (Int.tdiv k 2) c b)
          ((ApproxFloats.field F).square b' >>= fun b => Abstalg.powerLoop (ApproxFloats.field F).mulAssign
            (ApproxFloats.field F).square (Int.tdiv k 2) c' b) := fun hc =>
        Follows.bind (SignRel.graded.mul hb hb) fun _ _ h => ih _ hlt _ rfl hc (pow_two v ▸ h)
      by_cases hm : Int.tmod k 2 = 0
      · simp only [hm, ne_eq, not_true_eq_false, if_false]
        have e : u * (v ^ 2) ^ (Int.tdiv k 2).toNat = u * v ^ m := by
          rw [← pow_mul]; congr 2; rw [hdiv]; rw [hmod] at hm; omega
        rw [← e]
        exact hsq ha
      · simp only [hm, ne_eq, not_false_eq_true, if_true]
        have e : u * v * (v ^ 2) ^ (Int.tdiv k 2).toNat = u * v ^ m := by
          rw [← pow_mul, mul_assoc, ← pow_succ']; congr 2; rw [hdiv]; rw [hmod] at hm; omega
        rw [← e]
        exact Follows.bind (SignRel.graded.mulAssign ha hb) fun _ _ h => hsq h
    · rw [dif_neg hn, dif_neg hn]
      have : m = 0 := by omega
      subst this
      exact .ok (by simpa using ha)

theorem SignedBy.isZero {u : ℤˣ} (h : SignedBy u a a') : a.eq Val.zero = a'.eq Val.zero := SignRel.isZero h

theorem SignedBy.zpow {u : ℤˣ} (k : ℤ) : u ^ k = u ^ k.natAbs := by
  rcases Int.natAbs_eq k with h | h
  · conv_lhs => rw [h, zpow_natCast]
  · conv_lhs => rw [h, zpow_neg, zpow_natCast, Int.units_inv_eq_self]

theorem SignedBy.power {u : ℤˣ} (h : SignedBy u a a') (k : ℤ) :
    Follows (SignedBy (u ^ k)) ((ApproxFloats.field F).power k a) ((ApproxFloats.field F).power k a') := by
  show Follows _ (do if ← (ApproxFloats.field F).isZero a then (ApproxFloats.field F).zero else powerDefault _ _ _ _ k a)
    (do if ← (ApproxFloats.field F).isZero a' then (ApproxFloats.field F).zero else powerDefault _ _ _ _ k a')
  refine Follows.bindIf ((SignRel.graded.group u).isZero h) (SignRel.graded.group _).zero ?_
  unfold powerDefault
  have hloop : ∀ {v : ℤˣ} (m : ℤ) {b b' : F.Val}, SignedBy v b b' → Follows (SignedBy (v ^ m.toNat))
      ((ApproxFloats.field F).one >>= fun o => Abstalg.powerLoop (ApproxFloats.field F).mulAssign
        (ApproxFloats.field F).square m o b)
      ((ApproxFloats.field F).one >>= fun o => Abstalg.powerLoop (ApproxFloats.field F).mulAssign
        (ApproxFloats.field F).square m o b') := fun {v} m _ _ hb =>
    Follows.bind SignRel.graded.one fun _ _ ho => by
      have := SignedBy.powerLoop m ho hb
      rwa [one_mul] at this
  have hinv : Follows (SignedBy u) (do Res.unwrap (← (ApproxFloats.field F).tryInv a))
      (do Res.unwrap (← (ApproxFloats.field F).tryInv a')) :=
    Follows.bind (SignRel.tryInv h) fun _ _ h => Follows.unwrap h
  by_cases hk : k < 0
  · have hneg : Follows (fun x y => x = y ∧ u ^ k = u ^ x.toNat) (isizeNeg k) (isizeNeg k) := by
      unfold isizeNeg
      by_cases hm : k = isizeMin
      · rw [if_pos hm]
        cases ho : Cfg.overflowChecks
        · simp only [Bool.false_eq_true, if_false]
          refine .ok ⟨rfl, ?_⟩
          have h1 := Cfg.ptrBits_ge
          obtain ⟨q, hq⟩ : ∃ q, Cfg.ptrBits - 1 = q + 1 := ⟨Cfg.ptrBits - 2, by omega⟩
          have h2 : isizeMin = -(2 * 2 ^ q) := by unfold isizeMin; rw [hq, pow_succ]; ring
          have h3 : isizeMin.toNat = 0 := by
            have : (0 : ℤ) < 2 * 2 ^ q := by positivity
            omega
          have h4 : u ^ (2 : ℤ) = 1 := by rcases Int.units_eq_one_or u with rfl | rfl <;> rfl
          rw [hm, h3, h2, zpow_neg, zpow_mul, h4]
          simp
        · exact .panic
      · rw [if_neg hm]
        exact .ok ⟨rfl, by rw [SignedBy.zpow]; congr 1; omega⟩
    simp only [if_pos hk]
    refine Follows.bind hneg fun x y hxy => Follows.bind hinv fun b b' hb => ?_
    obtain ⟨rfl, h2⟩ := hxy
    rw [h2]
    exact hloop x hb
  · simp only [if_neg hk]
    have := hloop k h
    rw [SignedBy.zpow, show k.natAbs = k.toNat by omega]
    exact this

end Abstalg
