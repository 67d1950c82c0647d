import Verif.Spec.FloatIntegers
import Verif.Proofs.FloatExact
import Verif.Props.ExactFloats
import Verif.Props.CheckedInts
import Verif.Props.Simulation

/-! # Exact results of floats: near differences, rounding errors, integers: C87 -/

set_option autoImplicit false

namespace Abstalg

open FloatFormat

variable {F : FloatFormat} [Cfg]

/-! ## Differences, doubles and rounding errors -/

section errors

variable {a b c : F.Val} {x y z : ℚ}

omit [Cfg] in
theorem Rounded.inv {e : Res F.Val} (h : Rounded e x) (he : e = .ok c) :
    ∃ z, FloatRep c z ∧ RoundsTo F x z ∧ ¬ Overflows F x := by
  by_cases ho : Overflows F x
  · rw [h.1 ho] at he
    cases he
  · obtain ⟨c', z, h1, h2, h3⟩ := h.2 ho
    rw [he] at h1
    cases h1
    exact ⟨z, h2, h3, ho⟩

omit [Cfg] in
theorem Rounded.exact {e : Res F.Val} (h : Rounded e x) (hx : IsFloat F x) : ∃ c, e = .ok c ∧ FloatRep c x := by
  obtain ⟨c, z, h1, h2, h3⟩ := h.2 hx.not_overflows
  exact ⟨c, h1, h3.unique (roundsTo_self hx) ▸ h2⟩

/-- C87: if neither operand is more than twice the other then the difference is exact. -/
theorem C87_sub_near (ha : FloatRep a x) (hb : FloatRep b y) (h1 : y / 2 ≤ x) (h2 : x ≤ 2 * y) :
    (∃ c, (ApproxFloats.field F).sub a b = .ok c ∧ FloatRep c (x - y)) ∧
    ∃ c, (ApproxFloats.field F).subAssign a b = .ok c ∧ FloatRep c (x - y) :=
  ⟨(C55_sub ha hb).1.exact (isFloat_sub_near ha.isFloat hb.isFloat h1 h2),
    (C55_sub ha hb).2.exact (isFloat_sub_near ha.isFloat hb.isFloat h1 h2)⟩

/-- C87: doubling is exact unless it panics. -/
theorem C87_double (ha : FloatRep a x) (h : (ApproxFloats.field F).double a = .ok c) : FloatRep c (x + x) := by
  obtain ⟨z, h1, h2, h3⟩ := (C55_add ha ha).2.2.inv h
  rwa [← h2.unique (roundsTo_self (isFloat_double ha.isFloat h3))]

/-- C87: what rounding takes away from a sum or a difference is a number of the format. -/
theorem C87_add_error (ha : FloatRep a x) (hb : FloatRep b y) (hc : FloatRep c z) :
    ((ApproxFloats.field F).add a b = .ok c → ∃ d : F.Val, FloatRep d (x + y - z)) ∧
    ((ApproxFloats.field F).sub a b = .ok c → ∃ d : F.Val, FloatRep d (x - y - z)) := by
  constructor
  · intro h
    obtain ⟨z', h1, h2, -⟩ := (C55_add ha hb).1.inv h
    obtain rfl := h1.unique hc
    exact (isFloat_add_error ha.isFloat hb.isFloat h2).rep
  · intro h
    obtain ⟨z', h1, h2, -⟩ := (C55_sub ha hb).1.inv h
    obtain rfl := h1.unique hc
    rw [sub_eq_add_neg x y] at h2 ⊢
    exact (isFloat_add_error ha.isFloat (isFloat_neg hb.isFloat) h2).rep

/-- C87: the same for a product, exactly if the product is a multiple of the least positive number. -/
theorem C87_mul_error (ha : FloatRep a x) (hb : FloatRep b y) (hc : FloatRep c z)
    (h : (ApproxFloats.field F).mul a b = .ok c) :
    (∃ d : F.Val, FloatRep d (x * y - z)) ↔ FixedPoint F.emin (x * y) := by
  obtain ⟨z', h1, h2, h3⟩ := (C55_mul ha hb).1.inv h
  obtain rfl := h1.unique hc
  rw [C55_members]
  exact isFloat_mul_error ha.isFloat hb.isFloat h3 h2

/-- C87: the error of a sum can be computed: subtracting the larger operand from the sum and the result from the
other operand, both without rounding. -/
theorem C87_two_sum (ha : FloatRep a x) (hb : FloatRep b y) (hc : FloatRep c z) (hxy : |y| ≤ |x|)
    (h : (ApproxFloats.field F).add a b = .ok c) :
    ∃ d e, (ApproxFloats.field F).sub c a = .ok d ∧ (ApproxFloats.field F).sub b d = .ok e ∧
      FloatRep d (z - x) ∧ FloatRep e (x + y - z) := by
  obtain ⟨z', h1, h2, h3⟩ := (C55_add ha hb).1.inv h
  obtain rfl := h1.unique hc
  obtain ⟨d, h4, h5⟩ := (C55_sub hc ha).1.exact (isFloat_sum_sub ha.isFloat hb.isFloat hxy h2)
  have h6 : y - (z' - x) = x + y - z' := by ring
  obtain ⟨e, h7, h8⟩ := (C55_sub hb h5).1.exact (by rw [h6]; exact isFloat_add_error ha.isFloat hb.isFloat h2)
  rw [h6] at h8
  exact ⟨d, e, h4, h7, h5, h8⟩

end errors

/-! ## Integers -/

section integers

variable {w : ℕ} [Width w]

omit [Cfg] in
theorem isFloat_int (hw : w ≤ F.prec) {n : ℤ} (hn : InRange w n) : IsFloat F n := by
  refine FixedPoint.isFloat (e := 0) ⟨n, by simp⟩ F.emin_nonpos F.emax_nonneg ?_
  rw [zpow_zero, mul_one, ← Int.cast_abs]
  have h1 : |n| < 2 ^ w := by
    have h2 : (2 : ℤ) ^ (w - 1) < 2 ^ w := pow_lt_pow_right₀ (by norm_num) (by
      have := Width.ge (w := w)
      omega)
    unfold InRange at hn
    rw [abs_lt]
    omega
  have h3 : (2 : ℤ) ^ w ≤ 2 ^ F.prec := pow_le_pow_right₀ (by norm_num) hw
  exact_mod_cast h1.trans_le h3

omit [Cfg] in
theorem follows_intFloat (hw : w ≤ F.prec) {c : Res (SInt w)} {d : Res F.Val} {n : ℤ} (hc : Exactly c n)
    (hd : IsFloat F n → ∃ a, d = .ok a ∧ FloatRep a n) : Follows IntFloat c d := fun m hm => by
  by_cases hr : InRange w n
  · obtain ⟨m', h1, h2⟩ := hc.1 hr
    rw [hm] at h1
    cases h1
    obtain ⟨a, h3, h4⟩ := hd (isFloat_int hw hr)
    exact ⟨a, h3, by unfold IntFloat; rw [h2]; exact h4⟩
  · rw [hc.2 hr] at hm
    cases hm

theorem intFloat_equals {a b : SInt w} {a' b' : F.Val} (ha : IntFloat a a') (hb : IntFloat b b') :
    Follows Eq ((CheckedInts.euclidean w).equals a b) ((ApproxFloats.field F).equals a' b') := by
  rw [(C55_equals ha hb).1]
  refine .ok ?_
  show (a == b) = _
  rw [beq_eq_decide, decide_eq_decide, Subtype.ext_iff]
  exact Int.cast_inj.symm

/-- C87: machine integers of at most as many bits as the precision: what their additive methods return the
floats return, too, without rounding. -/
theorem C87_integers (hw : w ≤ F.prec) :
    FollowsAbelianGroup IntFloat (CheckedInts.euclidean w).toAbelianGroupOps
      (ApproxFloats.field F).toAbelianGroupOps := by
  have hadd {a b : SInt w} {a' b' : F.Val} (ha : IntFloat a a') (hb : IntFloat b b') :
      Follows IntFloat ((CheckedInts.euclidean w).add a b) ((ApproxFloats.field F).add a' b') :=
    follows_intFloat hw (C12_checked_ring a b).1 fun h => by
      have := (C55_add ha hb).1.exact (by exact_mod_cast h)
      exact_mod_cast this
  have hneg {a : SInt w} {a' : F.Val} (ha : IntFloat a a') :
      Follows IntFloat ((CheckedInts.euclidean w).neg a) ((ApproxFloats.field F).neg a') :=
    follows_intFloat hw (C12_checked_ring a a).2.2.2 fun _ => by
      obtain ⟨c, h1, -, h2⟩ := C55_neg ha
      exact ⟨c, h1, by exact_mod_cast h2⟩
  have hz : Follows IntFloat (CheckedInts.euclidean w).zero (ApproxFloats.field F).zero :=
    .ok (by
      show FloatRep Val.zero (((0 : ℤ)) : ℚ)
      rw [Int.cast_zero]
      exact floatRep_zero)
  exact
  { contains := fun h => by
      have h1 := ((C55_contains _).resolve_right fun h' => h'.2 ⟨_, h⟩).1
      exact .of_eq h1.symm
    equals := intFloat_equals
    zero := hz
    isZero := fun {a a'} ha => by
      rw [(C55_equals ha ha).2.1]
      refine .ok ?_
      show (a.1 == 0) = _
      rw [beq_eq_decide, decide_eq_decide]
      exact Int.cast_eq_zero.symm
    add := hadd
    addAssign := hadd
    double := fun h => hadd h h
    utimes := fun n _ _ h => Follows.bind hz fun _ _ h0 => follows_timesLoop hadd (fun h => hadd h h) n h0 h
    neg := hneg
    negAssign := hneg
    sub := fun {a b a' b'} ha hb => follows_intFloat hw (C12_checked_ring a b).2.1 fun h => by
      have := (C55_sub ha hb).1.exact (by exact_mod_cast h)
      exact_mod_cast this
    subAssign := fun ha hb => Follows.bind (hneg hb) fun _ _ h => hadd ha h
    times := fun n a a' ha m hm => by
      replace hm : (CheckedInts.euclidean w).times n a = .ok m := hm
      by_cases hr : InRange w n ∧ InRange w (n * a.1)
      · obtain ⟨m', h1, h2⟩ := (C14_checked_times n a).1 hr
        rw [hm] at h1
        cases h1
        have h3 := isFloat_int hw hr.1
        have h4 := isFloat_int hw hr.2
        obtain ⟨c, h5, h6, -⟩ := C56_times ha n (roundsTo_self h3) h3.not_overflows
        push_cast at h4
        obtain ⟨y, h7, h8⟩ := h6 h4.not_overflows
        refine ⟨c, h5, ?_⟩
        unfold IntFloat
        rw [h2, Int.cast_mul, ← h8.unique (roundsTo_self h4)]
        exact h7
      · rw [(C14_checked_times n a).2 hr] at hm
        cases hm }

/-- C87: the same for products, one and the integers. -/
theorem C87_integers_mul (hw : w ≤ F.prec) :
    FollowsSemigroup IntFloat (CheckedInts.euclidean w).toSemigroupOps (ApproxFloats.field F).toSemigroupOps ∧
    Follows IntFloat (CheckedInts.euclidean w).one (ApproxFloats.field F).one ∧
    (∀ {a : SInt w} {a' : F.Val}, IntFloat a a' →
      Follows Eq ((CheckedInts.euclidean w).isOne a) ((ApproxFloats.field F).isOne a')) ∧
    ∀ n, Follows IntFloat ((CheckedInts.euclidean w).int n) ((ApproxFloats.field F).int n) := by
  have hmul {a b : SInt w} {a' b' : F.Val} (ha : IntFloat a a') (hb : IntFloat b b') :
      Follows IntFloat ((CheckedInts.euclidean w).mul a b) ((ApproxFloats.field F).mul a' b') :=
    follows_intFloat hw (C12_checked_ring a b).2.2.1 fun h => by
      have := (C55_mul ha hb).1.exact (by exact_mod_cast h)
      exact_mod_cast this
  have hone : Follows IntFloat (CheckedInts.euclidean w).one (ApproxFloats.field F).one :=
    .ok (by
      show FloatRep Val.one (((1 : ℤ)) : ℚ)
      rw [Int.cast_one]
      exact floatRep_one)
  exact ⟨{ contains := (C87_integers hw).contains
           equals := (C87_integers hw).equals
           mul := hmul
           mulAssign := hmul
           square := fun h => hmul h h }, hone, fun {a a'} ha => by
      rw [(C55_equals ha ha).2.2]
      refine .ok ?_
      show (a == CheckedInts.c1 w) = _
      rw [beq_eq_decide, decide_eq_decide, Subtype.ext_iff]
      exact Int.cast_eq_one.symm, fun n => Follows.bind hone fun _ _ h => (C87_integers hw).times n h⟩

/-- C87: polynomials and vectors with integer coefficients. -/
theorem C87_integers_poly (hw : w ≤ F.prec) :
    FollowsAbelianGroup (LRel IntFloat) (PolynomialAlgebra.abelianGroup (CheckedInts.euclidean w).toAbelianGroupOps)
      (PolynomialAlgebra.abelianGroup (ApproxFloats.field F).toAbelianGroupOps) ∧
    (∀ {u v : List (SInt w)} {u' v' : List F.Val}, LRel IntFloat u u' → LRel IntFloat v v' → Follows (LRel IntFloat)
      ((PolynomialAlgebra.unitaryRing (CheckedInts.euclidean w).toUnitaryRingOps).mul u v)
      ((PolynomialAlgebra.unitaryRing (ApproxFloats.field F).toUnitaryRingOps).mul u' v')) ∧
    ∀ n, FollowsAbelianGroup (LRel IntFloat)
      (VectorAlgebra.abelianGroup n (CheckedInts.euclidean w).toAbelianGroupOps)
      (VectorAlgebra.abelianGroup n (ApproxFloats.field F).toAbelianGroupOps) := by
  refine ⟨C67_polynomials_group (C87_integers hw), fun {u v u' v'} h h' => ?_, fun n =>
    C67_vectors_abelian_group (.refl _) n (C87_integers hw)⟩
  show Follows _ (PolynomialAlgebra.mul _ u v) (PolynomialAlgebra.mul _ u' v')
  unfold PolynomialAlgebra.mul
  rw [h.length_eq, h'.length_eq, LRel.isEmpty h, LRel.isEmpty h']
  refine Follows.same (.ok .nil) (Follows.bind (C87_integers hw).zero fun _ _ h0 => ?_)
  refine follows_forLoop (r := LRel IntFloat) _ (fun i _ _ he => ?_) (LRel.replicate _ h0)
  refine follows_forLoop (r := LRel IntFloat) _ (fun j _ _ he => ?_) he
  exact Follows.bind (LRel.idx h i) fun _ _ hx => Follows.bind (LRel.idx h' j) fun _ _ hy =>
      Follows.bind ((C87_integers_mul hw).1.mul hx hy) fun _ _ hz => Follows.bind (LRel.idx he _) fun _ _ hs =>
        Follows.bind ((C87_integers hw).add hs hz) fun _ _ ht => LRel.setIdx he _ ht

/-- C87: the order and its lattice. -/
theorem C87_integers_order (pick : F.Val → F.Val → Bool) :
    FollowsLattice IntFloat (CheckedInts.lattice w) (ApproxFloats.lattice F pick) := by
  have hA := CheckedInts.lattice_spec w
  have hB := (C55_lattice (F := F) pick).1
  have key {p q : Prop} [Decidable p] [Decidable q] {c d : Res Bool} (hc : Decides False c p) (hd : Decides False d q)
      (h : p ↔ q) : Follows Eq c d := by
    rw [decides_false_iff.1 hc, decides_false_iff.1 hd]
    exact .ok (decide_eq_decide.2 h)
  have hle {a b : SInt w} : a.1 ≤ b.1 ↔ (a.1 : ℚ) ≤ b.1 := Int.cast_le.symm
  exact
  { contains := fun h => by
      have h1 := ((C55_contains _).resolve_right fun h' => h'.2 ⟨_, h⟩).1
      exact .of_eq h1.symm
    equals := fun ha hb => key (hA.equals rfl rfl) (hB.equals ha hb) Int.cast_inj.symm
    leq := fun ha hb => key (hA.leq rfl rfl) (hB.leq ha hb) hle
    lessThan := fun ha hb => key (hA.lessThan rfl rfl) (hB.lessThan ha hb) Int.cast_lt.symm
    comparable := fun ha hb => key (hA.comparable rfl rfl) (hB.comparable ha hb) (or_congr hle hle)
    meet := fun {a b a' b'} ha hb => by
      refine .ok ?_
      show FloatRep (a'.min pick b') _
      have := FloatRep.min pick ha hb
      split_ifs with h
      · rwa [min_eq_right (by exact_mod_cast h.le)] at this
      · rwa [min_eq_left (by exact_mod_cast not_lt.1 h)] at this
    join := fun {a b a' b'} ha hb => by
      refine .ok ?_
      show FloatRep (a'.max pick b') _
      have := FloatRep.max pick ha hb
      split_ifs with h
      · rwa [max_eq_left (by exact_mod_cast h.le)] at this
      · rwa [max_eq_right (by exact_mod_cast not_lt.1 h)] at this }

end integers

/-! ## Examples -/

omit [Cfg] in
/-- The widths that `f32` and `f64` cover. -/
example : 16 ≤ FloatFormat.f32.prec ∧ 32 ≤ FloatFormat.f64.prec := by decide

/-- `f64` and `i32`: 30000 * 70000. -/
example (a b : FloatFormat.f64.Val) (ha : FloatRep a 30000) (hb : FloatRep b 70000) :
    ∃ c, (ApproxFloats.field .f64).mul a b = .ok c ∧ FloatRep c (2100000000 : ℤ) :=
  (C87_integers_mul (w := 32) (F := .f64) (by decide)).1.mul (a := ⟨30000, by decide⟩)
    (b := ⟨70000, by decide⟩) (by exact_mod_cast ha) (by exact_mod_cast hb)
    ⟨2100000000, by decide⟩ (by rfl)

omit [Cfg] in
theorem f32_of_int (m : ℤ) (hm : |m| < 2 ^ 24) : ∃ a : FloatFormat.f32.Val, FloatRep a m := (f32_integer m hm).rep

/-- `f32`: the difference of 16777215 and 8388608 is exact. -/
example : ∃ a b c : FloatFormat.f32.Val, FloatRep a (16777215 : ℤ) ∧ FloatRep b (8388608 : ℤ) ∧
    (ApproxFloats.field .f32).sub a b = .ok c ∧ FloatRep c ((16777215 : ℤ) - (8388608 : ℤ)) := by
  obtain ⟨a, ha⟩ := f32_of_int 16777215 (by decide)
  obtain ⟨b, hb⟩ := f32_of_int 8388608 (by decide)
  obtain ⟨⟨c, h1, h2⟩, -⟩ := C87_sub_near ha hb (by norm_num) (by norm_num)
  exact ⟨a, b, c, ha, hb, h1, h2⟩

/-- `f32`: 16777216 + 1 is not a number of the format, the two subtractions find what is missing. -/
example : ∃ (a b c d e : FloatFormat.f32.Val) (z : ℚ), FloatRep a 16777216 ∧ FloatRep b 1 ∧
    (ApproxFloats.field .f32).add a b = .ok c ∧ FloatRep c z ∧ (ApproxFloats.field .f32).sub c a = .ok d ∧
    (ApproxFloats.field .f32).sub b d = .ok e ∧ FloatRep e (16777216 + 1 - z) := by
  have h1 : IsFloat .f32 16777216 := by
    have := f32_isFloat (m := 8388608) (e := 1) (by decide) (by decide) (by decide)
    norm_num at this
    exact this
  have h2 : IsFloat .f32 16777218 := by
    have := f32_isFloat (m := 8388609) (e := 1) (by decide) (by decide) (by decide)
    norm_num at this
    exact this
  obtain ⟨a, ha⟩ := h1.rep
  have hb : FloatRep (Val.one : FloatFormat.f32.Val) 1 := floatRep_one
  obtain ⟨c, z, hc, hz, -⟩ := (C55_add ha hb).1.2 fun h => h2.not_overflows (le_trans h (by norm_num))
  obtain ⟨d, e, h3, h4, -, h5⟩ := C87_two_sum ha hb hz (by norm_num) hc
  exact ⟨a, _, c, d, e, z, ha, hb, hc, hz, h3, h4, h5⟩

/-- Polynomials of `i16` computed in `f32`. -/
example {u v p : List (SInt 16)} {u' v' : List FloatFormat.f32.Val} (hu : LRel IntFloat u u') (hv : LRel IntFloat v v')
    (h : (PolynomialAlgebra.unitaryRing (CheckedInts.euclidean 16).toUnitaryRingOps).mul u v = .ok p) :
    ∃ p', (PolynomialAlgebra.unitaryRing (ApproxFloats.field .f32).toUnitaryRingOps).mul u' v' = .ok p' ∧
      LRel IntFloat p p' :=
  (C87_integers_poly (by decide)).2.1 hu hv p h

end Abstalg
