import Verif.Proofs.Majorants
import Verif.Props.CheckedInts
import Verif.Props.ExactFloats
import Verif.Props.Floats
import Verif.Proofs.Graded
import Verif.Proofs.Cost

/-! # Bounds for operands bound results and exclude overflow: C86 -/

set_option autoImplicit false

namespace Abstalg

open FloatFormat

/-! ## Floats -/

section floats

variable {F : FloatFormat} {a b c d : F.Val}

theorem Overflows.mono {x y : ℚ} (hxy : |x| ≤ y) (h : Overflows F x) : Overflows F y :=
  le_trans h (hxy.trans (le_abs_self y))

theorem Rounded.boundsAbs {e e' : Res F.Val} {x y : ℚ} (h : Rounded e y) (h' : Rounded e' x) (hxy : |x| ≤ y) :
    Follows (BoundsAbs FloatRep) e e' := fun v hv => by
  by_cases ho : Overflows F y
  · rw [h.1 ho] at hv; cases hv
  obtain ⟨v', y', h1, h2, h3⟩ := h.2 ho
  obtain ⟨w, x', h4, h5, h6⟩ := h'.2 fun hx => ho (hx.mono hxy)
  rw [hv] at h1
  cases h1
  refine ⟨w, h4, x', y', h5, h2, abs_le.2 ⟨?_, h6.mono h3 ((le_abs_self x).trans hxy)⟩⟩
  have := h6.neg.mono h3 ((neg_le_abs x).trans hxy)
  linarith

theorem Rounded.boundsNonneg {e e' : Res F.Val} {x y : ℚ} (h : Rounded e y) (h' : Rounded e' x) (hx : 0 ≤ x)
    (hxy : x ≤ y) : Follows (BoundsNonneg FloatRep) e e' := fun v hv => by
  by_cases ho : Overflows F y
  · rw [h.1 ho] at hv; cases hv
  obtain ⟨v', y', h1, h2, h3⟩ := h.2 ho
  obtain ⟨w, x', h4, h5, h6⟩ := h'.2 fun hx' => ho (hx'.mono (by rwa [abs_of_nonneg hx]))
  rw [hv] at h1
  cases h1
  exact ⟨w, h4, x', y', h5, h2, (roundsTo_self isFloat_zero).mono h6 hx, h6.mono h3 hxy⟩

theorem Rounded.le {e : Res F.Val} {x y : ℚ} (hx : IsFloat F x) (h : Rounded e y) (hxy : x ≤ y) {v : F.Val}
    (hv : e = .ok v) : ∃ z, FloatRep v z ∧ x ≤ z := by
  by_cases ho : Overflows F y
  · rw [h.1 ho] at hv; cases hv
  obtain ⟨v', y', h1, h2, h3⟩ := h.2 ho
  rw [hv] at h1
  cases h1
  exact ⟨y', h2, (roundsTo_self hx).mono h3 hxy⟩

variable [Cfg]

/-- C86: floats.  If the operands are bounded in absolute value by others, and the sum or the product of the others does
not overflow, then the sum, difference or product of the operands does not, and it is bounded by the former,
both rounded. -/
theorem C86_floats : BoundedRing (BoundsAbs FloatRep) (ApproxFloats.field F).toUnitaryRingOps := by
  have hadd {b d a c : F.Val} : BoundsAbs FloatRep b a → BoundsAbs FloatRep d c →
      Follows (BoundsAbs FloatRep) ((ApproxFloats.field F).add b d) ((ApproxFloats.field F).add a c) := by
    rintro ⟨x, y, ha, hb, h⟩ ⟨u, v, hc, hd, h'⟩
    exact (C55_add hb hd).1.boundsAbs (C55_add ha hc).1 ((abs_add_le x u).trans (add_le_add h h'))
  have hmul {b d a c : F.Val} : BoundsAbs FloatRep b a → BoundsAbs FloatRep d c →
      Follows (BoundsAbs FloatRep) ((ApproxFloats.field F).mul b d) ((ApproxFloats.field F).mul a c) := by
    rintro ⟨x, y, ha, hb, h⟩ ⟨u, v, hc, hd, h'⟩
    refine (C55_mul hb hd).1.boundsAbs (C55_mul ha hc).1 ?_
    rw [abs_mul]
    exact mul_le_mul h h' (abs_nonneg _) ((abs_nonneg _).trans h)
  have hzero : BoundsAbs FloatRep (Val.zero : F.Val) Val.zero := ⟨0, 0, floatRep_zero, floatRep_zero, by simp⟩
  exact
  { zero := .ok hzero
    one := .ok ⟨1, 1, floatRep_one, floatRep_one, by simp⟩
    add := hadd
    addAssign := hadd
    double := fun h => hadd h h
    utimes := fun n _ _ h => Follows.bind (.ok hzero) fun _ _ h0 =>
      follows_timesLoop hadd (fun h => hadd h h) n h0 h
    mul := hmul
    mulAssign := hmul
    square := fun h => hmul h h
    grow := by
      rintro b d a c ⟨x, y, ha, hb, h⟩ ⟨u, v, hc, hd, h'⟩ s hs
      obtain ⟨z, hz, hyz⟩ := (C55_add hb hd).1.le (x := y) hb.isFloat (by have := abs_nonneg u; linarith) hs
      exact ⟨a, rfl, x, z, ha, hz, h.trans hyz⟩
    neg := by
      rintro b a ⟨x, y, ha, hb, h⟩ _ ⟨⟩
      obtain ⟨c, h1, -, h2⟩ := C55_neg ha
      exact ⟨c, h1, -x, y, h2, hb, by rwa [abs_neg]⟩
    negAssign := by
      rintro b a ⟨x, y, ha, hb, h⟩ _ ⟨⟩
      obtain ⟨c, -, h1, h2⟩ := C55_neg ha
      exact ⟨c, h1, -x, y, h2, hb, by rwa [abs_neg]⟩
    sub := by
      rintro b d a c ⟨x, y, ha, hb, h⟩ ⟨u, v, hc, hd, h'⟩
      exact (C55_add hb hd).1.boundsAbs (C55_sub ha hc).1 ((abs_sub x u).trans (add_le_add h h'))
    subAssign := by
      rintro b d a c ⟨x, y, ha, hb, h⟩ ⟨u, v, hc, hd, h'⟩
      exact (C55_add hb hd).1.boundsAbs (C55_sub ha hc).2 ((abs_sub x u).trans (add_le_add h h')) }

/-- C86: floats that are not negative: the results are not negative either. -/
theorem C86_floats_nonneg : BoundedSemiRing (BoundsNonneg FloatRep) (ApproxFloats.field F).toSemiRingOps := by
  have hadd {b d a c : F.Val} : BoundsNonneg FloatRep b a → BoundsNonneg FloatRep d c →
      Follows (BoundsNonneg FloatRep) ((ApproxFloats.field F).add b d) ((ApproxFloats.field F).add a c) := by
    rintro ⟨x, y, ha, hb, h0, h⟩ ⟨u, v, hc, hd, h0', h'⟩
    exact (C55_add hb hd).1.boundsNonneg (C55_add ha hc).1 (add_nonneg h0 h0') (add_le_add h h')
  have hmul {b d a c : F.Val} : BoundsNonneg FloatRep b a → BoundsNonneg FloatRep d c →
      Follows (BoundsNonneg FloatRep) ((ApproxFloats.field F).mul b d) ((ApproxFloats.field F).mul a c) := by
    rintro ⟨x, y, ha, hb, h0, h⟩ ⟨u, v, hc, hd, h0', h'⟩
    exact (C55_mul hb hd).1.boundsNonneg (C55_mul ha hc).1 (mul_nonneg h0 h0') (mul_le_mul h h' h0' (h0.trans h))
  have hzero : BoundsNonneg FloatRep (Val.zero : F.Val) Val.zero := ⟨0, 0, floatRep_zero, floatRep_zero, by simp⟩
  exact
  { zero := .ok hzero
    one := .ok ⟨1, 1, floatRep_one, floatRep_one, by simp⟩
    add := hadd
    addAssign := hadd
    double := fun h => hadd h h
    utimes := fun n _ _ h => Follows.bind (.ok hzero) fun _ _ h0 =>
      follows_timesLoop hadd (fun h => hadd h h) n h0 h
    mul := hmul
    mulAssign := hmul
    square := fun h => hmul h h
    grow := by
      rintro b d a c ⟨x, y, ha, hb, h0, h⟩ ⟨u, v, hc, hd, h0', h'⟩ s hs
      obtain ⟨z, hz, hyz⟩ := (C55_add hb hd).1.le (x := y) hb.isFloat (by linarith) hs
      exact ⟨a, rfl, x, z, ha, hz, h0, h.trans hyz⟩ }

theorem float_int_one : Follows (BoundsAbs FloatRep) ((ApproxFloats.field F).int 1) ((ApproxFloats.field F).int 1) ∧
    Follows (BoundsNonneg FloatRep) ((ApproxFloats.field F).int 1) ((ApproxFloats.field F).int 1) := by
  obtain ⟨c, h1, h2⟩ := (C56_int (F := F) 1).1 (by rw [Int.cast_one]; exact floatRep_one.isFloat)
  rw [h1]
  rw [Int.cast_one] at h2
  exact ⟨.ok ⟨1, 1, h2, h2, by simp⟩, .ok ⟨1, 1, h2, h2, by simp⟩⟩

/-- C86: quotients.  The dividend is bounded from above and the divisor from below. -/
theorem C86_float_div {z v : ℚ} (h : BoundsAbs FloatRep b a) (hc : FloatRep c z) (hd : FloatRep d v) (h0 : 0 < v)
    (hv : v ≤ |z|) :
    Follows (BoundsAbs FloatRep) ((ApproxFloats.field F).div b d) ((ApproxFloats.field F).div a c) := by
  obtain ⟨x, y, ha, hb, h⟩ := h
  have hz : z ≠ 0 := fun hz => by rw [hz, abs_zero] at hv; linarith
  refine ((C55_div hb hd).2 h0.ne').boundsAbs ((C55_div ha hc).2 hz) ?_
  rw [abs_div]
  exact div_le_div₀ ((abs_nonneg _).trans h) h h0 hv

/-- C86: integer multiples.  `times` does not check its result (C56), hence it is assumed to be finite for
the bounds. -/
theorem C86_float_times {n m : ℤ} {y : ℚ} (h : BoundsAbs FloatRep b a) (hn : |n| ≤ m)
    (hd : (ApproxFloats.field F).times m b = .ok d) (hy : FloatRep d y) :
    ∃ c x, (ApproxFloats.field F).times n a = .ok c ∧ FloatRep c x ∧ |x| ≤ y := by
  obtain ⟨x, y', ha, hb, h⟩ := h
  have hq : |(n : ℚ)| ≤ m := by rw [← Int.cast_abs]; exact_mod_cast hn
  have hm : ¬ Overflows F m := fun ho => by
    obtain ⟨c, h1, h2⟩ := C56_times_overflow hb m ho
    rw [hd] at h1
    cases h1
    cases (C55_contains d).resolve_right (fun h => h.2 ⟨_, hy⟩) with
    | intro h3 h4 => exact absurd (h3.symm.trans h2) (by simp)
  have hn' : ¬ Overflows F n := fun ho => hm (ho.mono hq)
  obtain ⟨m', -, hm'⟩ := (round_spec (F := F) false m).2 hm
  obtain ⟨n', -, hn''⟩ := (round_spec (F := F) false n).2 hn'
  have hle : |n'| ≤ m' := abs_le.2 ⟨by have := hn''.neg.mono hm' ((neg_le_abs _).trans hq); linarith,
    hn''.mono hm' ((le_abs_self _).trans hq)⟩
  have hprod : |n' * x| ≤ m' * y' := by
    rw [abs_mul]
    exact mul_le_mul hle h (abs_nonneg _) ((abs_nonneg _).trans hle)
  obtain ⟨d', h1, h2, h3⟩ := C56_times hb m hm' hm
  rw [hd] at h1
  cases h1
  have ho : ¬ Overflows F (m' * y') := fun ho => by
    have := (h3 ho).1
    obtain ⟨_, _, _, h4, _⟩ := hy
    rw [this] at h4
    cases h4
  obtain ⟨c, h4, h5, -⟩ := C56_times ha n hn'' hn'
  obtain ⟨w, hw, hw'⟩ := h5 fun h => ho (h.mono hprod)
  obtain ⟨v, hv, hv'⟩ := h2 ho
  obtain rfl := hy.unique hv
  refine ⟨c, w, h4, hw, abs_le.2 ⟨?_, hw'.mono hv' ((le_abs_self _).trans hprod)⟩⟩
  have := hw'.neg.mono hv' ((neg_le_abs _).trans hprod)
  linarith

/-- C86: powers with exponents that are not negative. -/
theorem C86_float_power {n : ℤ} (hn : 0 ≤ n) (h : BoundsAbs FloatRep b a) :
    Follows (BoundsAbs FloatRep) ((ApproxFloats.field F).power n b) ((ApproxFloats.field F).power n a) := by
  have hdef (e : F.Val) : (ApproxFloats.field F).power n e = ((ApproxFloats.field F).isZero e).bind fun t =>
      if t then (ApproxFloats.field F).zero else (ApproxFloats.field F).one.bind fun o =>
        powerLoop (ApproxFloats.field F).mulAssign (ApproxFloats.field F).square n o e := by
    have h1 (inv : F.Val → Res F.Val) : powerDefault (ApproxFloats.field F).one (ApproxFloats.field F).mulAssign
        (ApproxFloats.field F).square inv n e = (ApproxFloats.field F).one.bind fun o =>
        powerLoop (ApproxFloats.field F).mulAssign (ApproxFloats.field F).square n o e := by
      unfold powerDefault
      rw [if_neg (by omega)]
      rfl
    show (((ApproxFloats.field F).isZero e).bind fun t => if t then (ApproxFloats.field F).zero
      else powerDefault (ApproxFloats.field F).one (ApproxFloats.field F).mulAssign (ApproxFloats.field F).square _ n e) = _
    rw [h1]
  obtain ⟨x, y, ha, hb, hxy⟩ := h
  rw [hdef, hdef, (C55_equals ha ha).2.1, (C55_equals hb hb).2.1]
  intro v hv
  rw [rbind_eq_ok] at hv
  obtain ⟨t, ht, hv⟩ := hv
  cases ht
  by_cases hx : x = 0
  · refine ⟨Val.zero, by rw [decide_eq_true hx]; rfl, 0, ?_⟩
    by_cases hy : y = 0
    · rw [decide_eq_true hy] at hv
      cases hv
      exact ⟨0, floatRep_zero, floatRep_zero, by simp⟩
    · rw [decide_eq_false hy] at hv
      obtain ⟨w, -, u, z, -, hz, huz⟩ := (C86_floats (F := F)).toBoundedSemiRing.powerLoop n
        (⟨x, y, ha, hb, hxy⟩ : BoundsAbs FloatRep b a) v hv
      exact ⟨z, floatRep_zero, hz, by rw [abs_zero]; exact (abs_nonneg _).trans huz⟩
  · have hy : y ≠ 0 := fun hy => hx (by rw [hy] at hxy; exact abs_eq_zero.1 (le_antisymm hxy (abs_nonneg _)))
    rw [decide_eq_false hy] at hv
    rw [decide_eq_false hx]
    exact (C86_floats (F := F)).toBoundedSemiRing.powerLoop n ⟨x, y, ha, hb, hxy⟩ v hv

end floats

/-! ## Machine integers -/

section ints

variable {w : ℕ}

theorem Exactly.bounds {c d : Res (SInt w)} {x y : ℤ} (hc : Exactly c y) (hd : Exactly d x) (h : |x| ≤ y) {b : SInt w}
    (hb : c = .ok b) : b.1 = y ∧ ∃ a, d = .ok a ∧ a.1 = x := by
  by_cases hy : InRange w y
  · obtain ⟨b', h1, h2⟩ := hc.1 hy
    rw [hb] at h1
    cases h1
    refine ⟨h2, hd.1 ?_⟩
    have h3 := abs_le.1 h
    unfold InRange at hy ⊢
    omega
  · rw [hc.2 hy] at hb
    cases hb

variable [Width w] [Cfg]

/-- C86: signed machine integers.  If the sum or the product of the bounds is representable then so are
the sum, the difference and the product of the operands. -/
theorem C86_checked_ints :
    BoundedRing (BoundsAbs fun (a : SInt w) (x : ℤ) => a.1 = x) (CheckedInts.euclidean w).toUnitaryRingOps := by
  have key {c d : Res (SInt w)} {x y : ℤ} (hc : Exactly c y) (hd : Exactly d x) (h : |x| ≤ y) :
      Follows (BoundsAbs fun (a : SInt w) (x : ℤ) => a.1 = x) c d := fun b hb =>
    let ⟨h1, a, h2, h3⟩ := hc.bounds hd h hb
    ⟨a, h2, x, y, h3, h1, h⟩
  have hadd {b d a c : SInt w} : BoundsAbs (fun (a : SInt w) (x : ℤ) => a.1 = x) b a →
      BoundsAbs (fun (a : SInt w) (x : ℤ) => a.1 = x) d c →
      Follows (BoundsAbs fun (a : SInt w) (x : ℤ) => a.1 = x) ((CheckedInts.euclidean w).add b d)
        ((CheckedInts.euclidean w).add a c) := by
    rintro ⟨_, _, rfl, rfl, h⟩ ⟨_, _, rfl, rfl, h'⟩
    exact key (C12_checked_ring _ _).1 (C12_checked_ring _ _).1 ((abs_add_le _ _).trans (add_le_add h h'))
  have hmul {b d a c : SInt w} : BoundsAbs (fun (a : SInt w) (x : ℤ) => a.1 = x) b a →
      BoundsAbs (fun (a : SInt w) (x : ℤ) => a.1 = x) d c →
      Follows (BoundsAbs fun (a : SInt w) (x : ℤ) => a.1 = x) ((CheckedInts.euclidean w).mul b d)
        ((CheckedInts.euclidean w).mul a c) := by
    rintro ⟨_, _, rfl, rfl, h⟩ ⟨_, _, rfl, rfl, h'⟩
    refine key (C12_checked_ring _ _).2.2.1 (C12_checked_ring _ _).2.2.1 ?_
    rw [abs_mul]
    exact mul_le_mul h h' (abs_nonneg _) ((abs_nonneg _).trans h)
  have hneg {b a : SInt w} : BoundsAbs (fun (a : SInt w) (x : ℤ) => a.1 = x) b a →
      Follows (BoundsAbs fun (a : SInt w) (x : ℤ) => a.1 = x) (.ok b) ((CheckedInts.euclidean w).neg a) := by
    rintro ⟨_, _, rfl, rfl, h⟩ _ ⟨⟩
    have hb : InRange w b.1 := inRange_iff.2 b.2
    obtain ⟨c, h1, h2⟩ := (C12_checked_ring a a).2.2.2.1 (by
      have h3 := abs_le.1 h
      unfold InRange at hb ⊢
      omega)
    exact ⟨c, h1, _, _, h2, rfl, by rwa [abs_neg]⟩
  exact
  { zero := .ok ⟨_, _, rfl, rfl, le_rfl⟩
    one := .ok ⟨_, _, rfl, rfl, le_rfl⟩
    add := hadd
    addAssign := hadd
    double := fun h => hadd h h
    utimes := fun n _ _ h => Follows.bind (.ok ⟨_, _, rfl, rfl, le_rfl⟩) fun _ _ h0 =>
      follows_timesLoop hadd (fun h => hadd h h) n h0 h
    mul := hmul
    mulAssign := hmul
    square := fun h => hmul h h
    grow := by
      rintro b d a c ⟨_, _, rfl, rfl, h⟩ ⟨_, _, rfl, rfl, h'⟩ s hs
      have h1 : s.1 = b.1 + d.1 := ((C12_checked_ring b d).1.bounds (C12_checked_ring b d).1 (by
        have := abs_nonneg a.1
        have := abs_nonneg c.1
        rw [abs_of_nonneg (by omega)]) hs).1
      have := abs_nonneg c.1
      exact ⟨a, rfl, _, _, rfl, h1, by omega⟩
    neg := hneg
    negAssign := hneg
    sub := by
      rintro b d a c ⟨_, _, rfl, rfl, h⟩ ⟨_, _, rfl, rfl, h'⟩
      exact key (C12_checked_ring _ _).1 (C12_checked_ring _ _).2.1 ((abs_sub _ _).trans (add_le_add h h'))
    subAssign := fun {b d a c} h h' => by
      obtain ⟨c', h1, h2⟩ := hneg h' d rfl
      have h3 : (CheckedInts.euclidean w).subAssign a c = (CheckedInts.euclidean w).add a c' := by
        show ((CheckedInts.euclidean w).neg c >>= fun e => (CheckedInts.euclidean w).add a e) = _
        rw [h1]
        rfl
      show Follows _ _ ((CheckedInts.euclidean w).subAssign a c)
      rw [h3]
      exact hadd h h2 }

/-- C86: signed machine integers that are not negative. -/
theorem C86_checked_ints_nonneg : BoundedSemiRing (BoundsNonneg fun (a : SInt w) (x : ℤ) => a.1 = x)
    (CheckedInts.euclidean w).toSemiRingOps := by
  have key {c d : Res (SInt w)} {x y : ℤ} (hc : Exactly c y) (hd : Exactly d x) (h0 : 0 ≤ x) (h : x ≤ y) :
      Follows (BoundsNonneg fun (a : SInt w) (x : ℤ) => a.1 = x) c d := fun b hb =>
    let ⟨h1, a, h2, h3⟩ := hc.bounds hd (by rwa [abs_of_nonneg h0]) hb
    ⟨a, h2, x, y, h3, h1, h0, h⟩
  have hadd {b d a c : SInt w} : BoundsNonneg (fun (a : SInt w) (x : ℤ) => a.1 = x) b a →
      BoundsNonneg (fun (a : SInt w) (x : ℤ) => a.1 = x) d c →
      Follows (BoundsNonneg fun (a : SInt w) (x : ℤ) => a.1 = x) ((CheckedInts.euclidean w).add b d)
        ((CheckedInts.euclidean w).add a c) := by
    rintro ⟨_, _, rfl, rfl, h0, h⟩ ⟨_, _, rfl, rfl, h0', h'⟩
    exact key (C12_checked_ring _ _).1 (C12_checked_ring _ _).1 (add_nonneg h0 h0') (add_le_add h h')
  have hmul {b d a c : SInt w} : BoundsNonneg (fun (a : SInt w) (x : ℤ) => a.1 = x) b a →
      BoundsNonneg (fun (a : SInt w) (x : ℤ) => a.1 = x) d c →
      Follows (BoundsNonneg fun (a : SInt w) (x : ℤ) => a.1 = x) ((CheckedInts.euclidean w).mul b d)
        ((CheckedInts.euclidean w).mul a c) := by
    rintro ⟨_, _, rfl, rfl, h0, h⟩ ⟨_, _, rfl, rfl, h0', h'⟩
    exact key (C12_checked_ring _ _).2.2.1 (C12_checked_ring _ _).2.2.1 (mul_nonneg h0 h0')
      (mul_le_mul h h' h0' (h0.trans h))
  exact
  { zero := .ok ⟨_, _, rfl, rfl, le_rfl, le_rfl⟩
    one := .ok ⟨_, _, rfl, rfl, zero_le_one, le_rfl⟩
    add := hadd
    addAssign := hadd
    double := fun h => hadd h h
    utimes := fun n _ _ h => Follows.bind (.ok ⟨_, _, rfl, rfl, le_rfl, le_rfl⟩) fun _ _ h0 =>
      follows_timesLoop hadd (fun h => hadd h h) n h0 h
    mul := hmul
    mulAssign := hmul
    square := fun h => hmul h h
    grow := by
      rintro b d a c ⟨_, _, rfl, rfl, h0, h⟩ ⟨_, _, rfl, rfl, h0', h'⟩ s hs
      have h1 : s.1 = b.1 + d.1 := ((C12_checked_ring b d).1.bounds (C12_checked_ring b d).1 (by
        rw [abs_of_nonneg (by omega)]) hs).1
      exact ⟨a, rfl, _, _, rfl, h1, h0, by omega⟩ }

/-- C86: integer multiples of signed machine integers; the multiplier is bounded, too. -/
theorem C86_checked_times {n m : ℤ} (hn : |n| ≤ m) {b a : SInt w} (h : |a.1| ≤ b.1) :
    Follows (BoundsAbs fun (a : SInt w) (x : ℤ) => a.1 = x) ((CheckedInts.euclidean w).times m b)
      ((CheckedInts.euclidean w).times n a) := by
  intro s hs
  have hp : |n * a.1| ≤ m * b.1 := by
    rw [abs_mul]
    exact mul_le_mul hn h (abs_nonneg _) ((abs_nonneg _).trans hn)
  by_cases hr : InRange w m ∧ InRange w (m * b.1)
  · obtain ⟨s', h1, h2⟩ := (C14_checked_times m b).1 hr
    rw [hs] at h1
    cases h1
    have h3 := abs_le.1 hn
    have h4 := abs_le.1 hp
    obtain ⟨c, h5, h6⟩ := (C14_checked_times n a).1 (by unfold InRange at hr ⊢; omega)
    exact ⟨c, h5, _, _, h6, h2, hp⟩
  · rw [(C14_checked_times m b).2 hr] at hs
    cases hs

end ints

/-- C86: unsigned machine integers. -/
theorem C86_checked_uints {w : ℕ} [UWidth w] [Cfg] :
    BoundedSemiRing (BoundsNonneg fun (a : UInt' w) (x : ℕ) => a.1 = x) (CheckedUints.semiRing w) := by
  have val {c : Res (UInt' w)} {y : ℕ} (hc : UExactly c y) {b : UInt' w} (hb : c = .ok b) : b.1 = y ∧ y < 2 ^ w := by
    by_cases hy : y < 2 ^ w
    · obtain ⟨b', h1, h2⟩ := hc.1 hy
      rw [hb] at h1
      cases h1
      exact ⟨h2, hy⟩
    · rw [hc.2 hy] at hb
      cases hb
  have key {c d : Res (UInt' w)} {x y : ℕ} (hc : UExactly c y) (hd : UExactly d x) (h : x ≤ y) :
      Follows (BoundsNonneg fun (a : UInt' w) (x : ℕ) => a.1 = x) c d := fun b hb => by
    obtain ⟨h1, h2⟩ := val hc hb
    obtain ⟨a, h3, h4⟩ := hd.1 (by omega)
    exact ⟨a, h3, x, y, h4, h1, Nat.zero_le _, h⟩
  have hadd {b d a c : UInt' w} : BoundsNonneg (fun (a : UInt' w) (x : ℕ) => a.1 = x) b a →
      BoundsNonneg (fun (a : UInt' w) (x : ℕ) => a.1 = x) d c →
      Follows (BoundsNonneg fun (a : UInt' w) (x : ℕ) => a.1 = x) ((CheckedUints.semiRing w).add b d)
        ((CheckedUints.semiRing w).add a c) := by
    rintro ⟨_, _, rfl, rfl, -, h⟩ ⟨_, _, rfl, rfl, -, h'⟩
    exact key (C16_checked_uints_exact _ _).1 (C16_checked_uints_exact _ _).1 (add_le_add h h')
  have hmul {b d a c : UInt' w} : BoundsNonneg (fun (a : UInt' w) (x : ℕ) => a.1 = x) b a →
      BoundsNonneg (fun (a : UInt' w) (x : ℕ) => a.1 = x) d c →
      Follows (BoundsNonneg fun (a : UInt' w) (x : ℕ) => a.1 = x) ((CheckedUints.semiRing w).mul b d)
        ((CheckedUints.semiRing w).mul a c) := by
    rintro ⟨_, _, rfl, rfl, -, h⟩ ⟨_, _, rfl, rfl, -, h'⟩
    exact key (C16_checked_uints_exact _ _).2 (C16_checked_uints_exact _ _).2 (Nat.mul_le_mul h h')
  exact
  { zero := .ok ⟨_, _, rfl, rfl, Nat.zero_le _, le_rfl⟩
    one := .ok ⟨_, _, rfl, rfl, Nat.zero_le _, le_rfl⟩
    add := hadd
    addAssign := hadd
    double := fun h => hadd h h
    utimes := fun n _ _ h => Follows.bind (.ok ⟨_, _, rfl, rfl, Nat.zero_le _, le_rfl⟩) fun _ _ h0 =>
      follows_timesLoop hadd (fun h => hadd h h) n h0 h
    mul := hmul
    mulAssign := hmul
    square := fun h => hmul h h
    grow := by
      rintro b d a c ⟨_, _, rfl, rfl, -, h⟩ ⟨_, _, rfl, rfl, -, h'⟩ s hs
      exact ⟨a, rfl, _, _, rfl, (val (C16_checked_uints_exact b d).1 hs).1, Nat.zero_le _, by omega⟩ }

/-! ## Structures -/

section structures

variable {E : Type} {r : E → E → Prop}

/-- C86: vectors. -/
theorem C86_vectors {A : SemiRingOps E} (hA : BoundedSemiRing r A) (n : ℕ) :
    BoundedSemiRing (VecBounds r n) (VectorAlgebra.semiRing n A) := hA.vector n

variable [Cfg]

/-- C86: vectors over rings. -/
theorem C86_vector_rings {A : UnitaryRingOps E} (hA : BoundedRing r A) (n : ℕ) :
    BoundedRing (VecBounds r n) (VectorAlgebra.unitaryRing n A) := hA.vector n

/-- C86: matrices over a base whose `int(1)`, the entry on the diagonal of `one`, is bounded by itself. -/
theorem C86_matrices {A : FieldOps E} (h1 : Follows r (A.int 1) (A.int 1)) (n : ℕ) :
    (BoundedSemiRing r A.toSemiRingOps →
      BoundedSemiRing (VecBounds r (n * n)) (MatrixRing.ops A n).toSemiRingOps) ∧
    (BoundedRing r A.toUnitaryRingOps → BoundedRing (VecBounds r (n * n)) (MatrixRing.ops A n)) :=
  ⟨fun hA => hA.matrix h1, fun hA => hA.matrix h1⟩

/-- C86: products of polynomials; those of the bounds may have more coefficients. -/
theorem C86_poly_mul {A : UnitaryRingOps E} (hA : BoundedSemiRing r A.toSemiRingOps) {u v u' v' : List E}
    (h : PolyBounds r u' u) (h' : PolyBounds r v' v) :
    Follows (PolyBounds r) ((PolynomialAlgebra.unitaryRing A).mul u' v')
      ((PolynomialAlgebra.unitaryRing A).mul u v) := hA.poly_mul h h'

/-- C86: powers in the group of units, with exponents that are not negative. -/
theorem C86_power {A : SemiRingOps E} (hA : BoundedSemiRing r A) {n : ℤ} (hn : 0 ≤ n) {b a : E} (h : r b a) :
    Follows r ((MultiplicativeGroup.ops A.toMonoidOps).power n b)
      ((MultiplicativeGroup.ops A.toMonoidOps).power n a) := by
  have hdef (e : E) : (MultiplicativeGroup.ops A.toMonoidOps).power n e =
      (A.one >>= fun o => powerLoop A.mulAssign A.square n o e) := by
    show powerDefault A.one A.mulAssign A.square (MultiplicativeGroup.ops A.toMonoidOps).inv n e = _
    unfold powerDefault
    rw [if_neg (by omega)]
    rfl
  rw [hdef, hdef]
  exact hA.powerLoop n h

/-- C86: matrices of floats: if the product of two matrices that bound others entry by entry does not overflow
then the product of the others does not, and its entries are bounded. -/
theorem C86_float_matrix_mul {F : FloatFormat} {n : ℕ} {M N M' N' : Fin n → Fin n → F.Val} {P : List F.Val}
    (hM : ∀ i j, BoundsAbs FloatRep (M i j) (M' i j)) (hN : ∀ i j, BoundsAbs FloatRep (N i j) (N' i j))
    (h : (MatrixRing.ops (ApproxFloats.field F) n).mul (flatVec M) (flatVec N) = .ok P) :
    ∃ P', (MatrixRing.ops (ApproxFloats.field F) n).mul (flatVec M') (flatVec N') = .ok P' ∧
      VecBounds (BoundsAbs FloatRep) (n * n) P P' := by
  have hlen (M : Fin n → Fin n → F.Val) : (flatVec M).length = n * n := flatVec_length M
  exact ((C86_matrices float_int_one.1 n).2 C86_floats).mul ⟨hlen M, Graded.forall₂_flatVec hM⟩
    ⟨hlen N, Graded.forall₂_flatVec hN⟩ P h

omit [Cfg] in
theorem PolyBounds.of_lrel {v w : List E} (h : LRel r v w) : PolyBounds r v w := by
  refine ⟨fun k a hk => ?_, fun b hb => ?_⟩
  · induction h generalizing k with
    | nil => simp at hk
    | cons h h' ih =>
      cases k with
      | zero =>
        cases hk
        exact ⟨_, rfl, h⟩
      | succ k => exact ih k hk
  · induction h with
    | nil => cases hb
    | cons h h' ih =>
      cases hb with
      | head => exact ⟨_, h⟩
      | tail _ hb => exact ih hb

end structures

/-- Example: `i8`.  The product of `3 + 5 x` and `2 + 7 x` has the coefficients 6, 31 and 35, so that all products
of `±3 ± 5 x` and `±2 ± 7 x` are computed without a panic. -/
example :
    letI : Cfg := ⟨true, true, 64, by decide⟩
    ∀ (a b c d : SInt 8) (_ : |a.1| = 3) (_ : |b.1| = 5) (_ : |c.1| = 2) (_ : |d.1| = 7),
    ∃ w, (PolynomialAlgebra.unitaryRing (CheckedInts.euclidean 8).toUnitaryRingOps).mul [a, b] [c, d] = .ok w := by
  intro a b c d ha hb hc hd
  let : Cfg := ⟨true, true, 64, by decide⟩
  let t3 : SInt 8 := ⟨3, by decide⟩
  let t5 : SInt 8 := ⟨5, by decide⟩
  let t2 : SInt 8 := ⟨2, by decide⟩
  let t7 : SInt 8 := ⟨7, by decide⟩
  have h1 : PolyBounds (BoundsAbs fun (a : SInt 8) (x : ℤ) => a.1 = x) [t3, t5] [a, b] :=
    PolyBounds.of_lrel (.cons ⟨_, _, rfl, rfl, ha.le⟩ (.cons ⟨_, _, rfl, rfl, hb.le⟩ .nil))
  have h2 : PolyBounds (BoundsAbs fun (a : SInt 8) (x : ℤ) => a.1 = x) [t2, t7] [c, d] :=
    PolyBounds.of_lrel (.cons ⟨_, _, rfl, rfl, hc.le⟩ (.cons ⟨_, _, rfl, rfl, hd.le⟩ .nil))
  obtain ⟨w, hw, -⟩ := C86_poly_mul C86_checked_ints.toBoundedSemiRing h1 h2
    [⟨6, by decide⟩, ⟨31, by decide⟩, ⟨35, by decide⟩] (by rfl)
  exact ⟨w, hw⟩

/-- Example: `i8`, cubes of numbers that are at most 3 in absolute value. -/
example :
    letI : Cfg := ⟨true, true, 64, by decide⟩
    ∀ a : SInt 8, |a.1| ≤ 3 → ∃ c, (MultiplicativeGroup.ops (CheckedInts.euclidean 8).toMonoidOps).power 3 a = .ok c ∧
      |c.1| ≤ 27 := by
  intro a ha
  let : Cfg := ⟨true, true, 64, by decide⟩
  obtain ⟨c, h1, x, y, h2, h3, h4⟩ := C86_power (C86_checked_ints (w := 8)).toBoundedSemiRing
    (n := 3) (by decide) (b := ⟨3, by decide⟩) (a := a) ⟨_, _, rfl, rfl, ha⟩ ⟨27, by decide⟩ (by
      show powerLoop _ _ 3 _ _ = _
      rw [← powerLoopWithin_eq _ _ 2 _ _ _ (by decide)]
      rfl)
  exact ⟨c, h1, by rw [h2]; exact h4.trans h3.ge⟩

/-- Example: `i8`, multiples by numbers that are at most 5 in absolute value. -/
example :
    letI : Cfg := ⟨true, true, 64, by decide⟩
    ∀ a : SInt 8, ∀ n : ℤ, |a.1| ≤ 20 → |n| ≤ 5 → ∃ c, (CheckedInts.euclidean 8).times n a = .ok c ∧ |c.1| ≤ 100 := by
  intro a n ha hn
  let : Cfg := ⟨true, true, 64, by decide⟩
  obtain ⟨c, h1, x, y, h2, h3, h4⟩ := C86_checked_times (w := 8) hn (b := ⟨20, by decide⟩) ha
    ⟨100, by decide⟩ (by rfl)
  exact ⟨c, h1, by rw [h2]; exact h4.trans h3.ge⟩

/-- Example: `f32`, doubling numbers that are at most 3/4 in absolute value. -/
example [Cfg] (b : f32.Val) (x : ℚ) (hb : FloatRep b x) (hx : |x| ≤ 3 / 4) :
    ∃ c y, (ApproxFloats.field f32).add b b = .ok c ∧ FloatRep c y ∧ |y| ≤ 3 / 2 := by
  obtain ⟨a, ha⟩ := f32_three_quarters
  have h1 : IsFloat f32 (3 / 4 + 3 / 4) := by
    have := f32_isFloat (m := 3) (e := -1) (by decide) (by decide) (by decide)
    norm_num at this ⊢
    exact this
  have h2 : (exactFloats f32).add (3 / 4) (3 / 4) = .ok (3 / 4 + 3 / 4) := if_pos h1
  have h3 := C77_exact.add ha ha
  rw [h2] at h3
  obtain ⟨c, h4, h5⟩ := h3 _ rfl
  obtain ⟨d, h6, y, z, h7, h8, h9⟩ := C86_floats.add ⟨x, _, hb, ha, hx⟩ ⟨x, _, hb, ha, hx⟩ c h4
  obtain rfl := h8.unique h5
  exact ⟨d, y, h6, h7, h9.trans (by norm_num)⟩

end Abstalg
