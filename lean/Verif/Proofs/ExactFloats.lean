import Verif.Spec.ExactFloats
import Verif.Proofs.SimBase
import Verif.Proofs.FloatDot
import Verif.Props.Floats
import Verif.Props.Fractions

/-! # Exact computations with floats -/

set_option autoImplicit false

namespace Abstalg

open FloatFormat Polynomial

variable {F : FloatFormat}

theorem follows_representable {α : Type} {r : ℚ → α → Prop} {x : ℚ} {d : Res α}
    (h : IsFloat F x → Returns False d (r x ·)) : Follows r (representable F x) d := by
  unfold representable
  split_ifs with hx
  · obtain ⟨a, h1, h2⟩ := returns_false_iff.1 (h hx)
    rw [h1]
    exact .ok h2
  · exact .panic

theorem rounded_exact {c : Res F.Val} {x : ℚ} (h : Rounded c x) (hx : IsFloat F x) :
    Returns False c (FloatRep · x) := by
  obtain ⟨a, y, rfl, h1, h2⟩ := h.2 hx.not_overflows
  exact h2.unique (roundsTo_self hx) ▸ h1

variable [Cfg]

/-- The floats follow the exact operations. -/
theorem ApproxFloats.follows_exact :
    FollowsField (fun x (a : F.Val) => FloatRep a x) (exactFloats F) (ApproxFloats.field F) := by
  have heq : ∀ {x y : ℚ} {a b : F.Val}, FloatRep a x → FloatRep b y →
      Follows Eq ((exactFloats F).equals x y) ((ApproxFloats.field F).equals a b) := fun ha hb => by
    rw [(C55_equals ha hb).1]
    refine .of_eq (congrArg Res.ok ?_)
    simp
  have hone : Follows (fun x (a : F.Val) => FloatRep a x) (exactFloats F).one (ApproxFloats.field F).one :=
    .ok floatRep_one
  have hzero : Follows (fun x (a : F.Val) => FloatRep a x) (exactFloats F).zero
    (ApproxFloats.field F).zero := .ok floatRep_zero
  have hisz : ∀ {x : ℚ} {a : F.Val}, FloatRep a x →
      Follows Eq ((exactFloats F).isZero x) ((ApproxFloats.field F).isZero a) := fun ha => by
    rw [(C55_equals ha ha).2.1]
    refine .of_eq (congrArg Res.ok ?_)
    simp
  have hadd : ∀ {x y : ℚ} {a b : F.Val}, FloatRep a x → FloatRep b y →
      Follows (fun x (a : F.Val) => FloatRep a x) ((exactFloats F).add x y)
        ((ApproxFloats.field F).add a b) := fun ha hb =>
    follows_representable fun h => rounded_exact (C55_add ha hb).1 h
  have hmul : ∀ {x y : ℚ} {a b : F.Val}, FloatRep a x → FloatRep b y →
      Follows (fun x (a : F.Val) => FloatRep a x) ((exactFloats F).mul x y)
        ((ApproxFloats.field F).mul a b) := fun ha hb =>
    follows_representable fun h => rounded_exact (C55_mul ha hb).1 h
  have hneg : ∀ {x : ℚ} {a : F.Val}, FloatRep a x →
      Follows (fun x (a : F.Val) => FloatRep a x) ((exactFloats F).neg x)
        ((ApproxFloats.field F).neg a) := fun ha =>
    follows_representable fun h => by
      obtain ⟨c, h1, -, h2⟩ := C55_neg ha
      rw [h1]
      exact h2
  have htimes : ∀ (n : ℤ) {x : ℚ} {a : F.Val}, FloatRep a x →
      Follows (fun x (a : F.Val) => FloatRep a x) ((exactFloats F).times n x)
        ((ApproxFloats.field F).times n a) := fun n {x a} ha => by
    show Follows _ (representable F n >>= fun m => representable F (m * x)) _
    unfold representable
    split_ifs with hn
    · rw [ok_bind]
      refine follows_representable fun h => ?_
      obtain ⟨c, h1, h2, -⟩ := C56_times ha n (roundsTo_self hn) hn.not_overflows
      obtain ⟨y, h3, h4⟩ := h2 h.not_overflows
      rw [h1]
      exact h4.unique (roundsTo_self h) ▸ h3
    · exact .panic
  have htry : ∀ {x : ℚ} {a : F.Val}, FloatRep a x →
      Follows (Option.Rel fun x (a : F.Val) => FloatRep a x) ((exactFloats F).tryInv x)
        ((ApproxFloats.field F).tryInv a) := fun {x a} ha => by
    show Follows _ (if x = 0 then .ok none else representable F x⁻¹ >>= fun y => .ok (some y)) _
    split_ifs with hx
    · rw [((C55_try_inv ha).1 (.inl hx)).1]
      exact .ok .none
    · unfold representable
      split_ifs with h
      · obtain ⟨c, y, h1, -, h2, h3⟩ := (C55_try_inv ha).2 hx h.not_overflows
        rw [h1]
        exact .ok (.some (h3.unique (roundsTo_self h) ▸ h2))
      · exact .panic
  exact
  { contains := fun {x a} ha => by
      have h1 : (ApproxFloats.field F).contains a = .ok true := congrArg Res.ok ha.isFinite
      rw [h1]
      exact .of_eq (congrArg Res.ok (@decide_eq_true _ (Classical.propDecidable _) ha.isFloat))
    equals := heq
    mul := hmul
    mulAssign := hmul
    square := fun ha => hmul ha ha
    one := hone
    isOne := fun ha => heq ha floatRep_one
    tryInv := htry
    invertible := fun ha => Follows.isSome (htry ha)
    zero := hzero
    isZero := hisz
    add := hadd
    addAssign := hadd
    double := fun ha => hadd ha ha
    utimes := fun n _ _ ha => follows_utimes _ hzero hadd (fun ha => hadd ha ha) n ha
    neg := hneg
    negAssign := hneg
    sub := fun ha hb => follows_representable fun h => rounded_exact (C55_sub ha hb).1 h
    subAssign := fun ha hb => follows_subAssign _ hneg hadd ha hb
    times := htimes
    int := fun n => htimes n floatRep_one
    inv := fun {x a} ha => by
      show Follows _ (if x = 0 then .panic else representable F x⁻¹) _
      split_ifs with hx
      · exact .panic
      · exact follows_representable fun h => rounded_exact ((C55_inv ha).2 hx) h
    div := fun {x y a b} ha hb => by
      show Follows _ (if y = 0 then .panic else representable F (x / y)) _
      split_ifs with hx
      · exact .panic
      · exact follows_representable fun h => rounded_exact ((C55_div ha hb).2 hx) h
    power := fun n _ _ ha => follows_fieldPower (fun x (a : F.Val) => FloatRep a x)
      (isZero := (exactFloats F).isZero) (isZero' := (ApproxFloats.field F).isZero)
      (zero := (exactFloats F).zero) (zero' := (ApproxFloats.field F).zero)
      (one := (exactFloats F).one) (one' := (ApproxFloats.field F).one)
      (mul := (exactFloats F).mulAssign) (mul' := (ApproxFloats.field F).mulAssign)
      (square := (exactFloats F).square) (square' := (ApproxFloats.field F).square)
      (tryInv := (exactFloats F).tryInv) (tryInv' := (ApproxFloats.field F).tryInv) (.refl _)
      hisz hzero hone hmul (fun ha => hmul ha ha) htry n ha }

/-- A rational number of the format and its numerator and denominator. -/
def RatPair (F : FloatFormat) (x : ℚ) (a : ℤ × ℤ) : Prop := IsFloat F x ∧ a.1 = x.num ∧ a.2 = x.den

/-- The rational numbers follow the exact operations. -/
theorem ReducedFractions.follows_exact :
    FollowsField (RatPair F) (exactFloats F) ReducedFractions.QQ := by
  have H := C26_rationals
  have hdec : ∀ {p : Prop} [Decidable p] {c : Res Bool} {b : Bool}, Decides False c p →
      (b = true ↔ p) → Follows Eq (.ok b) c := fun {p _ c b} h hb => by
    rw [decides_false_iff.1 h]
    refine .of_eq (congrArg Res.ok ?_)
    rw [Bool.eq_iff_iff, hb, decide_eq_true_iff]
  have hrep : ∀ {x : ℚ} {d : Res (ℤ × ℤ)},
      Returns False d (fun a => a.1 = x.num ∧ a.2 = x.den) →
      Follows (RatPair F) (representable F x) d := fun h =>
    follows_representable fun hx => h.mono fun a ha => ⟨hx, ha⟩
  have heq : ∀ {x y a b}, RatPair F x a → RatPair F y b →
      Follows Eq ((exactFloats F).equals x y) (QQ.equals a b) := fun ha hb =>
    hdec (H.equals ha.2 hb.2) (by simp)
  have hone : Follows (RatPair F) (exactFloats F).one QQ.one := by
    obtain ⟨a, h1, h2⟩ := returns_false_iff.1 H.one
    rw [show QQ.one = _ from h1]
    exact .ok ⟨floatRep_one.isFloat, h2⟩
  have hzero : Follows (RatPair F) (exactFloats F).zero QQ.zero := by
    obtain ⟨a, h1, h2⟩ := returns_false_iff.1 H.zero
    rw [h1]
    exact .ok ⟨isFloat_zero, h2⟩
  have hisz : ∀ {x a}, RatPair F x a → Follows Eq ((exactFloats F).isZero x) (QQ.isZero a) :=
    fun ha => hdec (H.isZero ha.2) (by simp)
  have hadd : ∀ {x y a b}, RatPair F x a → RatPair F y b →
      Follows (RatPair F) ((exactFloats F).add x y) (QQ.add a b) := fun ha hb => hrep (H.add ha.2 hb.2)
  have hmul : ∀ {x y a b}, RatPair F x a → RatPair F y b →
      Follows (RatPair F) ((exactFloats F).mul x y) (QQ.mul a b) := fun ha hb => hrep (H.mul ha.2 hb.2)
  have hneg : ∀ {x a}, RatPair F x a →
      Follows (RatPair F) ((exactFloats F).neg x) (QQ.neg a) := fun ha => hrep (H.neg ha.2)
  have htimes : ∀ (n : ℤ) {x a}, RatPair F x a →
      Follows (RatPair F) ((exactFloats F).times n x) (QQ.times n a) := fun n {x a} ha => by
    show Follows _ (representable F n >>= fun m => representable F (m * x)) _
    unfold representable
    split_ifs with hn
    · rw [ok_bind]
      refine hrep ?_
      obtain ⟨a1, a2⟩ := a
      obtain ⟨-, rfl, h2⟩ := ha
      have h2 : a2 = x.den := h2
      subst h2
      have h1 := ReducedFractions.reduce_spec (K := ℚ) Integers.euclidean_spec
        (n := n * x.num) (d := x.den) rfl rfl (by exact_mod_cast x.den_ne_zero)
      refine Returns.mono (show Returns False (QQ.times n (x.num, x.den)) _ from h1) fun b hb => ?_
      have h2 := (fracRep_int (fun x => x) b _).1 hb
      have h3 : (n : ℚ) * x = algebraMap ℤ ℚ (n * x.num) / algebraMap ℤ ℚ x.den := by
        have := Rat.num_div_den x
        simp only [eq_intCast, Int.cast_mul, Int.cast_natCast]
        rw [mul_div_assoc, this]
      rw [h3]
      exact h2
    · exact .panic
  have htry : ∀ {x a}, RatPair F x a →
      Follows (Option.Rel (RatPair F)) ((exactFloats F).tryInv x) (QQ.tryInv a) := fun {x a} ha => by
    show Follows _ (if x = 0 then .ok none else representable F x⁻¹ >>= fun y => .ok (some y)) _
    obtain ⟨o, h1, h2⟩ := returns_false_iff.1 (H.tryInv ha.2)
    rw [show QQ.tryInv a = _ from h1]
    split_ifs with hx
    · cases o with
      | none => exact .ok .none
      | some b =>
        obtain ⟨y, -, h3, -⟩ := h2
        rw [hx, zero_mul] at h3
        exact absurd h3 (by norm_num)
    · unfold representable
      split_ifs with h
      · cases o with
        | none => exact absurd (isUnit_iff_ne_zero.2 hx) h2
        | some b =>
          obtain ⟨y, h3, h4, -⟩ := h2
          refine .ok (.some ?_)
          rw [← eq_inv_of_mul_eq_one_right h4] at h
          rw [← eq_inv_of_mul_eq_one_right h4]
          exact ⟨h, h3⟩
      · exact .panic
  have hinv : ∀ {x a}, RatPair F x a → Follows (RatPair F) ((exactFloats F).inv x) (QQ.inv a) :=
    fun {x a} ha => by
      show Follows _ (if x = 0 then .panic else representable F x⁻¹) _
      split_ifs with hx
      · exact .panic
      · exact hrep (H.inv ha.2 hx)
  exact
  { contains := fun {x a} ha => by
      obtain ⟨b, h1, rfl⟩ := returns_false_iff.1 (H.contains ha.2)
      rw [h1]
      exact .of_eq (congrArg Res.ok (@decide_eq_true _ (Classical.propDecidable _) ha.1))
    equals := heq
    mul := hmul
    mulAssign := fun ha hb => hrep (H.mulAssign ha.2 hb.2)
    square := fun ha => hrep (H.square ha.2)
    one := hone
    isOne := fun ha => hdec (H.isOne ha.2) (by simp)
    tryInv := htry
    invertible := fun {x a} ha => by
      have h := Follows.isSome (htry ha)
      have h1 : QQ.invertible a = (QQ.tryInv a >>= fun o => pure o.isSome) := by
        obtain ⟨o, h1, h2⟩ := returns_false_iff.1 (H.tryInv ha.2)
        rw [show QQ.tryInv a = _ from h1,
          show QQ.invertible a = _ from @decides_false_iff _ _ (Classical.propDecidable _) |>.1 (H.invertible ha.2)]
        cases o with
        | none => exact congrArg Res.ok (@decide_eq_false _ (Classical.propDecidable _) h2)
        | some b =>
          obtain ⟨y, -, h3, h4⟩ := h2
          exact congrArg Res.ok (@decide_eq_true _ (Classical.propDecidable _) ⟨⟨x, y, h3, h4⟩, rfl⟩)
      exact (show QQ.toMonoidOps.invertible a = _ from h1) ▸ h
    zero := hzero
    isZero := hisz
    add := hadd
    addAssign := fun ha hb => hrep (H.addAssign ha.2 hb.2)
    double := fun ha => hrep (H.double ha.2)
    utimes := fun n _ _ ha => follows_utimes _ hzero hadd (fun ha => hadd ha ha) n ha
    neg := hneg
    negAssign := fun ha => hrep (H.negAssign ha.2)
    sub := fun ha hb => hrep (H.sub ha.2 hb.2)
    subAssign := fun ha hb => follows_subAssign _ hneg hadd ha hb
    times := htimes
    int := fun n => follows_int _ htimes hone n
    inv := hinv
    div := fun {x y a b} ha hb => by
      show Follows _ (if y = 0 then .panic else representable F (x / y)) _
      split_ifs with hx
      · exact .panic
      · exact hrep (H.div ha.2 hb.2 hx)
    power := fun n _ _ ha => follows_fieldPower (RatPair F)
      (isZero := (exactFloats F).isZero) (isZero' := QQ.isZero)
      (zero := (exactFloats F).zero) (zero' := QQ.zero)
      (one := (exactFloats F).one) (one' := QQ.one)
      (mul := (exactFloats F).mulAssign) (mul' := QQ.mulAssign)
      (square := (exactFloats F).square) (square' := QQ.square)
      (tryInv := (exactFloats F).tryInv) (tryInv' := QQ.tryInv) (.refl _)
      hisz hzero hone hmul (fun ha => hmul ha ha) htry n ha }

/-! ## Fixed point numbers -/

omit [Cfg] in
theorem FixedPoint.zero (e : ℤ) : FixedPoint e 0 := ⟨0, by simp⟩

omit [Cfg] in
theorem FixedPoint.add {e : ℤ} {x y : ℚ} (hx : FixedPoint e x) (hy : FixedPoint e y) :
    FixedPoint e (x + y) := by
  obtain ⟨k, rfl⟩ := hx
  obtain ⟨l, rfl⟩ := hy
  exact ⟨k + l, by push_cast; ring⟩

omit [Cfg] in
theorem FixedPoint.mul {s t : ℤ} {x y : ℚ} (hx : FixedPoint s x) (hy : FixedPoint t y) :
    FixedPoint (s + t) (x * y) := by
  obtain ⟨k, rfl⟩ := hx
  obtain ⟨l, rfl⟩ := hy
  exact ⟨k * l, by rw [zpow_add₀ (by norm_num)]; push_cast; ring⟩

omit [Cfg] in
theorem FixedPoint.sum {e : ℤ} {ι : Type} (s : Finset ι) {f : ι → ℚ} (h : ∀ i ∈ s, FixedPoint e (f i)) :
    FixedPoint e (∑ i ∈ s, f i) := by
  classical
  induction s using Finset.induction_on with
  | empty => exact .zero e
  | insert a s ha ih =>
    rw [Finset.sum_insert ha]
    exact (h a (Finset.mem_insert_self _ _)).add (ih fun i hi => h i (Finset.mem_insert_of_mem hi))

omit [Cfg] in
/-- A fixed point number below `2 ^ prec` units belongs to the format. -/
theorem FixedPoint.isFloat {e : ℤ} {x : ℚ} (hx : FixedPoint e x) (h1 : F.emin ≤ e) (h2 : e ≤ F.emax)
    (h : |x| < 2 ^ F.prec * 2 ^ e) : IsFloat F x := by
  obtain ⟨k, rfl⟩ := hx
  have he : (0 : ℚ) < 2 ^ e := by positivity
  rw [abs_mul, abs_of_pos he] at h
  refine ⟨k.natAbs, e, ?_, h1, h2, ?_⟩
  · have := lt_of_mul_lt_mul_right h he.le
    rw [← Int.cast_abs, Int.abs_eq_natAbs] at this
    exact_mod_cast this
  · rw [abs_mul, abs_of_pos he, ← Int.cast_abs, Int.abs_eq_natAbs]
    rfl

/-- Products of matrices whose products of entries and partial sums all belong to the format. -/
theorem matrix_mul_exact {n : ℕ} {v w : List F.Val}
    {M N : Matrix (Fin n) (Fin n) ℚ} (hv : MatRep FloatRep v M) (hw : MatRep FloatRep w N)
    (h1 : ∀ i j k, IsFloat F (M i k * N k j))
    (h2 : ∀ i j (k : ℕ), IsFloat F (∑ l ∈ Finset.univ.filter (fun l : Fin n => l.1 < k), M i l * N l j)) :
    Returns False (MatrixRing.mul (ApproxFloats.field F) n v w) (MatRep FloatRep · (M * N)) := by
  unfold MatrixRing.mul
  rw [hv.1, hw.1, beq_self_eq_true, Bool.and_self, assert_true, ok_bind]
  refine Returns.bind (MatrixRing.transpose_spec hw) fun t ht => ?_
  refine MatrixRing.push_spec _ fun res r c => ?_
  refine Returns.bind (mp := False) (P := (· = Val.zero)) rfl fun z hz => ?_
  subst hz
  refine Returns.bind (forLoop_range (fun k s => FloatRep s
    (∑ i ∈ Finset.univ.filter (fun i : Fin n => i.1 < k), M r i * N i c)) ?_ fun k hk s hs => ?_)
    fun s hs => ⟨s, rfl, ?_⟩
  · simpa using floatRep_zero
  · refine Returns.bind (hv.grid.idx r.2 hk) fun a ha => Returns.bind (ht.grid.idx c.2 hk)
      fun b hb => ?_
    have hfil : Finset.univ.filter (fun i : Fin n => i.1 < k + 1) =
        insert ⟨k, hk⟩ (Finset.univ.filter (fun i : Fin n => i.1 < k)) := by
      ext i
      simp only [Finset.mem_filter, Finset.mem_univ, true_and, Finset.mem_insert, Fin.ext_iff]
      omega
    have h3 := h2 r c (k + 1)
    rw [hfil, Finset.sum_insert (by simp), add_comm (M r _ * N _ c)] at h3 ⊢
    exact Returns.bind (rounded_exact (C55_mul ha hb).1 (h1 r c ⟨k, hk⟩)) fun p hp =>
      rounded_exact (C55_add hs hp).1 h3
  · simpa [Matrix.mul_apply] using hs

/-- The polynomial with the first `n` terms of a sequence of coefficients. -/
noncomputable def firstTerms (n : ℕ) (c : ℕ → ℚ) : ℚ[X] := ∑ i ∈ Finset.range n, monomial i (c i)

omit [Cfg] in
theorem firstTerms_succ (n : ℕ) (c : ℕ → ℚ) :
    firstTerms (n + 1) c = firstTerms n c + monomial n (c n) := Finset.sum_range_succ _ _

omit [Cfg] in
theorem firstTerms_coeff (n : ℕ) (c : ℕ → ℚ) (i : ℕ) :
    (firstTerms n c).coeff i = if i < n then c i else 0 := by
  unfold firstTerms
  rw [finsetSum_coeff]
  simp [coeff_monomial]

omit [Cfg] in
theorem firstTerms_eq {n : ℕ} {p : ℚ[X]} (h : ∀ i, n ≤ i → p.coeff i = 0) :
    firstTerms n p.coeff = p := by
  ext i
  rw [firstTerms_coeff]
  split_ifs with hi
  · rfl
  · exact (h i (by omega)).symm

/-- Nonnegative coefficients, each at most the other one. -/
def CoefLe (p q : ℚ[X]) : Prop := ∀ i, 0 ≤ p.coeff i ∧ p.coeff i ≤ q.coeff i

omit [Cfg] in
theorem CoefLe.mul {p p' q q' : ℚ[X]} (h : CoefLe p p') (h' : CoefLe q q') : CoefLe (p * q) (p' * q') := by
  intro i
  rw [coeff_mul, coeff_mul]
  exact ⟨Finset.sum_nonneg fun k _ => mul_nonneg (h k.1).1 (h' k.2).1,
    Finset.sum_le_sum fun k _ => mul_le_mul (h k.1).2 (h' k.2).2 (h' k.2).1 ((h k.1).1.trans (h k.1).2)⟩

omit [Cfg] in
theorem CoefLe.firstTerms {n m : ℕ} {c : ℕ → ℚ} (hc : ∀ i, 0 ≤ c i) (h : n ≤ m) :
    CoefLe (firstTerms n c) (firstTerms m c) := by
  intro i
  rw [firstTerms_coeff, firstTerms_coeff]
  have := hc i
  split_ifs with h1 h2
  · exact ⟨this, le_rfl⟩
  · omega
  · exact ⟨le_rfl, this⟩
  · exact ⟨le_rfl, le_rfl⟩

/-- A fixed point number with a bound on its absolute value. -/
def FixedRep (e : ℤ) (a : F.Val) (x : ℚ × ℚ) : Prop := FloatRep a x.1 ∧ FixedPoint e x.1 ∧ |x.1| ≤ x.2

/-- Products of polynomials with fixed point coefficients. -/
theorem poly_mul_exact {s t : ℤ} (h1 : F.emin ≤ s + t) (h2 : s + t ≤ F.emax) {v w : List F.Val}
    {p q : ℚ[X]} (hv : CoefRep FloatRep v p) (hw : CoefRep FloatRep w q)
    (hp : ∀ i, FixedPoint s (p.coeff i)) (hq : ∀ i, FixedPoint t (q.coeff i))
    (hb : ∀ k, ∑ i ∈ Finset.antidiagonal k, |p.coeff i.1 * q.coeff i.2| < 2 ^ F.prec * 2 ^ (s + t)) :
    Returns False (PolynomialAlgebra.mul (ApproxFloats.field F).toUnitaryRingOps v w)
      (CoefRep FloatRep · (p * q)) := by
  unfold PolynomialAlgebra.mul
  by_cases he : v.isEmpty || w.isEmpty
  · rw [if_pos he]
    have : p * q = 0 := by
      rcases Bool.or_eq_true _ _ ▸ he with he | he
      · rw [List.isEmpty_iff] at he
        subst he
        rw [show p = 0 from Polynomial.ext fun i => hv.2 i (Nat.zero_le _), zero_mul]
      · rw [List.isEmpty_iff] at he
        subst he
        rw [show q = 0 from Polynomial.ext fun i => hw.2 i (Nat.zero_le _), mul_zero]
    rw [this]
    exact ⟨fun i hi => absurd hi (Nat.not_lt_zero i), fun i _ => coeff_zero i⟩
  rw [if_neg he]
  have hn : v.length ≠ 0 := fun h => he (by rw [List.length_eq_zero_iff.1 h]; rfl)
  have hm : w.length ≠ 0 := fun h => he (by rw [List.length_eq_zero_iff.1 h, Bool.or_comm]; rfl)
  refine Returns.bind (mp := False) (P := (· = Val.zero)) rfl fun z hz => ?_
  subst hz
  set P : ℕ → ℚ[X] := fun i => firstTerms i p.coeff with hP
  set Q : ℕ → ℚ[X] := fun i => firstTerms i q.coeff with hQ
  set P' : ℕ → ℚ[X] := fun i => firstTerms i (fun i => |p.coeff i|) with hP'
  set Q' : ℕ → ℚ[X] := fun i => firstTerms i (fun i => |q.coeff i|) with hQ'
  have htotal : ∀ k, (P' v.length * Q' w.length).coeff k < 2 ^ F.prec * 2 ^ (s + t) := fun k => by
    refine lt_of_eq_of_lt ?_ (hb k)
    rw [coeff_mul]
    refine Finset.sum_congr rfl fun i _ => ?_
    have h3 : (P' v.length).coeff i.1 = |p.coeff i.1| := by
      rw [hP', firstTerms_coeff]
      split_ifs with h
      · rfl
      · rw [hv.2 _ (by omega), abs_zero]
    have h4 : (Q' w.length).coeff i.2 = |q.coeff i.2| := by
      rw [hQ', firstTerms_coeff]
      split_ifs with h
      · rfl
      · rw [hw.2 _ (by omega), abs_zero]
    rw [h3, h4, abs_mul]
  refine (forLoop_range (fun i u => Cells (FixedRep (s + t)) u (v.length + w.length - 1)
    fun k => ((P i * Q w.length).coeff k, (P' i * Q' w.length).coeff k)) ?_ fun i hi u hu => ?_).mono
    fun u hu => ?_
  · refine (Cells.replicate (rep := FixedRep (s + t)) (x := (0, 0))
      ⟨floatRep_zero, .zero _, by simp⟩).congr fun k _ => ?_
    simp [hP, hP', firstTerms]
  · refine (forLoop_range (fun j u => Cells (FixedRep (s + t)) u (v.length + w.length - 1)
      fun k => ((P i * Q w.length + monomial i (p.coeff i) * Q j).coeff k,
        (P' i * Q' w.length + monomial i |p.coeff i| * Q' j).coeff k)) ?_ fun j hj u hu => ?_).mono
      fun u hu => ?_
    · simpa [hQ, hQ', firstTerms] using hu
    · refine Returns.bind (Cells.idx ⟨rfl, hv.1⟩ hi) fun a ha =>
        Returns.bind (Cells.idx ⟨rfl, hw.1⟩ hj) fun b hb' => ?_
      have hle : (P' i * Q' w.length + monomial i |p.coeff i| * Q' j).coeff (i + j) +
          |p.coeff i * q.coeff j| ≤ (P' v.length * Q' w.length).coeff (i + j) := by
        have g1 : (P' i * Q' w.length + monomial i |p.coeff i| * Q' j).coeff (i + j) +
            |p.coeff i * q.coeff j| =
            (P' i * Q' w.length).coeff (i + j) + (monomial i |p.coeff i| * Q' (j + 1)).coeff (i + j) := by
          rw [show Q' (j + 1) = _ from firstTerms_succ j _, mul_add, coeff_add, coeff_add, monomial_mul_monomial,
            coeff_monomial_same, abs_mul, add_assoc]
        rw [g1]
        have g2 : CoefLe (monomial i |p.coeff i|) (monomial i |p.coeff i|) := fun k => by
          rw [coeff_monomial]
          split_ifs
          · exact ⟨abs_nonneg _, le_rfl⟩
          · exact ⟨le_rfl, le_rfl⟩
        have g3 := (g2.mul (CoefLe.firstTerms (c := fun i => |q.coeff i|) (fun i => abs_nonneg _)
          (show j + 1 ≤ w.length from hj)) (i + j)).2
        have g4 := ((CoefLe.firstTerms (c := fun i => |p.coeff i|) (fun i => abs_nonneg _)
          (show i + 1 ≤ v.length from hi)).mul (CoefLe.firstTerms (c := fun i => |q.coeff i|)
          (fun i => abs_nonneg _) (le_refl w.length)) (i + j)).2
        rw [firstTerms_succ, add_mul, coeff_add] at g4
        exact (add_le_add_right g3 _).trans g4
      have hnn : 0 ≤ (P' i * Q' w.length + monomial i |p.coeff i| * Q' j).coeff (i + j) := by
        have g2 : CoefLe (monomial i |p.coeff i|) (monomial i |p.coeff i|) := fun k => by
          rw [coeff_monomial]
          split_ifs
          · exact ⟨abs_nonneg _, le_rfl⟩
          · exact ⟨le_rfl, le_rfl⟩
        rw [coeff_add]
        exact add_nonneg (((CoefLe.firstTerms (c := fun i => |p.coeff i|) (fun i => abs_nonneg _)
          (le_refl i)).mul (CoefLe.firstTerms (c := fun i => |q.coeff i|)
          (fun i => abs_nonneg _) (le_refl w.length)) (i + j)).1)
          ((g2.mul (CoefLe.firstTerms (c := fun i => |q.coeff i|) (fun i => abs_nonneg _)
          (le_refl j)) (i + j)).1)
      have hfp := (hp i).mul (hq j)
      refine Returns.bind (rounded_exact (C55_mul ha hb').1
        (hfp.isFloat h1 h2 (by have := htotal (i + j); linarith))) fun y hy =>
        Returns.bind (hu.idx (i := i + j) (by omega)) fun x hx =>
        Returns.bind (P := (FixedRep (s + t) · ((P i * Q w.length + monomial i (p.coeff i) * Q j).coeff (i + j)
          + p.coeff i * q.coeff j,
          (P' i * Q' w.length + monomial i |p.coeff i| * Q' j).coeff (i + j) + |p.coeff i * q.coeff j|))) ?_
          fun r hr => ?_
      · have g5 : |(P i * Q w.length + monomial i (p.coeff i) * Q j).coeff (i + j) + p.coeff i * q.coeff j| ≤
            (P' i * Q' w.length + monomial i |p.coeff i| * Q' j).coeff (i + j) + |p.coeff i * q.coeff j| :=
          (abs_add_le _ _).trans (add_le_add hx.2.2 le_rfl)
        have g6 := hx.2.1.add hfp
        exact (rounded_exact (C55_add hx.1 hy).1 (g6.isFloat h1 h2
          (by have := htotal (i + j); linarith))).mono fun r hr => ⟨hr, g6, g5⟩
      refine (hu.setIdx (by omega) hr).mono fun u' hu' => hu'.congr fun k _ => ?_
      rw [show Q (j + 1) = _ from firstTerms_succ j _, show Q' (j + 1) = _ from firstTerms_succ j _, mul_add,
        mul_add, ← add_assoc, ← add_assoc, coeff_add _ (monomial i _ * monomial j _),
        coeff_add _ (monomial i _ * monomial j _), monomial_mul_monomial, monomial_mul_monomial,
        coeff_monomial, coeff_monomial]
      by_cases hk : k = i + j
      · subst hk
        rw [Function.update_self, if_pos rfl, if_pos rfl, abs_mul]
      · rw [Function.update_of_ne hk, if_neg (Ne.symm hk), if_neg (Ne.symm hk), add_zero, add_zero]
    · refine hu.congr fun k _ => ?_
      rw [show P (i + 1) = _ from firstTerms_succ i _, show P' (i + 1) = _ from firstTerms_succ i _, add_mul,
        add_mul]
  · refine ⟨fun k hk => ?_, fun k hk => ?_⟩
    · have := (hu.2 k hk).1
      rw [show P v.length = p from firstTerms_eq hv.2, show Q w.length = q from firstTerms_eq hw.2] at this
      exact this
    · rw [coeff_mul]
      refine Finset.sum_eq_zero fun i hi => ?_
      rw [Finset.mem_antidiagonal] at hi
      rw [hu.1] at hk
      by_cases h3 : v.length ≤ i.1
      · rw [hv.2 _ h3, zero_mul]
      · rw [hw.2 _ (by omega), mul_zero]

/-! ## Matrices of size one -/

section one

variable {E : Type} (base : FieldOps E)

theorem MatrixRing.findRow_one {a : E} {b : Bool} (h : base.isZero a = .ok b) :
    MatrixRing.findRow base 1 [a] 0 = .ok (if b then none else some 0) := by
  show (base.isZero a >>= fun b => pure !b).bind (fun b => if b = true then Res.ok (some 0) else .ok none) = _
  rw [h]
  cases b <;> rfl

theorem MatrixRing.determinant_one {a o : E} {b : Bool} (h1 : base.one = .ok o)
    (h2 : base.isZero a = .ok b) :
    MatrixRing.determinant base 1 [a] = if b then base.zero else do
      let d ← base.mulAssign o a
      let c ← base.inv a
      let _ ← base.mulAssign a c
      return d := by
  unfold MatrixRing.determinant
  rw [h1, ok_bind]
  unfold detLoop
  show (MatrixRing.findRow base 1 [a] 0 >>= _) = _
  rw [findRow_one base h2, ok_bind]
  cases b
  · show (base.mulAssign o a >>= _) = (base.mulAssign o a >>= _)
    congr 1
    funext d
    show (base.inv a >>= _) = (base.inv a >>= _)
    congr 1
    funext c
    show ((base.mulAssign a c >>= fun a => setIdx [_] 0 a).bind _ >>= _) = (base.mulAssign a c >>= _)
    cases base.mulAssign a c <;> rfl
  · rfl

theorem MatrixRing.tryInv_one {a o : E} {b : Bool} (h1 : MatrixRing.int base 1 1 = .ok [o])
    (h2 : base.isZero a = .ok b) : MatrixRing.tryInv base 1 [a] = if b then .ok none else do
      let c ← base.inv a
      let e ← base.mulAssign a c
      let i ← base.mulAssign o c
      debugAssert (base.equals e o)
      return some [i] := by
  unfold MatrixRing.tryInv
  rw [h1, ok_bind]
  unfold invLoop
  show ((MatrixRing.findRow base 1 [a] 0 >>= _) >>= _) = _
  rw [findRow_one base h2, ok_bind]
  cases b
  · show ((base.inv a >>= _) >>= _) = (base.inv a >>= _)
    cases base.inv a with
    | ok c =>
      show (((base.mulAssign a c >>= fun a => setIdx [_] 0 a).bind _ >>= _) >>= _) =
        (base.mulAssign a c >>= _)
      cases base.mulAssign a c with
      | ok e =>
        show (((base.mulAssign o c >>= fun a => setIdx [_] 0 a).bind _ >>= _) >>= _) =
          (base.mulAssign o c >>= _)
        cases base.mulAssign o c with
        | ok i =>
          show (debugAssert (isOne base 1 [e]) >>= fun _ => _) = (debugAssert (base.equals e o) >>= fun _ => _)
          have : isOne base 1 [e] = base.equals e o := by
            unfold isOne
            rw [h1, ok_bind]
            show (base.equals e o).bind _ = _
            cases base.equals e o with
            | ok b => cases b <;> rfl
            | panic => rfl
            | diverge => rfl
          rw [this]
          rfl
        | panic => rfl
        | diverge => rfl
      | panic => rfl
      | diverge => rfl
    | panic => rfl
    | diverge => rfl
  · rfl
end one

end Abstalg
