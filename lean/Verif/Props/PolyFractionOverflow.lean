import Verif.Props.MatrixOverflow

/-! # Overflow in polynomials of fractions over machine integers: C65 -/

set_option linter.unusedSectionVars false

set_option autoImplicit false

universe u

namespace Abstalg

open Polynomial

/-- An operation that returns exactly under a condition, inside a computation with the overall condition `G`. -/
theorem ReturnsIff.returns {α : Type u} {p G : Prop} {c : Res α} {P : α → Prop} (h : ReturnsIff p c P) (hG : G → p) :
    Returns (¬ G) c fun a => p ∧ P a := by
  have := returnsIff_iff.1 h
  revert this
  cases c with
  | ok a => exact id
  | panic => exact fun h h' => h (hG h')
  | diverge => exact id

namespace PolynomialAlgebra

section generic

variable [Cfg] {E : Type} {R : Type} [CommRing R] [NoZeroDivisors R] {rep : E → R → Prop} {base : UnitaryRingOps E}
  {cm ca : R → R → Prop} {u v : List E} {p q : R[X]}

theorem coeff_monomial_mul_gen (q : R[X]) (l k : ℕ) (x : R) :
    (monomial l x * q).coeff k = if l ≤ k then x * q.coeff (k - l) else 0 := by
  rw [← C_mul_X_pow_eq_monomial, mul_assoc, coeff_C_mul, coeff_X_pow_mul', mul_ite, mul_zero]

theorem upTo_mul_coeff_gen (p q : R[X]) (i j : ℕ) : (upTo p i * q).coeff (i + j) =
    ∑ l ∈ Finset.range i, p.coeff l * q.coeff (i + j - l) := by
  unfold upTo
  rw [Finset.sum_mul, finsetSum_coeff]
  refine Finset.sum_congr rfl fun l hl => ?_
  have := Finset.mem_range.1 hl
  rw [coeff_monomial_mul_gen, if_pos (by omega)]

/-- The product multiplies every coefficient of one factor by every coefficient of the other and adds the result to the
sum of the products so far that belong to the same power. -/
theorem mul_returnsIff_rep (hb : UnitaryRingSpec True base rep)
    (hz : ∃ z, base.zero = .ok z)
    (hm : ∀ {a b x y}, rep a x → rep b y → ReturnsIff (cm x y) (base.mul a b) (rep · (x * y)))
    (ha : ∀ {a b x y}, rep a x → rep b y → ReturnsIff (ca x y) (base.add a b) (rep · (x + y)))
    (hp : RingPolyRep rep u p) (hq : RingPolyRep rep v q) :
    ReturnsIff (∀ i < u.length, ∀ j < v.length, cm (p.coeff i) (q.coeff j) ∧
        ca (∑ l ∈ Finset.range i, p.coeff l * q.coeff (i + j - l)) (p.coeff i * q.coeff j))
      (mul base u v) (RingPolyRep rep · (p * q)) := by
  rw [returnsIff_iff]
  have hval := mul_spec hb hp hq
  by_cases hn : u.length = 0
  · obtain rfl : u = [] := List.length_eq_zero_iff.1 hn
    exact ⟨fun i hi => absurd hi (by simp), hval⟩
  by_cases hm0 : v.length = 0
  · obtain rfl : v = [] := List.length_eq_zero_iff.1 hm0
    have he : mul base u [] = .ok [] := by
      unfold mul; rw [if_pos (by simp)]
    rw [he] at hval ⊢
    exact ⟨fun i _ j hj => absurd hj (by simp), hval⟩
  set G := ∀ i < u.length, ∀ j < v.length, cm (p.coeff i) (q.coeff j) ∧
        ca (∑ l ∈ Finset.range i, p.coeff l * q.coeff (i + j - l)) (p.coeff i * q.coeff j) with hG
  suffices h : Returns (¬ G) (mul base u v) fun _ => G by
    revert h hval
    cases mul base u v with
    | ok x => exact fun h h' => ⟨h', h⟩
    | panic => exact fun _ h => h
    | diverge => exact fun h _ => h
  unfold mul
  rw [if_neg (by simpa using ⟨by simpa using hn, by simpa using hm0⟩)]
  obtain ⟨z, hz⟩ := hz
  have hz' : rep z 0 := by have := hb.zero; rwa [hz] at this
  rw [hz, ok_bind]
  refine (forLoop_range (fun i x => Cells rep x (u.length + v.length - 1) (upTo p i * q).coeff ∧
    ∀ i', i' < i → ∀ j, j < v.length → cm (p.coeff i') (q.coeff j) ∧
        ca (∑ l ∈ Finset.range i', p.coeff l * q.coeff (i' + j - l)) (p.coeff i' * q.coeff j))
    ⟨?_, by omega⟩ fun i hi x hx => ?_).mono fun x hx => hx.2
  · exact (Cells.replicate hz').congr fun k _ => by rw [upTo_zero, zero_mul, coeff_zero]
  refine (forLoop_range (fun j x => Cells rep x (u.length + v.length - 1)
      (upTo p i * q + monomial i (p.coeff i) * upTo q j).coeff ∧
      ∀ j', j' < j → cm (p.coeff i) (q.coeff j') ∧
        ca (∑ l ∈ Finset.range i, p.coeff l * q.coeff (i + j' - l)) (p.coeff i * q.coeff j'))
      ⟨?_, by omega⟩ fun j hj y hy => ?_).mono fun y hy => ⟨?_, fun i' hi' j hj => ?_⟩
  · simpa [upTo_zero] using hx.1
  · have hkey : (upTo p i * q + monomial i (p.coeff i) * upTo q j).coeff (i + j) =
        ∑ l ∈ Finset.range i, p.coeff l * q.coeff (i + j - l) := by
      have h1 : (monomial i (p.coeff i) * upTo q j).coeff (i + j) = 0 := by
        rw [coeff_monomial_mul_gen, if_pos (by omega), upTo_coeff, if_neg (by omega), mul_zero]
      rw [coeff_add, h1, add_zero, upTo_mul_coeff_gen]
    refine Returns.bind (hp.cells.idx hi) fun a ha' => Returns.bind (hq.cells.idx hj) fun b hb' => ?_
    refine Returns.bind ((hm ha' hb').returns (G := G) fun h => (h i hi j hj).1) fun s hs => ?_
    refine Returns.bind (hy.1.idx (i := i + j) (by omega)) fun t ht => ?_
    rw [hkey] at ht
    refine Returns.bind ((ha ht hs.2).returns (G := G) fun h => (h i hi j hj).2) fun r hr => ?_
    refine (hy.1.setIdx (i := i + j) (by omega) hr.2).mono fun y' hy' =>
      ⟨hy'.congr fun k _ => ?_, fun j' hj' => ?_⟩
    · rw [upTo_succ, mul_add, ← add_assoc, coeff_add _ (monomial i _ * monomial j _),
        monomial_mul_monomial, coeff_monomial]
      by_cases hk : k = i + j
      · subst hk; simp [hkey]
      · rw [Function.update_of_ne hk, if_neg (Ne.symm hk), add_zero]
    · by_cases hjj : j' = j
      · subst hjj
        exact ⟨hs.1, hr.1⟩
      · exact hy.2 j' (by omega)
  · have := hy.1
    rw [upTo_eq hq.coeff_eq_zero] at this
    rwa [upTo_succ, add_mul]
  · by_cases hii : i' = i
    · subst hii; exact hy.2 j hj
    · exact hx.2 i' (by omega) j hj

theorem add_longer_rep {c d : ℕ → R}
    (ha : ∀ {a b x y}, rep a x → rep b y → ReturnsIff (ca x y) (base.add a b) (rep · (x + y)))
    (hc : Cells rep u u.length c) (hd : Cells rep v v.length d) (hl : v.length < u.length) :
    Returns (¬ ∀ i < v.length, ca (c i) (d i)) (forLoop (List.range v.length) u fun x i => do
      let a ← base.add (← idx x i) (← idx v i)
      setIdx x i a) fun _ => ∀ i < v.length, ca (c i) (d i) := by
  refine (forLoop_range (fun i x => (Cells rep x u.length fun k => if k < i then c k + d k else c k) ∧
    ∀ k < i, ca (c k) (d k))
    ⟨by simpa using hc, by simp⟩ fun i hi x hx => ?_).mono fun x hx => hx.2
  refine Returns.bind (hx.1.idx (i := i) (by omega)) fun a ha' => Returns.bind (hd.idx hi) fun b hb => ?_
  rw [if_neg (lt_irrefl i)] at ha'
  refine Returns.bind ((ha ha' hb).returns fun h => h i hi) fun s hs => ?_
  refine (hx.1.setIdx (i := i) (by omega) hs.2).mono fun x' hx' => ⟨hx'.congr fun k _ => ?_, fun k hk => ?_⟩
  · by_cases hk : k = i
    · subst hk; simp
    · rw [Function.update_of_ne hk]
      by_cases h1 : k < i
      · rw [if_pos h1, if_pos (by omega)]
      · rw [if_neg h1, if_neg (by omega)]
  · rcases Nat.lt_succ_iff_lt_or_eq.1 hk with h | rfl
    · exact hx.2 k h
    · exact hs.1

/-- The sum adds the coefficients that both have, the longer one being the first operand. -/
theorem add_returnsIff_rep (hb : UnitaryRingSpec True base rep) (hz : ∃ z, base.zero = .ok z)
    (hi0 : ∀ {a x}, rep a x → ∃ z, base.isZero a = .ok z)
    (ha : ∀ {a b x y}, rep a x → rep b y → ReturnsIff (ca x y) (base.add a b) (rep · (x + y)))
    (hs : ∀ {x y}, ca x y → ca y x)
    (hp : RingPolyRep rep u p) (hq : RingPolyRep rep v q) :
    ReturnsIff (∀ i < min u.length v.length, ca (p.coeff i) (q.coeff i))
      (add base.toAbelianGroupOps u v) (RingPolyRep rep · (p + q)) := by
  rw [returnsIff_iff]
  have hval : Returns True (add base.toAbelianGroupOps u v) (RingPolyRep rep · (p + q)) := (polyGroup_spec hb).add hp hq
  suffices h : Returns (¬ ∀ i < min u.length v.length, ca (p.coeff i) (q.coeff i)) (add base.toAbelianGroupOps u v)
      fun _ => ∀ i < min u.length v.length, ca (p.coeff i) (q.coeff i) by
    revert h hval
    cases add base.toAbelianGroupOps u v with
    | ok x => exact fun h h' => ⟨h', h⟩
    | panic => exact fun _ h => h
    | diverge => exact fun h _ => h
  unfold add
  split
  · rename_i hne
    by_cases hlt : u.length > v.length
    · simp only [hlt, if_true]
      rw [min_eq_right (by omega)]
      exact add_longer_rep ha hp.cells hq.cells hlt
    · simp only [hlt, if_false]
      have hne : u.length ≠ v.length := by simpa using hne
      rw [min_eq_left (by omega)]
      have := add_longer_rep ha hq.cells hp.cells (by omega)
      rwa [show (∀ i < u.length, ca (q.coeff i) (p.coeff i)) = ∀ i < u.length, ca (p.coeff i) (q.coeff i) from
        propext ⟨fun h i hi => hs (h i hi), fun h i hi => hs (h i hi)⟩] at this
  · rename_i hl
    have hl : u.length = v.length := by simpa using hl
    rw [← hl, min_self]
    refine (forLoop_range (fun i x => x.length ≤ i ∧ ∀ k < i, ca (p.coeff k) (q.coeff k)) ⟨le_refl 0, by simp⟩
      fun i hi x hx => ?_).mono fun _ h => h.2
    refine Returns.bind (hp.cells.idx hi) fun a ha' =>
      Returns.bind (hq.cells.idx (i := i) (by omega)) fun b hb' => ?_
    refine Returns.bind ((ha ha' hb').returns fun h => h i hi) fun s hs' => ?_
    obtain ⟨z, hz'⟩ := hi0 hs'.2
    rw [hz', ok_bind]
    have hnew : ∀ k < i + 1, ca (p.coeff k) (q.coeff k) := fun k hk => by
      rcases Nat.lt_succ_iff_lt_or_eq.1 hk with h | rfl
      · exact hx.2 k h
      · exact hs'.1
    cases z with
    | true =>
      exact ⟨Nat.le_succ_of_le hx.1, hnew⟩
    | false =>
      obtain ⟨o, ho⟩ := hz
      simp only [Bool.not_false, if_true]
      show Returns _ (base.zero >>= _) _
      rw [ho, ok_bind]
      have hlen : (resize x (i + 1) o).length = i + 1 := by
        have := hx.1
        unfold resize
        simp
        omega
      rw [Abstalg.setIdx, if_pos (by omega)]
      refine ⟨?_, hnew⟩
      rw [List.length_set, hlen]

theorem mapRes_rep {op : E → Res E} {o : R → R} {c : R → Prop} {n : ℕ} {f : ℕ → R}
    (h : ∀ {a x}, rep a x → ReturnsIff (c x) (op a) (rep · (o x))) (hu : Cells rep u n f) :
    Returns (¬ ∀ i < n, c (f i)) (mapRes op u) fun x => (∀ i < n, c (f i)) ∧ Cells rep x n fun i => o (f i) :=
  (hu.map (rep' := fun a (P : E → Prop) => P a) (d := fun i a => c (f i) ∧ rep a (o (f i)))
    fun i hi a ha => (h ha).returns fun h' => h' i hi).mono fun x hx =>
      ⟨fun i hi => (hx.2 i (by rw [hx.1]; exact hi)).1, hx.1, fun i hi => (hx.2 i hi).2⟩

theorem timesTrim_total (hz : ∃ z, base.zero = .ok z) (hi0 : ∀ {a x}, rep a x → ∃ z, base.isZero a = .ok z) {c : ℕ → R} {N : ℕ}
    (hc : Cells rep u N c) {G : Prop} : ∀ n, n ≤ N → Returns G (timesTrim base.toAbelianGroupOps u n) fun _ => True := by
  intro n hn
  induction n with
  | zero => trivial
  | succ n ih =>
    refine Returns.bind (hc.idx (i := n) (by omega)) fun a ha => ?_
    obtain ⟨z, hz'⟩ := hi0 ha
    show Returns G (base.isZero a >>= _) _
    rw [hz', ok_bind]
    cases z with
    | true => exact ih (by omega)
    | false =>
      obtain ⟨o, ho⟩ := hz
      show Returns G (base.zero >>= _) _
      rw [ho]
      trivial

end generic

end PolynomialAlgebra

section fractions

variable [Cfg] {w : ℕ} [Width w] {u v : List (SInt w × SInt w)} {p q : ℚ[X]}

theorem MFracRep.inRange_num {a : SInt w × SInt w} {q : ℚ} (h : MFracRep w a q) : InRange w q.num := by
  rw [← h.1]; exact CheckedInts.inRange_val _

theorem MFracRep.inRange_den {a : SInt w × SInt w} {q : ℚ} (h : MFracRep w a q) : InRange w q.den := by
  rw [← h.2]; exact CheckedInts.inRange_val _

theorem AddFits.symm {w : ℕ} {q r : ℚ} (h : AddFits w q r) : AddFits w r q :=
  ⟨fun e => by rw [add_comm]; exact h.1 e.symm, fun e => by
    obtain ⟨h1, h2, h3, h4⟩ := h.2 (Ne.symm e)
    rw [mul_comm r.num, mul_comm (r.den : ℤ) q.num, mul_comm (r.den : ℤ) q.den, add_comm]
    exact ⟨h2, h1, h3, h4⟩⟩

theorem MFracRep.addFits_zero {a : SInt w × SInt w} {q : ℚ} (h : MFracRep w a q) : AddFits w q 0 := by
  have h0 := CheckedInts.inRange_zero (w := w)
  refine ⟨fun _ => ?_, fun _ => ⟨?_, ?_, ?_, ?_⟩⟩ <;> simp [h.inRange_num, h.inRange_den, h0]

theorem addFits_zero_zero : AddFits w 0 0 :=
  MFracRep.addFits_zero (a := (CheckedInts.c0 w, CheckedInts.c1 w)) ⟨rfl, rfl⟩

/-- Every coefficient of a polynomial that is represented is. -/
theorem RingPolyRep.coeff_frac (h : RingPolyRep (MFracRep w) u p) (i : ℕ) : ∃ a, MFracRep w a (p.coeff i) := by
  by_cases hi : i < u.length
  · exact ⟨_, h.1 i hi⟩
  · rw [h.coeff_eq_zero i (by omega)]
    exact ⟨(CheckedInts.c0 w, CheckedInts.c1 w), rfl, rfl⟩

/-- The ring of fractions over machine integers. -/
abbrev checkedFractions (w : ℕ) [Width w] : UnitaryRingOps (SInt w × SInt w) :=
  (ReducedFractions.ops (CheckedInts.euclidean w)).toUnitaryRingOps

theorem checked_fractions_isZero {a : SInt w × SInt w} {q : ℚ} (_ : MFracRep w a q) :
    ∃ z, (checkedFractions w).isZero a = .ok z := by
  show ∃ z, (Res.ok (a.1 == CheckedInts.c0 w) >>= fun e : Bool => if e = true then
    Res.ok (a.2 == CheckedInts.c1 w) else Res.ok false) = .ok z
  rw [ok_bind]
  split <;> exact ⟨_, rfl⟩

theorem checked_fractions_ring : UnitaryRingSpec True (checkedFractions w) (MFracRep w) :=
  (C57_checked_fractions (w := w)).toUnitaryRingSpec

/-- C65: the sum of polynomials of fractions returns exactly if every sum of two coefficients does. -/
theorem C65_poly_fractions_add (hp : RingPolyRep (MFracRep w) u p) (hq : RingPolyRep (MFracRep w) v q) :
    ReturnsIff (∀ i, AddFits w (p.coeff i) (q.coeff i)) ((PolynomialAlgebra.unitaryRing (checkedFractions w)).add u v)
      (RingPolyRep (MFracRep w) · (p + q)) := by
  refine (PolynomialAlgebra.add_returnsIff_rep checked_fractions_ring ⟨_, rfl⟩ checked_fractions_isZero C65_fractions_add
    AddFits.symm hp hq).congr ⟨fun h i => ?_, fun h i _ => h i⟩
  by_cases hi : i < min u.length v.length
  · exact h i hi
  · by_cases hu : i < u.length
    · rw [hq.coeff_eq_zero i (by omega)]
      exact (hp.coeff_frac i).choose_spec.addFits_zero
    · rw [hp.coeff_eq_zero i (by omega)]
      exact (hq.coeff_frac i).choose_spec.addFits_zero.symm

/-- C65: the negative returns exactly if no numerator is the least integer. -/
theorem C65_poly_fractions_neg (hp : RingPolyRep (MFracRep w) u p) :
    ReturnsIff (∀ i, InRange w (-(p.coeff i).num)) ((PolynomialAlgebra.unitaryRing (checkedFractions w)).neg u)
      (RingPolyRep (MFracRep w) · (-p)) := by
  have hval : Returns True ((PolynomialAlgebra.unitaryRing (checkedFractions w)).neg u) (RingPolyRep (MFracRep w) · (-p)) :=
    (PolynomialAlgebra.polyGroup_spec (checked_fractions_ring (w := w))).neg hp
  have hlen : (∀ i < u.length, InRange w (-(p.coeff i).num)) ↔ ∀ i, InRange w (-(p.coeff i).num) :=
    ⟨fun h i => if hi : i < u.length then h i hi else by
      rw [hp.coeff_eq_zero i (by omega)]; simpa using CheckedInts.inRange_zero (w := w), fun h i _ => h i⟩
  have hm := PolynomialAlgebra.mapRes_rep (op := (checkedFractions w).neg) (o := fun x => -x) C65_fractions_neg hp.cells
  rw [returnsIff_iff, ← hlen]
  change Returns _ ((PolynomialAlgebra.unitaryRing (checkedFractions w)).neg u) _ at hm
  revert hval hm
  cases (PolynomialAlgebra.unitaryRing (checkedFractions w)).neg u with
  | ok x => exact fun h h' => ⟨h'.1, h⟩
  | panic => exact fun _ h => h
  | diverge => exact fun h _ => h

/-- C65: the difference returns exactly if the negative of the second polynomial and its sum with the first one do. -/
theorem C65_poly_fractions_sub (hp : RingPolyRep (MFracRep w) u p) (hq : RingPolyRep (MFracRep w) v q) :
    ReturnsIff (∀ i, InRange w (-(q.coeff i).num) ∧ AddFits w (-(q.coeff i)) (p.coeff i))
      ((PolynomialAlgebra.unitaryRing (checkedFractions w)).sub u v) (RingPolyRep (MFracRep w) · (p - q)) := by
  rw [returnsIff_iff]
  refine Returns.bind ((C65_poly_fractions_neg hq).returns fun h i => (h i).1) fun x hx => ?_
  have := C65_poly_fractions_add hx.2 hp
  rw [neg_add_eq_sub] at this
  simp only [coeff_neg] at this
  exact (this.returns fun h i => (h i).2).mono fun y hy => ⟨fun i => ⟨hx.1 i, hy.1 i⟩, hy.2⟩

/-- C65: an integer multiple of a polynomial other than zero returns exactly if the integer and its products with the
numerators are representable. -/
theorem C65_poly_fractions_times (hp : RingPolyRep (MFracRep w) u p) (n : ℤ) :
    ReturnsIff (p = 0 ∨ InRange w n ∧ ∀ i, InRange w (n * (p.coeff i).num))
      ((PolynomialAlgebra.unitaryRing (checkedFractions w)).times n u) (RingPolyRep (MFracRep w) · (n • p)) := by
  have hlen : (∀ i < u.length, InRange w n ∧ InRange w (n * (p.coeff i).num)) ↔
      (p = 0 ∨ InRange w n ∧ ∀ i, InRange w (n * (p.coeff i).num)) := by
    constructor
    · intro h
      by_cases h0 : p = 0
      · exact .inl h0
      · have hl : u.length ≠ 0 := fun h => h0 (hp.eq_zero_iff.2 h)
        refine .inr ⟨(h 0 (by omega)).1, fun i => ?_⟩
        by_cases hi : i < u.length
        · exact (h i hi).2
        · rw [hp.coeff_eq_zero i (by omega)]; simpa using CheckedInts.inRange_zero (w := w)
    · rintro (h | h) i hi
      · rw [hp.eq_zero_iff.1 h] at hi; omega
      · exact ⟨h.1, h.2 i⟩
  have hm := PolynomialAlgebra.mapRes_rep (rep := MFracRep w) (op := (checkedFractions w).times n)
    (c := fun x => InRange w n ∧ InRange w (n * x.num)) (o := fun x => n * x)
    (fun h => C65_fractions_times h n) hp.cells
  rw [returnsIff_iff, ← hlen]
  refine Returns.bind hm fun x hx => ?_
  rw [hx.2.1]
  have h1 := PolynomialAlgebra.timesTrim_total (base := checkedFractions w)
    (G := ¬ ∀ i < u.length, InRange w n ∧ InRange w (n * (p.coeff i).num)) ⟨_, rfl⟩ checked_fractions_isZero hx.2 _ le_rfl
  have h2 := PolynomialAlgebra.timesTrim_spec (checked_fractions_ring (w := w)).toAbelianGroupSpec hx.2 _ le_rfl
    fun i hi => by rw [hp.coeff_eq_zero i hi, mul_zero]
  have h3 : (n • p).coeff = fun i => n * p.coeff i := by
    funext i; rw [coeff_smul, zsmul_eq_mul]
  rw [← h3] at h2
  revert h1 h2
  cases PolynomialAlgebra.timesTrim (checkedFractions w).toAbelianGroupOps x u.length with
  | ok x => exact fun _ h => ⟨hx.1, canon_iff.2 h⟩
  | panic => exact fun h _ => h
  | diverge => exact fun h _ => h

/-- C65: the product of polynomials of fractions returns exactly if each of the products of two coefficients, and each
addition of a product to the sum of those before it that belong to the same power, is possible. -/
theorem C65_poly_fractions_mul (hp : RingPolyRep (MFracRep w) u p) (hq : RingPolyRep (MFracRep w) v q) :
    ReturnsIff (∀ i ≤ p.natDegree, ∀ j ≤ q.natDegree, FracMulFits w (p.coeff i) (q.coeff j) ∧
        AddFits w (∑ l ∈ Finset.range i, p.coeff l * q.coeff (i + j - l)) (p.coeff i * q.coeff j))
      ((PolynomialAlgebra.unitaryRing (checkedFractions w)).mul u v) (RingPolyRep (MFracRep w) · (p * q)) := by
  refine (PolynomialAlgebra.mul_returnsIff_rep checked_fractions_ring ⟨_, rfl⟩ C65_fractions_mul C65_fractions_add
    hp hq).congr ⟨fun h i hi j hj => ?_,
      fun h i hi j hj => h i (by rw [hp.natDegree]; omega) j (by rw [hq.natDegree]; omega)⟩
  rw [hp.natDegree] at hi
  rw [hq.natDegree] at hj
  have h0 := CheckedInts.inRange_zero (w := w)
  by_cases hn : u.length = 0
  · rw [hp.eq_zero_iff.2 hn]
    have := (hq.coeff_frac j).choose_spec.inRange_den
    refine ⟨⟨by simpa using h0, by simpa using this⟩, by simpa using addFits_zero_zero⟩
  by_cases hm : v.length = 0
  · rw [hq.eq_zero_iff.2 hm]
    have := (hp.coeff_frac i).choose_spec.inRange_den
    refine ⟨⟨by simpa using h0, by simpa using this⟩, by simpa using addFits_zero_zero⟩
  exact h i (by omega) j (by omega)

end fractions

namespace PolyFractionExamples

local instance : Cfg := ⟨true, true, 64, by decide⟩

/-- The polynomial `a + b x`. -/
noncomputable abbrev linear (a b : ℚ) : ℚ[X] := C a + C b * X

theorem linear_coeff (a b : ℚ) (i : ℕ) : (linear a b).coeff i = if i = 0 then a else if i = 1 then b else 0 := by
  rcases i with - | - | i
  · simp
  · simp
  · simp

theorem linear_natDegree (a b : ℚ) (hb : b ≠ 0) : (linear a b).natDegree = 1 := by
  unfold linear
  rw [add_comm]
  exact natDegree_linear hb

/-- The fraction with this numerator and denominator, in eight bits. -/
abbrev frac (n d : ℤ) (hn : -128 ≤ n ∧ n ≤ 127) (hd : -128 ≤ d ∧ d ≤ 127) : SInt 8 × SInt 8 := (SInt.lit n hn, SInt.lit d hd)

theorem linear_rep {x y : SInt 8 × SInt 8} {a b : ℚ} (hx : MFracRep 8 x a) (hy : MFracRep 8 y b) (hb : b ≠ 0) :
    RingPolyRep (MFracRep 8) [x, y] (linear a b) := by
  refine ⟨fun i hi => ?_, fun i hi => ?_, fun _ => ?_⟩
  · rw [linear_coeff]
    rcases i with - | - | i
    · exact hx
    · exact hy
    · simp at hi
  · have : 2 ≤ i := hi
    rw [linear_coeff, if_neg (by omega), if_neg (by omega)]
  · rw [linear_coeff]
    simpa using hb

/-- `1/12 + x/18` in eight bits. -/
abbrev first : List (SInt 8 × SInt 8) := [frac 1 12 (by decide) (by decide), frac 1 18 (by decide) (by decide)]

theorem first_rep : RingPolyRep (MFracRep 8) first (linear (1 / 12) (1 / 18)) :=
  linear_rep (by constructor <;> decide +kernel) (by constructor <;> decide +kernel) (by norm_num)

/-- `1 + x` in eight bits. -/
abbrev second : List (SInt 8 × SInt 8) := [frac 1 1 (by decide) (by decide), frac 1 1 (by decide) (by decide)]

theorem second_rep : RingPolyRep (MFracRep 8) second (linear 1 1) :=
  linear_rep (by constructor <;> decide +kernel) (by constructor <;> decide +kernel) (by norm_num)

/-- `-1 + x` in eight bits. -/
abbrev third : List (SInt 8 × SInt 8) := [frac (-1) 1 (by decide) (by decide), frac 1 1 (by decide) (by decide)]

theorem third_rep : RingPolyRep (MFracRep 8) third (linear (-1) 1) :=
  linear_rep (by constructor <;> decide +kernel) (by constructor <;> decide +kernel) (by norm_num)

/-- The product of `1/12 + x/18` and `1 + x` is `1/12 + 5/36 x + x²/18`, which is representable; `mul` panics, because the
denominators 12 and 18 are multiplied. -/
example : (PolynomialAlgebra.unitaryRing (checkedFractions 8)).mul first second = .panic := by
  refine (C65_poly_fractions_mul first_rep second_rep).2 fun h => ?_
  have := (h 1 (by rw [linear_natDegree _ _ (by norm_num)]) 0 (Nat.zero_le _)).2
  revert this
  simp only [Finset.sum_range_one, linear_coeff]
  unfold AddFits InRange
  decide +kernel

/-- The product of `1/12 + x/18` and `(1/12) (1 - x)`: the denominator 144. -/
example : ¬ FracMulFits 8 (1 / 12) (1 / 12) ∧ FracMulFits 8 (1 / 12) (1 / 10) := by
  unfold FracMulFits InRange
  decide +kernel

/-- The product of `1 + x` and `-1 + x` returns `-1 + x²`; the sum for the power one is `1 - 1`. -/
example : ∃ x, (PolynomialAlgebra.unitaryRing (checkedFractions 8)).mul second third = .ok x ∧
    RingPolyRep (MFracRep 8) x (X ^ 2 - 1) := by
  have := (C65_poly_fractions_mul second_rep third_rep).1 fun i hi j hj => by
    rw [linear_natDegree _ _ (by norm_num)] at hi hj
    simp only [linear_coeff]
    unfold FracMulFits AddFits InRange
    obtain rfl | rfl : i = 0 ∨ i = 1 := by omega
    all_goals obtain rfl | rfl : j = 0 ∨ j = 1 := by omega
    all_goals decide +kernel
  have he : linear 1 1 * linear (-1) 1 = X ^ 2 - 1 := by
    simp only [linear, map_neg, map_one]
    ring
  rwa [he] at this

/-- The sum of `1/12 + x/18` and `1 + x` is returned. -/
example : ∃ x, (PolynomialAlgebra.unitaryRing (checkedFractions 8)).add first second = .ok x ∧
    RingPolyRep (MFracRep 8) x (linear (13 / 12) (19 / 18)) := by
  have := (C65_poly_fractions_add first_rep second_rep).1 fun i => by
    simp only [linear_coeff]
    rcases i with - | - | i
    · unfold AddFits InRange
      decide +kernel
    · unfold AddFits InRange
      decide +kernel
    · simpa using addFits_zero_zero (w := 8)
  rwa [show linear (1 / 12) (1 / 18) + linear 1 1 = linear (13 / 12) (19 / 18) by
    ext i; rw [coeff_add, linear_coeff, linear_coeff, linear_coeff]; split_ifs <;> norm_num] at this

/-- Multiples of `-1 + x`: the factor -128 is possible for `x`, not for `-1`. -/
example : (PolynomialAlgebra.unitaryRing (checkedFractions 8)).times (-128) third = .panic := by
  refine (C65_poly_fractions_times third_rep _).2 ?_
  rintro (h | h)
  · have h1 : (linear (-1) 1).coeff 1 = 0 := by rw [h, coeff_zero]
    rw [linear_coeff] at h1
    exact absurd h1 (by norm_num)
  · have := h.2 0
    rw [linear_coeff] at this
    revert this
    unfold InRange
    decide +kernel

end PolyFractionExamples

end Abstalg
