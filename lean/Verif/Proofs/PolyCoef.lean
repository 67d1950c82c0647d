import Verif.Proofs.PolyDiv

/-! # Polynomials as coefficient vectors with possible leading zeros -/

set_option linter.unusedSectionVars false

set_option autoImplicit false

universe u

namespace Abstalg

open Polynomial

theorem Returns.panics_of_bind {mp : Prop} {α β : Type} {c : Res α} {P : α → Prop} {f : α → Res β}
    (h : Returns mp c P) (hf : ∀ a, P a → Panics (f a)) : Panics (c >>= f) := by
  cases c with
  | ok a => exact hf a h
  | panic => rfl
  | diverge => exact h.elim

namespace PolynomialAlgebra

variable [Cfg] {E : Type} {R : Type u} {mp : Prop} {rep : E → R → Prop}

section group

variable [AddCommGroup R] {base : AbelianGroupOps E} (h : AbelianGroupSpec mp base rep)

include h

theorem add_longer_cells {v w : List E} {c d : ℕ → R} (hc : Cells rep v v.length c)
    (hd : Cells rep w w.length d) (hd0 : ∀ i, w.length ≤ i → d i = 0) (hl : w.length < v.length) :
    Returns mp (forLoop (List.range w.length) v fun u i => do
      let a ← base.add (← idx u i) (← idx w i)
      setIdx u i a) fun u => Cells rep u v.length (c + d) := by
  refine (forLoop_range (fun i u => Cells rep u v.length fun k => if k < i then c k + d k else c k)
    (by simpa using hc) fun i hi u hu => ?_).mono fun u hu => ?_
  · refine Returns.bind (hu.idx (i := i) (by omega)) fun a ha =>
      Returns.bind (hd.idx hi) fun b hb => ?_
    rw [if_neg (lt_irrefl i)] at ha
    refine Returns.bind (h.add ha hb) fun s hs => ?_
    refine (hu.setIdx (by omega) hs).mono fun u' hu' => hu'.congr fun k _ => ?_
    by_cases hk : k = i
    · subst hk; simp
    · rw [Function.update_of_ne hk]
      by_cases h1 : k < i
      · rw [if_pos h1, if_pos (by omega)]
      · rw [if_neg h1, if_neg (by omega)]
  · refine hu.congr fun k _ => ?_
    show _ = c k + d k
    by_cases hk : k < w.length
    · rw [if_pos hk]
    · rw [if_neg hk, hd0 k (by omega), add_zero]

theorem add_cells {v w : List E} {c d : ℕ → R} (hc : Cells rep v v.length c)
    (hc0 : ∀ i, v.length ≤ i → c i = 0)
    (hd : Cells rep w w.length d) (hd0 : ∀ i, w.length ≤ i → d i = 0) :
    Returns mp (add base v w) fun u =>
      (v.length ≠ w.length → Cells rep u (max v.length w.length) (c + d)) ∧
      (v.length = w.length → Canon rep u (c + d)) := by
  unfold add
  split
  · rename_i hl
    by_cases hlt : v.length > w.length
    · simp only [hlt, if_true]
      refine (add_longer_cells h hc hd hd0 hlt).mono fun u hu => ⟨fun _ => ?_, fun h => absurd h hl⟩
      rwa [max_eq_left hlt.le]
    · simp only [hlt, if_false]
      rw [add_comm c d]
      refine (add_longer_cells h hd hc hc0 (by omega)).mono fun u hu => ⟨fun _ => ?_, fun h => absurd h hl⟩
      rwa [max_eq_right (by omega)]
  · rename_i hl
    have hl : v.length = w.length := by simpa using hl
    refine (forLoop_range (fun i u => ∃ m, m ≤ i ∧ Cells rep u m (c + d) ∧
      (∀ k, m ≤ k → k < i → (c + d) k = 0) ∧ (m ≠ 0 → (c + d) (m - 1) ≠ 0)) ?_ ?_).mono ?_
    · exact ⟨0, le_rfl, Cells.nil, by omega, by omega⟩
    · rintro i hi u ⟨m, hm, hu, h0, h1⟩
      refine Returns.bind (hc.idx hi) fun a ha =>
        Returns.bind (hd.idx (i := i) (by omega)) fun b hb =>
        Returns.bind (h.add ha hb) fun s hs => ?_
      refine Decides.bind (h.isZero hs) (fun hz => ?_) fun hz => ?_
      · refine ⟨m, by omega, hu, fun k hk hki => ?_, h1⟩
        by_cases hk' : k = i
        · subst hk'; exact hz
        · exact h0 k hk (by omega)
      · refine Returns.bind h.zero fun z hz' => ?_
        refine ((hu.resize hz' (i + 1)).setIdx (i := i) (by omega) hs).mono fun u' hu' => ?_
        refine ⟨i + 1, le_rfl, hu'.congr fun k hk => ?_, by omega, fun _ => hz⟩
        by_cases hk' : k = i
        · subst hk'; simp
        · rw [Function.update_of_ne hk']
          by_cases hkm : k < m
          · rw [if_pos hkm]
          · rw [if_neg hkm, h0 k (by omega) (by omega)]
    · rintro u ⟨m, hm, hu, h0, h1⟩
      refine ⟨fun h => absurd hl h, fun _ => Canon.mk hu (fun k hk => ?_) h1⟩
      by_cases hk' : k < v.length
      · exact h0 k hk hk'
      · show c k + d k = 0
        rw [hc0 k (by omega), hd0 k (by omega), add_zero]

end group

section coef

variable [Ring R]

theorem _root_.Abstalg.CoefRep.cells {v : List E} {p : R[X]} (h : CoefRep rep v p) :
    Cells rep v v.length p.coeff := ⟨rfl, h.1⟩

theorem _root_.Abstalg.CoefRep.mk {v : List E} {n : ℕ} {p : R[X]} (h : Cells rep v n p.coeff)
    (h0 : ∀ i, n ≤ i → p.coeff i = 0) : CoefRep rep v p := by
  obtain rfl := h.1
  exact ⟨h.2, h0⟩

theorem _root_.Abstalg.RingPolyRep.coef {v : List E} {p : R[X]} (h : RingPolyRep rep v p) :
    CoefRep rep v p := ⟨h.1, h.2.1⟩

theorem ringPolyRep_iff {v : List E} {p : R[X]} :
    RingPolyRep rep v p ↔ CoefRep rep v p ∧ ¬ ZeroLast v p := by
  unfold ZeroLast
  refine ⟨fun h => ⟨h.coef, fun h' => h.2.2 h'.1 h'.2⟩, fun h => ⟨h.1.1, h.1.2, fun h1 h2 => h.2 ⟨h1, h2⟩⟩⟩

theorem _root_.Abstalg.CoefRep.nil : CoefRep rep [] (0 : R[X]) := .mk Cells.nil fun _ _ => coeff_zero _

theorem _root_.Abstalg.CoefRep.of_nil {p : R[X]} (h : CoefRep rep [] p) : p = 0 := by
  ext i; rw [h.2 i (Nat.zero_le _), coeff_zero]

variable {base : UnitaryRingOps E} (h : UnitaryRingSpec mp base rep)

include h

theorem add_coef {v w : List E} {p q : R[X]} (hp : CoefRep rep v p) (hq : CoefRep rep w q) :
    Returns mp ((unitaryRing base).add v w) fun u => CoefRep rep u (p + q) ∧
      (v.length ≠ w.length → u.length = max v.length w.length) ∧
      (v.length = w.length → RingPolyRep rep u (p + q)) := by
  refine (add_cells h.toAbelianGroupSpec hp.cells hp.2 hq.cells hq.2).mono fun u hu => ?_
  have hc : p.coeff + q.coeff = (p + q).coeff := funext fun i => (coeff_add p q i).symm
  rw [hc] at hu
  by_cases hl : v.length = w.length
  · have : RingPolyRep rep u (p + q) := canon_iff (coef := coeff) |>.2 (hu.2 hl)
    exact ⟨this.coef, fun h => absurd hl h, fun _ => this⟩
  · have := hu.1 hl
    refine ⟨.mk this fun i hi => ?_, fun _ => this.1, fun h => absurd h hl⟩
    rw [coeff_add, hp.2 i (le_trans (le_max_left _ _) hi), hq.2 i (le_trans (le_max_right _ _) hi),
      add_zero]

theorem neg_coef {v : List E} {p : R[X]} (hp : CoefRep rep v p) :
    Returns mp ((unitaryRing base).neg v) fun u => CoefRep rep u (-p) ∧ u.length = v.length := by
  refine (hp.cells.map (rep' := rep) (d := (-p).coeff) fun i hi a ha => ?_).mono fun w hw => ?_
  · rw [coeff_neg]; exact h.neg ha
  · exact ⟨.mk hw fun i hi => by rw [coeff_neg, hp.2 i hi, neg_zero], hw.1⟩

theorem times_coef (n : ℤ) (hn : n ≠ isizeMin) {v : List E} {p : R[X]} (hp : CoefRep rep v p) :
    Returns mp ((unitaryRing base).times n v) (RingPolyRep rep · (n • p)) := by
  have hc : n • p.coeff = (n • p).coeff := funext fun i => (coeff_smul n p i).symm
  refine (Returns.bind (hp.cells.map (rep' := rep) (d := n • p.coeff) fun i hi a ha => h.times n hn ha)
    fun w hw => ?_ : Returns mp _ fun u => Canon rep u (n • p.coeff)).mono fun u hu => ?_
  · rw [hw.1]
    refine timesTrim_spec h.toAbelianGroupSpec hw _ le_rfl fun i hi => ?_
    show n • p.coeff i = 0
    rw [hp.2 i hi, smul_zero]
  · rw [hc] at hu
    exact canon_iff.2 hu

theorem mul_coef {v w : List E} {p q : R[X]} (hp : CoefRep rep v p) (hq : CoefRep rep w q) :
    Returns mp ((unitaryRing base).mul v w) fun u => CoefRep rep u (p * q) ∧
      u.length = if v.length = 0 ∨ w.length = 0 then 0 else v.length + w.length - 1 := by
  show Returns mp (mul base v w) _
  by_cases hn : v.length = 0
  · obtain rfl : v = [] := List.length_eq_zero_iff.1 hn
    rw [hp.of_nil, zero_mul]
    exact ⟨CoefRep.nil, by simp⟩
  by_cases hm : w.length = 0
  · obtain rfl : w = [] := List.length_eq_zero_iff.1 hm
    rw [hq.of_nil, mul_zero]
    unfold mul
    rw [if_pos (by simp)]
    exact ⟨CoefRep.nil, by simp⟩
  refine (mul_cells h hp.cells hp.2 hq.cells hq.2 hn hm).mono fun u hu => ⟨.mk hu fun i hi => ?_, ?_⟩
  · have h1 : p.natDegree ≤ v.length - 1 := by
      rw [natDegree_le_iff_coeff_eq_zero]; exact fun k hk => hp.2 k (by omega)
    have h2 : q.natDegree ≤ w.length - 1 := by
      rw [natDegree_le_iff_coeff_eq_zero]; exact fun k hk => hq.2 k (by omega)
    exact coeff_eq_zero_of_natDegree_lt (lt_of_le_of_lt natDegree_mul_le (by omega))
  · rw [hu.1, if_neg (by omega)]

theorem equals_coef {v w : List E} {p q : R[X]} (hp : CoefRep rep v p) (hq : CoefRep rep w q) :
    Decides mp ((unitaryRing base).equals v w) (v.length = w.length ∧ p = q) := by
  show Decides mp (if v.length != w.length then .ok false else _) _
  split
  · rename_i hl
    exact decides_ok ⟨nofun, fun h => absurd h.1 (by simpa using hl)⟩
  · rename_i hl
    have hl : v.length = w.length := by simpa using hl
    have hd1 := hq.cells
    rw [← hl] at hd1
    refine ((hp.cells.zip hd1).all (q := fun i => p.coeff i = q.coeff i) fun i hi a ha => ?_).iff ?_
    · exact h.equals ha.1 ha.2
    · refine ⟨fun h1 => ⟨hl, Polynomial.ext fun i => ?_⟩, fun h1 i _ => by rw [h1.2]⟩
      by_cases hi : i < v.length
      · exact h1 i hi
      · rw [hp.2 i (by omega), hq.2 i (by omega)]

theorem contains_coef {v : List E} {p : R[X]} (hp : CoefRep rep v p) :
    Decides mp ((unitaryRing base).contains v) (¬ ZeroLast v p) := by
  show Decides mp (if v.isEmpty then .ok true else _) _
  split
  · rename_i hv
    exact decides_ok ⟨fun _ h => h.1 (by simpa using hv), fun _ => rfl⟩
  · rename_i hv
    have hl : v.length ≠ 0 := by simpa using hv
    refine Decides.bind (hp.cells.all (q := fun _ => True) fun i hi a ha =>
      (h.contains ha).mono fun b hb => by simpa using hb) (fun _ => ?_) fun h => ?_
    · refine Returns.bind (hp.cells.idx (i := v.length - 1) (by omega)) fun a ha => ?_
      refine (h.isZero ha).not.iff (not_congr ?_)
      unfold ZeroLast
      simp only [ne_eq, (show ¬ v = [] by simpa using hv), not_false_iff, true_and]
    · exact absurd (fun _ _ => trivial) h

theorem isOne_coef [Nontrivial R] {v : List E} {p : R[X]} (hp : CoefRep rep v p) :
    Decides mp ((unitaryRing base).isOne v) (v.length = 1 ∧ p = 1) := by
  simp only [unitaryRing]
  split
  · rename_i hv
    have hv : v.length = 1 := by simpa using hv
    have hC : p = C (p.coeff 0) := by
      ext i
      rw [coeff_C]
      split
      · rename_i h; rw [h]
      · rw [hp.2 i (by omega)]
    refine Returns.bind (hp.cells.idx (i := 0) (by omega)) fun a ha => (h.isOne ha).iff ?_
    constructor
    · intro h1; exact ⟨hv, by rw [hC, h1, C_1]⟩
    · rintro ⟨_, rfl⟩; simp
  · rename_i hv
    exact decides_ok ⟨nofun, fun h => absurd h.1 (by simpa using hv)⟩

theorem tryInv_coef {v : List E} {p : R[X]} (hp : CoefRep rep v p) :
    Returns mp ((unitaryRing base).tryInv v) fun
      | some w => ∃ q, CoefRep rep w q ∧ w.length = 1 ∧ p * q = 1 ∧ q * p = 1
      | none => v.length ≠ 1 ∨ ¬ IsUnit (p.coeff 0) := by
  simp only [unitaryRing]
  split
  · rename_i hv
    have hv : v.length = 1 := by simpa using hv
    have hC : p = C (p.coeff 0) := by
      ext i
      rw [coeff_C]
      split
      · rename_i h; rw [h]
      · rw [hp.2 i (by omega)]
    refine Returns.bind (hp.cells.idx (i := 0) (by omega)) fun a ha => ?_
    refine Returns.bind (h.tryInv ha) fun o ho => ?_
    cases o with
    | some b =>
      obtain ⟨y, hb, h1, h2⟩ := ho
      refine ⟨C y, .mk (n := 1) ⟨rfl, fun i hi => ?_⟩ fun i hi => ?_, rfl, ?_, ?_⟩
      · obtain rfl : i = 0 := by simpa using hi
        simpa using hb
      · exact coeff_C_of_ne_zero (by omega)
      · rw [hC, ← C_mul, h1, C_1]
      · rw [hC, ← C_mul, h2, C_1]
    | none => exact .inr ho
  · rename_i hv
    exact .inl (by simpa using hv)

end coef

section domain

variable [CommRing R] [IsDomain R] [NormalizationMonoid R] {base : IntegralDomainOps E}
  (h : IntegralDomainSpec mp base rep)

include h

theorem tryDiv_coef {v w : List E} {f g : R[X]} (hf : CoefRep rep v f) (hg : CoefRep rep w g)
    (hw0 : w ≠ []) (hz : ¬ ZeroLast w g) (hlt : w.length ≤ v.length) :
    Returns mp (tryDiv base v w) fun
      | some u => ∃ q, CoefRep rep u q ∧ u.length = v.length - w.length + 1 ∧ f = g * q
      | none => ¬ g ∣ f := by
  have hwl : w.length ≠ 0 := by simpa using hw0
  have hw : w.isEmpty = false := by simpa using hwl
  unfold tryDiv
  rw [hw]
  show Returns mp (if v.length < w.length then _ else _) _
  obtain ⟨d, hd⟩ : ∃ d, w.length = d + 1 := ⟨w.length - 1, by omega⟩
  have hgc : ∀ k, d + 1 ≤ k → g.coeff k = 0 := fun k hk => hg.2 k (by omega)
  have hgd : g.coeff d ≠ 0 := fun h0 => hz ⟨hw0, by rwa [hd, Nat.add_sub_cancel]⟩
  have hwc := hg.cells
  rw [hd] at hwc
  rw [if_neg (by omega)]
  refine Returns.bind h.zero fun z hz => ?_
  refine Returns.bind (hg.cells.idx (i := w.length - 1) (by omega)) fun a ha => ?_
  rw [hd, Nat.add_sub_cancel] at ha
  refine Decides.assertNot (h.isZero ha) hgd ?_
  rw [List.length_replicate]
  obtain ⟨m, hm⟩ : ∃ m, v.length - w.length + 1 = m := ⟨_, rfl⟩
  have hml : v.length = m + d := by omega
  rw [hm]
  have hvc := hf.cells
  rw [hml] at hvc
  have hfc := hf.2
  rw [hml] at hfc
  refine Returns.bind (tryDivLoop_spec h hwc hgc hgd ha m le_rfl (DivInv.init hz hvc hfc))
    fun o ho => ?_
  cases o with
  | none => exact ho
  | some p =>
    obtain ⟨quo, rem⟩ := p
    obtain ⟨Q, c, hI⟩ := ho
    have hall : Decides mp (allRes (fun d => base.isZero d) (rem.take (w.length - 1)))
        (∀ k, k < d → (f - g * Q).coeff k = 0) := by
      rw [hd, Nat.add_sub_cancel]
      refine (hI.rem.take (m := d) (by omega)).all fun k hk a ha => ?_
      rw [hI.eq k (by omega)] at ha
      exact h.isZero ha
    refine Decides.bind hall (fun h0 => ?_) fun h0 => ?_
    · refine ⟨Q, .mk hI.quo hI.high, hI.quo.1, ?_⟩
      rw [← sub_eq_zero]
      ext k
      rw [coeff_zero]
      by_cases hk : k < d
      · exact h0 k hk
      · exact hI.zero k (by omega)
    · push Not at h0
      obtain ⟨k, _, hk⟩ := h0
      exact not_dvd_of_rem hgd (fun k hk => hI.zero k (by omega)) hk

omit h in
theorem tryDiv_short {v w : List E} (hlt : v.length < w.length) :
    tryDiv base v w = .ok (if v = [] then some [] else none) := by
  have hw : w.isEmpty = false := by
    cases w with
    | nil => exact absurd hlt (Nat.not_lt_zero _)
    | cons => rfl
  unfold tryDiv
  rw [hw]
  show (if v.length < w.length then _ else _) = _
  rw [if_pos hlt]
  cases v <;> rfl

theorem tryDiv_zeroLast {v w : List E} {g : R[X]} (hg : CoefRep rep w g)
    (hz : ZeroLast w g) (hlt : w.length ≤ v.length) : Panics (tryDiv base v w) := by
  have hwl : w.length ≠ 0 := by simpa using hz.1
  have hw : w.isEmpty = false := by simpa using hwl
  unfold tryDiv
  rw [hw]
  show Panics (if v.length < w.length then _ else _)
  rw [if_neg (by omega)]
  refine Returns.panics_of_bind h.zero fun z _ => ?_
  refine Returns.panics_of_bind (mp := mp) (hg.cells.idx (i := w.length - 1) (by omega)) fun a ha => ?_
  exact Decides.assertNot_panics (h.isZero ha) hz.2

theorem associateRepr_coef {v : List E} {f : R[X]} (hf : CoefRep rep v f) (hz : ZeroLast v f) :
    Panics ((integralDomain base).associateRepr v) ∧
      Panics ((integralDomain base).associateCoef v) := by
  have hvl : v.length ≠ 0 := by simpa using hz.1
  have hv : v.isEmpty = false := by simpa using hvl
  have hc : ∀ a, rep a (f.coeff (v.length - 1)) → Panics (base.associateCoef a) := fun a ha => by
    rw [hz.2] at ha; exact h.associateCoef_zero ha
  simp only [integralDomain, hv, Bool.not_false, assert_true, ok_bind]
  exact ⟨Returns.panics_of_bind (mp := mp) (hf.cells.idx (i := v.length - 1) (by omega)) fun a ha =>
      panics_bind (hc a ha),
    Returns.panics_of_bind (mp := mp) (hf.cells.idx (i := v.length - 1) (by omega)) fun a ha =>
      panics_bind (hc a ha)⟩

end domain

section field

variable [Field R] {base : FieldOps E}

theorem quoRem_short {v w : List E} (hlt : v.length < w.length) :
    (euclidean base).quoRem v w = .ok ([], v) := by
  have hw : w.isEmpty = false := by
    cases w with
    | nil => exact absurd hlt (Nat.not_lt_zero _)
    | cons => rfl
  show quoRem base v w = _
  unfold quoRem
  rw [hw]
  show (if v.length < w.length then _ else _) = _
  rw [if_pos hlt]
  rfl

variable (h : FieldSpec mp base rep)

include h

theorem quoRem_zeroLast {v w : List E} {g : R[X]} (hg : CoefRep rep w g)
    (hz : ZeroLast w g) (hlt : w.length ≤ v.length) : Panics ((euclidean base).quoRem v w) := by
  have hwl : w.length ≠ 0 := by simpa using hz.1
  have hw : w.isEmpty = false := by simpa using hwl
  show Panics (quoRem base v w)
  unfold quoRem
  rw [hw]
  show Panics (if v.length < w.length then _ else _)
  rw [if_neg (by omega)]
  refine Returns.panics_of_bind h.zero fun z _ => ?_
  refine Returns.panics_of_bind (mp := mp) (hg.cells.idx (i := w.length - 1) (by omega)) fun a ha => ?_
  exact Decides.assertNot_panics (h.isZero ha) hz.2

theorem quoRem_coef {v w : List E} {f g : R[X]} (hf : CoefRep rep v f) (hg : CoefRep rep w g)
    (hw0 : w ≠ []) (hz : ¬ ZeroLast w g) (hlt : w.length ≤ v.length) :
    Returns mp ((euclidean base).quoRem v w) fun p => CoefRep rep p.1 (f / g) ∧
      p.1.length = v.length - w.length + 1 ∧ RingPolyRep rep p.2 (f % g) := by
  have hwl : w.length ≠ 0 := by simpa using hw0
  have hw : w.isEmpty = false := by simpa using hwl
  show Returns mp (quoRem base v w) _
  unfold quoRem
  rw [hw]
  show Returns mp (if v.length < w.length then _ else _) _
  obtain ⟨d, hd⟩ : ∃ d, w.length = d + 1 := ⟨w.length - 1, by omega⟩
  have hgc : ∀ k, d + 1 ≤ k → g.coeff k = 0 := fun k hk => hg.2 k (by omega)
  have hgd : g.coeff d ≠ 0 := fun h0 => hz ⟨hw0, by rwa [hd, Nat.add_sub_cancel]⟩
  have hg0 : g ≠ 0 := by rintro rfl; exact hgd (coeff_zero d)
  have hwc := hg.cells
  rw [hd] at hwc
  have hdeg : g.degree = d := by
    refine le_antisymm ?_ (le_degree_of_ne_zero hgd)
    rw [degree_le_iff_coeff_zero]
    exact fun k hk => hgc k (by exact_mod_cast hk)
  rw [if_neg (by omega)]
  refine Returns.bind h.zero fun z hz => ?_
  refine Returns.bind (hg.cells.idx (i := w.length - 1) (by omega)) fun a ha => ?_
  rw [hd, Nat.add_sub_cancel] at ha
  refine Decides.assertNot (h.isZero ha) hgd ?_
  rw [List.length_replicate]
  obtain ⟨m, hm⟩ : ∃ m, v.length - w.length + 1 = m := ⟨_, rfl⟩
  have hml : v.length = m + d := by omega
  rw [hm]
  have hvc := hf.cells
  rw [hml] at hvc
  have hfc := hf.2
  rw [hml] at hfc
  refine Returns.bind (quoRemLoop_spec h hwc hgc hgd ha m le_rfl (DivInv.init hz hvc hfc))
    fun p hp => ?_
  obtain ⟨quo, rem⟩ := p
  obtain ⟨Q, c, hI⟩ := hp
  have hun := division_unique (f := f) (q := Q) (r := f - g * Q) hg0 (by ring) (by
    rw [hdeg, degree_lt_iff_coeff_zero]
    exact fun k hk => hI.zero k (by omega))
  refine Returns.bind (trimLen_spec h hI.rem (w.length - 1) (by omega)) fun i hi => ?_
  obtain ⟨hid, h0, h1⟩ := hi
  rw [← hun.1, ← hun.2]
  refine ⟨.mk hI.quo hI.high, hI.quo.1, ?_⟩
  refine RingPolyRep.mk ((hI.rem.take (m := i) (by omega)).congr fun k hk => hI.eq k (by omega))
    (fun k hk => ?_) fun hi0 => ?_
  · by_cases hkd : k < d
    · rw [← hI.eq k (by omega)]; exact h0 k hk (by omega)
    · exact hI.zero k (by omega)
  · rw [← hI.eq _ (by omega)]; exact h1 hi0

omit h in
theorem gcd_nil (v : List E) : (euclidean base).gcd v [] = .ok v := by
  show gcdDefault (euclidean base).isZero (euclidean base).rem v [] = _
  rw [gcdDefault]
  rfl

omit h in
theorem gcd_cons (v : List E) {w : List E} (hw : w ≠ []) : (euclidean base).gcd v w =
    (euclidean base).rem v w >>= fun r => (euclidean base).gcd w r := by
  show gcdDefault (euclidean base).isZero (euclidean base).rem v w = _
  rw [gcdDefault]
  obtain ⟨a, l, rfl⟩ := List.exists_cons_of_ne_nil hw
  rfl

omit h in
theorem isGcd_mod {f g x : R[X]} (hx : IsGcd g (f % g) x) : IsGcd f g x := by
  have e := EuclideanDomain.div_add_mod f g
  refine ⟨?_, hx.1, fun d h1 h2 => hx.2.2 d h2 ?_⟩
  · rw [← e]; exact dvd_add (hx.1.mul_right _) hx.2.1
  · rw [EuclideanDomain.mod_eq_sub_mul_div]
    exact dvd_sub h1 (h2.mul_right _)

theorem gcd_long {v w : List E} {f g : R[X]} (hf : CoefRep rep v f) (hg : CoefRep rep w g)
    (hw0 : w ≠ []) (hlt : w.length ≤ v.length) :
    (ZeroLast w g → Panics ((euclidean base).gcd v w)) ∧
    (¬ ZeroLast w g → Returns mp ((euclidean base).gcd v w) fun u =>
      ∃ x, RingPolyRep rep u x ∧ IsGcd f g x) := by
  classical
  rw [gcd_cons v hw0]
  refine ⟨fun hz => panics_bind (panics_bind (quoRem_zeroLast h hg hz hlt)), fun hz => ?_⟩
  refine Returns.bind (P := (RingPolyRep rep · (f % g))) ?_ fun r hr => ?_
  · exact Returns.bind (quoRem_coef h hf hg hw0 hz hlt) fun p hp => hp.2.2
  · exact ((euclidean_spec h).gcd (ringPolyRep_iff.2 ⟨hg, hz⟩) hr).mono
      fun u ⟨x, hu, hx⟩ => ⟨x, hu, isGcd_mod hx⟩

end field

end PolynomialAlgebra

end Abstalg
