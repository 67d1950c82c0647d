import Verif.Spec.Polynomials
import Verif.Proofs.Lists
import Verif.Model.PolynomialAlgebra

/-! # Polynomials over an abelian group -/

set_option linter.unusedSectionVars false

set_option autoImplicit false

universe u v w

namespace Abstalg

/-- A contract can be pulled back along an injective homomorphism. -/
theorem AbelianGroupSpec.comap [Cfg] {E : Type} {R : Type u} {M : Type v} [AddCommGroup R]
    [AddCommGroup M] {mp : Prop} {A : AbelianGroupOps E} {rep : E → R → Prop}
    (h : AbelianGroupSpec mp A rep) (f : M →+ R) (hf : Function.Injective f) :
    AbelianGroupSpec mp A fun a m => rep a (f m) where
  rep_unique := fun h1 h2 => hf (h.rep_unique h1 h2)
  contains := h.contains
  equals := fun h1 h2 => (h.equals h1 h2).iff hf.eq_iff
  zero := by rw [map_zero]; exact h.zero
  isZero := fun h1 => (h.isZero h1).iff (by rw [← map_zero f, hf.eq_iff])
  add := fun h1 h2 => by rw [map_add]; exact h.add h1 h2
  addAssign := fun h1 h2 => by rw [map_add]; exact h.addAssign h1 h2
  double := fun h1 => by rw [map_add]; exact h.double h1
  utimes := fun n _ _ h1 => by rw [map_nsmul]; exact h.utimes n h1
  neg := fun h1 => by rw [map_neg]; exact h.neg h1
  negAssign := fun h1 => by rw [map_neg]; exact h.negAssign h1
  sub := fun h1 h2 => by rw [map_sub]; exact h.sub h1 h2
  subAssign := fun h1 h2 => by rw [map_sub]; exact h.subAssign h1 h2
  times := fun n hn _ _ h1 => by rw [map_zsmul]; exact h.times n hn h1

/-- The vector is the canonical form of the sequence of coefficients. -/
def Canon {E : Type} {R : Type u} [Zero R] (rep : E → R → Prop) (v : List E) (c : ℕ → R) : Prop :=
  Cells rep v v.length c ∧ (∀ i, v.length ≤ i → c i = 0) ∧ (v.length ≠ 0 → c (v.length - 1) ≠ 0)

theorem canon_iff {E : Type} {R : Type u} [Zero R] {M : Type w} {rep : E → R → Prop}
    {coef : M → ℕ → R} {v : List E} {p : M} : PolyRep rep coef v p ↔ Canon rep v (coef p) := by
  unfold PolyRep Canon Cells
  rw [show v.length ≠ 0 ↔ v ≠ [] from not_congr List.length_eq_zero_iff]
  exact ⟨fun h => ⟨⟨rfl, h.1⟩, h.2⟩, fun h => ⟨h.1.2, h.2⟩⟩

namespace PolynomialAlgebra

variable [Cfg] {E : Type} {R : Type u} {mp : Prop} {rep : E → R → Prop}

section

variable [Zero R]

theorem Canon.mk {v : List E} {n : ℕ} {c : ℕ → R} (h : Cells rep v n c) (h0 : ∀ i, n ≤ i → c i = 0)
    (h1 : n ≠ 0 → c (n - 1) ≠ 0) : Canon rep v c := by
  obtain rfl := h.1
  exact ⟨h, h0, h1⟩

theorem Canon.length_eq {v w : List E} {c : ℕ → R} (hv : Canon rep v c) (hw : Canon rep w c) :
    v.length = w.length := by
  rcases Nat.lt_trichotomy v.length w.length with h | h | h
  · exact absurd (hv.2.1 _ (by omega)) (hw.2.2 (by omega))
  · exact h
  · exact absurd (hw.2.1 _ (by omega)) (hv.2.2 (by omega))

end

variable [AddCommGroup R] {base : AbelianGroupOps E} (h : AbelianGroupSpec mp base rep)

include h

theorem domain_spec : DomainSpec mp (domain base) (Canon rep) where
  rep_unique := by
    intro v c d hc hd
    funext i
    by_cases hi : i < v.length
    · exact Cells.unique (rep := rep) h.rep_unique hc.1 hd.1 i hi
    · rw [hc.2.1 i (by omega), hd.2.1 i (by omega)]
  contains := by
    intro v c hc
    simp only [domain]
    split
    · rfl
    · rename_i hv
      have hl : v.length ≠ 0 := by simpa using hv
      refine Decides.bind (hc.1.all (q := fun _ => True) fun i hi a ha =>
        (h.contains ha).mono fun b hb => by simpa using hb) (fun _ => ?_) fun h => ?_
      · refine Returns.bind (hc.1.idx (i := v.length - 1) (by omega)) fun a ha => ?_
        refine Decides.bind (h.isZero ha) (fun h0 => absurd h0 (hc.2.2 hl)) fun _ => rfl
      · exact absurd (fun _ _ => trivial) h
  equals := by
    intro v w c d hc hd
    simp only [domain]
    split
    · rename_i hl
      refine decides_ok ⟨nofun, ?_⟩
      rintro rfl
      exact absurd (Canon.length_eq hc hd) (by simpa using hl)
    · rename_i hl
      have hl : v.length = w.length := by simpa using hl
      have hd1 := hd.1
      rw [← hl] at hd1
      refine ((hc.1.zip hd1).all (q := fun i => c i = d i) fun i hi a ha => ?_).iff ?_
      · exact h.equals ha.1 ha.2
      · refine ⟨fun h1 => funext fun i => ?_, fun h1 i _ => by rw [h1]⟩
        by_cases hi : i < v.length
        · exact h1 i hi
        · rw [hc.2.1 i (by omega), hd.2.1 i (by omega)]

theorem zero_spec : Returns mp (abelianGroup base).zero (Canon rep · 0) :=
  Canon.mk Cells.nil (fun _ _ => rfl) fun h => absurd rfl h

theorem isZero_spec {v : List E} {c : ℕ → R} (hc : Canon rep v c) :
    Decides mp ((abelianGroup base).isZero v) (c = 0) := by
  refine decides_ok ⟨fun hv => ?_, ?_⟩
  · obtain rfl : v = [] := by simpa using hv
    exact funext fun i => hc.2.1 i (Nat.zero_le _)
  · rintro rfl
    by_contra hv
    exact hc.2.2 (by simpa using hv) rfl

theorem add_longer {v w : List E} {c d : ℕ → R} (hc : Canon rep v c) (hd : Canon rep w d)
    (hl : w.length < v.length) :
    Returns mp (forLoop (List.range w.length) v fun u i => do
      let a ← base.add (← idx u i) (← idx w i)
      setIdx u i a) (Canon rep · (c + d)) := by
  refine (forLoop_range (fun i u => Cells rep u v.length fun k => if k < i then c k + d k else c k)
    (by simpa using hc.1) fun i hi u hu => ?_).mono fun u hu => ?_
  · refine Returns.bind (hu.idx (i := i) (by omega)) fun a ha =>
      Returns.bind (hd.1.idx hi) fun b hb => ?_
    rw [if_neg (lt_irrefl i)] at ha
    refine Returns.bind (h.add ha hb) fun s hs => ?_
    refine (hu.setIdx (by omega) hs).mono fun u' hu' => hu'.congr fun k _ => ?_
    by_cases hk : k = i
    · subst hk; simp
    · rw [Function.update_of_ne hk]
      by_cases h1 : k < i
      · rw [if_pos h1, if_pos (by omega)]
      · rw [if_neg h1, if_neg (by omega)]
  · refine Canon.mk (hu.congr fun k _ => ?_) (fun k hk => ?_) fun h0 => ?_
    · show _ = c k + d k
      by_cases hk : k < w.length
      · rw [if_pos hk]
      · rw [if_neg hk, hd.2.1 k (by omega), add_zero]
    · show c k + d k = 0
      rw [hc.2.1 k hk, hd.2.1 k (by omega), add_zero]
    · show c _ + d _ ≠ 0
      rw [hd.2.1 _ (by omega), add_zero]
      exact hc.2.2 h0

theorem add_spec {v w : List E} {c d : ℕ → R} (hc : Canon rep v c) (hd : Canon rep w d) :
    Returns mp (add base v w) (Canon rep · (c + d)) := by
  unfold add
  split
  · rename_i hl
    by_cases hlt : v.length > w.length
    · simp only [hlt, if_true]
      exact add_longer h hc hd hlt
    · simp only [hlt, if_false]
      rw [add_comm]
      exact add_longer h hd hc (by omega)
  · rename_i hl
    have hl : v.length = w.length := by simpa using hl
    refine (forLoop_range (fun i u => ∃ m, m ≤ i ∧ Cells rep u m (c + d) ∧
      (∀ k, m ≤ k → k < i → (c + d) k = 0) ∧ (m ≠ 0 → (c + d) (m - 1) ≠ 0)) ?_ ?_).mono ?_
    · exact ⟨0, le_rfl, Cells.nil, by omega, by omega⟩
    · rintro i hi u ⟨m, hm, hu, h0, h1⟩
      refine Returns.bind (hc.1.idx hi) fun a ha =>
        Returns.bind (hd.1.idx (i := i) (by omega)) fun b hb =>
        Returns.bind (h.add ha hb) fun s hs => ?_
      refine Decides.bind (h.isZero hs) (fun hz => ?_) fun hz => ?_
      · refine ⟨m, by omega, hu, fun k hk hki => ?_, h1⟩
        by_cases hk' : k = i
        · subst hk'; exact hz
        · exact h0 k hk (by omega)
      · refine Returns.bind h.zero fun z hz' => ?_
        refine ((hu.resize hz' (i + 1)).setIdx (i := i) (by omega) hs).mono fun u' hu' => ?_
        refine ⟨i + 1, le_rfl, hu'.congr fun k hk => ?_, by omega, fun _ => hz⟩
        by_cases hk' : k = i
        · subst hk'; simp
        · rw [Function.update_of_ne hk']
          by_cases hkm : k < m
          · rw [if_pos hkm]
          · rw [if_neg hkm, h0 k (by omega) (by omega)]
    · rintro u ⟨m, hm, hu, h0, h1⟩
      refine Canon.mk hu (fun k hk => ?_) h1
      by_cases hk' : k < v.length
      · exact h0 k hk hk'
      · show c k + d k = 0
        rw [hc.2.1 k (by omega), hd.2.1 k (by omega), add_zero]

theorem neg_spec {v : List E} {c : ℕ → R} (hc : Canon rep v c) :
    Returns mp ((abelianGroup base).neg v) (Canon rep · (-c)) := by
  refine (hc.1.map (rep' := rep) (d := -c) fun i hi a ha => h.neg ha).mono fun w hw => ?_
  refine Canon.mk hw (fun i hi => ?_) fun h0 => ?_
  · show -c i = 0
    rw [hc.2.1 i hi, neg_zero]
  · exact neg_ne_zero.2 (hc.2.2 h0)

theorem timesTrim_spec {v : List E} {c : ℕ → R} {N : ℕ} (hc : Cells rep v N c) :
    ∀ n, n ≤ N → (∀ i, n ≤ i → c i = 0) → Returns mp (timesTrim base v n) (Canon rep · c) := by
  intro n
  induction n with
  | zero => exact fun _ h0 => Canon.mk Cells.nil h0 fun h => absurd rfl h
  | succ n ih =>
    intro hn h0
    refine Returns.bind (hc.idx (i := n) (by omega)) fun a ha => ?_
    refine Decides.bind (h.isZero ha) (fun hz => ?_) fun hz => ?_
    · refine ih (by omega) fun i hi => ?_
      by_cases hin : i = n
      · subst hin; exact hz
      · exact h0 i (by omega)
    · refine Returns.bind h.zero fun z hz' => ?_
      exact Canon.mk ((hc.resize hz' (n + 1)).congr fun i hi => if_pos (by omega)) h0 fun _ => hz

theorem times_spec (n : ℤ) (hn : n ≠ isizeMin) {v : List E} {c : ℕ → R} (hc : Canon rep v c) :
    Returns mp ((abelianGroup base).times n v) (Canon rep · (n • c)) := by
  refine Returns.bind (hc.1.map (rep' := rep) (d := n • c) fun i hi a ha => h.times n hn ha)
    fun w hw => ?_
  rw [hw.1]
  refine timesTrim_spec h hw _ le_rfl fun i hi => ?_
  show n • c i = 0
  rw [hc.2.1 i hi, smul_zero]

theorem canon_spec : AbelianGroupSpec mp (abelianGroup base) (Canon rep) := by
  have hadd : ∀ {a b : List E} {k l : ℕ → R}, Canon rep a k → Canon rep b l →
      Returns mp ((abelianGroup base).add a b) (Canon rep · (k + l)) := add_spec h
  have hneg : ∀ {a : List E} {k : ℕ → R}, Canon rep a k →
      Returns mp ((abelianGroup base).neg a) (Canon rep · (-k)) := neg_spec h
  have hzero := zero_spec h
  exact
  { toDomainSpec := domain_spec h
    zero := hzero
    isZero := isZero_spec h
    add := hadd
    addAssign := hadd
    double := fun ha => hadd ha ha
    utimes := fun n {a s} ha => by
      have := utimes_default (rep := Canon rep) hzero hadd (fun ha => hadd ha ha) n ha
      exact this
    neg := hneg
    negAssign := hneg
    sub := fun ha hb => by
      have := sub_default (rep := Canon rep) hadd hneg ha hb
      exact this
    subAssign := fun ha hb => by
      have := subAssign_default (rep := Canon rep) hadd hneg ha hb
      exact this
    times := fun n hn {a k} ha => times_spec h n hn ha }

/-- The group of polynomials, for any structure whose elements are determined by their
coefficients. -/
theorem group_spec {M : Type w} [AddCommGroup M] (coef : M →+ (ℕ → R))
    (hcoef : Function.Injective coef) :
    AbelianGroupSpec mp (abelianGroup base) (PolyRep rep coef) := by
  have := (canon_spec h).comap coef hcoef
  rwa [show PolyRep rep coef = fun v m => Canon rep v (coef m) from
    funext fun v => funext fun m => propext canon_iff]

end PolynomialAlgebra

end Abstalg
