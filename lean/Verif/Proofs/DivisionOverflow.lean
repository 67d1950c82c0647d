import Verif.Spec.DivisionOverflow
import Verif.Proofs.NoOverflow
import Verif.Proofs.PolyDiv

/-! # Overflow in the division of polynomials over machine integers -/

set_option linter.unusedSectionVars false

set_option autoImplicit false

namespace Abstalg

open Polynomial

section algebra

variable [Cfg] {w : ℕ} {f g Q Q' : ℤ[X]} {i i' : ℕ}

/-- The state of the division before the coefficient `i - 1` is found. -/
structure DivState (f g Q : ℤ[X]) (i : ℕ) : Prop where
  low : ∀ l < i, Q.coeff l = 0
  zero : ∀ k, i + g.natDegree ≤ k → (f - g * Q).coeff k = 0

/-- An outcome of the division without overflow. -/
structure DivEnd (w : ℕ) (f g Q : ℤ[X]) (i : ℕ) : Prop extends DivState f g Q i where
  fits : DivFits w f g Q i
  stuck : i ≠ 0 → ¬ g.leadingCoeff ∣ (f - g * Q).coeff (i - 1 + g.natDegree)

theorem divEnd_iff : (∃ Q i, DivEnd w f g Q i) ↔ (∃ Q, DividesWithin w f g Q) ∨ StuckWithin w f g := by
  constructor
  · rintro ⟨Q, i, h⟩
    by_cases h0 : f - g * Q = 0
    · refine .inl ⟨Q, sub_eq_zero.1 h0, ?_⟩
      have hi : i = 0 := by
        by_contra hi
        exact h.stuck hi (by rw [h0, coeff_zero]; exact dvd_zero _)
      rw [← hi]
      exact h.fits
    · exact .inr ⟨Q, i, h.fits, h.low, h.zero, h0, h.stuck⟩
  · rintro (⟨Q, h1, h2⟩ | ⟨Q, i, h1, h2, h3, -, h4⟩)
    · exact ⟨Q, 0, ⟨fun l hl => absurd hl (by omega), fun k _ => by rw [h1, sub_self, coeff_zero]⟩, h2, fun h => absurd rfl h⟩
    · exact ⟨Q, i, ⟨h2, h3⟩, h1, h4⟩

theorem coeff_agree (hg : g ≠ 0) {M : ℕ} (h : ∀ k, M + g.natDegree ≤ k → (f - g * Q).coeff k = 0)
    (h' : ∀ k, M + g.natDegree ≤ k → (f - g * Q').coeff k = 0) {k : ℕ} (hk : M ≤ k) : Q.coeff k = Q'.coeff k := by
  rw [← sub_eq_zero, ← coeff_sub]
  by_cases h0 : Q - Q' = 0
  · rw [h0, coeff_zero]
  refine coeff_eq_zero_of_natDegree_lt (lt_of_lt_of_le ?_ hk)
  by_contra hM
  have h1 : (g * (Q - Q')).coeff (g * (Q - Q')).natDegree ≠ 0 := leadingCoeff_ne_zero.2 (mul_ne_zero hg h0)
  refine h1 ?_
  have h2 := natDegree_mul hg h0
  rw [show g * (Q - Q') = (f - g * Q') - (f - g * Q) by ring, coeff_sub, h, h', sub_zero]
  all_goals rw [show f - g * Q' - (f - g * Q) = g * (Q - Q') by ring]; omega

theorem DivState.agree (hg : g ≠ 0) (h : DivState f g Q i) (h' : DivEnd w f g Q' i') :
    i' ≤ i ∧ ∀ k, i ≤ k → Q'.coeff k = Q.coeff k := by
  have hi : i' ≤ i := by
    by_contra hi
    push Not at hi
    obtain ⟨s, rfl⟩ : ∃ s, i' = s + 1 := ⟨i' - 1, by omega⟩
    refine h'.stuck (by omega) ?_
    have ha : ∀ k, s + 1 ≤ k → (Q - Q').coeff k = 0 := fun k hk => by
      rw [coeff_sub, sub_eq_zero]
      exact coeff_agree hg (fun k hk => h.zero k (by omega)) h'.zero hk
    rw [show f - g * Q' = (f - g * Q) + g * (Q - Q') by ring, coeff_add, h.zero _ (by omega), zero_add,
      show s + 1 - 1 + g.natDegree = g.natDegree + s by omega, coeff_mul_add_eq_of_natDegree_le le_rfl]
    · exact dvd_mul_right _ _
    · rw [natDegree_le_iff_coeff_eq_zero]
      exact fun k hk => ha k (by omega)
  exact ⟨hi, fun k hk => coeff_agree hg (fun k hk => h'.zero k (by omega)) h.zero hk⟩

theorem DivState.step (h : DivState f g Q (i + 1)) {q : ℤ} (hq : (f - g * Q).coeff (i + g.natDegree) = g.leadingCoeff * q) :
    DivState f g (Q + monomial i q) i := by
  have hD : f - g * (Q + monomial i q) = f - g * Q - g * monomial i q := by ring
  constructor
  · intro l hl
    rw [coeff_add, coeff_monomial, if_neg (by omega), h.low l (by omega), add_zero]
  · intro k hk
    rw [hD, PolynomialAlgebra.coeff_sub_mul_monomial, if_pos (by omega)]
    by_cases hk' : k = i + g.natDegree
    · subst hk'
      rw [hq, Nat.add_sub_cancel_left, coeff_natDegree, sub_self]
    · rw [h.zero k (by omega), coeff_eq_zero_of_natDegree_lt (by omega : g.natDegree < k - i), zero_mul, sub_zero]

theorem coeff_left (h : ∀ l < i, Q.coeff l = 0) {n : ℕ} :
    (f - g * Q).coeff n = f.coeff n - ∑ l ∈ Finset.Icc i n, g.coeff (n - l) * Q.coeff l := by
  rw [coeff_sub, mul_comm g Q, coeff_mul, Finset.Nat.sum_antidiagonal_eq_sum_range_succ (fun a b => Q.coeff a * g.coeff b)]
  congr 1
  symm
  rw [Finset.sum_subset (s₂ := Finset.range n.succ) (fun l hl => by simp only [Finset.mem_Icc, Finset.mem_range] at hl ⊢; omega)]
  · exact Finset.sum_congr rfl fun l _ => mul_comm _ _
  · intro l hl hl'
    simp only [Finset.mem_Icc, Finset.mem_range] at hl hl'
    rw [h l (by omega), mul_zero]

theorem DivFits.congr (h : DivFits w f g Q i) (hQ : ∀ k, i ≤ k → Q.coeff k = Q'.coeff k) : DivFits w f g Q' i := by
  intro k hk
  obtain ⟨h1, h2, h3⟩ := h k hk
  rw [hQ k hk] at h1 h2
  refine ⟨h1, h2, fun j hj => ?_⟩
  obtain ⟨h4, h5⟩ := h3 j hj
  rw [hQ k hk] at h4
  rw [Finset.sum_congr rfl fun l hl => by rw [hQ l (by rw [Finset.mem_Icc] at hl; omega)]] at h5
  exact ⟨h4, h5⟩

/-- If the division ends without overflow, the numbers of the next step are representable. -/
theorem DivState.next (hg : g ≠ 0) (h : DivState f g Q (i + 1)) {q : ℤ}
    (hq : (f - g * Q).coeff (i + g.natDegree) = g.leadingCoeff * q) (h' : ∃ Q' i', DivEnd w f g Q' i') :
    InRange w q ∧ InRange w (-q) ∧ ∀ j < g.natDegree, InRange w (g.coeff j * -q) ∧
      InRange w ((f - g * (Q + monomial i q)).coeff (i + j)) := by
  obtain ⟨Q', i', h'⟩ := h'
  have hs := h.step hq
  obtain ⟨hi, ha⟩ := hs.agree hg h'
  have hf : DivFits w f g (Q + monomial i q) i := DivFits.congr (fun k hk => h'.fits k (by omega)) ha
  have hc : (Q + monomial i q).coeff i = q := by
    rw [coeff_add, coeff_monomial, if_pos rfl, h.low i (by omega), zero_add]
  obtain ⟨h1, h2, h3⟩ := hf i le_rfl
  rw [hc] at h1 h2
  refine ⟨h1, h2, fun j hj => ?_⟩
  obtain ⟨h4, h5⟩ := h3 j hj
  rw [hc] at h4
  rw [coeff_left hs.low]
  exact ⟨h4, h5⟩

/-- The step extends the numbers that are representable. -/
theorem DivFits.step (h : DivState f g Q (i + 1)) (hf : DivFits w f g Q (i + 1)) {q : ℤ}
    (h1 : InRange w q) (h2 : InRange w (-q)) (h3 : ∀ j < g.natDegree, InRange w (g.coeff j * -q) ∧
      InRange w ((f - g * (Q + monomial i q)).coeff (i + j))) : DivFits w f g (Q + monomial i q) i := by
  have hc : (Q + monomial i q).coeff i = q := by
    rw [coeff_add, coeff_monomial, if_pos rfl, h.low i (by omega), zero_add]
  have hlow : ∀ l < i, (Q + monomial i q).coeff l = 0 := fun l hl => by
    rw [coeff_add, coeff_monomial, if_neg (by omega), h.low l (by omega), add_zero]
  intro k hk
  by_cases hki : k = i
  · subst hki
    rw [hc]
    refine ⟨h1, h2, fun j hj => ?_⟩
    obtain ⟨h4, h5⟩ := h3 j hj
    rw [coeff_left hlow] at h5
    exact ⟨h4, h5⟩
  · refine DivFits.congr hf (fun l hl => ?_) k (by omega)
    rw [coeff_add, coeff_monomial, if_neg (by omega), add_zero]

end algebra

namespace PolynomialAlgebra

open CheckedInts

variable [Cfg] {w : ℕ} [Width w]

section loop

variable {E : Type} {R : Type} {mp : Prop} {rep : E → R → Prop} [CommRing R]

/-- The inner loop, if its products and sums are returned. -/
theorem sub_loop_at {mul add : E → E → Res E} {v : List E} {g : R[X]} {d : ℕ} (hw : Cells rep v (d + 1) g.coeff) {b : E} {y : R}
    {rem : List E} {n i : ℕ} {c : ℕ → R} {K : ℕ → Prop}
    (hmul : ∀ j < d, ∀ a, rep a (g.coeff j) → Returns mp (mul a b) fun s => rep s (g.coeff j * y) ∧ K j)
    (hadd : ∀ j < d, ∀ a s, rep a (c (i + j)) → rep s (g.coeff j * y) → Returns mp (add a s) (rep · (c (i + j) + g.coeff j * y)))
    (hr : Cells rep rem n c) (hi : i + d ≤ n) :
    Returns mp (forLoop (List.range (v.length - 1)) rem fun rem j => do
      let c ← mul (← idx v j) b
      let d ← add (← idx rem (i + j)) c
      setIdx rem (i + j) d) fun u =>
        Cells rep u n (fun k => if i ≤ k ∧ k < i + d then c k + g.coeff (k - i) * y else c k) ∧ ∀ j < d, K j := by
  rw [hw.1, Nat.add_sub_cancel]
  refine forLoop_range (fun j u => Cells rep u n (fun k =>
    if i ≤ k ∧ k < i + j then c k + g.coeff (k - i) * y else c k) ∧ ∀ l < j, K l) ?_ fun j hj u hu => ?_
  · exact ⟨hr.congr fun k _ => by rw [if_neg (by omega)], fun l hl => absurd hl (by omega)⟩
  · obtain ⟨hu, hK⟩ := hu
    refine Returns.bind (hw.idx (i := j) (by omega)) fun e he => Returns.bind (hmul j hj e he)
      fun s hs => Returns.bind (hu.idx (i := i + j) (by omega)) fun t ht => ?_
    rw [if_neg (by omega)] at ht
    refine Returns.bind (hadd j hj t s ht hs.1) fun r hr => ?_
    refine (hu.setIdx (by omega) hr).mono fun u' hu' => ⟨hu'.congr fun k _ => ?_, fun l hl => ?_⟩
    · by_cases hk : k = i + j
      · subst hk
        rw [Function.update_self, if_pos (by omega), Nat.add_sub_cancel_left]
      · rw [Function.update_of_ne hk]
        by_cases h1 : i ≤ k ∧ k < i + j
        · rw [if_pos h1, if_pos (by omega)]
        · rw [if_neg h1, if_neg (by omega)]
    · by_cases h1 : l = j
      · rw [h1]; exact hs.2
      · exact hK l (by omega)

end loop

theorem tryDiv_machine (a b : SInt w) (hb : b.1 ≠ 0) {p : Prop} (hp : p → ∀ q, a.1 = b.1 * q → InRange w q) :
    Returns (¬ p) ((CheckedInts.integralDomain w).tryDiv a b) fun
      | some q => a.1 = b.1 * q.1
      | none => ¬ b.1 ∣ a.1 := by
  by_cases h : Bad w a b
  · rw [CheckedInts.tryDiv_bad w a b h]
    intro hp'
    have := hp hp' (-a.1) (by rw [h.2]; ring)
    revert this
    rw [h.1]
    unfold InRange sMin
    omega
  · rw [CheckedInts.tryDiv_eq w a b hb h]
    by_cases hd : b.1 ∣ a.1
    · rw [if_pos hd]
      exact (Int.mul_ediv_cancel' hd).symm
    · rw [if_neg hd]
      exact hd

theorem tryDivLoop_machine {f g : ℤ[X]} (hg : g ≠ 0) {m : ℕ} {v : List (SInt w)} {a : SInt w}
    (hw : Cells (fun (a : SInt w) x => a.1 = x) v (g.natDegree + 1) g.coeff) (ha : a.1 = g.leadingCoeff) :
    ∀ (i : ℕ) {quo rem : List (SInt w)} {Q : ℤ[X]} {c : ℕ → ℤ}, i ≤ m →
      DivInv (fun (a : SInt w) x => a.1 = x) f g g.natDegree m i quo rem Q c → DivFits w f g Q i →
      Returns (¬ ∃ Q i, DivEnd w f g Q i) (tryDivLoop (CheckedInts.integralDomain w) v a i quo rem) fun
        | none => ∃ Q i, DivEnd w f g Q i ∧ i ≠ 0
        | some (quo, rem) => ∃ Q c, DivInv (fun (a : SInt w) x => a.1 = x) f g g.natDegree m 0 quo rem Q c ∧ DivFits w f g Q 0 := by
  intro i
  induction i with
  | zero => exact fun _ hI hF => ⟨_, _, hI, hF⟩
  | succ i ih =>
    intro quo rem Q c hi hI hF
    have hlc : g.leadingCoeff ≠ 0 := leadingCoeff_ne_zero.2 hg
    have hS : DivState f g Q (i + 1) := ⟨hI.low, hI.zero⟩
    have hgc : ∀ k, g.natDegree + 1 ≤ k → g.coeff k = 0 := fun k hk => coeff_eq_zero_of_natDegree_lt (by omega)
    rw [tryDivLoop, hw.1]
    refine Returns.bind (hI.rem.idx (i := i + (g.natDegree + 1) - 1) (by omega)) fun t ht => ?_
    rw [show i + (g.natDegree + 1) - 1 = i + g.natDegree by omega, hI.eq _ (by omega)] at ht
    refine Returns.bind (tryDiv_machine t a (by rw [ha]; exact hlc) fun hp q hq =>
      (hS.next hg (by rw [← ht, ← ha]; exact hq) hp).1) fun o ho => ?_
    cases o with
    | none =>
      refine ⟨Q, i + 1, ⟨hS, hF, fun _ => ?_⟩, by omega⟩
      rw [Nat.add_sub_cancel, ← ht, ← ha]
      exact ho
    | some q =>
      have hq : (f - g * Q).coeff (i + g.natDegree) = g.leadingCoeff * q.1 := by rw [← ht, ← ha]; exact ho
      refine Returns.bind (hI.quo.setIdx (i := i) (a := q) (x := q.1) (by omega) rfl) fun quo' hquo' => ?_
      refine Returns.bind (hquo'.idx (i := i) (by omega)) fun q'' hq'' => ?_
      rw [Function.update_self] at hq''
      refine Returns.bind ((CheckedInts.exactly_neg q'').returns fun hp => by
        rw [hq'']; exact (hS.next hg hq hp).2.1) fun b hb => ?_
      rw [hq''] at hb
      have hnew : ∀ j < g.natDegree, c (i + j) + g.coeff j * -q.1 = (f - g * (Q + monomial i q.1)).coeff (i + j) := by
        intro j hj
        rw [show f - g * (Q + monomial i q.1) = f - g * Q - g * monomial i q.1 by ring, coeff_sub_mul_monomial,
          if_pos (by omega), Nat.add_sub_cancel_left, hI.eq _ (by omega)]
        ring
      have hloop := sub_loop_at (mp := ¬ ∃ Q i, DivEnd w f g Q i) (mul := (CheckedInts.integralDomain w).mul)
        (add := (CheckedInts.integralDomain w).addAssign) (b := b) (y := -q.1) (K := fun j => InRange w (g.coeff j * -q.1))
        (i := i) hw
        (fun j hj e he => by
          have := (CheckedInts.exactly_mul e b).returns (p := ∃ Q i, DivEnd w f g Q i) fun hp => by
            rw [he, hb.1]; exact ((hS.next hg hq hp).2.2 j hj).1
          rwa [he, hb.1] at this)
        (fun j hj e s he hs => by
          have := (CheckedInts.exactly_add e s).returns (p := ∃ Q i, DivEnd w f g Q i) fun hp => by
            rw [he, hs, hnew j hj]; exact ((hS.next hg hq hp).2.2 j hj).2
          rw [he, hs] at this
          exact this.mono fun _ h => h.1)
        hI.rem (by omega)
      rw [hw.1] at hloop
      refine Returns.bind hloop fun rem' hrem' => ?_
      obtain ⟨hrem', hK⟩ := hrem'
      refine ih (by omega) (hI.step (by omega) hgc (by rw [hI.eq _ (by omega)]; exact hq) hquo' hrem') ?_
      refine DivFits.step hS hF (CheckedInts.inRange_val q) hb.2 fun j hj => ⟨hK j hj, ?_⟩
      rw [← hnew j hj]
      have he := hrem'.2 (i + j) (by rw [hrem'.1]; omega)
      beta_reduce at he
      rw [if_pos (by omega), Nat.add_sub_cancel_left] at he
      rw [← he]
      exact CheckedInts.inRange_val _

/-- `try_div` of polynomials over machine integers. -/
theorem tryDiv_overflow {u v : List (SInt w)} {f g : ℤ[X]} (hf : RingPolyRep (fun (a : SInt w) x => a.1 = x) u f)
    (hg : RingPolyRep (fun (a : SInt w) x => a.1 = x) v g) (hg0 : g ≠ 0) :
    Returns (¬ ((∃ Q, DividesWithin w f g Q) ∨ StuckWithin w f g)) (tryDiv (CheckedInts.integralDomain w) u v) fun
      | some x => ∃ Q, RingPolyRep (fun (a : SInt w) x => a.1 = x) x Q ∧ DividesWithin w f g Q
      | none => StuckWithin w f g := by
  have hvl : v.length ≠ 0 := fun h => hg0 (hg.eq_zero_iff.2 h)
  have hv : v.isEmpty = false := by simpa using hvl
  obtain ⟨d, hd⟩ : ∃ d, v.length = d + 1 := ⟨v.length - 1, by omega⟩
  have hgd : g.coeff d ≠ 0 := by have := hg.last hvl; rwa [hd, Nat.add_sub_cancel] at this
  have hdeg : g.natDegree = d := by
    refine le_antisymm (natDegree_le_iff_coeff_eq_zero.2 fun k hk => hg.coeff_eq_zero k (by omega)) (le_natDegree_of_ne_zero hgd)
  subst hdeg
  have hvc := hg.cells
  rw [hd] at hvc
  have hr : ∀ k, InRange w (f.coeff k) := by
    intro k
    by_cases hk : k < u.length
    · have he := hf.cells.2 k hk
      rw [← he]
      exact CheckedInts.inRange_val _
    · rw [hf.coeff_eq_zero k (by omega)]
      exact CheckedInts.inRange_zero
  have hz : ∀ i, DivFits w f g 0 i := by
    intro i k _
    simp only [coeff_zero, neg_zero, mul_zero, Finset.sum_const_zero, sub_zero]
    exact ⟨CheckedInts.inRange_zero, CheckedInts.inRange_zero, fun j _ => ⟨CheckedInts.inRange_zero, hr _⟩⟩
  unfold tryDiv
  rw [hv]
  show Returns _ (if u.length < v.length then _ else _) _
  split
  · rename_i hlt
    split
    · rename_i hu
      obtain rfl : u = [] := by simpa using hu
      have hf0 : f = 0 := hf.eq_zero_iff.2 rfl
      refine ⟨0, ?_, by rw [hf0, mul_zero], hz 0⟩
      rwa [hf0] at hf
    · rename_i hu
      have hul : u.length ≠ 0 := by simpa using hu
      refine ⟨0, 0, hz 0, fun l _ => coeff_zero l, fun k hk => ?_, fun h0 => hf.last hul ?_, fun h => absurd rfl h⟩
      · rw [mul_zero, sub_zero]; exact hf.coeff_eq_zero k (by omega)
      · rw [mul_zero, sub_zero] at h0; rw [h0, coeff_zero]
  · rename_i hlt
    refine Returns.bind (P := fun z : SInt w => z.1 = 0) (show _ = _ from rfl) fun z hz0 => ?_
    refine Returns.bind (hg.cells.idx (i := v.length - 1) (by omega)) fun a ha => ?_
    rw [hd, Nat.add_sub_cancel, coeff_natDegree] at ha
    have hiz : ∀ {mp : Prop} (a : SInt w) (x : ℤ), a.1 = x → Decides mp ((CheckedInts.integralDomain w).isZero a) (x = 0) := by
      rintro mp a x rfl
      exact decides_ok (by simp)
    refine Decides.assertNot (hiz a _ ha) (leadingCoeff_ne_zero.2 hg0) ?_
    rw [List.length_replicate]
    obtain ⟨m, hm⟩ : ∃ m, u.length - v.length + 1 = m := ⟨_, rfl⟩
    have hml : u.length = m + g.natDegree := by omega
    rw [hm]
    have huc := hf.cells
    rw [hml] at huc
    have hfc := hf.coeff_eq_zero
    rw [hml] at hfc
    rw [← divEnd_iff]
    refine Returns.bind (tryDivLoop_machine hg0 hvc ha m le_rfl (DivInv.init hz0 huc hfc) (hz m)) fun o ho => ?_
    cases o with
    | none =>
      obtain ⟨Q, i, h, hi⟩ := ho
      refine ⟨Q, i, h.fits, h.low, h.zero, fun h0 => h.stuck hi ?_, h.stuck⟩
      rw [h0, coeff_zero]
      exact dvd_zero _
    | some p =>
      obtain ⟨quo, rem⟩ := p
      obtain ⟨Q, c, hI, hF⟩ := ho
      have hgc : ∀ k, g.natDegree + 1 ≤ k → g.coeff k = 0 := fun k hk => coeff_eq_zero_of_natDegree_lt (by omega)
      have hlast : Q.coeff (m - 1) ≠ 0 :=
        hI.quo_last (by omega) hgc (by rw [← hml]; exact hf.last (by omega))
      have hall : Decides (¬ ∃ Q i, DivEnd w f g Q i) (allRes (fun d => (CheckedInts.integralDomain w).isZero d) (rem.take (v.length - 1)))
          (∀ k, k < g.natDegree → (f - g * Q).coeff k = 0) := by
        rw [hd, Nat.add_sub_cancel]
        refine (hI.rem.take (m := g.natDegree) (by omega)).all fun k hk a ha => ?_
        rw [hI.eq k (by omega)] at ha
        exact hiz a _ ha
      refine Decides.bind hall (fun h0 => ?_) fun h0 => ?_
      · refine ⟨Q, RingPolyRep.mk hI.quo hI.high fun _ => hlast, ?_, hF⟩
        rw [← sub_eq_zero]
        ext k
        rw [coeff_zero]
        by_cases hk : k < g.natDegree
        · exact h0 k hk
        · exact hI.zero k (by omega)
      · refine ⟨Q, 0, hF, hI.low, hI.zero, fun h => h0 fun k _ => by rw [h, coeff_zero], fun h => absurd rfl h⟩

/-- A quotient without overflow is the outcome. -/
theorem divides_unique {f g Q Q' : ℤ[X]} (hg : g ≠ 0) (h : DividesWithin w f g Q) (h' : f = g * Q') : Q = Q' :=
  mul_left_cancel₀ hg (h.1.symm.trans h')

theorem divides_not_stuck {f g Q : ℤ[X]} (hg : g ≠ 0) (h : f = g * Q) : ¬ StuckWithin w f g := by
  rintro ⟨Q', i, h1, h2, h3, h4, h5⟩
  have hS : DivState f g Q 0 := ⟨fun l hl => absurd hl (by omega), fun k _ => by rw [h, sub_self, coeff_zero]⟩
  obtain ⟨hi, ha⟩ := hS.agree (w := w) (Q' := Q') (i' := i) hg ⟨⟨h2, h3⟩, h1, h5⟩
  have : Q' = Q := by ext k; exact ha k (by omega)
  exact h4 (by rw [this, h, sub_self])

end PolynomialAlgebra

end Abstalg
