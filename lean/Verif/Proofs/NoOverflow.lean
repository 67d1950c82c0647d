import Verif.Proofs.CheckedGcd
import Verif.Proofs.CheckedInts
import Verif.Proofs.PolyRing
import Verif.Proofs.Vectors
import Verif.Spec.Machine
import Verif.Model.PolynomialAlgebra
import Verif.Model.ReducedFractions

/-! # Overflow in polynomials and vectors over machine integers -/

set_option linter.unusedSectionVars false

set_option autoImplicit false

universe u v

namespace Abstalg

open Polynomial

section basics

variable {α : Type u} {p : Prop} {c : Res α} {P : α → Prop}

/-- To return exactly under a condition is to panic only if it fails and to return only if it
holds. -/
theorem returnsIff_iff : ReturnsIff p c P ↔ Returns (¬ p) c fun a => p ∧ P a := by
  unfold ReturnsIff Returns
  cases c with
  | ok a =>
    refine ⟨fun h => ?_, fun h => ⟨fun _ => ⟨a, rfl, h.2⟩, fun hn => absurd h.1 hn⟩⟩
    by_cases hp : p
    · obtain ⟨b, hb, hP⟩ := h.1 hp
      cases hb
      exact ⟨hp, hP⟩
    · exact absurd (h.2 hp) nofun
  | panic =>
    refine ⟨fun h hp => ?_, fun hn => ⟨fun hp => absurd hp hn, fun _ => rfl⟩⟩
    obtain ⟨b, hb, -⟩ := h.1 hp
    exact absurd hb nofun
  | diverge =>
    refine ⟨fun h => ?_, nofun⟩
    by_cases hp : p
    · obtain ⟨b, hb, -⟩ := h.1 hp
      exact absurd hb nofun
    · exact absurd (h.2 hp) nofun

theorem ReturnsIff.congr {q : Prop} (h : ReturnsIff p c P) (hpq : p ↔ q) : ReturnsIff q c P := by
  rwa [← propext hpq]

/-- A machine operation inside a computation with the overall condition `p`. -/
theorem Exactly.returns {w : ℕ} {c : Res (SInt w)} {x : ℤ} (h : Exactly c x)
    (hp : p → InRange w x) : Returns (¬ p) c fun a => a.1 = x ∧ InRange w x := by
  by_cases hx : InRange w x
  · obtain ⟨a, rfl, ha⟩ := h.1 hx
    exact ⟨ha, hx⟩
  · rw [h.2 hx]
    exact fun hp' => hx (hp hp')

end basics

namespace CheckedInts

variable [Cfg] {w : ℕ} [Width w]

theorem inRange_val (a : SInt w) : InRange w a.1 := by
  have := a.2
  unfold sMin sMax at this
  unfold InRange
  omega

theorem inRange_zero : InRange w 0 := inRange_val (c0 w)

theorem exactly_unwrap (x : ℤ) : Exactly (Res.unwrap (SInt.ofInt? x : Option (SInt w))) x := by
  unfold Exactly SInt.ofInt?
  by_cases hx : sMin w ≤ x ∧ x ≤ sMax w
  · rw [dif_pos hx]
    exact ⟨fun _ => ⟨⟨x, hx⟩, rfl, rfl⟩, fun h => absurd (inRange_val ⟨x, hx⟩) h⟩
  · rw [dif_neg hx]
    refine ⟨fun h => absurd ?_ hx, fun _ => rfl⟩
    unfold sMin sMax
    unfold InRange at h
    omega

theorem exactly_add (a b : SInt w) : Exactly ((unitaryRing w).add a b) (a.1 + b.1) :=
  exactly_unwrap _

theorem exactly_sub (a b : SInt w) : Exactly ((unitaryRing w).sub a b) (a.1 - b.1) :=
  exactly_unwrap _

theorem exactly_mul (a b : SInt w) : Exactly ((unitaryRing w).mul a b) (a.1 * b.1) :=
  exactly_unwrap _

theorem exactly_neg (a : SInt w) : Exactly ((unitaryRing w).neg a) (-a.1) := by
  show Exactly (Res.unwrap (SInt.ofInt? ((c0 w).1 - a.1))) (-a.1)
  rw [show -a.1 = (c0 w).1 - a.1 from (zero_sub _).symm]
  exact exactly_unwrap _

theorem exactly_times (n : ℤ) (a : SInt w) {p : Prop} (hp : p → InRange w n ∧ InRange w (n * a.1)) :
    Returns (¬ p) ((unitaryRing w).times n a) fun c =>
      c.1 = n * a.1 ∧ InRange w n ∧ InRange w (n * a.1) := by
  show Returns _ (Res.unwrap (SInt.ofInt? n) >>= fun num : SInt w =>
    Res.unwrap (SInt.ofInt? (a.1 * num.1))) _
  refine Returns.bind ((exactly_unwrap n).returns fun h => (hp h).1) fun m hm => ?_
  refine ((exactly_unwrap (a.1 * m.1)).returns fun h => ?_).mono fun c hc => ?_
  · rw [hm.1, mul_comm]; exact (hp h).2
  · rw [hm.1, mul_comm] at hc
    exact ⟨hc.1, hm.2, hc.2⟩

end CheckedInts

namespace PolynomialAlgebra

open CheckedInts

variable [Cfg] {w : ℕ} [Width w]

theorem coeff_monomial_mul' (q : ℤ[X]) (l k : ℕ) (x : ℤ) :
    (monomial l x * q).coeff k = if l ≤ k then x * q.coeff (k - l) else 0 := by
  rw [← C_mul_X_pow_eq_monomial, mul_assoc, coeff_C_mul, coeff_X_pow_mul', mul_ite, mul_zero]

/-- The partial sums that `mul` forms. -/
theorem upTo_mul_coeff (p q : ℤ[X]) (i k : ℕ) : (upTo p i * q).coeff k =
    ∑ l ∈ Finset.range i, if l ≤ k then p.coeff l * q.coeff (k - l) else 0 := by
  unfold upTo
  rw [Finset.sum_mul, finsetSum_coeff]
  refine Finset.sum_congr rfl fun l _ => ?_
  rw [coeff_monomial_mul']

/-- The condition under which `mul` does not overflow. -/
def MulFits (w : ℕ) (p q : ℤ[X]) : Prop :=
  (∀ i j, InRange w (p.coeff i * q.coeff j)) ∧ ∀ i k, InRange w ((upTo p i * q).coeff k)

theorem mul_returnsIff {u v : List (SInt w)} {p q : ℤ[X]} (hp : RingPolyRep (SRep w) u p)
    (hq : RingPolyRep (SRep w) v q) :
    ReturnsIff (MulFits w p q) (mul (CheckedInts.unitaryRing w) u v)
      (RingPolyRep (SRep w) · (p * q)) := by
  rw [returnsIff_iff]
  have hval := mul_spec (CheckedInts.unitaryRing_spec w) hp hq
  by_cases hn : u.length = 0
  · obtain rfl : u = [] := List.length_eq_zero_iff.1 hn
    have hp0 := hp.eq_zero_iff.2 hn
    refine ⟨?_, hval⟩
    subst hp0
    refine ⟨fun i j => by simpa using inRange_zero, fun i k => ?_⟩
    rw [upTo_mul_coeff]
    simpa using inRange_zero
  by_cases hm : v.length = 0
  · obtain rfl : v = [] := List.length_eq_zero_iff.1 hm
    have hq0 := hq.eq_zero_iff.2 hm
    have he : mul (CheckedInts.unitaryRing w) u [] = .ok [] := by
      unfold mul; rw [if_pos (by simp)]
    rw [he] at hval ⊢
    refine ⟨?_, hval⟩
    subst hq0
    refine ⟨fun i j => by simpa using inRange_zero, fun i k => ?_⟩
    rw [mul_zero, coeff_zero]
    exact inRange_zero
  have hval' : ∀ {x}, mul (CheckedInts.unitaryRing w) u v = .ok x → RingPolyRep (SRep w) x (p * q) :=
    fun {x} hx => by rw [hx] at hval; exact hval
  suffices h : Returns (¬ MulFits w p q) (mul (CheckedInts.unitaryRing w) u v) fun _ =>
      (∀ i, i < u.length → ∀ j, j < v.length → InRange w (p.coeff i * q.coeff j) ∧
        InRange w ((upTo p (i + 1) * q).coeff (i + j))) by
    revert h hval'
    cases mul (CheckedInts.unitaryRing w) u v with
    | ok x =>
      intro hx h
      refine ⟨⟨fun i j => ?_, fun i => ?_⟩, hx rfl⟩
      · by_cases hi : i < u.length
        · by_cases hj : j < v.length
          · exact (h i hi j hj).1
          · rw [hq.coeff_eq_zero j (by omega), mul_zero]; exact inRange_zero
        · rw [hp.coeff_eq_zero i (by omega), zero_mul]; exact inRange_zero
      · induction i with
        | zero => intro k; rw [upTo_zero, zero_mul, coeff_zero]; exact inRange_zero
        | succ i ih =>
          intro k
          by_cases hc : i < u.length ∧ i ≤ k ∧ k - i < v.length
          · have := (h i hc.1 (k - i) hc.2.2).2
            rwa [Nat.add_sub_of_le hc.2.1] at this
          · have : (upTo p (i + 1) * q).coeff k = (upTo p i * q).coeff k := by
              rw [upTo_succ, add_mul, coeff_add, coeff_monomial_mul']
              split
              · rename_i hik
                by_cases hi : i < u.length
                · rw [hq.coeff_eq_zero (k - i) (by omega), mul_zero, add_zero]
                · rw [hp.coeff_eq_zero i (by omega), zero_mul, add_zero]
              · rw [add_zero]
            rw [this]; exact ih k
    | panic => intro _ h; exact h
    | diverge => intro _ h; exact h
  unfold mul
  rw [if_neg (by simpa using ⟨by simpa using hn, by simpa using hm⟩)]
  refine Returns.bind (P := fun z => SRep w z 0) rfl fun z hz => ?_
  refine (forLoop_range (fun i x => Cells (SRep w) x (u.length + v.length - 1) (upTo p i * q).coeff ∧
    ∀ i', i' < i → ∀ j, j < v.length → InRange w (p.coeff i' * q.coeff j) ∧
        InRange w ((upTo p (i' + 1) * q).coeff (i' + j)))
    ⟨?_, by omega⟩ fun i hi x hx => ?_).mono fun x hx => hx.2
  · exact (Cells.replicate hz).congr fun k _ => by rw [upTo_zero, zero_mul, coeff_zero]
  refine (forLoop_range (fun j x => Cells (SRep w) x (u.length + v.length - 1)
      (upTo p i * q + monomial i (p.coeff i) * upTo q j).coeff ∧
      ∀ j', j' < j → InRange w (p.coeff i * q.coeff j') ∧
        InRange w ((upTo p (i + 1) * q).coeff (i + j'))) ⟨?_, by omega⟩ fun j hj y hy => ?_).mono
      fun y hy => ⟨?_, fun i' hi' j hj => ?_⟩
  · simpa [upTo_zero] using hx.1
  · have hkey : (upTo p i * q + monomial i (p.coeff i) * upTo q j).coeff (i + j) +
        p.coeff i * q.coeff j = (upTo p (i + 1) * q).coeff (i + j) := by
      have h1 : (monomial i (p.coeff i) * upTo q j).coeff (i + j) = 0 := by
        rw [coeff_monomial_mul', if_pos (by omega), upTo_coeff, if_neg (by omega), mul_zero]
      have h2 : (monomial i (p.coeff i) * q).coeff (i + j) = p.coeff i * q.coeff j := by
        rw [coeff_monomial_mul', if_pos (by omega), Nat.add_sub_cancel_left]
      rw [upTo_succ, add_mul, coeff_add, coeff_add, h1, h2, add_zero]
    refine Returns.bind (hp.cells.idx hi) fun a ha => Returns.bind (hq.cells.idx hj) fun b hb => ?_
    have ha : a.1 = p.coeff i := ha
    have hb : b.1 = q.coeff j := hb
    refine Returns.bind ((exactly_mul a b).returns (p := MulFits w p q) fun h => ?_) fun s hs => ?_
    · rw [ha, hb]; exact h.1 i j
    rw [ha, hb] at hs
    refine Returns.bind (hy.1.idx (i := i + j) (by omega)) fun t ht => ?_
    have ht : t.1 = (upTo p i * q + monomial i (p.coeff i) * upTo q j).coeff (i + j) := ht
    refine Returns.bind ((exactly_add t s).returns (p := MulFits w p q) fun h => ?_) fun r hr => ?_
    · rw [ht, hs.1, hkey]; exact h.2 _ _
    refine (hy.1.setIdx (i := i + j) (by omega) (show SRep w r _ from hr.1)).mono fun y' hy' =>
      ⟨hy'.congr fun k _ => ?_, fun j' hj' => ?_⟩
    · rw [upTo_succ, mul_add, ← add_assoc, coeff_add _ (monomial i _ * monomial j _),
        monomial_mul_monomial, coeff_monomial]
      by_cases hk : k = i + j
      · subst hk; simp [ht, hs.1]
      · rw [Function.update_of_ne hk, if_neg (Ne.symm hk), add_zero]
    · by_cases hjj : j' = j
      · subst hjj
        refine ⟨hs.2, ?_⟩
        have := hr.2
        rwa [ht, hs.1, hkey] at this
      · exact hy.2 j' (by omega)
  · have := hy.1
    rw [upTo_eq hq.coeff_eq_zero] at this
    rwa [upTo_succ, add_mul]
  · by_cases hii : i' = i
    · subst hii; exact hy.2 j hj
    · exact hx.2 i' (by omega) j hj

/-- Every coefficient is representable. -/
def CoeffFits (w : ℕ) (p : ℤ[X]) : Prop := ∀ i, InRange w (p.coeff i)

theorem _root_.Abstalg.RingPolyRep.fits {u : List (SInt w)} {p : ℤ[X]}
    (hp : RingPolyRep (SRep w) u p) : CoeffFits w p := fun i => by
  by_cases hi : i < u.length
  · have : (u[i]).1 = p.coeff i := hp.1 i hi
    rw [← this]; exact inRange_val _
  · rw [hp.coeff_eq_zero i (by omega)]; exact inRange_zero

/-- With a correct result if there is one, it is enough to know when the call returns. -/
theorem _root_.Abstalg.returnsIff_of_returns {α : Type u} {p : Prop} {c : Res α} {P Q : α → Prop}
    (h : Returns True c P) (h' : Returns (¬ p) c Q) (hp : ∀ {a}, P a → p) : ReturnsIff p c P := by
  rw [returnsIff_iff]
  cases c with
  | ok a => exact ⟨hp h, h⟩
  | panic => exact h'
  | diverge => exact h'

theorem add_longer_fits {u v : List (SInt w)} {c d : ℕ → ℤ} (hc : Cells (SRep w) u u.length c)
    (hd : Cells (SRep w) v v.length d) (hl : v.length < u.length) {G : Prop}
    (hG : G → ∀ i, InRange w (c i + d i)) :
    Returns (¬ G) (forLoop (List.range v.length) u fun x i => do
      let a ← (CheckedInts.unitaryRing w).add (← idx x i) (← idx v i)
      setIdx x i a) fun _ => True := by
  refine (forLoop_range (fun i x => Cells (SRep w) x u.length fun k => if k < i then c k + d k else c k)
    (by simpa using hc) fun i hi x hx => ?_).mono fun x hx => trivial
  refine Returns.bind (hx.idx (i := i) (by omega)) fun a ha =>
      Returns.bind (hd.idx hi) fun b hb => ?_
  rw [if_neg (lt_irrefl i)] at ha
  have ha : a.1 = c i := ha
  have hb : b.1 = d i := hb
  refine Returns.bind ((exactly_add a b).returns (p := G) fun h => ?_) fun s hs => ?_
  · rw [ha, hb]; exact hG h i
  refine (hx.setIdx (i := i) (by omega) (show SRep w s _ from hs.1)).mono fun x' hx' => hx'.congr fun k _ => ?_
  by_cases hk : k = i
  · subst hk; simp [ha, hb]
  · rw [Function.update_of_ne hk]
    by_cases h1 : k < i
    · rw [if_pos h1, if_pos (by omega)]
    · rw [if_neg h1, if_neg (by omega)]

theorem add_fits {u v : List (SInt w)} {p q : ℤ[X]} (hp : RingPolyRep (SRep w) u p)
    (hq : RingPolyRep (SRep w) v q) {G : Prop} (hG : G → CoeffFits w (p + q)) :
    Returns (¬ G) (add (CheckedInts.unitaryRing w).toAbelianGroupOps u v) fun _ => True := by
  have hG' : G → ∀ i, InRange w (p.coeff i + q.coeff i) := fun h i => by
    rw [← coeff_add]; exact hG h i
  unfold add
  split
  · by_cases hlt : u.length > v.length
    · simp only [hlt, if_true]
      exact add_longer_fits hp.cells hq.cells hlt hG'
    · simp only [hlt, if_false]
      exact add_longer_fits hq.cells hp.cells (by omega) fun h i => by
        rw [add_comm]; exact hG' h i
  · rename_i hl
    have hl : u.length = v.length := by simpa using hl
    refine (forLoop_range (fun i x => x.length ≤ i) (le_refl 0) fun i hi x hx => ?_).mono
      fun _ _ => trivial
    refine Returns.bind (hp.cells.idx hi) fun a ha =>
      Returns.bind (hq.cells.idx (i := i) (by omega)) fun b hb => ?_
    have ha : a.1 = p.coeff i := ha
    have hb : b.1 = q.coeff i := hb
    refine Returns.bind ((exactly_add a b).returns (p := G) fun h => ?_) fun s hs => ?_
    · rw [ha, hb]; exact hG' h i
    show Returns _ (Res.ok (s.1 == 0) >>= fun z => if (!z) = true then _ else _) _
    by_cases hz : s.1 = 0
    · simp [hz]
      exact Nat.le_succ_of_le hx
    · simp [hz]
      show Returns _ (Res.ok (c0 w) >>= fun o => setIdx (resize x (i + 1) o) i s) _
      rw [ok_bind]
      have hlen : (resize x (i + 1) (c0 w)).length = i + 1 := by
        unfold resize
        simp
        omega
      rw [Abstalg.setIdx, if_pos (by omega)]
      show (List.set _ _ _).length ≤ _
      rw [List.length_set, hlen]

theorem add_returnsIff {u v : List (SInt w)} {p q : ℤ[X]} (hp : RingPolyRep (SRep w) u p)
    (hq : RingPolyRep (SRep w) v q) :
    ReturnsIff (CoeffFits w (p + q)) (add (CheckedInts.unitaryRing w).toAbelianGroupOps u v)
      (RingPolyRep (SRep w) · (p + q)) :=
  returnsIff_of_returns ((polyGroup_spec (CheckedInts.unitaryRing_spec w)).add hp hq)
    (add_fits hp hq id) fun h => h.fits

theorem map_fits {f : SInt w → Res (SInt w)} {g : ℤ → ℤ} {n : ℕ} {u : List (SInt w)} {c : ℕ → ℤ}
    {G : Prop} (hu : Cells (SRep w) u n c)
    (hf : ∀ i, i < n → ∀ a : SInt w, a.1 = c i → Returns (¬ G) (f a) fun b => b.1 = g (c i)) :
    Returns (¬ G) (mapRes f u) fun x => Cells (SRep w) x n fun i => g (c i) :=
  hu.map (rep' := SRep w) fun i hi a ha => hf i hi a ha

theorem neg_fits {u : List (SInt w)} {p : ℤ[X]} (hp : RingPolyRep (SRep w) u p) {G : Prop}
    (hG : G → CoeffFits w (-p)) :
    Returns (¬ G) ((abelianGroup (CheckedInts.unitaryRing w).toAbelianGroupOps).neg u) fun x =>
      RingPolyRep (SRep w) x (-p) := by
  have hval := (polyGroup_spec (CheckedInts.unitaryRing_spec w)).neg hp
  have := map_fits (G := G) (g := fun x => -x) hp.cells (f := (CheckedInts.unitaryRing w).neg)
    fun i hi a ha => ((exactly_neg a).returns fun h => by
      rw [ha, ← coeff_neg]; exact hG h i).mono fun b hb => by rw [hb.1, ha]
  change Returns (¬ G) ((abelianGroup (CheckedInts.unitaryRing w).toAbelianGroupOps).neg u) _ at this
  revert hval this
  cases (abelianGroup (CheckedInts.unitaryRing w).toAbelianGroupOps).neg u with
  | ok x => exact fun h _ => h
  | panic => exact fun _ h => h
  | diverge => exact fun _ h => h

theorem neg_returnsIff {u : List (SInt w)} {p : ℤ[X]} (hp : RingPolyRep (SRep w) u p) :
    ReturnsIff (CoeffFits w (-p))
      ((abelianGroup (CheckedInts.unitaryRing w).toAbelianGroupOps).neg u)
      (RingPolyRep (SRep w) · (-p)) :=
  returnsIff_of_returns ((polyGroup_spec (CheckedInts.unitaryRing_spec w)).neg hp)
    (neg_fits hp id) fun h => h.fits

theorem sub_returnsIff {u v : List (SInt w)} {p q : ℤ[X]} (hp : RingPolyRep (SRep w) u p)
    (hq : RingPolyRep (SRep w) v q) :
    ReturnsIff (CoeffFits w (-q) ∧ CoeffFits w (p - q))
      ((abelianGroup (CheckedInts.unitaryRing w).toAbelianGroupOps).sub u v)
      (RingPolyRep (SRep w) · (p - q)) := by
  rw [returnsIff_iff]
  have hval := (polyGroup_spec (CheckedInts.unitaryRing_spec w)).sub hp hq
  have hq' := neg_fits hq (G := CoeffFits w (-q) ∧ CoeffFits w (p - q)) fun h => h.1
  have : Returns (¬ (CoeffFits w (-q) ∧ CoeffFits w (p - q)))
      ((abelianGroup (CheckedInts.unitaryRing w).toAbelianGroupOps).sub u v)
      fun _ => CoeffFits w (-q) := by
    refine Returns.bind hq' fun x hx => ?_
    refine (add_fits hx hp (G := CoeffFits w (-q) ∧ CoeffFits w (p - q)) fun h => ?_).mono
      fun _ _ => hx.fits
    rw [neg_add_eq_sub]; exact h.2
  revert hval this
  cases (abelianGroup (CheckedInts.unitaryRing w).toAbelianGroupOps).sub u v with
  | ok x => exact fun h h' => ⟨⟨h', RingPolyRep.fits h⟩, h⟩
  | panic => exact fun _ h => h
  | diverge => exact fun h _ => h

theorem timesTrim_fits {u : List (SInt w)} {c : ℕ → ℤ} {N : ℕ} (hc : Cells (SRep w) u N c)
    {G : Prop} : ∀ n, n ≤ N → (∀ i, n ≤ i → c i = 0) →
      Returns G (timesTrim (CheckedInts.unitaryRing w).toAbelianGroupOps u n) (Canon (SRep w) · c) := by
  intro n hn h0
  have h1 := timesTrim_spec (CheckedInts.unitaryRing_spec w).toAbelianGroupSpec hc n hn h0
  have h2 : Returns G (timesTrim (CheckedInts.unitaryRing w).toAbelianGroupOps u n) fun _ => True := by
    clear h1 h0
    induction n with
    | zero => trivial
    | succ n ih =>
      refine Returns.bind (hc.idx (i := n) (by omega)) fun a ha => ?_
      show Returns G (Res.ok (a.1 == 0) >>= fun z => if (!z) = true then _ else _) _
      by_cases hz : a.1 = 0
      · simp [hz]
        exact ih (by omega)
      · simp [hz]
        trivial
  revert h1 h2
  cases timesTrim (CheckedInts.unitaryRing w).toAbelianGroupOps u n with
  | ok x => exact fun h _ => h
  | panic => exact fun _ h => h
  | diverge => exact fun h _ => h

theorem times_returnsIff {u : List (SInt w)} {p : ℤ[X]} (hp : RingPolyRep (SRep w) u p) (n : ℤ) :
    ReturnsIff (p = 0 ∨ InRange w n ∧ CoeffFits w (n • p))
      ((abelianGroup (CheckedInts.unitaryRing w).toAbelianGroupOps).times n u)
      (RingPolyRep (SRep w) · (n • p)) := by
  rw [returnsIff_iff]
  by_cases h0 : p = 0
  · have hu : u = [] := List.length_eq_zero_iff.1 (hp.eq_zero_iff.1 h0)
    subst hu
    refine ⟨.inl h0, ?_⟩
    rw [h0, smul_zero, ← h0]
    exact hp
  have hl : u.length ≠ 0 := fun h => h0 (hp.eq_zero_iff.2 h)
  set G := p = 0 ∨ InRange w n ∧ CoeffFits w (n • p) with hG
  have hmap : Returns (¬ G) (mapRes (fun a => (CheckedInts.unitaryRing w).times n a) u) fun x =>
      Cells (fun a z => a.1 = z ∧ InRange w n) x u.length fun i => n * p.coeff i := by
    refine hp.cells.map fun i hi a ha => ?_
    have ha : a.1 = p.coeff i := ha
    refine (exactly_times n a (p := G) fun h => ?_).mono fun b hb => ⟨by rw [hb.1, ha], hb.2.1⟩
    rcases h with h | h
    · exact absurd h h0
    · refine ⟨h.1, ?_⟩
      rw [ha, ← smul_eq_mul, ← coeff_smul]; exact h.2 i
  refine Returns.bind hmap fun x hx => ?_
  have hn : InRange w n := (hx.2 0 (by rw [hx.1]; omega)).2
  have hx' : Cells (SRep w) x u.length fun i => n * p.coeff i := ⟨hx.1, fun i hi => (hx.2 i hi).1⟩
  rw [hx.1]
  refine (timesTrim_fits hx' _ le_rfl fun i hi => by rw [hp.coeff_eq_zero i hi, mul_zero]).mono
    fun y hy => ?_
  have hy' : RingPolyRep (SRep w) y (n • p) := by
    refine canon_iff.2 ?_
    have : (n • p).coeff = fun i => n * p.coeff i := by
      funext i; rw [coeff_smul, smul_eq_mul]
    rwa [this]
  exact ⟨.inr ⟨hn, hy'.fits⟩, hy'⟩

end PolynomialAlgebra

namespace VectorAlgebra

open CheckedInts

variable [Cfg] {w n : ℕ} [Width w] {u v : List (SInt w)} {f g : Fin n → ℤ}

theorem zipMap_returnsIff {op : SInt w → SInt w → Res (SInt w)} {o : ℤ → ℤ → ℤ}
    (h : ∀ a b : SInt w, Exactly (op a b) (o a.1 b.1)) (hu : VecRep (SRep w) u f)
    (hv : VecRep (SRep w) v g) :
    ReturnsIff (∀ i, InRange w (o (f i) (g i))) (zipMap n op u v)
      (VecRep (SRep w) · fun i => o (f i) (g i)) := by
  rw [returnsIff_iff]
  unfold zipMap
  rw [lenIs_eq hu, lenIs_eq hv]
  refine (((vecRep_iff.1 hu).zip (vecRep_iff.1 hv)).map
    (rep' := fun a P => P a) (d := cellOf (fun (a : SInt w) z => a.1 = z ∧ InRange w z)
      fun i => o (f i) (g i)) fun i hi p hp => ?_).mono fun x hx => ?_
  · obtain ⟨⟨h1, h2⟩, h3, h4⟩ := hp
    have h2 : p.1.1 = f ⟨i, hi⟩ := h2
    have h4 : p.2.1 = g ⟨i, hi⟩ := h4
    refine ((h p.1 p.2).returns fun h' => ?_).mono fun a ha => ⟨hi, ?_⟩
    · rw [h2, h4]; exact h' _
    · rwa [h2, h4] at ha
  · have hx := vecRep_iff.2 hx
    obtain ⟨hl, hx⟩ := hx
    exact ⟨fun i => (hx i).2, hl, fun i => (hx i).1⟩

theorem mapEach_returnsIff {op : SInt w → Res (SInt w)} {o : ℤ → ℤ}
    (h : ∀ a : SInt w, Exactly (op a) (o a.1)) (hu : VecRep (SRep w) u f) :
    ReturnsIff (∀ i, InRange w (o (f i))) (mapEach n op u) (VecRep (SRep w) · fun i => o (f i)) := by
  rw [returnsIff_iff]
  unfold mapEach
  rw [lenIs_eq hu]
  refine ((vecRep_iff.1 hu).map
    (rep' := fun a P => P a) (d := cellOf (fun (a : SInt w) z => a.1 = z ∧ InRange w z)
      fun i => o (f i)) fun i hi p hp => ?_).mono fun x hx => ?_
  · obtain ⟨h1, h2⟩ := hp
    have h2 : p.1 = f ⟨i, hi⟩ := h2
    refine ((h p).returns fun h' => ?_).mono fun a ha => ⟨hi, ?_⟩
    · rw [h2]; exact h' _
    · rwa [h2] at ha
  · obtain ⟨hl, hx⟩ := vecRep_iff.2 hx
    exact ⟨fun i => (hx i).2, hl, fun i => (hx i).1⟩

end VectorAlgebra

namespace ReducedFractions

open CheckedInts

variable [Cfg] {w : ℕ} [Width w]

/-- The greatest common divisor with a positive second argument is returned and positive. -/
theorem gcd_pos (k : ℕ) : ∀ a b : SInt w, 0 ≤ b.1 → (0 < b.1 ∨ 0 < a.1) → b.1.toNat ≤ k →
    ∃ g, (euclidean w).gcd a b = .ok g ∧ 0 < g.1 := by
  induction k with
  | zero =>
    intro a b hb hab hk
    have hb0 : b.1 = 0 := by omega
    exact ⟨a, gcd_zero w a b hb0, by omega⟩
  | succ k ih =>
    intro a b hb hab hk
    by_cases hb0 : b.1 = 0
    · exact ⟨a, gcd_zero w a b hb0, by omega⟩
    · rw [gcd_step w a b hb0 fun h => by have := h.2; omega]
      have h1 := Int.emod_nonneg a.1 hb0
      have h2 := Int.emod_lt_of_pos a.1 (show 0 < b.1 by omega)
      refine ih b _ h1 (.inr (by omega)) ?_
      show (a.1 % b.1).toNat ≤ k
      omega

theorem quo_ok (a b : SInt w) (hb : 0 < b.1) : ∃ q, (euclidean w).quo a b = .ok q ∧ q.1 = a.1 / b.1 := by
  refine ⟨SInt.mk (a.1 / b.1) (fits_ediv w a.2 (by omega) fun h => by omega), ?_, rfl⟩
  show ((euclidean w).quoRem a b >>= fun p => pure p.1) = _
  rw [quoRem_eq w a b (by omega) fun h => by have := h.2; omega]
  rfl

/-- `reduce` does not overflow for positive denominators. -/
theorem reduce_ok (n d : SInt w) (hd : 0 < d.1) : ∃ e, reduce (euclidean w) (n, d) = .ok e := by
  obtain ⟨g, hg, hg0⟩ := gcd_pos d.1.toNat n d hd.le (.inl hd) le_rfl
  have hgd : g.1 ∣ d.1 := by
    obtain ⟨g', x', y', h3, h4, h5, h6, -⟩ :=
      extendedGcd_total w n d fun h => by have := h.2; omega
    obtain ⟨g'', x'', y'', h7, h8⟩ := gcd_total w n d fun h => by have := h.2; omega
    rw [h8] at h3
    cases h3
    rw [hg] at h7
    cases h7
    exact h6
  obtain ⟨q, hq, -⟩ := quo_ok n g hg0
  obtain ⟨q', hq', hq2⟩ := quo_ok d g hg0
  have hpos : 0 < q'.1 := by
    rw [hq2]
    exact Int.ediv_pos_of_pos_of_dvd hd hg0.le hgd
  have h1 : (d.1 == 0) = false := by simp; omega
  have h2 : (euclidean w).associateCoef q' = .ok (c1 w) := by
    show (Res.assert (q' != c0 w) >>= fun _ => if q'.1 < (c0 w).1 then _ else _) = _
    rw [beq_c0, decide_eq_true (by omega), if_neg (show ¬ q'.1 < (c0 w).1 from not_lt.2 hpos.le)]
    rfl
  refine ⟨(q, q'), ?_⟩
  show (Res.ok (d.1 == 0) >>= fun z => Res.assert (!z) >>= fun _ => (euclidean w).gcd n d >>= fun g =>
    (euclidean w).quo n g >>= fun q => (euclidean w).quo d g >>= fun q' =>
      (euclidean w).associateCoef q' >>= fun c => (euclidean w).isOne c >>= fun b =>
        if (!b) = true then _ else _) = _
  rw [h1, ok_bind, hg]
  show ((euclidean w).quo n g >>= fun q => (euclidean w).quo d g >>= fun q' =>
      (euclidean w).associateCoef q' >>= fun c => (euclidean w).isOne c >>= fun b =>
        if (!b) = true then _ else _) = _
  rw [hq, ok_bind, hq', ok_bind, h2, ok_bind]
  rfl

end ReducedFractions


end Abstalg
