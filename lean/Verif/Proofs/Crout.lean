import Verif.Spec.Crout
import Mathlib.Algebra.BigOperators.Fin
import Mathlib.Tactic.Push

/-! # Proofs about the factors that the elimination of the determinant computes -/

set_option autoImplicit false

namespace Abstalg

variable {E : Type} [Cfg] {n : ℕ} {base : FieldOps E}

omit [Cfg] in
theorem factorPairs_nil {l : List (Fin n)} {c : ℕ} {L U : Fin n → Fin n → E} {r j : Fin n}
    (h : ∀ k ∈ l, ¬ (k < r ∧ k < j ∧ k.1 < c)) : factorPairs l c L U r j = [] := by
  unfold factorPairs
  rw [List.filter_eq_nil_iff.2 (fun k hk => by simpa using h k hk)]
  rfl

omit [Cfg] in
theorem factorPairs_cons {i : Fin n} {l : List (Fin n)} {c : ℕ} {L U : Fin n → Fin n → E} {r j : Fin n}
    (h : i < r ∧ i < j ∧ i.1 < c) : factorPairs (i :: l) c L U r j = (U i j, L r i) :: factorPairs l c L U r j := by
  unfold factorPairs
  rw [List.filter_cons_of_pos (by simpa using h)]
  rfl

omit [Cfg] in
theorem factorPairs_congr {l : List (Fin n)} {c : ℕ} {L U L' U' : Fin n → Fin n → E} {r j : Fin n}
    (h : ∀ k ∈ l, U k j = U' k j ∧ L r k = L' r k) : factorPairs l c L U r j = factorPairs l c L' U' r j := by
  unfold factorPairs
  refine List.map_congr_left fun k hk => ?_
  obtain ⟨h1, h2⟩ := h k (List.mem_filter.1 hk).1
  rw [h1, h2]

/-- The factors of a run on the columns of a list. -/
theorem detRun_factors {l : List (Fin n)} {A : Fin n → Fin n → E} {d x : E} (h : DetRun base l A d x)
    (hs : l.Pairwise (· < ·)) (hup : ∀ r ∈ l, ∀ s, r ≤ s → s ∈ l) :
    ∃ (c : ℕ) (σ : Equiv.Perm (Fin n)) (L U : Fin n → Fin n → E), (∀ r, r ∉ l → σ r = r) ∧
      (∀ r ∈ l, ∀ j ∈ l, (j ≤ r ∨ c ≤ r.1) → Eliminates base (A (σ r) j) (factorPairs l c L U r j) (L r j)) ∧
      (∀ r ∈ l, ∀ j ∈ l, r < j → r.1 < c → ∃ t i, Eliminates base (A (σ r) j) (factorPairs l c L U r j) t ∧
        base.inv (L r r) = .ok i ∧ base.mulAssign t i = .ok (U r j)) ∧
      (∀ r ∈ l, r.1 < c → base.isZero (L r r) = .ok false) ∧
      (c = n ∧ combineAll base.mulAssign d (l.map fun i => L i i) = .ok x ∨
        ∃ i ∈ l, i.1 = c ∧ (∀ r, i ≤ r → base.isZero (L r i) = .ok true) ∧ base.zero = .ok x) := by
  induction h with
  | done A d => exact ⟨n, 1, A, A, fun _ _ => rfl, nofun, nofun, nofun, .inl ⟨rfl, rfl⟩⟩
  | @singular i l A d z h1 h2 =>
    have hi : ∀ r ∈ i :: l, i ≤ r := fun r hr => by
      rcases List.mem_cons.1 hr with rfl | hr
      · exact le_rfl
      · exact (List.rel_of_pairwise_cons hs hr).le
    refine ⟨i.1, 1, A, A, fun _ _ => rfl, fun r hr j hj _ => ?_, fun r hr j hj _ h => ?_, fun r hr h => ?_,
      .inr ⟨i, List.mem_cons_self, rfl, h1, h2⟩⟩
    · rw [factorPairs_nil fun k hk h => absurd (hi k hk) (not_le.2 h.2.2)]
      exact .done _
    · exact absurd (hi r hr) (not_le.2 h)
    · exact absurd (hi r hr) (not_le.2 h)
  | @step i l A d x p d' c' A₁ A₂ hp hd hc hsc hle hgt hrun ih =>
    have hil : ∀ r ∈ l, i < r := fun r hr => List.rel_of_pairwise_cons hs hr
    have hinl : i ∉ l := fun h => lt_irrefl _ (hil i h)
    have hup' : ∀ r ∈ l, ∀ s, r ≤ s → s ∈ l := fun r hr s hrs => by
      rcases List.mem_cons.1 (hup r (List.mem_cons_of_mem _ hr) s hrs) with rfl | h
      · exact absurd (hil r hr) (not_lt.2 hrs)
      · exact h
    obtain ⟨c, σ, L, U, hσ, hL, hU, hpv, hx⟩ := ih hs.of_cons hup'
    have hσi : σ i = i := hσ i hinl
    have hσl : ∀ r ∈ l, σ r ∈ l := fun r hr => by
      by_contra h
      have := hσ _ h
      rw [σ.injective this] at h
      exact h hr
    have hic : i.1 < c := by
      rcases hx with ⟨rfl, -⟩ | ⟨k, hk, rfl, -⟩
      · exact i.2
      · exact hil k hk
    have hpi : p ∈ i :: l := hup i List.mem_cons_self p hp.1
    have hrow : ∀ r ∈ l, A (Equiv.swap i p (σ r)) = A₁ (σ r) := fun r hr =>
      (hsc.2 (σ r) (fun h => hinl (h ▸ hσl r hr))).symm
    let L' : Fin n → Fin n → E := fun r k => if k = i then (if r = i then A p i else A₁ (σ r) i) else L r k
    let U' : Fin n → Fin n → E := fun k j => if k = i then A₁ i j else U k j
    have hLi : L' i i = A p i := by simp [L']
    have hLri : ∀ r ∈ l, L' r i = A₁ (σ r) i := fun r hr => by simp [L', show r ≠ i from fun h => hinl (h ▸ hr)]
    have hLl : ∀ r, ∀ k ∈ l, L' r k = L r k := fun r k hk => by simp [L', show k ≠ i from fun h => hinl (h ▸ hk)]
    have hUl : ∀ k ∈ l, ∀ j, U' k j = U k j := fun k hk j => by simp [U', show k ≠ i from fun h => hinl (h ▸ hk)]
    have hUi : ∀ j, U' i j = A₁ i j := fun j => by simp [U']
    have hnil : ∀ r j, r = i ∨ j = i → factorPairs (i :: l) c L' U' r j = [] := fun r j hrj =>
      factorPairs_nil fun k hk h => by
        have hk' : i ≤ k := by
          rcases List.mem_cons.1 hk with rfl | hk
          · exact le_rfl
          · exact (hil k hk).le
        rcases hrj with rfl | rfl
        · exact absurd hk' (not_le.2 h.1)
        · exact absurd hk' (not_le.2 h.2.1)
    have hchain : ∀ r ∈ l, ∀ j ∈ l, ∀ t, Eliminates base (A₂ (σ r) j) (factorPairs l c L U r j) t →
        Eliminates base (A (Equiv.swap i p (σ r)) j) (factorPairs (i :: l) c L' U' r j) t := fun r hr j hj t ht => by
      rw [factorPairs_cons ⟨hil r hr, hil j hj, hic⟩, factorPairs_congr (L' := L) (U' := U) fun k hk => ⟨hUl k hk j, hLl r k hk⟩,
        hrow r hr, hUi, hLri r hr]
      rcases hgt (σ r) (hil _ (hσl r hr)) with ⟨h1, h2⟩ | ⟨h1, m, h2, h3⟩
      · rw [h2] at ht
        exact .skip h1 ht
      · obtain ⟨q, h4, h5⟩ := h3 j
        exact .step m q _ h1 h2 h4 h5 ht
    refine ⟨c, Equiv.swap i p * σ, L', U', fun r hr => ?_, fun r hr j hj hrj => ?_, fun r hr j hj hrj hrc => ?_, fun r hr hrc => ?_, ?_⟩
    · have h1 : r ≠ i := fun h => hr (h ▸ List.mem_cons_self)
      have h2 : r ≠ p := fun h => hr (h ▸ hpi)
      rw [Equiv.Perm.mul_apply, hσ r fun h => hr (List.mem_cons_of_mem _ h), Equiv.swap_apply_of_ne_of_ne h1 h2]
    · rw [Equiv.Perm.mul_apply]
      rcases List.mem_cons.1 hr with rfl | hr
      · have hji : j = r := by
          rcases hrj with h | h
          · rcases List.mem_cons.1 hj with h' | h'
            · exact h'
            · exact absurd (hil j h') (not_lt.2 h)
          · omega
        subst hji
        rw [hnil _ _ (.inl rfl), hσi, Equiv.swap_apply_left, hLi]
        exact .done _
      · rcases List.mem_cons.1 hj with hj | hj
        · rw [hnil _ _ (.inr hj), hrow r hr, hj, hLri r hr]
          exact .done _
        · rw [hLl r j hj]
          exact hchain r hr j hj _ (hL r hr j hj hrj)
    · rw [Equiv.Perm.mul_apply]
      rcases List.mem_cons.1 hr with rfl | hr
      · rw [hnil _ _ (.inl rfl), hσi, Equiv.swap_apply_left, hLi, hUi]
        exact ⟨_, c', .done _, hc, hsc.1 j⟩
      · have hj : j ∈ l := by
          rcases List.mem_cons.1 hj with hj | hj
          · exact absurd (hil r hr) (not_lt.2 (hj ▸ hrj.le))
          · exact hj
        obtain ⟨t, b, h1, h2, h3⟩ := hU r hr j hj hrj hrc
        exact ⟨t, b, hchain r hr j hj t h1, by rw [hLl r r hr]; exact h2, by rw [hUl r hr j]; exact h3⟩
    · rcases List.mem_cons.1 hr with rfl | hr
      · rw [hLi]; exact hp.2.1
      · rw [hLl r r hr]; exact hpv r hr hrc
    · rcases hx with ⟨h1, h2⟩ | ⟨k, hk, h1, h2, h3⟩
      · refine .inl ⟨h1, ?_⟩
        rw [List.map_cons]
        show (base.mulAssign d (L' i i)).bind _ = _
        rw [hLi, hd]
        show combineAll base.mulAssign d' (l.map fun i => L' i i) = _
        rw [List.map_congr_left fun k hk => hLl k k hk]
        exact h2
      · exact .inr ⟨k, List.mem_cons_of_mem _ hk, h1, fun r hr => by rw [hLl r k hk]; exact h2 r hr, h3⟩

theorem detRun_factors_all {A : Fin n → Fin n → E} {d x : E} (h : DetRun base (List.finRange n) A d x) :
    ∃ (c : ℕ) (σ : Equiv.Perm (Fin n)) (L U : Fin n → Fin n → E), Factors base A c σ L U ∧
      (c = n ∧ combineAll base.mulAssign d (List.ofFn fun i => L i i) = .ok x ∨
        ∃ i : Fin n, i.1 = c ∧ (∀ r, i ≤ r → base.isZero (L r i) = .ok true) ∧ base.zero = .ok x) := by
  obtain ⟨c, σ, L, U, -, h1, h2, h3, h4⟩ := detRun_factors h (List.pairwise_lt_finRange n) fun _ _ s _ => List.mem_finRange s
  refine ⟨c, σ, L, U, ⟨fun r j => h1 r (List.mem_finRange r) j (List.mem_finRange j), fun r j => h2 r (List.mem_finRange r) j (List.mem_finRange j),
    fun r => h3 r (List.mem_finRange r)⟩, ?_⟩
  rcases h4 with ⟨h4, h5⟩ | ⟨i, -, h4⟩
  · exact .inl ⟨h4, by rwa [List.ofFn_eq_map]⟩
  · exact .inr ⟨i, h4⟩

/-! ## The entries of the factors and of their product -/

section values

universe u

variable {R : Type u} {rep : E → R → Prop} {A L U : Fin n → Fin n → E} {c : ℕ} {σ : Equiv.Perm (Fin n)}

/-- Values of the factors, given values of the matrix: `Q` is what an elimination does with the values, `S` what the division by
a pivot does. -/
theorem Factors.values (h : Factors base A c σ L U) {M : Fin n → Fin n → R} (hM : ∀ i j, rep (A i j) (M i j))
    (hu : ∀ {a x y}, rep a x → rep a y → x = y) {Q : R → List (R × R) → R → Prop} {S : R → R → R → Prop}
    (hE : ∀ {a x ps qs t}, rep a x → List.Forall₂ (fun p q => rep p.1 q.1 ∧ rep p.2 q.2) ps qs → Eliminates base a ps t →
      ∃ y, rep t y ∧ Q x qs y)
    (hS : ∀ {t y l z i b}, rep t y → rep l z → base.isZero l = .ok false → base.inv l = .ok i → base.mulAssign t i = .ok b →
      ∃ w, rep b w ∧ S y z w) :
    ∃ lv uv : Fin n → Fin n → R, (∀ r k, (k ≤ r ∨ c ≤ r.1) → rep (L r k) (lv r k)) ∧
      (∀ k j, k < j → k.1 < c → rep (U k j) (uv k j)) ∧
      (∀ r j, (j ≤ r ∨ c ≤ r.1) → Q (M (σ r) j) (factorPairs (List.finRange n) c lv uv r j) (lv r j)) ∧
      ∀ r j, r < j → r.1 < c → ∃ y, Q (M (σ r) j) (factorPairs (List.finRange n) c lv uv r j) y ∧ S y (lv r r) (uv r j) := by
  have pairs : ∀ {lv uv : Fin n → Fin n → R} {r j : Fin n},
      (∀ k, k < r → k < j → k.1 < c → rep (U k j) (uv k j) ∧ rep (L r k) (lv r k)) →
      List.Forall₂ (fun (p : E × E) (q : R × R) => rep p.1 q.1 ∧ rep p.2 q.2) (factorPairs (List.finRange n) c L U r j)
        (factorPairs (List.finRange n) c lv uv r j) := fun {lv uv r j} hk => by
    unfold factorPairs
    rw [List.forall₂_map_left_iff, List.forall₂_map_right_iff, List.forall₂_same]
    intro k hk'
    have := of_decide_eq_true (List.mem_filter.1 hk').2
    exact hk k this.1 this.2.1 this.2.2
  have main : ∀ m : ℕ, (∀ r k : Fin n, k.1 < m → (k ≤ r ∨ c ≤ r.1) → ∃ x, rep (L r k) x) ∧
      ∀ k j : Fin n, k.1 < m → k < j → k.1 < c → ∃ x, rep (U k j) x := by
    intro m
    induction m with
    | zero => exact ⟨fun _ _ h => absurd h (Nat.not_lt_zero _), fun _ _ h => absurd h (Nat.not_lt_zero _)⟩
    | succ m ih =>
      have hne : ∀ r k : Fin n, ∃ x, k.1 < m → (k ≤ r ∨ c ≤ r.1) → rep (L r k) x := fun r k => by
        by_cases h1 : k.1 < m ∧ (k ≤ r ∨ c ≤ r.1)
        · obtain ⟨x, hx⟩ := ih.1 r k h1.1 h1.2
          exact ⟨x, fun _ _ => hx⟩
        · exact ⟨M r k, fun h2 h3 => absurd ⟨h2, h3⟩ h1⟩
      have hne' : ∀ k j : Fin n, ∃ x, k.1 < m → k < j → k.1 < c → rep (U k j) x := fun k j => by
        by_cases h1 : k.1 < m ∧ k < j ∧ k.1 < c
        · obtain ⟨x, hx⟩ := ih.2 k j h1.1 h1.2.1 h1.2.2
          exact ⟨x, fun _ _ _ => hx⟩
        · exact ⟨M k j, fun h2 h3 h4 => absurd ⟨h2, h3, h4⟩ h1⟩
      choose lv hlv using hne
      choose uv huv using hne'
      have hp : ∀ r j : Fin n, r.1 ≤ m ∨ j.1 ≤ m → List.Forall₂ (fun (p : E × E) (q : R × R) => rep p.1 q.1 ∧ rep p.2 q.2)
          (factorPairs (List.finRange n) c L U r j) (factorPairs (List.finRange n) c lv uv r j) := fun r j hm =>
        pairs fun k h1 h2 h3 => by
          have : k.1 < m := by have : k.1 < r.1 := h1; have : k.1 < j.1 := h2; omega
          exact ⟨huv k j this h2 h3, hlv r k this (.inl h1.le)⟩
      have hL : ∀ r k : Fin n, k.1 < m + 1 → (k ≤ r ∨ c ≤ r.1) → ∃ x, rep (L r k) x := fun r k hk hr => by
        obtain ⟨y, hy, -⟩ := hE (hM (σ r) k) (hp r k (.inr (by omega))) (h.lower r k hr)
        exact ⟨y, hy⟩
      refine ⟨hL, fun k j hk hkj hkc => ?_⟩
      obtain ⟨t, i, h1, h2, h3⟩ := h.upper k j hkj hkc
      obtain ⟨y, hy, -⟩ := hE (hM (σ k) j) (hp k j (.inl (by omega))) h1
      obtain ⟨z, hz⟩ := hL k k hk (.inl le_rfl)
      obtain ⟨w, hw, -⟩ := hS hy hz (h.pivot k hkc) h2 h3
      exact ⟨w, hw⟩
  have hne : ∀ r k : Fin n, ∃ x, (k ≤ r ∨ c ≤ r.1) → rep (L r k) x := fun r k => by
    by_cases h1 : k ≤ r ∨ c ≤ r.1
    · obtain ⟨x, hx⟩ := (main n).1 r k k.2 h1
      exact ⟨x, fun _ => hx⟩
    · exact ⟨M r k, fun h2 => absurd h2 h1⟩
  have hne' : ∀ k j : Fin n, ∃ x, k < j → k.1 < c → rep (U k j) x := fun k j => by
    by_cases h1 : k < j ∧ k.1 < c
    · obtain ⟨x, hx⟩ := (main n).2 k j k.2 h1.1 h1.2
      exact ⟨x, fun _ _ => hx⟩
    · exact ⟨M k j, fun h2 h3 => absurd ⟨h2, h3⟩ h1⟩
  choose lv hlv using hne
  choose uv huv using hne'
  have hp : ∀ r j : Fin n, List.Forall₂ (fun (p : E × E) (q : R × R) => rep p.1 q.1 ∧ rep p.2 q.2)
      (factorPairs (List.finRange n) c L U r j) (factorPairs (List.finRange n) c lv uv r j) := fun r j =>
    pairs fun k h1 h2 h3 => ⟨huv k j h2 h3, hlv r k (.inl h1.le)⟩
  refine ⟨lv, uv, hlv, huv, fun r j hrj => ?_, fun r j hrj hrc => ?_⟩
  · obtain ⟨y, hy, hq⟩ := hE (hM (σ r) j) (hp r j) (h.lower r j hrj)
    rwa [hu (hlv r j hrj) hy]
  · obtain ⟨t, i, h1, h2, h3⟩ := h.upper r j hrj hrc
    obtain ⟨y, hy, hq⟩ := hE (hM (σ r) j) (hp r j) h1
    obtain ⟨w, hw, hs⟩ := hS hy (hlv r r (.inl le_rfl)) (h.pivot r hrc) h2 h3
    exact ⟨y, hq, by rwa [hu (huv r j hrj hrc) hw]⟩

omit [Cfg] in
/-- A sum over the products of the entries of the factors: the pairs of `factorPairs` and one more term. -/
theorem sum_factors {S : Type*} [AddCommMonoid S] [Zero R] [One R] (g : R → R → S) (h0 : ∀ x, g 0 x = 0) (h0' : ∀ x, g x 0 = 0) (c : ℕ)
    (l u : Fin n → Fin n → R) (r j : Fin n) :
    ∑ k, g (lowerFactor c l r k) (upperFactor c u k j) =
      (if j ≤ r ∨ c ≤ r.1 then g (l r j) 1 else g (l r r) (u r j)) +
        ((factorPairs (List.finRange n) c l u r j).map fun p => g p.2 p.1).sum := by
  have hlist : ∀ (ks : List (Fin n)), ((factorPairs ks c l u r j).map fun p => g p.2 p.1).sum =
      (ks.map fun k => if k < r ∧ k < j ∧ k.1 < c then g (l r k) (u k j) else 0).sum := by
    intro ks
    unfold factorPairs
    induction ks with
    | nil => rfl
    | cons k ks ih =>
      by_cases hk : k < r ∧ k < j ∧ k.1 < c
      · rw [List.filter_cons_of_pos (by simpa using hk)]
        simp only [List.map_cons, List.sum_cons, if_pos hk]
        rw [ih]
      · rw [List.filter_cons_of_neg (by simpa using hk), ih]
        simp only [List.map_cons, List.sum_cons, if_neg hk, zero_add]
  rw [hlist, ← Fin.sum_univ_def]
  by_cases hr : j ≤ r ∨ c ≤ r.1
  · have e : g (l r j) 1 = ∑ k, if k = j then g (l r j) 1 else 0 := by simp
    rw [if_pos hr, e, ← Finset.sum_add_distrib]
    refine Finset.sum_congr rfl fun k _ => ?_
    unfold lowerFactor upperFactor
    by_cases hkj : k = j
    · subst hkj
      rw [if_pos hr, if_pos rfl, if_pos rfl, if_neg (fun h => lt_irrefl _ h.2.1), add_zero]
    · rw [if_neg hkj, if_neg hkj, zero_add]
      by_cases h2 : k < j ∧ k.1 < c
      · have h3 : k < r := by
          rcases hr with hr | hr
          · exact h2.1.trans_le hr
          · exact Fin.lt_def.2 (lt_of_lt_of_le h2.2 hr)
        rw [if_pos (.inl h3.le), if_pos h2, if_pos ⟨h3, h2⟩]
      · rw [if_neg h2, h0', if_neg fun h => h2 h.2]
  · have e : g (l r r) (u r j) = ∑ k, if k = r then g (l r r) (u r j) else 0 := by simp
    rw [if_neg hr, e, ← Finset.sum_add_distrib]
    have hrj : r < j := not_le.1 fun h => hr (.inl h)
    have hrc : r.1 < c := not_le.1 fun h => hr (.inr h)
    refine Finset.sum_congr rfl fun k _ => ?_
    unfold lowerFactor upperFactor
    rcases lt_trichotomy k r with h | h | h
    · rw [if_pos (.inl h.le), if_neg (h.trans hrj).ne, if_pos ⟨h.trans hrj, lt_trans (show k.1 < r.1 from h) hrc⟩, if_neg h.ne, zero_add,
        if_pos ⟨h, h.trans hrj, lt_trans (show k.1 < r.1 from h) hrc⟩]
    · subst h
      rw [if_pos (.inl le_rfl), if_neg hrj.ne, if_pos ⟨hrj, hrc⟩, if_pos rfl, if_neg fun h => lt_irrefl _ h.1, add_zero]
    · rw [if_neg (show ¬ (k ≤ r ∨ c ≤ r.1) by rw [not_or]; exact ⟨not_le.2 h, not_le.2 hrc⟩), h0, if_neg h.ne',
        if_neg (show ¬ (k < r ∧ k < j ∧ k.1 < c) from fun h' => lt_asymm h h'.1), add_zero]

end values

end Abstalg
