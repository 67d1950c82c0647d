import Verif.Proofs.Order

/-! # The order of operations in polynomials over a base without laws -/

set_option autoImplicit false

universe u v

namespace Abstalg

theorem setIdx_eq_ok {α : Type u} {v x : List α} {i : ℕ} {a : α} :
    setIdx v i a = .ok x ↔ i < v.length ∧ x = v.set i a := by
  unfold setIdx
  split
  · rename_i h
    exact ⟨fun h' => ⟨h, (Res.ok.inj h').symm⟩, fun h' => by rw [h'.2]⟩
  · rename_i h
    exact ⟨fun h' => (by cases h'), fun h' => absurd h'.1 h⟩

theorem rbind_ok {α : Type u} (c : Res α) : (c.bind fun a => .ok a) = c := by cases c <;> rfl

theorem forLoop_append {σ : Type u} {ι : Type v} (l m : List ι) (s : σ) (f : σ → ι → Res σ) :
    forLoop (l ++ m) s f = (forLoop l s f).bind fun s' => forLoop m s' f := by
  induction l generalizing s with
  | nil => rfl
  | cons i l ih =>
    rw [List.cons_append, forLoop, forLoop, rbind_assoc]
    congr 1
    funext s'
    exact ih s'

theorem forLoop_ok_congr {σ : Type u} {ι : Type v} {l : List ι} {s t : σ} {f g : σ → ι → Res σ}
    (h : ∀ s, ∀ i ∈ l, ∀ t, f s i = .ok t ↔ g s i = .ok t) :
    forLoop l s f = .ok t ↔ forLoop l s g = .ok t := by
  induction l generalizing s with
  | nil => rfl
  | cons i l ih =>
    rw [forLoop, forLoop, rbind_eq_ok, rbind_eq_ok]
    refine exists_congr fun s' => and_congr (h s i List.mem_cons_self s') ?_
    exact ih fun s j hj => h s j (List.mem_cons_of_mem _ hj)

theorem forLoop_nested {σ : Type u} {ι κ : Type} (l : List ι) (m : List κ) (s : σ)
    (f : ι → σ → κ → Res σ) :
    forLoop l s (fun s i => forLoop m s (f i)) =
      forLoop (l.flatMap fun i => m.map fun j => (i, j)) s fun s p => f p.1 s p.2 := by
  induction l generalizing s with
  | nil => rfl
  | cons i l ih =>
    rw [forLoop, List.flatMap_cons, forLoop_append, forLoop_map]
    congr 1
    funext s'
    exact ih s'

/-- A loop that changes one cell in each round: each cell is changed by the rounds for it, in their
order. -/
theorem forLoop_scatter {E ι : Type} (pos : ι → ℕ) (g : ι → E → Res E) (l : List ι) (e x : List E) :
    forLoop l e (fun e i => (idx e (pos i)).bind fun a => (g i a).bind fun b => setIdx e (pos i) b) =
        .ok x ↔
      (∀ i ∈ l, pos i < e.length) ∧ x.length = e.length ∧ ∀ k a, e[k]? = some a →
        ∃ b, x[k]? = some b ∧ forLoop (l.filter fun i => pos i = k) a (fun a i => g i a) = .ok b := by
  induction l generalizing e with
  | nil =>
    simp only [forLoop, List.filter_nil, Res.ok.injEq]
    constructor
    · rintro rfl
      exact ⟨by simp, rfl, fun k a h => ⟨a, h, rfl⟩⟩
    · rintro ⟨-, h1, h2⟩
      refine List.ext_getElem h1.symm fun k h3 h4 => ?_
      obtain ⟨b, h5, h6⟩ := h2 k _ (List.getElem?_eq_getElem h3)
      rw [List.getElem?_eq_getElem h4] at h5
      rw [h6, ← Option.some.inj h5]
  | cons i l ih =>
    rw [forLoop, rbind_eq_ok]
    simp only [rbind_eq_ok, idx_eq_ok, setIdx_eq_ok]
    constructor
    · rintro ⟨e', ⟨a, h1, b, h2, h3, rfl⟩, h4⟩
      obtain ⟨h5, h6, h7⟩ := (ih _).1 h4
      rw [List.length_set] at h5 h6
      refine ⟨List.forall_mem_cons.2 ⟨h3, h5⟩, h6, fun k c hk => ?_⟩
      by_cases hki : pos i = k
      · subst hki
        obtain rfl : a = c := Option.some.inj (h1.symm.trans hk)
        rw [List.filter_cons_of_pos (by simp), forLoop]
        simp only [rbind_eq_ok]
        obtain ⟨b', h8, h9⟩ := h7 (pos i) b (by rw [List.getElem?_set_self h3])
        exact ⟨b', h8, b, h2, h9⟩
      · rw [List.filter_cons_of_neg (by simpa using hki)]
        exact h7 k c (by rwa [List.getElem?_set_ne hki])
    · rintro ⟨h1, h2, h3⟩
      obtain ⟨h4, h5⟩ := List.forall_mem_cons.1 h1
      obtain ⟨b, h6, h7⟩ := h3 _ _ (List.getElem?_eq_getElem h4)
      rw [List.filter_cons_of_pos (by simp), forLoop] at h7
      obtain ⟨b', h8, h9⟩ := rbind_eq_ok.1 h7
      refine ⟨_, ⟨_, List.getElem?_eq_getElem h4, b', h8, h4, rfl⟩, (ih _).2 ⟨?_, ?_, ?_⟩⟩
      · simpa using h5
      · simpa using h2
      · intro k c hk
        by_cases hki : pos i = k
        · subst hki
          rw [List.getElem?_set_self h4] at hk
          obtain rfl := Option.some.inj hk
          exact ⟨b, h6, h9⟩
        · rw [List.getElem?_set_ne hki] at hk
          have := h3 k c hk
          rwa [List.filter_cons_of_neg (by simpa using hki)] at this

theorem filter_range_add (i k b : ℕ) :
    (List.range b).filter (fun j => decide (i + j = k)) = if i ≤ k ∧ k - i < b then [k - i] else [] := by
  induction b with
  | zero => simp
  | succ b ih =>
    rw [List.range_succ, List.filter_append, ih]
    by_cases h1 : i + b = k
    · rw [List.filter_cons_of_pos (by simpa using h1), if_neg (by omega), if_pos (by omega)]
      simp; omega
    · rw [List.filter_cons_of_neg (by simpa using h1)]
      by_cases h2 : i ≤ k ∧ k - i < b
      · rw [if_pos h2, if_pos (by omega)]; rfl
      · rw [if_neg h2, if_neg (by omega)]; rfl

theorem addProducts_append {E : Type} (mul add : E → E → Res E) (s : E) (l m : List (E × E)) :
    addProducts mul add s (l ++ m) = (addProducts mul add s l).bind fun s' => addProducts mul add s' m := by
  induction l generalizing s with
  | nil => rfl
  | cons p l ih =>
    rw [List.cons_append, addProducts, addProducts, rbind_assoc]
    congr 1
    funext q
    rw [rbind_assoc]
    congr 1
    funext s'
    exact ih s'

namespace PolynomialAlgebra

variable [Cfg] {E : Type}

omit [Cfg] in
theorem conv_fold (mul add : E → E → Res E) (u v : List E) (k : ℕ) (L : List ℕ)
    (hL : ∀ i ∈ L, i < u.length) (s : E) :
    forLoop ((L.flatMap fun i => (List.range v.length).map fun j => (i, j)).filter
        fun p => decide (p.1 + p.2 = k)) s
      (fun s p => (idx u p.1).bind fun a => (idx v p.2).bind fun b => (mul a b).bind fun q => add s q) =
    addProducts mul add s (L.filterMap fun i =>
      if i ≤ k then (u[i]?).bind fun a => (v[k - i]?).bind fun b => some (a, b) else none) := by
  induction L generalizing s with
  | nil => rfl
  | cons i L ih =>
    rw [List.flatMap_cons, List.filter_append, forLoop_append, List.filter_map, List.filterMap_cons]
    have hu : u[i]? = some (u[i]'(hL i List.mem_cons_self)) := List.getElem?_eq_getElem _
    have := filter_range_add i k v.length
    rw [show ((fun p : ℕ × ℕ => decide (p.1 + p.2 = k)) ∘ fun j => (i, j)) =
      fun j => decide (i + j = k) from rfl, this]
    have ih' := fun s => ih (fun j hj => hL j (List.mem_cons_of_mem _ hj)) s
    by_cases h : i ≤ k ∧ k - i < v.length
    · rw [if_pos h, if_pos h.1, hu]
      have hv : v[k - i]? = some v[k - i] := List.getElem?_eq_getElem h.2
      simp only [Option.bind_some, hv, List.map_cons, List.map_nil, forLoop]
      rw [idx_eq_ok.2 hu, idx_eq_ok.2 hv, addProducts]
      show (((mul _ _).bind fun q => add s q).bind fun s' => .ok s').bind _ = _
      rw [rbind_ok, rbind_assoc]
      congr 1
      funext q
      congr 1
      funext s'
      exact ih' s'
    · rw [if_neg h]
      have hn : (if i ≤ k then (u[i]?).bind fun a => (v[k - i]?).bind fun b => some (a, b) else none) =
          none := by
        split_ifs with h1
        · rw [hu, List.getElem?_eq_none (by omega)]; rfl
        · rfl
      rw [hn]
      exact ih' s

theorem mul_ok_iff (base : UnitaryRingOps E) {u v : List E} (hu : u ≠ []) (hv : v ≠ []) (x : List E) :
    mul base u v = .ok x ↔ ∃ z, base.zero = .ok z ∧ x.length = u.length + v.length - 1 ∧
      ∀ k (hk : k < x.length), addProducts base.mul base.add z (convPairs u v k) = .ok x[k] := by
  have h0 : (u.isEmpty || v.isEmpty) = false := by simp [hu, hv]
  have hlu := List.length_pos_iff.2 hu
  have hlv := List.length_pos_iff.2 hv
  unfold mul
  rw [h0]
  simp only [Bool.false_eq_true, if_false]
  rw [bind_eq_ok]
  refine exists_congr fun z => and_congr_right fun _ => ?_
  rw [forLoop_nested, forLoop_ok_congr (g := fun e p => (idx e (p.1 + p.2)).bind fun a =>
    ((idx u p.1).bind fun x => (idx v p.2).bind fun y => (base.mul x y).bind fun q => base.add a q).bind
      fun b => setIdx e (p.1 + p.2) b)]
  · rw [forLoop_scatter (fun p : ℕ × ℕ => p.1 + p.2) (fun p a => (idx u p.1).bind fun x =>
      (idx v p.2).bind fun y => (base.mul x y).bind fun q => base.add a q), List.length_replicate]
    constructor
    · rintro ⟨-, h1, h2⟩
      refine ⟨h1, fun k hk => ?_⟩
      obtain ⟨b, h3, h4⟩ := h2 k z (by rw [List.getElem?_replicate, if_pos (by omega)])
      rw [List.getElem?_eq_getElem hk] at h3
      rw [conv_fold _ _ _ _ _ _ (by simp)] at h4
      rw [Option.some.inj h3]
      exact h4
    · rintro ⟨h1, h2⟩
      refine ⟨?_, h1, fun k a hk => ?_⟩
      · rintro ⟨i, j⟩ hij
        simp only [List.mem_flatMap, List.mem_map, List.mem_range, Prod.mk.injEq] at hij
        obtain ⟨i', hi, j', hj, rfl, rfl⟩ := hij
        show i' + j' < _
        omega
      · rw [List.getElem?_replicate] at hk
        split_ifs at hk with hk'
        obtain rfl := Option.some.inj hk
        refine ⟨x[k]'(by omega), List.getElem?_eq_getElem _, ?_⟩
        rw [conv_fold _ _ _ _ _ _ (by simp)]
        exact h2 k _
  · intro e p _ t
    simp only [bind_eq_ok, rbind_eq_ok]
    constructor
    · rintro ⟨a, ha, b, hb, q, hq, d, hd, c, hc, ht⟩
      exact ⟨d, hd, c, ⟨a, ha, b, hb, q, hq, hc⟩, ht⟩
    · rintro ⟨d, hd, c, ⟨a, ha, b, hb, q, hq, hc⟩, ht⟩
      exact ⟨a, ha, b, hb, q, hq, d, hd, c, hc, ht⟩

end PolynomialAlgebra

end Abstalg
