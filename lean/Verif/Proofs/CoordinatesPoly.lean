import Verif.Proofs.Coordinates
import Verif.Proofs.OrderElim

/-! # Calls made by the methods of polynomials, and by Euclid's algorithm -/

set_option autoImplicit false

universe u v

namespace Abstalg

variable {E : Type}

theorem allRes_snoc {α : Type u} (p : α → Res Bool) (l : List α) (c : Res Bool) :
    TestsAll (l.map p ++ [c]) ((allRes p l).bind fun b => if b then c else .ok false) := by
  induction l with
  | nil =>
    have h := testsAll_nil.cons (c := c)
    have h' : (c.bind fun b => if b = true then .ok true else .ok false) = c := by
      rcases c with b | _ | _ <;> [cases b; skip; skip] <;> rfl
    rw [h'] at h
    exact h
  | cons a l ih =>
    have h := ih.cons (c := p a)
    have h' : ((p a).bind fun b => if b = true then (allRes p l).bind fun b => if b then c else .ok false
        else .ok false) = (allRes p (a :: l)).bind fun b => if b then c else .ok false := by
      rw [allRes]
      rcases p a with b | _ | _ <;> [cases b; skip; skip] <;> rfl
    rw [h'] at h
    exact h

/-! ## Polynomials -/

namespace PolynomialAlgebra

theorem addLoop (add : E → E → Res E) : ∀ (w u p p' : List E), p'.length = p.length → w.length ≤ u.length →
    forLoop (List.range' p.length w.length) (p ++ u) (fun e i => (idx e i).bind fun a =>
      (idx (p' ++ w) i).bind fun b => (add a b).bind fun c => setIdx e i c) =
    (mapRes (fun q => add q.1 q.2) (u.zip w)).bind fun y => .ok (p ++ (y ++ u.drop w.length))
  | [], u, p, p', _, _ => by simp [forLoop, mapRes, Res.bind]
  | b :: w, [], p, p', _, h => absurd h (by simp)
  | b :: w, a :: u, p, p', hp, h => by
    rw [List.length_cons, List.range'_succ, forLoop, List.zip_cons_cons, mapRes]
    have h1 : idx (p ++ a :: u) p.length = .ok a := idx_eq_ok.2 (by simp)
    have h2 : idx (p' ++ b :: w) p.length = .ok b := idx_eq_ok.2 (by simp [← hp])
    rw [h1, h2]
    simp only [ok_rbind, rbind_assoc]
    congr 1
    funext c
    have h3 : setIdx (p ++ a :: u) p.length c = .ok (p ++ [c] ++ u) :=
      setIdx_eq_ok.2 ⟨by simp, by simp⟩
    rw [h3, ok_rbind]
    have ih := addLoop add w u (p ++ [c]) (p' ++ [b]) (by simpa using hp) (by simpa using h)
    rw [List.length_append, List.length_singleton] at ih
    rw [show p' ++ b :: w = p' ++ [b] ++ w by simp, ih]
    congr 1
    funext y
    simp

variable [Cfg]

theorem add_longer_collects (base : AbelianGroupOps E) {u w : List E} (h : w.length < u.length) :
    Collects (List.zipWith base.add u w ++ (u.drop w.length).map .ok) (add base u w) ∧
    Collects (List.zipWith base.add u w ++ (u.drop w.length).map .ok) (add base w u) := by
  have key : Collects (List.zipWith base.add u w ++ (u.drop w.length).map .ok)
      (forLoop (List.range w.length) u fun e i => (idx e i).bind fun a =>
      (idx w i).bind fun b => (base.add a b).bind fun c => setIdx e i c) := by
    have h1 := addLoop base.add w u [] [] rfl h.le
    rw [List.length_nil, ← List.range_eq_range'] at h1
    simp only [List.nil_append] at h1
    rw [h1, ← zip_map_eq]
    generalize u.drop w.length = d
    generalize u.zip w = l
    induction l with
    | nil =>
      induction d with
      | nil => exact collects_nil
      | cons a d ih => exact ih.cons (c := .ok a)
    | cons a l ih =>
      have h' := ih.cons (c := base.add a.1 a.2)
      have h2 : ((base.add a.1 a.2).bind fun b => ((mapRes (fun q => base.add q.1 q.2) l).bind fun y =>
            .ok (y ++ d)).bind fun l => .ok (b :: l)) =
          (mapRes (fun q => base.add q.1 q.2) (a :: l)).bind fun y => .ok (y ++ d) := by
        rw [mapRes]
        simp only [rbind_assoc]
        rfl
      rw [h2] at h'
      exact h'
  constructor
  · have h1 : add base u w = forLoop (List.range w.length) u fun e i => (idx e i).bind fun a =>
        (idx w i).bind fun b => (base.add a b).bind fun c => setIdx e i c := by
      unfold add
      rw [if_pos (by omega), if_pos h]
      rfl
    rw [h1]
    exact key
  · have h1 : add base w u = forLoop (List.range w.length) u fun e i => (idx e i).bind fun a =>
        (idx w i).bind fun b => (base.add a b).bind fun c => setIdx e i c := by
      unfold add
      rw [if_pos (by omega), if_neg (by omega)]
      rfl
    rw [h1]
    exact key

/-- The body of the loop of `add` for operands of the same length. -/
def addStep (base : AbelianGroupOps E) (u w e : List E) (i : ℕ) : Res (List E) :=
  (idx u i).bind fun a => (idx w i).bind fun b => (base.add a b).bind fun c => (base.isZero c).bind fun d =>
    if d then .ok e else base.zero.bind fun z => setIdx (resize e (i + 1) z) i c

theorem add_same_eq (base : AbelianGroupOps E) {u w : List E} (h : u.length = w.length) :
    add base u w = forLoop (List.range u.length) [] (addStep base u w) := by
  unfold add
  rw [if_neg (by omega)]
  refine forLoop_congr fun e i _ => ?_
  show (idx u i).bind _ = (idx u i).bind _
  congr 1; funext a
  show (idx w i).bind _ = (idx w i).bind _
  congr 1; funext b
  show (base.add a b).bind _ = (base.add a b).bind _
  congr 1; funext c
  show (base.isZero c).bind _ = (base.isZero c).bind _
  congr 1; funext d
  cases d <;> rfl

omit [Cfg] in
theorem getElem?_set_resize (e : List E) (i : ℕ) (z c : E) (he : e.length ≤ i) (k : ℕ) :
    ((resize e (i + 1) z).set i c)[k]? =
      if k < e.length then e[k]? else if k < i then some z else if k = i then some c else none := by
  have h1 : e.take (i + 1) = e := List.take_of_length_le (by omega)
  rw [resize, h1, List.getElem?_set]
  by_cases hk : k < e.length
  · rw [if_neg (by omega), if_pos hk, List.getElem?_append_left hk]
  · rw [if_neg hk]
    by_cases hk' : k < i
    · rw [if_neg (by omega), if_pos hk', List.getElem?_append_right (by omega), List.getElem?_replicate,
        if_pos (by omega)]
    · rw [if_neg hk']
      by_cases hk'' : k = i
      · subst hk''
        rw [if_pos rfl, if_pos (by simp; omega), if_pos rfl]
      · rw [if_neg (Ne.symm hk''), if_neg hk'', List.getElem?_append_right (by omega), List.getElem?_replicate,
          if_neg (by omega)]

omit [Cfg] in
theorem Trimmed.unique {isZero : E → Res Bool} {zero : Res E} {s x y : List E} (hx : Trimmed isZero zero s x)
    (hy : Trimmed isZero zero s y) : x = y := by
  have hlen : ∀ {x y : List E}, Trimmed isZero zero s x → Trimmed isZero zero s y → x.length ≤ y.length := by
    intro x y hx hy
    by_contra hlt
    have hl := hx.len
    obtain ⟨d, h1, -, h2, -⟩ := hx.tested (x.length - 1) _ (List.getElem?_eq_getElem (by omega))
    obtain ⟨d', h1', h2', -⟩ := hy.tested (x.length - 1) _ (List.getElem?_eq_getElem (by omega))
    have := h2 (by omega)
    have := h2' (by omega)
    simp_all
  have hl : x.length = y.length := le_antisymm (hlen hx hy) (hlen hy hx)
  refine List.ext_getElem? fun k => ?_
  by_cases hk : k < x.length
  · have := hx.len
    obtain ⟨d, h1, -, -, h3, h4⟩ := hx.tested k _ (List.getElem?_eq_getElem (by omega))
    obtain ⟨d', h1', -, -, h3', h4'⟩ := hy.tested k _ (List.getElem?_eq_getElem (by omega))
    rw [h1] at h1'
    cases h1'
    cases d with
    | false => rw [h3 hk rfl, h3' (by omega) rfl]
    | true =>
      obtain ⟨z, hz, h5⟩ := h4 hk rfl
      obtain ⟨z', hz', h5'⟩ := h4' (by omega) rfl
      rw [hz] at hz'
      cases hz'
      rw [h5, h5']
  · rw [List.getElem?_eq_none (by omega), List.getElem?_eq_none (by omega)]

omit [Cfg] in
theorem trimmed_true {isZero : E → Res Bool} {zero : Res E} {s x : List E} {a : E}
    (hx : Trimmed isZero zero s x) (ha : isZero a = .ok true) : Trimmed isZero zero (s ++ [a]) x where
  len := by have := hx.len; simp; omega
  filled := hx.filled
  tested k b hb := by
    have hl := hx.len
    by_cases hk : k < s.length
    · rw [List.getElem?_append_left hk] at hb
      exact hx.tested k b hb
    · have hb' := List.getElem?_eq_some_iff.1 hb
      obtain ⟨h1, h2⟩ := hb'
      have hk' : k = s.length := by simp at h1; omega
      subst hk'
      simp at h2
      subst h2
      exact ⟨true, ha, fun _ => rfl, fun h => by omega, fun h => by omega, fun h => by omega⟩

omit [Cfg] in
theorem trimmed_false {isZero : E → Res Bool} {zero : Res E} {s x : List E} {a z : E}
    (hx : Trimmed isZero zero s x) (ha : isZero a = .ok false) (hz : zero = .ok z) :
    Trimmed isZero zero (s ++ [a]) ((resize x (s.length + 1) z).set s.length a) := by
  have hl := hx.len
  have hlen : ((resize x (s.length + 1) z).set s.length a).length = s.length + 1 := by
    simp [resize]; omega
  refine ⟨by rw [hlen]; simp, fun _ => ⟨z, hz⟩, fun k b hb => ?_⟩
  rw [hlen, getElem?_set_resize _ _ _ _ hl]
  by_cases hk : k < s.length
  · rw [List.getElem?_append_left hk] at hb
    obtain ⟨d, h1, h2, h3, h4, h5⟩ := hx.tested k b hb
    refine ⟨d, h1, fun h => by omega, fun h => by omega, fun _ hd => ?_, fun _ hd => ?_⟩
    · have hkx : k < x.length := by
        by_contra hkx
        rw [h2 (by omega)] at hd
        cases hd
      rw [if_pos hkx]
      exact h4 hkx hd
    · by_cases hkx : k < x.length
      · rw [if_pos hkx]
        exact h5 hkx hd
      · rw [if_neg hkx, if_pos hk]
        exact ⟨z, hz, rfl⟩
  · obtain ⟨h1, h2⟩ := List.getElem?_eq_some_iff.1 hb
    have hk' : k = s.length := by simp at h1; omega
    subst hk'
    simp at h2
    subst h2
    refine ⟨false, ha, fun h => by omega, fun _ => rfl, fun _ _ => ?_, fun _ h => (by cases h)⟩
    rw [if_neg (by omega), if_neg (by omega), if_pos rfl]

/-- The sums of the first `i` coefficients. -/
def Sums (base : AbelianGroupOps E) (u w : List E) (i : ℕ) (s : List E) : Prop :=
  s.length = i ∧ ∀ k < i, ∃ a b c, u[k]? = some a ∧ w[k]? = some b ∧ s[k]? = some c ∧ base.add a b = .ok c

theorem addStep_sound (base : AbelianGroupOps E) (u w : List E) (i : ℕ) (x : List E)
    (h : forLoop (List.range i) [] (addStep base u w) = .ok x) :
    ∃ s, Sums base u w i s ∧ Trimmed base.isZero base.zero s x := by
  induction i generalizing x with
  | zero =>
    cases h
    exact ⟨[], ⟨rfl, fun k hk => absurd hk (by omega)⟩, by simp, by simp, by simp⟩
  | succ i ih =>
    rw [List.range_succ, forLoop_append] at h
    obtain ⟨y, h1, h2⟩ := rbind_eq_ok.1 h
    obtain ⟨s, ⟨hs1, hs2⟩, hs3⟩ := ih y h1
    have h3 : addStep base u w y i = .ok x := by
      rw [forLoop] at h2
      obtain ⟨x', h4, h5⟩ := rbind_eq_ok.1 h2
      cases h5
      exact h4
    unfold addStep at h3
    obtain ⟨a, ha, h3⟩ := rbind_eq_ok.1 h3
    obtain ⟨b, hb, h3⟩ := rbind_eq_ok.1 h3
    obtain ⟨c, hc, h3⟩ := rbind_eq_ok.1 h3
    obtain ⟨d, hd, h3⟩ := rbind_eq_ok.1 h3
    have hsum : Sums base u w (i + 1) (s ++ [c]) := by
      refine ⟨by simp [hs1], fun k hk => ?_⟩
      by_cases hki : k < i
      · obtain ⟨a, b, c', h1, h2, h3, h4⟩ := hs2 k hki
        exact ⟨a, b, c', h1, h2, by rw [List.getElem?_append_left (by omega)]; exact h3, h4⟩
      · have : k = i := by omega
        subst this
        exact ⟨a, b, c, idx_eq_ok.1 ha, idx_eq_ok.1 hb, by simp [← hs1], hc⟩
    refine ⟨s ++ [c], hsum, ?_⟩
    cases d with
    | true =>
      cases h3
      exact trimmed_true hs3 hd
    | false =>
      rw [if_neg (by simp)] at h3
      obtain ⟨z, hz, h4⟩ := rbind_eq_ok.1 h3
      obtain ⟨-, rfl⟩ := setIdx_eq_ok.1 h4
      rw [← hs1]
      exact trimmed_false hs3 hd hz

theorem addStep_total (base : AbelianGroupOps E) (u w s : List E) (n i : ℕ) (hs : Sums base u w n s)
    (hi : i ≤ n) (ht : ∀ a ∈ s, ∃ d, base.isZero a = .ok d)
    (hz : (∃ a ∈ s, base.isZero a = .ok false) → ∃ z, base.zero = .ok z) :
    ∃ x, forLoop (List.range i) [] (addStep base u w) = .ok x ∧ x.length ≤ i := by
  induction i with
  | zero => exact ⟨[], rfl, le_rfl⟩
  | succ i ih =>
    obtain ⟨x, hx, hl⟩ := ih (by omega)
    rw [List.range_succ, forLoop_append, hx, ok_rbind, forLoop]
    obtain ⟨a, b, c, h1, h2, h3, h4⟩ := hs.2 i (by omega)
    obtain ⟨d, hd⟩ := ht c (List.mem_of_getElem? h3)
    have hstep : ∃ y, addStep base u w x i = .ok y ∧ y.length ≤ i + 1 := by
      unfold addStep
      rw [idx_eq_ok.2 h1, idx_eq_ok.2 h2, ok_rbind, ok_rbind, h4, ok_rbind, hd, ok_rbind]
      cases d with
      | true => exact ⟨x, rfl, by omega⟩
      | false =>
        obtain ⟨z, hz'⟩ := hz ⟨c, List.mem_of_getElem? h3, hd⟩
        rw [if_neg (by simp), hz', ok_rbind]
        refine ⟨_, setIdx_eq_ok.2 ⟨?_, rfl⟩, ?_⟩ <;> simp [resize] <;> omega
    obtain ⟨y, hy, hyl⟩ := hstep
    exact ⟨y, by rw [hy, ok_rbind, forLoop], hyl⟩

theorem sums_iff (base : AbelianGroupOps E) {u w : List E} (h : u.length = w.length) (s : List E) :
    Sums base u w u.length s ↔ List.Forall₂ (fun c x => c = .ok x) (List.zipWith base.add u w) s := by
  rw [List.forall₂_iff_get]
  constructor
  · rintro ⟨h1, h2⟩
    refine ⟨by simp [h1, h], fun k hk hk' => ?_⟩
    obtain ⟨a, b, c, e1, e2, e3, e4⟩ := h2 k (by omega)
    obtain ⟨_, rfl⟩ := List.getElem?_eq_some_iff.1 e1
    obtain ⟨_, rfl⟩ := List.getElem?_eq_some_iff.1 e2
    obtain ⟨_, rfl⟩ := List.getElem?_eq_some_iff.1 e3
    simpa using e4
  · rintro ⟨h1, h2⟩
    have h1' : s.length = u.length := by simp at h1; omega
    refine ⟨h1', fun k hk => ?_⟩
    have := h2 k (by omega) (by omega)
    exact ⟨u[k], w[k], s[k], List.getElem?_eq_getElem _, List.getElem?_eq_getElem _,
      List.getElem?_eq_getElem _, by simpa using this⟩

theorem add_same (base : AbelianGroupOps E) {u w : List E} (h : u.length = w.length) (x : List E) :
    add base u w = .ok x ↔ ∃ s, List.Forall₂ (fun c x => c = .ok x) (List.zipWith base.add u w) s ∧
      Trimmed base.isZero base.zero s x := by
  rw [add_same_eq base h]
  constructor
  · intro hx
    obtain ⟨s, h1, h2⟩ := addStep_sound base u w _ _ hx
    exact ⟨s, (sums_iff base h s).1 h1, h2⟩
  · rintro ⟨s, h1, h2⟩
    have h1' := (sums_iff base h s).2 h1
    obtain ⟨y, hy, -⟩ := addStep_total base u w s _ u.length h1' le_rfl
      (fun a ha => by
        obtain ⟨k, hk⟩ := List.mem_iff_getElem?.1 ha
        obtain ⟨d, hd, -⟩ := h2.tested k a hk
        exact ⟨d, hd⟩)
      (fun ⟨a, ha, ha'⟩ => h2.filled fun hx => by
        obtain ⟨k, hk⟩ := List.mem_iff_getElem?.1 ha
        obtain ⟨d, hd, h3, -⟩ := h2.tested k a hk
        have := h3 (by simp [hx])
        rw [this, ha'] at hd
        cases hd)
    obtain ⟨s', h3, h4⟩ := addStep_sound base u w _ _ hy
    have : s' = s := by
      refine List.ext_getElem? fun k => ?_
      by_cases hk : k < u.length
      · obtain ⟨a, b, c, e1, e2, e3, e4⟩ := h1'.2 k hk
        obtain ⟨a', b', c', e1', e2', e3', e4'⟩ := h3.2 k hk
        rw [e1] at e1'; rw [e2] at e2'
        cases e1'; cases e2'
        rw [e4] at e4'
        cases e4'
        rw [e3, e3']
      · rw [List.getElem?_eq_none (by rw [h3.1]; omega), List.getElem?_eq_none (by rw [h1'.1]; omega)]
    subst this
    rw [hy, Trimmed.unique h4 h2]

theorem timesTrim_iff (base : AbelianGroupOps E) (v x : List E) (n : ℕ) (hn : n ≤ v.length) :
    timesTrim base v n = .ok x ↔ ∃ l ≤ n, x = v.take l ∧
      (∀ k a, l ≤ k → k < n → v[k]? = some a → base.isZero a = .ok true) ∧
      (∀ a, l ≠ 0 → v[l - 1]? = some a → base.isZero a = .ok false ∧ ∃ z, base.zero = .ok z) := by
  induction n with
  | zero =>
    constructor
    · intro h
      cases h
      exact ⟨0, le_rfl, by simp, fun k a h1 h2 => by omega, fun a h => absurd rfl h⟩
    · rintro ⟨l, hl, rfl, -⟩
      have : l = 0 := by omega
      subst this
      rfl
  | succ n ih =>
    have hr : timesTrim base v (n + 1) = (idx v n).bind fun a => (base.isZero a).bind fun d =>
        if d then timesTrim base v n else base.zero.bind fun z => .ok (resize v (n + 1) z) := by
      rw [timesTrim]
      show (idx v n).bind _ = (idx v n).bind _
      congr 1; funext a
      show (base.isZero a).bind _ = (base.isZero a).bind _
      congr 1; funext d
      cases d <;> rfl
    have hv : v[n]? = some v[n] := List.getElem?_eq_getElem (by omega)
    rw [hr, idx_eq_ok.2 hv, ok_rbind, rbind_eq_ok]
    constructor
    · rintro ⟨d, hd, h⟩
      cases d with
      | true =>
        obtain ⟨l, h1, h2, h3, h4⟩ := (ih (by omega)).1 h
        refine ⟨l, by omega, h2, fun k a hk hk' ha => ?_, h4⟩
        by_cases hkn : k < n
        · exact h3 k a hk hkn ha
        · have : k = n := by omega
          subst this
          rw [hv] at ha
          cases ha
          exact hd
      | false =>
        rw [if_neg (by simp)] at h
        obtain ⟨z, hz, h5⟩ := rbind_eq_ok.1 h
        cases h5
        refine ⟨n + 1, le_rfl, ?_, fun k a h1 h2 => by omega, fun a _ ha => ?_⟩
        · rw [resize, show n + 1 - v.length = 0 by omega]
          simp
        · rw [Nat.add_sub_cancel, hv] at ha
          cases ha
          exact ⟨hd, z, hz⟩
    · rintro ⟨l, h1, h2, h3, h4⟩
      by_cases hl : l = n + 1
      · subst hl
        obtain ⟨h5, z, h6⟩ := h4 v[n] (by omega) (by simp)
        refine ⟨false, h5, ?_⟩
        rw [if_neg (by simp), h6, ok_rbind, resize, show n + 1 - v.length = 0 by omega, h2]
        simp
      · refine ⟨true, h3 n _ (by omega) (by omega) hv, ?_⟩
        rw [if_pos rfl]
        exact (ih (by omega)).2 ⟨l, by omega, h2, fun k a hk hk' ha => h3 k a hk (by omega) ha, h4⟩

end PolynomialAlgebra

/-! ## Euclid's algorithm -/

section euclid

variable {isZero : E → Res Bool}

/-- A sequence with one more element in front. -/
def inFront (a : E) (r : ℕ → E) : ℕ → E
  | 0 => a
  | i + 1 => r i

theorem Divisions.front {quoRem : E → E → Res (E × E)} {a b c q₀ : E} {k : ℕ} {r q : ℕ → E}
    (h : Divisions isZero quoRem b c k r q) (hb : isZero b = .ok false) (hq : quoRem a b = .ok (q₀, c)) :
    Divisions isZero quoRem a b (k + 1) (inFront a r) (inFront q₀ q) where
  first := rfl
  second := h.first
  nonzero i hi := by
    cases i with
    | zero => rw [← hb, ← h.first]; rfl
    | succ i => exact h.nonzero i (by omega)
  divide i hi := by
    cases i with
    | zero =>
      show quoRem a (r 0) = .ok (q₀, r 1)
      rw [h.first, h.second, hq]
    | succ i => exact h.divide i (by omega)
  last := h.last

theorem Divisions.tail {quoRem : E → E → Res (E × E)} {a b : E} {k : ℕ} {r q : ℕ → E}
    (h : Divisions isZero quoRem a b (k + 1) r q) :
    Divisions isZero quoRem b (r 2) k (fun i => r (i + 1)) (fun i => q (i + 1)) where
  first := h.second
  second := rfl
  nonzero i hi := h.nonzero (i + 1) (by omega)
  divide i hi := h.divide (i + 1) (by omega)
  last := h.last

theorem gcdWithin_ok {quoRem : E → E → Res (E × E)} {n : ℕ} {a b g : E}
    (h : gcdWithin isZero (fun a b => (quoRem a b).bind fun p => .ok p.2) n a b = .ok g) :
    ∃ k r q, Divisions isZero quoRem a b k r q ∧ g = r k := by
  induction n generalizing a b with
  | zero => cases h
  | succ n ih =>
    have h' : ((isZero b).bind fun d => if d then .ok a else
        ((quoRem a b).bind fun p => .ok p.2).bind fun r => gcdWithin isZero _ n b r) = .ok g := h
    obtain ⟨d, hd, h'⟩ := rbind_eq_ok.1 h'
    cases d with
    | true =>
      cases h'
      exact ⟨0, inFront g fun _ => b, fun _ => g, ⟨rfl, rfl, fun i hi => absurd hi (by omega),
        fun i hi => absurd hi (by omega), hd⟩, rfl⟩
    | false =>
      rw [if_neg (by simp), rbind_assoc] at h'
      obtain ⟨⟨q₀, c⟩, hq, h'⟩ := rbind_eq_ok.1 h'
      obtain ⟨k, r, q, h1, h2⟩ := ih h'
      exact ⟨k + 1, inFront a r, inFront q₀ q, h1.front hd hq, h2⟩

theorem gcdDefault_of_divisions {quoRem : E → E → Res (E × E)} {a b : E} {k : ℕ} {r q : ℕ → E}
    (h : Divisions isZero quoRem a b k r q) :
    gcdDefault isZero (fun a b => (quoRem a b).bind fun p => .ok p.2) a b = .ok (r k) := by
  induction k generalizing a b r q with
  | zero =>
    rw [gcdDefault.eq_1]
    have := h.last
    rw [h.second] at this
    rw [this, ok_bind, if_pos rfl, h.first]
    rfl
  | succ k ih =>
    rw [gcdDefault.eq_1]
    have h1 := h.nonzero 0 (by omega)
    have h2 := h.divide 0 (by omega)
    rw [h.second] at h1 h2
    rw [h.first] at h2
    rw [h1, ok_bind, if_neg (by simp), h2, ok_rbind]
    exact ih h.tail

theorem gcdDefault_ok_iff (quoRem : E → E → Res (E × E)) (a b g : E) :
    gcdDefault isZero (fun a b => (quoRem a b).bind fun p => .ok p.2) a b = .ok g ↔
      ∃ k r q, Divisions isZero quoRem a b k r q ∧ g = r k := by
  constructor
  · intro h
    obtain ⟨n, hn⟩ := gcdWithin_exists (isZero := isZero)
      (rem := fun a b => (quoRem a b).bind fun p => .ok p.2) a b (by rw [h]; simp)
    rw [h] at hn
    exact gcdWithin_ok hn
  · rintro ⟨k, r, q, h, rfl⟩
    exact gcdDefault_of_divisions h

theorem Cofactors.tail {one zero : Res E} {sub mul : E → E → Res E} {k : ℕ} {q t : ℕ → E}
    (h : Cofactors one zero sub mul (k + 1) q t) :
    Cofactors one zero sub mul k (fun i => q (i + 1)) (fun i => t (i + 1)) :=
  ⟨h.last, h.before, fun i hi => h.back (i + 1) (by omega)⟩

theorem extendedGcdWithin_ok {one zero : Res E} {quoRem : E → E → Res (E × E)} {sub mul : E → E → Res E}
    {n : ℕ} {a b g x y : E}
    (h : extendedGcdWithin isZero one zero quoRem sub mul n a b = .ok (g, x, y)) :
    ∃ k r q t, Divisions isZero quoRem a b k r q ∧ Cofactors one zero sub mul k q t ∧
      g = r k ∧ x = t 1 ∧ y = t 0 := by
  induction n generalizing a b x y with
  | zero => cases h
  | succ n ih =>
    have h' : ((isZero b).bind fun d => if d then one.bind fun o => zero.bind fun z => .ok (a, o, z) else
        (quoRem a b).bind fun p => (extendedGcdWithin isZero one zero quoRem sub mul n b p.2).bind fun e =>
          (mul e.2.2 p.1).bind fun m => (sub e.2.1 m).bind fun z => .ok (e.1, e.2.2, z)) = .ok (g, x, y) := h
    obtain ⟨d, hd, h'⟩ := rbind_eq_ok.1 h'
    cases d with
    | true =>
      rw [if_pos rfl] at h'
      obtain ⟨o, ho, h'⟩ := rbind_eq_ok.1 h'
      obtain ⟨z, hz, h'⟩ := rbind_eq_ok.1 h'
      cases h'
      exact ⟨0, inFront g fun _ => b, fun _ => g, inFront y fun _ => x,
        ⟨rfl, rfl, fun i hi => absurd hi (by omega), fun i hi => absurd hi (by omega), hd⟩,
        ⟨hz, ho, fun i hi => absurd hi (by omega)⟩, rfl, rfl, rfl⟩
    | false =>
      rw [if_neg (by simp)] at h'
      obtain ⟨⟨q₀, c⟩, hq, h'⟩ := rbind_eq_ok.1 h'
      obtain ⟨⟨g', x', y'⟩, he, h'⟩ := rbind_eq_ok.1 h'
      obtain ⟨m, hm, h'⟩ := rbind_eq_ok.1 h'
      obtain ⟨z, hz, h'⟩ := rbind_eq_ok.1 h'
      cases h'
      obtain ⟨k, r, q, t, h1, h2, h3, h4, h5⟩ := ih he
      refine ⟨k + 1, inFront a r, inFront q₀ q, inFront y t, h1.front hd hq,
        ⟨h2.last, h2.before, fun i hi => ?_⟩, h3, h5, rfl⟩
      cases i with
      | zero =>
        refine ⟨m, ?_, ?_⟩
        · show mul (t 0) q₀ = .ok m
          rw [← h5]
          exact hm
        · show sub (t 1) m = .ok y
          rw [← h4]
          exact hz
      | succ i => exact h2.back i (by omega)

theorem extendedGcdDefault_of_divisions {one zero : Res E} {quoRem : E → E → Res (E × E)}
    {sub mul : E → E → Res E} {a b : E} {k : ℕ} {r q t : ℕ → E}
    (h : Divisions isZero quoRem a b k r q) (ht : Cofactors one zero sub mul k q t) :
    extendedGcdDefault isZero one zero quoRem sub mul a b = .ok (r k, t 1, t 0) := by
  induction k generalizing a b r q t with
  | zero =>
    rw [extendedGcdDefault.eq_1]
    have := h.last
    rw [h.second] at this
    rw [this, ok_bind, if_pos rfl, h.first, ht.before, ht.last]
    rfl
  | succ k ih =>
    rw [extendedGcdDefault.eq_1]
    have h1 := h.nonzero 0 (by omega)
    have h2 := h.divide 0 (by omega)
    rw [h.second] at h1 h2
    rw [h.first] at h2
    obtain ⟨p, h3, h4⟩ := ht.back 0 (by omega)
    rw [h1, ok_bind, if_neg (by simp), h2, ok_bind]
    show (extendedGcdDefault isZero one zero quoRem sub mul b (r 2) >>= _) = _
    rw [ih h.tail ht.tail, ok_bind]
    show (mul (t 1) (q 0) >>= _) = _
    rw [h3, ok_bind]
    show (sub (t 2) p >>= _) = _
    rw [h4]
    rfl

theorem extendedGcdDefault_ok_iff (one zero : Res E) (quoRem : E → E → Res (E × E))
    (sub mul : E → E → Res E) (a b g x y : E) :
    extendedGcdDefault isZero one zero quoRem sub mul a b = .ok (g, x, y) ↔
      ∃ k r q t, Divisions isZero quoRem a b k r q ∧ Cofactors one zero sub mul k q t ∧
        g = r k ∧ x = t 1 ∧ y = t 0 := by
  constructor
  · intro h
    obtain ⟨n, hn⟩ := extendedGcdWithin_exists (isZero := isZero) (one := one) (zero := zero)
      (quoRem := quoRem) (sub := sub) (mul := mul) a b (by rw [h]; simp)
    rw [h] at hn
    exact extendedGcdWithin_ok hn
  · rintro ⟨k, r, q, t, h, ht, rfl, rfl, rfl⟩
    exact extendedGcdDefault_of_divisions h ht

end euclid

end Abstalg
