import Verif.Proofs.OrderPoly

/-! # The order of operations in the division of polynomials over a base without laws -/

set_option autoImplicit false

universe u v

namespace Abstalg

variable {E : Type}

/-- The pair for one coefficient of the quotient. -/
def onePair (w : List E) (c : E) (n k : ℕ) : List (E × E) :=
  if n ≤ k then ((w.dropLast[k - n]?).map fun a => (a, c)).toList else []

theorem divPairs_empty (w c : List E) (n k : ℕ) : divPairs w c n n k = [] := by
  simp [divPairs]

theorem divPairs_succ (w nq : List E) (c : E) {lo n k : ℕ} (h : lo ≤ n) (hn : nq.length = n) :
    divPairs w (nq ++ [c]) lo (n + 1) k = onePair w c n k ++ divPairs w nq lo n k := by
  unfold divPairs onePair
  rw [show n + 1 - lo = (n - lo) + 1 by omega, List.range'_concat, List.reverse_append,
    List.filterMap_append, show lo + 1 * (n - lo) = n by omega]
  congr 1
  · rw [List.reverse_singleton]
    have : (nq ++ [c])[n]? = some c := by rw [← hn]; simp
    by_cases h1 : n ≤ k
    · rw [if_pos h1]
      cases h2 : w.dropLast[k - n]? <;> simp [h1, h2, this]
    · simp [h1]
  · refine List.filterMap_congr fun i hi => ?_
    have hi' : i < nq.length := by
      simp only [List.mem_reverse, List.mem_range'_1] at hi
      omega
    rw [List.getElem?_append_left hi']

theorem divPairs_nil (w c : List E) (k : ℕ) : divPairs w c 0 0 k = [] := divPairs_empty w c 0 k

/-- One round of the division. -/
def DivStep (mul add : E → E → Res E) (w : List E) (c : E) (n : ℕ) (v v1 : List E) : Prop :=
  v1.length = v.length ∧ ∀ k a, v[k]? = some a →
    ∃ b, v1[k]? = some b ∧ addProducts mul add a (onePair w c n k) = .ok b

theorem divStep_loop (mul add : E → E → Res E) (w : List E) (c : E) (n : ℕ) (v v1 : List E)
    (h : n + (w.length - 1) ≤ v.length) :
    forLoop (List.range (w.length - 1)) v (fun rem j => do
      let c ← mul (← idx w j) c
      let d ← add (← idx rem (n + j)) c
      setIdx rem (n + j) d) = .ok v1 ↔ DivStep mul add w c n v v1 := by
  rw [forLoop_ok_congr (g := fun e j => (idx e (n + j)).bind fun a =>
    ((idx w j).bind fun x => (mul x c).bind fun q => add a q).bind fun b => setIdx e (n + j) b)]
  · rw [forLoop_scatter (fun j => n + j) (fun j a => (idx w j).bind fun x => (mul x c).bind fun q => add a q)]
    have h1 : ∀ j ∈ List.range (w.length - 1), n + j < v.length := by
      intro j hj
      rw [List.mem_range] at hj
      omega
    refine (and_iff_right h1).trans ?_
    unfold DivStep
    refine and_congr_right fun _ => forall_congr' fun k => forall_congr' fun a => imp_congr_right fun _ =>
      exists_congr fun b => and_congr_right fun _ => ?_
    rw [filter_range_add, onePair]
    by_cases h2 : n ≤ k
    · by_cases h3 : k - n < w.length - 1
      · have h4 : w.dropLast[k - n]? = some w[k - n] := by
          rw [List.getElem?_dropLast, if_pos h3]
          exact List.getElem?_eq_getElem _
        have h5 : idx w (k - n) = .ok w[k - n] := idx_eq_ok.2 (List.getElem?_eq_getElem _)
        rw [if_pos ⟨h2, h3⟩, if_pos h2, h4, forLoop, h5]
        simp only [Option.map_some, Option.toList_some, addProducts, forLoop, rbind_ok]
        rfl
      · rw [if_neg (by omega), if_pos h2, List.getElem?_eq_none (by simp; omega)]
        rfl
    · rw [if_neg (by omega), if_neg h2]; rfl
  · intro e j _ t
    simp only [bind_eq_ok, rbind_eq_ok]
    constructor
    · rintro ⟨a, ha, q, hq, d, hd, b, hb, ht⟩
      exact ⟨d, hd, b, ⟨a, ha, q, hq, hb⟩, ht⟩
    · rintro ⟨d, hd, b, ⟨a, ha, q, hq, hb⟩, ht⟩
      exact ⟨a, ha, q, hq, d, hd, b, hb, ht⟩

theorem assert_eq_ok {b : Bool} {x : Unit} : Res.assert b = .ok x ↔ b = true := by
  cases b <;> simp

variable {mul add : E → E → Res E} {neg : E → Res E} {D : E → E → Prop}

theorem longDivision_zero {w v t : List E} : LongDivision mul add neg D w v [] [] t ↔ t = v := by
  constructor
  · rintro ⟨-, h1, -, h2⟩
    refine List.ext_getElem h1 fun k h3 h4 => ?_
    obtain ⟨b, h5, h6⟩ := h2 k _ (List.getElem?_eq_getElem h4)
    rw [List.length_nil, divPairs_nil] at h6
    rw [List.getElem?_eq_getElem h3] at h5
    exact (Option.some.inj h5).trans (Res.ok.inj h6).symm
  · rintro rfl
    refine ⟨rfl, rfl, fun i x h => (by simp at h), fun k a h => ⟨a, h, ?_⟩⟩
    rw [List.length_nil, divPairs_nil]; rfl

theorem exists_list {n : ℕ} {P : ℕ → E → Prop} (h : ∀ k < n, ∃ b, P k b) :
    ∃ l : List E, l.length = n ∧ ∀ k b, l[k]? = some b → P k b := by
  choose f hf using h
  refine ⟨List.ofFn fun i : Fin n => f i i.2, by simp, fun k b hb => ?_⟩
  obtain ⟨hk, rfl⟩ := List.getElem?_eq_some_iff.1 hb
  rw [List.getElem_ofFn]
  exact hf k _

theorem longDivision_succ {w v q nq t : List E} {x c : E} (hl : nq.length = q.length) :
    LongDivision mul add neg D w v (q ++ [x]) (nq ++ [c]) t ↔
      (∃ b, v[q.length + (w.length - 1)]? = some b ∧ D b x) ∧ neg x = .ok c ∧
        ∃ v1, DivStep mul add w c q.length v v1 ∧ LongDivision mul add neg D w v1 q nq t := by
  have hq : (q ++ [x]).length = q.length + 1 := by simp
  constructor
  · rintro ⟨h1, h2, h3, h4⟩
    rw [hq] at h3 h4
    obtain ⟨b, s, c', h5, h6, h7, h8, h9⟩ := h3 q.length x (by simp)
    rw [divPairs_empty] at h6
    obtain rfl := Res.ok.inj h6
    have hc : (nq ++ [c])[q.length]? = some c := by rw [← hl]; simp
    obtain rfl := Option.some.inj (hc.symm.trans h9)
    refine ⟨⟨b, h5, h7⟩, h8, ?_⟩
    have h10 : ∀ k < v.length, ∃ b, ∀ a, v[k]? = some a →
        addProducts mul add a (onePair w c q.length k) = .ok b := by
      intro k hk
      obtain ⟨b, h11, h12⟩ := h4 k _ (List.getElem?_eq_getElem hk)
      rw [divPairs_succ _ _ _ (Nat.zero_le _) hl, addProducts_append, rbind_eq_ok] at h12
      obtain ⟨b', h13, -⟩ := h12
      refine ⟨b', fun a ha => ?_⟩
      rw [List.getElem?_eq_getElem hk] at ha
      rwa [← Option.some.inj ha]
    obtain ⟨v1, h11, h12⟩ := exists_list h10
    have hs : DivStep mul add w c q.length v v1 := by
      refine ⟨h11, fun k a hk => ?_⟩
      obtain ⟨hk', -⟩ := List.getElem?_eq_some_iff.1 hk
      exact ⟨_, List.getElem?_eq_getElem (h11 ▸ hk'), h12 k _ (List.getElem?_eq_getElem _) a hk⟩
    refine ⟨v1, hs, hl, h2.trans h11.symm, fun i y hi => ?_, fun k a hk => ?_⟩
    · obtain ⟨hi', -⟩ := List.getElem?_eq_some_iff.1 hi
      obtain ⟨b, s, c', g1, g2, g3, g4, g5⟩ := h3 i y (by rw [List.getElem?_append_left hi', hi])
      rw [divPairs_succ _ _ _ (by omega) hl, addProducts_append, rbind_eq_ok] at g2
      obtain ⟨b', g6, g7⟩ := g2
      obtain ⟨b'', g8, g9⟩ := hs.2 _ _ g1
      obtain rfl := Res.ok.inj (g6.symm.trans g9)
      refine ⟨_, s, c', g8, g7, g3, g4, ?_⟩
      rwa [List.getElem?_append_left (by omega)] at g5
    · obtain ⟨hk', -⟩ := List.getElem?_eq_some_iff.1 hk
      obtain ⟨b, g1, g2⟩ := h4 k _ (List.getElem?_eq_getElem (h11 ▸ hk'))
      rw [divPairs_succ _ _ _ (by omega) hl, addProducts_append, rbind_eq_ok] at g2
      obtain ⟨b', g6, g7⟩ := g2
      obtain ⟨b'', g8, g9⟩ := hs.2 _ _ (List.getElem?_eq_getElem (h11 ▸ hk'))
      obtain rfl := Res.ok.inj (g6.symm.trans g9)
      obtain rfl := Option.some.inj (hk.symm.trans g8)
      exact ⟨b, g1, g7⟩
  · rintro ⟨⟨b, h1, h2⟩, h3, v1, hs, h4⟩
    refine ⟨by simp [hl], h4.len.trans hs.1, fun i y hi => ?_, fun k a hk => ?_⟩
    · rw [hq]
      by_cases hi' : i < q.length
      · rw [List.getElem?_append_left hi'] at hi
        obtain ⟨b, s, c', g1, g2, g3, g4, g5⟩ := h4.quo i y hi
        have g6 : i + (w.length - 1) < v.length := hs.1 ▸ (List.getElem?_eq_some_iff.1 g1).1
        obtain ⟨b', g7, g8⟩ := hs.2 _ _ (List.getElem?_eq_getElem g6)
        obtain rfl := Option.some.inj (g1.symm.trans g7)
        refine ⟨_, s, c', List.getElem?_eq_getElem g6, ?_, g3, g4, ?_⟩
        · rw [divPairs_succ _ _ _ (by omega) hl, addProducts_append, g8]
          exact g2
        · rwa [List.getElem?_append_left (by omega)]
      · have hi2 := (List.getElem?_eq_some_iff.1 hi).1
        obtain rfl : i = q.length := by rw [hq] at hi2; omega
        obtain rfl : x = y := by simpa using hi
        refine ⟨b, b, c, h1, ?_, h2, h3, ?_⟩
        · rw [divPairs_empty]; rfl
        · rw [← hl]; simp
    · obtain ⟨b', g1, g2⟩ := hs.2 k a hk
      obtain ⟨b'', g3, g4⟩ := h4.rem k _ g1
      refine ⟨b'', g3, ?_⟩
      rw [hq, divPairs_succ _ _ _ (by omega) hl, addProducts_append, g2]
      exact g4

namespace PolynomialAlgebra

theorem quoRemLoop_ok_iff [Cfg] (base : FieldOps E) (w : List E) (a : E) (n : ℕ) (quo rem quo' t : List E)
    (hw : w ≠ []) (hq : n ≤ quo.length) (hr : n + (w.length - 1) ≤ rem.length) :
    quoRemLoop base w a n quo rem = .ok (quo', t) ↔ ∃ q nq, q.length = n ∧ quo' = q ++ quo.drop n ∧
      LongDivision base.mul base.add base.neg (fun s x => base.div s a = .ok x) w rem q nq t := by
  have hlw := List.length_pos_iff.2 hw
  induction n generalizing quo rem with
  | zero =>
    rw [quoRemLoop, Res.ok.injEq, Prod.mk.injEq]
    constructor
    · rintro ⟨rfl, rfl⟩
      exact ⟨[], [], rfl, rfl, longDivision_zero.2 rfl⟩
    · rintro ⟨q, nq, h1, h2, h3⟩
      obtain rfl := List.length_eq_zero_iff.1 h1
      obtain rfl := List.length_eq_zero_iff.1 h3.neg_len
      exact ⟨h2.symm, (longDivision_zero.1 h3).symm⟩
  | succ n ih =>
    rw [quoRemLoop, show n + w.length - 1 = n + (w.length - 1) by omega]
    simp only [bind_eq_ok, idx_eq_ok, setIdx_eq_ok]
    have hd : ∀ x, (quo.set n x).drop n = x :: quo.drop (n + 1) := by
      intro x
      rw [List.drop_eq_getElem_cons (by rw [List.length_set]; omega), List.getElem_set_self,
        List.drop_set, if_pos (by omega)]
    constructor
    · rintro ⟨b, h1, x, h2, quo1, ⟨h3, rfl⟩, x', h4, c, h5, v1, h6, h7⟩
      obtain rfl : x = x' := by rw [List.getElem?_set_self h3] at h4; exact Option.some.inj h4
      rw [divStep_loop _ _ _ _ _ _ _ (by omega)] at h6
      replace h7 := (ih _ _ (by rw [List.length_set]; omega) (by rw [h6.1]; omega)).1 h7
      obtain ⟨q, nq, h8, h9, h10⟩ := h7
      rw [hd] at h9
      refine ⟨q ++ [x], nq ++ [c], by simp [h8], by rw [h9]; simp, (longDivision_succ h10.neg_len).2
        ⟨⟨b, by rw [h8]; exact h1, h2⟩, h5, v1, by rw [h8]; exact h6, h10⟩⟩
    · rintro ⟨q', nq', h1, h2, h3⟩
      obtain ⟨q, x, rfl⟩ : ∃ q x, q' = q ++ [x] :=
        ⟨_, _, (List.dropLast_append_getLast (List.length_pos_iff.1 (by omega))).symm⟩
      obtain ⟨nq, c, rfl⟩ : ∃ q x, nq' = q ++ [x] :=
        ⟨_, _, (List.dropLast_append_getLast (List.length_pos_iff.1 (by rw [h3.neg_len]; omega))).symm⟩
      have hl : nq.length = q.length := by simpa using h3.neg_len
      have hqn : q.length = n := by simpa using h1
      obtain ⟨⟨b, h4, h5⟩, h6, v1, h7, h8⟩ := (longDivision_succ hl).1 h3
      rw [hqn] at h4 h7
      refine ⟨b, h4, x, h5, _, ⟨by omega, rfl⟩, x, List.getElem?_set_self (by omega), c, h6, v1,
        (divStep_loop _ _ _ _ _ _ _ (by omega)).2 h7, ?_⟩
      refine (ih _ _ (by rw [List.length_set]; omega) (by rw [h7.1]; omega)).2 ⟨q, nq, hqn, ?_, h8⟩
      rw [hd, h2]; simp

theorem tryDivLoop_ok_iff [Cfg] (base : IntegralDomainOps E) (w : List E) (a : E) (n : ℕ)
    (quo rem quo' t : List E)
    (hw : w ≠ []) (hq : n ≤ quo.length) (hr : n + (w.length - 1) ≤ rem.length) :
    tryDivLoop base w a n quo rem = .ok (some (quo', t)) ↔ ∃ q nq, q.length = n ∧ quo' = q ++ quo.drop n ∧
      LongDivision base.mul base.addAssign base.neg (fun s x => base.tryDiv s a = .ok (some x)) w rem q nq t := by
  have hlw := List.length_pos_iff.2 hw
  induction n generalizing quo rem with
  | zero =>
    rw [tryDivLoop, Res.ok.injEq, Option.some.injEq, Prod.mk.injEq]
    constructor
    · rintro ⟨rfl, rfl⟩
      exact ⟨[], [], rfl, rfl, longDivision_zero.2 rfl⟩
    · rintro ⟨q, nq, h1, h2, h3⟩
      obtain rfl := List.length_eq_zero_iff.1 h1
      obtain rfl := List.length_eq_zero_iff.1 h3.neg_len
      exact ⟨h2.symm, (longDivision_zero.1 h3).symm⟩
  | succ n ih =>
    rw [tryDivLoop, show n + w.length - 1 = n + (w.length - 1) by omega]
    simp only [bind_eq_ok, idx_eq_ok]
    have hd : ∀ x, (quo.set n x).drop n = x :: quo.drop (n + 1) := by
      intro x
      rw [List.drop_eq_getElem_cons (by rw [List.length_set]; omega), List.getElem_set_self,
        List.drop_set, if_pos (by omega)]
    constructor
    · rintro ⟨b, h1, o, h2, h⟩
      cases o with
      | none => cases h
      | some x =>
        simp only [bind_eq_ok, idx_eq_ok, setIdx_eq_ok] at h
        obtain ⟨quo1, ⟨h3, rfl⟩, x', h4, c, h5, v1, h6, h7⟩ := h
        obtain rfl : x = x' := by rw [List.getElem?_set_self h3] at h4; exact Option.some.inj h4
        rw [divStep_loop _ _ _ _ _ _ _ (by omega)] at h6
        replace h7 := (ih _ _ (by rw [List.length_set]; omega) (by rw [h6.1]; omega)).1 h7
        obtain ⟨q, nq, h8, h9, h10⟩ := h7
        rw [hd] at h9
        refine ⟨q ++ [x], nq ++ [c], by simp [h8], by rw [h9]; simp, (longDivision_succ h10.neg_len).2
          ⟨⟨b, by rw [h8]; exact h1, h2⟩, h5, v1, by rw [h8]; exact h6, h10⟩⟩
    · rintro ⟨q', nq', h1, h2, h3⟩
      obtain ⟨q, x, rfl⟩ : ∃ q x, q' = q ++ [x] :=
        ⟨_, _, (List.dropLast_append_getLast (List.length_pos_iff.1 (by omega))).symm⟩
      obtain ⟨nq, c, rfl⟩ : ∃ q x, nq' = q ++ [x] :=
        ⟨_, _, (List.dropLast_append_getLast (List.length_pos_iff.1 (by rw [h3.neg_len]; omega))).symm⟩
      have hl : nq.length = q.length := by simpa using h3.neg_len
      have hqn : q.length = n := by simpa using h1
      obtain ⟨⟨b, h4, h5⟩, h6, v1, h7, h8⟩ := (longDivision_succ hl).1 h3
      rw [hqn] at h4 h7
      refine ⟨b, h4, _, h5, ?_⟩
      simp only [bind_eq_ok, idx_eq_ok, setIdx_eq_ok]
      refine ⟨_, ⟨by omega, rfl⟩, x, List.getElem?_set_self (by omega), c, h6, v1,
        (divStep_loop _ _ _ _ _ _ _ (by omega)).2 h7, ?_⟩
      refine (ih _ _ (by rw [List.length_set]; omega) (by rw [h7.1]; omega)).2 ⟨q, nq, hqn, ?_, h8⟩
      rw [hd, h2]; simp

theorem trimLen_ok_iff [Cfg] (base : FieldOps E) (t : List E) (n l : ℕ) (hn : n ≤ t.length) :
    trimLen base t n = .ok l ↔ l ≤ n ∧
      (∀ k a, l ≤ k → k < n → t[k]? = some a → base.isZero a = .ok true) ∧
      (∀ a, l ≠ 0 → t[l - 1]? = some a → base.isZero a = .ok false) := by
  induction n with
  | zero =>
    rw [trimLen]
    constructor
    · intro h
      obtain rfl := Res.ok.inj h
      exact ⟨le_rfl, fun k a _ h => absurd h (by omega), fun a h => absurd rfl h⟩
    · rintro ⟨h, -⟩
      rw [Nat.le_zero.1 h]
  | succ n ih =>
    rw [trimLen]
    simp only [bind_eq_ok, idx_eq_ok]
    have hg : t[n]? = some t[n] := List.getElem?_eq_getElem _
    constructor
    · rintro ⟨a, h1, b, h2, h3⟩
      cases b with
      | true =>
        simp only [if_true] at h3
        obtain ⟨h4, h5, h6⟩ := (ih (by omega)).1 h3
        refine ⟨by omega, fun k a' h7 h8 h9 => ?_, h6⟩
        by_cases hk : k = n
        · subst hk
          rw [← Option.some.inj (h1.symm.trans h9)]
          exact h2
        · exact h5 k a' h7 (by omega) h9
      | false =>
        obtain rfl : n + 1 = l := Res.ok.inj h3
        refine ⟨le_rfl, fun k a' h7 h8 => absurd h8 (by omega), fun a' _ h9 => ?_⟩
        rw [← Option.some.inj (h1.symm.trans h9)]
        exact h2
    · rintro ⟨h4, h5, h6⟩
      by_cases hl : l = n + 1
      · subst hl
        refine ⟨_, hg, false, h6 _ (by omega) hg, rfl⟩
      · refine ⟨_, hg, true, h5 n _ (by omega) (by omega) hg, ?_⟩
        simp only [if_true]
        exact (ih (by omega)).2 ⟨by omega, fun k a h7 h8 => h5 k a h7 (by omega), h6⟩

theorem quoRem_ok_iff [Cfg] (base : FieldOps E) {v w : List E} (q r : List E) (hw : w ≠ [])
    (hlen : w.length ≤ v.length) :
    quoRem base v w = .ok (q, r) ↔ ∃ a z nq t l, w.getLast? = some a ∧ base.zero = .ok z ∧
      base.isZero a = .ok false ∧ q.length + w.length = v.length + 1 ∧
      LongDivision base.mul base.add base.neg (fun s x => base.div s a = .ok x) w v q nq t ∧
      r = t.take l ∧ l ≤ w.length - 1 ∧
      (∀ k a, l ≤ k → k < w.length - 1 → t[k]? = some a → base.isZero a = .ok true) ∧
      (∀ a, l ≠ 0 → t[l - 1]? = some a → base.isZero a = .ok false) := by
  have hlw := List.length_pos_iff.2 hw
  have ha : w.getLast? = some w[w.length - 1] := by
    rw [List.getLast?_eq_getElem?, List.getElem?_eq_getElem (by omega)]
  unfold quoRem
  rw [show (!w.isEmpty) = true by simpa using hw, if_neg (by omega)]
  simp only [bind_eq_ok, idx_eq_ok, assert_eq_ok]
  constructor
  · rintro ⟨-, -, z, h1, a, h2, b, h3, -, h4, ⟨quo', t⟩, h5, l, h6, h7⟩
    rw [List.length_replicate] at h5
    obtain ⟨q', nq, h8, h9, h10⟩ := (quoRemLoop_ok_iff base w a _ _ v quo' t hw (by simp) (by omega)).1 h5
    rw [List.drop_eq_nil_of_le (by simp), List.append_nil] at h9
    subst h9
    obtain ⟨rfl, rfl⟩ : quo' = q ∧ t.take l = r := Prod.mk.inj (Res.ok.inj h7)
    obtain ⟨h11, h12, h13⟩ := (trimLen_ok_iff base t _ l (by rw [h10.len]; omega)).1 h6
    refine ⟨a, z, nq, t, l, by rw [List.getLast?_eq_getElem?, h2], h1, ?_, by omega, h10, rfl, h11, h12, h13⟩
    rw [h3]; simpa using h4
  · rintro ⟨a, z, nq, t, l, h1, h2, h3, h4, h5, rfl, h6, h7, h8⟩
    rw [List.getLast?_eq_getElem?] at h1
    refine ⟨(), trivial, z, h2, a, h1, false, h3, (), rfl, (q, t), ?_, l, ?_, rfl⟩
    · refine (quoRemLoop_ok_iff base w a _ _ v q t hw le_rfl (by rw [List.length_replicate]; omega)).2
        ⟨q, nq, by rw [List.length_replicate]; omega, by simp, h5⟩
    · exact (trimLen_ok_iff base t _ l (by rw [h5.len]; omega)).2 ⟨h6, h7, h8⟩

theorem allRes_ok_true_iff {α : Type} {f : α → Res Bool} {l : List α} :
    allRes f l = .ok true ↔ ∀ a ∈ l, f a = .ok true := by
  induction l with
  | nil => exact ⟨fun _ => by simp, fun _ => rfl⟩
  | cons a l ih =>
    rw [List.forall_mem_cons, ← ih, allRes, rbind_eq_ok]
    constructor
    · rintro ⟨b, h1, h2⟩
      cases b with
      | false => cases h2
      | true => exact ⟨h1, h2⟩
    · rintro ⟨h1, h2⟩
      exact ⟨true, h1, h2⟩

theorem tryDiv_ok_iff [Cfg] (base : IntegralDomainOps E) {v w : List E} (q : List E) (hw : w ≠ [])
    (hlen : w.length ≤ v.length) :
    tryDiv base v w = .ok (some q) ↔ ∃ a z nq t, w.getLast? = some a ∧ base.zero = .ok z ∧
      base.isZero a = .ok false ∧ q.length + w.length = v.length + 1 ∧
      LongDivision base.mul base.addAssign base.neg (fun s x => base.tryDiv s a = .ok (some x)) w v q nq t ∧
      ∀ b ∈ t.take (w.length - 1), base.isZero b = .ok true := by
  have hlw := List.length_pos_iff.2 hw
  unfold tryDiv
  rw [show (!w.isEmpty) = true by simpa using hw, if_neg (by omega)]
  simp only [bind_eq_ok, idx_eq_ok, assert_eq_ok]
  constructor
  · rintro ⟨-, -, z, h1, a, h2, b, h3, -, h4, o, h5, h6⟩
    rw [List.length_replicate] at h5
    rcases o with _ | ⟨quo', t⟩
    · cases h6
    simp only [bind_eq_ok] at h6
    obtain ⟨c, h6, h7⟩ := h6
    obtain ⟨q', nq, h8, h9, h10⟩ := (tryDivLoop_ok_iff base w a _ _ v quo' t hw (by simp) (by omega)).1 h5
    rw [List.drop_eq_nil_of_le (by simp), List.append_nil] at h9
    subst h9
    cases c with
    | false => cases h7
    | true =>
      obtain rfl : quo' = q := Option.some.inj (Res.ok.inj h7)
      refine ⟨a, z, nq, t, by rw [List.getLast?_eq_getElem?, h2], h1, ?_, by omega, h10,
        allRes_ok_true_iff.1 h6⟩
      rw [h3]; simpa using h4
  · rintro ⟨a, z, nq, t, h1, h2, h3, h4, h5, h6⟩
    rw [List.getLast?_eq_getElem?] at h1
    refine ⟨(), trivial, z, h2, a, h1, false, h3, (), rfl, some (q, t), ?_, ?_⟩
    · refine (tryDivLoop_ok_iff base w a _ _ v q t hw le_rfl (by rw [List.length_replicate]; omega)).2
        ⟨q, nq, by rw [List.length_replicate]; omega, by simp, h5⟩
    · simp only [bind_eq_ok]
      exact ⟨true, allRes_ok_true_iff.2 h6, rfl⟩

end PolynomialAlgebra

end Abstalg
