import Verif.Proofs.OrderPower
import Verif.Proofs.Matrices

/-! # The order of operations in the elimination over a base without laws -/

set_option autoImplicit false

universe u v

namespace Abstalg

theorem ok_rbind {α : Type u} {β : Type v} (a : α) (f : α → Res β) : (Res.ok a).bind f = f a := rfl

/-- A loop whose rounds change one component each. -/
theorem forLoop_components {ι ρ : Type} {S : Type u} [DecidableEq ι] (enc : (ι → ρ) → S)
    (Inv : (ι → ρ) → Prop) (P : ι → ρ → ρ → Prop) (body : S → ι → Res S) (l : List ι)
    (hl : l.Nodup) (hi : ∀ M r b, r ∈ l → Inv M → P r (M r) b → Inv (Function.update M r b))
    (hb : ∀ M, Inv M → ∀ r ∈ l, ∀ x, body (enc M) r = .ok x ↔
      ∃ b, x = enc (Function.update M r b) ∧ P r (M r) b)
    (M : ι → ρ) (hM : Inv M) (x : S) :
    forLoop l (enc M) body = .ok x ↔
      ∃ B, x = enc B ∧ (∀ r ∈ l, P r (M r) (B r)) ∧ ∀ r, r ∉ l → B r = M r := by
  induction l generalizing M with
  | nil =>
    constructor
    · intro h
      exact ⟨M, (Res.ok.inj h).symm, by simp, fun _ _ => rfl⟩
    · rintro ⟨B, rfl, -, h⟩
      rw [show B = M from funext fun r => h r (by simp)]
      rfl
  | cons i l ih =>
    obtain ⟨hil, hl'⟩ := List.nodup_cons.1 hl
    have ih' := ih hl' (fun M r b hr => hi M r b (List.mem_cons_of_mem _ hr))
      (fun M hM r hr => hb M hM r (List.mem_cons_of_mem _ hr))
    rw [forLoop, rbind_eq_ok]
    constructor
    · rintro ⟨s, h1, h2⟩
      obtain ⟨b, rfl, h3⟩ := (hb M hM i List.mem_cons_self s).1 h1
      obtain ⟨B, rfl, h4, h5⟩ := (ih' _ (hi M i b List.mem_cons_self hM h3)).1 h2
      refine ⟨B, rfl, ?_, ?_⟩
      · intro r hr
        rcases List.mem_cons.1 hr with rfl | hr'
        · rw [h5 r hil, Function.update_self]; exact h3
        · have := h4 r hr'
          rwa [Function.update_of_ne (fun h' => hil (by rw [← h']; exact hr'))] at this
      · intro r hr
        rw [List.mem_cons, not_or] at hr
        rw [h5 r hr.2, Function.update_of_ne hr.1]
    · rintro ⟨B, rfl, h4, h5⟩
      refine ⟨_, (hb M hM i List.mem_cons_self _).2 ⟨B i, rfl, h4 i List.mem_cons_self⟩, ?_⟩
      refine (ih' _ (hi M i _ List.mem_cons_self hM (h4 i List.mem_cons_self))).2 ⟨B, rfl, fun r hr => ?_, fun r hr => ?_⟩
      · rw [Function.update_of_ne (by rintro rfl; exact hil hr)]
        exact h4 r (List.mem_cons_of_mem _ hr)
      · by_cases h : r = i
        · subst h; rw [Function.update_self]
        · rw [Function.update_of_ne h]
          exact h5 r (by simp [h, hr])

variable {E : Type} {n : ℕ}

theorem idx_flatVec (A : Fin n → Fin n → E) (i j : Fin n) :
    idx (flatVec A) (i.1 * n + j.1) = .ok (A i j) := idx_eq_ok.2 (flatVec_get A i j)

theorem setIdx_flatVec (A : Fin n → Fin n → E) (i j : Fin n) (b : E) :
    setIdx (flatVec A) (i.1 * n + j.1) b =
      .ok (flatVec (Function.update A i (Function.update (A i) j b))) := by
  have hlt : i.1 * n + j.1 < (flatVec A).length := by
    rw [flatVec_length]; exact flat_lt i.2 j.2
  rw [setIdx_eq_ok]
  refine ⟨hlt, ?_⟩
  obtain ⟨B, hB⟩ := flatVec_surj (n := n) (v := (flatVec A).set (i.1 * n + j.1) b)
    (by rw [List.length_set, flatVec_length])
  rw [← hB]
  congr 1
  funext k l
  have h := flatVec_get B k l
  rw [hB, List.getElem?_set] at h
  by_cases hk : i = k ∧ j = l
  · obtain ⟨rfl, rfl⟩ := hk
    rw [if_pos rfl, if_pos hlt] at h
    rw [Function.update_self, Function.update_self]
    exact Option.some.inj h
  · rw [if_neg (fun h' => hk (flat_inj.1 h')), flatVec_get] at h
    rw [← Option.some.inj h]
    by_cases h1 : k = i
    · subst h1
      rw [Function.update_self, Function.update_of_ne (fun h2 => hk ⟨rfl, h2.symm⟩)]
    · rw [Function.update_of_ne h1]

namespace MatrixRing

variable [Cfg] (base : FieldOps E)

omit [Cfg] in
theorem update_update (A : Fin n → Fin n → E) (r : Fin n) (g : Fin n → E) (j : Fin n) (b : E) :
    Function.update (Function.update A r g) r (Function.update (Function.update A r g r) j b) =
      Function.update A r (Function.update g j b) := by
  rw [Function.update_self, Function.update_idem]

theorem mulRow_ok_iff (A : Fin n → Fin n → E) (i : Fin n) (c : E) (x : List E) :
    mulRow base n (flatVec A) i.1 c = .ok x ↔
      ∃ b, x = flatVec (Function.update A i b) ∧ ScaleRow base c (A i) b := by
  unfold mulRow
  have hle : i.1 * n + n ≤ (flatVec A).length := by
    rw [flatVec_length]
    calc i.1 * n + n = (i.1 + 1) * n := by ring
      _ ≤ n * n := Nat.mul_le_mul_right n i.2
  show (Res.assert (decide (i.1 * n + n ≤ (flatVec A).length)) >>= _) = _ ↔ _
  rw [decide_eq_true hle, assert_true, ok_bind, ← List.map_coe_finRange_eq_range, forLoop_map]
  have h := forLoop_components (enc := fun g : Fin n → E => flatVec (Function.update A i g))
    (Inv := fun _ => True) (P := fun j a b => base.mulAssign a c = .ok b)
    (body := fun elem (j : Fin n) => do
      let a ← base.mulAssign (← idx elem (i.1 * n + j.1)) c
      setIdx elem (i.1 * n + j.1) a) (l := List.finRange n) (List.nodup_finRange n)
    (fun _ _ _ _ _ _ => trivial) (fun g _ j _ x => by
      rw [idx_flatVec, ok_bind, Function.update_self, bind_eq_ok]
      simp only [setIdx_flatVec, update_update, Res.ok.injEq]
      exact ⟨fun ⟨b, h1, h2⟩ => ⟨b, h2.symm, h1⟩, fun ⟨b, h1, h2⟩ => ⟨b, h2, h1.symm⟩⟩)
    (A i) trivial x
  simp only [Function.update_eq_self, List.mem_finRange, true_imp_iff, not_true_eq_false, false_imp_iff,
    implies_true, and_true] at h
  exact h

theorem addRows_ok_iff (A : Fin n → Fin n → E) {i r : Fin n} (hir : i ≠ r) (c : E) (x : List E) :
    addRows base n (flatVec A) i.1 r.1 c = .ok x ↔
      ∃ b, x = flatVec (Function.update A r b) ∧ AddRow base c (A i) (A r) b := by
  unfold addRows
  rw [← List.map_coe_finRange_eq_range, forLoop_map]
  have h := forLoop_components (enc := fun g : Fin n → E => flatVec (Function.update A r g))
    (Inv := fun _ => True)
    (P := fun j a b => ∃ q, base.mul (A i j) c = .ok q ∧ base.addAssign a q = .ok b)
    (body := fun elem (j : Fin n) => do
      let val ← base.mul (← idx elem (i.1 * n + j.1)) c
      let a ← base.addAssign (← idx elem (r.1 * n + j.1)) val
      setIdx elem (r.1 * n + j.1) a) (l := List.finRange n) (List.nodup_finRange n)
    (fun _ _ _ _ _ _ => trivial) (fun g _ j _ x => by
      rw [idx_flatVec, ok_bind, Function.update_of_ne hir, idx_flatVec]
      simp only [setIdx_flatVec, update_update, ok_bind, bind_eq_ok, Res.ok.injEq]
      rw [Function.update_self]
      exact ⟨fun ⟨q, h0, b, h1, h2⟩ => ⟨b, h2.symm, q, h0, h1⟩,
        fun ⟨b, h1, q, h0, h2⟩ => ⟨q, h0, b, h2, h1.symm⟩⟩)
    (A r) trivial x
  simp only [Function.update_eq_self, List.mem_finRange, true_imp_iff, not_true_eq_false, false_imp_iff,
    implies_true, and_true] at h
  exact h

theorem swapRows_flatVec (A : Fin n → Fin n → E) {i p : Fin n} (h : i ≠ p) :
    swapRows n (flatVec A) i.1 p.1 = .ok (flatVec (fun r => A (Equiv.swap i p r))) := by
  have hr : MatRep (fun a b : E => a = b) (flatVec A) A :=
    ⟨flatVec_length A, fun i j => ⟨_, flatVec_get A i j, rfl⟩⟩
  obtain ⟨t, h1, h2⟩ := returns_false_iff.1 (swapRows_spec hr.grid i p h)
  obtain ⟨h2, h3⟩ := h2.matRep
  obtain ⟨B, rfl⟩ := flatVec_surj h2
  rw [h1]
  congr 2
  funext i j
  obtain ⟨a, h4, h5⟩ := h3 i j
  rw [flatVec_get] at h4
  exact (Option.some.inj h4).trans h5

omit [Cfg] in
theorem findRes_range'_some {f : ℕ → Res Bool} {s m p : ℕ} :
    findRes f (List.range' s m) = .ok (some p) ↔ s ≤ p ∧ p < s + m ∧ f p = .ok true ∧
      ∀ q, s ≤ q → q < p → f q = .ok false := by
  induction m generalizing s with
  | zero => 
    constructor
    · intro h; cases h
    · rintro ⟨h1, h2, -⟩; omega
  | succ m ih =>
    rw [List.range'_succ, findRes, rbind_eq_ok]
    constructor
    · rintro ⟨b, h1, h2⟩
      cases b with
      | true =>
        obtain rfl : s = p := Option.some.inj (Res.ok.inj h2)
        exact ⟨le_rfl, by omega, h1, fun q h3 h4 => by omega⟩
      | false =>
        obtain ⟨h3, h4, h5, h6⟩ := ih.1 h2
        refine ⟨by omega, by omega, h5, fun q h7 h8 => ?_⟩
        by_cases h9 : q = s
        · rw [h9, h1]
        · exact h6 q (by omega) h8
    · rintro ⟨h1, h2, h3, h4⟩
      by_cases h5 : p = s
      · subst h5
        exact ⟨true, h3, rfl⟩
      · exact ⟨false, h4 s le_rfl (by omega), ih.2 ⟨by omega, by omega, h3, fun q h7 => h4 q (by omega)⟩⟩

omit [Cfg] in
theorem findRes_range'_none {f : ℕ → Res Bool} {s m : ℕ} :
    findRes f (List.range' s m) = .ok none ↔ ∀ q, s ≤ q → q < s + m → f q = .ok false := by
  induction m generalizing s with
  | zero => 
    constructor
    · intro _ q h1 h2; omega
    · intro _; rfl
  | succ m ih =>
    rw [List.range'_succ, findRes, rbind_eq_ok]
    constructor
    · rintro ⟨b, h1, h2⟩
      cases b with
      | true => cases h2
      | false =>
        intro q h7 h8
        by_cases h9 : q = s
        · rw [h9, h1]
        · exact ih.1 h2 q (by omega) (by omega)
    · intro h
      exact ⟨false, h s le_rfl (by omega), ih.2 fun q h7 h8 => h q (by omega) (by omega)⟩

theorem pivotTest (A : Fin n → Fin n → E) (r i : Fin n) (b : Bool) :
    (do return !(← base.isZero (← idx (flatVec A) (r.1 * n + i.1))) : Res Bool) = .ok b ↔
      base.isZero (A r i) = .ok (!b) := by
  rw [idx_flatVec, ok_bind, bind_eq_ok]
  constructor
  · rintro ⟨a, h1, h2⟩
    rw [h1, ← Res.ok.inj h2, Bool.not_not]
  · intro h
    exact ⟨_, h, by rw [Bool.not_not]; rfl⟩

theorem findRow_some_iff (A : Fin n → Fin n → E) (i : Fin n) (p : ℕ) :
    findRow base n (flatVec A) i.1 = .ok (some p) ↔ ∃ q : Fin n, p = q.1 ∧ FirstPivot base A i q := by
  unfold findRow
  rw [findRes_range'_some]
  constructor
  · rintro ⟨h1, h2, h3, h4⟩
    refine ⟨⟨p, by omega⟩, rfl, h1, (pivotTest base A ⟨p, by omega⟩ i true).1 h3, fun r h5 h6 => ?_⟩
    exact (pivotTest base A r i false).1 (h4 r.1 h5 h6)
  · rintro ⟨q, rfl, h1, h2, h3⟩
    refine ⟨h1, by omega, (pivotTest base A q i true).2 h2, fun r h5 h6 => ?_⟩
    exact (pivotTest base A ⟨r, by omega⟩ i false).2 (h3 ⟨r, by omega⟩ h5 h6)

theorem findRow_none_iff (A : Fin n → Fin n → E) (i : Fin n) :
    findRow base n (flatVec A) i.1 = .ok none ↔ NoPivot base A i := by
  unfold findRow
  rw [findRes_range'_none]
  constructor
  · intro h r hr
    exact (pivotTest base A r i false).1 (h r.1 hr (by omega))
  · intro h r h1 h2
    exact (pivotTest base A ⟨r, by omega⟩ i false).2 (h ⟨r, by omega⟩ h1)

omit [Cfg] in
theorem range'_eq_filter (n i : ℕ) (hi : i < n) :
    List.range' (i + 1) (n - (i + 1)) = (List.range n).filter fun k => i < k := by
  have h : List.range n = List.range (i + 1) ++ List.range' (i + 1) (n - (i + 1)) := by
    rw [List.range_eq_range', List.range_eq_range']
    have := List.range'_append_1 (s := 0) (m := i + 1) (n := n - (i + 1))
    rw [Nat.zero_add] at this
    rw [this]
    congr 1
    omega
  rw [h, List.filter_append, List.filter_eq_nil_iff.2, List.nil_append, List.filter_eq_self.2]
  · intro a ha
    rw [List.mem_range'_1] at ha
    simp; omega
  · intro a ha
    rw [List.mem_range] at ha
    simp; omega

/-- The exchange and the scaling. -/
theorem scaled_iff (A : Fin n → Fin n → E) (i p : Fin n) (c : E) (x : List E) :
    (∃ b, x = flatVec (Function.update (fun r => A (Equiv.swap i p r)) i b) ∧ ScaleRow base c (A p) b) ↔
      ∃ B, x = flatVec B ∧ Scaled base i p c A B := by
  constructor
  · rintro ⟨b, rfl, h⟩
    refine ⟨_, rfl, by rwa [Function.update_self], fun r hr => ?_⟩
    rw [Function.update_of_ne hr]
  · rintro ⟨B, rfl, h1, h2⟩
    refine ⟨B i, ?_, h1⟩
    congr 1
    funext r
    by_cases hr : r = i
    · subst hr; rw [Function.update_self]
    · rw [Function.update_of_ne hr, h2 r hr]

/-- The row `r` is cleared in column `i`. -/
def ClearRow (i : Fin n) (p a b : Fin n → E) : Prop :=
  (base.isZero (a i) = .ok true ∧ b = a) ∨
    base.isZero (a i) = .ok false ∧ ∃ m, base.neg (a i) = .ok m ∧ AddRow base m p a b

theorem detClear_ok_iff (A : Fin n → Fin n → E) (i : Fin n) (x : List E) :
    detClear base n (flatVec A) i.1 = .ok x ↔ ∃ B, x = flatVec B ∧ (∀ r, r ≤ i → B r = A r) ∧
      ∀ r, i < r → ClearRow base i (A i) (A r) (B r) := by
  unfold detClear
  have hl : List.range' (i.1 + 1) (n - (i.1 + 1)) =
      ((List.finRange n).filter fun r => i < r).map Fin.val := by
    rw [show (fun r : Fin n => decide (i < r)) = (fun k : ℕ => decide (i.1 < k)) ∘ Fin.val from rfl,
      ← List.filter_map, List.map_coe_finRange_eq_range]
    exact range'_eq_filter n i.1 i.2
  rw [hl, forLoop_map]
  refine (forLoop_components (enc := fun M : Fin n → Fin n → E => flatVec M)
    (Inv := fun M => M i = A i) (P := fun r a b => ClearRow base i (A i) a b) _ _
    ((List.nodup_finRange n).filter _) ?_ ?_ A rfl x).trans ?_
  · intro M r b hr hM _
    have : i ≠ r := ne_of_lt (by simpa using hr)
    rw [Function.update_of_ne this]; exact hM
  · intro M hM r hr x
    have hir : i ≠ r := ne_of_lt (by simpa using hr)
    show (idx (flatVec M) (r.1 * n + i.1) >>= _) = _ ↔ _
    rw [idx_flatVec, ok_bind, bind_eq_ok]
    constructor
    · rintro ⟨b, h1, h2⟩
      cases b with
      | true =>
        refine ⟨M r, ?_, .inl ⟨h1, rfl⟩⟩
        rw [Function.update_eq_self]
        exact (Res.ok.inj h2).symm
      | false =>
        simp only [Bool.false_eq_true, if_false, bind_eq_ok, addRows_ok_iff base M hir] at h2
        obtain ⟨m, h2, b, rfl, h3⟩ := h2
        exact ⟨b, rfl, .inr ⟨h1, m, h2, hM ▸ h3⟩⟩
    · rintro ⟨b, rfl, ⟨h1, rfl⟩ | ⟨h1, m, h2, h3⟩⟩
      · exact ⟨true, h1, by rw [Function.update_eq_self]; rfl⟩
      · refine ⟨false, h1, ?_⟩
        simp only [Bool.false_eq_true, if_false, bind_eq_ok, addRows_ok_iff base M hir]
        exact ⟨m, h2, b, rfl, hM ▸ h3⟩
  · refine exists_congr fun B => and_congr_right fun _ => ?_
    simp only [List.mem_filter, List.mem_finRange, true_and, decide_eq_true_eq, not_lt]
    exact and_comm

theorem detLoop_cons (c : ℕ) (cols : List ℕ) (elem : List E) (det : E) :
    detLoop base n (c :: cols) elem det = (findRow base n elem c).bind fun o => match o with
      | some row => (if row ≠ c then swapRows n elem c row else .ok elem).bind fun elem =>
          (idx elem (c * n + c)).bind fun coef => (base.mulAssign det coef).bind fun det =>
          (base.inv coef).bind fun coef => (mulRow base n elem c coef).bind fun elem =>
          (detClear base n elem c).bind fun elem => detLoop base n cols elem det
      | none => base.zero := by
  rw [detLoop]
  show Res.bind _ _ = _
  congr 1
  funext o
  cases o with
  | none => rfl
  | some row => by_cases h : row ≠ c <;> simp only [if_pos h, if_neg h] <;> rfl

theorem swapIf (A : Fin n → Fin n → E) (i p : Fin n) :
    (if p.1 ≠ i.1 then swapRows n (flatVec A) i.1 p.1 else .ok (flatVec A)) =
      .ok (flatVec fun r => A (Equiv.swap i p r)) := by
  by_cases h : p = i
  · subst h
    rw [if_neg (by simp), Equiv.swap_self]
    rfl
  · rw [if_pos (fun h' => h (Fin.ext h')), swapRows_flatVec _ (Ne.symm h)]

theorem mulRow_swap_ok_iff (A : Fin n → Fin n → E) (i p : Fin n) (c : E) (x : List E) :
    mulRow base n (flatVec fun r => A (Equiv.swap i p r)) i.1 c = .ok x ↔
      ∃ B, x = flatVec B ∧ Scaled base i p c A B := by
  rw [mulRow_ok_iff, ← scaled_iff, Equiv.swap_apply_left]

theorem detLoop_ok_iff (l : List (Fin n)) (A : Fin n → Fin n → E) (d x : E) :
    detLoop base n (l.map Fin.val) (flatVec A) d = .ok x ↔ DetRun base l A d x := by
  induction l generalizing A d with
  | nil =>
    constructor
    · intro h
      rw [← Res.ok.inj h]
      exact .done A d
    · rintro ⟨⟩
      rfl
  | cons i l ih =>
    rw [List.map_cons, detLoop_cons, rbind_eq_ok]
    have key : ∀ p : Fin n, (((if p.1 ≠ i.1 then swapRows n (flatVec A) i.1 p.1 else .ok (flatVec A)).bind
        fun elem => (idx elem (i.1 * n + i.1)).bind fun coef => (base.mulAssign d coef).bind fun det =>
          (base.inv coef).bind fun coef => (mulRow base n elem i.1 coef).bind fun elem =>
          (detClear base n elem i.1).bind fun elem => detLoop base n (l.map Fin.val) elem det) = .ok x) ↔
        ∃ d' c A₁ A₂, base.mulAssign d (A p i) = .ok d' ∧
          base.inv (A p i) = .ok c ∧ Scaled base i p c A A₁ ∧ (∀ r, r ≤ i → A₂ r = A₁ r) ∧
          (∀ r, i < r → ClearRow base i (A₁ i) (A₁ r) (A₂ r)) ∧ DetRun base l A₂ d' x := by
      intro p
      rw [swapIf]
      rw [ok_rbind, idx_flatVec, ok_rbind, Equiv.swap_apply_left]
      simp only [rbind_eq_ok, mulRow_swap_ok_iff]
      constructor
      · rintro ⟨d', h1, c, h2, _, ⟨A₁, rfl, h3⟩, y, h4, h5⟩
        obtain ⟨A₂, rfl, h6, h7⟩ := (detClear_ok_iff base A₁ i y).1 h4
        exact ⟨d', c, A₁, A₂, h1, h2, h3, h6, h7, (ih _ _).1 h5⟩
      · rintro ⟨d', c, A₁, A₂, h1, h2, h3, h6, h7, h8⟩
        exact ⟨d', h1, c, h2, _, ⟨A₁, rfl, h3⟩, _, (detClear_ok_iff base A₁ i _).2 ⟨A₂, rfl, h6, h7⟩,
          (ih _ _).2 h8⟩
    constructor
    · rintro ⟨o, h1, h2⟩
      cases o with
      | none => exact .singular ((findRow_none_iff base A i).1 h1) h2
      | some row =>
        obtain ⟨p, rfl, h3⟩ := (findRow_some_iff base A i row).1 h1
        obtain ⟨d', c, A₁, A₂, h4, h5, h6, h7, h8, h9⟩ := (key p).1 h2
        exact .step p d' c A₁ A₂ h3 h4 h5 h6 h7 h8 h9
    · intro h
      cases h with
      | singular h1 h2 => exact ⟨none, (findRow_none_iff base A i).2 h1, h2⟩
      | step p d' c A₁ A₂ h3 h4 h5 h6 h7 h8 h9 =>
        exact ⟨some p.1, (findRow_some_iff base A i _).2 ⟨p, rfl, h3⟩,
          (key p).2 ⟨d', c, A₁, A₂, h4, h5, h6, h7, h8, h9⟩⟩

theorem determinant_ok_iff (A : Fin n → Fin n → E) (x : E) :
    determinant base n (flatVec A) = .ok x ↔
      ∃ o, base.one = .ok o ∧ DetRun base (List.finRange n) A o x := by
  unfold determinant
  rw [bind_eq_ok]
  refine exists_congr fun o => and_congr_right fun _ => ?_
  rw [← detLoop_ok_iff, List.map_coe_finRange_eq_range]

/-- The row `r` of both matrices is cleared in column `i`. -/
def ClearRow₂ (i : Fin n) (p a b : (Fin n → E) × (Fin n → E)) : Prop :=
  (base.isZero (a.1 i) = .ok true ∧ b = a) ∨
    base.isZero (a.1 i) = .ok false ∧ ∃ m, base.neg (a.1 i) = .ok m ∧
      AddRow base m p.1 a.1 b.1 ∧ AddRow base m p.2 a.2 b.2

theorem invClear_ok_iff (A B : Fin n → Fin n → E) (i : Fin n) (x : List E × List E) :
    invClear base n (flatVec A) (flatVec B) i.1 = .ok x ↔ ∃ C D, x = (flatVec C, flatVec D) ∧
      C i = A i ∧ D i = B i ∧
      ∀ r, r ≠ i → ClearRow₂ base i (A i, B i) (A r, B r) (C r, D r) := by
  unfold invClear
  rw [← List.map_coe_finRange_eq_range, forLoop_map]
  refine (forLoop_components
    (enc := fun M : Fin n → (Fin n → E) × (Fin n → E) => (flatVec fun r => (M r).1, flatVec fun r => (M r).2))
    (Inv := fun M => M i = (A i, B i))
    (P := fun r a b => (r = i ∧ b = a) ∨ r ≠ i ∧ ClearRow₂ base i (A i, B i) a b) _ _
    (List.nodup_finRange n) ?_ ?_ (fun r => (A r, B r)) rfl x).trans ?_
  · rintro M r b - hM (⟨h1, rfl⟩ | ⟨h1, -⟩)
    · rw [Function.update_eq_self]; exact hM
    · rw [Function.update_of_ne (Ne.symm h1)]; exact hM
  · intro M hM r _ x
    have hup : ∀ b : (Fin n → E) × (Fin n → E),
        ((fun r' => (Function.update M r b r').1) = Function.update (fun r' => (M r').1) r b.1) ∧
        ((fun r' => (Function.update M r b r').2) = Function.update (fun r' => (M r').2) r b.2) := by
      intro b
      constructor <;> funext r' <;> by_cases hr : r' = r
      · subst hr; rw [Function.update_self, Function.update_self]
      · rw [Function.update_of_ne hr, Function.update_of_ne hr]
      · subst hr; rw [Function.update_self, Function.update_self]
      · rw [Function.update_of_ne hr, Function.update_of_ne hr]
    by_cases hir : r = i
    · subst hir
      simp only [beq_self_eq_true, if_true, Res.ok.injEq, ne_eq, not_true_eq_false, false_and, or_false,
        true_and, exists_eq_right, Function.update_eq_self]
      exact eq_comm
    · have hne : (r.1 == i.1) = false := by simpa [Fin.ext_iff] using hir
      simp only [hne, hir, ne_eq, not_false_eq_true, false_and, true_and, false_or]
      show (idx (flatVec fun r => (M r).1) (r.1 * n + i.1) >>= _) = _ ↔ _
      rw [idx_flatVec, ok_bind, bind_eq_ok]
      have hM1 : (M i).1 = A i := by rw [hM]
      have hM2 : (M i).2 = B i := by rw [hM]
      constructor
      · rintro ⟨b, h1, h2⟩
        cases b with
        | true =>
          refine ⟨M r, ?_, .inl ⟨h1, rfl⟩⟩
          rw [Function.update_eq_self]
          exact (Res.ok.inj h2).symm
        | false =>
          simp only [Bool.false_eq_true, if_false, bind_eq_ok,
            addRows_ok_iff base _ (Ne.symm hir)] at h2
          obtain ⟨m, h2, _, ⟨b, rfl, h3⟩, _, ⟨c, rfl, h4⟩, h5⟩ := h2
          refine ⟨(b, c), ?_, .inr ⟨h1, m, h2, hM1 ▸ h3, hM2 ▸ h4⟩⟩
          rw [(hup _).1, (hup _).2]
          exact (Res.ok.inj h5).symm
      · rintro ⟨b, rfl, ⟨h1, rfl⟩ | ⟨h1, m, h2, h3, h4⟩⟩
        · exact ⟨true, h1, by rw [Function.update_eq_self]; rfl⟩
        · refine ⟨false, h1, ?_⟩
          simp only [Bool.false_eq_true, if_false, bind_eq_ok, addRows_ok_iff base _ (Ne.symm hir)]
          rw [(hup _).1, (hup _).2]
          exact ⟨m, h2, _, ⟨b.1, rfl, hM1 ▸ h3⟩, _, ⟨b.2, rfl, hM2 ▸ h4⟩, rfl⟩
  · simp only [List.mem_finRange, true_imp_iff, not_true_eq_false, false_imp_iff, implies_true, and_true]
    constructor
    · rintro ⟨C, rfl, h⟩
      refine ⟨_, _, rfl, ?_, ?_, fun r hr => ?_⟩
      · rcases h i with ⟨-, h⟩ | ⟨h, -⟩
        · rw [h]
        · exact absurd rfl h
      · rcases h i with ⟨-, h⟩ | ⟨h, -⟩
        · rw [h]
        · exact absurd rfl h
      · rcases h r with ⟨h, -⟩ | ⟨-, h⟩
        · exact absurd h hr
        · exact h
    · rintro ⟨C, D, rfl, h1, h2, h3⟩
      refine ⟨fun r => (C r, D r), rfl, fun r => ?_⟩
      by_cases hr : r = i
      · subst hr
        exact .inl ⟨rfl, Prod.ext h1 h2⟩
      · exact .inr ⟨hr, h3 r hr⟩

theorem invLoop_cons (c : ℕ) (cols : List ℕ) (elem invs : List E) :
    invLoop base n (c :: cols) elem invs = (findRow base n elem c).bind fun o => match o with
      | some row => (if row ≠ c then swapRows n elem c row else .ok elem).bind fun elem =>
          (if row ≠ c then swapRows n invs c row else .ok invs).bind fun invs =>
          (idx elem (c * n + c)).bind fun coef =>
          (base.inv coef).bind fun coef => (mulRow base n elem c coef).bind fun elem =>
          (mulRow base n invs c coef).bind fun invs =>
          (invClear base n elem invs c).bind fun s => invLoop base n cols s.1 s.2
      | none => .ok none := by
  rw [invLoop]
  show Res.bind _ _ = _
  congr 1
  funext o
  cases o with
  | none => rfl
  | some row =>
    by_cases h : row ≠ c <;> simp only [if_pos h, if_neg h] <;> rfl

theorem invLoop_ok_iff (l : List (Fin n)) (A B : Fin n → Fin n → E) (x : Option (List E × List E)) :
    invLoop base n (l.map Fin.val) (flatVec A) (flatVec B) = .ok x ↔
      ∃ y, x = y.map (fun p => (flatVec p.1, flatVec p.2)) ∧ InvRun base l A B y := by
  induction l generalizing A B with
  | nil =>
    constructor
    · intro h
      exact ⟨some (A, B), (Res.ok.inj h).symm, .done A B⟩
    · rintro ⟨_, rfl, ⟨⟩⟩
      rfl
  | cons i l ih =>
    rw [List.map_cons, invLoop_cons, rbind_eq_ok]
    have key : ∀ p : Fin n, (((if p.1 ≠ i.1 then swapRows n (flatVec A) i.1 p.1 else .ok (flatVec A)).bind
        fun elem => (if p.1 ≠ i.1 then swapRows n (flatVec B) i.1 p.1 else .ok (flatVec B)).bind fun invs =>
          (idx elem (i.1 * n + i.1)).bind fun coef =>
          (base.inv coef).bind fun coef => (mulRow base n elem i.1 coef).bind fun elem =>
          (mulRow base n invs i.1 coef).bind fun invs =>
          (invClear base n elem invs i.1).bind fun s => invLoop base n (l.map Fin.val) s.1 s.2) = .ok x) ↔
        ∃ y, x = y.map (fun p => (flatVec p.1, flatVec p.2)) ∧ ∃ c A₁ B₁ A₂ B₂,
          base.inv (A p i) = .ok c ∧ Scaled base i p c A A₁ ∧ Scaled base i p c B B₁ ∧
          A₂ i = A₁ i ∧ B₂ i = B₁ i ∧
          (∀ r, r ≠ i → ClearRow₂ base i (A₁ i, B₁ i) (A₁ r, B₁ r) (A₂ r, B₂ r)) ∧ InvRun base l A₂ B₂ y := by
      intro p
      rw [swapIf, swapIf, ok_rbind, ok_rbind, idx_flatVec, ok_rbind, Equiv.swap_apply_left]
      simp only [rbind_eq_ok, mulRow_swap_ok_iff]
      constructor
      · rintro ⟨c, h2, _, ⟨A₁, rfl, h3⟩, _, ⟨B₁, rfl, h3'⟩, y, h4, h5⟩
        obtain ⟨A₂, B₂, rfl, h6, h6', h7⟩ := (invClear_ok_iff base A₁ B₁ i y).1 h4
        obtain ⟨y, rfl, h8⟩ := (ih _ _).1 h5
        exact ⟨y, rfl, c, A₁, B₁, A₂, B₂, h2, h3, h3', h6, h6', h7, h8⟩
      · rintro ⟨y, rfl, c, A₁, B₁, A₂, B₂, h2, h3, h3', h6, h6', h7, h8⟩
        exact ⟨c, h2, _, ⟨A₁, rfl, h3⟩, _, ⟨B₁, rfl, h3'⟩, _,
          (invClear_ok_iff base A₁ B₁ i _).2 ⟨A₂, B₂, rfl, h6, h6', h7⟩, (ih _ _).2 ⟨y, rfl, h8⟩⟩
    constructor
    · rintro ⟨o, h1, h2⟩
      cases o with
      | none => exact ⟨none, (Res.ok.inj h2).symm, .singular ((findRow_none_iff base A i).1 h1)⟩
      | some row =>
        obtain ⟨p, rfl, h3⟩ := (findRow_some_iff base A i row).1 h1
        obtain ⟨y, h0, c, A₁, B₁, A₂, B₂, h4, h5, h6, h7, h8, h9, h10⟩ := (key p).1 h2
        refine ⟨y, h0, .step p c A₁ B₁ A₂ B₂ h3 h4 h5 h6 h7 h8 (fun r hr => ?_) h10⟩
        rcases h9 r hr with ⟨g1, g2⟩ | g
        · exact .inl ⟨g1, (Prod.mk.inj g2).1, (Prod.mk.inj g2).2⟩
        · exact .inr g
    · rintro ⟨y, h0, h⟩
      cases h with
      | singular h1 => exact ⟨none, (findRow_none_iff base A i).2 h1, by rw [h0]; rfl⟩
      | step p c A₁ B₁ A₂ B₂ h3 h4 h5 h6 h7 h8 h9 h10 =>
        refine ⟨some p.1, (findRow_some_iff base A i _).2 ⟨p, rfl, h3⟩,
          (key p).2 ⟨y, h0, c, A₁, B₁, A₂, B₂, h4, h5, h6, h7, h8, fun r hr => ?_, h10⟩⟩
        rcases h9 r hr with ⟨g1, g2, g3⟩ | g
        · exact .inl ⟨g1, by rw [g2, g3]⟩
        · exact .inr g

omit [Cfg] in
theorem replicate_flatVec (z : E) : List.replicate (n * n) z = flatVec fun _ _ : Fin n => z := by
  obtain ⟨A, hA⟩ := flatVec_surj (n := n) (v := List.replicate (n * n) z) (by simp)
  rw [← hA]
  congr 1
  funext i j
  have := flatVec_get A i j
  rw [hA, List.getElem?_replicate, if_pos (flat_lt i.2 j.2)] at this
  exact (Option.some.inj this).symm

theorem int_ok_iff (k : ℤ) (x : List E) :
    int base n k = .ok x ↔ ∃ e z, base.int k = .ok e ∧ base.zero = .ok z ∧
      x = flatVec fun i j : Fin n => if i = j then e else z := by
  unfold int
  rw [bind_eq_ok]
  have hz : ∀ y, zero base n = .ok y ↔ ∃ z, base.zero = .ok z ∧ y = flatVec fun _ _ : Fin n => z := by
    intro y
    show (base.zero >>= fun z => Res.ok (List.replicate (n * n) z)) = _ ↔ _
    rw [bind_eq_ok]
    refine exists_congr fun z => and_congr_right fun _ => ?_
    rw [replicate_flatVec, Res.ok.injEq]
    exact eq_comm
  simp only [bind_eq_ok, hz]
  have key : ∀ e z, forLoop (List.range n) (flatVec fun _ _ : Fin n => z)
      (fun mat i => setIdx mat (i * (n + 1)) e) = .ok x ↔
        x = flatVec fun i j : Fin n => if i = j then e else z := by
    intro e z
    rw [← List.map_coe_finRange_eq_range, forLoop_map]
    have h0 : (flatVec fun _ _ : Fin n => z) = flatVec fun i j : Fin n => if i = j then z else z := by
      congr 1; funext i j; rw [ite_self]
    rw [h0]
    refine (forLoop_components (enc := fun g : Fin n → E => flatVec fun i j : Fin n => if i = j then g i else z)
      (Inv := fun _ => True) (P := fun _ _ b => b = e) _ _ (List.nodup_finRange n)
      (fun _ _ _ _ _ _ => trivial) ?_ (fun _ => z) trivial x).trans ?_
    · intro g _ i _ x
      simp only [exists_eq_right]
      rw [show i.1 * (n + 1) = i.1 * n + i.1 by ring, setIdx_flatVec, Res.ok.injEq, eq_comm]
      refine Eq.congr_right (congrArg flatVec ?_)
      funext r j
      by_cases hr : r = i
      · subst hr
        rw [Function.update_self]
        by_cases hj : r = j
        · subst hj; simp
        · simp [hj, Function.update_of_ne (Ne.symm hj)]
      · rw [Function.update_of_ne hr, Function.update_of_ne hr]
    · simp only [List.mem_finRange, true_imp_iff, not_true_eq_false, false_imp_iff, implies_true, and_true]
      constructor
      · rintro ⟨g, rfl, h⟩
        simp only [h]
      · rintro rfl
        exact ⟨fun _ => e, rfl, fun _ => rfl⟩
  constructor
  · rintro ⟨e, h1, _, ⟨z, h2, rfl⟩, h3⟩
    exact ⟨e, z, h1, h2, (key e z).1 h3⟩
  · rintro ⟨e, z, h1, h2, h3⟩
    exact ⟨e, h1, _, ⟨z, h2, rfl⟩, (key e z).2 h3⟩

theorem tryInv_ok_some_iff (A : Fin n → Fin n → E) (x : List E) :
    tryInv base n (flatVec A) = .ok (some x) ↔ ∃ e z B C, base.int 1 = .ok e ∧ base.zero = .ok z ∧
      InvRun base (List.finRange n) A (fun i j => if i = j then e else z) (some (B, C)) ∧
      (Cfg.debugAssertions = true → isOne base n (flatVec B) = .ok true) ∧ x = flatVec C := by
  unfold tryInv
  simp only [bind_eq_ok, int_ok_iff]
  rw [← List.map_coe_finRange_eq_range]
  have hd : ∀ (c : Res Bool) (u : Unit), debugAssert c = .ok u ↔ (Cfg.debugAssertions = true → c = .ok true) := by
    intro c u
    unfold debugAssert
    by_cases h : Cfg.debugAssertions = true
    · rw [if_pos h, rbind_eq_ok]
      simp only [assert_eq_ok, exists_eq_right, h, true_imp_iff]
    · rw [if_neg h]
      simp [h]
  constructor
  · rintro ⟨_, ⟨e, z, h1, h2, rfl⟩, o, h3, h4⟩
    obtain ⟨y, rfl, h5⟩ := (invLoop_ok_iff base _ _ _ _).1 h3
    rcases y with _ | ⟨B, C⟩
    · cases h4
    · simp only [Option.map_some, bind_eq_ok] at h4
      obtain ⟨u, h6, h7⟩ := h4
      exact ⟨e, z, B, C, h1, h2, h5, (hd _ _).1 h6, (Option.some.inj (Res.ok.inj h7)).symm⟩
  · rintro ⟨e, z, B, C, h1, h2, h5, h6, rfl⟩
    refine ⟨_, ⟨e, z, h1, h2, rfl⟩, _, (invLoop_ok_iff base _ _ _ _).2 ⟨_, rfl, h5⟩, ?_⟩
    simp only [Option.map_some, bind_eq_ok]
    exact ⟨(), (hd _ _).2 h6, rfl⟩

theorem tryInv_ok_none_iff (A : Fin n → Fin n → E) :
    tryInv base n (flatVec A) = .ok none ↔ ∃ e z, base.int 1 = .ok e ∧ base.zero = .ok z ∧
      InvRun base (List.finRange n) A (fun i j => if i = j then e else z) none := by
  unfold tryInv
  simp only [bind_eq_ok, int_ok_iff]
  rw [← List.map_coe_finRange_eq_range]
  constructor
  · rintro ⟨_, ⟨e, z, h1, h2, rfl⟩, o, h3, h4⟩
    obtain ⟨y, rfl, h5⟩ := (invLoop_ok_iff base _ _ _ _).1 h3
    rcases y with _ | ⟨B, C⟩
    · exact ⟨e, z, h1, h2, h5⟩
    · simp only [Option.map_some, bind_eq_ok] at h4
      obtain ⟨u, h6, h7⟩ := h4
      cases h7
  · rintro ⟨e, z, h1, h2, h5⟩
    exact ⟨_, ⟨e, z, h1, h2, rfl⟩, _, (invLoop_ok_iff base _ _ _ _).2 ⟨_, rfl, h5⟩, rfl⟩

end MatrixRing

end Abstalg
