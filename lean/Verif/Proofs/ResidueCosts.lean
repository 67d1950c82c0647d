import Verif.Spec.ResidueCosts
import Verif.Props.Counted
import Verif.Proofs.CountedResidues

/-! # Numbers of calls: extended gcd and residues of polynomials -/

set_option autoImplicit false

namespace Abstalg.Counted

variable {E : Type}

/-! ## Lengths -/

theorem res_ok_of_bind {α β : Type} {x : Res α} {f : α → Res β} {b : β} (h : (x >>= f) = .ok b) :
    ∃ a, x = .ok a ∧ f a = .ok b := by
  cases x with
  | ok a => exact ⟨a, rfl, h⟩
  | panic => cases h
  | diverge => cases h

theorem forLoop_post {σ ι : Type} (P : σ → Prop) (l : List ι) (body : σ → ι → Res σ)
    (h : ∀ s i t, i ∈ l → P s → body s i = .ok t → P t) (s : σ) (hs : P s) {t : σ} (ht : Abstalg.forLoop l s body = .ok t) : P t := by
  induction l generalizing s with
  | nil => cases ht; exact hs
  | cons i l ih =>
    obtain ⟨s', h1, h2⟩ := res_ok_of_bind ht
    exact ih (fun s j t hj => h s j t (List.mem_cons_of_mem _ hj)) s' (h s i s' (List.mem_cons_self ..) hs h1) h2

theorem setIdx_length {v w : List E} {i : ℕ} {a : E} (h : setIdx v i a = .ok w) : w.length = v.length := by
  unfold setIdx at h
  split at h
  · cases h; simp
  · cases h

theorem mapRes_length {α β : Type} {f : α → Res β} {v : List α} {w : List β} (h : Abstalg.mapRes f v = .ok w) : w.length = v.length := by
  induction v generalizing w with
  | nil => cases h; rfl
  | cons a v ih =>
    obtain ⟨b, -, h⟩ := res_ok_of_bind h
    obtain ⟨l, h1, h⟩ := res_ok_of_bind h
    cases h
    simp [ih h1]

variable [Cfg]

theorem add_length (base : AbelianGroupOps E) {v w u : List E} (h : PolynomialAlgebra.add base v w = .ok u) :
    u.length ≤ max v.length w.length := by
  unfold PolynomialAlgebra.add at h
  have key : ∀ {a b c : List E}, (Abstalg.forLoop (List.range b.length) a fun elem3 i => do
      let a ← base.add (← idx elem3 i) (← idx b i)
      setIdx elem3 i a) = .ok c → c.length = a.length := by
    intro a b c h
    refine forLoop_post (fun s => s.length = a.length) _ _ (fun s i t _ hs h => ?_) a rfl h
    obtain ⟨x, -, h⟩ := res_ok_of_bind h
    obtain ⟨y, -, h⟩ := res_ok_of_bind h
    obtain ⟨z, -, h⟩ := res_ok_of_bind h
    rw [setIdx_length h, hs]
  by_cases hl : v.length ≠ w.length
  · rw [if_pos hl] at h
    by_cases h1 : v.length > w.length
    · rw [if_pos h1] at h
      rw [key h]
      exact le_max_left _ _
    · rw [if_neg h1] at h
      rw [key h]
      exact le_max_right _ _
  · rw [if_neg hl] at h
    refine le_trans ?_ (le_max_left _ _)
    refine forLoop_post (fun s => s.length ≤ v.length) _ _ (fun s i t hi hs h => ?_) [] (Nat.zero_le _) h
    obtain ⟨x, -, h⟩ := res_ok_of_bind h
    obtain ⟨y, -, h⟩ := res_ok_of_bind h
    obtain ⟨z, -, h⟩ := res_ok_of_bind h
    obtain ⟨b, -, h⟩ := res_ok_of_bind h
    cases b with
    | true => cases h; exact hs
    | false =>
      obtain ⟨o, -, h⟩ := res_ok_of_bind h
      rw [setIdx_length h]
      have := List.mem_range.1 hi
      unfold resize
      simp only [List.length_append, List.length_take, List.length_replicate]
      omega

theorem mul_length (base : UnitaryRingOps E) {v w u : List E} (h : PolynomialAlgebra.mul base v w = .ok u) :
    u.length ≤ v.length + w.length - 1 := by
  unfold PolynomialAlgebra.mul at h
  by_cases h0 : (v.isEmpty || w.isEmpty) = true
  · rw [if_pos h0] at h
    cases h
    exact Nat.zero_le _
  · rw [if_neg h0] at h
    obtain ⟨z, -, h⟩ := res_ok_of_bind h
    refine le_of_eq (forLoop_post (fun s => s.length = v.length + w.length - 1) _ _ (fun s i t _ hs h => ?_) _ (by simp) h)
    refine forLoop_post (fun s => s.length = v.length + w.length - 1) _ _ (fun s i t _ hs h => ?_) s hs h
    obtain ⟨x, -, h⟩ := res_ok_of_bind h
    obtain ⟨y, -, h⟩ := res_ok_of_bind h
    obtain ⟨z, -, h⟩ := res_ok_of_bind h
    obtain ⟨b, -, h⟩ := res_ok_of_bind h
    obtain ⟨c, -, h⟩ := res_ok_of_bind h
    rw [setIdx_length h, hs]

theorem quoRemLoop_length (base : FieldOps E) (w : List E) (a : E) (n : ℕ) {quo rem : List E} {p : List E × List E}
    (h : PolynomialAlgebra.quoRemLoop base w a n quo rem = .ok p) : p.1.length = quo.length := by
  induction n generalizing quo rem with
  | zero => cases h; rfl
  | succ n ih =>
    unfold PolynomialAlgebra.quoRemLoop at h
    obtain ⟨x, -, h⟩ := res_ok_of_bind h
    obtain ⟨q, -, h⟩ := res_ok_of_bind h
    obtain ⟨quo', h1, h⟩ := res_ok_of_bind h
    obtain ⟨y, -, h⟩ := res_ok_of_bind h
    obtain ⟨b, -, h⟩ := res_ok_of_bind h
    obtain ⟨rem', -, h⟩ := res_ok_of_bind h
    rw [ih h, setIdx_length h1]

theorem quo_length (base : FieldOps E) {v w q r : List E} (h : PolynomialAlgebra.quoRem base v w = .ok (q, r)) :
    q.length = v.length + 1 - w.length := by
  unfold PolynomialAlgebra.quoRem at h
  obtain ⟨_, h1, h⟩ := res_ok_of_bind h
  by_cases hl : v.length < w.length
  · rw [if_pos hl] at h
    cases h
    simp
    omega
  · rw [if_neg hl] at h
    obtain ⟨z, -, h⟩ := res_ok_of_bind h
    obtain ⟨a, -, h⟩ := res_ok_of_bind h
    obtain ⟨b, -, h⟩ := res_ok_of_bind h
    obtain ⟨_, -, h⟩ := res_ok_of_bind h
    obtain ⟨p, h2, h⟩ := res_ok_of_bind h
    obtain ⟨i, -, h⟩ := res_ok_of_bind h
    cases h
    rw [quoRemLoop_length base w a _ h2, List.length_replicate]
    omega

/-! ## Methods of polynomials -/

theorem within_polyNeg (base : AbelianGroupOps E) (v : List E) : Within (polyNeg base v) (table [(.neg, v.length)]) := by
  refine within_of_eq (takes_mapRes (k := once .neg) (fun a => takes_call _ _) v).1 ?_
  funext c
  cases c <;> simp [table, once]

theorem within_polyAdd (base : AbelianGroupOps E) (v w : List E) {n : ℕ} (hn : min v.length w.length ≤ n) :
    Within (polyAdd base v w) (table [(.add, n), (.isZero, n), (.zero, n)]) := by
  by_cases h : v.length = w.length
  · refine within_mono ((C93_poly_add base v w).2 h).1 fun c => ?_
    cases c <;> simp [table] <;> omega
  · refine within_mono ((C93_poly_add base v w).1 h).1 fun c => ?_
    cases c <;> simp [table]
    simpa using hn

theorem within_polyMul (base : UnitaryRingOps E) (v w : List E) {n : ℕ} (hn : v.length * w.length ≤ n) :
    Within (polyMul base v w) (table [(.zero, 1), (.mul, n), (.add, n)]) := by
  refine within_mono (C93_poly_mul base v w).1 fun c => ?_
  split
  · exact Nat.zero_le _
  · cases c <;> simp [table] <;> exact hn

theorem within_polyOne (base : UnitaryRingOps E) : Within (polyOne base) (table [(.one, 2), (.isZero, 1)]) := by
  refine within_mono (within_bind (takes_call _ _).1 fun a _ => within_bind (takes_call _ _).1 fun b _ =>
    within_bind (takes_lift _).1 fun _ _ => within_bind (takes_call _ _).1 fun _ _ => (takes_pure _).1) fun c => ?_
  cases c <;> simp [table, once]

theorem within_polyTryInv (base : UnitaryRingOps E) (v : List E) : Within (polyTryInv base v) (table [(.tryInv, 1)]) := by
  unfold polyTryInv
  split
  · refine within_mono (within_bind (takes_lift _).1 fun a _ => within_bind (m := 0) (takes_call _ _).1 fun o _ => ?_) fun c => ?_
    · cases o <;> exact (takes_pure _).1
    · cases c <;> simp [table, once]
  · exact fun c => Nat.zero_le _

theorem within_polyEquals (base : AbelianGroupOps E) (v w : List E) {n : ℕ} (hn : min v.length w.length ≤ n) :
    Within (polyEquals base v w) (table [(.equals, n)]) := by
  unfold polyEquals
  split
  · exact fun c => Nat.zero_le _
  · refine within_mono (within_allRes (k := once .equals) (fun a => (takes_call _ _).1) _) fun c => ?_
    cases c <;> simp [table, once]
    simpa using hn

theorem within_polyRem (base : FieldOps E) (v w : List E) {m : Call → ℕ} (h : Within (polyQuoRem base v w) m) :
    Within (polyRem base v w) m :=
  within_mono (within_bind h fun _ _ => (takes_pure _).1) fun c => le_rfl

/-- A remainder of a short polynomial takes nothing. -/
theorem within_polyRem_short (base : FieldOps E) {v w : List E} (h : v.length < w.length) : Within (polyRem base v w) 0 :=
  within_polyRem base v w ((C93_poly_quo_rem base v w).1 h).1

theorem within_polyRem_long (base : FieldOps E) {v w : List E} {d n : ℕ} (hw : w.length = d + 1) (hv : v.length ≤ d + n) :
    Within (polyRem base v w) (table [(.zero, 1), (.isZero, d + 1), (.div, n), (.neg, n), (.mul, n * d), (.add, n * d)]) := by
  by_cases h : v.length < w.length
  · exact within_mono (within_polyRem_short base h) fun c => Nat.zero_le _
  · refine within_mono (within_polyRem base v w ((C93_poly_quo_rem base v w).2 (not_lt.1 h)).1) fun c => ?_
    have h1 : v.length - w.length + 1 ≤ n := by omega
    have h2 : (v.length - w.length + 1) * (w.length - 1) ≤ n * d := Nat.mul_le_mul h1 (by omega)
    cases c <;> simp [table] <;> omega

theorem within_polySub (base : AbelianGroupOps E) (v w : List E) {n : ℕ} (hw : w.length ≤ n) :
    Within (polySub base v w) (table [(.neg, n), (.add, n), (.isZero, n), (.zero, n)]) := by
  refine within_mono (within_bind (within_polyNeg base w) fun e he => within_polyAdd base e v (n := n) ?_) fun c => ?_
  · unfold polyNeg at he
    rw [res_mapRes] at he
    rw [mapRes_length he]
    exact (min_le_left _ _).trans hw
  · cases c <;> simp [table]
    exact hw

theorem sub_length (base : AbelianGroupOps E) {v w u : List E} (h : (polySub base v w).res = .ok u) :
    u.length ≤ max v.length w.length := by
  obtain ⟨e, he, h, -⟩ := bind_ok h
  unfold polyNeg at he
  rw [res_mapRes] at he
  rw [res_polyAdd] at h
  have := add_length base h
  rw [mapRes_length he] at this
  rwa [max_comm]

/-! ## The extended gcd -/

/-- `extended_gcd` of polynomials, the second not longer than the first: numbers of calls, and lengths of the coefficients. -/
theorem within_polyExtendedGcd (base : FieldOps E) (n : ℕ) (v w : List E) (hl : w.length ≤ v.length) :
    Within (polyExtendedGcdWithin base n v w) (extendedGcdCost v.length w.length) ∧
    ∀ t, (polyExtendedGcdWithin base n v w).res = .ok t → t.2.1.length ≤ max 1 w.length ∧ t.2.2.length ≤ v.length := by
  induction n generalizing v w with
  | zero => exact ⟨fun c => Nat.zero_le _, fun t h => by cases h⟩
  | succ n ih =>
    unfold polyExtendedGcdWithin
    by_cases hw : w.isEmpty
    · rw [if_pos hw]
      constructor
      · refine within_mono (within_bind (within_polyOne _) fun _ _ => (takes_pure _).1) fun c => ?_
        cases c <;> simp [table, extendedGcdCost]
      · intro t h
        obtain ⟨o, h1, h, -⟩ := bind_ok h
        cases h
        rw [res_polyOne] at h1
        obtain ⟨_, -, h1⟩ := res_ok_of_bind h1
        obtain ⟨_, -, h1⟩ := res_ok_of_bind h1
        obtain ⟨_, -, h1⟩ := res_ok_of_bind h1
        obtain ⟨_, -, h1⟩ := res_ok_of_bind h1
        cases h1
        simp
    · rw [if_neg hw]
      have hw1 : 0 < w.length := by
        cases w with
        | nil => simp at hw
        | cons x w => simp
      obtain ⟨b, hb⟩ : ∃ b, w.length = b + 1 := ⟨w.length - 1, by omega⟩
      obtain ⟨d, hd⟩ : ∃ d, v.length = b + 1 + d := ⟨v.length - (b + 1), by omega⟩
      have hq : ∀ q r, (polyQuoRem base v w).res = .ok (q, r) → q.length = d + 1 ∧ r.length ≤ b := by
        intro q r h
        rw [res_polyQuoRem] at h
        have h1 := quoRem_short base h
        have h2 := quo_length base h
        omega
      have hm : ∀ (q y : List E), q.length = d + 1 → y.length ≤ b + 1 → y.length * q.length ≤ (b + 1) * (d + 1) ∧
          ∀ u, (polyMul base.toUnitaryRingOps y q).res = .ok u → u.length ≤ b + 1 + d := by
        intro q y h1 h2
        refine ⟨Nat.mul_le_mul h2 (le_of_eq h1), fun u h => ?_⟩
        rw [res_polyMul] at h
        have := mul_length _ h
        omega
      constructor
      · refine within_mono (within_bind (m := extendedGcdCost (b + 1) b +
            (table [(.zero, 1), (.mul, (b + 1) * (d + 1)), (.add, (b + 1) * (d + 1))] +
            table [(.neg, b + 1 + d), (.add, b + 1 + d), (.isZero, b + 1 + d), (.zero, b + 1 + d)]))
          ((C93_poly_quo_rem base v w).2 hl).1 fun p hp => ?_) ?_
        · obtain ⟨q, r⟩ := p
          obtain ⟨hq1, hr⟩ := hq q r hp
          have h1 := ih w r (by omega)
          refine within_bind (within_mono h1.1 fun c => ?_) fun t ht => ?_
          · have : (b + 1) * r.length ≤ (b + 1) * b := Nat.mul_le_mul_left _ hr
            rw [hb]
            unfold extendedGcdCost
            simp only [mul_assoc]
            cases c <;> simp [table] <;> omega
          · obtain ⟨g, x, y⟩ := t
            have h2 := h1.2 _ ht
            have h3 := hm q y hq1 (by rw [← hb]; exact h2.2)
            refine within_mono (within_bind (within_polyMul _ y q h3.1) fun u hu => within_bind
              (within_polySub _ x u (h3.2 u hu)) fun _ _ => (takes_pure _).1) fun c => ?_
            simp
        · intro c
          rw [hb, hd]
          have e1 : b + 1 + d - (b + 1) + 1 = d + 1 := by omega
          rw [e1, Nat.add_sub_cancel]
          cases c <;> simp [table, extendedGcdCost] <;> nlinarith
      · intro t h
        obtain ⟨⟨q, r⟩, hp, h, -⟩ := bind_ok h
        obtain ⟨hq1, hr⟩ := hq q r hp
        obtain ⟨⟨g, x, y⟩, ht, h, -⟩ := bind_ok h
        have h2 := (ih w r (by omega)).2 _ ht
        obtain ⟨u, hu, h, -⟩ := bind_ok h
        obtain ⟨z, hz, h, -⟩ := bind_ok h
        cases h
        have h3 := (hm q y hq1 (by rw [← hb]; exact h2.2)).2 u hu
        have h4 := sub_length _ hz
        have h5 := h2.1
        have h6 := h2.2
        dsimp only at h5 h6 ⊢
        constructor
        · exact h6.trans (le_max_right _ _)
        · refine h4.trans (max_le (h5.trans (max_le ?_ ?_)) ?_) <;> omega

/-! ## Residues -/

section residues

variable (base : FieldOps E) {f : List E} {d : ℕ} (hf : f.length = d + 1) {v w : List E}

include hf

theorem within_residueAdd (hv : v.length ≤ d) (hw : w.length ≤ d) :
    Within (residueAdd base f v w) (table [(.add, d), (.isZero, d), (.zero, d)]) := by
  refine within_mono (within_bind (within_polyAdd _ v w (n := d) ((min_le_left _ _).trans hv)) fun u hu =>
    within_polyRem_short base ?_) fun c => le_rfl
  rw [res_polyAdd] at hu
  have h1 := add_length _ hu
  have h2 : max v.length w.length ≤ d := max_le hv hw
  omega

theorem within_residueNeg (hv : v.length ≤ d) : Within (residueNeg base f v) (table [(.neg, d)]) := by
  refine within_mono (within_bind (within_polyNeg _ v) fun u hu => within_polyRem_short base ?_) fun c => ?_
  · unfold polyNeg at hu
    rw [res_mapRes] at hu
    rw [mapRes_length hu]
    omega
  · cases c <;> simp [table]
    exact hv

theorem within_residueSub (hv : v.length ≤ d) (hw : w.length ≤ d) :
    Within (residueSub base f v w) (table [(.neg, d), (.add, d), (.isZero, d), (.zero, d)]) := by
  refine within_mono (within_bind (within_residueNeg base hf hw) fun u hu => within_residueAdd base hf ?_ hv) fun c => ?_
  · obtain ⟨e, -, hu, -⟩ := bind_ok hu
    obtain ⟨⟨q, r⟩, hp, hu, -⟩ := bind_ok hu
    cases hu
    rw [res_polyQuoRem] at hp
    have := quoRem_short base hp
    dsimp only
    omega
  · cases c <;> simp [table]

theorem within_residueMul' {n m : ℕ} (hn : v.length * w.length ≤ n) (hm : v.length + w.length - 1 ≤ d + m) :
    Within (residueMul base f v w) (table [(.zero, 2), (.isZero, d + 1), (.div, m), (.neg, m), (.mul, n + m * d), (.add, n + m * d)]) := by
  refine within_mono (within_bind (within_polyMul _ v w hn) fun u hu => within_polyRem_long base hf (n := m) ?_) fun c => ?_
  · rw [res_polyMul] at hu
    exact (mul_length _ hu).trans hm
  · cases c <;> simp [table]

theorem within_residueMul (hv : v.length ≤ d) (hw : w.length ≤ d) : Within (residueMul base f v w) (residueMulCost d) :=
  within_residueMul' base hf (Nat.mul_le_mul hv hw) (by omega)

omit hf in
theorem within_residueIsZero : Within (residueIsZero base v) (table []) := by
  refine within_mono (within_polyEquals _ v [] (n := 0) (by simp)) fun c => ?_
  cases c <;> simp [table]

theorem within_residueIntOne (hd : 1 ≤ d) : Within (residueIntOne base f) (table [(.one, 2), (.isZero, 2), (.add, 1), (.zero, 1)]) := by
  have hone : ∀ o, (polyOne base.toUnitaryRingOps).res = .ok o → o.length = 1 := by
    intro o h1
    rw [res_polyOne] at h1
    obtain ⟨_, -, h1⟩ := res_ok_of_bind h1
    obtain ⟨_, -, h1⟩ := res_ok_of_bind h1
    obtain ⟨_, -, h1⟩ := res_ok_of_bind h1
    obtain ⟨_, -, h1⟩ := res_ok_of_bind h1
    cases h1
    rfl
  have hadd : ∀ u o : List E, u.length ≤ 1 → o.length = 1 → Within (residueAdd base f u o)
      (table [(.add, u.length), (.isZero, u.length), (.zero, u.length)]) := by
    intro u o h0 h1
    refine within_mono (within_bind (within_polyAdd _ u o (min_le_left _ _)) fun x hx =>
      within_polyRem_short base ?_) fun c => le_rfl
    rw [res_polyAdd] at hx
    have h2 := add_length _ hx
    have h3 : max u.length o.length ≤ 1 := max_le h0 h1.le
    omega
  refine within_mono (within_bind (within_polyOne _) fun o ho => within_bind (hadd [] o (by simp) (hone o ho)) fun x hx =>
    within_bind (within_of_eq (hadd o o (hone o ho).le (hone o ho)) (by rw [hone o ho])) fun _ _ => (takes_pure _).1) fun c => ?_
  cases c <;> simp [table]

theorem within_residueInv (hv : v.length ≤ d) : Within (residueInv base f v) (residueInvCost d) := by
  refine within_mono (within_bind (within_residueIsZero base) fun b _ => within_bind (takes_lift _).1 fun _ _ =>
    within_bind (m := table [(.tryInv, 1)] +
      (0 + table [(.zero, 2), (.isZero, d + 1), (.div, 1), (.neg, 1), (.mul, d + 1 + 1 * d), (.add, d + 1 + 1 * d)]))
      (within_polyExtendedGcd base _ f v (by omega)).1 fun t ht => ?_) ?_
  · obtain ⟨g, x, y⟩ := t
    refine within_bind (within_polyTryInv _ g) fun o ho => within_bind (takes_lift _).1 fun a ha => ?_
    have hy := ((within_polyExtendedGcd base _ f v (by omega)).2 _ ht).2
    dsimp only at hy
    have ha1 : a.length = 1 := by
      change Res.unwrap o = .ok a at ha
      cases o with
      | none => cases ha
      | some a' =>
        cases ha
        rw [res_polyTryInv] at ho
        change (if (g.length == 1) = true then _ else _) = _ at ho
        split at ho
        · obtain ⟨_, -, ho⟩ := res_ok_of_bind ho
          obtain ⟨o', -, ho⟩ := res_ok_of_bind ho
          cases o' with
          | none => cases ho
          | some z => cases ho; rfl
        · cases ho
    refine within_residueMul' base hf ?_ ?_ <;> rw [ha1] <;> omega
  · intro c
    have h1 : (d + 1) * v.length ≤ (d + 1) * d := Nat.mul_le_mul_left _ hv
    rw [hf]
    unfold residueInvCost extendedGcdCost
    simp only [mul_assoc]
    cases c <;> simp [table] <;> omega

omit hf in
theorem rem_length {u r : List E} (h : (polyRem base u f).res = .ok r) : r.length < f.length := by
  obtain ⟨⟨q, r'⟩, hp, h, -⟩ := bind_ok h
  cases h
  rw [res_polyQuoRem] at hp
  exact quoRem_short base hp

theorem within_residueDiv (hv : v.length ≤ d) (hw : w.length ≤ d) :
    Within (residueDiv base f v w) fun c => residueInvCost d c + residueMulCost d c := by
  refine within_bind (within_residueInv base hf hw) fun u hu => within_residueMul base hf hv ?_
  obtain ⟨_, -, hu, -⟩ := bind_ok hu
  obtain ⟨_, -, hu, -⟩ := bind_ok hu
  obtain ⟨t, -, hu, -⟩ := bind_ok hu
  obtain ⟨o, -, hu, -⟩ := bind_ok hu
  obtain ⟨a, -, hu, -⟩ := bind_ok hu
  obtain ⟨m, -, hu, -⟩ := bind_ok hu
  have := rem_length base hu
  omega

end residues

end Abstalg.Counted
