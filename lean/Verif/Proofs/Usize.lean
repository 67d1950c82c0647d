import Verif.Model.Usize
import Verif.Proofs.Order
import Mathlib.Tactic.Ring

/-! # Index arithmetic of type `usize` (used by C94) -/

set_option autoImplicit false

namespace Abstalg.Usize

variable [Cfg] {E : Type}

theorem usizeMax_ge : 2 ^ 32 - 1 ≤ usizeMax := by
  unfold usizeMax
  have := Nat.pow_le_pow_right (n := 2) (by norm_num) Cfg.ptrBits_ge
  omega

theorem isizeMax_eq : (usizeMax : ℤ) = 2 * isizeMax + 1 := by
  unfold usizeMax isizeMax
  obtain ⟨b, hb⟩ : ∃ b, Cfg.ptrBits = b + 1 := ⟨Cfg.ptrBits - 1, by have := Cfg.ptrBits_ge; omega⟩
  have h1 : 1 ≤ 2 ^ (b + 1) := Nat.one_le_two_pow
  rw [hb, Nat.add_sub_cancel, Nat.cast_sub h1]
  push_cast
  ring

theorem plain_ok {n : ℕ} (h : n ≤ usizeMax) : plain n = .ok n := if_pos h

theorem add_ok {a b : ℕ} (h : a + b ≤ usizeMax) : add a b = .ok (a + b) := plain_ok h

theorem mul_ok {a b : ℕ} (h : a * b ≤ usizeMax) : mul a b = .ok (a * b) := plain_ok h

omit [Cfg] in
theorem sub_ok [Cfg] {a b : ℕ} (h : b ≤ a) : sub a b = .ok (a - b) := if_pos h

theorem capacity_ok {bytes n : ℕ} (h : ((n * bytes : ℕ) : ℤ) ≤ isizeMax) : capacity bytes n = .ok () := by
  unfold capacity
  rw [decide_eq_true h]
  rfl

theorem capacity_bad {bytes n : ℕ} (h : ¬ ((n * bytes : ℕ) : ℤ) ≤ isizeMax) : capacity bytes n = .panic := by
  unfold capacity
  rw [decide_eq_false h]
  rfl

theorem capacity_eq (bytes n : ℕ) :
    capacity bytes n = if ((n * bytes : ℕ) : ℤ) ≤ isizeMax then .ok () else .panic := by
  split
  · exact capacity_ok ‹_›
  · exact capacity_bad ‹_›

/-! ## Matrices -/

section matrices

variable (base : FieldOps E) {size : ℕ} (hs : size * size ≤ usizeMax)

omit [Cfg] in
theorem index_lt {size row col : ℕ} (hr : row < size) (hc : col < size) : row * size + col < size * size := by
  have : (row + 1) * size ≤ size * size := Nat.mul_le_mul_right _ hr
  rw [Nat.succ_mul] at this
  omega

include hs

theorem row_ok {row : ℕ} (hr : row < size) : mul row size = .ok (row * size) :=
  mul_ok ((Nat.mul_le_mul_right _ hr.le).trans hs)

theorem index_ok {row col : ℕ} (hr : row < size) (hc : col < size) : add (row * size) col = .ok (row * size + col) :=
  add_ok ((index_lt hr hc).le.trans hs)

theorem size_ok : size + 1 ≤ usizeMax := by
  have h := usizeMax_ge
  rcases Nat.lt_or_ge size 2 with h2 | h2
  · omega
  · have : 2 * size ≤ size * size := Nat.mul_le_mul_right _ h2
    omega

theorem len_ok : len size = .ok (size * size) := mul_ok hs

theorem mulRow_eq (elem : List E) {row : ℕ} (hr : row < size) (coef : E) :
    mulRow base size elem row coef = MatrixRing.mulRow base size elem row coef := by
  unfold mulRow MatrixRing.mulRow
  have h1 : row * size + size ≤ usizeMax := by
    have : (row + 1) * size ≤ size * size := Nat.mul_le_mul_right _ hr
    rw [Nat.succ_mul] at this
    omega
  rw [row_ok hs hr, ok_bind, add_ok h1, ok_bind, Nat.add_sub_cancel_left, decide_eq_true (Nat.le_add_right _ _), Bool.true_and]

theorem addRows_eq (elem : List E) {row1 row2 : ℕ} (h1 : row1 < size) (h2 : row2 < size) (coef : E) :
    addRows base size elem row1 row2 coef = MatrixRing.addRows base size elem row1 row2 coef := by
  unfold addRows MatrixRing.addRows
  rw [row_ok hs h1, ok_bind, row_ok hs h2, ok_bind]
  refine forLoop_congr fun s col hc => ?_
  have hc := List.mem_range.1 hc
  rw [index_ok hs h1 hc, index_ok hs h2 hc]
  rfl

theorem swapRows_eq (elem : List E) {row1 row2 : ℕ} (h1 : row1 < size) (h2 : row2 < size) :
    swapRows size elem row1 row2 = MatrixRing.swapRows size elem row1 row2 := by
  unfold swapRows MatrixRing.swapRows
  rw [row_ok hs h1, ok_bind, row_ok hs h2, ok_bind]
  refine forLoop_congr fun s col hc => ?_
  have hc := List.mem_range.1 hc
  rw [index_ok hs h1 hc, index_ok hs h2 hc]
  rfl

omit hs in
theorem findRes_congr {α : Type} {p q : α → Res Bool} {l : List α} (h : ∀ a ∈ l, p a = q a) : findRes p l = findRes q l := by
  induction l with
  | nil => rfl
  | cons a l ih =>
    rw [findRes, findRes, h a List.mem_cons_self, ih fun b hb => h b (List.mem_cons_of_mem _ hb)]

omit hs in
theorem findRes_mem {α : Type} {p : α → Res Bool} {l : List α} {a : α} (h : findRes p l = .ok (some a)) : a ∈ l := by
  induction l with
  | nil => cases h
  | cons b l ih =>
    unfold findRes at h
    cases hb : p b with
    | ok t =>
      rw [hb] at h
      cases t
      · exact List.mem_cons_of_mem _ (ih h)
      · cases h
        exact List.mem_cons_self
    | panic => rw [hb] at h; cases h
    | diverge => rw [hb] at h; cases h

theorem findRow_eq (elem : List E) {col : ℕ} (hc : col < size) :
    findRow base size elem col = MatrixRing.findRow base size elem col := by
  unfold findRow MatrixRing.findRow
  refine findRes_congr fun row hr => ?_
  have hr : row < size := by
    have := List.mem_range'_1.1 hr
    omega
  rw [row_ok hs hr, ok_bind, index_ok hs hr hc, ok_bind]

omit hs in
theorem findRow_lt (elem : List E) {col row : ℕ} (h : MatrixRing.findRow base size elem col = .ok (some row)) : row < size := by
  have := List.mem_range'_1.1 (findRes_mem h)
  omega

theorem detClear_eq (elem : List E) {col : ℕ} (hc : col < size) :
    detClear base size elem col = MatrixRing.detClear base size elem col := by
  unfold detClear MatrixRing.detClear
  rw [add_ok (by have := size_ok hs; omega), ok_bind]
  refine forLoop_congr fun s row hr => ?_
  have hr : row < size := by
    have := List.mem_range'_1.1 hr
    omega
  rw [row_ok hs hr, ok_bind, index_ok hs hr hc, ok_bind]
  congr 1
  funext coef
  congr 1
  funext b
  split
  · rfl
  · congr 1
    funext coef
    exact addRows_eq base hs s hc hr coef

theorem detLoop_eq (cols : List ℕ) (hl : ∀ c ∈ cols, c < size) (elem : List E) (det : E) :
    detLoop base size cols elem det = MatrixRing.detLoop base size cols elem det := by
  induction cols generalizing elem det with
  | nil => rfl
  | cons col cols ih =>
    have hc := hl col List.mem_cons_self
    have ih := fun e d => ih (fun c h => hl c (List.mem_cons_of_mem _ h)) e d
    unfold detLoop MatrixRing.detLoop
    rw [findRow_eq base hs elem hc]
    cases hf : MatrixRing.findRow base size elem col with
    | panic => rfl
    | diverge => rfl
    | ok o =>
      cases o with
      | none => rfl
      | some row =>
        have hr := findRow_lt base elem hf
        simp only [ok_bind, row_ok hs hc, index_ok hs hc hc, swapRows_eq hs elem hc hr, mulRow_eq base hs _ hc,
          detClear_eq base hs _ hc, ih]

theorem determinant_eq (elem : List E) : determinant base size elem = MatrixRing.determinant base size elem := by
  unfold determinant MatrixRing.determinant
  congr 1
  funext d
  exact detLoop_eq base hs _ (fun c h => List.mem_range.1 h) _ _

theorem transpose_eq {bytes : ℕ} (elem : List E) (hb : ((size * size * bytes : ℕ) : ℤ) ≤ isizeMax) :
    transpose bytes size elem = MatrixRing.transpose size elem := by
  unfold transpose MatrixRing.transpose
  simp only [len_ok hs, ok_bind, capacity_ok hb]
  congr 1
  funext _
  refine forLoop_congr fun s row hr => forLoop_congr fun s col hc => ?_
  rw [row_ok hs (List.mem_range.1 hc), ok_bind, index_ok hs (List.mem_range.1 hc) (List.mem_range.1 hr), ok_bind]

theorem matContains_eq (elem : List E) : matContains base size elem = (MatrixRing.domain base size).contains elem := by
  unfold matContains
  rw [len_ok hs, ok_bind]
  rfl

theorem matEquals_eq (v w : List E) : matEquals base size v w = (MatrixRing.domain base size).equals v w := by
  unfold matEquals
  rw [len_ok hs, ok_bind, ok_bind]
  rfl

theorem matMul_eq {bytes : ℕ} (v w : List E) (hb : ((v.length * bytes : ℕ) : ℤ) ≤ isizeMax) :
    matMul bytes base size v w = MatrixRing.mul base size v w := by
  unfold matMul MatrixRing.mul
  rw [len_ok hs, ok_bind, ok_bind]
  by_cases hl : v.length = size * size ∧ w.length = size * size
  · have hb : ((size * size * bytes : ℕ) : ℤ) ≤ isizeMax := hl.1 ▸ hb
    simp only [transpose_eq hs w hb, len_ok hs, ok_bind, capacity_ok hb]
    congr 1
    funext _
    congr 1
    funext w
    refine forLoop_congr fun s row hr => forLoop_congr fun s col hc => ?_
    congr 1
    funext z
    congr 1
    refine forLoop_congr fun s i hi => ?_
    have hr := List.mem_range.1 hr
    have hc := List.mem_range.1 hc
    have hi := List.mem_range.1 hi
    simp only [row_ok hs hr, row_ok hs hc, index_ok hs hr hi, index_ok hs hc hi, ok_bind]
  · have : (v.length == size * size && w.length == size * size) = false := by
      rw [Bool.and_eq_false_iff, beq_eq_false_iff_ne, beq_eq_false_iff_ne]
      exact not_and_or.1 hl
    rw [this]
    rfl

omit hs in
theorem matZero_eq {bytes : ℕ} (hb : ((size * size * bytes : ℕ) : ℤ) ≤ isizeMax) :
    matZero bytes base size = MatrixRing.zero base size := by
  unfold matZero diagonal
  rw [capacity_ok hb]
  rfl

theorem matInt_eq {bytes : ℕ} (hb : ((size * size * bytes : ℕ) : ℤ) ≤ isizeMax) (n : ℤ) :
    matInt bytes base size n = MatrixRing.int base size n := by
  unfold matInt MatrixRing.int
  rw [matZero_eq base hb]
  congr 1
  funext e
  congr 1
  funext m
  refine forLoop_congr fun s i hi => ?_
  have hi := List.mem_range.1 hi
  have h1 : i * (size + 1) ≤ usizeMax := by
    have := index_lt hi hi
    rw [Nat.mul_succ]
    omega
  rw [add_ok (size_ok hs), ok_bind, mul_ok h1, ok_bind]

theorem invClear_eq (elem invs : List E) {col : ℕ} (hc : col < size) :
    invClear base size elem invs col = MatrixRing.invClear base size elem invs col := by
  unfold invClear MatrixRing.invClear
  refine forLoop_congr fun s row hr => ?_
  have hr := List.mem_range.1 hr
  obtain ⟨elem, invs⟩ := s
  simp only [row_ok hs hr, index_ok hs hr hc, ok_bind, addRows_eq base hs _ hc hr]

theorem invLoop_eq (cols : List ℕ) (hl : ∀ c ∈ cols, c < size) (elem invs : List E) :
    invLoop base size cols elem invs = MatrixRing.invLoop base size cols elem invs := by
  induction cols generalizing elem invs with
  | nil => rfl
  | cons col cols ih =>
    have hc := hl col List.mem_cons_self
    have ih := fun e d => ih (fun c h => hl c (List.mem_cons_of_mem _ h)) e d
    unfold invLoop MatrixRing.invLoop
    rw [findRow_eq base hs elem hc]
    cases hf : MatrixRing.findRow base size elem col with
    | panic => rfl
    | diverge => rfl
    | ok o =>
      cases o with
      | none => rfl
      | some row =>
        have hr := findRow_lt base elem hf
        simp only [ok_bind, row_ok hs hc, index_ok hs hc hc, swapRows_eq hs _ hc hr, mulRow_eq base hs _ hc,
          invClear_eq base hs _ _ hc, ih]

theorem matTryInv_eq {bytes : ℕ} (hb : ((size * size * bytes : ℕ) : ℤ) ≤ isizeMax) (elem : List E) :
    matTryInv bytes base size elem = MatrixRing.tryInv base size elem := by
  unfold matTryInv MatrixRing.tryInv matIsOne MatrixRing.isOne
  simp only [matInt_eq base hs hb, matEquals_eq base hs, invLoop_eq base hs _ (fun c h => List.mem_range.1 h)]
  rfl

end matrices

/-! ## Polynomials -/

section polynomials

theorem last_ok {v : List E} (h : v ≠ []) : sub v.length 1 = .ok (v.length - 1) :=
  sub_ok (List.length_pos_iff.2 h)

omit [Cfg] in
theorem isEmpty_false {v : List E} (h : v ≠ []) : v.isEmpty = false := by
  cases v with
  | nil => exact absurd rfl h
  | cons a v => rfl

theorem degree_eq (v : List E) : degree v = .ok (PolynomialAlgebra.degree v) := by
  unfold degree PolynomialAlgebra.degree
  by_cases h : v = []
  · subst h; rfl
  · rw [isEmpty_false h, last_ok h]; rfl

theorem leadingCoef_eq (v : List E) : leadingCoef v = PolynomialAlgebra.leadingCoef v := by
  unfold leadingCoef PolynomialAlgebra.leadingCoef
  by_cases h : v = []
  · subst h; rfl
  · rw [isEmpty_false h, last_ok h]; rfl

theorem polyContains_eq (base : AbelianGroupOps E) (v : List E) :
    polyContains base v = (PolynomialAlgebra.domain base).contains v := by
  unfold polyContains
  by_cases h : v = []
  · subst h; rfl
  · rw [last_ok h]; rfl

theorem associateRepr_eq (base : IntegralDomainOps E) (v : List E) :
    associateRepr base v = (PolynomialAlgebra.integralDomain base).associateRepr v := by
  unfold associateRepr
  by_cases h : v = []
  · subst h; rfl
  · rw [last_ok h]; rfl

theorem associateCoef_eq (base : IntegralDomainOps E) (v : List E) :
    associateCoef base v = (PolynomialAlgebra.integralDomain base).associateCoef v := by
  unfold associateCoef
  by_cases h : v = []
  · subst h; rfl
  · rw [last_ok h]; rfl

theorem polyAdd_eq (base : AbelianGroupOps E) (v w : List E) (hv : v.length ≤ usizeMax) :
    polyAdd base v w = PolynomialAlgebra.add base v w := by
  unfold polyAdd PolynomialAlgebra.add
  split
  · rfl
  · refine forLoop_congr fun s i hi => ?_
    have hi := List.mem_range.1 hi
    rw [add_ok (by omega)]
    rfl

theorem timesTrim_eq (base : AbelianGroupOps E) (v : List E) (n : ℕ) (hn : n ≤ usizeMax) :
    timesTrim base v n = PolynomialAlgebra.timesTrim base v n := by
  induction n with
  | zero => rfl
  | succ i ih =>
    unfold timesTrim PolynomialAlgebra.timesTrim
    rw [add_ok hn, ih (by omega)]
    rfl

omit [Cfg] in
theorem mapRes_length' {α β : Type} {f : α → Res β} {l : List α} {m : List β} (h : mapRes f l = .ok m) : m.length = l.length := by
  induction l generalizing m with
  | nil => cases h; rfl
  | cons a l ih =>
    unfold mapRes at h
    cases ha : f a with
    | panic => rw [ha] at h; cases h
    | diverge => rw [ha] at h; cases h
    | ok b =>
      rw [ha] at h
      cases hl : mapRes f l with
      | panic => rw [hl] at h; cases h
      | diverge => rw [hl] at h; cases h
      | ok l' =>
        rw [hl] at h
        cases h
        rw [List.length_cons, List.length_cons, ih hl]

theorem polyTimes_eq (base : AbelianGroupOps E) (num : ℤ) (v : List E) (hv : v.length ≤ usizeMax) :
    polyTimes base num v = (PolynomialAlgebra.abelianGroup base).times num v := by
  unfold polyTimes
  show _ = (mapRes (fun a => base.times num a) v >>= fun v => PolynomialAlgebra.timesTrim base v v.length)
  cases h : mapRes (fun a => base.times num a) v with
  | panic => rfl
  | diverge => rfl
  | ok u =>
    rw [ok_bind, ok_bind]
    exact timesTrim_eq base u _ (by rw [mapRes_length' h]; exact hv)

omit [Cfg] in
theorem resize_nil (n : ℕ) (z : E) : resize [] n z = List.replicate n z := by
  simp [resize]

/-- Vectors that fit: two of them can be put behind each other. -/
theorem lengths_ok {bytes m n : ℕ} (hb : 0 < bytes) (hm : ((m * bytes : ℕ) : ℤ) ≤ isizeMax)
    (hn : ((n * bytes : ℕ) : ℤ) ≤ isizeMax) : m + n ≤ usizeMax := by
  have h1 : m ≤ m * bytes := Nat.le_mul_of_pos_right _ hb
  have h2 : n ≤ n * bytes := Nat.le_mul_of_pos_right _ hb
  have h3 := isizeMax_eq
  omega

theorem polyMul_eq {bytes : ℕ} (base : UnitaryRingOps E) (v w : List E) (hs : v.length + w.length ≤ usizeMax) :
    polyMul bytes base v w =
      if v = [] ∨ w = [] ∨ (((v.length + w.length - 1) * bytes : ℕ) : ℤ) ≤ isizeMax then PolynomialAlgebra.mul base v w
      else .panic := by
  unfold polyMul PolynomialAlgebra.mul
  by_cases hv : v = []
  · subst hv; simp
  by_cases hw : w = []
  · subst hw; simp
  have h1 : 0 < v.length := List.length_pos_iff.2 hv
  rw [isEmpty_false hv, isEmpty_false hw, add_ok hs]
  simp only [Bool.or_self, Bool.false_eq_true, if_false, ok_bind]
  rw [sub_ok (by omega), ok_bind, capacity_eq]
  by_cases hc : (((v.length + w.length - 1) * bytes : ℕ) : ℤ) ≤ isizeMax
  · rw [if_pos hc, if_pos (Or.inr (Or.inr hc)), ok_bind, ok_bind]
    congr 1
    funext z
    rw [resize_nil]
    refine forLoop_congr fun s i hi => forLoop_congr fun s j hj => ?_
    have hi := List.mem_range.1 hi
    have hj := List.mem_range.1 hj
    rw [add_ok (by omega)]
    rfl
  · rw [if_neg hc, if_neg (by rintro (h | h | h) <;> contradiction)]
    rfl

theorem tryDivLoop_eq (base : IntegralDomainOps E) {w : List E} (hw : w ≠ []) (a : E) (n : ℕ) (hn : n + w.length ≤ usizeMax + 1)
    (quo rem : List E) : tryDivLoop base w a n quo rem = PolynomialAlgebra.tryDivLoop base w a n quo rem := by
  have h1 : 0 < w.length := List.length_pos_iff.2 hw
  induction n generalizing quo rem with
  | zero => rfl
  | succ i ih =>
    have ih := fun q r => ih (by omega) q r
    unfold tryDivLoop PolynomialAlgebra.tryDivLoop
    rw [add_ok (by omega), ok_bind, sub_ok (by omega), ok_bind, last_ok hw]
    congr 1
    funext x
    congr 1
    funext o
    cases o with
    | none => rfl
    | some q =>
      dsimp only
      congr 1
      funext quo
      congr 1
      funext y
      congr 1
      funext b
      rw [ok_bind]
      have hl : forLoop (List.range (w.length - 1)) rem (fun rem j => do
            let c ← base.mul (← idx w j) b
            let d ← base.addAssign (← idx rem (← add i j)) c
            setIdx rem (← add i j) d) =
          forLoop (List.range (w.length - 1)) rem (fun rem j => do
            let c ← base.mul (← idx w j) b
            let d ← base.addAssign (← idx rem (i + j)) c
            setIdx rem (i + j) d) := by
        refine forLoop_congr fun s j hj => ?_
        have hj := List.mem_range.1 hj
        rw [add_ok (by omega)]
        rfl
      rw [hl]
      congr 1
      funext rem
      exact ih quo rem

theorem polyTryDiv_eq {bytes : ℕ} (base : IntegralDomainOps E) (v w : List E) (hs : v.length + w.length ≤ usizeMax) :
    polyTryDiv bytes base v w =
      if v.length < w.length ∨ (((v.length + w.length - 1) * bytes : ℕ) : ℤ) ≤ isizeMax then PolynomialAlgebra.tryDiv base v w
      else .panic := by
  unfold polyTryDiv PolynomialAlgebra.tryDiv
  by_cases hw : w = []
  · subst hw
    simp
  have h1 : 0 < w.length := List.length_pos_iff.2 hw
  by_cases hl : v.length < w.length
  · simp [hl]
  simp only [hl, false_or, if_false]
  rw [isEmpty_false hw, add_ok hs]
  simp only [ok_bind, Bool.not_false, assert_true]
  rw [sub_ok (by omega), ok_bind, capacity_eq]
  by_cases hc : (((v.length + w.length - 1) * bytes : ℕ) : ℤ) ≤ isizeMax
  · rw [if_pos hc, if_pos hc, ok_bind, sub_ok (by omega), ok_bind, add_ok (by omega), ok_bind, last_ok hw]
    congr 1
    funext z
    rw [resize_nil, ok_bind]
    congr 1
    funext a
    congr 1
    funext b
    congr 1
    funext _
    rw [tryDivLoop_eq base hw a _ (by rw [List.length_replicate]; omega)]
    rfl
  · rw [if_neg hc, if_neg hc]
    rfl

theorem quoRemLoop_eq (base : FieldOps E) {w : List E} (hw : w ≠ []) (a : E) (n : ℕ) (hn : n + w.length ≤ usizeMax + 1)
    (quo rem : List E) : quoRemLoop base w a n quo rem = PolynomialAlgebra.quoRemLoop base w a n quo rem := by
  have h1 : 0 < w.length := List.length_pos_iff.2 hw
  induction n generalizing quo rem with
  | zero => rfl
  | succ i ih =>
    have ih := fun q r => ih (by omega) q r
    unfold quoRemLoop PolynomialAlgebra.quoRemLoop
    rw [add_ok (by omega), ok_bind, sub_ok (by omega), ok_bind, last_ok hw]
    congr 1
    funext x
    congr 1
    funext q
    congr 1
    funext quo
    congr 1
    funext y
    congr 1
    funext b
    rw [ok_bind]
    have hl : forLoop (List.range (w.length - 1)) rem (fun rem j => do
          let c ← base.mul (← idx w j) b
          let d ← base.add (← idx rem (← add i j)) c
          setIdx rem (← add i j) d) =
        forLoop (List.range (w.length - 1)) rem (fun rem j => do
          let c ← base.mul (← idx w j) b
          let d ← base.add (← idx rem (i + j)) c
          setIdx rem (i + j) d) := by
      refine forLoop_congr fun s j hj => ?_
      have hj := List.mem_range.1 hj
      rw [add_ok (by omega)]
      rfl
    rw [hl]
    congr 1
    funext rem
    exact ih quo rem

theorem trimLen_eq (base : FieldOps E) (rem : List E) (n : ℕ) : trimLen base rem n = PolynomialAlgebra.trimLen base rem n := by
  induction n with
  | zero => rfl
  | succ i ih =>
    unfold trimLen PolynomialAlgebra.trimLen
    rw [sub_ok (by omega), ok_bind, Nat.add_sub_cancel, ih]
    rfl

theorem polyQuoRem_eq {bytes : ℕ} (base : FieldOps E) (v w : List E) (hs : v.length ≤ usizeMax)
    (hb : ((v.length * bytes : ℕ) : ℤ) ≤ isizeMax) :
    polyQuoRem bytes base v w = PolynomialAlgebra.quoRem base v w := by
  unfold polyQuoRem PolynomialAlgebra.quoRem
  by_cases hw : w = []
  · subst hw
    rfl
  have h1 : 0 < w.length := List.length_pos_iff.2 hw
  by_cases hl : v.length < w.length
  · simp [hl]
  have hc : (((v.length - w.length + 1) * bytes : ℕ) : ℤ) ≤ isizeMax := by
    have : (v.length - w.length + 1) * bytes ≤ v.length * bytes := Nat.mul_le_mul_right _ (by omega)
    omega
  simp only [hl, if_false]
  rw [isEmpty_false hw]
  simp only [ok_bind, Bool.not_false, assert_true]
  rw [sub_ok (by omega), ok_bind, add_ok (by omega), ok_bind, capacity_ok hc, ok_bind, ok_bind, add_ok (by omega), ok_bind,
    last_ok hw]
  congr 1
  funext z
  rw [resize_nil, ok_bind]
  congr 1
  funext a
  congr 1
  funext b
  congr 1
  funext _
  rw [quoRemLoop_eq base hw a _ (by rw [List.length_replicate]; omega)]
  congr 1
  funext p
  rw [ok_bind, trimLen_eq]

end polynomials

end Abstalg.Usize
