import Verif.Proofs.CountedErase
import Mathlib.Algebra.Group.Action.Defs

/-! # Numbers of calls -/

set_option autoImplicit false

namespace Abstalg.Counted

variable {E : Type}

/-! ## Multiples and powers -/

theorem takes_of_eq {α : Type} {x : Counted α} {k m : Call → ℕ} (h : Takes x k) (hk : k = m) : Takes x m := hk ▸ h

theorem within_of_eq {α : Type} {x : Counted α} {k m : Call → ℕ} (h : Within x k) (hk : k = m) : Within x m := hk ▸ h

theorem bits_step {n : ℕ} (h : 0 < n) :
    n.bits.count true = (if n % 2 ≠ 0 then 1 else 0) + (n / 2).bits.count true ∧ n.bits.length = 1 + (n / 2).bits.length := by
  have h2 : n = Nat.bit (decide (n % 2 ≠ 0)) (n / 2) := by
    rw [Nat.bit_val]
    rcases Nat.mod_two_eq_zero_or_one n with h1 | h1 <;> simp [h1] <;> omega
  have h3 : n / 2 = 0 → decide (n % 2 ≠ 0) = true := by
    intro h0
    simp
    omega
  have h4 : n.bits = decide (n % 2 ≠ 0) :: (n / 2).bits := by
    conv_lhs => rw [h2]
    exact Nat.bits_append_bit _ _ h3
  rw [h4]
  constructor
  · rw [List.count_cons]
    by_cases h5 : n % 2 ≠ 0 <;> simp [h5, add_comm]
  · simp [add_comm]

theorem takes_timesLoop (A : CommutativeMonoidOps E) (n : ℕ) (r a : E) :
    Takes (timesLoop A n r a) (n.bits.count true • once .addAssign + n.bits.length • once .double) := by
  induction n using Nat.strongRecOn generalizing r a with
  | _ n ih =>
    unfold timesLoop
    by_cases h : 0 < n
    · rw [dif_pos h, (bits_step h).1, (bits_step h).2]
      have h1 : ∀ r' a', Takes (timesLoop A (n / 2) r' a')
          ((n / 2).bits.count true • once .addAssign + (n / 2).bits.length • once .double) :=
        fun r' a' => ih _ (by omega) r' a'
      by_cases h2 : n % 2 ≠ 0
      · rw [if_pos h2, if_pos h2]
        refine takes_of_eq (takes_bind (takes_call _ _) fun _ _ => takes_bind (takes_call _ _) fun _ _ => h1 _ _) ?_
        funext c
        simp only [Pi.add_apply, Pi.smul_apply, smul_eq_mul]
        ring
      · rw [if_neg h2, if_neg h2]
        refine takes_of_eq (takes_bind (takes_pure _) fun _ _ => takes_bind (takes_call _ _) fun _ _ => h1 _ _) ?_
        funext c
        simp only [Pi.add_apply, Pi.smul_apply, smul_eq_mul, Pi.zero_apply]
        ring
    · rw [dif_neg h]
      obtain rfl : n = 0 := by omega
      refine takes_of_eq (takes_pure _) ?_
      funext c
      simp


theorem takes_powerLoop [Cfg] (A : GroupOps E) (n : ℕ) (r a : E) :
    Takes (powerLoop A (n : ℤ) r a) (n.bits.count true • once .mulAssign + n.bits.length • once .square) := by
  induction n using Nat.strongRecOn generalizing r a with
  | _ n ih =>
    unfold powerLoop
    by_cases h : 0 < n
    · have h' : (0 : ℤ) < n := by omega
      rw [dif_pos h', (bits_step h).1, (bits_step h).2]
      have h0 : Int.tdiv (n : ℤ) 2 = ((n / 2 : ℕ) : ℤ) := by
        rw [Int.tdiv_eq_ediv_of_nonneg (by omega)]
        omega
      have h3 : Int.tmod (n : ℤ) 2 ≠ 0 ↔ n % 2 ≠ 0 := by
        rw [Int.tmod_eq_emod_of_nonneg (by omega)]
        omega
      rw [h0]
      have h1 : ∀ r' a', Takes (powerLoop A ((n / 2 : ℕ) : ℤ) r' a')
          ((n / 2).bits.count true • once .mulAssign + (n / 2).bits.length • once .square) :=
        fun r' a' => ih _ (by omega) r' a'
      by_cases h2 : n % 2 ≠ 0
      · rw [if_pos h2, if_pos (h3.2 h2)]
        refine takes_of_eq (takes_bind (takes_call _ _) fun _ _ => takes_bind (takes_call _ _) fun _ _ => h1 _ _) ?_
        funext c
        simp only [Pi.add_apply, Pi.smul_apply, smul_eq_mul]
        ring
      · rw [if_neg h2, if_neg (h3.not.2 h2)]
        refine takes_of_eq (takes_bind (takes_pure _) fun _ _ => takes_bind (takes_call _ _) fun _ _ => h1 _ _) ?_
        funext c
        simp only [Pi.add_apply, Pi.smul_apply, smul_eq_mul, Pi.zero_apply]
        ring
    · rw [dif_neg (by omega)]
      obtain rfl : n = 0 := by omega
      refine takes_of_eq (takes_pure _) ?_
      funext c
      simp

/-! ## Matrices -/

/-- Running through the rest of a computation that returns. -/
theorem bind_ok {α β : Type} {x : Counted α} {f : α → Counted β} {b : β} (h : (x >>= f).res = .ok b) :
    ∃ a, x.res = .ok a ∧ (f a).res = .ok b ∧ ∀ c, (x >>= f).calls c = x.calls c + (f a).calls c := by
  rw [res_bind] at h
  cases hx : x.res with
  | ok a =>
    rw [hx] at h
    refine ⟨a, rfl, h, fun c => ?_⟩
    show (Counted.bind x f).calls c = _
    unfold Counted.bind
    rw [hx]
  | panic => rw [hx] at h; cases h
  | diverge => rw [hx] at h; cases h

theorem sum_apply {ι : Type} (l : List ι) (k : ι → Call → ℕ) (c : Call) : (l.map k).sum c = (l.map fun i => k i c).sum := by
  induction l with
  | nil => rfl
  | cons i l ih => rw [List.map_cons, List.sum_cons, List.map_cons, List.sum_cons, Pi.add_apply, ih]

section matrices

variable [Cfg] (base : FieldOps E) (size : ℕ)

theorem takes_matMul (v w : List E) :
    Takes (matMul base size v w) (size • size • (once .zero + size • (once .mul + once .addAssign))) := by
  unfold matMul
  refine takes_of_eq (takes_bind (takes_lift _) fun _ _ => takes_bind (takes_lift _) fun _ _ =>
    takes_forLoop_const (k := size • (once .zero + size • (once .mul + once .addAssign))) (fun s i _ => ?_) _) ?_
  · refine takes_of_eq (takes_forLoop_const (k := once .zero + size • (once .mul + once .addAssign)) (fun s i _ => ?_) _) (by simp)
    refine takes_of_eq (takes_bind (takes_call _ _) fun z _ => takes_bind
      (takes_forLoop_const (k := once .mul + once .addAssign) (fun s i _ => ?_) _) fun _ _ => takes_pure _) (by simp)
    exact takes_of_eq (takes_bind (takes_lift _) fun _ _ => takes_bind (takes_lift _) fun _ _ =>
      takes_bind (takes_call _ _) fun _ _ => takes_call _ _) (by simp)
  · simp

theorem takes_mulRow (v : List E) (i : ℕ) (a : E) : Takes (mulRow base size v i a) (size • once .mulAssign) := by
  unfold mulRow
  refine takes_of_eq (takes_bind (takes_lift _) fun _ _ => takes_forLoop_const (k := once .mulAssign) (fun s i _ => ?_) _) (by simp)
  exact takes_of_eq (takes_bind (takes_lift _) fun _ _ => takes_bind (takes_call _ _) fun _ _ => takes_lift _) (by simp)

theorem takes_addRows (v : List E) (i j : ℕ) (a : E) :
    Takes (addRows base size v i j a) (size • (once .mul + once .addAssign)) := by
  unfold addRows
  refine takes_of_eq (takes_forLoop_const (k := once .mul + once .addAssign) (fun s i _ => ?_) _) (by simp)
  exact takes_of_eq (takes_bind (takes_lift _) fun _ _ => takes_bind (takes_call _ _) fun _ _ => takes_bind (takes_lift _)
    fun _ _ => takes_bind (takes_call _ _) fun _ _ => takes_lift _) (by simp)

theorem within_findRow (v : List E) (j : ℕ) : Within (findRow base size v j) ((size - j) • once .isZero) := by
  unfold findRow
  refine within_of_eq (within_findRes (k := once .isZero) (fun a => ?_) _) (by simp)
  exact (takes_of_eq (takes_bind (takes_lift _) fun _ _ => takes_bind (takes_call _ _) fun _ _ => takes_pure _) (by simp)).1

/-- The calls for clearing one entry. -/
def clearing (k : ℕ) : Call → ℕ := once .isZero + once .neg + (k * size) • (once .mul + once .addAssign)

theorem within_detClear (v : List E) (j : ℕ) : Within (detClear base size v j) ((size - (j + 1)) • clearing size 1) := by
  unfold detClear
  have : ((size - (j + 1)) • clearing size 1) =
      ((List.range' (j + 1) (size - (j + 1))).map fun _ => clearing size 1).sum := by
    rw [List.map_const', List.sum_replicate, List.length_range']
  rw [this]
  refine within_forLoop (fun s i _ => ?_) v
  refine within_mono (within_bind (takes_lift _).1 fun x _ => within_bind (takes_call _ _).1 fun b _ =>
    (show Within _ (once .neg + size • (once .mul + once .addAssign)) from ?_)) ?_
  · cases b with
    | true => exact fun c => Nat.zero_le _
    | false => exact within_bind (takes_call _ _).1 fun _ _ => (takes_addRows base size _ _ _ _).1
  · intro c
    simp [clearing, add_assoc]

/-- The calls for one column of the determinant. -/
def detColumn (j : ℕ) : Call → ℕ :=
  (size - j) • once .isZero + (size + 1) • once .mulAssign + once .inv + (size - (j + 1)) • clearing size 1

theorem detLoop_cons (j : ℕ) (l : List ℕ) (v : List E) (d : E) :
    detLoop base size (j :: l) v d = (findRow base size v j >>= fun o => match o with
      | some row => (if row ≠ j then lift (MatrixRing.swapRows size v j row) else pure v) >>= fun elem => (do
        let coef ← lift (idx elem (j * size + j))
        let det ← call .mulAssign (base.mulAssign d coef)
        let coef ← call .inv (base.inv coef)
        let elem ← mulRow base size elem j coef
        let elem ← detClear base size elem j
        detLoop base size l elem det)
      | none => call .zero base.zero) := by
  rw [detLoop]
  refine congrArg _ (funext fun o => ?_)
  cases o with
  | none => rfl
  | some row =>
    dsimp only
    split <;> rfl

omit [Cfg] in
theorem takes_swap (v : List E) (row j : ℕ) :
    Takes (if row ≠ j then lift (MatrixRing.swapRows size v j row) else pure v) 0 := by
  split
  · exact takes_lift _
  · exact takes_pure _

theorem within_detLoop (l : List ℕ) (v : List E) (d : E) :
    Within (detLoop base size l v d) ((l.map (detColumn size)).sum + once .zero) := by
  induction l generalizing v d with
  | nil => exact fun c => Nat.zero_le _
  | cons j l ih =>
    rw [detLoop_cons]
    rw [List.map_cons, List.sum_cons]
    refine within_mono (within_bind (within_findRow base size v j) fun o _ =>
      (show Within _ ((size + 1) • once .mulAssign + once .inv + (size - (j + 1)) • clearing size 1 +
        ((l.map (detColumn size)).sum + once .zero)) from ?_)) ?_
    · cases o with
      | none => exact within_mono (takes_call _ _).1 fun c => Nat.le_add_left _ _ |>.trans (Nat.le_add_left _ _)
      | some row =>
        refine within_mono (within_bind (takes_swap size v row j).1 fun e _ => within_bind (takes_lift _).1 fun _ _ =>
          within_bind (takes_call _ _).1 fun _ _ => within_bind (takes_call _ _).1 fun _ _ =>
          within_bind (takes_mulRow base size _ _ _).1 fun _ _ => within_bind (within_detClear base size _ _) fun _ _ =>
          ih _ _) ?_
        · intro c
          simp only [Pi.add_apply, Pi.smul_apply, smul_eq_mul, Pi.zero_apply]
          ring_nf
          exact le_rfl
    · intro c
      simp only [detColumn, Pi.add_apply, Pi.smul_apply, smul_eq_mul]
      ring_nf
      exact le_rfl

/-- If the loop does not stop with zero, all columns have a pivot. -/
theorem detLoop_exact (l : List ℕ) (v : List E) (d d' : E) (h : (detLoop base size l v d).res = .ok d')
    (hz : (detLoop base size l v d).calls .zero = 0) : (detLoop base size l v d).calls .inv = l.length ∧
      (detLoop base size l v d).calls .mulAssign = l.length * (size + 1) := by
  induction l generalizing v d with
  | nil => exact ⟨rfl, by simp [detLoop]; rfl⟩
  | cons j l ih =>
    rw [detLoop_cons] at h hz ⊢
    obtain ⟨o, h1, h, k1⟩ := bind_ok h
    rw [k1] at hz
    rw [k1, k1]
    have w1 := within_findRow base size v j
    cases o with
    | none => simp [call] at hz
    | some row =>
      dsimp only at h hz ⊢
      obtain ⟨e, h2, h, k2⟩ := bind_ok h
      have w2 := (takes_swap size v row j).2 _ h2
      rw [k2] at hz
      rw [k2, k2]
      obtain ⟨x, h3, h, k3⟩ := bind_ok h
      rw [k3] at hz
      rw [k3, k3]
      obtain ⟨d1, h4, h, k4⟩ := bind_ok h
      rw [k4] at hz
      rw [k4, k4]
      obtain ⟨x1, h5, h, k5⟩ := bind_ok h
      rw [k5] at hz
      rw [k5, k5]
      obtain ⟨e1, h6, h, k6⟩ := bind_ok h
      have w6 := (takes_mulRow base size _ _ _).2 _ h6
      rw [k6] at hz
      rw [k6, k6]
      obtain ⟨e2, h7, h, k7⟩ := bind_ok h
      have w7 := within_detClear base size e1 j
      rw [k7] at hz
      rw [k7, k7]
      have h8 := ih e2 d1 h (by omega)
      rw [h8.1, h8.2, w2, w6]
      have a1 := w1 .inv
      have a2 := w1 .mulAssign
      have a3 := w7 .inv
      have a4 := w7 .mulAssign
      simp [once, clearing] at a1 a2 a3 a4
      simp only [List.length_cons, a1, a2, a3, a4]
      simp [once, call, lift]
      constructor
      · omega
      · ring

theorem within_invClear (v w : List E) (j : ℕ) (hj : j < size) :
    Within (invClear base size v w j) ((size - 1) • clearing size 2) := by
  unfold invClear
  have : ((size - 1) • clearing size 2) =
      ((List.range size).map fun i => if i = j then 0 else clearing size 2).sum := by
    have h1 : ∀ m, ((List.range m).map fun i => if i = j then (0 : Call → ℕ) else clearing size 2).sum =
        (if j < m then m - 1 else m) • clearing size 2 := by
      intro m
      induction m with
      | zero => simp
      | succ m ih =>
        rw [List.range_succ, List.map_append, List.sum_append, ih, List.map_cons, List.map_nil, List.sum_cons, List.sum_nil, add_zero]
        by_cases h2 : m = j
        · subst h2; simp
        · rw [if_neg h2]
          by_cases h3 : j < m
          · rw [if_pos h3, if_pos (by omega), ← succ_nsmul]
            congr 1
            omega
          · rw [if_neg h3, if_neg (by omega), ← succ_nsmul]
    rw [h1, if_pos hj]
  rw [this]
  refine within_forLoop (fun s i _ => ?_) (v, w)
  by_cases hij : i = j
  · subst hij
    simp only [beq_self_eq_true, if_true]
    exact fun c => Nat.zero_le _
  · simp only [beq_iff_eq, hij, if_false]
    refine within_mono (within_bind (takes_lift _).1 fun x _ => within_bind (takes_call _ _).1 fun b _ =>
      (show Within _ (once .neg + (2 * size) • (once .mul + once .addAssign)) from ?_)) ?_
    · cases b with
      | true => exact fun c => Nat.zero_le _
      | false =>
        refine within_mono (within_bind (takes_call _ _).1 fun _ _ => within_bind (takes_addRows base size _ _ _ _).1 fun _ _ =>
          within_bind (takes_addRows base size _ _ _ _).1 fun _ _ => (takes_pure _).1) fun c => ?_
        simp only [Pi.add_apply, Pi.smul_apply, smul_eq_mul, Pi.zero_apply]
        ring_nf
        exact le_rfl
    · intro c
      simp [clearing, add_assoc]

/-- The calls for one column of the inverse. -/
def invColumn (j : ℕ) : Call → ℕ :=
  (size - j) • once .isZero + (2 * size) • once .mulAssign + once .inv + (size - 1) • clearing size 2

/-- Exchanging rows of both matrices. -/
def swapBoth (v w : List E) (row j : ℕ) : Counted (List E × List E) :=
  if row ≠ j then do
    let elem ← lift (MatrixRing.swapRows size v j row)
    let invs ← lift (MatrixRing.swapRows size w j row)
    pure (elem, invs)
  else pure (v, w)

omit [Cfg] in
theorem takes_swapBoth (v w : List E) (row j : ℕ) : Takes (swapBoth size v w row j) 0 := by
  unfold swapBoth
  split
  · exact takes_of_eq (takes_bind (takes_lift _) fun _ _ => takes_bind (takes_lift _) fun _ _ => takes_pure _) rfl
  · exact takes_pure _

omit [Cfg] in
theorem bind_assoc' {α β γ : Type} (x : Counted α) (f : α → Counted β) (g : β → Counted γ) :
    (x >>= f) >>= g = x >>= fun a => f a >>= g := by
  show Counted.bind (Counted.bind x f) g = Counted.bind x fun a => Counted.bind (f a) g
  unfold Counted.bind
  cases x.res with
  | ok a =>
    dsimp only
    cases (f a).res <;> simp [add_assoc]
  | panic => rfl
  | diverge => rfl

theorem invLoop_cons (j : ℕ) (l : List ℕ) (v w : List E) :
    invLoop base size (j :: l) v w = (findRow base size v j >>= fun o => match o with
      | some row => swapBoth size v w row j >>= fun p => (do
        let coef ← call .inv (base.inv (← lift (idx p.1 (j * size + j))))
        let elem ← mulRow base size p.1 j coef
        let invs ← mulRow base size p.2 j coef
        let q ← invClear base size elem invs j
        invLoop base size l q.1 q.2)
      | none => pure none) := by
  rw [invLoop]
  refine congrArg _ (funext fun o => ?_)
  cases o with
  | none => rfl
  | some row =>
    unfold swapBoth
    dsimp only
    split
    · simp only [bind_assoc']
    · rfl

theorem within_invLoop (l : List ℕ) (hl : ∀ j ∈ l, j < size) (v w : List E) :
    Within (invLoop base size l v w) (l.map (invColumn size)).sum := by
  induction l generalizing v w with
  | nil => exact fun c => Nat.zero_le _
  | cons j l ih =>
    rw [invLoop_cons]
    rw [List.map_cons, List.sum_cons]
    refine within_mono (within_bind (within_findRow base size v j) fun o _ =>
      (show Within _ ((2 * size) • once .mulAssign + once .inv + (size - 1) • clearing size 2 +
        ((l.map (invColumn size)).sum)) from ?_)) ?_
    · cases o with
      | none => exact fun c => Nat.zero_le _
      | some row =>
        refine within_mono (within_bind (takes_swapBoth size v w row j).1 fun e _ => within_bind (takes_lift _).1 fun _ _ =>
          within_bind (takes_call _ _).1 fun _ _ =>
          within_bind (takes_mulRow base size _ _ _).1 fun _ _ => within_bind (takes_mulRow base size _ _ _).1 fun _ _ =>
          within_bind (within_invClear base size _ _ _ (hl j (List.mem_cons_self ..))) fun _ _ =>
          ih (fun i hi => hl i (List.mem_cons_of_mem _ hi)) _ _) ?_
        · intro c
          simp only [Pi.add_apply, Pi.smul_apply, smul_eq_mul, Pi.zero_apply]
          ring_nf
          exact le_rfl
    · intro c
      simp only [invColumn, Pi.add_apply, Pi.smul_apply, smul_eq_mul]
      ring_nf
      exact le_rfl

theorem invLoop_exact (l : List ℕ) (hl : ∀ j ∈ l, j < size) (v w : List E) (p : List E × List E)
    (h : (invLoop base size l v w).res = .ok (some p)) : (invLoop base size l v w).calls .inv = l.length ∧
      (invLoop base size l v w).calls .mulAssign = l.length * (2 * size) := by
  induction l generalizing v w with
  | nil => exact ⟨rfl, by simp [invLoop]; rfl⟩
  | cons j l ih =>
    rw [invLoop_cons] at h ⊢
    obtain ⟨o, h1, h, k1⟩ := bind_ok h
    rw [k1, k1]
    have w1 := within_findRow base size v j
    cases o with
    | none => cases h
    | some row =>
      dsimp only at h ⊢
      obtain ⟨e, h2, h, k2⟩ := bind_ok h
      have w2 := (takes_swapBoth size v w row j).2 _ h2
      rw [k2, k2]
      obtain ⟨x, h3, h, k3⟩ := bind_ok h
      rw [k3, k3]
      obtain ⟨x1, h5, h, k5⟩ := bind_ok h
      rw [k5, k5]
      obtain ⟨e1, h6, h, k6⟩ := bind_ok h
      have w6 := (takes_mulRow base size _ _ _).2 _ h6
      rw [k6, k6]
      obtain ⟨f1, h7, h, k7⟩ := bind_ok h
      have w7 := (takes_mulRow base size _ _ _).2 _ h7
      rw [k7, k7]
      obtain ⟨e2, h8, h, k8⟩ := bind_ok h
      have w8 := within_invClear base size e1 f1 j (hl j (List.mem_cons_self ..))
      rw [k8, k8]
      have h9 := ih (fun i hi => hl i (List.mem_cons_of_mem _ hi)) _ _ h
      rw [h9.1, h9.2, w2, w6, w7]
      have a1 := w1 .inv
      have a2 := w1 .mulAssign
      have a3 := w8 .inv
      have a4 := w8 .mulAssign
      simp [once, clearing] at a1 a2 a3 a4
      simp only [List.length_cons, a1, a2, a3, a4]
      simp [once, call, lift]
      constructor
      · omega
      · ring

theorem takes_matInt (n : ℤ) : Takes (matInt base size n) (once .int + once .zero) := by
  unfold matInt matZero
  refine takes_of_eq (takes_bind (takes_call _ _) fun _ _ => takes_bind (takes_bind (takes_call _ _) fun _ _ => takes_pure _) fun _ _ =>
    takes_forLoop_const (k := 0) (fun s i _ => takes_lift _) _) ?_
  simp

theorem within_matIsOne (v : List E) : Within (matIsOne base size v) (once .int + once .zero + (size * size) • once .equals) := by
  unfold matIsOne
  refine within_bind (takes_matInt base size 1).1 fun one _ => ?_
  refine within_mono (within_bind (m := (size * size) • once .equals) (takes_lift _).1 fun _ h => ?_) (by simp)
  have h1 : v.length = size * size ∧ one.length = size * size := by
    unfold lift Res.assert at h
    by_contra hc
    rw [if_neg (by simpa using hc)] at h
    cases h
  refine within_of_eq (within_allRes (k := once .equals) (fun a => (takes_call _ _).1) _) ?_
  rw [List.length_zip, h1.1, h1.2, Nat.min_self]

theorem within_debugAssert (b : Counted Bool) {k : Call → ℕ} (h : Within b k) :
    Within (debugAssert b) (if Cfg.debugAssertions then k else 0) := by
  unfold debugAssert
  split
  · exact within_mono (within_bind h fun _ _ => (takes_lift _).1) (by simp)
  · exact (takes_pure _).1

end matrices

section polynomials

variable [Cfg]

theorem polyMul_takes (base : UnitaryRingOps E) {v w : List E} (hv : v ≠ []) (hw : w ≠ []) :
    Takes (polyMul base v w) (once .zero + v.length • w.length • (once .mul + once .add)) := by
  unfold polyMul
  rw [if_neg (by simp [hv, hw])]
  refine takes_bind (takes_call _ _) fun z _ => ?_
  refine takes_of_eq (takes_forLoop_const (k := w.length • (once .mul + once .add)) (fun s i _ => ?_) _) (by simp)
  refine takes_of_eq (takes_forLoop_const (k := once .mul + once .add) (fun s j _ => ?_) _) (by simp)
  exact takes_of_eq (takes_bind (takes_lift _) fun _ _ => takes_bind (takes_lift _) fun _ _ => takes_bind (takes_call _ _) fun _ _ =>
    takes_bind (takes_lift _) fun _ _ => takes_bind (takes_call _ _) fun _ _ => takes_lift _) (by simp)

theorem polyAdd_takes_ne (base : AbelianGroupOps E) {v w : List E} (h : v.length ≠ w.length) :
    Takes (polyAdd base v w) (min v.length w.length • once .add) := by
  unfold polyAdd
  rw [if_pos h]
  have key : ∀ a b : List E, Takes (forLoop (List.range b.length) a fun elem3 i => do
      let a ← call .add (base.add (← lift (idx elem3 i)) (← lift (idx b i)))
      lift (setIdx elem3 i a)) (b.length • once .add) := fun a b => by
    refine takes_of_eq (takes_forLoop_const (k := once .add) (fun s j _ => ?_) _) (by simp)
    exact takes_of_eq (takes_bind (takes_lift _) fun _ _ => takes_bind (takes_lift _) fun _ _ =>
      takes_bind (takes_call _ _) fun _ _ => takes_lift _) (by simp)
  by_cases h1 : v.length > w.length
  · rw [if_pos h1, Nat.min_eq_right h1.le]
    exact key v w
  · rw [if_neg h1, Nat.min_eq_left (not_lt.1 h1)]
    exact key w v

/-- If the operands have the same length, `zero` is called for those sums that are not zero. -/
theorem polyAdd_takes_eq (base : AbelianGroupOps E) {v w : List E} (h : v.length = w.length) :
    Within (polyAdd base v w) (v.length • (once .add + once .isZero + once .zero)) ∧
    ∀ u, (polyAdd base v w).res = .ok u → (polyAdd base v w).calls .add = v.length ∧
      (polyAdd base v w).calls .isZero = v.length := by
  unfold polyAdd
  rw [if_neg (by simpa using h)]
  have key : ∀ (l : List ℕ) (s : List E),
      Within (forLoop l s fun elem3 i => do
        let a ← call .add (base.add (← lift (idx v i)) (← lift (idx w i)))
        if !(← call .isZero (base.isZero a)) then
          let elem3 := resize elem3 (i + 1) (← call .zero base.zero)
          lift (setIdx elem3 i a)
        else return elem3) (l.length • (once .add + once .isZero + once .zero)) ∧
      ∀ u, (forLoop l s fun elem3 i => do
        let a ← call .add (base.add (← lift (idx v i)) (← lift (idx w i)))
        if !(← call .isZero (base.isZero a)) then
          let elem3 := resize elem3 (i + 1) (← call .zero base.zero)
          lift (setIdx elem3 i a)
        else return elem3).res = .ok u →
        (forLoop l s fun elem3 i => do
          let a ← call .add (base.add (← lift (idx v i)) (← lift (idx w i)))
          if !(← call .isZero (base.isZero a)) then
            let elem3 := resize elem3 (i + 1) (← call .zero base.zero)
            lift (setIdx elem3 i a)
          else return elem3).calls .add = l.length ∧
        (forLoop l s fun elem3 i => do
          let a ← call .add (base.add (← lift (idx v i)) (← lift (idx w i)))
          if !(← call .isZero (base.isZero a)) then
            let elem3 := resize elem3 (i + 1) (← call .zero base.zero)
            lift (setIdx elem3 i a)
          else return elem3).calls .isZero = l.length := by
    intro l s
    constructor
    · have : l.length • (once .add + once .isZero + once .zero) = (l.map fun _ => once .add + once .isZero + once .zero).sum := by
        rw [List.map_const', List.sum_replicate]
      rw [this]
      refine within_forLoop (fun s i _ => ?_) s
      refine within_mono (within_bind (takes_lift _).1 fun _ _ => within_bind (takes_lift _).1 fun _ _ =>
        within_bind (takes_call _ _).1 fun _ _ => within_bind (takes_call _ _).1 fun b _ =>
        (show Within _ (once .zero) from ?_)) ?_
      · cases b with
        | true => exact fun c => Nat.zero_le _
        | false => exact within_mono (within_bind (takes_call _ _).1 fun _ _ => (takes_lift _).1) fun c => le_rfl
      · intro c
        simp [add_assoc]
    · induction l generalizing s with
      | nil => exact fun u _ => ⟨rfl, rfl⟩
      | cons i l ih =>
        intro u hu
        rw [forLoop] at hu ⊢
        obtain ⟨s', h1, hu, k1⟩ := bind_ok hu
        rw [k1, k1, (ih s' u hu).1, (ih s' u hu).2, List.length_cons]
        obtain ⟨x, h2, h1, k2⟩ := bind_ok h1
        rw [k2, k2]
        obtain ⟨y, h3, h1, k3⟩ := bind_ok h1
        rw [k3, k3]
        obtain ⟨z, h4, h1, k4⟩ := bind_ok h1
        rw [k4, k4]
        obtain ⟨b, h5, h1, k5⟩ := bind_ok h1
        rw [k5, k5]
        cases b with
        | true => simp [lift, call, pure, add_comm]
        | false =>
          obtain ⟨o, h6, h1, k6⟩ := bind_ok h1
          simp only [Bool.not_false, if_true]
          rw [k6, k6]
          simp [lift, call, add_comm]
  have := key (List.range v.length) []
  rw [List.length_range] at this
  exact this

theorem takes_quoRemLoop (base : FieldOps E) (w : List E) (a : E) (n : ℕ) (quo rem : List E) :
    Takes (quoRemLoop base w a n quo rem) (n • (once .div + once .neg + (w.length - 1) • (once .mul + once .add))) := by
  induction n generalizing quo rem with
  | zero => rw [zero_nsmul]; exact takes_pure _
  | succ n ih =>
    unfold quoRemLoop
    rw [succ_nsmul']
    refine takes_of_eq (takes_bind (takes_lift _) fun _ _ => takes_bind (takes_call _ _) fun _ _ => takes_bind (takes_lift _) fun _ _ =>
      takes_bind (takes_lift _) fun _ _ => takes_bind (takes_call _ _) fun _ _ =>
      takes_bind (takes_forLoop_const (k := once .mul + once .add) (fun s i _ => ?_) _) fun _ _ => ih _ _) ?_
    · exact takes_of_eq (takes_bind (takes_lift _) fun _ _ => takes_bind (takes_call _ _) fun _ _ => takes_bind (takes_lift _)
        fun _ _ => takes_bind (takes_call _ _) fun _ _ => takes_lift _) (by simp)
    · simp [add_assoc]

theorem within_tryDivLoop (base : IntegralDomainOps E) (w : List E) (a : E) (n : ℕ) (quo rem : List E) :
    Within (tryDivLoop base w a n quo rem) (n • (once .tryDiv + once .neg + (w.length - 1) • (once .mul + once .addAssign))) ∧
    ∀ p, (tryDivLoop base w a n quo rem).res = .ok (some p) → (tryDivLoop base w a n quo rem).calls =
      n • (once .tryDiv + once .neg + (w.length - 1) • (once .mul + once .addAssign)) := by
  induction n generalizing quo rem with
  | zero => rw [zero_nsmul]; exact ⟨(takes_pure _).1, fun _ _ => rfl⟩
  | succ n ih =>
    unfold tryDivLoop
    rw [succ_nsmul']
    have hl : ∀ (b : E) (s : List E), Takes (forLoop (List.range (w.length - 1)) s fun rem j => do
        let c ← call .mul (base.mul (← lift (idx w j)) b)
        let d ← call .addAssign (base.addAssign (← lift (idx rem (n + j))) c)
        lift (setIdx rem (n + j) d)) ((w.length - 1) • (once .mul + once .addAssign)) := fun b s => by
      refine takes_of_eq (takes_forLoop_const (k := once .mul + once .addAssign) (fun s i _ => ?_) _) (by simp)
      exact takes_of_eq (takes_bind (takes_lift _) fun _ _ => takes_bind (takes_call _ _) fun _ _ => takes_bind (takes_lift _)
        fun _ _ => takes_bind (takes_call _ _) fun _ _ => takes_lift _) (by simp)
    constructor
    · refine within_mono (within_bind (takes_lift _).1 fun _ _ => within_bind (takes_call _ _).1 fun o _ =>
        (show Within _ (once .neg + (w.length - 1) • (once .mul + once .addAssign) +
          n • (once .tryDiv + once .neg + (w.length - 1) • (once .mul + once .addAssign))) from ?_)) ?_
      · cases o with
        | none => exact fun c => Nat.zero_le _
        | some q =>
          refine within_mono (within_bind (takes_lift _).1 fun _ _ => within_bind (takes_lift _).1 fun _ _ =>
            within_bind (takes_call _ _).1 fun _ _ => within_bind (hl _ _).1 fun _ _ => (ih _ _).1) fun c => ?_
          simp [add_assoc]
      · intro c
        simp [add_assoc]
    · intro p h
      obtain ⟨x, h1, h, k1⟩ := bind_ok h
      obtain ⟨o, h2, h, k2⟩ := bind_ok h
      cases o with
      | none => cases h
      | some q =>
        obtain ⟨q1, h3, h, k3⟩ := bind_ok h
        obtain ⟨q2, h4, h, k4⟩ := bind_ok h
        obtain ⟨q3, h5, h, k5⟩ := bind_ok h
        obtain ⟨q4, h6, h, k6⟩ := bind_ok h
        funext c
        rw [k1, k2, k3, k4, k5, k6, (ih _ _).2 p h, (hl _ _).2 _ h6]
        simp only [Pi.add_apply, Pi.smul_apply, smul_eq_mul, lift, call, once]
        ring

/-- The number of tests for zero: those of the coefficients that are cut off, and of the last one that is kept. -/
theorem trimLen_calls (base : FieldOps E) (rem : List E) (n : ℕ) :
    Within (trimLen base rem n) (n • once .isZero) ∧
    ∀ i, (trimLen base rem n).res = .ok i → i ≤ n ∧ (trimLen base rem n).calls .isZero = n - i + (if i = 0 then 0 else 1) := by
  induction n with
  | zero => rw [zero_nsmul]; exact ⟨(takes_pure _).1, fun i h => by cases h; exact ⟨le_rfl, rfl⟩⟩
  | succ n ih =>
    unfold trimLen
    rw [succ_nsmul']
    constructor
    · refine within_mono (within_bind (takes_lift _).1 fun _ _ => within_bind (takes_call _ _).1 fun b _ =>
        (show Within _ (n • once .isZero) from ?_)) (by simp)
      cases b with
      | true => exact ih.1
      | false => exact fun c => Nat.zero_le _
    · intro i h
      obtain ⟨x, h1, h, k1⟩ := bind_ok h
      obtain ⟨b, h2, h, k2⟩ := bind_ok h
      rw [k1, k2]
      cases b with
      | true =>
        have h3 := ih.2 i h
        refine ⟨h3.1.trans (Nat.le_succ n), ?_⟩
        simp only [if_true]
        rw [h3.2]
        simp [lift, call]
        omega
      | false =>
        cases h
        refine ⟨le_rfl, ?_⟩
        simp [lift, call, pure]

end polynomials

end Abstalg.Counted
