import Verif.Proofs.LawlessVector
import Verif.Proofs.OrderElim

/-! # Yielding through matrices -/

set_option linter.unusedSectionVars false

set_option autoImplicit false

namespace Abstalg.Stateful

namespace MatrixRing

variable [Cfg] {σ E : Type} {T : Limits σ} {S U : E → Prop} {n : ℕ} {v w : List E}

theorem Vec.at {k : ℕ} (h : Vec S k v) {i : ℕ} (hi : i < k) : Yields T S (liftM (idx v i) : St σ E) :=
  yields_idx h.2 (h.1.symm ▸ hi)

theorem vec_flatVec {A : Fin n → Fin n → E} (h : ∀ i j, S (A i j)) : Vec S (n * n) (flatVec A) := by
  refine ⟨flatVec_length A, fun a ha => ?_⟩
  unfold flatVec at ha
  obtain ⟨l, hl, ha⟩ := List.mem_flatten.1 ha
  obtain ⟨i, rfl⟩ := (List.mem_ofFn' _ _).1 hl
  obtain ⟨j, rfl⟩ := (List.mem_ofFn' _ _).1 ha
  exact h i j

theorem vec_flatVec_iff {A : Fin n → Fin n → E} : Vec S (n * n) (flatVec A) ↔ ∀ i j, S (A i j) :=
  ⟨fun h i j => h.2 _ (List.mem_of_getElem? (flatVec_get A i j)), vec_flatVec⟩

theorem transpose_ok (h : Vec S (n * n) v) : ∃ w, Abstalg.MatrixRing.transpose n v = .ok w ∧ Vec S (n * n) w := by
  obtain ⟨A, rfl⟩ := flatVec_surj h.1
  exact ⟨_, Abstalg.MatrixRing.transpose_flatVec A, vec_flatVec fun i j => vec_flatVec_iff.1 h j i⟩

theorem swapRows_ok (h : Vec S (n * n) v) {i j : ℕ} (hi : i < n) (hj : j < n) (hij : j ≠ i) :
    ∃ w, Abstalg.MatrixRing.swapRows n v i j = .ok w ∧ Vec S (n * n) w ∧ ∀ k, k < n → w[i * n + k]? = v[j * n + k]? := by
  obtain ⟨A, rfl⟩ := flatVec_surj h.1
  have := Abstalg.MatrixRing.swapRows_flatVec A (i := ⟨i, hi⟩) (p := ⟨j, hj⟩) (fun h => hij (Fin.mk.inj h).symm)
  refine ⟨_, this, vec_flatVec fun i j => vec_flatVec_iff.1 h _ j, fun k hk => ?_⟩
  rw [flatVec_get _ ⟨i, hi⟩ ⟨k, hk⟩, flatVec_get _ ⟨j, hj⟩ ⟨k, hk⟩, Equiv.swap_apply_left]

variable {A : FieldOps σ E} (hA : KeepsField T S U A)

include hA

theorem yields_mulRow (h : Vec S (n * n) v) {row : ℕ} (hr : row < n) {a : E} (ha : S a) :
    Yields T (Vec S (n * n)) (mulRow A n v row a) := by
  unfold mulRow
  have hle : row * n + n ≤ n * n := by
    have := Nat.mul_le_mul_right n (show row + 1 ≤ n from hr)
    rwa [Nat.add_mul, Nat.one_mul] at this
  refine Yields.bind (Yields.assert (by rw [h.1]; exact decide_eq_true hle)) fun _ _ => ?_
  refine yields_forLoop (fun i hi w hw => ?_) h
  have hi := flat_lt hr (List.mem_range.1 hi)
  exact Yields.bind (Vec.at hw hi) fun _ hx => Yields.bind (hA.mulAssign hx ha) fun _ hy => yields_setIdx hw hi hy

theorem yields_addRows (h : Vec S (n * n) v) {i j : ℕ} (hi : i < n) (hj : j < n) {a : E} (ha : S a) :
    Yields T (Vec S (n * n)) (addRows A n v i j a) := by
  refine yields_forLoop (fun k hk w hw => ?_) h
  have h1 := flat_lt hi (List.mem_range.1 hk)
  have h2 := flat_lt hj (List.mem_range.1 hk)
  exact Yields.bind (Vec.at hw h1) fun _ hx => Yields.bind (hA.mul hx ha) fun _ hy =>
    Yields.bind (Vec.at hw h2) fun _ hz => Yields.bind (hA.addAssign hz hy) fun _ ht => yields_setIdx hw h2 ht

theorem yields_findRow (h : Vec S (n * n) v) {col : ℕ} (hc : col < n) :
    Yields T (Maybe fun row => row < n ∧ ∀ a, v[row * n + col]? = some a → U a) (findRow A n v col) := by
  refine (yields_findRes (J := fun row => ∀ a, v[row * n + col]? = some a → U a) fun row hr => ?_).mono
    fun o ho row hrow => ⟨?_, (ho row hrow).2⟩
  · have hr := List.mem_range'_1.1 hr
    have hi : row * n + col < v.length := h.1.symm ▸ flat_lt (by omega) hc
    rw [idx_lt hi]
    refine Yields.bind (Yields.lok (Q := fun a => a = v[row * n + col]) rfl) fun a ha => ?_
    subst ha
    refine Yields.bind (hA.nonzero (h.2 _ (List.getElem_mem hi))) fun b hb => .ok fun hnb a ha => ?_
    rw [List.getElem?_eq_getElem hi] at ha
    cases ha
    exact hb (by simpa using hnb)
  · have := List.mem_range'_1.1 (ho row hrow).1
    omega

theorem yields_detClear (h : Vec S (n * n) v) {col : ℕ} (hc : col < n) :
    Yields T (Vec S (n * n)) (detClear A n v col) := by
  refine yields_forLoop (fun row hr w hw => ?_) h
  have hr : row < n := by have := List.mem_range'_1.1 hr; omega
  exact Yields.bind (Vec.at hw (flat_lt hr hc)) fun _ hx => Yields.bindIf (hA.isZero hx) (.ok hw)
    (Yields.bind (hA.neg hx) fun _ hy => yields_addRows hA hw hc hr hy)

theorem yields_detLoop {l : List ℕ} (hl : ∀ c ∈ l, c < n) (h : Vec S (n * n) v) {a : E} (ha : S a) :
    Yields T S (detLoop A n l v a) := by
  induction l generalizing v a with
  | nil => exact .ok ha
  | cons col l ih =>
    have hc := hl col List.mem_cons_self
    unfold detLoop
    refine Yields.bind (yields_findRow hA h hc) fun o ho => ?_
    cases o with
    | none => exact hA.zero
    | some row =>
      obtain ⟨hr, hu⟩ := ho row rfl
      have hk {v} (h : Vec S (n * n) v) (hu : ∀ a, v[col * n + col]? = some a → U a) : Yields T S
          (do
            let coef ← idx v (col * n + col)
            let det ← A.mulAssign a coef
            let coef ← FieldOps.inv A coef
            let elem ← mulRow A n v col coef
            let elem ← detClear A n elem col
            detLoop A n l elem det) := by
        have hi : col * n + col < v.length := h.1.symm ▸ flat_lt hc hc
        rw [idx_lt hi]
        refine Yields.bind (Yields.lok (Q := fun a => a = v[col * n + col]) rfl) fun x hx => ?_
        subst hx
        refine Yields.bind (hA.mulAssign ha (h.2 _ (List.getElem_mem hi))) fun _ hd => ?_
        exact Yields.bind (hA.inv (hu _ (List.getElem?_eq_getElem hi))) fun _ hy =>
          Yields.bind (yields_mulRow hA h hc hy) fun _ h => Yields.bind (yields_detClear hA h hc) fun _ h =>
            ih (fun c hc => hl c (List.mem_cons_of_mem _ hc)) h hd
      refine .ite (fun hne => ?_) fun he => ?_
      · obtain ⟨w, h1, h2, h3⟩ := swapRows_ok h hc hr hne
        rw [h1]
        refine Yields.bind (Yields.lok (Q := fun u => u = w) rfl) fun u hw => ?_
        subst hw
        exact hk h2 fun a ha => hu a (h3 col hc ▸ ha)
      · have he : row = col := by simpa using he
        subst he
        exact hk h hu

theorem yields_determinant (h : Vec S (n * n) v) : Yields T S (determinant A n v) :=
  Yields.bind hA.one fun _ h1 => yields_detLoop hA (fun _ hc => List.mem_range.1 hc) h h1

theorem keeps_domain : KeepsDomain T (Vec S (n * n)) (MatrixRing.domain A n) where
  contains := fun hv => .ite (fun _ => .ok trivial) fun _ => yields_allRes fun a ha => hA.contains (hv.2 a ha)
  equals := fun hv hw => Yields.bind (Yields.assert (by rw [hv.1, hw.1, beq_self_eq_true]; rfl)) fun _ _ =>
    yields_allRes fun p hp => hA.equals ((hv.zip hw).2 p hp).1 ((hv.zip hw).2 p hp).2

theorem yields_mul (h : Vec S (n * n) v) (h' : Vec S (n * n) w) : Yields T (Vec S (n * n)) (MatrixRing.mul A n v w) := by
  unfold MatrixRing.mul
  obtain ⟨w', h1, h2⟩ := transpose_ok h'
  refine Yields.bind (Yields.assert (by rw [h.1, h'.1, beq_self_eq_true]; rfl)) fun _ _ => ?_
  rw [h1]
  refine Yields.bind (Yields.lok (Q := fun u => u = w') rfl) fun u hu => ?_
  subst hu
  refine yields_forRange (fun i res => Vec S (i * n) res) (fun i hi res hr => ?_) ⟨by rw [Nat.zero_mul]; rfl, Each.nil⟩
  rw [Nat.add_mul, Nat.one_mul]
  refine yields_forRange (fun j res => Vec S (i * n + j) res) (fun j hj res hr => ?_) (by rwa [Nat.add_zero])
  · refine Yields.bind hA.zero fun _ h0 => Yields.bind (Q := S) (yields_forLoop (fun k hk s hs => ?_) h0) fun s hs =>
      .ok ⟨by rw [List.length_append, hr.1]; rfl, Each.append hr.2 (Each.single hs)⟩
    have hk := List.mem_range.1 hk
    exact Yields.bind (Vec.at h (flat_lt hi hk)) fun _ hx => Yields.bind (Vec.at h2 (flat_lt hj hk)) fun _ hy =>
      Yields.bind (hA.mul hx hy) fun _ hz => hA.addAssign hs hz

theorem yields_zero : Yields T (Vec S (n * n)) (MatrixRing.zero A n) :=
  (hA.toKeepsCommutativeMonoid.vector (n * n)).zero

theorem yields_int {m : ℤ} (hm : Negatable m) : Yields T (Vec S (n * n)) (MatrixRing.int A n m) :=
  Yields.bind (hA.int hm) fun _ hx => Yields.bind (yields_zero hA) fun _ h => by
    refine yields_forLoop (fun i hi w hw => ?_) h
    have hi := List.mem_range.1 hi
    exact yields_setIdx hw (by rw [Nat.mul_add, Nat.mul_one]; exact flat_lt hi hi) hx

theorem yields_invClear (h : Vec S (n * n) v) (h' : Vec S (n * n) w) {col : ℕ} (hc : col < n) :
    Yields T (fun p => Vec S (n * n) p.1 ∧ Vec S (n * n) p.2) (invClear A n v w col) := by
  refine yields_forLoop (Q := fun p : List E × List E => Vec S (n * n) p.1 ∧ Vec S (n * n) p.2)
    (fun row hr p hp => ?_) ⟨h, h'⟩
  have hr := List.mem_range.1 hr
  obtain ⟨a, b⟩ := p
  obtain ⟨ha, hb⟩ := hp
  exact .ite (fun _ => .ok ⟨ha, hb⟩) fun _ => Yields.bind (Vec.at ha (flat_lt hr hc)) fun _ hx =>
    Yields.bindIf (hA.isZero hx) (.ok ⟨ha, hb⟩) (Yields.bind (hA.neg hx) fun _ hy =>
      Yields.bind (yields_addRows hA ha hc hr hy) fun _ ha =>
        Yields.bind (yields_addRows hA hb hc hr hy) fun _ hb => .ok ⟨ha, hb⟩)

theorem yields_invLoop {l : List ℕ} (hl : ∀ c ∈ l, c < n) (h : Vec S (n * n) v) (h' : Vec S (n * n) w) :
    Yields T (Maybe fun p => Vec S (n * n) p.1 ∧ Vec S (n * n) p.2) (invLoop A n l v w) := by
  induction l generalizing v w with
  | nil => exact .ok (Maybe.some ⟨h, h'⟩)
  | cons col l ih =>
    have hc := hl col List.mem_cons_self
    unfold invLoop
    refine Yields.bind (yields_findRow hA h hc) fun o ho => ?_
    cases o with
    | none => exact .ok Maybe.none
    | some row =>
      obtain ⟨hr, hu⟩ := ho row rfl
      have hk {v w} (h : Vec S (n * n) v) (h' : Vec S (n * n) w) (hu : ∀ a, v[col * n + col]? = some a → U a) :
          Yields T (Maybe fun p => Vec S (n * n) p.1 ∧ Vec S (n * n) p.2)
          (do
            let coef ← FieldOps.inv A (← idx v (col * n + col))
            let elem ← mulRow A n v col coef
            let invs ← mulRow A n w col coef
            let (elem, invs) ← invClear A n elem invs col
            invLoop A n l elem invs) := by
        have hi : col * n + col < v.length := h.1.symm ▸ flat_lt hc hc
        rw [idx_lt hi]
        refine Yields.bind (Yields.lok (Q := fun a => a = v[col * n + col]) rfl) fun x hx => ?_
        subst hx
        refine Yields.bind (hA.inv (hu _ (List.getElem?_eq_getElem hi))) fun _ hy =>
          Yields.bind (yields_mulRow hA h hc hy) fun _ h => Yields.bind (yields_mulRow hA h' hc hy) fun _ h' =>
            Yields.bind (yields_invClear hA h h' hc) ?_
        rintro ⟨a, b⟩ ⟨ha, hb⟩
        exact ih (fun c hc => hl c (List.mem_cons_of_mem _ hc)) ha hb
      refine .ite (fun hne => ?_) fun he => ?_
      · obtain ⟨v', h1, h2, h3⟩ := swapRows_ok h hc hr hne
        obtain ⟨w', h4, h5, -⟩ := swapRows_ok h' hc hr hne
        rw [h1]
        refine Yields.bind (Yields.lok (Q := fun u => u = v') rfl) fun u hw => ?_
        subst hw
        rw [h4]
        refine Yields.bind (Yields.lok (Q := fun u => u = w') rfl) fun u' hw => ?_
        subst hw
        exact hk h2 h5 fun a ha => hu a (h3 col hc ▸ ha)
      · have he : row = col := by simpa using he
        subst he
        exact hk h h' hu

theorem one_negatable : Negatable 1 := fun _ h => by
  have h1 : isizeMin ≤ -1 := by
    unfold isizeMin
    have : (1 : ℤ) ≤ 2 ^ (Cfg.ptrBits - 1) := by exact_mod_cast Nat.one_le_two_pow
    omega
  omega

theorem yields_isOne (h : Vec S (n * n) v) : Answers T (MatrixRing.isOne A n v) :=
  Yields.bind (yields_int hA (one_negatable hA)) fun _ h1 => (keeps_domain hA).equals h h1

theorem yields_tryInv (hd : Cfg.debugAssertions = true → ∀ s, T.state s → T.panic s) (h : Vec S (n * n) v) :
    Yields T (Maybe (Vec S (n * n))) (MatrixRing.tryInv A n v) := by
  refine Yields.bind (yields_int hA (one_negatable hA)) fun _ h1 =>
    Yields.bind (yields_invLoop hA (fun _ hc => List.mem_range.1 hc) h h1) fun o ho => ?_
  cases o with
  | none => exact .ok Maybe.none
  | some p =>
    obtain ⟨a, b⟩ := p
    have ho := ho _ rfl
    exact Yields.bind (Yields.debugAssert hd (yields_isOne hA ho.1)) fun _ _ => .ok (Maybe.some ho.2)

end MatrixRing

theorem KeepsField.matrix [Cfg] {σ E : Type} {T : Limits σ} {S U : E → Prop} {A : FieldOps σ E} (hA : KeepsField T S U A)
    (hd : Cfg.debugAssertions = true → ∀ s, T.state s → T.panic s) (n : ℕ) :
    KeepsUnitaryRing T (Vec S (n * n)) (MatrixRing.ops A n) :=
  have hv := hA.toKeepsAbelianGroup.vector (n * n)
  have hmul {v w : List E} (h : Vec S (n * n) v) (h' : Vec S (n * n) w) := MatrixRing.yields_mul hA h h'
  { toKeepsDomain := MatrixRing.keeps_domain hA
    mul := hmul
    mulAssign := hmul
    square := fun h => hmul h h
    one := MatrixRing.yields_int hA (MatrixRing.one_negatable hA)
    isOne := MatrixRing.yields_isOne hA
    tryInv := MatrixRing.yields_tryInv hA hd
    invertible := fun h => Yields.bind (MatrixRing.yields_determinant hA h) fun _ hx => (hA.isZero hx).not
    zero := hv.zero
    isZero := hv.isZero
    add := hv.add
    addAssign := hv.addAssign
    double := hv.double
    utimes := fun h => yields_utimes hv.zero hv.addAssign hv.double _ h
    neg := hv.neg
    negAssign := hv.negAssign
    sub := hv.sub
    subAssign := hv.subAssign
    times := fun hn h => yields_powerDefault hv.zero hv.addAssign hv.double hn (hv.neg h) h
    int := MatrixRing.yields_int hA }

end Abstalg.Stateful
