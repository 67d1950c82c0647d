import Verif.Proofs.Basic
import Mathlib.Algebra.Group.Pi.Basic

/-! # Reasoning about vectors and loops -/

set_option linter.unusedSectionVars false

set_option autoImplicit false

universe u v

namespace Abstalg

variable {mp : Prop}

/-- Loop invariants for `for i in 0..n`. -/
theorem forLoop_range' {σ : Type u} (I : ℕ → σ → Prop) (body : σ → ℕ → Res σ) (n : ℕ) :
    ∀ (k : ℕ) {s : σ}, I k s →
      (∀ i, k ≤ i → i < k + n → ∀ s, I i s → Returns mp (body s i) (I (i + 1))) →
      Returns mp (forLoop (List.range' k n) s body) (I (k + n)) := by
  induction n with
  | zero => intro k s hs _; exact hs
  | succ n ih =>
    intro k s hs h
    rw [List.range'_succ]
    refine Returns.rbind (h k le_rfl (by omega) s hs) fun s' hs' => ?_
    rw [show k + (n + 1) = k + 1 + n by omega]
    exact ih (k + 1) hs' fun i h1 h2 => h i (by omega) (by omega)

/-- Loop invariants for `for i in 0..n`. -/
theorem forLoop_range {σ : Type u} (I : ℕ → σ → Prop) {body : σ → ℕ → Res σ} {n : ℕ} {s : σ}
    (hs : I 0 s) (h : ∀ i, i < n → ∀ s, I i s → Returns mp (body s i) (I (i + 1))) :
    Returns mp (forLoop (List.range n) s body) (I n) := by
  rw [List.range_eq_range']
  have := forLoop_range' I body n 0 hs fun i _ h2 => h i (by omega)
  rwa [Nat.zero_add] at this

theorem allRes_spec {E : Type} {p : E → Res Bool} {q : E → Prop} {v : List E}
    (h : ∀ a, a ∈ v → Decides mp (p a) (q a)) : Decides mp (allRes p v) (∀ a, a ∈ v → q a) := by
  induction v with
  | nil => exact decides_ok ⟨nofun, fun _ => rfl⟩
  | cons a v ih =>
    refine Decides.bindD (h a List.mem_cons_self) (fun h0 => ?_) fun h0 => ?_
    · refine (ih fun b hb => h b (List.mem_cons_of_mem _ hb)).iff ?_
      rw [List.forall_mem_cons]
      exact ⟨fun h1 => ⟨h0, h1⟩, fun h1 => h1.2⟩
    · exact decides_ok ⟨nofun, fun h1 => absurd (h1 a List.mem_cons_self) h0⟩

/-- The vector has `n` cells, which represent the first `n` values of `c`. -/
def Cells {E : Type} {R : Type u} (rep : E → R → Prop) (v : List E) (n : ℕ) (c : ℕ → R) : Prop :=
  v.length = n ∧ ∀ i (h : i < v.length), rep v[i] (c i)

namespace Cells

variable {E : Type} {R : Type u} {rep : E → R → Prop} {v : List E} {n : ℕ} {c d : ℕ → R}

theorem length (h : Cells rep v n c) : v.length = n := h.1

theorem congr (h : Cells rep v n c) (hcd : ∀ i, i < n → c i = d i) : Cells rep v n d :=
  ⟨h.1, fun i hi => hcd i (h.1 ▸ hi) ▸ h.2 i hi⟩

theorem unique (hrep : ∀ {a x y}, rep a x → rep a y → x = y) (h : Cells rep v n c)
    (h' : Cells rep v n d) : ∀ i, i < n → c i = d i := fun i hi =>
  hrep (h.2 i (h.1.symm ▸ hi)) (h'.2 i (h.1.symm ▸ hi))

theorem nil : Cells rep [] 0 c := ⟨rfl, fun _ hi => absurd hi (Nat.not_lt_zero _)⟩

theorem cons_iff {a : E} : Cells rep (a :: v) (n + 1) c ↔
    rep a (c 0) ∧ Cells rep v n fun i => c (i + 1) := by
  constructor
  · rintro ⟨h1, h2⟩
    exact ⟨h2 0 (by simp), by simpa using h1, fun i hi => h2 (i + 1) (by simpa using hi)⟩
  · rintro ⟨h0, h1, h2⟩
    refine ⟨by simp [h1], fun i hi => ?_⟩
    cases i with
    | zero => exact h0
    | succ i => exact h2 i (by simpa using hi)

theorem idx (h : Cells rep v n c) {i : ℕ} (hi : i < n) : Returns mp (idx v i) (rep · (c i)) := by
  have hi' : i < v.length := h.1.symm ▸ hi
  simp only [Abstalg.idx, List.getElem?_eq_getElem hi']
  exact h.2 i hi'

theorem setIdx (h : Cells rep v n c) {i : ℕ} (hi : i < n) {a : E} {x : R} (ha : rep a x) :
    Returns mp (setIdx v i a) fun w => Cells rep w n (Function.update c i x) := by
  have hi' : i < v.length := h.1.symm ▸ hi
  rw [Abstalg.setIdx, if_pos hi']
  refine ⟨by simp [h.1], fun k hk => ?_⟩
  rw [List.getElem_set]
  by_cases hki : i = k
  · subst hki; simpa using ha
  · rw [if_neg hki, Function.update_of_ne (Ne.symm hki)]
    exact h.2 k (by simpa using hk)

theorem replicate {z : E} {x : R} (hz : rep z x) : Cells rep (List.replicate n z) n fun _ => x :=
  ⟨by simp, fun i hi => by rw [List.getElem_replicate]; exact hz⟩

theorem take (h : Cells rep v n c) {m : ℕ} (hm : m ≤ n) : Cells rep (v.take m) m c :=
  ⟨by rw [List.length_take, h.1]; omega, fun i hi => by
    rw [List.getElem_take]; exact h.2 i _⟩

theorem append {w : List E} {m : ℕ} (h : Cells rep v n c) (h' : Cells rep w m d) :
    Cells rep (v ++ w) (n + m) fun i => if i < n then c i else d (i - n) := by
  obtain ⟨rfl, h⟩ := h
  obtain ⟨rfl, h'⟩ := h'
  refine ⟨by simp, fun i hi => ?_⟩
  rw [List.getElem_append]
  by_cases hin : i < v.length
  · simp only [hin, dif_pos, if_pos]; exact h i hin
  · simp only [hin, dif_neg, if_neg, not_false_iff]; exact h' _ _

theorem resize (h : Cells rep v n c) {z : E} {x : R} (hz : rep z x) (m : ℕ) :
    Cells rep (resize v m z) m fun i => if i < n then c i else x := by
  have h1 := (h.take (Nat.min_le_right m n)).append (replicate (n := m - n) hz)
  have : v.take (min m n) = v.take m := by
    rw [← h.1, List.take_eq_take_iff]; omega
  rw [this, ← h.1, show min m v.length + (m - v.length) = m by omega] at h1
  rw [Abstalg.resize]
  refine h1.congr fun i hi => ?_
  by_cases hin : i < n
  · rw [if_pos (by rw [h.1]; omega), if_pos hin]
  · rw [if_neg (by rw [h.1]; omega), if_neg hin]

theorem map {F : Type} {S : Type v} {rep' : F → S → Prop} {f : E → Res F} (h : Cells rep v n c)
    {d : ℕ → S} (hf : ∀ i, i < n → ∀ a, rep a (c i) → Returns mp (f a) (rep' · (d i))) :
    Returns mp (mapRes f v) fun w => Cells rep' w n d := by
  induction v generalizing n c d with
  | nil => obtain ⟨rfl, _⟩ := h; exact nil
  | cons a v ih =>
    obtain rfl : v.length + 1 = n := by simpa using h.1
    rw [cons_iff] at h
    refine Returns.rbind (hf 0 (by omega) a h.1) fun b hb => ?_
    refine Returns.rbind (ih h.2 fun i hi => hf (i + 1) (by omega)) fun w hw => ?_
    exact cons_iff.2 ⟨hb, hw⟩

theorem all {p : E → Res Bool} {q : ℕ → Prop} (h : Cells rep v n c)
    (hp : ∀ i, i < n → ∀ a, rep a (c i) → Decides mp (p a) (q i)) :
    Decides mp (allRes p v) (∀ i, i < n → q i) := by
  induction v generalizing n c q with
  | nil =>
    obtain ⟨rfl, _⟩ := h
    exact decides_ok ⟨fun _ _ h => absurd h (Nat.not_lt_zero _), fun _ => rfl⟩
  | cons a v ih =>
    obtain rfl : v.length + 1 = n := by simpa using h.1
    rw [cons_iff] at h
    refine Decides.bindD (hp 0 (by omega) a h.1) (fun h0 => ?_) fun h0 => ?_
    · refine (ih h.2 fun i hi => hp (i + 1) (by omega)).iff ⟨fun h1 i hi => ?_, fun h1 i hi =>
        h1 (i + 1) (by omega)⟩
      cases i with
      | zero => exact h0
      | succ i => exact h1 i (by omega)
    · exact decides_ok ⟨nofun, fun h1 => absurd (h1 0 (by omega)) h0⟩

theorem zip {F : Type} {S : Type v} {rep' : F → S → Prop} {w : List F} {d : ℕ → S}
    (h : Cells rep v n c) (h' : Cells rep' w n d) :
    Cells (fun p q => rep p.1 q.1 ∧ rep' p.2 q.2) (v.zip w) n fun i => (c i, d i) := by
  refine ⟨by rw [List.length_zip, h.1, h'.1, min_self], fun i hi => ?_⟩
  rw [List.getElem_zip]
  exact ⟨h.2 _ _, h'.2 _ _⟩

theorem zipForEach {F : Type} {S : Type v} {rep' : F → S → Prop} {w : List F} {d : ℕ → S}
    {f : E → F → Res E} {e : ℕ → R} (h : Cells rep v n c) (h' : Cells rep' w n d)
    (hf : ∀ i, i < n → ∀ a b, rep a (c i) → rep' b (d i) → Returns mp (f a b) (rep · (e i))) :
    Returns mp (zipForEach f v w) fun u => Cells rep u n e := by
  induction v generalizing n c d e w with
  | nil =>
    obtain ⟨rfl, _⟩ := h
    cases w <;> exact nil
  | cons a v ih =>
    obtain rfl : v.length + 1 = n := by simpa using h.1
    cases w with
    | nil => exact absurd h'.1 (by simp)
    | cons b w =>
      rw [cons_iff] at h h'
      refine Returns.rbind (hf 0 (by omega) a b h.1 h'.1) fun a' ha' => ?_
      refine Returns.rbind (ih h.2 h'.2 fun i hi => hf (i + 1) (by omega)) fun u hu => ?_
      exact cons_iff.2 ⟨ha', hu⟩

end Cells

end Abstalg
