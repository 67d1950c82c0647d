import Verif.Spec.Order
import Verif.Proofs.MatrixRing
import Verif.Model.MatrixRing
import Verif.Model.PolynomialAlgebra

/-! # The order of operations over a base without laws -/

set_option autoImplicit false

universe u v

namespace Abstalg

theorem rbind_eq_ok {α : Type u} {β : Type v} {c : Res α} {f : α → Res β} {b : β} :
    c.bind f = .ok b ↔ ∃ a, c = .ok a ∧ f a = .ok b := by
  cases c with
  | ok a => exact ⟨fun h => ⟨a, rfl, h⟩, fun ⟨_, h1, h2⟩ => by cases h1; exact h2⟩
  | panic => exact ⟨fun h => (by cases h), fun ⟨_, h1, _⟩ => (by cases h1)⟩
  | diverge => exact ⟨fun h => (by cases h), fun ⟨_, h1, _⟩ => (by cases h1)⟩

theorem bind_eq_ok {α β : Type u} {c : Res α} {f : α → Res β} {b : β} :
    (c >>= f) = .ok b ↔ ∃ a, c = .ok a ∧ f a = .ok b := rbind_eq_ok

theorem idx_eq_ok {α : Type u} {v : List α} {i : ℕ} {a : α} : idx v i = .ok a ↔ v[i]? = some a := by
  unfold idx
  split <;> rename_i h <;> rw [h] <;> simp

theorem mapRes_eq_ok {α : Type u} {β : Type v} {f : α → Res β} {l : List α} {m : List β} :
    mapRes f l = .ok m ↔ List.Forall₂ (fun a b => f a = .ok b) l m := by
  induction l generalizing m with
  | nil =>
    rw [List.forall₂_nil_left_iff]
    exact ⟨fun h => by cases h; rfl, fun h => by rw [h]; rfl⟩
  | cons a l ih =>
    rw [mapRes, rbind_eq_ok, List.forall₂_cons_left_iff]
    constructor
    · rintro ⟨b, h1, h2⟩
      obtain ⟨l', h3, h4⟩ := rbind_eq_ok.1 h2
      cases h4
      exact ⟨b, l', h1, ih.1 h3, rfl⟩
    · rintro ⟨b, l', h1, h2, rfl⟩
      exact ⟨b, h1, rbind_eq_ok.2 ⟨l', ih.2 h2, rfl⟩⟩

theorem rbind_assoc {α : Type u} {β : Type v} {γ : Type*} (c : Res α) (f : α → Res β) (g : β → Res γ) :
    (c.bind f).bind g = c.bind fun a => (f a).bind g := by cases c <;> rfl

/-- A loop that pushes a value in each round. -/
theorem forLoop_push {E : Type} {ι : Type} (f : ι → Res E) (l : List ι) (s : List E) :
    forLoop l s (fun s i => (f i).bind fun a => .ok (s ++ [a])) =
      (mapRes f l).bind fun m => .ok (s ++ m) := by
  induction l generalizing s with
  | nil => simp [forLoop, mapRes, Res.bind]
  | cons i l ih =>
    rw [forLoop, mapRes, rbind_assoc, rbind_assoc]
    congr 1
    funext a
    show forLoop l (s ++ [a]) _ = _
    rw [ih, rbind_assoc]
    congr 1
    funext m
    simp [Res.bind]

/-- Two nested loops that push a value in each round. -/
theorem forLoop_push₂ {E : Type} {ι κ : Type} (f : ι → κ → Res E) (l : List ι) (m : List κ) (s : List E) :
    forLoop l s (fun s i => forLoop m s fun s j => (f i j).bind fun a => .ok (s ++ [a])) =
      (mapRes (fun i => mapRes (f i) m) l).bind fun r => .ok (s ++ r.flatten) := by
  induction l generalizing s with
  | nil => simp [forLoop, mapRes, Res.bind]
  | cons i l ih =>
    rw [forLoop, mapRes, forLoop_push, rbind_assoc, rbind_assoc]
    congr 1
    funext a
    show forLoop l (s ++ a) _ = _
    rw [ih, rbind_assoc]
    congr 1
    funext m
    simp [Res.bind]

theorem mapRes_congr {α : Type u} {β : Type v} {f g : α → Res β} {l : List α}
    (h : ∀ a ∈ l, f a = g a) : mapRes f l = mapRes g l := by
  induction l with
  | nil => rfl
  | cons a l ih =>
    rw [mapRes, mapRes, h a List.mem_cons_self, ih fun b hb => h b (List.mem_cons_of_mem _ hb)]

theorem forLoop_congr {σ : Type u} {ι : Type v} {l : List ι} {s : σ} {f g : σ → ι → Res σ}
    (h : ∀ s, ∀ i ∈ l, f s i = g s i) : forLoop l s f = forLoop l s g := by
  induction l generalizing s with
  | nil => rfl
  | cons i l ih =>
    rw [forLoop, forLoop, h s i List.mem_cons_self]
    congr 1
    funext s'
    exact ih fun s j hj => h s j (List.mem_cons_of_mem _ hj)

section flat

variable {E : Type} {n : ℕ}

theorem flatVec_length (A : Fin n → Fin n → E) : (flatVec A).length = n * n := by
  simp [flatVec, List.length_flatten, List.map_ofFn, Function.comp_def, List.ofFn_const]

theorem flatVec_get (A : Fin n → Fin n → E) (i j : Fin n) :
    (flatVec A)[i.1 * n + j.1]? = some (A i j) := by
  have key : ∀ (m : ℕ) (B : Fin m → Fin n → E) (i : Fin m),
      ((List.ofFn fun i => List.ofFn fun j => B i j).flatten)[i.1 * n + j.1]? = some (B i j) := by
    intro m
    induction m with
    | zero => intro _ i; exact i.elim0
    | succ m ih =>
      intro B i
      rw [List.ofFn_succ, List.flatten_cons]
      refine Fin.cases ?_ (fun i => ?_) i
      · rw [List.getElem?_append_left (by simp)]
        simp
      · rw [List.getElem?_append_right (by simp [Nat.add_mul]; omega)]
        rw [← ih (fun i => B i.succ) i]
        congr 1
        simp [Nat.add_mul]
        omega
  exact key n A i

/-- Every vector of the right length is that of a matrix. -/
theorem flatVec_surj {v : List E} (hv : v.length = n * n) : ∃ A : Fin n → Fin n → E, flatVec A = v := by
  have hk : ∀ i j : Fin n, i.1 * n + j.1 < v.length := fun i j => by
    rw [hv]
    calc i.1 * n + j.1 < i.1 * n + n := by omega
      _ = (i.1 + 1) * n := by ring
      _ ≤ n * n := Nat.mul_le_mul_right n i.2
  refine ⟨fun i j => v[i.1 * n + j.1]'(hk i j), List.ext_getElem? fun k => ?_⟩
  by_cases h : k < n * n
  · have hn : 0 < n := Nat.pos_of_ne_zero fun h0 => by simp [h0] at h
    have h1 := flatVec_get (fun i j : Fin n => v[i.1 * n + j.1]'(hk i j))
      ⟨k / n, Nat.div_lt_of_lt_mul h⟩ ⟨k % n, Nat.mod_lt _ hn⟩
    have h2 : k / n * n + k % n = k := Nat.div_add_mod' k n
    simp only [h2] at h1
    rw [h1, List.getElem?_eq_getElem (by omega)]
  · rw [List.getElem?_eq_none (by rw [flatVec_length]; omega), List.getElem?_eq_none (by omega)]

theorem flatVec_injective {A B : Fin n → Fin n → E} (h : flatVec A = flatVec B) : A = B := by
  funext i j
  have := flatVec_get A i j
  rw [h, flatVec_get] at this
  exact (Option.some.inj this).symm

end flat

theorem forLoop_map {σ : Type u} {ι κ : Type} (g : ι → κ) (l : List ι) (s : σ) (f : σ → κ → Res σ) :
    forLoop (l.map g) s f = forLoop l s fun s i => f s (g i) := by
  induction l generalizing s with
  | nil => rfl
  | cons i l ih =>
    rw [List.map_cons, forLoop, forLoop]
    congr 1
    funext s'
    exact ih s'

theorem mapRes_map {α β : Type} {γ : Type v} (g : α → β) (l : List α) (f : β → Res γ) :
    mapRes f (l.map g) = mapRes (fun a => f (g a)) l := by
  induction l with
  | nil => rfl
  | cons a l ih => rw [List.map_cons, mapRes, mapRes, ih]

theorem forLoop_addProducts {E ι : Type} (mul add : E → E → Res E) (f g : ι → E) (l : List ι) (s : E) :
    forLoop l s (fun s i => (mul (f i) (g i)).bind fun q => add s q) =
      addProducts mul add s (l.map fun i => (f i, g i)) := by
  induction l generalizing s with
  | nil => rfl
  | cons i l ih =>
    rw [forLoop, List.map_cons, addProducts, rbind_assoc]
    congr 1
    funext q
    congr 1
    funext s'
    exact ih s'

namespace MatrixRing

variable [Cfg] {E : Type} {n : ℕ}

theorem transpose_flatVec (A : Fin n → Fin n → E) :
    transpose n (flatVec A) = .ok (flatVec fun i j => A j i) := by
  have hr : MatRep (fun a b : E => a = b) (flatVec A) A :=
    ⟨flatVec_length A, fun i j => ⟨_, flatVec_get A i j, rfl⟩⟩
  obtain ⟨t, h1, h2, h3⟩ := returns_false_iff.1 (transpose_spec hr)
  obtain ⟨B, rfl⟩ := flatVec_surj h2
  rw [h1]
  congr 2
  funext i j
  obtain ⟨a, h4, h5⟩ := h3 i j
  rw [flatVec_get] at h4
  exact (Option.some.inj h4).trans h5

/-- The inner product of a row and a column, from the left. -/
def entry (base : FieldOps E) (A B : Fin n → Fin n → E) (i j : Fin n) : Res E :=
  base.zero.bind fun z => addProducts base.mul base.addAssign z (List.ofFn fun k => (A i k, B k j))

theorem mul_flatVec (base : FieldOps E) (A B : Fin n → Fin n → E) :
    mul base n (flatVec A) (flatVec B) =
      (mapRes (fun i => mapRes (fun j => entry base A B i j) (List.finRange n)) (List.finRange n)).bind
        fun r => .ok r.flatten := by
  unfold mul
  rw [flatVec_length, flatVec_length, beq_self_eq_true, Bool.and_self, assert_true, ok_bind,
    transpose_flatVec, ok_bind, ← List.map_coe_finRange_eq_range, forLoop_map]
  refine Eq.trans (forLoop_congr fun s i _ => forLoop_map _ _ _ _) ?_
  have := forLoop_push₂ (entry base A B) (List.finRange n) (List.finRange n) []
  rw [show (fun r : List (List E) => Res.ok ([] ++ r.flatten)) = fun r => .ok r.flatten by simp] at this
  rw [← this]
  refine forLoop_congr fun s i _ => forLoop_congr fun s j _ => ?_
  show Res.bind base.zero _ = _
  unfold entry
  rw [rbind_assoc]
  congr 1
  funext z
  show Res.bind _ _ = _
  congr 1
  rw [forLoop_map, List.ofFn_eq_map, ← forLoop_addProducts]
  refine forLoop_congr fun s k _ => ?_
  rw [show idx (flatVec A) (i.1 * n + k.1) = .ok (A i k) from idx_eq_ok.2 (flatVec_get A i k),
    show idx (flatVec fun i j => B j i) (j.1 * n + k.1) = .ok (B k j) from
      idx_eq_ok.2 (flatVec_get (fun i j => B j i) j k)]
  rfl

omit [Cfg] in
theorem forall₂_finRange {α : Type} {P : Fin n → α → Prop} {m : List α} :
    List.Forall₂ P (List.finRange n) m ↔ ∃ f : Fin n → α, m = List.ofFn f ∧ ∀ i, P i (f i) := by
  constructor
  · intro h
    have hl : n = m.length := by simpa using h.length_eq
    subst hl
    refine ⟨fun i => m[i], List.ofFn_getElem.symm, fun i => ?_⟩
    have := (List.forall₂_iff_get.1 h).2 i (by simp) i.2
    simpa using this
  · rintro ⟨f, rfl, h⟩
    rw [List.forall₂_iff_get]
    refine ⟨by simp, fun i h1 h2 => ?_⟩
    simpa using h ⟨i, by simpa using h1⟩

theorem mul_ok_iff (base : FieldOps E) (A B C : Fin n → Fin n → E) :
    mul base n (flatVec A) (flatVec B) = .ok (flatVec C) ↔
      ∀ i j, entry base A B i j = .ok (C i j) := by
  rw [mul_flatVec, rbind_eq_ok]
  constructor
  · rintro ⟨r, h1, h2⟩
    rw [mapRes_eq_ok, forall₂_finRange] at h1
    obtain ⟨f, rfl, h1⟩ := h1
    simp only [mapRes_eq_ok, forall₂_finRange] at h1
    choose g h3 h4 using h1
    have h5 : flatVec g = flatVec C := by
      rw [← Res.ok.inj h2]
      unfold flatVec
      congr 2
      funext i
      exact (h3 i).symm
    rw [← flatVec_injective h5]
    exact h4
  · intro h
    refine ⟨List.ofFn fun i => List.ofFn fun j => C i j, ?_, rfl⟩
    rw [mapRes_eq_ok, forall₂_finRange]
    refine ⟨_, rfl, fun i => ?_⟩
    rw [mapRes_eq_ok, forall₂_finRange]
    exact ⟨_, rfl, h i⟩

end MatrixRing

end Abstalg
