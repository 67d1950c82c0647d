import Verif.Spec.Agreement
import Verif.Spec.Contracts
import Verif.Proofs.Overrides
import Verif.Proofs.InPlace

/-! # Two implementations of the same structure -/

set_option autoImplicit false

universe u

namespace Abstalg

variable {E F : Type} {R : Type u} {mp : Prop} {rep : E → R → Prop} {rep' : F → R → Prop}

theorem returns_follows {c : Res E} {d : Res F} {x : R} (hc : Returns mp c (rep · x))
    (hd : Returns False d (rep' · x)) : Follows (Same rep rep') c d := by
  rintro a rfl
  obtain ⟨b, h1, h2⟩ := returns_false_iff.1 hd
  exact ⟨b, h1, x, hc, h2⟩

theorem decides_follows {c d : Res Bool} {p : Prop} (hc : Decides mp c p) (hd : Decides False d p) :
    Follows Eq c d := by
  classical
  rintro a rfl
  refine ⟨decide p, decides_false_iff.1 hd, ?_⟩
  have h : a = true ↔ p := hc
  rw [Bool.eq_iff_iff, h, decide_eq_true_iff]

theorem panics_follows {α β : Type} {r : α → β → Prop} {c : Res α} {d : Res β} (hc : Panics c) : Follows r c d := by
  rintro a rfl
  cases hc

theorem option_follows {c : Res (Option E)} {d : Res (Option F)} {p : R → Prop} (hp : ∀ x y, p x → p y → x = y)
    {q : Prop} (hq : (∃ x, p x) → ¬ q)
    (hc : Returns mp c fun | some b => ∃ y, rep b y ∧ p y | none => q)
    (hd : Returns False d fun | some b => ∃ y, rep' b y ∧ p y | none => q) :
    Follows (Option.Rel (Same rep rep')) c d := by
  rintro a rfl
  obtain ⟨b, h1, h2⟩ := returns_false_iff.1 hd
  refine ⟨b, h1, ?_⟩
  cases a with
  | none => cases b with
    | none => exact .none
    | some b =>
      obtain ⟨y, -, hy⟩ := h2
      exact absurd hc (hq ⟨y, hy⟩)
  | some a =>
    obtain ⟨y, hy, hy'⟩ : ∃ y, rep a y ∧ p y := hc
    cases b with
    | none => exact absurd h2 (hq ⟨y, hy'⟩)
    | some b =>
      obtain ⟨z, hz, hz'⟩ := h2
      obtain rfl := hp _ _ hy' hz'
      exact .some ⟨y, hy, hz⟩

theorem diverge_bind {α β : Type u} {f : α → Res β} : ((Res.diverge : Res α) >>= f) = Res.diverge := rfl

theorem rbind_congr_eq {α β : Type u} (c : Res α) {f g : α → Res β} (h : ∀ a, f a = g a) : c.bind f = c.bind g := by
  cases c with
  | ok a => exact h a
  | panic => rfl
  | diverge => rfl

theorem rbind_assoc_eq {α β γ : Type u} (c : Res α) (f : α → Res β) (g : β → Res γ) :
    (c.bind f).bind g = c.bind fun a => (f a).bind g := by
  cases c <;> rfl

namespace VectorAlgebra

theorem tryInvLoop_unwrap (f : E → Res (Option E)) (l acc : List E) :
    (tryInvLoop f l acc).bind Res.unwrap =
      (mapRes (fun a => (f a).bind Res.unwrap) l).bind fun r => .ok (acc ++ r) := by
  induction l generalizing acc with
  | nil => rw [mapRes]; show Res.ok acc = .ok (acc ++ []); rw [List.append_nil]
  | cons a l ih =>
    rw [mapRes]
    show ((f a).bind fun o => match o with
      | some y => tryInvLoop f l (acc ++ [y])
      | none => .ok none).bind Res.unwrap = _
    cases f a with
    | panic => rfl
    | diverge => rfl
    | ok o =>
      cases o with
      | none => rfl
      | some y =>
        refine (ih (acc ++ [y])).trans ?_
        show _ = ((mapRes _ l).bind fun l' => Res.ok (y :: l')).bind _
        rw [rbind_assoc_eq]
        refine rbind_congr_eq _ fun r => ?_
        show Res.ok (acc ++ [y] ++ r) = .ok (acc ++ (y :: r))
        rw [List.append_assoc]; rfl

theorem tryInvLoop_some (g : E → Res E) (l acc : List E) :
    tryInvLoop (fun a => (g a).bind fun y => .ok (some y)) l acc =
      (mapRes g l).bind fun r => .ok (some (acc ++ r)) := by
  induction l generalizing acc with
  | nil => rw [mapRes]; show Res.ok (some acc) = .ok (some (acc ++ [])); rw [List.append_nil]
  | cons a l ih =>
    rw [mapRes]
    show (((g a).bind fun y => .ok (some y)).bind fun o => match o with
      | some y => tryInvLoop _ l (acc ++ [y])
      | none => .ok none) = _
    cases g a with
    | panic => rfl
    | diverge => rfl
    | ok y =>
      refine (ih (acc ++ [y])).trans ?_
      show _ = ((mapRes _ l).bind fun l' => Res.ok (y :: l')).bind _
      rw [rbind_assoc_eq]
      refine rbind_congr_eq _ fun r => ?_
      show Res.ok (some (acc ++ [y] ++ r)) = .ok (some (acc ++ (y :: r)))
      rw [List.append_assoc]; rfl

theorem mapRes_append {α β : Type} (f : α → Res β) (l m : List α) :
    mapRes f (l ++ m) = (mapRes f l).bind fun r => (mapRes f m).bind fun t => .ok (r ++ t) := by
  induction l with
  | nil =>
    show mapRes f m = (mapRes f m).bind fun t => .ok t
    cases mapRes f m <;> rfl
  | cons a l ih =>
    rw [List.cons_append, mapRes, mapRes, ih, rbind_assoc_eq]
    refine rbind_congr_eq _ fun b => ?_
    simp only [rbind_assoc_eq]
    refine rbind_congr_eq _ fun r => ?_
    rw [show ((Res.ok (b :: r)).bind fun r => (mapRes f m).bind fun t => Res.ok (r ++ t)) =
      (mapRes f m).bind fun t => Res.ok (b :: r ++ t) from rfl]
    rfl

theorem allRes_append {α : Type} (f : α → Res Bool) (l m : List α) :
    allRes f (l ++ m) = (allRes f l).bind fun b => if b then allRes f m else .ok false := by
  induction l with
  | nil => rfl
  | cons a l ih =>
    rw [List.cons_append, allRes, allRes, ih, rbind_assoc_eq]
    refine rbind_congr_eq _ fun b => ?_
    cases b <;> rfl

theorem lenIs_len {n : ℕ} {v : List E} (h : v.length = n) : lenIs n v = true := by
  simpa [lenIs] using h

theorem zipMap_len {F : Type} {n : ℕ} (f : E → E → Res F) {v w : List E} (hv : v.length = n) (hw : w.length = n) :
    zipMap n f v w = mapRes (fun p => f p.1 p.2) (v.zip w) := by
  simp [zipMap, lenIs_len hv, lenIs_len hw]

theorem zipEach_len {n : ℕ} (f : E → E → Res E) {v w : List E} (hv : v.length = n) (hw : w.length = n) :
    zipEach n f v w = mapRes (fun p => f p.1 p.2) (v.zip w) := by
  simp [zipEach, lenIs_len hv, lenIs_len hw, zipForEach_eq f (hv.trans hw.symm)]

theorem zipAll_len {n : ℕ} (f : E → E → Res Bool) {v w : List E} (hv : v.length = n) (hw : w.length = n) :
    zipAll n f v w = allRes (fun p => f p.1 p.2) (v.zip w) := by
  simp [zipAll, lenIs_len hv, lenIs_len hw]

theorem mapEach_len {n : ℕ} (f : E → Res E) {v : List E} (hv : v.length = n) :
    mapEach n f v = mapRes f v := by
  simp [mapEach, lenIs_len hv]

theorem allEach_len {n : ℕ} (f : E → Res Bool) {v : List E} (hv : v.length = n) :
    allEach n f v = allRes f v := by
  simp [allEach, lenIs_len hv]

theorem mapRes_singleton {α β : Type} (f : α → Res β) (a : α) : mapRes f [a] = do return [← f a] := by
  rw [mapRes, mapRes]
  cases f a <;> rfl

theorem allRes_singleton {α : Type} (f : α → Res Bool) (a : α) : allRes f [a] = f a := by
  rw [allRes, allRes]
  cases f a with
  | ok b => cases b <;> rfl
  | panic => rfl
  | diverge => rfl

theorem zipMap_one {F : Type} (f : E → E → Res F) (a b : E) : zipMap 1 f [a] [b] = do return [← f a b] :=
  mapRes_singleton (fun p : E × E => f p.1 p.2) (a, b)

theorem zipEach_one (f : E → E → Res E) (a b : E) : zipEach 1 f [a] [b] = do return [← f a b] :=
  (zipEach_len f (v := [a]) (w := [b]) rfl rfl).trans (mapRes_singleton (fun p : E × E => f p.1 p.2) (a, b))

theorem zipAll_one (f : E → E → Res Bool) (a b : E) : zipAll 1 f [a] [b] = f a b :=
  allRes_singleton (fun p : E × E => f p.1 p.2) (a, b)

theorem mapRes_length {α β : Type} {f : α → Res β} {l : List α} {r : List β} (h : mapRes f l = .ok r) :
    r.length = l.length := by
  induction l generalizing r with
  | nil => cases h; rfl
  | cons a l ih =>
    rw [mapRes] at h
    cases hf : f a with
    | ok b =>
      rw [hf] at h
      cases hm : mapRes f l with
      | ok t =>
        rw [hm] at h
        cases h
        simp [ih hm]
      | panic => rw [hm] at h; cases h
      | diverge => rw [hm] at h; cases h
    | panic => rw [hf] at h; cases h
    | diverge => rw [hf] at h; cases h

theorem zip_flatten : ∀ {n : ℕ} {v w : List (List E)}, v.length = w.length → (∀ a ∈ v, a.length = n) →
    (∀ a ∈ w, a.length = n) → v.flatten.zip w.flatten = ((v.zip w).map fun p => p.1.zip p.2).flatten
  | _, [], [], _, _, _ => rfl
  | n, a :: v, b :: w, h, hv, hw => by
    rw [List.flatten_cons, List.flatten_cons, List.zip_append
      ((hv a (by simp)).trans (hw b (by simp)).symm), zip_flatten (by simpa using h)
      (fun c hc => hv c (by simp [hc])) (fun c hc => hw c (by simp [hc]))]
    rfl

theorem mapRes_flatten {α β : Type} (f : α → Res β) (l : List (List α)) :
    mapRes f l.flatten = (mapRes (mapRes f) l).bind fun r => .ok r.flatten := by
  induction l with
  | nil => rfl
  | cons a l ih =>
    rw [List.flatten_cons, mapRes_append, mapRes, ih, rbind_assoc_eq]
    refine rbind_congr_eq _ fun b => ?_
    rw [rbind_assoc_eq, rbind_assoc_eq]
    exact rbind_congr_eq _ fun r => rfl

theorem allRes_flatten {α : Type} (f : α → Res Bool) (l : List (List α)) :
    allRes f l.flatten = allRes (allRes f) l := by
  induction l with
  | nil => rfl
  | cons a l ih =>
    rw [List.flatten_cons, allRes_append, allRes, ih]

theorem mapRes_congr {α β : Type} {f g : α → Res β} {l : List α} (h : ∀ a ∈ l, f a = g a) :
    mapRes f l = mapRes g l := by
  induction l with
  | nil => rfl
  | cons a l ih => rw [mapRes, mapRes, h a (by simp), ih fun b hb => h b (by simp [hb])]

theorem allRes_congr {α : Type} {f g : α → Res Bool} {l : List α} (h : ∀ a ∈ l, f a = g a) :
    allRes f l = allRes g l := by
  induction l with
  | nil => rfl
  | cons a l ih => rw [allRes, allRes, h a (by simp), ih fun b hb => h b (by simp [hb])]

theorem mapRes_map {α β γ : Type} (f : β → Res γ) (g : α → β) (l : List α) :
    mapRes f (l.map g) = mapRes (fun a => f (g a)) l := by
  induction l with
  | nil => rfl
  | cons a l ih => rw [List.map_cons, mapRes, mapRes, ih]

theorem allRes_map {α β : Type} (f : β → Res Bool) (g : α → β) (l : List α) :
    allRes f (l.map g) = allRes (fun a => f (g a)) l := by
  induction l with
  | nil => rfl
  | cons a l ih => rw [List.map_cons, allRes, allRes, ih]

/-- A pair of vectors of vectors of lengths `m` and `n`. -/
theorem zipMap_nested {F : Type} {m n : ℕ} (f : E → E → Res F) {v w : List (List E)} (hv : v.length = m)
    (hw : w.length = m) (hv' : ∀ a ∈ v, a.length = n) (hw' : ∀ a ∈ w, a.length = n) :
    zipMap (m * n) f v.flatten w.flatten = (zipMap m (zipMap n f) v w).bind fun r => .ok r.flatten := by
  have hl : ∀ {v : List (List E)}, v.length = m → (∀ a ∈ v, a.length = n) → v.flatten.length = m * n := by
    intro v hv hv'
    rw [List.length_flatten, List.map_congr_left hv']
    simp [hv]
  rw [zipMap_len f (hl hv hv') (hl hw hw'), zip_flatten (hv.trans hw.symm) hv' hw', mapRes_flatten,
    zipMap_len _ hv hw, mapRes_map]
  congr 1
  refine mapRes_congr fun p hp => ?_
  obtain ⟨h1, h2⟩ := List.of_mem_zip (show (p.1, p.2) ∈ v.zip w from hp)
  exact (zipMap_len f (hv' _ h1) (hw' _ h2)).symm

theorem zipAll_nested {m n : ℕ} (f : E → E → Res Bool) {v w : List (List E)} (hv : v.length = m)
    (hw : w.length = m) (hv' : ∀ a ∈ v, a.length = n) (hw' : ∀ a ∈ w, a.length = n) :
    zipAll (m * n) f v.flatten w.flatten = zipAll m (zipAll n f) v w := by
  have hl : ∀ {v : List (List E)}, v.length = m → (∀ a ∈ v, a.length = n) → v.flatten.length = m * n := by
    intro v hv hv'
    rw [List.length_flatten, List.map_congr_left hv']
    simp [hv]
  rw [zipAll_len f (hl hv hv') (hl hw hw'), zip_flatten (hv.trans hw.symm) hv' hw', allRes_flatten,
    zipAll_len _ hv hw, allRes_map]
  refine allRes_congr fun p hp => ?_
  obtain ⟨h1, h2⟩ := List.of_mem_zip (show (p.1, p.2) ∈ v.zip w from hp)
  exact (zipAll_len f (hv' _ h1) (hw' _ h2)).symm

theorem mapEach_nested {m n : ℕ} (f : E → Res E) {v : List (List E)} (hv : v.length = m)
    (hv' : ∀ a ∈ v, a.length = n) :
    mapEach (m * n) f v.flatten = (mapEach m (mapEach n f) v).bind fun r => .ok r.flatten := by
  have hl : v.flatten.length = m * n := by
    rw [List.length_flatten, List.map_congr_left hv']
    simp [hv]
  rw [mapEach_len f hl, mapRes_flatten, mapEach_len _ hv]
  congr 1
  exact mapRes_congr fun a ha => (mapEach_len f (hv' a ha)).symm

theorem allEach_nested {m n : ℕ} (f : E → Res Bool) {v : List (List E)} (hv : v.length = m)
    (hv' : ∀ a ∈ v, a.length = n) :
    allEach (m * n) f v.flatten = allEach m (allEach n f) v := by
  have hl : v.flatten.length = m * n := by
    rw [List.length_flatten, List.map_congr_left hv']
    simp [hv]
  rw [allEach_len f hl, allRes_flatten, allEach_len _ hv]
  exact allRes_congr fun a ha => (allEach_len f (hv' a ha)).symm

end VectorAlgebra

end Abstalg
