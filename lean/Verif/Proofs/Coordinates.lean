import Verif.Spec.Coordinates
import Verif.Proofs.Order
import Verif.Proofs.InPlace
import Verif.Proofs.Vectors
import Verif.Proofs.Cost

/-! # Results of calls made one after the other -/

set_option autoImplicit false

universe u v

namespace Abstalg

section lists

variable {F : Type u}

theorem firstAt_nil (go : Res F → Prop) (c : Res F) : ¬ FirstAt [] go c := by
  rintro ⟨i, h, -⟩
  simp at h

theorem firstAt_cons {d : Res F} {cs : List (Res F)} {go : Res F → Prop} {c : Res F} :
    FirstAt (d :: cs) go c ↔ d = c ∨ (go d ∧ FirstAt cs go c) := by
  constructor
  · rintro ⟨i, h, h'⟩
    cases i with
    | zero => exact .inl (by simpa using h)
    | succ i =>
      exact .inr ⟨h' 0 (by omega) d (by simp), i, by simpa using h,
        fun j hj c' hc => h' (j + 1) (by omega) c' (by simpa using hc)⟩
  · rintro (h | ⟨h, i, h1, h2⟩)
    · exact ⟨0, by simp [h], fun j hj => absurd hj (by omega)⟩
    · refine ⟨i + 1, by simpa using h1, fun j hj c' hc => ?_⟩
      cases j with
      | zero => simp at hc; exact hc ▸ h
      | succ j => exact h2 j (by omega) c' (by simpa using hc)

theorem collects_nil : Collects ([] : List (Res F)) (.ok []) where
  ok xs := by
    rw [List.forall₂_nil_left_iff]
    exact ⟨fun h => (by cases h; rfl), fun h => by rw [h]⟩
  panic := ⟨fun h => (by cases h), fun h => absurd h (firstAt_nil _ _)⟩
  diverge := ⟨fun h => (by cases h), fun h => absurd h (firstAt_nil _ _)⟩

theorem Collects.cons {c : Res F} {cs : List (Res F)} {r : Res (List F)} (h : Collects cs r) :
    Collects (c :: cs) (c.bind fun b => r.bind fun l => .ok (b :: l)) where
  ok xs := by
    rw [rbind_eq_ok, List.forall₂_cons_left_iff]
    constructor
    · rintro ⟨b, h1, h2⟩
      obtain ⟨l, h3, h4⟩ := rbind_eq_ok.1 h2
      cases h4
      exact ⟨b, l, h1, (h.ok l).1 h3, rfl⟩
    · rintro ⟨b, l, h1, h2, rfl⟩
      exact ⟨b, h1, rbind_eq_ok.2 ⟨l, (h.ok l).2 h2, rfl⟩⟩
  panic := by
    rw [firstAt_cons, ← h.panic]
    cases c <;> cases r <;> simp [Res.bind]
  diverge := by
    rw [firstAt_cons, ← h.diverge]
    cases c <;> cases r <;> simp [Res.bind]

theorem testsAll_nil : TestsAll [] (.ok true) where
  yes := by simp
  no := ⟨fun h => (by cases h), fun h => absurd h (firstAt_nil _ _)⟩
  panic := ⟨fun h => (by cases h), fun h => absurd h (firstAt_nil _ _)⟩
  diverge := ⟨fun h => (by cases h), fun h => absurd h (firstAt_nil _ _)⟩

theorem TestsAll.cons {c : Res Bool} {cs : List (Res Bool)} {r : Res Bool} (h : TestsAll cs r) :
    TestsAll (c :: cs) (c.bind fun b => if b then r else .ok false) where
  yes := by
    rw [List.forall_mem_cons, ← h.yes]
    rcases c with b | _ | _ <;> [cases b; skip; skip] <;> simp [Res.bind]
  no := by
    rw [firstAt_cons, ← h.no]
    rcases c with b | _ | _ <;> [cases b; skip; skip] <;> simp [Res.bind]
  panic := by
    rw [firstAt_cons, ← h.panic]
    rcases c with b | _ | _ <;> [cases b; skip; skip] <;> simp [Res.bind]
  diverge := by
    rw [firstAt_cons, ← h.diverge]
    rcases c with b | _ | _ <;> [cases b; skip; skip] <;> simp [Res.bind]

theorem triesAll_nil : TriesAll ([] : List (Res (Option F))) (.ok (some [])) where
  all xs := by
    rw [List.forall₂_nil_left_iff]
    exact ⟨fun h => (by cases h; rfl), fun h => by rw [h]⟩
  fails := ⟨fun h => (by cases h), fun h => absurd h (firstAt_nil _ _)⟩
  panic := ⟨fun h => (by cases h), fun h => absurd h (firstAt_nil _ _)⟩
  diverge := ⟨fun h => (by cases h), fun h => absurd h (firstAt_nil _ _)⟩

end lists

theorem mapRes_collects {α : Type u} {F : Type v} (f : α → Res F) (l : List α) :
    Collects (l.map f) (mapRes f l) := by
  induction l with
  | nil => exact collects_nil
  | cons a l ih => exact ih.cons

theorem allRes_tests {α : Type u} (p : α → Res Bool) (l : List α) :
    TestsAll (l.map p) (allRes p l) := by
  induction l with
  | nil => exact testsAll_nil
  | cons a l ih => exact ih.cons

variable {E : Type}

theorem zip_map_eq {α β : Type} {F : Type u} (f : α → β → F) (v : List α) (w : List β) :
    (v.zip w).map (fun p => f p.1 p.2) = List.zipWith f v w := by
  rw [List.zip, List.map_zipWith]

namespace VectorAlgebra

theorem tryInvLoop_ok_some (f : E → Res (Option E)) (l acc xs : List E) :
    tryInvLoop f l acc = .ok (some xs) ↔
      ∃ ys, List.Forall₂ (fun c x => c = .ok (some x)) (l.map f) ys ∧ xs = acc ++ ys := by
  induction l generalizing acc with
  | nil =>
    simp only [List.map_nil, List.forall₂_nil_left_iff]
    constructor
    · intro h; cases h; exact ⟨[], rfl, by simp⟩
    · rintro ⟨_, rfl, rfl⟩; simp [tryInvLoop]
  | cons a l ih =>
    simp only [List.map_cons, List.forall₂_cons_left_iff]
    have hr : tryInvLoop f (a :: l) acc = (f a).bind fun o => match o with
        | some y => tryInvLoop f l (acc ++ [y])
        | none => .ok none := rfl
    rw [hr, rbind_eq_ok]
    constructor
    · rintro ⟨o, h1, h2⟩
      cases o with
      | none => cases h2
      | some y =>
        obtain ⟨ys, h3, rfl⟩ := (ih _).1 h2
        exact ⟨y :: ys, ⟨y, ys, h1, h3, rfl⟩, by simp⟩
    · rintro ⟨_, ⟨y, ys, h1, h2, rfl⟩, rfl⟩
      exact ⟨some y, h1, (ih _).2 ⟨ys, h2, by simp⟩⟩

theorem tryInvLoop_stop (f : E → Res (Option E)) (l acc : List E) (r : Res (Option (List E)))
    (c : Res (Option E)) (hr : r = .ok none ∧ c = .ok none ∨ r = .panic ∧ c = .panic ∨ r = .diverge ∧ c = .diverge) :
    tryInvLoop f l acc = r ↔ FirstAt (l.map f) (fun c => ∃ x, c = .ok (some x)) c := by
  induction l generalizing acc with
  | nil =>
    refine ⟨fun h => ?_, fun h => absurd h (firstAt_nil _ _)⟩
    rcases hr with ⟨rfl, -⟩ | ⟨rfl, -⟩ | ⟨rfl, -⟩ <;> cases h
  | cons a l ih =>
    rw [List.map_cons, firstAt_cons]
    have h : tryInvLoop f (a :: l) acc = (f a).bind fun o => match o with
        | some y => tryInvLoop f l (acc ++ [y])
        | none => .ok none := rfl
    rw [h]
    cases hc : f a with
    | ok o =>
      cases o with
      | some y =>
        show tryInvLoop f l (acc ++ [y]) = r ↔ _
        rw [ih]
        rcases hr with ⟨-, rfl⟩ | ⟨-, rfl⟩ | ⟨-, rfl⟩ <;> simp
      | none => rcases hr with ⟨rfl, rfl⟩ | ⟨rfl, rfl⟩ | ⟨rfl, rfl⟩ <;> simp [Res.bind]
    | panic => rcases hr with ⟨rfl, rfl⟩ | ⟨rfl, rfl⟩ | ⟨rfl, rfl⟩ <;> simp [Res.bind]
    | diverge => rcases hr with ⟨rfl, rfl⟩ | ⟨rfl, rfl⟩ | ⟨rfl, rfl⟩ <;> simp [Res.bind]

theorem tryInvLoop_tries (f : E → Res (Option E)) (l : List E) :
    TriesAll (l.map f) (tryInvLoop f l []) where
  all xs := by
    rw [tryInvLoop_ok_some]
    simp
  fails := tryInvLoop_stop f l [] _ _ (.inl ⟨rfl, rfl⟩)
  panic := tryInvLoop_stop f l [] _ _ (.inr (.inl ⟨rfl, rfl⟩))
  diverge := tryInvLoop_stop f l [] _ _ (.inr (.inr ⟨rfl, rfl⟩))

section

variable {n : ℕ} {v w : List E}

theorem zipMap_collects {F : Type} (f : E → E → Res F) (hv : v.length = n) (hw : w.length = n) :
    Collects (List.zipWith f v w) (zipMap n f v w) := by
  have h : zipMap n f v w = mapRes (fun p => f p.1 p.2) (v.zip w) := by
    unfold zipMap
    simp only [lenIs, hv, hw, beq_self_eq_true, Bool.and_self, assert_true, ok_bind]
  rw [h, ← zip_map_eq]
  exact mapRes_collects _ _

theorem zipEach_collects (f : E → E → Res E) (hv : v.length = n) (hw : w.length = n) :
    Collects (List.zipWith f v w) (zipEach n f v w) := by
  rw [zipEach_eq]
  exact zipMap_collects f hv hw

theorem zipAll_tests (f : E → E → Res Bool) (hv : v.length = n) (hw : w.length = n) :
    TestsAll (List.zipWith f v w) (zipAll n f v w) := by
  have h : zipAll n f v w = allRes (fun p => f p.1 p.2) (v.zip w) := by
    unfold zipAll
    simp only [lenIs, hv, hw, beq_self_eq_true, Bool.and_self, assert_true, ok_bind]
  rw [h, ← zip_map_eq]
  exact allRes_tests _ _

theorem mapEach_collects (f : E → Res E) (hv : v.length = n) :
    Collects (v.map f) (mapEach n f v) := by
  have h : mapEach n f v = mapRes f v := by
    unfold mapEach
    simp only [lenIs, hv, beq_self_eq_true, assert_true, ok_bind]
  rw [h]
  exact mapRes_collects _ _

theorem allEach_tests (f : E → Res Bool) (hv : v.length = n) :
    TestsAll (v.map f) (allEach n f v) := by
  have h : allEach n f v = allRes f v := by
    unfold allEach
    simp only [lenIs, hv, beq_self_eq_true, assert_true, ok_bind]
  rw [h]
  exact allRes_tests _ _

theorem contains_tests (base : DomainOps E) (hv : v.length = n) :
    TestsAll (v.map base.contains) ((domain n base).contains v) := by
  have h : (domain n base).contains v = allRes base.contains v := by
    show (if v.length != n then _ else _) = _
    rw [if_neg (by simp [hv])]
  rw [h]
  exact allRes_tests _ _

theorem diagonal_repeats (n : ℕ) (c : Res E) : Repeats n c (c.bind fun e => .ok (diagonal n e)) where
  ok xs := by
    rw [rbind_eq_ok]
    refine exists_congr fun x => and_congr_right fun _ => ?_
    rw [Res.ok.injEq, diagonal, eq_comm, List.eq_replicate_iff]
  panic := by cases c <;> simp [Res.bind]
  diverge := by cases c <;> simp [Res.bind]

end

end VectorAlgebra

end Abstalg
