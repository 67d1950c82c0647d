import Verif.Spec.Majorants
import Verif.Proofs.SimMatrix
import Verif.Proofs.SimPoly
import Verif.Proofs.Coordinates
import Verif.Proofs.OrderPoly
import Mathlib.Data.List.Forall2
import Mathlib.Tactic.Ring

/-! # Bounds: sums of products, vectors, matrices, polynomials -/

set_option autoImplicit false

namespace Abstalg

variable {E : Type} {r : E → E → Prop}

/-! ## Vectors -/

section vectors

variable {n : ℕ} {v w x v' w' : List E}

theorem VecBounds.length (h : VecBounds r n v v') : v'.length = n := (List.Forall₂.length_eq h.2).symm.trans h.1

theorem VecBounds.zipMap {f g : E → E → Res E} (hfg : ∀ {b d a c}, r b a → r d c → Follows r (f b d) (g a c))
    (h : VecBounds r n v v') (h' : VecBounds r n w w') :
    Follows (VecBounds r n) (VectorAlgebra.zipMap n f v w) (VectorAlgebra.zipMap n g v' w') := fun x hx => by
  obtain ⟨y, h1, h2⟩ := VectorAlgebra.follows_zipMap (r := r) n hfg h.2 h'.2 x hx
  refine ⟨y, h1, ?_, h2⟩
  have := (((VectorAlgebra.zipMap_collects f h.1 h'.1).ok x).1 hx).length_eq
  rw [← this, List.length_zipWith, h.1, h'.1, Nat.min_self]

theorem VecBounds.zipEach {f g : E → E → Res E} (hfg : ∀ {b d a c}, r b a → r d c → Follows r (f b d) (g a c))
    (h : VecBounds r n v v') (h' : VecBounds r n w w') :
    Follows (VecBounds r n) (VectorAlgebra.zipEach n f v w) (VectorAlgebra.zipEach n g v' w') := fun x hx => by
  obtain ⟨y, h1, h2⟩ := VectorAlgebra.follows_zipEach (r := r) n hfg h.2 h'.2 x hx
  refine ⟨y, h1, ?_, h2⟩
  have := (((VectorAlgebra.zipEach_collects f h.1 h'.1).ok x).1 hx).length_eq
  rw [← this, List.length_zipWith, h.1, h'.1, Nat.min_self]

theorem VecBounds.mapEach {f g : E → Res E} (hfg : ∀ {b a}, r b a → Follows r (f b) (g a))
    (h : VecBounds r n v v') :
    Follows (VecBounds r n) (VectorAlgebra.mapEach n f v) (VectorAlgebra.mapEach n g v') := fun x hx => by
  obtain ⟨y, h1, h2⟩ := VectorAlgebra.follows_mapEach (r := r) n hfg h.2 x hx
  refine ⟨y, h1, ?_, h2⟩
  have := (((VectorAlgebra.mapEach_collects f h.1).ok x).1 hx).length_eq
  rw [← this, List.length_map, h.1]

theorem VecBounds.diagonal {c d : Res E} (h : Follows r c d) :
    Follows (VecBounds r n) (do return VectorAlgebra.diagonal n (← c)) (do return VectorAlgebra.diagonal n (← d)) :=
  Follows.bind h fun _ _ h => .ok ⟨List.length_replicate, LRel.replicate n h⟩

theorem mapEach_ok (hv : v.length = n) : VectorAlgebra.mapEach n (fun a => .ok a) v = .ok v := by
  rw [(VectorAlgebra.mapEach_collects (fun a => .ok a) hv).ok]
  clear hv
  induction v with
  | nil => exact .nil
  | cons a l ih => exact .cons rfl ih

theorem VecBounds.mapEach_self {g : E → Res E} (hg : ∀ {b a}, r b a → Follows r (.ok b) (g a))
    (h : VecBounds r n v v') : Follows (VecBounds r n) (.ok v) (VectorAlgebra.mapEach n g v') := by
  have := VecBounds.mapEach (f := fun a => .ok a) hg h
  rwa [mapEach_ok h.1] at this

theorem zipMap_first (hv : v.length = n) (hw : w.length = n) :
    VectorAlgebra.zipMap n (fun a _ => .ok a) v w = .ok v := by
  rw [(VectorAlgebra.zipMap_collects (fun a _ => .ok a) hv hw).ok]
  have := hv.trans hw.symm
  clear hv hw
  induction v generalizing w with
  | nil => exact .nil
  | cons a l ih =>
    cases w with
    | nil => cases this
    | cons b m => exact .cons rfl (ih (by simpa using this))

end vectors

namespace BoundedSemiRing

variable {A : SemiRingOps E}

theorem powerLoop (hA : BoundedSemiRing r A) (n : ℤ) {b a : E} (h : r b a) :
    Follows r (A.one >>= fun o => Abstalg.powerLoop A.mulAssign A.square n o b)
      (A.one >>= fun o => Abstalg.powerLoop A.mulAssign A.square n o a) :=
  Follows.bind hA.one fun _ _ h1 => follows_powerLoop hA.mulAssign hA.square n h1 h

theorem vector (hA : BoundedSemiRing r A) (n : ℕ) :
    BoundedSemiRing (VecBounds r n) (VectorAlgebra.semiRing n A) where
  zero := VecBounds.diagonal hA.zero
  one := VecBounds.diagonal hA.one
  add := VecBounds.zipMap hA.add
  addAssign := VecBounds.zipEach hA.addAssign
  double := VecBounds.mapEach hA.double
  utimes := fun k _ _ h => Follows.bind (VecBounds.diagonal hA.zero) fun _ _ h0 =>
    follows_timesLoop (VecBounds.zipEach hA.addAssign) (VecBounds.mapEach hA.double) k h0 h
  mul := VecBounds.zipMap hA.mul
  mulAssign := VecBounds.zipEach hA.mulAssign
  square := VecBounds.mapEach hA.square
  grow := fun {b d a c} h h' => by
    have := VecBounds.zipMap (f := A.add) (g := fun a _ => .ok a) hA.grow h h'
    rwa [zipMap_first h.length h'.length] at this

/-- Sums of products, some of which may be missing in the second sum. -/
theorem addProducts (hA : BoundedSemiRing r A) {l l' : List (E × E)}
    (hl : List.SublistForall₂ (fun p q => r q.1 p.1 ∧ r q.2 p.2) l l')
    (hall : ∀ q ∈ l', (∃ a, r q.1 a) ∧ ∃ a, r q.2 a) {s s' : E} (hs : r s' s) :
    Follows r (Abstalg.addProducts A.mul A.add s' l') (Abstalg.addProducts A.mul A.add s l) := by
  induction hl generalizing s s' with
  | nil =>
    rename_i m
    induction m generalizing s s' with
    | nil => exact .ok hs
    | cons q m ih =>
      intro x hx
      rw [Abstalg.addProducts, rbind_eq_ok] at hx
      obtain ⟨y, h1, h2⟩ := hx
      rw [rbind_eq_ok] at h2
      obtain ⟨t, h2, h3⟩ := h2
      obtain ⟨⟨a, ha⟩, c, hc⟩ := hall q (by simp)
      obtain ⟨z, -, hz⟩ := hA.mul ha hc y h1
      obtain ⟨u, hu, hu'⟩ := hA.grow hs hz t h2
      cases hu
      exact ih (fun q hq => hall q (by simp [hq])) hu' x h3
  | cons h _ ih =>
    exact Follows.bind (hA.mul h.1 h.2) fun _ _ h1 => Follows.bind (hA.add hs h1) fun _ _ h2 =>
      ih (fun q hq => hall q (by simp [hq])) h2
  | cons_right h ih =>
    rename_i q l m
    intro x hx
    rw [Abstalg.addProducts, rbind_eq_ok] at hx
    obtain ⟨y, h1, h2⟩ := hx
    rw [rbind_eq_ok] at h2
    obtain ⟨t, h2, h3⟩ := h2
    obtain ⟨⟨a, ha⟩, c, hc⟩ := hall q (by simp)
    obtain ⟨z, -, hz⟩ := hA.mul ha hc y h1
    obtain ⟨u, hu, hu'⟩ := hA.grow hs hz t h2
    cases hu
    exact ih (fun q hq => hall q (by simp [hq])) hu' x h3

end BoundedSemiRing

/-! ## Polynomials -/

theorem filterMap_sublist {ι α β : Type} {s : α → β → Prop} {f : ι → Option α} {g : ι → Option β}
    (h : ∀ i a, f i = some a → ∃ b, g i = some b ∧ s a b) {l m : List ι} (hl : List.Sublist l m) :
    List.SublistForall₂ s (l.filterMap f) (m.filterMap g) := by
  induction hl with
  | slnil => exact .nil
  | cons i _ ih =>
    rw [List.filterMap_cons]
    cases g i with
    | none => exact ih
    | some b => exact ih.cons_right
  | cons_cons i _ ih =>
    rw [List.filterMap_cons, List.filterMap_cons]
    cases hf : f i with
    | none =>
      cases g i with
      | none => exact ih
      | some b => exact ih.cons_right
    | some a =>
      obtain ⟨b, hb, hab⟩ := h i a hf
      rw [hb]
      exact .cons hab ih

section polynomials

variable {u v u' v' : List E}

theorem PolyBounds.len (h : PolyBounds r u' u) : u.length ≤ u'.length := by
  by_contra hlt
  obtain ⟨b, hb, -⟩ := h.1 u'.length u[u'.length] (List.getElem?_eq_getElem (by omega))
  rw [List.getElem?_eq_none le_rfl] at hb
  cases hb

theorem PolyBounds.convPairs (h : PolyBounds r u' u) (h' : PolyBounds r v' v) (k : ℕ) :
    List.SublistForall₂ (fun p q => r q.1 p.1 ∧ r q.2 p.2) (Abstalg.convPairs u v k)
      (Abstalg.convPairs u' v' k) := by
  refine filterMap_sublist (fun i p hp => ?_) (List.range_sublist.2 h.len)
  split at hp
  · rename_i hik
    obtain ⟨a, ha, hp⟩ := Option.bind_eq_some_iff.1 hp
    obtain ⟨b, hb, hp⟩ := Option.bind_eq_some_iff.1 hp
    cases hp
    obtain ⟨a', ha', hr⟩ := h.1 i a ha
    obtain ⟨b', hb', hr'⟩ := h'.1 _ b hb
    refine ⟨(a', b'), ?_, hr, hr'⟩
    rw [if_pos hik, ha', hb']
    rfl
  · cases hp

theorem mem_convPairs {k : ℕ} {q : E × E} (h : q ∈ convPairs u v k) : q.1 ∈ u ∧ q.2 ∈ v := by
  obtain ⟨i, -, hi⟩ := List.mem_filterMap.1 h
  split at hi
  · obtain ⟨a, ha, hp⟩ := Option.bind_eq_some_iff.1 hi
    obtain ⟨b, hb, hp⟩ := Option.bind_eq_some_iff.1 hp
    cases hp
    exact ⟨List.mem_of_getElem? ha, List.mem_of_getElem? hb⟩
  · cases hi

theorem PolyBounds.nil (h : PolyBounds r [] u) : u = [] := List.eq_nil_of_length_eq_zero (by simpa using h.len)

theorem BoundedSemiRing.poly_mul [Cfg] {A : UnitaryRingOps E} (hA : BoundedSemiRing r A.toSemiRingOps)
    (h : PolyBounds r u' u) (h' : PolyBounds r v' v) :
    Follows (PolyBounds r) ((PolynomialAlgebra.unitaryRing A).mul u' v')
      ((PolynomialAlgebra.unitaryRing A).mul u v) := by
  intro x hx
  by_cases hne : u' ≠ [] ∧ v' ≠ []
  swap
  · obtain rfl : x = [] := by
      have : (u'.isEmpty || v'.isEmpty) = true := by
        rw [Bool.or_eq_true, List.isEmpty_iff, List.isEmpty_iff]
        tauto
      have h2 : PolynomialAlgebra.mul A u' v' = .ok [] := by rw [PolynomialAlgebra.mul, if_pos this]
      exact (Res.ok.inj (h2.symm.trans hx)).symm
    have : (u.isEmpty || v.isEmpty) = true := by
      rw [Bool.or_eq_true, List.isEmpty_iff, List.isEmpty_iff]
      by_cases hu : u' = []
      · subst hu; exact Or.inl h.nil
      · obtain rfl : v' = [] := by tauto
        exact Or.inr h'.nil
    exact ⟨[], by show PolynomialAlgebra.mul A u v = _; rw [PolynomialAlgebra.mul, if_pos this],
      fun k a h => by simp at h, fun b hb => by simp at hb⟩
  obtain ⟨z, hz, hlen, hx⟩ := (PolynomialAlgebra.mul_ok_iff A hne.1 hne.2 x).1 hx
  obtain ⟨z', hz', h0⟩ := hA.zero z hz
  obtain rfl : z = z' := Res.ok.inj (hz.symm.trans hz')
  have hall (k : ℕ) : ∀ q ∈ Abstalg.convPairs u' v' k, (∃ a, r q.1 a) ∧ ∃ a, r q.2 a := fun q hq =>
    ⟨h.2 _ (mem_convPairs hq).1, h'.2 _ (mem_convPairs hq).2⟩
  have key (k : ℕ) (hk : k < x.length) : ∃ y, Abstalg.addProducts A.mul A.add z (Abstalg.convPairs u v k) = .ok y ∧
      r x[k] y := hA.addProducts (h.convPairs h' k) (hall k) h0 _ (hx k hk)
  have hbound : ∀ b ∈ x, ∃ a, r b a := fun b hb => by
    obtain ⟨k, hk, rfl⟩ := List.getElem_of_mem hb
    obtain ⟨y, -, hy⟩ := key k hk
    exact ⟨y, hy⟩
  by_cases hne' : u ≠ [] ∧ v ≠ []
  swap
  · have : (u.isEmpty || v.isEmpty) = true := by
      rw [Bool.or_eq_true, List.isEmpty_iff, List.isEmpty_iff]
      tauto
    exact ⟨[], by show PolynomialAlgebra.mul A u v = _; rw [PolynomialAlgebra.mul, if_pos this],
      fun k a h => by simp at h, hbound⟩
  have hle : u.length + v.length - 1 ≤ x.length := by
    have := h.len
    have := h'.len
    omega
  choose f hf hfr using key
  refine ⟨List.ofFn fun k : Fin (u.length + v.length - 1) => f k (by omega), ?_, fun k a hk => ?_, hbound⟩
  · refine (PolynomialAlgebra.mul_ok_iff A hne'.1 hne'.2 _).2 ?_
    refine ⟨z, hz, by simp, fun k hk => ?_⟩
    rw [List.length_ofFn] at hk
    rw [List.getElem_ofFn]
    exact hf k (by omega)
  · obtain ⟨hk', rfl⟩ := List.getElem?_eq_some_iff.1 hk
    have hk'' : k < u.length + v.length - 1 := by simpa using hk'
    refine ⟨_, List.getElem?_eq_getElem (by omega), ?_⟩
    rw [List.getElem_ofFn]
    exact hfr k (by omega)

end polynomials

/-! ## Rings -/

theorem forLoop_length {ι : Type} {f : List E → ι → Res (List E)} {m : ℕ}
    (hf : ∀ s i s', f s i = .ok s' → s'.length = s.length + m) (l : List ι) {s x : List E}
    (h : forLoop l s f = .ok x) : x.length = s.length + l.length * m := by
  induction l generalizing s with
  | nil => cases h; simp
  | cons i l ih =>
    rw [forLoop, rbind_eq_ok] at h
    obtain ⟨s', h1, h2⟩ := h
    rw [ih h2, hf _ _ _ h1, List.length_cons]
    ring

theorem MatrixRing.mul_length [Cfg] {A : FieldOps E} {n : ℕ} {u v x : List E} (h : MatrixRing.mul A n u v = .ok x) :
    x.length = n * n := by
  unfold MatrixRing.mul at h
  obtain ⟨_, -, h⟩ := rbind_eq_ok.1 h
  obtain ⟨w, -, h⟩ := rbind_eq_ok.1 h
  have := forLoop_length (m := n) (fun s i s' h => ?_) _ h
  · simpa using this
  have := forLoop_length (m := 1) (fun s j s' h => ?_) _ h
  · simpa using this
  obtain ⟨z, -, h⟩ := rbind_eq_ok.1 h
  obtain ⟨y, -, h⟩ := rbind_eq_ok.1 h
  cases h
  simp

namespace BoundedRing

variable [Cfg]

theorem vector {A : UnitaryRingOps E} (hA : BoundedRing r A) (n : ℕ) :
    BoundedRing (VecBounds r n) (VectorAlgebra.unitaryRing n A) where
  toBoundedSemiRing := hA.toBoundedSemiRing.vector n
  neg := VecBounds.mapEach_self hA.neg
  negAssign := VecBounds.mapEach_self hA.negAssign
  sub := VecBounds.zipMap hA.sub
  subAssign := fun {b d a c} h h' => by
    have h1 := VecBounds.zipEach (f := A.add) (g := A.subAssign) hA.subAssign h h'
    rwa [VectorAlgebra.zipEach_eq] at h1

end BoundedRing

section matrices

variable [Cfg] {A : FieldOps E} {n : ℕ}

theorem BoundedSemiRing.matrix_mul (hA : BoundedSemiRing r A.toSemiRingOps) {u v u' v' : List E}
    (h : VecBounds r (n * n) u' u) (h' : VecBounds r (n * n) v' v) :
    Follows (VecBounds r (n * n)) (MatrixRing.mul A n u' v') (MatrixRing.mul A n u v) := by
  have key : Follows (LRel r) (MatrixRing.mul A n u' v') (MatrixRing.mul A n u v) := by
    unfold MatrixRing.mul
    rw [h.2.length_eq, h'.2.length_eq]
    refine Follows.bind (Follows.assert rfl) fun _ _ _ =>
      Follows.bind (MatrixRing.follows_transpose n h'.2) fun w w' h' => ?_
    refine follows_forLoop (r := LRel r) _ (fun i _ _ he => ?_) .nil
    refine follows_forLoop (r := LRel r) _ (fun j _ _ he => ?_) he
    refine Follows.bind hA.zero fun _ _ h0 => Follows.bind (r := r)
      (follows_forLoop (r := r) _ (fun k _ _ hs => ?_) h0) fun _ _ hs => .ok (LRel.append he (.cons hs .nil))
    exact Follows.bind (LRel.idx h.2 _) fun _ _ hx => Follows.bind (LRel.idx h' _) fun _ _ hy =>
      Follows.bind (hA.mul hx hy) fun _ _ hz => hA.addAssign hs hz
  intro x hx
  obtain ⟨y, h1, h2⟩ := key x hx
  exact ⟨y, h1, MatrixRing.mul_length hx, h2⟩

theorem BoundedSemiRing.matrix (hA : BoundedSemiRing r A.toSemiRingOps) (h1 : Follows r (A.int 1) (A.int 1)) :
    BoundedSemiRing (VecBounds r (n * n)) (MatrixRing.ops A n).toSemiRingOps := by
  have hv := hA.vector (n * n)
  have hone : Follows (VecBounds r (n * n)) (MatrixRing.int A n 1) (MatrixRing.int A n 1) := by
    refine Follows.bind h1 fun _ _ hx => Follows.bind hv.zero fun _ _ h => ?_
    refine follows_forLoop (r := VecBounds r (n * n)) _ (fun _ _ _ he => ?_) h
    intro x hx'
    obtain ⟨y, h2, h3⟩ := LRel.setIdx he.2 _ hx x hx'
    refine ⟨y, h2, ?_, h3⟩
    rw [(setIdx_eq_ok.1 hx').2, List.length_set]
    exact he.1
  exact
  { zero := hv.zero
    one := hone
    add := hv.add
    addAssign := hv.addAssign
    double := hv.double
    utimes := hv.utimes
    mul := hA.matrix_mul
    mulAssign := hA.matrix_mul
    square := fun h => hA.matrix_mul h h
    grow := hv.grow }

theorem BoundedRing.matrix (hA : BoundedRing r A.toUnitaryRingOps) (h1 : Follows r (A.int 1) (A.int 1)) :
    BoundedRing (VecBounds r (n * n)) (MatrixRing.ops A n) where
  toBoundedSemiRing := hA.toBoundedSemiRing.matrix h1
  neg := (hA.vector (n * n)).neg
  negAssign := (hA.vector (n * n)).negAssign
  sub := (hA.vector (n * n)).sub
  subAssign := (hA.vector (n * n)).subAssign

end matrices

end Abstalg
