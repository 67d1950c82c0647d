import Verif.Props.Crout
import Verif.Props.ExactFloats
import Verif.Props.Order
import Verif.Proofs.FloatEuclid
import Verif.Proofs.Graded
import Mathlib.LinearAlgebra.Matrix.Block

/-! # C109: triangular and diagonal matrices over bases without laws, floats in particular -/

set_option autoImplicit false
set_option linter.unusedSectionVars false

namespace Abstalg

section bases

variable [Cfg] {E : Type} {n : ℕ} {base : FieldOps E}

theorem detRun_triangular {l : List (Fin n)} {A M : Fin n → Fin n → E} {d x : E} (h : DetRun base l M d x)
    (hl : ∀ r c, c < r → base.isZero (A r c) = .ok true) (hs : l.Pairwise (· < ·)) (hup : ∀ r ∈ l, ∀ s, r ≤ s → s ∈ l)
    (hM : ∀ r ∈ l, M r = A r) :
    ((∀ i ∈ l, base.isZero (A i i) = .ok false) ∧ combineAll base.mulAssign d (l.map fun i => A i i) = .ok x) ∨
    ∃ i ∈ l, base.isZero (A i i) = .ok true ∧ (∀ j ∈ l, j < i → base.isZero (A j j) = .ok false) ∧ base.zero = .ok x := by
  induction h with
  | done M d => exact .inl ⟨nofun, rfl⟩
  | @singular i l M d z hno hz =>
    refine .inr ⟨i, List.mem_cons_self, ?_, fun j hj hji => ?_, hz⟩
    · rw [← hM i List.mem_cons_self]
      exact hno i le_rfl
    · rcases List.mem_cons.1 hj with rfl | hj
      · exact absurd hji (lt_irrefl _)
      · exact absurd hji (not_lt.2 ((List.pairwise_cons.1 hs).1 j hj).le)
  | @step i l M d x p d' c M₁ M₂ hp hd hc hsc hle hgt _ ih =>
    have hi : i ∈ i :: l := List.mem_cons_self
    obtain ⟨hs1, hs2⟩ := List.pairwise_cons.1 hs
    obtain rfl : p = i := by
      by_contra hpi
      have hlt : i < p := lt_of_le_of_ne hp.1 (Ne.symm hpi)
      have h1 := hp.2.1
      rw [hM p (hup i hi p hlt.le), hl p i hlt] at h1
      cases h1
    have hrow : ∀ r ∈ l, M₂ r = A r := by
      intro r hr
      have hlt := hs1 r hr
      have h1 : M₁ r = A r := by
        rw [hsc.2 r (ne_of_gt hlt), Equiv.swap_self, Equiv.refl_apply, hM r (List.mem_cons_of_mem _ hr)]
      rcases hgt r hlt with ⟨_, h2⟩ | ⟨h2, _⟩
      · rw [h2, h1]
      · rw [h1, hl r p hlt] at h2
        cases h2
    have hup' : ∀ r ∈ l, ∀ s, r ≤ s → s ∈ l := by
      intro r hr s hrs
      rcases List.mem_cons.1 (hup r (List.mem_cons_of_mem _ hr) s hrs) with rfl | h
      · exact absurd hrs (not_le.2 (hs1 r hr))
      · exact h
    have hz := hp.2.1
    rw [hM p hi] at hz hd
    rcases ih hs2 hup' hrow with ⟨h1, h2⟩ | ⟨k, hk, h1, h2, h3⟩
    · refine .inl ⟨fun k hk => ?_, ?_⟩
      · rcases List.mem_cons.1 hk with rfl | hk
        · exact hz
        · exact h1 k hk
      · rw [List.map_cons, combineAll, hd]
        exact h2
    · refine .inr ⟨k, List.mem_cons_of_mem _ hk, h1, fun j hj hjk => ?_, h3⟩
      rcases List.mem_cons.1 hj with rfl | hj
      · exact hz
      · exact h2 j hj hjk

/-- C109: whatever the base, a determinant of an upper triangular matrix that returns is the product of the diagonal, computed
from left to right, or zero if there is a zero on the diagonal. -/
theorem C109_triangular {A : Fin n → Fin n → E} (hl : ∀ r c, c < r → base.isZero (A r c) = .ok true) {x : E}
    (h : MatrixRing.determinant base n (flatVec A) = .ok x) :
    (∃ o, base.one = .ok o ∧ (∀ i, base.isZero (A i i) = .ok false) ∧
      combineAll base.mulAssign o (List.ofFn fun i => A i i) = .ok x) ∨
    ∃ i, base.isZero (A i i) = .ok true ∧ (∀ j < i, base.isZero (A j j) = .ok false) ∧ base.zero = .ok x := by
  obtain ⟨o, ho, hrun⟩ := (C80_determinant base A x).1 h
  rcases detRun_triangular hrun hl (List.pairwise_lt_finRange n) (fun _ _ s _ => List.mem_finRange s) (fun _ _ => rfl) with
    ⟨h1, h2⟩ | ⟨i, _, h1, h2, h3⟩
  · refine .inl ⟨o, ho, fun i => h1 i (List.mem_finRange i), ?_⟩
    rw [List.ofFn_eq_map]
    exact h2
  · exact .inr ⟨i, h1, fun j hj => h2 j (List.mem_finRange j) hj, h3⟩

theorem detRun_of_triangular {A B : Fin n → Fin n → E} (c : Fin n → E) (hl : ∀ r c, c < r → base.isZero (A r c) = .ok true)
    (hd : ∀ i, base.isZero (A i i) = .ok false) (hc : ∀ i, base.inv (A i i) = .ok (c i))
    (hB : ∀ i j, base.mulAssign (A i j) (c i) = .ok (B i j)) {l : List (Fin n)} {M : Fin n → Fin n → E} {d x : E}
    (hs : l.Pairwise (· < ·)) (hup : ∀ r ∈ l, ∀ s, r ≤ s → s ∈ l) (hM : ∀ r ∈ l, M r = A r)
    (h : combineAll base.mulAssign d (l.map fun i => A i i) = .ok x) : DetRun base l M d x := by
  induction l generalizing M d with
  | nil =>
    cases h
    exact .done M _
  | cons i l ih =>
    obtain ⟨hs1, hs2⟩ := List.pairwise_cons.1 hs
    have hi : i ∈ i :: l := List.mem_cons_self
    rw [List.map_cons, combineAll] at h
    cases hm : base.mulAssign d (A i i) with
    | ok d' =>
      rw [hm] at h
      have hoff : ∀ r, r ≠ i → Function.update M i (B i) r = M r := fun r hr => Function.update_of_ne hr _ _
      have hrow : ∀ r ∈ l, Function.update M i (B i) r = A r := fun r hr => by
        rw [hoff r (ne_of_gt (hs1 r hr)), hM r (List.mem_cons_of_mem _ hr)]
      refine .step i d' (c i) (Function.update M i (B i)) (Function.update M i (B i)) ⟨le_rfl, ?_, fun r h1 h2 => absurd h1 (not_le.2 h2)⟩
        (by rw [hM i hi]; exact hm) (by rw [hM i hi]; exact hc i) ⟨fun j => ?_, fun r hr => ?_⟩ (fun _ _ => rfl) (fun r hr => .inl ⟨?_, rfl⟩)
        (ih hs2 (fun r hr s hrs => ?_) hrow h)
      · rw [hM i hi]; exact hd i
      · rw [hM i hi, Function.update_self]; exact hB i j
      · rw [hoff r hr, Equiv.swap_self, Equiv.refl_apply]
      · rw [hoff r (ne_of_gt hr), hM r (hup i hi r hr.le)]
        exact hl r i hr
      · rcases List.mem_cons.1 (hup r (List.mem_cons_of_mem _ hr) s hrs) with rfl | h'
        · exact absurd hrs (not_le.2 (hs1 r hr))
        · exact h'
    | panic => rw [hm] at h; cases h
    | diverge => rw [hm] at h; cases h

/-- C109: and it returns that product, if the elements of the diagonal have inverses with which their rows can be multiplied. -/
theorem C109_triangular_returns {A B : Fin n → Fin n → E} (c : Fin n → E) (hl : ∀ r c, c < r → base.isZero (A r c) = .ok true)
    (hd : ∀ i, base.isZero (A i i) = .ok false) (hc : ∀ i, base.inv (A i i) = .ok (c i))
    (hB : ∀ i j, base.mulAssign (A i j) (c i) = .ok (B i j)) {o x : E} (ho : base.one = .ok o)
    (h : combineAll base.mulAssign o (List.ofFn fun i => A i i) = .ok x) :
    MatrixRing.determinant base n (flatVec A) = .ok x := by
  refine (C80_determinant base A x).2 ⟨o, ho, ?_⟩
  rw [List.ofFn_eq_map] at h
  exact detRun_of_triangular c hl hd hc hB (List.pairwise_lt_finRange n) (fun _ _ s _ => List.mem_finRange s) (fun _ _ => rfl) h

theorem invRun_of_diagonal {A S I W : Fin n → Fin n → E} (c : Fin n → E) (hl : ∀ r c, r ≠ c → base.isZero (A r c) = .ok true)
    (hS : ∀ r c, r ≠ c → base.isZero (S r c) = .ok true)
    (hd : ∀ i, base.isZero (A i i) = .ok false) (hc : ∀ i, base.inv (A i i) = .ok (c i))
    (hA : ∀ i j, base.mulAssign (A i j) (c i) = .ok (S i j)) (hI : ∀ i j, base.mulAssign (I i j) (c i) = .ok (W i j))
    {l : List (Fin n)} {M N : Fin n → Fin n → E} (hs : l.Nodup) (hM : ∀ r ∈ l, M r = A r) (hM' : ∀ r, r ∉ l → M r = S r)
    (hN : ∀ r ∈ l, N r = I r) (hN' : ∀ r, r ∉ l → N r = W r) : InvRun base l M N (some (S, W)) := by
  induction l generalizing M N with
  | nil =>
    obtain rfl : M = S := funext fun r => hM' r (by simp)
    obtain rfl : N = W := funext fun r => hN' r (by simp)
    exact .done _ _
  | cons i l ih =>
    obtain ⟨hs1, hs2⟩ := List.nodup_cons.1 hs
    have hi : i ∈ i :: l := List.mem_cons_self
    have upd : ∀ {X Y Z : Fin n → Fin n → E}, (∀ r ∈ i :: l, X r = Y r) → (∀ r, r ∉ i :: l → X r = Z r) →
        (∀ r ∈ l, Function.update X i (Z i) r = Y r) ∧ ∀ r, r ∉ l → Function.update X i (Z i) r = Z r := by
      intro X Y Z h1 h2
      refine ⟨fun r hr => ?_, fun r hr => ?_⟩
      · rw [Function.update_of_ne (show r ≠ i by rintro rfl; exact hs1 hr)]
        exact h1 r (List.mem_cons_of_mem _ hr)
      · by_cases hri : r = i
        · subst hri; rw [Function.update_self]
        · rw [Function.update_of_ne hri]
          exact h2 r (by simp [hri, hr])
    obtain ⟨m1, m2⟩ := upd hM hM'
    obtain ⟨n1, n2⟩ := upd hN hN'
    refine .step i (c i) (Function.update M i (S i)) (Function.update N i (W i)) (Function.update M i (S i)) (Function.update N i (W i))
      ⟨le_rfl, ?_, fun r h1 h2 => absurd h1 (not_le.2 h2)⟩ (by rw [hM i hi]; exact hc i) ⟨fun j => ?_, fun r hr => ?_⟩
      ⟨fun j => ?_, fun r hr => ?_⟩ rfl rfl (fun r hr => .inl ⟨?_, rfl, rfl⟩) (ih hs2 m1 m2 n1 n2)
    · rw [hM i hi]; exact hd i
    · rw [hM i hi, Function.update_self]; exact hA i j
    · rw [Function.update_of_ne hr, Equiv.swap_self, Equiv.refl_apply]
    · rw [hN i hi, Function.update_self]; exact hI i j
    · rw [Function.update_of_ne hr, Equiv.swap_self, Equiv.refl_apply]
    · by_cases h : r ∈ l
      · rw [m1 r h]; exact hl r i hr
      · rw [m2 r h]; exact hS r i hr

/-- C109: whatever the base, `try_inv` of a diagonal matrix multiplies the rows of the identity with the inverses of the diagonal; a
build with debug assertions compares the products of the rows of the matrix with the identity. -/
theorem C109_diagonal {A S W : Fin n → Fin n → E} {e z : E} (c : Fin n → E) (he : base.int 1 = .ok e) (hz : base.zero = .ok z)
    (hl : ∀ r c, r ≠ c → base.isZero (A r c) = .ok true) (hS : ∀ r c, r ≠ c → base.isZero (S r c) = .ok true)
    (hd : ∀ i, base.isZero (A i i) = .ok false) (hc : ∀ i, base.inv (A i i) = .ok (c i))
    (hA : ∀ i j, base.mulAssign (A i j) (c i) = .ok (S i j))
    (hI : ∀ i j, base.mulAssign (if i = j then e else z) (c i) = .ok (W i j)) :
    (MatrixRing.ops base n).tryInv (flatVec A) =
      (debugAssert ((MatrixRing.ops base n).isOne (flatVec S))).bind fun _ => .ok (some (flatVec W)) := by
  have hrun := invRun_of_diagonal (I := fun i j => if i = j then e else z) (l := List.finRange n) (M := A)
    (N := fun i j => if i = j then e else z) c hl hS hd hc hA hI (List.nodup_finRange n) (fun _ _ => rfl)
    (fun r hr => absurd (List.mem_finRange r) hr) (fun _ _ => rfl) (fun r hr => absurd (List.mem_finRange r) hr)
  have hint := (MatrixRing.int_ok_iff base (n := n) 1 (flatVec fun i j => if i = j then e else z)).2 ⟨e, z, he, hz, rfl⟩
  have hloop := (MatrixRing.invLoop_ok_iff base (List.finRange n) A (fun i j => if i = j then e else z)
    (some (flatVec S, flatVec W))).2 ⟨_, rfl, hrun⟩
  rw [List.map_coe_finRange_eq_range] at hloop
  show MatrixRing.tryInv base n (flatVec A) = _
  unfold MatrixRing.tryInv
  rw [hint]
  show (MatrixRing.invLoop base n (List.range n) _ _).bind _ = _
  rw [hloop]
  rfl

theorem detRun_of_singular {A B : Fin n → Fin n → E} {k : Fin n} {z : E} (c : Fin n → E)
    (hl : ∀ r c, c < r → base.isZero (A r c) = .ok true) (hk : base.isZero (A k k) = .ok true) (hz : base.zero = .ok z)
    (hd : ∀ i < k, base.isZero (A i i) = .ok false) (hc : ∀ i < k, base.inv (A i i) = .ok (c i))
    (hB : ∀ i < k, ∀ j, base.mulAssign (A i j) (c i) = .ok (B i j)) {l : List (Fin n)} {M : Fin n → Fin n → E} {d : E}
    (hs : l.Pairwise (· < ·)) (hup : ∀ r ∈ l, ∀ s, r ≤ s → s ∈ l) (hM : ∀ r ∈ l, M r = A r) (hkl : k ∈ l)
    (h : ∃ x, combineAll base.mulAssign d ((l.filter (· < k)).map fun i => A i i) = .ok x) : DetRun base l M d z := by
  induction l generalizing M d with
  | nil => exact absurd hkl (by simp)
  | cons i l ih =>
    obtain ⟨hs1, hs2⟩ := List.pairwise_cons.1 hs
    have hi : i ∈ i :: l := List.mem_cons_self
    by_cases hik : i = k
    · subst hik
      refine .singular (fun r hr => ?_) hz
      rw [hM r (hup i hi r hr)]
      rcases hr.eq_or_lt with rfl | hr
      · exact hk
      · exact hl r i hr
    · have hkl' : k ∈ l := (List.mem_cons.1 hkl).resolve_left fun h => hik h.symm
      have hlt : i < k := hs1 k hkl'
      obtain ⟨x, h⟩ := h
      rw [List.filter_cons_of_pos (by simpa using hlt), List.map_cons, combineAll] at h
      cases hm : base.mulAssign d (A i i) with
      | ok d' =>
        rw [hm] at h
        have hoff : ∀ r, r ≠ i → Function.update M i (B i) r = M r := fun r hr => Function.update_of_ne hr _ _
        have hrow : ∀ r ∈ l, Function.update M i (B i) r = A r := fun r hr => by
          rw [hoff r (ne_of_gt (hs1 r hr)), hM r (List.mem_cons_of_mem _ hr)]
        refine .step i d' (c i) (Function.update M i (B i)) (Function.update M i (B i)) ⟨le_rfl, ?_, fun r h1 h2 => absurd h1 (not_le.2 h2)⟩
          (by rw [hM i hi]; exact hm) (by rw [hM i hi]; exact hc i hlt) ⟨fun j => ?_, fun r hr => ?_⟩ (fun _ _ => rfl)
          (fun r hr => .inl ⟨?_, rfl⟩) (ih hs2 (fun r hr s hrs => ?_) hrow hkl' ⟨x, h⟩)
        · rw [hM i hi]; exact hd i hlt
        · rw [hM i hi, Function.update_self]; exact hB i hlt j
        · rw [hoff r hr, Equiv.swap_self, Equiv.refl_apply]
        · rw [hoff r (ne_of_gt hr), hM r (hup i hi r hr.le)]
          exact hl r i hr
        · rcases List.mem_cons.1 (hup r (List.mem_cons_of_mem _ hr) s hrs) with rfl | h'
          · exact absurd hrs (not_le.2 (hs1 r hr))
          · exact h'
      | panic => rw [hm] at h; cases h
      | diverge => rw [hm] at h; cases h

/-- C109: with a zero on the diagonal the determinant is zero, if the rows before the first zero can be multiplied with the inverses
of their elements of the diagonal, and these elements with each other. -/
theorem C109_triangular_singular {A B : Fin n → Fin n → E} {k : Fin n} {o z : E} (c : Fin n → E)
    (hl : ∀ r c, c < r → base.isZero (A r c) = .ok true) (hk : base.isZero (A k k) = .ok true) (hz : base.zero = .ok z)
    (hd : ∀ i < k, base.isZero (A i i) = .ok false) (hc : ∀ i < k, base.inv (A i i) = .ok (c i))
    (hB : ∀ i < k, ∀ j, base.mulAssign (A i j) (c i) = .ok (B i j)) (ho : base.one = .ok o)
    (h : ∃ x, combineAll base.mulAssign o (((List.finRange n).filter (· < k)).map fun i => A i i) = .ok x) :
    MatrixRing.determinant base n (flatVec A) = .ok z :=
  (C80_determinant base A z).2 ⟨o, ho, detRun_of_singular c hl hk hz hd hc hB (List.pairwise_lt_finRange n)
    (fun _ _ s _ => List.mem_finRange s) (fun _ _ => rfl) (List.mem_finRange k) h⟩

theorem invRun_of_singular {A S I W : Fin n → Fin n → E} {k : Fin n} (c : Fin n → E)
    (hl : ∀ r c, r ≠ c → base.isZero (A r c) = .ok true) (hk : base.isZero (A k k) = .ok true)
    (hS : ∀ r < k, ∀ c, r ≠ c → base.isZero (S r c) = .ok true)
    (hd : ∀ i < k, base.isZero (A i i) = .ok false) (hc : ∀ i < k, base.inv (A i i) = .ok (c i))
    (hA : ∀ i < k, ∀ j, base.mulAssign (A i j) (c i) = .ok (S i j)) (hI : ∀ i < k, ∀ j, base.mulAssign (I i j) (c i) = .ok (W i j))
    {l : List (Fin n)} {M N : Fin n → Fin n → E} (hs : l.Pairwise (· < ·)) (hup : ∀ r ∈ l, ∀ s, r ≤ s → s ∈ l) (hkl : k ∈ l)
    (hM : ∀ r ∈ l, M r = A r) (hM' : ∀ r, r ∉ l → M r = S r) (hN : ∀ r ∈ l, N r = I r) : InvRun base l M N none := by
  induction l generalizing M N with
  | nil => exact absurd hkl (by simp)
  | cons i l ih =>
    obtain ⟨hs1, hs2⟩ := List.pairwise_cons.1 hs
    have hi : i ∈ i :: l := List.mem_cons_self
    by_cases hik : i = k
    · subst hik
      refine .singular fun r hr => ?_
      rw [hM r (hup i hi r hr)]
      rcases hr.eq_or_lt with rfl | hr
      · exact hk
      · exact hl r i (ne_of_gt hr)
    · have hkl' : k ∈ l := (List.mem_cons.1 hkl).resolve_left fun h => hik h.symm
      have hlt : i < k := hs1 k hkl'
      have hil : i ∉ l := fun h => lt_irrefl _ (hs1 i h)
      have m1 : ∀ r ∈ l, Function.update M i (S i) r = A r := fun r hr => by
        rw [Function.update_of_ne (ne_of_gt (hs1 r hr)), hM r (List.mem_cons_of_mem _ hr)]
      have m2 : ∀ r, r ∉ l → Function.update M i (S i) r = S r := fun r hr => by
        by_cases hri : r = i
        · subst hri; rw [Function.update_self]
        · rw [Function.update_of_ne hri]
          exact hM' r (by simp [hri, hr])
      have n1 : ∀ r ∈ l, Function.update N i (W i) r = I r := fun r hr => by
        rw [Function.update_of_ne (ne_of_gt (hs1 r hr)), hN r (List.mem_cons_of_mem _ hr)]
      have hup' : ∀ r ∈ l, ∀ s, r ≤ s → s ∈ l := fun r hr s hrs => by
        rcases List.mem_cons.1 (hup r (List.mem_cons_of_mem _ hr) s hrs) with rfl | h'
        · exact absurd hrs (not_le.2 (hs1 r hr))
        · exact h'
      refine .step i (c i) (Function.update M i (S i)) (Function.update N i (W i)) (Function.update M i (S i)) (Function.update N i (W i))
        ⟨le_rfl, ?_, fun r h1 h2 => absurd h1 (not_le.2 h2)⟩ (by rw [hM i hi]; exact hc i hlt) ⟨fun j => ?_, fun r hr => ?_⟩
        ⟨fun j => ?_, fun r hr => ?_⟩ rfl rfl (fun r hr => .inl ⟨?_, rfl, rfl⟩) (ih hs2 hup' hkl' m1 m2 n1)
      · rw [hM i hi]; exact hd i hlt
      · rw [hM i hi, Function.update_self]; exact hA i hlt j
      · rw [Function.update_of_ne hr, Equiv.swap_self, Equiv.refl_apply]
      · rw [hN i hi, Function.update_self]; exact hI i hlt j
      · rw [Function.update_of_ne hr, Equiv.swap_self, Equiv.refl_apply]
      · by_cases h : r ∈ l
        · rw [m1 r h]; exact hl r i hr
        · rw [m2 r h]
          refine hS r ?_ i hr
          by_contra hkr
          exact h (hup' k hkl' r (not_lt.1 hkr))

/-- C109: with a zero on the diagonal of a diagonal matrix `try_inv` returns `None`, in every build. -/
theorem C109_diagonal_singular {A S W : Fin n → Fin n → E} {k : Fin n} {e z : E} (c : Fin n → E) (he : base.int 1 = .ok e)
    (hz : base.zero = .ok z) (hl : ∀ r c, r ≠ c → base.isZero (A r c) = .ok true) (hk : base.isZero (A k k) = .ok true)
    (hS : ∀ r < k, ∀ c, r ≠ c → base.isZero (S r c) = .ok true)
    (hd : ∀ i < k, base.isZero (A i i) = .ok false) (hc : ∀ i < k, base.inv (A i i) = .ok (c i))
    (hA : ∀ i < k, ∀ j, base.mulAssign (A i j) (c i) = .ok (S i j))
    (hI : ∀ i < k, ∀ j, base.mulAssign (if i = j then e else z) (c i) = .ok (W i j)) :
    (MatrixRing.ops base n).tryInv (flatVec A) = .ok none := by
  have hrun := invRun_of_singular (I := fun i j => if i = j then e else z) (l := List.finRange n) (M := A)
    (N := fun i j => if i = j then e else z) c hl hk hS hd hc hA hI (List.pairwise_lt_finRange n)
    (fun _ _ s _ => List.mem_finRange s) (List.mem_finRange k) (fun _ _ => rfl) (fun r hr => absurd (List.mem_finRange r) hr)
    (fun _ _ => rfl)
  have hint := (MatrixRing.int_ok_iff base (n := n) 1 (flatVec fun i j => if i = j then e else z)).2 ⟨e, z, he, hz, rfl⟩
  have hloop := (MatrixRing.invLoop_ok_iff base (List.finRange n) A (fun i j => if i = j then e else z) none).2 ⟨_, rfl, hrun⟩
  rw [List.map_coe_finRange_eq_range] at hloop
  show MatrixRing.tryInv base n (flatVec A) = _
  unfold MatrixRing.tryInv
  rw [hint]
  show (MatrixRing.invLoop base n (List.range n) _ _).bind _ = _
  rw [hloop]
  rfl

theorem firstPivot_self {M : Fin n → Fin n → E} {i : Fin n} (h : base.isZero (M i i) = .ok false) : FirstPivot base M i i :=
  ⟨le_rfl, h, fun _ h1 h2 => absurd h1 (not_le.2 h2)⟩

theorem invLoop_panics {A S I W : Fin n → Fin n → E} {k : Fin n} (c : Fin n → E)
    (hl : ∀ r c, r ≠ c → base.isZero (A r c) = .ok true) (hk : base.isZero (A k k) = .ok false) (hp : base.inv (A k k) = .panic)
    (hS : ∀ r < k, ∀ c, r ≠ c → base.isZero (S r c) = .ok true)
    (hd : ∀ i < k, base.isZero (A i i) = .ok false) (hc : ∀ i < k, base.inv (A i i) = .ok (c i))
    (hA : ∀ i < k, ∀ j, base.mulAssign (A i j) (c i) = .ok (S i j)) (hI : ∀ i < k, ∀ j, base.mulAssign (I i j) (c i) = .ok (W i j))
    {l : List (Fin n)} {M N : Fin n → Fin n → E} (hs : l.Pairwise (· < ·)) (hup : ∀ r ∈ l, ∀ s, r ≤ s → s ∈ l) (hkl : k ∈ l)
    (hM : ∀ r ∈ l, M r = A r) (hM' : ∀ r, r ∉ l → M r = S r) (hN : ∀ r ∈ l, N r = I r) :
    MatrixRing.invLoop base n (l.map Fin.val) (flatVec M) (flatVec N) = .panic := by
  induction l generalizing M N with
  | nil => exact absurd hkl (by simp)
  | cons i l ih =>
    obtain ⟨hs1, hs2⟩ := List.pairwise_cons.1 hs
    have hi : i ∈ i :: l := List.mem_cons_self
    have hpiv : base.isZero (M i i) = .ok false := by
      rw [hM i hi]
      rcases List.mem_cons.1 hkl with rfl | h
      · exact hk
      · exact hd i (hs1 k h)
    rw [List.map_cons, MatrixRing.invLoop_cons, (MatrixRing.findRow_some_iff base M i i.1).2 ⟨i, rfl, firstPivot_self hpiv⟩]
    show ((if i.1 ≠ i.1 then MatrixRing.swapRows n (flatVec M) i.1 i.1 else .ok (flatVec M)).bind _) = _
    rw [MatrixRing.swapIf, ok_rbind, MatrixRing.swapIf, ok_rbind, idx_flatVec, ok_rbind,
      Equiv.swap_apply_left, hM i hi]
    by_cases hik : i = k
    · subst hik
      rw [hp]
      rfl
    · have hkl' : k ∈ l := (List.mem_cons.1 hkl).resolve_left fun h => hik h.symm
      have hlt : i < k := hs1 k hkl'
      have m1 : ∀ r ∈ l, Function.update M i (S i) r = A r := fun r hr => by
        rw [Function.update_of_ne (ne_of_gt (hs1 r hr)), hM r (List.mem_cons_of_mem _ hr)]
      have m2 : ∀ r, r ∉ l → Function.update M i (S i) r = S r := fun r hr => by
        by_cases hri : r = i
        · subst hri; rw [Function.update_self]
        · rw [Function.update_of_ne hri]
          exact hM' r (by simp [hri, hr])
      have n1 : ∀ r ∈ l, Function.update N i (W i) r = I r := fun r hr => by
        rw [Function.update_of_ne (ne_of_gt (hs1 r hr)), hN r (List.mem_cons_of_mem _ hr)]
      have hup' : ∀ r ∈ l, ∀ s, r ≤ s → s ∈ l := fun r hr s hrs => by
        rcases List.mem_cons.1 (hup r (List.mem_cons_of_mem _ hr) s hrs) with rfl | h'
        · exact absurd hrs (not_le.2 (hs1 r hr))
        · exact h'
      have hM2 : Scaled base i i (c i) M (Function.update M i (S i)) := by
        refine ⟨fun j => ?_, fun r hr => ?_⟩
        · rw [hM i hi, Function.update_self]; exact hA i hlt j
        · rw [Function.update_of_ne hr, Equiv.swap_self, Equiv.refl_apply]
      have hN2 : Scaled base i i (c i) N (Function.update N i (W i)) := by
        refine ⟨fun j => ?_, fun r hr => ?_⟩
        · rw [hN i hi, Function.update_self]; exact hI i hlt j
        · rw [Function.update_of_ne hr, Equiv.swap_self, Equiv.refl_apply]
      rw [hc i hlt, ok_rbind, (MatrixRing.mulRow_swap_ok_iff base M i i (c i) _).2 ⟨_, rfl, hM2⟩, ok_rbind,
        (MatrixRing.mulRow_swap_ok_iff base N i i (c i) _).2 ⟨_, rfl, hN2⟩, ok_rbind,
        (MatrixRing.invClear_ok_iff base (Function.update M i (S i)) (Function.update N i (W i)) i _).2
          ⟨_, _, rfl, rfl, rfl, fun r hr => .inl ⟨?_, rfl⟩⟩, ok_rbind]
      · exact ih hs2 hup' hkl' m1 m2 n1
      · by_cases h : r ∈ l
        · show base.isZero (Function.update M i (S i) r i) = _
          rw [m1 r h]; exact hl r i hr
        · show base.isZero (Function.update M i (S i) r i) = _
          rw [m2 r h]
          refine hS r ?_ i hr
          by_contra hkr
          exact h (hup' k hkl' r (not_lt.1 hkr))

/-- C109: `try_inv` of a diagonal matrix panics, in every build, if the inverse of an element of the diagonal panics before a zero is
found. -/
theorem C109_diagonal_panics {A S W : Fin n → Fin n → E} {k : Fin n} {e z : E} (c : Fin n → E) (he : base.int 1 = .ok e)
    (hz : base.zero = .ok z) (hl : ∀ r c, r ≠ c → base.isZero (A r c) = .ok true) (hk : base.isZero (A k k) = .ok false)
    (hp : base.inv (A k k) = .panic) (hS : ∀ r < k, ∀ c, r ≠ c → base.isZero (S r c) = .ok true)
    (hd : ∀ i < k, base.isZero (A i i) = .ok false) (hc : ∀ i < k, base.inv (A i i) = .ok (c i))
    (hA : ∀ i < k, ∀ j, base.mulAssign (A i j) (c i) = .ok (S i j))
    (hI : ∀ i < k, ∀ j, base.mulAssign (if i = j then e else z) (c i) = .ok (W i j)) :
    (MatrixRing.ops base n).tryInv (flatVec A) = .panic := by
  have hloop := invLoop_panics (I := fun i j => if i = j then e else z) (l := List.finRange n) (M := A)
    (N := fun i j => if i = j then e else z) c hl hk hp hS hd hc hA hI (List.pairwise_lt_finRange n)
    (fun _ _ s _ => List.mem_finRange s) (List.mem_finRange k) (fun _ _ => rfl) (fun r hr => absurd (List.mem_finRange r) hr)
    (fun _ _ => rfl)
  have hint := (MatrixRing.int_ok_iff base (n := n) 1 (flatVec fun i j => if i = j then e else z)).2 ⟨e, z, he, hz, rfl⟩
  rw [List.map_coe_finRange_eq_range] at hloop
  show MatrixRing.tryInv base n (flatVec A) = _
  unfold MatrixRing.tryInv
  rw [hint]
  show (MatrixRing.invLoop base n (List.range n) _ _).bind _ = _
  rw [hloop]
  rfl

theorem detLoop_panics {A B : Fin n → Fin n → E} {k : Fin n} (c : Fin n → E)
    (hl : ∀ r c, c < r → base.isZero (A r c) = .ok true) (hk : base.isZero (A k k) = .ok false)
    (hd : ∀ i < k, base.isZero (A i i) = .ok false) (hc : ∀ i < k, base.inv (A i i) = .ok (c i))
    (hB : ∀ i < k, ∀ j, base.mulAssign (A i j) (c i) = .ok (B i j)) {l : List (Fin n)} {M : Fin n → Fin n → E} {d x : E}
    (hs : l.Pairwise (· < ·)) (hup : ∀ r ∈ l, ∀ s, r ≤ s → s ∈ l) (hM : ∀ r ∈ l, M r = A r) (hkl : k ∈ l)
    (h : combineAll base.mulAssign d ((l.filter (· < k)).map fun i => A i i) = .ok x)
    (hp : (base.mulAssign x (A k k)).bind (fun _ => base.inv (A k k)) = .panic) :
    MatrixRing.detLoop base n (l.map Fin.val) (flatVec M) d = .panic := by
  induction l generalizing M d with
  | nil => exact absurd hkl (by simp)
  | cons i l ih =>
    obtain ⟨hs1, hs2⟩ := List.pairwise_cons.1 hs
    have hi : i ∈ i :: l := List.mem_cons_self
    have hpiv : base.isZero (M i i) = .ok false := by
      rw [hM i hi]
      rcases List.mem_cons.1 hkl with rfl | h
      · exact hk
      · exact hd i (hs1 k h)
    rw [List.map_cons, MatrixRing.detLoop_cons, (MatrixRing.findRow_some_iff base M i i.1).2 ⟨i, rfl, firstPivot_self hpiv⟩]
    show ((if i.1 ≠ i.1 then MatrixRing.swapRows n (flatVec M) i.1 i.1 else .ok (flatVec M)).bind _) = _
    rw [MatrixRing.swapIf, ok_rbind, idx_flatVec, ok_rbind, Equiv.swap_apply_left, hM i hi]
    by_cases hik : i = k
    · subst hik
      have hnil : (i :: l).filter (· < i) = [] := List.filter_eq_nil_iff.2 fun r hr => by
        rcases List.mem_cons.1 hr with rfl | hr
        · simp
        · simpa using (hs1 r hr).le
      rw [hnil] at h
      cases h
      cases hm : base.mulAssign x (A i i) with
      | ok d' =>
        rw [hm, ok_rbind] at hp
        rw [ok_rbind, hp]
        rfl
      | panic => rfl
      | diverge => rw [hm] at hp; cases hp
    · have hkl' : k ∈ l := (List.mem_cons.1 hkl).resolve_left fun h => hik h.symm
      have hlt : i < k := hs1 k hkl'
      rw [List.filter_cons_of_pos (by simpa using hlt), List.map_cons, combineAll] at h
      cases hm : base.mulAssign d (A i i) with
      | ok d' =>
        rw [hm] at h
        have hoff : ∀ r, r ≠ i → Function.update M i (B i) r = M r := fun r hr => Function.update_of_ne hr _ _
        have hrow : ∀ r ∈ l, Function.update M i (B i) r = A r := fun r hr => by
          rw [hoff r (ne_of_gt (hs1 r hr)), hM r (List.mem_cons_of_mem _ hr)]
        have hM2 : Scaled base i i (c i) M (Function.update M i (B i)) := by
          refine ⟨fun j => ?_, fun r hr => ?_⟩
          · rw [hM i hi, Function.update_self]; exact hB i hlt j
          · rw [hoff r hr, Equiv.swap_self, Equiv.refl_apply]
        rw [ok_rbind, hc i hlt, ok_rbind, (MatrixRing.mulRow_swap_ok_iff base M i i (c i) _).2 ⟨_, rfl, hM2⟩, ok_rbind,
          (MatrixRing.detClear_ok_iff base (Function.update M i (B i)) i _).2 ⟨_, rfl, fun _ _ => rfl, fun r hr => .inl ⟨?_, rfl⟩⟩, ok_rbind]
        · refine ih hs2 (fun r hr s hrs => ?_) hrow hkl' h
          rcases List.mem_cons.1 (hup r (List.mem_cons_of_mem _ hr) s hrs) with rfl | h'
          · exact absurd hrs (not_le.2 (hs1 r hr))
          · exact h'
        · rw [hoff r (ne_of_gt hr), hM r (hup i hi r hr.le)]
          exact hl r i hr
      | panic => rw [hm] at h; cases h
      | diverge => rw [hm] at h; cases h

/-- C109: the determinant of an upper triangular matrix panics if the product with an element of the diagonal or the inverse of that
element panics before a zero is found, although the inverse of the last element is not needed. -/
theorem C109_triangular_panics {A B : Fin n → Fin n → E} {k : Fin n} {o x : E} (c : Fin n → E)
    (hl : ∀ r c, c < r → base.isZero (A r c) = .ok true) (hk : base.isZero (A k k) = .ok false)
    (hd : ∀ i < k, base.isZero (A i i) = .ok false) (hc : ∀ i < k, base.inv (A i i) = .ok (c i))
    (hB : ∀ i < k, ∀ j, base.mulAssign (A i j) (c i) = .ok (B i j)) (ho : base.one = .ok o)
    (h : combineAll base.mulAssign o (((List.finRange n).filter (· < k)).map fun i => A i i) = .ok x)
    (hp : (base.mulAssign x (A k k)).bind (fun _ => base.inv (A k k)) = .panic) :
    MatrixRing.determinant base n (flatVec A) = .panic := by
  have := detLoop_panics c hl hk hd hc hB (List.pairwise_lt_finRange n) (fun _ _ s _ => List.mem_finRange s) (fun _ _ => rfl)
    (List.mem_finRange k) h hp
  rw [List.map_coe_finRange_eq_range] at this
  show base.one.bind _ = _
  rw [ho]
  exact this

end bases

section floats

variable [Cfg] {F : FloatFormat} {n : ℕ}

theorem isZero_float {a : F.Val} {x : ℚ} (h : FloatRep a x) : (ApproxFloats.field F).isZero a = .ok (decide (x = 0)) :=
  (C55_equals h h).2.1

theorem mul_exact {a b : F.Val} {x y : ℚ} (ha : FloatRep a x) (hb : FloatRep b y) (h : IsFloat F (x * y)) :
    ∃ c, (ApproxFloats.field F).mulAssign a b = .ok c ∧ FloatRep c (x * y) :=
  returns_false_iff.1 (rounded_exact (C55_mul ha hb).2.1 h)

/-- C109: the determinant of an upper triangular matrix of floats, when it returns, is the product of the diagonal up to the error of
the products, and exactly zero if there is a zero on the diagonal. -/
theorem C109_floats_determinant {v : List F.Val} {M : Matrix (Fin n) (Fin n) ℚ} (hv : MatRep FloatRep v M)
    (hl : ∀ r c, c < r → M r c = 0) {d : F.Val} (hd : MatrixRing.determinant (ApproxFloats.field F) n v = .ok d) :
    ∃ x, FloatRep d x ∧ |x - M.det| ≤ productBound F (List.ofFn fun i => M i i) ∧ (M.det = 0 → x = 0) := by
  obtain ⟨A, rfl⟩ := flatVec_surj hv.1
  have hA : ∀ i j, FloatRep (A i j) (M i j) := fun i j => by
    obtain ⟨a, h1, h2⟩ := hv.2 i j
    rw [flatVec_get] at h1
    cases h1
    exact h2
  have hdet : M.det = ∏ i, M i i := Matrix.det_of_isUpperTriangular fun r c h => hl r c h
  have hbound : 0 ≤ productBound F (List.ofFn fun i => M i i) := by
    have hu := (unitRoundoff_pos (F := F)).le
    unfold productBound
    refine add_nonneg (mul_nonneg (sub_nonneg.2 (one_le_pow₀ (by linarith))) (abs_nonneg _)) (mul_nonneg (by positivity) ?_)
    exact List.sum_nonneg fun t ht => by
      obtain ⟨s, _, rfl⟩ := List.mem_map.1 ht
      exact abs_nonneg _
  rcases C109_triangular (fun r c h => by rw [isZero_float (hA r c), decide_eq_true (hl r c h)]) hd with ⟨o, ho, h1, h2⟩ | ⟨i, h1, -, h2⟩
  · obtain ⟨o', ho', hone⟩ := (C55_constants (F := F)).2
    rw [ho] at ho'
    cases ho'
    have hl : List.Forall₂ FloatRep (List.ofFn fun i => A i i) (List.ofFn fun i => M i i) := by
      rw [List.ofFn_eq_map, List.ofFn_eq_map, List.forall₂_map_left_iff, List.forall₂_map_right_iff, List.forall₂_same]
      exact fun i _ => hA i i
    obtain ⟨x, hx, h9⟩ := product_error hone hl h2
    refine ⟨x, hx, ?_, fun h0 => ?_⟩
    · rw [one_mul, List.prod_ofFn] at h9
      rw [hdet, productBound, List.prod_ofFn]
      exact h9
    · rw [hdet] at h0
      obtain ⟨i, _, h3⟩ := Finset.prod_eq_zero_iff.1 h0
      have h4 := h1 i
      rw [isZero_float (hA i i), decide_eq_true h3] at h4
      cases h4
  · obtain ⟨z, hz, hzero⟩ := (C55_constants (F := F)).1
    rw [h2] at hz
    cases hz
    rw [isZero_float (hA i i)] at h1
    have h0 : M.det = 0 := by
      rw [hdet]
      exact Finset.prod_eq_zero (Finset.mem_univ i) (of_decide_eq_true (Res.ok.inj h1))
    exact ⟨0, hzero, by rw [h0, sub_zero, abs_zero]; exact hbound, fun _ => rfl⟩

theorem allRes_ok {α : Type} {f : α → Res Bool} {g : α → Bool} (h : ∀ a, f a = .ok (g a)) (l : List α) :
    allRes f l = .ok (l.all g) := by
  induction l with
  | nil => rfl
  | cons a l ih =>
    rw [allRes, h, List.all_cons, ih]
    cases g a <;> rfl

theorem isOne_floats {S : Fin n → Fin n → F.Val} {s : Matrix (Fin n) (Fin n) ℚ} (hS : ∀ i j, FloatRep (S i j) (s i j)) :
    (MatrixRing.ops (ApproxFloats.field F) n).isOne (flatVec S) = .ok (decide (s = 1)) := by
  obtain ⟨o, ho, ho1⟩ := (C56_int (F := F) 1).1 floatRep_one.isFloat
  rw [Int.cast_one] at ho1
  obtain ⟨z, hz, hz0⟩ := (C55_constants (F := F)).1
  have hint := (MatrixRing.int_ok_iff (ApproxFloats.field F) (n := n) 1 _).2 ⟨o, z, ho, hz, rfl⟩
  show MatrixRing.isOne _ n _ = _
  unfold MatrixRing.isOne
  rw [hint, ok_bind]
  show (Res.assert _ >>= fun _ => allRes _ _) = _
  rw [flatVec_length, flatVec_length, beq_self_eq_true, Bool.and_self, assert_true, ok_bind]
  have hzip : (flatVec S).zip (flatVec fun i j : Fin n => if i = j then o else z) =
      flatVec fun i j => (S i j, if i = j then o else z) := by
    have h1 : flatVec S = (flatVec fun i j => (S i j, if i = j then o else z)).map Prod.fst := by rw [Graded.flatVec_map]
    have h2 : (flatVec fun i j : Fin n => if i = j then o else z) =
        (flatVec fun i j => (S i j, if i = j then o else z)).map Prod.snd := by rw [Graded.flatVec_map]
    rw [h2, h1, List.zip_map']
    exact List.map_id' _
  rw [hzip, allRes_ok (f := fun p : F.Val × F.Val => (ApproxFloats.field F).equals p.1 p.2) (g := fun p => p.1.eq p.2) (fun _ => rfl)]
  refine congrArg Res.ok (Bool.eq_iff_iff.2 ?_)
  rw [List.all_eq_true, decide_eq_true_iff]
  have hent : ∀ i j, (S i j).eq (if i = j then o else z) = decide (s i j = (1 : Matrix (Fin n) (Fin n) ℚ) i j) := fun i j => by
    refine (hS i j).eq ?_
    rw [Matrix.one_apply]
    split
    · exact ho1
    · exact hz0
  constructor
  · intro h
    ext i j
    have := h (S i j, if i = j then o else z) (List.mem_of_getElem? (flatVec_get _ i j))
    rw [hent] at this
    exact of_decide_eq_true this
  · rintro h p hp
    simp only [flatVec, List.mem_flatten, List.mem_ofFn] at hp
    obtain ⟨_, ⟨i, rfl⟩, hp⟩ := hp
    obtain ⟨j, rfl⟩ := List.mem_ofFn.1 hp
    rw [hent, h, decide_eq_true rfl]

/-- C109: `try_inv` of a diagonal matrix of nonzero floats whose inverses do not overflow returns the rounded inverses on the
diagonal, except that a build with debug assertions panics if for some element of the diagonal the rounded product with its rounded
inverse is not one. -/
theorem C109_floats_inverse (hF : 2 ≤ F.prec) {v : List F.Val} {x : Fin n → ℚ} (hv : MatRep FloatRep v (Matrix.diagonal x))
    (hx : ∀ i, x i ≠ 0) (hov : ∀ i, ¬ Overflows F (x i)⁻¹) :
    ∃ (y z : Fin n → ℚ) (w : List F.Val), (∀ i, RoundsTo F (x i)⁻¹ (y i)) ∧ (∀ i, RoundsTo F (x i * y i) (z i)) ∧
      MatRep FloatRep w (Matrix.diagonal y) ∧
      (MatrixRing.ops (ApproxFloats.field F) n).tryInv v =
        if Cfg.debugAssertions = true ∧ ∃ i, z i ≠ 1 then .panic else .ok (some w) := by
  obtain ⟨A, rfl⟩ := flatVec_surj hv.1
  have hA : ∀ i j, FloatRep (A i j) (Matrix.diagonal x i j) := fun i j => by
    obtain ⟨a, h1, h2⟩ := hv.2 i j
    rw [flatVec_get] at h1
    cases h1
    exact h2
  have hAd : ∀ i, FloatRep (A i i) (x i) := fun i => by
    have := hA i i
    rwa [Matrix.diagonal_apply_eq] at this
  have hAo : ∀ i j, i ≠ j → FloatRep (A i j) 0 := fun i j h => by
    have := hA i j
    rwa [Matrix.diagonal_apply_ne _ h] at this
  choose c y hc hcy hy using fun i => ((C55_inv (hAd i)).2 (hx i)).2 (hov i)
  have hnov : ∀ i, ¬ Overflows F (x i * y i) := fun i => (hy i).mul_inv_not_overflows hF
  choose e z he hez hz using fun i => (C55_mul (hAd i) (hcy i)).2.1.2 (hnov i)
  obtain ⟨o, ho, ho1⟩ := (C56_int (F := F) 1).1 floatRep_one.isFloat
  rw [Int.cast_one] at ho1
  obtain ⟨t, ht, ht0⟩ := (C55_constants (F := F)).1
  have hzero : ∀ {a : F.Val} {i : Fin n}, FloatRep a 0 → ∃ b, (ApproxFloats.field F).mulAssign a (c i) = .ok b ∧ FloatRep b 0 := by
    intro a i ha
    obtain ⟨b, h1, h2⟩ := mul_exact ha (hcy i) (by rw [zero_mul]; exact isFloat_zero)
    rw [zero_mul] at h2
    exact ⟨b, h1, h2⟩
  have hSex : ∀ i j, ∃ b, (ApproxFloats.field F).mulAssign (A i j) (c i) = .ok b ∧ FloatRep b (Matrix.diagonal z i j) := by
    intro i j
    by_cases h : i = j
    · subst h
      rw [Matrix.diagonal_apply_eq]
      exact ⟨_, he i, hez i⟩
    · rw [Matrix.diagonal_apply_ne _ h]
      exact hzero (hAo i j h)
  have hWex : ∀ i j, ∃ b, (ApproxFloats.field F).mulAssign (if i = j then o else t) (c i) = .ok b ∧ FloatRep b (Matrix.diagonal y i j) := by
    intro i j
    by_cases h : i = j
    · subst h
      rw [if_pos rfl, Matrix.diagonal_apply_eq]
      obtain ⟨b, h1, h2⟩ := mul_exact ho1 (hcy i) (by rw [one_mul]; exact (hcy i).isFloat)
      rw [one_mul] at h2
      exact ⟨b, h1, h2⟩
    · rw [if_neg h, Matrix.diagonal_apply_ne _ h]
      exact hzero ht0
  choose S hS hSr using hSex
  choose W hW hWr using hWex
  refine ⟨y, z, flatVec W, hy, hz, ⟨flatVec_length W, fun i j => ⟨_, flatVec_get W i j, hWr i j⟩⟩, ?_⟩
  rw [C109_diagonal c ho ht (fun i j h => by rw [isZero_float (hAo i j h), decide_eq_true rfl])
    (fun i j h => by
      have := hSr i j
      rw [Matrix.diagonal_apply_ne _ h] at this
      rw [isZero_float this, decide_eq_true rfl])
    (fun i => by rw [isZero_float (hAd i), decide_eq_false (hx i)]) hc hS hW, isOne_floats hSr]
  have hiff : Matrix.diagonal z = 1 ↔ ¬ ∃ i, z i ≠ 1 := by
    rw [← Matrix.diagonal_one, Matrix.diagonal_injective.eq_iff, funext_iff]
    push Not
    rfl
  unfold debugAssert
  by_cases hdb : Cfg.debugAssertions = true
  · by_cases hz1 : ∃ i, z i ≠ 1
    · have h1 : decide (Matrix.diagonal z = 1) = false := decide_eq_false fun h => hiff.1 h hz1
      rw [if_pos hdb, if_pos (And.intro hdb hz1), h1]
      rfl
    · have h1 : decide (Matrix.diagonal z = 1) = true := decide_eq_true (hiff.2 hz1)
      have h2 : ¬ (Cfg.debugAssertions = true ∧ ∃ i, z i ≠ 1) := fun h => hz1 h.2
      rw [if_pos hdb, if_neg h2, h1]
      rfl
  · have h2 : ¬ (Cfg.debugAssertions = true ∧ ∃ i, z i ≠ 1) := fun h => hdb h.1
    rw [if_neg hdb, if_neg h2]
    rfl

/-- C109: let the first elements of the diagonal have no zero and no inverse that overflows. If the next one is zero then `try_inv`
returns `None`; if it is nonzero and its inverse overflows then `try_inv` panics. -/
theorem C109_floats_stops (hF : 2 ≤ F.prec) {v : List F.Val} {x : Fin n → ℚ} (hv : MatRep FloatRep v (Matrix.diagonal x))
    {k : Fin n} (hx : ∀ i < k, x i ≠ 0) (hov : ∀ i < k, ¬ Overflows F (x i)⁻¹) :
    (x k = 0 → (MatrixRing.ops (ApproxFloats.field F) n).tryInv v = .ok none) ∧
    (x k ≠ 0 → Overflows F (x k)⁻¹ → (MatrixRing.ops (ApproxFloats.field F) n).tryInv v = .panic) := by
  obtain ⟨A, rfl⟩ := flatVec_surj hv.1
  have hA : ∀ i j, FloatRep (A i j) (Matrix.diagonal x i j) := fun i j => by
    obtain ⟨a, h1, h2⟩ := hv.2 i j
    rw [flatVec_get] at h1
    cases h1
    exact h2
  have hAd : ∀ i, FloatRep (A i i) (x i) := fun i => by
    have := hA i i
    rwa [Matrix.diagonal_apply_eq] at this
  have hAo : ∀ i j, i ≠ j → FloatRep (A i j) 0 := fun i j h => by
    have := hA i j
    rwa [Matrix.diagonal_apply_ne _ h] at this
  obtain ⟨o, ho, ho1⟩ := (C56_int (F := F) 1).1 floatRep_one.isFloat
  rw [Int.cast_one] at ho1
  obtain ⟨t, ht, ht0⟩ := (C55_constants (F := F)).1
  have hc : ∀ i, ∃ c, i < k → (ApproxFloats.field F).inv (A i i) = .ok c ∧ ∃ y, FloatRep c y ∧ RoundsTo F (x i)⁻¹ y := fun i => by
    by_cases h : i < k
    · obtain ⟨c, y, h1, h2, h3⟩ := ((C55_inv (hAd i)).2 (hx i h)).2 (hov i h)
      exact ⟨c, fun _ => ⟨h1, y, h2, h3⟩⟩
    · exact ⟨o, fun h' => absurd h' h⟩
  choose c hc using hc
  have hzero : ∀ {a : F.Val} {i : Fin n}, i < k → FloatRep a 0 → ∃ b, (ApproxFloats.field F).mulAssign a (c i) = .ok b ∧ FloatRep b 0 := by
    intro a i hi ha
    obtain ⟨-, y, hy, -⟩ := hc i hi
    obtain ⟨b, h1, h2⟩ := mul_exact ha hy (by rw [zero_mul]; exact isFloat_zero)
    rw [zero_mul] at h2
    exact ⟨b, h1, h2⟩
  have hSex : ∀ i j, ∃ b, i < k → (ApproxFloats.field F).mulAssign (A i j) (c i) = .ok b ∧ (i ≠ j → FloatRep b 0) := by
    intro i j
    by_cases hi : i < k
    · by_cases h : i = j
      · subst h
        obtain ⟨-, y, hy, hr⟩ := hc i hi
        obtain ⟨e, _, he, -⟩ := (C55_mul (hAd i) hy).2.1.2 (hr.mul_inv_not_overflows hF)
        exact ⟨e, fun _ => ⟨he, fun h => absurd rfl h⟩⟩
      · obtain ⟨b, h1, h2⟩ := hzero hi (hAo i j h)
        exact ⟨b, fun _ => ⟨h1, fun _ => h2⟩⟩
    · exact ⟨o, fun h' => absurd h' hi⟩
  have hWex : ∀ i j, ∃ b, i < k → (ApproxFloats.field F).mulAssign (if i = j then o else t) (c i) = .ok b := by
    intro i j
    by_cases hi : i < k
    · by_cases h : i = j
      · obtain ⟨-, y, hy, hr⟩ := hc i hi
        obtain ⟨b, h1, -⟩ := mul_exact ho1 hy (by rw [one_mul]; exact hy.isFloat)
        exact ⟨b, fun _ => by rw [if_pos h]; exact h1⟩
      · obtain ⟨b, h1, -⟩ := hzero hi ht0
        exact ⟨b, fun _ => by rw [if_neg h]; exact h1⟩
    · exact ⟨o, fun h' => absurd h' hi⟩
  choose S hS using hSex
  choose W hW using hWex
  have hz0 : ∀ i j, i ≠ j → (ApproxFloats.field F).isZero (A i j) = .ok true := fun i j h => by
    rw [isZero_float (hAo i j h), decide_eq_true rfl]
  have hS0 : ∀ i < k, ∀ j, i ≠ j → (ApproxFloats.field F).isZero (S i j) = .ok true := fun i hi j h => by
    rw [isZero_float ((hS i j hi).2 h), decide_eq_true rfl]
  have hd0 : ∀ i < k, (ApproxFloats.field F).isZero (A i i) = .ok false := fun i hi => by
    rw [isZero_float (hAd i), decide_eq_false (hx i hi)]
  refine ⟨fun hk => ?_, fun hk hov' => ?_⟩
  · exact C109_diagonal_singular c ho ht hz0 (by rw [isZero_float (hAd k), decide_eq_true hk]) hS0 hd0 (fun i hi => (hc i hi).1)
      (fun i hi j => (hS i j hi).1) (fun i hi j => hW i j hi)
  · exact C109_diagonal_panics c ho ht hz0 (by rw [isZero_float (hAd k), decide_eq_false hk]) (((C55_inv (hAd k)).2 hk).1 hov') hS0 hd0
      (fun i hi => (hc i hi).1) (fun i hi j => (hS i j hi).1) (fun i hi j => hW i j hi)

theorem f32_power (k : ℤ) (h1 : -149 ≤ k) (h2 : k ≤ 104) : IsFloat .f32 (2 ^ k) :=
  ⟨1, k, by decide, h1, h2, by rw [abs_of_pos (by positivity), Nat.cast_one, one_mul]⟩

/-- The upper triangular matrix with the rows (2, 1), (0, 4), as floats of 32 bits: its determinant returns, and it is 8. -/
example : ∃ (v : List FloatFormat.f32.Val) (d : FloatFormat.f32.Val), MatRep FloatRep v (!![2, 1; 0, 4] : Matrix _ _ ℚ) ∧
    MatrixRing.determinant (ApproxFloats.field .f32) 2 v = .ok d ∧ FloatRep d 8 ∧
    |8 - (!![2, 1; 0, 4] : Matrix (Fin 2) (Fin 2) ℚ).det| ≤ productBound .f32 [2, 4] := by
  have p0 : IsFloat .f32 1 := by simpa using f32_power 0 (by decide) (by decide)
  have p1 : IsFloat .f32 2 := by simpa using f32_power 1 (by decide) (by decide)
  have p2 : IsFloat .f32 4 := by have := f32_power 2 (by decide) (by decide); norm_num at this; exact this
  have p3 : IsFloat .f32 8 := by have := f32_power 3 (by decide) (by decide); norm_num at this; exact this
  have q1 : IsFloat .f32 (1 / 2) := by have := f32_power (-1) (by decide) (by decide); norm_num at this ⊢; exact this
  have q2 : IsFloat .f32 (1 / 4) := by have := f32_power (-2) (by decide) (by decide); norm_num at this ⊢; exact this
  obtain ⟨a, ha⟩ := p1.rep
  obtain ⟨b, hb⟩ := p0.rep
  obtain ⟨z, hz⟩ := (isFloat_zero (F := .f32)).rep
  obtain ⟨e, he⟩ := p2.rep
  have hA : ∀ i j, FloatRep (![![a, b], ![z, e]] i j) ((!![2, 1; 0, 4] : Matrix _ _ ℚ) i j) := by
    intro i j
    fin_cases i <;> fin_cases j <;> assumption
  obtain ⟨c, hc, hc'⟩ := returns_false_iff.1 (rounded_exact ((C55_inv ha).2 (by norm_num)) (by rw [inv_eq_one_div]; exact q1))
  obtain ⟨f, hf, hf'⟩ := returns_false_iff.1 (rounded_exact ((C55_inv he).2 (by norm_num)) (by rw [inv_eq_one_div]; exact q2))
  have hB : ∀ i j, ∃ r, (ApproxFloats.field .f32).mulAssign (![![a, b], ![z, e]] i j) (![c, f] i) = .ok r := by
    intro i j
    fin_cases i <;> fin_cases j
    · exact (mul_exact ha hc' (by norm_num; exact p0)).imp fun _ h => h.1
    · exact (mul_exact hb hc' (by norm_num; exact (one_div (2 : ℚ)) ▸ q1)).imp fun _ h => h.1
    · exact (mul_exact hz hf' (by norm_num; exact isFloat_zero)).imp fun _ h => h.1
    · exact (mul_exact he hf' (by norm_num; exact p0)).imp fun _ h => h.1
  choose B hB using hB
  obtain ⟨o, ho, hone⟩ := (C55_constants (F := .f32)).2
  obtain ⟨s, hs, hs'⟩ := mul_exact hone ha (by norm_num; exact p1)
  obtain ⟨d, hd, hd'⟩ := mul_exact hs' he (by norm_num; exact p3)
  have hdet : MatrixRing.determinant (ApproxFloats.field .f32) 2 (flatVec ![![a, b], ![z, e]]) = .ok d := by
    refine C109_triangular_returns (B := B) ![c, f] (fun i j h => ?_) (fun i => ?_) (fun i => ?_) hB ho ?_
    · rw [isZero_float (hA i j)]
      fin_cases i <;> fin_cases j <;> first | rfl | exact absurd h (by decide)
    · rw [isZero_float (hA i i)]
      fin_cases i <;> exact congrArg Res.ok (decide_eq_false (by norm_num))
    · fin_cases i
      · exact hc
      · exact hf
    · show ((ApproxFloats.field .f32).mulAssign o a).bind _ = _
      rw [hs]
      show ((ApproxFloats.field .f32).mulAssign s e).bind _ = _
      rw [hd]
      rfl
  have h8 : FloatRep d 8 := by
    have h : (1 : ℚ) * 2 * 4 = 8 := by norm_num
    exact h ▸ hd'
  have hv : MatRep FloatRep (flatVec ![![a, b], ![z, e]]) (!![2, 1; 0, 4] : Matrix _ _ ℚ) :=
    ⟨flatVec_length _, fun i j => ⟨_, flatVec_get _ i j, hA i j⟩⟩
  obtain ⟨x, hx, h1, -⟩ := C109_floats_determinant hv (fun i j h => by
    fin_cases i <;> fin_cases j <;> first | rfl | exact absurd h (by decide)) hdet
  cases hx.unique h8
  exact ⟨_, d, hv, hdet, h8, h1⟩

/-- The inverse of the diagonal matrix with 2 and 1/4 on the diagonal, as floats of 32 bits, in every build. -/
example : ∃ v w : List FloatFormat.f32.Val, MatRep FloatRep v (Matrix.diagonal ![2, 1 / 4]) ∧
    MatRep FloatRep w (Matrix.diagonal ![1 / 2, 4]) ∧
    (MatrixRing.ops (ApproxFloats.field .f32) 2).tryInv v = .ok (some w) := by
  have p0 : IsFloat .f32 1 := by simpa using f32_power 0 (by decide) (by decide)
  have p1 : IsFloat .f32 2 := by simpa using f32_power 1 (by decide) (by decide)
  have p2 : IsFloat .f32 4 := by have := f32_power 2 (by decide) (by decide); norm_num at this; exact this
  have q1 : IsFloat .f32 (1 / 2) := by have := f32_power (-1) (by decide) (by decide); norm_num at this ⊢; exact this
  have q2 : IsFloat .f32 (1 / 4) := by have := f32_power (-2) (by decide) (by decide); norm_num at this ⊢; exact this
  obtain ⟨a, ha⟩ := p1.rep
  obtain ⟨z, hz⟩ := (isFloat_zero (F := .f32)).rep
  obtain ⟨e, he⟩ := q2.rep
  have hinv : ∀ i, (![2, 1 / 4] i : ℚ)⁻¹ = ![1 / 2, 4] i := fun i => by fin_cases i <;> norm_num
  have hfl : ∀ i, IsFloat .f32 (![1 / 2, 4] i) := fun i => by
    fin_cases i
    · exact q1
    · exact p2
  have hv : MatRep FloatRep (flatVec ![![a, z], ![z, e]]) (Matrix.diagonal ![2, 1 / 4]) := by
    refine ⟨flatVec_length _, fun i j => ⟨_, flatVec_get _ i j, ?_⟩⟩
    fin_cases i <;> fin_cases j <;> simp <;> first | assumption | simpa using he
  obtain ⟨y, t, w, hy, ht, hw, h⟩ := C109_floats_inverse (by decide) hv (fun i => by fin_cases i <;> norm_num)
    (fun i => by rw [hinv]; exact (hfl i).not_overflows)
  have hy' : y = ![1 / 2, 4] := funext fun i => by
    have := hy i
    rw [hinv] at this
    exact this.unique (roundsTo_self (hfl i))
  have ht' : ∀ i, t i = 1 := fun i => by
    have := ht i
    rw [hy', ← hinv, mul_inv_cancel₀ (by fin_cases i <;> norm_num)] at this
    exact this.unique (roundsTo_self p0)
  rw [if_neg (fun h => by obtain ⟨_, i, hi⟩ := h; exact hi (ht' i))] at h
  exact ⟨_, w, hv, hy' ▸ hw, h⟩

/-- The diagonal matrix with 2 and 0 on the diagonal has no inverse, and its determinant is zero. -/
example : ∃ v : List FloatFormat.f32.Val, MatRep FloatRep v (Matrix.diagonal ![2, 0]) ∧
    (MatrixRing.ops (ApproxFloats.field .f32) 2).tryInv v = .ok none ∧
    ∃ d, MatrixRing.determinant (ApproxFloats.field .f32) 2 v = .ok d ∧ FloatRep d 0 := by
  have p0 : IsFloat .f32 1 := by simpa using f32_power 0 (by decide) (by decide)
  have p1 : IsFloat .f32 2 := by simpa using f32_power 1 (by decide) (by decide)
  have q1 : IsFloat .f32 (1 / 2) := by have := f32_power (-1) (by decide) (by decide); norm_num at this ⊢; exact this
  obtain ⟨a, ha⟩ := p1.rep
  obtain ⟨z, hz⟩ := (isFloat_zero (F := .f32)).rep
  have hA : ∀ i j, FloatRep (![![a, z], ![z, z]] i j) ((!![2, 0; 0, 0] : Matrix _ _ ℚ) i j) := by
    intro i j
    fin_cases i <;> fin_cases j <;> assumption
  have hv : MatRep FloatRep (flatVec ![![a, z], ![z, z]]) (Matrix.diagonal ![2, 0]) := by
    refine ⟨flatVec_length _, fun i j => ⟨_, flatVec_get _ i j, ?_⟩⟩
    fin_cases i <;> fin_cases j <;> simp <;> assumption
  have h0 : ∀ i : Fin 2, i < 1 → i = 0 := by decide
  obtain ⟨c, hc, hc'⟩ := returns_false_iff.1 (rounded_exact ((C55_inv ha).2 (by norm_num)) (by rw [inv_eq_one_div]; exact q1))
  have hB : ∀ i j, ∃ r, (ApproxFloats.field .f32).mulAssign (![![a, z], ![z, z]] i j) c = .ok r := by
    intro i j
    fin_cases i <;> fin_cases j
    · exact (mul_exact ha hc' (by norm_num; exact p0)).imp fun _ h => h.1
    all_goals exact (mul_exact hz hc' (by norm_num; exact isFloat_zero)).imp fun _ h => h.1
  choose B hB using hB
  obtain ⟨o, ho, hone⟩ := (C55_constants (F := .f32)).2
  obtain ⟨t, ht, ht0⟩ := (C55_constants (F := .f32)).1
  obtain ⟨s, hs, -⟩ := mul_exact hone ha (by norm_num; exact p1)
  refine ⟨_, hv, (C109_floats_stops (by decide) hv (k := 1) (fun i hi => ?_) (fun i hi => ?_)).1 rfl, t, ?_, ht0⟩
  · rw [h0 i hi]; norm_num
  · rw [h0 i hi]
    have : (![2, 0] 0 : ℚ)⁻¹ = 1 / 2 := by norm_num
    rw [this]
    exact q1.not_overflows
  · refine C109_triangular_singular (k := 1) (B := B) (fun _ => c) (fun i j h => ?_) ?_ ht (fun i hi => ?_) (fun i hi => ?_)
      (fun i _ j => hB i j) ho ⟨s, ?_⟩
    · rw [isZero_float (hA i j)]
      fin_cases i <;> fin_cases j <;> first | rfl | exact absurd h (by decide)
    · rw [isZero_float (hA 1 1)]
      rfl
    · rw [h0 i hi, isZero_float (hA 0 0)]
      exact congrArg Res.ok (decide_eq_false (by norm_num))
    · rw [h0 i hi]
      exact hc
    · show ((ApproxFloats.field .f32).mulAssign o a).bind _ = _
      rw [hs]
      rfl

/-- The diagonal matrix with 2 and the least positive number of the format on the diagonal: the inverse overflows. -/
example : ∃ v : List FloatFormat.f32.Val, MatRep FloatRep v (Matrix.diagonal ![2, 2 ^ (-149 : ℤ)]) ∧
    (MatrixRing.ops (ApproxFloats.field .f32) 2).tryInv v = .panic := by
  have p1 : IsFloat .f32 2 := by simpa using f32_power 1 (by decide) (by decide)
  have q1 : IsFloat .f32 (1 / 2) := by have := f32_power (-1) (by decide) (by decide); norm_num at this ⊢; exact this
  obtain ⟨a, ha⟩ := p1.rep
  obtain ⟨z, hz⟩ := (isFloat_zero (F := .f32)).rep
  obtain ⟨e, he⟩ := (f32_power (-149) (by decide) (by decide)).rep
  have hv : MatRep FloatRep (flatVec ![![a, z], ![z, e]]) (Matrix.diagonal ![2, 2 ^ (-149 : ℤ)]) := by
    refine ⟨flatVec_length _, fun i j => ⟨_, flatVec_get _ i j, ?_⟩⟩
    fin_cases i <;> fin_cases j
    · exact ha
    · exact hz
    · exact hz
    · exact he
  have h0 : ∀ i : Fin 2, i < 1 → i = 0 := by decide
  refine ⟨_, hv, (C109_floats_stops (by decide) hv (k := 1) (fun i hi => ?_) (fun i hi => ?_)).2 ?_ ?_⟩
  · rw [h0 i hi]; norm_num
  · rw [h0 i hi]
    have : (![2, 2 ^ (-149 : ℤ)] 0 : ℚ)⁻¹ = 1 / 2 := by norm_num
    rw [this]
    exact q1.not_overflows
  · show (2 : ℚ) ^ (-149 : ℤ) ≠ 0
    positivity
  · show Overflows .f32 ((2 : ℚ) ^ (-149 : ℤ))⁻¹
    rw [Overflows]
    norm_num [FloatFormat.f32]

/-- The determinant of the same matrix, which is a number of the format, is not computed: the inverse of the last pivot overflows. -/
example : ∃ v : List FloatFormat.f32.Val, MatRep FloatRep v (!![2, 0; 0, 2 ^ (-149 : ℤ)] : Matrix _ _ ℚ) ∧
    IsFloat .f32 (!![2, 0; 0, 2 ^ (-149 : ℤ)] : Matrix (Fin 2) (Fin 2) ℚ).det ∧
    MatrixRing.determinant (ApproxFloats.field .f32) 2 v = .panic := by
  have p0 : IsFloat .f32 1 := by simpa using f32_power 0 (by decide) (by decide)
  have p1 : IsFloat .f32 2 := by simpa using f32_power 1 (by decide) (by decide)
  have q1 : IsFloat .f32 (1 / 2) := by have := f32_power (-1) (by decide) (by decide); norm_num at this ⊢; exact this
  have q2 : IsFloat .f32 (2 * 2 ^ (-149 : ℤ)) := by
    have := f32_power (-148) (by decide) (by decide)
    norm_num at this ⊢
    exact this
  obtain ⟨a, ha⟩ := p1.rep
  obtain ⟨z, hz⟩ := (isFloat_zero (F := .f32)).rep
  obtain ⟨e, he⟩ := (f32_power (-149) (by decide) (by decide)).rep
  have hA : ∀ i j, FloatRep (![![a, z], ![z, e]] i j) ((!![2, 0; 0, 2 ^ (-149 : ℤ)] : Matrix _ _ ℚ) i j) := by
    intro i j
    fin_cases i <;> fin_cases j <;> assumption
  have h0 : ∀ i : Fin 2, i < 1 → i = 0 := by decide
  obtain ⟨c, hc, hc'⟩ := returns_false_iff.1 (rounded_exact ((C55_inv ha).2 (by norm_num)) (by rw [inv_eq_one_div]; exact q1))
  have hB : ∀ j, ∃ r, (ApproxFloats.field .f32).mulAssign (![a, z] j) c = .ok r := by
    intro j
    fin_cases j
    · exact (mul_exact ha hc' (by norm_num; exact p0)).imp fun _ h => h.1
    · exact (mul_exact hz hc' (by norm_num; exact isFloat_zero)).imp fun _ h => h.1
  choose B hB using hB
  obtain ⟨o, ho, hone⟩ := (C55_constants (F := .f32)).2
  obtain ⟨s, hs, hs'⟩ := mul_exact hone ha (by norm_num; exact p1)
  obtain ⟨t, ht, -⟩ := mul_exact hs' he (by rw [one_mul]; exact q2)
  have hne : (2 : ℚ) ^ (-149 : ℤ) ≠ 0 := by positivity
  refine ⟨_, ⟨flatVec_length _, fun i j => ⟨_, flatVec_get _ i j, hA i j⟩⟩, ?_, ?_⟩
  · rw [Matrix.det_fin_two_of, zero_mul, sub_zero]
    exact q2
  · refine C109_triangular_panics (k := 1) (B := fun _ => B) (x := s) (fun _ => c) (fun i j h => ?_) ?_ (fun i hi => ?_) (fun i hi => ?_)
      (fun i hi j => ?_) ho ?_ ?_
    · rw [isZero_float (hA i j)]
      fin_cases i <;> fin_cases j <;> first | rfl | exact absurd h (by decide)
    · rw [isZero_float (hA 1 1)]
      exact congrArg Res.ok (decide_eq_false hne)
    · rw [h0 i hi, isZero_float (hA 0 0)]
      exact congrArg Res.ok (decide_eq_false (by norm_num))
    · rw [h0 i hi]
      exact hc
    · rw [h0 i hi]
      exact hB j
    · show ((ApproxFloats.field .f32).mulAssign o a).bind _ = _
      rw [hs]
      rfl
    · show ((ApproxFloats.field .f32).mulAssign s e).bind (fun _ => (ApproxFloats.field .f32).inv e) = _
      rw [ht]
      refine ((C55_inv he).2 hne).1 ?_
      rw [Overflows]
      norm_num [FloatFormat.f32]

end floats

end Abstalg
