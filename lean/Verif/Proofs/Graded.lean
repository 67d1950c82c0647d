import Verif.Spec.Signs
import Verif.Props.Simulation
import Verif.Props.Order
import Mathlib.Algebra.BigOperators.Group.List.Basic
import Mathlib.Algebra.BigOperators.Fin

/-! # Operations that respect a grading -/

set_option linter.unusedSectionVars false

set_option autoImplicit false

namespace Abstalg

variable [Cfg] {G E F : Type} [CommGroup G]

/-- The relations `r g` are respected by the addition and multiplied by the multiplication. -/
structure Graded (r : G → E → F → Prop) (A : FieldOps E) (B : FieldOps F) : Prop where
  group : ∀ g, FollowsAbelianGroup (r g) A.toAbelianGroupOps B.toAbelianGroupOps
  one : Follows (r 1) A.one B.one
  int : ∀ n, Follows (r 1) (A.int n) (B.int n)
  mul : ∀ {g h a b a' b'}, r g a a' → r h b b' → Follows (r (g * h)) (A.mul a b) (B.mul a' b')
  mulAssign : ∀ {g h a b a' b'}, r g a a' → r h b b' →
    Follows (r (g * h)) (A.mulAssign a b) (B.mulAssign a' b')
  inv : ∀ {g a a'}, r g a a' → Follows (r g⁻¹) (A.inv a) (B.inv a')
  div : ∀ {g h a b a' b'}, r g a a' → r h b b' → Follows (r (g / h)) (A.div a b) (B.div a' b')

variable {r : G → E → F → Prop} {A : FieldOps E} {B : FieldOps F}

theorem follows_iff_ok {α β : Type} {s : α → β → Prop} {c : Res α} {d : Res β} (h : Follows s c d)
    {a : α} (hc : c = .ok a) : ∃ b, d = .ok b ∧ s a b := h a hc

/-! ## Lists -/

section lists

variable {α β : Type} {s : ℕ → α → β → Prop} {v : List α} {w : List β}

theorem IRel.idx (h : IRel s v w) (i : ℕ) : Follows (s i) (idx v i) (idx w i) := by
  unfold Abstalg.idx
  intro a ha
  cases hv : v[i]? with
  | none => rw [hv] at ha; cases ha
  | some x =>
    rw [hv] at ha
    obtain rfl : x = a := Res.ok.inj ha
    have h1 : i < w.length := h.1 ▸ (List.getElem?_eq_some_iff.1 hv).1
    have h2 : w[i]? = some w[i] := List.getElem?_eq_getElem h1
    rw [h2]
    exact ⟨_, rfl, h.2 _ _ _ hv h2⟩

theorem IRel.setIdx (h : IRel s v w) (i : ℕ) {a : α} {b : β} (hab : s i a b) :
    Follows (IRel s) (setIdx v i a) (setIdx w i b) := by
  unfold Abstalg.setIdx
  refine .ite (by rw [h.1]) (fun _ => .ok ⟨by simp [h.1], fun k x y hx hy => ?_⟩) fun _ => .panic
  rw [List.getElem?_set] at hx hy
  by_cases hk : i = k
  · subst hk
    rw [if_pos rfl] at hx hy
    split_ifs at hx hy with h1
    obtain rfl := Option.some.inj hx
    obtain rfl := Option.some.inj hy
    exact hab
  · rw [if_neg hk] at hx hy
    exact h.2 _ _ _ hx hy

theorem IRel.replicate (n : ℕ) {a : α} {b : β} (h : ∀ k, s k a b) :
    IRel s (List.replicate n a) (List.replicate n b) := by
  refine ⟨by simp, fun k x y hx hy => ?_⟩
  rw [List.getElem?_replicate] at hx hy
  split_ifs at hx hy
  obtain rfl := Option.some.inj hx
  obtain rfl := Option.some.inj hy
  exact h k

theorem IRel.take (h : IRel s v w) (n : ℕ) : IRel s (v.take n) (w.take n) := by
  refine ⟨by simp [h.1], fun k x y hx hy => ?_⟩
  rw [List.getElem?_take] at hx hy
  split_ifs at hx hy
  exact h.2 _ _ _ hx hy

theorem IRel.mono {s' : ℕ → α → β → Prop} (h : IRel s v w) (hs : ∀ k a b, s k a b → s' k a b) : IRel s' v w :=
  ⟨h.1, fun k a b ha hb => hs _ _ _ (h.2 k a b ha hb)⟩

theorem IRel.isEmpty (h : IRel s v w) : v.isEmpty = w.isEmpty := by
  have := h.1
  cases v <;> cases w <;> simp_all

end lists

/-! ## Polynomials -/

namespace Graded

variable {v w : List E} {v' w' : List F} {g g' h : G}

/-- The coefficients of index `k` are related by `g h ^ k`. -/
def Poly (r : G → E → F → Prop) (g h : G) (v : List E) (w : List F) : Prop :=
  IRel (fun k => r (g * h ^ k)) v w

theorem poly_mul (hA : Graded r A B) (hv : Poly r g h v v') (hw : Poly r g' h w w') :
    Follows (Poly r (g * g') h) (PolynomialAlgebra.mul A.toUnitaryRingOps v w)
      (PolynomialAlgebra.mul B.toUnitaryRingOps v' w') := by
  unfold PolynomialAlgebra.mul
  rw [hv.1, hw.1, IRel.isEmpty hv, IRel.isEmpty hw]
  refine Follows.same (.ok ⟨rfl, fun k a b ha => by simp at ha⟩) ?_
  intro x hx
  obtain ⟨z, hz, -⟩ := rbind_eq_ok.1 hx
  have hz' : ∀ g, ∃ z', B.zero = .ok z' ∧ r g z z' := fun g => (hA.group g).zero z hz
  obtain ⟨z', hz1, -⟩ := hz' 1
  have hzz : ∀ g, r g z z' := fun g => by
    obtain ⟨y, h1, h2⟩ := hz' g
    rw [hz1] at h1
    cases h1
    exact h2
  revert x
  show Follows _ _ _
  rw [show A.zero = .ok z from hz, show B.zero = .ok z' from hz1, ok_bind, ok_bind]
  refine follows_forLoop (r := Poly r (g * g') h) _ (fun i _ _ he => ?_) (IRel.replicate _ fun k => hzz _)
  refine follows_forLoop (r := Poly r (g * g') h) _ (fun j _ _ he => ?_) he
  exact Follows.bind (IRel.idx hv i) fun _ _ hx => Follows.bind (IRel.idx hw j) fun _ _ hy =>
      Follows.bind (hA.mul hx hy) fun _ _ hz => Follows.bind (IRel.idx he _) fun _ _ hs =>
        Follows.bind ((hA.group _).add hs (by
          have e : g * h ^ i * (g' * h ^ j) = g * g' * h ^ (i + j) := by rw [pow_add]; exact mul_mul_mul_comm _ _ _ _
          rw [e] at hz
          exact hz)) fun _ _ ht => IRel.setIdx he _ ht

/-- The zeros are related by all `r g`. -/
theorem zeros (hA : Graded r A B) {z : E} (hz : A.zero = .ok z) : ∃ z', B.zero = .ok z' ∧ ∀ g, r g z z' := by
  have hz' : ∀ g, ∃ z', B.zero = .ok z' ∧ r g z z' := fun g => (hA.group g).zero z hz
  obtain ⟨z', hz1, -⟩ := hz' 1
  refine ⟨z', hz1, fun g => ?_⟩
  obtain ⟨y, h1, h2⟩ := hz' g
  rw [hz1] at h1
  cases h1
  exact h2

theorem poly_quoRemLoop (hA : Graded r A B) (hw : Poly r g' h w w') {a : E} {a' : F}
    (ha : r (g' * h ^ (w.length - 1)) a a') (hw0 : w ≠ []) (n : ℕ) {q : List E} {q' : List F}
    (hq : Poly r (g / g') h q q') (hv : Poly r g h v v') :
    Follows (fun p p' => Poly r (g / g') h p.1 p'.1 ∧ Poly r g h p.2 p'.2)
      (PolynomialAlgebra.quoRemLoop A w a n q v) (PolynomialAlgebra.quoRemLoop B w' a' n q' v') := by
  have hpos : 0 < w.length := List.length_pos_of_ne_nil hw0
  induction n generalizing q q' v v' with
  | zero => exact .ok ⟨hq, hv⟩
  | succ n ih =>
    unfold PolynomialAlgebra.quoRemLoop
    rw [← hw.1]
    refine Follows.bind (IRel.idx hv _) fun _ _ hx => Follows.bind (hA.div hx ha) fun _ _ ho => ?_
    have e : g * h ^ (n + w.length - 1) / (g' * h ^ (w.length - 1)) = g / g' * h ^ n := by
      rw [show n + w.length - 1 = n + (w.length - 1) by omega, pow_add, mul_div_mul_comm, mul_div_assoc, div_self',
        mul_one]
    rw [e] at ho
    refine Follows.bind (IRel.setIdx hq n ho) fun _ _ hq => Follows.bind (IRel.idx hq n)
      fun _ _ hy => Follows.bind ((hA.group _).neg hy) fun _ _ hb => ?_
    refine Follows.bind (r := Poly r g h) (follows_forLoop (r := Poly r g h) _ (fun j _ _ he => ?_) hv)
      fun _ _ h => ih hq h
    exact Follows.bind (IRel.idx hw j) fun _ _ hx => Follows.bind (hA.mul hx hb) fun _ _ hz =>
      Follows.bind (IRel.idx he _) fun _ _ hs => Follows.bind ((hA.group _).add hs (by
        have e : g' * h ^ j * (g / g' * h ^ n) = g * h ^ (n + j) := by
          rw [mul_mul_mul_comm, mul_div_cancel, ← pow_add, add_comm]
        rw [e] at hz
        exact hz)) fun _ _ ht => IRel.setIdx he _ ht

theorem poly_trimLen (hA : Graded r A B) (hv : Poly r g h v v') (n : ℕ) :
    Follows Eq (PolynomialAlgebra.trimLen A v n) (PolynomialAlgebra.trimLen B v' n) := by
  induction n with
  | zero => exact .ok rfl
  | succ n ih =>
    exact Follows.bind (IRel.idx hv n) fun _ _ hx => Follows.bindIf ((hA.group _).isZero hx) ih (.ok rfl)

theorem poly_quoRem (hA : Graded r A B) (hv : Poly r g h v v') (hw : Poly r g' h w w') :
    Follows (fun p p' => Poly r (g / g') h p.1 p'.1 ∧ Poly r g h p.2 p'.2)
      (PolynomialAlgebra.quoRem A v w) (PolynomialAlgebra.quoRem B v' w') := by
  unfold PolynomialAlgebra.quoRem
  rw [← hv.1, ← hw.1, IRel.isEmpty hw]
  cases hw0 : w'.isEmpty
  · have hw1 : w ≠ [] := fun hc => by
      have := IRel.isEmpty hw
      rw [hc, hw0] at this
      cases this
    refine Follows.bind (Follows.assert rfl) fun _ _ _ =>
      Follows.same (.ok ⟨⟨rfl, fun k a b ha => by simp at ha⟩, hv⟩) ?_
    intro x hx
    obtain ⟨z, hz, -⟩ := rbind_eq_ok.1 hx
    obtain ⟨z', hz', hzz⟩ := hA.zeros hz
    revert x
    show Follows _ _ _
    rw [show A.zero = .ok z from hz, show B.zero = .ok z' from hz', ok_bind, ok_bind]
    refine Follows.bind (IRel.idx hw _) fun _ _ ha => Follows.check ((hA.group _).isZero ha) ?_
    simp only [List.length_replicate]
    refine Follows.bind (poly_quoRemLoop hA hw ha hw1 _ (IRel.replicate _ fun _ => hzz _) hv) ?_
    rintro ⟨q, s⟩ ⟨q', s'⟩ ⟨hq, hs⟩
    refine Follows.bind (poly_trimLen hA hs _) fun i j hij => ?_
    subst hij
    exact .ok ⟨hq, IRel.take hs _⟩
  · exact .panic

/-- The coefficients of index `k` are related by `g h ^ k` for some `g`. -/
theorem poly_gcd (hA : Graded r A B) (hv : Poly r g h v v') (hw : Poly r g' h w w') :
    Follows (fun p p' => ∃ g, Poly r g h p p')
      ((PolynomialAlgebra.euclidean A).gcd v w) ((PolynomialAlgebra.euclidean B).gcd v' w') := by
  refine follows_gcd (r := fun p p' => ∃ g, Poly r g h p p') ?_ ?_ ⟨g, hv⟩ ⟨g', hw⟩
  · rintro a a' ⟨g, ha⟩
    exact .of_eq (congrArg Res.ok (IRel.isEmpty ha))
  · rintro a b a' b' ⟨g, ha⟩ ⟨g', hb⟩
    exact Follows.bind (poly_quoRem hA ha hb) fun _ _ h => .ok ⟨g, h.2⟩

end Graded

/-! ## Matrices -/

namespace Graded

variable {n : ℕ}

/-- The entries of row `i` and column `j` are related by `ρ i κ j`. -/
def Mat (r : G → E → F → Prop) (ρ κ : Fin n → G) (M : Fin n → Fin n → E) (N : Fin n → Fin n → F) : Prop :=
  ∀ i j, r (ρ i * κ j) (M i j) (N i j)

theorem addProducts_follows (hA : Graded r A B) {g : G} {l : List (E × E)} {l' : List (F × F)}
    (hl : List.Forall₂ (fun p q => ∃ m k, m * k = g ∧ r m p.1 q.1 ∧ r k p.2 q.2) l l') {z : E} {z' : F}
    (hz : r g z z') :
    Follows (r g) (addProducts A.mul A.addAssign z l) (addProducts B.mul B.addAssign z' l') := by
  induction hl generalizing z z' with
  | nil => exact .ok hz
  | cons h _ ih =>
    obtain ⟨m, k, rfl, h1, h2⟩ := h
    exact Follows.bind (hA.mul h1 h2) fun _ _ h3 => Follows.bind ((hA.group _).addAssign hz h3) fun _ _ h4 => ih h4

theorem mat_mul (hA : Graded r A B) {ρ σ κ : Fin n → G} {M N P : Fin n → Fin n → E}
    {M' N' : Fin n → Fin n → F} (hM : Mat r ρ σ M M') (hN : Mat r σ⁻¹ κ N N')
    (h : (MatrixRing.ops A n).mul (flatVec M) (flatVec N) = .ok (flatVec P)) :
    ∃ P', (MatrixRing.ops B n).mul (flatVec M') (flatVec N') = .ok (flatVec P') ∧ Mat r ρ κ P P' := by
  have h1 := (C80_matrix_mul A M N P).1 h
  have h2 : ∀ i j, ∃ x, (∃ z, B.zero = .ok z ∧ addProducts B.mul B.addAssign z
      (List.ofFn fun k => (M' i k, N' k j)) = .ok x) ∧ r (ρ i * κ j) (P i j) x := by
    intro i j
    obtain ⟨z, hz, h3⟩ := h1 i j
    obtain ⟨z', hz', hzz⟩ := hA.zeros hz
    obtain ⟨x, h4, h5⟩ := addProducts_follows hA (g := ρ i * κ j)
      (l' := List.ofFn fun k => (M' i k, N' k j)) (by
        rw [List.forall₂_iff_get]
        refine ⟨by simp, fun k hk hk' => ?_⟩
        simp only [List.get_ofFn]
        refine ⟨_, _, ?_, hM i _, hN _ j⟩
        show ρ i * σ _ * ((σ _)⁻¹ * κ j) = _
        group) (hzz _) _ h3
    exact ⟨x, ⟨z', hz', h4⟩, h5⟩
  choose P' h3 h4 using h2
  exact ⟨P', (C80_matrix_mul B M' N' P').2 h3, h4⟩

theorem firstPivot (hA : Graded r A B) {ρ κ : Fin n → G} {M : Fin n → Fin n → E} {N : Fin n → Fin n → F}
    (hM : Mat r ρ κ M N) {i p : Fin n} (h : FirstPivot A M i p) : FirstPivot B N i p := by
  have hz : ∀ (k : Fin n) b, A.isZero (M k i) = .ok b → B.isZero (N k i) = .ok b := fun k b hb => by
    obtain ⟨b', h1, rfl⟩ := (hA.group _).isZero (hM k i) _ hb
    exact h1
  exact ⟨h.1, hz _ _ h.2.1, fun k h1 h2 => hz _ _ (h.2.2 k h1 h2)⟩

theorem noPivot (hA : Graded r A B) {ρ κ : Fin n → G} {M : Fin n → Fin n → E} {N : Fin n → Fin n → F}
    (hM : Mat r ρ κ M N) {i : Fin n} (h : NoPivot A M i) : NoPivot B N i := fun k hk => by
  obtain ⟨b', h1, rfl⟩ := (hA.group _).isZero (hM k i) _ (h k hk)
  exact h1

/-- The signs of the rows after the exchange of the rows `i` and `p` and the division of row `i` by the pivot. -/
def newRows (ρ κ : Fin n → G) (i p : Fin n) : Fin n → G :=
  fun k => if k = i then (κ i)⁻¹ else ρ (Equiv.swap i p k)

theorem scaled (hA : Graded r A B) {ρ κ : Fin n → G} {M M₁ : Fin n → Fin n → E} {N : Fin n → Fin n → F}
    (hM : Mat r ρ κ M N) {i p : Fin n} {g : G} {c : E} {c' : F} (hc : r g c c')
    (h : Scaled A i p c M M₁) : ∃ N₁, Scaled B i p c' N N₁ ∧
      Mat r (fun k => if k = i then ρ p * g else ρ (Equiv.swap i p k)) κ M₁ N₁ := by
  have h1 : ∀ j, ∃ x, B.mulAssign (N p j) c' = .ok x ∧ r (ρ p * κ j * g) (M₁ i j) x := fun j =>
    hA.mulAssign (hM p j) hc _ (h.1 j)
  choose x hx hx' using h1
  refine ⟨fun k => if k = i then x else N (Equiv.swap i p k), ⟨fun j => ?_, fun k hk => ?_⟩, fun k j => ?_⟩
  · simpa using hx j
  · simp [hk]
  · by_cases hk : k = i
    · subst hk
      simp only [if_true]
      rw [mul_right_comm]
      exact hx' j
    · simp only [hk, if_false]
      rw [h.2 k hk]
      exact hM _ _

theorem addRow (hA : Graded r A B) {g s : G} {κ : Fin n → G} {c : E} {c' : F} (hc : r s c c')
    {p a b : Fin n → E} {p' a' : Fin n → F} (hp : ∀ j, r (g * κ j) (p j) (p' j))
    (ha : ∀ j, r (g * s * κ j) (a j) (a' j)) (h : AddRow A c p a b) :
    ∃ b', AddRow B c' p' a' b' ∧ ∀ j, r (g * s * κ j) (b j) (b' j) := by
  have h1 : ∀ j, ∃ y, (∃ q, B.mul (p' j) c' = .ok q ∧ B.addAssign (a' j) q = .ok y) ∧
      r (g * s * κ j) (b j) y := fun j => by
    obtain ⟨q, h1, h2⟩ := h j
    obtain ⟨q', h3, h4⟩ := hA.mul (hp j) hc _ h1
    rw [mul_right_comm] at h4
    obtain ⟨y, h5, h6⟩ := (hA.group _).addAssign (ha j) h4 _ h2
    exact ⟨y, ⟨q', h3, h5⟩, h6⟩
  choose b' h2 h3 using h1
  exact ⟨b', h2, h3⟩

theorem swap_perm {i p : Fin n} {l : List (Fin n)} (hl : (i :: l).Nodup) (hp : p ∈ i :: l) :
    ((i :: l).map (Equiv.swap i p)).Perm (i :: l) := by
  refine (List.perm_ext_iff_of_nodup (hl.map (Equiv.swap i p).injective) hl).2 fun a => ?_
  have key : ∀ b, b ∈ i :: l → Equiv.swap i p b ∈ i :: l := fun b hb => by
    by_cases h1 : b = i
    · subst h1; rwa [Equiv.swap_apply_left]
    · by_cases h2 : b = p
      · subst h2; rw [Equiv.swap_apply_right]; exact List.mem_cons_self
      · rwa [Equiv.swap_apply_of_ne_of_ne h1 h2]
  rw [List.mem_map]
  constructor
  · rintro ⟨b, hb, rfl⟩
    exact key b hb
  · exact fun ha => ⟨_, key a ha, Equiv.swap_apply_self i p a⟩

theorem prod_newRows {i p : Fin n} {l : List (Fin n)} (hl : (i :: l).Nodup) (hp : p ∈ i :: l) (ρ κ : Fin n → G) (δ : G) :
    δ * (ρ p * κ i) * (l.map fun k => (if k = i then (κ i)⁻¹ else ρ (Equiv.swap i p k)) * κ k).prod =
      δ * ((i :: l).map fun k => ρ k * κ k).prod := by
  have h1 : (l.map fun k => (if k = i then (κ i)⁻¹ else ρ (Equiv.swap i p k)) * κ k) =
      l.map fun k => ρ (Equiv.swap i p k) * κ k := by
    refine List.map_congr_left fun k hk => ?_
    rw [if_neg fun h : k = i => (List.nodup_cons.1 hl).1 (h ▸ hk)]
  have h2 := ((swap_perm hl hp).map ρ).prod_eq
  rw [List.map_map] at h2
  rw [h1, List.prod_map_mul, List.prod_map_mul, ← h2, List.map_cons, List.prod_cons, List.map_cons, List.prod_cons]
  simp only [Function.comp_apply, Equiv.swap_apply_left, Function.comp_def]
  simp only [mul_assoc, mul_left_comm]

/-- The step that clears the column, on one row. -/
theorem clearRow (hA : Graded r A B) {ρ κ : Fin n → G} {M₁ : Fin n → Fin n → E} {N₁ : Fin n → Fin n → F} {i k : Fin n}
    (hi : ρ i = (κ i)⁻¹) (hM : Mat r ρ κ M₁ N₁) {b : Fin n → E}
    (h : (A.isZero (M₁ k i) = .ok true ∧ b = M₁ k) ∨
        A.isZero (M₁ k i) = .ok false ∧ ∃ m, A.neg (M₁ k i) = .ok m ∧ AddRow A m (M₁ i) (M₁ k) b) :
    ∃ b', ((B.isZero (N₁ k i) = .ok true ∧ b' = N₁ k) ∨
        B.isZero (N₁ k i) = .ok false ∧ ∃ m, B.neg (N₁ k i) = .ok m ∧ AddRow B m (N₁ i) (N₁ k) b') ∧
      ∀ j, r (ρ k * κ j) (b j) (b' j) := by
  rcases h with ⟨h1, rfl⟩ | ⟨h1, m, h2, h3⟩
  · obtain ⟨_, h2, rfl⟩ := (hA.group _).isZero (hM k i) _ h1
    exact ⟨N₁ k, .inl ⟨h2, rfl⟩, hM k⟩
  · obtain ⟨_, h4, rfl⟩ := (hA.group _).isZero (hM k i) _ h1
    obtain ⟨m', h5, h6⟩ := (hA.group _).neg (hM k i) _ h2
    have e : ρ i * (ρ k * κ i) = ρ k := by rw [hi, mul_comm (ρ k), inv_mul_cancel_left]
    obtain ⟨b', h7, h8⟩ := addRow hA h6 (hM i) (fun j => e ▸ hM k j) h3
    exact ⟨b', .inr ⟨h4, m', h5, h7⟩, fun j => e ▸ h8 j⟩

theorem detRun (hA : Graded r A B) {ρ κ : Fin n → G} {M : Fin n → Fin n → E} {N : Fin n → Fin n → F}
    {l : List (Fin n)} {d x : E} {d' : F} {δ : G} (h : DetRun A l M d x) (hM : Mat r ρ κ M N) (hd : r δ d d')
    (hl : l.Nodup) (hup : ∀ i ∈ l, ∀ p, i ≤ p → p ∈ l) (hlt : l.Pairwise (· < ·)) :
    ∃ x', DetRun B l N d' x' ∧ r (δ * (l.map fun i => ρ i * κ i).prod) x x' := by
  induction h generalizing ρ N d' δ with
  | done M d => exact ⟨d', .done N d', by simpa using hd⟩
  | singular h1 h2 =>
    obtain ⟨z', h3, h4⟩ := hA.zeros h2
    exact ⟨z', .singular (noPivot hA hM h1) h3, h4 _⟩
  | @step i l M d x p d₁ c M₁ M₂ h1 h2 h3 h4 h5 h6 _ ih =>
    obtain ⟨d₁', k2, k2'⟩ := hA.mulAssign hd (hM p i) _ h2
    obtain ⟨c', k3, k3'⟩ := hA.inv (hM p i) _ h3
    obtain ⟨N₁, k4, k4'⟩ := scaled hA hM k3' h4
    have e : ρ p * (ρ p * κ i)⁻¹ = (κ i)⁻¹ := by rw [mul_inv]; simp
    rw [e] at k4'
    have hrow : ∀ k, ∃ b', (k ≤ i → b' = N₁ k) ∧ (i < k → (B.isZero (N₁ k i) = .ok true ∧ b' = N₁ k) ∨
        B.isZero (N₁ k i) = .ok false ∧ ∃ m, B.neg (N₁ k i) = .ok m ∧ AddRow B m (N₁ i) (N₁ k) b') ∧
        ∀ j, r ((if k = i then (κ i)⁻¹ else ρ (Equiv.swap i p k)) * κ j) (M₂ k j) (b' j) := by
      intro k
      rcases le_or_gt k i with hk | hk
      · refine ⟨N₁ k, fun _ => rfl, fun h => absurd hk (not_le.2 h), fun j => ?_⟩
        rw [h5 k hk]
        exact k4' k j
      · obtain ⟨b', h7, h8⟩ := clearRow hA (k := k) (by simp) k4' (h6 k hk)
        exact ⟨b', fun h => absurd hk (not_lt.2 h), fun _ => h7, h8⟩
    choose N₂ q1 q2 q3 using hrow
    have hmem : ∀ p, i ≤ p → p ∈ i :: l := hup i List.mem_cons_self
    obtain ⟨x', r1, r2⟩ := ih q3 k2' (List.nodup_cons.1 hl).2 (fun a ha p hp => by
      have hia : i < a := (List.pairwise_cons.1 hlt).1 a ha
      exact (List.mem_cons.1 (hmem p (hia.le.trans hp))).resolve_left (fun h => absurd (h ▸ hia.trans_le hp) (lt_irrefl _)))
      (List.pairwise_cons.1 hlt).2
    refine ⟨x', .step p d₁' c' N₁ N₂ (firstPivot hA hM h1) k2 k3 k4 (fun k hk => q1 k hk) (fun k hk => q2 k hk) r1, ?_⟩
    rw [prod_newRows hl (hmem p h1.1)] at r2
    exact r2

theorem determinant (hA : Graded r A B) {ρ κ : Fin n → G} {M : Fin n → Fin n → E} {N : Fin n → Fin n → F}
    (hM : Mat r ρ κ M N) {x : E} (h : MatrixRing.determinant A n (flatVec M) = .ok x) :
    ∃ x', MatrixRing.determinant B n (flatVec N) = .ok x' ∧ r (∏ i, ρ i * κ i) x x' := by
  obtain ⟨o, h1, h2⟩ := (C80_determinant A M x).1 h
  obtain ⟨o', h3, h4⟩ := hA.one _ h1
  obtain ⟨x', h5, h6⟩ := detRun hA h2 hM h4 (List.nodup_finRange n) (fun _ _ p _ => List.mem_finRange p)
    (List.pairwise_lt_finRange n)
  refine ⟨x', (C80_determinant B N x').2 ⟨o', h3, h5⟩, ?_⟩
  rw [one_mul, ← List.ofFn_eq_map, List.prod_ofFn] at h6
  exact h6

theorem invRun (hA : Graded r A B) {ρ κ τ : Fin n → G} {M C : Fin n → Fin n → E} {N D : Fin n → Fin n → F}
    {l : List (Fin n)} {o : Option ((Fin n → Fin n → E) × (Fin n → Fin n → E))} (h : InvRun A l M C o)
    (hM : Mat r ρ κ M N) (hC : Mat r ρ τ C D)
    (hlt : l.Pairwise (· < ·)) (hup : ∀ i, i ∉ l → ρ i = (κ i)⁻¹) (hge : ∀ i ∈ l, ∀ p, i ≤ p → p ∈ l) :
    ∃ o', InvRun B l N D o' ∧ Option.Rel (fun p q => Mat r κ⁻¹ κ p.1 q.1 ∧ Mat r κ⁻¹ τ p.2 q.2) o o' := by
  induction h generalizing ρ N D with
  | done M C =>
    have e : ρ = κ⁻¹ := funext fun i => hup i (by simp)
    exact ⟨_, .done N D, .some ⟨e ▸ hM, e ▸ hC⟩⟩
  | singular h1 => exact ⟨none, .singular (noPivot hA hM h1), .none⟩
  | @step i l M C o p c M₁ C₁ M₂ C₂ h1 h3 h4 h4' h5 h5' h6 _ ih =>
    obtain ⟨c', k3, k3'⟩ := hA.inv (hM p i) _ h3
    obtain ⟨N₁, k4, k4'⟩ := scaled hA hM k3' h4
    obtain ⟨D₁, k5, k5'⟩ := scaled hA hC k3' h4'
    have e : ρ p * (ρ p * κ i)⁻¹ = (κ i)⁻¹ := by rw [mul_inv]; simp
    rw [e] at k4' k5'
    have hrow : ∀ k, ∃ b' c', (k = i → b' = N₁ k ∧ c' = D₁ k) ∧ (k ≠ i →
        (B.isZero (N₁ k i) = .ok true ∧ b' = N₁ k ∧ c' = D₁ k) ∨
        B.isZero (N₁ k i) = .ok false ∧ ∃ m, B.neg (N₁ k i) = .ok m ∧ AddRow B m (N₁ i) (N₁ k) b' ∧
          AddRow B m (D₁ i) (D₁ k) c') ∧
        (∀ j, r ((if k = i then (κ i)⁻¹ else ρ (Equiv.swap i p k)) * κ j) (M₂ k j) (b' j)) ∧
        ∀ j, r ((if k = i then (κ i)⁻¹ else ρ (Equiv.swap i p k)) * τ j) (C₂ k j) (c' j) := by
      intro k
      by_cases hk : k = i
      · subst hk
        refine ⟨N₁ k, D₁ k, fun _ => ⟨rfl, rfl⟩, fun h => absurd rfl h, fun j => ?_, fun j => ?_⟩
        · rw [h5]; exact k4' k j
        · rw [h5']; exact k5' k j
      · have hi' : ∀ a b : G, a⁻¹ * (b * a) = b := fun a b => by rw [mul_comm b, inv_mul_cancel_left]
        rcases h6 k hk with ⟨z1, z2, z3⟩ | ⟨z1, m, z2, z3, z4⟩
        · obtain ⟨_, y1, rfl⟩ := (hA.group _).isZero (k4' k i) _ z1
          refine ⟨N₁ k, D₁ k, fun h => absurd h hk, fun _ => .inl ⟨y1, rfl, rfl⟩, fun j => ?_, fun j => ?_⟩
          · rw [z2]; exact k4' k j
          · rw [z3]; exact k5' k j
        · obtain ⟨_, y1, rfl⟩ := (hA.group _).isZero (k4' k i) _ z1
          obtain ⟨m', y2, y3⟩ := (hA.group _).neg (k4' k i) _ z2
          have w1 := k4' i
          have w2 := k5' i
          simp only [if_true] at w1 w2
          obtain ⟨b', y4, y5⟩ := addRow hA y3 w1 (fun j => by rw [hi']; exact k4' k j) z3
          obtain ⟨c', y6, y7⟩ := addRow hA y3 w2 (fun j => by rw [hi']; exact k5' k j) z4
          rw [hi'] at y5 y7
          exact ⟨b', c', fun h => absurd h hk, fun _ => .inr ⟨y1, m', y2, y4, y6⟩, y5, y7⟩
    choose N₂ D₂ q1 q2 q3 q4 using hrow
    have hmem : ∀ p, i ≤ p → p ∈ i :: l := hge i List.mem_cons_self
    obtain ⟨o', r1, r2⟩ := ih q3 q4 (List.pairwise_cons.1 hlt).2 (fun a ha => by
      by_cases hai : a = i
      · subst hai; simp
      · rw [if_neg hai]
        have hal : a ∉ i :: l := by simp [hai, ha]
        have hap : a ≠ p := fun h => hal (h ▸ hmem p h1.1)
        rw [Equiv.swap_apply_of_ne_of_ne hai hap]
        exact hup a hal) (fun a ha p hp => by
      have hia : i < a := (List.pairwise_cons.1 hlt).1 a ha
      exact (List.mem_cons.1 (hmem p (hia.le.trans hp))).resolve_left (fun h => absurd (h ▸ hia.trans_le hp) (lt_irrefl _)))
    exact ⟨o', .step p c' N₁ D₁ N₂ D₂ (firstPivot hA hM h1) k3 k4 k5 (q1 i rfl).1 (q1 i rfl).2 q2 r1, r2⟩

omit [Cfg] in
theorem flatVec_map {α β : Type} (f : α → β) (M : Fin n → Fin n → α) :
    (flatVec M).map f = flatVec fun i j => f (M i j) := by
  simp [flatVec, List.map_flatten, List.map_ofFn, Function.comp_def]

omit [Cfg] in
theorem mem_flatVec {α : Type} {M : Fin n → Fin n → α} {a : α} : a ∈ flatVec M ↔ ∃ i j, M i j = a := by
  simp [flatVec, List.mem_flatten, List.mem_ofFn]

omit [Cfg] in
theorem forall₂_flatVec {α β : Type} {s : α → β → Prop} {M : Fin n → Fin n → α} {N : Fin n → Fin n → β}
    (h : ∀ i j, s (M i j) (N i j)) : List.Forall₂ s (flatVec M) (flatVec N) := by
  have h1 : flatVec M = (flatVec fun i j => (M i j, N i j)).map Prod.fst := by rw [flatVec_map]
  have h2 : flatVec N = (flatVec fun i j => (M i j, N i j)).map Prod.snd := by rw [flatVec_map]
  rw [h1, h2, List.forall₂_map_left_iff, List.forall₂_map_right_iff, List.forall₂_same]
  intro p hp
  obtain ⟨i, j, rfl⟩ := mem_flatVec.1 hp
  exact h i j

omit [Cfg] in
theorem zip_flatVec {α β : Type} (M : Fin n → Fin n → α) (N : Fin n → Fin n → β) :
    (flatVec M).zip (flatVec N) = flatVec fun i j => (M i j, N i j) := by
  have h1 : flatVec M = (flatVec fun i j => (M i j, N i j)).map Prod.fst := by rw [flatVec_map]
  have h2 : flatVec N = (flatVec fun i j => (M i j, N i j)).map Prod.snd := by rw [flatVec_map]
  rw [h1, h2, List.zip_map', List.map_id'']
  exact fun _ => rfl

theorem mat_equals (hA : Graded r A B) {ρ κ : Fin n → G} {M N : Fin n → Fin n → E} {M' N' : Fin n → Fin n → F}
    (hM : Mat r ρ κ M M') (hN : Mat r ρ κ N N') :
    Follows Eq ((MatrixRing.ops A n).equals (flatVec M) (flatVec N))
      ((MatrixRing.ops B n).equals (flatVec M') (flatVec N')) := by
  refine Follows.bind (Follows.assert (by simp [flatVec_length])) fun _ _ _ => ?_
  rw [zip_flatVec, zip_flatVec]
  exact LRel.allRes (r := fun p q => ∃ g, r g p.1 q.1 ∧ r g p.2 q.2)
    (forall₂_flatVec fun i j => ⟨_, hM i j, hN i j⟩) fun ⟨g, h1, h2⟩ => (hA.group g).equals h1 h2

/-- The scalar matrix of an integer. -/
theorem mat_scalar {e z : E} {e' z' : F} (he : r 1 e e') (hz : ∀ g, r g z z') (κ : Fin n → G) :
    Mat r κ⁻¹ κ (fun i j => if i = j then e else z) (fun i j => if i = j then e' else z') := by
  intro i j
  by_cases h : i = j
  · subst h
    simpa using he
  · simpa [h] using hz _

theorem mat_isOne (hA : Graded r A B) {κ : Fin n → G} {M : Fin n → Fin n → E} {M' : Fin n → Fin n → F}
    (hM : Mat r κ⁻¹ κ M M') :
    Follows Eq ((MatrixRing.ops A n).isOne (flatVec M)) ((MatrixRing.ops B n).isOne (flatVec M')) := by
  intro b hb
  obtain ⟨o, h1, h2⟩ := rbind_eq_ok.1 hb
  obtain ⟨e, z, h3, h4, rfl⟩ := (MatrixRing.int_ok_iff A 1 o).1 h1
  obtain ⟨e', h5, h6⟩ := hA.int 1 _ h3
  obtain ⟨z', h7, h8⟩ := hA.zeros h4
  obtain ⟨b', h9, h10⟩ := mat_equals hA hM (mat_scalar h6 h8 κ) b h2
  refine ⟨b', ?_, h10⟩
  refine rbind_eq_ok.2 ⟨_, (MatrixRing.int_ok_iff B 1 _).2 ⟨e', z', h5, h7, rfl⟩, h9⟩

theorem mat_tryInv (hA : Graded r A B) {ρ κ : Fin n → G} {M P : Fin n → Fin n → E} {N : Fin n → Fin n → F}
    (hM : Mat r ρ κ M N) (h : (MatrixRing.ops A n).tryInv (flatVec M) = .ok (some (flatVec P))) :
    ∃ Q, (MatrixRing.ops B n).tryInv (flatVec N) = .ok (some (flatVec Q)) ∧ Mat r κ⁻¹ ρ⁻¹ P Q := by
  obtain ⟨e, z, B₁, C₁, h1, h2, h3, h4, h5⟩ := (C80_try_inv A M _).1 h
  obtain rfl := flatVec_injective h5
  obtain ⟨e', k1, k1'⟩ := hA.int 1 _ h1
  obtain ⟨z', k2, k2'⟩ := hA.zeros h2
  have hI := mat_scalar (r := r) k1' k2' ρ⁻¹
  rw [inv_inv] at hI
  obtain ⟨o', k3, k4⟩ := invRun hA h3 hM hI (List.pairwise_lt_finRange n)
    (fun i hi => absurd (List.mem_finRange i) hi) (fun _ _ p _ => List.mem_finRange p)
  cases k4 with
  | @some p q k5 =>
    obtain ⟨P', Q'⟩ := q
    refine ⟨Q', (C80_try_inv B N _).2 ⟨e', z', P', Q', k1, k2, k3, fun hd => ?_, rfl⟩, k5.2⟩
    obtain ⟨_, k6, rfl⟩ := mat_isOne hA k5.1 _ (h4 hd)
    exact k6

theorem mat_tryInv_none (hA : Graded r A B) {ρ κ : Fin n → G} {M : Fin n → Fin n → E} {N : Fin n → Fin n → F}
    (hM : Mat r ρ κ M N) (h : (MatrixRing.ops A n).tryInv (flatVec M) = .ok none) :
    (MatrixRing.ops B n).tryInv (flatVec N) = .ok none := by
  obtain ⟨e, z, h1, h2, h3⟩ := (C80_try_inv_none A M).1 h
  obtain ⟨e', k1, k1'⟩ := hA.int 1 _ h1
  obtain ⟨z', k2, k2'⟩ := hA.zeros h2
  have hI := mat_scalar (r := r) k1' k2' ρ⁻¹
  rw [inv_inv] at hI
  obtain ⟨o', k3, k4⟩ := invRun hA h3 hM hI (List.pairwise_lt_finRange n)
    (fun i hi => absurd (List.mem_finRange i) hi) (fun _ _ p _ => List.mem_finRange p)
  cases k4
  exact (C80_try_inv_none B N).2 ⟨e', z', k1, k2, k3⟩

end Graded

end Abstalg
