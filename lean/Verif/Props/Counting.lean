import Verif.Props.Groups
import Verif.Props.Quotient
import Verif.Props.Matrices
import Verif.Props.Permutations
import Verif.Props.Vectors
import Mathlib.LinearAlgebra.Matrix.GeneralLinearGroup.Card
import Mathlib.FieldTheory.Finite.Basic
import Mathlib.Data.Fintype.Perm

/-!
# C61: the sizes of the finite structures

The crate's tests count the members of some finite groups by enumeration. Here all of them are counted.
-/

set_option autoImplicit false

universe u

namespace Abstalg

/-- If every element with the property `P` has exactly one representation, then there are as many such objects as
elements. -/
theorem card_rep {E : Type} {R : Type u} {rep : E → R → Prop} (P : R → Prop)
    (h1 : ∀ {a x y}, rep a x → rep a y → x = y) (h2 : ∀ x, P x → ∃! a, rep a x) :
    Nat.card {a : E // ∃ x, rep a x ∧ P x} = Nat.card {x : R // P x} := by
  refine (Nat.card_congr (Equiv.ofBijective
    (fun x : {x : R // P x} => (⟨(h2 x.1 x.2).choose, x.1, (h2 x.1 x.2).choose_spec.1, x.2⟩ :
      {a : E // ∃ x, rep a x ∧ P x})) ⟨fun x y hxy => ?_, fun ⟨a, x, ha, hx⟩ => ⟨⟨x, hx⟩, ?_⟩⟩)).symm
  · have hxy := congrArg Subtype.val hxy
    have h := (h2 y.1 y.2).choose_spec.1
    rw [← show (h2 x.1 x.2).choose = (h2 y.1 y.2).choose from hxy] at h
    exact Subtype.ext (h1 (h2 x.1 x.2).choose_spec.1 h)
  · exact Subtype.ext ((h2 x hx).choose_spec.2 a ha).symm

/-- The number of members. -/
theorem card_members {E : Type} {R : Type u} {rep : E → R → Prop} {A : DomainOps E}
    (h : DomainSpec False A rep) (hc : ∀ a, A.contains a = .ok true → ∃ x, rep a x)
    (hu : ∀ x, ∃! a, rep a x) : Nat.card {a : E // A.contains a = .ok true} = Nat.card R := by
  have hm : ∀ a, A.contains a = .ok true ↔ ∃ x, rep a x ∧ True := fun a =>
    ⟨fun ha => (hc a ha).imp fun _ h => ⟨h, trivial⟩, fun ⟨x, hx, _⟩ => by
      obtain ⟨b, hb, rfl⟩ := returns_false_iff.1 (h.contains hx)
      exact hb⟩
  rw [Nat.card_congr (Equiv.subtypeEquivRight hm),
    card_rep (rep := rep) (fun _ => True) h.rep_unique fun x _ => hu x]
  exact Nat.card_congr (Equiv.subtypeUnivEquiv fun _ => trivial)

/-- The number of invertible members. -/
theorem card_units {E : Type} {R : Type u} [Monoid R] {rep : E → R → Prop} {A : MonoidOps E}
    (h : MonoidSpec False A rep) (hc : ∀ a, A.contains a = .ok true → ∃ x, rep a x)
    (hu : ∀ x, ∃! a, rep a x) :
    Nat.card {a : E // A.contains a = .ok true ∧ A.invertible a = .ok true} = Nat.card Rˣ := by
  have hm : ∀ a, (A.contains a = .ok true ∧ A.invertible a = .ok true) ↔
      ∃ x, rep a x ∧ IsUnit x := by
    intro a
    constructor
    · rintro ⟨h1, h2⟩
      obtain ⟨x, hx⟩ := hc a h1
      obtain ⟨b, hb, hb'⟩ := returns_false_iff.1 (h.invertible hx)
      rw [h2, Res.ok.injEq] at hb
      exact ⟨x, hx, hb'.1 hb.symm⟩
    · rintro ⟨x, hx, hux⟩
      obtain ⟨b, hb, rfl⟩ := returns_false_iff.1 (h.contains hx)
      obtain ⟨c, hc, hc'⟩ := returns_false_iff.1 (h.invertible hx)
      rw [hc'.2 hux] at hc
      exact ⟨hb, hc⟩
  rw [Nat.card_congr (Equiv.subtypeEquivRight hm), card_rep (rep := rep) IsUnit h.rep_unique fun x _ => hu x]
  exact (Nat.card_congr (Equiv.ofBijective (fun u : Rˣ => (⟨u, u.isUnit⟩ : {x : R // IsUnit x}))
    ⟨fun u v huv => Units.ext (congrArg Subtype.val huv), fun ⟨x, hx⟩ => ⟨hx.unit, rfl⟩⟩)).symm

section residues

variable {w : ℕ} [Width w]

/-- The residue of `s` as an integer. -/
theorem zmod_exists_unique (n : ℕ) (hn : n ≠ 0) (s : ZMod n) :
    ∃! a : ℤ, 0 ≤ a ∧ a < n ∧ (a : ZMod n) = s := by
  have : NeZero n := ⟨hn⟩
  refine ⟨(s.val : ℤ), ⟨by omega, by exact_mod_cast ZMod.val_lt s, by simp⟩, ?_⟩
  rintro a ⟨h0, h1, rfl⟩
  rw [ZMod.val_intCast, Int.emod_eq_of_lt h0 h1]

omit [Width w] in
/-- The same with machine integers that can hold the modulus. -/
theorem zmod_exists_unique_checked (n : ℕ) (hn : n ≠ 0) (m : SInt w) (hm : m.1 = n)
    (s : ZMod n) : ∃! a : SInt w, 0 ≤ a.1 ∧ a.1 < n ∧ (a.1 : ZMod n) = s := by
  obtain ⟨a, ⟨h0, h1, h2⟩, h3⟩ := zmod_exists_unique n hn s
  have hr := m.2
  have hs : sMin w ≤ 0 := by
    have : (0 : ℤ) < 2 ^ (w - 1) := by positivity
    unfold sMin
    omega
  exact ⟨⟨a, by omega⟩, ⟨h0, h1, h2⟩, fun b hb => Subtype.ext (h3 b.1 hb)⟩

variable [Cfg]

/-- C61: there are `n` residues modulo `n`, and the units are counted by Euler's function. -/
theorem C61_residues (n : ℕ) (hn : 2 ≤ n) :
    let A := QuotientRing.ops Integers.euclidean (n : ℤ)
    Nat.card {a : ℤ // A.contains a = .ok true} = n ∧
    Nat.card {a : ℤ // A.contains a = .ok true ∧ A.invertible a = .ok true} = Nat.totient n := by
  have : NeZero n := ⟨by omega⟩
  have h := C18_integers n hn
  have hc : ∀ a : ℤ, (QuotientRing.ops Integers.euclidean (n : ℤ)).contains a = .ok true →
      ∃ s : ZMod n, 0 ≤ a ∧ a < n ∧ (a : ZMod n) = s := by
    intro a ha
    have hd := (C23_contains_exact Integers.euclidean_spec (show ZRep (n : ℤ) n from rfl) (by omega)
      (show ZRep a a from rfl)).1
    rw [decides_false_iff.1 hd, Res.ok.injEq, decide_eq_true_eq] at ha
    rw [← ha]
    exact ⟨_, Int.emod_nonneg _ (by omega), Int.emod_lt_of_pos _ (by omega), rfl⟩
  have hu := zmod_exists_unique n (by omega)
  refine ⟨?_, ?_⟩
  · rw [card_members h.toDomainSpec hc hu, Nat.card_eq_fintype_card, ZMod.card]
  · rw [card_units h.toMonoidSpec hc hu, Nat.card_eq_fintype_card, ZMod.card_units_eq_totient]

/-- There are four units modulo 12. -/
example : Nat.card {a : ℤ // (QuotientRing.ops Integers.euclidean 12).contains a = .ok true ∧
    (QuotientRing.ops Integers.euclidean 12).invertible a = .ok true} = 4 :=
  (C61_residues 12 (by decide)).2

/-- C61: the same over machine integers, if products of residues are representable. -/
theorem C61_residues_checked (n : ℕ) (hn : 2 ≤ n) (m : SInt w) (hm : m.1 = n)
    (hmax : ((n : ℤ) - 1) ^ 2 ≤ 2 ^ (w - 1) - 1) :
    let A := QuotientRing.ops (CheckedInts.euclidean w) m
    Nat.card {a : SInt w // A.contains a = .ok true} = n ∧
    Nat.card {a : SInt w // A.contains a = .ok true ∧ A.invertible a = .ok true} =
      Nat.totient n := by
  have : NeZero n := ⟨by omega⟩
  have h := C24_residue_ring n hn m hm hmax
  have hc : ∀ a : SInt w, (QuotientRing.ops (CheckedInts.euclidean w) m).contains a = .ok true →
      ∃ s : ZMod n, 0 ≤ a.1 ∧ a.1 < n ∧ (a.1 : ZMod n) = s := by
    intro a ha
    have ha : (QuotientField.ops (CheckedInts.euclidean w) m).contains a = .ok true := ha
    rw [C24_contains m (by omega) a, Res.ok.injEq, decide_eq_true_eq] at ha
    exact ⟨_, ha.1, by omega, rfl⟩
  have hu := zmod_exists_unique_checked n (by omega) m hm
  refine ⟨?_, ?_⟩
  · rw [card_members h.toDomainSpec hc hu, Nat.card_eq_fintype_card, ZMod.card]
  · rw [card_units h.toMonoidSpec hc hu, Nat.card_eq_fintype_card, ZMod.card_units_eq_totient]

/-- The test `zstar_1584` of the crate: modulo `1584 = 16 * 9 * 11` there are `8 * 6 * 10` units. -/
example : Nat.card {a : SInt 32 //
    (QuotientRing.ops (CheckedInts.euclidean 32) ⟨1584, by decide⟩).contains a = .ok true ∧
    (QuotientRing.ops (CheckedInts.euclidean 32) ⟨1584, by decide⟩).invertible a = .ok true} =
      8 * 6 * 10 := by
  rw [(C61_residues_checked 1584 (by decide) ⟨1584, by decide⟩ rfl (by norm_num)).2]
  decide +kernel

end residues

section matrices

variable {w : ℕ} [Width w] [Cfg]

omit [Width w] in
/-- Unique representations of the entries give unique representations of vectors. -/
theorem vec_exists_unique {E : Type} {R : Type u} {rep : E → R → Prop} (n : ℕ)
    (hu : ∀ x : R, ∃! a, rep a x) (f : Fin n → R) : ∃! v : List E, VecRep rep v f := by
  obtain ⟨v, hv⟩ := C36_surjective n (fun x => (hu x).exists) f
  refine ⟨v, hv, fun u hu' => ?_⟩
  obtain ⟨h1, h2⟩ := hv
  obtain ⟨h3, h4⟩ := hu'
  refine List.ext_getElem (h3.trans h1.symm) fun i hi _ => ?_
  exact (hu _).unique (h4 ⟨i, h3 ▸ hi⟩) (h2 ⟨i, h3 ▸ hi⟩)

omit [Width w] in
theorem mat_exists_unique {E : Type} {R : Type u} [AddCommGroup R] {rep : E → R → Prop} (n : ℕ)
    (hu : ∀ x : R, ∃! a, rep a x) (M : Matrix (Fin n) (Fin n) R) : ∃! v : List E, MatRep rep v M := by
  obtain ⟨v, hv, hv'⟩ := vec_exists_unique (n * n) hu (flatten M)
  exact ⟨v, matRep_iff.2 hv, fun u hu => hv' u (matRep_iff.1 hu)⟩

/-- C61: over the field with `p` elements there are `p ^ (n * n)` matrices of size `n`, of which
`(p ^ n - 1) (p ^ n - p) ... (p ^ n - p ^ (n - 1))` are invertible. -/
theorem C61_matrices (n p : ℕ) [hp : Fact p.Prime] (m : SInt w) (hm : m.1 = p)
    (hmax : ((p : ℤ) - 1) ^ 2 ≤ 2 ^ (w - 1) - 1) :
    let A := MatrixRing.ops (QuotientField.ops (CheckedInts.euclidean w) m) n
    Nat.card {v : List (SInt w) // A.contains v = .ok true} = p ^ (n * n) ∧
    Nat.card {v : List (SInt w) // A.contains v = .ok true ∧ A.invertible v = .ok true} =
      ∏ i : Fin n, (p ^ n - p ^ (i : ℕ)) := by
  have hp0 := hp.out.two_le
  have h := C24_prime_field p m hm hmax
  have hM := C39_matrix_ring n h
  have hu := mat_exists_unique n (zmod_exists_unique_checked p (by omega) m hm)
  have hc : ∀ v : List (SInt w), (MatrixRing.ops (QuotientField.ops (CheckedInts.euclidean w) m)
      n).contains v = .ok true → ∃ M : Matrix (Fin n) (Fin n) (ZMod p),
        MatRep (fun (a : SInt w) (s : ZMod p) => 0 ≤ a.1 ∧ a.1 < p ∧ (a.1 : ZMod p) = s) v M := by
    intro v hv
    have hx : ContainsExact False (QuotientField.ops (CheckedInts.euclidean w) m).toDomainOps
        (fun (a : SInt w) (s : ZMod p) => 0 ≤ a.1 ∧ a.1 < p ∧ (a.1 : ZMod p) = s)
        fun _ => True := by
      intro a _
      rw [C24_contains m (by omega) a]
      exact decides_ok (by simp [hm])
    obtain ⟨b, hb, hb'⟩ := returns_false_iff.1 (C39_contains n hx v fun _ _ => trivial)
    rw [hv, Res.ok.injEq] at hb
    exact hb'.1 hb.symm
  refine ⟨?_, ?_⟩
  · rw [card_members hM.toDomainSpec hc hu, show Matrix (Fin n) (Fin n) (ZMod p) = (Fin n → Fin n → ZMod p) from rfl,
      Nat.card_eq_fintype_card, Fintype.card_fun, Fintype.card_fun, ZMod.card, Fintype.card_fin, pow_mul]
  · rw [card_units hM.toMonoidSpec hc hu]
    have := Matrix.card_GL_field (𝔽 := ZMod p) n
    rw [ZMod.card] at this
    exact this

/-- The test `matrix_inv_gl23` of the crate: there are 48 invertible two by two matrices over the field with three
elements. -/
example : Nat.card {v : List (SInt 32) //
    (MatrixRing.ops (QuotientField.ops (CheckedInts.euclidean 32) (SInt.lit 3 (by decide))) 2).contains v =
      .ok true ∧
    (MatrixRing.ops (QuotientField.ops (CheckedInts.euclidean 32) (SInt.lit 3 (by decide))) 2).invertible v =
      .ok true} = 48 := by
  have : Fact (Nat.Prime 3) := ⟨by decide⟩
  rw [(C61_matrices 2 3 (SInt.lit 3 (by decide)) rfl (by norm_num)).2]
  simp [Fin.prod_univ_succ]

end matrices

/-- C61: there are `n!` permutations of size `n`. -/
theorem C61_permutations [Cfg] (size : UInt32) :
    Nat.card {v : List UInt32 // (Permutations.ops size).contains v = .ok true} =
      (size.toNat).factorial := by
  rw [card_members (C42_group size).toDomainSpec (fun v hv => (C43_true_iff size v).1 hv)
    (C42_bijective size), Nat.card_congr MulOpposite.opEquiv.symm, Nat.card_eq_fintype_card,
    Fintype.card_perm, Fintype.card_fin]

/-- The test `s4` of the crate: 24 permutations. -/
example [Cfg] : Nat.card {v : List UInt32 // (Permutations.ops 4).contains v = .ok true} = 24 :=
  C61_permutations 4

/-- C61: the boolean algebra on `n` points has `2 ^ n` members. -/
theorem C61_booleans [Cfg] (n : ℕ) :
    Nat.card {v : List Bool // (boolVectors n).contains v = .ok true} = 2 ^ n := by
  have hb := C37_boolean_algebra n (TwoElementAlgebra.boolean_spec)
  have hx : ContainsExact False TwoElementAlgebra.booleanAlgebra.toDomainOps
      TwoElementAlgebra.BRep fun _ => True := fun a _ => decides_ok (by simp [TwoElementAlgebra.BRep])
  rw [card_members (A := (boolVectors n).toDomainOps) hb.toDomainSpec (fun v hv => ?_)
    (vec_exists_unique n fun x : Bool => ⟨x, rfl, fun y hy => hy⟩)]
  · simp
  · obtain ⟨b, hb, hb'⟩ := returns_false_iff.1 (C36_contains n hx v fun _ _ => trivial)
    have hv : (VectorAlgebra.domain n TwoElementAlgebra.booleanAlgebra.toDomainOps).contains v =
      .ok true := hv
    rw [hv, Res.ok.injEq] at hb
    exact hb'.1 hb.symm

example [Cfg] : Nat.card {v : List Bool // (boolVectors 5).contains v = .ok true} = 32 := C61_booleans 5

end Abstalg
