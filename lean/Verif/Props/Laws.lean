import Verif.Proofs.LawsConverse
import Verif.Props.CheckedInts
import Verif.Props.Integers
import Verif.Props.Quotient
import Verif.Props.Fractions
import Verif.Props.Polynomials
import Verif.Props.Vectors
import Verif.Props.Matrices
import Verif.Props.Permutations
import Verif.Props.Groups
import Verif.Props.Divisibility
import Verif.Props.Floats
import Verif.Props.FiniteFields

/-! # The documented laws, on objects: C64 -/

set_option autoImplicit false

universe u v

namespace Abstalg

open Laws Polynomial

/-! ## Basic algebras -/

section basic

theorem exact_integers : Exact (Mem Integers.domain) ZRep := fun a => ⟨fun _ => ⟨a, rfl⟩, fun _ => rfl⟩

theorem exact_naturals : Exact (Mem Naturals.domain) NRep := fun a => ⟨fun _ => ⟨a, rfl⟩, fun _ => rfl⟩

theorem exact_checked (w : ℕ) [Width w] : Exact (Mem (CheckedInts.domain w)) (SRep w) :=
  fun a => ⟨fun _ => ⟨a.1, rfl⟩, fun _ => rfl⟩

theorem exact_uints (w : ℕ) [UWidth w] : Exact (Mem (CheckedUints.domain w)) (URep w) :=
  fun a => ⟨fun _ => ⟨a.1, rfl⟩, fun _ => rfl⟩

variable [Cfg]

/-- C64: the integers of the crate satisfy the laws of a Euclidean domain and of a distributive
lattice, stated with the methods only; the same with naturals, a semiring and a lattice. -/
theorem C64_integers :
    EuclideanDomainLaws False (Mem Integers.domain) Integers.euclidean ∧
    DistributiveLatticeLaws False (Mem Integers.domain) Integers.lattice ∧
    SemiRingLaws False (Mem Naturals.domain) Naturals.semiRing ∧
    DistributiveLatticeLaws False (Mem Naturals.domain) Naturals.lattice :=
  ⟨euclideanDomainLaws Integers.euclidean_spec exact_integers (fun x _ hy => mod_div_eq_zero hy x),
    distributiveLatticeLaws Integers.lattice_spec exact_integers,
    semiRingLaws Naturals.semiRing_spec exact_naturals,
    distributiveLatticeLaws Naturals.lattice_spec exact_naturals⟩

/-- An algebra whose product is the difference violates them: `(1 - 1) - 1` is not
`1 - (1 - 1)`. -/
example : ¬ UnitaryRingLaws False (Mem Integers.domain)
    { Integers.unitaryRing with mul := fun a b => .ok (a - b) } := fun h => by
  obtain ⟨a, b, h1, h2, -, -, h3⟩ := (h.mul_assoc (a := 1) (b := 1) (c := 1) rfl rfl rfl).ok
  cases h1
  cases h2
  exact absurd (show ((1 - 1 - 1 : ℤ) == 1 - (1 - 1)) = true from Res.ok.inj h3) (by decide)

/-- C64: the checked integers satisfy the laws where they return; their orders satisfy them always. -/
theorem C64_checked (w : ℕ) [Width w] (w' : ℕ) [UWidth w'] :
    EuclideanDomainLaws True (Mem (CheckedInts.domain w)) (CheckedInts.euclidean w) ∧
    DistributiveLatticeLaws False (Mem (CheckedInts.domain w)) (CheckedInts.lattice w) ∧
    SemiRingLaws True (Mem (CheckedUints.domain w')) (CheckedUints.semiRing w') ∧
    DistributiveLatticeLaws False (Mem (CheckedUints.domain w')) (CheckedUints.lattice w') :=
  ⟨euclideanDomainLaws (CheckedInts.euclidean_spec w) (exact_checked w) (fun x _ hy => mod_div_eq_zero hy x),
    distributiveLatticeLaws (CheckedInts.lattice_spec w) (exact_checked w),
    semiRingLaws (CheckedUints.semiRing_spec w') (exact_uints w'),
    distributiveLatticeLaws (CheckedUints.lattice_spec w') (exact_uints w')⟩

/-- In eight bits both sides of associativity of the sum return on 100, 20 and -100; on 100, 100 and -100
only the right side does. -/
example : let A := CheckedInts.euclidean 8
    let x := SInt.lit 100 (by decide)
    let y := SInt.lit 20 (by decide)
    let z := SInt.lit (-100) (by decide)
    (A.add x y >>= fun s => A.add s z) = (A.add y z >>= fun s => A.add x s) ∧
    (A.add x x >>= fun s => A.add s z) = .panic ∧
    (A.add x z >>= fun s => A.add x s) = .ok x := ⟨rfl, rfl, rfl⟩

/-- C64: the two element algebra satisfies the laws of a field, of a Euclidean domain and of a
Boolean algebra. -/
theorem C64_two_element :
    FieldLaws False (fun _ => True) TwoElementAlgebra.field ∧
    EuclideanDomainLaws False (fun _ => True) TwoElementAlgebra.field.toEuclidean ∧
    BooleanAlgebraLaws False (fun _ => True) TwoElementAlgebra.booleanAlgebra :=
  have hx : Exact (fun _ => True) TwoElementAlgebra.FRep := fun _ => ⟨fun _ => ⟨_, rfl⟩, fun _ => trivial⟩
  have hx' : Exact (fun _ => True) TwoElementAlgebra.BRep := fun a => ⟨fun _ => ⟨a, rfl⟩, fun _ => trivial⟩
  ⟨fieldLaws TwoElementAlgebra.spec hx,
    euclideanDomainLaws TwoElementAlgebra.spec.toEuclidean hx (fun x _ hy => mod_div_eq_zero hy x),
    booleanAlgebraLaws TwoElementAlgebra.boolean_spec hx'⟩

/-- `quo_rem` panics on zero, as the last law says. -/
example : TwoElementAlgebra.field.toEuclidean.quoRem true false = .panic :=
  (C64_two_element.2.1.quoRem_zero (a := true) (b := false) trivial trivial rfl).1

end basic

/-! ## The laws and the contracts -/

section converse

variable {E : Type} {M : E → Prop} [Cfg]

/-- C64: an algebra satisfies the laws of a unitary ring, a field, a group or an abelian group exactly
if it implements, in the sense of the contracts, some ring, field or group whose elements are
represented by the members. -/
theorem C64_laws_iff_contract :
    (∀ A : UnitaryRingOps E, UnitaryRingLaws False M A ↔ ∃ (R : Type) (_ : Ring R) (rep : E → R → Prop),
      UnitaryRingSpec False A rep ∧ Exact M rep) ∧
    (∀ A : FieldOps E, FieldLaws False M A ↔ ∃ (R : Type) (_ : Field R) (rep : E → R → Prop),
      FieldSpec False A rep ∧ Exact M rep) ∧
    (∀ A : GroupOps E, GroupLaws False M A ↔ ∃ (R : Type) (_ : Group R) (rep : E → R → Prop),
      GroupSpec False A rep ∧ Exact M rep) ∧
    (∀ A : AbelianGroupOps E, AbelianGroupLaws False M A ↔
      ∃ (R : Type) (_ : AddCommGroup R) (rep : E → R → Prop),
        AbelianGroupSpec False A rep ∧ Exact M rep) := by
  refine ⟨fun A => ⟨fun h => ?_, fun ⟨R, _, rep, h, hx⟩ => unitaryRingLaws h hx⟩,
    fun A => ⟨fun h => ?_, fun ⟨R, _, rep, h, hx⟩ => fieldLaws h hx⟩,
    fun A => ⟨fun h => ?_, fun ⟨R, _, rep, h, hx⟩ => groupLaws h hx⟩,
    fun A => ⟨fun h => ?_, fun ⟨R, _, rep, h, hx⟩ => abelianGroupLaws h hx⟩⟩
  · obtain ⟨R, rep, hf⟩ := exists_full h.toDomainLaws
    obtain ⟨i, hs⟩ := exists_unitaryRing hf h
    exact ⟨R, i, rep, hs, hf.exact⟩
  · obtain ⟨R, rep, hf⟩ := exists_full h.toDomainLaws
    obtain ⟨i, hs⟩ := exists_field hf h
    exact ⟨R, i, rep, hs, hf.exact⟩
  · obtain ⟨R, rep, hf⟩ := exists_full h.toDomainLaws
    obtain ⟨i, hs⟩ := exists_group hf h
    exact ⟨R, i, rep, hs, hf.exact⟩
  · obtain ⟨R, rep, hf⟩ := exists_full h.toDomainLaws
    obtain ⟨i, hs⟩ := exists_abelianGroup hf h
    exact ⟨R, i, rep, hs, hf.exact⟩

/-- The integers implement some ring. -/
example : ∃ (R : Type) (_ : Ring R) (rep : ℤ → R → Prop),
    UnitaryRingSpec False Integers.unitaryRing rep ∧ Exact (Mem Integers.domain) rep :=
  (C64_laws_iff_contract.1 _).1 C64_integers.1.toUnitaryRingLaws

omit [Cfg] in
/-- C64: the same for lattices and Boolean algebras. -/
theorem C64_order_laws_iff_contract :
    (∀ A : LatticeOps E, LatticeLaws False M A ↔
      ∃ (R : Type) (_ : PartialOrder R) (rep : E → R → Prop), LatticeSpec False A rep ∧ Exact M rep ∧
        ∀ x, ∃ a, rep a x) ∧
    (∀ A : LatticeOps E, DistributiveLatticeLaws False M A ↔
      ∃ (R : Type) (_ : DistribLattice R) (rep : E → R → Prop), LatticeSpec False A rep ∧ Exact M rep ∧
        ∀ x, ∃ a, rep a x) ∧
    (∀ A : BooleanAlgebraOps E, BooleanAlgebraLaws False M A ↔
      ∃ (R : Type) (_ : BooleanAlgebra R) (rep : E → R → Prop),
        BooleanAlgebraSpec False A rep ∧ Exact M rep ∧ ∀ x, ∃ a, rep a x) := by
  refine ⟨fun A => ⟨fun h => ?_, fun ⟨R, _, rep, h, hx, _⟩ => latticeLaws h hx⟩,
    fun A => ⟨fun h => ?_, fun ⟨R, _, rep, h, hx, _⟩ => distributiveLatticeLaws h hx⟩,
    fun A => ⟨fun h => ?_, fun ⟨R, _, rep, h, hx, _⟩ => booleanAlgebraLaws h hx⟩⟩
  · obtain ⟨R, rep, hf⟩ := exists_full h.toDomainLaws
    obtain ⟨i, hs⟩ := exists_lattice hf h
    exact ⟨R, i, rep, hs, hf.exact, hf.surj⟩
  · obtain ⟨R, rep, hf⟩ := exists_full h.toDomainLaws
    obtain ⟨i, hs⟩ := exists_distributiveLattice hf h
    exact ⟨R, i, rep, hs, hf.exact, hf.surj⟩
  · obtain ⟨R, rep, hf⟩ := exists_full h.toDomainLaws
    obtain ⟨i, hs⟩ := exists_booleanAlgebra hf h
    exact ⟨R, i, rep, hs, hf.exact, hf.surj⟩

example : ∃ (R : Type) (_ : DistribLattice R) (rep : ℤ → R → Prop),
    LatticeSpec False Integers.lattice rep ∧ Exact (Mem Integers.domain) rep ∧ ∀ x, ∃ a, rep a x :=
  let _ : Cfg := ⟨true, true, 64, by decide⟩
  (C64_order_laws_iff_contract.2.1 _).1 C64_integers.2.1

end converse

/-! ## Constructors -/

section constructors

variable {E : Type} {M : E → Prop}

theorem exact_vec {R : Type u} {rep : E → R → Prop} (hx : Exact M rep) (n : ℕ) :
    Exact (VecMem M n) (VecRep (n := n) rep) := by
  intro v
  constructor
  · rintro ⟨rfl, hm⟩
    choose f hf using fun i : Fin v.length => (hx _).1 (hm _ (List.getElem_mem i.2))
    exact ⟨f, rfl, hf⟩
  · rintro ⟨f, hl, hf⟩
    refine ⟨hl, fun a ha => ?_⟩
    obtain ⟨i, hi, rfl⟩ := List.getElem_of_mem ha
    exact (hx _).2 ⟨_, hf ⟨i, hl ▸ hi⟩⟩

theorem exact_mat {R : Type u} {rep : E → R → Prop} (hx : Exact M rep) (n : ℕ) :
    Exact (VecMem M (n * n)) (MatRep (n := n) rep) := by
  intro v
  constructor
  · rintro ⟨hl, hm⟩
    have hlt : ∀ i j : Fin n, i.1 * n + j.1 < v.length := fun i j => by
      rw [hl]
      calc i.1 * n + j.1 < i.1 * n + n := by omega
        _ = (i.1 + 1) * n := by ring
        _ ≤ n * n := Nat.mul_le_mul_right n i.2
    choose f hf using fun i j : Fin n => (hx _).1 (hm _ (List.getElem_mem (hlt i j)))
    exact ⟨Matrix.of f, hl, fun i j => ⟨_, List.getElem?_eq_getElem (hlt i j), hf i j⟩⟩
  · rintro ⟨f, hl, hf⟩
    refine ⟨hl, fun a ha => ?_⟩
    obtain ⟨k, hk, rfl⟩ := List.getElem_of_mem ha
    rw [hl] at hk
    have hn : 0 < n := Nat.pos_of_ne_zero (by rintro rfl; simp at hk)
    obtain ⟨b, hb, hb'⟩ := hf ⟨k / n, Nat.div_lt_of_lt_mul hk⟩ ⟨k % n, Nat.mod_lt _ hn⟩
    have hkk : k / n * n + k % n = k := by rw [mul_comm]; exact Nat.div_add_mod k n
    simp only [hkk] at hb
    rw [List.getElem?_eq_getElem (by omega)] at hb
    obtain rfl := Option.some.inj hb
    exact (hx _).2 ⟨_, hb'⟩

theorem exact_poly {R : Type u} {N : Type v} [Zero R] {rep : E → R → Prop} {coef : N → ℕ → R}
    (hcoef : ∀ (c : ℕ → R) (n : ℕ), (∀ i, n ≤ i → c i = 0) → ∃ f : N, coef f = c)
    {A : CommutativeMonoidOps E} (hx : Exact M rep)
    (hz : ∀ {a x}, rep a x → Decides False (A.isZero a) (x = 0)) :
    Exact (PolyMem M A) (PolyRep rep coef) := by
  intro v
  constructor
  · rintro ⟨hm, hl⟩
    choose g hg using fun i : Fin v.length => (hx _).1 (hm _ (List.getElem_mem i.2))
    obtain ⟨f, hf⟩ := hcoef (fun i => if h : i < v.length then g ⟨i, h⟩ else 0) v.length
      fun i hi => dif_neg (by omega)
    refine ⟨f, fun i hi => ?_, fun i hi => ?_, fun hv => ?_⟩
    · rw [hf]
      simp only [hi, dite_true]
      exact hg ⟨i, hi⟩
    · rw [hf]
      exact dif_neg (by omega)
    · have hlt : v.length - 1 < v.length := Nat.sub_lt (List.length_pos_iff.2 hv) one_pos
      rw [hf]
      simp only [hlt, dite_true]
      exact of_ok_false (hz (hg ⟨_, hlt⟩)) (hl _ (by
        rw [List.getLast?_eq_getElem?, List.getElem?_eq_getElem hlt]))
  · rintro ⟨f, h1, h2, h3⟩
    refine ⟨fun a ha => ?_, fun a ha => ?_⟩
    · obtain ⟨i, hi, rfl⟩ := List.getElem_of_mem ha
      exact (hx _).2 ⟨_, h1 i hi⟩
    · have hv : v ≠ [] := by rintro rfl; simp at ha
      have hlt : v.length - 1 < v.length := Nat.sub_lt (List.length_pos_iff.2 hv) one_pos
      rw [List.getLast?_eq_getElem?, List.getElem?_eq_getElem hlt] at ha
      obtain rfl := Option.some.inj ha
      obtain ⟨t, ht, rfl⟩ := returns_false_iff.1 (decides_false (hz (h1 _ hlt)) (h3 hv))
      exact ht

theorem exact_ringPoly {R : Type u} [Semiring R] {rep : E → R → Prop} {A : CommutativeMonoidOps E}
    (hx : Exact M rep) (hz : ∀ {a x}, rep a x → Decides False (A.isZero a) (x = 0)) :
    Exact (PolyMem M A) (RingPolyRep rep) :=
  exact_poly (fun c n hc => ⟨∑ i ∈ Finset.range n, monomial i (c i), funext fun i => by
    rw [finsetSum_coeff]
    simp only [coeff_monomial, Finset.sum_ite_eq', Finset.mem_range]
    split_ifs with h
    · rfl
    · exact (hc i (by omega)).symm⟩) hx hz

variable [Cfg]

/-- C64: vectors over an algebra satisfying the laws satisfy them. -/
theorem C64_vectors (n : ℕ) :
    (∀ {A : MonoidOps E}, MonoidLaws False M A →
      MonoidLaws False (VecMem M n) (VectorAlgebra.monoid n A)) ∧
    (∀ {A : GroupOps E}, GroupLaws False M A →
      GroupLaws False (VecMem M n) (VectorAlgebra.group n A)) ∧
    (∀ {A : AbelianGroupOps E}, AbelianGroupLaws False M A →
      AbelianGroupLaws False (VecMem M n) (VectorAlgebra.abelianGroup n A)) ∧
    (∀ {A : UnitaryRingOps E}, UnitaryRingLaws False M A →
      UnitaryRingLaws False (VecMem M n) (VectorAlgebra.unitaryRing n A)) := by
  refine ⟨fun {A} h => ?_, fun {A} h => ?_, fun {A} h => ?_, fun {A} h => ?_⟩ <;>
    obtain ⟨R, rep, hf⟩ := exists_full h.toDomainLaws
  · obtain ⟨i, hs⟩ := exists_monoid hf h
    exact monoidLaws (C36_monoid n hs) (exact_vec hf.exact n)
  · obtain ⟨i, hs⟩ := exists_group hf h
    exact groupLaws (C36_group n hs) (exact_vec hf.exact n)
  · obtain ⟨i, hs⟩ := exists_abelianGroup hf h
    exact abelianGroupLaws (C36_abelian_group n hs) (exact_vec hf.exact n)
  · obtain ⟨i, hs⟩ := exists_unitaryRing hf h
    exact unitaryRingLaws (C36_unitary_ring n hs) (exact_vec hf.exact n)

/-- Three integers, and pairs of pairs of integers. -/
example : UnitaryRingLaws False (VecMem (Mem Integers.domain) 3) (VectorAlgebra.unitaryRing 3
      Integers.unitaryRing) ∧
    UnitaryRingLaws False (VecMem (VecMem (Mem Integers.domain) 2) 2)
      (VectorAlgebra.unitaryRing 2 (VectorAlgebra.unitaryRing 2 Integers.unitaryRing)) ∧
    VecMem (VecMem (Mem Integers.domain) 2) 2 [[1, -2], [3, 4]] :=
  ⟨(C64_vectors 3).2.2.2 C64_integers.1.toUnitaryRingLaws,
    (C64_vectors 2).2.2.2 ((C64_vectors 2).2.2.2 C64_integers.1.toUnitaryRingLaws),
    rfl, fun v hv => by
      rcases List.mem_pair.1 hv with rfl | rfl <;> exact ⟨rfl, fun _ _ => rfl⟩⟩

/-- C64: the same for semirings, lattices and Boolean algebras. -/
theorem C64_vectors_order (n : ℕ) :
    (∀ {A : SemiRingOps E}, SemiRingLaws False M A →
      SemiRingLaws False (VecMem M n) (VectorAlgebra.semiRing n A)) ∧
    (∀ {A : LatticeOps E}, LatticeLaws False M A →
      LatticeLaws False (VecMem M n) (VectorAlgebra.lattice n A)) ∧
    (∀ {A : LatticeOps E}, DistributiveLatticeLaws False M A →
      DistributiveLatticeLaws False (VecMem M n) (VectorAlgebra.lattice n A)) ∧
    (∀ {A : BooleanAlgebraOps E}, BooleanAlgebraLaws False M A →
      BooleanAlgebraLaws False (VecMem M n) (VectorAlgebra.booleanAlgebra n A)) := by
  refine ⟨fun {A} h => ?_, fun {A} h => ?_, fun {A} h => ?_, fun {A} h => ?_⟩ <;>
    obtain ⟨R, rep, hf⟩ := exists_full h.toDomainLaws
  · obtain ⟨i, h1, h2, h3, h4⟩ := exists_semiRing hf h
    exact semiRingLaws (C36_semi_ring n (semiRingSpec hf h h1 h2 h3 h4)) (exact_vec hf.exact n)
  · obtain ⟨i, hs⟩ := exists_lattice hf h
    exact latticeLaws (C37_lattice n hs) (exact_vec hf.exact n)
  · obtain ⟨i, hs⟩ := exists_distributiveLattice hf h
    exact distributiveLatticeLaws (C37_lattice n hs) (exact_vec hf.exact n)
  · obtain ⟨i, hs⟩ := exists_booleanAlgebra hf h
    exact booleanAlgebraLaws (C37_boolean_algebra n hs) (exact_vec hf.exact n)

/-- Vectors of booleans satisfy the laws of a Boolean algebra. -/
example : BooleanAlgebraLaws False (VecMem (fun _ => True) 5)
    (VectorAlgebra.booleanAlgebra 5 TwoElementAlgebra.booleanAlgebra) :=
  (C64_vectors_order 5).2.2.2 C64_two_element.2.2

/-- C64: square matrices over a field satisfy the laws of a unitary ring. -/
theorem C64_matrices (n : ℕ) {A : FieldOps E} (h : FieldLaws False M A) :
    UnitaryRingLaws False (VecMem M (n * n)) (MatrixRing.ops A n) := by
  obtain ⟨R, rep, hf⟩ := exists_full h.toDomainLaws
  obtain ⟨i, hs⟩ := exists_field hf h
  exact unitaryRingLaws (C39_matrix_ring n hs) (exact_mat hf.exact n)

/-- Matrices over the field with two elements. -/
example : UnitaryRingLaws False (VecMem (fun _ => True) (3 * 3))
    (MatrixRing.ops TwoElementAlgebra.field 3) :=
  C64_matrices 3 C64_two_element.1

/-- C64: a field satisfies the laws of a Euclidean domain. -/
theorem C64_fields {A : FieldOps E} (h : FieldLaws False M A) :
    EuclideanDomainLaws False M A.toEuclidean := by
  classical
  obtain ⟨R, rep, hf⟩ := exists_full h.toDomainLaws
  obtain ⟨i, hs⟩ := exists_field hf h
  exact euclideanDomainLaws hs.toEuclidean hf.exact (fun x _ hy => mod_div_eq_zero hy x)

example : FieldLaws False (fun _ => True) TwoElementAlgebra.field := C64_two_element.1

/-- C64: the invertible members of a monoid, and an additive group, satisfy the laws of a group. -/
theorem C64_groups :
    (∀ {A : MonoidOps E}, MonoidLaws False M A →
      GroupLaws False (SubMem M (MultiplicativeGroup.ops A).toDomainOps) (MultiplicativeGroup.ops A)) ∧
    (∀ {A : AbelianGroupOps E}, AbelianGroupLaws False M A →
      GroupLaws False M (AdditiveGroup.ops A)) := by
  refine ⟨fun {A} h => ?_, fun {A} h => ?_⟩ <;> obtain ⟨R, rep, hf⟩ := exists_full h.toDomainLaws
  · obtain ⟨i, hs⟩ := exists_monoid hf h
    refine groupLaws (C44_multiplicative_group hs) fun a => ⟨?_, ?_⟩
    · rintro ⟨ha, hc⟩
      obtain ⟨x, hx⟩ := (hf.exact a).1 ha
      obtain ⟨y, h1, h2⟩ := of_ok_true (C44_contains hs hx) hc
      exact ⟨⟨x, y, h1, h2⟩, hx⟩
    · rintro ⟨u, hu⟩
      obtain ⟨t, ht, rfl⟩ := returns_false_iff.1 (decides_true (C44_contains hs hu)
        ⟨_, u.mul_inv, u.inv_mul⟩)
      exact ⟨hf.mem hu, ht⟩
  · obtain ⟨i, hs⟩ := exists_abelianGroup hf h
    exact groupLaws (C45_additive_group hs) fun a => (hf.exact a).trans
      ⟨fun ⟨x, hx⟩ => ⟨Multiplicative.ofAdd x, hx⟩, fun ⟨x, hx⟩ => ⟨x.toAdd, hx⟩⟩

/-- The units of the integers: -1 is a member of the group, 2 is not. -/
example : MonoidLaws False (Mem Integers.domain) Integers.unitaryRing.toMonoidOps ∧
    SubMem (Mem Integers.domain)
      (MultiplicativeGroup.ops Integers.unitaryRing.toMonoidOps).toDomainOps (-1) ∧
    ¬ SubMem (Mem Integers.domain)
      (MultiplicativeGroup.ops Integers.unitaryRing.toMonoidOps).toDomainOps 2 :=
  ⟨C64_integers.1.toUnitaryRingLaws.toSemiRingLaws.toMonoidLaws, ⟨rfl, rfl⟩, fun h => nomatch h.2⟩

/-- C64: polynomials over an abelian group, a unitary ring without zero divisors, and a field. -/
theorem C64_polynomials :
    (∀ {A : AbelianGroupOps E}, AbelianGroupLaws False M A →
      AbelianGroupLaws False (PolyMem M A.toCommutativeMonoidOps) (PolynomialAlgebra.abelianGroup A)) ∧
    (∀ {A : UnitaryRingOps E}, UnitaryRingLaws False M A → NoZeroDiv False M A.toSemiRingOps →
      Returns False (do A.isZero (← A.one)) (· = false) →
      UnitaryRingLaws False (PolyMem M A.toCommutativeMonoidOps) (PolynomialAlgebra.unitaryRing A)) ∧
    (∀ {A : FieldOps E}, FieldLaws False M A →
      EuclideanDomainLaws False (PolyMem M A.toCommutativeMonoidOps) (PolynomialAlgebra.euclidean A)) := by
  classical
  refine ⟨fun {A} h => ?_, fun {A} h h0 h1 => ?_, fun {A} h => ?_⟩ <;>
    obtain ⟨R, rep, hf⟩ := exists_full h.toDomainLaws
  · obtain ⟨i, hs⟩ := exists_abelianGroup hf h
    exact abelianGroupLaws (C29_polynomial_group hs) (exact_poly (fun c n hc =>
      ⟨Finsupp.onFinset (Finset.range n) c fun i hi => by
        rw [Finset.mem_range]; by_contra h; exact hi (hc i (by omega)), rfl⟩) hf.exact
        hs.isZero)
  · obtain ⟨i, hs⟩ := exists_unitaryRing hf h
    have : Nontrivial R := ⟨1, 0, fun he => by
      obtain ⟨o, ho, ho'⟩ := returns_false_iff.1 hs.one
      rw [show A.one = .ok o from ho] at h1
      obtain ⟨t, ht, rfl⟩ := returns_false_iff.1 h1
      exact of_ok_false (hs.isZero ho') ht he⟩
    have : NoZeroDivisors R := ⟨fun {x y} hxy => by
      by_contra hcon
      push Not at hcon
      obtain ⟨a, ha⟩ := hf.surj x
      obtain ⟨b, hb⟩ := hf.surj y
      obtain ⟨t, ht, rfl⟩ := returns_false_iff.1 (decides_false (hs.isZero ha) hcon.1)
      obtain ⟨t, ht', rfl⟩ := returns_false_iff.1 (decides_false (hs.isZero hb) hcon.2)
      have h2 := h0 (hf.mem ha) (hf.mem hb) ht ht'
      obtain ⟨c, hc, hc'⟩ := returns_false_iff.1 (hs.mul ha hb)
      rw [show A.mul a b = .ok c from hc] at h2
      obtain ⟨t, h3, rfl⟩ := returns_false_iff.1 h2
      exact of_ok_false (hs.isZero hc') h3 hxy⟩
    exact unitaryRingLaws (C30_polynomial_ring hs) (exact_ringPoly hf.exact hs.isZero)
  · obtain ⟨i, hs⟩ := exists_field hf h
    exact euclideanDomainLaws (C34_polynomial_euclidean hs)
      (exact_ringPoly hf.exact hs.isZero) (fun x _ hy => mod_div_eq_zero hy x)

/-- Polynomials with integer coefficients. -/
example : UnitaryRingLaws False (PolyMem (Mem Integers.domain) Integers.unitaryRing.toCommutativeMonoidOps)
      (PolynomialAlgebra.unitaryRing Integers.unitaryRing) ∧
    PolyMem (Mem Integers.domain) Integers.unitaryRing.toCommutativeMonoidOps [1, 0, -2] ∧
    ¬ PolyMem (Mem Integers.domain) Integers.unitaryRing.toCommutativeMonoidOps [1, 0] :=
  ⟨C64_polynomials.2.1 C64_integers.1.toUnitaryRingLaws C64_integers.1.no_zero_divisors
    C64_integers.1.one_ne_zero, ⟨fun _ _ => rfl, fun a ha => by cases ha; rfl⟩,
    fun h => nomatch h.2 0 rfl⟩

end constructors

/-! ## Quotients, fractions, divisibility -/

section euclid

variable {E : Type} {M : E → Prop} [Cfg] {R : Type u} [EuclideanDomain R] [NormalizationMonoid R]
  [CanonicalRem R] {base : EuclideanDomainOps E} {rep : E → R → Prop} {modulo : E} {μ : R}

omit [CanonicalRem R] in
theorem exact_quotient {B : DomainOps E} (h : EuclideanSpec False base rep) (hx : Exact M rep)
    (hm : rep modulo μ) (h0 : μ ≠ 0) (hB : ∀ a, B.contains a = base.reduced a modulo) :
    Exact (SubMem M B) fun e (s : R ⧸ Ideal.span {μ}) =>
      ∃ x, rep e x ∧ x / μ = 0 ∧ Ideal.Quotient.mk _ x = s := by
  intro a
  constructor
  · rintro ⟨ha, hc⟩
    obtain ⟨x, ha⟩ := (hx a).1 ha
    unfold Mem at hc
    rw [hB] at hc
    exact ⟨_, x, ha, (of_ok_true (h.reduced ha hm) hc).resolve_left h0, rfl⟩
  · rintro ⟨s, x, ha, hx0, -⟩
    refine ⟨(hx a).2 ⟨x, ha⟩, ?_⟩
    obtain ⟨t, ht, rfl⟩ := returns_false_iff.1 (decides_true (h.reduced ha hm) (.inr hx0))
    exact (hB a).trans ht

/-- C64: the residue classes modulo a nonzero noninvertible member satisfy the laws of a unitary ring. -/
theorem C64_quotient_ring (h : EuclideanSpec False base rep) (hx : Exact M rep) (hm : M modulo)
    (h0 : base.isZero modulo = .ok false) (hu : base.invertible modulo = .ok false) :
    UnitaryRingLaws False (SubMem M (QuotientRing.ops base modulo).toDomainOps)
      (QuotientRing.ops base modulo) := by
  obtain ⟨μ, hm⟩ := (hx _).1 hm
  have h0 := of_ok_false (h.isZero hm) h0
  have hu := of_ok_false (h.invertible hm) hu
  exact unitaryRingLaws (C18_quotient_ring_any (mk_isFactor μ) h hm h0 hu)
    (exact_quotient h hx hm h0 fun _ => rfl)

/-- The integers modulo 12. -/
example : UnitaryRingLaws False
    (SubMem (Mem Integers.domain) (QuotientRing.ops Integers.euclidean 12).toDomainOps)
    (QuotientRing.ops Integers.euclidean 12) :=
  C64_quotient_ring Integers.euclidean_spec exact_integers rfl rfl rfl

omit [CanonicalRem R] in
theorem irreducible_of_irred (h : EuclideanSpec False base rep) (hx : Exact M rep)
    (hs : ∀ x, ∃ a, rep a x) (hm : rep modulo μ) (hi : Irred M base.toSemiRingOps modulo) :
    Irreducible μ := by
  obtain ⟨-, h1, h2⟩ := hi
  refine ⟨of_ok_false (h.invertible hm) h1, fun {x y} hxy => ?_⟩
  obtain ⟨a, ha⟩ := hs x
  obtain ⟨b, hb⟩ := hs y
  obtain ⟨c, hc, hc'⟩ := returns_false_iff.1 (h.mul ha hb)
  obtain ⟨t, ht, rfl⟩ := returns_false_iff.1 (decides_true (h.equals hc' hm) hxy.symm)
  rcases h2 a b ((hx _).2 ⟨_, ha⟩) ((hx _).2 ⟨_, hb⟩) ⟨c, modulo, hc, rfl, ht⟩ with h3 | h3
  · exact .inl (of_ok_true (h.invertible ha) h3)
  · exact .inr (of_ok_true (h.invertible hb) h3)

omit [CanonicalRem R] in
theorem irred_of_irreducible (h : EuclideanSpec False base rep) (hx : Exact M rep)
    (hm : rep modulo μ) (hi : Irreducible μ) : Irred M base.toSemiRingOps modulo := by
  refine ⟨?_, ?_, fun a b ha hb he => ?_⟩
  · obtain ⟨t, ht, rfl⟩ := returns_false_iff.1 (decides_false (h.isZero hm) hi.ne_zero)
    exact ht
  · obtain ⟨t, ht, rfl⟩ := returns_false_iff.1 (decides_false (h.invertible hm) hi.not_isUnit)
    exact ht
  · obtain ⟨x, ha⟩ := (hx _).1 ha
    obtain ⟨y, hb⟩ := (hx _).1 hb
    refine (hi.isUnit_or_isUnit (equal_eq h.toDomainSpec (h.mul ha hb)
      (show Returns False (.ok modulo) (rep · μ) from hm) he).symm).imp (fun hu => ?_) fun hu => ?_
    · obtain ⟨t, ht, rfl⟩ := returns_false_iff.1 (decides_true (h.invertible ha) hu)
      exact ht
    · obtain ⟨t, ht, rfl⟩ := returns_false_iff.1 (decides_true (h.invertible hb) hu)
      exact ht

/-- C64: the residue classes modulo an irreducible member satisfy the laws of a field. -/
theorem C64_quotient_field (h : EuclideanSpec False base rep) (hx : Exact M rep)
    (hs : ∀ x, ∃ a, rep a x) (hm : M modulo) (hi : Irred M base.toSemiRingOps modulo) :
    FieldLaws False (SubMem M (QuotientField.ops base modulo).toDomainOps)
      (QuotientField.ops base modulo) := by
  obtain ⟨μ, hm⟩ := (hx _).1 hm
  have hμ := irreducible_of_irred h hx hs hm hi
  let _ := factorField hμ
  exact fieldLaws (C21_quotient_field_any (mk_isFactor μ) h hm hμ.ne_zero)
    (exact_quotient h hx hm hμ.ne_zero fun _ => rfl)

/-- The integers modulo 7. -/
example : FieldLaws False
    (SubMem (Mem Integers.domain) (QuotientField.ops Integers.euclidean 7).toDomainOps)
    (QuotientField.ops Integers.euclidean 7) :=
  C64_quotient_field Integers.euclidean_spec exact_integers (fun x => ⟨x, rfl⟩) rfl
    (irred_of_irreducible Integers.euclidean_spec exact_integers (show ZRep 7 7 from rfl)
      (Int.prime_iff_natAbs_prime.2 (by norm_num)).irreducible)

omit [CanonicalRem R] in
/-- C64: reduced fractions satisfy the laws of a field. -/
theorem C64_fractions (h : EuclideanSpec False base rep) (hx : Exact M rep) :
    FieldLaws False
      (FracMem M base.toCommutativeMonoidOps (ReducedFractions.ops base).toDomainOps)
      (ReducedFractions.ops base) := by
  refine fieldLaws (ReducedFractions.spec (K := FractionRing R) h) fun e => ⟨?_, ?_⟩
  · rintro ⟨h1, h2, h3, h4⟩
    obtain ⟨x, hn⟩ := (hx _).1 h1
    obtain ⟨y, hd⟩ := (hx _).1 h2
    have h0 := of_ok_false (h.isZero hd) h3
    have := of_ok_true (C28_contains h hn hd h0) h4
    exact ⟨_, x, y, hn, hd, h0, this.1, this.2, rfl⟩
  · rintro ⟨k, x, y, hn, hd, h0, h1, h2, -⟩
    obtain ⟨t, ht, rfl⟩ := returns_false_iff.1 (decides_false (h.isZero hd) h0)
    obtain ⟨t, ht', rfl⟩ := returns_false_iff.1 (decides_true (C28_contains h hn hd h0) ⟨h1, h2⟩)
    exact ⟨(hx _).2 ⟨_, hn⟩, (hx _).2 ⟨_, hd⟩, ht, ht'⟩

example : EuclideanSpec False Integers.euclidean ZRep ∧ Exact (Mem Integers.domain) ZRep :=
  ⟨Integers.euclidean_spec, exact_integers⟩

omit [CanonicalRem R] in
/-- C64: the canonical representatives of associate classes, ordered by divisibility, satisfy the
laws of a bounded distributive lattice. -/
theorem C64_divisibility (h : EuclideanSpec False base rep) (hx : Exact M rep) :
    DistributiveLatticeLaws False (SubMem M (DivisibilityOrder.lattice base).toDomainOps)
      (DivisibilityOrder.lattice base) ∧
    BoundedOrderLaws False (SubMem M (DivisibilityOrder.lattice base).toDomainOps)
      (DivisibilityOrder.boundedOrder base.toIntegralDomainOps) := by
  have hx' : Exact (SubMem M (DivisibilityOrder.lattice base).toDomainOps) (AssocRep rep) :=
      fun a => by
    constructor
    · rintro ⟨ha, hc⟩
      obtain ⟨x, ha⟩ := (hx _).1 ha
      exact of_ok_true (C49_exact h.toIntegralDomainSpec a ⟨x, ha⟩) hc
    · rintro ⟨c, x, ha, h1, h2⟩
      obtain ⟨t, ht, rfl⟩ := returns_false_iff.1 (decides_true
        (C49_exact h.toIntegralDomainSpec a ⟨x, ha⟩) ⟨c, x, ha, h1, h2⟩)
      exact ⟨(hx _).2 ⟨x, ha⟩, ht⟩
  have hl := C48_lattice h
  refine ⟨{ latticeLaws hl hx' with
    meet_join := fun {a b c} ha hb hc => ?_
    join_meet := fun {a b c} ha hb hc => ?_ },
    boundedOrderLaws (C48_bounded_order h.toIntegralDomainSpec) hx'⟩
  · obtain ⟨x, ha⟩ := (hx' _).1 ha
    obtain ⟨y, hb⟩ := (hx' _).1 hb
    obtain ⟨z, hc⟩ := (hx' _).1 hc
    have key := C48_meet_distributes h ha hb hc
    obtain ⟨p, h1, _, hp, -⟩ := returns_false_iff.1 (hl.join hb hc)
    obtain ⟨q, h2, _, hq, -⟩ := returns_false_iff.1 (hl.meet ha hp)
    obtain ⟨r, h3, _, hr, -⟩ := returns_false_iff.1 (hl.meet ha hb)
    obtain ⟨s, h4, _, hs, -⟩ := returns_false_iff.1 (hl.meet ha hc)
    obtain ⟨t, h5, _, ht, -⟩ := returns_false_iff.1 (hl.join hr hs)
    simp only [h1, h2, h3, h4, h5, ok_bind] at key ⊢
    exact ⟨(hx' _).2 ⟨_, hq⟩, (hx' _).2 ⟨_, ht⟩, key⟩
  · obtain ⟨x, ha⟩ := (hx' _).1 ha
    obtain ⟨y, hb⟩ := (hx' _).1 hb
    obtain ⟨z, hc⟩ := (hx' _).1 hc
    have key := C48_join_distributes h ha hb hc
    obtain ⟨p, h1, _, hp, -⟩ := returns_false_iff.1 (hl.meet hb hc)
    obtain ⟨q, h2, _, hq, -⟩ := returns_false_iff.1 (hl.join ha hp)
    obtain ⟨r, h3, _, hr, -⟩ := returns_false_iff.1 (hl.join ha hb)
    obtain ⟨s, h4, _, hs, -⟩ := returns_false_iff.1 (hl.join ha hc)
    obtain ⟨t, h5, _, ht, -⟩ := returns_false_iff.1 (hl.meet hr hs)
    simp only [h1, h2, h3, h4, h5, ok_bind] at key ⊢
    exact ⟨(hx' _).2 ⟨_, hq⟩, (hx' _).2 ⟨_, ht⟩, key⟩

/-- 6 is a canonical representative, -6 is not. -/
example : SubMem (Mem Integers.domain) (DivisibilityOrder.lattice Integers.euclidean).toDomainOps 6 ∧
    ¬ SubMem (Mem Integers.domain) (DivisibilityOrder.lattice Integers.euclidean).toDomainOps (-6) :=
  ⟨⟨rfl, rfl⟩, fun h => nomatch h.2⟩

end euclid

section towers

variable {E : Type} {M : E → Prop} [Cfg] {A : FieldOps E}

/-- C64: the extension of a field by a root of an irreducible polynomial satisfies the laws of a field. -/
theorem C64_field_extensions (h : FieldLaws False M A) {m : List E}
    (hm : PolyMem M A.toCommutativeMonoidOps m)
    (hi : Irred (PolyMem M A.toCommutativeMonoidOps) (PolynomialAlgebra.euclidean A).toSemiRingOps m) :
    FieldLaws False (SubMem (PolyMem M A.toCommutativeMonoidOps)
        (QuotientField.ops (PolynomialAlgebra.euclidean A) m).toDomainOps)
      (QuotientField.ops (PolynomialAlgebra.euclidean A) m) := by
  classical
  obtain ⟨R, rep, hf⟩ := exists_full h.toDomainLaws
  obtain ⟨i, hs⟩ := exists_field hf h
  exact C64_quotient_field (C34_polynomial_euclidean hs) (exact_ringPoly hf.exact hs.isZero)
    (C35_surjective hf.surj) hm hi

/-- The field with 256 elements of the crate's tests. -/
example : FieldLaws False (SubMem (PolyMem (Mem field2.toDomainOps) field2.toCommutativeMonoidOps)
    field256.toDomainOps) field256 := by
  have : Fact (Nat.Prime 2) := ⟨by decide⟩
  have h2 := C59_field_256.1
  have hx : Exact (Mem field2.toDomainOps) BitRep := fun a => by
    unfold Mem
    rw [show field2.contains a = _ from
      C24_contains (w := 32) (SInt.lit 2 (by decide)) (by decide) a, Res.ok.injEq, decide_eq_true_eq]
    exact ⟨fun ⟨h1, h2⟩ => ⟨_, h1, h2, rfl⟩, fun ⟨_, h1, h2, _⟩ => ⟨h1, h2⟩⟩
  have hp := exact_ringPoly hx h2.isZero
  exact C64_field_extensions (fieldLaws h2 hx) ((hp _).2 ⟨_, poly256_rep⟩)
    (irred_of_irreducible (C34_polynomial_euclidean h2) hp poly256_rep f256_irreducible)

/-- C64: the rational functions over a field satisfy the laws of a field. -/
theorem C64_rational_functions (h : FieldLaws False M A) :
    FieldLaws False (FracMem (PolyMem M A.toCommutativeMonoidOps)
        (PolynomialAlgebra.euclidean A).toCommutativeMonoidOps
        (ReducedFractions.ops (PolynomialAlgebra.euclidean A)).toDomainOps)
      (ReducedFractions.ops (PolynomialAlgebra.euclidean A)) := by
  classical
  obtain ⟨R, rep, hf⟩ := exists_full h.toDomainLaws
  obtain ⟨i, hs⟩ := exists_field hf h
  exact C64_fractions (C34_polynomial_euclidean hs) (exact_ringPoly hf.exact hs.isZero)

/-- Rational functions over the field with two elements: `1 / (1 + x)` is a member. -/
example : FracMem (PolyMem (fun _ => True) TwoElementAlgebra.field.toCommutativeMonoidOps)
    (PolynomialAlgebra.euclidean TwoElementAlgebra.field).toCommutativeMonoidOps
    (ReducedFractions.ops (PolynomialAlgebra.euclidean TwoElementAlgebra.field)).toDomainOps
    ([true], [true, true]) := by
  refine ⟨⟨fun _ _ => trivial, fun a ha => by cases ha; rfl⟩,
    ⟨fun _ _ => trivial, fun a ha => by cases ha; rfl⟩, rfl, ?_⟩
  have hn : RingPolyRep TwoElementAlgebra.FRep [true] (1 : (ZMod 2)[X]) := by
    have : (1 : (ZMod 2)[X]) = polyOf [1] := by simp [polyOf]
    rw [this]
    exact polyOf_rep (by repeat' constructor) (by decide)
  have hd : RingPolyRep TwoElementAlgebra.FRep [true, true] (X + C 1 : (ZMod 2)[X]) := by
    have : (X + C 1 : (ZMod 2)[X]) = polyOf [1, 1] := by simp [polyOf, add_comm]
    rw [this]
    exact polyOf_rep (by repeat' constructor) (by decide)
  have hm : (X + C 1 : (ZMod 2)[X]).Monic := monic_X_add_C 1
  obtain ⟨t, ht, rfl⟩ := returns_false_iff.1 (decides_true
    (C28_contains (C34_polynomial_euclidean TwoElementAlgebra.spec) hn hd hm.ne_zero)
    ⟨isCoprime_one_left, hm.normalize_eq_self⟩)
  exact ht

end towers

/-! ## Members -/

section members

variable {E : Type} [Cfg]

omit [Cfg] in
theorem allRes_true {p : E → Res Bool} {v : List E} :
    allRes p v = .ok true ↔ ∀ a, a ∈ v → p a = .ok true := by
  induction v with
  | nil => simp [allRes]
  | cons a v ih =>
    rw [allRes, List.forall_mem_cons]
    cases h : p a with
    | ok b => cases b <;> simp [ih]
    | panic => simp
    | diverge => simp [Res.bind]

/-- C64: `contains` of vectors, matrices and polynomials is true exactly on the members named above. -/
theorem C64_members (n : ℕ) (v : List E) :
    (∀ A : DomainOps E, Mem (VectorAlgebra.domain n A) v ↔ VecMem (Mem A) n v) ∧
    (∀ A : FieldOps E, Mem (MatrixRing.ops A n).toDomainOps v ↔ VecMem (Mem A.toDomainOps) (n * n) v) ∧
    (∀ A : AbelianGroupOps E, Mem (PolynomialAlgebra.domain A) v ↔
      PolyMem (Mem A.toDomainOps) A.toCommutativeMonoidOps v) := by
  refine ⟨fun A => ?_, fun A => ?_, fun A => ?_⟩
  · show (if v.length != n then Res.ok false else allRes (fun a => A.contains a) v) = .ok true ↔ _
    by_cases h : v.length = n
    · rw [if_neg (by simpa using h), allRes_true]
      exact ⟨fun h' => ⟨h, h'⟩, fun h' => h'.2⟩
    · rw [if_pos (by simpa using h)]
      exact ⟨nofun, fun h' => absurd h'.1 h⟩
  · show (if v.length != n * n then Res.ok false else allRes (fun a => A.contains a) v) = .ok true ↔ _
    by_cases h : v.length = n * n
    · rw [if_neg (by simpa using h), allRes_true]
      exact ⟨fun h' => ⟨h, h'⟩, fun h' => h'.2⟩
    · rw [if_pos (by simpa using h)]
      exact ⟨nofun, fun h' => absurd h'.1 h⟩
  · unfold Mem PolynomialAlgebra.domain
    simp only
    by_cases hv : v = []
    · subst hv
      exact ⟨fun _ => ⟨nofun, nofun⟩, fun _ => rfl⟩
    · have hlt : v.length - 1 < v.length := Nat.sub_lt (List.length_pos_iff.2 hv) one_pos
      rw [if_neg (by simpa using hv)]
      have hlast : ∀ a, v.getLast? = some a ↔ a = v[v.length - 1] := fun a => by
        rw [List.getLast?_eq_getElem?, List.getElem?_eq_getElem hlt, Option.some.injEq, eq_comm]
      unfold PolyMem
      simp only [hlast, forall_eq]
      have hidx : idx v (v.length - 1) = .ok v[v.length - 1] := by
        simp [idx, List.getElem?_eq_getElem hlt]
      rw [← allRes_true, hidx]
      cases allRes (fun a => A.contains a) v with
      | ok b =>
        cases b
        · exact ⟨nofun, fun h' => nomatch h'.1⟩
        · show (A.isZero v[v.length - 1] >>= fun t => Res.ok !t) = .ok true ↔ _ ∧ _
          cases A.isZero v[v.length - 1] with
          | ok t => cases t <;> simp
          | panic => exact ⟨nofun, fun h' => nomatch h'.2⟩
          | diverge => exact ⟨nofun, fun h' => nomatch h'.2⟩
      | panic => exact ⟨nofun, fun h' => nomatch h'.1⟩
      | diverge => exact ⟨nofun, fun h' => nomatch h'.1⟩

example : Mem (VectorAlgebra.domain 2 Integers.domain) [3, 4] ∧
    ¬ Mem (VectorAlgebra.domain 2 Integers.domain) [3] ∧
    ¬ Mem (PolynomialAlgebra.domain Integers.unitaryRing.toAbelianGroupOps) [3, 0] :=
  ⟨rfl, nofun, nofun⟩

end members

/-! ## Concrete algebras -/

section concrete

variable [Cfg]

theorem exact_rationals :
    Exact (Mem ReducedFractions.QQ.toDomainOps) fun (a : ℤ × ℤ) (q : ℚ) => a.1 = q.num ∧ a.2 = q.den := by
  rintro ⟨n, d⟩
  unfold Mem
  rw [C28_rationals]
  constructor
  · intro h
    split_ifs at h with h1
    obtain ⟨h2, h3⟩ := of_decide_eq_true (Res.ok.inj h)
    refine ⟨⟨n, d.natAbs, by omega, h3⟩, rfl, ?_⟩
    show d = (d.natAbs : ℤ)
    omega
  · rintro ⟨q, h1, h2⟩
    simp only at h1 h2
    subst h1 h2
    have hd : (0 : ℤ) < q.den := by exact_mod_cast q.den_pos
    rw [if_neg (fun h => hd.ne' h.1), decide_eq_true ⟨hd, by simpa using q.reduced⟩]

/-- C64: the rational numbers satisfy the laws of a field and of a Euclidean domain. -/
theorem C64_rationals : FieldLaws False (Mem ReducedFractions.QQ.toDomainOps) ReducedFractions.QQ ∧
    EuclideanDomainLaws False (Mem ReducedFractions.QQ.toDomainOps) ReducedFractions.QQ.toEuclidean :=
  have := fieldLaws C26_rationals exact_rationals
  ⟨this, C64_fields this⟩

/-- `1/2` is a member, `2/4` is not. -/
example : Mem ReducedFractions.QQ.toDomainOps (1, 2) ∧ ¬ Mem ReducedFractions.QQ.toDomainOps (2, 4) := by
  unfold Mem
  rw [C28_rationals, C28_rationals]
  decide

theorem exact_residues (n : ℕ) (hn : 2 ≤ n) :
    Exact (Mem (QuotientRing.ops Integers.euclidean (n : ℤ)).toDomainOps)
      fun (a : ℤ) (s : ZMod n) => 0 ≤ a ∧ a < n ∧ (a : ZMod n) = s := by
  intro a
  have hd := (C23_contains_exact Integers.euclidean_spec (show ZRep (n : ℤ) n from rfl) (by omega)
      (show ZRep a a from rfl)).1
  unfold Mem
  rw [decides_false_iff.1 hd, Res.ok.injEq, decide_eq_true_eq]
  constructor
  · intro ha
    exact ⟨_, ha ▸ Int.emod_nonneg _ (by omega), ha ▸ Int.emod_lt_of_pos _ (by omega), rfl⟩
  · rintro ⟨s, h1, h2, -⟩
    exact Int.emod_eq_of_lt h1 h2

/-- C64: the residue classes modulo `n` over the integers of unlimited size satisfy the laws of a
unitary ring, and those of a field if `n` is prime. -/
theorem C64_residues (n : ℕ) (hn : 2 ≤ n) :
    UnitaryRingLaws False (Mem (QuotientRing.ops Integers.euclidean (n : ℤ)).toDomainOps)
      (QuotientRing.ops Integers.euclidean (n : ℤ)) ∧
    (n.Prime → FieldLaws False (Mem (QuotientField.ops Integers.euclidean (n : ℤ)).toDomainOps)
      (QuotientField.ops Integers.euclidean (n : ℤ))) :=
  ⟨unitaryRingLaws (C18_integers n hn) (exact_residues n hn), fun hp =>
    have : Fact n.Prime := ⟨hp⟩
    fieldLaws (C21_integers n) (exact_residues n hn)⟩

example : UnitaryRingLaws False (Mem (QuotientRing.ops Integers.euclidean 12).toDomainOps)
    (QuotientRing.ops Integers.euclidean 12) := (C64_residues 12 (by norm_num)).1

theorem exact_residues_checked {w : ℕ} [Width w] (n : ℕ) (hn : 2 ≤ n) (m : SInt w) (hm : m.1 = n) :
    Exact (Mem (QuotientField.ops (CheckedInts.euclidean w) m).toDomainOps)
      fun (a : SInt w) (s : ZMod n) => 0 ≤ a.1 ∧ a.1 < n ∧ (a.1 : ZMod n) = s := by
  intro a
  unfold Mem
  rw [C24_contains m (by omega), Res.ok.injEq, decide_eq_true_eq, hm]
  exact ⟨fun ⟨h1, h2⟩ => ⟨_, h1, h2, rfl⟩, fun ⟨_, h1, h2, _⟩ => ⟨h1, h2⟩⟩

/-- C64: the same over machine integers, if the square of `n - 1` can be represented. -/
theorem C64_residues_checked {w : ℕ} [Width w] (n : ℕ) (hn : 2 ≤ n) (m : SInt w) (hm : m.1 = n)
    (hmax : ((n : ℤ) - 1) ^ 2 ≤ 2 ^ (w - 1) - 1) :
    UnitaryRingLaws False (Mem (QuotientRing.ops (CheckedInts.euclidean w) m).toDomainOps)
      (QuotientRing.ops (CheckedInts.euclidean w) m) ∧
    (n.Prime → FieldLaws False (Mem (QuotientField.ops (CheckedInts.euclidean w) m).toDomainOps)
      (QuotientField.ops (CheckedInts.euclidean w) m)) :=
  ⟨unitaryRingLaws (C24_residue_ring n hn m hm hmax) (exact_residues_checked n hn m hm), fun hp =>
    have : Fact n.Prime := ⟨hp⟩
    fieldLaws (C24_prime_field n m hm hmax) (exact_residues_checked n hn m hm)⟩

/-- In eight bits, 11 is the largest prime modulus allowed. -/
example : FieldLaws False
    (Mem (QuotientField.ops (CheckedInts.euclidean 8) (SInt.lit 11 (by decide))).toDomainOps)
    (QuotientField.ops (CheckedInts.euclidean 8) (SInt.lit 11 (by decide))) :=
  (C64_residues_checked 11 (by norm_num) _ rfl (by norm_num)).2 (by norm_num)

/-- C64: permutations satisfy the laws of a group. -/
theorem C64_permutations (size : UInt32) :
    GroupLaws False (Mem (Permutations.ops size).toDomainOps) (Permutations.ops size) :=
  groupLaws (C42_group size) (C43_true_iff size)

example : Mem (Permutations.ops 3).toDomainOps [2, 0, 1] ∧ ¬ Mem (Permutations.ops 3).toDomainOps [2, 0, 2] := by
  unfold Mem
  simp only [C43_true_iff, C42_members]
  decide

/-- C64: floats satisfy the laws of a distributive lattice, whichever of two equal values `min` and
`max` return. -/
theorem C64_floats (F : FloatFormat) (pick : F.Val → F.Val → Bool) :
    DistributiveLatticeLaws False (Mem (ApproxFloats.domain F)) (ApproxFloats.lattice F pick) := by
  refine distributiveLatticeLaws (C55_lattice pick).1 fun a => ⟨fun ha => ?_, fun ⟨x, hx⟩ => ?_⟩
  · have ha : a.isFinite = true := Res.ok.inj ha
    cases a with
    | fin s p h => exact ⟨_, s, p, h, rfl, rfl⟩
    | inf s => cases ha
    | nan => cases ha
  · exact congrArg Res.ok hx.isFinite

example (pick : FloatFormat.f32.Val → FloatFormat.f32.Val → Bool) :
    DistributiveLatticeLaws False (Mem (ApproxFloats.domain .f32)) (ApproxFloats.lattice .f32 pick) :=
  C64_floats _ pick

omit [Cfg] in
theorem exact_checked_fractions (w : ℕ) [Width w] :
    Exact (fun e : SInt w × SInt w => 0 < e.2.1 ∧ e.1.1.natAbs.Coprime e.2.1.natAbs)
      fun (a : SInt w × SInt w) (q : ℚ) => a.1.1 = q.num ∧ a.2.1 = q.den := by
  rintro ⟨n, d⟩
  constructor
  · rintro ⟨h2, h3⟩
    simp only at h2 h3
    refine ⟨⟨n.1, d.1.natAbs, by omega, h3⟩, rfl, ?_⟩
    show d.1 = (d.1.natAbs : ℤ)
    omega
  · rintro ⟨q, h1, h2⟩
    simp only at h1 h2
    have hd : (0 : ℤ) < q.den := by exact_mod_cast q.den_pos
    simp only [h1, h2]
    exact ⟨hd, by simpa using q.reduced⟩

/-- C64: fractions, polynomials, matrices and vectors over machine integers satisfy the laws where they
return. -/
theorem C64_checked_towers (w : ℕ) [Width w] (n : ℕ) :
    let Q := ReducedFractions.ops (CheckedInts.euclidean w)
    let M := fun e : SInt w × SInt w => 0 < e.2.1 ∧ e.1.1.natAbs.Coprime e.2.1.natAbs
    FieldLaws True M Q ∧
    EuclideanDomainLaws True (PolyMem M Q.toCommutativeMonoidOps) (PolynomialAlgebra.euclidean Q) ∧
    UnitaryRingLaws True (VecMem M (n * n)) (MatrixRing.ops Q n) ∧
    IntegralDomainLaws True (Mem (PolynomialAlgebra.domain (CheckedInts.euclidean w).toAbelianGroupOps))
      (PolynomialAlgebra.integralDomain (CheckedInts.euclidean w).toIntegralDomainOps) ∧
    UnitaryRingLaws True (Mem (VectorAlgebra.domain n (CheckedInts.domain w)))
      (VectorAlgebra.unitaryRing n (CheckedInts.euclidean w).toUnitaryRingOps) := by
  intro Q M
  have hx := exact_checked_fractions w
  have hzq : ∀ {a : SInt w × SInt w} {q : ℚ}, a.1.1 = q.num ∧ a.2.1 = q.den →
      Decides False (Q.isZero a) (q = 0) := fun {a q} ha => by
    have h1 : Returns True (Q.isZero a) fun b => (b = true ↔ q = 0) := C57_checked_fractions.isZero ha
    have h2 : ∃ b, Q.isZero a = .ok b := by
      show ∃ b, (if a.1 == CheckedInts.c0 w then Res.ok (a.2 == CheckedInts.c1 w) else .ok false) = .ok b
      split_ifs <;> exact ⟨_, rfl⟩
    obtain ⟨b, hb⟩ := h2
    rw [hb] at h1 ⊢
    exact h1
  refine ⟨fieldLaws C57_checked_fractions hx,
    euclideanDomainLaws C57_checked_polynomials (exact_ringPoly hx hzq) (fun x _ hy => mod_div_eq_zero hy x),
    unitaryRingLaws (C57_checked_matrices n) (exact_mat hx n),
    integralDomainLaws (C33_polynomial_domain (CheckedInts.euclidean_spec w).toIntegralDomainSpec) ?_,
    unitaryRingLaws (C57_checked_vectors n) ?_⟩
  · intro v
    rw [(C64_members n v).2.2]
    exact exact_ringPoly (exact_checked w) (fun ha => decides_ok (by rw [beq_iff_eq, ha])) v
  · intro v
    rw [(C64_members n v).1]
    exact exact_vec (exact_checked w) n v

/-- `1/2` is a member, `2/4` and the ratio of 1 and -2 are not. -/
example : let M := fun e : SInt 8 × SInt 8 => 0 < e.2.1 ∧ e.1.1.natAbs.Coprime e.2.1.natAbs
    M (SInt.lit 1 (by decide), SInt.lit 2 (by decide)) ∧
    ¬ M (SInt.lit 2 (by decide), SInt.lit 4 (by decide)) ∧
    ¬ M (SInt.lit 1 (by decide), SInt.lit (-2) (by decide)) := by decide

end concrete

end Abstalg
