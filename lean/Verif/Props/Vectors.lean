import Verif.Proofs.Vectors
import Verif.Proofs.Groups
import Verif.Proofs.Integers
import Verif.Proofs.CheckedRefines
import Mathlib.Order.Lattice

/-! # Vectors: C36-C38, C57 -/

set_option linter.unusedSectionVars false

set_option autoImplicit false

universe u

namespace Abstalg

section

variable [Cfg] {E : Type} {R : Type u} {mp : Prop} {rep : E → R → Prop} (n : ℕ)

/-- C36: vectors over a monoid form the direct power. -/
theorem C36_monoid [Monoid R] {base : MonoidOps E} (h : MonoidSpec mp base rep) :
    MonoidSpec mp (VectorAlgebra.monoid n base) (VecRep (R := R) (n := n) rep) :=
  VectorAlgebra.monoid_spec h

/-- Vectors of length three over the multiplicative monoid of the integers. -/
example : MonoidSpec False Integers.unitaryRing.toMonoidOps ZRep ∧
    (VectorAlgebra.monoid 3 Integers.unitaryRing.toMonoidOps).mul [1, -2, 5] [3, 4, 0] =
      .ok [3, -8, 0] :=
  ⟨Integers.unitaryRing_spec.toMonoidSpec, rfl⟩

/-- C36: vectors over a group form the direct power. -/
theorem C36_group [Group R] {base : GroupOps E} (h : GroupSpec mp base rep) :
    GroupSpec mp (VectorAlgebra.group n base) (VecRep (R := R) (n := n) rep) :=
  VectorAlgebra.group_spec h

/-- Vectors of length two over the additive group of the integers, written multiplicatively. -/
example : (VectorAlgebra.group 2 (AdditiveGroup.ops Integers.unitaryRing.toAbelianGroupOps)).inv
    [1, -2] = .ok [-1, 2] := rfl

/-- C36: vectors over an Abelian group form the direct power. -/
theorem C36_abelian_group [AddCommGroup R] {base : AbelianGroupOps E}
    (h : AbelianGroupSpec mp base rep) :
    AbelianGroupSpec mp (VectorAlgebra.abelianGroup n base) (VecRep (R := R) (n := n) rep) :=
  VectorAlgebra.abelianGroup_spec h

/-- A difference of vectors of integers. -/
example : AbelianGroupSpec False Integers.unitaryRing.toAbelianGroupOps ZRep ∧
    (VectorAlgebra.abelianGroup 2 Integers.unitaryRing.toAbelianGroupOps).sub [1, 2] [5, -5] =
      .ok [-4, 7] :=
  ⟨Integers.unitaryRing_spec.toAbelianGroupSpec, rfl⟩

/-- C36: vectors over a ring form the direct power. -/
theorem C36_unitary_ring [Ring R] {base : UnitaryRingOps E} (h : UnitaryRingSpec mp base rep) :
    UnitaryRingSpec mp (VectorAlgebra.unitaryRing n base) (VecRep (R := R) (n := n) rep) :=
  VectorAlgebra.unitaryRing_spec h

example : UnitaryRingSpec False (VectorAlgebra.unitaryRing 3 Integers.unitaryRing)
    (VecRep (n := 3) ZRep) ∧ VecRep ZRep [1, -2, 5] ![1, -2, 5] :=
  ⟨C36_unitary_ring 3 Integers.unitaryRing_spec, rfl, by intro i; fin_cases i <;> rfl⟩

/-- C36: vectors over a semiring form the direct power. -/
theorem C36_semi_ring [Semiring R] {base : SemiRingOps E} (h : SemiRingSpec mp base rep) :
    SemiRingSpec mp (VectorAlgebra.semiRing n base) (VecRep (R := R) (n := n) rep) :=
  VectorAlgebra.semiRing_spec h

/-- Vectors of natural numbers. -/
example : SemiRingSpec False Naturals.semiRing NRep ∧
    (VectorAlgebra.semiRing 2 Naturals.semiRing).mul [3, 2] [5, 7] = .ok [15, 14] :=
  ⟨Naturals.semiRing_spec, rfl⟩

/-- C36: `contains` is exact if that of the base is. -/
theorem C36_contains {base : DomainOps E} {dom : E → Prop} (h : ContainsExact mp base rep dom) :
    ContainsExact mp (VectorAlgebra.domain n base) (VecRep (R := R) (n := n) rep)
      fun v => ∀ a, a ∈ v → dom a :=
  VectorAlgebra.domain_exact h

/-- Vectors of the right and of the wrong length. -/
example : (VectorAlgebra.domain 2 Integers.unitaryRing.toDomainOps).contains [1, 2] = .ok true ∧
    (VectorAlgebra.domain 2 Integers.unitaryRing.toDomainOps).contains [1, 2, 3] = .ok false :=
  ⟨rfl, rfl⟩

/-- C36: every vector of elements is represented if every element of the base is. -/
theorem C36_surjective (h : ∀ x : R, ∃ a, rep a x) (f : Fin n → R) :
    ∃ v : List E, VecRep rep v f := by
  choose g hg using h
  exact ⟨List.ofFn fun i => g (f i), by simp, fun i => by simpa using hg (f i)⟩

example (f : Fin 3 → ℤ) : ∃ v : List ℤ, VecRep ZRep v f := C36_surjective 3 (fun x => ⟨x, rfl⟩) f

/-- C36: the units of the direct power are the vectors of units. -/
theorem C36_try_inv [Monoid R] {base : MonoidOps E} (h : MonoidSpec False base rep) {v : List E}
    {f : Fin n → R} (hv : VecRep rep v f) :
    (∃ w, (VectorAlgebra.monoid n base).tryInv v = .ok (some w)) ↔
      ∀ i, ∃ y, f i * y = 1 ∧ y * f i = 1 := by
  obtain ⟨o, ho, ho'⟩ := returns_false_iff.1 ((C36_monoid n h).tryInv hv)
  rw [ho]
  cases o with
  | some w =>
    obtain ⟨g, _, h1, h2⟩ := ho'
    exact ⟨fun _ i => ⟨g i, congrFun h1 i, congrFun h2 i⟩, fun _ => ⟨w, rfl⟩⟩
  | none =>
    refine ⟨nofun, fun h => absurd (Pi.isUnit_iff.2 fun i => isUnit_iff_exists.2 (h i)) ho'⟩

/-- `(1, -1)` is invertible and `(1, 2)` is not. -/
example : (VectorAlgebra.monoid 2 Integers.unitaryRing.toMonoidOps).tryInv [1, -1] =
      .ok (some [1, -1]) ∧
    (VectorAlgebra.monoid 2 Integers.unitaryRing.toMonoidOps).tryInv [1, 2] = .ok none :=
  ⟨rfl, rfl⟩

/-- C36: `diagonal` is the constant vector, and it is a homomorphism. -/
theorem C36_diagonal {a : E} {x : R} (ha : rep a x) :
    VecRep rep (VectorAlgebra.diagonal n a) (Function.const (Fin n) x) :=
  VectorAlgebra.diagonal_spec ha

/-- The diagonal vector of seven. -/
example : VectorAlgebra.diagonal 3 (7 : ℤ) = [7, 7, 7] := rfl

end

section

variable [Cfg]

/-- The hypotheses of C36 are met by `ZZ`: vectors of integers. -/
example : UnitaryRingSpec False (VectorAlgebra.unitaryRing 3 Integers.unitaryRing)
    (VecRep (n := 3) ZRep) ∧ VecRep ZRep [1, -2, 5] ![1, -2, 5] :=
  ⟨C36_unitary_ring 3 Integers.unitaryRing_spec, rfl, by intro i; fin_cases i <;> rfl⟩

example : (VectorAlgebra.unitaryRing 2 Integers.unitaryRing).tryInv [1, 2] = .ok none := rfl

example : (VectorAlgebra.unitaryRing 2 Integers.unitaryRing).mul [3, 2] [5, 7] = .ok [15, 14] := rfl

end

section order

variable {E : Type} {R : Type u} {mp : Prop} {rep : E → R → Prop} (n : ℕ)

/-- C37: vectors over a lattice form the direct power. -/
theorem C37_lattice [PartialOrder R] {base : LatticeOps E} (h : LatticeSpec mp base rep) :
    LatticeSpec mp (VectorAlgebra.lattice n base) (VecRep (R := R) (n := n) rep) :=
  VectorAlgebra.lattice_spec h

/-- Vectors of integers with the product order: incomparable vectors have a meet and a join. -/
example : LatticeSpec False Integers.lattice ZRep ∧
    (VectorAlgebra.lattice 2 Integers.lattice).leq [1, 5] [2, 3] = .ok false ∧
    (VectorAlgebra.lattice 2 Integers.lattice).meet [1, 5] [2, 3] = .ok [1, 3] ∧
    (VectorAlgebra.lattice 2 Integers.lattice).join [1, 5] [2, 3] = .ok [2, 5] :=
  ⟨Integers.lattice_spec, rfl, rfl, rfl⟩

/-- C37: vectors over a bounded order form the direct power. -/
theorem C37_bounded_order [PartialOrder R] {base : BoundedOrderOps E}
    (h : BoundedOrderSpec mp base rep) :
    BoundedOrderSpec mp (VectorAlgebra.boundedOrder n base) (VecRep (R := R) (n := n) rep) :=
  VectorAlgebra.boundedOrder_spec h

example : BoundedOrderSpec False TwoElementAlgebra.booleanAlgebra.toBoundedOrderOps TwoElementAlgebra.BRep ∧
    (VectorAlgebra.boundedOrder 3 TwoElementAlgebra.booleanAlgebra.toBoundedOrderOps).max =
      .ok [true, true, true] :=
  ⟨TwoElementAlgebra.boolean_spec.toBoundedOrderSpec, rfl⟩

/-- C37: vectors over a boolean algebra form the direct power. -/
theorem C37_boolean_algebra [BooleanAlgebra R] {base : BooleanAlgebraOps E}
    (h : BooleanAlgebraSpec mp base rep) :
    BooleanAlgebraSpec mp (VectorAlgebra.booleanAlgebra n base) (VecRep (R := R) (n := n) rep) :=
  VectorAlgebra.booleanAlgebra_spec h

/-- The hypothesis is met by the two-element boolean algebra. -/
example : BooleanAlgebraSpec False TwoElementAlgebra.booleanAlgebra TwoElementAlgebra.BRep :=
  TwoElementAlgebra.boolean_spec

/-- The vectors of booleans as a boolean algebra. -/
abbrev boolVectors : BooleanAlgebraOps (List Bool) :=
  VectorAlgebra.booleanAlgebra n TwoElementAlgebra.booleanAlgebra

open Classical in
theorem setRep_iff {v : List Bool} {s : Set (Fin n)} :
    SetRep v s ↔ VecRep TwoElementAlgebra.BRep v fun i => decide (i ∈ s) := by
  unfold SetRep VecRep TwoElementAlgebra.BRep
  refine exists_congr fun h => forall_congr' fun i => ?_
  by_cases hi : i ∈ s <;> simp [hi]

/-- A vector of booleans stands for the set of the points where it is true. -/
theorem setRep_of_vecRep {v : List Bool} {f : Fin n → Bool}
    (h : VecRep TwoElementAlgebra.BRep v f) : SetRep v {i | f i = true} :=
  ⟨h.1, fun i => by rw [h.2 i]; rfl⟩

/-- C37: vectors of booleans of length `n` are exactly the subsets of `n` points. -/
theorem C37_sets_bijective :
    (∀ v : List Bool, v.length = n → ∃! s : Set (Fin n), SetRep v s) ∧
    (∀ s : Set (Fin n), ∃! v : List Bool, SetRep v s) := by
  classical
  constructor
  · intro v hv
    refine ⟨{i | v[i.1]'(hv ▸ i.2) = true}, ⟨hv, fun i => Iff.rfl⟩, ?_⟩
    rintro s ⟨_, hs⟩
    ext i
    exact (hs i).symm
  · intro s
    refine ⟨List.ofFn fun i => decide (i ∈ s), ⟨by simp, fun i => by simp⟩, ?_⟩
    rintro v ⟨hl, hv⟩
    refine List.ext_getElem (by simp [hl]) fun i h1 h2 => ?_
    have := hv ⟨i, hl ▸ h1⟩
    simp only [List.getElem_ofFn]
    rw [Bool.eq_iff_iff, this, decide_eq_true_iff]

/-- The set of the points `0` and `2`. -/
example : SetRep [true, false, true] ({0, 2} : Set (Fin 3)) :=
  ⟨rfl, by intro i; fin_cases i <;> simp⟩

/-- C37: on vectors of booleans `leq`, `meet`, `join`, `not`, `max` and `min` are inclusion,
intersection, union, complement, the full and the empty set; no operation panics. -/
theorem C37_sets {v w : List Bool} {s t : Set (Fin n)} (hv : SetRep v s) (hw : SetRep w t) :
    Decides False ((boolVectors n).leq v w) (s ⊆ t) ∧
    Decides False ((boolVectors n).lessThan v w) (s ⊂ t) ∧
    Decides False ((boolVectors n).comparable v w) (s ⊆ t ∨ t ⊆ s) ∧
    Decides False ((boolVectors n).equals v w) (s = t) ∧
    Returns False ((boolVectors n).meet v w) (SetRep · (s ∩ t)) ∧
    Returns False ((boolVectors n).join v w) (SetRep · (s ∪ t)) ∧
    Returns False ((boolVectors n).not v) (SetRep · sᶜ) ∧
    Returns False (boolVectors n).max (SetRep · (Set.univ : Set (Fin n))) ∧
    Returns False (boolVectors n).min (SetRep · (∅ : Set (Fin n))) := by
  classical
  have h := C37_boolean_algebra n TwoElementAlgebra.boolean_spec
  rw [setRep_iff] at hv hw
  have hle : ∀ s t : Set (Fin n), (fun i => decide (i ∈ s)) ≤ (fun i => decide (i ∈ t)) ↔ s ⊆ t := by
    intro s t
    refine forall_congr' fun i => ?_
    by_cases h1 : i ∈ s <;> by_cases h2 : i ∈ t <;> simp [h1, h2]
  refine ⟨(h.leq hv hw).iff (hle s t), (h.lessThan hv hw).iff ?_,
    (h.comparable hv hw).iff (by rw [hle, hle]), (h.equals hv hw).iff ?_, ?_, ?_, ?_, ?_, ?_⟩
  · rw [lt_iff_le_not_ge, hle, hle]; rfl
  · rw [le_antisymm_iff, hle, hle, Set.Subset.antisymm_iff]
  · refine (h.meet hv hw).mono fun u ⟨z, hu, hz⟩ => ?_
    rw [hz.unique isGLB_pair] at hu
    refine (setRep_iff n).2 ?_
    convert hu using 2 with i
    simp [Bool.decide_and]
  · refine (h.join hv hw).mono fun u ⟨z, hu, hz⟩ => ?_
    rw [hz.unique isLUB_pair] at hu
    refine (setRep_iff n).2 ?_
    convert hu using 2 with i
    simp [Bool.decide_or]
  · refine (h.not hv).mono fun u hu => (setRep_iff n).2 ?_
    convert hu using 2 with i
    simp
  · refine h.max.mono fun u ⟨z, hu, hz⟩ => ?_
    rw [top_le_iff.1 (hz ⊤)] at hu
    refine (setRep_iff n).2 ?_
    convert hu using 2 with i
    simp
  · refine h.min.mono fun u ⟨z, hu, hz⟩ => ?_
    rw [le_bot_iff.1 (hz ⊥)] at hu
    refine (setRep_iff n).2 ?_
    convert hu using 2 with i
    simp

example : SetRep [true, true, false] ({0, 1} : Set (Fin 3)) ∧
    (boolVectors 3).meet [true, false, true] [true, true, false] = .ok [true, false, false] ∧
    (boolVectors 3).not [true, false, true] = .ok [false, true, false] :=
  ⟨⟨rfl, by intro i; fin_cases i <;> simp⟩, rfl, rfl⟩

/-- C37: the lattice of vectors of booleans is distributive and complemented, as computed by the
operations themselves. -/
theorem C37_laws {u v w : List Bool} (hu : u.length = n) (hv : v.length = n) (hw : w.length = n) :
    ((boolVectors n).join v w >>= (boolVectors n).meet u) =
      ((boolVectors n).meet u v >>= fun a => (boolVectors n).meet u w >>= (boolVectors n).join a) ∧
    ((boolVectors n).meet v w >>= (boolVectors n).join u) =
      ((boolVectors n).join u v >>= fun a => (boolVectors n).join u w >>= (boolVectors n).meet a) ∧
    ((boolVectors n).not u >>= (boolVectors n).meet u) = (boolVectors n).min ∧
    ((boolVectors n).not u >>= (boolVectors n).join u) = (boolVectors n).max := by
  obtain ⟨r, hr, -⟩ := (C37_sets_bijective n).1 u hu
  obtain ⟨s, hs, -⟩ := (C37_sets_bijective n).1 v hv
  obtain ⟨t, ht, -⟩ := (C37_sets_bijective n).1 w hw
  have key : ∀ {x y : Res (List Bool)} (q : Set (Fin n)), Returns False x (SetRep · q) →
      Returns False y (SetRep · q) → x = y := by
    intro x y q hx hy
    obtain ⟨a, rfl, ha⟩ := returns_false_iff.1 hx
    obtain ⟨b, rfl, hb⟩ := returns_false_iff.1 hy
    rw [((C37_sets_bijective n).2 q).unique ha hb]
  have meet : ∀ {v w : List Bool} {s t : Set (Fin n)}, SetRep v s → SetRep w t →
      Returns False ((boolVectors n).meet v w) (SetRep · (s ∩ t)) := fun h1 h2 =>
    (C37_sets n h1 h2).2.2.2.2.1
  have join : ∀ {v w : List Bool} {s t : Set (Fin n)}, SetRep v s → SetRep w t →
      Returns False ((boolVectors n).join v w) (SetRep · (s ∪ t)) := fun h1 h2 =>
    (C37_sets n h1 h2).2.2.2.2.2.1
  obtain ⟨-, -, -, -, -, -, hnot, hmax, hmin⟩ := C37_sets n hr hr
  refine ⟨key (r ∩ (s ∪ t)) (Returns.bind (join hs ht) fun a ha => meet hr ha) ?_,
    key (r ∪ (s ∩ t)) (Returns.bind (meet hs ht) fun a ha => join hr ha) ?_, key ∅ ?_ hmin,
    key Set.univ ?_ hmax⟩
  · rw [Set.inter_union_distrib_left]
    exact Returns.bind (meet hr hs) fun a ha => Returns.bind (meet hr ht) fun b hb => join ha hb
  · rw [Set.union_inter_distrib_left]
    exact Returns.bind (join hr hs) fun a ha => Returns.bind (join hr ht) fun b hb => meet ha hb
  · rw [← Set.inter_compl_self r]
    exact Returns.bind hnot fun a ha => meet hr ha
  · rw [← Set.union_compl_self r]
    exact Returns.bind hnot fun a ha => join hr ha

/-- A set of the boolean algebra. -/
example : SetRep [true, false, true] ({0, 2} : Set (Fin 3)) :=
  ⟨rfl, by intro i; fin_cases i <;> simp⟩

example : (boolVectors 3).meet [true, false, true] [true, true, false] =
    .ok [true, false, false] := rfl

end order

section length

variable [Cfg] {E : Type} (n : ℕ) {v w : List E}

/-- C38: vectors of the wrong length are not contained, whatever the base. -/
theorem C38_contains (base : DomainOps E) (h : v.length ≠ n) :
    (VectorAlgebra.domain n base).contains v = .ok false := by
  simp only [VectorAlgebra.domain]
  rw [if_pos (by simpa using h)]

example : (VectorAlgebra.domain 3 Integers.unitaryRing.toDomainOps).contains [1, 2] = .ok false :=
  C38_contains 3 _ (by decide)

/-- C38: binary operations panic if an operand has the wrong length, whatever the base. -/
theorem C38_binary (h : v.length ≠ n ∨ w.length ≠ n) :
    (∀ base : DomainOps E, (VectorAlgebra.domain n base).equals v w = .panic) ∧
    (∀ base : SemigroupOps E, (VectorAlgebra.semigroup n base).mul v w = .panic ∧
      (VectorAlgebra.semigroup n base).mulAssign v w = .panic) ∧
    (∀ base : CommutativeMonoidOps E, (VectorAlgebra.commutativeMonoid n base).add v w = .panic ∧
      (VectorAlgebra.commutativeMonoid n base).addAssign v w = .panic) ∧
    (∀ base : AbelianGroupOps E, (VectorAlgebra.abelianGroup n base).sub v w = .panic ∧
      (VectorAlgebra.abelianGroup n base).subAssign v w = .panic) ∧
    (∀ base : PartialOrderOps E, (VectorAlgebra.partialOrder n base).leq v w = .panic ∧
      (VectorAlgebra.partialOrder n base).lessThan v w = .panic ∧
      (VectorAlgebra.partialOrder n base).comparable v w = .panic) ∧
    (∀ base : LatticeOps E, (VectorAlgebra.lattice n base).meet v w = .panic ∧
      (VectorAlgebra.lattice n base).join v w = .panic) := by
  have e : ∀ base : DomainOps E, (VectorAlgebra.domain n base).equals v w = .panic := fun base =>
    VectorAlgebra.zipAll_panics _ h
  have l : ∀ base : PartialOrderOps E, (VectorAlgebra.partialOrder n base).leq v w = .panic :=
    fun base => VectorAlgebra.zipAll_panics _ h
  refine ⟨e, fun base => ⟨VectorAlgebra.zipMap_panics _ h, VectorAlgebra.zipEach_panics _ h⟩,
    fun base => ⟨VectorAlgebra.zipMap_panics _ h, VectorAlgebra.zipEach_panics _ h⟩,
    fun base => ⟨VectorAlgebra.zipMap_panics _ h, VectorAlgebra.zipEach_panics _ h⟩,
    fun base => ⟨l base, ?_, ?_⟩,
    fun base => ⟨VectorAlgebra.zipMap_panics _ h, VectorAlgebra.zipMap_panics _ h⟩⟩
  · exact panics_bind (e base.toDomainOps)
  · exact panics_bind (l base)

example : (VectorAlgebra.lattice 3 Integers.lattice).meet [1, 2] [1, 2, 3] = .panic :=
  ((C38_binary 3 (by decide)).2.2.2.2.2 _).1

/-- C38: unary operations panic if the operand has the wrong length, whatever the base. -/
theorem C38_unary (h : v.length ≠ n) :
    (∀ base : SemigroupOps E, (VectorAlgebra.semigroup n base).square v = .panic) ∧
    (∀ base : MonoidOps E, (VectorAlgebra.monoid n base).isOne v = .panic ∧
      (VectorAlgebra.monoid n base).tryInv v = .panic ∧
      (VectorAlgebra.monoid n base).invertible v = .panic) ∧
    (∀ base : GroupOps E, (VectorAlgebra.group n base).inv v = .panic) ∧
    (∀ base : CommutativeMonoidOps E, (VectorAlgebra.commutativeMonoid n base).isZero v = .panic ∧
      (VectorAlgebra.commutativeMonoid n base).double v = .panic) ∧
    (∀ base : AbelianGroupOps E, (VectorAlgebra.abelianGroup n base).neg v = .panic ∧
      (VectorAlgebra.abelianGroup n base).negAssign v = .panic) ∧
    (∀ base : BooleanAlgebraOps E, (VectorAlgebra.booleanAlgebra n base).not v = .panic) := by
  have m : ∀ f : E → Res E, VectorAlgebra.mapEach n f v = .panic := fun f =>
    VectorAlgebra.mapEach_panics f h
  have a : ∀ f : E → Res Bool, VectorAlgebra.allEach n f v = .panic := fun f =>
    VectorAlgebra.allEach_panics f h
  refine ⟨fun _ => m _, fun _ => ⟨a _, ?_, a _⟩, fun _ => m _, fun _ => ⟨a _, m _⟩,
    fun _ => ⟨m _, m _⟩, fun _ => m _⟩
  simp only [VectorAlgebra.monoid]
  rw [VectorAlgebra.lenIs_ne h]
  rfl

/-- A vector of length two where the length is to be three. -/
example : (VectorAlgebra.unitaryRing 3 Integers.unitaryRing).contains [1, 2] = .ok false ∧
    (VectorAlgebra.unitaryRing 3 Integers.unitaryRing).add [1, 2] [1, 2, 3] = .panic ∧
    (VectorAlgebra.unitaryRing 3 Integers.unitaryRing).neg [1, 2] = .panic :=
  ⟨rfl, rfl, rfl⟩

/-- C38: `times` with an unsigned or signed multiplier and `power`, which the vectors inherit, check the
length in their loop only: with zero they return the neutral element for every vector; with another
number they panic for vectors of the wrong length, as soon as they have computed the neutral element. -/
theorem C38_multiples (h : v.length ≠ n) :
    (∀ (base : CommutativeMonoidOps E) (k : ℕ), (VectorAlgebra.commutativeMonoid n base).utimes k v =
      if k = 0 then (VectorAlgebra.commutativeMonoid n base).zero
      else (VectorAlgebra.commutativeMonoid n base).zero.bind fun _ => .panic) ∧
    (∀ (base : AbelianGroupOps E) (k : ℤ), (VectorAlgebra.abelianGroup n base).times k v =
      if k = 0 then (VectorAlgebra.abelianGroup n base).zero
      else if k < 0 then .panic
      else (VectorAlgebra.abelianGroup n base).zero.bind fun _ => .panic) ∧
    ∀ (base : GroupOps E) (k : ℤ), (VectorAlgebra.group n base).power k v =
      if k = 0 then (VectorAlgebra.group n base).one
      else if k < 0 then .panic
      else (VectorAlgebra.group n base).one.bind fun _ => .panic :=
  ⟨fun base k => utimes_panics _ (fun _ => (((C38_binary n (.inr h)).2.2.1 base).2))
      (((C38_unary n h).2.2.2.1 base).2) k,
    fun base k => powerDefault_panics _ (fun _ => (((C38_binary n (.inr h)).2.2.1 base.toCommutativeMonoidOps).2))
      (((C38_unary n h).2.2.2.1 base.toCommutativeMonoidOps).2) (((C38_unary n h).2.2.2.2.1 base).1) k,
    fun base k => powerDefault_panics _ (fun _ => (((C38_binary n (.inr h)).2.1 base.toSemigroupOps).2))
      ((C38_unary n h).1 base.toSemigroupOps) ((C38_unary n h).2.2.1 base) k⟩

/-- The double of a vector of length two where the length is to be three panics, its zeroth multiple is
the zero vector of length three. -/
example : (VectorAlgebra.unitaryRing 3 Integers.unitaryRing).utimes 2 [1, 2] = .panic ∧
    (VectorAlgebra.unitaryRing 3 Integers.unitaryRing).utimes 0 [1, 2] = .ok [0, 0, 0] ∧
    (VectorAlgebra.abelianGroup 3 Integers.unitaryRing.toAbelianGroupOps).times (-2) [1, 2] = .panic :=
  ⟨((C38_multiples 3 (v := [1, 2]) (by decide)).1 Integers.unitaryRing.toCommutativeMonoidOps 2),
    ((C38_multiples 3 (v := [1, 2]) (by decide)).1 Integers.unitaryRing.toCommutativeMonoidOps 0),
    ((C38_multiples 3 (v := [1, 2]) (by decide)).2.1 Integers.unitaryRing.toAbelianGroupOps (-2))⟩

end length

section checked

/-- C57: with a checked machine integer base a vector operation may panic but never returns a wrong
result. -/
theorem C57_checked_vectors [Cfg] {w : ℕ} [Width w] (n : ℕ) :
    UnitaryRingSpec True (VectorAlgebra.unitaryRing n (CheckedInts.euclidean w).toUnitaryRingOps)
      (VecRep (n := n) fun (a : SInt w) (x : ℤ) => a.1 = x) :=
  C36_unitary_ring n (CheckedInts.euclidean_spec (w := w)).toUnitaryRingSpec

/-- In eight bits a sum of vectors panics if one entry overflows. -/
example [Cfg] : (VectorAlgebra.unitaryRing 2 (CheckedInts.euclidean 8).toUnitaryRingOps).add
    [SInt.lit 100 (by decide), SInt.lit 1 (by decide)]
    [SInt.lit 100 (by decide), SInt.lit 1 (by decide)] = .panic := rfl

end checked

end Abstalg
