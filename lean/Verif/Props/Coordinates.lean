import Verif.Proofs.CoordinatesPoly
import Verif.Props.Order
import Verif.Model.MultiplicativeGroup
import Verif.Model.TwoElementAlgebra
import Verif.Model.Integers

/-! # The calls made on the coordinates, the first one that stops: C81 -/

set_option autoImplicit false

namespace Abstalg

variable {E : Type} {n : ℕ} {v w : List E}

open Term

/-! ## Vectors -/

section vectors

/-- C81: `contains` and `equals` of vectors test the coordinates in order, up to the first test that fails. -/
theorem C81_vector_domain (base : DomainOps E) (hv : v.length = n) (hw : w.length = n) :
    TestsAll (v.map base.contains) ((VectorAlgebra.domain n base).contains v) ∧
    TestsAll (List.zipWith base.equals v w) ((VectorAlgebra.domain n base).equals v w) :=
  ⟨VectorAlgebra.contains_tests base hv, VectorAlgebra.zipAll_tests _ hv hw⟩

/-- A test after one that fails is not made. -/
example : (VectorAlgebra.domain 2 ⟨fun _ => .ok true,
    fun a b : ℕ => if a = 0 then .panic else .ok (a == b)⟩).equals [1, 0] [2, 0] = .ok false ∧
    (VectorAlgebra.domain 2 ⟨fun _ => .ok true,
      fun a b : ℕ => if a = 0 then .panic else .ok (a == b)⟩).equals [1, 0] [1, 2] = .panic := ⟨rfl, rfl⟩

/-- C81: `mul`, `mul_assign` and `square` of vectors make the same calls on the coordinates, in order, up to
the first one that panics. -/
theorem C81_vector_semigroup (base : SemigroupOps E) (hv : v.length = n) (hw : w.length = n) :
    Collects (List.zipWith base.mul v w) ((VectorAlgebra.semigroup n base).mul v w) ∧
    Collects (List.zipWith base.mulAssign v w) ((VectorAlgebra.semigroup n base).mulAssign v w) ∧
    Collects (v.map base.square) ((VectorAlgebra.semigroup n base).square v) :=
  ⟨VectorAlgebra.zipMap_collects _ hv hw, VectorAlgebra.zipEach_collects _ hv hw,
    VectorAlgebra.mapEach_collects _ hv⟩

/-- Products of terms. -/
example [Cfg] : (VectorAlgebra.semigroup 2 termField.toSemigroupOps).mul [var 0, var 1] [var 2, var 3] =
    .ok [mul (var 0) (var 2), mul (var 1) (var 3)] :=
  ((C81_vector_semigroup (v := [var 0, var 1]) (w := [var 2, var 3]) _ rfl rfl).1.ok _).2 (.cons rfl (.cons rfl .nil))

/-- C81: `one`, `is_one`, `try_inv` and `invertible` of vectors. -/
theorem C81_vector_monoid (base : MonoidOps E) (hv : v.length = n) :
    Repeats n base.one (VectorAlgebra.monoid n base).one ∧
    TestsAll (v.map base.isOne) ((VectorAlgebra.monoid n base).isOne v) ∧
    TriesAll (v.map base.tryInv) ((VectorAlgebra.monoid n base).tryInv v) ∧
    TestsAll (v.map base.invertible) ((VectorAlgebra.monoid n base).invertible v) := by
  refine ⟨VectorAlgebra.diagonal_repeats n base.one, VectorAlgebra.allEach_tests _ hv, ?_,
    VectorAlgebra.allEach_tests _ hv⟩
  have h : (VectorAlgebra.monoid n base).tryInv v = VectorAlgebra.tryInvLoop base.tryInv v [] := by
    show (Res.assert (VectorAlgebra.lenIs n v) >>= _) = _
    simp only [VectorAlgebra.lenIs, hv, beq_self_eq_true, assert_true, ok_bind]
  rw [h]
  exact VectorAlgebra.tryInvLoop_tries _ _

/-- The inverses of terms, and a zero among them. -/
example [Cfg] : (VectorAlgebra.monoid 2 termField.toMonoidOps).tryInv [var 0, var 1] =
      .ok (some [inv (var 0), inv (var 1)]) ∧
    (VectorAlgebra.monoid 2 termField.toMonoidOps).tryInv [var 0, zero] = .ok none :=
  ⟨((C81_vector_monoid _ rfl).2.2.1.all _).2 (.cons rfl (.cons rfl .nil)),
    (C81_vector_monoid _ rfl).2.2.1.fails.2 ⟨1, rfl, fun j hj c hc => by
      have : j = 0 := by omega
      subst this
      cases hc
      exact ⟨_, rfl⟩⟩⟩

/-- C81: `inv` of vectors. -/
theorem C81_vector_group [Cfg] (base : GroupOps E) (hv : v.length = n) :
    Collects (v.map base.inv) ((VectorAlgebra.group n base).inv v) :=
  VectorAlgebra.mapEach_collects _ hv

/-- The first panic stops the computation. -/
example [Cfg] : (VectorAlgebra.group 2 (MultiplicativeGroup.ops termField.toMonoidOps)).inv [zero, var 1] =
    .panic :=
  (C81_vector_group _ rfl).panic.2 ⟨0, rfl, fun j hj => absurd hj (by omega)⟩

/-- C81: the additive methods of vectors. -/
theorem C81_vector_additive [Cfg] (base : AbelianGroupOps E) (hv : v.length = n) (hw : w.length = n) :
    Repeats n base.zero (VectorAlgebra.abelianGroup n base).zero ∧
    TestsAll (v.map base.isZero) ((VectorAlgebra.abelianGroup n base).isZero v) ∧
    Collects (List.zipWith base.add v w) ((VectorAlgebra.abelianGroup n base).add v w) ∧
    Collects (List.zipWith base.addAssign v w) ((VectorAlgebra.abelianGroup n base).addAssign v w) ∧
    Collects (v.map base.double) ((VectorAlgebra.abelianGroup n base).double v) ∧
    Collects (v.map base.neg) ((VectorAlgebra.abelianGroup n base).neg v) ∧
    Collects (v.map base.negAssign) ((VectorAlgebra.abelianGroup n base).negAssign v) ∧
    Collects (List.zipWith base.sub v w) ((VectorAlgebra.abelianGroup n base).sub v w) ∧
    Collects (List.zipWith base.subAssign v w) ((VectorAlgebra.abelianGroup n base).subAssign v w) :=
  ⟨VectorAlgebra.diagonal_repeats n base.zero, VectorAlgebra.allEach_tests _ hv,
    VectorAlgebra.zipMap_collects _ hv hw, VectorAlgebra.zipEach_collects _ hv hw,
    VectorAlgebra.mapEach_collects _ hv, VectorAlgebra.mapEach_collects _ hv,
    VectorAlgebra.mapEach_collects _ hv, VectorAlgebra.zipMap_collects _ hv hw,
    VectorAlgebra.zipEach_collects _ hv hw⟩

/-- A difference of vectors of terms. -/
example [Cfg] : (VectorAlgebra.abelianGroup 2 termField.toAbelianGroupOps).sub [var 0, var 1] [var 2, var 3] =
    .ok [add (neg (var 2)) (var 0), add (neg (var 3)) (var 1)] :=
  ((C81_vector_additive (v := [var 0, var 1]) (w := [var 2, var 3]) _ rfl rfl).2.2.2.2.2.2.2.1.ok _).2 (.cons rfl (.cons rfl .nil))

/-- C81: `int` of vectors makes one call, whatever the length. -/
theorem C81_vector_int [Cfg] (base : UnitaryRingOps E) (k : ℤ) :
    Repeats n (base.int k) ((VectorAlgebra.unitaryRing n base).int k) :=
  VectorAlgebra.diagonal_repeats n _

/-- Even vectors of length zero ask the base for the integer. -/
example [Cfg] : (VectorAlgebra.unitaryRing 0 termField.toUnitaryRingOps).int 2 = .panic :=
  (C81_vector_int _ _).panic.2 rfl

/-- C81: orders, bounds, lattice operations and complements of vectors. -/
theorem C81_vector_order (base : BooleanAlgebraOps E) (hv : v.length = n) (hw : w.length = n) :
    TestsAll (List.zipWith base.leq v w) ((VectorAlgebra.booleanAlgebra n base).leq v w) ∧
    Repeats n base.max (VectorAlgebra.booleanAlgebra n base).max ∧
    Repeats n base.min (VectorAlgebra.booleanAlgebra n base).min ∧
    Collects (List.zipWith base.meet v w) ((VectorAlgebra.booleanAlgebra n base).meet v w) ∧
    Collects (List.zipWith base.join v w) ((VectorAlgebra.booleanAlgebra n base).join v w) ∧
    Collects (v.map base.not) ((VectorAlgebra.booleanAlgebra n base).not v) :=
  ⟨VectorAlgebra.zipAll_tests _ hv hw, VectorAlgebra.diagonal_repeats n _, VectorAlgebra.diagonal_repeats n _,
    VectorAlgebra.zipMap_collects _ hv hw, VectorAlgebra.zipMap_collects _ hv hw,
    VectorAlgebra.mapEach_collects _ hv⟩

/-- Two incomparable vectors: the first coordinate decides. -/
example : (VectorAlgebra.booleanAlgebra 2 TwoElementAlgebra.booleanAlgebra).leq [true, false] [false, true] =
    .ok false :=
  (C81_vector_order (v := [true, false]) (w := [false, true]) _ rfl rfl).1.no.2 ⟨0, rfl, fun j hj => absurd hj (by omega)⟩

end vectors

/-! ## Matrices -/

section matrices

variable [Cfg]

/-- C81: the entrywise methods of matrices. -/
theorem C81_matrix (base : FieldOps E) (hv : v.length = n * n) (hw : w.length = n * n) :
    TestsAll (v.map base.contains) ((MatrixRing.ops base n).contains v) ∧
    TestsAll (List.zipWith base.equals v w) ((MatrixRing.ops base n).equals v w) ∧
    Repeats (n * n) base.zero (MatrixRing.ops base n).zero ∧
    TestsAll (v.map base.isZero) ((MatrixRing.ops base n).isZero v) ∧
    Collects (List.zipWith base.add v w) ((MatrixRing.ops base n).add v w) ∧
    Collects (List.zipWith base.addAssign v w) ((MatrixRing.ops base n).addAssign v w) ∧
    Collects (v.map base.double) ((MatrixRing.ops base n).double v) ∧
    Collects (v.map base.neg) ((MatrixRing.ops base n).neg v) ∧
    Collects (v.map base.negAssign) ((MatrixRing.ops base n).negAssign v) ∧
    Collects (List.zipWith base.sub v w) ((MatrixRing.ops base n).sub v w) ∧
    Collects (List.zipWith base.subAssign v w) ((MatrixRing.ops base n).subAssign v w) :=
  ⟨(C81_vector_domain base.toDomainOps hv hw).1, (C81_vector_domain base.toDomainOps hv hw).2,
    C81_vector_additive base.toAbelianGroupOps hv hw⟩

/-- A sum of matrices of terms. -/
example : (MatrixRing.ops termField 1).add [var 0] [var 1] = .ok [add (var 0) (var 1)] :=
  ((C81_matrix (v := [var 0]) (w := [var 1]) termField (n := 1) rfl rfl).2.2.2.2.1.ok _).2 (.cons rfl .nil)

end matrices

/-! ## Polynomials -/

section polynomials

variable [Cfg]

/-- C81: `contains` of a polynomial that is not empty tests the coefficients in order and then the leading
one for zero; `equals` of polynomials of the same length tests the coefficients in order. -/
theorem C81_poly_domain (base : AbelianGroupOps E) :
    (∀ a, TestsAll ((v ++ [a]).map base.contains ++ [(base.isZero a).bind fun d => .ok (!d)])
      ((PolynomialAlgebra.domain base).contains (v ++ [a]))) ∧
    (v.length = w.length →
      TestsAll (List.zipWith base.equals v w) ((PolynomialAlgebra.domain base).equals v w)) ∧
    (v.length ≠ w.length → (PolynomialAlgebra.domain base).equals v w = .ok false) := by
  refine ⟨fun a => ?_, fun h => ?_, fun h => ?_⟩
  · have h : (PolynomialAlgebra.domain base).contains (v ++ [a]) =
        (allRes base.contains (v ++ [a])).bind fun b => if b then (base.isZero a).bind fun d => .ok (!d)
          else .ok false := by
      show (if (v ++ [a]).isEmpty then _ else _) = _
      rw [if_neg (by simp)]
      show (allRes base.contains (v ++ [a])).bind _ = (allRes base.contains (v ++ [a])).bind _
      congr 1
      funext b
      cases b with
      | false => rfl
      | true =>
        have hi : idx (v ++ [a]) ((v ++ [a]).length - 1) = .ok a := idx_eq_ok.2 (by simp)
        rw [if_pos rfl, if_pos rfl, hi]
        rfl
    rw [h]
    exact allRes_snoc _ _ _
  · have h' : (PolynomialAlgebra.domain base).equals v w = allRes (fun p => base.equals p.1 p.2) (v.zip w) := by
      show (if v.length != w.length then _ else _) = _
      rw [if_neg (by simp [h])]
    rw [h', ← zip_map_eq]
    exact allRes_tests _ _
  · show (if v.length != w.length then _ else _) = _
    rw [if_pos (by simp [h])]

/-- A polynomial with a zero as leading coefficient. -/
example : (PolynomialAlgebra.domain termField.toAbelianGroupOps).contains [var 0, zero] = .ok false :=
  ((C81_poly_domain (v := [var 0]) (w := []) termField.toAbelianGroupOps).1 zero).no.2
    ⟨2, rfl, fun j hj c hc => by
      rcases (show j = 0 ∨ j = 1 by omega) with rfl | rfl <;> cases hc <;> rfl⟩

/-- Numbers of which all even ones count as zero. -/
def parityGroup : AbelianGroupOps ℕ where
  equals a b := .ok (a == b)
  zero := .ok 0
  isZero a := .ok (a % 2 == 0)
  add a b := .ok (a + b)
  neg a := .ok a
  times k a := .ok (k.toNat * a)

/-- C81: `neg` of polynomials makes the calls on the coefficients in order. -/
theorem C81_poly_neg (base : AbelianGroupOps E) :
    Collects (v.map base.neg) ((PolynomialAlgebra.abelianGroup base).neg v) :=
  mapRes_collects _ _

/-- The negative of a polynomial of terms. -/
example : (PolynomialAlgebra.abelianGroup termField.toAbelianGroupOps).neg [var 0, var 1] =
    .ok [neg (var 0), neg (var 1)] :=
  ((C81_poly_neg _).ok _).2 (.cons rfl (.cons rfl .nil))

/-- C81: `add` of polynomials of different lengths adds the coefficients of the shorter one on the right to
those of the longer one, whichever operand it is, and keeps the other coefficients; nothing is tested for
zero. -/
theorem C81_poly_add_longer (base : AbelianGroupOps E) (h : w.length < v.length) :
    Collects (List.zipWith base.add v w ++ (v.drop w.length).map .ok)
      ((PolynomialAlgebra.abelianGroup base).add v w) ∧
    Collects (List.zipWith base.add v w ++ (v.drop w.length).map .ok)
      ((PolynomialAlgebra.abelianGroup base).add w v) :=
  PolynomialAlgebra.add_longer_collects base h

/-- Both sums of two polynomials of terms are the same terms. -/
example : (PolynomialAlgebra.abelianGroup termField.toAbelianGroupOps).add [var 0] [var 1, var 2] =
    .ok [add (var 1) (var 0), var 2] :=
  ((C81_poly_add_longer (v := [var 1, var 2]) (w := [var 0]) termField.toAbelianGroupOps (by simp)).2.ok _).2
    (.cons rfl (.cons rfl .nil))

/-- C81: `add` of polynomials of the same length adds the coefficients, tests all sums for zero, drops the
zeros at the end and replaces those in between by the zero of the base. -/
theorem C81_poly_add_same (base : AbelianGroupOps E) (h : v.length = w.length) (x : List E) :
    (PolynomialAlgebra.abelianGroup base).add v w = .ok x ↔
      ∃ s, List.Forall₂ (fun c x => c = .ok x) (List.zipWith base.add v w) s ∧
        Trimmed base.isZero base.zero s x :=
  PolynomialAlgebra.add_same base h x

/-- The sum six in between is replaced, the one at the end is
dropped. -/
example : (PolynomialAlgebra.abelianGroup parityGroup).add [1, 2, 3] [5, 5, 5] = .ok [0, 7] := rfl

/-- C81: `sub` of polynomials adds the first operand on the right to the negative of the second one,
`sub_assign` adds the negative on the right. -/
theorem C81_poly_sub (base : AbelianGroupOps E) (x : List E) :
    ((PolynomialAlgebra.abelianGroup base).sub v w = .ok x ↔
      ∃ m, List.Forall₂ (fun c x => c = .ok x) (w.map base.neg) m ∧
        (PolynomialAlgebra.abelianGroup base).add m v = .ok x) ∧
    ((PolynomialAlgebra.abelianGroup base).subAssign v w = .ok x ↔
      ∃ m, List.Forall₂ (fun c x => c = .ok x) (w.map base.neg) m ∧
        (PolynomialAlgebra.abelianGroup base).add v m = .ok x) := by
  constructor
  · refine Iff.trans (rbind_eq_ok (c := (PolynomialAlgebra.abelianGroup base).neg w)) ?_
    exact exists_congr fun m => and_congr_left fun _ => (C81_poly_neg base).ok m
  · refine Iff.trans (rbind_eq_ok (c := (PolynomialAlgebra.abelianGroup base).neg w)) ?_
    exact exists_congr fun m => and_congr_left fun _ => (C81_poly_neg base).ok m

/-- The two differences of polynomials of terms. -/
example : (PolynomialAlgebra.abelianGroup termField.toAbelianGroupOps).sub [var 0] [var 1] =
      .ok [add (neg (var 1)) (var 0)] ∧
    (PolynomialAlgebra.abelianGroup termField.toAbelianGroupOps).subAssign [var 0] [var 1] =
      .ok [add (var 0) (neg (var 1))] := ⟨rfl, rfl⟩

/-- C81: `times` of polynomials multiplies all coefficients, tests the products for zero from the last one
down to the first one that is not, and keeps the products up to there, zeros included. -/
theorem C81_poly_times (base : AbelianGroupOps E) (k : ℤ) (x : List E) :
    (PolynomialAlgebra.abelianGroup base).times k v = .ok x ↔
      ∃ s l, List.Forall₂ (fun c x => c = .ok x) (v.map (base.times k)) s ∧ l ≤ s.length ∧ x = s.take l ∧
        (∀ i a, l ≤ i → s[i]? = some a → base.isZero a = .ok true) ∧
        (∀ a, l ≠ 0 → s[l - 1]? = some a → base.isZero a = .ok false ∧ ∃ z, base.zero = .ok z) := by
  have h : (PolynomialAlgebra.abelianGroup base).times k v =
      (mapRes (base.times k) v).bind fun s => PolynomialAlgebra.timesTrim base s s.length := rfl
  rw [h, rbind_eq_ok]
  refine exists_congr fun s => ?_
  rw [(mapRes_collects _ _).ok, PolynomialAlgebra.timesTrim_iff base s x _ le_rfl]
  constructor
  · rintro ⟨h1, l, h2, h3, h4, h5⟩
    exact ⟨l, h1, h2, h3, fun i a hi ha => h4 i a hi (List.getElem?_eq_some_iff.1 ha).1 ha, h5⟩
  · rintro ⟨l, h1, h2, h3, h4, h5⟩
    exact ⟨h1, l, h2, h3, fun i a hi _ ha => h4 i a hi ha, h5⟩

/-- Zeros in between are kept by `times`. -/
example : (PolynomialAlgebra.abelianGroup parityGroup).times 3 [2, 1, 4] = .ok [6, 3] := rfl

/-- C81: `associate_repr` of polynomials multiplies the coefficients on the right with the associate
coefficient of the leading one. -/
theorem C81_associate_repr (base : IntegralDomainOps E) (a : E) (x : List E) :
    (PolynomialAlgebra.integralDomain base).associateRepr (v ++ [a]) = .ok x ↔
      ∃ c, base.associateCoef a = .ok c ∧
        List.Forall₂ (fun c x => c = .ok x) ((v ++ [a]).map fun b => base.mul b c) x := by
  have h : (PolynomialAlgebra.integralDomain base).associateRepr (v ++ [a]) =
      (base.associateCoef a).bind fun c => mapRes (fun b => base.mul b c) (v ++ [a]) := by
    show (if (v ++ [a]).isEmpty then _ else _) = _
    have hi : idx (v ++ [a]) ((v ++ [a]).length - 1) = .ok a := idx_eq_ok.2 (by simp)
    rw [if_neg (by simp), hi]
    rfl
  rw [h, rbind_eq_ok]
  refine exists_congr fun c => and_congr_right fun _ => ?_
  rw [(mapRes_collects _ _).ok]

/-- The monic associate of a polynomial of terms. -/
example : (PolynomialAlgebra.integralDomain termField.toIntegralDomain).associateRepr [var 0, var 1] =
    .ok [mul (var 0) (inv (var 1)), mul (var 1) (inv (var 1))] :=
  (C81_associate_repr (v := [var 0]) _ _ _).2 ⟨inv (var 1), rfl, .cons rfl (.cons rfl .nil)⟩

end polynomials

/-! ## Euclid's algorithm -/

section euclid

/-- C81: `gcd` divides the operands and the remainders in turn, until a remainder is zero, and returns the
last divisor as it is. -/
theorem C81_gcd (isZero : E → Res Bool) (quoRem : E → E → Res (E × E)) (a b g : E) :
    gcdDefault isZero (fun a b => (quoRem a b).bind fun p => .ok p.2) a b = .ok g ↔
      ∃ k r q, Divisions isZero quoRem a b k r q ∧ g = r k :=
  gcdDefault_ok_iff quoRem a b g

/-- C81: `extended_gcd` makes the same divisions, and computes the coefficients from the last division back
to the first: the one before last minus the product of the last one and the quotient. -/
theorem C81_extended_gcd (isZero : E → Res Bool) (one zero : Res E) (quoRem : E → E → Res (E × E))
    (sub mul : E → E → Res E) (a b g x y : E) :
    extendedGcdDefault isZero one zero quoRem sub mul a b = .ok (g, x, y) ↔
      ∃ k r q t, Divisions isZero quoRem a b k r q ∧ Cofactors one zero sub mul k q t ∧
        g = r k ∧ x = t 1 ∧ y = t 0 :=
  extendedGcdDefault_ok_iff one zero quoRem sub mul a b g x y

variable [Cfg]

/-- C81: polynomials over a field use these two methods as they are. -/
theorem C81_poly_gcd (base : FieldOps E) (a b g : List E) :
    (PolynomialAlgebra.euclidean base).gcd a b = .ok g ↔
      ∃ k r q, Divisions (PolynomialAlgebra.euclidean base).isZero (PolynomialAlgebra.euclidean base).quoRem
        a b k r q ∧ g = r k :=
  C81_gcd _ _ _ _ _

/-- C81: the same for `extended_gcd`. -/
theorem C81_poly_extended_gcd (base : FieldOps E) (a b g x y : List E) :
    (PolynomialAlgebra.euclidean base).extendedGcd a b = .ok (g, x, y) ↔
      ∃ k r q t, Divisions (PolynomialAlgebra.euclidean base).isZero
          (PolynomialAlgebra.euclidean base).quoRem a b k r q ∧
        Cofactors (PolynomialAlgebra.euclidean base).one (PolynomialAlgebra.euclidean base).zero
          (PolynomialAlgebra.euclidean base).sub (PolynomialAlgebra.euclidean base).mul k q t ∧
        g = r k ∧ x = t 1 ∧ y = t 0 :=
  C81_extended_gcd _ _ _ _ _ _ _ _ _ _ _

/-- One division of integers: the coefficients of six and three. -/
example : Integers.euclidean.gcd 6 3 = .ok 3 ∧ Integers.euclidean.extendedGcd 6 3 = .ok (3, 0, 1) := by
  have h : Divisions Integers.euclidean.isZero Integers.euclidean.quoRem 6 3 1
      (fun i => if i = 0 then 6 else if i = 1 then 3 else 0) (fun _ => 2) :=
    ⟨rfl, rfl, fun i hi => by rw [show i = 0 by omega]; rfl, fun i hi => by rw [show i = 0 by omega]; rfl, rfl⟩
  refine ⟨(C81_gcd _ _ _ _ _).2 ⟨1, _, _, h, rfl⟩, (C81_extended_gcd _ _ _ _ _ _ _ _ _ _ _).2
    ⟨1, _, _, fun i => if i = 0 then 1 else if i = 1 then 0 else 1, h, ⟨rfl, rfl, fun i hi => ?_⟩, rfl, rfl, rfl⟩⟩
  rw [show i = 0 by omega]
  exact ⟨0, rfl, rfl⟩

end euclid

end Abstalg
