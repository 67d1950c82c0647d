import Verif.Spec.Usize
import Verif.Proofs.Usize
import Verif.Proofs.Counted
import Verif.Model.TwoElementAlgebra
import Verif.Model.Integers

/-! # Index arithmetic and capacities: C94 -/

set_option autoImplicit false

namespace Abstalg

section

variable [Cfg] {E : Type}

/-- C94: the sizes of matrices are those whose square is a `usize`: otherwise `new` panics. -/
theorem C94_new (base : FieldOps E) (size : ℕ) :
    (MatrixRing.new base size = .panic ↔ usizeMax < size * size) ∧
    (∀ A, MatrixRing.new base size = .ok A → size * size ≤ usizeMax) := by
  unfold MatrixRing.new Res.assert
  by_cases h : size * size ≤ usizeMax
  · simp [h]
  · simp [h, Nat.lt_of_not_le h]

/-- C94: no index of a matrix overflows: the methods computed on `usize` are those computed on `ℕ`. -/
theorem C94_matrices (base : FieldOps E) {size bytes : ℕ} (hs : size * size ≤ usizeMax) (v w : List E) :
    Usize.matContains base size v = (MatrixRing.ops base size).contains v ∧
    Usize.matEquals base size v w = (MatrixRing.ops base size).equals v w ∧
    Usize.determinant base size v = MatrixRing.determinant base size v ∧
    (FitsVec bytes v.length → Usize.transpose bytes size v = MatrixRing.transpose size v) ∧
    (FitsVec bytes v.length → Usize.matMul bytes base size v w = (MatrixRing.ops base size).mul v w) := by
  refine ⟨Usize.matContains_eq base hs v, Usize.matEquals_eq base hs v w, Usize.determinant_eq base hs v, fun hb => ?_,
    fun hb => Usize.matMul_eq base hs v w hb⟩
  by_cases hl : v.length = size * size
  · exact Usize.transpose_eq hs v (by rw [← hl]; exact hb)
  · have : (v.length == size * size) = false := beq_eq_false_iff_ne.2 hl
    unfold Usize.transpose MatrixRing.transpose
    rw [Usize.len_ok hs, ok_bind, this]
    rfl

/-- C94: the constants of the matrices, and `try_inv`, which begins with one: if a matrix fits in a vector, the indices do not
overflow; otherwise they do not return. -/
theorem C94_matrix_constants (base : FieldOps E) {size bytes : ℕ} (hs : size * size ≤ usizeMax) (n : ℤ) (v : List E) :
    (FitsVec bytes (size * size) →
      Usize.matZero bytes base size = (MatrixRing.ops base size).zero ∧
      Usize.matInt bytes base size n = (MatrixRing.ops base size).int n ∧
      Usize.matTryInv bytes base size v = (MatrixRing.ops base size).tryInv v) ∧
    (¬ FitsVec bytes (size * size) → ∀ a o,
      Usize.matZero bytes base size ≠ .ok a ∧ Usize.matInt bytes base size n ≠ .ok a ∧ Usize.matTryInv bytes base size v ≠ .ok o) := by
  refine ⟨fun hb => ⟨Usize.matZero_eq base hb, Usize.matInt_eq base hs hb n, Usize.matTryInv_eq base hs hb v⟩, fun hb a o => ?_⟩
  have h1 : ∀ a, Usize.matZero bytes base size ≠ .ok a := fun a h => by
    obtain ⟨z, -, h⟩ := ok_of_bind h
    unfold Usize.diagonal at h
    rw [Usize.capacity_bad hb] at h
    cases h
  have h2 : ∀ n a, Usize.matInt bytes base size n ≠ .ok a := fun n a h => by
    obtain ⟨z, -, h⟩ := ok_of_bind h
    obtain ⟨m, h, -⟩ := ok_of_bind h
    exact h1 m h
  refine ⟨h1 a, h2 n a, fun h => ?_⟩
  obtain ⟨m, h, -⟩ := ok_of_bind h
  exact h2 1 m h

/-- C94: the constant vectors, and `try_inv`. -/
theorem C94_vectors (bytes len : ℕ) (e : E) (base : MonoidOps E) (v : List E) :
    Usize.diagonal bytes len e = (if ((len * bytes : ℕ) : ℤ) ≤ isizeMax then .ok (VectorAlgebra.diagonal len e) else .panic) ∧
    (FitsVec bytes v.length → Usize.vectorTryInv bytes len base.tryInv v = (VectorAlgebra.monoid len base).tryInv v) := by
  constructor
  · unfold Usize.diagonal
    rw [Usize.capacity_eq]
    split <;> rfl
  · intro hb
    unfold Usize.vectorTryInv
    show _ = (Res.assert (VectorAlgebra.lenIs len v)).bind fun _ => VectorAlgebra.tryInvLoop base.tryInv v []
    by_cases hl : v.length = len
    · subst hl
      rw [Usize.capacity_ok hb]
      rfl
    · have : VectorAlgebra.lenIs len v = false := beq_eq_false_iff_ne.2 hl
      rw [this]
      rfl

/-- C94: no index of a polynomial overflows. -/
theorem C94_polynomials {bytes : ℕ} (hb : 0 < bytes) (G : AbelianGroupOps E) (D : IntegralDomainOps E) (F : FieldOps E)
    (n : ℤ) {v w : List E} (hv : FitsVec bytes v.length) (hw : FitsVec bytes w.length) :
    Usize.degree v = .ok (PolynomialAlgebra.degree v) ∧
    Usize.leadingCoef v = PolynomialAlgebra.leadingCoef v ∧
    Usize.polyContains G v = (PolynomialAlgebra.abelianGroup G).contains v ∧
    Usize.polyAdd G v w = (PolynomialAlgebra.abelianGroup G).add v w ∧
    Usize.polyTimes G n v = (PolynomialAlgebra.abelianGroup G).times n v ∧
    Usize.associateRepr D v = (PolynomialAlgebra.integralDomain D).associateRepr v ∧
    Usize.associateCoef D v = (PolynomialAlgebra.integralDomain D).associateCoef v ∧
    Usize.polyQuoRem bytes F v w = (PolynomialAlgebra.euclidean F).quoRem v w := by
  have h1 : v.length ≤ usizeMax := by
    have := Usize.lengths_ok hb hv hw
    omega
  exact ⟨Usize.degree_eq v, Usize.leadingCoef_eq v, Usize.polyContains_eq G v, Usize.polyAdd_eq G v w h1,
    Usize.polyTimes_eq G n v h1, Usize.associateRepr_eq D v, Usize.associateCoef_eq D v, Usize.polyQuoRem_eq F v w h1 hv⟩

/-- C94: `mul` and `try_div` ask for a vector of the length of the product; if it does not fit they panic, otherwise no index
overflows. -/
theorem C94_poly_capacity {bytes : ℕ} (hb : 0 < bytes) (R : UnitaryRingOps E) (D : IntegralDomainOps E)
    {v w : List E} (hv : FitsVec bytes v.length) (hw : FitsVec bytes w.length) :
    (v = [] ∨ w = [] ∨ FitsVec bytes (v.length + w.length - 1) →
      Usize.polyMul bytes R v w = (PolynomialAlgebra.unitaryRing R).mul v w) ∧
    (¬ (v = [] ∨ w = [] ∨ FitsVec bytes (v.length + w.length - 1)) → Usize.polyMul bytes R v w = .panic) ∧
    (v.length < w.length ∨ FitsVec bytes (v.length + w.length - 1) →
      Usize.polyTryDiv bytes D v w = (PolynomialAlgebra.integralDomain D).tryDiv v w) ∧
    (¬ (v.length < w.length ∨ FitsVec bytes (v.length + w.length - 1)) → Usize.polyTryDiv bytes D v w = .panic) := by
  have h1 := Usize.lengths_ok hb hv hw
  unfold FitsVec
  refine ⟨fun h => ?_, fun h => ?_, fun h => ?_, fun h => ?_⟩
  · rw [Usize.polyMul_eq R v w h1, if_pos h]
    rfl
  · rw [Usize.polyMul_eq R v w h1, if_neg h]
  · rw [Usize.polyTryDiv_eq D v w h1, if_pos h]
    rfl
  · rw [Usize.polyTryDiv_eq D v w h1, if_neg h]

/-- C94: permutations: on operands of the right length the vectors asked for fit, and if they fit the methods are the same on all operands; `one` panics if they do not, which
is the case only with 32 bit pointers. -/
theorem C94_permutations (size : UInt32) {v w : List UInt32} (hv : FitsVec 4 v.length) :
    Usize.permContains size v = (Permutations.ops size).contains v ∧
    (v.length = size.toNat ∨ FitsVec 4 size.toNat → Usize.permMul size v w = (Permutations.ops size).mul v w ∧
      Usize.permTryInv size v = (Permutations.ops size).tryInv v) ∧
    (FitsVec 4 size.toNat → Usize.permOne size = (Permutations.ops size).one) ∧
    (¬ FitsVec 4 size.toNat → Usize.permOne size = .panic) ∧
    (36 ≤ Cfg.ptrBits → FitsVec 4 size.toNat) := by
  refine ⟨?_, fun hl => ?_, fun h => ?_, fun h => ?_, fun h => ?_⟩
  · unfold Usize.permContains
    show _ = (if v.length != size.toNat then Res.ok false else Permutations.containsLoop v (List.replicate size.toNat false))
    by_cases hl : v.length = size.toNat
    · have h1 : (v.length != size.toNat) = false := by simp [hl]
      rw [h1, Usize.capacity_ok]
      · rfl
      · unfold FitsVec at hv
        rw [← hl]
        omega
    · have h1 : (v.length != size.toNat) = true := by simp [hl]
      rw [h1]
      rfl
  · unfold Usize.permMul Usize.permTryInv
    rw [Usize.capacity_ok (hl.elim (fun hl => by rw [← hl]; exact hv) id)]
    exact ⟨rfl, rfl⟩
  · unfold Usize.permOne
    rw [Usize.capacity_ok h]
    rfl
  · unfold Usize.permOne
    rw [Usize.capacity_bad h]
    rfl
  · unfold FitsVec isizeMax
    have h1 : size.toNat < 2 ^ 32 := size.toNat_lt
    have h2 : (2 : ℤ) ^ 35 ≤ 2 ^ (Cfg.ptrBits - 1) := by
      exact_mod_cast Nat.pow_le_pow_right (n := 2) (by norm_num) (by omega)
    omega

/-- C94: so two vectors that exist may be too long for `try_div`, although their quotient has one coefficient and `quo_rem`
is not disturbed. -/
theorem C94_try_div_capacity (D : IntegralDomainOps E) (F : FieldOps E) {v w : List E} (hv : v.length = isizeMax.toNat)
    (hw : w.length = isizeMax.toNat) :
    FitsVec 1 v.length ∧ FitsVec 1 w.length ∧ Usize.polyTryDiv 1 D v w = .panic ∧
    Usize.polyQuoRem 1 F v w = (PolynomialAlgebra.euclidean F).quoRem v w := by
  have h0 : (1 : ℤ) < isizeMax := by
    unfold isizeMax
    have h2 : (2 : ℤ) ^ 31 ≤ 2 ^ (Cfg.ptrBits - 1) := by
      have := Cfg.ptrBits_ge
      exact_mod_cast Nat.pow_le_pow_right (n := 2) (by norm_num) (by omega)
    omega
  have h1 : FitsVec 1 v.length := by unfold FitsVec; omega
  have h2 : FitsVec 1 w.length := by unfold FitsVec; omega
  refine ⟨h1, h2, (C94_poly_capacity (by norm_num) F.toUnitaryRingOps D h1 h2).2.2.2 ?_,
    (C94_polynomials (by norm_num) F.toAbelianGroupOps D F 1 h1 h2).2.2.2.2.2.2.2⟩
  unfold FitsVec
  omega

/-- C94: plain arithmetic on `usize`: the result if it fits, else a panic with overflow checks and without them the result modulo
`2 ^ ptrBits`. -/
theorem C94_arithmetic {a b : ℕ} (ha : a ≤ usizeMax) (hb : b ≤ usizeMax) :
    (a + b < 2 ^ Cfg.ptrBits → Usize.add a b = .ok (a + b)) ∧ (a * b < 2 ^ Cfg.ptrBits → Usize.mul a b = .ok (a * b)) ∧
    (b ≤ a → Usize.sub a b = .ok (a - b)) ∧
    (Cfg.overflowChecks = true → (2 ^ Cfg.ptrBits ≤ a + b → Usize.add a b = .panic) ∧
      (2 ^ Cfg.ptrBits ≤ a * b → Usize.mul a b = .panic) ∧ (a < b → Usize.sub a b = .panic)) ∧
    (Cfg.overflowChecks = false →
      (∃ c < 2 ^ Cfg.ptrBits, Usize.add a b = .ok c ∧ (c : ℤ) ≡ a + b [ZMOD 2 ^ Cfg.ptrBits]) ∧
      (∃ c < 2 ^ Cfg.ptrBits, Usize.mul a b = .ok c ∧ (c : ℤ) ≡ a * b [ZMOD 2 ^ Cfg.ptrBits]) ∧
      ∃ c < 2 ^ Cfg.ptrBits, Usize.sub a b = .ok c ∧ (c : ℤ) ≡ a - b [ZMOD 2 ^ Cfg.ptrBits]) := by
  have hpos : 0 < 2 ^ Cfg.ptrBits := Nat.two_pow_pos _
  have hM : usizeMax + 1 = 2 ^ Cfg.ptrBits := by unfold usizeMax; omega
  have hM' : ((2 ^ Cfg.ptrBits : ℕ) : ℤ) = 2 ^ Cfg.ptrBits := by push_cast; rfl
  have plain : ∀ n, Cfg.overflowChecks = false →
      ∃ c < 2 ^ Cfg.ptrBits, Usize.plain n = .ok c ∧ (c : ℤ) ≡ n [ZMOD 2 ^ Cfg.ptrBits] := by
    intro n hc
    unfold Usize.plain
    by_cases hn : n ≤ usizeMax
    · exact ⟨n, by omega, by rw [if_pos hn], rfl⟩
    · refine ⟨n % 2 ^ Cfg.ptrBits, Nat.mod_lt _ hpos, by rw [if_neg hn, hc, hM]; rfl, ?_⟩
      rw [← hM']
      exact Int.natCast_modEq_iff.2 (Nat.mod_modEq _ _)
  refine ⟨fun h => ?_, fun h => ?_, fun h => ?_, fun hc => ⟨fun h => ?_, fun h => ?_, fun h => ?_⟩, fun hc => ⟨?_, ?_, ?_⟩⟩
  · exact if_pos (by omega)
  · exact if_pos (by omega)
  · exact if_pos h
  · unfold Usize.add Usize.plain; rw [if_neg (by omega), if_pos hc]
  · unfold Usize.mul Usize.plain; rw [if_neg (by omega), if_pos hc]
  · unfold Usize.sub; rw [if_neg (by omega), if_pos hc]
  · simpa [Usize.add] using plain (a + b) hc
  · simpa [Usize.mul] using plain (a * b) hc
  · unfold Usize.sub
    by_cases h : b ≤ a
    · exact ⟨a - b, by omega, by rw [if_pos h], by rw [Nat.cast_sub h]⟩
    · refine ⟨usizeMax + 1 + a - b, by omega, by rw [if_neg h, hc]; rfl, ?_⟩
      rw [Nat.cast_sub (by omega), hM, Nat.cast_add, hM', add_sub_assoc]
      simp [Int.ModEq]

end

section
local instance usizeProfile : Cfg := ⟨false, true, 64, by decide⟩

/-- On `usize` of 64 bits the square of `2 ^ 32` wraps to zero, and so would the length of a matrix that `new` rejects. -/
example : Usize.mul (2 ^ 32) (2 ^ 32) = .ok 0 ∧ Usize.sub 0 1 = .ok usizeMax ∧ Usize.add usizeMax 1 = .ok 0 ∧
    MatrixRing.new (E := Bool) TwoElementAlgebra.field (2 ^ 32) = .panic := ⟨by decide, by decide, by decide, rfl⟩

example := C94_arithmetic (a := 2 ^ 32) (b := 2 ^ 40) (by decide) (by decide)

/-- The hypotheses on sizes and lengths: the largest size of a matrix, and two polynomials too long for a product. -/
example : (2 ^ 32 - 1) * (2 ^ 32 - 1) ≤ usizeMax ∧ FitsVec 1 (2 ^ 62 + 1) ∧ ¬ FitsVec 1 (2 ^ 62 + 1 + (2 ^ 62 + 1) - 1) := by
  unfold FitsVec
  decide

example : Usize.polyMul 8 Integers.unitaryRing [1, 1] [-1, 1] = .ok [-1, 0, 1] ∧
    Usize.polyTryDiv 8 Integers.integralDomain [-1, 0, 1] [1, 1] = .ok (some [-1, 1]) ∧
    Usize.polyQuoRem 1 TwoElementAlgebra.field [true, false, false, true, true] [true, true, true] =
      .ok ([true, false, true], [false, true]) ∧
    Usize.determinant TwoElementAlgebra.field 2 [false, true, true, true] = .ok true ∧
    Usize.matTryInv 1 TwoElementAlgebra.field 2 [true, true, false, true] = .ok (some [true, true, false, true]) := by decide

end

end Abstalg
