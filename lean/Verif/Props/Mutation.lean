import Verif.Proofs.Mutation
import Verif.Props.CheckedInts
import Verif.Props.Vectors
import Verif.Props.Matrices
import Verif.Model.QuotientRing
import Verif.Model.QuotientField
import Verif.Model.ApproxFloats
import Verif.Model.PolynomialAlgebra
import Verif.Model.ReducedFractions

/-! # Operands of in-place methods after a panic: C92 -/

set_option linter.unusedSectionVars false

set_option autoImplicit false

universe u

namespace Abstalg

variable [Cfg] {E : Type}

/-- C92: without a panic the default methods are those of the other model. -/
theorem C92_default_agrees (A : AbelianGroupOps E) (S : SemigroupOps E)
    (h1 : ∀ a b, S.mulAssign a b = S.mul a b) (h2 : ∀ a, S.square a = S.mul a a)
    (h3 : ∀ a b, A.addAssign a b = A.add a b) (h4 : ∀ a, A.double a = A.add a a) (h5 : ∀ a, A.negAssign a = A.neg a)
    (h6 : ∀ a b, A.subAssign a b = (A.neg b).bind fun c => A.addAssign a c) :
    AgreesMul (MutMul.default S) ∧ AgreesNeg (MutNeg.default A) where
  left := ⟨fun a b => by rw [h1]; exact agrees_assign (fun a => S.mul a b) a,
    fun a => by rw [h2]; exact agrees_assign (fun a => S.mul a a) a⟩
  right :=
    { addAssign := fun a b => by rw [h3]; exact agrees_assign (fun a => A.add a b) a
      double := fun a => by rw [h4]; exact agrees_assign (fun a => A.add a a) a
      negAssign := fun a => by rw [h5]; exact agrees_assign (fun a => A.neg a) a
      subAssign := fun a b => by
        rw [h6]
        exact agrees_after fun c => by rw [h3]; exact agrees_assign (fun a => A.add a c) a }

/-- C92: this is so for machine integers, floats, polynomials, residues and fractions. -/
theorem C92_agrees_default (w : ℕ) [Width w] (F : FloatFormat) (P : UnitaryRingOps E) (Q : EuclideanDomainOps E) (m : E) :
    (AgreesMul (MutMul.default (CheckedInts.unitaryRing w).toSemigroupOps) ∧
      AgreesNeg (MutNeg.default (CheckedInts.unitaryRing w).toAbelianGroupOps)) ∧
    (AgreesMul (MutMul.default (ApproxFloats.field F).toSemigroupOps) ∧
      AgreesNeg (MutNeg.default (ApproxFloats.field F).toAbelianGroupOps)) ∧
    (AgreesMul (MutMul.default (PolynomialAlgebra.unitaryRing P).toSemigroupOps) ∧
      AgreesNeg (MutNeg.default (PolynomialAlgebra.unitaryRing P).toAbelianGroupOps)) ∧
    (AgreesMul (MutMul.default (QuotientRing.ops Q m).toSemigroupOps) ∧
      AgreesNeg (MutNeg.default (QuotientRing.ops Q m).toAbelianGroupOps)) ∧
    (AgreesMul (MutMul.default (QuotientField.ops Q m).toSemigroupOps) ∧
      AgreesNeg (MutNeg.default (QuotientField.ops Q m).toAbelianGroupOps)) ∧
    AgreesMul (MutMul.default (ReducedFractions.ops Q).toSemigroupOps) ∧
      AgreesNeg (MutNeg.default (ReducedFractions.ops Q).toAbelianGroupOps) :=
  ⟨C92_default_agrees _ _ (fun _ _ => rfl) (fun _ => rfl) (fun _ _ => rfl) (fun _ => rfl) (fun _ => rfl) fun _ _ => rfl,
    C92_default_agrees _ _ (fun _ _ => rfl) (fun _ => rfl) (fun _ _ => rfl) (fun _ => rfl) (fun _ => rfl) fun _ _ => rfl,
    C92_default_agrees _ _ (fun _ _ => rfl) (fun _ => rfl) (fun _ _ => rfl) (fun _ => rfl) (fun _ => rfl) fun _ _ => rfl,
    C92_default_agrees _ _ (fun _ _ => rfl) (fun _ => rfl) (fun _ _ => rfl) (fun _ => rfl) (fun _ => rfl) fun _ _ => rfl,
    C92_default_agrees _ _ (fun _ _ => rfl) (fun _ => rfl) (fun _ _ => rfl) (fun _ => rfl) (fun _ => rfl) fun _ _ => rfl,
    C92_default_agrees _ _ (fun _ _ => rfl) (fun _ => rfl) (fun _ _ => rfl) (fun _ => rfl) (fun _ => rfl) fun _ _ => rfl⟩

/-- A sum in eight bits that overflows, and one that does not. -/
example : (MutNeg.default (CheckedInts.unitaryRing 8).toAbelianGroupOps).addAssign (SInt.lit 28 (by decide))
      (SInt.lit 100 (by decide)) = (.panic, SInt.lit 100 (by decide)) ∧
    (MutNeg.default (CheckedInts.unitaryRing 8).toAbelianGroupOps).addAssign (SInt.lit 27 (by decide))
      (SInt.lit 100 (by decide)) = (.ok (), SInt.lit 127 (by decide)) := ⟨rfl, rfl⟩

/-- C92: the same for the structures with methods of their own. -/
theorem C92_agrees_own (size : UInt32) :
    AgreesNeg Integers.mutNeg ∧ AgreesAdd Naturals.mutAdd ∧
    AgreesMul TwoElementAlgebra.mutMul ∧ AgreesNeg TwoElementAlgebra.mutNeg ∧
    AgreesMul (Permutations.mutMul size) where
  left :=
    { addAssign := fun a b => agrees_assign (fun a => Integers.unitaryRing.add a b) a
      double := fun _ => .ok
      negAssign := fun a => agrees_assign (fun a => Integers.unitaryRing.neg a) a
      subAssign := fun a _ => agrees_after (r := Integers.unitaryRing.neg _) fun c =>
        agrees_assign (fun a => Integers.unitaryRing.add a c) a }
  right := ⟨⟨fun a b => agrees_assign (fun a => Naturals.semiRing.add a b) a, fun _ => .ok⟩, ⟨fun _ _ => .ok, fun _ => .ok⟩,
    { addAssign := fun _ _ => .ok
      double := fun _ => .ok
      negAssign := fun _ => .ok
      subAssign := fun _ _ => .ok },
    ⟨fun a _ => agrees_after fun _ => agrees_after fun _ => agrees_each_map (agrees_assign _) a,
      fun a => agrees_assign (fun a => (Permutations.ops size).mul a a) a⟩⟩

example : Integers.mutNeg.double (-3) = (.ok (), -6) ∧
    (Permutations.mutMul 3).mulAssign [2, 0, 1] [1, 0, 2] = (.ok (), [0, 2, 1]) := by
  refine ⟨rfl, ?_⟩
  cases h : Cfg.debugAssertions <;>
    simp [Permutations.mutMul, Permutations.checkLen, debugAssert, h, Mut.after, Mut.each, Mut.assign, idx, Res.bind, Res.assert]

/-- C92: and for vectors, matrices and the groups of a structure. -/
theorem C92_agrees_vectors (n : ℕ) :
    (∀ {A : SemigroupOps E} {M : MutMul A}, AgreesMul M → AgreesMul (VectorAlgebra.mutMul n M)) ∧
    (∀ {A : CommutativeMonoidOps E} {M : MutAdd A}, AgreesAdd M → AgreesAdd (VectorAlgebra.mutAdd n M)) ∧
    (∀ {A : AbelianGroupOps E} {M : MutNeg A}, AgreesNeg M → AgreesNeg (VectorAlgebra.mutNeg n M)) ∧
    (∀ {A : FieldOps E} {M : MutNeg A.toAbelianGroupOps}, AgreesNeg M → AgreesNeg (MatrixRing.mutNeg M n)) ∧
    (∀ {A : FieldOps E}, AgreesMul (MutMul.default (MatrixRing.ops A n).toSemigroupOps)) ∧
    (∀ {A : AbelianGroupOps E} {M : MutAdd A.toCommutativeMonoidOps}, AgreesAdd M → AgreesMul (AdditiveGroup.mutMul M)) ∧
    (∀ {A : MonoidOps E} {M : MutMul A.toSemigroupOps}, AgreesMul M → AgreesMul (MultiplicativeGroup.mutMul M)) :=
  ⟨fun h => ⟨fun a b => agrees_zipMut h.mulAssign a b, fun a => agrees_eachMut h.square a⟩,
    fun h => ⟨fun a b => agrees_zipMut h.addAssign a b, fun a => agrees_eachMut h.double a⟩,
    fun h =>
      { addAssign := fun a b => agrees_zipMut h.addAssign a b
        double := fun a => agrees_eachMut h.double a
        negAssign := fun a => agrees_eachMut h.negAssign a
        subAssign := fun a b => agrees_zipMut h.subAssign a b },
    fun h =>
      { addAssign := fun a b => agrees_zipMut h.addAssign a b
        double := fun a => agrees_eachMut h.double a
        negAssign := fun a => agrees_eachMut h.negAssign a
        subAssign := fun a b => agrees_zipMut h.subAssign a b },
    fun {A} => ⟨fun a b => agrees_assign (fun a => (MatrixRing.ops A n).mul a b) a, fun a => agrees_assign (fun a => (MatrixRing.ops A n).mul a a) a⟩,
    fun h => ⟨h.addAssign, h.double⟩, fun h => ⟨h.mulAssign, h.square⟩⟩

/-- C92: a default method that panics leaves its operand unchanged, whatever the methods it calls are:
so do machine integers, floats, polynomials, residues, fractions, and products of matrices. -/
theorem C92_default_unchanged (S : SemigroupOps E) (B : CommutativeMonoidOps E) (A : AbelianGroupOps E) :
    UnchangedMul (MutMul.default S) ∧ UnchangedAdd (MutAdd.default B) ∧ UnchangedNeg (MutNeg.default A) :=
  ⟨⟨fun _ => unchanged_assign _, unchanged_assign _⟩, ⟨fun _ => unchanged_assign _, unchanged_assign _⟩,
    { addAssign := fun _ => unchanged_assign _
      double := unchanged_assign _
      negAssign := unchanged_assign _
      subAssign := fun _ => unchanged_after fun _ _ => unchanged_assign _ }⟩

/-- C92: `ZZ`, `NN` and the two-element algebra do so too, and so do the groups of a structure that does. -/
theorem C92_own_unchanged :
    UnchangedNeg Integers.mutNeg ∧ UnchangedAdd Naturals.mutAdd ∧
    UnchangedMul TwoElementAlgebra.mutMul ∧ UnchangedNeg TwoElementAlgebra.mutNeg ∧
    (∀ {A : AbelianGroupOps E} {M : MutAdd A.toCommutativeMonoidOps}, UnchangedAdd M → UnchangedMul (AdditiveGroup.mutMul M)) ∧
    (∀ {A : MonoidOps E} {M : MutMul A.toSemigroupOps}, UnchangedMul M → UnchangedMul (MultiplicativeGroup.mutMul M)) :=
  ⟨{ addAssign := fun _ => unchanged_assign _
     double := unchanged_ok _
     negAssign := unchanged_assign _
     subAssign := fun _ => unchanged_after fun _ _ => unchanged_assign _ },
    ⟨fun _ => unchanged_assign _, unchanged_ok _⟩, ⟨fun _ => unchanged_ok _, unchanged_ok _⟩,
    { addAssign := fun _ => unchanged_ok _
      double := unchanged_ok _
      negAssign := unchanged_ok _
      subAssign := fun _ => unchanged_ok _ },
    fun h => ⟨h.addAssign, h.double⟩, fun h => ⟨h.mulAssign, h.square⟩⟩

/-- A default method that does panic: the negative of `MIN`. -/
example : ((MutNeg.default (CheckedInts.unitaryRing 8).toAbelianGroupOps).negAssign ⟨-128, by decide⟩) =
    (.panic, ⟨-128, by decide⟩) := rfl

/-- C92: an in-place method of vectors with two operands: on a vector of a wrong length it panics before
it has changed anything; otherwise, if it panics, it has been stopped by the method of the base at the
first coordinate where that panics. -/
theorem C92_vector_binary (n : ℕ) {a b out : List E} :
    (∀ {A : SemigroupOps E} (M : MutMul A), (VectorAlgebra.mutMul n M).mulAssign b a = (.panic, out) ↔
      ¬ (a.length = n ∧ b.length = n) ∧ out = a ∨
      (a.length = n ∧ b.length = n) ∧ ∃ k, StoppedAt (b.map M.mulAssign) a k out) ∧
    (∀ {A : CommutativeMonoidOps E} (M : MutAdd A), (VectorAlgebra.mutAdd n M).addAssign b a = (.panic, out) ↔
      ¬ (a.length = n ∧ b.length = n) ∧ out = a ∨
      (a.length = n ∧ b.length = n) ∧ ∃ k, StoppedAt (b.map M.addAssign) a k out) ∧
    (∀ {A : AbelianGroupOps E} (M : MutNeg A), (VectorAlgebra.mutNeg n M).subAssign b a = (.panic, out) ↔
      ¬ (a.length = n ∧ b.length = n) ∧ out = a ∨
      (a.length = n ∧ b.length = n) ∧ ∃ k, StoppedAt (b.map M.subAssign) a k out) := by
  have key : ∀ m : E → Mut E, VectorAlgebra.zipMut n m b a = (.panic, out) ↔
      ¬ (a.length = n ∧ b.length = n) ∧ out = a ∨
      (a.length = n ∧ b.length = n) ∧ ∃ k, StoppedAt (b.map m) a k out := fun m => by
    by_cases h : a.length = n ∧ b.length = n
    · rw [zipMut_long h, each_panic_iff]
      exact ⟨fun hk => .inr ⟨h, hk⟩, fun hk => hk.elim (fun h1 => absurd h h1.1) fun h1 => h1.2⟩
    · rw [zipMut_short h, Prod.mk.injEq]
      exact ⟨fun hk => .inl ⟨h, hk.2.symm⟩, fun hk => hk.elim (fun h1 => ⟨rfl, h1.2.symm⟩) fun h1 => absurd h1.1 h⟩
  exact ⟨fun M => key M.mulAssign, fun M => key M.addAssign, fun M => key M.subAssign⟩

/-- C92: the same with one operand. -/
theorem C92_vector_unary (n : ℕ) {a out : List E} :
    (∀ {A : SemigroupOps E} (M : MutMul A), (VectorAlgebra.mutMul n M).square a = (.panic, out) ↔
      a.length ≠ n ∧ out = a ∨ a.length = n ∧ ∃ k, StoppedAt (List.replicate n M.square) a k out) ∧
    (∀ {A : CommutativeMonoidOps E} (M : MutAdd A), (VectorAlgebra.mutAdd n M).double a = (.panic, out) ↔
      a.length ≠ n ∧ out = a ∨ a.length = n ∧ ∃ k, StoppedAt (List.replicate n M.double) a k out) ∧
    (∀ {A : AbelianGroupOps E} (M : MutNeg A), (VectorAlgebra.mutNeg n M).negAssign a = (.panic, out) ↔
      a.length ≠ n ∧ out = a ∨ a.length = n ∧ ∃ k, StoppedAt (List.replicate n M.negAssign) a k out) := by
  have key : ∀ m : Mut E, VectorAlgebra.eachMut n m a = (.panic, out) ↔
      a.length ≠ n ∧ out = a ∨ a.length = n ∧ ∃ k, StoppedAt (List.replicate n m) a k out := fun m => by
    by_cases h : a.length = n
    · rw [eachMut_long h, each_panic_iff, List.map_const', h]
      exact ⟨fun hk => .inr ⟨rfl, hk⟩, fun hk => hk.elim (fun h1 => absurd rfl h1.1) fun h1 => h1.2⟩
    · rw [eachMut_short h, Prod.mk.injEq]
      exact ⟨fun hk => .inl ⟨h, hk.2.symm⟩, fun hk => hk.elim (fun h1 => ⟨rfl, h1.2.symm⟩) fun h1 => absurd h1.1 h⟩
  exact ⟨fun M => key M.square, fun M => key M.double, fun M => key M.negAssign⟩

/-- C92: the additive methods of matrices are those of vectors with `n * n` entries. -/
theorem C92_matrices (n : ℕ) {base : FieldOps E} (M : MutNeg base.toAbelianGroupOps) (a b : List E) :
    (MatrixRing.mutNeg M n).addAssign b a = (VectorAlgebra.mutNeg (n * n) M).addAssign b a ∧
    (MatrixRing.mutNeg M n).double a = (VectorAlgebra.mutNeg (n * n) M).double a ∧
    (MatrixRing.mutNeg M n).negAssign a = (VectorAlgebra.mutNeg (n * n) M).negAssign a ∧
    (MatrixRing.mutNeg M n).subAssign b a = (VectorAlgebra.mutNeg (n * n) M).subAssign b a := ⟨rfl, rfl, rfl, rfl⟩

/-- In eight bits `[1, 100, 3] + [1, 100, 1]` stops at the second coordinate. -/
example : (VectorAlgebra.mutNeg 3 (MutNeg.default (CheckedInts.unitaryRing 8).toAbelianGroupOps)).addAssign
    [SInt.lit 1 (by decide), SInt.lit 100 (by decide), SInt.lit 1 (by decide)]
    [SInt.lit 1 (by decide), SInt.lit 100 (by decide), SInt.lit 3 (by decide)] =
    (.panic, [SInt.lit 2 (by decide), SInt.lit 100 (by decide), SInt.lit 3 (by decide)]) := rfl

/-- C92: vectors of machine integers after an overflow: the sums up to the first one that is out of
range, then the old coordinates. -/
theorem C92_vector_ints (n w : ℕ) [Width w] {a b out : List (SInt w)} (ha : a.length = n) (hb : b.length = n)
    (h : (VectorAlgebra.mutNeg n (MutNeg.default (CheckedInts.unitaryRing w).toAbelianGroupOps)).addAssign b a = (.panic, out)) :
    ∃ (k : ℕ) (x y : SInt w), a[k]? = some x ∧ b[k]? = some y ∧ ¬ InRange w (x.1 + y.1) ∧ out.length = n ∧
      (∀ i < k, ∃ x y z : SInt w, a[i]? = some x ∧ b[i]? = some y ∧ out[i]? = some z ∧ z.1 = x.1 + y.1) ∧
      ∀ i ≥ k, out[i]? = a[i]? := by
  have h1 := ((C92_vector_binary n).2.1 _).1 h
  obtain ⟨h2, -⟩ | ⟨-, k, h2⟩ := h1
  · exact absurd ⟨ha, hb⟩ h2
  have hx : ∀ x y : SInt w, Exactly ((CheckedInts.unitaryRing w).add x y) (x.1 + y.1) := fun x y => (C12_checked_ring x y).1
  obtain ⟨m, x, y, h3, h4, h5, h6⟩ := h2.stopped
  rw [List.getElem?_map] at h3
  obtain ⟨c, h7, rfl⟩ := Option.map_eq_some_iff.1 h3
  have h8 := agrees_assign (fun a => (CheckedInts.unitaryRing w).add a c) x
  have h9 : (CheckedInts.unitaryRing w).add x c = .panic := h8.2.1.1 (congrArg Prod.fst h5)
  have h10 : y = x := (congrArg Prod.snd h5).symm.trans
    (unchanged_assign (fun a => (CheckedInts.unitaryRing w).add a c) x (congrArg Prod.fst h5))
  refine ⟨k, x, c, h4, h7, fun hr => ?_, h2.length.trans ha, fun i hi => ?_, fun i hi => ?_⟩
  · obtain ⟨z, hz, -⟩ := (hx x c).1 hr
    rw [hz] at h9
    cases h9
  · obtain ⟨m, x, y, h3, h4, h5, h6⟩ := h2.done i hi
    rw [List.getElem?_map] at h3
    obtain ⟨c, h7, rfl⟩ := Option.map_eq_some_iff.1 h3
    have h8 := ((agrees_assign (fun a => (CheckedInts.unitaryRing w).add a c) x).1 y).1 h5
    refine ⟨x, c, y, h4, h7, h6, ?_⟩
    by_cases hr : InRange w (x.1 + c.1)
    · obtain ⟨z, hz, hz'⟩ := (hx x c).1 hr
      have : y = z := by
        have := h8.symm.trans hz
        injection this
      rw [this, hz']
    · have := h8.symm.trans ((hx x c).2 hr)
      cases this
  · rcases Nat.lt_or_eq_of_le hi with hi | rfl
    · exact h2.rest i hi
    · rw [h6, h10, h4]

/-- C92: `mul_assign` of permutations: a panic of the debug assertion about the lengths leaves the operand
unchanged; otherwise the method panics at the first entry that is no index of the second operand, the
entries before it being replaced already. -/
theorem C92_permutations (size : UInt32) {a b out : List UInt32} :
    (Permutations.mutMul size).mulAssign b a = (.panic, out) ↔
      (Cfg.debugAssertions = true ∧ ¬ (a.length = size.toNat ∧ b.length = size.toNat)) ∧ out = a ∨
      ¬ (Cfg.debugAssertions = true ∧ ¬ (a.length = size.toNat ∧ b.length = size.toNat)) ∧
        ∃ (k : ℕ) (x : UInt32), a[k]? = some x ∧ b.length ≤ x.toNat ∧ out.length = a.length ∧
          (∀ i < k, ∃ x y : UInt32, a[i]? = some x ∧ b[x.toNat]? = some y ∧ out[i]? = some y) ∧ ∀ i ≥ k, out[i]? = a[i]? := by
  have hidx : ∀ x y : UInt32, Mut.assign (fun a : UInt32 => idx b a.toNat) x = (.ok (), y) ↔ b[x.toNat]? = some y := by
    intro x y
    cases h : b[x.toNat]? <;> simp [Mut.assign, idx, h]
  have hidx' : ∀ x y : UInt32, Mut.assign (fun a : UInt32 => idx b a.toNat) x = (.panic, y) ↔ b.length ≤ x.toNat ∧ y = x := by
    intro x y
    rw [← List.getElem?_eq_none_iff]
    cases h : b[x.toNat]? <;> simp [Mut.assign, idx, h, eq_comm]
  have h1 : (∃ k, StoppedAt (a.map fun _ => Mut.assign fun a : UInt32 => idx b a.toNat) a k out) ↔
      ∃ (k : ℕ) (x : UInt32), a[k]? = some x ∧ b.length ≤ x.toNat ∧ out.length = a.length ∧
          (∀ i < k, ∃ x y : UInt32, a[i]? = some x ∧ b[x.toNat]? = some y ∧ out[i]? = some y) ∧ ∀ i ≥ k, out[i]? = a[i]? := by
    refine exists_congr fun k => ⟨?_, ?_⟩
    · intro h
      obtain ⟨m, x, y, h3, h4, h5, h6⟩ := h.stopped
      rw [List.getElem?_map, h4] at h3
      cases h3
      rw [hidx'] at h5
      refine ⟨x, h4, h5.1, h.length, fun i hi => ?_, fun i hi => ?_⟩
      · obtain ⟨m, x, y, h3, h4, h5, h6⟩ := h.done i hi
        rw [List.getElem?_map, h4] at h3
        cases h3
        exact ⟨x, y, h4, (hidx x y).1 h5, h6⟩
      · rcases Nat.lt_or_eq_of_le hi with hi | rfl
        · exact h.rest i hi
        · rw [h6, h5.2, h4]
    · rintro ⟨x, h2, h3, h4, h5, h6⟩
      refine ⟨h4, fun i hi => ?_, ⟨_, x, x, by rw [List.getElem?_map, h2]; rfl, h2, (hidx' x x).2 ⟨h3, rfl⟩,
        by rw [h6 k le_rfl, h2]⟩, fun i hi => h6 i (Nat.le_of_lt hi)⟩
      obtain ⟨x, y, h7, h8, h9⟩ := h5 i hi
      exact ⟨_, x, y, by rw [List.getElem?_map, h7]; rfl, h7, (hidx x y).2 h8, h9⟩
  rw [← h1, ← each_panic_iff]
  unfold Permutations.mutMul Permutations.checkLen debugAssert
  cases hd : Cfg.debugAssertions
  · simp [Mut.after]
  · have hc : out = a ↔ a = out := eq_comm
    by_cases ha : a.length = size.toNat <;> by_cases hb : b.length = size.toNat <;>
      simp [Mut.after, Res.assert, ha, hb, hc]

/-- The product of `[1, 5, 0]` with `[2, 0, 1]` stops at the second entry. -/
example : (Permutations.mutMul 3).mulAssign [2, 0, 1] [1, 5, 0] = (.panic, [0, 5, 0]) := by
  cases h : Cfg.debugAssertions <;>
    simp [Permutations.mutMul, Permutations.checkLen, debugAssert, h, Mut.after, Mut.each, Mut.assign, idx, Res.bind, Res.assert]

section members

variable {R : Type u} {rep : E → R → Prop} {mp : Prop}

/-- C92: an operand that is left unchanged stays a member. -/
theorem C92_unchanged_members {S : SemigroupOps E} {A : AbelianGroupOps E} {M : MutMul S} {N : MutNeg A}
    (hM : UnchangedMul M) (hN : UnchangedNeg N) : MembersMul M rep ∧ MembersNeg N rep :=
  ⟨⟨fun h1 _ hp => ⟨_, by rw [hM.mulAssign _ _ hp]; exact h1⟩, fun h1 hp => ⟨_, by rw [hM.square _ hp]; exact h1⟩⟩,
    { addAssign := fun h1 _ hp => ⟨_, by rw [hN.addAssign _ _ hp]; exact h1⟩
      double := fun h1 hp => ⟨_, by rw [hN.double _ hp]; exact h1⟩
      negAssign := fun h1 hp => ⟨_, by rw [hN.negAssign _ hp]; exact h1⟩
      subAssign := fun h1 _ hp => ⟨_, by rw [hN.subAssign _ _ hp]; exact h1⟩ }⟩

/-- C92: a vector stays a member if the coordinates do: also vectors of vectors, and so on. -/
theorem C92_vector_members (n : ℕ) :
    (∀ [Mul R] {A : SemigroupOps E} {M : MutMul A}, SemigroupSpec mp A rep → AgreesMul M → MembersMul M rep →
      MembersMul (VectorAlgebra.mutMul n M) (VecRep (n := n) rep)) ∧
    (∀ [AddCommGroup R] {A : AbelianGroupOps E} {M : MutNeg A}, AbelianGroupSpec mp A rep → AgreesNeg M → MembersNeg M rep →
      MembersNeg (VectorAlgebra.mutNeg n M) (VecRep (n := n) rep)) :=
  ⟨fun hA hM hm =>
    ⟨fun h1 h2 hp => zipMut_members (fun h3 h4 => (hM.mulAssign _ _).member (hA.mulAssign h3 h4) (hm.mulAssign h3 h4)) h1 h2 hp,
      fun h1 hp => eachMut_members (fun h3 => (hM.square _).member (hA.square h3) (hm.square h3)) h1 hp⟩,
    fun hA hM hm =>
    { addAssign := fun h1 h2 hp =>
        zipMut_members (fun h3 h4 => (hM.addAssign _ _).member (hA.addAssign h3 h4) (hm.addAssign h3 h4)) h1 h2 hp
      double := fun h1 hp => eachMut_members (fun h3 => (hM.double _).member (hA.double h3) (hm.double h3)) h1 hp
      negAssign := fun h1 hp => eachMut_members (fun h3 => (hM.negAssign _).member (hA.negAssign h3) (hm.negAssign h3)) h1 hp
      subAssign := fun h1 h2 hp =>
        zipMut_members (fun h3 h4 => (hM.subAssign _ _).member (hA.subAssign h3 h4) (hm.subAssign h3 h4)) h1 h2 hp }⟩

/-- Vectors of vectors of machine integers. -/
example : MembersNeg (VectorAlgebra.mutNeg 2 (VectorAlgebra.mutNeg 3
    (MutNeg.default (CheckedInts.unitaryRing 8).toAbelianGroupOps)))
    (VecRep (n := 2) (VecRep (n := 3) fun (a : SInt 8) (x : ℤ) => a.1 = x)) := by
  have h1 := (C11_checked_ints_contract (w := 8)).toAbelianGroupSpec
  have h2 := (C92_agrees_default 8 FloatFormat.f32 Integers.unitaryRing Integers.euclidean 0).1.2
  have h3 := (C92_unchanged_members (rep := fun (a : SInt 8) (x : ℤ) => a.1 = x)
    (C92_default_unchanged (CheckedInts.unitaryRing 8).toSemigroupOps
      (CheckedInts.unitaryRing 8).toCommutativeMonoidOps (CheckedInts.unitaryRing 8).toAbelianGroupOps).1
    (C92_default_unchanged (CheckedInts.unitaryRing 8).toSemigroupOps
      (CheckedInts.unitaryRing 8).toCommutativeMonoidOps (CheckedInts.unitaryRing 8).toAbelianGroupOps).2.2).2
  exact (C92_vector_members 2).2 (C36_abelian_group 3 h1) ((C92_agrees_vectors 3).2.2.1 h2) ((C92_vector_members 3).2 h1 h2 h3)

/-- C92: a permutation does not: the debug assertions are the only way to make `mul_assign` panic on members
of the wrong size, and without them members of another size leave a list that is no permutation. -/
theorem C92_permutations_not_members : ∃ a b out : List UInt32, (Permutations.ops 3).contains a = .ok true ∧
    (Permutations.ops 2).contains b = .ok true ∧
    (Cfg.debugAssertions = false → (Permutations.mutMul 3).mulAssign b a = (.panic, out) ∧
      (Permutations.ops 3).contains out = .ok false) := by
  refine ⟨[1, 2, 0], [1, 0], [0, 2, 0], rfl, rfl, fun h => ⟨?_, rfl⟩⟩
  simp [Permutations.mutMul, Permutations.checkLen, debugAssert, h, Mut.after, Mut.each, Mut.assign, idx]

end members

end Abstalg
