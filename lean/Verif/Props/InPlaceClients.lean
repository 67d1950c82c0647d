import Verif.Spec.InPlaceClients
import Verif.Props.GuardedOutcomes
import Verif.Props.Mutation
import Verif.Props.Permutations
import Verif.Props.Vectors
import Verif.Props.Matrices

/-! # C108: programs that change operands in place and catch panics

For a structure whose in-place methods leave their operand alone when they panic (C92) a program cannot tell
them from methods that are called on a copy. Vectors are different, and what is left in them is the same for
two bases that cannot be told apart: over the machine integers and over the integers with checks a program
that goes on after a panic has corresponding contents in all its registers. -/

set_option autoImplicit false
set_option linter.unusedSectionVars false

namespace Abstalg

variable {E F : Type} {ι κ : Type} (C : Client (ι ⊕ κ))

/-! ## Copies -/

theorem Client.stepInPlace_copying {T : ι → E → E → Res (Reply E)} {M : κ → E → Mut E} {U : κ → E → E → Res E}
    (h : ∀ j a b, Agrees (M j b a) (U j a b)) (catching : Bool)
    (hu : catching = true → ∀ j b, UnchangedOnPanic (M j b)) (c : C.Q × (ℕ → E)) :
    C.stepInPlace T M catching c = C.copying.step (returning T U) catching c := by
  unfold Client.stepInPlace Client.step Client.copying
  dsimp only
  cases C.act c.1 with
  | none => rfl
  | some w =>
    obtain ⟨i | j, a, b, d⟩ := w
    · rfl
    · dsimp only [returning]
      obtain ⟨h1, h2, h3⟩ := h j (c.2 a) (c.2 b)
      have hx := fun hc => hu hc j (c.2 b) (c.2 a)
      revert h1 h2 h3 hx
      generalize M j (c.2 b) (c.2 a) = m
      generalize U j (c.2 a) (c.2 b) = r
      obtain ⟨o, x⟩ := m
      intro h1 h2 h3 hx
      cases o with
      | ok u =>
        rw [(h1 x).1 rfl]
        rfl
      | panic =>
        rw [h2.1 rfl]
        cases catching with
        | false => rfl
        | true =>
          obtain rfl : x = c.2 a := hx rfl rfl
          have : store c.2 a [c.2 a] = c.2 := by
            funext i
            simp only [store]
            split
            · rename_i h; rw [h]
            · rfl
          simp only [if_true, this]
          rfl
      | diverge =>
        rw [h3.1 rfl]
        rfl

/-- C108: calls on an operand in place and calls on a copy are the same, up to the first panic, and after it
if the methods leave their operand unchanged. -/
theorem C108_copies {T : ι → E → E → Res (Reply E)} {M : κ → E → Mut E} {U : κ → E → E → Res E}
    (h : ∀ j a b, Agrees (M j b a) (U j a b)) (catching : Bool)
    (hu : catching = true → ∀ j b, UnchangedOnPanic (M j b)) (n : ℕ) (c : C.Q × (ℕ → E)) :
    C.runInPlace T M catching n c = C.copying.run (returning T U) catching n c := by
  induction n generalizing c with
  | zero => rfl
  | succ n ih =>
    have h1 : C.runInPlace T M catching (n + 1) c = (C.stepInPlace T M catching c).bind (C.runInPlace T M catching n) := rfl
    have h2 : C.copying.run (returning T U) catching (n + 1) c =
      (C.copying.step (returning T U) catching c).bind (C.copying.run (returning T U) catching n) := rfl
    rw [h1, C.stepInPlace_copying h catching hu c]
    exact (congrArg _ (funext ih)).trans h2.symm

section

variable [Cfg]

theorem InPlaceMethod.agrees {S : SemigroupOps E} {A : AbelianGroupOps E} {M : MutMul S} {N : MutNeg A} (hM : AgreesMul M)
    (hN : AgreesNeg N) (j : InPlaceMethod) (a b : E) : Agrees (j.table M N b a) (j.value S A a b) := by
  cases j with
  | mulAssign => exact hM.mulAssign a b
  | square => exact hM.square a
  | addAssign => exact hN.addAssign a b
  | double => exact hN.double a
  | negAssign => exact hN.negAssign a
  | subAssign => exact hN.subAssign a b

theorem InPlaceMethod.unchanged {S : SemigroupOps E} {A : AbelianGroupOps E} {M : MutMul S} {N : MutNeg A} (hM : UnchangedMul M)
    (hN : UnchangedNeg N) (j : InPlaceMethod) (b : E) : UnchangedOnPanic (j.table M N b) := by
  cases j with
  | mulAssign => exact hM.mulAssign b
  | square => exact hM.square
  | addAssign => exact hN.addAssign b
  | double => exact hN.double
  | negAssign => exact hN.negAssign
  | subAssign => exact hN.subAssign b

variable (D : Client (ι ⊕ InPlaceMethod))

/-- C108: so it is for machine integers, floats, polynomials, residues and fractions, whatever the program. -/
theorem C108_copies_default (w : ℕ) [Width w] (G : FloatFormat) (P : UnitaryRingOps E) (Q : EuclideanDomainOps E) (m : E)
    (catching : Bool) (n : ℕ) :
    (∀ (T : ι → SInt w → SInt w → Res (Reply (SInt w))) c,
      D.runInPlace T (InPlaceMethod.table (MutMul.default (CheckedInts.unitaryRing w).toSemigroupOps)
        (MutNeg.default (CheckedInts.unitaryRing w).toAbelianGroupOps)) catching n c =
      D.copying.run (returning T (InPlaceMethod.value (CheckedInts.unitaryRing w).toSemigroupOps
        (CheckedInts.unitaryRing w).toAbelianGroupOps)) catching n c) ∧
    (∀ (T : ι → G.Val → G.Val → Res (Reply G.Val)) c,
      D.runInPlace T (InPlaceMethod.table (MutMul.default (ApproxFloats.field G).toSemigroupOps)
        (MutNeg.default (ApproxFloats.field G).toAbelianGroupOps)) catching n c =
      D.copying.run (returning T (InPlaceMethod.value (ApproxFloats.field G).toSemigroupOps
        (ApproxFloats.field G).toAbelianGroupOps)) catching n c) ∧
    (∀ (T : ι → List E → List E → Res (Reply (List E))) c,
      D.runInPlace T (InPlaceMethod.table (MutMul.default (PolynomialAlgebra.unitaryRing P).toSemigroupOps)
        (MutNeg.default (PolynomialAlgebra.unitaryRing P).toAbelianGroupOps)) catching n c =
      D.copying.run (returning T (InPlaceMethod.value (PolynomialAlgebra.unitaryRing P).toSemigroupOps
        (PolynomialAlgebra.unitaryRing P).toAbelianGroupOps)) catching n c) ∧
    (∀ (T : ι → E → E → Res (Reply E)) c,
      D.runInPlace T (InPlaceMethod.table (MutMul.default (QuotientRing.ops Q m).toSemigroupOps)
        (MutNeg.default (QuotientRing.ops Q m).toAbelianGroupOps)) catching n c =
      D.copying.run (returning T (InPlaceMethod.value (QuotientRing.ops Q m).toSemigroupOps
        (QuotientRing.ops Q m).toAbelianGroupOps)) catching n c) ∧
    (∀ (T : ι → E → E → Res (Reply E)) c,
      D.runInPlace T (InPlaceMethod.table (MutMul.default (QuotientField.ops Q m).toSemigroupOps)
        (MutNeg.default (QuotientField.ops Q m).toAbelianGroupOps)) catching n c =
      D.copying.run (returning T (InPlaceMethod.value (QuotientField.ops Q m).toSemigroupOps
        (QuotientField.ops Q m).toAbelianGroupOps)) catching n c) ∧
    (∀ (T : ι → E × E → E × E → Res (Reply (E × E))) c,
      D.runInPlace T (InPlaceMethod.table (MutMul.default (ReducedFractions.ops Q).toSemigroupOps)
        (MutNeg.default (ReducedFractions.ops Q).toAbelianGroupOps)) catching n c =
      D.copying.run (returning T (InPlaceMethod.value (ReducedFractions.ops Q).toSemigroupOps
        (ReducedFractions.ops Q).toAbelianGroupOps)) catching n c) := by
  obtain ⟨h1, h2, h3, h4, h5, h6⟩ := C92_agrees_default w G P Q m
  have key : ∀ {X : Type} {S : SemigroupOps X} {A : AbelianGroupOps X},
      AgreesMul (MutMul.default S) ∧ AgreesNeg (MutNeg.default A) → ∀ (T : ι → X → X → Res (Reply X)) c,
      D.runInPlace T (InPlaceMethod.table (MutMul.default S) (MutNeg.default A)) catching n c =
      D.copying.run (returning T (InPlaceMethod.value S A)) catching n c := fun {X S A} h T c =>
    C108_copies D (InPlaceMethod.agrees h.1 h.2) catching (fun _ => InPlaceMethod.unchanged
      (C92_default_unchanged S A.toCommutativeMonoidOps A).1 (C92_default_unchanged S A.toCommutativeMonoidOps A).2.2) n c
  exact ⟨key h1, key h2, key h3, key h4, key h5, key h6⟩

/-- C108: and for `ZZ` and the two-element algebra with their own methods. -/
theorem C108_copies_own (catching : Bool) (n : ℕ) :
    (∀ (T : ι → ℤ → ℤ → Res (Reply ℤ)) c,
      D.runInPlace T (InPlaceMethod.table (MutMul.default Integers.unitaryRing.toSemigroupOps) Integers.mutNeg) catching n c =
      D.copying.run (returning T (InPlaceMethod.value Integers.unitaryRing.toSemigroupOps
        Integers.unitaryRing.toAbelianGroupOps)) catching n c) ∧
    (∀ (T : ι → Bool → Bool → Res (Reply Bool)) c,
      D.runInPlace T (InPlaceMethod.table TwoElementAlgebra.mutMul TwoElementAlgebra.mutNeg) catching n c =
      D.copying.run (returning T (InPlaceMethod.value TwoElementAlgebra.field.toSemigroupOps
        TwoElementAlgebra.field.toAbelianGroupOps)) catching n c) := by
  obtain ⟨h1, _, h2, h3, _⟩ := C92_agrees_own 0
  obtain ⟨u1, _, u2, u3, _⟩ := C92_own_unchanged (E := ℤ)
  refine ⟨fun T c => C108_copies D (InPlaceMethod.agrees ?_ h1) catching (fun _ => InPlaceMethod.unchanged ?_ u1) n c,
    fun T c => C108_copies D (InPlaceMethod.agrees h2 h3) catching (fun _ => InPlaceMethod.unchanged u2 u3) n c⟩
  · exact (C92_default_agrees Integers.unitaryRing.toAbelianGroupOps Integers.unitaryRing.toSemigroupOps (fun _ _ => rfl)
      (fun _ => rfl) (fun _ _ => rfl) (fun a => congrArg Res.ok (mul_two a)) (fun _ => rfl) fun _ _ => rfl).1
  · exact (C92_default_unchanged Integers.unitaryRing.toSemigroupOps Integers.unitaryRing.toCommutativeMonoidOps
      Integers.unitaryRing.toAbelianGroupOps).1

/-- C108: and for vectors and matrices in programs that end with the first panic. -/
theorem C108_copies_vectors (len : ℕ) {S : SemigroupOps E} {A : AbelianGroupOps E} {M : MutMul S} {N : MutNeg A}
    (hM : AgreesMul M) (hN : AgreesNeg N) (T : ι → List E → List E → Res (Reply (List E))) (n : ℕ) (c : D.Q × (ℕ → List E)) :
    D.runInPlace T (InPlaceMethod.table (VectorAlgebra.mutMul len M) (VectorAlgebra.mutNeg len N)) false n c =
    D.copying.run (returning T (InPlaceMethod.value (VectorAlgebra.semigroup len S) (VectorAlgebra.abelianGroup len A))) false n c :=
  C108_copies D (InPlaceMethod.agrees ((C92_agrees_vectors len).1 hM) ((C92_agrees_vectors len).2.2.1 hN)) false nofun n c

theorem C108_copies_matrices (size : ℕ) {A : FieldOps E} {N : MutNeg A.toAbelianGroupOps} (hN : AgreesNeg N)
    (T : ι → List E → List E → Res (Reply (List E))) (n : ℕ) (c : D.Q × (ℕ → List E)) :
    D.runInPlace T (InPlaceMethod.table (MutMul.default (MatrixRing.ops A size).toSemigroupOps) (MatrixRing.mutNeg N size)) false n c =
    D.copying.run (returning T (InPlaceMethod.value (MatrixRing.ops A size).toSemigroupOps
      (MatrixRing.ops A size).toAbelianGroupOps)) false n c :=
  C108_copies D (InPlaceMethod.agrees (C92_agrees_vectors size).2.2.2.2.1 ((C92_agrees_vectors size).2.2.2.1 hN)) false nofun n c

/-- The program that adds the second register to the first, whatever happens. -/
def adder : Client (Empty ⊕ InPlaceMethod) where
  Q := Unit
  act _ := some (.inr .addAssign, 0, 1, 0)
  next q _ := q

/-- C108: vectors in programs that catch panics are different. -/
theorem C108_vectors_differ : ∃ c x y,
    adder.runInPlace nofun (InPlaceMethod.table
      (VectorAlgebra.mutMul 2 (MutMul.default (CheckedInts.unitaryRing 8).toSemigroupOps))
      (VectorAlgebra.mutNeg 2 (MutNeg.default (CheckedInts.unitaryRing 8).toAbelianGroupOps))) true 1 c = .ok x ∧
    adder.copying.run (returning nofun (InPlaceMethod.value
      (VectorAlgebra.semigroup 2 (CheckedInts.unitaryRing 8).toSemigroupOps)
      (VectorAlgebra.abelianGroup 2 (CheckedInts.unitaryRing 8).toAbelianGroupOps))) true 1 c = .ok y ∧
    x.2 0 = [SInt.lit 101 (by decide), SInt.lit 127 (by decide)] ∧
    y.2 0 = [SInt.lit 100 (by decide), SInt.lit 127 (by decide)] :=
  ⟨((), fun i => if i = 0 then [SInt.lit 100 (by decide), SInt.lit 127 (by decide)] else [SInt.lit 1 (by decide), SInt.lit 1 (by decide)]),
    _, _, rfl, rfl, rfl, rfl⟩

end

/-! ## Exact structures -/

section

universe u

variable {R : Type u} {rep : E → R → Prop}

theorem Client.stepInPlace_ideal {P : ι → Prop} {T : ι → E → E → Res (Reply E)} {M : ι → R → R → Option (Reply R)}
    {N : κ → E → Mut E} {K : κ → R → R → R} (h : Computes False P rep T M)
    (hN : ∀ j {a b x y}, rep a x → rep b y → ∃ e, N j b a = (.ok (), e) ∧ rep e (K j x y)) (hC : C.OnlyLeft P)
    {c : C.Q × (ℕ → E)} {x : C.Q × (ℕ → R)} (hc : C.Rel rep c x) :
    ∃ c', C.stepInPlace T N true c = .ok c' ∧ C.Rel rep c' (C.copying.ideal (meaningInPlace M K) x) := by
  obtain ⟨hq, hr⟩ := hc
  unfold Client.stepInPlace Client.ideal Client.copying
  dsimp only
  rw [← hq]
  cases hact : C.act c.1 with
  | none => exact ⟨_, rfl, hq, hr⟩
  | some w =>
    obtain ⟨i | j, a, b, d⟩ := w
    · have := h i (hC _ _ _ _ _ hact) (c.2 a) (c.2 b) (x.2 a) (x.2 b) (hr a) (hr b)
      dsimp only [meaningInPlace]
      revert this
      cases M i (x.2 a) (x.2 b) with
      | none =>
        intro this
        rw [show T i (c.2 a) (c.2 b) = .panic from this]
        exact ⟨_, rfl, rfl, hr⟩
      | some e =>
        dsimp only
        cases T i (c.2 a) (c.2 b) with
        | ok f => exact fun hf => ⟨_, rfl, by rw [Reply.Rel.seen hf], store_rel (Reply.Rel.list hf) hr d⟩
        | panic => exact False.elim
        | diverge => exact False.elim
    · obtain ⟨e, he, hrep⟩ := hN j (hr a) (hr b)
      dsimp only [meaningInPlace]
      rw [he]
      exact ⟨_, rfl, rfl, store_rel (.cons hrep .nil) hr a⟩

/-- C108: if the in-place methods return the right element in place, then a program that changes its registers in place
and catches the panics of other methods does what it does over the elements themselves. -/
theorem C108_exact {P : ι → Prop} {T : ι → E → E → Res (Reply E)} {M : ι → R → R → Option (Reply R)}
    {N : κ → E → Mut E} {K : κ → R → R → R} (h : Computes False P rep T M)
    (hN : ∀ j {a b x y}, rep a x → rep b y → ∃ e, N j b a = (.ok (), e) ∧ rep e (K j x y)) (hC : C.OnlyLeft P) (n : ℕ) :
    ∀ {c : C.Q × (ℕ → E)} {x : C.Q × (ℕ → R)}, C.Rel rep c x →
      ∃ c', C.runInPlace T N true n c = .ok c' ∧ C.Rel rep c' (C.copying.idealRun (meaningInPlace M K) n x) := by
  induction n with
  | zero => exact fun hc => ⟨_, rfl, hc⟩
  | succ n ih =>
    intro c x hc
    obtain ⟨d, hd, hdx⟩ := C.stepInPlace_ideal h hN hC hc
    obtain ⟨e, he, hex⟩ := ih hdx
    refine ⟨e, ?_, hex⟩
    unfold Client.runInPlace
    rw [hd]
    exact he

theorem Agrees.of_returns {m : Res Unit × E} {s : Res E} {Q : E → Prop} (h : Agrees m s) (hs : Returns False s Q) :
    ∃ e, m = (.ok (), e) ∧ Q e := by
  cases s with
  | ok e => exact ⟨e, (h.1 e).2 rfl, hs⟩
  | panic => exact hs.elim
  | diverge => exact hs.elim

variable [Cfg]

/-- C108: the in-place methods of every ring that meets its contract return the right element in place. -/
theorem C108_exact_rings [Ring R] {A : UnitaryRingOps E} {M : MutMul A.toSemigroupOps} {N : MutNeg A.toAbelianGroupOps}
    (h : UnitaryRingSpec False A rep) (hM : AgreesMul M) (hN : AgreesNeg N) (D : Client (RingMethod ⊕ InPlaceMethod))
    (hD : D.OnlyLeft RingMethod.Fits) (n : ℕ) {c : D.Q × (ℕ → E)} {x : D.Q × (ℕ → R)} (hc : D.Rel rep c x) :
    ∃ c', D.runInPlace (RingMethod.table A) (InPlaceMethod.table M N) true n c = .ok c' ∧
      D.Rel rep c' (D.copying.idealRun (meaningInPlace RingMethod.meaning InPlaceMethod.meaning) n x) := by
  refine C108_exact D (C97_rings h) (fun j a b x y ha hb => ?_) hD n hc
  cases j with
  | mulAssign => exact (hM.mulAssign a b).of_returns (h.mulAssign ha hb)
  | square => exact (hM.square a).of_returns (h.square ha)
  | addAssign => exact (hN.addAssign a b).of_returns (h.addAssign ha hb)
  | double => exact (hN.double a).of_returns (h.double ha)
  | negAssign => exact (hN.negAssign a).of_returns (h.negAssign ha)
  | subAssign => exact (hN.subAssign a b).of_returns (h.subAssign ha hb)

/-- C108: and those of every group. -/
theorem C108_exact_groups [Group R] {A : GroupOps E} {M : MutMul A.toSemigroupOps} (h : GroupSpec False A rep) (hM : AgreesMul M)
    (D : Client (GroupMethod ⊕ InPlaceProduct)) (hD : D.OnlyLeft GroupMethod.Fits) (n : ℕ) {c : D.Q × (ℕ → E)} {x : D.Q × (ℕ → R)}
    (hc : D.Rel rep c x) :
    ∃ c', D.runInPlace (GroupMethod.table A) (InPlaceProduct.table M) true n c = .ok c' ∧
      D.Rel rep c' (D.copying.idealRun (meaningInPlace GroupMethod.meaning InPlaceProduct.meaning) n x) := by
  refine C108_exact D (C97_groups h) (fun j a b x y ha hb => ?_) hD n hc
  cases j with
  | mulAssign => exact (hM.mulAssign a b).of_returns (h.mulAssign ha hb)
  | square => exact (hM.square a).of_returns (h.square ha)

/-- C108: permutations of one size: no program that begins with permutations sees a leftover. -/
theorem C108_exact_permutations (size : UInt32) (D : Client (GroupMethod ⊕ InPlaceProduct)) (hD : D.OnlyLeft GroupMethod.Fits) (n : ℕ)
    {c : D.Q × (ℕ → List UInt32)} {x : D.Q × (ℕ → _)} (hc : D.Rel (PermRep (n := size.toNat)) c x) :
    ∃ c', D.runInPlace (GroupMethod.table (Permutations.ops size)) (InPlaceProduct.table (Permutations.mutMul size)) true n c = .ok c' ∧
      D.Rel PermRep c' (D.copying.idealRun (meaningInPlace GroupMethod.meaning InPlaceProduct.meaning) n x) :=
  C108_exact_groups (C42_group size) (C92_agrees_own size).2.2.2.2 D hD n hc

/-- C108: vectors over a ring that meets its contract. -/
theorem C108_exact_vectors (len : ℕ) [Ring R] {A : UnitaryRingOps E} {M : MutMul A.toSemigroupOps} {N : MutNeg A.toAbelianGroupOps}
    (h : UnitaryRingSpec False A rep) (hM : AgreesMul M) (hN : AgreesNeg N) (D : Client (RingMethod ⊕ InPlaceMethod))
    (hD : D.OnlyLeft RingMethod.Fits) (n : ℕ) {c : D.Q × (ℕ → List E)} {x : D.Q × (ℕ → Fin len → R)}
    (hc : D.Rel (VecRep rep) c x) :
    ∃ c', D.runInPlace (RingMethod.table (VectorAlgebra.unitaryRing len A))
        (InPlaceMethod.table (VectorAlgebra.mutMul len M) (VectorAlgebra.mutNeg len N)) true n c = .ok c' ∧
      D.Rel (VecRep rep) c' (D.copying.idealRun (meaningInPlace RingMethod.meaning InPlaceMethod.meaning) n x) :=
  C108_exact_rings (A := VectorAlgebra.unitaryRing len A) (C36_unitary_ring len h) ((C92_agrees_vectors len).1 hM)
    ((C92_agrees_vectors len).2.2.1 hN) D hD n hc

/-- C108: matrices over a field that meets its contract. -/
theorem C108_exact_matrices (size : ℕ) [Field R] {A : FieldOps E} {N : MutNeg A.toAbelianGroupOps}
    (h : FieldSpec False A rep) (hN : AgreesNeg N) (D : Client (RingMethod ⊕ InPlaceMethod))
    (hD : D.OnlyLeft RingMethod.Fits) (n : ℕ) {c : D.Q × (ℕ → List E)} {x : D.Q × (ℕ → Matrix (Fin size) (Fin size) R)}
    (hc : D.Rel (MatRep rep) c x) :
    ∃ c', D.runInPlace (RingMethod.table (MatrixRing.ops A size))
        (InPlaceMethod.table (MutMul.default (MatrixRing.ops A size).toSemigroupOps) (MatrixRing.mutNeg N size)) true n c = .ok c' ∧
      D.Rel (MatRep rep) c' (D.copying.idealRun (meaningInPlace RingMethod.meaning InPlaceMethod.meaning) n x) :=
  C108_exact_rings (A := MatrixRing.ops A size) (C39_matrix_ring size h) (C92_agrees_vectors size).2.2.2.2.1
    ((C92_agrees_vectors size).2.2.2.1 hN) D hD n hc

end

/-- Powers of `[1, 2, 0]` in place, and the program stops: a case in which the hypotheses of `C108_exact_permutations` are met. -/
example [Cfg] : ∃ (D : Client (GroupMethod ⊕ InPlaceProduct)) (_ : D.OnlyLeft GroupMethod.Fits) (q : D.Q),
    D.act q = some (.inr .mulAssign, 0, 1, 0) ∧
    (Permutations.ops 3).contains [1, 2, 0] = .ok true ∧
    D.runInPlace (GroupMethod.table (Permutations.ops 3)) (InPlaceProduct.table (Permutations.mutMul 3)) true 2
      (q, fun _ => [1, 2, 0]) = .ok (q, fun i => if i = 0 then [0, 1, 2] else [1, 2, 0]) := by
  refine ⟨⟨Unit, fun _ => some (.inr .mulAssign, 0, 1, 0), fun q _ => q⟩, fun _ _ _ _ _ h => (nomatch h), (), rfl, rfl, ?_⟩
  have h1 : (Permutations.mutMul 3).mulAssign [1, 2, 0] [1, 2, 0] = (.ok (), [2, 0, 1]) := by
    cases h : Cfg.debugAssertions <;>
      simp [Permutations.mutMul, Permutations.checkLen, debugAssert, h, Mut.after, Mut.each, Mut.assign, idx, Res.bind, Res.assert]
  have h2 : (Permutations.mutMul 3).mulAssign [1, 2, 0] [2, 0, 1] = (.ok (), [0, 1, 2]) := by
    cases h : Cfg.debugAssertions <;>
      simp [Permutations.mutMul, Permutations.checkLen, debugAssert, h, Mut.after, Mut.each, Mut.assign, idx, Res.bind, Res.assert]
  simp only [Client.runInPlace, Client.stepInPlace, InPlaceProduct.table, store, h1, h2, Res.bind, bind, if_true,
    if_neg (show ¬ (1 : ℕ) = 0 by decide)]
  congr 2
  funext i
  split <;> rfl

/-! ## The same leftovers -/

variable {r : E → F → Prop}

theorem AlikeMut.assign {f : E → Res E} {g : F → Res F} (h : ∀ {a a'}, r a a' → Alike r (f a) (g a')) :
    AlikeMut r (Mut.assign f) (Mut.assign g) := by
  intro a a' ha
  have := h ha
  unfold Mut.assign
  revert this
  generalize f a = s
  generalize g a' = t
  intro hst
  cases hst with
  | ok h => exact ⟨.ok trivial, h⟩
  | panic => exact ⟨.panic, ha⟩

theorem AlikeMut.after {α β : Type} {s : α → β → Prop} {x : Res α} {y : Res β} {m : α → Mut E} {m' : β → Mut F} (hx : Alike s x y)
    (h : ∀ {a b}, s a b → AlikeMut r (m a) (m' b)) : AlikeMut r (Mut.after x m) (Mut.after y m') := by
  intro a a' ha
  cases hx with
  | ok hs => exact h hs _ _ ha
  | panic => exact ⟨.panic, ha⟩

theorem AlikeMut.each {l : List (Mut E)} {l' : List (Mut F)} (h : LRel (fun m m' => AlikeMut r m m') l l') :
    AlikeMut (LRel r) (Mut.each l) (Mut.each l') := by
  induction h with
  | nil =>
    intro a a' ha
    exact ⟨.ok trivial, ha⟩
  | @cons m m' ms ms' hm hms ih =>
    intro a a' ha
    cases ha with
    | nil => exact ⟨.ok trivial, .nil⟩
    | @cons x x' v v' hx hv =>
      obtain ⟨h1, h2⟩ := hm _ _ hx
      obtain ⟨h3, h4⟩ := ih _ _ hv
      unfold Mut.each
      revert h1 h2
      generalize m x = p
      generalize m' x' = q
      obtain ⟨o, y⟩ := p
      obtain ⟨o', y'⟩ := q
      intro h1 h2
      cases h1 with
      | ok h => exact ⟨h3, .cons h2 h4⟩
      | panic => exact ⟨.panic, .cons h2 hv⟩

theorem alike_assert {b b' : Bool} (h : b = b') : Alike (fun _ _ => True) (Res.assert b) (Res.assert b') := by
  subst h
  cases b with
  | true => exact .ok trivial
  | false => exact .panic

theorem AlikeMut.zipMut (len : ℕ) {f : E → Mut E} {g : F → Mut F} (h : ∀ {b b'}, r b b' → AlikeMut r (f b) (g b')) {v : List E}
    {v' : List F} (hv : LRel r v v') : AlikeMut (LRel r) (VectorAlgebra.zipMut len f v) (VectorAlgebra.zipMut len g v') := by
  intro a a' ha
  refine AlikeMut.after (alike_assert ?_) (fun _ => AlikeMut.each ?_) _ _ ha
  · unfold VectorAlgebra.lenIs; rw [ha.length_eq, hv.length_eq]
  · exact List.forall₂_map_left_iff.2 (List.forall₂_map_right_iff.2 (hv.imp fun _ _ hab => h hab))

theorem AlikeMut.eachMut (len : ℕ) {f : Mut E} {g : Mut F} (h : AlikeMut r f g) :
    AlikeMut (LRel r) (VectorAlgebra.eachMut len f) (VectorAlgebra.eachMut len g) := by
  intro a a' ha
  refine AlikeMut.after (alike_assert ?_) (fun _ => AlikeMut.each ?_) _ _ ha
  · unfold VectorAlgebra.lenIs; rw [ha.length_eq]
  · exact List.forall₂_map_left_iff.2 (List.forall₂_map_right_iff.2 (ha.imp fun _ _ _ => h))

section

variable [Cfg]

/-- C108: the default methods leave corresponding contents if the methods they call have corresponding
outcomes. -/
theorem C108_default {A : UnitaryRingOps E} {B : UnitaryRingOps F}
    (hmul : ∀ {a b a' b'}, r a a' → r b b' → Alike r (A.mul a b) (B.mul a' b'))
    (hadd : ∀ {a b a' b'}, r a a' → r b b' → Alike r (A.add a b) (B.add a' b'))
    (hneg : ∀ {a a'}, r a a' → Alike r (A.neg a) (B.neg a')) :
    AlikeMul r (MutMul.default A.toSemigroupOps) (MutMul.default B.toSemigroupOps) ∧
    AlikeNeg r (MutNeg.default A.toAbelianGroupOps) (MutNeg.default B.toAbelianGroupOps) where
  left := ⟨fun hb => AlikeMut.assign fun ha => hmul ha hb, AlikeMut.assign fun ha => hmul ha ha⟩
  right :=
    { addAssign := fun hb => AlikeMut.assign fun ha => hadd ha hb
      double := AlikeMut.assign fun ha => hadd ha ha
      negAssign := AlikeMut.assign fun ha => hneg ha
      subAssign := fun hb => AlikeMut.after (hneg hb) fun hc => AlikeMut.assign fun ha => hadd ha hc }

/-- C108: vectors leave corresponding contents, also when the panic comes in the middle. -/
theorem C108_vectors (len : ℕ) {S : SemigroupOps E} {S' : SemigroupOps F} {A : AbelianGroupOps E} {A' : AbelianGroupOps F}
    {M : MutMul S} {M' : MutMul S'} {N : MutNeg A} {N' : MutNeg A'} (hM : AlikeMul r M M') (hN : AlikeNeg r N N') :
    AlikeMul (LRel r) (VectorAlgebra.mutMul len M) (VectorAlgebra.mutMul len M') ∧
    AlikeNeg (LRel r) (VectorAlgebra.mutNeg len N) (VectorAlgebra.mutNeg len N') where
  left := ⟨fun hb => AlikeMut.zipMut len hM.mulAssign hb, AlikeMut.eachMut len hM.square⟩
  right :=
    { addAssign := fun hb => AlikeMut.zipMut len hN.addAssign hb
      double := AlikeMut.eachMut len hN.double
      negAssign := AlikeMut.eachMut len hN.negAssign
      subAssign := fun hb => AlikeMut.zipMut len hN.subAssign hb }

/-- C108: so do the sums of matrices. -/
theorem C108_matrices (size : ℕ) {A : FieldOps E} {B : FieldOps F} {N : MutNeg A.toAbelianGroupOps} {N' : MutNeg B.toAbelianGroupOps}
    (hN : AlikeNeg r N N') : AlikeNeg (LRel r) (MatrixRing.mutNeg N size) (MatrixRing.mutNeg N' size) where
  addAssign := fun hb => AlikeMut.zipMut (size * size) hN.addAssign hb
  double := AlikeMut.eachMut (size * size) hN.double
  negAssign := AlikeMut.eachMut (size * size) hN.negAssign
  subAssign := fun hb => AlikeMut.zipMut (size * size) hN.subAssign hb

theorem InPlaceMethod.alike {S : SemigroupOps E} {S' : SemigroupOps F} {A : AbelianGroupOps E} {A' : AbelianGroupOps F}
    {M : MutMul S} {M' : MutMul S'} {N : MutNeg A} {N' : MutNeg A'} (hM : AlikeMul r M M') (hN : AlikeNeg r N N') (j : InPlaceMethod)
    {b : E} {b' : F} (hb : r b b') : AlikeMut r (j.table M N b) (j.table M' N' b') := by
  cases j with
  | mulAssign => exact hM.mulAssign hb
  | square => exact hM.square
  | addAssign => exact hN.addAssign hb
  | double => exact hN.double
  | negAssign => exact hN.negAssign
  | subAssign => exact hN.subAssign hb

end

theorem Client.stepInPlace_alike {T : ι → E → E → Res (Reply E)} {T' : ι → F → F → Res (Reply F)} {M : κ → E → Mut E}
    {M' : κ → F → Mut F} (h : ∀ i {a b a' b'}, r a a' → r b b' → Alike (Reply.Rel r) (T i a b) (T' i a' b'))
    (hM : ∀ j {b b'}, r b b' → AlikeMut r (M j b) (M' j b')) (catching : Bool)
    {c : C.Q × (ℕ → E)} {d : C.Q × (ℕ → F)} (hc : C.Rel r c d) :
    Alike (C.Rel r) (C.stepInPlace T M catching c) (C.stepInPlace T' M' catching d) := by
  obtain ⟨hq, hr⟩ := hc
  unfold Client.stepInPlace
  rw [← hq]
  cases C.act c.1 with
  | none => exact .ok ⟨hq, hr⟩
  | some w =>
    obtain ⟨i | j, a, b, k⟩ := w
    · dsimp only
      have := h i (hr a) (hr b)
      revert this
      generalize T i (c.2 a) (c.2 b) = s
      generalize T' i (d.2 a) (d.2 b) = t
      intro hst
      cases hst with
      | ok h => exact .ok ⟨by rw [h.seen], store_rel h.list hr k⟩
      | panic =>
        cases catching with
        | true => exact .ok ⟨rfl, hr⟩
        | false => exact .panic
    · dsimp only
      have := hM j (hr b) _ _ (hr a)
      revert this
      generalize M j (c.2 b) (c.2 a) = s
      generalize M' j (d.2 b) (d.2 a) = t
      obtain ⟨o, x⟩ := s
      obtain ⟨o', x'⟩ := t
      rintro ⟨h1, h2⟩
      cases h1 with
      | ok h => exact .ok ⟨rfl, store_rel (.cons h2 .nil) hr a⟩
      | panic =>
        cases catching with
        | true => exact .ok ⟨rfl, store_rel (.cons h2 .nil) hr a⟩
        | false => exact .panic

/-- C108: a program that goes on with what a panic has left. -/
theorem C108_programs {T : ι → E → E → Res (Reply E)} {T' : ι → F → F → Res (Reply F)} {M : κ → E → Mut E}
    {M' : κ → F → Mut F} (h : ∀ i {a b a' b'}, r a a' → r b b' → Alike (Reply.Rel r) (T i a b) (T' i a' b'))
    (hM : ∀ j {b b'}, r b b' → AlikeMut r (M j b) (M' j b')) (catching : Bool) (n : ℕ) :
    ∀ {c : C.Q × (ℕ → E)} {d : C.Q × (ℕ → F)}, C.Rel r c d →
      Alike (C.Rel r) (C.runInPlace T M catching n c) (C.runInPlace T' M' catching n d) := by
  induction n with
  | zero => exact fun hc => .ok hc
  | succ n ih =>
    intro c d hc
    have hs := C.stepInPlace_alike h hM catching hc
    unfold Client.runInPlace
    revert hs
    generalize C.stepInPlace T M catching c = s
    generalize C.stepInPlace T' M' catching d = t
    intro hs
    cases hs with
    | ok h => exact ih h
    | panic => exact .panic

/-! ## Machine integers -/

section

variable [Cfg]

/-- C108: two rings whose methods have the same outcomes leave corresponding contents. -/
theorem C108_rings {A : UnitaryRingOps E} {B : UnitaryRingOps F} {r' : F → E → Prop} (hr : ∀ a b, r a b → r' b a)
    (h : FollowsUnitaryRing r A B) (h' : FollowsUnitaryRing r' B A) (hA : StopsUnitaryRing A) (hB : StopsUnitaryRing B) :
    AlikeMul r (MutMul.default A.toSemigroupOps) (MutMul.default B.toSemigroupOps) ∧
    AlikeNeg r (MutNeg.default A.toAbelianGroupOps) (MutNeg.default B.toAbelianGroupOps) :=
  C108_default (fun ha hb => (h.mul ha hb).alike (h'.mul (hr _ _ ha) (hr _ _ hb)) (hA.mul _ _) (hB.mul _ _))
    (fun ha hb => (h.add ha hb).alike (h'.add (hr _ _ ha) (hr _ _ hb)) (hA.add _ _) (hB.add _ _))
    (fun ha => (h.neg ha).alike (h'.neg (hr _ _ ha)) (hA.neg _) (hB.neg _))

variable (w : ℕ) [Width w] (D : Client (RingMethod ⊕ InPlaceMethod)) (catching : Bool) (n : ℕ)

/-- C108: vectors of machine integers. -/
theorem C108_machine_vectors (len : ℕ) {c : D.Q × (ℕ → List (SInt w))} {d : D.Q × (ℕ → List ℤ)}
    (hc : D.Rel (LRel (SRep w)) c d) :
    Alike (D.Rel (LRel (SRep w)))
      (D.runInPlace (RingMethod.table (VectorAlgebra.unitaryRing len (CheckedInts.unitaryRing w)))
        (InPlaceMethod.table (VectorAlgebra.mutMul len (MutMul.default (CheckedInts.unitaryRing w).toSemigroupOps))
          (VectorAlgebra.mutNeg len (MutNeg.default (CheckedInts.unitaryRing w).toAbelianGroupOps))) catching n c)
      (D.runInPlace (RingMethod.table (VectorAlgebra.unitaryRing len (Guarded.euclidean w).toUnitaryRingOps))
        (InPlaceMethod.table (VectorAlgebra.mutMul len (MutMul.default (Guarded.euclidean w).toSemigroupOps))
          (VectorAlgebra.mutNeg len (MutNeg.default (Guarded.euclidean w).toAbelianGroupOps))) catching n d) := by
  have hb := C108_rings (denoted w) (C103_integers w).1.toFollowsUnitaryRing (C103_integers w).2.toFollowsUnitaryRing
    (CheckedInts.stops_euclidean w).toStopsUnitaryRing (C103_stops w).toStopsUnitaryRing
  have hv := C108_vectors len hb.1 hb.2
  exact C108_programs D (fun i _ _ _ _ ha hb => (follows_ring_method (C103_vectors w len).1 i ha hb).alike
    (follows_ring_method (C103_vectors w len).2 i (denoted_list (denoted w) _ _ ha) (denoted_list (denoted w) _ _ hb))
    (stops_ring_method (VectorAlgebra.stops_unitaryRing len (CheckedInts.stops_euclidean w).toStopsUnitaryRing) _ _ _)
    (stops_ring_method (VectorAlgebra.stops_unitaryRing len (C103_stops w).toStopsUnitaryRing) _ _ _))
    (fun j _ _ hb => InPlaceMethod.alike hv.1 hv.2 j hb) catching n hc

/-- C108: matrices of machine fractions. -/
theorem C108_machine_matrices (size : ℕ) {c : D.Q × (ℕ → List (SInt w × SInt w))} {d : D.Q × (ℕ → List (ℤ × ℤ))}
    (hc : D.Rel (LRel (PRel (SRep w))) c d) :
    Alike (D.Rel (LRel (PRel (SRep w))))
      (D.runInPlace (RingMethod.table (MatrixRing.ops (ReducedFractions.ops (CheckedInts.euclidean w)) size))
        (InPlaceMethod.table (MutMul.default (MatrixRing.ops (ReducedFractions.ops (CheckedInts.euclidean w)) size).toSemigroupOps)
          (MatrixRing.mutNeg (MutNeg.default (ReducedFractions.ops (CheckedInts.euclidean w)).toAbelianGroupOps) size)) catching n c)
      (D.runInPlace (RingMethod.table (MatrixRing.ops (ReducedFractions.ops (Guarded.euclidean w)) size))
        (InPlaceMethod.table (MutMul.default (MatrixRing.ops (ReducedFractions.ops (Guarded.euclidean w)) size).toSemigroupOps)
          (MatrixRing.mutNeg (MutNeg.default (ReducedFractions.ops (Guarded.euclidean w)).toAbelianGroupOps) size)) catching n d) := by
  have sA := ReducedFractions.stops_ops (CheckedInts.stops_euclidean w)
  have sB := ReducedFractions.stops_ops (C103_stops w)
  have hb := C108_rings (denoted_pair w) (C103_fractions w).1.toFollowsUnitaryRing (C103_fractions w).2.toFollowsUnitaryRing
    sA.toStopsUnitaryRing sB.toStopsUnitaryRing
  have hm := C108_rings (denoted_list (denoted_pair w)) (C103_matrices w size).1 (C103_matrices w size).2
    (MatrixRing.stops_ops sA size) (MatrixRing.stops_ops sB size)
  exact C108_programs D (fun i _ _ _ _ ha hb => (follows_ring_method (C103_matrices w size).1 i ha hb).alike
    (follows_ring_method (C103_matrices w size).2 i (denoted_list (denoted_pair w) _ _ ha) (denoted_list (denoted_pair w) _ _ hb))
    (stops_ring_method (MatrixRing.stops_ops sA size) _ _ _) (stops_ring_method (MatrixRing.stops_ops sB size) _ _ _))
    (fun j _ _ hb' => InPlaceMethod.alike hm.1 (C108_matrices size hb.2) j hb') catching n hc

end

/-- A program that adds to a vector of eight-bit integers until it panics, and then squares what is left. -/
def addThenSquare : Client (RingMethod ⊕ InPlaceMethod) where
  Q := Fin 3
  act q := match q with
    | 0 => some (.inr .addAssign, 0, 1, 0)
    | 1 => some (.inr .square, 0, 0, 0)
    | _ => none
  next q s := match q, s with
    | 0, .panicked => 1
    | 0, _ => 0
    | _, _ => 2

/-- `[3, 126] + [1, 1]` is `[4, 127]`, the next sum panics in the second coordinate and leaves `[5, 127]`, and the square panics there too,
leaving `[25, 127]`. -/
example [Cfg] : ∃ x, addThenSquare.runInPlace (RingMethod.table (VectorAlgebra.unitaryRing 2 (Guarded.euclidean 8).toUnitaryRingOps))
    (InPlaceMethod.table (VectorAlgebra.mutMul 2 (MutMul.default (Guarded.euclidean 8).toSemigroupOps))
      (VectorAlgebra.mutNeg 2 (MutNeg.default (Guarded.euclidean 8).toAbelianGroupOps))) true 5
    ((0 : Fin 3), fun i => if i = 0 then [3, 126] else [1, 1]) = .ok x ∧ x.2 0 = [25, 127] ∧ x.1 = (2 : Fin 3) :=
  ⟨_, rfl, rfl, rfl⟩

end Abstalg
