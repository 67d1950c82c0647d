import Verif.Proofs.Signs
import Verif.Props.ExactFloats

/-! # Signs of floats: C85 -/

set_option autoImplicit false

namespace Abstalg

open FloatFormat

variable [Cfg] {F : FloatFormat} {u w s : ℤˣ} {a b a' b' : F.Val}

/-! ## The relation -/

omit [Cfg] in
/-- C85: for finite floats the relation says what it should: the value of the second is the value of the first
times the sign. -/
theorem C85_value {x y : ℚ} (ha : FloatRep a x) (hb : FloatRep b y) : SignedBy u a b ↔ y = ((u : ℤ) : ℚ) * x := by
  have key : bySign (decide (u = -1)) x = ((u : ℤ) : ℚ) * x := by
    rcases Int.units_eq_one_or u with rfl | rfl
    · rw [decide_eq_false (by decide)]; simp [bySign]
    · rw [decide_eq_true rfl]; simp [bySign]
  constructor
  · intro h
    unfold SignedBy at h
    cases h with
    | nan => obtain ⟨_, _, _, h, _⟩ := ha; cases h
    | inf s => obtain ⟨_, _, _, h, _⟩ := ha; cases h
    | number h1 h2 =>
      obtain rfl := h1.unique ha
      rw [hb.unique h2, key]
  · rintro rfl
    exact .number ha (key ▸ hb)

omit [Cfg] in
/-- C85: the relation is symmetric, and signs multiply along a chain. -/
theorem C85_chain {c : F.Val} : (SignedBy u a b → SignedBy u b a) ∧
    (SignedBy u a b → SignedBy w b c → SignedBy (u * w) a c) := by
  refine ⟨SignRel.symm, fun h h' => ?_⟩
  unfold SignedBy
  rw [sign_mul]
  exact SignRel.trans h h'

omit [Cfg] in
/-- C85: negation changes the sign. -/
theorem C85_neg (a : F.Val) : SignedBy (-1) a a.neg := by
  unfold SignedBy
  rw [decide_eq_true rfl]
  exact .neg_self a

/-- C85: `equals` holds exactly for floats that differ at most in the sign of zero, and never for NaN. -/
theorem C85_equals : (ApproxFloats.field F).equals a b = .ok true ↔ SignedBy 1 a b ∧ a.isNan = false := by
  show Res.ok _ = Res.ok _ ↔ _
  rw [Res.ok.injEq, signRel_iff_eq]
  unfold SignedBy
  rw [decide_eq_false (by decide)]

omit [Cfg] in
/-- The two zeros. -/
theorem zeros_signedBy : SignedBy u (.fin false 0 F.mag_zero : F.Val) (.fin true 0 F.mag_zero) :=
  (C85_value ⟨false, 0, _, rfl, rfl⟩ ⟨true, 0, _, rfl, rfl⟩).2 (by simp)

example : (ApproxFloats.field F).equals (.fin false 0 F.mag_zero) (.fin true 0 F.mag_zero) = .ok true :=
  C85_equals.2 ⟨zeros_signedBy, rfl⟩

/-! ## The sign of zero is never seen -/

/-- C85: operands that differ only in the signs of zeros give results that differ only in the signs of zeros, and the
same answers, for all methods of the field. -/
theorem C85_field : FollowsField (SignedBy 1) (ApproxFloats.field F) (ApproxFloats.field F) := by
  have h : (SignedBy 1 : F.Val → F.Val → Prop) = SignRel false := by
    funext a b
    unfold SignedBy
    rw [decide_eq_false (by decide)]
  rw [h]
  exact SignRel.follows_field

/-- C85: the same for the order, the smaller and the larger of two floats, whichever zero `min` and `max` return. -/
theorem C85_lattice (pick pick' : F.Val → F.Val → Bool) :
    FollowsLattice (SignedBy 1) (ApproxFloats.lattice F pick) (ApproxFloats.lattice F pick') := by
  have h : (SignedBy 1 : F.Val → F.Val → Prop) = SignRel false := by
    funext a b
    unfold SignedBy
    rw [decide_eq_false (by decide)]
  rw [h]
  exact SignRel.follows_lattice pick pick'

/-- C85: the same for all constructions over the floats: vectors, matrices with their determinants, polynomials,
residues of polynomials, rational functions. -/
theorem C85_constructions (len : ℕ) :
    FollowsUnitaryRing (LRel (SignedBy 1)) (VectorAlgebra.unitaryRing len (ApproxFloats.field F).toUnitaryRingOps)
      (VectorAlgebra.unitaryRing len (ApproxFloats.field F).toUnitaryRingOps) ∧
    FollowsUnitaryRing (LRel (SignedBy 1)) (MatrixRing.ops (ApproxFloats.field F) len)
      (MatrixRing.ops (ApproxFloats.field F) len) ∧
    (∀ v w, LRel (SignedBy 1) v w → Follows (SignedBy 1) (MatrixRing.determinant (ApproxFloats.field F) len v)
      (MatrixRing.determinant (ApproxFloats.field F) len w)) ∧
    FollowsEuclideanDomain (LRel (SignedBy 1)) (PolynomialAlgebra.euclidean (ApproxFloats.field F))
      (PolynomialAlgebra.euclidean (ApproxFloats.field F)) ∧
    (∀ m m', LRel (SignedBy 1) m m' → FollowsField (LRel (SignedBy 1))
      (QuotientField.ops (PolynomialAlgebra.euclidean (ApproxFloats.field F)) m)
      (QuotientField.ops (PolynomialAlgebra.euclidean (ApproxFloats.field F)) m')) ∧
    FollowsField (PRel (LRel (SignedBy 1))) (ReducedFractions.ops (PolynomialAlgebra.euclidean (ApproxFloats.field F)))
      (ReducedFractions.ops (PolynomialAlgebra.euclidean (ApproxFloats.field F))) :=
  ⟨C67_vectors (.refl _) len C85_field.toFollowsUnitaryRing, C67_matrices (.refl _) len C85_field,
    fun _ _ h => C67_determinant len C85_field h, C67_polynomials_euclidean C85_field,
    fun _ _ h => C67_quotient_field (.refl _) (C67_polynomials_euclidean C85_field) h,
    C67_fractions (.refl _) (C67_polynomials_euclidean C85_field)⟩

/-- One plus either zero: the results are equal. -/
example (c : F.Val) (h : (ApproxFloats.field F).add Val.one (.fin false 0 F.mag_zero) = .ok c) :
    ∃ d, (ApproxFloats.field F).add Val.one (.fin true 0 F.mag_zero) = .ok d ∧ SignedBy 1 c d :=
  C85_field.add ((C85_value floatRep_one floatRep_one).2 (by simp)) zeros_signedBy c h

/-! ## The sign of the result -/

/-- C85: addition, subtraction, negation and integer multiples commute with a common change of sign: the rounding is
symmetric. -/
theorem C85_group (u : ℤˣ) : FollowsAbelianGroup (SignedBy u) (ApproxFloats.field F).toAbelianGroupOps
    (ApproxFloats.field F).toAbelianGroupOps := SignRel.graded.group u

/-- C85: products, quotients, inverses and powers have the product, the quotient, the inverse and the power of the
signs. -/
theorem C85_signs (ha : SignedBy u a a') (hb : SignedBy w b b') :
    Follows (SignedBy (u * w)) ((ApproxFloats.field F).mul a b) ((ApproxFloats.field F).mul a' b') ∧
    Follows (SignedBy (u / w)) ((ApproxFloats.field F).div a b) ((ApproxFloats.field F).div a' b') ∧
    Follows (SignedBy u⁻¹) ((ApproxFloats.field F).inv a) ((ApproxFloats.field F).inv a') ∧
    Follows (Option.Rel (SignedBy u)) ((ApproxFloats.field F).tryInv a) ((ApproxFloats.field F).tryInv a') ∧
    ∀ k, Follows (SignedBy (u ^ k)) ((ApproxFloats.field F).power k a) ((ApproxFloats.field F).power k a') :=
  ⟨SignRel.graded.mul ha hb, SignRel.graded.div ha hb, SignRel.graded.inv ha, SignRel.tryInv ha, ha.power⟩

/-- C85: negation reverses the order and exchanges the smaller and the larger of two floats. -/
theorem C85_order (ha : SignedBy (-1) a a') (hb : SignedBy (-1) b b') (pick pick' : F.Val → F.Val → Bool) :
    (ApproxFloats.lattice F pick).leq a b = (ApproxFloats.lattice F pick').leq b' a' ∧
    Follows (SignedBy (-1)) ((ApproxFloats.lattice F pick).meet a b) ((ApproxFloats.lattice F pick').join a' b') ∧
    Follows (SignedBy (-1)) ((ApproxFloats.lattice F pick).join a b) ((ApproxFloats.lattice F pick').meet a' b') := by
  unfold SignedBy at ha hb ⊢
  rw [decide_eq_true rfl] at ha hb ⊢
  exact ⟨congrArg Res.ok (ha.le_neg hb), .ok (ha.min_max hb pick pick').1, .ok (ha.min_max hb pick pick').2⟩

/-- The cube of the negative of a float. -/
example (c : F.Val) (h : (ApproxFloats.field F).power 3 a = .ok c) :
    ∃ d, (ApproxFloats.field F).power 3 a.neg = .ok d ∧ SignedBy (-1) c d :=
  (C85_signs (C85_neg a) (C85_neg a)).2.2.2.2 3 c h

/-! ## Matrices -/

section matrices

variable {n : ℕ} {ρ σ κ : Fin n → ℤˣ} {M N P M' N' : Fin n → Fin n → F.Val}

/-- C85: the product of two matrices with changed signs. -/
theorem C85_matrix_mul (hM : SignedMat ρ σ M M') (hN : SignedMat σ κ N N')
    (h : (MatrixRing.ops (ApproxFloats.field F) n).mul (flatVec M) (flatVec N) = .ok (flatVec P)) :
    ∃ P', (MatrixRing.ops (ApproxFloats.field F) n).mul (flatVec M') (flatVec N') = .ok (flatVec P') ∧
      SignedMat ρ κ P P' := by
  have e : σ⁻¹ = σ := funext fun i => sign_inv _
  exact Graded.mat_mul (r := fun u => SignedBy u) SignRel.graded hM (by rw [e]; exact hN) h

/-- C85: if rows and columns of a matrix are multiplied by signs then the determinant is multiplied by all of
them, whatever the rounding errors. -/
theorem C85_determinant (hM : SignedMat ρ κ M M') {x : F.Val}
    (h : MatrixRing.determinant (ApproxFloats.field F) n (flatVec M) = .ok x) :
    ∃ y, MatrixRing.determinant (ApproxFloats.field F) n (flatVec M') = .ok y ∧ SignedBy (∏ i, ρ i * κ i) x y :=
  Graded.determinant (r := fun u => SignedBy u) SignRel.graded hM h

/-- C85: the determinant of the negative of a matrix. -/
theorem C85_determinant_neg {x : F.Val} (h : MatrixRing.determinant (ApproxFloats.field F) n (flatVec M) = .ok x) :
    ∃ y, MatrixRing.determinant (ApproxFloats.field F) n (flatVec fun i j => (M i j).neg) = .ok y ∧
      SignedBy ((-1) ^ n) x y := by
  have h1 : SignedMat (fun _ : Fin n => (-1 : ℤˣ)) (fun _ => 1) M fun i j => (M i j).neg := fun i j => by
    rw [mul_one]
    exact C85_neg _
  obtain ⟨y, h2, h3⟩ := C85_determinant h1 h
  refine ⟨y, h2, ?_⟩
  simpa using h3

/-- C85: if rows and columns of a matrix are multiplied by signs then the columns and rows of the inverse are; an
inverse is found for one exactly if it is found for the other. -/
theorem C85_try_inv (hM : SignedMat ρ κ M M') :
    ((MatrixRing.ops (ApproxFloats.field F) n).tryInv (flatVec M) = .ok none ↔
      (MatrixRing.ops (ApproxFloats.field F) n).tryInv (flatVec M') = .ok none) ∧
    ((MatrixRing.ops (ApproxFloats.field F) n).tryInv (flatVec M) = .ok (some (flatVec P)) →
      ∃ P', (MatrixRing.ops (ApproxFloats.field F) n).tryInv (flatVec M') = .ok (some (flatVec P')) ∧
        SignedMat κ ρ P P') := by
  have e : ∀ τ : Fin n → ℤˣ, τ⁻¹ = τ := fun τ => funext fun i => sign_inv _
  refine ⟨⟨Graded.mat_tryInv_none (r := fun u => SignedBy u) SignRel.graded hM,
    Graded.mat_tryInv_none (r := fun u => SignedBy u) (ρ := ρ) (κ := κ) SignRel.graded fun i j => (hM i j).symm⟩, fun h => ?_⟩
  have := Graded.mat_tryInv (r := fun u => SignedBy u) SignRel.graded hM h
  rw [e, e] at this
  exact this

/-- C85: the product of the transposed matrices in the other order is the transposed product, without any rounding
differences. -/
theorem C85_transpose_mul :
    (MatrixRing.ops (ApproxFloats.field F) n).mul (flatVec M) (flatVec N) = .ok (flatVec P) ↔
    (MatrixRing.ops (ApproxFloats.field F) n).mul (flatVec fun i j => N j i) (flatVec fun i j => M j i) =
      .ok (flatVec fun i j => P j i) := by
  rw [C80_matrix_mul, C80_matrix_mul]
  have hc : ∀ a b, (ApproxFloats.field F).mul a b = (ApproxFloats.field F).mul b a := fun a b => by
    show ApproxFloats.checked (a.mul b) = ApproxFloats.checked (b.mul a)
    congr 1
    cases a <;> cases b <;> simp [Val.mul, mul_comm, Bool.xor_comm]
  have key : ∀ (z : F.Val) (l : List (F.Val × F.Val)),
      addProducts (ApproxFloats.field F).mul (ApproxFloats.field F).addAssign z (l.map Prod.swap) =
        addProducts (ApproxFloats.field F).mul (ApproxFloats.field F).addAssign z l := by
    intro z l
    induction l generalizing z with
    | nil => rfl
    | cons p l ih =>
      simp only [List.map_cons, addProducts, Prod.fst_swap, Prod.snd_swap, ih, hc p.2 p.1]
  have h2 : ∀ (i j : Fin n), (List.ofFn fun k => (N k i, M j k)) = (List.ofFn fun k => (M j k, N k i)).map Prod.swap := by
    intro i j
    simp [List.map_ofFn, Function.comp_def]
  simp only [h2, key]
  exact forall_comm

/-- The determinant of the matrix with the rows (-2, 1), (-4, 6). -/
example : ∃ (M : Fin 2 → Fin 2 → f32.Val) (y : f32.Val), FloatRep (M 0 0) (-2) ∧ FloatRep (M 0 1) 1 ∧
    FloatRep (M 1 0) (-4) ∧ FloatRep (M 1 1) 6 ∧
    MatrixRing.determinant (ApproxFloats.field f32) 2 (flatVec M) = .ok y ∧ FloatRep y (-8) := by
  obtain ⟨v, a, hv, h1, h2⟩ := f32_determinant
  rcases hv with _ | ⟨g1, _ | ⟨g2, _ | ⟨g3, _ | ⟨g4, _ | _⟩⟩⟩⟩
  rename_i x1 x2 x3 x4
  let M : Fin 2 → Fin 2 → f32.Val := ![![x1, x2], ![x3, x4]]
  let N : Fin 2 → Fin 2 → f32.Val := ![![x1.neg, x2], ![x3.neg, x4]]
  have hM : SignedMat (fun _ => 1) ![-1, 1] M N := fun i j => by
    fin_cases i <;> fin_cases j
    · exact C85_neg _
    · exact (C85_value g2 g2).2 (by simp)
    · exact C85_neg _
    · exact (C85_value g4 g4).2 (by simp)
  obtain ⟨y, h3, h4⟩ := C85_determinant hM (x := a) h1
  have h5 : SignedBy (-1) a y := by simpa [Fin.prod_univ_two] using h4
  refine ⟨N, y, g1.neg, g2, g3.neg, g4, h3, ?_⟩
  unfold SignedBy at h5
  rw [decide_eq_true rfl] at h5
  cases h5 with
  | nan => obtain ⟨_, _, _, h, _⟩ := h2; cases h
  | inf s => obtain ⟨_, _, _, h, _⟩ := h2; cases h
  | number k1 k2 => rw [k1.unique h2] at k2; exact k2

end matrices

/-! ## Polynomials -/

section polynomials

variable {p q p' q' : List F.Val}

/-- C85: the product of polynomials at `-x`, and of their negatives. -/
theorem C85_poly_mul (hp : SignedPoly u s p p') (hq : SignedPoly w s q q') :
    Follows (SignedPoly (u * w) s)
      ((PolynomialAlgebra.unitaryRing (ApproxFloats.field F).toUnitaryRingOps).mul p q)
      ((PolynomialAlgebra.unitaryRing (ApproxFloats.field F).toUnitaryRingOps).mul p' q') :=
  Graded.poly_mul (r := fun u => SignedBy u) SignRel.graded hp hq

/-- C85: quotient and remainder of polynomials at `-x`, and of their negatives. -/
theorem C85_quo_rem (hp : SignedPoly u s p p') (hq : SignedPoly w s q q') :
    Follows (fun x y => SignedPoly (u / w) s x.1 y.1 ∧ SignedPoly u s x.2 y.2)
      ((PolynomialAlgebra.euclidean (ApproxFloats.field F)).quoRem p q)
      ((PolynomialAlgebra.euclidean (ApproxFloats.field F)).quoRem p' q') :=
  Graded.poly_quoRem (r := fun u => SignedBy u) SignRel.graded hp hq

/-- C85: the greatest common divisor of polynomials at `-x`, up to a sign. -/
theorem C85_gcd (hp : SignedPoly u s p p') (hq : SignedPoly w s q q') :
    Follows (fun x y => ∃ t, SignedPoly t s x y)
      ((PolynomialAlgebra.euclidean (ApproxFloats.field F)).gcd p q)
      ((PolynomialAlgebra.euclidean (ApproxFloats.field F)).gcd p' q') :=
  Graded.poly_gcd (r := fun u => SignedBy u) SignRel.graded hp hq

/-- The polynomials `a + b x` and `a - b x`. -/
theorem signedPoly_two : SignedPoly 1 (-1) [a, b] [a, b.neg] := by
  refine ⟨rfl, fun k x y hx hy => ?_⟩
  match k with
  | 0 =>
    obtain rfl := Option.some.inj hx
    obtain rfl := Option.some.inj hy
    show SignRel (decide ((1 : ℤˣ) * (-1) ^ 0 = -1)) _ _
    rw [decide_eq_false (by decide)]
    exact .refl _
  | 1 =>
    obtain rfl := Option.some.inj hx
    obtain rfl := Option.some.inj hy
    show SignedBy (1 * (-1) ^ 1) _ _
    rw [one_mul, pow_one]
    exact C85_neg _
  | k + 2 => cases hx

/-- The square of a polynomial `a + b x` and of `a - b x`. -/
example (c : List F.Val)
    (h : (PolynomialAlgebra.unitaryRing (ApproxFloats.field F).toUnitaryRingOps).mul [a, b] [a, b] = .ok c) :
    ∃ d, (PolynomialAlgebra.unitaryRing (ApproxFloats.field F).toUnitaryRingOps).mul [a, b.neg] [a, b.neg] = .ok d ∧
      SignedPoly 1 (-1) c d := by
  have := C85_poly_mul (signedPoly_two (a := a) (b := b)) signedPoly_two c h
  rwa [one_mul] at this

end polynomials

end Abstalg
