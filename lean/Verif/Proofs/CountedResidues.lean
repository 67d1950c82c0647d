import Verif.Model.CountedResidues
import Verif.Proofs.CountedErase

/-! # Forgetting the counts: extended gcd and residues of polynomials -/

set_option autoImplicit false

namespace Abstalg.Counted

variable {E : Type} [Cfg]

theorem res_polyEquals (base : AbelianGroupOps E) (v w : List E) :
    (polyEquals base v w).res = (PolynomialAlgebra.domain base).equals v w := by
  unfold polyEquals PolynomialAlgebra.domain
  simp only [res_ite, res_pure, res_allRes, res_call]
  rfl

theorem res_polyNeg (base : AbelianGroupOps E) (v : List E) :
    (polyNeg base v).res = (PolynomialAlgebra.abelianGroup base).neg v := by
  unfold polyNeg
  rw [res_mapRes]
  rfl

theorem res_polySub (base : AbelianGroupOps E) (v w : List E) :
    (polySub base v w).res = (PolynomialAlgebra.abelianGroup base).sub v w := by
  unfold polySub
  simp only [res_bind, res_polyNeg, res_polyAdd]
  rfl

theorem res_polyOne (base : UnitaryRingOps E) : (polyOne base).res = (PolynomialAlgebra.unitaryRing base).one := by
  unfold polyOne
  simp only [res_bind, res_lift, res_call, res_pure]
  rfl

theorem res_polyTryInv (base : UnitaryRingOps E) (v : List E) :
    (polyTryInv base v).res = (PolynomialAlgebra.unitaryRing base).tryInv v := by
  unfold polyTryInv
  rw [res_ite, res_pure]
  show _ = if v.length == 1 then _ else _
  refine ite_congr rfl (fun _ => ?_) fun _ => rfl
  rw [res_bind, res_lift]
  refine congrArg _ (funext fun x => ?_)
  rw [res_bind, res_call]
  refine congrArg _ (funext fun o => ?_)
  cases o <;> rfl

theorem res_polyRem (base : FieldOps E) (v w : List E) :
    (polyRem base v w).res = (PolynomialAlgebra.euclidean base).rem v w := by
  unfold polyRem
  simp only [res_bind, res_pure, res_polyQuoRem]
  rfl

/-- Over every base `extended_gcd` of polynomials makes at most as many nested calls as its second operand is long. -/
theorem res_polyExtendedGcdWithin (base : FieldOps E) (n : Nat) (v w : List E) (h : w.length < n) :
    (polyExtendedGcdWithin base n v w).res = (PolynomialAlgebra.euclidean base).extendedGcd v w := by
  induction n generalizing v w with
  | zero => omega
  | succ n ih =>
    show _ = extendedGcdDefault (PolynomialAlgebra.euclidean base).isZero (PolynomialAlgebra.euclidean base).one
      (PolynomialAlgebra.euclidean base).zero (PolynomialAlgebra.euclidean base).quoRem (PolynomialAlgebra.euclidean base).sub
      (PolynomialAlgebra.euclidean base).mul v w
    rw [extendedGcdDefault]
    unfold polyExtendedGcdWithin
    have h0 : (PolynomialAlgebra.euclidean base).isZero w = .ok w.isEmpty := rfl
    rw [h0]
    show _ = if w.isEmpty then _ else _
    rw [res_ite]
    refine ite_congr rfl (fun _ => ?_) fun _ => ?_
    · rw [res_bind, res_polyOne]
      rfl
    · rw [res_bind, res_polyQuoRem]
      show Res.bind _ _ = Res.bind (PolynomialAlgebra.quoRem base v w) _
      cases h1 : PolynomialAlgebra.quoRem base v w with
      | panic => rfl
      | diverge => rfl
      | ok p =>
        show (polyExtendedGcdWithin base n w p.2 >>= _).res = _
        rw [res_bind, ih _ _ (lt_of_lt_of_le (quoRem_short base (q := p.1) (r := p.2) h1) (by omega))]
        refine congrArg _ (funext fun t => ?_)
        simp only [res_bind, res_polyMul, res_polySub, res_pure]
        rfl

section residues

variable (base : FieldOps E) (modulo : List E)

theorem res_residueAdd (a b : List E) : (residueAdd base modulo a b).res =
    (QuotientField.ops (PolynomialAlgebra.euclidean base) modulo).add a b := by
  unfold residueAdd
  simp only [res_bind, res_polyAdd, res_polyRem]
  rfl

theorem res_residueNeg (a : List E) : (residueNeg base modulo a).res =
    (QuotientField.ops (PolynomialAlgebra.euclidean base) modulo).neg a := by
  unfold residueNeg
  simp only [res_bind, res_polyNeg, res_polyRem]
  rfl

theorem res_residueSub (a b : List E) : (residueSub base modulo a b).res =
    (QuotientField.ops (PolynomialAlgebra.euclidean base) modulo).sub a b := by
  unfold residueSub
  simp only [res_bind, res_residueNeg, res_residueAdd]
  rfl

theorem res_residueMul (a b : List E) : (residueMul base modulo a b).res =
    (QuotientField.ops (PolynomialAlgebra.euclidean base) modulo).mul a b := by
  unfold residueMul
  simp only [res_bind, res_polyMul, res_polyRem]
  rfl

theorem res_residueIsZero (a : List E) : (residueIsZero base a).res =
    (QuotientField.ops (PolynomialAlgebra.euclidean base) modulo).isZero a := by
  unfold residueIsZero
  rw [res_polyEquals]
  rfl

theorem res_residueInv (e : List E) : (residueInv base modulo e).res =
    (QuotientField.ops (PolynomialAlgebra.euclidean base) modulo).inv e := by
  unfold residueInv
  simp only [res_bind, res_lift, res_residueIsZero base modulo, res_polyExtendedGcdWithin base _ _ _ (Nat.lt_succ_self _),
    res_polyTryInv, res_residueMul]
  rfl

theorem res_residueDiv (a b : List E) : (residueDiv base modulo a b).res =
    (QuotientField.ops (PolynomialAlgebra.euclidean base) modulo).div a b := by
  unfold residueDiv
  simp only [res_bind, res_residueInv, res_residueMul]
  rfl

theorem powerDefault_one {F : Type} (one : Res F) (mul : F → F → Res F) (square inv : F → Res F) (a : F) :
    powerDefault one mul square inv 1 a = (do let res ← one; let res ← mul res a; let _ ← square a; pure res) := by
  unfold powerDefault
  rw [if_neg (by decide)]
  show Res.bind one _ = Res.bind one _
  refine congrArg _ (funext fun x => ?_)
  show Abstalg.powerLoop mul square 1 x a = _
  rw [Abstalg.powerLoop, dif_pos (by decide), if_pos (by decide)]
  refine congrArg _ (funext fun y => congrArg _ (funext fun z => ?_))
  rw [Abstalg.powerLoop, dif_neg (by decide)]
  rfl

theorem res_residueIntOne : (residueIntOne base modulo).res =
    (QuotientField.ops (PolynomialAlgebra.euclidean base) modulo).int 1 := by
  unfold residueIntOne
  simp only [res_bind, res_pure, res_polyOne, res_residueAdd]
  show Res.bind _ _ = Res.bind _ _
  refine congrArg _ (funext fun x => ?_)
  refine Eq.trans ?_ (powerDefault_one _ _ _ _ x).symm
  rfl

end residues

end Abstalg.Counted
