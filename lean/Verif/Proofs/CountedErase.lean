import Verif.Proofs.Counted
import Verif.Spec.Cost

/-! # The counted methods have the outcomes of the methods -/

set_option autoImplicit false

namespace Abstalg.Counted

variable {E : Type}

theorem res_timesLoop (A : CommutativeMonoidOps E) (num : Nat) (res elem : E) :
    (timesLoop A num res elem).res = Abstalg.timesLoop A.addAssign A.double num res elem := by
  induction num using Nat.strongRecOn generalizing res elem with
  | _ num ih =>
    unfold timesLoop Abstalg.timesLoop
    by_cases h : 0 < num
    · rw [dif_pos h, dif_pos h]
      simp only [res_bind, res_ite, res_call, res_pure, ih (num / 2) (by omega)]
    · rw [dif_neg h, dif_neg h]
      rfl

theorem res_utimes (A : CommutativeMonoidOps E) (num : Nat) (elem : E) :
    (utimes A num elem).res = (do let res ← A.zero; Abstalg.timesLoop A.addAssign A.double num res elem) := by
  unfold utimes
  simp only [res_bind, res_call, res_timesLoop]

variable [Cfg]

theorem res_powerLoop (A : GroupOps E) (num : Int) (res elem : E) :
    (powerLoop A num res elem).res = Abstalg.powerLoop A.mulAssign A.square num res elem := by
  induction h : num.toNat using Nat.strongRecOn generalizing num res elem with
  | _ n ih =>
    unfold powerLoop Abstalg.powerLoop
    by_cases h0 : 0 < num
    · rw [dif_pos h0, dif_pos h0]
      have : (Int.tdiv num 2).toNat < n := by
        rw [Int.tdiv_eq_ediv_of_nonneg (by omega)]
        omega
      have ih' := fun r e => ih _ this (Int.tdiv num 2) r e rfl
      simp only [res_bind, res_ite, res_call, res_pure, ih']
    · rw [dif_neg h0, dif_neg h0]
      rfl

theorem res_power (A : GroupOps E) (num : Int) (elem : E) :
    (power A num elem).res = powerDefault A.one A.mulAssign A.square A.inv num elem := by
  unfold power powerDefault
  simp only [res_bind, res_ite, res_call, res_pure, res_lift, res_powerLoop]

omit [Cfg] in
theorem res_zipMap (len : Nat) (c : Call) (f : E → E → Res E) (a b : List E) :
    (zipMap len c f a b).res = VectorAlgebra.zipMap len f a b := by
  unfold zipMap VectorAlgebra.zipMap
  simp only [res_bind, res_lift, res_mapRes, res_call]

omit [Cfg] in
theorem res_zipEach (len : Nat) (c : Call) (f : E → E → Res E) (a b : List E) :
    (zipEach len c f a b).res = VectorAlgebra.zipEach len f a b := by
  unfold zipEach VectorAlgebra.zipEach
  simp only [res_bind, res_lift, res_zipForEach, res_call]

omit [Cfg] in
theorem res_mapEach (len : Nat) (c : Call) (f : E → Res E) (a : List E) :
    (mapEach len c f a).res = VectorAlgebra.mapEach len f a := by
  unfold mapEach VectorAlgebra.mapEach
  simp only [res_bind, res_lift, res_mapRes, res_call]

section matrices

variable (base : FieldOps E) (size : Nat)

theorem res_matMul (a b : List E) : (matMul base size a b).res = MatrixRing.mul base size a b := by
  unfold matMul MatrixRing.mul
  simp only [res_bind, res_lift, res_forLoop, res_call, res_pure]

theorem res_mulRow (a : List E) (i : Nat) (c : E) : (mulRow base size a i c).res = MatrixRing.mulRow base size a i c := by
  unfold mulRow MatrixRing.mulRow
  simp only [res_bind, res_lift, res_forLoop, res_call]

theorem res_addRows (a : List E) (i j : Nat) (c : E) :
    (addRows base size a i j c).res = MatrixRing.addRows base size a i j c := by
  unfold addRows MatrixRing.addRows
  simp only [res_bind, res_lift, res_forLoop, res_call]

theorem res_findRow (a : List E) (c : Nat) : (findRow base size a c).res = MatrixRing.findRow base size a c := by
  unfold findRow MatrixRing.findRow
  simp only [res_bind, res_lift, res_findRes, res_call, res_pure]

theorem res_detClear (a : List E) (c : Nat) : (detClear base size a c).res = MatrixRing.detClear base size a c := by
  unfold detClear MatrixRing.detClear
  simp only [res_bind, res_lift, res_forLoop, res_call, res_pure, res_ite, res_addRows]

theorem res_detLoop (l : List Nat) (a : List E) (d : E) :
    (detLoop base size l a d).res = MatrixRing.detLoop base size l a d := by
  induction l generalizing a d with
  | nil => rfl
  | cons c l ih =>
    unfold detLoop MatrixRing.detLoop
    rw [res_bind, res_findRow]
    refine congrArg _ (funext fun o => ?_)
    cases o with
    | none => rfl
    | some row => simp only [res_bind, res_lift, res_call, res_pure, res_ite, res_mulRow, res_detClear, ih]

theorem res_determinant (a : List E) : (determinant base size a).res = MatrixRing.determinant base size a := by
  unfold determinant MatrixRing.determinant
  simp only [res_bind, res_call, res_detLoop]

theorem res_matZero : (matZero base size).res = MatrixRing.zero base size := by
  unfold matZero MatrixRing.zero
  simp only [res_bind, res_call, res_pure]
  rfl

theorem res_matInt (n : Int) : (matInt base size n).res = MatrixRing.int base size n := by
  unfold matInt MatrixRing.int
  simp only [res_bind, res_call, res_lift, res_matZero, res_forLoop]

theorem res_invClear (a b : List E) (c : Nat) : (invClear base size a b c).res = MatrixRing.invClear base size a b c := by
  unfold invClear MatrixRing.invClear
  simp only [res_bind, res_lift, res_forLoop, res_call, res_pure, res_ite, res_addRows]
  rfl

theorem res_invLoop (l : List Nat) (a b : List E) :
    (invLoop base size l a b).res = MatrixRing.invLoop base size l a b := by
  induction l generalizing a b with
  | nil => rfl
  | cons c l ih =>
    unfold invLoop MatrixRing.invLoop
    rw [res_bind, res_findRow]
    refine congrArg _ (funext fun o => ?_)
    cases o with
    | none => rfl
    | some row => simp only [res_bind, res_lift, res_call, res_pure, res_ite, res_mulRow, res_invClear, ih]

theorem res_matIsOne (a : List E) : (matIsOne base size a).res = MatrixRing.isOne base size a := by
  unfold matIsOne MatrixRing.isOne MatrixRing.domain
  simp only [res_bind, res_lift, res_call, res_matInt, res_allRes]

theorem res_matTryInv (a : List E) : (matTryInv base size a).res = MatrixRing.tryInv base size a := by
  unfold matTryInv MatrixRing.tryInv
  rw [res_bind, res_matInt]
  refine congrArg _ (funext fun i => ?_)
  rw [res_bind, res_invLoop]
  refine congrArg _ (funext fun o => ?_)
  cases o with
  | none => rfl
  | some p => simp only [res_bind, res_pure, res_debugAssert, res_matIsOne]

end matrices

section polynomials

theorem res_polyAdd (base : AbelianGroupOps E) (a b : List E) : (polyAdd base a b).res = PolynomialAlgebra.add base a b := by
  unfold polyAdd PolynomialAlgebra.add
  simp only [res_bind, res_lift, res_forLoop, res_call, res_pure, res_ite]

theorem res_polyMul (base : UnitaryRingOps E) (a b : List E) : (polyMul base a b).res = PolynomialAlgebra.mul base a b := by
  unfold polyMul PolynomialAlgebra.mul
  simp only [res_bind, res_lift, res_forLoop, res_call, res_pure, res_ite]
  rfl

theorem res_tryDivLoop (base : IntegralDomainOps E) (v : List E) (a : E) (n : Nat) (quo rem : List E) :
    (tryDivLoop base v a n quo rem).res = PolynomialAlgebra.tryDivLoop base v a n quo rem := by
  induction n generalizing quo rem with
  | zero => rfl
  | succ i ih =>
    unfold tryDivLoop PolynomialAlgebra.tryDivLoop
    rw [res_bind, res_lift]
    refine congrArg _ (funext fun x => ?_)
    rw [res_bind, res_call]
    refine congrArg _ (funext fun o => ?_)
    cases o with
    | none => rfl
    | some q => simp only [res_bind, res_lift, res_call, res_forLoop, ih]

theorem res_polyTryDiv (base : IntegralDomainOps E) (v w : List E) :
    (polyTryDiv base v w).res = PolynomialAlgebra.tryDiv base v w := by
  unfold polyTryDiv PolynomialAlgebra.tryDiv
  rw [res_bind, res_lift]
  refine congrArg _ (funext fun _ => ?_)
  rw [res_ite, res_ite]
  refine ite_congr rfl (fun _ => rfl) fun _ => ?_
  simp only [res_bind, res_lift, res_call, res_tryDivLoop]
  refine congrArg _ (funext fun z => congrArg _ (funext fun a => congrArg _ (funext fun b => congrArg _ (funext fun _ => ?_))))
  refine congrArg _ (funext fun o => ?_)
  cases o with
  | none => rfl
  | some q => simp only [res_bind, res_pure, res_ite, res_allRes, res_call]

theorem res_quoRemLoop (base : FieldOps E) (v : List E) (a : E) (n : Nat) (quo rem : List E) :
    (quoRemLoop base v a n quo rem).res = PolynomialAlgebra.quoRemLoop base v a n quo rem := by
  induction n generalizing quo rem with
  | zero => rfl
  | succ i ih =>
    unfold quoRemLoop PolynomialAlgebra.quoRemLoop
    simp only [res_bind, res_lift, res_call, res_forLoop, ih]

theorem res_trimLen (base : FieldOps E) (rem : List E) (n : Nat) :
    (trimLen base rem n).res = PolynomialAlgebra.trimLen base rem n := by
  induction n with
  | zero => rfl
  | succ i ih =>
    unfold trimLen PolynomialAlgebra.trimLen
    simp only [res_bind, res_lift, res_call, res_ite, ih, res_pure]

theorem res_polyQuoRem (base : FieldOps E) (v w : List E) :
    (polyQuoRem base v w).res = PolynomialAlgebra.quoRem base v w := by
  unfold polyQuoRem PolynomialAlgebra.quoRem
  simp only [res_bind, res_lift, res_call, res_ite, res_pure, res_quoRemLoop, res_trimLen]

theorem trimLen_le (base : FieldOps E) (rem : List E) {n i : Nat} (h : PolynomialAlgebra.trimLen base rem n = .ok i) : i ≤ n := by
  induction n with
  | zero => cases h; exact le_rfl
  | succ n ih =>
    unfold PolynomialAlgebra.trimLen at h
    cases h1 : idx rem n with
    | ok x =>
      rw [h1] at h
      change Res.bind (base.isZero x) _ = _ at h
      cases h2 : base.isZero x with
      | ok b =>
        rw [h2] at h
        cases b with
        | true => exact (ih h).trans (Nat.le_succ n)
        | false => cases h; exact le_rfl
      | panic => rw [h2] at h; cases h
      | diverge => rw [h2] at h; cases h
    | panic => rw [h1] at h; cases h
    | diverge => rw [h1] at h; cases h

theorem trimLen_le_length (base : FieldOps E) (rem : List E) {n i : Nat} (h : PolynomialAlgebra.trimLen base rem n = .ok i) :
    i ≤ rem.length := by
  induction n with
  | zero => cases h; exact Nat.zero_le _
  | succ n ih =>
    unfold PolynomialAlgebra.trimLen at h
    cases h1 : idx rem n with
    | ok x =>
      have hn : n < rem.length := by
        by_contra hc
        unfold idx at h1
        rw [List.getElem?_eq_none (not_lt.1 hc)] at h1
        cases h1
      rw [h1] at h
      change Res.bind (base.isZero x) _ = _ at h
      cases h2 : base.isZero x with
      | ok b =>
        rw [h2] at h
        cases b with
        | true => exact ih h
        | false => cases h; exact hn
      | panic => rw [h2] at h; cases h
      | diverge => rw [h2] at h; cases h
    | panic => rw [h1] at h; cases h
    | diverge => rw [h1] at h; cases h

/-- Over every base the remainder is shorter than the divisor. -/
theorem quoRem_short (base : FieldOps E) {v w q r : List E} (h : PolynomialAlgebra.quoRem base v w = .ok (q, r)) :
    r.length < w.length := by
  have hb : ∀ {α β : Type} {x : Res α} {f : α → Res β} {b : β}, (x >>= f) = .ok b → ∃ a, x = .ok a ∧ f a = .ok b := by
    intro α β x f b h
    cases x with
    | ok a => exact ⟨a, rfl, h⟩
    | panic => cases h
    | diverge => cases h
  unfold PolynomialAlgebra.quoRem at h
  obtain ⟨_, h1, h⟩ := hb h
  have hw : w ≠ [] := by
    rintro rfl
    cases h1
  by_cases hl : v.length < w.length
  · rw [if_pos hl] at h
    cases h
    exact hl
  · rw [if_neg hl] at h
    obtain ⟨_, -, h⟩ := hb h
    obtain ⟨_, -, h⟩ := hb h
    obtain ⟨_, -, h⟩ := hb h
    obtain ⟨_, -, h⟩ := hb h
    obtain ⟨p, -, h⟩ := hb h
    obtain ⟨i, h2, h⟩ := hb h
    cases h
    have := trimLen_le base _ h2
    have := List.length_pos_iff.2 hw
    rw [List.length_take]
    omega

/-- Over every base `gcd` of polynomials runs its loop at most once more than the length of its second operand. -/
theorem res_polyGcdWithin (base : FieldOps E) (n : Nat) (v w : List E) (h : w.length < n) :
    (polyGcdWithin base n v w).res = (PolynomialAlgebra.euclidean base).gcd v w := by
  induction n generalizing v w with
  | zero => omega
  | succ n ih =>
    show _ = gcdDefault (PolynomialAlgebra.euclidean base).isZero (PolynomialAlgebra.euclidean base).rem v w
    rw [gcdDefault]
    unfold polyGcdWithin
    have h0 : (PolynomialAlgebra.euclidean base).isZero w = .ok w.isEmpty := rfl
    rw [h0]
    show _ = if w.isEmpty then _ else _
    rw [res_ite]
    refine ite_congr rfl (fun _ => rfl) fun _ => ?_
    rw [res_bind, res_polyQuoRem]
    show Res.bind _ _ = Res.bind (Res.bind (PolynomialAlgebra.quoRem base v w) fun p => .ok p.2) _
    cases h1 : PolynomialAlgebra.quoRem base v w with
    | panic => rfl
    | diverge => rfl
    | ok p => exact ih _ _ (lt_of_lt_of_le (quoRem_short base (q := p.1) (r := p.2) h1) (by omega))

end polynomials

end Abstalg.Counted
