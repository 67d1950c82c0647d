import Verif.Proofs.ChargesPoly
import Verif.Proofs.ChargesMatrix
import Verif.Proofs.ResidueCosts

/-! # Charging residues of polynomials to the field of the coefficients -/

set_option linter.unusedSectionVars false

set_option autoImplicit false

namespace Abstalg.Stateful

open Counted (call lift)

variable {σ E F : Type} [Cfg] {acc : Account σ} {I : σ → Prop} {r : E → F → Prop}

namespace QuotientField

open PolynomialAlgebra

variable {A : FieldOps σ E} {B : Abstalg.FieldOps F} (hA : ChargesField acc I r A B)


theorem powerDefault_one (one : St σ E) (mul : E → E → St σ E) (square inv : E → St σ E) (a : E) :
    powerDefault one mul square inv 1 a = (do let res ← one; let res ← mul res a; let _ ← square a; pure res) := by
  unfold powerDefault
  rw [if_neg (by decide)]
  show St.bind one _ = St.bind one _
  refine congrArg (St.bind one) (funext fun x => ?_)
  show powerLoop mul square 1 x a = _
  rw [powerLoop, dif_pos (by decide), if_pos (by decide)]
  refine congrArg (St.bind (mul x a)) (funext fun y => congrArg (St.bind (square a)) (funext fun z => ?_))
  rw [powerLoop, dif_neg (by decide)]

include hA

section

variable {f : List E} {f' : List F} (hf : LRel r f f')

include hf

theorem charges_intOne :
    Charges acc I (LRel r) ((QuotientField.ops (PolynomialAlgebra.euclidean A) f).int 1) (Counted.residueIntOne B f') := by
  show Charges acc I (LRel r) ((PolynomialAlgebra.unitaryRing A.toUnitaryRingOps).one >>= fun x => powerDefault _ _ _ _ 1 x) _
  refine Charges.bind (charges_one hA.toChargesUnitaryRing) fun x x' hx => ?_
  rw [powerDefault_one]
  show Charges acc I (LRel r) ((QuotientField.ops (PolynomialAlgebra.euclidean A) f).add [] x >>= fun y =>
    (QuotientField.ops (PolynomialAlgebra.euclidean A) f).add x x >>= fun _ => pure y) _
  exact Charges.bind (charges_add hA hf .nil hx) fun _ _ h1 => Charges.bind (charges_add hA hf hx hx) fun _ _ _ => .ok h1

variable {d : ℕ} (hd : 1 ≤ d) (hl : f'.length = d + 1)

include hl hd

theorem charges_tower : ChargesField (acc.over (residueCost d)) I (ShortRel r d)
    (QuotientField.ops (PolynomialAlgebra.euclidean A) f)
    (Abstalg.QuotientField.ops (Abstalg.PolynomialAlgebra.euclidean B) f') := by
  have hrem : ∀ {u b : List F}, (Counted.polyRem B u f').res = .ok b → b.length ≤ d := by
    intro u b h
    have := Counted.rem_length B h
    omega
  have hone : ∀ {b : List F}, (Counted.polyOne B.toUnitaryRingOps).res = .ok b → b.length ≤ d := by
    intro b h
    rw [Counted.res_polyOne] at h
    obtain ⟨_, -, h⟩ := Counted.res_ok_of_bind h
    obtain ⟨_, -, h⟩ := Counted.res_ok_of_bind h
    obtain ⟨_, -, h⟩ := Counted.res_ok_of_bind h
    obtain ⟨_, -, h⟩ := Counted.res_ok_of_bind h
    cases h
    exact hd
  have hadd : ∀ {a b b' : List F}, (Counted.residueAdd B f' a b).res = .ok b' → b'.length ≤ d := by
    intro a b b' h
    obtain ⟨_, -, h, -⟩ := Counted.bind_ok h
    exact hrem h
  have hmul : ∀ {a b b' : List F}, (Counted.residueMul B f' a b).res = .ok b' → b'.length ≤ d := by
    intro a b b' h
    obtain ⟨_, -, h, -⟩ := Counted.bind_ok h
    exact hrem h
  have hinv : ∀ {a b' : List F}, (Counted.residueInv B f' a).res = .ok b' → b'.length ≤ d := by
    intro a b' h
    obtain ⟨_, -, h, -⟩ := Counted.bind_ok h
    obtain ⟨_, -, h, -⟩ := Counted.bind_ok h
    obtain ⟨t, -, h, -⟩ := Counted.bind_ok h
    obtain ⟨_, -, h, -⟩ := Counted.bind_ok h
    obtain ⟨_, -, h, -⟩ := Counted.bind_ok h
    exact hmul h
  have add' : ∀ (c : Call), residueCost d c = table [(.add, d), (.isZero, d), (.zero, d)] →
      ∀ {a b : List E} {a' b' : List F}, ShortRel r d a a' → ShortRel r d b b' →
      Charges (acc.over (residueCost d)) I (ShortRel r d) ((QuotientField.ops (PolynomialAlgebra.euclidean A) f).add a b)
        (call c ((Abstalg.QuotientField.ops (Abstalg.PolynomialAlgebra.euclidean B) f').add a' b')) := by
    intro c hc a b a' b' ha hb
    refine Charges.over ((charges_add hA hf ha.1 hb.1).and fun _ => hadd) (Counted.res_residueAdd B f' a' b') ?_
    rw [hc]
    exact Counted.within_residueAdd B hl ha.2 hb.2
  have mul' : ∀ (c : Call), residueCost d c = residueMulCost d →
      ∀ {a b : List E} {a' b' : List F}, ShortRel r d a a' → ShortRel r d b b' →
      Charges (acc.over (residueCost d)) I (ShortRel r d) ((QuotientField.ops (PolynomialAlgebra.euclidean A) f).mul a b)
        (call c ((Abstalg.QuotientField.ops (Abstalg.PolynomialAlgebra.euclidean B) f').mul a' b')) := by
    intro c hc a b a' b' ha hb
    refine Charges.over ((charges_mul hA hf ha.1 hb.1).and fun _ => hmul) (Counted.res_residueMul B f' a' b') ?_
    rw [hc]
    exact Counted.within_residueMul B hl ha.2 hb.2
  constructor
  case inv =>
    intro a a' ha
    exact Charges.over ((charges_inv hA hf ha.1).and fun _ => hinv) (Counted.res_residueInv B f' a') (Counted.within_residueInv B hl ha.2)
  case div =>
    intro a b a' b' ha hb
    refine Charges.over ((charges_div hA hf ha.1 hb.1).and fun _ h => ?_) (Counted.res_residueDiv B f' a' b')
      (Counted.within_residueDiv B hl ha.2 hb.2)
    obtain ⟨_, -, h, -⟩ := Counted.bind_ok h
    exact hmul h
  constructor
  case one =>
    exact Charges.over ((charges_one hA.toChargesUnitaryRing).and fun _ => hone) (Counted.res_polyOne _) (Counted.within_polyOne _)
  case intOne =>
    refine Charges.over ((charges_intOne hA hf).and fun _ h => ?_) (Counted.res_residueIntOne B f') (Counted.within_residueIntOne B hl hd)
    obtain ⟨_, -, h, -⟩ := Counted.bind_ok h
    obtain ⟨_, h1, h, -⟩ := Counted.bind_ok h
    obtain ⟨_, -, h, -⟩ := Counted.bind_ok h
    cases h
    exact hadd h1
  case mul => exact mul' .mul rfl
  case mulAssign => exact mul' .mulAssign rfl
  case square => exact fun ha => mul' .square rfl ha ha
  case tryInv =>
    intro a a' ha
    refine Charges.over (y := Counted.residueIsZero B a' >>= fun b => if b = true then pure none
      else Counted.residueInv B f' a' >>= fun x => pure (some x)) ?_ ?_ ?_
    · refine Charges.bindIf (charges_isZero (f := f) hA ha.1) (.ok .none) ?_
      exact Charges.bind ((charges_inv hA hf ha.1).and fun _ => hinv) fun _ _ h => .ok (.some h)
    · rw [Counted.res_bind]
      rw [Counted.res_residueIsZero B f']
      show Res.bind ((Abstalg.QuotientField.ops (Abstalg.PolynomialAlgebra.euclidean B) f').isZero a') _ = Res.bind
        ((Abstalg.QuotientField.ops (Abstalg.PolynomialAlgebra.euclidean B) f').isZero a') _
      refine congrArg (Res.bind _) (funext fun b => ?_)
      cases b
      · show (Counted.residueInv B f' a' >>= fun x => pure (some x)).res = _
        rw [Counted.res_bind, Counted.res_residueInv]
        rfl
      · rfl
    · refine Counted.within_mono (Counted.within_bind (m := residueInvCost d) (Counted.within_residueIsZero B) fun b _ => ?_) fun c => ?_
      · cases b
        · exact Counted.within_mono (Counted.within_bind (Counted.within_residueInv B hl ha.2) fun _ _ => (Counted.takes_pure _).1) fun c => le_rfl
        · exact fun c => Nat.zero_le _
      · show table [] c + residueInvCost d c ≤ residueInvCost d c
        simp [table]
  constructor
  case neg =>
    intro a a' ha
    refine Charges.over ((charges_neg hA hf ha.1).and fun _ h => ?_) (Counted.res_residueNeg B f' a') (Counted.within_residueNeg B hl ha.2)
    obtain ⟨_, -, h, -⟩ := Counted.bind_ok h
    exact hrem h
  case sub =>
    intro a b a' b' ha hb
    refine Charges.over ((charges_sub hA hf ha.1 hb.1).and fun _ h => ?_) (Counted.res_residueSub B f' a' b')
      (Counted.within_residueSub B hl ha.2 hb.2)
    obtain ⟨_, -, h, -⟩ := Counted.bind_ok h
    exact hadd h
  constructor
  case equals =>
    intro a b a' b' ha hb
    refine Charges.over (charges_equals hA.toChargesAbelianGroup ha.1 hb.1) (Counted.res_polyEquals _ _ _) ?_
    exact Counted.within_polyEquals _ _ _ ((min_le_left _ _).trans ha.2)
  case zero =>
    exact Charges.over (y := pure []) (.ok ⟨.nil, Nat.zero_le _⟩) rfl fun c => Nat.zero_le _
  case isZero =>
    intro a a' ha
    exact Charges.over (charges_isZero (f := f) hA ha.1) (Counted.res_residueIsZero B f' a') (Counted.within_residueIsZero B)
  case add => exact add' .add rfl
  case addAssign => exact add' .addAssign rfl
  case double => exact fun ha => add' .double rfl ha ha

end

end QuotientField

end Abstalg.Stateful
