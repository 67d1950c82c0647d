import Verif.Spec.Defaults
import Verif.Spec.Simulation
import Verif.Props.InPlace
import Verif.Props.Integers
import Verif.Props.CheckedInts
import Verif.Props.Instances

/-! # Dictionaries with equal methods are equal; the loops of the default methods -/

set_option linter.unusedSectionVars false

set_option autoImplicit false

namespace Abstalg

attribute [ext] MonoidOps CommutativeMonoidOps SemiRingOps GroupOps AbelianGroupOps UnitaryRingOps
  IntegralDomainOps EuclideanDomainOps FieldOps PartialOrderOps BoundedOrderOps LatticeOps
  BooleanAlgebraOps

theorem utimes_exact_default {R : Type} [AddCommMonoid R] (n : ℕ) (x : R) :
    (do let res ← Res.ok (0 : R)
        timesLoop (fun a b => .ok (a + b)) (fun a => .ok (a + a)) n res x) = Res.ok (n • x) := by
  obtain ⟨y, h1, h2⟩ := returns_false_iff.1 (utimes_default (mp := False) (R := R) (rep := Eq)
    (zero := .ok 0) (addAssign := fun a b => .ok (a + b)) (double := fun a => .ok (a + a))
    (by exact rfl) (by rintro a b x y rfl rfl; exact rfl) (by rintro a x rfl; exact rfl) n
    (e := x) (x := x) rfl)
  rw [h1, h2]

theorem times_exact_default [Cfg] {R : Type} [AddCommGroup R] (n : ℤ) (hn : n ≠ isizeMin) (x : R) :
    powerDefault (.ok 0) (fun a b => .ok (a + b)) (fun a => .ok (a + a)) (fun a => .ok (-a)) n x =
      Res.ok (n • x) := by
  obtain ⟨y, h1, h2⟩ := returns_false_iff.1 (group_power_default (mp := False)
    (R := Multiplicative R) (rep := fun a x => a = x.toAdd)
    (one := .ok 0) (mulAssign := fun a b => .ok (a + b)) (square := fun a => .ok (a + a))
    (inv := fun a => .ok (-a))
    (by exact rfl) (by rintro a b x y rfl rfl; exact rfl) (by rintro a x rfl; exact rfl)
    (by rintro a x rfl; exact rfl) n hn (e := x) (x := Multiplicative.ofAdd x) rfl)
  rw [h1, h2]
  rfl

end Abstalg
