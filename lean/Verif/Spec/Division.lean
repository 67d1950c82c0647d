import Verif.Spec.Contracts

/-!
# Specification: the division contract

What an implementor of `trait EuclideanDomain` has to supply.  The remainder need not be
canonical; it only has to be smaller than the divisor with respect to some well-founded
relation, as for example the absolute value or the degree.
-/

set_option autoImplicit false

universe u

namespace Abstalg

/-- Contract of `EuclideanDomain::quo_rem`. -/
structure DivisionSpec {E : Type} {R : Type u} [CommRing R] (mp : Prop) (quoRem : E → E → Res (E × E))
    (rep : E → R → Prop) (lt : R → R → Prop) : Prop where
  /-- no infinite descent -/
  wf : WellFounded lt
  /-- a non-zero multiple is not smaller -/
  not_lt : ∀ {y b : R}, y ≠ 0 → b ≠ 0 → ¬ lt (y * b) y
  quoRem : ∀ {a b x y}, rep a x → rep b y → y ≠ 0 → Returns mp (quoRem a b) fun p =>
    ∃ q r, rep p.1 q ∧ rep p.2 r ∧ x = y * q + r ∧ lt r y

/-- The dictionary of a type that implements `quo_rem` and inherits all other methods of
`trait EuclideanDomain` (as `ZZ` and the polynomials do, `reduced` aside). -/
def inheritEuclidean [Cfg] {E : Type} (I : IntegralDomainOps E) (quoRem : E → E → Res (E × E)) :
    EuclideanDomainOps E :=
  { toIntegralDomainOps := I, quoRem := quoRem }

/-- A type that implements the required methods of `trait Group` and inherits `power`. -/
def inheritPower [Cfg] {E : Type} (M : MonoidOps E) (inv : E → Res E) : GroupOps E :=
  { toMonoidOps := M, inv := inv }

/-- A type that inherits both `inv` and `power`. -/
def inheritGroup [Cfg] {E : Type} (M : MonoidOps E) : GroupOps E := { toMonoidOps := M }

end Abstalg
