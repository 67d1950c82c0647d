import Verif.Proofs.TermStruct
import Verif.Proofs.CheckedInts
import Verif.Proofs.Integers
import Verif.Model.ApproxFloats
import Verif.Model.CheckedUints
import Verif.Model.Naturals
import Verif.Model.Permutations
import Verif.Model.TwoElementAlgebra

/-! # Termination of the basic algebras -/

set_option autoImplicit false

namespace Abstalg

variable [Cfg]

/-- The provided methods of a Euclidean domain stop if the remainders decrease in some measure. -/
theorem StopsEuclideanDomain.of_size {E : Type} {A : IntegralDomainOps E} (h : StopsIntegralDomain A)
    {quoRem : E → E → Res (E × E)} {reduced : E → E → Res Bool} (h1 : ∀ a b, Stops (quoRem a b))
    (h5 : ∀ a b, Stops (reduced a b)) (size : E → ℕ)
    (h2 : ∀ a b q r, A.isZero b = .ok false → quoRem a b = .ok (q, r) →
      A.isZero r ≠ .ok false ∨ size r < size b) :
    StopsEuclideanDomain { toIntegralDomainOps := A, quoRem := quoRem, reduced := reduced } := by
  have h3 : ∀ a b, Stops (quoRem a b >>= fun p => pure p.1) := fun a b =>
    Stops.bind (h1 a b) fun _ => .pure _
  have h4 : ∀ a b, Stops (quoRem a b >>= fun p => pure p.2) := fun a b =>
    Stops.bind (h1 a b) fun _ => .pure _
  have h6 := Stops.gcdDefault size h.isZero h4 fun a b r hb hr => by
    obtain ⟨⟨q, s⟩, hs, hr⟩ := ok_of_bind hr
    cases hr
    exact h2 a b q _ hb hs
  exact { h with
    quoRem := h1
    quo := h3
    rem := h4
    reduced := h5
    gcd := h6
    lcm := fun a b => by
      refine Stops.bind (h6 _ _) fun g => Stops.bind (h.isZero _) fun b => ?_
      split
      · exact .pure _
      · exact Stops.bind (h3 _ _) fun _ => h.mul _ _
    extendedGcd := Stops.extendedGcdDefault size h.isZero h1 h.one h.zero h.sub h.mul h2
    relativePrimes := fun a b => Stops.bind (h6 a b) fun _ => h.invertible _ }

theorem Integers.stops_integralDomain : StopsIntegralDomain Integers.integralDomain := by
  stops_fields <;> dsimp only [integralDomain, unitaryRing, domain, invertible] <;> stops ()

theorem Integers.stops_euclidean : StopsEuclideanDomain Integers.euclidean := by
  refine .of_size stops_integralDomain ?_ ?_ Int.natAbs ?_
  · intro a b; stops ()
  · intro a b; stops ()
  · intro a b q r hb hr
    have hb : b ≠ 0 := by rintro rfl; cases hb
    have hr := (quoRem_eq a b hb).symm.trans hr
    cases hr
    have h1 := Int.emod_nonneg a hb
    have h2 := Int.emod_lt_abs a hb
    rw [Int.abs_eq_natAbs] at h2
    omega

omit [Cfg] in
theorem Integers.stops_lattice : StopsLattice Integers.lattice := by
  stops_fields <;> dsimp only [lattice, domain] <;> stops ()

theorem Stops.raw {w : ℕ} [Width w] (x : ℤ) : Stops (SInt.raw (w := w) x) := by
  unfold SInt.raw; stops ()

theorem CheckedInts.stops_integralDomain (w : ℕ) [Width w] :
    StopsIntegralDomain (CheckedInts.integralDomain w) := by
  stops_fields <;> dsimp only [integralDomain, unitaryRing, domain, invertible] <;> stops () <;>
    exact Stops.raw _

theorem CheckedInts.stops_euclidean (w : ℕ) [Width w] :
    StopsEuclideanDomain (CheckedInts.euclidean w) := by
  refine .of_size (stops_integralDomain w) ?_ ?_ (fun a => a.1.natAbs) ?_
  · intro a b; stops () <;> exact Stops.raw _
  · intro a b; stops (); exact Stops.raw _
  · intro a b q r hb hr
    by_cases hbad : Bad w a b
    · cases (quoRem_bad w a b hbad).symm.trans hr
    have hb : b.1 ≠ 0 := by
      intro h
      cases (quoRem_zero w a b h).symm.trans hr
    have hr := (quoRem_eq w a b hb hbad).symm.trans hr
    cases hr
    have h1 := Int.emod_nonneg a.1 hb
    have h2 := Int.emod_lt_abs a.1 hb
    rw [Int.abs_eq_natAbs] at h2
    refine .inr ?_
    show (a.1 % b.1).natAbs < _
    omega

omit [Cfg] in
theorem CheckedInts.stops_lattice (w : ℕ) : StopsLattice (CheckedInts.lattice w) := by
  stops_fields <;> dsimp only [lattice, domain] <;> stops ()

omit [Cfg] in
theorem CheckedUints.stops_semiRing (w : ℕ) [UWidth w] : StopsSemiRing (CheckedUints.semiRing w) := by
  stops_fields <;> dsimp only [semiRing, domain] <;> stops ()

omit [Cfg] in
theorem CheckedUints.stops_lattice (w : ℕ) : StopsLattice (CheckedUints.lattice w) := by
  stops_fields <;> dsimp only [lattice, domain] <;> stops ()

omit [Cfg] in
theorem Naturals.stops_semiRing : StopsSemiRing Naturals.semiRing := by
  stops_fields <;> dsimp only [semiRing, domain] <;> stops ()

omit [Cfg] in
theorem Naturals.stops_lattice : StopsLattice Naturals.lattice := by
  stops_fields <;> dsimp only [lattice, domain] <;> stops ()

theorem TwoElementAlgebra.stops_field : StopsField TwoElementAlgebra.field := by
  stops_fields <;> dsimp only [field, domain] <;> stops ()

omit [Cfg] in
theorem TwoElementAlgebra.stops_booleanAlgebra : StopsBooleanAlgebra TwoElementAlgebra.booleanAlgebra := by
  stops_fields <;> dsimp only [booleanAlgebra, domain] <;> stops ()

theorem ApproxFloats.stops_field (F : FloatFormat) : StopsField (ApproxFloats.field F) := by
  stops_fields <;> dsimp only [field, domain, div, checked] <;> stops ()

omit [Cfg] in
theorem ApproxFloats.stops_lattice (F : FloatFormat) (pick : F.Val → F.Val → Bool) :
    StopsLattice (ApproxFloats.lattice F pick) := by
  stops_fields <;> dsimp only [lattice, domain] <;> stops ()

omit [Cfg] in
theorem Permutations.stops_containsLoop (l : List UInt32) (used : List Bool) :
    Stops (containsLoop l used) := by
  induction l generalizing used with
  | nil => exact .ok _
  | cons a l ih => unfold containsLoop; stops (); exact ih _

theorem Permutations.stops_ops (n : UInt32) : StopsGroup (Permutations.ops n) := by
  stops_fields <;> dsimp only [ops, domain, checkLen] <;> stops ()
  exact stops_containsLoop _ _

end Abstalg
