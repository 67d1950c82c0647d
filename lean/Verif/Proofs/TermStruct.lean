import Verif.Proofs.Termination
import Verif.Model.VectorAlgebra
import Verif.Model.MatrixRing
import Verif.Model.PolynomialAlgebra
import Verif.Model.QuotientRing
import Verif.Model.QuotientField
import Verif.Model.ReducedFractions
import Verif.Model.AdditiveGroup
import Verif.Model.MultiplicativeGroup
import Verif.Model.DivisibilityOrder

/-! # Termination of the structures built on others -/

set_option autoImplicit false

namespace Abstalg

variable [Cfg] {E : Type}

namespace VectorAlgebra

variable (len : ℕ)

omit [Cfg] in
theorem stops_zipMap {F : Type} {f : E → E → Res F} (h : ∀ a b, Stops (f a b)) (a b : List E) :
    Stops (zipMap len f a b) := by
  unfold zipMap; stops h

omit [Cfg] in
theorem stops_zipAll {p : E → E → Res Bool} (h : ∀ a b, Stops (p a b)) (a b : List E) :
    Stops (zipAll len p a b) := by
  unfold zipAll; stops h

omit [Cfg] in
theorem stops_zipEach {f : E → E → Res E} (h : ∀ a b, Stops (f a b)) (a b : List E) :
    Stops (zipEach len f a b) := by
  unfold zipEach; stops h

omit [Cfg] in
theorem stops_mapEach {f : E → Res E} (h : ∀ a, Stops (f a)) (a : List E) :
    Stops (mapEach len f a) := by
  unfold mapEach; stops h

omit [Cfg] in
theorem stops_allEach {p : E → Res Bool} (h : ∀ a, Stops (p a)) (a : List E) :
    Stops (allEach len p a) := by
  unfold allEach; stops h

omit [Cfg] in
theorem stops_tryInvLoop {f : E → Res (Option E)} (h : ∀ a, Stops (f a)) (l v : List E) :
    Stops (tryInvLoop f l v) := by
  induction l generalizing v with
  | nil => exact .ok _
  | cons x l ih => unfold tryInvLoop; stops h; exact ih _

omit [Cfg] in
theorem stops_domain {base : DomainOps E} (h : StopsDomain base) : StopsDomain (domain len base) where
  contains v := by dsimp only [domain]; stops h
  equals v w := stops_zipAll _ h.equals _ _

omit [Cfg] in
theorem stops_semigroup {base : SemigroupOps E} (h : StopsSemigroup base) :
    StopsSemigroup (semigroup len base) where
  toStopsDomain := stops_domain _ h.toStopsDomain
  mul := stops_zipMap _ h.mul
  mulAssign := stops_zipEach _ h.mulAssign
  square := stops_mapEach _ h.square

omit [Cfg] in
theorem stops_monoid {base : MonoidOps E} (h : StopsMonoid base) : StopsMonoid (monoid len base) where
  toStopsSemigroup := stops_semigroup _ h.toStopsSemigroup
  one := by dsimp only [monoid]; stops h
  isOne := stops_allEach _ h.isOne
  tryInv v := Stops.bind (.assert _) fun _ => stops_tryInvLoop h.tryInv _ _
  invertible := stops_allEach _ h.invertible

theorem stops_group {base : GroupOps E} (h : StopsGroup base) : StopsGroup (group len base) where
  toStopsMonoid := stops_monoid _ h.toStopsMonoid
  inv := stops_mapEach _ h.inv
  power := Stops.powerDefault (stops_monoid len h.toStopsMonoid).one
    (stops_monoid len h.toStopsMonoid).mulAssign (stops_monoid len h.toStopsMonoid).square
    (stops_mapEach _ h.inv)

omit [Cfg] in
theorem stops_commutativeMonoid {base : CommutativeMonoidOps E} (h : StopsCommutativeMonoid base) :
    StopsCommutativeMonoid (commutativeMonoid len base) where
  toStopsDomain := stops_domain _ h.toStopsDomain
  zero := by dsimp only [commutativeMonoid]; stops h
  isZero := stops_allEach _ h.isZero
  add := stops_zipMap _ h.add
  addAssign := stops_zipEach _ h.addAssign
  double := stops_mapEach _ h.double
  utimes n v := Stops.bind (Stops.bind h.zero fun _ => .pure _) fun _ =>
    Stops.timesLoop (stops_zipEach _ h.addAssign) (stops_mapEach _ h.double) _ _ _

theorem stops_abelianGroup {base : AbelianGroupOps E} (h : StopsAbelianGroup base) :
    StopsAbelianGroup (abelianGroup len base) where
  toStopsCommutativeMonoid := stops_commutativeMonoid _ h.toStopsCommutativeMonoid
  neg := stops_mapEach _ h.neg
  negAssign := stops_mapEach _ h.negAssign
  sub := stops_zipMap _ h.sub
  subAssign := stops_zipEach _ h.subAssign
  times := Stops.powerDefault (stops_commutativeMonoid len h.toStopsCommutativeMonoid).zero
    (stops_zipEach _ h.addAssign) (stops_mapEach _ h.double) (stops_mapEach _ h.neg)

omit [Cfg] in
theorem stops_semiRing {base : SemiRingOps E} (h : StopsSemiRing base) :
    StopsSemiRing (semiRing len base) where
  toStopsCommutativeMonoid := stops_commutativeMonoid len h.toStopsCommutativeMonoid
  __ := stops_monoid len h.toStopsMonoid

theorem stops_unitaryRing {base : UnitaryRingOps E} (h : StopsUnitaryRing base) :
    StopsUnitaryRing (unitaryRing len base) where
  toStopsSemiRing := stops_semiRing len h.toStopsSemiRing
  __ := stops_abelianGroup len h.toStopsAbelianGroup
  int n := by dsimp only [unitaryRing]; stops h

omit [Cfg] in
theorem stops_partialOrder {base : PartialOrderOps E} (h : StopsPartialOrder base) :
    StopsPartialOrder (partialOrder len base) where
  toStopsDomain := stops_domain len h.toStopsDomain
  leq := stops_zipAll _ h.leq
  lessThan v w := by
    refine Stops.bind (stops_zipAll _ h.equals _ _) fun b => ?_
    split
    · exact stops_zipAll _ h.leq _ _
    · exact .pure _
  comparable v w := by
    refine Stops.bind (stops_zipAll _ h.leq _ _) fun b => ?_
    split
    · exact .pure _
    · exact stops_zipAll _ h.leq _ _

omit [Cfg] in
theorem stops_boundedOrder {base : BoundedOrderOps E} (h : StopsBoundedOrder base) :
    StopsBoundedOrder (boundedOrder len base) where
  toStopsPartialOrder := stops_partialOrder len h.toStopsPartialOrder
  max := by dsimp only [boundedOrder]; stops h
  min := by dsimp only [boundedOrder]; stops h

omit [Cfg] in
theorem stops_lattice {base : LatticeOps E} (h : StopsLattice base) :
    StopsLattice (lattice len base) where
  toStopsPartialOrder := stops_partialOrder len h.toStopsPartialOrder
  meet := stops_zipMap _ h.meet
  join := stops_zipMap _ h.join

omit [Cfg] in
theorem stops_booleanAlgebra {base : BooleanAlgebraOps E} (h : StopsBooleanAlgebra base) :
    StopsBooleanAlgebra (booleanAlgebra len base) where
  toStopsLattice := stops_lattice len h.toStopsLattice
  __ := stops_boundedOrder len h.toStopsBoundedOrder
  not := stops_mapEach _ h.not

end VectorAlgebra

namespace PolynomialAlgebra

theorem stops_timesTrim {base : AbelianGroupOps E} (h : StopsAbelianGroup base) (v : List E) (n : ℕ) :
    Stops (timesTrim base v n) := by
  induction n with
  | zero => exact .ok _
  | succ n ih => unfold timesTrim; stops h

theorem stops_add {base : AbelianGroupOps E} (h : StopsAbelianGroup base) (v w : List E) :
    Stops (add base v w) := by
  unfold add; stops h

theorem stops_domain {base : AbelianGroupOps E} (h : StopsAbelianGroup base) :
    StopsDomain (domain base) where
  contains v := by dsimp only [domain]; stops h
  equals v w := by dsimp only [domain]; stops h

theorem stops_abelianGroup {base : AbelianGroupOps E} (h : StopsAbelianGroup base) :
    StopsAbelianGroup (abelianGroup base) := by
  have h1 := stops_add h
  have h2 := stops_timesTrim h
  stops_fields
  case contains => exact (stops_domain h).contains _
  case equals => exact (stops_domain h).equals _ _
  all_goals dsimp only [abelianGroup]; stops h <;> first | exact h1 _ _ | exact h2 _ _

theorem stops_mul {base : UnitaryRingOps E} (h : StopsUnitaryRing base) (v w : List E) :
    Stops (mul base v w) := by
  unfold mul; stops h

theorem stops_unitaryRing {base : UnitaryRingOps E} (h : StopsUnitaryRing base) :
    StopsUnitaryRing (unitaryRing base) := by
  have h1 := stops_abelianGroup h.toStopsAbelianGroup
  have h2 := stops_mul h
  exact { h1 with
    mul := h2
    mulAssign := h2
    square := fun v => h2 v v
    one := by dsimp only [unitaryRing]; stops h
    isOne := by intro v; dsimp only [unitaryRing]; stops h
    tryInv := by intro v; dsimp only [unitaryRing]; stops h
    invertible := by intro v; dsimp only [unitaryRing]; stops h
    int := by intro n; dsimp only [unitaryRing]; stops h; exact h1.times _ _ }

theorem stops_tryDivLoop {base : IntegralDomainOps E} (h : StopsIntegralDomain base) (w : List E) (a : E)
    (n : ℕ) (q r : List E) : Stops (tryDivLoop base w a n q r) := by
  induction n generalizing q r with
  | zero => exact .ok _
  | succ n ih => unfold tryDivLoop; stops h; exact ih _ _

theorem stops_tryDiv {base : IntegralDomainOps E} (h : StopsIntegralDomain base) (v w : List E) :
    Stops (tryDiv base v w) := by
  unfold tryDiv; stops h; exact stops_tryDivLoop h _ _ _ _ _

theorem stops_integralDomain {base : IntegralDomainOps E} (h : StopsIntegralDomain base) :
    StopsIntegralDomain (integralDomain base) := by
  have h1 := stops_unitaryRing h.toStopsUnitaryRing
  have h2 := stops_tryDiv h
  have h3 : ∀ v w, Stops ((integralDomain base).divisible v w) := by
    intro v w; dsimp only [integralDomain]; stops h1; exact h2 _ _
  exact { h1 with
    tryDiv := h2
    divisible := h3
    associates := fun v w => by
      refine Stops.bind (h3 v w) fun b => ?_
      split
      · exact h3 w v
      · exact .pure _
    associateRepr := by intro v; dsimp only [integralDomain]; stops h
    associateCoef := by intro v; dsimp only [integralDomain]; stops h }

end PolynomialAlgebra

/-- The blanket implementation stops up to `extended_gcd`, which needs that zero is not found to differ
from zero. -/
theorem FieldOps.stops_toIntegralDomain {A : FieldOps E} (h : StopsField A) :
    StopsIntegralDomain A.toIntegralDomain := by
  have h3 : ∀ v w, Stops (A.toIntegralDomain.divisible v w) := by
    intro v w; dsimp only [toIntegralDomain]; stops h
  exact { h.toStopsUnitaryRing with
    tryDiv := by intro v w; dsimp only [toIntegralDomain]; stops h
    divisible := h3
    associates := fun v w => by
      refine Stops.bind (h3 v w) fun b => ?_
      split
      · exact h3 w v
      · exact .pure _
    associateRepr := by intro v; dsimp only [toIntegralDomain]; stops h
    associateCoef := by intro v; dsimp only [toIntegralDomain]; stops h }

theorem FieldOps.stops_toEuclidean {A : FieldOps E} (h : StopsField A)
    (h0 : ∀ z, A.zero = .ok z → A.isZero z ≠ .ok false) : StopsEuclideanDomain A.toEuclidean := by
  have h1 : ∀ v w, Stops (A.toEuclidean.quoRem v w) := by
    intro v w; dsimp only [toEuclidean]; stops h
  have h2 : ∀ v w, Stops (A.toEuclidean.gcd v w) := by
    intro v w; dsimp only [toEuclidean]; stops h
  exact { stops_toIntegralDomain h with
    quoRem := h1
    quo := by intro v w; dsimp only [toEuclidean]; stops h
    rem := by intro v w; dsimp only [toEuclidean]; stops h
    reduced := by intro v w; dsimp only [toEuclidean]; stops h
    gcd := h2
    lcm := by intro v w; dsimp only [toEuclidean]; stops h
    extendedGcd := Stops.extendedGcdDefault (fun _ => 0) h.isZero h1 h.one h.zero h.sub h.mul
      fun a b q r _ hr => .inl <| by
        obtain ⟨_, _, hr⟩ := ok_of_bind hr
        obtain ⟨_, _, hr⟩ := ok_of_bind hr
        obtain ⟨_, _, hr⟩ := ok_of_bind hr
        obtain ⟨z, hz, hr⟩ := ok_of_bind hr
        cases hr
        exact h0 _ hz
    relativePrimes := fun a b => Stops.bind (h2 a b) fun _ => h.invertible _ }

namespace PolynomialAlgebra

theorem stops_quoRemLoop {base : FieldOps E} (h : StopsField base) (w : List E) (a : E)
    (n : ℕ) (q r : List E) : Stops (quoRemLoop base w a n q r) := by
  induction n generalizing q r with
  | zero => exact .ok _
  | succ n ih => unfold quoRemLoop; stops h; exact ih _ _

theorem stops_trimLen {base : FieldOps E} (h : StopsField base) (r : List E) (n : ℕ) :
    Stops (trimLen base r n) := by
  induction n with
  | zero => exact .ok _
  | succ n ih => unfold trimLen; stops h

theorem stops_quoRem {base : FieldOps E} (h : StopsField base) (v w : List E) :
    Stops (quoRem base v w) := by
  unfold quoRem; stops h
  · exact stops_quoRemLoop h _ _ _ _ _
  · exact stops_trimLen h _ _

theorem trimLen_le {base : FieldOps E} (r : List E) (n i : ℕ) (h : trimLen base r n = .ok i) : i ≤ n := by
  induction n with
  | zero => cases h; exact le_rfl
  | succ n ih =>
    unfold trimLen at h
    obtain ⟨_, _, h⟩ := ok_of_bind h
    obtain ⟨b, _, h⟩ := ok_of_bind h
    cases b with
    | true => exact (ih h).trans (Nat.le_succ n)
    | false => cases h; exact le_rfl

/-- The remainder is shorter than the divisor, over any implementation of the base. -/
theorem quoRem_shorter {base : FieldOps E} {v w q r : List E} (h : quoRem base v w = .ok (q, r)) :
    r.length < w.length := by
  unfold quoRem at h
  obtain ⟨_, hw, h⟩ := ok_of_bind h
  have hw : w ≠ [] := by
    rintro rfl
    cases hw
  have hw := List.length_pos_iff.2 hw
  split at h
  · cases h; assumption
  · obtain ⟨_, _, h⟩ := ok_of_bind h
    obtain ⟨_, _, h⟩ := ok_of_bind h
    obtain ⟨_, _, h⟩ := ok_of_bind h
    obtain ⟨_, _, h⟩ := ok_of_bind h
    obtain ⟨⟨_, s⟩, _, h⟩ := ok_of_bind h
    obtain ⟨i, hi, h⟩ := ok_of_bind h
    have := trimLen_le _ _ _ hi
    cases h
    rw [List.length_take]
    omega

theorem stops_euclidean {base : FieldOps E} (h : StopsField base) :
    StopsEuclideanDomain (euclidean base) := by
  have h0 := stops_integralDomain (FieldOps.stops_toIntegralDomain h)
  have h1 := stops_quoRem h
  have h2 : ∀ v w, Stops ((euclidean base).quo v w) := fun v w => Stops.bind (h1 v w) fun _ => .pure _
  have h3 : ∀ v w, Stops ((euclidean base).rem v w) := fun v w => Stops.bind (h1 v w) fun _ => .pure _
  have h4 : ∀ v w, Stops ((euclidean base).gcd v w) :=
    Stops.gcdDefault List.length h0.isZero h3 fun a b r _ hr => .inr <| by
      obtain ⟨⟨q, s⟩, hs, hr⟩ := ok_of_bind hr
      cases hr
      exact quoRem_shorter hs
  exact { h0 with
    quoRem := h1
    quo := h2
    rem := h3
    reduced := by
      intro v w; refine Stops.bind (h0.isZero _) fun b => ?_
      split
      · exact .pure _
      · exact Stops.bind (h2 _ _) fun _ => h0.isZero _
    gcd := h4
    lcm := by
      intro v w; refine Stops.bind (h4 _ _) fun g => Stops.bind (h0.isZero _) fun b => ?_
      split
      · exact .pure _
      · exact Stops.bind (h2 _ _) fun _ => h0.mul _ _
    extendedGcd := Stops.extendedGcdDefault List.length h0.isZero h1 h0.one h0.zero h0.sub h0.mul
      fun a b q r _ hr => .inr (quoRem_shorter hr)
    relativePrimes := fun a b => Stops.bind (h4 a b) fun _ => h0.invertible _ }

end PolynomialAlgebra

theorem AdditiveGroup.stops_ops {base : AbelianGroupOps E} (h : StopsAbelianGroup base) :
    StopsGroup (AdditiveGroup.ops base) := by
  stops_fields <;> dsimp only [ops] <;> stops h

theorem MultiplicativeGroup.stops_ops {base : MonoidOps E} (h : StopsMonoid base) :
    StopsGroup (MultiplicativeGroup.ops base) := by
  stops_fields <;> dsimp only [ops] <;> stops h

theorem DivisibilityOrder.stops_boundedOrder {base : IntegralDomainOps E} (h : StopsIntegralDomain base) :
    StopsBoundedOrder (boundedOrder base) := by
  stops_fields <;> dsimp only [boundedOrder, domain] <;> stops h

theorem DivisibilityOrder.stops_lattice {base : EuclideanDomainOps E} (h : StopsEuclideanDomain base) :
    StopsLattice (lattice base) := by
  stops_fields <;> dsimp only [lattice, boundedOrder, domain] <;> stops h

theorem QuotientRing.stops_ops {base : EuclideanDomainOps E} (h : StopsEuclideanDomain base) (m : E) :
    StopsUnitaryRing (QuotientRing.ops base m) := by
  stops_fields <;> dsimp only [ops, domain, mul] <;> stops h

theorem QuotientField.stops_ops {base : EuclideanDomainOps E} (h : StopsEuclideanDomain base) (m : E) :
    StopsField (QuotientField.ops base m) := by
  have h1 : ∀ a, Stops (inv base m a) := by
    intro a; dsimp only [inv, isZero, domain, mul]; stops h
  stops_fields <;> dsimp only [ops, isZero, domain, mul] <;> stops h <;> exact h1 _

theorem ReducedFractions.stops_ops {base : EuclideanDomainOps E} (h : StopsEuclideanDomain base) :
    StopsField (ReducedFractions.ops base) := by
  stops_fields <;> dsimp only [ops, domain, invertible, reduce] <;> stops h

namespace MatrixRing

variable {base : FieldOps E} (h : StopsField base) (size : ℕ)
include h

omit h in
omit [Cfg] in
theorem stops_transpose (v : List E) : Stops (transpose size v) := by
  unfold transpose; stops ()

omit h in
omit [Cfg] in
theorem stops_swapRows (v : List E) (i j : ℕ) : Stops (swapRows size v i j) := by
  unfold swapRows; stops ()

theorem stops_mulRow (v : List E) (i : ℕ) (c : E) : Stops (mulRow base size v i c) := by
  unfold mulRow; stops h

theorem stops_addRows (v : List E) (i j : ℕ) (c : E) : Stops (addRows base size v i j c) := by
  unfold addRows; stops h

theorem stops_findRow (v : List E) (i : ℕ) : Stops (findRow base size v i) := by
  unfold findRow; stops h

theorem stops_detClear (v : List E) (i : ℕ) : Stops (detClear base size v i) := by
  unfold detClear; stops h; exact stops_addRows h _ _ _ _ _

theorem stops_detLoop (l : List ℕ) (v : List E) (d : E) : Stops (detLoop base size l v d) := by
  induction l generalizing v d with
  | nil => exact .ok _
  | cons i l ih =>
    unfold detLoop; stops h
    all_goals first
      | exact stops_findRow h _ _ _ | exact stops_swapRows _ _ _ _ | exact stops_mulRow h _ _ _ _
      | exact stops_detClear h _ _ _ | exact ih _ _

theorem stops_determinant (v : List E) : Stops (determinant base size v) :=
  Stops.bind h.one fun _ => stops_detLoop h _ _ _ _

theorem stops_domain : StopsDomain (domain base size) := by
  stops_fields <;> dsimp only [domain] <;> stops h

theorem stops_mul (v w : List E) : Stops (mul base size v w) := by
  unfold mul; stops h; exact stops_transpose _ _

theorem stops_int (n : ℤ) : Stops (int base size n) := by
  unfold int
  refine Stops.bind (h.int _) fun _ => Stops.bind ?_ fun _ => ?_
  · exact (VectorAlgebra.stops_commutativeMonoid _ h.toStopsCommutativeMonoid).zero
  · stops h

theorem stops_invClear (v w : List E) (i : ℕ) : Stops (invClear base size v w i) := by
  unfold invClear; stops h <;> exact stops_addRows h _ _ _ _ _

theorem stops_invLoop (l : List ℕ) (v w : List E) : Stops (invLoop base size l v w) := by
  induction l generalizing v w with
  | nil => exact .ok _
  | cons i l ih =>
    unfold invLoop; stops h
    all_goals first
      | exact stops_findRow h _ _ _ | exact stops_swapRows _ _ _ _ | exact stops_mulRow h _ _ _ _
      | exact stops_invClear h _ _ _ _ | exact ih _ _

theorem stops_isOne (v : List E) : Stops (isOne base size v) :=
  Stops.bind (stops_int h _ _) fun _ => (stops_domain h _).equals _ _

theorem stops_tryInv (v : List E) : Stops (tryInv base size v) := by
  unfold tryInv; stops h
  · exact stops_int h _ _
  · exact stops_invLoop h _ _ _ _
  · exact stops_isOne h _ _

theorem stops_ops : StopsUnitaryRing (ops base size) := by
  have h1 := VectorAlgebra.stops_abelianGroup (size * size) h.toStopsAbelianGroup
  have h2 := stops_mul h size
  exact { h1, stops_domain h size with
    mul := h2
    mulAssign := h2
    square := fun v => h2 v v
    one := stops_int h _ _
    isOne := stops_isOne h _
    tryInv := stops_tryInv h _
    invertible := fun v => Stops.bind (stops_determinant h _ _) fun _ =>
      Stops.bind (h.isZero _) fun _ => .pure _
    int := stops_int h _ }

end MatrixRing

end Abstalg
