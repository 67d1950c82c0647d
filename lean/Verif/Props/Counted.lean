import Verif.Proofs.CountedTakes
import Verif.Model.Integers
import Verif.Model.TwoElementAlgebra
import Mathlib.Tactic.FinCases

/-! # Numbers of calls of the base: C93 -/

set_option autoImplicit false

namespace Abstalg

open Counted

variable {E : Type}

/-- C93: the counted methods have the outcomes of the methods: multiples, powers, and coordinate-wise methods. -/
theorem C93_outcomes [Cfg] (A : CommutativeMonoidOps E) (G : GroupOps E) (n len : ℕ) (z : ℤ) (c : Call) (f : E → E → Res E)
    (g : E → Res E) (a : E) (v w : List E) :
    (utimes A n a).res = (do let res ← A.zero; Abstalg.timesLoop A.addAssign A.double n res a) ∧
    (Counted.power G z a).res = powerDefault G.one G.mulAssign G.square G.inv z a ∧
    (Counted.zipMap len c f v w).res = VectorAlgebra.zipMap len f v w ∧
    (Counted.zipEach len c f v w).res = VectorAlgebra.zipEach len f v w ∧
    (Counted.mapEach len c g v).res = VectorAlgebra.mapEach len g v :=
  ⟨res_utimes A n a, res_power G z a, res_zipMap len c f v w, res_zipEach len c f v w, res_mapEach len c g v⟩

/-- C93: matrices. -/
theorem C93_outcomes_matrices [Cfg] (base : FieldOps E) (n : ℕ) (v w : List E) :
    (matMul base n v w).res = (MatrixRing.ops base n).mul v w ∧
    (Counted.determinant base n v).res = MatrixRing.determinant base n v ∧
    (matTryInv base n v).res = (MatrixRing.ops base n).tryInv v :=
  ⟨res_matMul base n v w, res_determinant base n v, res_matTryInv base n v⟩

/-- C93: polynomials. -/
theorem C93_outcomes_polynomials [Cfg] (G : AbelianGroupOps E) (R : UnitaryRingOps E) (D : IntegralDomainOps E) (F : FieldOps E)
    (v w : List E) :
    (polyAdd G v w).res = (PolynomialAlgebra.abelianGroup G).add v w ∧
    (polyMul R v w).res = (PolynomialAlgebra.unitaryRing R).mul v w ∧
    (polyTryDiv D v w).res = (PolynomialAlgebra.integralDomain D).tryDiv v w ∧
    (polyQuoRem F v w).res = (PolynomialAlgebra.euclidean F).quoRem v w ∧
    (polyGcdWithin F (w.length + 1) v w).res = (PolynomialAlgebra.euclidean F).gcd v w :=
  ⟨res_polyAdd G v w, res_polyMul R v w, res_polyTryDiv D v w, res_polyQuoRem F v w,
    res_polyGcdWithin F _ v w (Nat.lt_succ_self _)⟩

/-! ## Multiples and powers -/

/-- C93: a multiple takes one call of `double` for every binary digit of the multiplier, and one of `add_assign`
for every digit one. -/
theorem C93_times (A : CommutativeMonoidOps E) (n : ℕ) (a : E) :
    Takes (utimes A n a) (table [(.zero, 1), (.addAssign, n.bits.count true), (.double, n.bits.length)]) := by
  refine takes_of_eq (takes_bind (takes_call _ _) fun z _ => takes_timesLoop A n z a) ?_
  funext c
  cases c <;> simp [table, once]

example : (10 : ℕ).bits.count true = 2 ∧ (10 : ℕ).bits.length = 4 := by decide

/-- C93: a power takes one call of `square` for every binary digit of the exponent, one of `mul_assign` for every
digit one, and one of `inv` if the exponent is negative. -/
theorem C93_power [Cfg] (G : GroupOps E) (z : ℤ) (hz : isizeMin < z) (a : E) :
    Takes (Counted.power G z a) (table [(.one, 1), (.inv, if z < 0 then 1 else 0),
      (.mulAssign, z.natAbs.bits.count true), (.square, z.natAbs.bits.length)]) := by
  unfold Counted.power
  have key : ∀ (n : ℕ) (e : E), Takes (do Counted.powerLoop G (n : ℤ) (← call .one G.one) e)
      (once .one + (n.bits.count true • once .mulAssign + n.bits.length • once .square)) := fun n e =>
    takes_bind (takes_call _ _) fun _ _ => takes_powerLoop G n _ e
  by_cases h : z < 0
  · rw [if_pos h, if_pos h]
    have h1 : isizeNeg z = .ok ((z.natAbs : ℕ) : ℤ) := by
      unfold isizeNeg
      rw [if_neg (by omega)]
      congr 1
      omega
    rw [h1]
    refine takes_of_eq (takes_bind (takes_lift _) fun m hm => takes_bind (takes_call _ _) fun e _ =>
      takes_bind (takes_pure _) fun p hp => (show Takes _ (once .one + (z.natAbs.bits.count true • once .mulAssign +
        z.natAbs.bits.length • once .square)) from ?_)) ?_
    · cases hm
      cases hp
      exact key _ _
    · funext c
      cases c <;> simp [table, once]
  · rw [if_neg h, if_neg h]
    refine takes_of_eq (takes_bind (takes_pure _) fun p hp => (show Takes _ (once .one + (z.natAbs.bits.count true • once .mulAssign +
        z.natAbs.bits.length • once .square)) from ?_)) ?_
    · cases hp
      have h1 : z = ((z.natAbs : ℕ) : ℤ) := by omega
      conv => arg 1; rw [h1]
      exact key _ _
    · funext c
      cases c <;> simp [table, once]

example : (-10 : ℤ).natAbs.bits.count true = 2 ∧ (-10 : ℤ).natAbs.bits.length = 4 := by decide

/-- C93: the coordinate-wise methods call the method of the base once per coordinate, after a test of the lengths
(`add`, `sub`, `mul`; the in-place ones; those with one operand). -/
theorem C93_vectors (n : ℕ) (c : Call) (f : E → E → Res E) (g : E → Res E) (v w : List E) :
    Takes (Counted.zipMap n c f v w) (table [(c, if v.length = n ∧ w.length = n then n else 0)]) ∧
    Takes (Counted.zipEach n c f v w) (table [(c, if v.length = n ∧ w.length = n then n else 0)]) ∧
    Takes (Counted.mapEach n c g v) (table [(c, if v.length = n then n else 0)]) := by
  have ht : ∀ k, table [(c, k)] = k • once c := fun k => by
    funext d
    by_cases h : c = d
    · simp [table, once, h]
    · have h' : ¬ d = c := fun e => h e.symm
      simp [table, once, h, h']
  have hp : ∀ {α β : Type} (f : α → Counted β), Takes (lift .panic >>= f) 0 := fun f =>
    ⟨fun _ => le_rfl, fun _ h => by cases h⟩
  rw [ht, ht]
  refine ⟨?_, ?_, ?_⟩
  · unfold Counted.zipMap
    by_cases h : v.length = n ∧ w.length = n
    · rw [if_pos h]
      refine takes_of_eq (takes_bind (takes_lift _) fun _ _ => takes_mapRes (k := once c) (fun p => takes_call _ _) _) ?_
      rw [List.length_zip, h.1, h.2, Nat.min_self, zero_add]
    · rw [if_neg h, zero_nsmul, Res.assert, if_neg (by simpa [VectorAlgebra.lenIs] using h)]
      exact hp _
  · unfold Counted.zipEach
    by_cases h : v.length = n ∧ w.length = n
    · rw [if_pos h]
      refine takes_of_eq (takes_bind (takes_lift _) fun _ _ => takes_zipForEach (k := once c) (fun _ _ => takes_call _ _) _ _) ?_
      rw [h.1, h.2, Nat.min_self, zero_add]
    · rw [if_neg h, zero_nsmul, Res.assert, if_neg (by simpa [VectorAlgebra.lenIs] using h)]
      exact hp _
  · unfold Counted.mapEach
    by_cases h : v.length = n
    · rw [if_pos h]
      refine takes_of_eq (takes_bind (takes_lift _) fun _ _ => takes_mapRes (k := once c) (fun p => takes_call _ _) _) ?_
      rw [h, zero_add]
    · rw [if_neg h, zero_nsmul, Res.assert, if_neg (by simpa [VectorAlgebra.lenIs] using h)]
      exact hp _

private theorem mapRes_stopped {α β : Type} (c : Call) (f : α → Res β) (l : List α)
    (h : (Counted.mapRes (fun a => call c (f a)) l).res = .panic) :
    ∃ k a, l[k]? = some a ∧ f a = .panic ∧ (∀ i < k, ∃ b z, l[i]? = some b ∧ f b = .ok z) ∧
      (Counted.mapRes (fun a => call c (f a)) l).calls c = k + 1 := by
  induction l with
  | nil => cases h
  | cons a l ih =>
    have hm : Counted.mapRes (fun a => call c (f a)) (a :: l) =
        Counted.bind (call c (f a)) fun b => Counted.bind (Counted.mapRes (fun a => call c (f a)) l) fun l' => pure (b :: l') := rfl
    rw [hm] at h ⊢
    unfold Counted.bind at h ⊢
    cases ha : f a with
    | panic => exact ⟨0, a, rfl, ha, fun i hi => absurd hi (Nat.not_lt_zero i), by simp [call]⟩
    | diverge => simp [call, ha] at h
    | ok z =>
      simp only [call, ha] at h ⊢
      cases hr : (Counted.mapRes (fun a => call c (f a)) l).res with
      | ok l' => exact absurd h (by simp only [call] at hr; simp [hr, pure])
      | diverge => exact absurd h (by simp only [call] at hr; simp [hr])
      | panic =>
        obtain ⟨k, b, h1, h2, h3, h4⟩ := ih hr
        refine ⟨k + 1, b, by simpa using h1, h2, fun i hi => ?_, ?_⟩
        · cases i with
          | zero => exact ⟨a, z, rfl, ha⟩
          | succ i => simpa using h3 i (by omega)
        · simp only [call] at hr h4
          simp [hr, h4]
          omega

/-- C93: a coordinate-wise method that panics at the coordinate `k` has made `k + 1` calls. -/
theorem C93_vectors_panic (n : ℕ) (c : Call) (f : E → E → Res E) (g : E → Res E) {v w : List E} (hv : v.length = n)
    (hw : w.length = n) :
    ((Counted.zipMap n c f v w).res = .panic → ∃ k x y, v[k]? = some x ∧ w[k]? = some y ∧ f x y = .panic ∧
      (∀ i < k, ∃ x y z, v[i]? = some x ∧ w[i]? = some y ∧ f x y = .ok z) ∧ (Counted.zipMap n c f v w).calls c = k + 1) ∧
    ((Counted.mapEach n c g v).res = .panic → ∃ k x, v[k]? = some x ∧ g x = .panic ∧
      (∀ i < k, ∃ x z, v[i]? = some x ∧ g x = .ok z) ∧ (Counted.mapEach n c g v).calls c = k + 1) := by
  have h1 : Counted.zipMap n c f v w = Counted.bind (lift (.ok ())) fun _ => Counted.mapRes (fun p => call c (f p.1 p.2)) (v.zip w) := by
    unfold Counted.zipMap
    have : (VectorAlgebra.lenIs n v && VectorAlgebra.lenIs n w) = true := by simp [VectorAlgebra.lenIs, hv, hw]
    rw [this]
    rfl
  have h2 : Counted.mapEach n c g v = Counted.bind (lift (.ok ())) fun _ => Counted.mapRes (fun x => call c (g x)) v := by
    unfold Counted.mapEach
    have : VectorAlgebra.lenIs n v = true := by simp [VectorAlgebra.lenIs, hv]
    rw [this]
    rfl
  constructor
  · intro h
    rw [h1] at h ⊢
    obtain ⟨k, p, h3, h4, h5, h6⟩ := mapRes_stopped c (fun p : E × E => f p.1 p.2) (v.zip w) h
    rw [List.getElem?_zip_eq_some] at h3
    refine ⟨k, p.1, p.2, h3.1, h3.2, h4, fun i hi => ?_, ?_⟩
    · obtain ⟨q, z, h7, h8⟩ := h5 i hi
      rw [List.getElem?_zip_eq_some] at h7
      exact ⟨q.1, q.2, z, h7.1, h7.2, h8⟩
    · simpa [Counted.bind, lift] using h6
  · intro h
    rw [h2] at h ⊢
    obtain ⟨k, x, h3, h4, h5, h6⟩ := mapRes_stopped c g v h
    exact ⟨k, x, h3, h4, h5, by simpa [Counted.bind, lift] using h6⟩

/-- The addition of the base is called twice, and the second call is not made if the first panics. -/
example : (Counted.zipMap 2 .add (fun a b => if a = 0 then .panic else .ok (a + b)) [1, 2] [3, (4 : ℤ)]).calls .add = 2 ∧
    (Counted.zipMap 2 .add (fun a b => if a = 0 then .panic else .ok (a + b)) [0, 2] [3, (4 : ℤ)]).calls .add = 1 := by decide

/-! ## Matrices -/

/-- C93: a product of matrices takes `n^3` multiplications and additions. -/
theorem C93_matrix_mul [Cfg] (base : FieldOps E) (n : ℕ) (v w : List E) :
    Takes (matMul base n v w) (table [(.zero, n ^ 2), (.mul, n ^ 3), (.addAssign, n ^ 3)]) := by
  refine takes_of_eq (takes_matMul base n v w) ?_
  funext c
  cases c <;> simp [table, once] <;> ring

section
local instance : Cfg := ⟨true, true, 64, by decide⟩

example : (matMul TwoElementAlgebra.field 2 [true, true, false, true] [true, false, true, true]).res =
      .ok [false, true, true, true] ∧
    (matMul TwoElementAlgebra.field 2 [true, true, false, true] [true, false, true, true]).calls .mul = 8 ∧
    (matMul TwoElementAlgebra.field 2 [true, true, false, true] [true, false, true, true]).calls .zero = 4 := by decide

end

private theorem sum_mul_right (l : List ℕ) (f : ℕ → ℕ) (m : ℕ) : (l.map fun j => f j * m).sum = (l.map f).sum * m := by
  induction l with
  | nil => simp
  | cons j l ih => simp only [List.map_cons, List.sum_cons, ih, add_mul]

private theorem sum_clear (n : ℕ) : 2 * ((List.range n).map fun j => n - (j + 1)).sum = n * (n - 1) := by
  have key : ∀ m ≤ n, 2 * ((List.range m).map fun j => n - (j + 1)).sum + (n - m) * (n - m - 1) = n * (n - 1) := by
    intro m
    induction m with
    | zero => intro _; simp
    | succ m ih =>
      intro hm
      rw [← ih (by omega), List.range_succ, List.map_append, List.sum_append, List.map_cons, List.map_nil, List.sum_cons,
        List.sum_nil, add_zero, mul_add]
      obtain ⟨k, rfl⟩ : ∃ k, n = m + 1 + k := ⟨n - (m + 1), by omega⟩
      have e1 : m + 1 + k - (m + 1) = k := by omega
      have e2 : m + 1 + k - m = k + 1 := by omega
      rw [e1, e2, Nat.add_sub_cancel]
      cases k with
      | zero => simp
      | succ k => rw [Nat.add_sub_cancel]; ring
  have := key n le_rfl
  simpa using this

private theorem sum_find (n : ℕ) : ((List.range n).map fun j => n - j).sum = n + ((List.range n).map fun j => n - (j + 1)).sum := by
  have key : ∀ m ≤ n, ((List.range m).map fun j => n - j).sum = m + ((List.range m).map fun j => n - (j + 1)).sum := by
    intro m
    induction m with
    | zero => intro _; simp
    | succ m ih =>
      intro hm
      simp only [List.range_succ, List.map_append, List.sum_append, List.map_cons, List.map_nil, List.sum_cons, List.sum_nil]
      rw [ih (by omega)]
      omega
  exact key n le_rfl

/-- C93: `determinant` takes at most this many calls; unless it stops at a column without pivot, returning zero, it takes
exactly one inverse for each column, and one multiplication of the result and `n` of the row. -/
theorem C93_determinant [Cfg] (base : FieldOps E) (n : ℕ) (v : List E) :
    Within (Counted.determinant base n v) (table [(.one, 1), (.zero, 1), (.isZero, n ^ 2), (.inv, n), (.mulAssign, n * (n + 1)),
      (.neg, n * (n - 1) / 2), (.mul, n * (n * (n - 1) / 2)), (.addAssign, n * (n * (n - 1) / 2))]) ∧
    ∀ d, (Counted.determinant base n v).res = .ok d → (Counted.determinant base n v).calls .zero = 0 →
      (Counted.determinant base n v).calls .inv = n ∧ (Counted.determinant base n v).calls .mulAssign = n * (n + 1) := by
  have h2 := sum_clear n
  have h3 : ((List.range n).map fun j => n - (j + 1)).sum = n * (n - 1) / 2 := by omega
  have h4 : ((List.range n).map fun j => n - j).sum + ((List.range n).map fun j => n - (j + 1)).sum = n ^ 2 := by
    rw [sum_find]
    cases n with
    | zero => rfl
    | succ n =>
      rw [Nat.add_sub_cancel] at h2
      have : (n + 1) ^ 2 = (n + 1) + (n + 1) * n := by ring
      omega
  have h5 : ((List.range n).map fun j => (n - (j + 1)) * n).sum = n * (n * (n - 1) / 2) := by
    rw [sum_mul_right _ fun j => n - (j + 1), h3, mul_comm]
  have h6 : ((List.range n).map fun j => n - j + (n - (j + 1))).sum = n ^ 2 := by
    rw [List.sum_map_add, h4]
  constructor
  · refine within_mono (within_bind (takes_call _ _).1 fun o _ => within_detLoop base n (List.range n) v o) fun c => ?_
    rw [Pi.add_apply, Pi.add_apply, sum_apply]
    cases c <;> simp [table, once, detColumn, clearing, h3, h5, h6]
  · intro d h hz
    unfold Counted.determinant at h hz ⊢
    obtain ⟨o, h1, h, k⟩ := bind_ok h
    rw [k] at hz ⊢
    rw [k]
    have h7 := detLoop_exact base n (List.range n) v o d h (by omega)
    rw [h7.1, h7.2]
    simp [call]

section
local instance : Cfg := ⟨true, true, 64, by decide⟩

/-- An exchange of rows does not call the base; a column without pivot stops the loop. -/
example : (Counted.determinant TwoElementAlgebra.field 2 [false, true, true, true]).res = .ok true ∧
    (Counted.determinant TwoElementAlgebra.field 2 [false, true, true, true]).calls .inv = 2 ∧
    (Counted.determinant TwoElementAlgebra.field 2 [false, true, true, true]).calls .zero = 0 ∧
    (Counted.determinant TwoElementAlgebra.field 2 [false, true, true, true]).calls .mulAssign = 6 ∧
    (Counted.determinant TwoElementAlgebra.field 2 [false, true, false, true]).calls .inv = 0 ∧
    (Counted.determinant TwoElementAlgebra.field 2 [false, true, false, true]).calls .zero = 1 := by decide

end

/-- C93: `try_inv` takes at most this many calls, the last check with debug assertions included; if it returns
an inverse, it takes exactly one inverse for each column, and `n` multiplications for each row of both matrices. -/
theorem C93_matrix_try_inv [Cfg] (base : FieldOps E) (n : ℕ) (v : List E) :
    Within (matTryInv base n v) (table [(.int, if Cfg.debugAssertions then 2 else 1), (.zero, if Cfg.debugAssertions then 2 else 1),
      (.equals, if Cfg.debugAssertions then n ^ 2 else 0), (.isZero, n * (n + 1) / 2 + n * (n - 1)), (.inv, n),
      (.mulAssign, 2 * n ^ 2), (.neg, n * (n - 1)), (.mul, 2 * n ^ 2 * (n - 1)), (.addAssign, 2 * n ^ 2 * (n - 1))]) ∧
    ∀ w, (matTryInv base n v).res = .ok (some w) →
      (matTryInv base n v).calls .inv = n ∧ (matTryInv base n v).calls .mulAssign = 2 * n ^ 2 := by
  have h2 := sum_clear n
  have h4 : ((List.range n).map fun j => n - j).sum = n * (n + 1) / 2 := by
    rw [sum_find]
    cases n with
    | zero => rfl
    | succ n =>
      rw [Nat.add_sub_cancel] at h2
      have : (n + 1) * (n + 1 + 1) = 2 * (n + 1) + (n + 1) * n := by ring
      omega
  have hl : ∀ j ∈ List.range n, j < n := fun j hj => List.mem_range.1 hj
  have hd : ∀ e : List E, Within (Counted.debugAssert (matIsOne base n e)) (if Cfg.debugAssertions then
      (once .int + once .zero + (n * n) • once .equals) else 0) := fun e => within_debugAssert _ (within_matIsOne base n e)
  constructor
  · refine within_mono (within_bind (takes_matInt base n 1).1 fun o _ => within_bind
      (within_invLoop base n (List.range n) hl v o) fun p _ => (show Within _ (if Cfg.debugAssertions then
      (once .int + once .zero + (n * n) • once .equals) else 0) from ?_)) fun c => ?_
    · cases p with
      | none => exact fun c => Nat.zero_le _
      | some p => exact within_mono (within_bind (hd _) fun _ _ => (takes_pure _).1) fun c => le_rfl
    · rw [Pi.add_apply, Pi.add_apply, Pi.add_apply, sum_apply]
      cases Cfg.debugAssertions <;> cases c <;> simp [table, once, invColumn, clearing, h4] <;> ring_nf <;> exact le_rfl
  · intro w h
    unfold matTryInv at h ⊢
    obtain ⟨o, h1, h, k1⟩ := bind_ok h
    obtain ⟨p, h3, h, k2⟩ := bind_ok h
    cases p with
    | none => cases h
    | some p =>
      obtain ⟨u, h5, h, k3⟩ := bind_ok h
      have h6 := invLoop_exact base n (List.range n) hl v o p h3
      have h7 := (takes_matInt base n 1).2 _ h1
      have h8 := hd p.1
      have a1 := h8 .inv
      have a2 := h8 .mulAssign
      rw [k1, k1, k2, k2]
      dsimp only at k3 ⊢
      rw [k3, k3, h6.1, h6.2, h7]
      have b1 : (Counted.debugAssert (matIsOne base n p.1)).calls .inv = 0 := by
        revert a1
        cases Cfg.debugAssertions <;> simp [once]
      have b2 : (Counted.debugAssert (matIsOne base n p.1)).calls .mulAssign = 0 := by
        revert a2
        cases Cfg.debugAssertions <;> simp [once]
      rw [b1, b2]
      simp [once, pure]
      ring

section
local instance : Cfg := ⟨true, true, 64, by decide⟩

/-- The numbers of the bound are reached by a matrix without zeros. -/
example : (matTryInv TwoElementAlgebra.field 2 [true, true, false, true]).res = .ok (some [true, true, false, true]) ∧
    (matTryInv TwoElementAlgebra.field 2 [true, true, false, true]).calls .inv = 2 ∧
    (matTryInv TwoElementAlgebra.field 2 [true, true, false, true]).calls .mulAssign = 8 ∧
    (matTryInv TwoElementAlgebra.field 2 [true, true, false, true]).calls .isZero = 4 ∧
    (matTryInv TwoElementAlgebra.field 2 [true, true, true, false]).calls .mul = 8 := by decide

end

/-! ## Polynomials -/

/-- C93: sums of polynomials: one addition for each common coefficient; if the lengths are equal, each sum is tested. -/
theorem C93_poly_add [Cfg] (base : AbelianGroupOps E) (v w : List E) :
    (v.length ≠ w.length → Takes (polyAdd base v w) (table [(.add, min v.length w.length)])) ∧
    (v.length = w.length →
      Within (polyAdd base v w) (table [(.add, v.length), (.isZero, v.length), (.zero, v.length)]) ∧
      ∀ u, (polyAdd base v w).res = .ok u →
        (polyAdd base v w).calls .add = v.length ∧ (polyAdd base v w).calls .isZero = v.length) := by
  refine ⟨fun h => takes_of_eq (polyAdd_takes_ne base h) ?_, fun h => ⟨within_of_eq (polyAdd_takes_eq base h).1 ?_,
    (polyAdd_takes_eq base h).2⟩⟩ <;>
  · funext c
    cases c <;> simp [table, once]

/-- C93: products of polynomials: a multiplication and an addition for each pair of coefficients. -/
theorem C93_poly_mul [Cfg] (base : UnitaryRingOps E) (v w : List E) :
    Takes (polyMul base v w) (if v = [] ∨ w = [] then 0 else
      table [(.zero, 1), (.mul, v.length * w.length), (.add, v.length * w.length)]) := by
  by_cases h : v = [] ∨ w = []
  · rw [if_pos h]
    unfold polyMul
    rw [if_pos (by simpa using h)]
    exact takes_pure _
  · rw [if_neg h]
    push Not at h
    refine takes_of_eq (polyMul_takes base h.1 h.2) ?_
    funext c
    cases c <;> simp [table, once]

section
local instance : Cfg := ⟨true, true, 64, by decide⟩

example : (polyMul Integers.unitaryRing [1, 2, 3] [-1, 0, 5, 1]).calls .mul = 12 ∧
    (polyAdd Integers.unitaryRing.toAbelianGroupOps [1, 2, 3] [-1, 0, -3]).res = .ok [0, 2] ∧
    (polyAdd Integers.unitaryRing.toAbelianGroupOps [1, 2, 3] [-1, 0, -3]).calls .isZero = 3 := by decide

end

/-- C93: division with remainder: nothing if the dividend is shorter; otherwise one quotient for each coefficient of the
quotient, and a multiplication and an addition for it and each coefficient of the divisor but the leading one.  The tests for zero are
those of the leading coefficient, of the coefficients cut off, and of the last one that is kept. -/
theorem C93_poly_quo_rem [Cfg] (base : FieldOps E) (v w : List E) :
    (v.length < w.length → Takes (polyQuoRem base v w) 0) ∧
    (w.length ≤ v.length →
      Within (polyQuoRem base v w) (table [(.zero, 1), (.isZero, w.length), (.div, v.length - w.length + 1),
        (.neg, v.length - w.length + 1), (.mul, (v.length - w.length + 1) * (w.length - 1)),
        (.add, (v.length - w.length + 1) * (w.length - 1))]) ∧
      ∀ q r, (polyQuoRem base v w).res = .ok (q, r) →
        (polyQuoRem base v w).calls = table [(.zero, 1), (.isZero, w.length - r.length + (if r = [] then 0 else 1)),
          (.div, v.length - w.length + 1), (.neg, v.length - w.length + 1),
          (.mul, (v.length - w.length + 1) * (w.length - 1)), (.add, (v.length - w.length + 1) * (w.length - 1))]) := by
  constructor
  · intro h
    unfold polyQuoRem
    rw [if_pos h]
    exact takes_bind (k := 0) (m := 0) (takes_lift _) fun _ _ => takes_pure _
  · intro h
    unfold polyQuoRem
    rw [if_neg (by omega)]
    by_cases hw0 : w = []
    · subst hw0
      exact ⟨fun c => Nat.zero_le _, fun q r hq => by cases hq⟩
    have hw : 0 < w.length := List.length_pos_iff.2 hw0
    constructor
    · refine within_mono (within_bind (takes_lift _).1 fun u _ => within_bind (takes_call _ _).1 fun z _ =>
        within_bind (takes_lift _).1 fun a _ => within_bind (takes_call _ _).1 fun b _ => within_bind (takes_lift _).1 fun _ _ =>
        within_bind (k := (v.length - w.length + 1) • (once .div + once .neg + (w.length - 1) • (once .mul + once .add)))
          (within_of_eq (takes_quoRemLoop base w a _ _ _).1 (by rw [List.length_replicate])) fun p _ =>
        (show Within _ ((w.length - 1) • once .isZero) from ?_)) fun c => ?_
      · exact within_mono (within_bind (trimLen_calls base _ _).1 fun _ _ => (takes_pure _).1) fun c => le_rfl
      · cases c <;> simp [table, once]
        omega
    · intro q r hq
      obtain ⟨_, h1, hq, k1⟩ := bind_ok hq
      obtain ⟨z, h2, hq, k2⟩ := bind_ok hq
      obtain ⟨a, h3, hq, k3⟩ := bind_ok hq
      obtain ⟨b, h4, hq, k4⟩ := bind_ok hq
      obtain ⟨_, h5, hq, k5⟩ := bind_ok hq
      obtain ⟨p, h6, hq, k6⟩ := bind_ok hq
      obtain ⟨i, h7, hq, k7⟩ := bind_ok hq
      have t6 := (takes_quoRemLoop base w a _ _ _).2 _ h6
      have t7 := (trimLen_calls base p.2 (w.length - 1)).2 i h7
      have t8 := (trimLen_calls base p.2 (w.length - 1)).1
      have hi : r.length = i := by
        have h8 := h7
        rw [res_trimLen] at h8
        have h9 := trimLen_le_length base _ h8
        cases hq
        rw [List.length_take, Nat.min_eq_left h9]
      have hr : r = [] ↔ i = 0 := by rw [← hi, List.length_eq_zero_iff]
      funext c
      rw [k1, k2, k3, k4, k5, k6]
      dsimp only at k7 ⊢
      rw [k7, t6, List.length_replicate]
      have t9 := t8 c
      cases c
      case isZero =>
        rw [t7.2]
        simp only [hr, hi]
        simp [table, once, lift, call, pure]
        omega
      all_goals
        simp [once] at t9
        simp [table, once, lift, call, pure, t9]

section
local instance : Cfg := ⟨true, true, 64, by decide⟩

/-- `x^4 + x^3 + 1 = (x^2 + x + 1) (x^2 + 1) + x`. -/
example : (polyQuoRem TwoElementAlgebra.field [true, false, false, true, true] [true, true, true]).res =
      .ok ([true, false, true], [false, true]) ∧
    (polyQuoRem TwoElementAlgebra.field [true, false, false, true, true] [true, true, true]).calls .div = 3 ∧
    (polyQuoRem TwoElementAlgebra.field [true, false, false, true, true] [true, true, true]).calls .mul = 6 ∧
    (polyQuoRem TwoElementAlgebra.field [true, false, false, true, true] [true, true, true]).calls .isZero = 2 := by decide

end

/-- C93: `try_div` takes no more calls than these, and exactly these, but for the final tests of the coefficients of the
remainder, if all divisions succeed. -/
theorem C93_poly_try_div [Cfg] (base : IntegralDomainOps E) (v w : List E) :
    (v.length < w.length → Takes (polyTryDiv base v w) 0) ∧
    (w.length ≤ v.length →
      Within (polyTryDiv base v w) (table [(.zero, 1), (.isZero, w.length), (.tryDiv, v.length - w.length + 1),
        (.neg, v.length - w.length + 1), (.mul, (v.length - w.length + 1) * (w.length - 1)),
        (.addAssign, (v.length - w.length + 1) * (w.length - 1))]) ∧
      ∀ q, (polyTryDiv base v w).res = .ok (some q) →
        (polyTryDiv base v w).calls .tryDiv = v.length - w.length + 1 ∧
        (polyTryDiv base v w).calls .mul = (v.length - w.length + 1) * (w.length - 1)) := by
  constructor
  · intro h
    unfold polyTryDiv
    rw [if_pos h]
    refine takes_bind (k := 0) (m := 0) (takes_lift _) fun _ _ => ?_
    split <;> exact takes_pure _
  · intro h
    unfold polyTryDiv
    rw [if_neg (by omega)]
    by_cases hw0 : w = []
    · subst hw0
      exact ⟨fun c => Nat.zero_le _, fun q hq => by cases hq⟩
    have hw : 0 < w.length := List.length_pos_iff.2 hw0
    have hall : ∀ l : List E, Within (Counted.allRes (fun d => call .isZero (base.isZero d)) (l.take (w.length - 1)))
        ((w.length - 1) • once .isZero) := fun l => by
      refine within_mono (within_allRes (k := once .isZero) (fun a => (takes_call _ _).1) _) fun c => ?_
      simp only [Pi.smul_apply, smul_eq_mul, List.length_take]
      exact Nat.mul_le_mul_right _ (Nat.min_le_left _ _)
    constructor
    · refine within_mono (within_bind (takes_lift _).1 fun u _ => within_bind (takes_call _ _).1 fun z _ =>
        within_bind (takes_lift _).1 fun a _ => within_bind (takes_call _ _).1 fun b _ => within_bind (takes_lift _).1 fun _ _ =>
        within_bind (k := (v.length - w.length + 1) • (once .tryDiv + once .neg + (w.length - 1) • (once .mul + once .addAssign)))
          (within_of_eq (within_tryDivLoop base w a _ _ _).1 (by rw [List.length_replicate])) fun p _ =>
        (show Within _ ((w.length - 1) • once .isZero) from ?_)) fun c => ?_
      · cases p with
        | none => exact fun c => Nat.zero_le _
        | some p =>
          refine within_mono (within_bind (m := 0) (hall p.2) fun b _ => ?_) fun c => le_rfl
          cases b <;> exact (takes_pure _).1
      · cases c <;> simp [table, once]
        omega
    · intro q hq
      obtain ⟨_, h1, hq, k1⟩ := bind_ok hq
      obtain ⟨z, h2, hq, k2⟩ := bind_ok hq
      obtain ⟨a, h3, hq, k3⟩ := bind_ok hq
      obtain ⟨b, h4, hq, k4⟩ := bind_ok hq
      obtain ⟨_, h5, hq, k5⟩ := bind_ok hq
      obtain ⟨o, h6, hq, k6⟩ := bind_ok hq
      cases o with
      | none => cases hq
      | some p =>
        obtain ⟨d, h7, hq, k7⟩ := bind_ok hq
        have t6 := (within_tryDivLoop base w a _ _ _).2 _ h6
        have t8 := hall p.2
        have a1 := t8 .tryDiv
        have a2 := t8 .mul
        simp [once] at a1 a2
        rw [k1, k1, k2, k2, k3, k3, k4, k4, k5, k5, k6, k6]
        dsimp only at k7 ⊢
        rw [k7, k7, t6, a1, a2, List.length_replicate]
        cases d <;> simp [once, lift, call, pure]

section
local instance : Cfg := ⟨true, true, 64, by decide⟩

example : (polyTryDiv Integers.integralDomain [-1, 0, 1] [1, 1]).res = .ok (some [-1, 1]) ∧
    (polyTryDiv Integers.integralDomain [-1, 0, 1] [1, 1]).calls .tryDiv = 2 ∧
    (polyTryDiv Integers.integralDomain [-1, 0, 1] [1, 1]).calls .isZero = 2 ∧
    (polyTryDiv Integers.integralDomain [-1, 0, 1] [1, 2]).calls .tryDiv = 1 := by decide

end

/-- C93: the greatest common divisor of two polynomials takes at most as many multiplications as their product. -/
theorem C93_poly_gcd [Cfg] (base : FieldOps E) (v w : List E) :
    Within (polyGcdWithin base (w.length + 1) v w) (table [(.zero, w.length), (.isZero, 2 * w.length),
      (.div, v.length + w.length), (.neg, v.length + w.length), (.mul, v.length * w.length), (.add, v.length * w.length)]) := by
  have hq : ∀ v w : List E, 0 < w.length → Within (polyQuoRem base v w) (table [(.zero, w.length), (.isZero, 2 * w.length),
      (.div, v.length + w.length), (.neg, v.length + w.length), (.mul, v.length * w.length), (.add, v.length * w.length)]) := by
    intro v w hw
    by_cases hl : v.length < w.length
    · exact within_mono ((C93_poly_quo_rem base v w).1 hl).1 fun c => Nat.zero_le _
    · refine within_mono ((C93_poly_quo_rem base v w).2 (not_lt.1 hl)).1 fun c => ?_
      have hm : (v.length - w.length + 1) * (w.length - 1) ≤ v.length * w.length :=
        Nat.mul_le_mul (by omega) (by omega)
      cases c <;> simp [table]
      all_goals first | exact hm | omega
  have key : ∀ (k : ℕ) (v w : List E), Within (polyGcdWithin base k v w) (table [(.zero, w.length), (.isZero, 2 * w.length),
      (.div, v.length + w.length), (.neg, v.length + w.length), (.mul, v.length * w.length), (.add, v.length * w.length)]) := by
    intro k
    induction k with
    | zero => exact fun v w c => Nat.zero_le _
    | succ k ih =>
      intro v w
      unfold polyGcdWithin
      by_cases hw : w.isEmpty
      · rw [if_pos hw]
        exact fun c => Nat.zero_le _
      rw [if_neg hw]
      have hw1 : 0 < w.length := by
        cases w with
        | nil => simp at hw
        | cons x w => simp
      cases hx : (polyQuoRem base v w).res with
      | ok p =>
        have hp : (polyQuoRem base v w >>= fun r => polyGcdWithin base k w r.2).calls =
            fun c => (polyQuoRem base v w).calls c + (polyGcdWithin base k w p.2).calls c := by
          show (Counted.bind _ _).calls = _
          unfold Counted.bind
          rw [hx]
        have hs : p.2.length < w.length := by
          rw [res_polyQuoRem] at hx
          exact quoRem_short base (q := p.1) (r := p.2) hx
        intro c
        rw [hp]
        have h1 := ih w p.2 c
        by_cases hl : v.length < w.length
        · have h2 := ((C93_poly_quo_rem base v w).1 hl).2 _ hx
          have h3 : p.2 = v := by
            rw [res_polyQuoRem] at hx
            unfold PolynomialAlgebra.quoRem at hx
            rw [if_pos hl] at hx
            cases w with
            | nil => simp at hw
            | cons y w => cases hx; rfl
          rw [h2]
          rw [h3] at h1 ⊢
          refine le_trans (le_of_eq (zero_add _)) (h1.trans ?_)
          cases c <;> simp [table, mul_comm] <;> omega
        · have h2 := ((C93_poly_quo_rem base v w).2 (not_lt.1 hl)).2 p.1 p.2 hx
          rw [h2]
          refine (Nat.add_le_add_left h1 _).trans ?_
          obtain ⟨b, hb⟩ : ∃ b, w.length = b + 1 := ⟨w.length - 1, by omega⟩
          obtain ⟨d, hd⟩ : ∃ d, v.length = b + 1 + d := ⟨v.length - (b + 1), by omega⟩
          generalize p.2.length = r at *
          have hr : r ≤ b := by omega
          have hm : (d + 1) * b + (b + 1) * r ≤ (b + 1 + d) * (b + 1) := by nlinarith
          have e1 : b + 1 + d - (b + 1) + 1 = d + 1 := by omega
          cases c <;> simp only [table, hb, hd, e1] <;> simp
          all_goals first | exact hm | (split <;> omega) | omega
      | panic =>
        have hp : (polyQuoRem base v w >>= fun r => polyGcdWithin base k w r.2).calls = (polyQuoRem base v w).calls := by
          show (Counted.bind _ _).calls = _
          unfold Counted.bind
          rw [hx]
        exact fun c => hp ▸ hq v w hw1 c
      | diverge =>
        have hp : (polyQuoRem base v w >>= fun r => polyGcdWithin base k w r.2).calls = (polyQuoRem base v w).calls := by
          show (Counted.bind _ _).calls = _
          unfold Counted.bind
          rw [hx]
        exact fun c => hp ▸ hq v w hw1 c
  exact key _ v w

section
local instance : Cfg := ⟨true, true, 64, by decide⟩

/-- `gcd (x^3 + 1) (x^2 + 1) = x + 1`. -/
example : (polyGcdWithin TwoElementAlgebra.field 4 [true, false, false, true] [true, false, true]).res = .ok [true, true] ∧
    (polyGcdWithin TwoElementAlgebra.field 4 [true, false, false, true] [true, false, true]).calls .mul = 6 ∧
    (polyGcdWithin TwoElementAlgebra.field 4 [true, false, false, true] [true, false, true]).calls .div = 4 := by decide

end

end Abstalg
