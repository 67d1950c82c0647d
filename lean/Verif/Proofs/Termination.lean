import Verif.Spec.Termination
import Verif.Proofs.Basic

/-! # Termination through the provided methods of the traits -/

set_option autoImplicit false

universe u v

namespace Abstalg

variable {α : Type u} {β : Type v} {γ : Type u}

theorem Stops.ok (a : α) : Stops (.ok a) := nofun

theorem Stops.panic : Stops (.panic : Res α) := nofun

theorem Stops.pure (a : α) : Stops (pure a : Res α) := nofun

theorem Stops.rbind {c : Res α} {f : α → Res β} (h : Stops c) (hf : ∀ a, Stops (f a)) :
    Stops (c.bind f) := by
  cases c with
  | ok a => exact hf a
  | panic => nofun
  | diverge => exact absurd rfl h

theorem Stops.bind {c : Res α} {f : α → Res γ} (h : Stops c) (hf : ∀ a, Stops (f a)) :
    Stops (c >>= f) := Stops.rbind h hf

theorem Stops.bind' {c : Res α} {f : α → Res γ} (h : Stops c) (hf : ∀ a, c = .ok a → Stops (f a)) :
    Stops (c >>= f) := by
  cases c with
  | ok a => exact hf a rfl
  | panic => nofun
  | diverge => exact absurd rfl h

theorem Stops.assert (b : Bool) : Stops (Res.assert b) := by cases b <;> nofun

theorem Stops.unwrap (o : Option α) : Stops (Res.unwrap o) := by cases o <;> nofun

theorem Stops.idx (v : List α) (i : ℕ) : Stops (idx v i) := by
  unfold Abstalg.idx; split <;> nofun

theorem Stops.setIdx (v : List α) (i : ℕ) (a : α) : Stops (setIdx v i a) := by
  unfold Abstalg.setIdx; split <;> nofun

theorem Stops.swapIdx (v : List α) (i j : ℕ) : Stops (swapIdx v i j) :=
  Stops.bind (.idx _ _) fun _ => .bind (.idx _ _) fun _ => .bind (.setIdx _ _ _) fun _ => .setIdx _ _ _

theorem Stops.allRes {p : α → Res Bool} (h : ∀ a, Stops (p a)) (l : List α) : Stops (allRes p l) := by
  induction l with
  | nil => nofun
  | cons a l ih => exact Stops.rbind (h a) fun b => by cases b; exacts [.ok _, ih]

theorem Stops.mapRes {f : α → Res β} (h : ∀ a, Stops (f a)) (l : List α) : Stops (mapRes f l) := by
  induction l with
  | nil => nofun
  | cons a l ih => exact Stops.rbind (h a) fun b => Stops.rbind ih fun _ => .ok _

theorem Stops.zipForEach {f : α → β → Res α} (h : ∀ a b, Stops (f a b)) (l : List α) (m : List β) :
    Stops (zipForEach f l m) := by
  induction l generalizing m with
  | nil => cases m <;> nofun
  | cons a l ih =>
    cases m with
    | nil => nofun
    | cons b m => exact Stops.rbind (h a b) fun _ => Stops.rbind (ih m) fun _ => .ok _

theorem Stops.forLoop {body : α → β → Res α} (h : ∀ s i, Stops (body s i)) (l : List β) (s : α) :
    Stops (forLoop l s body) := by
  induction l generalizing s with
  | nil => nofun
  | cons i l ih => exact Stops.rbind (h s i) fun s => ih s

theorem Stops.findRes {p : α → Res Bool} (h : ∀ a, Stops (p a)) (l : List α) : Stops (findRes p l) := by
  induction l with
  | nil => nofun
  | cons a l ih => exact Stops.rbind (h a) fun b => by cases b; exacts [ih, .ok _]

variable [Cfg] {E : Type}

theorem Stops.isizeNeg (n : ℤ) : Stops (isizeNeg n) := by
  unfold Abstalg.isizeNeg; split <;> [split; skip] <;> nofun

theorem Stops.debugAssert {b : Res Bool} (h : Stops b) : Stops (debugAssert b) := by
  unfold Abstalg.debugAssert
  split
  · exact Stops.rbind h fun b => .assert b
  · exact .ok _

omit [Cfg] in
theorem Stops.timesLoop {add : E → E → Res E} {double : E → Res E} (h1 : ∀ a b, Stops (add a b))
    (h2 : ∀ a, Stops (double a)) (n : ℕ) (r e : E) : Stops (timesLoop add double n r e) := by
  induction n using Nat.strongRecOn generalizing r e with
  | _ n ih =>
    rw [Abstalg.timesLoop]
    split
    · have : n / 2 < n := by omega
      dsimp only
      split
      · exact Stops.bind (h1 _ _) fun _ => Stops.bind (h2 _) fun _ => ih _ this _ _
      · exact Stops.bind (.pure _) fun _ => Stops.bind (h2 _) fun _ => ih _ this _ _
    · exact .ok _

omit [Cfg] in
theorem Stops.powerLoop {mul : E → E → Res E} {square : E → Res E} (h1 : ∀ a b, Stops (mul a b))
    (h2 : ∀ a, Stops (square a)) (n : ℤ) (r e : E) : Stops (powerLoop mul square n r e) := by
  induction hk : n.toNat using Nat.strongRecOn generalizing n r e with
  | _ k ih =>
    rw [Abstalg.powerLoop]
    split
    · have : (Int.tdiv n 2).toNat < k := by
        rw [Int.tdiv_eq_ediv_of_nonneg (by omega)]
        omega
      dsimp only
      split
      · exact Stops.bind (h1 _ _) fun _ => Stops.bind (h2 _) fun _ => ih _ this _ _ _ rfl
      · exact Stops.bind (.pure _) fun _ => Stops.bind (h2 _) fun _ => ih _ this _ _ _ rfl
    · exact .ok _

theorem Stops.powerDefault {one : Res E} {mul : E → E → Res E} {square inv : E → Res E}
    (h0 : Stops one) (h1 : ∀ a b, Stops (mul a b)) (h2 : ∀ a, Stops (square a))
    (h3 : ∀ a, Stops (inv a)) (n : ℤ) (e : E) : Stops (powerDefault one mul square inv n e) := by
  unfold Abstalg.powerDefault
  dsimp only
  split
  · exact Stops.bind (.isizeNeg _) fun _ => Stops.bind (h3 _) fun _ =>
      Stops.bind (.pure _) fun _ => Stops.bind h0 fun _ => .powerLoop h1 h2 _ _ _
  · exact Stops.bind (.pure _) fun _ => Stops.bind h0 fun _ => .powerLoop h1 h2 _ _ _

omit [Cfg] in
/-- The loop of `gcd` stops if each remainder by a divisor not found to be zero is smaller than the divisor
in some measure. -/
theorem Stops.gcdDefault {isZero : E → Res Bool} {rem : E → E → Res E} (size : E → ℕ)
    (h0 : ∀ a, Stops (isZero a)) (h1 : ∀ a b, Stops (rem a b))
    (h2 : ∀ a b r, isZero b = .ok false → rem a b = .ok r → isZero r ≠ .ok false ∨ size r < size b)
    (a b : E) : Stops (gcdDefault isZero rem a b) := by
  induction hk : size b using Nat.strongRecOn generalizing a b with
  | _ k ih =>
    rw [Abstalg.gcdDefault]
    refine Stops.bind' (h0 b) fun z hz => ?_
    cases z with
    | true => exact .ok _
    | false =>
      refine Stops.bind' (h1 a b) fun r hr => ?_
      rcases h2 a b r hz hr with h | h
      · rw [Abstalg.gcdDefault]
        refine Stops.bind' (h0 r) fun z hz' => ?_
        cases z with
        | true => exact .ok _
        | false => exact absurd hz' h
      · exact ih _ (hk ▸ h) _ _ rfl

omit [Cfg] in
theorem Stops.extendedGcdDefault {isZero : E → Res Bool} {one zero : Res E}
    {quoRem : E → E → Res (E × E)} {sub mul : E → E → Res E} (size : E → ℕ)
    (h0 : ∀ a, Stops (isZero a)) (h1 : ∀ a b, Stops (quoRem a b)) (hone : Stops one)
    (hzero : Stops zero) (hsub : ∀ a b, Stops (sub a b)) (hmul : ∀ a b, Stops (mul a b))
    (h2 : ∀ a b q r, isZero b = .ok false → quoRem a b = .ok (q, r) →
      isZero r ≠ .ok false ∨ size r < size b)
    (a b : E) : Stops (extendedGcdDefault isZero one zero quoRem sub mul a b) := by
  induction hk : size b using Nat.strongRecOn generalizing a b with
  | _ k ih =>
    have hbase : ∀ a b, isZero b ≠ .ok false →
        Stops (Abstalg.extendedGcdDefault isZero one zero quoRem sub mul a b) := fun a b hb => by
      rw [Abstalg.extendedGcdDefault]
      refine Stops.bind' (h0 b) fun z hz => ?_
      cases z with
      | true => exact Stops.bind hone fun _ => Stops.bind hzero fun _ => .ok _
      | false => exact absurd hz hb
    rw [Abstalg.extendedGcdDefault]
    refine Stops.bind' (h0 b) fun z hz => ?_
    cases z with
    | true => exact Stops.bind hone fun _ => Stops.bind hzero fun _ => .ok _
    | false =>
      refine Stops.bind' (h1 a b) fun r hr => ?_
      obtain ⟨q, r⟩ := r
      refine Stops.bind ?_ fun t => Stops.bind (hmul _ _) fun _ => Stops.bind (hsub _ _) fun _ => .ok _
      rcases h2 a b q r hz hr with h | h
      · exact hbase _ _ h
      · exact ih _ (hk ▸ h) _ _ rfl

/-- Splits the goal that a dictionary stops into its methods. -/
macro "stops_fields" : tactic => `(tactic| repeat' first
  | with_reducible intro _
  | apply StopsDomain.mk
  | apply StopsSemigroup.mk
  | apply StopsMonoid.mk
  | apply StopsCommutativeMonoid.mk
  | apply StopsGroup.mk
  | apply StopsAbelianGroup.mk
  | apply StopsSemiRing.mk
  | apply StopsUnitaryRing.mk
  | apply StopsIntegralDomain.mk
  | apply StopsEuclideanDomain.mk
  | apply StopsField.mk
  | apply StopsPartialOrder.mk
  | apply StopsBoundedOrder.mk
  | apply StopsLattice.mk
  | apply StopsBooleanAlgebra.mk)

/-- One step of `stops`. -/
macro "stops_step" h:term : tactic => `(tactic| first
  | with_reducible intro _
  | with_reducible exact Stops.ok _
  | with_reducible exact Stops.pure _
  | with_reducible exact Stops.panic
  | with_reducible exact Stops.assert _
  | with_reducible exact Stops.unwrap _
  | with_reducible exact Stops.idx _ _
  | with_reducible exact Stops.setIdx _ _ _
  | with_reducible exact Stops.swapIdx _ _ _
  | with_reducible refine Stops.bind ?_ ?_
  | with_reducible refine Stops.rbind ?_ ?_
  | with_reducible refine Stops.forLoop ?_ _ _
  | with_reducible refine Stops.mapRes ?_ _
  | with_reducible refine Stops.allRes ?_ _
  | with_reducible refine Stops.zipForEach ?_ _ _
  | with_reducible refine Stops.findRes ?_ _
  | with_reducible refine Stops.debugAssert ?_
  | with_reducible refine Stops.timesLoop ?_ ?_ _ _ _
  | with_reducible refine Stops.powerDefault ?_ ?_ ?_ ?_ _ _
  | exact ($h).contains _
  | exact ($h).equals _ _
  | exact ($h).mul _ _
  | exact ($h).mulAssign _ _
  | exact ($h).square _
  | exact ($h).one
  | exact ($h).isOne _
  | exact ($h).tryInv _
  | exact ($h).invertible _
  | exact ($h).zero
  | exact ($h).isZero _
  | exact ($h).add _ _
  | exact ($h).addAssign _ _
  | exact ($h).double _
  | exact ($h).utimes _ _
  | exact ($h).inv _
  | exact ($h).power _ _
  | exact ($h).neg _
  | exact ($h).negAssign _
  | exact ($h).sub _ _
  | exact ($h).subAssign _ _
  | exact ($h).times _ _
  | exact ($h).int _
  | exact ($h).tryDiv _ _
  | exact ($h).divisible _ _
  | exact ($h).associates _ _
  | exact ($h).associateRepr _
  | exact ($h).associateCoef _
  | exact ($h).quoRem _ _
  | exact ($h).quo _ _
  | exact ($h).rem _ _
  | exact ($h).reduced _ _
  | exact ($h).gcd _ _
  | exact ($h).lcm _ _
  | exact ($h).extendedGcd _ _
  | exact ($h).relativePrimes _ _
  | exact ($h).div _ _
  | exact ($h).leq _ _
  | exact ($h).lessThan _ _
  | exact ($h).comparable _ _
  | exact ($h).max
  | exact ($h).min
  | exact ($h).meet _ _
  | exact ($h).join _ _
  | exact ($h).not _
  | exact $h _ _
  | exact $h _
  | assumption
  | split
  | dsimp only)

/-- Proves that a computation stops, from a proof that the dictionary it uses stops. -/
macro "stops" h:term : tactic => `(tactic| repeat' stops_step $h)

end Abstalg
