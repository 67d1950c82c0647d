import Verif.Proofs.Simulation

/-! # Following through the provided methods of the traits -/

set_option linter.unusedSectionVars false

set_option autoImplicit false

namespace Abstalg

section provided

variable {E F : Type} (r : E → F → Prop) {equals : E → E → Res Bool} {equals' : F → F → Res Bool}
  {isZero isOne : E → Res Bool} {isZero' isOne' : F → Res Bool} {zero one : Res E} {zero' one' : Res F}
  {add mul sub : E → E → Res E} {add' mul' sub' : F → F → Res F}
  {neg double square inv : E → Res E} {neg' double' square' inv' : F → Res F}
  {tryInv : E → Res (Option E)} {tryInv' : F → Res (Option F)}
  {tryDiv : E → E → Res (Option E)} {tryDiv' : F → F → Res (Option F)}
  {divisible leq : E → E → Res Bool} {divisible' leq' : F → F → Res Bool}
  {quoRem : E → E → Res (E × E)} {quoRem' : F → F → Res (F × F)}
  {quo gcd : E → E → Res E} {quo' gcd' : F → F → Res F}
  {invertible : E → Res Bool} {invertible' : F → Res Bool}
  {times : ℤ → E → Res E} {times' : ℤ → F → Res F}
  {a b : E} {a' b' : F}

theorem follows_isDefault (h : ∀ {a b a' b'}, r a a' → r b b' → Follows Eq (equals a b) (equals' a' b'))
    (h1 : Follows r one one') (ha : r a a') :
    Follows Eq (do equals a (← one)) (do equals' a' (← one')) :=
  Follows.bind h1 fun _ _ hb => h ha hb

theorem follows_utimes (h0 : Follows r zero zero')
    (hadd : ∀ {a b a' b'}, r a a' → r b b' → Follows r (add a b) (add' a' b'))
    (hdouble : ∀ {a a'}, r a a' → Follows r (double a) (double' a')) (n : ℕ) (ha : r a a') :
    Follows r (do let res ← zero; timesLoop add double n res a)
      (do let res ← zero'; timesLoop add' double' n res a') :=
  Follows.bind h0 fun _ _ h => follows_timesLoop (r := r) hadd hdouble n h ha

theorem follows_unwrapInv (h : ∀ {a a'}, r a a' → Follows (Option.Rel r) (tryInv a) (tryInv' a'))
    (ha : r a a') : Follows r (do Res.unwrap (← tryInv a)) (do Res.unwrap (← tryInv' a')) :=
  Follows.bind (h ha) fun _ _ h => Follows.unwrap h

theorem follows_sub (hneg : ∀ {a a'}, r a a' → Follows r (neg a) (neg' a'))
    (hadd : ∀ {a b a' b'}, r a a' → r b b' → Follows r (add a b) (add' a' b'))
    (ha : r a a') (hb : r b b') :
    Follows r (do let e ← neg b; add e a) (do let e ← neg' b'; add' e a') :=
  Follows.bind (hneg hb) fun _ _ h => hadd h ha

theorem follows_subAssign (hneg : ∀ {a a'}, r a a' → Follows r (neg a) (neg' a'))
    (hadd : ∀ {a b a' b'}, r a a' → r b b' → Follows r (add a b) (add' a' b'))
    (ha : r a a') (hb : r b b') :
    Follows r (do add a (← neg b)) (do add' a' (← neg' b')) :=
  Follows.bind (hneg hb) fun _ _ h => hadd ha h

theorem follows_int (ht : ∀ n {a a'}, r a a' → Follows r (times n a) (times' n a'))
    (h1 : Follows r one one') (n : ℤ) : Follows r (do times n (← one)) (do times' n (← one')) :=
  Follows.bind h1 fun _ _ h => ht n h

theorem follows_divisible (hz : ∀ {a a'}, r a a' → Follows Eq (isZero a) (isZero' a'))
    (hd : ∀ {a b a' b'}, r a a' → r b b' → Follows (Option.Rel r) (tryDiv a b) (tryDiv' a' b'))
    (ha : r a a') (hb : r b b') :
    Follows Eq (do if ← isZero b then isZero a else return (← tryDiv a b).isSome)
      (do if ← isZero' b' then isZero' a' else return (← tryDiv' a' b').isSome) :=
  Follows.bindIf (hz hb) (hz ha) (Follows.isSome (hd ha hb))

theorem follows_associates
    (hd : ∀ {a b a' b'}, r a a' → r b b' → Follows Eq (divisible a b) (divisible' a' b'))
    (ha : r a a') (hb : r b b') :
    Follows Eq (do if ← divisible a b then divisible b a else return false)
      (do if ← divisible' a' b' then divisible' b' a' else return false) :=
  Follows.bindIf (hd ha hb) (hd hb ha) (.ok rfl)

theorem follows_quo (hd : ∀ {a b a' b'}, r a a' → r b b' →
      Follows (fun p q => r p.1 q.1 ∧ r p.2 q.2) (quoRem a b) (quoRem' a' b'))
    (ha : r a a') (hb : r b b') :
    Follows r (do return (← quoRem a b).1) (do return (← quoRem' a' b').1) :=
  Follows.bind (hd ha hb) fun _ _ h => .ok h.1

theorem follows_rem (hd : ∀ {a b a' b'}, r a a' → r b b' →
      Follows (fun p q => r p.1 q.1 ∧ r p.2 q.2) (quoRem a b) (quoRem' a' b'))
    (ha : r a a') (hb : r b b') :
    Follows r (do return (← quoRem a b).2) (do return (← quoRem' a' b').2) :=
  Follows.bind (hd ha hb) fun _ _ h => .ok h.2

theorem follows_reduced (hz : ∀ {a a'}, r a a' → Follows Eq (isZero a) (isZero' a'))
    (hq : ∀ {a b a' b'}, r a a' → r b b' → Follows r (quo a b) (quo' a' b'))
    (ha : r a a') (hb : r b b') :
    Follows Eq (do if ← isZero b then return true else isZero (← quo a b))
      (do if ← isZero' b' then return true else isZero' (← quo' a' b')) :=
  Follows.bindIf (hz hb) (.ok rfl) (Follows.bind (hq ha hb) fun _ _ h => hz h)

theorem follows_lcm (hz : ∀ {a a'}, r a a' → Follows Eq (isZero a) (isZero' a'))
    (hg : ∀ {a b a' b'}, r a a' → r b b' → Follows r (gcd a b) (gcd' a' b'))
    (hq : ∀ {a b a' b'}, r a a' → r b b' → Follows r (quo a b) (quo' a' b'))
    (hm : ∀ {a b a' b'}, r a a' → r b b' → Follows r (mul a b) (mul' a' b'))
    (ha : r a a') (hb : r b b') :
    Follows r (do let g ← gcd a b; if ← isZero g then return g else mul (← quo a g) b)
      (do let g ← gcd' a' b'; if ← isZero' g then return g else mul' (← quo' a' g) b') :=
  Follows.bind (hg ha hb) fun _ _ h => Follows.bindIf (hz h) (.ok h)
    (Follows.bind (hq ha h) fun _ _ h => hm h hb)

theorem follows_relativePrimes
    (hg : ∀ {a b a' b'}, r a a' → r b b' → Follows r (gcd a b) (gcd' a' b'))
    (hi : ∀ {a a'}, r a a' → Follows Eq (invertible a) (invertible' a')) (ha : r a a') (hb : r b b') :
    Follows Eq (do let g ← gcd a b; invertible g) (do let g ← gcd' a' b'; invertible' g) :=
  Follows.bind (hg ha hb) fun _ _ h => hi h

theorem follows_div (hi : ∀ {a a'}, r a a' → Follows r (inv a) (inv' a'))
    (hm : ∀ {a b a' b'}, r a a' → r b b' → Follows r (mul a b) (mul' a' b'))
    (ha : r a a') (hb : r b b') : Follows r (do mul a (← inv b)) (do mul' a' (← inv' b')) :=
  Follows.bind (hi hb) fun _ _ h => hm ha h

theorem follows_fieldPower {c₁ c₂ : Cfg} (hc : Cfg.Relaxes c₁ c₂)
    (hz : ∀ {a a'}, r a a' → Follows Eq (isZero a) (isZero' a')) (h0 : Follows r zero zero')
    (h1 : Follows r one one')
    (hm : ∀ {a b a' b'}, r a a' → r b b' → Follows r (mul a b) (mul' a' b'))
    (hs : ∀ {a a'}, r a a' → Follows r (square a) (square' a'))
    (hi : ∀ {a a'}, r a a' → Follows (Option.Rel r) (tryInv a) (tryInv' a')) (n : ℤ) (ha : r a a') :
    Follows r
      (do if ← isZero a then zero
          else @powerDefault c₁ E one mul square (fun e => do Res.unwrap (← tryInv e)) n a)
      (do if ← isZero' a' then zero'
          else @powerDefault c₂ F one' mul' square' (fun e => do Res.unwrap (← tryInv' e)) n a') :=
  Follows.bindIf (hz ha) h0 (follows_powerDefault (r := r) hc h1 hm hs (fun h => follows_unwrapInv r hi h) n ha)

theorem follows_lessThan
    (he : ∀ {a b a' b'}, r a a' → r b b' → Follows Eq (equals a b) (equals' a' b'))
    (hl : ∀ {a b a' b'}, r a a' → r b b' → Follows Eq (leq a b) (leq' a' b'))
    (ha : r a a') (hb : r b b') :
    Follows Eq (do if !(← equals a b) then leq a b else return false)
      (do if !(← equals' a' b') then leq' a' b' else return false) :=
  Follows.bind (he ha hb) fun x y h => by subst h; exact Follows.same (hl ha hb) (.ok rfl)

theorem follows_comparable
    (hl : ∀ {a b a' b'}, r a a' → r b b' → Follows Eq (leq a b) (leq' a' b'))
    (ha : r a a') (hb : r b b') :
    Follows Eq (do if ← leq a b then return true else leq b a)
      (do if ← leq' a' b' then return true else leq' b' a') :=
  Follows.bindIf (hl ha hb) (.ok rfl) (hl hb ha)

end provided

section blanket

variable {c₁ c₂ : Cfg} {E F : Type} {r : E → F → Prop} {A : @FieldOps c₁ E} {B : @FieldOps c₂ F}

/-- The blanket `impl IntegralDomain` of a field. -/
theorem FollowsField.toIntegralDomain (h : FollowsField r A B) :
    FollowsIntegralDomain r (@FieldOps.toIntegralDomain c₁ E A) (@FieldOps.toIntegralDomain c₂ F B) :=
  have hd {a b a' b'} (ha : r a a') (hb : r b b') : Follows (Option.Rel r)
      (@IntegralDomainOps.tryDiv c₁ E (@FieldOps.toIntegralDomain c₁ E A) a b)
      (@IntegralDomainOps.tryDiv c₂ F (@FieldOps.toIntegralDomain c₂ F B) a' b') :=
    Follows.bind (h.div ha hb) fun _ _ h => .ok (.some h)
  have hdiv {a b a' b'} (ha : r a a') (hb : r b b') : Follows Eq
      (@IntegralDomainOps.divisible c₁ E (@FieldOps.toIntegralDomain c₁ E A) a b)
      (@IntegralDomainOps.divisible c₂ F (@FieldOps.toIntegralDomain c₂ F B) a' b') :=
    follows_divisible r h.isZero hd ha hb
  { toFollowsUnitaryRing := h.toFollowsUnitaryRing
    tryDiv := hd
    divisible := hdiv
    associates := follows_associates r hdiv
    associateRepr := fun ha => Follows.bindIf (h.isZero ha) h.zero h.one
    associateCoef := h.inv }

/-- The blanket `impl EuclideanDomain` of a field. -/
theorem FollowsField.toEuclidean (h : FollowsField r A B) :
    FollowsEuclideanDomain r (@FieldOps.toEuclidean c₁ E A) (@FieldOps.toEuclidean c₂ F B) :=
  have hqr {a b a' b'} (ha : r a a') (hb : r b b') : Follows (fun p q => r p.1 q.1 ∧ r p.2 q.2)
      (@EuclideanDomainOps.quoRem c₁ E (@FieldOps.toEuclidean c₁ E A) a b)
      (@EuclideanDomainOps.quoRem c₂ F (@FieldOps.toEuclidean c₂ F B) a' b') :=
    Follows.check (h.isZero hb) (Follows.bind (h.div ha hb) fun _ _ hx => Follows.bind h.zero
      fun _ _ hy => .ok ⟨hx, hy⟩)
  have hg {a b a' b'} (ha : r a a') (hb : r b b') : Follows r
      (@EuclideanDomainOps.gcd c₁ E (@FieldOps.toEuclidean c₁ E A) a b)
      (@EuclideanDomainOps.gcd c₂ F (@FieldOps.toEuclidean c₂ F B) a' b') :=
    Follows.bindIf (Follows.bindIf (h.isZero ha) (h.isZero hb) (.ok rfl)) h.zero h.one
  { toFollowsIntegralDomain := h.toIntegralDomain
    quoRem := hqr
    quo := fun ha hb => Follows.check (h.isZero hb) (h.div ha hb)
    rem := fun _ hb => Follows.check (h.isZero hb) h.zero
    reduced := fun ha hb => Follows.bindIf (h.isZero ha) (.ok rfl) (h.isZero hb)
    gcd := hg
    lcm := fun ha hb => Follows.bindIf (Follows.bindIf (h.isZero ha) (.ok rfl) (h.isZero hb)) h.zero h.one
    extendedGcd := fun ha hb => follows_extendedGcd (r := r) h.isZero h.one h.zero hqr
      h.sub h.mul ha hb
    relativePrimes := follows_relativePrimes r hg h.invertible }

end blanket

end Abstalg
