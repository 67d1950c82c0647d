import Verif.Proofs.Stateful

/-! # Tracking through the provided methods of the traits -/

set_option linter.unusedSectionVars false

set_option autoImplicit false

namespace Abstalg.Stateful

section provided

variable {σ E F : Type} {I : σ → Prop} (r : E → F → Prop) {equals : E → E → St σ Bool} {equals' : F → F → Res Bool}
  {isZero isOne : E → St σ Bool} {isZero' isOne' : F → Res Bool} {zero one : St σ E} {zero' one' : Res F}
  {add mul sub : E → E → St σ E} {add' mul' sub' : F → F → Res F}
  {neg double square inv : E → St σ E} {neg' double' square' inv' : F → Res F}
  {tryInv : E → St σ (Option E)} {tryInv' : F → Res (Option F)}
  {tryDiv : E → E → St σ (Option E)} {tryDiv' : F → F → Res (Option F)}
  {divisible leq : E → E → St σ Bool} {divisible' leq' : F → F → Res Bool}
  {quoRem : E → E → St σ (E × E)} {quoRem' : F → F → Res (F × F)}
  {quo gcd : E → E → St σ E} {quo' gcd' : F → F → Res F}
  {invertible : E → St σ Bool} {invertible' : F → Res Bool}
  {times : ℤ → E → St σ E} {times' : ℤ → F → Res F}
  {a b : E} {a' b' : F}

theorem tracks_isDefault (h : ∀ {a b a' b'}, r a a' → r b b' → Tracks I Eq (equals a b) (equals' a' b'))
    (h1 : Tracks I r one one') (ha : r a a') :
    Tracks I Eq (do equals a (← one)) (do equals' a' (← one')) :=
  Tracks.bind h1 fun _ _ hb => h ha hb

theorem tracks_utimes (h0 : Tracks I r zero zero')
    (hadd : ∀ {a b a' b'}, r a a' → r b b' → Tracks I r (add a b) (add' a' b'))
    (hdouble : ∀ {a a'}, r a a' → Tracks I r (double a) (double' a')) (n : ℕ) (ha : r a a') :
    Tracks I r (do let res ← zero; timesLoop add double n res a)
      (do let res ← zero'; Abstalg.timesLoop add' double' n res a') :=
  Tracks.bind h0 fun _ _ h => tracks_timesLoop (r := r) hadd hdouble n h ha

theorem tracks_unwrapInv (h : ∀ {a a'}, r a a' → Tracks I (Option.Rel r) (tryInv a) (tryInv' a'))
    (ha : r a a') : Tracks I r (do Res.unwrap (← tryInv a)) (do Res.unwrap (← tryInv' a')) :=
  Tracks.bind (h ha) fun _ _ h => Tracks.unwrap h

theorem tracks_sub (hneg : ∀ {a a'}, r a a' → Tracks I r (neg a) (neg' a'))
    (hadd : ∀ {a b a' b'}, r a a' → r b b' → Tracks I r (add a b) (add' a' b'))
    (ha : r a a') (hb : r b b') :
    Tracks I r (do let e ← neg b; add e a) (do let e ← neg' b'; add' e a') :=
  Tracks.bind (hneg hb) fun _ _ h => hadd h ha

theorem tracks_subAssign (hneg : ∀ {a a'}, r a a' → Tracks I r (neg a) (neg' a'))
    (hadd : ∀ {a b a' b'}, r a a' → r b b' → Tracks I r (add a b) (add' a' b'))
    (ha : r a a') (hb : r b b') :
    Tracks I r (do add a (← neg b)) (do add' a' (← neg' b')) :=
  Tracks.bind (hneg hb) fun _ _ h => hadd ha h

theorem tracks_int (ht : ∀ n {a a'}, r a a' → Tracks I r (times n a) (times' n a'))
    (h1 : Tracks I r one one') (n : ℤ) : Tracks I r (do times n (← one)) (do times' n (← one')) :=
  Tracks.bind h1 fun _ _ h => ht n h

theorem tracks_divisible (hz : ∀ {a a'}, r a a' → Tracks I Eq (isZero a) (isZero' a'))
    (hd : ∀ {a b a' b'}, r a a' → r b b' → Tracks I (Option.Rel r) (tryDiv a b) (tryDiv' a' b'))
    (ha : r a a') (hb : r b b') :
    Tracks I Eq (do if ← isZero b then isZero a else return (← tryDiv a b).isSome)
      (do if ← isZero' b' then isZero' a' else return (← tryDiv' a' b').isSome) :=
  Tracks.bindIf (hz hb) (hz ha) (Tracks.isSome (hd ha hb))

theorem tracks_associates
    (hd : ∀ {a b a' b'}, r a a' → r b b' → Tracks I Eq (divisible a b) (divisible' a' b'))
    (ha : r a a') (hb : r b b') :
    Tracks I Eq (do if ← divisible a b then divisible b a else return false)
      (do if ← divisible' a' b' then divisible' b' a' else return false) :=
  Tracks.bindIf (hd ha hb) (hd hb ha) (.ok rfl)

theorem tracks_quo (hd : ∀ {a b a' b'}, r a a' → r b b' →
      Tracks I (fun p q => r p.1 q.1 ∧ r p.2 q.2) (quoRem a b) (quoRem' a' b'))
    (ha : r a a') (hb : r b b') :
    Tracks I r (do return (← quoRem a b).1) (do return (← quoRem' a' b').1) :=
  Tracks.bind (hd ha hb) fun _ _ h => .ok h.1

theorem tracks_rem (hd : ∀ {a b a' b'}, r a a' → r b b' →
      Tracks I (fun p q => r p.1 q.1 ∧ r p.2 q.2) (quoRem a b) (quoRem' a' b'))
    (ha : r a a') (hb : r b b') :
    Tracks I r (do return (← quoRem a b).2) (do return (← quoRem' a' b').2) :=
  Tracks.bind (hd ha hb) fun _ _ h => .ok h.2

theorem tracks_reduced (hz : ∀ {a a'}, r a a' → Tracks I Eq (isZero a) (isZero' a'))
    (hq : ∀ {a b a' b'}, r a a' → r b b' → Tracks I r (quo a b) (quo' a' b'))
    (ha : r a a') (hb : r b b') :
    Tracks I Eq (do if ← isZero b then return true else isZero (← quo a b))
      (do if ← isZero' b' then return true else isZero' (← quo' a' b')) :=
  Tracks.bindIf (hz hb) (.ok rfl) (Tracks.bind (hq ha hb) fun _ _ h => hz h)

theorem tracks_lcm (hz : ∀ {a a'}, r a a' → Tracks I Eq (isZero a) (isZero' a'))
    (hg : ∀ {a b a' b'}, r a a' → r b b' → Tracks I r (gcd a b) (gcd' a' b'))
    (hq : ∀ {a b a' b'}, r a a' → r b b' → Tracks I r (quo a b) (quo' a' b'))
    (hm : ∀ {a b a' b'}, r a a' → r b b' → Tracks I r (mul a b) (mul' a' b'))
    (ha : r a a') (hb : r b b') :
    Tracks I r (do let g ← gcd a b; if ← isZero g then return g else mul (← quo a g) b)
      (do let g ← gcd' a' b'; if ← isZero' g then return g else mul' (← quo' a' g) b') :=
  Tracks.bind (hg ha hb) fun _ _ h => Tracks.bindIf (hz h) (.ok h)
    (Tracks.bind (hq ha h) fun _ _ h => hm h hb)

theorem tracks_relativePrimes
    (hg : ∀ {a b a' b'}, r a a' → r b b' → Tracks I r (gcd a b) (gcd' a' b'))
    (hi : ∀ {a a'}, r a a' → Tracks I Eq (invertible a) (invertible' a')) (ha : r a a') (hb : r b b') :
    Tracks I Eq (do let g ← gcd a b; invertible g) (do let g ← gcd' a' b'; invertible' g) :=
  Tracks.bind (hg ha hb) fun _ _ h => hi h

theorem tracks_div (hi : ∀ {a a'}, r a a' → Tracks I r (inv a) (inv' a'))
    (hm : ∀ {a b a' b'}, r a a' → r b b' → Tracks I r (mul a b) (mul' a' b'))
    (ha : r a a') (hb : r b b') : Tracks I r (do mul a (← inv b)) (do mul' a' (← inv' b')) :=
  Tracks.bind (hi hb) fun _ _ h => hm ha h

theorem tracks_fieldPower [Cfg]
    (hz : ∀ {a a'}, r a a' → Tracks I Eq (isZero a) (isZero' a')) (h0 : Tracks I r zero zero')
    (h1 : Tracks I r one one')
    (hm : ∀ {a b a' b'}, r a a' → r b b' → Tracks I r (mul a b) (mul' a' b'))
    (hs : ∀ {a a'}, r a a' → Tracks I r (square a) (square' a'))
    (hi : ∀ {a a'}, r a a' → Tracks I (Option.Rel r) (tryInv a) (tryInv' a')) (n : ℤ) (ha : r a a') :
    Tracks I r
      (do if ← isZero a then zero
          else powerDefault one mul square (fun e => do Res.unwrap (← tryInv e)) n a)
      (do if ← isZero' a' then zero'
          else Abstalg.powerDefault one' mul' square' (fun e => do Res.unwrap (← tryInv' e)) n a') :=
  Tracks.bindIf (hz ha) h0 (tracks_powerDefault (r := r) h1 hm hs (fun h => tracks_unwrapInv r hi h) n ha)

theorem tracks_lessThan
    (he : ∀ {a b a' b'}, r a a' → r b b' → Tracks I Eq (equals a b) (equals' a' b'))
    (hl : ∀ {a b a' b'}, r a a' → r b b' → Tracks I Eq (leq a b) (leq' a' b'))
    (ha : r a a') (hb : r b b') :
    Tracks I Eq (do if !(← equals a b) then leq a b else return false)
      (do if !(← equals' a' b') then leq' a' b' else return false) :=
  Tracks.bind (he ha hb) fun x y h => by subst h; exact Tracks.same (hl ha hb) (.ok rfl)

theorem tracks_comparable
    (hl : ∀ {a b a' b'}, r a a' → r b b' → Tracks I Eq (leq a b) (leq' a' b'))
    (ha : r a a') (hb : r b b') :
    Tracks I Eq (do if ← leq a b then return true else leq b a)
      (do if ← leq' a' b' then return true else leq' b' a') :=
  Tracks.bindIf (hl ha hb) (.ok rfl) (hl hb ha)

end provided

section blanket

variable [Cfg] {σ : Type} {I : σ → Prop} {E F : Type} {r : E → F → Prop} {A : FieldOps σ E} {B : Abstalg.FieldOps F}

/-- The blanket `impl IntegralDomain` of a field. -/
theorem TracksField.toIntegralDomain (h : TracksField I r A B) :
    TracksIntegralDomain I r (FieldOps.toIntegralDomain A) (Abstalg.FieldOps.toIntegralDomain B) :=
  have hd {a b a' b'} (ha : r a a') (hb : r b b') : Tracks I (Option.Rel r)
      (IntegralDomainOps.tryDiv (FieldOps.toIntegralDomain A) a b)
      (Abstalg.IntegralDomainOps.tryDiv (Abstalg.FieldOps.toIntegralDomain B) a' b') :=
    Tracks.bind (h.div ha hb) fun _ _ h => .ok (.some h)
  have hdiv {a b a' b'} (ha : r a a') (hb : r b b') : Tracks I Eq
      (IntegralDomainOps.divisible (FieldOps.toIntegralDomain A) a b)
      (Abstalg.IntegralDomainOps.divisible (Abstalg.FieldOps.toIntegralDomain B) a' b') :=
    tracks_divisible r h.isZero hd ha hb
  { toTracksUnitaryRing := h.toTracksUnitaryRing
    tryDiv := hd
    divisible := hdiv
    associates := tracks_associates r hdiv
    associateRepr := fun ha => Tracks.bindIf (h.isZero ha) h.zero h.one
    associateCoef := h.inv }

/-- The blanket `impl EuclideanDomain` of a field. -/
theorem TracksField.toEuclidean (h : TracksField I r A B) :
    TracksEuclideanDomain I r (FieldOps.toEuclidean A) (Abstalg.FieldOps.toEuclidean B) :=
  have hqr {a b a' b'} (ha : r a a') (hb : r b b') : Tracks I (fun p q => r p.1 q.1 ∧ r p.2 q.2)
      (EuclideanDomainOps.quoRem (FieldOps.toEuclidean A) a b)
      (Abstalg.EuclideanDomainOps.quoRem (Abstalg.FieldOps.toEuclidean B) a' b') :=
    Tracks.check (h.isZero hb) (Tracks.bind (h.div ha hb) fun _ _ hx => Tracks.bind h.zero
      fun _ _ hy => .ok ⟨hx, hy⟩)
  have hg {a b a' b'} (ha : r a a') (hb : r b b') : Tracks I r
      (EuclideanDomainOps.gcd (FieldOps.toEuclidean A) a b)
      (Abstalg.EuclideanDomainOps.gcd (Abstalg.FieldOps.toEuclidean B) a' b') :=
    Tracks.bindIf (Tracks.bindIf (h.isZero ha) (h.isZero hb) (.ok rfl)) h.zero h.one
  { toTracksIntegralDomain := h.toIntegralDomain
    quoRem := hqr
    quo := fun ha hb => Tracks.check (h.isZero hb) (h.div ha hb)
    rem := fun _ hb => Tracks.check (h.isZero hb) h.zero
    reduced := fun ha hb => Tracks.bindIf (h.isZero ha) (.ok rfl) (h.isZero hb)
    gcd := hg
    lcm := fun ha hb => Tracks.bindIf (Tracks.bindIf (h.isZero ha) (.ok rfl) (h.isZero hb)) h.zero h.one
    extendedGcd := fun ha hb => tracks_extendedGcd (r := r) h.isZero h.one h.zero hqr
      h.sub h.mul ha hb
    relativePrimes := tracks_relativePrimes r hg h.invertible }

end blanket

end Abstalg.Stateful
