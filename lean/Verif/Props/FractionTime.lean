import Verif.Spec.FractionTime
import Verif.Props.Charges
import Verif.Props.Cost
import Verif.Props.Termination

/-! # The time of fractions and of residues (C104)

Every method of the fractions, and of the residues, over a base whose methods take bounded times: how long it takes at
most. With the bound for the loop of `gcd` over machine integers this gives the number of machine operations of
matrices and polynomials of machine fractions. -/

set_option linter.unusedSectionVars false

set_option autoImplicit false

namespace Abstalg.Stateful

open Counted (call)

section combinators

variable {σ α β γ δ : Type} {μ : σ → ℕ} {I : σ → Prop} {r : α → β → Prop} {q : γ → δ → Prop}

theorem Elapses.ok {a : α} {b : β} (h : r a b) : Elapses μ I r (pure a) (pure b) 0 0 := fun _ hs => ⟨h, hs, le_rfl, le_rfl⟩

theorem Elapses.bind' {c : St σ α} {d : Res β} {f : α → St σ γ} {g : β → Res δ} {m n : ℕ}
    (h : Elapses μ I r c d 0 m) (hf : ∀ a b, d = .ok b → r a b → Elapses μ I q (f a) (g b) 0 n) :
    Elapses μ I q (c >>= f) (d >>= g) 0 (m + n) := by
  intro s hs
  have := h s hs
  show match St.bind c f s, d.bind g with
    | .ok u t, .ok u' => q u u' ∧ I t ∧ μ s + 0 ≤ μ t ∧ μ t ≤ μ s + (m + n)
    | .panic t, .panic => I t ∧ μ s ≤ μ t ∧ μ t ≤ μ s + (m + n)
    | .diverge, .diverge => True
    | _, _ => False
  unfold St.bind
  revert this
  cases c s with
  | ok a t =>
    cases hd : d with
    | ok b =>
      intro this
      have h2 := hf a b hd this.1 t this.2.1
      have h3 := this.2.2
      show match f a t, g b with
        | .ok u t, .ok u' => q u u' ∧ I t ∧ μ s + 0 ≤ μ t ∧ μ t ≤ μ s + (m + n)
        | .panic t, .panic => I t ∧ μ s ≤ μ t ∧ μ t ≤ μ s + (m + n)
        | .diverge, .diverge => True
        | _, _ => False
      revert h2
      cases f a t <;> cases g b <;> first | exact id | skip
      · exact fun h2 => ⟨h2.1, h2.2.1, by have := h2.2.2; omega, by have := h2.2.2; omega⟩
      · exact fun h2 => ⟨h2.1, by have := h2.2; omega, by have := h2.2; omega⟩
    | panic => exact False.elim
    | diverge => exact False.elim
  | panic t =>
    cases d with
    | ok b => exact False.elim
    | panic => exact fun h => ⟨h.1, h.2.1, h.2.2.trans (by omega)⟩
    | diverge => exact False.elim
  | diverge =>
    cases d with
    | ok b => exact False.elim
    | panic => exact False.elim
    | diverge => exact id

theorem Elapses.bind {c : St σ α} {d : Res β} {f : α → St σ γ} {g : β → Res δ} {m n : ℕ}
    (h : Elapses μ I r c d 0 m) (hf : ∀ a b, r a b → Elapses μ I q (f a) (g b) 0 n) :
    Elapses μ I q (c >>= f) (d >>= g) 0 (m + n) := h.bind' fun a b _ => hf a b

theorem Elapses.le {c : St σ α} {d : Res β} {m n : ℕ} (h : Elapses μ I r c d 0 m) (hn : m ≤ n) : Elapses μ I r c d 0 n :=
  elapses_mono h le_rfl hn

theorem Elapses.same {p : Prop} {inst : Decidable p} {c c' : St σ α} {d d' : Res β} {m n : ℕ}
    (h : Elapses μ I r c d 0 m) (h' : Elapses μ I r c' d' 0 n) :
    Elapses μ I r (if p then c else c') (if p then d else d') 0 (max m n) := by
  by_cases hp : p
  · rw [if_pos hp, if_pos hp]; exact h.le (le_max_left _ _)
  · rw [if_neg hp, if_neg hp]; exact h'.le (le_max_right _ _)

theorem Elapses.lift {c : Res α} : Elapses μ I Eq (liftM c : St σ α) c 0 0 := by
  intro s hs
  cases c
  · exact ⟨rfl, hs, le_rfl, le_rfl⟩
  · exact ⟨hs, le_rfl, le_rfl⟩
  · trivial

theorem Elapses.unwrap {x : Option α} {y : Option β} (h : Option.Rel r x y) :
    Elapses μ I r (liftM (Res.unwrap x)) (Res.unwrap y) 0 0 := by
  intro s hs
  cases h with
  | some h => exact ⟨h, hs, le_rfl, le_rfl⟩
  | none => exact ⟨hs, le_rfl, le_rfl⟩

theorem Elapses.bindIf {c : St σ Bool} {d : Res Bool} {x y : St σ γ} {x' y' : Res δ} {l m n : ℕ}
    (h : Elapses μ I Eq c d 0 l) (h1 : Elapses μ I q x x' 0 m) (h2 : Elapses μ I q y y' 0 n) :
    Elapses μ I q (c >>= fun b => if b = true then x else y) (d >>= fun b => if b = true then x' else y') 0 (l + max m n) :=
  h.bind fun a b hab => by
    subst hab
    exact Elapses.same h1 h2

theorem Elapses.check {c : St σ Bool} {d : Res Bool} {f : Unit → St σ γ} {g : Unit → Res δ} {m n : ℕ}
    (h : Elapses μ I Eq c d 0 m) (h' : Elapses μ I q (f ()) (g ()) 0 n) :
    Elapses μ I q (c >>= fun b => liftM (Res.assert (!b)) >>= f) (d >>= fun b => Res.assert (!b) >>= g) 0 (m + n) :=
  h.bind fun a b hab => by
    subst hab
    exact (Elapses.bind Elapses.lift fun _ _ _ => h').le (by omega)

/-- A computation is a call of a method of which it does not exceed the time. -/
theorem Elapses.charges {x : St σ α} {y : Res β} {hi : Call → ℕ} {c : Call} {m : ℕ} (h : Elapses μ I r x y 0 m) (hm : m ≤ hi c) :
    Charges (.clock μ (fun _ => 0) hi) I r x (call c y) := by
  have e1 : ∀ l : List Call, (l.map fun d => 0 * if d = c then 1 else 0).sum = 0 := fun l => by
    induction l with
    | nil => rfl
    | cons d l ih => rw [List.map_cons, List.sum_cons, ih, Nat.zero_mul]
  have e2 : hi c ≤ Call.total fun d => hi d * if d = c then 1 else 0 := by
    unfold Call.total
    have hc : c ∈ Call.all := by cases c <;> decide
    refine le_trans (le_of_eq ?_) (List.single_le_sum (fun _ _ => Nat.zero_le _) _ (List.mem_map_of_mem hc))
    rw [if_pos rfl, Nat.mul_one]
  have key : ∀ s t, μ s ≤ μ t → μ t ≤ μ s + m → (Account.clock μ (fun _ => 0) hi).rel (fun d => if d = c then 1 else 0) s t := by
    intro s t h1 h2
    exact ⟨by rw [Call.total, e1]; exact h1, h2.trans (Nat.add_le_add_left (hm.trans e2) _)⟩
  intro s hs
  have h1 := h s hs
  show (x s).Bills _ I r s y fun d => if d = c then 1 else 0
  revert h1
  cases x s with
  | ok u t =>
    cases y with
    | ok v => exact fun h => ⟨h.1, h.2.1, key _ _ h.2.2.1 h.2.2.2⟩
    | panic => exact False.elim
    | diverge => exact False.elim
  | panic t =>
    cases y with
    | ok v => exact False.elim
    | panic => exact fun h => ⟨h.1, key _ _ h.2.1 h.2.2⟩
    | diverge => exact False.elim
  | diverge =>
    cases y with
    | ok v => exact False.elim
    | panic => exact False.elim
    | diverge => exact id

end combinators

section euclid

variable {σ E F : Type} [Cfg] {μ : σ → ℕ} {I : σ → Prop} {r : E → F → Prop} {p : Prices} {k : ℕ}
  {A : EuclideanDomainOps σ E} {B : Abstalg.EuclideanDomainOps F}

theorem elapses_gcdWithin (h : TimedEuclidean μ I r p k A B) (n : ℕ) {a b : E} {a' b' : F} (ha : r a a') (hb : r b b')
    (hn : Abstalg.gcdWithin B.isZero B.rem n a' b' ≠ .diverge) :
    Elapses μ I r (gcdDefault A.isZero A.rem a b) (Abstalg.gcdWithin B.isZero B.rem n a' b') 0 (p.gcd n) := by
  induction n generalizing a b a' b' with
  | zero => exact absurd rfl hn
  | succ n ih =>
    rw [gcdDefault]
    unfold Abstalg.gcdWithin at hn ⊢
    have key : Elapses μ I r (A.isZero b >>= fun z => if z = true then pure a else A.rem a b >>= fun x => gcdDefault A.isZero A.rem b x)
        (B.isZero b' >>= fun z => if z = true then pure a' else B.rem a' b' >>= fun x => Abstalg.gcdWithin B.isZero B.rem n b' x) 0
        (p.isZero + (p.rem + p.gcd n)) := by
      refine (h.isZero hb).bind' fun z z' hz e => ?_
      subst e
      rw [hz] at hn
      cases z with
      | true => exact (Elapses.ok ha).le (Nat.zero_le _)
      | false =>
        have hn' : (B.rem a' b' >>= fun x => Abstalg.gcdWithin B.isZero B.rem n b' x) ≠ .diverge := hn
        refine (h.rem ha hb).bind' fun x x' hx e => ih hb e ?_
        rw [hx] at hn'
        exact hn'
    refine Elapses.le key (le_of_eq ?_)
    unfold Prices.gcd
    ring

theorem elapses_extendedGcdWithin (h : TimedEuclidean μ I r p k A B) (n : ℕ) {a b : E} {a' b' : F} (ha : r a a') (hb : r b b')
    (hn : Abstalg.extendedGcdWithin B.isZero B.one B.zero B.quoRem B.sub B.mul n a' b' ≠ .diverge) :
    Elapses μ I (fun u v => r u.1 v.1 ∧ r u.2.1 v.2.1 ∧ r u.2.2 v.2.2)
      (extendedGcdDefault A.isZero A.one A.zero A.quoRem A.sub A.mul a b)
      (Abstalg.extendedGcdWithin B.isZero B.one B.zero B.quoRem B.sub B.mul n a' b') 0 (p.extendedGcd n) := by
  induction n generalizing a b a' b' with
  | zero => exact absurd rfl hn
  | succ n ih =>
    rw [extendedGcdDefault]
    unfold Abstalg.extendedGcdWithin at hn ⊢
    have key : Elapses μ I (fun u v => r u.1 v.1 ∧ r u.2.1 v.2.1 ∧ r u.2.2 v.2.2)
        (A.isZero b >>= fun z => if z = true then A.one >>= fun o => A.zero >>= fun y => pure (a, o, y) else
          A.quoRem a b >>= fun x => extendedGcdDefault A.isZero A.one A.zero A.quoRem A.sub A.mul b x.2 >>= fun y =>
            A.mul y.2.2 x.1 >>= fun m => A.sub y.2.1 m >>= fun z => pure (y.1, y.2.2, z))
        (B.isZero b' >>= fun z => if z = true then B.one >>= fun o => B.zero >>= fun y => pure (a', o, y) else
          B.quoRem a' b' >>= fun x => Abstalg.extendedGcdWithin B.isZero B.one B.zero B.quoRem B.sub B.mul n b' x.2 >>= fun y =>
            B.mul y.2.2 x.1 >>= fun m => B.sub y.2.1 m >>= fun z => pure (y.1, y.2.2, z)) 0
        (p.extendedGcd (n + 1)) := by
      refine Elapses.le ((h.isZero hb).bind' (n := p.one + p.zero + p.quoRem + if n = 0 then 0 else
        p.extendedGcd n - p.one - p.zero + p.mul + p.sub) fun z z' hz e => ?_) ?_
      · subst e
        rw [hz] at hn
        cases z with
        | true =>
          refine Elapses.le (h.one.bind fun o o' ho => h.zero.bind fun y y' hy => Elapses.ok ⟨ha, ho, hy⟩) (by omega)
        | false =>
          have hn' : (B.quoRem a' b' >>= fun x => Abstalg.extendedGcdWithin B.isZero B.one B.zero B.quoRem B.sub B.mul n b' x.2 >>= fun y =>
            B.mul y.2.2 x.1 >>= fun m => B.sub y.2.1 m >>= fun z => pure (y.1, y.2.2, z)) ≠ .diverge := hn
          cases n with
          | zero =>
            refine Elapses.le ((h.quoRem ha hb).bind' (n := 0) fun x x' hx e => ?_) (by omega)
            rw [hx] at hn'
            exact absurd rfl hn'
          | succ n =>
            rw [if_neg (Nat.succ_ne_zero n)]
            refine Elapses.le ((h.quoRem ha hb).bind' (n := p.extendedGcd (n + 1) + (p.mul + (p.sub + 0))) fun x x' hx e =>
              (ih hb e.2 ?_).bind fun y y' hy => (h.mul hy.2.2 e.1).bind fun m m' hm => (h.sub hy.2.1 hm).bind fun z z' hz =>
                Elapses.ok ⟨hy.1, hy.2.2, hz⟩) ?_
            · rw [hx] at hn'
              intro hd
              apply hn'
              show (Abstalg.extendedGcdWithin B.isZero B.one B.zero B.quoRem B.sub B.mul (n + 1) b' x'.2 >>= fun y =>
                B.mul y.2.2 x'.1 >>= fun m => B.sub y.2.1 m >>= fun z => pure (y.1, y.2.2, z)) = .diverge
              rw [hd]
              rfl
            · unfold Prices.extendedGcd
              omega
      · unfold Prices.extendedGcd
        cases n with
        | zero => simp; omega
        | succ n =>
          rw [if_neg (Nat.succ_ne_zero n)]
          simp only [Nat.add_sub_cancel, Nat.succ_mul]
          omega
    exact key

theorem TimedEuclidean.gcd_elapses (h : TimedEuclidean μ I r p k A B) {a b : E} {a' b' : F} (ha : r a a') (hb : r b b') :
    Elapses μ I r (A.gcd a b) (B.gcd a' b') 0 (p.gcd k) := by
  have h1 := elapses_gcdWithin h k ha hb (h.within a' b')
  rw [h.gcd, h.gcd', ← (gcdWithin_sound B.isZero B.rem k a' b').resolve_left (h.within a' b')]
  exact h1

theorem TimedEuclidean.extendedGcd_elapses (h : TimedEuclidean μ I r p k A B) {a b : E} {a' b' : F} (ha : r a a') (hb : r b b') :
    Elapses μ I (fun u v => r u.1 v.1 ∧ r u.2.1 v.2.1 ∧ r u.2.2 v.2.2) (A.extendedGcd a b) (B.extendedGcd a' b') 0 (p.extendedGcd k) := by
  have h1 := elapses_extendedGcdWithin h k ha hb (h.extendedWithin a' b')
  rw [h.extendedGcd, h.extendedGcd',
    ← (extendedGcdWithin_sound B.isZero B.one B.zero B.quoRem B.sub B.mul k a' b').resolve_left (h.extendedWithin a' b')]
  exact h1

theorem TimedEuclidean.reduce_elapses (h : TimedEuclidean μ I r p k A B) {x : E × E} {y : F × F} (hx : PRel r x y) :
    Elapses μ I (PRel r) (ReducedFractions.reduce A x) (Abstalg.ReducedFractions.reduce B y) 0 (p.reduce k) := by
  refine Elapses.le (Elapses.check (n := p.gcd k + (p.quo + (p.quo + (p.associateCoef + (p.isOne + max (p.mul + (p.mul + 0)) 0)))))
    (h.isZero hx.2) ?_) ?_
  · refine (h.gcd_elapses hx.1 hx.2).bind fun g g' hg => ?_
    refine (h.quo hx.1 hg).bind fun n n' hn => ?_
    refine (h.quo hx.2 hg).bind fun d d' hd => ?_
    refine (h.associateCoef hd).bind fun c c' hc => ?_
    refine (h.isOne hc).bind fun b b' hb => ?_
    subst hb
    exact Elapses.same ((h.mul hn hc).bind fun _ _ h1 => (h.mul hd hc).bind fun _ _ h2 => .ok ⟨h1, h2⟩) (.ok ⟨hn, hd⟩)
  · unfold Prices.reduce
    omega

theorem TimedEuclidean.reduce_elapses' (h : TimedEuclidean μ I r p k A B) {n d : E} {n' d' : F} (hn : r n n') (hd : r d d') :
    Elapses μ I (PRel r) (ReducedFractions.reduce A (n, d)) (Abstalg.ReducedFractions.reduce B (n', d')) 0 (p.reduce k) :=
  h.reduce_elapses ⟨hn, hd⟩

omit [Cfg] in
theorem elapses_powerLoop_one {add : E → E → St σ E} {double : E → St σ E} {add' : F → F → Res F} {double' : F → Res F} {m n : ℕ}
    (hadd : ∀ {a b a' b'}, r a a' → r b b' → Elapses μ I r (add a b) (add' a' b') 0 m)
    (hdouble : ∀ {a a'}, r a a' → Elapses μ I r (double a) (double' a') 0 n) {z e : E} {z' e' : F} (hz : r z z') (he : r e e') :
    Elapses μ I r (powerLoop add double 1 z e) (Abstalg.powerLoop add' double' 1 z' e') 0 (m + n) := by
  have e1 : (powerLoop add double 1 z e : St σ E) = add z e >>= fun x => double e >>= fun _ => pure x := by
    rw [powerLoop]
    refine congrArg (add z e >>= ·) (funext fun x => congrArg (double e >>= ·) (funext fun y => ?_))
    show powerLoop add double 0 x y = _
    rw [powerLoop]
    rfl
  have e2 : Abstalg.powerLoop add' double' 1 z' e' = add' z' e' >>= fun x => double' e' >>= fun _ => pure x := by
    rw [Abstalg.powerLoop]
    refine congrArg (add' z' e' >>= ·) (funext fun x => congrArg (double' e' >>= ·) (funext fun y => ?_))
    show Abstalg.powerLoop add' double' 0 x y = _
    rw [Abstalg.powerLoop]
    rfl
  rw [e1, e2]
  exact (hadd hz he).bind fun _ _ h1 => (hdouble he).bind fun _ _ _ => .ok h1

/-- C104: each method of the fractions over a base takes at most the time in the table `Prices.fraction`, and does what it does over
the base without a clock. -/
theorem C104_fractions (h : TimedEuclidean μ I r p k A B) :
    ChargesField (.clock μ (fun _ => 0) (p.fraction k)) I (PRel r) (ReducedFractions.ops A) (Abstalg.ReducedFractions.ops B) :=
  have heq {a b a' b'} (ha : PRel r a a') (hb : PRel r b b') :
      Elapses μ I Eq ((ReducedFractions.ops A).equals a b) ((Abstalg.ReducedFractions.ops B).equals a' b') 0 (p.fraction k .equals) :=
    (Elapses.bindIf (h.equals ha.1 hb.1) (h.equals ha.2 hb.2) (.ok rfl)).le (by simp only [Prices.fraction]; omega)
  have hmul {a b a' b'} (ha : PRel r a a') (hb : PRel r b b') :
      Elapses μ I (PRel r) ((ReducedFractions.ops A).mul a b) ((Abstalg.ReducedFractions.ops B).mul a' b') 0 (p.fraction k .mul) :=
    ((h.mul ha.1 hb.1).bind fun _ _ h1 => (h.mul ha.2 hb.2).bind fun _ _ h2 => h.reduce_elapses' h1 h2).le
      (by simp only [Prices.fraction]; omega)
  have hadd {a b a' b'} (ha : PRel r a a') (hb : PRel r b b') :
      Elapses μ I (PRel r) ((ReducedFractions.ops A).add a b) ((Abstalg.ReducedFractions.ops B).add a' b') 0 (p.fraction k .add) :=
    (Elapses.bindIf (h.equals ha.2 hb.2)
      ((h.add ha.1 hb.1).bind fun _ _ h1 => h.reduce_elapses' h1 ha.2)
      ((h.mul ha.1 hb.2).bind fun _ _ h1 => (h.mul ha.2 hb.1).bind fun _ _ h2 => (h.add h1 h2).bind fun _ _ h3 =>
        (h.mul ha.2 hb.2).bind fun _ _ h4 => h.reduce_elapses' h3 h4)).le
      (by simp only [Prices.fraction]; omega)
  have hneg {a a'} (ha : PRel r a a') : Elapses μ I (PRel r) ((ReducedFractions.ops A).toAbelianGroupOps.neg a)
      ((Abstalg.ReducedFractions.ops B).toAbelianGroupOps.neg a') 0 (p.fraction k .neg) :=
    (h.neg ha.1).bind fun _ _ h1 => .ok ⟨h1, ha.2⟩
  have hone : Elapses μ I (PRel r) (ReducedFractions.ops A).one (Abstalg.ReducedFractions.ops B).one 0 (p.fraction k .one) :=
    (h.one.bind fun _ _ h1 => h.one.bind fun _ _ h2 => .ok ⟨h1, h2⟩).le (by simp only [Prices.fraction]; omega)
  have hz : Elapses μ I (PRel r) (ReducedFractions.ops A).zero (Abstalg.ReducedFractions.ops B).zero 0 (p.fraction k .zero) :=
    h.zero.bind fun _ _ h1 => h.one.bind fun _ _ h2 => .ok ⟨h1, h2⟩
  have hzero {a a'} (ha : PRel r a a') :
      Elapses μ I Eq ((ReducedFractions.ops A).isZero a) ((Abstalg.ReducedFractions.ops B).isZero a') 0 (p.fraction k .isZero) :=
    hz.bind fun _ _ h1 => heq ha h1
  have hinv {a a'} (ha : PRel r a a') : Elapses μ I (PRel r) ((ReducedFractions.ops A).inv a)
      ((Abstalg.ReducedFractions.ops B).inv a') 0 (p.fraction k .inv) := by
    refine Elapses.le (Elapses.check (n := p.associateCoef + (p.isOne + max (p.mul + (p.mul + 0)) 0)) (h.isZero ha.1) ?_)
      (by simp only [Prices.fraction]; omega)
    refine (h.associateCoef ha.1).bind fun x x' hx => ?_
    refine (h.isOne hx).bind fun b b' hb => ?_
    subst hb
    exact Elapses.same ((h.mul ha.2 hx).bind fun _ _ h1 => (h.mul ha.1 hx).bind fun _ _ h2 => .ok ⟨h1, h2⟩) (.ok ⟨ha.2, ha.1⟩)
  have htry {a a'} (ha : PRel r a a') : Elapses μ I (Option.Rel (PRel r))
      ((ReducedFractions.ops A).tryInv a) ((Abstalg.ReducedFractions.ops B).tryInv a') 0 (p.fraction k .tryInv) :=
    (Elapses.bindIf (((h.isZero ha.1).bind fun _ _ e => .ok (by rw [e])) :
        Elapses μ I Eq (ReducedFractions.invertible A a) (Abstalg.ReducedFractions.invertible B a') 0 (p.isZero + 0))
      ((h.reduce_elapses' ha.2 ha.1).bind fun _ _ h => .ok (.some h)) (.ok .none)).le (by simp only [Prices.fraction]; omega)
  have hint : Elapses μ I (PRel r) ((ReducedFractions.ops A).int 1) ((Abstalg.ReducedFractions.ops B).int 1) 0 (p.fraction k .int) :=
    (hone.bind fun _ _ h1 => (h.timesOne h1.1).bind fun _ _ h2 => h.reduce_elapses' h2 h1.2).le
      (by simp only [Prices.fraction]; omega)
  have hsub {a b a' b'} (ha : PRel r a a') (hb : PRel r b b') :
      Elapses μ I (PRel r) ((ReducedFractions.ops A).sub a b) ((Abstalg.ReducedFractions.ops B).sub a' b') 0 (p.fraction k .sub) :=
    ((hneg hb).bind fun _ _ h1 => hadd h1 ha).le (by simp only [Prices.fraction]; omega)
  have hdiv {a b a' b'} (ha : PRel r a a') (hb : PRel r b b') :
      Elapses μ I (PRel r) ((ReducedFractions.ops A).div a b) ((Abstalg.ReducedFractions.ops B).div a' b') 0 (p.fraction k .div) :=
    ((hinv hb).bind fun _ _ h1 => hmul ha h1).le (by simp only [Prices.fraction]; omega)
  { equals := fun ha hb => (heq ha hb).charges le_rfl
    zero := hz.charges le_rfl
    isZero := fun ha => (hzero ha).charges le_rfl
    add := fun ha hb => (hadd ha hb).charges le_rfl
    addAssign := fun ha hb => (hadd ha hb).charges le_rfl
    double := fun ha => (hadd ha ha).charges le_rfl
    neg := fun ha => (hneg ha).charges le_rfl
    sub := fun ha hb => (hsub ha hb).charges le_rfl
    one := hone.charges le_rfl
    intOne := hint.charges le_rfl
    mul := fun ha hb => (hmul ha hb).charges le_rfl
    mulAssign := fun ha hb => (hmul ha hb).charges le_rfl
    square := fun ha => (hmul ha ha).charges le_rfl
    tryInv := fun ha => (htry ha).charges le_rfl
    inv := fun ha => (hinv ha).charges le_rfl
    div := fun ha hb => (hdiv ha hb).charges le_rfl }

/-- C104: each method of the residues over a base takes at most the time in the table `Prices.residue`. -/
theorem C104_residues (h : TimedEuclidean μ I r p k A B) {m : E} {m' : F} (hm : r m m') :
    ChargesField (.clock μ (fun _ => 0) (p.residue k)) I r (QuotientField.ops A m) (Abstalg.QuotientField.ops B m') :=
  have hmul {a b a' b'} (ha : r a a') (hb : r b b') :
      Elapses μ I r ((QuotientField.ops A m).mul a b) ((Abstalg.QuotientField.ops B m').mul a' b') 0 (p.residue k .mul) :=
    (h.mul ha hb).bind fun _ _ h1 => h.rem h1 hm
  have hadd {a b a' b'} (ha : r a a') (hb : r b b') :
      Elapses μ I r ((QuotientField.ops A m).add a b) ((Abstalg.QuotientField.ops B m').add a' b') 0 (p.residue k .add) :=
    (h.add ha hb).bind fun _ _ h1 => h.rem h1 hm
  have hneg {a a'} (ha : r a a') : Elapses μ I r ((QuotientField.ops A m).toAbelianGroupOps.neg a)
      ((Abstalg.QuotientField.ops B m').toAbelianGroupOps.neg a') 0 (p.residue k .neg) :=
    (h.neg ha).bind fun _ _ h1 => h.rem h1 hm
  have hzero {a a'} (ha : r a a') :
      Elapses μ I Eq (QuotientField.isZero A m a) (Abstalg.QuotientField.isZero B m' a') 0 (p.residue k .isZero) :=
    h.zero.bind fun _ _ h1 => h.equals ha h1
  have hinv {a a'} (ha : r a a') : Elapses μ I r (QuotientField.inv A m a)
      (Abstalg.QuotientField.inv B m' a') 0 (p.residue k .inv) := by
    refine Elapses.le (Elapses.check (n := p.extendedGcd k + (p.tryInv + (0 + p.residue k .mul))) (hzero ha) ?_)
      (by simp only [Prices.residue]; omega)
    refine (h.extendedGcd_elapses hm ha).bind fun x x' hx => ?_
    refine (h.tryInv hx.1).bind fun b b' hb => ?_
    exact (Elapses.unwrap hb).bind fun c c' hc => hmul hc hx.2.2
  have htry {a a'} (ha : r a a') : Elapses μ I (Option.Rel r)
      ((QuotientField.ops A m).tryInv a) ((Abstalg.QuotientField.ops B m').tryInv a') 0 (p.residue k .tryInv) :=
    (Elapses.bindIf (hzero ha) (.ok .none) ((hinv ha).bind fun _ _ h => .ok (.some h))).le
      (by simp only [Prices.residue]; omega)
  have hint : Elapses μ I r ((QuotientField.ops A m).int 1) ((Abstalg.QuotientField.ops B m').int 1) 0 (p.residue k .int) := by
    refine Elapses.le (h.one.bind fun o o' ho => ?_) (show p.one + (0 + (p.zero + (p.residue k .add + p.residue k .add))) ≤ _ by
      simp only [Prices.residue]; omega)
    show Elapses μ I r (powerDefault (QuotientField.ops A m).zero (QuotientField.ops A m).addAssign (QuotientField.ops A m).double
        (QuotientField.ops A m).neg 1 o)
      (Abstalg.powerDefault (Abstalg.QuotientField.ops B m').zero (Abstalg.QuotientField.ops B m').addAssign
        (Abstalg.QuotientField.ops B m').double (Abstalg.QuotientField.ops B m').neg 1 o') 0 _
    exact Elapses.bind (r := fun x y => x.1 = 1 ∧ y.1 = 1 ∧ r x.2 y.2) (c := pure (1, o)) (d := pure (1, o')) (.ok ⟨rfl, rfl, ho⟩)
      fun x y hxy => by
        obtain ⟨x1, x2⟩ := x
        obtain ⟨y1, y2⟩ := y
        obtain ⟨rfl, rfl, h2⟩ := hxy
        exact h.zero.bind fun _ _ h1 => elapses_powerLoop_one hadd (fun ha => hadd ha ha) h1 h2
  have hsub {a b a' b'} (ha : r a a') (hb : r b b') :
      Elapses μ I r ((QuotientField.ops A m).sub a b) ((Abstalg.QuotientField.ops B m').sub a' b') 0 (p.residue k .sub) :=
    ((hneg hb).bind fun _ _ h1 => hadd h1 ha).le (by simp only [Prices.residue]; omega)
  have hdiv {a b a' b'} (ha : r a a') (hb : r b b') :
      Elapses μ I r ((QuotientField.ops A m).div a b) ((Abstalg.QuotientField.ops B m').div a' b') 0 (p.residue k .div) :=
    ((hinv hb).bind fun _ _ h1 => hmul ha h1).le (by simp only [Prices.residue]; omega)
  { equals := fun ha hb => (h.equals ha hb).charges le_rfl
    zero := h.zero.charges le_rfl
    isZero := fun ha => (hzero ha).charges le_rfl
    add := fun ha hb => (hadd ha hb).charges le_rfl
    addAssign := fun ha hb => (hadd ha hb).charges le_rfl
    double := fun ha => (hadd ha ha).charges le_rfl
    neg := fun ha => (hneg ha).charges le_rfl
    sub := fun ha hb => (hsub ha hb).charges le_rfl
    one := h.one.charges le_rfl
    intOne := hint.charges le_rfl
    mul := fun ha hb => (hmul ha hb).charges le_rfl
    mulAssign := fun ha hb => (hmul ha hb).charges le_rfl
    square := fun ha => (hmul ha ha).charges le_rfl
    tryInv := fun ha => (htry ha).charges le_rfl
    inv := fun ha => (hinv ha).charges le_rfl
    div := fun ha hb => (hdiv ha hb).charges le_rfl }

end euclid

section counting

variable {E : Type} [Cfg]

omit [Cfg] in
theorem elapses_beat {α : Type} {r : α → α → Prop} (hr : ∀ a, r a a) (y : Res α) : Elapses id (fun _ => True) r (beat y) y 0 1 := by
  intro s _
  cases y with
  | ok a => exact ⟨hr a, trivial, Nat.le_succ s, le_rfl⟩
  | panic => exact ⟨trivial, Nat.le_succ s, le_rfl⟩
  | diverge => trivial

/-- C104: in the base that counts its calls every call takes one. -/
theorem C104_counting {B : Abstalg.EuclideanDomainOps E} {k : ℕ} (hg : B.gcd = Abstalg.gcdDefault B.isZero B.rem)
    (hx : B.extendedGcd = Abstalg.extendedGcdDefault B.isZero B.one B.zero B.quoRem B.sub B.mul)
    (hk : ∀ a b, B.gcdWithin k a b ≠ .diverge) (hk' : ∀ a b, B.extendedGcdWithin k a b ≠ .diverge) :
    TimedEuclidean id (fun _ => True) Eq (.flat 1) k (countingEuclidean B) B where
  equals := fun ha hb => by subst ha hb; exact elapses_beat (fun _ => rfl) _
  zero := elapses_beat (fun _ => rfl) _
  isZero := fun ha => by subst ha; exact elapses_beat (fun _ => rfl) _
  add := fun ha hb => by subst ha hb; exact elapses_beat (fun _ => rfl) _
  neg := fun ha => by subst ha; exact elapses_beat (fun _ => rfl) _
  sub := fun ha hb => by subst ha hb; exact elapses_beat (fun _ => rfl) _
  timesOne := fun ha => by subst ha; exact elapses_beat (fun _ => rfl) _
  one := elapses_beat (fun _ => rfl) _
  isOne := fun ha => by subst ha; exact elapses_beat (fun _ => rfl) _
  mul := fun ha hb => by subst ha hb; exact elapses_beat (fun _ => rfl) _
  tryInv := fun ha => by
    subst ha
    refine elapses_beat (fun x => ?_) _
    cases x with
    | none => exact .none
    | some a => exact .some rfl
  associateCoef := fun ha => by subst ha; exact elapses_beat (fun _ => rfl) _
  quo := fun ha hb => by subst ha hb; exact elapses_beat (fun _ => rfl) _
  rem := fun ha hb => by subst ha hb; exact elapses_beat (fun _ => rfl) _
  quoRem := fun ha hb => by subst ha hb; exact elapses_beat (fun _ => ⟨rfl, rfl⟩) _
  gcd := rfl
  gcd' := hg
  within := hk
  extendedGcd := rfl
  extendedGcd' := hx
  extendedWithin := hk'

/-- C104: machine integers that count the calls of their methods; `k` is such that the `k`-th Fibonacci number is at least
`2 ^ (w - 1)`. -/
theorem C104_machine (w : ℕ) [Width w] {k : ℕ} (hk : 2 ^ (w - 1) ≤ Nat.fib k) :
    TimedEuclidean id (fun _ => True) Eq (.flat 1) k (countingEuclidean (CheckedInts.euclidean w)) (CheckedInts.euclidean w) :=
  C104_counting rfl rfl
    (fun a b => by rw [(C62_checked w a b k (.inl hk)).1]; exact (CheckedInts.stops_euclidean w).gcd a b)
    (fun a b => by rw [(C62_checked w a b k (.inl hk)).2]; exact (CheckedInts.stops_euclidean w).extendedGcd a b)

theorem lrel_prel (v : List (E × E)) : LRel (PRel Eq) v v := by
  induction v with
  | nil => exact .nil
  | cons a v ih => exact .cons ⟨rfl, rfl⟩ ih

/-- C104: the number of calls of methods of machine integers in the product of two matrices of machine fractions, in the
determinant of one, in an inverse, and in a product of polynomials. -/
theorem C104_machine_fractions (w : ℕ) [Width w] {k : ℕ} (hk : 2 ^ (w - 1) ≤ Nat.fib k) (n : ℕ) (u v : List (SInt w × SInt w)) :
    let C := ReducedFractions.ops (countingEuclidean (CheckedInts.euclidean w))
    let D := Abstalg.ReducedFractions.ops (CheckedInts.euclidean w)
    Elapses id (fun _ => True) (LRel (PRel Eq)) ((MatrixRing.ops C n).mul u v) ((Abstalg.MatrixRing.ops D n).mul u v) 0
      (2 * n ^ 2 + (4 * k + 21) * n ^ 3) ∧
    Elapses id (fun _ => True) (PRel Eq) (MatrixRing.determinant C n u) (Abstalg.MatrixRing.determinant D n u) 0
      (4 + 4 * n ^ 2 + 5 * n + (2 * k + 9) * (n * (n + 1)) + n * (n - 1) / 2 + (4 * k + 21) * (n * (n * (n - 1) / 2))) ∧
    Elapses id (fun _ => True) (Option.Rel (LRel (PRel Eq))) ((MatrixRing.ops C n).tryInv u) ((Abstalg.MatrixRing.ops D n).tryInv u) 0
      (4 * k + 24 + 2 * n ^ 2 + 4 * (n * (n + 1) / 2 + n * (n - 1)) + 5 * n + (4 * k + 18) * n ^ 2 + n * (n - 1) +
        (8 * k + 42) * (n ^ 2 * (n - 1))) ∧
    Elapses id (fun _ => True) (LRel (PRel Eq)) ((PolynomialAlgebra.euclidean C).mul u v)
      ((Abstalg.PolynomialAlgebra.euclidean D).mul u v) 0 (2 + (4 * k + 21) * (u.length * v.length)) := by
  intro C D
  have h : ChargesField _ _ _ C D := C104_fractions (C104_machine w hk)
  have h1 := C98_time_matrices h n (lrel_prel u) (lrel_prel v)
  have h2 := C98_time_polynomials h (lrel_prel u) (lrel_prel v)
  refine ⟨elapses_mono h1.1 (Nat.zero_le _) (le_of_eq ?_), h1.2.1.le (le_of_eq ?_), h1.2.2.le (le_of_eq ?_), h2.1.le (le_of_eq ?_)⟩ <;>
  · simp only [Prices.fraction, Prices.reduce, Prices.gcd, Prices.flat]
    ring

omit [Cfg] in
theorem lrel_eq (v : List E) : LRel Eq v v := by
  induction v with
  | nil => exact .nil
  | cons a v ih => exact .cons rfl ih

/-- C104: the same for residues of machine integers. Only the inverses of residues need a gcd. -/
theorem C104_machine_residues (w : ℕ) [Width w] {k : ℕ} (hk : 2 ^ (w - 1) ≤ Nat.fib k) (m : SInt w) (n : ℕ) (u v : List (SInt w)) :
    let C := QuotientField.ops (countingEuclidean (CheckedInts.euclidean w)) m
    let D := Abstalg.QuotientField.ops (CheckedInts.euclidean w) m
    Elapses id (fun _ => True) (LRel Eq) ((MatrixRing.ops C n).mul u v) ((Abstalg.MatrixRing.ops D n).mul u v) 0
      (n ^ 2 + 4 * n ^ 3) ∧
    Elapses id (fun _ => True) Eq (MatrixRing.determinant C n u) (Abstalg.MatrixRing.determinant D n u) 0
      (2 + 2 * n ^ 2 + (4 * k + 5) * n + 2 * (n * (n + 1)) + 2 * (n * (n - 1) / 2) + 4 * (n * (n * (n - 1) / 2))) ∧
    Elapses id (fun _ => True) (LRel Eq) ((PolynomialAlgebra.euclidean C).mul u v)
      ((Abstalg.PolynomialAlgebra.euclidean D).mul u v) 0 (1 + 4 * (u.length * v.length)) := by
  intro C D
  have h : ChargesField _ _ _ C D := C104_residues (C104_machine w hk) rfl
  have h1 := C98_time_matrices h n (lrel_eq u) (lrel_eq v)
  have h2 := C98_time_polynomials h (lrel_eq u) (lrel_eq v)
  have hk0 : 1 ≤ k := by
    rcases Nat.eq_zero_or_pos k with rfl | h
    · simp at hk
    · exact h
  obtain ⟨k, rfl⟩ : ∃ j, k = j + 1 := ⟨k - 1, by omega⟩
  refine ⟨elapses_mono h1.1 (Nat.zero_le _) (le_of_eq ?_), h1.2.1.le (le_of_eq ?_), h2.1.le (le_of_eq ?_)⟩ <;>
  · simp only [Prices.residue, Prices.extendedGcd, Prices.flat, Nat.add_sub_cancel]
    ring

end counting

/-! ## Cases -/

namespace FractionTimeExamples

local instance : Cfg := ⟨true, true, 64, by decide⟩

/-- Counting integers of 8 bits. -/
abbrev bytes : EuclideanDomainOps ℕ (SInt 8) := countingEuclidean (CheckedInts.euclidean 8)

/-- The product of two ten by ten matrices of fractions over `i64` makes at most 393200 calls. -/
example (u v : List (SInt 64 × SInt 64)) := (C104_machine_fractions 64 (k := 93) (by norm_num) 10 u v).1

/-- A product of fractions over `i64` makes at most 195 calls, a sum at most 198, an inverse at most 5. -/
example : Prices.fraction (.flat 1) 93 .mul = 195 ∧ Prices.fraction (.flat 1) 93 .add = 198 ∧ Prices.fraction (.flat 1) 93 .inv = 5 :=
  ⟨rfl, rfl, rfl⟩

/-- Half times two thirds, in 8 bits: two products, the test, three tests and two remainders of the gcd, two quotients, the unit and
its test, twelve calls in all. -/
example : (ReducedFractions.ops bytes).mul (⟨1, by decide⟩, ⟨2, by decide⟩)
    (⟨2, by decide⟩, ⟨3, by decide⟩) 0 = .ok (⟨1, by decide⟩, ⟨3, by decide⟩) 12 := by
  have h1 : ∀ s, gcdDefault bytes.isZero bytes.rem ⟨2, by decide⟩ ⟨0, by decide⟩ s = .ok ⟨2, by decide⟩ (s + 1) := fun s => by
    rw [gcdDefault]; rfl
  have h2 : ∀ s, gcdDefault bytes.isZero bytes.rem ⟨6, by decide⟩ ⟨2, by decide⟩ s = .ok ⟨2, by decide⟩ (s + 3) := fun s => by
    rw [gcdDefault]; exact h1 (s + 2)
  have h3 : bytes.gcd ⟨2, by decide⟩ ⟨6, by decide⟩ = fun s => .ok ⟨2, by decide⟩ (s + 5) := funext fun s => by
    show gcdDefault bytes.isZero bytes.rem _ _ s = _
    rw [gcdDefault]; exact h2 (s + 2)
  show (bytes.gcd ⟨2, by decide⟩ ⟨6, by decide⟩ >>= fun g => bytes.quo ⟨2, by decide⟩ g >>= fun n => bytes.quo ⟨6, by decide⟩ g >>= fun d =>
    bytes.associateCoef d >>= fun c => bytes.isOne c >>= fun b =>
      if (!b) = true then bytes.mul n c >>= fun x => bytes.mul d c >>= fun y => pure (x, y) else pure (n, d)) 3 = _
  rw [h3]
  rfl

end FractionTimeExamples

end Abstalg.Stateful
