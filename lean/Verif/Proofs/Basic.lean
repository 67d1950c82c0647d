import Verif.Spec.Contracts
import Mathlib.Algebra.Group.Basic
import Mathlib.Tactic.Ring
import Mathlib.Tactic.LinearCombination
import Mathlib.RingTheory.EuclideanDomain

/-!
# Reasoning about `Returns`, and the default methods of the traits
-/

set_option autoImplicit false

universe u v

namespace Abstalg

section returns

variable {α : Type u} {β : Type v} {mp : Prop}

@[simp] theorem returns_ok {a : α} {P : α → Prop} : Returns mp (.ok a) P ↔ P a := Iff.rfl

@[simp] theorem returns_pure {a : α} {P : α → Prop} :
    Returns mp (pure a : Res α) P ↔ P a := Iff.rfl

@[simp] theorem returns_panic {P : α → Prop} : Returns mp (.panic : Res α) P ↔ mp := Iff.rfl

/-- A computation that returns has returned at its first step. -/
theorem ok_of_bind {α β : Type u} {c : Res α} {f : α → Res β} {b : β} (h : (c >>= f) = .ok b) :
    ∃ a, c = .ok a ∧ f a = .ok b := by
  cases c with
  | ok a => exact ⟨a, rfl, h⟩
  | panic => cases h
  | diverge => cases h

@[simp] theorem res_bind_ok {a : α} {f : α → Res β} : Res.bind (.ok a) f = f a := rfl

@[simp] theorem res_bind_panic {f : α → Res β} : Res.bind .panic f = .panic := rfl

@[simp] theorem ok_bind {α β : Type u} {a : α} {f : α → Res β} : (Res.ok a >>= f) = f a := rfl

@[simp] theorem pure_bind' {α β : Type u} {a : α} {f : α → Res β} : ((pure a : Res α) >>= f) = f a :=
  rfl

@[simp] theorem panic_bind {α β : Type u} {f : α → Res β} :
    ((.panic : Res α) >>= f) = .panic := rfl

@[simp] theorem pure_eq_ok {a : α} : (pure a : Res α) = .ok a := rfl

@[simp] theorem assert_true : Res.assert true = .ok () := rfl
@[simp] theorem assert_false : Res.assert false = .panic := rfl
@[simp] theorem unwrap_some {a : α} : Res.unwrap (some a) = .ok a := rfl
@[simp] theorem unwrap_none : Res.unwrap (none : Option α) = .panic := rfl

theorem Returns.rbind {c : Res α} {f : α → Res β} {P : α → Prop} {Q : β → Prop}
    (h : Returns mp c P) (hf : ∀ a, P a → Returns mp (f a) Q) : Returns mp (Res.bind c f) Q := by
  cases c with
  | ok a => exact hf a h
  | panic => exact h
  | diverge => exact h

theorem Returns.bind {α β : Type u} {c : Res α} {f : α → Res β} {P : α → Prop} {Q : β → Prop}
    (h : Returns mp c P) (hf : ∀ a, P a → Returns mp (f a) Q) : Returns mp (c >>= f) Q :=
  Returns.rbind h hf

theorem Returns.mono {c : Res α} {P Q : α → Prop} (h : Returns mp c P) (hf : ∀ a, P a → Q a) :
    Returns mp c Q := by
  cases c with
  | ok a => exact hf a h
  | panic => exact h
  | diverge => exact h

theorem Returns.weaken {mp' : Prop} {c : Res α} {P : α → Prop} (h : Returns mp c P)
    (hm : mp → mp') : Returns mp' c P := by
  cases c with
  | ok a => exact h
  | panic => exact hm h
  | diverge => exact h

theorem Returns.and {c : Res α} {P Q : α → Prop} (h : Returns mp c P) (h' : Returns mp c Q) :
    Returns mp c fun a => P a ∧ Q a := by
  cases c with
  | ok a => exact ⟨h, h'⟩
  | panic => exact h
  | diverge => exact h

/-- With `mp = False` the computation returns a value. -/
theorem returns_false_iff {c : Res α} {P : α → Prop} :
    Returns False c P ↔ ∃ a, c = .ok a ∧ P a := by
  cases c <;> simp [Returns]

theorem decides_false_iff {c : Res Bool} {p : Prop} [Decidable p] :
    Decides False c p ↔ c = .ok (decide p) := by
  cases c with
  | ok b =>
    show (b = true ↔ p) ↔ _
    rw [Res.ok.injEq]
    constructor
    · intro h
      cases b <;> simpa using h
    · rintro rfl
      exact decide_eq_true_iff
  | panic => exact ⟨False.elim, nofun⟩
  | diverge => exact ⟨False.elim, nofun⟩

/-- Post-conditions may be strengthened by what termination in `ok a` says. -/
theorem Returns.imp_ok {c : Res α} {P Q : α → Prop} (h : Returns mp c P)
    (hf : ∀ a, c = .ok a → P a → Q a) : Returns mp c Q := by
  cases c with
  | ok a => exact hf a rfl h
  | panic => exact h
  | diverge => exact h

theorem Decides.bind {β : Type} {c : Res Bool} {f : Bool → Res β} {p : Prop} {Q : β → Prop}
    (h : Decides mp c p) (ht : p → Returns mp (f true) Q) (hf : ¬ p → Returns mp (f false) Q) :
    Returns mp (c >>= f) Q :=
  Returns.bind h fun b hb => by
    cases b with
    | true => exact ht (hb.1 rfl)
    | false => exact hf fun hp => by simpa using hb.2 hp

theorem Decides.bindD {c : Res Bool} {f : Bool → Res Bool} {p q : Prop}
    (h : Decides mp c p) (ht : p → Decides mp (f true) q) (hf : ¬ p → Decides mp (f false) q) :
    Decides mp (c >>= f) q := Decides.bind h ht hf

theorem Decides.iff {c : Res Bool} {p q : Prop} (h : Decides mp c p) (hpq : p ↔ q) :
    Decides mp c q := Returns.mono h fun _ hb => hb.trans hpq

theorem decides_ok {b : Bool} {p : Prop} (h : b = true ↔ p) : Decides mp (.ok b) p := h

/-- `!c` -/
theorem Decides.not {c : Res Bool} {p : Prop} (h : Decides mp c p) :
    Decides mp (do return !(← c)) (¬ p) :=
  Decides.bind h (fun hp => by simp [hp]) (fun hp => by simp [hp])

/-- short-circuit `c && d` -/
theorem Decides.and {c d : Res Bool} {p q : Prop} (h : Decides mp c p)
    (h' : p → Decides mp d q) :
    Decides mp (do if ← c then d else return false) (p ∧ q) :=
  Decides.bindD h (fun hp => by simpa using (h' hp).iff (by simp [hp]))
    (fun hp => decides_ok (by simp [hp]))

/-- short-circuit `c || d` -/
theorem Decides.or {c d : Res Bool} {p q : Prop} (h : Decides mp c p)
    (h' : ¬ p → Decides mp d q) :
    Decides mp (do if ← c then return true else d) (p ∨ q) :=
  Decides.bindD h (fun hp => decides_ok (by simp [hp]))
    (fun hp => by simpa using (h' hp).iff (by simp [hp]))

/-- A failing `assert!(!c)` -/
theorem Decides.assertNot_panics {c : Res Bool} {p : Prop} {β : Type} {f : PUnit → Res β}
    (h : Decides mp c p) (hp : p) : Panics (c >>= fun b => Res.assert (!b) >>= f) := by
  cases c with
  | ok b =>
    have : b = true := h.2 hp
    subst this
    rfl
  | panic => rfl
  | diverge => exact h.elim

/-- A succeeding `assert!(!c)` -/
theorem Decides.assertNot {c : Res Bool} {p : Prop} {β : Type} {f : PUnit → Res β} {Q : β → Prop}
    (h : Decides mp c p) (hp : ¬ p) (hf : Returns mp (f ()) Q) :
    Returns mp (c >>= fun b => Res.assert (!b) >>= f) Q :=
  Decides.bind h (fun hp' => (hp hp').elim) (fun _ => hf)

/-- A succeeding `assert!(c)` -/
theorem Decides.assert {c : Res Bool} {p : Prop} {β : Type} {f : PUnit → Res β} {Q : β → Prop}
    (h : Decides mp c p) (hp : p) (hf : Returns mp (f ()) Q) :
    Returns mp (c >>= fun b => Res.assert b >>= f) Q :=
  Decides.bind h (fun _ => hf) (fun hp' => (hp' hp).elim)

/-- `if c then t else e` -/
theorem Decides.ite {c : Res Bool} {p : Prop} {β : Type} {t e : Res β} {Q : β → Prop}
    (h : Decides mp c p) (ht : p → Returns mp t Q) (he : ¬ p → Returns mp e Q) :
    Returns mp (c >>= fun b => if b = true then t else e) Q :=
  Decides.bind h ht (by simpa using he)

end returns

section defaults

variable {E : Type} {R : Type u} {mp : Prop} {rep : E → R → Prop}

/-- traits.rs:89-100 `CommuntativeMonoid::times` -/
theorem timesLoop_spec [AddCommMonoid R] {addAssign : E → E → Res E} {double : E → Res E}
    (hadd : ∀ {a b x y}, rep a x → rep b y → Returns mp (addAssign a b) (rep · (x + y)))
    (hdbl : ∀ {a x}, rep a x → Returns mp (double a) (rep · (x + x)))
    (n : ℕ) {r e : E} {y x : R} (hr : rep r y) (he : rep e x) :
    Returns mp (timesLoop addAssign double n r e) (rep · (y + n • x)) := by
  induction n using Nat.strongRecOn generalizing r e y x with
  | _ n ih =>
    rw [timesLoop]
    split
    · rename_i hn
      have hx : n • x = (n % 2) • x + (n / 2) • (x + x) := by
        rw [← two_nsmul, ← mul_nsmul', ← add_nsmul]
        congr 1
        omega
      have key : ∀ r', rep r' (y + (n % 2) • x) → Returns mp
          (do let e' ← double e; timesLoop addAssign double (n / 2) r' e')
          (rep · (y + n • x)) := fun r' hr' => Returns.bind (hdbl he) fun e' he' => by
        have := ih (n / 2) (by omega) hr' he'
        rwa [add_assoc, ← hx] at this
      dsimp only
      split
      · have : n % 2 = 1 := by omega
        exact Returns.bind (hadd hr he) fun r' hr' => key r' (by simpa [this] using hr')
      · have : n % 2 = 0 := by omega
        exact key r (by simpa [this] using hr)
    · rename_i hn
      have : n = 0 := by omega
      simpa [this] using hr

theorem utimes_default [AddCommMonoid R] {zero : Res E} {addAssign : E → E → Res E}
    {double : E → Res E}
    (hzero : Returns mp zero (rep · 0))
    (hadd : ∀ {a b x y}, rep a x → rep b y → Returns mp (addAssign a b) (rep · (x + y)))
    (hdbl : ∀ {a x}, rep a x → Returns mp (double a) (rep · (x + x)))
    (n : ℕ) {e : E} {x : R} (he : rep e x) :
    Returns mp (do let res ← zero; timesLoop addAssign double n res e) (rep · (n • x)) :=
  Returns.bind hzero fun r hr => by simpa using timesLoop_spec hadd hdbl n hr he

/-- traits.rs:123-129, the loop of `Group::power` -/
theorem powerLoop_spec [Monoid R] {mulAssign : E → E → Res E} {square : E → Res E}
    (hmul : ∀ {a b x y}, rep a x → rep b y → Returns mp (mulAssign a b) (rep · (x * y)))
    (hsq : ∀ {a x}, rep a x → Returns mp (square a) (rep · (x * x)))
    (n : ℕ) {r e : E} {y x : R} (hr : rep r y) (he : rep e x) :
    Returns mp (powerLoop mulAssign square n r e) (rep · (y * x ^ n)) := by
  induction n using Nat.strongRecOn generalizing r e y x with
  | _ n ih =>
    rw [powerLoop]
    split
    · rename_i hn
      have hx : x ^ n = x ^ (n % 2) * (x * x) ^ (n / 2) := by
        rw [← pow_two, ← pow_mul, ← pow_add]
        congr 1
        omega
      have htd : Int.tdiv (n : ℤ) 2 = ((n / 2 : ℕ) : ℤ) := by
        rw [Int.tdiv_eq_ediv_of_nonneg (by omega)]; omega
      have htm : Int.tmod (n : ℤ) 2 = ((n % 2 : ℕ) : ℤ) := by
        rw [Int.tmod_eq_emod_of_nonneg (by omega)]; omega
      rw [htd, htm]
      have key : ∀ r', rep r' (y * x ^ (n % 2)) → Returns mp
          (do let e' ← square e; powerLoop mulAssign square ((n / 2 : ℕ) : ℤ) r' e')
          (rep · (y * x ^ n)) := fun r' hr' => Returns.bind (hsq he) fun e' he' => by
        have := ih (n / 2) (by omega) hr' he'
        rwa [mul_assoc, ← hx] at this
      dsimp only
      split
      · have : n % 2 = 1 := by omega
        exact Returns.bind (hmul hr he) fun r' hr' => key r' (by simpa [this] using hr')
      · have : n % 2 = 0 := by omega
        exact key r (by simpa [this] using hr)
    · rename_i hn
      have : n = 0 := by omega
      simpa [this] using hr

/-- traits.rs:114-131 `Group::power` at exponents other than `isize::MIN`, for an
element `x` with inverse `y`. -/
theorem powerDefault_spec [Cfg] [Monoid R] {one : Res E} {mulAssign : E → E → Res E}
    {square inv : E → Res E}
    (hone : Returns mp one (rep · 1))
    (hmul : ∀ {a b x y}, rep a x → rep b y → Returns mp (mulAssign a b) (rep · (x * y)))
    (hsq : ∀ {a x}, rep a x → Returns mp (square a) (rep · (x * x)))
    (n : ℤ) (hn : n ≠ isizeMin) {e : E} {x y : R} (he : rep e x)
    (hinv : n < 0 → Returns mp (inv e) (rep · y)) :
    Returns mp (powerDefault one mulAssign square inv n e)
      (rep · (if n < 0 then y ^ n.natAbs else x ^ n.natAbs)) := by
  unfold powerDefault
  split
  · rename_i h
    simp only [isizeNeg, if_neg hn]
    obtain ⟨m, rfl⟩ : ∃ m : ℕ, n = -(m : ℤ) := ⟨n.natAbs, by omega⟩
    simp only [neg_neg, Int.natAbs_neg, Int.natAbs_natCast, ok_bind]
    refine Returns.bind (hinv h) fun a ha => ?_
    simp only [pure_bind']
    refine Returns.bind hone fun r hr => ?_
    simpa using powerLoop_spec hmul hsq m hr ha
  · rename_i h
    obtain ⟨m, rfl⟩ : ∃ m : ℕ, n = (m : ℤ) := ⟨n.natAbs, by omega⟩
    simp only [pure_bind']
    refine Returns.bind hone fun r hr => ?_
    simpa using powerLoop_spec hmul hsq m hr he

theorem group_power_default [Cfg] [Group R] {one : Res E} {mulAssign : E → E → Res E}
    {square inv : E → Res E}
    (hone : Returns mp one (rep · 1))
    (hmul : ∀ {a b x y}, rep a x → rep b y → Returns mp (mulAssign a b) (rep · (x * y)))
    (hsq : ∀ {a x}, rep a x → Returns mp (square a) (rep · (x * x)))
    (hinv : ∀ {a x}, rep a x → Returns mp (inv a) (rep · x⁻¹))
    (n : ℤ) (hn : n ≠ isizeMin) {e : E} {x : R} (he : rep e x) :
    Returns mp (powerDefault one mulAssign square inv n e) (rep · (x ^ n)) := by
  refine (powerDefault_spec hone hmul hsq n hn he fun _ => hinv he).mono fun a ha => ?_
  split at ha
  · obtain ⟨m, rfl⟩ : ∃ m : ℕ, n = -(m : ℤ) := ⟨n.natAbs, by omega⟩
    simpa using ha
  · obtain ⟨m, rfl⟩ : ∃ m : ℕ, n = (m : ℤ) := ⟨n.natAbs, by omega⟩
    simpa using ha

/-- traits.rs:158-161 `AbelianGroup::times` -/
theorem times_default [Cfg] [AddCommGroup R] {zero : Res E} {addAssign : E → E → Res E}
    {double neg : E → Res E}
    (hzero : Returns mp zero (rep · 0))
    (hadd : ∀ {a b x y}, rep a x → rep b y → Returns mp (addAssign a b) (rep · (x + y)))
    (hdbl : ∀ {a x}, rep a x → Returns mp (double a) (rep · (x + x)))
    (hneg : ∀ {a x}, rep a x → Returns mp (neg a) (rep · (-x)))
    (n : ℤ) (hn : n ≠ isizeMin) {e : E} {x : R} (he : rep e x) :
    Returns mp (powerDefault zero addAssign double neg n e) (rep · (n • x)) :=
  group_power_default (R := Multiplicative R) (rep := fun e x => rep e x.toAdd)
    hzero (fun ha hb => hadd ha hb) (fun ha => hdbl ha) (fun ha => hneg ha) n hn
    (x := Multiplicative.ofAdd x) he

theorem sub_default [AddCommGroup R] {addAssign : E → E → Res E} {neg : E → Res E}
    (hadd : ∀ {a b x y}, rep a x → rep b y → Returns mp (addAssign a b) (rep · (x + y)))
    (hneg : ∀ {a x}, rep a x → Returns mp (neg a) (rep · (-x)))
    {a b x y} (ha : rep a x) (hb : rep b y) :
    Returns mp (do let e ← neg b; addAssign e a) (rep · (x - y)) :=
  Returns.bind (hneg hb) fun e he => by
    simpa [sub_eq_neg_add] using hadd he ha

theorem subAssign_default [AddCommGroup R] {addAssign : E → E → Res E} {neg : E → Res E}
    (hadd : ∀ {a b x y}, rep a x → rep b y → Returns mp (addAssign a b) (rep · (x + y)))
    (hneg : ∀ {a x}, rep a x → Returns mp (neg a) (rep · (-x)))
    {a b x y} (ha : rep a x) (hb : rep b y) :
    Returns mp (do addAssign a (← neg b)) (rep · (x - y)) :=
  Returns.bind (hneg hb) fun e he => by
    simpa [sub_eq_add_neg] using hadd ha he

theorem int_default [Cfg] [Ring R] {one : Res E} {times : ℤ → E → Res E}
    (hone : Returns mp one (rep · 1))
    (htimes : ∀ (n : ℤ), n ≠ isizeMin → ∀ {a x}, rep a x → Returns mp (times n a) (rep · (n • x)))
    (n : ℤ) (hn : n ≠ isizeMin) : Returns mp (do times n (← one)) (rep · (n : R)) :=
  Returns.bind hone fun e he => by simpa using htimes n hn he

theorem invertible_default [Monoid R] {tryInv : E → Res (Option E)}
    (h : ∀ {a x}, rep a x → Returns mp (tryInv a) fun
      | some b => ∃ y, rep b y ∧ x * y = 1 ∧ y * x = 1
      | none => ¬ IsUnit x) {a x} (ha : rep a x) :
    Decides mp (do return (← tryInv a).isSome) (IsUnit x) :=
  Returns.bind (h ha) fun o ho => by
    cases o with
    | none => simpa using ho
    | some b =>
      obtain ⟨y, _, h1, h2⟩ := ho
      simpa using ⟨⟨x, y, h1, h2⟩, rfl⟩

/-- `is_zero` / `is_one` by comparison with the constant. -/
theorem isConst_default {equals : E → E → Res Bool} {const : Res E} {z : R}
    (heq : ∀ {a b x y}, rep a x → rep b y → Decides mp (equals a b) (x = y))
    (hc : Returns mp const (rep · z)) {a x} (ha : rep a x) :
    Decides mp (do equals a (← const)) (x = z) :=
  Returns.bind hc fun _ hc => heq ha hc

theorem divisible_default [CommRing R] [IsDomain R] {isZero : E → Res Bool}
    {tryDiv : E → E → Res (Option E)}
    (hz : ∀ {a x}, rep a x → Decides mp (isZero a) (x = 0))
    (hd : ∀ {a b x y}, rep a x → rep b y → y ≠ 0 → Returns mp (tryDiv a b) fun
      | some c => ∃ z, rep c z ∧ x = y * z
      | none => ¬ y ∣ x) {a b x y} (ha : rep a x) (hb : rep b y) :
    Decides mp (do if ← isZero b then isZero a else return (← tryDiv a b).isSome) (y ∣ x) := by
  refine Decides.bindD (hz hb) ?_ ?_
  · rintro rfl
    exact (hz ha).iff zero_dvd_iff.symm
  · intro hy
    simp only [Bool.false_eq_true, if_false]
    refine Returns.bind (hd ha hb hy) fun o ho => ?_
    cases o with
    | none => simpa using ho
    | some c =>
      obtain ⟨z, _, h⟩ := ho
      simpa using ⟨z, h⟩

theorem associates_default [CommRing R] [IsDomain R] {divisible : E → E → Res Bool}
    (hd : ∀ {a b x y}, rep a x → rep b y → Decides mp (divisible a b) (y ∣ x))
    {a b x y} (ha : rep a x) (hb : rep b y) :
    Decides mp (do if ← divisible a b then divisible b a else return false) (Associated x y) :=
  (Decides.and (hd ha hb) fun _ => hd hb ha).iff
    ⟨fun h => associated_of_dvd_dvd h.2 h.1, fun h => ⟨h.symm.dvd, h.dvd⟩⟩

end defaults

section orders

variable {E : Type} {R : Type u} {mp : Prop} {rep : E → R → Prop} [PartialOrder R]

theorem lessThan_default {equals leq : E → E → Res Bool}
    (heq : ∀ {a b x y}, rep a x → rep b y → Decides mp (equals a b) (x = y))
    (hle : ∀ {a b x y}, rep a x → rep b y → Decides mp (leq a b) (x ≤ y))
    {a b x y} (ha : rep a x) (hb : rep b y) :
    Decides mp (do if !(← equals a b) then leq a b else return false) (x < y) := by
  refine Decides.bindD (heq ha hb) ?_ ?_
  · rintro rfl; exact decides_ok (by simp)
  · intro h; simpa using (hle ha hb).iff ⟨fun h' => lt_of_le_of_ne h' h, le_of_lt⟩

theorem comparable_default {leq : E → E → Res Bool}
    (hle : ∀ {a b x y}, rep a x → rep b y → Decides mp (leq a b) (x ≤ y))
    {a b x y} (ha : rep a x) (hb : rep b y) :
    Decides mp (do if ← leq a b then return true else leq b a) (x ≤ y ∨ y ≤ x) :=
  Decides.or (hle ha hb) fun _ => hle hb ha

end orders

section euclidean

variable {E : Type} {R : Type u} {mp : Prop} {rep : E → R → Prop} [EuclideanDomain R]

theorem IsGcd.zero_right (x : R) : IsGcd x 0 x := ⟨dvd_refl x, dvd_zero x, fun _ h _ => h⟩

theorem IsGcd.step {x y g : R} (h : IsGcd y (x % y) g) : IsGcd x y g := by
  obtain ⟨h1, h2, h3⟩ := h
  refine ⟨?_, h1, fun d hx hy => h3 d hy ?_⟩
  · rw [← EuclideanDomain.div_add_mod x y]
    exact dvd_add (h1.mul_right _) h2
  · exact (EuclideanDomain.dvd_mod_iff hy).2 hx

theorem gcdDefault_spec {isZero : E → Res Bool} {rem : E → E → Res E}
    (hz : ∀ {a x}, rep a x → Decides mp (isZero a) (x = 0))
    (hrem : ∀ {a b x y}, rep a x → rep b y → y ≠ 0 → Returns mp (rem a b) (rep · (x % y)))
    {a b : E} {x y : R} (ha : rep a x) (hb : rep b y) :
    Returns mp (gcdDefault isZero rem a b) fun c => ∃ g, rep c g ∧ IsGcd x y g := by
  induction y using (EuclideanDomain.r_wellFounded (R := R)).induction generalizing a b x with
  | _ y ih =>
    rw [gcdDefault]
    refine Decides.bind (hz hb) ?_ ?_
    · rintro rfl
      exact ⟨x, ha, IsGcd.zero_right x⟩
    · intro hy
      simp only [Bool.false_eq_true, if_false]
      refine Returns.bind (hrem ha hb hy) fun r hr => ?_
      refine (ih (x % y) (EuclideanDomain.mod_lt x hy) hb hr).mono ?_
      rintro c ⟨g, hc, hg⟩
      exact ⟨g, hc, hg.step⟩

theorem extendedGcdDefault_spec {isZero : E → Res Bool} {one zero : Res E}
    {quoRem : E → E → Res (E × E)} {sub mul : E → E → Res E}
    (hz : ∀ {a x}, rep a x → Decides mp (isZero a) (x = 0))
    (hone : Returns mp one (rep · 1)) (hzero : Returns mp zero (rep · 0))
    (hqr : ∀ {a b x y}, rep a x → rep b y → y ≠ 0 →
      Returns mp (quoRem a b) fun p => rep p.1 (x / y) ∧ rep p.2 (x % y))
    (hsub : ∀ {a b x y}, rep a x → rep b y → Returns mp (sub a b) (rep · (x - y)))
    (hmul : ∀ {a b x y}, rep a x → rep b y → Returns mp (mul a b) (rep · (x * y)))
    {a b : E} {x y : R} (ha : rep a x) (hb : rep b y) :
    Returns mp (extendedGcdDefault isZero one zero quoRem sub mul a b) fun c => ∃ g s t,
      rep c.1 g ∧ rep c.2.1 s ∧ rep c.2.2 t ∧ x * s + y * t = g ∧ IsGcd x y g := by
  induction y using (EuclideanDomain.r_wellFounded (R := R)).induction generalizing a b x with
  | _ y ih =>
    rw [extendedGcdDefault]
    refine Decides.bind (hz hb) ?_ ?_
    · rintro rfl
      exact Returns.bind hone fun o ho => Returns.bind hzero fun z hz' =>
        ⟨x, 1, 0, ha, ho, hz', by ring, IsGcd.zero_right x⟩
    · intro hy
      simp only [Bool.false_eq_true, if_false]
      refine Returns.bind (hqr ha hb hy) fun p hp => ?_
      obtain ⟨q, r⟩ := p
      obtain ⟨hq, hr⟩ := hp
      refine Returns.bind (ih (x % y) (EuclideanDomain.mod_lt x hy) hb hr) fun c hc => ?_
      obtain ⟨c1, c2, c3⟩ := c
      obtain ⟨g, s, t, h1, h2, h3, h4, h5⟩ := hc
      refine Returns.bind (hmul h3 hq) fun m hm => Returns.bind (hsub h2 hm) fun z hz' => ?_
      refine ⟨g, t, s - t * (x / y), h1, h3, hz', ?_, h5.step⟩
      have := EuclideanDomain.div_add_mod x y
      linear_combination h4 - t * this

theorem isLcm_of_isGcd {x y g : R} (hg : IsGcd x y g) (h0 : g ≠ 0) : IsLcm x y (x / g * y) := by
  obtain ⟨⟨x', rfl⟩, ⟨y', rfl⟩, h3⟩ := hg
  rw [mul_div_cancel_left₀ _ h0]
  refine ⟨⟨y', by ring⟩, ⟨x', by ring⟩, ?_⟩
  rintro d ⟨u, rfl⟩ ⟨v, hv⟩
  -- Bezout
  classical
  have hb := EuclideanDomain.gcd_eq_gcd_ab (g * x') (g * y')
  set s := EuclideanDomain.gcdA (g * x') (g * y')
  set t := EuclideanDomain.gcdB (g * x') (g * y')
  obtain ⟨k, hk⟩ := h3 (EuclideanDomain.gcd (g * x') (g * y')) (EuclideanDomain.gcd_dvd_left _ _)
    (EuclideanDomain.gcd_dvd_right _ _)
  have h1 : (x' * s + y' * t) * k = 1 := by
    apply mul_left_cancel₀ h0
    rw [mul_one]
    conv_rhs => rw [hk, hb]
    ring
  have hxy : x' * u = y' * v := by
    apply mul_left_cancel₀ h0
    linear_combination hv
  refine ⟨(v * s + u * t) * k, ?_⟩
  linear_combination g * x' * u * (-h1) + g * x' * s * k * hxy

theorem isLcm_zero {x y : R} (h : IsGcd x y 0) : IsLcm x y 0 := by
  obtain ⟨h1, h2, _⟩ := h
  rw [zero_dvd_iff] at h1 h2
  subst h1 h2
  exact ⟨dvd_refl _, dvd_refl _, fun d hd _ => hd⟩

theorem isUnit_gcd_iff {x y g : R} (hg : IsGcd x y g) : IsUnit g ↔ IsCoprime x y := by
  classical
  obtain ⟨h1, h2, h3⟩ := hg
  constructor
  · intro hu
    have h4 := h3 (EuclideanDomain.gcd x y) (EuclideanDomain.gcd_dvd_left _ _)
      (EuclideanDomain.gcd_dvd_right _ _)
    exact EuclideanDomain.gcd_isUnit_iff.1 (isUnit_of_dvd_unit h4 hu)
  · intro h
    exact h.isUnit_of_dvd' h1 h2

theorem lcm_default {isZero : E → Res Bool} {gcd quo mul : E → E → Res E}
    (hz : ∀ {a x}, rep a x → Decides mp (isZero a) (x = 0))
    (hgcd : ∀ {a b x y}, rep a x → rep b y →
      Returns mp (gcd a b) fun c => ∃ g, rep c g ∧ IsGcd x y g)
    (hquo : ∀ {a b x y}, rep a x → rep b y → y ≠ 0 → Returns mp (quo a b) (rep · (x / y)))
    (hmul : ∀ {a b x y}, rep a x → rep b y → Returns mp (mul a b) (rep · (x * y)))
    {a b : E} {x y : R} (ha : rep a x) (hb : rep b y) :
    Returns mp (do
      let g ← gcd a b
      if ← isZero g then return g
      else mul (← quo a g) b) fun c => ∃ m, rep c m ∧ IsLcm x y m := by
  refine Returns.bind (hgcd ha hb) fun c hc => ?_
  obtain ⟨g, hcg, hg⟩ := hc
  refine Decides.bind (hz hcg) ?_ ?_
  · rintro rfl
    exact ⟨0, hcg, isLcm_zero hg⟩
  · intro h0
    simp only [Bool.false_eq_true, if_false]
    exact Returns.bind (hquo ha hcg h0) fun q hq =>
      (hmul hq hb).mono fun m hm => ⟨_, hm, isLcm_of_isGcd hg h0⟩

theorem relativePrimes_default {gcd : E → E → Res E} {invertible : E → Res Bool}
    (hgcd : ∀ {a b x y}, rep a x → rep b y →
      Returns mp (gcd a b) fun c => ∃ g, rep c g ∧ IsGcd x y g)
    (hinv : ∀ {a x}, rep a x → Decides mp (invertible a) (IsUnit x))
    {a b : E} {x y : R} (ha : rep a x) (hb : rep b y) :
    Decides mp (do let g ← gcd a b; invertible g) (IsCoprime x y) := by
  refine Returns.bind (hgcd ha hb) fun c hc => ?_
  obtain ⟨g, hcg, hg⟩ := hc
  exact (hinv hcg).iff (isUnit_gcd_iff hg)

theorem quo_default {quoRem : E → E → Res (E × E)}
    (hqr : ∀ {a b x y}, rep a x → rep b y → y ≠ 0 →
      Returns mp (quoRem a b) fun p => rep p.1 (x / y) ∧ rep p.2 (x % y))
    {a b : E} {x y : R} (ha : rep a x) (hb : rep b y) (hy : y ≠ 0) :
    Returns mp (do return (← quoRem a b).1) (rep · (x / y)) :=
  Returns.bind (hqr ha hb hy) fun _ hp => hp.1

theorem rem_default {quoRem : E → E → Res (E × E)}
    (hqr : ∀ {a b x y}, rep a x → rep b y → y ≠ 0 →
      Returns mp (quoRem a b) fun p => rep p.1 (x / y) ∧ rep p.2 (x % y))
    {a b : E} {x y : R} (ha : rep a x) (hb : rep b y) (hy : y ≠ 0) :
    Returns mp (do return (← quoRem a b).2) (rep · (x % y)) :=
  Returns.bind (hqr ha hb hy) fun _ hp => hp.2

theorem reduced_default {isZero : E → Res Bool} {quo : E → E → Res E}
    (hz : ∀ {a x}, rep a x → Decides mp (isZero a) (x = 0))
    (hquo : ∀ {a b x y}, rep a x → rep b y → y ≠ 0 → Returns mp (quo a b) (rep · (x / y)))
    {a b : E} {x y : R} (ha : rep a x) (hb : rep b y) :
    Decides mp (do if ← isZero b then return true else isZero (← quo a b)) (y = 0 ∨ x / y = 0) :=
  Decides.or (hz hb) fun hy => Returns.bind (hquo ha hb hy) fun _ hq => hz hq

theorem panics_bind {α β : Type u} {c : Res α} {f : α → Res β} (h : Panics c) :
    Panics (c >>= f) := by
  rw [Panics] at *; rw [h]; rfl

end euclidean

end Abstalg
