import Verif.Spec.Cost
import Verif.Proofs.Basic
import Mathlib.Data.Nat.Fib.Basic
import Mathlib.Algebra.EuclideanDomain.Int
import Mathlib.Tactic.Linarith

set_option autoImplicit false

universe u

namespace Abstalg

section generic

variable {E : Type} (isZero : E → Res Bool) (rem : E → E → Res E) (one zero : Res E)
  (quoRem : E → E → Res (E × E)) (sub mul : E → E → Res E)

theorem gcdWithin_sound (n : ℕ) (a b : E) :
    gcdWithin isZero rem n a b = .diverge ∨
    gcdWithin isZero rem n a b = gcdDefault isZero rem a b := by
  induction n generalizing a b with
  | zero => exact .inl rfl
  | succ n ih =>
    rw [gcdWithin, gcdDefault]
    cases hz : isZero b with
    | panic => exact .inr rfl
    | diverge => exact .inr rfl
    | ok z =>
      cases z with
      | true => exact .inr rfl
      | false =>
        cases hr : rem a b with
        | panic => exact .inr rfl
        | diverge => exact .inr rfl
        | ok r => exact ih b r

theorem gcdWithin_exists (a b : E) (h : gcdDefault isZero rem a b ≠ .diverge) :
    ∃ n, gcdWithin isZero rem n a b = gcdDefault isZero rem a b := by
  revert a b
  refine gcdDefault.fixpoint_induct isZero rem
    (motive := fun f => ∀ a b, f a b ≠ .diverge → ∃ n, gcdWithin isZero rem n a b = f a b) ?_ ?_
  · refine Lean.Order.admissible_pi_apply (fun (a : E) (f : E → Res E) => ∀ b, f b ≠ .diverge →
      ∃ n, gcdWithin isZero rem n a b = f b) fun a => ?_
    refine Lean.Order.admissible_pi_apply (fun (b : E) (f : Res E) => f ≠ .diverge →
      ∃ n, gcdWithin isZero rem n a b = f) fun b => ?_
    exact Lean.Order.admissible_flatOrder _ fun h => absurd rfl h
  · intro f ih a b h
    dsimp only at h ⊢
    cases hz : isZero b with
    | panic => exact ⟨1, by rw [gcdWithin, hz]; rfl⟩
    | diverge => exact ⟨1, by rw [gcdWithin, hz]; rfl⟩
    | ok z =>
      rw [hz] at h
      cases z with
      | true => exact ⟨1, by rw [gcdWithin, hz]; rfl⟩
      | false =>
        cases hr : rem a b with
        | panic => exact ⟨1, by simp only [gcdWithin, hz, hr]; rfl⟩
        | diverge => exact ⟨1, by simp only [gcdWithin, hz, hr]; rfl⟩
        | ok r =>
          rw [hr] at h
          obtain ⟨n, hn⟩ := ih b r h
          exact ⟨n + 1, by simp only [gcdWithin, hz, hr]; exact hn⟩

theorem extendedGcdWithin_sound (n : ℕ) (a b : E) :
    extendedGcdWithin isZero one zero quoRem sub mul n a b = .diverge ∨
    extendedGcdWithin isZero one zero quoRem sub mul n a b =
      extendedGcdDefault isZero one zero quoRem sub mul a b := by
  induction n generalizing a b with
  | zero => exact .inl rfl
  | succ n ih =>
    rw [extendedGcdWithin, extendedGcdDefault]
    cases hz : isZero b with
    | panic => exact .inr rfl
    | diverge => exact .inr rfl
    | ok z =>
      cases z with
      | true => exact .inr rfl
      | false =>
        cases hr : quoRem a b with
        | panic => exact .inr rfl
        | diverge => exact .inr rfl
        | ok p =>
          obtain ⟨q, r⟩ := p
          simp only [ok_bind, Bool.false_eq_true, if_false]
          rcases ih b r with h | h
          · rw [h]
            exact .inl rfl
          · rw [h]
            exact .inr rfl

theorem extendedGcdWithin_exists (a b : E)
    (h : extendedGcdDefault isZero one zero quoRem sub mul a b ≠ .diverge) :
    ∃ n, extendedGcdWithin isZero one zero quoRem sub mul n a b =
      extendedGcdDefault isZero one zero quoRem sub mul a b := by
  revert a b
  refine extendedGcdDefault.fixpoint_induct isZero one zero quoRem sub mul
    (motive := fun f => ∀ a b, f a b ≠ .diverge →
      ∃ n, extendedGcdWithin isZero one zero quoRem sub mul n a b = f a b) ?_ ?_
  · refine Lean.Order.admissible_pi_apply (fun (a : E) (f : E → Res (E × E × E)) => ∀ b, f b ≠ .diverge →
      ∃ n, extendedGcdWithin isZero one zero quoRem sub mul n a b = f b) fun a => ?_
    refine Lean.Order.admissible_pi_apply (fun (b : E) (f : Res (E × E × E)) => f ≠ .diverge →
      ∃ n, extendedGcdWithin isZero one zero quoRem sub mul n a b = f) fun b => ?_
    exact Lean.Order.admissible_flatOrder _ fun h => absurd rfl h
  · intro f ih a b h
    dsimp only at h ⊢
    cases hz : isZero b with
    | panic => exact ⟨1, by rw [extendedGcdWithin, hz]; rfl⟩
    | diverge => exact ⟨1, by rw [extendedGcdWithin, hz]; rfl⟩
    | ok z =>
      rw [hz] at h
      cases z with
      | true => exact ⟨1, by rw [extendedGcdWithin, hz]; rfl⟩
      | false =>
        cases hr : quoRem a b with
        | panic => exact ⟨1, by simp only [extendedGcdWithin, hz, hr]; rfl⟩
        | diverge => exact ⟨1, by simp only [extendedGcdWithin, hz, hr]; rfl⟩
        | ok p =>
          obtain ⟨q, r⟩ := p
          rw [hr] at h
          simp only [ok_bind, Bool.false_eq_true, if_false] at h ⊢
          have h' : f b r ≠ .diverge := fun hc => h (by rw [hc]; rfl)
          obtain ⟨n, hn⟩ := ih b r h'
          refine ⟨n + 1, ?_⟩
          rw [extendedGcdWithin, hz]
          simp only [ok_bind, Bool.false_eq_true, if_false, hr, hn]

end generic

section bounds

variable {E : Type} {R : Type u} {mp : Prop} {rep : E → R → Prop} [EuclideanDomain R]
  {isZero : E → Res Bool} {rem : E → E → Res E} {one zero : Res E}
  {quoRem : E → E → Res (E × E)} {sub mul : E → E → Res E}

/-- The room that `gcd` needs, `extended_gcd` needs as well, and no more. -/
theorem extendedGcdWithin_of_gcdWithin
    (hz : ∀ {a x}, rep a x → Decides mp (isZero a) (x = 0))
    (hone : Returns mp one (rep · 1)) (hzero : Returns mp zero (rep · 0))
    (hqr : ∀ {a b x y}, rep a x → rep b y → y ≠ 0 →
      Returns mp (quoRem a b) fun p => rep p.1 (x / y) ∧ rep p.2 (x % y))
    (hsub : ∀ {a b x y}, rep a x → rep b y → Returns mp (sub a b) (rep · (x - y)))
    (hmul : ∀ {a b x y}, rep a x → rep b y → Returns mp (mul a b) (rep · (x * y)))
    (n : ℕ) {a b : E} {x y : R} (ha : rep a x) (hb : rep b y)
    (h : gcdWithin isZero (fun a b => do return (← quoRem a b).2) n a b ≠ .diverge) :
    Returns mp (extendedGcdWithin isZero one zero quoRem sub mul n a b) fun c =>
      (∃ g, rep c.1 g) ∧ (∃ s, rep c.2.1 s) ∧ ∃ t, rep c.2.2 t := by
  induction n generalizing a b x y with
  | zero => exact absurd rfl h
  | succ n ih =>
    rw [extendedGcdWithin]
    rw [gcdWithin] at h
    have hb' := hz hb
    revert hb' h
    cases isZero b with
    | panic => exact fun _ h => h
    | diverge => exact fun _ h => h.elim
    | ok z =>
      cases z with
      | true =>
        intro _ _
        simp only [ok_bind, if_true]
        exact Returns.bind hone fun o ho => Returns.bind hzero fun z hz' => ⟨⟨_, ha⟩, ⟨_, ho⟩, _, hz'⟩
      | false =>
        intro h hy
        have hy : y ≠ 0 := fun hc => by simpa using (hy.2 hc)
        simp only [ok_bind, Bool.false_eq_true, if_false] at h ⊢
        have hq := hqr ha hb hy
        revert hq h
        cases quoRem a b with
        | panic => exact fun _ h => h
        | diverge => exact fun _ h => h.elim
        | ok p =>
          obtain ⟨q, r⟩ := p
          rintro h ⟨hq, hr⟩
          simp only [ok_bind]
          refine Returns.bind (ih hb hr h) fun c hc => ?_
          obtain ⟨c1, c2, c3⟩ := c
          obtain ⟨⟨g, hg⟩, ⟨s, hs⟩, t, ht⟩ := hc
          exact Returns.bind (hmul ht hq) fun m hm => Returns.bind (hsub hs hm) fun z hz' =>
            ⟨⟨_, hg⟩, ⟨_, ht⟩, _, hz'⟩

theorem gcdWithin_stop (hz : ∀ {a x}, rep a x → Decides mp (isZero a) (x = 0)) (n : ℕ) {a b : E}
    (hb : rep b 0) : gcdWithin isZero rem (n + 1) a b ≠ .diverge := by
  rw [gcdWithin]
  have hb' := hz hb
  revert hb'
  cases isZero b with
  | panic => exact fun _ h => by cases h
  | diverge => exact fun h _ => h
  | ok z =>
    cases z with
    | true => exact fun _ h => by cases h
    | false => exact fun h => absurd (h.2 rfl) (by decide)

theorem gcdWithin_step (hz : ∀ {a x}, rep a x → Decides mp (isZero a) (x = 0))
    (hrem : ∀ {a b x y}, rep a x → rep b y → y ≠ 0 → Returns mp (rem a b) (rep · (x % y)))
    (n : ℕ) {a b : E} {x y : R} (ha : rep a x) (hb : rep b y)
    (h : y ≠ 0 → ∀ r, rep r (x % y) → gcdWithin isZero rem n b r ≠ .diverge) :
    gcdWithin isZero rem (n + 1) a b ≠ .diverge := by
  rw [gcdWithin]
  have hb' := hz hb
  revert hb'
  cases isZero b with
  | panic => exact fun _ h => by cases h
  | diverge => exact fun h _ => h
  | ok z =>
    cases z with
    | true => exact fun _ h => by cases h
    | false =>
      intro h'
      have hy : y ≠ 0 := fun hc => by simpa using h'.2 hc
      simp only [ok_bind, Bool.false_eq_true, if_false]
      have hr := hrem ha hb hy
      revert hr
      cases rem a b with
      | panic => exact fun _ h => by cases h
      | diverge => exact fun h _ => h
      | ok r => exact fun hr => h hy r hr

/-- If a measure of the second operand decreases, it bounds the number of iterations. -/
theorem gcdWithin_of_measure (hz : ∀ {a x}, rep a x → Decides mp (isZero a) (x = 0))
    (hrem : ∀ {a b x y}, rep a x → rep b y → y ≠ 0 → Returns mp (rem a b) (rep · (x % y)))
    (μ : R → ℕ) (hμ : ∀ x y : R, y ≠ 0 → x % y ≠ 0 → μ (x % y) < μ y) (n : ℕ) {a b : E} {x y : R}
    (ha : rep a x) (hb : rep b y) (hn : y ≠ 0 → μ y < n) :
    gcdWithin isZero rem (n + 1) a b ≠ .diverge := by
  induction n generalizing a b x y with
  | zero =>
    have : y = 0 := by
      by_contra hc
      exact absurd (hn hc) (Nat.not_lt_zero _)
    subst this
    exact gcdWithin_stop (rep := rep) hz 0 hb
  | succ n ih =>
    exact gcdWithin_step (rep := rep) hz hrem _ ha hb fun hy r hr => ih hb hr fun h0 =>
      lt_of_lt_of_le (hμ x y hy h0) (by have := hn hy; omega)

end bounds

section lame

variable {E : Type} {mp : Prop} {rep : E → ℤ → Prop} {isZero : E → Res Bool} {rem : E → E → Res E}

theorem gcdWithin_fib (hz : ∀ {a x}, rep a x → Decides mp (isZero a) (x = 0))
    (hrem : ∀ {a b x y}, rep a x → rep b y → y ≠ 0 → Returns mp (rem a b) (rep · (x % y)))
    (n : ℕ) {a b : E} {x y : ℤ} (ha : rep a x) (hb : rep b y) (hy : 0 ≤ y) (hx : y < x)
    (h : x < Nat.fib (n + 3) ∨ y < Nat.fib (n + 2)) :
    gcdWithin isZero rem (n + 1) a b ≠ .diverge := by
  induction n generalizing a b x y with
  | zero =>
    have : y = 0 := by
      rcases h with h | h
      · simp [Nat.fib] at h
        omega
      · simp [Nat.fib] at h
        omega
    subst this
    exact gcdWithin_stop (rep := rep) hz 0 hb
  | succ n ih =>
    refine gcdWithin_step (rep := rep) hz hrem _ ha hb fun h0 r hr => ?_
    have h1 : 0 ≤ x % y := Int.emod_nonneg x h0
    have h2 : x % y < y := Int.emod_lt_of_pos x (by omega)
    refine ih hb hr h1 h2 ?_
    rcases h with h | h
    · by_cases hc : y < Nat.fib (n + 3)
      · exact .inl hc
      · right
        have h3 : x % y ≤ x - y := by
          have := Int.emod_add_mul_ediv x y
          have h4 : 1 ≤ x / y := (Int.le_ediv_iff_mul_le (by omega)).2 (by omega)
          nlinarith
        have h5 : Nat.fib (n + 4) = Nat.fib (n + 2) + Nat.fib (n + 3) := Nat.fib_add_two
        rw [show n + 1 + 3 = n + 4 from rfl, h5] at h
        push_cast at h
        omega
    · exact .inl h

theorem gcdWithin_lame (hz : ∀ {a x}, rep a x → Decides mp (isZero a) (x = 0))
    (hrem : ∀ {a b x y}, rep a x → rep b y → y ≠ 0 → Returns mp (rem a b) (rep · (x % y)))
    (n : ℕ) {a b : E} {x y : ℤ} (ha : rep a x) (hb : rep b y) (hy : 0 ≤ y)
    (h : y < Nat.fib (n + 2)) : gcdWithin isZero rem (n + 1) a b ≠ .diverge := by
  refine gcdWithin_step (rep := rep) hz hrem _ ha hb fun h0 r hr => ?_
  have h1 : 0 ≤ x % y := Int.emod_nonneg x h0
  have h2 : x % y < y := Int.emod_lt_of_pos x (by omega)
  cases n with
  | zero => simp [Nat.fib] at h; omega
  | succ n => exact gcdWithin_fib (rep := rep) hz hrem n hb hr h1 h2 (.inl h)

theorem gcdWithin_lame_neg (hz : ∀ {a x}, rep a x → Decides mp (isZero a) (x = 0))
    (hrem : ∀ {a b x y}, rep a x → rep b y → y ≠ 0 → Returns mp (rem a b) (rep · (x % y)))
    (n : ℕ) {a b : E} {x y : ℤ} (ha : rep a x) (hb : rep b y) (hy : y < 0)
    (h : -y ≤ Nat.fib (n + 2)) : gcdWithin isZero rem (n + 2) a b ≠ .diverge := by
  refine gcdWithin_step (rep := rep) hz hrem _ ha hb fun h0 r hr => ?_
  have h1 : 0 ≤ x % y := Int.emod_nonneg x h0
  have h2 : x % y < |y| := Int.emod_lt_abs x h0
  rw [abs_of_neg hy] at h2
  exact gcdWithin_lame (rep := rep) hz hrem n hb hr h1 (by omega)

end lame

section loops

variable {E : Type} (op : E → E → Res E) (dbl : E → Res E)

theorem timesLoopWithin_eq (k n : ℕ) (r e : E) (h : n < 2 ^ k) :
    timesLoopWithin op dbl (k + 1) n r e = timesLoop op dbl n r e := by
  induction k generalizing n r e with
  | zero =>
    have : n = 0 := by simpa using h
    subst this
    rw [timesLoop]
    rfl
  | succ k ih =>
    rw [timesLoop, timesLoopWithin]
    split
    · have h2 : n / 2 < 2 ^ k := by
        rw [pow_succ] at h
        omega
      simp only [ih _ _ _ h2]
    · rfl

theorem timesLoopWithin_lt (hop : ∀ a b, ∃ c, op a b = .ok c) (hdbl : ∀ a, ∃ c, dbl a = .ok c)
    (k n : ℕ) (r e : E) (h : 2 ^ k ≤ n) : timesLoopWithin op dbl (k + 1) n r e = .diverge := by
  induction k generalizing n r e with
  | zero =>
    rw [timesLoopWithin, if_pos (by simp at h; omega)]
    obtain ⟨e', he⟩ := hdbl e
    obtain ⟨r', hr⟩ := hop r e
    rw [hr, he]
    split <;> rfl
  | succ k ih =>
    have hp := Nat.two_pow_pos k
    rw [pow_succ] at h
    rw [timesLoopWithin, if_pos (by omega)]
    have h2 : 2 ^ k ≤ n / 2 := by omega
    obtain ⟨e', he⟩ := hdbl e
    obtain ⟨r', hr⟩ := hop r e
    rw [hr, he]
    split
    · exact ih _ _ _ h2
    · exact ih _ _ _ h2

theorem powerLoopWithin_eq (k : ℕ) (n : ℤ) (r e : E) (h : n < 2 ^ k) :
    powerLoopWithin op dbl (k + 1) n r e = powerLoop op dbl n r e := by
  induction k generalizing n r e with
  | zero =>
    rw [powerLoop, powerLoopWithin]
    simp only [pow_zero] at h
    rw [if_neg (by omega), dif_neg (by omega)]
  | succ k ih =>
    rw [powerLoop, powerLoopWithin]
    split
    · rename_i hn
      have h2 : Int.tdiv n 2 < 2 ^ k := by
        rw [pow_succ] at h
        rw [Int.tdiv_eq_ediv_of_nonneg (by omega)]
        omega
      simp only [ih _ _ _ h2]
    · rfl

theorem powerLoopWithin_lt (hop : ∀ a b, ∃ c, op a b = .ok c) (hdbl : ∀ a, ∃ c, dbl a = .ok c)
    (k : ℕ) (n : ℤ) (r e : E) (h : 2 ^ k ≤ n) : powerLoopWithin op dbl (k + 1) n r e = .diverge := by
  induction k generalizing n r e with
  | zero =>
    rw [powerLoopWithin, if_pos (by simp at h; omega)]
    obtain ⟨e', he⟩ := hdbl e
    obtain ⟨r', hr⟩ := hop r e
    rw [hr, he]
    split <;> rfl
  | succ k ih =>
    have hp : (0 : ℤ) < 2 ^ k := by positivity
    rw [pow_succ] at h
    rw [powerLoopWithin, if_pos (by omega)]
    have h2 : 2 ^ k ≤ Int.tdiv n 2 := by
      rw [Int.tdiv_eq_ediv_of_nonneg (by omega)]
      omega
    obtain ⟨e', he⟩ := hdbl e
    obtain ⟨r', hr⟩ := hop r e
    rw [hr, he]
    split
    · exact ih _ _ _ h2
    · exact ih _ _ _ h2

end loops

end Abstalg
