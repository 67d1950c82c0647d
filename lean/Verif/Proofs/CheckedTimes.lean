import Verif.Model.CheckedUints
import Verif.Proofs.CheckedInts
import Mathlib.Data.Nat.Size

/-! # `CommuntativeMonoid::times` on machine integers; unsigned machine integers -/

set_option linter.unusedSectionVars false

set_option autoImplicit false

namespace Abstalg

section

variable {E : Type} {val : E → ℤ} {F : ℤ → Prop} {add : E → E → Res E}

theorem size_half {n : ℕ} (hn : 0 < n) : Nat.size n = Nat.size (n / 2) + 1 := by
  conv_lhs => rw [← Nat.bit_bodd_div2 n]
  rw [Nat.size_bit (by rw [Nat.bit_bodd_div2]; omega), Nat.div2_val]

/-- Exact behaviour of the doubling loop over bounded integers: it panics iff the last,
superfluous doubling overflows. -/
theorem timesLoop_exact
    (hadd : ∀ a b, F (val a + val b) → ∃ c, add a b = .ok c ∧ val c = val a + val b)
    (hpanic : ∀ a b, ¬ F (val a + val b) → add a b = .panic)
    (hconv : ∀ x y, F y → (0 ≤ x ∧ x ≤ y ∨ y ≤ x ∧ x ≤ 0) → F x) (n : ℕ) :
    ∀ (r e : E) (x : ℤ) (j m : ℕ), val e = 2 ^ j * x → val r = m * x → m < 2 ^ j →
      (n = 0 ∨ F (2 ^ n.size * val e) → ∃ c, timesLoop add (fun a => add a a) n r e = .ok c ∧
        val c = val r + n * val e) ∧
      (n ≠ 0 ∧ ¬ F (2 ^ n.size * val e) → timesLoop add (fun a => add a a) n r e = .panic) := by
  induction n using Nat.strongRecOn with
  | _ n ih =>
    intro r e x j m he hr hm
    rcases Nat.eq_zero_or_pos n with rfl | hn
    · refine ⟨fun _ => ⟨r, by rw [timesLoop]; simp, by simp⟩, fun h => (h.1 rfl).elim⟩
    have hsz := size_half hn
    have hsz1 : 0 < n.size := Nat.size_pos.2 hn
    have hpow : (2 : ℤ) ^ n.size = 2 ^ (n / 2).size * 2 := by rw [hsz, pow_succ]
    have hdbl : ∀ e', val e' = val e + val e → val e' = 2 ^ (j + 1) * x := fun e' h => by
      rw [h, he, pow_succ]; ring
    have hFr : F (2 ^ n.size * val e) → F (val r + val e) := fun hF => by
      apply hconv _ _ hF
      rw [he, hr, hpow]
      have hm' : (m : ℤ) < 2 ^ j := by exact_mod_cast hm
      have hp : (1 : ℤ) ≤ 2 ^ (n / 2).size := one_le_pow₀ (by norm_num)
      have hj : (0 : ℤ) < 2 ^ j := by positivity
      have hc : (m : ℤ) + 2 ^ j ≤ 2 ^ (n / 2).size * 2 * 2 ^ j := by nlinarith
      have h0 : (0 : ℤ) ≤ m + 2 ^ j := by positivity
      rcases le_total 0 x with hx | hx
      · left; constructor <;> nlinarith
      · right; constructor <;> nlinarith
    have hFe : F (2 ^ n.size * val e) → F (val e + val e) := fun hF => by
      apply hconv _ _ hF
      rw [hpow]
      have hp : (1 : ℤ) ≤ 2 ^ (n / 2).size := one_le_pow₀ (by norm_num)
      rcases le_total 0 (val e) with hx | hx
      · left; constructor <;> nlinarith
      · right; constructor <;> nlinarith
    have hhalf : n / 2 = 0 → n.size = 1 := fun h => by rw [hsz, h, Nat.size_zero]
    -- the result of the conditional addition
    have key : ∀ (r' : E) (b : ℕ), b ≤ 1 → b = n % 2 → val r' = val r + b * val e →
        (F (2 ^ n.size * val e) → ∃ c, (do
            let e' ← add e e
            timesLoop add (fun a => add a a) (n / 2) r' e') = .ok c ∧
            val c = val r + n * val e) ∧
        (¬ F (2 ^ n.size * val e) → (do
            let e' ← add e e
            timesLoop add (fun a => add a a) (n / 2) r' e') = .panic) := by
      intro r' b hb1 hb hr'
      have hnn : (n : ℤ) = 2 * (n / 2 : ℕ) + b := by omega
      by_cases hd : F (val e + val e)
      · obtain ⟨e', he', hv'⟩ := hadd e e hd
        have hbz : (b : ℤ) = 0 ∨ (b : ℤ) = 1 := by omega
        have hih := ih (n / 2) (by omega) r' e' x (j + 1) (m + b * 2 ^ j) (hdbl e' hv')
          (by rw [hr', he, hr]; push_cast; ring)
          (by
            have : b * 2 ^ j ≤ 1 * 2 ^ j := Nat.mul_le_mul_right _ hb1
            rw [pow_succ]; omega)
        have hve : 2 ^ (n / 2).size * val e' = 2 ^ n.size * val e := by rw [hv', hpow]; ring
        rw [hve] at hih
        simp only [he', ok_bind]
        constructor
        · intro hF
          obtain ⟨c, hc, hvc⟩ := hih.1 (Or.inr hF)
          refine ⟨c, hc, ?_⟩
          rw [hvc, hr', hv', hnn]; ring
        · intro hF
          refine hih.2 ⟨fun h0 => hF ?_, hF⟩
          rw [hhalf h0, pow_one, two_mul]
          exact hd
      · rw [hpanic e e hd]
        exact ⟨fun hF => (hd (hFe hF)).elim, fun _ => rfl⟩
    rw [timesLoop, dif_pos hn]
    dsimp only
    by_cases hodd : n % 2 ≠ 0
    · rw [if_pos hodd]
      by_cases hd : F (val r + val e)
      · obtain ⟨r', hr', hv'⟩ := hadd r e hd
        simp only [hr', ok_bind]
        obtain ⟨h1, h2⟩ := key r' 1 (le_refl 1) (by omega) (by rw [hv']; push_cast; ring)
        exact ⟨fun h => h1 (h.resolve_left (by omega)), fun h => h2 h.2⟩
      · rw [hpanic r e hd]
        exact ⟨fun h => (hd (hFr (h.resolve_left (by omega)))).elim, fun _ => rfl⟩
    · rw [if_neg hodd]
      obtain ⟨h1, h2⟩ := key r 0 (by omega) (by omega) (by push_cast; ring)
      exact ⟨fun h => h1 (h.resolve_left (by omega)), fun h => h2 h.2⟩

end

namespace CheckedInts

open SInt

variable [Cfg] (w : ℕ) [Width w]

theorem utimes_exact (n : ℕ) (a : SInt w) :
    (n = 0 ∨ Fits w (2 ^ n.size * a.1) →
      ∃ c : SInt w, (unitaryRing w).utimes n a = .ok c ∧ c.1 = n * a.1) ∧
    (n ≠ 0 ∧ ¬ Fits w (2 ^ n.size * a.1) → (unitaryRing w).utimes n a = .panic) := by
  have := timesLoop_exact (val := fun a : SInt w => a.1) (F := Fits w) (add := (unitaryRing w).add)
    (fun a b h => ⟨mk _ h, (add_eq w a b).trans (dif_pos h), rfl⟩)
    (fun a b h => (add_eq w a b).trans (dif_neg h))
    (fun x y hy h => by
      have h3 := pow_ge (w := w)
      rw [fits_iff] at *; omega)
    n (c0 w) a a.1 0 0 (by simp) (by simp; rfl) (by simp)
  refine ⟨fun h => ?_, fun h => this.2 h⟩
  obtain ⟨c, h1, h2⟩ := this.1 h
  refine ⟨c, h1, ?_⟩
  rw [h2]
  show (0 : ℤ) + _ = _
  ring

end CheckedInts

/-- An unsigned machine integer represents the number it denotes. -/
def URep (w : ℕ) (a : UInt' w) (x : ℕ) : Prop := a.1 = x

namespace CheckedUints

open UInt'

variable (w : ℕ) [UWidth w]

theorem unwrap_ofNat (x : ℕ) : Res.unwrap (ofNat? (w := w) x) =
    if h : x ≤ uMax w then .ok ⟨x, h⟩ else .panic := by
  unfold ofNat?
  split <;> rfl

theorem add_eq (a b : UInt' w) : (semiRing w).add a b =
    if h : a.1 + b.1 ≤ uMax w then .ok ⟨a.1 + b.1, h⟩ else .panic := unwrap_ofNat w _

theorem mul_eq (a b : UInt' w) : (semiRing w).mul a b =
    if h : a.1 * b.1 ≤ uMax w then .ok ⟨a.1 * b.1, h⟩ else .panic := unwrap_ofNat w _

theorem returns_dite {P : UInt' w → Prop} {c : Prop} [Decidable c] {f : c → UInt' w}
    (h : ∀ hc, P (f hc)) : Returns True (if hc : c then Res.ok (f hc) else .panic) P := by
  split
  · exact h _
  · trivial

theorem semiRing_spec : SemiRingSpec True (semiRing w) (URep w) := by
  have hadd : ∀ {a b : UInt' w} {x y : ℕ}, URep w a x → URep w b y →
      Returns True ((semiRing w).add a b) (URep w · (x + y)) := by
    rintro a b x y rfl rfl
    rw [add_eq]
    exact returns_dite w fun _ => rfl
  have hmul : ∀ {a b : UInt' w} {x y : ℕ}, URep w a x → URep w b y →
      Returns True ((semiRing w).mul a b) (URep w · (x * y)) := by
    rintro a b x y rfl rfl
    rw [mul_eq]
    exact returns_dite w fun _ => rfl
  exact
  { rep_unique := by rintro a x y rfl rfl; rfl
    contains := by intro a x _; rfl
    equals := by
      rintro a b x y rfl rfl
      exact decides_ok (by simp)
    mul := hmul
    mulAssign := hmul
    square := fun ha => hmul ha ha
    one := rfl
    isOne := by rintro a x rfl; exact decides_ok (by simp only [beq_iff_eq, Subtype.ext_iff]; rfl)
    tryInv := by
      rintro a x rfl
      show Returns True (if a == c1 w then .ok (some (c1 w)) else .ok none) _
      by_cases h : a = c1 w
      · subst h
        simp only [BEq.rfl, if_true, returns_ok]
        exact ⟨1, rfl, rfl, rfl⟩
      · have h' : a.1 ≠ 1 := fun h' => h (Subtype.ext h')
        rw [if_neg (by simpa using fun h' => h (Subtype.ext h'))]
        show ¬ IsUnit a.1
        rwa [Nat.isUnit_iff]
    invertible := by
      rintro a x rfl
      refine decides_ok ?_
      rw [Nat.isUnit_iff]
      simp only [beq_iff_eq, Subtype.ext_iff]; rfl
    zero := rfl
    isZero := by rintro a x rfl; exact decides_ok (by simp)
    add := hadd
    addAssign := hadd
    double := fun ha => hadd ha ha
    utimes := fun n a x ha => by
      have := utimes_default (rep := URep w) (zero := (semiRing w).zero) (mp := True) rfl hadd
        (fun ha => hadd ha ha) n ha
      exact this }

theorem utimes_exact (n : ℕ) (a : UInt' w) :
    (n = 0 ∨ 2 ^ n.size * a.1 ≤ uMax w →
      ∃ c : UInt' w, (semiRing w).utimes n a = .ok c ∧ c.1 = n * a.1) ∧
    (n ≠ 0 ∧ ¬ 2 ^ n.size * a.1 ≤ uMax w → (semiRing w).utimes n a = .panic) := by
  have := timesLoop_exact (val := fun a : UInt' w => (a.1 : ℤ))
    (F := fun x => 0 ≤ x ∧ x ≤ (uMax w : ℤ)) (add := (semiRing w).add)
    (fun a b h => ⟨⟨a.1 + b.1, by omega⟩, (add_eq w a b).trans (dif_pos (by omega)), by simp⟩)
    (fun a b h => (add_eq w a b).trans (dif_neg (by omega)))
    (fun x y hy h => by omega)
    n (c0 w) a a.1 0 0 (by simp) (by simp; rfl) (by simp)
  have hiff : (0 ≤ (2 : ℤ) ^ n.size * (a.1 : ℤ) ∧ (2 : ℤ) ^ n.size * (a.1 : ℤ) ≤ (uMax w : ℤ)) ↔
      2 ^ n.size * a.1 ≤ uMax w := by
    constructor
    · intro h; exact_mod_cast h.2
    · intro h; exact ⟨by positivity, by exact_mod_cast h⟩
  rw [hiff] at this
  refine ⟨fun h => ?_, fun h => this.2 h⟩
  obtain ⟨c, h1, h2⟩ := this.1 h
  refine ⟨c, h1, ?_⟩
  have h3 : ((c0 w).1 : ℤ) = 0 := rfl
  rw [h3, zero_add] at h2
  exact_mod_cast h2

theorem lattice_spec : LatticeSpec False (lattice w) (URep w) := by
  have heq : ∀ {a b : UInt' w} {x y : ℕ}, URep w a x → URep w b y →
      Decides False ((lattice w).equals a b) (x = y) := by
    rintro a b x y rfl rfl
    exact decides_ok (by simp)
  have hle : ∀ {a b : UInt' w} {x y : ℕ}, URep w a x → URep w b y →
      Decides False ((lattice w).leq a b) (x ≤ y) := by
    rintro a b x y rfl rfl
    exact decides_ok (by simp)
  exact
  { rep_unique := by rintro a x y rfl rfl; rfl
    contains := by intro a x _; rfl
    equals := heq
    leq := hle
    lessThan := fun ha hb => by
      have := lessThan_default (rep := URep w) heq hle ha hb
      exact this
    comparable := fun ha hb => by
      have := comparable_default (rep := URep w) hle ha hb
      exact this
    meet := by
      rintro a b x y rfl rfl
      refine ⟨_, rfl, ?_⟩
      have := isGLB_min' a.1 b.1
      split_ifs at this ⊢ <;> exact this
    join := by
      rintro a b x y rfl rfl
      refine ⟨_, rfl, ?_⟩
      have := isLUB_max' a.1 b.1
      split_ifs at this ⊢ <;> exact this }

end CheckedUints

end Abstalg
