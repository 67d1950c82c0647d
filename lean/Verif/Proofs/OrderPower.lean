import Verif.Proofs.OrderDiv
import Verif.Model.Traits

/-! # The order of operations in `times` and `power` over a structure without laws -/

set_option autoImplicit false

namespace Abstalg

variable {E : Type}

theorem size_pos {n : ℕ} (h : 0 < n) : n.size = (n / 2).size + 1 := by
  have h1 : Nat.bit n.bodd (n / 2) = n := by rw [← Nat.div2_val, Nat.bit_bodd_div2]
  conv_lhs => rw [← h1]
  exact Nat.size_bit (by rw [h1]; omega)

theorem digitPositions_pos {n : ℕ} (h : 0 < n) :
    digitPositions n = (if n % 2 = 1 then [0] else []) ++ (digitPositions (n / 2)).map Nat.succ := by
  unfold digitPositions
  rw [size_pos h, List.range_succ_eq_map, List.filter_cons, List.filter_map]
  have h1 : ((fun k => n.testBit k) ∘ Nat.succ) = fun k => (n / 2).testBit k := by
    funext k
    exact Nat.testBit_succ n k
  rw [h1, Nat.testBit_zero]
  by_cases h2 : n % 2 = 1 <;> simp [h2]

/-- The steps of a repeated squaring: `s k` is the element squared `k` times. -/
theorem squares_succ {sq : E → Res E} {n : ℕ} {e : E} {P : (ℕ → E) → Prop} {Q : E → (ℕ → E) → Prop}
    (h : ∀ s, P s ↔ Q (s 0) fun k => s (k + 1)) :
    (∃ s : ℕ → E, s 0 = e ∧ (∀ k < n + 1, sq (s k) = .ok (s (k + 1))) ∧ P s) ↔
      ∃ e', sq e = .ok e' ∧ ∃ s : ℕ → E, s 0 = e' ∧ (∀ k < n, sq (s k) = .ok (s (k + 1))) ∧ Q e s := by
  constructor
  · rintro ⟨s, rfl, h1, h2⟩
    exact ⟨s 1, h1 0 (by omega), fun k => s (k + 1), rfl, fun k hk => h1 (k + 1) (by omega), (h s).1 h2⟩
  · rintro ⟨e', h1, s, rfl, h2, h3⟩
    refine ⟨fun k => k.casesOn e s, rfl, fun k hk => ?_, (h _).2 h3⟩
    cases k with
    | zero => exact h1
    | succ k => exact h2 k (by omega)

theorem timesLoop_pos (add : E → E → Res E) (double : E → Res E) {n : ℕ} (h : 0 < n) (r e : E) :
    timesLoop add double n r e = (if n % 2 = 1 then add r e else .ok r).bind fun r' =>
      (double e).bind fun e' => timesLoop add double (n / 2) r' e' := by
  rw [timesLoop, dif_pos h]
  rcases Nat.mod_two_eq_zero_or_one n with h2 | h2 <;> rw [h2] <;> rfl

theorem timesLoop_ok_iff (add : E → E → Res E) (double : E → Res E) (n : ℕ) (r e x : E) :
    timesLoop add double n r e = .ok x ↔ ∃ s : ℕ → E, s 0 = e ∧
      (∀ k < n.size, double (s k) = .ok (s (k + 1))) ∧ combineAll add r ((digitPositions n).map s) = .ok x := by
  induction n using Nat.strong_induction_on generalizing r e with
  | _ n ih =>
    by_cases h : 0 < n
    · rw [timesLoop_pos _ _ h, size_pos h, squares_succ (Q := fun e s =>
        combineAll add r ((if n % 2 = 1 then [e] else []) ++ (digitPositions (n / 2)).map s) = .ok x)]
      · by_cases h2 : n % 2 = 1
        · rw [if_pos h2]
          simp only [h2, rbind_eq_ok, ih (n / 2) (by omega), if_true, List.singleton_append, combineAll]
          constructor
          · rintro ⟨r', h3, e', h4, s, h5, h6, h7⟩
            exact ⟨e', h4, s, h5, h6, r', h3, h7⟩
          · rintro ⟨e', h4, s, h5, h6, r', h3, h7⟩
            exact ⟨r', h3, e', h4, s, h5, h6, h7⟩
        · rw [if_neg h2]
          simp only [h2, rbind_eq_ok, ih (n / 2) (by omega), if_false, List.nil_append, Res.ok.injEq]
          constructor
          · rintro ⟨_, rfl, h3⟩
            exact h3
          · intro h3
            exact ⟨r, rfl, h3⟩
      · intro s
        rw [digitPositions_pos h, List.map_append, List.map_map]
        by_cases h2 : n % 2 = 1 <;> simp only [h2, if_true, if_false] <;> rfl
    · obtain rfl : n = 0 := by omega
      rw [timesLoop, dif_neg h]
      constructor
      · intro h'
        exact ⟨fun _ => e, rfl, by simp, h'⟩
      · rintro ⟨s, -, -, h'⟩
        exact h'

theorem powerLoop_eq_timesLoop (mul : E → E → Res E) (square : E → Res E) (n : ℕ) (r e : E) :
    powerLoop mul square n r e = timesLoop mul square n r e := by
  induction n using Nat.strong_induction_on generalizing r e with
  | _ n ih =>
    rw [powerLoop, timesLoop]
    by_cases h : 0 < n
    · rw [dif_pos (by exact_mod_cast h), dif_pos h,
        show Int.tmod (n : ℤ) 2 = ((n % 2 : ℕ) : ℤ) from rfl,
        show Int.tdiv (n : ℤ) 2 = ((n / 2 : ℕ) : ℤ) from rfl]
      simp only [ih (n / 2) (by omega), ne_eq, Nat.cast_eq_zero]
    · rw [dif_neg (by exact_mod_cast h), dif_neg h]

theorem powerLoop_ok_iff (mul : E → E → Res E) (square : E → Res E) (n : ℕ) (r e x : E) :
    powerLoop mul square n r e = .ok x ↔ ∃ s : ℕ → E, s 0 = e ∧
      (∀ k < n.size, square (s k) = .ok (s (k + 1))) ∧ combineAll mul r ((digitPositions n).map s) = .ok x := by
  rw [powerLoop_eq_timesLoop, timesLoop_ok_iff]

theorem powerDefault_ok_iff [Cfg] (one : Res E) (mul : E → E → Res E) (square inv : E → Res E) (n : ℤ)
    (hn : n ≠ isizeMin) (e x : E) :
    powerDefault one mul square inv n e = .ok x ↔ ∃ b o, (if n < 0 then inv e else .ok e) = .ok b ∧
      one = .ok o ∧ ∃ s : ℕ → E, s 0 = b ∧ (∀ k < n.natAbs.size, square (s k) = .ok (s (k + 1))) ∧
        combineAll mul o ((digitPositions n.natAbs).map s) = .ok x := by
  unfold powerDefault
  by_cases h : n < 0
  · rw [if_pos h, if_pos h]
    have h1 : isizeNeg n = .ok (n.natAbs : ℤ) := by
      rw [isizeNeg, if_neg hn]
      congr 1
      omega
    rw [h1]
    simp only [bind_eq_ok, ← powerLoop_ok_iff, Res.ok.injEq]
    constructor
    · rintro ⟨_, rfl, b, h2, p, hp, o, h3, h4⟩
      obtain rfl := Res.ok.inj hp
      exact ⟨b, o, h2, h3, h4⟩
    · rintro ⟨b, o, h2, h3, h4⟩
      exact ⟨_, rfl, b, h2, _, rfl, o, h3, h4⟩
  · rw [if_neg h, if_neg h]
    have h1 : n = (n.natAbs : ℤ) := by omega
    simp only [← powerLoop_ok_iff, Res.ok.injEq]
    rw [← h1]
    show (one >>= _) = _ ↔ _
    rw [bind_eq_ok]
    constructor
    · rintro ⟨o, h3, h4⟩
      exact ⟨e, o, rfl, h3, h4⟩
    · rintro ⟨b, o, rfl, h3, h4⟩
      exact ⟨o, h3, h4⟩

end Abstalg
