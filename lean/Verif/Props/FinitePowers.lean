import Verif.Props.Instances
import Verif.Props.FiniteFields
import Verif.Props.Permutations
import Mathlib.FieldTheory.Finite.Basic
import Mathlib.GroupTheory.OrderOfElement

/-! # Powers in finite groups and fields: C79 -/

set_option autoImplicit false

universe u

namespace Abstalg

variable [Cfg] {E : Type}

local instance fact7 : Fact (Nat.Prime 7) := ⟨by decide⟩

/-- C79: in a finite group exponents that agree modulo the order of the group give the same power,
negative exponents included. -/
theorem C79_group {R : Type u} [Group R] {rep : E → R → Prop} {A : GroupOps E}
    (h : GroupSpec False A rep) (hu : ∀ {a b x}, rep a x → rep b x → a = b) {n m : ℤ}
    (hn : n ≠ isizeMin) (hm : m ≠ isizeMin) (hnm : n ≡ m [ZMOD Nat.card R])
    {a : E} {x : R} (ha : rep a x) : A.power n a = A.power m a := by
  obtain ⟨b, h1, h2⟩ := returns_false_iff.1 (h.power n hn ha)
  obtain ⟨c, h3, h4⟩ := returns_false_iff.1 (h.power m hm ha)
  have hx : x ^ n = x ^ m := by
    rw [zpow_eq_zpow_iff_modEq]
    exact hnm.of_dvd (Int.natCast_dvd_natCast.2 (orderOf_dvd_natCard x))
  rw [hx] at h2
  rw [h1, h3, hu h2 h4]

/-- The 25th power of a permutation of size 4 is its first power, and the power -1 is the 23rd. -/
example {v : List UInt32} {σ : (Equiv.Perm (Fin (4 : UInt32).toNat))ᵐᵒᵖ} (hv : PermRep v σ) :
    (Permutations.ops 4).power 25 v = (Permutations.ops 4).power 1 v := by
  have hc : Nat.card (Equiv.Perm (Fin (4 : UInt32).toNat))ᵐᵒᵖ = 24 := by
    rw [Nat.card_congr MulOpposite.opEquiv.symm, Nat.card_eq_fintype_card, Fintype.card_perm,
      Fintype.card_fin]
    rfl
  have hn : ∀ n : ℤ, 0 ≤ n → n ≠ isizeMin := fun n hn => by
    unfold isizeMin
    have : (0 : ℤ) < 2 ^ (Cfg.ptrBits - 1) := by positivity
    omega
  exact C79_group (C42_group 4) (fun h1 h2 => (C42_bijective 4 _).unique h1 h2) (hn 25 (by decide))
    (hn 1 (by decide)) (by rw [hc]; decide) hv

/-- C79: in particular the power with the order of the group is the identity. -/
theorem C79_group_order {R : Type u} [Group R] {rep : E → R → Prop} {A : GroupOps E}
    (h : GroupSpec False A rep) (hu : ∀ {a b x}, rep a x → rep b x → a = b)
    (hc : (Nat.card R : ℤ) ≠ isizeMin) {a : E} {x : R} (ha : rep a x) :
    A.power (Nat.card R) a = A.one := by
  obtain ⟨b, h1, h2⟩ := returns_false_iff.1 (h.power _ hc ha)
  obtain ⟨c, h3, h4⟩ := returns_false_iff.1 h.one
  rw [zpow_natCast, pow_card_eq_one'] at h2
  rw [h1, h3, hu h2 h4]

example (hc : (Nat.card (Equiv.Perm (Fin (4 : UInt32).toNat))ᵐᵒᵖ : ℤ) ≠ isizeMin) {v : List UInt32}
    {σ : (Equiv.Perm (Fin (4 : UInt32).toNat))ᵐᵒᵖ} (hv : PermRep v σ) :=
  C79_group_order (C42_group 4) (fun h1 h2 => (C42_bijective 4 _).unique h1 h2) hc hv

theorem nonneg_ne_isizeMin {n : ℤ} (hn : 0 ≤ n) : n ≠ isizeMin := by
  unfold isizeMin
  have : (0 : ℤ) < 2 ^ (Cfg.ptrBits - 1) := by positivity
  omega

theorem neg_one_ne_isizeMin : (-1 : ℤ) ≠ isizeMin := by
  have h : (2 : ℤ) ^ 31 ≤ 2 ^ (Cfg.ptrBits - 1) := by
    have := Cfg.ptrBits_ge
    exact pow_le_pow_right₀ (by norm_num) (by omega)
  unfold isizeMin
  omega

/-- C79: a permutation of size `n` to the power `n!` is the identity. -/
theorem C79_permutations (size : UInt32) {v : List UInt32}
    (hv : (Permutations.ops size).contains v = .ok true) :
    (Permutations.ops size).power (size.toNat.factorial) v = (Permutations.ops size).one := by
  obtain ⟨σ, hσ⟩ := (C43_true_iff size v).1 hv
  have hu : ∀ {a b : List UInt32} {x : (Equiv.Perm (Fin size.toNat))ᵐᵒᵖ}, PermRep a x →
      PermRep b x → a = b := fun h1 h2 => (C42_bijective size _).unique h1 h2
  have hc : Nat.card (Equiv.Perm (Fin size.toNat))ᵐᵒᵖ = size.toNat.factorial := by
    rw [Nat.card_congr MulOpposite.opEquiv.symm, Nat.card_eq_fintype_card, Fintype.card_perm,
      Fintype.card_fin]
  have := C79_group_order (C42_group size) hu (nonneg_ne_isizeMin (by positivity)) hσ
  rwa [hc] at this

/-- A cycle of length 4. -/
example : (Permutations.ops 4).power 24 [1, 2, 3, 0] = .ok [0, 1, 2, 3] :=
  C79_permutations 4 (v := [1, 2, 3, 0]) rfl

omit [Cfg] in
/-- The residue of a power with the exponent reduced modulo `k`. -/
theorem zmod_zpow {n : ℕ} {u : (ZMod n)ˣ} {a : ℤ} (hu : (a : ZMod n) = u) {k : ℕ} (hk : 0 < k)
    (h1 : u ^ k = 1) (z : ℤ) : ((u ^ z : (ZMod n)ˣ) : ZMod n) = ((a ^ (z % k).toNat : ℤ) : ZMod n) := by
  have h2 : u ^ z = u ^ (z % k).toNat := by
    rw [← zpow_natCast, Int.toNat_of_nonneg (Int.emod_nonneg z (by omega))]
    rw [zpow_eq_zpow_iff_modEq]
    exact ((Int.mod_modEq z k).of_dvd (Int.natCast_dvd_natCast.2 (orderOf_dvd_of_pow_eq_one h1))).symm
  rw [h2, Units.val_pow_eq_pow_val, Int.cast_pow, hu]

omit [Cfg] in
theorem zmod_unique {n : ℕ} {a b : ℤ} {s : ZMod n} (ha : 0 ≤ a ∧ a < n ∧ (a : ZMod n) = s)
    (hb : 0 ≤ b ∧ b < n ∧ (b : ZMod n) = s) : a = b := by
  obtain ⟨a0, a1, rfl⟩ := ha
  obtain ⟨b0, b1, b2⟩ := hb
  rw [ZMod.intCast_eq_intCast_iff', Int.emod_eq_of_lt b0 b1, Int.emod_eq_of_lt a0 a1] at b2
  exact b2.symm

omit [Cfg] in
theorem zmod_value {n : ℕ} {c : Res ℤ} {u : ℤ} {s : ZMod n} (hs : s = (u : ZMod n))
    (hc : Returns False c (fun (a : ℤ) => 0 ≤ a ∧ a < n ∧ (a : ZMod n) = s)) : c = .ok (u % n) := by
  obtain ⟨e, rfl, e0, e1, e2⟩ := returns_false_iff.1 hc
  rw [hs, ZMod.intCast_eq_intCast_iff'] at e2
  rw [← e2, Int.emod_eq_of_lt e0 e1]

/-- C79: Euler: the value of `power` in the multiplicative group of the residues modulo `n`, for
positive and negative exponents. -/
theorem C79_euler (n : ℕ) (hn : 2 ≤ n) (a : ℤ) (h0 : 0 ≤ a) (h1 : a < n) (hc : IsCoprime a n) (z : ℤ)
    (hz : z ≠ isizeMin) :
    (MultiplicativeGroup.ops (QuotientRing.ops Integers.euclidean (n : ℤ)).toMonoidOps).power z a =
      .ok (a ^ (z % Nat.totient n).toNat % n) := by
  have hu : IsUnit (a : ZMod n) := by
    have := hc.map (Int.castRingHom (ZMod n))
    simpa [isCoprime_zero_right] using this
  obtain ⟨u, hu⟩ := hu
  have h := MultiplicativeGroup.spec (C18_integers n hn).toMonoidSpec
  have ha : 0 ≤ a ∧ a < n ∧ (a : ZMod n) = (u : ZMod n) := ⟨h0, h1, hu.symm⟩
  exact zmod_value (zmod_zpow hu.symm (Nat.totient_pos.2 (by omega)) (ZMod.pow_totient u) z)
    (h.power z hz ha)

/-- The power -5 of 3 modulo 10 is `3 ^ 3 = 27`. -/
example (hz : (-5 : ℤ) ≠ isizeMin) :
    (MultiplicativeGroup.ops (QuotientRing.ops Integers.euclidean 10).toMonoidOps).power (-5) 3 =
      .ok 7 := C79_euler 10 (by decide) 3 (by decide) (by decide) ⟨7, -2, by decide⟩ (-5) hz

/-- C79: so the inverse of a residue is a power. -/
theorem C79_euler_inv (n : ℕ) (hn : 2 ≤ n) (a : ℤ) (h0 : 0 ≤ a) (h1 : a < n) (hc : IsCoprime a n) :
    (MultiplicativeGroup.ops (QuotientRing.ops Integers.euclidean (n : ℤ)).toMonoidOps).inv a =
      .ok (a ^ (Nat.totient n - 1) % n) := by
  have hu : IsUnit (a : ZMod n) := by
    have := hc.map (Int.castRingHom (ZMod n))
    simpa [isCoprime_zero_right] using this
  obtain ⟨u, hu⟩ := hu
  have h := MultiplicativeGroup.spec (C18_integers n hn).toMonoidSpec
  have ha : 0 ≤ a ∧ a < n ∧ (a : ZMod n) = (u : ZMod n) := ⟨h0, h1, hu.symm⟩
  refine zmod_value ?_ (h.inv ha)
  have ht := Nat.totient_pos.2 (show 0 < n by omega)
  rw [Int.cast_pow, ← hu, ← Units.val_pow_eq_pow_val]
  congr 1
  rw [inv_eq_iff_mul_eq_one, ← pow_succ', Nat.sub_add_cancel ht, ZMod.pow_totient]

example : (MultiplicativeGroup.ops (QuotientRing.ops Integers.euclidean 10).toMonoidOps).inv 3 =
    .ok 7 := C79_euler_inv 10 (by decide) 3 (by decide) (by decide) ⟨7, -2, by decide⟩

section prime

variable (p : ℕ) [hp : Fact p.Prime]

/-- C79: Fermat: the value of `power` in the field of residues modulo a prime: for a residue that is
not zero the exponent counts modulo `p - 1`, and powers of zero are zero. -/
theorem C79_fermat (a : ℤ) (h0 : 0 ≤ a) (h1 : a < p) (z : ℤ) (hz : z ≠ isizeMin) :
    (QuotientField.ops Integers.euclidean (p : ℤ)).power z a =
      .ok (if a = 0 then 0 else a ^ (z % ((p - 1 : ℕ) : ℤ)).toNat % p) := by
  have h := C21_integers p
  have hp1 := hp.out.one_lt
  split_ifs with ha
  · subst ha
    have := zmod_value (u := 0) (s := 0) (by simp) (h.power_zero z ⟨h0, h1, by simp⟩)
    simpa using this
  · have ha' : (a : ZMod p) ≠ 0 := by
      rw [Ne, ZMod.intCast_zmod_eq_zero_iff_dvd]
      intro hd
      have := Int.le_of_dvd (by omega) hd
      omega
    refine zmod_value ?_ (h.power z hz ⟨h0, h1, rfl⟩ ha')
    have := zmod_zpow (u := Units.mk0 (a : ZMod p) ha') (a := a) rfl (k := p - 1) (by omega)
      (by ext; simpa using ZMod.pow_card_sub_one_eq_one ha') z
    rw [← this]
    simp

/-- Powers of 3 and of 0 modulo 7. -/
example : (QuotientField.ops Integers.euclidean 7).power (-1) 3 = .ok 5 ∧
    (QuotientField.ops Integers.euclidean 7).power 8 3 = .ok 2 ∧
    (QuotientField.ops Integers.euclidean 7).power (-1) 0 = .ok 0 :=
  ⟨C79_fermat 7 3 (by decide) (by decide) (-1) neg_one_ne_isizeMin,
    C79_fermat 7 3 (by decide) (by decide) 8 (nonneg_ne_isizeMin (by decide)),
    C79_fermat 7 0 (by decide) (by decide) (-1) neg_one_ne_isizeMin⟩

/-- C79: the value of `inv` in the field of residues modulo a prime. -/
theorem C79_fermat_inv (a : ℤ) (h0 : 0 < a) (h1 : a < p) :
    (QuotientField.ops Integers.euclidean (p : ℤ)).inv a = .ok (a ^ (p - 2) % p) := by
  have h := C21_integers p
  have hp1 := hp.out.two_le
  have ha' : (a : ZMod p) ≠ 0 := by
    rw [Ne, ZMod.intCast_zmod_eq_zero_iff_dvd]
    intro hd
    have := Int.le_of_dvd (by omega) hd
    omega
  refine zmod_value ?_ (h.inv ⟨h0.le, h1, rfl⟩ ha')
  rw [Int.cast_pow]
  refine inv_eq_of_mul_eq_one_right ?_
  rw [← pow_succ', show p - 2 + 1 = p - 1 by omega, ZMod.pow_card_sub_one_eq_one ha']

example : (QuotientField.ops Integers.euclidean 7).inv 3 = .ok 5 :=
  C79_fermat_inv 7 3 (by decide) (by decide)

/-- C79: the same with machine integers, if `(p - 1)^2` is representable. -/
theorem C79_fermat_checked {w : ℕ} [Width w] (m : SInt w) (hm : m.1 = p)
    (hmax : ((p : ℤ) - 1) ^ 2 ≤ 2 ^ (w - 1) - 1) (a : SInt w) (h0 : 0 < a.1) (h1 : a.1 < p) :
    (∀ z, z ≠ isizeMin → ∃ b, (QuotientField.ops (CheckedInts.euclidean w) m).power z a = .ok b ∧
      b.1 = a.1 ^ (z % ((p - 1 : ℕ) : ℤ)).toNat % p) ∧
    ∃ b, (QuotientField.ops (CheckedInts.euclidean w) m).inv a = .ok b ∧ b.1 = a.1 ^ (p - 2) % p := by
  have h := C24_prime_field p m hm hmax
  have hp1 := hp.out.two_le
  have key : ∀ {c : Res (SInt w)} {u : ℤ} {s : ZMod p}, s = (u : ZMod p) →
      Returns False c (fun (a : SInt w) => 0 ≤ a.1 ∧ a.1 < p ∧ (a.1 : ZMod p) = s) →
      ∃ b, c = .ok b ∧ b.1 = u % p := by
    intro c u s hs hc
    obtain ⟨e, rfl, e0, e1, e2⟩ := returns_false_iff.1 hc
    rw [hs, ZMod.intCast_eq_intCast_iff'] at e2
    exact ⟨e, rfl, by rw [← e2, Int.emod_eq_of_lt e0 e1]⟩
  have ha' : (a.1 : ZMod p) ≠ 0 := by
    rw [Ne, ZMod.intCast_zmod_eq_zero_iff_dvd]
    intro hd
    have := Int.le_of_dvd (by omega) hd
    omega
  refine ⟨fun z hz => key ?_ (h.power z hz ⟨h0.le, h1, rfl⟩ ha'),
    key ?_ (h.inv ⟨h0.le, h1, rfl⟩ ha')⟩
  · have := zmod_zpow (u := Units.mk0 (a.1 : ZMod p) ha') (a := a.1) rfl (k := p - 1) (by omega)
      (by ext; simpa using ZMod.pow_card_sub_one_eq_one ha') z
    rw [← this]
    simp
  · rw [Int.cast_pow]
    refine inv_eq_of_mul_eq_one_right ?_
    rw [← pow_succ', show p - 2 + 1 = p - 1 by omega, ZMod.pow_card_sub_one_eq_one ha']

/-- The field with 1721 elements of the tests of the crate. -/
example (a : SInt 32) (h0 : 0 < a.1) (h1 : a.1 < (1721 : ℕ)) :=
  have : Fact (Nat.Prime 1721) := ⟨by norm_num⟩
  C79_fermat_checked 1721 (w := 32) ⟨1721, by decide⟩ rfl (by norm_num) a h0 h1

end prime

section field

variable {R : Type u} [Field R] {rep : E → R → Prop} {A : FieldOps E}

/-- C79: in a finite field the power with the number of elements is the identity map. -/
theorem C79_field_card [Finite R] (h : FieldSpec False A rep) (hu : ∀ {a b x}, rep a x → rep b x → a = b)
    {a : E} {x : R} (ha : rep a x) : A.power (Nat.card R) a = .ok a := by
  have : Fintype R := Fintype.ofFinite R
  by_cases hx : x = 0
  · subst hx
    obtain ⟨b, h1, h2⟩ := returns_false_iff.1 (h.power_zero (Nat.card R) ha)
    rw [h1, hu h2 ha]
  · obtain ⟨b, h1, h2⟩ := returns_false_iff.1
      (h.power (Nat.card R) (nonneg_ne_isizeMin (by positivity)) ha hx)
    rw [zpow_natCast, Nat.card_eq_fintype_card, FiniteField.pow_card] at h2
    rw [h1, hu h2 ha]

example : (QuotientField.ops Integers.euclidean (7 : ℕ)).power (Nat.card (ZMod 7)) 3 = .ok 3 :=
  C79_field_card (x := (3 : ZMod 7)) (C21_integers 7) zmod_unique ⟨by decide, by decide, by decide⟩

/-- C79: and the power with the exponent `-1` is the inverse, in every field. -/
theorem C79_field_neg_one (h : FieldSpec False A rep) (hu : ∀ {a b x}, rep a x → rep b x → a = b)
    {a : E} {x : R} (ha : rep a x) (hx : x ≠ 0) : A.power (-1) a = A.inv a := by
  obtain ⟨b, h1, h2⟩ := returns_false_iff.1 (h.power (-1) neg_one_ne_isizeMin ha hx)
  obtain ⟨c, h3, h4⟩ := returns_false_iff.1 (h.inv ha hx)
  rw [zpow_neg_one] at h2
  rw [h1, h3, hu h2 h4]

example : (QuotientField.ops Integers.euclidean (7 : ℕ)).power (-1) 3 =
    (QuotientField.ops Integers.euclidean (7 : ℕ)).inv 3 :=
  C79_field_neg_one (x := (3 : ZMod 7)) (C21_integers 7) zmod_unique
    ⟨by decide, by decide, by decide⟩ (by decide)

/-- C79: in a field of characteristic `p` the `p`-th power is additive. -/
theorem C79_frobenius (h : FieldSpec False A rep) (hu : ∀ {a b x}, rep a x → rep b x → a = b)
    (p : ℕ) [hp : Fact p.Prime] [CharP R p] {a b : E} {x y : R} (ha : rep a x) (hb : rep b y) :
    (do A.power p (← A.add a b)) = (do A.add (← A.power p a) (← A.power p b)) := by
  have hpow : ∀ {a x}, rep a x → ∃ c, A.power p a = .ok c ∧ rep c (x ^ p) := by
    intro a x ha
    by_cases hx : x = 0
    · subst hx
      obtain ⟨b, h1, h2⟩ := returns_false_iff.1 (h.power_zero p ha)
      exact ⟨b, h1, by rwa [zero_pow hp.out.ne_zero]⟩
    · obtain ⟨b, h1, h2⟩ := returns_false_iff.1
        (h.power p (nonneg_ne_isizeMin (by positivity)) ha hx)
      exact ⟨b, h1, by rwa [zpow_natCast] at h2⟩
  obtain ⟨s, h1, h2⟩ := returns_false_iff.1 (h.add ha hb)
  obtain ⟨c, h3, h4⟩ := hpow h2
  obtain ⟨d, h5, h6⟩ := hpow ha
  obtain ⟨e, h7, h8⟩ := hpow hb
  obtain ⟨f, h9, h10⟩ := returns_false_iff.1 (h.add h6 h8)
  rw [add_pow_char] at h4
  rw [h1, ok_bind, h3, h5, ok_bind, h7, ok_bind, h9, hu h4 h10]

example (a b : ℤ) (ha : 0 ≤ a ∧ a < (7 : ℕ)) (hb : 0 ≤ b ∧ b < (7 : ℕ)) :=
  C79_frobenius (C21_integers 7) zmod_unique 7 (x := (a : ZMod 7)) (y := (b : ZMod 7))
    ⟨ha.1, ha.2, rfl⟩ ⟨hb.1, hb.2, rfl⟩

end field

end Abstalg
