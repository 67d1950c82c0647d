import Verif.Proofs.Permutations

/-! # Permutations: C42, C43 -/

set_option linter.unusedSectionVars false

set_option autoImplicit false

namespace Abstalg

variable [Cfg] (size : UInt32)

/-- C42: the permutations form the symmetric group, the left factor acting first; no operation
panics on members. -/
theorem C42_group : GroupSpec False (Permutations.ops size) (PermRep (n := size.toNat)) :=
  Permutations.spec

/-- The identity and another member of the permutations of size 4. -/
example : (Permutations.ops 4).one = .ok [0, 1, 2, 3] ∧
    (Permutations.ops 4).contains [1, 2, 3, 0] = .ok true ∧
    (Permutations.ops 4).equals [1, 2, 3, 0] [1, 2, 0, 3] = .ok false :=
  ⟨rfl, rfl, rfl⟩

/-- C42: every permutation has exactly one vector. -/
theorem C42_bijective (σ : (Equiv.Perm (Fin size.toNat))ᵐᵒᵖ) :
    ∃! v : List UInt32, PermRep v σ := by
  have hs := size.toNat_lt
  refine ⟨List.ofFn fun i : Fin size.toNat => UInt32.ofNat (σ.unop i).1, ⟨by simp, fun i => ?_⟩,
    fun w hw => ?_⟩
  · rw [List.getElem_ofFn]
    exact UInt32.toNat_ofNat_of_lt (lt_of_lt_of_le (Fin.is_lt _) hs.le)
  · refine List.ext_getElem (by simp [hw.1]) fun i h1 h2 => UInt32.toNat_inj.1 ?_
    rw [hw.2 ⟨i, hw.1 ▸ h1⟩, List.getElem_ofFn]
    exact (UInt32.toNat_ofNat_of_lt (lt_of_lt_of_le (Fin.is_lt _) hs.le)).symm

/-- The transposition of `0` and `2` has exactly one vector. -/
example : ∃! v : List UInt32, PermRep v (show (Equiv.Perm (Fin (3 : UInt32).toNat))ᵐᵒᵖ from
    MulOpposite.op (Equiv.swap (0 : Fin 3) (2 : Fin 3))) :=
  C42_bijective 3 _

/-- C42: the members are the lists of length `size` without repetitions of numbers below `size`. -/
theorem C42_members {v : List UInt32} :
    (∃ σ : (Equiv.Perm (Fin size.toNat))ᵐᵒᵖ, PermRep v σ) ↔
      v.length = size.toNat ∧ v.Nodup ∧ ∀ a, a ∈ v → a.toNat < size.toNat :=
  Permutations.exists_rep_iff

/-- `[1, 2, 0]` is a member for size 3; `[1, 1, 0]`, `[1, 3, 0]` and `[1, 0]` are not. -/
example : (([1, 2, 0] : List UInt32).length = 3 ∧ ([1, 2, 0] : List UInt32).Nodup ∧
      ∀ a ∈ ([1, 2, 0] : List UInt32), a.toNat < 3) ∧
    ¬ ([1, 1, 0] : List UInt32).Nodup ∧ ¬ (∀ a ∈ ([1, 3, 0] : List UInt32), a.toNat < 3) := by
  decide

/-- C42: entry `i` of the product of `a` and `b` is `b[a[i]]`. -/
theorem C42_mul_entries {a b : List UInt32} {σ τ : (Equiv.Perm (Fin size.toNat))ᵐᵒᵖ}
    (ha : PermRep a σ) (hb : PermRep b τ) :
    ∃ c, (Permutations.ops size).mul a b = .ok c ∧ (Permutations.ops size).mulAssign a b = .ok c ∧
      c.length = a.length ∧ ∀ i : ℕ, i < a.length → c[i]? = a[i]?.bind fun k => b[k.toNat]? := by
  obtain ⟨c, hc, hc'⟩ := returns_false_iff.1 ((C42_group size).mul ha hb)
  obtain ⟨d, hd, hd'⟩ := returns_false_iff.1 ((C42_group size).mulAssign ha hb)
  obtain rfl : d = c := (C42_bijective size _).unique hd' hc'
  refine ⟨d, hc, hd, hc'.1.trans ha.1.symm, fun i hi => ?_⟩
  have hi' : i < size.toNat := ha.1 ▸ hi
  have hid : i < d.length := hc'.1.symm ▸ hi'
  rw [List.getElem?_eq_getElem hi, List.getElem?_eq_getElem hid, Option.bind_some]
  have h1 := ha.2 ⟨i, hi'⟩
  have h3 := hc'.2 ⟨i, hi'⟩
  have hlt : a[i].toNat < b.length := by rw [hb.1, h1]; exact Fin.is_lt _
  rw [List.getElem?_eq_getElem hlt]
  refine congrArg some (UInt32.toNat_inj.1 ?_)
  rw [h3, hb.2 ⟨a[i].toNat, hb.1 ▸ hlt⟩]
  simp only [h1]
  rfl

/-- Members to which it applies. -/
example : (∃ σ : (Equiv.Perm (Fin (3 : UInt32).toNat))ᵐᵒᵖ, PermRep [1, 2, 0] σ) ∧
    ∃ σ : (Equiv.Perm (Fin (3 : UInt32).toNat))ᵐᵒᵖ, PermRep [0, 2, 1] σ :=
  ⟨(C42_members 3).2 (by decide), (C42_members 3).2 (by decide)⟩

/-- C42: entry `a[i]` of the inverse of `a` is `i`. -/
theorem C42_inv_entries {a : List UInt32} {σ : (Equiv.Perm (Fin size.toNat))ᵐᵒᵖ}
    (ha : PermRep a σ) :
    ∃ c, (Permutations.ops size).inv a = .ok c ∧ (Permutations.ops size).tryInv a = .ok (some c) ∧
      c.length = a.length ∧
      ∀ (i : ℕ) (hi : i < a.length), ∃ k, c[a[i].toNat]? = some k ∧ k.toNat = i := by
  obtain ⟨c, hc, hc'⟩ := returns_false_iff.1 ((C42_group size).inv ha)
  obtain ⟨o, ho, d, rfl, hd'⟩ := returns_false_iff.1 (Permutations.tryInv_spec (mp := False) ha)
  obtain rfl : d = c := (C42_bijective size _).unique hd' hc'
  refine ⟨d, hc, ho, hc'.1.trans ha.1.symm, fun i hi => ?_⟩
  have hi' : i < size.toNat := ha.1 ▸ hi
  have h1 := ha.2 ⟨i, hi'⟩
  have hlt : a[i].toNat < size.toNat := by rw [h1]; exact Fin.is_lt _
  refine ⟨_, List.getElem?_eq_getElem (hc'.1.symm ▸ hlt), ?_⟩
  rw [hc'.2 ⟨a[i].toNat, hlt⟩]
  simp only [h1]
  simp

/-- The inverse of the cycle `[1, 2, 0]` is `[2, 0, 1]`. -/
example : (Permutations.ops 3).inv [1, 2, 0] = .ok [2, 0, 1] := by
  have h1 : ∃ σ : (Equiv.Perm (Fin (3 : UInt32).toNat))ᵐᵒᵖ, PermRep [1, 2, 0] σ :=
    (C42_members 3).2 (by decide)
  obtain ⟨c, hc, -, hl, h⟩ := C42_inv_entries 3 h1.choose_spec
  obtain ⟨a, ha, ha'⟩ := h 0 (by decide)
  obtain ⟨b, hb, hb'⟩ := h 1 (by decide)
  obtain ⟨d, hd, hd'⟩ := h 2 (by decide)
  obtain rfl : a = 0 := UInt32.toNat_inj.1 ha'
  obtain rfl : b = 1 := UInt32.toNat_inj.1 hb'
  obtain rfl : d = 2 := UInt32.toNat_inj.1 hd'
  rw [hc]
  obtain ⟨x, y, z, rfl⟩ := List.length_eq_three.1 hl
  have e1 : some y = some (0 : UInt32) := ha
  have e2 : some z = some (1 : UInt32) := hb
  have e3 : some x = some (2 : UInt32) := hd
  cases e1; cases e2; cases e3
  rfl

/-- C43: `contains` is exact on vectors whose entries are below `size`. -/
theorem C43_contains : ContainsExact False (Permutations.ops size).toDomainOps
    (PermRep (n := size.toNat)) fun v => ∀ a, a ∈ v → a.toNat < size.toNat := by
  intro v hb
  by_cases hl : v.length = size.toNat
  · rcases Permutations.split size.toNat v with ⟨h1, h2⟩ | ⟨l, a, r, rfl, h1, h2, h3⟩
    · show Decides False ((Permutations.domain size).contains v) _
      rw [Permutations.contains_nodup hl h1 h2]
      exact decides_ok ⟨fun _ => (C42_members size).2 ⟨hl, h1, h2⟩, fun _ => rfl⟩
    · have ha : a ∈ l := h3.resolve_left (Nat.not_le.2 (hb a (by simp)))
      show Decides False ((Permutations.domain size).contains (l ++ a :: r)) _
      rw [Permutations.contains_repeat hl h1 h2 ha]
      refine decides_ok ⟨nofun, fun h => ?_⟩
      have := ((C42_members size).1 h).2.1
      rw [List.nodup_append] at this
      exact absurd rfl (this.2.2 a ha a (by simp))
  · show Decides False ((Permutations.domain size).contains v) _
    simp only [Permutations.domain]
    rw [if_pos (by simpa using hl)]
    exact decides_ok ⟨nofun, fun h => absurd ((C42_members size).1 h).1 hl⟩

example : (Permutations.ops 3).contains [2, 0, 1] = .ok true ∧
    (Permutations.ops 3).contains [2, 0, 2] = .ok false := ⟨rfl, rfl⟩

/-- C43: vectors of the wrong length are not contained. -/
theorem C43_length {v : List UInt32} (h : v.length ≠ size.toNat) :
    (Permutations.ops size).contains v = .ok false := by
  show (Permutations.domain size).contains v = _
  simp only [Permutations.domain]
  rw [if_pos (by simpa using h)]

example : (Permutations.ops 3).contains [1, 0] = .ok false := C43_length 3 (by decide)

/-- C43: on a vector of the right length whose first bad entry, after a prefix without repetitions
and with entries below `size`, is `size` or more, `contains` panics. -/
theorem C43_out_of_range {l r : List UInt32} {a : UInt32}
    (hl : (l ++ a :: r).length = size.toNat) (hd : l.Nodup) (hb : ∀ a ∈ l, a.toNat < size.toNat)
    (ha : size.toNat ≤ a.toNat) : (Permutations.ops size).contains (l ++ a :: r) = .panic :=
  Permutations.contains_panics hl hd hb ha

example : (Permutations.ops 3).contains [1, 7, 1] = .panic :=
  C43_out_of_range 3 (l := [1]) (a := 7) (r := [1]) (by decide) (by decide) (by decide) (by decide)

/-- C43: if the first bad entry is a repetition then it returns false, whatever follows. -/
theorem C43_repetition {l r : List UInt32} {a : UInt32}
    (hl : (l ++ a :: r).length = size.toNat) (hd : l.Nodup) (hb : ∀ a ∈ l, a.toNat < size.toNat)
    (ha : a ∈ l) : (Permutations.ops size).contains (l ++ a :: r) = .ok false :=
  Permutations.contains_repeat hl hd hb ha

example : (Permutations.ops 3).contains [1, 1, 7] = .ok false :=
  C43_repetition 3 (l := [1]) (a := 1) (r := [7]) (by decide) (by decide) (by decide) (by decide)

/-- C43: a vector is accepted exactly if it is a permutation. -/
theorem C43_true_iff (v : List UInt32) : (Permutations.ops size).contains v = .ok true ↔
    ∃ σ : (Equiv.Perm (Fin size.toNat))ᵐᵒᵖ, PermRep v σ := by
  rw [C42_members]
  by_cases hl : v.length = size.toNat
  · rcases Permutations.split size.toNat v with ⟨h1, h2⟩ | ⟨l, a, r, rfl, h1, h2, h3⟩
    · exact ⟨fun _ => ⟨hl, h1, h2⟩, fun _ => Permutations.contains_nodup hl h1 h2⟩
    · constructor
      · intro h
        rcases h3 with h3 | h3
        · rw [C43_out_of_range size hl h1 h2 h3] at h; cases h
        · rw [C43_repetition size hl h1 h2 h3] at h; cases h
      · rintro ⟨-, h4, h5⟩
        rcases h3 with h3 | h3
        · exact absurd (h5 a (by simp)) (Nat.not_lt.2 h3)
        · rw [List.nodup_append] at h4
          exact absurd rfl (h4.2.2 a h3 a (by simp))
  · rw [C43_length size hl]
    exact ⟨nofun, fun h => absurd h.1 hl⟩

example : ∃ σ : (Equiv.Perm (Fin (3 : UInt32).toNat))ᵐᵒᵖ, PermRep [2, 0, 1] σ :=
  (C43_true_iff 3 _).1 rfl

/-- C43 covers all vectors: either a vector has the wrong length, or it is a permutation, or it has a
first bad entry. -/
theorem C43_cases (v : List UInt32) : v.length ≠ size.toNat ∨
    (∃ σ : (Equiv.Perm (Fin size.toNat))ᵐᵒᵖ, PermRep v σ) ∨
    ∃ l a r, v = l ++ a :: r ∧ l.Nodup ∧ (∀ b ∈ l, b.toNat < size.toNat) ∧
      (size.toNat ≤ a.toNat ∨ a ∈ l) := by
  by_cases hl : v.length = size.toNat
  · rcases Permutations.split size.toNat v with ⟨h1, h2⟩ | h
    · exact .inr (.inl ((C42_members size).2 ⟨hl, h1, h2⟩))
    · exact .inr (.inr h)
  · exact .inl hl

/-- The vector `[1, 2, 3, 0]` is a member of the permutations of size 4. -/
example : ∃ σ : (Equiv.Perm (Fin (4 : UInt32).toNat))ᵐᵒᵖ, PermRep [1, 2, 3, 0] σ :=
  (C42_members 4).2 (by decide)

example : (Permutations.ops 4).mul [1, 2, 3, 0] [1, 0, 3, 2] = .ok [0, 3, 2, 1] := by
  have h1 : ∃ σ : (Equiv.Perm (Fin (4 : UInt32).toNat))ᵐᵒᵖ, PermRep [1, 2, 3, 0] σ :=
    (C42_members 4).2 (by decide)
  have h2 : ∃ σ : (Equiv.Perm (Fin (4 : UInt32).toNat))ᵐᵒᵖ, PermRep [1, 0, 3, 2] σ :=
    (C42_members 4).2 (by decide)
  obtain ⟨c, hc, -, hl, h⟩ := C42_mul_entries 4 h1.choose_spec h2.choose_spec
  rw [hc]
  refine congrArg _ (List.ext_getElem? fun i => ?_)
  by_cases hi : i < 4
  · rw [h i hi]
    obtain rfl | rfl | rfl | rfl : i = 0 ∨ i = 1 ∨ i = 2 ∨ i = 3 := by omega
    all_goals rfl
  · rw [List.getElem?_eq_none (by rw [hl]; simpa using hi), List.getElem?_eq_none (by simpa using hi)]

/-- C43: `contains` panics on `[0, 3]` for size 2 but not on `[0, 0]`. -/
example : (Permutations.ops 2).contains [0, 3] = .panic ∧
    (Permutations.ops 2).contains [0, 0] = .ok false :=
  ⟨C43_out_of_range 2 (l := [0]) (a := 3) (r := []) (by decide) (by decide) (by decide) (by decide),
    C43_repetition 2 (l := [0]) (a := 0) (r := []) (by decide) (by decide) (by decide) (by decide)⟩

end Abstalg
