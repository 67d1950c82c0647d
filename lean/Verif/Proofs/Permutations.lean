import Verif.Spec.Permutations
import Verif.Spec.Contracts
import Verif.Model.Permutations
import Verif.Proofs.Lists

/-! # Permutations -/

set_option linter.unusedSectionVars false

set_option autoImplicit false

universe u

namespace Abstalg.Permutations

variable {mp : Prop} {size : UInt32}

/-- Loops over the enumeration of a list. -/
theorem forLoop_enumerate {σ : Type u} (I : ℕ → σ → Prop) {body : σ → ℕ × UInt32 → Res σ}
    {v : List UInt32} {s : σ} (hs : I 0 s)
    (h : ∀ i (hi : i < v.length) s, I i s → Returns mp (body s (i, v[i])) (I (i + 1))) :
    Returns mp (forLoop (enumerate v) s body) (I v.length) := by
  have gen : ∀ (v : List UInt32) (k : ℕ) (s : σ), I k s →
      (∀ i (hi : i < v.length) s, I (k + i) s →
        Returns mp (body s (k + i, v[i])) (I (k + i + 1))) →
      Returns mp (forLoop ((List.range' k v.length).zip v) s body) (I (k + v.length)) := by
    intro v
    induction v with
    | nil => exact fun k s hs _ => hs
    | cons a v ih =>
      intro k s hs h
      rw [List.length_cons, List.range'_succ, List.zip_cons_cons, forLoop]
      refine Returns.rbind (h 0 (by simp) s hs) fun s' hs' => ?_
      have := ih (k + 1) s' hs' fun i hi s hs => by
        have := h (i + 1) (by simpa using hi) s (by rwa [show k + (i + 1) = k + 1 + i by omega])
        rwa [show k + (i + 1) = k + 1 + i by omega] at this
      rwa [show k + 1 + v.length = k + (v.length + 1) by omega] at this
  have := gen v 0 s hs fun i hi s hs => by
    rw [Nat.zero_add] at hs ⊢
    exact h i hi s hs
  rwa [Nat.zero_add, ← List.range_eq_range'] at this

/-- `u32` values as natural numbers. -/
abbrev URep (a : UInt32) (k : ℕ) : Prop := a.toNat = k

theorem permRep_iff {v : List UInt32} {n : ℕ} {σ : (Equiv.Perm (Fin n))ᵐᵒᵖ} :
    PermRep v σ ↔ Cells URep v n fun i => if h : i < n then (σ.unop ⟨i, h⟩).1 else 0 := by
  constructor
  · rintro ⟨h, h'⟩
    refine ⟨h, fun i hi => ?_⟩
    have hi' : i < n := h ▸ hi
    simp only [hi', dif_pos]
    exact h' ⟨i, hi'⟩
  · rintro ⟨h, h'⟩
    refine ⟨h, fun i => ?_⟩
    have := h' i.1 (h.symm ▸ i.2)
    simp only [i.2, dif_pos] at this
    exact this

theorem rep_lt {v : List UInt32} {n : ℕ} {σ : (Equiv.Perm (Fin n))ᵐᵒᵖ} (h : PermRep v σ) {a : UInt32}
    (ha : a ∈ v) : a.toNat < n := by
  obtain ⟨i, hi, rfl⟩ := List.mem_iff_getElem.1 ha
  rw [h.2 ⟨i, h.1 ▸ hi⟩]
  exact Fin.is_lt _

theorem rep_nodup {v : List UInt32} {n : ℕ} {σ : (Equiv.Perm (Fin n))ᵐᵒᵖ} (h : PermRep v σ) :
    v.Nodup := by
  rw [List.nodup_iff_injective_get]
  rintro ⟨i, hi⟩ ⟨j, hj⟩ hij
  have h1 := h.2 ⟨i, h.1 ▸ hi⟩
  have h2 := h.2 ⟨j, h.1 ▸ hj⟩
  simp only [List.get_eq_getElem] at hij
  simp only at h1 h2
  rw [hij, h2] at h1
  have := σ.unop.injective (Fin.ext h1)
  exact Fin.ext (Fin.ext_iff.1 this).symm

/-- The permutations are the lists without repetitions of numbers below `n`. -/
theorem exists_rep_iff {v : List UInt32} {n : ℕ} :
    (∃ σ : (Equiv.Perm (Fin n))ᵐᵒᵖ, PermRep v σ) ↔
      v.length = n ∧ v.Nodup ∧ ∀ a, a ∈ v → a.toNat < n := by
  constructor
  · rintro ⟨σ, h⟩
    exact ⟨h.1, rep_nodup h, fun a ha => rep_lt h ha⟩
  · rintro ⟨hl, hd, hb⟩
    let f : Fin n → Fin n := fun i => ⟨(v[i.1]'(hl.symm ▸ i.2)).toNat, hb _ (List.getElem_mem _)⟩
    have hf : Function.Injective f := by
      intro i j hij
      have : (v[i.1]'(hl.symm ▸ i.2)) = (v[j.1]'(hl.symm ▸ j.2)) :=
        UInt32.toNat_inj.1 (show (f i).1 = (f j).1 by rw [hij])
      exact Fin.ext ((List.Nodup.getElem_inj_iff hd).1 this)
    exact ⟨.op (Equiv.ofBijective f (Finite.injective_iff_bijective.1 hf)), hl, fun i => rfl⟩

/-! ## `contains` -/

/-- The flags after having seen the entries of `seen`. -/
structure Seen (n : ℕ) (seen : List UInt32) (used : List Bool) : Prop where
  length : used.length = n
  flags : ∀ i (hi : i < used.length), used[i] = true ↔ ∃ a ∈ seen, a.toNat = i

theorem seen_nil (n : ℕ) : Seen n [] (List.replicate n false) :=
  ⟨by simp, fun i hi => by simp⟩

theorem Seen.set {n : ℕ} {seen : List UInt32} {used : List Bool} (h : Seen n seen used) {a : UInt32}
    : Seen n (a :: seen) (used.set a.toNat true) := by
  refine ⟨by simp [h.length], fun i hi => ?_⟩
  rw [List.getElem_set]
  by_cases hai : a.toNat = i
  · simp [hai]
  · rw [if_neg hai, h.flags]
    simp [hai]

/-- The loop up to an entry that is out of bounds or repeated. -/
theorem containsLoop_append {n : ℕ} (l r : List UInt32) :
    ∀ {seen : List UInt32} {used : List Bool}, Seen n seen used → l.Nodup →
      (∀ a ∈ l, a ∉ seen) → (∀ a ∈ l, a.toNat < n) →
      ∃ used', Seen n (l.reverse ++ seen) used' ∧
        containsLoop (l ++ r) used = containsLoop r used' := by
  induction l with
  | nil => exact fun h _ _ _ => ⟨_, h, rfl⟩
  | cons a l ih =>
    intro seen used h hd hs hb
    have ha : a.toNat < used.length := h.length.symm ▸ hb a List.mem_cons_self
    have hf : used[a.toNat] = false := by
      by_contra hf
      obtain ⟨b, hb, hba⟩ := (h.flags _ ha).1 (by simpa using hf)
      rw [UInt32.toNat_inj.1 hba] at hb
      exact hs a List.mem_cons_self hb
    obtain ⟨used', h1, h2⟩ := ih (h.set (a := a)) (List.nodup_cons.1 hd).2 (by
      intro b hbl hbs
      rcases List.mem_cons.1 hbs with rfl | hbs
      · exact (List.nodup_cons.1 hd).1 hbl
      · exact hs b (List.mem_cons_of_mem _ hbl) hbs) (fun b hb' => hb b (List.mem_cons_of_mem _ hb'))
    refine ⟨used', by simpa using h1, ?_⟩
    rw [List.cons_append, containsLoop]
    simp only [idx, List.getElem?_eq_getElem ha, setIdx, if_pos ha]
    rw [ok_bind, hf]
    exact h2

theorem containsLoop_panics {n : ℕ} {r : List UInt32} {a : UInt32} {used : List Bool}
    (h : used.length = n) (ha : n ≤ a.toNat) : containsLoop (a :: r) used = .panic := by
  rw [containsLoop]
  simp only [idx, List.getElem?_eq_none (h.symm ▸ ha)]
  rfl

theorem containsLoop_repeat {n : ℕ} {r seen : List UInt32} {a : UInt32} {used : List Bool}
    (h : Seen n seen used) (ha : a.toNat < n) (hs : a ∈ seen) :
    containsLoop (a :: r) used = .ok false := by
  have ha' : a.toNat < used.length := h.length.symm ▸ ha
  rw [containsLoop]
  simp only [idx, List.getElem?_eq_getElem ha']
  rw [ok_bind, (h.flags _ ha').2 ⟨a, hs, rfl⟩]
  rfl

/-- A list either has no repetitions and no entry that is out of bounds or there is a first entry
that is out of bounds or repeated. -/
theorem split (n : ℕ) (v : List UInt32) : (v.Nodup ∧ ∀ a ∈ v, a.toNat < n) ∨
    ∃ l a r, v = l ++ a :: r ∧ l.Nodup ∧ (∀ b ∈ l, b.toNat < n) ∧ (n ≤ a.toNat ∨ a ∈ l) := by
  induction v using List.reverseRecOn with
  | nil => exact .inl (by simp)
  | append_singleton v a ih =>
    rcases ih with ⟨h1, h2⟩ | ⟨l, b, r, rfl, h⟩
    · by_cases ha : n ≤ a.toNat ∨ a ∈ v
      · exact .inr ⟨v, a, [], rfl, h1, h2, ha⟩
      · refine .inl ⟨?_, fun b hb => ?_⟩
        · rw [List.nodup_append]
          exact ⟨h1, by simp, fun b hb c hc hbc => by
            rw [List.mem_singleton] at hc; exact ha (.inr (by rwa [← hc, ← hbc]))⟩
        · rcases List.mem_append.1 hb with hb | hb
          · exact h2 b hb
          · rw [List.mem_singleton] at hb
            rw [hb]; omega
    · exact .inr ⟨l, b, r ++ [a], by simp, h⟩

theorem contains_nodup {v : List UInt32} (hl : v.length = size.toNat) (hd : v.Nodup)
    (hb : ∀ a ∈ v, a.toNat < size.toNat) : (domain size).contains v = .ok true := by
  simp only [domain]
  rw [if_neg (by simpa using hl)]
  obtain ⟨u, -, h⟩ := containsLoop_append v [] (seen_nil size.toNat) hd (by simp) hb
  rw [List.append_nil] at h
  rw [h]
  rfl

theorem contains_panics {l r : List UInt32} {a : UInt32}
    (hl : (l ++ a :: r).length = size.toNat) (hd : l.Nodup) (hb : ∀ a ∈ l, a.toNat < size.toNat)
    (ha : size.toNat ≤ a.toNat) : (domain size).contains (l ++ a :: r) = .panic := by
  simp only [domain]
  rw [if_neg (by simpa using hl)]
  obtain ⟨u, hu, h⟩ := containsLoop_append l (a :: r) (seen_nil size.toNat) hd (by simp) hb
  rw [h]
  exact containsLoop_panics hu.length ha

theorem contains_repeat {l r : List UInt32} {a : UInt32}
    (hl : (l ++ a :: r).length = size.toNat) (hd : l.Nodup) (hb : ∀ a ∈ l, a.toNat < size.toNat)
    (ha : a ∈ l) : (domain size).contains (l ++ a :: r) = .ok false := by
  simp only [domain]
  rw [if_neg (by simpa using hl)]
  obtain ⟨u, hu, h⟩ := containsLoop_append l (a :: r) (seen_nil size.toNat) hd (by simp) hb
  rw [h]
  exact containsLoop_repeat hu (hb a ha) (by simpa using ha)

/-! ## The group -/

variable [Cfg]

theorem checkLen_ok {v : List UInt32} (h : v.length = size.toNat) : checkLen size v = .ok () := by
  unfold checkLen debugAssert
  split
  · rw [h, beq_self_eq_true]; rfl
  · rfl

theorem domain_spec : DomainSpec mp (domain size) (PermRep (n := size.toNat)) where
  rep_unique := by
    rintro v σ τ ⟨h, h1⟩ ⟨_, h2⟩
    refine MulOpposite.unop_injective (Equiv.ext fun i => Fin.ext ?_)
    rw [← h1 i, ← h2 i]
  contains := by
    intro v σ h
    rw [contains_nodup h.1 (rep_nodup h) fun a ha => rep_lt h ha]
    rfl
  equals := by
    rintro v w σ τ hv hw
    refine decides_ok ?_
    rw [beq_iff_eq]
    obtain ⟨h1, h2⟩ := hv
    obtain ⟨h3, h4⟩ := hw
    constructor
    · rintro rfl
      refine MulOpposite.unop_injective (Equiv.ext fun i => Fin.ext ?_)
      rw [← h2 i, ← h4 i]
    · rintro rfl
      refine List.ext_getElem (h1.trans h3.symm) fun i hi hi' => UInt32.toNat_inj.1 ?_
      rw [h2 ⟨i, h1 ▸ hi⟩, h4 ⟨i, h1 ▸ hi⟩]

theorem mul_spec {v w : List UInt32} {σ τ : (Equiv.Perm (Fin size.toNat))ᵐᵒᵖ} (hv : PermRep v σ)
    (hw : PermRep w τ) : Returns mp ((ops size).mul v w) (PermRep · (σ * τ)) := by
  simp only [ops]
  rw [checkLen_ok hv.1, checkLen_ok hw.1, ok_bind, ok_bind]
  have hv' := permRep_iff.1 hv
  have hw' := permRep_iff.1 hw
  refine (forLoop_enumerate (fun k u => Cells URep u size.toNat fun i =>
    if h : i < size.toNat then if i < k then ((σ * τ).unop ⟨i, h⟩).1 else 0 else 0)
    ?_ fun i hi u hu => ?_).mono fun u hu => permRep_iff.2 (hu.congr fun i hi => ?_)
  · exact (Cells.replicate (rep := URep) (z := 0) (x := 0) rfl).congr fun i hi => by simp
  · have hin : i < size.toNat := hv.1 ▸ hi
    have h1 := hv.2 ⟨i, hin⟩
    simp only at h1
    refine Returns.bind (hw'.idx (i := v[i].toNat) (by rw [h1]; exact Fin.is_lt _)) fun a ha => ?_
    refine (hu.setIdx hin ha).mono fun u' hu' => hu'.congr fun j hj => ?_
    by_cases hji : j = i
    · subst hji
      rw [Function.update_self]
      simp only [hin, dif_pos, Nat.lt_succ_self, if_true, h1, Fin.is_lt]
      rfl
    · rw [Function.update_of_ne hji]
      simp only [hj, dif_pos]
      by_cases hj' : j < i
      · rw [if_pos hj', if_pos (by omega)]
      · rw [if_neg hj', if_neg (by omega)]
  · simp only [hi, dif_pos, hv.1, if_true]

theorem mulAssign_spec {v w : List UInt32} {σ τ : (Equiv.Perm (Fin size.toNat))ᵐᵒᵖ}
    (hv : PermRep v σ) (hw : PermRep w τ) :
    Returns mp ((ops size).mulAssign v w) (PermRep · (σ * τ)) := by
  simp only [ops]
  rw [checkLen_ok hv.1, checkLen_ok hw.1, ok_bind, ok_bind]
  have hw' := permRep_iff.1 hw
  refine ((permRep_iff.1 hv).map (rep' := URep)
    (d := fun i => if h : i < size.toNat then ((σ * τ).unop ⟨i, h⟩).1 else 0) fun i hi a ha => ?_).mono
    fun u hu => permRep_iff.2 hu
  simp only [hi, dif_pos] at ha ⊢
  refine (hw'.idx (i := a.toNat) (by rw [ha]; exact Fin.is_lt _)).mono fun b hb => ?_
  simp only [show a.toNat < size.toNat by rw [ha]; exact Fin.is_lt _, dif_pos] at hb
  rw [URep, hb]
  simp only [ha]
  rfl

theorem one_spec : Returns mp (ops size).one
    (PermRep · (1 : (Equiv.Perm (Fin size.toNat))ᵐᵒᵖ)) := by
  simp only [ops]
  refine (forLoop_range (fun k u => Cells URep u size.toNat fun i => if i < k then i else 0)
    ?_ fun i hi u hu => ?_).mono fun u hu => permRep_iff.2 (hu.congr fun i hi => ?_)
  · exact (Cells.replicate (rep := URep) (z := 0) (x := 0) rfl).congr fun i hi => by simp
  · have ha : URep (UInt32.ofNat i) i := by
      have : i < 2 ^ 32 := lt_of_lt_of_le hi size.toNat_lt.le
      exact UInt32.toNat_ofNat_of_lt this
    refine (hu.setIdx hi ha).mono fun u' hu' => hu'.congr fun j hj => ?_
    by_cases hji : j = i
    · subst hji
      simp
    · rw [Function.update_of_ne hji]
      by_cases hj' : j < i
      · rw [if_pos hj', if_pos (by omega)]
      · rw [if_neg hj', if_neg (by omega)]
  · simp [hi]

theorem isOneLoop_iff (v : List UInt32) :
    isOneLoop (enumerate v) = true ↔ ∀ i (hi : i < v.length), v[i].toNat = i := by
  have gen : ∀ (v : List UInt32) (k : ℕ), isOneLoop ((List.range' k v.length).zip v) = true ↔
      ∀ i (hi : i < v.length), v[i].toNat = k + i := by
    intro v
    induction v with
    | nil => exact fun k => ⟨fun _ i hi => absurd hi (Nat.not_lt_zero _), fun _ => rfl⟩
    | cons a v ih =>
      intro k
      rw [show isOneLoop ((List.range' k (a :: v).length).zip (a :: v)) =
        if k ≠ a.toNat then false else isOneLoop ((List.range' (k + 1) v.length).zip v) from rfl]
      by_cases hk : k = a.toNat
      · rw [if_neg (by simpa using hk), ih]
        constructor
        · intro h i hi
          cases i with
          | zero => exact hk.symm
          | succ i => rw [List.getElem_cons_succ, h i (by simpa using hi)]; omega
        · intro h i hi
          have := h (i + 1) (by simpa using hi)
          rw [List.getElem_cons_succ] at this
          omega
      · rw [if_pos hk]
        exact ⟨nofun, fun h => absurd (h 0 (by simp)).symm hk⟩
  have := gen v 0
  rw [← List.range_eq_range'] at this
  simpa [enumerate] using this

theorem isOne_spec {v : List UInt32} {σ : (Equiv.Perm (Fin size.toNat))ᵐᵒᵖ} (hv : PermRep v σ) :
    Decides mp ((ops size).isOne v) (σ = 1) := by
  simp only [ops]
  rw [checkLen_ok hv.1, ok_bind]
  refine decides_ok ?_
  rw [isOneLoop_iff]
  constructor
  · intro h
    refine MulOpposite.unop_injective (Equiv.ext fun i => Fin.ext ?_)
    rw [← hv.2 i, h]
    rfl
  · rintro rfl i hi
    exact hv.2 ⟨i, hv.1 ▸ hi⟩

theorem tryInv_spec {v : List UInt32} {σ : (Equiv.Perm (Fin size.toNat))ᵐᵒᵖ} (hv : PermRep v σ) :
    Returns mp ((ops size).tryInv v) fun o => ∃ w, o = some w ∧ PermRep w σ⁻¹ := by
  simp only [ops]
  rw [checkLen_ok hv.1, ok_bind]
  refine Returns.bind (P := (PermRep · σ⁻¹)) ?_ fun w hw => ⟨w, rfl, hw⟩
  refine (forLoop_enumerate (fun k u => Cells URep u size.toNat fun j =>
    if h : j < size.toNat then
      if ((σ⁻¹).unop ⟨j, h⟩).1 < k then ((σ⁻¹).unop ⟨j, h⟩).1 else 0 else 0)
    ?_ fun i hi u hu => ?_).mono fun u hu => permRep_iff.2 (hu.congr fun j hj => ?_)
  · exact (Cells.replicate (rep := URep) (z := 0) (x := 0) rfl).congr fun i hi => by simp
  · have hin : i < size.toNat := hv.1 ▸ hi
    have h1 := hv.2 ⟨i, hin⟩
    simp only at h1
    have ha : URep (UInt32.ofNat i) i := by
      have : i < 2 ^ 32 := lt_of_lt_of_le hin size.toNat_lt.le
      exact UInt32.toNat_ofNat_of_lt this
    refine (hu.setIdx (i := v[i].toNat) (by rw [h1]; exact Fin.is_lt _) ha).mono fun u' hu' =>
      hu'.congr fun j hj => ?_
    rw [h1]
    by_cases hji : j = (σ.unop ⟨i, hin⟩).1
    · subst hji
      rw [Function.update_self]
      simp
    · rw [Function.update_of_ne hji]
      simp only [hj, dif_pos]
      have hne : ((σ⁻¹).unop ⟨j, hj⟩).1 ≠ i := by
        intro h
        apply hji
        have : (σ⁻¹).unop ⟨j, hj⟩ = ⟨i, hin⟩ := Fin.ext h
        rw [← this]
        simp
      by_cases hj' : ((σ⁻¹).unop ⟨j, hj⟩).1 < i
      · rw [if_pos hj', if_pos (by omega)]
      · rw [if_neg hj', if_neg (by omega)]
  · simp only [hj, dif_pos, hv.1, Fin.is_lt, if_true]

theorem monoid_spec : MonoidSpec mp (ops size).toMonoidOps (PermRep (n := size.toNat)) where
  toDomainSpec := domain_spec
  mul := mul_spec
  mulAssign := mulAssign_spec
  square := fun h => mul_spec h h
  one := one_spec
  isOne := isOne_spec
  tryInv := fun h => (tryInv_spec h).mono fun o ho => by
    obtain ⟨w, rfl, hw⟩ := ho
    exact ⟨_, hw, mul_inv_cancel _, inv_mul_cancel _⟩
  invertible := fun _ => decides_ok ⟨fun _ => Group.isUnit _, fun _ => rfl⟩

theorem inv_spec {v : List UInt32} {σ : (Equiv.Perm (Fin size.toNat))ᵐᵒᵖ} (h : PermRep v σ) :
    Returns mp ((ops size).inv v) (PermRep · σ⁻¹) := by
  show Returns mp ((ops size).tryInv v >>= Res.unwrap) (PermRep · σ⁻¹)
  refine Returns.bind (tryInv_spec h) ?_
  rintro o ⟨w, rfl, hw⟩
  exact hw

theorem spec : GroupSpec mp (ops size) (PermRep (n := size.toNat)) where
  toMonoidSpec := monoid_spec
  inv := inv_spec
  power := fun n hn {v σ} h => by
    have := group_power_default (rep := PermRep (n := size.toNat)) (mp := mp) one_spec
      mulAssign_spec (fun h => mul_spec h h) inv_spec n hn h
    exact this

end Abstalg.Permutations
