import Verif.Proofs.NoOverflow
import Verif.Props.Permutations

/-! # The methods of `Permutations` on vectors that are not permutations: C66

The debug assertions on the lengths are evaluated only in builds with debug assertions; the entries
are checked only as far as they are used as indices. `ReturnsIff p c P` says that the call `c` returns
a value with the property `P` if `p` holds and panics otherwise. -/

set_option linter.unusedSectionVars false

set_option autoImplicit false

namespace Abstalg

namespace Permutations

variable {G : Prop}

theorem idx_returns {E : Type} {v : List E} {i : ℕ} (h : G → i < v.length) :
    Returns (¬ G) (idx v i) fun a => v[i]? = some a := by
  unfold idx
  cases hv : v[i]? with
  | some a => exact rfl
  | none => exact fun hG => absurd (h hG) (Nat.not_lt.2 (List.getElem?_eq_none_iff.1 hv))

theorem setIdx_returns {E : Type} {v : List E} {i : ℕ} {a : E} (h : G → i < v.length) :
    Returns (¬ G) (setIdx v i a) fun w => i < v.length ∧ w = v.set i a := by
  unfold setIdx
  split
  · rename_i hi; exact ⟨hi, rfl⟩
  · rename_i hi; exact fun hG => hi (h hG)

theorem checkLen_returns [Cfg] {size : UInt32} {v : List UInt32}
    (h : G → Cfg.debugAssertions = true → v.length = size.toNat) :
    Returns (¬ G) (checkLen size v) fun _ => Cfg.debugAssertions = true → v.length = size.toNat := by
  unfold checkLen debugAssert
  split
  · rename_i hd
    by_cases hv : v.length = size.toNat
    · rw [beq_iff_eq.2 hv]; exact fun _ => hv
    · rw [beq_eq_false_iff_ne.2 hv]; exact fun hG => hv (h hG hd)
  · rename_i hd; exact fun h => absurd h hd

end Permutations

open Permutations

section

variable [Cfg] (size : UInt32) (u v : List UInt32)

/-- The vectors `u` and `v` pass the debug assertions on the length. -/
def LengthsOk (n : ℕ) (l : List (List UInt32)) : Prop :=
  Cfg.debugAssertions = true → ∀ w ∈ l, w.length = n

/-- C66: `mul` panics exactly if a debug assertion on the length is violated, the first vector is
longer than the size, or it has an entry that is not an index of the second. It pads the result with
zeros up to the size. -/
theorem C66_mul :
    ReturnsIff (LengthsOk size.toNat [u, v] ∧ u.length ≤ size.toNat ∧ ∀ a ∈ u, a.toNat < v.length)
      ((Permutations.ops size).mul u v) fun c => c.length = size.toNat ∧
        ∀ (i : ℕ) (h : i < c.length), c[i] = (u[i]?.bind fun a => v[a.toNat]?).getD 0 := by
  rw [returnsIff_iff]
  refine Returns.bind (checkLen_returns fun hG hd => hG.1 hd u (by simp)) fun _ hu =>
    Returns.bind (checkLen_returns fun hG hd => hG.1 hd v (by simp)) fun _ hv => ?_
  refine (forLoop_enumerate (v := u) (fun i s => s.length = size.toNat ∧ i ≤ size.toNat ∧
    (∀ k, (hk : k < u.length) → k < i → u[k].toNat < v.length) ∧
    ∀ (j : ℕ) (h : j < s.length), s[j] =
      if j < i then (u[j]?.bind fun a => v[a.toNat]?).getD 0 else 0) ?_ ?_).mono ?_
  · exact ⟨by simp, by omega, fun k _ h => absurd h (by omega), fun j h => by simp⟩
  · rintro i hi s ⟨h1, h2, h3, h4⟩
    refine Returns.bind (idx_returns fun hG => hG.2.2 _ (List.getElem_mem hi)) fun a ha =>
      (setIdx_returns fun hG => ?_).mono ?_
    · rw [h1]; exact lt_of_lt_of_le hi hG.2.1
    · rintro w ⟨hlt, rfl⟩
      have hidx : u[i].toNat < v.length := by
        by_contra hn
        rw [List.getElem?_eq_none (Nat.not_lt.1 hn)] at ha
        cases ha
      refine ⟨by simpa using h1, by omega, fun k hk hki => ?_, fun j hj => ?_⟩
      · rcases Nat.lt_succ_iff_lt_or_eq.1 hki with h | rfl
        · exact h3 k hk h
        · exact hidx
      · rw [List.getElem_set]
        by_cases hij : i = j
        · subst hij
          rw [if_pos rfl, if_pos (by omega), List.getElem?_eq_getElem hi]
          simp only [Option.bind_some]
          rw [ha]
          rfl
        · rw [if_neg hij, h4 j (by simpa using hj)]
          by_cases hji : j < i
          · rw [if_pos hji, if_pos (by omega)]
          · rw [if_neg hji, if_neg (by omega)]
  · rintro s ⟨h1, h2, h3, h4⟩
    refine ⟨⟨fun hd w hw => ?_, h2, fun a ha => ?_⟩, h1, fun i hi => ?_⟩
    · rcases List.mem_cons.1 hw with rfl | hw
      · exact hu hd
      · rw [List.mem_singleton] at hw
        rw [hw]; exact hv hd
    · obtain ⟨k, hk, rfl⟩ := List.mem_iff_getElem.1 ha
      exact h3 k hk hk
    · rw [h4 i hi]
      split
      · rfl
      · rename_i h
        rw [List.getElem?_eq_none (Nat.not_lt.1 h)]
        rfl

/-- In a build without debug assertions, for size 3: a short first vector is padded with a zero, a
longer second one is indexed, and a long first one is an error. -/
example : letI : Cfg := ⟨true, false, 64, by decide⟩
    (Permutations.ops 3).mul [4, 1] [7, 6, 5, 4, 3] = .ok [3, 6, 0] ∧
    (Permutations.ops 3).mul [0, 0, 0, 0] [7] = .panic ∧ (Permutations.ops 3).mul [1] [7] = .panic :=
  ⟨rfl, rfl, rfl⟩

/-- With debug assertions the first product panics, but entries that are too large remain unnoticed. -/
example : letI : Cfg := ⟨true, true, 64, by decide⟩
    (Permutations.ops 3).mul [4, 1] [7, 6, 5, 4, 3] = .panic ∧
    (Permutations.ops 3).mul [2, 2, 1] [7, 6, 5] = .ok [5, 5, 6] :=
  ⟨rfl, rfl⟩

/-- C66: `mul_assign` panics exactly if a debug assertion on the length is violated or the first
vector has an entry that is not an index of the second. The length does not change. -/
theorem C66_mul_assign :
    ReturnsIff (LengthsOk size.toNat [u, v] ∧ ∀ a ∈ u, a.toNat < v.length)
      ((Permutations.ops size).mulAssign u v) fun c => c.length = u.length ∧
        ∀ (i : ℕ) (h : i < c.length), c[i] = (u[i]?.bind fun a => v[a.toNat]?).getD 0 := by
  rw [returnsIff_iff]
  refine Returns.bind (checkLen_returns fun hG hd => hG.1 hd u (by simp)) fun _ hu =>
    Returns.bind (checkLen_returns fun hG hd => hG.1 hd v (by simp)) fun _ hv => ?_
  have hlen : LengthsOk size.toNat [u, v] := fun hd w hw => by
    rcases List.mem_cons.1 hw with rfl | hw
    · exact hu hd
    · rw [List.mem_singleton] at hw
      rw [hw]; exact hv hd
  have gen : ∀ (G : Prop) (l : List UInt32), (G → ∀ a ∈ l, a.toNat < v.length) →
      Returns (¬ G) (mapRes (fun a => idx v a.toNat) l) fun c => (∀ a ∈ l, a.toNat < v.length) ∧
        c.length = l.length ∧ ∀ (i : ℕ) (h : i < c.length),
          c[i] = (l[i]?.bind fun a => v[a.toNat]?).getD 0 := by
    intro G l
    induction l with
    | nil => exact fun _ => ⟨by simp, rfl, fun i h => absurd h (Nat.not_lt_zero _)⟩
    | cons a l ih =>
      intro h
      refine Returns.rbind (idx_returns fun hG => h hG a (by simp)) fun b hb =>
        Returns.rbind (ih fun hG c hc => h hG c (by simp [hc])) fun c hc => ⟨?_, ?_, ?_⟩
      · intro x hx
        rcases List.mem_cons.1 hx with rfl | hx
        · by_contra hn
          rw [List.getElem?_eq_none (Nat.not_lt.1 hn)] at hb
          cases hb
        · exact hc.1 x hx
      · simp [hc.2.1]
      · intro i hi
        cases i with
        | zero => simp [hb]
        | succ i => simpa using hc.2.2 i (by simpa using hi)
  exact (gen _ u fun hG => hG.2).mono fun c hc => ⟨⟨hlen, hc.1⟩, hc.2⟩

/-- Without debug assertions the results of `mul_assign` and `mul` differ on vectors of the wrong
length. -/
example : letI : Cfg := ⟨true, false, 64, by decide⟩
    (Permutations.ops 3).mulAssign [4, 1] [7, 6, 5, 4, 3] = .ok [3, 6] ∧
    (Permutations.ops 3).mulAssign [0, 0, 0, 0] [7] = .ok [7, 7, 7, 7] :=
  ⟨rfl, rfl⟩

/-- C66: `is_one` compares only as many entries as there are; it panics exactly if the debug
assertion is violated. -/
theorem C66_is_one : ReturnsIff (LengthsOk size.toNat [u]) ((Permutations.ops size).isOne u) fun b =>
    b = true ↔ ∀ (i : ℕ) (h : i < u.length), u[i].toNat = i := by
  rw [returnsIff_iff]
  refine Returns.bind (checkLen_returns fun hG hd => hG hd u (by simp)) fun _ hu =>
    ⟨fun hd w hw => ?_, isOneLoop_iff u⟩
  rw [List.mem_singleton] at hw
  rw [hw]; exact hu hd

example : (letI : Cfg := ⟨true, false, 64, by decide⟩
    (Permutations.ops 3).isOne [0, 1] = .ok true ∧ (Permutations.ops 3).isOne [] = .ok true ∧
    (Permutations.ops 3).isOne [0, 1, 2, 4] = .ok false) ∧
    (letI : Cfg := ⟨true, true, 64, by decide⟩
    (Permutations.ops 3).isOne [0, 1] = .panic) :=
  ⟨⟨rfl, rfl, rfl⟩, rfl⟩

/-- C66: `try_inv` panics exactly if the debug assertion is violated or an entry is not below the
size, and never returns `None`. The result has at place `j` the last place where `j` occurs in the
argument (as a `u32`), or zero if it does not occur. -/
theorem C66_try_inv :
    ReturnsIff (LengthsOk size.toNat [u] ∧ ∀ a ∈ u, a.toNat < size.toNat)
      ((Permutations.ops size).tryInv u) fun o => ∃ c, o = some c ∧ c.length = size.toNat ∧
        ∀ (j : ℕ) (h : j < c.length),
          (∀ (i : ℕ) (hi : i < u.length), u[i].toNat = j →
            (∀ (k : ℕ) (hk : k < u.length), i < k → u[k].toNat ≠ j) → c[j] = UInt32.ofNat i) ∧
          ((∀ a ∈ u, a.toNat ≠ j) → c[j] = 0) := by
  rw [returnsIff_iff]
  refine Returns.bind (checkLen_returns fun hG hd => hG.1 hd u (by simp)) fun _ hu => ?_
  refine Returns.bind (P := fun c => (∀ a ∈ u, a.toNat < size.toNat) ∧ c.length = size.toNat ∧
    ∀ (j : ℕ) (h : j < c.length),
      (∀ (i : ℕ) (hi : i < u.length), u[i].toNat = j →
        (∀ (k : ℕ) (hk : k < u.length), i < k → u[k].toNat ≠ j) → c[j] = UInt32.ofNat i) ∧
      ((∀ a ∈ u, a.toNat ≠ j) → c[j] = 0)) ?_ fun c hc => ?_
  · refine (forLoop_enumerate (v := u) (fun n s => s.length = size.toNat ∧
      (∀ k, (hk : k < u.length) → k < n → u[k].toNat < size.toNat) ∧
      ∀ (j : ℕ) (h : j < s.length),
        (∀ (i : ℕ) (hi : i < u.length), i < n → u[i].toNat = j →
          (∀ (k : ℕ) (hk : k < u.length), k < n → i < k → u[k].toNat ≠ j) → s[j] = UInt32.ofNat i) ∧
        ((∀ (k : ℕ) (hk : k < u.length), k < n → u[k].toNat ≠ j) → s[j] = 0)) ?_ ?_).mono ?_
    · exact ⟨by simp, fun k _ h => absurd h (by omega), fun j h =>
        ⟨fun i _ hi => absurd hi (by omega), fun _ => by simp⟩⟩
    · rintro n hn s ⟨h1, h2, h3⟩
      refine (setIdx_returns fun hG => ?_).mono ?_
      · rw [h1]; exact hG.2 _ (List.getElem_mem hn)
      · rintro w ⟨hlt, rfl⟩
        simp only at hlt
        refine ⟨by simpa using h1, fun k hk hkn => ?_, fun j hj => ?_⟩
        · rcases Nat.lt_succ_iff_lt_or_eq.1 hkn with h | rfl
          · exact h2 k hk h
          · exact h1 ▸ hlt
        · simp only [List.getElem_set]
          by_cases hnj : u[n].toNat = j
          · simp only [if_pos hnj]
            refine ⟨fun i hi hin hij hmax => ?_, fun h => absurd hnj (h n hn (by omega))⟩
            rcases Nat.lt_succ_iff_lt_or_eq.1 hin with h | rfl
            · exact absurd hnj (hmax n hn (by omega) h)
            · rfl
          · simp only [if_neg hnj]
            obtain ⟨h4, h5⟩ := h3 j (by simpa using hj)
            refine ⟨fun i hi hin hij hmax => ?_, fun h => h5 fun k hk hkn => h k hk (by omega)⟩
            rcases Nat.lt_succ_iff_lt_or_eq.1 hin with h | rfl
            · exact h4 i hi h hij fun k hk hkn hik => hmax k hk (by omega) hik
            · exact absurd hij hnj
    · rintro s ⟨h1, h2, h3⟩
      refine ⟨fun a ha => ?_, h1, fun j hj => ⟨fun i hi hij hmax => ?_, fun h => ?_⟩⟩
      · obtain ⟨k, hk, rfl⟩ := List.mem_iff_getElem.1 ha
        exact h2 k hk hk
      · exact (h3 j hj).1 i hi hi hij fun k hk _ => hmax k hk
      · exact (h3 j hj).2 fun k hk _ => h _ (List.getElem_mem hk)
  · refine ⟨⟨fun hd w hw => ?_, hc.1⟩, c, rfl, hc.2⟩
    rw [List.mem_singleton] at hw
    rw [hw]; exact hu hd

example : letI : Cfg := ⟨true, true, 64, by decide⟩
    (Permutations.ops 4).tryInv [1, 2, 1, 1] = .ok (some [0, 3, 1, 0]) ∧
    (Permutations.ops 4).tryInv [1, 2, 1, 4] = .panic :=
  ⟨rfl, rfl⟩

/-- C66: `inv` is `try_inv`. -/
theorem C66_inv (c : List UInt32) :
    ((Permutations.ops size).inv u = .ok c ↔ (Permutations.ops size).tryInv u = .ok (some c)) ∧
    ((Permutations.ops size).inv u = .panic ↔ (Permutations.ops size).tryInv u = .panic) := by
  have h := C66_try_inv size u
  show (((Permutations.ops size).tryInv u >>= fun o => _) = _ ↔ _) ∧
    (((Permutations.ops size).tryInv u >>= fun o => _) = _ ↔ _)
  cases hc : (Permutations.ops size).tryInv u with
  | ok o =>
    cases o with
    | some d =>
      refine ⟨⟨fun h => ?_, fun h => ?_⟩, ⟨fun h => (by cases h), fun h => (by cases h)⟩⟩
      · injection h with h; rw [h]
      · injection h with h; injection h with h; rw [h]; rfl
    | none =>
      exfalso
      by_cases hp : LengthsOk size.toNat [u] ∧ ∀ a ∈ u, a.toNat < size.toNat
      · obtain ⟨o, ho, c, rfl, -⟩ := h.1 hp
        rw [hc] at ho; cases ho
      · have := h.2 hp
        rw [hc] at this; cases this
  | panic => exact ⟨⟨fun h => (by cases h), fun h => (by cases h)⟩, ⟨fun _ => rfl, fun _ => rfl⟩⟩
  | diverge => exact ⟨⟨fun h => (by cases h), fun h => (by cases h)⟩, ⟨fun h => (by cases h), fun h => (by cases h)⟩⟩

example : letI : Cfg := ⟨true, true, 64, by decide⟩
    (Permutations.ops 4).inv [1, 2, 1, 1] = .ok [0, 3, 1, 0] ∧
    (Permutations.ops 4).inv [1, 2, 1, 4] = .panic :=
  ⟨rfl, rfl⟩

/-- C66: with debug assertions vectors of the wrong length are rejected by every method except
`equals` and `invertible`. -/
theorem C66_debug_lengths (hd : Cfg.debugAssertions = true) (h : u.length ≠ size.toNat) :
    (Permutations.ops size).mul u v = .panic ∧ (Permutations.ops size).mul v u = .panic ∧
    (Permutations.ops size).mulAssign u v = .panic ∧ (Permutations.ops size).mulAssign v u = .panic ∧
    (Permutations.ops size).square u = .panic ∧ (Permutations.ops size).isOne u = .panic ∧
    (Permutations.ops size).tryInv u = .panic ∧ (Permutations.ops size).inv u = .panic := by
  have key : ∀ l, u ∈ l → ¬ LengthsOk size.toNat l := fun l hl h' => h (h' hd u hl)
  have h1 := (C66_mul size u v).2 fun h' => key _ (by simp) h'.1
  have h2 := (C66_mul size v u).2 fun h' => key _ (by simp) h'.1
  have h3 := (C66_mul size u u).2 fun h' => key _ (by simp) h'.1
  have h4 := (C66_try_inv size u).2 fun h' => key _ (by simp) h'.1
  exact ⟨h1, h2, (C66_mul_assign size u v).2 fun h' => key _ (by simp) h'.1,
    (C66_mul_assign size v u).2 fun h' => key _ (by simp) h'.1, h3,
    (C66_is_one size u).2 fun h' => key _ (by simp) h', h4, (C66_inv size u []).2.2 h4⟩

example : letI : Cfg := ⟨true, true, 64, by decide⟩
    (Cfg.debugAssertions = true ∧ ([0, 1] : List UInt32).length ≠ (3 : UInt32).toNat) ∧
    (Permutations.ops 3).mul [0, 1, 2] [0, 1] = .panic :=
  ⟨⟨rfl, by decide⟩, rfl⟩

/-- C66: `equals` compares the vectors entry by entry, whatever their lengths, and `invertible` always
holds. -/
theorem C66_equals : ((Permutations.ops size).equals u v = .ok (decide (u = v))) ∧
    (Permutations.ops size).invertible u = .ok true := by
  refine ⟨?_, rfl⟩
  show Res.ok (u == v) = _
  congr 1
  rw [Bool.eq_iff_iff]
  simp

example : letI : Cfg := ⟨true, true, 64, by decide⟩
    (Permutations.ops 3).equals [0, 1] [0, 1] = .ok true ∧
    (Permutations.ops 3).equals [0, 1] [0, 1, 2] = .ok false ∧
    (Permutations.ops 3).invertible [5] = .ok true := ⟨rfl, rfl, rfl⟩

/-! ## Maps that need not be bijective -/

/-- The vector `v` lists the values of the map `f`. -/
def MapRep {n : ℕ} (v : List UInt32) (f : Fin n → Fin n) : Prop :=
  ∃ h : v.length = n, ∀ i : Fin n, (v[i.1]'(h ▸ i.2)).toNat = (f i).1

variable {size u v} {f g : Fin size.toNat → Fin size.toNat}

theorem MapRep.lt (hu : MapRep u f) : ∀ a ∈ u, a.toNat < size.toNat := by
  intro a ha
  obtain ⟨i, hi, rfl⟩ := List.mem_iff_getElem.1 ha
  have := hu.2 ⟨i, hu.1 ▸ hi⟩
  simp only at this
  rw [this]
  exact Fin.is_lt _

theorem MapRep.lengths (hu : MapRep u f) (hv : MapRep v g) : LengthsOk size.toNat [u, v] := by
  intro _ w hw
  rcases List.mem_cons.1 hw with rfl | hw
  · exact hu.1
  · rw [List.mem_singleton] at hw
    rw [hw]; exact hv.1

/-- C66: `mul` composes arbitrary maps, so that it is associative on them. -/
theorem C66_maps (hu : MapRep u f) (hv : MapRep v g) :
    ∃ c, (Permutations.ops size).mul u v = .ok c ∧ (Permutations.ops size).mulAssign u v = .ok c ∧
      MapRep c (g ∘ f) := by
  have hlt : ∀ a ∈ u, a.toNat < v.length := by rw [hv.1]; exact hu.lt
  obtain ⟨c, hc, h1, h2⟩ := (C66_mul size u v).1 ⟨hu.lengths hv, hu.1.le, hlt⟩
  obtain ⟨d, hd, h3, h4⟩ := (C66_mul_assign size u v).1 ⟨hu.lengths hv, hlt⟩
  obtain rfl : d = c := List.ext_getElem (by rw [h1, h3, hu.1]) fun i hi hi' => by
    rw [h2 i hi', h4 i hi]
  refine ⟨d, hc, hd, h1, fun i => ?_⟩
  have hi : i.1 < u.length := hu.1.symm ▸ i.2
  have hui := hu.2 i
  rw [h2 i.1 (h1.symm ▸ i.2), List.getElem?_eq_getElem hi]
  have hlt' : u[i.1].toNat < v.length := hlt _ (List.getElem_mem hi)
  simp only [Option.bind_some]
  rw [List.getElem?_eq_getElem hlt', Option.getD_some]
  have := hv.2 (f i)
  simp only [hui, Function.comp] at this ⊢
  exact this

example : MapRep (n := 3) [2, 2, 1] ![2, 2, 1] := ⟨rfl, by decide⟩

/-- C66: for a map that is not bijective `try_inv` returns `Some` although there is no inverse. -/
theorem C66_false_inverse (hu : MapRep u f) (hf : ¬ Function.Bijective f) :
    (∃ c, (Permutations.ops size).tryInv u = .ok (some c)) ∧
    (Permutations.ops size).contains u = .ok false ∧
    ∀ w one, (Permutations.ops size).one = .ok one →
      (Permutations.ops size).mul u w ≠ .ok one ∧ (Permutations.ops size).mul w u ≠ .ok one := by
  have hinj : ¬ Function.Injective f := fun h => hf (Finite.injective_iff_bijective.1 h)
  have hlen : LengthsOk size.toNat [u] := fun _ w hw => by
    rw [List.mem_singleton] at hw; rw [hw]; exact hu.1
  refine ⟨?_, ?_, fun w one hone => ?_⟩
  · obtain ⟨o, ho, c, rfl, -⟩ := (C66_try_inv size u).1 ⟨hlen, hu.lt⟩
    exact ⟨c, ho⟩
  · have h1 := C43_contains size u hu.lt
    have h2 : ¬ ∃ σ : (Equiv.Perm (Fin size.toNat))ᵐᵒᵖ, PermRep u σ := by
      rintro ⟨σ, hσ⟩
      refine hinj fun i j hij => σ.unop.injective (Fin.ext ?_)
      rw [← hσ.2 i, ← hσ.2 j, hu.2 i, hu.2 j, hij]
    revert h1
    cases (Permutations.ops size).contains u with
    | ok b =>
      cases b with
      | false => exact fun _ => rfl
      | true => exact fun h1 => absurd (h1.1 rfl) h2
    | panic => exact False.elim
    | diverge => exact False.elim
  · obtain ⟨c, hc, hc'⟩ := returns_false_iff.1 (C42_group size).one
    rw [hone] at hc
    cases hc
    have hval : ∀ (i : ℕ) (h : i < one.length), one[i].toNat = i := fun i h => by
      have := hc'.2 ⟨i, hc'.1 ▸ h⟩
      simpa using this
    constructor
    · intro h
      by_cases hp : LengthsOk size.toNat [u, w] ∧ u.length ≤ size.toNat ∧ ∀ a ∈ u, a.toNat < w.length
      · obtain ⟨c, hc, h1, h2⟩ := (C66_mul size u w).1 hp
        rw [h] at hc
        cases hc
        refine hinj fun i j hij => ?_
        have hi : i.1 < u.length := hu.1.symm ▸ i.2
        have hj : j.1 < u.length := hu.1.symm ▸ j.2
        have h3 := h2 i.1 (h1.symm ▸ i.2)
        have h4 := h2 j.1 (h1.symm ▸ j.2)
        rw [List.getElem?_eq_getElem hi] at h3
        rw [List.getElem?_eq_getElem hj] at h4
        simp only [Option.bind_some, hu.2 i, hu.2 j, hij] at h3 h4
        apply Fin.ext
        rw [← hval i.1 (h1.symm ▸ i.2), ← hval j.1 (h1.symm ▸ j.2), h3, h4]
      · rw [(C66_mul size u w).2 hp] at h
        cases h
    · intro h
      by_cases hp : LengthsOk size.toNat [w, u] ∧ w.length ≤ size.toNat ∧ ∀ a ∈ w, a.toNat < u.length
      · obtain ⟨c, hc, h1, h2⟩ := (C66_mul size w u).1 hp
        rw [h] at hc
        cases hc
        refine hf (Finite.surjective_iff_bijective.1 fun i => ?_)
        by_cases hi : i.1 < w.length
        · have h3 := h2 i.1 (h1.symm ▸ i.2)
          have h4 : w[i.1].toNat < u.length := hp.2.2 _ (List.getElem_mem hi)
          rw [List.getElem?_eq_getElem hi] at h3
          simp only [Option.bind_some, List.getElem?_eq_getElem h4, Option.getD_some] at h3
          refine ⟨⟨w[i.1].toNat, hu.1 ▸ h4⟩, Fin.ext ?_⟩
          rw [← hu.2 ⟨w[i.1].toNat, hu.1 ▸ h4⟩]
          exact (congrArg UInt32.toNat h3.symm).trans (hval i.1 (h1.symm ▸ i.2))
        · have zero : ∀ k : Fin size.toNat, ¬ k.1 < w.length → k.1 = 0 := fun k hk => by
            have h3 := h2 k.1 (h1.symm ▸ k.2)
            rw [List.getElem?_eq_none (Nat.not_lt.1 hk)] at h3
            have := hval k.1 (h1.symm ▸ k.2)
            rw [h3] at this
            exact this.symm
          have h3 := zero i hi
          have h4 : size.toNat = 1 := by
            by_contra h4
            have h5 : 1 < size.toNat := by have := i.2; omega
            have := zero ⟨1, h5⟩ (by show ¬ 1 < w.length; omega)
            simp at this
          exact ⟨i, Fin.ext (by have := (f i).2; omega)⟩
      · rw [(C66_mul size w u).2 hp] at h
        cases h

/-- The constant map on two elements. -/
example : MapRep (n := (2 : UInt32).toNat) [1, 1] (fun _ => ⟨1, by decide⟩) ∧
    ¬ Function.Bijective (fun _ : Fin (2 : UInt32).toNat => (⟨1, by decide⟩ : Fin (2 : UInt32).toNat)) ∧
    letI : Cfg := ⟨true, true, 64, by decide⟩
    (Permutations.ops 2).tryInv [1, 1] = .ok (some [0, 1]) ∧
    (Permutations.ops 2).mul [1, 1] [0, 1] = .ok [1, 1] := by
  refine ⟨⟨rfl, by decide⟩, fun h => ?_, rfl, rfl⟩
  exact absurd (h.1 (a₁ := ⟨0, by decide⟩) (a₂ := ⟨1, by decide⟩) rfl) (by decide)

end

end Abstalg
