import Verif.Spec.Counted
import Mathlib.Algebra.BigOperators.Group.List.Basic
import Mathlib.Data.Nat.Size
import Mathlib.Tactic.Linarith
import Mathlib.Tactic.Ring

/-! # Counting calls -/

set_option autoImplicit false

namespace Abstalg

namespace Counted

variable {α β E σ ι : Type}

/-! ## Forgetting the counts -/

theorem res_bind (x : Counted α) (f : α → Counted β) : (x >>= f).res = x.res >>= fun a => (f a).res := by
  show (Counted.bind x f).res = Res.bind x.res _
  unfold Counted.bind Res.bind
  cases x.res <;> rfl

theorem res_pure (a : α) : (pure a : Counted α).res = pure a := rfl

theorem res_lift (r : Res α) : (lift r).res = r := rfl

theorem res_call (c : Call) (r : Res α) : (call c r).res = r := rfl

theorem res_ite (p : Prop) [Decidable p] (x y : Counted α) : (if p then x else y).res = if p then x.res else y.res :=
  apply_ite _ _ _ _

theorem res_forLoop (l : List ι) (s : σ) (body : σ → ι → Counted σ) :
    (forLoop l s body).res = Abstalg.forLoop l s fun s i => (body s i).res := by
  induction l generalizing s with
  | nil => rfl
  | cons i l ih =>
    unfold forLoop Abstalg.forLoop
    rw [res_bind]
    simp only [ih]
    rfl

theorem res_mapRes (f : α → Counted β) (l : List α) : (mapRes f l).res = Abstalg.mapRes (fun a => (f a).res) l := by
  induction l with
  | nil => rfl
  | cons a l ih =>
    unfold mapRes Abstalg.mapRes
    simp only [res_bind, ih, res_pure]
    rfl

theorem res_zipForEach (f : α → β → Counted α) (l : List α) (m : List β) :
    (zipForEach f l m).res = Abstalg.zipForEach (fun a b => (f a b).res) l m := by
  induction l generalizing m with
  | nil => cases m <;> rfl
  | cons a l ih =>
    cases m with
    | nil => rfl
    | cons b m =>
      unfold zipForEach Abstalg.zipForEach
      simp only [res_bind, ih, res_pure]
      rfl

theorem res_allRes (p : α → Counted Bool) (l : List α) : (allRes p l).res = Abstalg.allRes (fun a => (p a).res) l := by
  induction l with
  | nil => rfl
  | cons a l ih =>
    unfold allRes Abstalg.allRes
    simp only [res_bind, res_ite, ih, res_pure]
    rfl

theorem res_findRes (p : α → Counted Bool) (l : List α) : (findRes p l).res = Abstalg.findRes (fun a => (p a).res) l := by
  induction l with
  | nil => rfl
  | cons a l ih =>
    unfold findRes Abstalg.findRes
    simp only [res_bind, res_ite, ih, res_pure]
    rfl

theorem res_debugAssert [Cfg] (b : Counted Bool) : (debugAssert b).res = Abstalg.debugAssert b.res := by
  unfold debugAssert Abstalg.debugAssert
  simp only [res_bind, res_ite, res_pure, res_lift]
  rfl

/-! ## Counting -/

theorem within_mono {x : Counted α} {k m : Call → ℕ} (h : Within x k) (hk : ∀ c, k c ≤ m c) : Within x m :=
  fun c => (h c).trans (hk c)

theorem takes_pure (a : α) : Takes (pure a : Counted α) 0 := ⟨fun _ => le_rfl, fun _ _ => rfl⟩

theorem takes_lift (r : Res α) : Takes (lift r) 0 := ⟨fun _ => le_rfl, fun _ _ => rfl⟩

/-- One call. -/
def once (c : Call) : Call → ℕ := fun d => if d = c then 1 else 0

theorem takes_call (c : Call) (r : Res α) : Takes (call c r) (once c) := ⟨fun _ => le_rfl, fun _ _ => rfl⟩

theorem within_bind {x : Counted α} {f : α → Counted β} {k m : Call → ℕ} (hx : Within x k)
    (hf : ∀ a, x.res = .ok a → Within (f a) m) : Within (x >>= f) (k + m) := by
  intro c
  show (Counted.bind x f).calls c ≤ _
  unfold Counted.bind
  cases h : x.res with
  | ok a => exact add_le_add (hx c) (hf a h c)
  | panic => exact (hx c).trans (Nat.le_add_right _ _)
  | diverge => exact (hx c).trans (Nat.le_add_right _ _)

theorem takes_bind {x : Counted α} {f : α → Counted β} {k m : Call → ℕ} (hx : Takes x k)
    (hf : ∀ a, x.res = .ok a → Takes (f a) m) : Takes (x >>= f) (k + m) := by
  refine ⟨within_bind hx.1 fun a h => (hf a h).1, fun b hb => ?_⟩
  have h0 : (x >>= f).res = _ := res_bind x f
  rw [hb] at h0
  show (Counted.bind x f).calls = _
  unfold Counted.bind
  cases h : x.res with
  | ok a =>
    rw [h] at h0
    show (fun c => x.calls c + (f a).calls c) = _
    rw [hx.2 a h, (hf a h).2 b h0.symm]
    rfl
  | panic => rw [h] at h0; cases h0
  | diverge => rw [h] at h0; cases h0

theorem takes_forLoop {l : List ι} {body : σ → ι → Counted σ} {k : ι → Call → ℕ} (h : ∀ s, ∀ i ∈ l, Takes (body s i) (k i)) (s : σ) :
    Takes (forLoop l s body) (l.map k).sum := by
  induction l generalizing s with
  | nil => exact takes_pure s
  | cons i l ih =>
    unfold forLoop
    rw [List.map_cons, List.sum_cons]
    exact takes_bind (h s i (List.mem_cons_self ..)) fun s' _ => ih (fun s j hj => h s j (List.mem_cons_of_mem _ hj)) s'

theorem within_forLoop {l : List ι} {body : σ → ι → Counted σ} {k : ι → Call → ℕ} (h : ∀ s, ∀ i ∈ l, Within (body s i) (k i)) (s : σ) :
    Within (forLoop l s body) (l.map k).sum := by
  induction l generalizing s with
  | nil => exact (takes_pure s).1
  | cons i l ih =>
    unfold forLoop
    rw [List.map_cons, List.sum_cons]
    exact within_bind (h s i (List.mem_cons_self ..)) fun s' _ => ih (fun s j hj => h s j (List.mem_cons_of_mem _ hj)) s'

theorem takes_forLoop_const {l : List ι} {body : σ → ι → Counted σ} {k : Call → ℕ} (h : ∀ s, ∀ i ∈ l, Takes (body s i) k) (s : σ) :
    Takes (forLoop l s body) (l.length • k) := by
  have := takes_forLoop (k := fun _ => k) h s
  rwa [List.map_const', List.sum_replicate] at this

theorem takes_mapRes {f : α → Counted β} {k : Call → ℕ} (h : ∀ a, Takes (f a) k) (l : List α) :
    Takes (mapRes f l) (l.length • k) := by
  induction l with
  | nil => rw [List.length_nil, zero_nsmul]; exact takes_pure _
  | cons a l ih =>
    unfold mapRes
    rw [List.length_cons, succ_nsmul']
    refine takes_bind (h a) fun _ _ => ?_
    rw [← add_zero (l.length • k)]
    exact takes_bind ih fun _ _ => takes_pure _

theorem takes_zipForEach {f : α → β → Counted α} {k : Call → ℕ} (h : ∀ a b, Takes (f a b) k) (l : List α) (m : List β) :
    Takes (zipForEach f l m) (min l.length m.length • k) := by
  induction l generalizing m with
  | nil => rw [List.length_nil, Nat.zero_min, zero_nsmul]; cases m <;> exact takes_pure _
  | cons a l ih =>
    cases m with
    | nil => rw [List.length_nil, Nat.min_zero, zero_nsmul]; exact takes_pure _
    | cons b m =>
      unfold zipForEach
      rw [List.length_cons, List.length_cons, Nat.add_min_add_right, succ_nsmul']
      refine takes_bind (h a b) fun _ _ => ?_
      rw [← add_zero (min l.length m.length • k)]
      exact takes_bind (ih m) fun _ _ => takes_pure _

theorem within_allRes {p : α → Counted Bool} {k : Call → ℕ} (h : ∀ a, Within (p a) k) (l : List α) :
    Within (allRes p l) (l.length • k) := by
  induction l with
  | nil => rw [List.length_nil, zero_nsmul]; exact (takes_pure _).1
  | cons a l ih =>
    unfold allRes
    rw [List.length_cons, succ_nsmul']
    refine within_bind (h a) fun b _ => ?_
    cases b
    · exact fun c => Nat.zero_le _
    · exact ih

theorem within_findRes {p : α → Counted Bool} {k : Call → ℕ} (h : ∀ a, Within (p a) k) (l : List α) :
    Within (findRes p l) (l.length • k) := by
  induction l with
  | nil => rw [List.length_nil, zero_nsmul]; exact (takes_pure _).1
  | cons a l ih =>
    unfold findRes
    rw [List.length_cons, succ_nsmul']
    refine within_bind (h a) fun b _ => ?_
    cases b
    · exact ih
    · exact fun c => Nat.zero_le _

end Counted

end Abstalg
