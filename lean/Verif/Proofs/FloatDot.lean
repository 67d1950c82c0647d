import Verif.Proofs.FloatError
import Verif.Props.Floats
import Verif.Proofs.MatrixRing
import Verif.Proofs.PolyRing

/-! # Sums of products of floating point numbers -/

set_option linter.unusedSectionVars false

set_option autoImplicit false

namespace Abstalg

open FloatFormat Polynomial

variable [Cfg] {F : FloatFormat}

/-- The product rounds with an absolute error of at most `η` besides the relative one. -/
def ProdErr (F : FloatFormat) (η x y : ℚ) : Prop :=
  ∀ z, RoundsTo F (x * y) z → ¬ Overflows F (x * y) → |z - x * y| ≤ unitRoundoff F * |x * y| + η

theorem prodErr (x y : ℚ) : ProdErr F (2 ^ F.emin / 2) x y := fun _ h ho => h.mixed ho

theorem NormalProduct.prodErr {x y : ℚ} (h : NormalProduct F x y) : ProdErr F 0 x y := by
  intro z hz ho
  rw [add_zero]
  rcases h with h | ⟨h, he⟩
  · rw [h] at hz ⊢
    rw [hz.unique (roundsTo_self isFloat_zero)]
    simp
  · have := (hz.relative ho h he).1
    rw [div_eq_mul_one_div, mul_comm |_|] at this
    exact this

/-- The rounded product of `x` and `y`. -/
def ProdOf (η x y : ℚ) (p : F.Val) : Prop :=
  ∃ q, FloatRep p q ∧ |q - x * y| ≤ unitRoundoff F * |x * y| + η

theorem prodOf {η : ℚ} {a b : F.Val} {x y : ℚ} (ha : FloatRep a x) (hb : FloatRep b y)
    (hxy : ProdErr F η x y) : Returns True ((ApproxFloats.field F).mul a b) (ProdOf η x y) :=
  rounded_ok (C55_mul ha hb).1 fun _ q hp hq ho => ⟨q, hp, hxy q hq ho⟩

/-- One more product. -/
theorem dotApprox_add {η : ℚ} (hη : 0 ≤ η) {s p : F.Val} {t : ℕ × ℚ × ℚ} {x y : ℚ}
    (hs : DotApprox η s t) (hp : ProdOf η x y p) :
    Returns True ((ApproxFloats.field F).add s p)
      (DotApprox η · (t + (1, x * y, |x * y|))) := by
  obtain ⟨v, h1, h2, h3, h4⟩ := hs
  obtain ⟨q, hp, hq⟩ := hp
  refine rounded_ok (C55_add h1 hp).1 fun r z hr hz ho => ⟨z, hr, ?_, ?_, nofun⟩
  · refine dot_step hη h2 h3 h4 hq ?_ fun _ hv => ?_
    · have := (sum_error h1.isFloat hp.isFloat ho hz).2.2.2.1
      rw [div_eq_mul_one_div, mul_comm] at this
      exact this
    · rw [hv, zero_add] at hz ⊢
      exact hz.unique (roundsTo_self hp.isFloat)
  · exact (abs_add_le _ _).trans (add_le_add h3 le_rfl)

theorem matrix_mul_approx {η : ℚ} (hη : 0 ≤ η) {n : ℕ} {v w : List F.Val}
    {M N : Matrix (Fin n) (Fin n) ℚ} (hv : MatRep FloatRep v M) (hw : MatRep FloatRep w N)
    (h : ∀ i j k, ProdErr F η (M i k) (N k j)) :
    Returns True (MatrixRing.mul (ApproxFloats.field F) n v w) (MatRep (DotApprox η) ·
      fun i j => (n, (M * N) i j, ∑ k, |M i k * N k j|)) := by
  unfold MatrixRing.mul
  rw [hv.1, hw.1, beq_self_eq_true, Bool.and_self, assert_true, ok_bind]
  refine Returns.bind (MatrixRing.transpose_spec hw) fun t ht => ?_
  refine MatrixRing.push_spec _ fun res r c => ?_
  refine Returns.bind (mp := True) (P := (· = Val.zero)) rfl fun z hz => ?_
  subst hz
  refine Returns.bind (forLoop_range (fun k s => DotApprox η s
    (k, ∑ i ∈ Finset.univ.filter (fun i : Fin n => i.1 < k), M r i * N i c,
      ∑ i ∈ Finset.univ.filter (fun i : Fin n => i.1 < k), |M r i * N i c|)) ?_ fun k hk s hs => ?_)
    fun s hs => ⟨s, rfl, ?_⟩
  · simpa using dotApprox_zero η
  · refine Returns.bind (hv.grid.idx r.2 hk) fun a ha => Returns.bind (ht.grid.idx c.2 hk)
      fun b hb => ?_
    have hfil : Finset.univ.filter (fun i : Fin n => i.1 < k + 1) =
        insert ⟨k, hk⟩ (Finset.univ.filter (fun i : Fin n => i.1 < k)) := by
      ext i
      simp only [Finset.mem_filter, Finset.mem_univ, true_and, Finset.mem_insert, Fin.ext_iff]
      omega
    rw [hfil, Finset.sum_insert (by simp), Finset.sum_insert (by simp), add_comm (M r _ * N _ c),
      add_comm |M r _ * N _ c|]
    exact Returns.bind (prodOf ha hb (h r c ⟨k, hk⟩)) fun p hp => by
      have := dotApprox_add hη hs hp
      rwa [Prod.mk_add_mk, Prod.mk_add_mk] at this
  · simpa [Matrix.mul_apply] using hs

/-- A coefficient together with the number of terms and the absolute value. -/
noncomputable def triples (n : ℕ) (p : ℚ[X]) : (ℕ × ℚ × ℚ)[X] :=
  ∑ i ∈ Finset.range n, monomial i (1, p.coeff i, |p.coeff i|)

theorem triples_coeff (n : ℕ) (p : ℚ[X]) (i : ℕ) :
    (triples n p).coeff i = if i < n then (1, p.coeff i, |p.coeff i|) else 0 := by
  unfold triples
  rw [finsetSum_coeff]
  simp [coeff_monomial]

theorem poly_mul_approx {η : ℚ} (hη : 0 ≤ η) {v w : List F.Val} {p q : ℚ[X]}
    (hv : Cells FloatRep v v.length p.coeff) (hw : Cells FloatRep w w.length q.coeff)
    (hn : v.length ≠ 0) (hm : w.length ≠ 0) (h : ∀ i j, ProdErr F η (p.coeff i) (q.coeff j)) :
    Returns True (PolynomialAlgebra.mul (ApproxFloats.field F).toUnitaryRingOps v w) fun u =>
      Cells (DotApprox η) u (v.length + w.length - 1)
        (triples v.length p * triples w.length q).coeff := by
  have hsucc : ∀ (n : ℕ) (p : ℚ[X]), triples (n + 1) p =
      triples n p + monomial n (1, p.coeff n, |p.coeff n|) := fun n p => Finset.sum_range_succ _ _
  have hzero : ∀ p : ℚ[X], triples 0 p = 0 := fun p => rfl
  unfold PolynomialAlgebra.mul
  rw [if_neg (by simpa using ⟨by simpa using hn, by simpa using hm⟩)]
  refine Returns.bind (mp := True) (P := (· = Val.zero)) rfl fun z hz => ?_
  subst hz
  refine forLoop_range (fun i u => Cells (DotApprox η) u (v.length + w.length - 1)
    (triples i p * triples w.length q).coeff) ?_ fun i hi u hu => ?_
  · refine (Cells.replicate (dotApprox_zero η)).congr fun k _ => ?_
    rw [hzero, zero_mul, coeff_zero]; rfl
  · refine (forLoop_range (fun j u => Cells (DotApprox η) u (v.length + w.length - 1)
      (triples i p * triples w.length q +
        monomial i (1, p.coeff i, |p.coeff i|) * triples j q).coeff) ?_ fun j hj u hu => ?_).mono
      fun u hu => ?_
    · simpa [hzero] using hu
    · refine Returns.bind (hv.idx hi) fun a ha => Returns.bind (hw.idx hj) fun b hb => ?_
      refine Returns.bind (prodOf ha hb (h i j)) fun s hs =>
        Returns.bind (hu.idx (i := i + j) (by omega)) fun t ht =>
        Returns.bind (dotApprox_add hη ht hs) fun r hr => ?_
      refine (hu.setIdx (by omega) hr).mono fun u' hu' => hu'.congr fun k _ => ?_
      rw [hsucc j, mul_add, ← add_assoc, coeff_add _ (monomial i _ * monomial j _),
        monomial_mul_monomial, coeff_monomial]
      by_cases hk : k = i + j
      · subst hk
        rw [Function.update_self, if_pos rfl, Prod.mk_mul_mk, Prod.mk_mul_mk, abs_mul, mul_one]
      · rw [Function.update_of_ne hk, if_neg (Ne.symm hk), add_zero]
    · rwa [hsucc, add_mul]

end Abstalg
