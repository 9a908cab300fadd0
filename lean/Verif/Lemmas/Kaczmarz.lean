import Verif.Lemmas.MudMath
import Mathlib.Topology.Algebra.Module.FiniteDimension
import Mathlib.Analysis.Normed.Module.FiniteDimension
import Mathlib.Analysis.SpecificLimits.Basic
import Mathlib.Topology.Instances.Matrix

/-!
Row-action (Kaczmarz) iteration in the norm induced by `S⁻¹`: monotonicity and
linear convergence.  Pure mathematics, no reference to the model.
-/

open Matrix

namespace Verif

variable {d p : ℕ}

section step
variable (S : Matrix (Fin p) (Fin p) ℝ)

/-- Nearest point (in the norm induced by `S⁻¹`) to `x` on the hyperplane `a ⬝ x = β`. -/
noncomputable def kstep (a : Fin p → ℝ) (β : ℝ) (x : Fin p → ℝ) : Fin p → ℝ :=
  x + ((β - a ⬝ᵥ x) / (a ⬝ᵥ (S *ᵥ a))) • (S *ᵥ a)

/-- The matrix acting on errors. -/
noncomputable def kmat (a : Fin p → ℝ) : Matrix (Fin p) (Fin p) ℝ :=
  1 - (a ⬝ᵥ (S *ᵥ a))⁻¹ • vecMulVec (S *ᵥ a) a

theorem kmat_mulVec (a e : Fin p → ℝ) :
    kmat S a *ᵥ e = e - ((a ⬝ᵥ e) / (a ⬝ᵥ (S *ᵥ a))) • (S *ᵥ a) := by
  rw [kmat, sub_mulVec, one_mulVec, smul_mulVec, vecMulVec_mulVec]
  congr 1
  rw [div_eq_inv_mul, mul_smul]
  congr 1
  funext i
  simp [mul_comm]

theorem kstep_sub (a : Fin p → ℝ) (x xs : Fin p → ℝ) :
    kstep S a (a ⬝ᵥ xs) x - xs = kmat S a *ᵥ (x - xs) := by
  rw [kmat_mulVec, kstep, dotProduct_sub]
  have : (a ⬝ᵥ xs - a ⬝ᵥ x) = -(a ⬝ᵥ x - a ⬝ᵥ xs) := by ring
  rw [this, neg_div, neg_smul]
  abel

theorem kstep_hits (a : Fin p → ℝ) (β : ℝ) (x : Fin p → ℝ) (h : a ⬝ᵥ (S *ᵥ a) ≠ 0) :
    a ⬝ᵥ kstep S a β x = β := by
  rw [kstep, dotProduct_add, dotProduct_smul, smul_eq_mul, div_mul_cancel₀ _ h]; ring

variable {S}

/-- The quadratic form of the distance. -/
noncomputable def qf (S : Matrix (Fin p) (Fin p) ℝ) (e : Fin p → ℝ) : ℝ := e ⬝ᵥ (S⁻¹ *ᵥ e)

theorem qf_nonneg (hS : S.PosDef) (e : Fin p → ℝ) : 0 ≤ qf S e := quad_nonneg hS.inv.posSemidef e
theorem qf_pos (hS : S.PosDef) {e : Fin p → ℝ} (h : e ≠ 0) : 0 < qf S e := quad_pos hS.inv h
theorem qf_smul (t : ℝ) (e : Fin p → ℝ) : qf S (t • e) = t ^ 2 * qf S e := by
  simp only [qf, mulVec_smul, smul_dotProduct, dotProduct_smul, smul_eq_mul]; ring

theorem qf_kmat (hS : S.PosDef) (a e : Fin p → ℝ) :
    qf S (kmat S a *ᵥ e) = qf S e - (a ⬝ᵥ e) ^ 2 / (a ⬝ᵥ (S *ᵥ a)) := by
  have hSt := posSemidef_transpose hS.posSemidef
  have hSu := posDef_isUnit_det hS
  by_cases h : a ⬝ᵥ (S *ᵥ a) = 0
  · rw [kmat_mulVec, h]; simp
  rw [kmat_mulVec]
  set t := (a ⬝ᵥ e) / (a ⬝ᵥ (S *ᵥ a)) with ht
  have hSa : S⁻¹ *ᵥ (S *ᵥ a) = a := by
    rw [mulVec_mulVec, nonsing_inv_mul _ hSu, one_mulVec]
  have h1 := quad_add (inv_symm hSt) e (-(t • (S *ᵥ a)))
  rw [← sub_eq_add_neg] at h1
  rw [qf, h1]
  simp only [mulVec_neg, mulVec_smul, hSa, dotProduct_neg, neg_dotProduct, dotProduct_smul,
    smul_dotProduct, smul_eq_mul]
  rw [dotProduct_comm e a, dotProduct_comm (S *ᵥ a) a, ht, qf]
  field_simp
  ring

theorem quad_self_nonneg (hS : S.PosDef) (a : Fin p → ℝ) : 0 ≤ a ⬝ᵥ (S *ᵥ a) :=
  quad_nonneg hS.posSemidef a

theorem qf_kmat_le (hS : S.PosDef) (a e : Fin p → ℝ) : qf S (kmat S a *ᵥ e) ≤ qf S e := by
  rw [qf_kmat hS]
  have := div_nonneg (sq_nonneg (a ⬝ᵥ e)) (quad_self_nonneg hS a)
  linarith

end step

variable (S : Matrix (Fin p) (Fin p) ℝ) (A : Matrix (Fin d) (Fin p) ℝ)

/-- Error matrix of one pass over the rows `ks`. -/
noncomputable def epochMat : List (Fin d) → Matrix (Fin p) (Fin p) ℝ
  | [] => 1
  | k :: ks => epochMat ks * kmat S (A k)

variable {S A}

theorem epochMat_cons (k : Fin d) (ks : List (Fin d)) (e : Fin p → ℝ) :
    epochMat S A (k :: ks) *ᵥ e = epochMat S A ks *ᵥ (kmat S (A k) *ᵥ e) := by
  rw [epochMat, ← mulVec_mulVec]

theorem qf_epoch_le (hS : S.PosDef) (ks : List (Fin d)) (e : Fin p → ℝ) :
    qf S (epochMat S A ks *ᵥ e) ≤ qf S e := by
  induction ks generalizing e with
  | nil => simp [epochMat]
  | cons k ks ih => rw [epochMat_cons]; exact (ih _).trans (qf_kmat_le hS _ _)

theorem qf_epoch_eq (hS : S.PosDef) (ks : List (Fin d)) (e : Fin p → ℝ)
    (h : qf S e ≤ qf S (epochMat S A ks *ᵥ e)) : ∀ k ∈ ks, A k ⬝ᵥ e = 0 := by
  induction ks generalizing e with
  | nil => simp
  | cons k ks ih =>
    rw [epochMat_cons] at h
    have h1 := qf_epoch_le (A := A) hS ks (kmat S (A k) *ᵥ e)
    have h2 := qf_kmat hS (A k) e
    have h3 := div_nonneg (sq_nonneg (A k ⬝ᵥ e)) (quad_self_nonneg hS (A k))
    have h4 : (A k ⬝ᵥ e) ^ 2 / (A k ⬝ᵥ (S *ᵥ A k)) = 0 := by linarith
    have h5 : A k ⬝ᵥ e = 0 := by
      rcases div_eq_zero_iff.1 h4 with h | h
      · exact pow_eq_zero_iff (two_ne_zero) |>.1 h
      · by_contra hne
        have ha : A k ≠ 0 := fun h0 => hne (by rw [h0, zero_dotProduct])
        exact (quad_pos hS ha).ne' h
    have h6 : kmat S (A k) *ᵥ e = e := by rw [kmat_mulVec, h5]; simp
    rw [h6] at h
    intro j hj
    rcases List.mem_cons.1 hj with rfl | hj
    · exact h5
    · exact ih e h j hj

/-- `e` lies in the range of `S Aᵀ`. -/
def InRange (S : Matrix (Fin p) (Fin p) ℝ) (A : Matrix (Fin d) (Fin p) ℝ) (e : Fin p → ℝ) : Prop :=
  ∃ u, e = (S * Aᵀ) *ᵥ u

theorem inRange_iff (e : Fin p → ℝ) : InRange S A e ↔ e ∈ LinearMap.range (S * Aᵀ).mulVecLin := by
  rw [LinearMap.mem_range]
  exact ⟨fun ⟨u, h⟩ => ⟨u, h.symm⟩, fun ⟨u, h⟩ => ⟨u, h.symm⟩⟩

theorem InRange.smul {e : Fin p → ℝ} (h : InRange S A e) (t : ℝ) : InRange S A (t • e) := by
  obtain ⟨u, rfl⟩ := h
  exact ⟨t • u, by rw [mulVec_smul]⟩

theorem inRange_row (k : Fin d) : InRange S A (S *ᵥ A k) := by
  refine ⟨Pi.single k 1, ?_⟩
  rw [← mulVec_mulVec]
  congr 1
  funext j
  simp [mulVec, dotProduct, Pi.single_apply]

theorem InRange.kmat {e : Fin p → ℝ} (h : InRange S A e) (k : Fin d) :
    InRange S A (kmat S (A k) *ᵥ e) := by
  rw [kmat_mulVec, inRange_iff]
  exact Submodule.sub_mem _ ((inRange_iff _).1 h)
    ((inRange_iff _).1 ((inRange_row k).smul _))

theorem InRange.epoch {e : Fin p → ℝ} (h : InRange S A e) (ks : List (Fin d)) :
    InRange S A (epochMat S A ks *ᵥ e) := by
  induction ks generalizing e with
  | nil => simpa [epochMat] using h
  | cons k ks ih => rw [epochMat_cons]; exact ih (h.kmat k)

theorem InRange.eq_zero (hS : S.PosDef) {e : Fin p → ℝ} (h : InRange S A e) (h0 : A *ᵥ e = 0) :
    e = 0 := by
  by_contra hne
  have hq := qf_pos hS hne
  have hSt := posSemidef_transpose hS.posSemidef
  have hSu := posDef_isUnit_det hS
  obtain ⟨u, hu⟩ := h
  have h1 : S⁻¹ *ᵥ e = Aᵀ *ᵥ u := by
    rw [hu, mulVec_mulVec, ← Matrix.mul_assoc, nonsing_inv_mul _ hSu, Matrix.one_mul]
  rw [qf, h1, dot_mulVec_transpose, transpose_transpose, h0, zero_dotProduct] at hq
  exact lt_irrefl _ hq

theorem qf_epoch_lt (hS : S.PosDef) {ks : List (Fin d)} (hks : ∀ k, k ∈ ks) {e : Fin p → ℝ}
    (h : InRange S A e) (hne : e ≠ 0) : qf S (epochMat S A ks *ᵥ e) < qf S e := by
  by_contra hlt
  have := qf_epoch_eq hS ks e (not_lt.1 hlt)
  exact hne (h.eq_zero hS (funext fun k => this k (hks k)))

theorem continuous_qf : Continuous (qf S) := by
  unfold qf
  exact Continuous.dotProduct continuous_id (Continuous.matrix_mulVec continuous_const continuous_id)

/-- One pass over all rows contracts errors in the range of `S Aᵀ` by a fixed factor. -/
theorem epoch_contract (hS : S.PosDef) {ks : List (Fin d)} (hks : ∀ k, k ∈ ks) :
    ∃ ρ : ℝ, 0 ≤ ρ ∧ ρ < 1 ∧ ∀ e, InRange S A e → qf S (epochMat S A ks *ᵥ e) ≤ ρ * qf S e := by
  let V := LinearMap.range (S * Aᵀ).mulVecLin
  let K : Set (Fin p → ℝ) := Metric.sphere 0 1 ∩ V
  have hK : IsCompact K :=
    (isCompact_sphere _ _).inter_right (Submodule.closed_of_finiteDimensional V)
  have hne : ∀ e ∈ K, e ≠ 0 := by
    rintro e ⟨he, -⟩ rfl
    simp at he
  by_cases hKe : K.Nonempty
  · have hcont : ContinuousOn (fun e => qf S (epochMat S A ks *ᵥ e) / qf S e) K := by
      refine ContinuousOn.div ?_ continuous_qf.continuousOn fun e he => (qf_pos hS (hne e he)).ne'
      exact (continuous_qf.comp (Continuous.matrix_mulVec continuous_const continuous_id)).continuousOn
    obtain ⟨e₀, he₀, hmax⟩ := hK.exists_isMaxOn hKe hcont
    refine ⟨qf S (epochMat S A ks *ᵥ e₀) / qf S e₀,
      div_nonneg (qf_nonneg hS _) (qf_nonneg hS e₀), ?_, ?_⟩
    · rw [div_lt_one (qf_pos hS (hne e₀ he₀))]
      exact qf_epoch_lt hS hks ((inRange_iff _).2 he₀.2) (hne e₀ he₀)
    · intro e he
      by_cases h0 : e = 0
      · subst h0; simp [qf]
      have hn : ‖e‖ ≠ 0 := norm_ne_zero_iff.2 h0
      have hmem : (‖e‖⁻¹) • e ∈ K := by
        refine ⟨?_, (inRange_iff _).1 (he.smul _)⟩
        simp [norm_smul, hn]
      have := hmax hmem
      simp only [Set.mem_ofPred_eq] at this
      rw [div_le_iff₀ (qf_pos hS (hne _ hmem)), mulVec_smul, qf_smul, qf_smul] at this
      have hp : 0 < (‖e‖⁻¹) ^ 2 := by positivity
      nlinarith [this, hp]
  · refine ⟨0, le_rfl, one_pos, fun e he => ?_⟩
    have h0 : e = 0 := by
      by_contra h0
      have hn : ‖e‖ ≠ 0 := norm_ne_zero_iff.2 h0
      exact hKe ⟨(‖e‖⁻¹) • e, by simp [norm_smul, hn], (inRange_iff _).1 (he.smul _)⟩
    subst h0; simp [qf]

/-- A positive definite form controls the norm. -/
theorem qf_coercive (hS : S.PosDef) : ∃ c : ℝ, 0 < c ∧ ∀ e, c * ‖e‖ ^ 2 ≤ qf S e := by
  let K : Set (Fin p → ℝ) := Metric.sphere 0 1
  have hne : ∀ e ∈ K, e ≠ 0 := by
    rintro e he rfl
    simp [K] at he
  by_cases hKe : K.Nonempty
  · obtain ⟨e₀, he₀, hmin⟩ := (isCompact_sphere (0 : Fin p → ℝ) 1).exists_isMinOn hKe
      continuous_qf.continuousOn (f := qf S)
    refine ⟨_, qf_pos hS (hne e₀ he₀), fun e => ?_⟩
    by_cases h0 : e = 0
    · subst h0; simp [qf]
    have hn : ‖e‖ ≠ 0 := norm_ne_zero_iff.2 h0
    have hmem : (‖e‖⁻¹) • e ∈ K := by simp [K, norm_smul, hn]
    have h1 := hmin hmem
    simp only [Set.mem_ofPred_eq] at h1
    rw [qf_smul] at h1
    calc qf S e₀ * ‖e‖ ^ 2 ≤ (‖e‖⁻¹ ^ 2 * qf S e) * ‖e‖ ^ 2 :=
          mul_le_mul_of_nonneg_right h1 (sq_nonneg _)
      _ = qf S e := by field_simp
  · refine ⟨1, one_pos, fun e => ?_⟩
    have h0 : e = 0 := by
      by_contra h0
      have hn : ‖e‖ ≠ 0 := norm_ne_zero_iff.2 h0
      exact hKe ⟨(‖e‖⁻¹) • e, by simp [K, norm_smul, hn]⟩
    subst h0; simp [qf]

theorem tendsto_of_qf (hS : S.PosDef) {f : ℕ → Fin p → ℝ} {x : Fin p → ℝ} {ρ B : ℝ} (h0 : 0 ≤ ρ)
    (h1 : ρ < 1) (h : ∀ n, qf S (f n - x) ≤ ρ ^ n * B) :
    Filter.Tendsto f Filter.atTop (nhds x) := by
  obtain ⟨c, hc, hcq⟩ := qf_coercive hS
  rw [tendsto_iff_norm_sub_tendsto_zero]
  have hsq : Filter.Tendsto (fun n => ‖f n - x‖ ^ 2) Filter.atTop (nhds 0) := by
    have hb : ∀ n, ‖f n - x‖ ^ 2 ≤ ρ ^ n * (B / c) := by
      intro n
      have := (hcq (f n - x)).trans (h n)
      rw [← mul_div_assoc, le_div_iff₀ hc, mul_comm]; exact this
    refine squeeze_zero (fun n => sq_nonneg _) hb ?_
    have := (tendsto_pow_atTop_nhds_zero_of_lt_one h0 h1).mul_const (B / c)
    simpa using this
  have := hsq.sqrt
  simpa [Real.sqrt_sq] using this

end Verif
