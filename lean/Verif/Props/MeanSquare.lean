import Verif.Props.Uncertainty
import Mathlib.Probability.Distributions.Gaussian.HasGaussianLaw.Independence

/-!
# C167: the mean square error of the estimates

The parameters are drawn from the initial distribution and the data carry independent normal noise.
-/

open Matrix MeasureTheory ProbabilityTheory WithLp

namespace Verif

variable {d p : ℕ}

/-! ### Specification -/

/-- Parameters `λ ~ N(m, S)` and, independent of them, noise `ε ~ N(0, C)`. -/
noncomputable def paramNoise (m : Fin p → ℝ) (S : Matrix (Fin p) (Fin p) ℝ) (C : Matrix (Fin d) (Fin d) ℝ) :
    Measure ((Fin p → ℝ) × (Fin d → ℝ)) :=
  (normalLaw m S).prod (normalLaw 0 C)

/-- The data `A λ + b + ε` seen for the parameters and the noise `x = (λ, ε)`. -/
def seen (A : Matrix (Fin d) (Fin p) ℝ) (b : Fin d → ℝ) (x : (Fin p → ℝ) × (Fin d → ℝ)) : Fin d → ℝ :=
  A *ᵥ x.1 + b + x.2

/-! ### Moments -/

section moments

instance (m : Fin p → ℝ) (S : Matrix (Fin p) (Fin p) ℝ) : IsGaussian (normalLaw m S) :=
  inferInstanceAs (IsGaussian ((multivariateGaussian (toLp 2 m) S).map (PiLp.continuousLinearEquiv 2 ℝ fun _ => ℝ)))

instance (m : Fin p → ℝ) (S : Matrix (Fin p) (Fin p) ℝ) (C : Matrix (Fin d) (Fin d) ℝ) :
    IsGaussian (paramNoise m S C) := inferInstanceAs (IsGaussian ((normalLaw m S).prod (normalLaw 0 C)))

theorem mean_normalLaw (m : Fin p → ℝ) {S : Matrix (Fin p) (Fin p) ℝ} (i : Fin p) :
    ∫ x, x i ∂(normalLaw m S) = m i := by
  rw [normalLaw, integral_map measurable_ofLp'.aemeasurable (measurable_pi_apply i).aestronglyMeasurable]
  have h1 := integral_id_multivariateGaussian (μ := toLp 2 m) (S := S)
  have h2 := ContinuousLinearMap.integral_comp_comm (EuclideanSpace.proj (𝕜 := ℝ) i)
    (IsGaussian.integrable_fun_id (μ := multivariateGaussian (toLp 2 m) S))
  rw [h1] at h2
  exact h2

variable (m : Fin p → ℝ) {S : Matrix (Fin p) (Fin p) ℝ} {C : Matrix (Fin d) (Fin d) ℝ}
  (hS : S.PosSemidef) (hC : C.PosSemidef) (u : Fin p → ℝ) (v : Fin d → ℝ)

theorem memLp_lin : MemLp (fun x : (Fin p → ℝ) × (Fin d → ℝ) => u ⬝ᵥ x.1 + v ⬝ᵥ x.2) 2 (paramNoise m S C) := by
  let L : ((Fin p → ℝ) × (Fin d → ℝ)) →L[ℝ] ℝ :=
    LinearMap.toContinuousLinearMap
      { toFun := fun x => u ⬝ᵥ x.1 + v ⬝ᵥ x.2
        map_add' := fun x y => by simp [dotProduct_add]; ring
        map_smul' := fun c x => by simp [dotProduct_smul, mul_add] }
  exact IsGaussian.memLp_dual (paramNoise m S C) L 2 (by simp)

include hS hC

theorem law_lin : (paramNoise m S C).map (fun x => fun _ : Fin 1 => u ⬝ᵥ x.1 + v ⬝ᵥ x.2) =
    normalLaw (fun _ => u ⬝ᵥ m) (of fun _ _ => u ⬝ᵥ (S *ᵥ u) + v ⬝ᵥ (C *ᵥ v)) := by
  have h := normalLaw_affine m hS (0 : Fin d → ℝ) hC (of fun _ : Fin 1 => u) (of fun _ : Fin 1 => v) 0
  refine Eq.trans ?_ (h.trans ?_)
  · congr 1
    funext x; funext i
    simp [mulVec]
  · congr 1
    · funext i; simp [mulVec]
    · ext i j
      rw [Matrix.add_apply, of_apply]
      congr 1
      · rw [Matrix.mul_assoc]; rfl
      · rw [Matrix.mul_assoc]; rfl

theorem mean_lin : ∫ x, (u ⬝ᵥ x.1 + v ⬝ᵥ x.2) ∂(paramNoise m S C) = u ⬝ᵥ m := by
  have h := mean_normalLaw (fun _ : Fin 1 => u ⬝ᵥ m) (S := of fun _ _ => u ⬝ᵥ (S *ᵥ u) + v ⬝ᵥ (C *ᵥ v)) 0
  have hf : Measurable fun z : Fin 1 → ℝ => z 0 := measurable_pi_apply 0
  rw [← law_lin m hS hC u v, integral_map (f := fun z : Fin 1 → ℝ => z 0) (by fun_prop) hf.aestronglyMeasurable] at h
  exact h

theorem var_lin : Var[fun x => u ⬝ᵥ x.1 + v ⬝ᵥ x.2; paramNoise m S C] = u ⬝ᵥ (S *ᵥ u) + v ⬝ᵥ (C *ᵥ v) := by
  have hp : (of fun _ _ : Fin 1 => u ⬝ᵥ (S *ᵥ u) + v ⬝ᵥ (C *ᵥ v)).PosSemidef := by
    have h := (posSemidef_conj hS (of fun _ : Fin 1 => u)).add (posSemidef_conj hC (of fun _ : Fin 1 => v))
    convert h using 1
    ext i j
    rw [Matrix.add_apply, of_apply]
    congr 1
    · rw [Matrix.mul_assoc]; rfl
    · rw [Matrix.mul_assoc]; rfl
  have h := var_normalLaw (fun _ : Fin 1 => u ⬝ᵥ m) hp ![1]
  rw [← law_lin m hS hC u v, variance_map (by fun_prop) (by fun_prop)] at h
  simpa [dotProduct, mulVec, Function.comp_def] using h

theorem sq_lin (c : ℝ) (hc : u ⬝ᵥ m + c = 0) :
    ∫ x, (u ⬝ᵥ x.1 + v ⬝ᵥ x.2 + c) ^ 2 ∂(paramNoise m S C) = u ⬝ᵥ (S *ᵥ u) + v ⬝ᵥ (C *ᵥ v) := by
  rw [← var_lin m hS hC u v, variance_eq_integral (by fun_prop), mean_lin m hS hC]
  refine integral_congr_ae (.of_forall fun x => ?_)
  dsimp only
  rw [show c = -(u ⬝ᵥ m) by linarith]; ring

theorem cov_lin (u' : Fin p → ℝ) (v' : Fin d → ℝ) :
    cov[fun x => u ⬝ᵥ x.1 + v ⬝ᵥ x.2, fun x => u' ⬝ᵥ x.1 + v' ⬝ᵥ x.2; paramNoise m S C] =
      u ⬝ᵥ (S *ᵥ u') + v ⬝ᵥ (C *ᵥ v') := by
  have h := variance_add (memLp_lin m (S := S) (C := C) u v) (memLp_lin m (S := S) (C := C) u' v')
  have e : ((fun x : (Fin p → ℝ) × (Fin d → ℝ) => u ⬝ᵥ x.1 + v ⬝ᵥ x.2) + fun x => u' ⬝ᵥ x.1 + v' ⬝ᵥ x.2) =
      fun x => (u + u') ⬝ᵥ x.1 + (v + v') ⬝ᵥ x.2 := by
    funext x; simp [add_dotProduct]; ring
  rw [e, var_lin m hS hC, var_lin m hS hC, var_lin m hS hC] at h
  have s1 : u' ⬝ᵥ (S *ᵥ u) = u ⬝ᵥ (S *ᵥ u') := by
    rw [dotProduct_mulVec, ← mulVec_transpose, posSemidef_transpose hS, dotProduct_comm]
  have s2 : v' ⬝ᵥ (C *ᵥ v) = v ⬝ᵥ (C *ᵥ v') := by
    rw [dotProduct_mulVec, ← mulVec_transpose, posSemidef_transpose hC, dotProduct_comm]
  simp only [mulVec_add, add_dotProduct, dotProduct_add, s1, s2] at h
  linarith

end moments

/-! ### Estimation -/

/-- Among all estimates of a quantity from the data, one whose error is centred and uncorrelated with the data is
the best in mean square. -/
theorem best_of_uncorrelated (A : Matrix (Fin d) (Fin p) ℝ) (b : Fin d → ℝ) (m : Fin p → ℝ)
    {S : Matrix (Fin p) (Fin p) ℝ} {C : Matrix (Fin d) (Fin d) ℝ} (hS : S.PosSemidef) (hC : C.PosSemidef)
    (K : Matrix (Fin p) (Fin d) ℝ) (hK : K * (A * S * Aᵀ + C) = S * Aᵀ) (w : Fin p → ℝ) :
    (∫ x, (w ⬝ᵥ (m + K *ᵥ (seen A b x - b - A *ᵥ m)) - w ⬝ᵥ x.1) ^ 2 ∂(paramNoise m S C) =
      w ⬝ᵥ ((S - K * (A * S)) *ᵥ w)) ∧
    ∀ h : (Fin d → ℝ) → ℝ, Measurable h →
      Integrable (fun x => (h (seen A b x) - w ⬝ᵥ x.1) ^ 2) (paramNoise m S C) →
      w ⬝ᵥ ((S - K * (A * S)) *ᵥ w) ≤ ∫ x, (h (seen A b x) - w ⬝ᵥ x.1) ^ 2 ∂(paramNoise m S C) := by
  have hSt := posSemidef_transpose hS
  have hCt := posSemidef_transpose hC
  set v := Kᵀ *ᵥ w with hv
  set u := Aᵀ *ᵥ v - w with hu
  set c := w ⬝ᵥ m - v ⬝ᵥ (A *ᵥ m) with hc
  have hlin : ∀ x : (Fin p → ℝ) × (Fin d → ℝ),
      w ⬝ᵥ (m + K *ᵥ (seen A b x - b - A *ᵥ m)) - w ⬝ᵥ x.1 = u ⬝ᵥ x.1 + v ⬝ᵥ x.2 + c := by
    intro x
    have e : seen A b x - b - A *ᵥ m = A *ᵥ x.1 + x.2 - A *ᵥ m := by rw [seen]; abel
    rw [e, dotProduct_add, dotProduct_mulVec, ← mulVec_transpose, ← hv, hu, hc, dotProduct_sub, dotProduct_add,
      sub_dotProduct, dotProduct_mulVec v A x.1, ← mulVec_transpose]
    ring
  have hmean : u ⬝ᵥ m + c = 0 := by
    rw [hu, hc, sub_dotProduct, dotProduct_mulVec v A m, ← mulVec_transpose]; ring
  -- the error is uncorrelated with the data
  have hunc : A *ᵥ (S *ᵥ u) + C *ᵥ v = 0 := by
    have h := congrArg transpose hK
    rw [transpose_mul, transpose_add, transpose_mul, transpose_mul, transpose_transpose, hSt, hCt,
      transpose_mul, transpose_transpose, hSt, ← Matrix.mul_assoc] at h
    have h := congrArg (· *ᵥ w) h
    simp only [← mulVec_mulVec, add_mulVec] at h
    rw [← hv] at h
    rw [hu, mulVec_sub, mulVec_sub, ← h]
    abel
  have hval : u ⬝ᵥ (S *ᵥ u) + v ⬝ᵥ (C *ᵥ v) = w ⬝ᵥ ((S - K * (A * S)) *ᵥ w) := by
    have e1 : v ⬝ᵥ (C *ᵥ v) = - ((Aᵀ *ᵥ v) ⬝ᵥ (S *ᵥ u)) := by
      rw [eq_neg_of_add_eq_zero_right hunc, dotProduct_neg, mulVec_transpose, ← dotProduct_mulVec]
    have e2 : u ⬝ᵥ (S *ᵥ u) = (Aᵀ *ᵥ v) ⬝ᵥ (S *ᵥ u) - w ⬝ᵥ (S *ᵥ u) := by
      conv_lhs => rw [hu]
      rw [sub_dotProduct]
    have e3 : w ⬝ᵥ (S *ᵥ (Aᵀ *ᵥ v)) = w ⬝ᵥ ((K * (A * S)) *ᵥ w) := by
      rw [hv, mulVec_mulVec, mulVec_mulVec, dotProduct_mulVec, ← mulVec_transpose, dotProduct_comm]
      congr 2
      rw [transpose_mul, transpose_mul, transpose_transpose, transpose_transpose, hSt]
    rw [e1, e2, hu, mulVec_sub, dotProduct_sub w, e3, sub_mulVec, dotProduct_sub w]
    ring
  have hsq : ∫ x, (u ⬝ᵥ x.1 + v ⬝ᵥ x.2 + c) ^ 2 ∂(paramNoise m S C) = w ⬝ᵥ ((S - K * (A * S)) *ᵥ w) := by
    rw [sq_lin m hS hC u v c hmean, hval]
  refine ⟨by simp only [hlin]; exact hsq, fun h hm hi => ?_⟩
  -- independence of the error and the data
  have hind : IndepFun (fun x : (Fin p → ℝ) × (Fin d → ℝ) => u ⬝ᵥ x.1 + v ⬝ᵥ x.2)
      (fun x => A *ᵥ x.1 + x.2) (paramNoise m S C) := by
    have hg : HasGaussianLaw (fun x : (Fin p → ℝ) × (Fin d → ℝ) =>
        (fun _ : Fin 1 => u ⬝ᵥ x.1 + v ⬝ᵥ x.2, fun j => (A *ᵥ x.1 + x.2) j)) (paramNoise m S C) := by
      let L : ((Fin p → ℝ) × (Fin d → ℝ)) →L[ℝ] ((Fin 1 → ℝ) × (Fin d → ℝ)) :=
        LinearMap.toContinuousLinearMap
          { toFun := fun x => (fun _ => u ⬝ᵥ x.1 + v ⬝ᵥ x.2, A *ᵥ x.1 + x.2)
            map_add' := fun x y => by
              ext i
              · simp [dotProduct_add]; ring
              · simp [mulVec_add]; ring
            map_smul' := fun c x => by
              ext i
              · simp [dotProduct_smul, mul_add]
              · simp [mulVec_smul] }
      exact (IsGaussian.hasGaussianLaw_id (μ := paramNoise m S C)).map L
    have h := hg.indepFun_of_covariance_eval (X := fun (_ : Fin 1) (x : (Fin p → ℝ) × (Fin d → ℝ)) => u ⬝ᵥ x.1 + v ⬝ᵥ x.2)
      (Y := fun j (x : (Fin p → ℝ) × (Fin d → ℝ)) => (A *ᵥ x.1 + x.2) j) fun _ j => by
        have e : (fun x : (Fin p → ℝ) × (Fin d → ℝ) => (A *ᵥ x.1 + x.2) j) =
            fun x => A j ⬝ᵥ x.1 + Pi.single j 1 ⬝ᵥ x.2 := by
          funext x; simp [mulVec]
        rw [e, covariance_comm, cov_lin m hS hC]
        have h := congrFun hunc j
        rw [single_one_dotProduct]
        exact h
    exact h.comp (φ := fun z : Fin 1 → ℝ => z 0) (ψ := id) (by fun_prop) measurable_id
  set D : (Fin d → ℝ) → ℝ := fun y => h y - w ⬝ᵥ (m + K *ᵥ (y - b - A *ᵥ m)) with hD
  have hDm : Measurable D := by
    have : Measurable fun y : Fin d → ℝ => w ⬝ᵥ (m + K *ᵥ (y - b - A *ᵥ m)) := by
      refine Continuous.measurable ?_
      fun_prop
    exact hm.sub this
  have hseen : Measurable (seen A b) := by
    refine Continuous.measurable ?_
    unfold seen
    fun_prop
  have hE : MemLp (fun x : (Fin p → ℝ) × (Fin d → ℝ) => u ⬝ᵥ x.1 + v ⬝ᵥ x.2 + c) 2 (paramNoise m S C) :=
    (memLp_lin m u v).add (memLp_const c)
  have hH : MemLp (fun x => h (seen A b x) - w ⬝ᵥ x.1) 2 (paramNoise m S C) := by
    refine (memLp_two_iff_integrable_sq ?_).2 hi
    refine Measurable.aestronglyMeasurable ?_
    exact (hm.comp hseen).sub (Continuous.measurable (by fun_prop))
  have hDE : ∀ x, h (seen A b x) - w ⬝ᵥ x.1 = D (seen A b x) + (u ⬝ᵥ x.1 + v ⬝ᵥ x.2 + c) := fun x => by
    rw [← hlin, hD]; ring
  have hDL : MemLp (fun x => D (seen A b x)) 2 (paramNoise m S C) := by
    have h := hH.sub hE
    refine h.ae_eq (.of_forall fun x => ?_)
    simp only [Pi.sub_apply, hDE]; ring
  have hind' : IndepFun (fun x => D (seen A b x)) (fun x => u ⬝ᵥ x.1 + v ⬝ᵥ x.2 + c) (paramNoise m S C) := by
    have h := hind.symm.comp (φ := fun z => D (z + b)) (ψ := fun r : ℝ => r + c)
      (hDm.comp (measurable_add_const b)) (by fun_prop)
    refine h.congr (.of_forall fun x => ?_) (.of_forall fun x => rfl)
    simp only [Function.comp_apply, seen]
    congr 1; abel
  have hcross : ∫ x, D (seen A b x) * (u ⬝ᵥ x.1 + v ⬝ᵥ x.2 + c) ∂(paramNoise m S C) = 0 := by
    have h := hind'.integral_mul_eq_mul_integral hDL.aestronglyMeasurable hE.aestronglyMeasurable
    have h0 : ∫ x, (u ⬝ᵥ x.1 + v ⬝ᵥ x.2 + c) ∂(paramNoise m S C) = 0 := by
      rw [integral_add ((memLp_lin m u v).integrable (by norm_num)) (integrable_const c), mean_lin m hS hC]
      simpa using hmean
    rw [h0, mul_zero] at h
    exact h
  have hexp : ∫ x, (h (seen A b x) - w ⬝ᵥ x.1) ^ 2 ∂(paramNoise m S C) =
      ∫ x, D (seen A b x) ^ 2 ∂(paramNoise m S C) +
        2 * ∫ x, D (seen A b x) * (u ⬝ᵥ x.1 + v ⬝ᵥ x.2 + c) ∂(paramNoise m S C) +
        ∫ x, (u ⬝ᵥ x.1 + v ⬝ᵥ x.2 + c) ^ 2 ∂(paramNoise m S C) := by
    have hX : Integrable (fun x => 2 * (D (seen A b x) * (u ⬝ᵥ x.1 + v ⬝ᵥ x.2 + c))) (paramNoise m S C) :=
      (hDL.integrable_mul hE).const_mul 2
    rw [← integral_const_mul, ← integral_add hDL.integrable_sq hX,
      ← integral_add (f := fun x => D (seen A b x) ^ 2 + 2 * (D (seen A b x) * (u ⬝ᵥ x.1 + v ⬝ᵥ x.2 + c)))
        (hDL.integrable_sq.add hX) hE.integrable_sq]
    refine integral_congr_ae (.of_forall fun x => ?_)
    simp only [hDE]; ring
  rw [hexp, hcross, hsq]
  have : 0 ≤ ∫ x, D (seen A b x) ^ 2 ∂(paramNoise m S C) := integral_nonneg fun x => sq_nonneg _
  linarith

/-- The error of an affine estimate with gain `K`. -/
theorem error_lin (A : Matrix (Fin d) (Fin p) ℝ) (b : Fin d → ℝ) (m : Fin p → ℝ) (K : Matrix (Fin p) (Fin d) ℝ)
    (w : Fin p → ℝ) (x : (Fin p → ℝ) × (Fin d → ℝ)) :
    w ⬝ᵥ (m + K *ᵥ (seen A b x - b - A *ᵥ m)) - w ⬝ᵥ x.1 =
      (-((1 - K * A)ᵀ *ᵥ w)) ⬝ᵥ x.1 + (Kᵀ *ᵥ w) ⬝ᵥ x.2 + ((1 - K * A)ᵀ *ᵥ w) ⬝ᵥ m := by
  have e : seen A b x - b - A *ᵥ m = A *ᵥ x.1 + x.2 - A *ᵥ m := by rw [seen]; abel
  have e1 : ∀ z : Fin p → ℝ, ((1 - K * A)ᵀ *ᵥ w) ⬝ᵥ z = w ⬝ᵥ z - w ⬝ᵥ (K *ᵥ (A *ᵥ z)) := fun z => by
    rw [mulVec_transpose, ← dotProduct_mulVec, sub_mulVec, one_mulVec, dotProduct_sub, ← mulVec_mulVec]
  rw [e, neg_dotProduct, e1, e1, mulVec_transpose, ← dotProduct_mulVec, mulVec_sub, mulVec_add, dotProduct_add,
    dotProduct_sub, dotProduct_add]
  ring

/-- The mean square error of an affine estimate with gain `K`. -/
theorem error_of_gain (A : Matrix (Fin d) (Fin p) ℝ) (b : Fin d → ℝ) (m : Fin p → ℝ)
    {S : Matrix (Fin p) (Fin p) ℝ} {C : Matrix (Fin d) (Fin d) ℝ} (hS : S.PosSemidef) (hC : C.PosSemidef)
    (K : Matrix (Fin p) (Fin d) ℝ) (w : Fin p → ℝ) :
    ∫ x, (w ⬝ᵥ (m + K *ᵥ (seen A b x - b - A *ᵥ m)) - w ⬝ᵥ x.1) ^ 2 ∂(paramNoise m S C) =
      w ⬝ᵥ ((K * C * Kᵀ + (1 - K * A) * S * (1 - K * A)ᵀ) *ᵥ w) := by
  simp only [error_lin]
  rw [sq_lin m hS hC _ _ _ (by rw [neg_dotProduct]; ring), mulVec_neg, neg_dotProduct, dotProduct_neg, neg_neg,
    quad_conj, quad_conj, add_mulVec, dotProduct_add, add_comm]

/-! ### C167 -/

section solutions
variable (A : Matrix (Fin d) (Fin p) ℝ) (b : Fin d → ℝ) (m : Fin p → ℝ) {S : Matrix (Fin p) (Fin p) ℝ}
  {C : Matrix (Fin d) (Fin d) ℝ}

/-- **C167, MAP.** If the parameters are drawn from `N(m, α S)` and the data have independent noise from `N(0, C)`,
then `cov_p` is the mean square error of the MAP point, for every quantity `w · λ`, and no way to estimate the
quantity from the data, linear or not, has a smaller one. -/
theorem C167_map (hS : S.PosDef) (hC : C.PosDef) (α : ℝ) (hα : 0 < α) :
    ∃ (g : (Fin d → ℝ) → Fin p → ℝ) (V : Matrix (Fin p) (Fin p) ℝ),
      (∀ y, Returns (Api.solve "map" A b y m S C α) (g y) ∧
        ∃ P Q r, Api.new A b y m S C α = .ok P ∧ LGP.solve "map" none P = (.ok r, Q) ∧ Q.cov_p = some ⟨p, p, V⟩) ∧
      ∀ w : Fin p → ℝ,
        ∫ x, (w ⬝ᵥ g (seen A b x) - w ⬝ᵥ x.1) ^ 2 ∂(paramNoise m (α • S) C) = w ⬝ᵥ (V *ᵥ w) ∧
        ∀ h : (Fin d → ℝ) → ℝ, Measurable h →
          Integrable (fun x => (h (seen A b x) - w ⬝ᵥ x.1) ^ 2) (paramNoise m (α • S) C) →
          ∫ x, (w ⬝ᵥ g (seen A b x) - w ⬝ᵥ x.1) ^ 2 ∂(paramNoise m (α • S) C) ≤
            ∫ x, (h (seen A b x) - w ⬝ᵥ x.1) ^ 2 ∂(paramNoise m (α • S) C) := by
  have hSα : (α • S).PosDef := hS.smul hα
  have hH : (mapH A (α • S) C).PosDef := map_posDef hSα hC
  have hG := posDef_isUnit_det (gain_posDef (A := A) hSα hC)
  refine ⟨fun y => m + ((mapH A (α • S) C)⁻¹ * Aᵀ * C⁻¹) *ᵥ (y - b - A *ᵥ m), (mapH A (α • S) C)⁻¹, fun y => ⟨?_, ?_⟩,
    fun w => ?_⟩
  · exact api_map A b y m S C α (posDef_det_ne hC) (posDef_det_ne hSα) (posDef_det_ne hH)
  · have hrun : LGP.solve "map" none (LGP.typed A b y m S C α) =
        (.ok (.arr (.col (m + ((mapH A (α • S) C)⁻¹ * Aᵀ * C⁻¹) *ᵥ (y - b - A *ᵥ m)))),
          { LGP.typed A b y m S C α with
            map := some (.col (m + ((mapH A (α • S) C)⁻¹ * Aᵀ * C⁻¹) *ᵥ (y - b - A *ᵥ m)))
            cov_p := some ⟨p, p, (mapH A (α • S) C)⁻¹⟩ }) := by
      rw [solve_map _ _ (locals_typed ..)]
      rw [mapBranch_typed _ _ _ _ _ m _ _ rfl,
        if_neg (by rw [not_or, not_or]; exact ⟨posDef_det_ne hC, posDef_det_ne hSα, posDef_det_ne hH⟩)]
    exact ⟨_, _, _, new_typed .., hrun, rfl⟩
  · have hV : (mapH A (α • S) C)⁻¹ = α • S - (α • S) * Aᵀ * (A * (α • S) * Aᵀ + C)⁻¹ * (A * (α • S)) :=
      map_woodbury hSα hC
    have hK : (mapH A (α • S) C)⁻¹ * Aᵀ * C⁻¹ = (α • S) * Aᵀ * (A * (α • S) * Aᵀ + C)⁻¹ := map_gain hSα hC
    obtain ⟨h1, h2⟩ := best_of_uncorrelated A b m hSα.posSemidef hC.posSemidef
      ((α • S) * Aᵀ * (A * (α • S) * Aᵀ + C)⁻¹)
      (by rw [Matrix.mul_assoc, nonsing_inv_mul _ hG, Matrix.mul_one]) w
    rw [← hV] at h1
    simp only [hK]
    refine ⟨h1, fun h hm hi => ?_⟩
    rw [h1, hV]
    exact h2 h hm hi

/-- **C167, MUD.** The mean square error of the MUD point, for every quantity `w · λ`, is given by the updated
covariance. (Here the initial covariance is the one in the problem; `α` does not matter to MUD.) -/
theorem C167_mud (hS : S.PosSemidef) (hC : C.PosSemidef) (α : ℝ) (hα : 0 < α) :
    ∃ (g : (Fin d → ℝ) → Fin p → ℝ) (U : Matrix (Fin p) (Fin p) ℝ),
      (∀ y, Returns (Api.solve "mud" A b y m S C α) (g y) ∧
        ∃ P, Api.new A b y m S C α = .ok P ∧ P.updated_cov = .ok ⟨p, p, U⟩) ∧
      ∀ w : Fin p → ℝ,
        ∫ x, (w ⬝ᵥ g (seen A b x) - w ⬝ᵥ x.1) ^ 2 ∂(paramNoise m S C) = w ⬝ᵥ (U *ᵥ w) := by
  refine ⟨fun y => mudF A (y - b - A *ᵥ m) m S, upF A S C, fun y => ⟨api_mud' A b y m S C α hα.ne',
    _, new_typed .., by simp [LGP.updated_cov, LGP.typed, updatedCovBody_typed]⟩, fun w => ?_⟩
  rw [upF_eq A hS C]
  exact error_of_gain A b m hS hC (gainF A S) w

/-- With parameters from `N(m, S)`, `α = 1` and a positive definite data covariance the MAP point estimates every
quantity at least as well as the MUD point; in particular the MUD point is one of the estimates `C167_map` is
about. -/
theorem C167_map_mud (hS : S.PosDef) (hC : C.PosDef) (w : Fin p → ℝ) :
    ∃ g g' : (Fin d → ℝ) → Fin p → ℝ,
      (∀ y, Returns (Api.solve "map" A b y m S C 1) (g y)) ∧ (∀ y, Returns (Api.solve "mud" A b y m S C 1) (g' y)) ∧
      ∫ x, (w ⬝ᵥ g (seen A b x) - w ⬝ᵥ x.1) ^ 2 ∂(paramNoise m S C) ≤
        ∫ x, (w ⬝ᵥ g' (seen A b x) - w ⬝ᵥ x.1) ^ 2 ∂(paramNoise m S C) := by
  obtain ⟨g, V, h1, h2⟩ := C167_map A b m hS hC 1 one_pos
  rw [one_smul] at h2
  refine ⟨g, fun y => mudF A (y - b - A *ᵥ m) m S, fun y => (h1 y).1, fun y => api_mud' A b y m S C 1 one_ne_zero, ?_⟩
  refine (h2 w).2 (fun y => w ⬝ᵥ mudF A (y - b - A *ᵥ m) m S) ?_ ?_
  · unfold mudF
    exact Continuous.measurable (by fun_prop)
  · have hf : MemLp (fun x : (Fin p → ℝ) × (Fin d → ℝ) =>
        (-((1 - gainF A S * A)ᵀ *ᵥ w)) ⬝ᵥ x.1 + ((gainF A S)ᵀ *ᵥ w) ⬝ᵥ x.2 + ((1 - gainF A S * A)ᵀ *ᵥ w) ⬝ᵥ m) 2
        (paramNoise m S C) := (memLp_lin m _ _).add (memLp_const _)
    refine hf.integrable_sq.congr (.of_forall fun x => ?_)
    exact congrArg (· ^ 2) (error_lin A b m (gainF A S) w x).symm

end solutions

/-- Non-vacuity: one observation of two correlated parameters, `α = 2`. -/
example : ∃ (g : (Fin 1 → ℝ) → Fin 2 → ℝ) (V : Matrix (Fin 2) (Fin 2) ℝ),
    (∀ y, Returns (Api.solve "map" !![1, 2] ![1] y ![0, 1] !![1, -1/4; -1/4, 1/2] !![3] 2) (g y)) ∧
    ∫ x, (![1, 0] ⬝ᵥ g (seen !![1, 2] ![1] x) - ![1, 0] ⬝ᵥ x.1) ^ 2
      ∂(paramNoise ![0, 1] ((2 : ℝ) • !![1, -1/4; -1/4, 1/2]) !![3]) = ![1, 0] ⬝ᵥ (V *ᵥ ![1, 0]) := by
  obtain ⟨g, V, h, h'⟩ := C167_map (!![1, 2] : Matrix (Fin 1) (Fin 2) ℝ) ![1] ![0, 1]
    (S := !![1, -1/4; -1/4, 1/2]) (C := !![3]) (posDef_fin_two (by norm_num) (by norm_num))
    (posDef_fin_one (by norm_num)) 2 two_pos
  exact ⟨g, V, fun y => (h y).1, (h' ![1, 0]).1⟩

end Verif
