import Verif.Model.Equipment
import Mathlib.Probability.Distributions.Gaussian.Real
import Mathlib.MeasureTheory.Integral.IntervalIntegral.FundThmCalculus
import Mathlib.Analysis.Calculus.Deriv.MeanValue
import Mathlib.MeasureTheory.Integral.IntegralEqImproper

/-!
# C65: from equipment tolerance to standard deviation
-/

open MeasureTheory ProbabilityTheory Filter Topology Set

namespace Verif

theorem continuous_kernel : Continuous fun t : ℝ => Real.exp (-t ^ 2) := by fun_prop

theorem erf_hasDerivAt (x : ℝ) :
    HasDerivAt erf (2 / Real.sqrt Real.pi * Real.exp (-x ^ 2)) x :=
  (intervalIntegral.integral_hasDerivAt_right (continuous_kernel.intervalIntegrable _ _)
    (continuous_kernel.stronglyMeasurableAtFilter _ _) continuous_kernel.continuousAt).const_mul _

theorem erf_strictMono : StrictMono erf :=
  strictMono_of_deriv_pos fun x => by
    rw [(erf_hasDerivAt x).deriv]
    have := Real.pi_pos
    positivity

theorem erf_continuous : Continuous erf :=
  continuous_iff_continuousAt.2 fun x => (erf_hasDerivAt x).continuousAt

theorem erf_zero : erf 0 = 0 := by simp [erf]

theorem erf_neg (x : ℝ) : erf (-x) = -erf x := by
  have : ∫ t in (0 : ℝ)..-x, Real.exp (-t ^ 2) = -∫ t in (0 : ℝ)..x, Real.exp (-t ^ 2) := by
    have := intervalIntegral.integral_comp_neg (a := (0 : ℝ)) (b := x) fun t : ℝ => Real.exp (-t ^ 2)
    simp only [neg_sq, neg_zero] at this
    rw [this, intervalIntegral.integral_symm]
  rw [erf, erf, this]
  ring

theorem erf_tendsto : Tendsto erf atTop (𝓝 1) := by
  have hint : IntegrableOn (fun t : ℝ => Real.exp (-t ^ 2)) (Ioi 0) := by
    have := (integrable_exp_neg_mul_sq (b := 1) one_pos).integrableOn (s := Ioi 0)
    simpa using this
  have h := intervalIntegral_tendsto_integral_Ioi (f := fun t : ℝ => Real.exp (-t ^ 2)) 0 hint
    tendsto_id
  have hv : ∫ t in Ioi (0 : ℝ), Real.exp (-t ^ 2) = Real.sqrt Real.pi / 2 := by
    have := integral_gaussian_Ioi 1
    simpa using this
  rw [hv] at h
  have h2 := h.const_mul (2 / Real.sqrt Real.pi)
  have hpi : Real.sqrt Real.pi ≠ 0 := (Real.sqrt_pos.2 Real.pi_pos).ne'
  rw [show 2 / Real.sqrt Real.pi * (Real.sqrt Real.pi / 2) = 1 by field_simp] at h2
  exact h2

/-- `erfinv` inverts `erf` on `(-1, 1)`. -/
theorem erf_erfinv {p : ℝ} (h0 : -1 < p) (h1 : p < 1) : erf (erfinv p) = p := by
  have hneg : Tendsto (fun x => erf (-x)) atTop (𝓝 (-1)) := by
    simp only [erf_neg]
    exact erf_tendsto.neg
  obtain ⟨b, hb⟩ := ((tendsto_order.1 erf_tendsto).1 p h1).exists
  obtain ⟨a, ha⟩ := ((tendsto_order.1 hneg).2 p h0).exists
  have : p ∈ range erf := by
    have hab : -a ≤ b := by
      by_contra hc
      exact absurd (erf_strictMono (not_le.1 hc)) (by linarith [hb.trans' ha] )
    obtain ⟨x, -, hx⟩ := intermediate_value_Icc hab erf_continuous.continuousOn
      ⟨ha.le, hb.le⟩
    exact ⟨x, hx⟩
  exact Function.invFun_eq this

theorem erfinv_erf (x : ℝ) : erfinv (erf x) = x :=
  Function.leftInverse_invFun erf_strictMono.injective x

theorem erfinv_pos {p : ℝ} (h0 : 0 < p) (h1 : p < 1) : 0 < erfinv p := by
  have := erf_erfinv (by linarith) h1
  rw [← erf_strictMono.lt_iff_lt, erf_zero, this]
  exact h0

/-- The centred normal law with standard deviation `σ` gives the interval `[-t, t]` probability
`erf (t / (σ √2))`. -/
theorem gaussian_Icc {σ t : ℝ} (hσ : 0 < σ) (ht : 0 ≤ t) :
    (gaussianReal 0 (σ ^ 2).toNNReal).real (Icc (-t) t) = erf (t / (σ * Real.sqrt 2)) := by
  have hv : (σ ^ 2).toNNReal ≠ 0 := by
    rw [Ne, Real.toNNReal_eq_zero, not_le]; positivity
  have hs2 : (0 : ℝ) < Real.sqrt 2 := by positivity
  have hss : Real.sqrt 2 * Real.sqrt 2 = 2 := Real.mul_self_sqrt (by norm_num)
  have hpi : 0 < Real.sqrt Real.pi := Real.sqrt_pos.2 Real.pi_pos
  set c := σ * Real.sqrt 2 with hc
  have hc0 : 0 < c := by positivity
  have hc2 : c ^ 2 = 2 * σ ^ 2 := by rw [hc]; linear_combination σ ^ 2 * hss
  have hpdf : ∀ x, gaussianPDFReal 0 (σ ^ 2).toNNReal x =
      (Real.sqrt Real.pi * c)⁻¹ * Real.exp (-(x / c) ^ 2) := by
    intro x
    rw [gaussianPDFReal, Real.coe_toNNReal _ (sq_nonneg σ)]
    congr 1
    · rw [show 2 * Real.pi * σ ^ 2 = Real.pi * c ^ 2 by rw [hc2]; ring,
        Real.sqrt_mul Real.pi_pos.le, Real.sqrt_sq hc0.le]
    · congr 1
      rw [div_pow, hc2, sub_zero, neg_div]
  have hnn : 0 ≤ ∫ x in Icc (-t) t, gaussianPDFReal 0 (σ ^ 2).toNNReal x :=
    integral_nonneg fun x => gaussianPDFReal_nonneg _ _ _
  rw [Measure.real, gaussianReal_apply_eq_integral 0 hv, ENNReal.toReal_ofReal hnn]
  simp only [hpdf]
  rw [integral_Icc_eq_integral_Ioc, ← intervalIntegral.integral_of_le (by linarith),
    intervalIntegral.integral_const_mul,
    intervalIntegral.integral_comp_div (fun u => Real.exp (-u ^ 2)) hc0.ne']
  have hsplit : ∫ u in -t / c..t / c, Real.exp (-u ^ 2) = 2 * ∫ u in (0 : ℝ)..t / c, Real.exp (-u ^ 2) := by
    rw [← intervalIntegral.integral_add_adjacent_intervals
      (continuous_kernel.intervalIntegrable (-t / c) 0) (continuous_kernel.intervalIntegrable 0 (t / c))]
    have := intervalIntegral.integral_comp_neg (a := (0 : ℝ)) (b := t / c) fun t : ℝ => Real.exp (-t ^ 2)
    simp only [neg_sq, neg_zero] at this
    rw [neg_div, ← this]
    ring
  rw [hsplit, erf, smul_eq_mul]
  field_simp

/-- **C65.** For `tol > 0` and `0 < p < 1`, the result `σ` of `std_from_equipment(tol, p)` is positive,
and a centred normal variable with standard deviation `σ` lies within `tol` of zero with probability
exactly `p`; it is the only positive standard deviation with that property. -/
theorem C65_std_from_equipment {tol p : ℝ} (ht : 0 < tol) (h0 : 0 < p) (h1 : p < 1) :
    0 < stdFromEquipment tol p ∧
    (gaussianReal 0 (stdFromEquipment tol p ^ 2).toNNReal).real (Icc (-tol) tol) = p ∧
    ∀ σ, 0 < σ → (gaussianReal 0 (σ ^ 2).toNNReal).real (Icc (-tol) tol) = p →
      σ = stdFromEquipment tol p := by
  have he := erfinv_pos h0 h1
  have hs2 : (0 : ℝ) < Real.sqrt 2 := by positivity
  have hpos : 0 < stdFromEquipment tol p := by unfold stdFromEquipment; positivity
  refine ⟨hpos, ?_, fun σ hσ h => ?_⟩
  · rw [gaussian_Icc hpos ht.le]
    have : tol / (stdFromEquipment tol p * Real.sqrt 2) = erfinv p := by
      unfold stdFromEquipment
      field_simp
    rw [this, erf_erfinv (by linarith) h1]
  · rw [gaussian_Icc hσ ht.le] at h
    have : erfinv p = tol / (σ * Real.sqrt 2) := by rw [← h, erfinv_erf]
    unfold stdFromEquipment
    rw [this]
    field_simp

/-- The hypotheses are met by the defaults of the function. -/
example : 0 < stdFromEquipment (1 / 10) (95 / 100) :=
  (C65_std_from_equipment (by norm_num) (by norm_num) (by norm_num)).1

end Verif
