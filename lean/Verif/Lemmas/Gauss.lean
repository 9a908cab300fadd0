import Verif.Model.Kde
import Mathlib.Analysis.Matrix.Order
import Mathlib.Analysis.Matrix.PosDef
import Mathlib.MeasureTheory.Integral.Pi
import Mathlib.MeasureTheory.Measure.Lebesgue.Basic
import Mathlib.Analysis.SpecialFunctions.Gaussian.GaussianIntegral

/-!
# The normal density: change of variables, positivity, total mass 1
-/

open Matrix MeasureTheory

namespace Verif

variable {d : ℕ}

theorem normalPdf_pos {H : Matrix (Fin d) (Fin d) ℝ} (hH : H.PosDef) (z : Fin d → ℝ) :
    0 < normalPdf H z :=
  div_pos (Real.exp_pos _) (Real.sqrt_pos.2 (mul_pos (pow_pos (by positivity) _) hH.det_pos))

/-- Density in transformed coordinates. -/
theorem normalPdf_map (H T : Matrix (Fin d) (Fin d) ℝ) (hT : IsUnit T.det)
    (z : Fin d → ℝ) : normalPdf (T * H * Tᵀ) (T *ᵥ z) = normalPdf H z / |T.det| := by
  have hinv : (T * H * Tᵀ)⁻¹ = Tᵀ⁻¹ * H⁻¹ * T⁻¹ := by
    rw [Matrix.mul_inv_rev, Matrix.mul_inv_rev, Matrix.mul_assoc]
  have hq : (T *ᵥ z) ⬝ᵥ (T * H * Tᵀ)⁻¹ *ᵥ (T *ᵥ z) = z ⬝ᵥ H⁻¹ *ᵥ z := by
    rw [hinv, Matrix.mulVec_mulVec, Matrix.mul_assoc, Matrix.nonsing_inv_mul _ hT, Matrix.mul_one,
      Matrix.dotProduct_mulVec, ← Matrix.vecMul_transpose, Matrix.vecMul_vecMul, ← Matrix.mul_assoc,
      Matrix.mul_nonsing_inv _ (by rwa [Matrix.det_transpose]), Matrix.one_mul,
      ← Matrix.dotProduct_mulVec]
  unfold normalPdf
  rw [hq, Matrix.det_mul, Matrix.det_mul, Matrix.det_transpose]
  have : (2 * Real.pi) ^ d * (T.det * H.det * T.det) =
      (2 * Real.pi) ^ d * H.det * T.det ^ 2 := by ring
  rw [this, Real.sqrt_mul' _ (sq_nonneg _), Real.sqrt_sq_eq_abs, div_div]

/-- A positive definite matrix has an invertible square root in the sense `H = B Bᵀ`. -/
theorem exists_root {H : Matrix (Fin d) (Fin d) ℝ} (hH : H.PosDef) :
    ∃ B : Matrix (Fin d) (Fin d) ℝ, IsUnit B.det ∧ H = B * Bᵀ := by
  have h0 := hH.posSemidef
  open scoped MatrixOrder in
  obtain ⟨B, hB⟩ := CStarAlgebra.nonneg_iff_eq_mul_star_self.mp h0.nonneg
  refine ⟨B, ?_, hB⟩
  have := hH.det_pos
  rw [hB, Matrix.det_mul] at this
  exact isUnit_iff_ne_zero.2 fun h => by simp [h] at this

theorem normalPdf_one (u : Fin d → ℝ) : normalPdf (1 : Matrix (Fin d) (Fin d) ℝ) u =
    ∏ j, (Real.exp (-(1 / 2) * u j ^ 2) / Real.sqrt (2 * Real.pi)) := by
  unfold normalPdf
  rw [Finset.prod_div_distrib, Finset.prod_const, Finset.card_univ, Fintype.card_fin,
    ← Real.exp_sum, inv_one, Matrix.one_mulVec, Matrix.det_one, mul_one]
  congr 1
  · congr 1
    rw [← Finset.mul_sum, dotProduct]
    have : ∑ i, u i * u i = ∑ i, u i ^ 2 := Finset.sum_congr rfl fun i _ => by ring
    rw [this]; ring
  · rw [Real.sqrt_eq_rpow, Real.sqrt_eq_rpow, ← Real.rpow_natCast, ← Real.rpow_natCast,
      ← Real.rpow_mul (by positivity), ← Real.rpow_mul (by positivity), mul_comm (d : ℝ)]

/-- The normal density with positive definite covariance has total mass 1. -/
theorem integral_normalPdf {H : Matrix (Fin d) (Fin d) ℝ} (hH : H.PosDef) (a : Fin d → ℝ) :
    ∫ x : Fin d → ℝ, normalPdf H (fun j => x j - a j) = 1 := by
  have h1 : ∫ x : Fin d → ℝ, normalPdf H (x - a) = ∫ x, normalPdf H x :=
    integral_sub_right_eq_self (μ := volume) (fun x => normalPdf H x) a
  change ∫ x : Fin d → ℝ, normalPdf H (x - a) = 1
  rw [h1]
  obtain ⟨B, hB, rfl⟩ := exists_root hH
  have hd : B.det ≠ 0 := hB.ne_zero
  have hB' : ∀ u, normalPdf (B * Bᵀ) (B *ᵥ u) = normalPdf 1 u / |B.det| := by
    intro u
    have := normalPdf_map 1 B hB u
    rwa [Matrix.mul_one] at this
  have hmap := Real.map_matrix_volume_pi_eq_smul_volume_pi hd
  have hcont : Continuous fun x : Fin d → ℝ => normalPdf (B * Bᵀ) x := by
    unfold normalPdf
    refine Continuous.div_const (Real.continuous_exp.comp ?_) _
    refine Continuous.div_const (Continuous.neg ?_) _
    simp only [dotProduct, mulVec]
    fun_prop
  have h2 : ∫ x, normalPdf (B * Bᵀ) x ∂(Measure.map (toLin' B) volume) =
      ∫ u, normalPdf (B * Bᵀ) (B *ᵥ u) := by
    rw [integral_map]
    · rfl
    · exact (LinearMap.continuous_of_finiteDimensional _).aemeasurable
    · exact hcont.aestronglyMeasurable
  rw [hmap, integral_smul_measure] at h2
  simp only [hB'] at h2
  rw [integral_div] at h2
  have h3 : ∫ u : Fin d → ℝ, normalPdf 1 u = 1 := by
    simp only [normalPdf_one]
    rw [integral_fintype_prod_volume_eq_prod
      (fun (_ : Fin d) (x : ℝ) => Real.exp (-(1 / 2) * x ^ 2) / Real.sqrt (2 * Real.pi))]
    have : ∫ x : ℝ, Real.exp (-(1 / 2) * x ^ 2) / Real.sqrt (2 * Real.pi) = 1 := by
      rw [integral_div, integral_gaussian]
      rw [show Real.pi / (1 / 2) = 2 * Real.pi by ring]
      exact div_self (Real.sqrt_pos.2 (by positivity)).ne'
    simp only [this, Finset.prod_const_one]
  rw [h3, ENNReal.toReal_ofReal (abs_nonneg _), abs_inv, smul_eq_mul, one_div] at h2
  have h4 : (|B.det|)⁻¹ ≠ 0 := inv_ne_zero (abs_ne_zero.2 hd)
  exact mul_left_cancel₀ h4 (by rw [h2, mul_one])

theorem integrable_normalPdf {H : Matrix (Fin d) (Fin d) ℝ} (hH : H.PosDef) (a : Fin d → ℝ) :
    Integrable fun x : Fin d → ℝ => normalPdf H (fun j => x j - a j) := by
  by_contra h
  have := integral_undef h
  rw [integral_normalPdf hH a] at this
  exact one_ne_zero this

end Verif
