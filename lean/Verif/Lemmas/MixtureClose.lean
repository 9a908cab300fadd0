import Verif.Props.KdeConsistent

/-!
# Mixtures of normal densities and smoothed distributions

A mixture of normal densities with a common covariance is close to a distribution smoothed with this covariance,
uniformly, if the characteristic functions of the centres and of the distribution are close on a large ball. Used by C144.
-/

open MeasureTheory ProbabilityTheory Filter Topology WithLp Complex

namespace Verif

variable {p q : ℕ} {Ω : Type} [MeasurableSpace Ω] {user : ℕ → ℝ → ℕ → ℝ}

/-! ## Distance of a mixture from a smoothed distribution -/

/-- The largest value of the normal density. -/
noncomputable def normalTop (H : Matrix (Fin q) (Fin q) ℝ) : ℝ := 1 / Real.sqrt ((2 * Real.pi) ^ q * H.det)

theorem normalPdf_cf {H : Matrix (Fin q) (Fin q) ℝ} (hH : H.PosDef) (z : Fin q → ℝ) :
    (normalPdf H z : ℂ) = normalTop H * ∫ t, cexp (((z ⬝ᵥ t : ℝ) : ℂ) * I) ∂(normalLaw 0 H⁻¹) := by
  have h := cf_normalLaw (0 : Fin q → ℝ) hH.inv.posSemidef z
  rw [cf, dotProduct_zero, ofReal_zero, zero_mul, zero_sub] at h
  rw [h, normalPdf, normalTop, ← ofReal_ofNat, ← ofReal_div, ← ofReal_neg, ← ofReal_exp, ← ofReal_mul]
  congr 1
  rw [neg_div]
  ring

theorem norm_le_of_coords {t : Fin q → ℝ} {T : ℝ} (hT : 0 < T) (h : ¬ ‖t‖ ≤ T) : 1 ≤ (∑ j, t j ^ 2) / T ^ 2 := by
  rw [pi_norm_le_iff_of_nonneg hT.le] at h
  push Not at h
  obtain ⟨j, hj⟩ := h
  rw [one_le_div (by positivity)]
  have h1 : t j ^ 2 ≤ ∑ j, t j ^ 2 := Finset.single_le_sum (f := fun j => t j ^ 2) (fun j _ => sq_nonneg _) (Finset.mem_univ j)
  rw [Real.norm_eq_abs] at hj
  have h2 : T ^ 2 ≤ t j ^ 2 := by
    rw [← sq_abs (t j)]
    exact pow_le_pow_left₀ hT.le hj.le 2
  linarith

/-- A mixture of normal densities is close to a smoothed distribution if the characteristic functions of the centres
and of the distribution are close on a large ball. -/
theorem mixture_close {n : ℕ} (y : Fin n → Fin q → ℝ) {w : Fin n → ℝ} (hw : ∀ k, 0 ≤ w k)
    (hs : 0 < ∑ k, w k) {ν : Measure (Fin q → ℝ)} [IsProbabilityMeasure ν]
    {H : Matrix (Fin q) (Fin q) ℝ} (hH : H.PosDef) {T η : ℝ} (hT : 0 < T)
    (h : ∀ t, ‖t‖ ≤ T → ‖(∑ k, w k)⁻¹ • ∑ k, w k • cexp (((t ⬝ᵥ y k : ℝ) : ℂ) * I) - cf ν t‖ ≤ η) (x : Fin q → ℝ) :
    |mixture y w H x - ∫ z, normalPdf H (x - z) ∂ν| ≤
      normalTop H * (η + 2 * ((∑ j, H⁻¹ j j) / T ^ 2)) := by
  set N := normalLaw 0 H⁻¹ with hN
  set D : (Fin q → ℝ) → ℂ := fun t => (∑ k, w k)⁻¹ • ∑ k, w k • cexp (((t ⬝ᵥ y k : ℝ) : ℂ) * I) - cf ν t with hD
  have hη : 0 ≤ η := (norm_nonneg _).trans (h 0 (by simpa using hT.le))
  have hc : ∀ a : Fin q → ℝ, Continuous fun t : Fin q → ℝ => cexp (((a ⬝ᵥ t : ℝ) : ℂ) * I) := fun a => by
    simp only [dotProduct]; fun_prop
  have hDc : Continuous D := by
    have h1 : Continuous fun t : Fin q → ℝ => (∑ k, w k)⁻¹ • ∑ k, w k • cexp (((t ⬝ᵥ y k : ℝ) : ℂ) * I) := by
      simp only [dotProduct]; fun_prop
    exact h1.sub continuous_cf
  -- bound of the difference
  have hD2 : ∀ t, ‖D t‖ ≤ 2 := by
    intro t
    refine (norm_sub_le _ _).trans ?_
    have h1 : ‖(∑ k, w k)⁻¹ • ∑ k, w k • cexp (((t ⬝ᵥ y k : ℝ) : ℂ) * I)‖ ≤ 1 := by
      rw [norm_smul, Real.norm_eq_abs, abs_of_nonneg (by positivity)]
      have : ‖∑ k, w k • cexp (((t ⬝ᵥ y k : ℝ) : ℂ) * I)‖ ≤ ∑ k, w k := by
        refine norm_sum_le_of_le _ fun k _ => ?_
        rw [norm_smul, norm_exp_ofReal_mul_I, Real.norm_eq_abs, abs_of_nonneg (hw k), mul_one]
      calc (∑ k, w k)⁻¹ * ‖∑ k, w k • cexp (((t ⬝ᵥ y k : ℝ) : ℂ) * I)‖ ≤ (∑ k, w k)⁻¹ * ∑ k, w k := by gcongr
        _ = 1 := inv_mul_cancel₀ hs.ne'
    have h2 : ‖cf ν t‖ ≤ 1 := by
      refine (norm_integral_le_integral_norm _).trans ?_
      simp only [norm_exp_ofReal_mul_I]
      simp
    linarith
  have hDb : ∀ t, ‖D t‖ ≤ η + 2 * ((∑ j, t j ^ 2) / T ^ 2) := by
    intro t
    by_cases ht : ‖t‖ ≤ T
    · have : 0 ≤ (∑ j, t j ^ 2) / T ^ 2 := by positivity
      linarith [h t ht]
    · have := norm_le_of_coords hT ht
      linarith [hD2 t]
  -- both sides as integrals
  have hint : ∀ a : Fin q → ℝ, Integrable (fun t : Fin q → ℝ => cexp (((a ⬝ᵥ t : ℝ) : ℂ) * I)) N := fun a => by
    refine (integrable_const (1 : ℝ)).mono' (hc a).aestronglyMeasurable (.of_forall fun z => ?_)
    rw [norm_exp_ofReal_mul_I]
  have e1 : (mixture y w H x : ℂ) = normalTop H * ∫ t, cexp (((x ⬝ᵥ t : ℝ) : ℂ) * I) *
      ((∑ k, w k)⁻¹ • ∑ k, w k • cexp ((((-t) ⬝ᵥ y k : ℝ) : ℂ) * I)) ∂N := by
    have : ∀ t, cexp (((x ⬝ᵥ t : ℝ) : ℂ) * I) * ((∑ k, w k)⁻¹ • ∑ k, w k • cexp ((((-t) ⬝ᵥ y k : ℝ) : ℂ) * I)) =
        ((∑ k, w k : ℝ) : ℂ)⁻¹ * ∑ k, (w k : ℂ) * cexp ((((x - y k) ⬝ᵥ t : ℝ) : ℂ) * I) := by
      intro t
      rw [Complex.real_smul, ofReal_inv, ← mul_assoc, mul_comm _ (((∑ k, w k : ℝ) : ℂ)⁻¹), mul_assoc, Finset.mul_sum]
      congr 1
      refine Finset.sum_congr rfl fun k _ => ?_
      rw [Complex.real_smul, mul_left_comm, ← Complex.exp_add, sub_dotProduct, neg_dotProduct, dotProduct_comm t (y k)]
      congr 2
      push_cast
      ring
    simp only [this]
    rw [integral_const_mul, integral_finsetSum _ fun k _ => (hint _).const_mul _, mixture, ofReal_div, ofReal_sum, div_eq_inv_mul]
    simp only [ofReal_mul, normalPdf_cf hH, integral_const_mul]
    rw [mul_left_comm, Finset.mul_sum (a := (normalTop H : ℂ))]
    congr 1
    exact Finset.sum_congr rfl fun k _ => by ring
  have e2 : ((∫ z, normalPdf H (x - z) ∂ν : ℝ) : ℂ) = normalTop H * ∫ t, cexp (((x ⬝ᵥ t : ℝ) : ℂ) * I) *
      cf ν (-t) ∂N := by
    have e0 : ((∫ z, normalPdf H (x - z) ∂ν : ℝ) : ℂ) = ∫ z, (normalPdf H (x - z) : ℂ) ∂ν := integral_ofReal.symm
    rw [e0]
    simp only [normalPdf_cf hH]
    rw [integral_const_mul]
    congr 1
    have hc2 : Continuous fun a : (Fin q → ℝ) × (Fin q → ℝ) => cexp ((((x - a.1) ⬝ᵥ a.2 : ℝ) : ℂ) * I) := by
      simp only [dotProduct, Pi.sub_apply]; fun_prop
    have hint2 : Integrable (Function.uncurry fun z t : Fin q → ℝ => cexp ((((x - z) ⬝ᵥ t : ℝ) : ℂ) * I)) (ν.prod N) := by
      refine (integrable_const (1 : ℝ)).mono' hc2.aestronglyMeasurable (.of_forall fun z => ?_)
      rw [Function.uncurry, norm_exp_ofReal_mul_I]
    rw [integral_integral_swap hint2]
    refine integral_congr_ae (.of_forall fun t => ?_)
    dsimp only
    rw [cf, ← integral_const_mul]
    refine integral_congr_ae (.of_forall fun z => ?_)
    dsimp only
    rw [← Complex.exp_add, sub_dotProduct, neg_dotProduct, dotProduct_comm t z]
    congr 1
    push_cast
    ring
  have hb : ∀ t, ‖cexp (((x ⬝ᵥ t : ℝ) : ℂ) * I) * D (-t)‖ ≤ η + 2 * ((∑ j, t j ^ 2) / T ^ 2) := by
    intro t
    rw [norm_mul, norm_exp_ofReal_mul_I, one_mul]
    refine (hDb (-t)).trans (le_of_eq ?_)
    simp
  have hsq : ∀ j, Integrable (fun t : Fin q → ℝ => t j ^ 2) N := fun j => (normalLaw_sq 0 hH.inv.posSemidef j).1
  have hib : Integrable (fun t : Fin q → ℝ => η + 2 * ((∑ j, t j ^ 2) / T ^ 2)) N :=
    (integrable_const η).add (((integrable_finsetSum _ fun j _ => hsq j).div_const _).const_mul 2)
  have hvb : ∫ t : Fin q → ℝ, (η + 2 * ((∑ j, t j ^ 2) / T ^ 2)) ∂N = η + 2 * ((∑ j, H⁻¹ j j) / T ^ 2) := by
    rw [integral_add (integrable_const η) (((integrable_finsetSum _ fun j _ => hsq j).div_const _).const_mul 2),
      integral_const, probReal_univ, one_smul, integral_const_mul, integral_div,
      integral_finsetSum _ fun j _ => hsq j]
    have : ∀ j, ∫ t : Fin q → ℝ, t j ^ 2 ∂N = H⁻¹ j j := fun j => by
      have := (normalLaw_sq 0 hH.inv.posSemidef j).2
      simpa only [Pi.zero_apply, sub_zero] using this
    simp only [this]
  have i1 : Integrable (fun t => cexp (((x ⬝ᵥ t : ℝ) : ℂ) * I) *
      ((∑ k, w k)⁻¹ • ∑ k, w k • cexp ((((-t) ⬝ᵥ y k : ℝ) : ℂ) * I))) N := by
    refine (integrable_const (1 : ℝ)).mono' ?_ (.of_forall fun t => ?_)
    · have h1 : Continuous fun t : Fin q → ℝ => cexp (((x ⬝ᵥ t : ℝ) : ℂ) * I) *
          ((∑ k, w k)⁻¹ • ∑ k, w k • cexp ((((-t) ⬝ᵥ y k : ℝ) : ℂ) * I)) := by
        simp only [dotProduct, Pi.neg_apply]; fun_prop
      exact h1.aestronglyMeasurable
    · rw [norm_mul, norm_exp_ofReal_mul_I, one_mul, norm_smul, Real.norm_eq_abs, abs_of_nonneg (by positivity)]
      have : ‖∑ k, w k • cexp ((((-t) ⬝ᵥ y k : ℝ) : ℂ) * I)‖ ≤ ∑ k, w k := by
        refine norm_sum_le_of_le _ fun k _ => ?_
        rw [norm_smul, norm_exp_ofReal_mul_I, Real.norm_eq_abs, abs_of_nonneg (hw k), mul_one]
      calc (∑ k, w k)⁻¹ * ‖∑ k, w k • cexp ((((-t) ⬝ᵥ y k : ℝ) : ℂ) * I)‖ ≤ (∑ k, w k)⁻¹ * ∑ k, w k := by gcongr
        _ = 1 := inv_mul_cancel₀ hs.ne'
  have i2 : Integrable (fun t => cexp (((x ⬝ᵥ t : ℝ) : ℂ) * I) * cf ν (-t)) N := by
    refine (integrable_const (1 : ℝ)).mono' ((hc x).mul (continuous_cf.comp continuous_neg)).aestronglyMeasurable
      (.of_forall fun t => ?_)
    rw [norm_mul, norm_exp_ofReal_mul_I, one_mul]
    refine (norm_integral_le_integral_norm _).trans ?_
    simp only [norm_exp_ofReal_mul_I]
    simp
  have htop : 0 ≤ normalTop H := by unfold normalTop; positivity
  have e3 : ((mixture y w H x - ∫ z, normalPdf H (x - z) ∂ν : ℝ) : ℂ) =
      normalTop H * ∫ t, cexp (((x ⬝ᵥ t : ℝ) : ℂ) * I) * D (-t) ∂N := by
    rw [ofReal_sub, e1, e2, ← mul_sub, ← integral_sub i1 i2]
    congr 2
    funext t
    rw [← mul_sub]
  rw [← Real.norm_eq_abs, ← Complex.norm_real, e3, norm_mul, Complex.norm_real, Real.norm_eq_abs, abs_of_nonneg htop]
  refine mul_le_mul_of_nonneg_left ?_ htop
  rw [← hvb]
  exact norm_integral_le_of_norm_le hib (.of_forall hb)

end Verif
