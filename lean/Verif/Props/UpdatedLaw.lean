import Verif.Props.Linear
import Verif.Lemmas.GaussMeasure
import Mathlib.MeasureTheory.Measure.Decomposition.RadonNikodym

/-!
# C128–C130: the distributions behind the linear solutions

The laws are Mathlib's: `normalLaw m S` is `multivariateGaussian` on `Fin d → ℝ`.
-/

open Matrix MeasureTheory ProbabilityTheory

namespace Verif

variable {d p : ℕ}

/-- The gain. -/
noncomputable def gainF (A : Matrix (Fin d) (Fin p) ℝ) (S : Matrix (Fin p) (Fin p) ℝ) :
    Matrix (Fin p) (Fin d) ℝ := S * Aᵀ * mpinv (A * S * Aᵀ)

theorem upF_eq (A : Matrix (Fin d) (Fin p) ℝ) {S : Matrix (Fin p) (Fin p) ℝ} (hS : S.PosSemidef)
    (C : Matrix (Fin d) (Fin d) ℝ) :
    upF A S C = gainF A S * C * (gainF A S)ᵀ + (1 - gainF A S * A) * S * (1 - gainF A S * A)ᵀ := by
  rw [upF, gainF]
  set P := A * S * Aᵀ with hP
  set K := S * Aᵀ * mpinv P with hK
  have hSt := posSemidef_transpose hS
  have hPt : Pᵀ = P := posSemidef_transpose (posSemidef_conj hS A)
  have hKt : Kᵀ = mpinv P * (A * S) := by
    rw [hK, transpose_mul, mpinv_symm hPt, transpose_mul, transpose_transpose, hSt]
  have hKP : K * P = S * Aᵀ := proj_range' hS A
  have e1 : K * P * Kᵀ = K * A * S := by
    rw [hKP, hKt, hK]; simp only [Matrix.mul_assoc]
  have e2 : S - K * P * Kᵀ = (1 - K * A) * S * (1 - K * A)ᵀ := by
    have hT : (K * A)ᵀ = Aᵀ * Kᵀ := transpose_mul _ _
    rw [transpose_sub, transpose_one, hT, Matrix.sub_mul, Matrix.one_mul, Matrix.mul_sub,
      Matrix.mul_one, Matrix.sub_mul]
    have e3 : K * A * S * (Aᵀ * Kᵀ) = K * P * Kᵀ := by
      rw [hP]; simp only [Matrix.mul_assoc]
    have e4 : S * (Aᵀ * Kᵀ) = K * P * Kᵀ := by rw [hKP]; simp only [Matrix.mul_assoc]
    rw [e3, e4, e1]; abel
  rw [← e2, Matrix.mul_sub, Matrix.sub_mul]; abel

/-- The parameter generated from an observable value `z.1` and an independent initial sample `z.2`. -/
noncomputable def genMap (A : Matrix (Fin d) (Fin p) ℝ) (b : Fin d → ℝ)
    (S : Matrix (Fin p) (Fin p) ℝ) (z : (Fin d → ℝ) × (Fin p → ℝ)) : Fin p → ℝ :=
  gainF A S *ᵥ z.1 + (1 - gainF A S * A) *ᵥ z.2 + -(gainF A S *ᵥ b)

theorem genMap_law (A : Matrix (Fin d) (Fin p) ℝ) (b y : Fin d → ℝ) (m : Fin p → ℝ)
    {S : Matrix (Fin p) (Fin p) ℝ} (hS : S.PosSemidef) {C : Matrix (Fin d) (Fin d) ℝ} (hC : C.PosSemidef) :
    ((normalLaw y C).prod (normalLaw m S)).map (genMap A b S) =
      normalLaw (mudF A (y - b - A *ᵥ m) m S) (upF A S C) := by
  rw [upF_eq A hS C, show genMap A b S = fun z => gainF A S *ᵥ z.1 + (1 - gainF A S * A) *ᵥ z.2 +
    -(gainF A S *ᵥ b) from rfl, normalLaw_affine y hC m hS]
  congr 1
  rw [mudF, ← gainF, mulVec_sub, mulVec_sub, sub_mulVec, one_mulVec, mulVec_mulVec]; abel

theorem measurable_genMap (A : Matrix (Fin d) (Fin p) ℝ) (b : Fin d → ℝ)
    (S : Matrix (Fin p) (Fin p) ℝ) : Measurable (genMap A b S) :=
  (((measurable_mulVec _).comp measurable_fst).add ((measurable_mulVec _).comp measurable_snd)).add_const _

theorem gain_one (A : Matrix (Fin d) (Fin p) ℝ) {S : Matrix (Fin p) (Fin p) ℝ}
    (hP : (A * S * Aᵀ).det ≠ 0) : A * gainF A S = 1 := by
  have hu : IsUnit (A * S * Aᵀ).det := isUnit_iff_ne_zero.2 hP
  rw [gainF, mpinv_of_isUnit_det hu, ← Matrix.mul_assoc, ← Matrix.mul_assoc, mul_nonsing_inv _ hu]

theorem genMap_observe (A : Matrix (Fin d) (Fin p) ℝ) (b : Fin d → ℝ)
    {S : Matrix (Fin p) (Fin p) ℝ} (hP : (A * S * Aᵀ).det ≠ 0) (z : (Fin d → ℝ) × (Fin p → ℝ)) :
    A *ᵥ genMap A b S z + b = z.1 := by
  have h := gain_one A hP
  rw [genMap, mulVec_add, mulVec_add, mulVec_neg, mulVec_mulVec, mulVec_mulVec, mulVec_mulVec, h,
    Matrix.mul_sub, ← Matrix.mul_assoc, h, Matrix.one_mul, Matrix.mul_one, sub_self, one_mulVec, one_mulVec,
    zero_mulVec]
  abel

theorem measurable_observe (A : Matrix (Fin d) (Fin p) ℝ) (b : Fin d → ℝ) :
    Measurable fun l : Fin p → ℝ => A *ᵥ l + b := (measurable_mulVec A).add_const b

theorem predicted_law (A : Matrix (Fin d) (Fin p) ℝ) (b : Fin d → ℝ) (m : Fin p → ℝ)
    {S : Matrix (Fin p) (Fin p) ℝ} (hS : S.PosSemidef) :
    (((normalLaw m S).map fun l => A *ᵥ l + b).prod (normalLaw m S)).map (genMap A b S) = normalLaw m S := by
  rw [normalLaw_map m hS, genMap_law A b _ m hS (posSemidef_conj hS A)]
  congr 1
  · rw [mudF, add_sub_cancel_right, sub_self, mulVec_zero, add_zero]
  · rw [upF, sub_self, Matrix.mul_zero, Matrix.zero_mul, sub_zero]

theorem posSemidef_posDef {n : ℕ} {M : Matrix (Fin n) (Fin n) ℝ} (h : M.PosSemidef) (hd : M.det ≠ 0) :
    M.PosDef := h.posDef_iff_isUnit.2 ((Matrix.isUnit_iff_isUnit_det M).2 (isUnit_iff_ne_zero.2 hd))

/-! ## C128 -/

/-- **C128.** Sampling parameters from the normal distribution with the MUD point as mean and the updated
covariance, and applying the map, gives the observed distribution `N(y, C)`. -/
theorem C128_data_consistent (A : Matrix (Fin d) (Fin p) ℝ) (b y : Fin d → ℝ) (m : Fin p → ℝ)
    (S : Matrix (Fin p) (Fin p) ℝ) (hS : S.PosSemidef) (C : Matrix (Fin d) (Fin d) ℝ) (hC : C.PosSemidef)
    (α : ℝ) (hα : 0 < α) (hP : (A * S * Aᵀ).det ≠ 0) :
    ∃ (x : Fin p → ℝ) (U : Matrix (Fin p) (Fin p) ℝ), Returns (Api.solve "mud" A b y m S C α) x ∧
      funsUpdatedCov ⟨d, p, A⟩ (some ⟨p, p, S⟩) (some ⟨d, d, C⟩) = .ok ⟨p, p, U⟩ ∧
      (normalLaw x U).map (fun l => A *ᵥ l + b) = normalLaw y C := by
  refine ⟨_, upF A S C, api_mud' A b y m S C α hα.ne', by simp [funsUpdatedCov, updatedCovBody_typed], ?_⟩
  rw [← genMap_law A b y m hS hC, Measure.map_map (measurable_observe A b) (measurable_genMap A b S),
    show (fun l => A *ᵥ l + b) ∘ genMap A b S = Prod.fst from funext (genMap_observe A b hP),
    ← Measure.fst, Measure.fst_prod]

/-- **C128.** It is the data-consistent update of the initial distribution: the initial distribution
reweighted by the density of the observed distribution relative to the predicted one (the push-forward of the
initial distribution). -/
theorem C128_updated (A : Matrix (Fin d) (Fin p) ℝ) (b y : Fin d → ℝ) (m : Fin p → ℝ)
    (S : Matrix (Fin p) (Fin p) ℝ) (hS : S.PosSemidef) (C : Matrix (Fin d) (Fin d) ℝ) (hC : C.PosDef)
    (α : ℝ) (hα : 0 < α) (hP : (A * S * Aᵀ).det ≠ 0) :
    ∃ (x : Fin p → ℝ) (U : Matrix (Fin p) (Fin p) ℝ), Returns (Api.solve "mud" A b y m S C α) x ∧
      funsUpdatedCov ⟨d, p, A⟩ (some ⟨p, p, S⟩) (some ⟨d, d, C⟩) = .ok ⟨p, p, U⟩ ∧
      normalLaw x U = (normalLaw m S).withDensity fun l =>
        ((normalLaw y C).rnDeriv ((normalLaw m S).map fun l => A *ᵥ l + b)) (A *ᵥ l + b) := by
  refine ⟨_, upF A S C, api_mud' A b y m S C α hα.ne', by simp [funsUpdatedCov, updatedCovBody_typed], ?_⟩
  have hPd : (A * S * Aᵀ).PosDef := posSemidef_posDef (posSemidef_conj hS A) hP
  have hac : normalLaw y C ≪ (normalLaw m S).map fun l => A *ᵥ l + b := by
    rw [normalLaw_map m hS]; exact normalLaw_ac _ _ hC hPd
  have hpr : IsProbabilityMeasure ((normalLaw m S).map fun l => A *ᵥ l + b) :=
    Measure.isProbabilityMeasure_map (measurable_observe A b).aemeasurable
  have hleb : (normalLaw y C).HaveLebesgueDecomposition ((normalLaw m S).map fun l => A *ᵥ l + b) :=
    Measure.haveLebesgueDecomposition_of_sigmaFinite _ _
  rw [reweight (measurable_observe A b) (measurable_genMap A b S) (genMap_observe A b hP)
    (predicted_law A b m hS) (Measure.measurable_rnDeriv _ _) (Measure.withDensity_rnDeriv_eq _ _ hac),
    genMap_law A b y m hS hC.posSemidef]

/-- **C128.** In general, also for rank deficient `A`, attainable or not: the push-forward is the observed
distribution projected orthogonally on the attainable outputs `A (m + S w) + b`. -/
theorem C128_projected (A : Matrix (Fin d) (Fin p) ℝ) (b y : Fin d → ℝ) (m : Fin p → ℝ)
    (S : Matrix (Fin p) (Fin p) ℝ) (hS : S.PosSemidef) (C : Matrix (Fin d) (Fin d) ℝ) (hC : C.PosSemidef)
    (α : ℝ) (hα : 0 < α) :
    ∃ (x : Fin p → ℝ) (U : Matrix (Fin p) (Fin p) ℝ) (E : Matrix (Fin d) (Fin d) ℝ),
      Returns (Api.solve "mud" A b y m S C α) x ∧
      funsUpdatedCov ⟨d, p, A⟩ (some ⟨p, p, S⟩) (some ⟨d, d, C⟩) = .ok ⟨p, p, U⟩ ∧
      (E * E = E ∧ Eᵀ = E ∧ ∀ v, E *ᵥ v = v ↔ ∃ w, v = A *ᵥ (S *ᵥ w)) ∧
      (normalLaw x U).map (fun l => A *ᵥ l + b) =
        (normalLaw y C).map fun q => (A *ᵥ m + b) + E *ᵥ (q - (A *ᵥ m + b)) := by
  have hmp := mpinv_spec (A * S * Aᵀ)
  have hEA : A * S * Aᵀ * mpinv (A * S * Aᵀ) * (A * S) = A * S := proj_range hS A
  refine ⟨_, upF A S C, A * S * Aᵀ * mpinv (A * S * Aᵀ), api_mud' A b y m S C α hα.ne',
    by simp [funsUpdatedCov, updatedCovBody_typed], ⟨?_, hmp.symAB, fun v => ⟨fun h => ?_, ?_⟩⟩, ?_⟩
  · rw [← Matrix.mul_assoc, hmp.aba]
  · exact ⟨(Aᵀ * mpinv (A * S * Aᵀ)) *ᵥ v, by
      rw [mulVec_mulVec, mulVec_mulVec, ← Matrix.mul_assoc, h]⟩
  · rintro ⟨w, rfl⟩
    rw [mulVec_mulVec, mulVec_mulVec, Matrix.mul_assoc _ A S, hEA, mulVec_mulVec]
  · set E := A * S * Aᵀ * mpinv (A * S * Aᵀ) with hE
    have hU : (upF A S C).PosSemidef := upd_posSemidef hS hC
    have e : (fun q => (A *ᵥ m + b) + E *ᵥ (q - (A *ᵥ m + b))) =
        fun q => E *ᵥ q + ((A *ᵥ m + b) - E *ᵥ (A *ᵥ m + b)) := by
      funext q; rw [mulVec_sub]; abel
    rw [e, normalLaw_map _ hU, normalLaw_map _ hC]
    congr 1
    · rw [mudF, mulVec_add, mulVec_mulVec, ← Matrix.mul_assoc, ← Matrix.mul_assoc, ← hE, mulVec_sub, mulVec_sub,
        mulVec_add]
      abel
    · rw [upF, upd_push hS, ← hE, hmp.symAB, ← hE]

/-- C128 on a problem with two parameters and one observation. -/
example : ∃ (x : Fin 2 → ℝ) (U : Matrix (Fin 2) (Fin 2) ℝ),
    Returns (Api.solve "mud" (!![1, 2] : Matrix (Fin 1) (Fin 2) ℝ) ![1] ![3] ![0, 1] !![1, -1/4; -1/4, 1/2]
      !![3] 1) x ∧
    (normalLaw x U).map (fun l => (!![1, 2] : Matrix (Fin 1) (Fin 2) ℝ) *ᵥ l + ![1]) = normalLaw ![3] !![3] ∧
    normalLaw x U = (normalLaw ![0, 1] !![1, -1/4; -1/4, 1/2]).withDensity fun l =>
        ((normalLaw ![3] !![3]).rnDeriv ((normalLaw ![0, 1] !![1, -1/4; -1/4, 1/2]).map fun l =>
          (!![1, 2] : Matrix (Fin 1) (Fin 2) ℝ) *ᵥ l + ![1])) ((!![1, 2] : Matrix (Fin 1) (Fin 2) ℝ) *ᵥ l + ![1]) := by
  have hS : (!![1, -1/4; -1/4, 1/2] : Matrix (Fin 2) (Fin 2) ℝ).PosDef :=
    posDef_fin_two (by norm_num) (by norm_num)
  have hC : (!![3] : Matrix (Fin 1) (Fin 1) ℝ).PosDef := posDef_fin_one (by norm_num)
  have hP : ((!![1, 2] : Matrix (Fin 1) (Fin 2) ℝ) * (!![1, -1/4; -1/4, 1/2] : Matrix (Fin 2) (Fin 2) ℝ) *
      (!![1, 2] : Matrix (Fin 1) (Fin 2) ℝ)ᵀ).det ≠ 0 := by
    rw [Matrix.det_fin_one]
    norm_num [Matrix.mul_apply, Fin.sum_univ_two]
  obtain ⟨x, U, h1, h2, h3⟩ := C128_data_consistent !![1, 2] ![1] ![3] ![0, 1] _ hS.posSemidef _ hC.posSemidef 1
    one_pos hP
  obtain ⟨x', U', h1', h2', h3'⟩ := C128_updated !![1, 2] ![1] ![3] ![0, 1] _ hS.posSemidef _ hC 1 one_pos hP
  have hU : U = U' := by simpa using h2.symm.trans h2'
  have hx : x = x' := by
    have := h1.symm.trans h1'
    simpa [Arr2.col, funext_iff] using this
  exact ⟨x, U, h1, h3, by rw [hU, hx]; exact h3'⟩

/-- C128 on a rank deficient problem (two proportional observations) with data that cannot be attained. -/
example : ∃ (x : Fin 2 → ℝ) (U : Matrix (Fin 2) (Fin 2) ℝ) (E : Matrix (Fin 2) (Fin 2) ℝ),
    Returns (Api.solve "mud" (!![1, 2; 2, 4] : Matrix (Fin 2) (Fin 2) ℝ) ![1, 0] ![3, 5] ![0, 1]
      !![1, -1/4; -1/4, 1/2] !![3, 0; 0, 1] 1) x ∧ E *ᵥ ![1, 2] = ![1, 2] ∧ E ≠ 1 ∧
    (normalLaw x U).map (fun l => (!![1, 2; 2, 4] : Matrix (Fin 2) (Fin 2) ℝ) *ᵥ l + ![1, 0]) =
      (normalLaw ![3, 5] !![3, 0; 0, 1]).map fun q => ((!![1, 2; 2, 4] : Matrix (Fin 2) (Fin 2) ℝ) *ᵥ ![0, 1] + ![1, 0]) +
        E *ᵥ (q - ((!![1, 2; 2, 4] : Matrix (Fin 2) (Fin 2) ℝ) *ᵥ ![0, 1] + ![1, 0])) := by
  have hS : (!![1, -1/4; -1/4, 1/2] : Matrix (Fin 2) (Fin 2) ℝ).PosDef :=
    posDef_fin_two (by norm_num) (by norm_num)
  have hC : (!![3, 0; 0, 1] : Matrix (Fin 2) (Fin 2) ℝ).PosDef := posDef_fin_two (by norm_num) (by norm_num)
  obtain ⟨x, U, E, h1, -, ⟨-, -, hE⟩, h2⟩ := C128_projected !![1, 2; 2, 4] ![1, 0] ![3, 5] ![0, 1] _ hS.posSemidef _
    hC.posSemidef 1 one_pos
  refine ⟨x, U, E, h1, (hE _).2 ⟨![2, 0], ?_⟩, ?_, h2⟩
  · funext i; fin_cases i <;> norm_num [Matrix.mulVec, dotProduct, Fin.sum_univ_two]
  · rintro rfl
    obtain ⟨w, hw⟩ := (hE ![1, 0]).1 (one_mulVec _)
    have h0 := congrFun hw 0
    have h1 := congrFun hw 1
    simp [Matrix.mulVec, dotProduct, Fin.sum_univ_two] at h0 h1
    linarith

/-! ## C129: the updated density and its mode -/

/-- The updated density of the data-consistent inversion: initial density times the ratio of the observed
and the predicted density at the output, where the predicted density is that of the push-forward
`N(A m + b, A S Aᵀ)` of the initial distribution. -/
noncomputable def updatedPdf (A : Matrix (Fin d) (Fin p) ℝ) (b y : Fin d → ℝ) (m : Fin p → ℝ)
    (S : Matrix (Fin p) (Fin p) ℝ) (C : Matrix (Fin d) (Fin d) ℝ) (l : Fin p → ℝ) : ℝ :=
  normalPdf S (l - m) * (normalPdf C (A *ᵥ l + b - y) / normalPdf (A * S * Aᵀ) (A *ᵥ l + b - (A *ᵥ m + b)))

theorem normalPdf_lt {H : Matrix (Fin d) (Fin d) ℝ} (hH : H.PosDef) {z : Fin d → ℝ} (hz : z ≠ 0) :
    normalPdf H z < normalPdf H 0 := by
  unfold normalPdf
  refine div_lt_div_of_pos_right (Real.exp_lt_exp.2 ?_)
    (Real.sqrt_pos.2 (mul_pos (pow_pos (by positivity) _) hH.det_pos))
  have := quad_pos hH.inv hz
  rw [mulVec_zero, dotProduct_zero]
  linarith

theorem continuous_pdf_shift (H : Matrix (Fin d) (Fin d) ℝ) (a : Fin d → ℝ) :
    Continuous fun x : Fin d → ℝ => normalPdf H (x - a) :=
  (continuous_normalPdf H).comp (continuous_sub_right a)

theorem continuous_observe (A : Matrix (Fin d) (Fin p) ℝ) (b : Fin d → ℝ) :
    Continuous fun l : Fin p → ℝ => A *ᵥ l + b :=
  (LinearMap.continuous_of_finiteDimensional (Matrix.mulVecLin A)).add_const b

/-- **C129.** The updated density is the density of the normal distribution with the MUD point as mean and
the updated covariance; so the MUD point is its only mode. -/
theorem C129_mode (A : Matrix (Fin d) (Fin p) ℝ) (hA : FullRowRank A) (b y : Fin d → ℝ) (m : Fin p → ℝ)
    (S : Matrix (Fin p) (Fin p) ℝ) (hS : S.PosDef) (C : Matrix (Fin d) (Fin d) ℝ) (hC : C.PosDef)
    (α : ℝ) (hα : 0 < α) :
    ∃ (x : Fin p → ℝ) (U : Matrix (Fin p) (Fin p) ℝ), Returns (Api.solve "mud" A b y m S C α) x ∧
      funsUpdatedCov ⟨d, p, A⟩ (some ⟨p, p, S⟩) (some ⟨d, d, C⟩) = .ok ⟨p, p, U⟩ ∧ U.PosDef ∧
      (∀ l, updatedPdf A b y m S C l = normalPdf U (l - x)) ∧
      ∀ l, l ≠ x → updatedPdf A b y m S C l < updatedPdf A b y m S C x := by
  have hPd : (A * S * Aᵀ).PosDef := posDef_conj hS A hA.inj
  have hP := posDef_det_ne hPd
  obtain ⟨U', hU', -, hdet, hUe⟩ := C07_updated_cov_closed_form A S (posSemidef_transpose hS.posSemidef)
    (posDef_det_ne hS) C (posDef_det_ne hC) hP (LGP.typed A b y m S C 1)
  have hUF : funsUpdatedCov ⟨d, p, A⟩ (some ⟨p, p, S⟩) (some ⟨d, d, C⟩) = .ok ⟨p, p, upF A S C⟩ := by
    simp [funsUpdatedCov, updatedCovBody_typed]
  have hUU : U' = upF A S C := by simpa using hU'.symm.trans hUF
  have hU : (upF A S C).PosDef := by
    refine posSemidef_posDef (upd_posSemidef hS.posSemidef hC.posSemidef) ?_
    have h1 := nonsing_inv_mul _ (isUnit_iff_ne_zero.2 hdet)
    rw [← hUe, hUU] at h1
    have h2 := congrArg Matrix.det h1
    rw [det_mul, det_one] at h2
    exact left_ne_zero_of_mul (h2 ▸ one_ne_zero)
  have hdens : ∀ l, updatedPdf A b y m S C l = normalPdf (upF A S C) (l - mudF A (y - b - A *ᵥ m) m S) := by
    set c := A *ᵥ m + b with hc
    set g : (Fin d → ℝ) → ℝ := fun q => normalPdf C (q - y) / normalPdf (A * S * Aᵀ) (q - c) with hg
    have hgc : Continuous g := (continuous_pdf_shift C y).div (continuous_pdf_shift _ c)
      fun q => (normalPdf_pos hPd _).ne'
    have hg0 : ∀ q, 0 ≤ g q := fun q => div_nonneg (normalPdf_pos hC _).le (normalPdf_pos hPd _).le
    have hob : ((normalLaw m S).map fun l => A *ᵥ l + b).withDensity (fun q => ENNReal.ofReal (g q)) =
        normalLaw y C := by
      rw [normalLaw_map m hS.posSemidef, normalLaw_eq_pdfLaw _ hPd, normalLaw_eq_pdfLaw _ hC, pdfLaw, pdfLaw,
        ← withDensity_mul _ (continuous_pdf_shift _ c).measurable.ennreal_ofReal hgc.measurable.ennreal_ofReal]
      congr 1
      funext q
      rw [Pi.mul_apply, ← ENNReal.ofReal_mul (normalPdf_pos hPd _).le]
      congr 1
      exact mul_div_cancel₀ _ (normalPdf_pos hPd _).ne'
    have hgm : Measurable fun l : Fin p → ℝ => ENNReal.ofReal (g (A *ᵥ l + b)) :=
      (hgc.measurable.comp (measurable_observe A b)).ennreal_ofReal
    have h1 := reweight (measurable_observe A b) (measurable_genMap A b S) (genMap_observe A b hP)
      (predicted_law A b m hS.posSemidef) hgc.measurable.ennreal_ofReal hob
    rw [genMap_law A b y m hS.posSemidef hC.posSemidef, normalLaw_eq_pdfLaw _ hS, normalLaw_eq_pdfLaw _ hU, pdfLaw,
      pdfLaw, ← withDensity_mul _ (continuous_pdf_shift _ m).measurable.ennreal_ofReal
        hgm,
      withDensity_eq_iff_of_sigmaFinite
        ((continuous_pdf_shift _ m).measurable.ennreal_ofReal.mul hgm).aemeasurable
        (continuous_pdf_shift _ _).measurable.ennreal_ofReal.aemeasurable] at h1
    have h2 : (fun l => updatedPdf A b y m S C l) =ᵐ[volume] fun l =>
        normalPdf (upF A S C) (l - mudF A (y - b - A *ᵥ m) m S) := by
      filter_upwards [h1] with l hl
      rw [Pi.mul_apply, ← ENNReal.ofReal_mul (normalPdf_pos hS _).le,
        ENNReal.ofReal_eq_ofReal_iff (mul_nonneg (normalPdf_pos hS _).le (hg0 _)) (normalPdf_pos hU _).le] at hl
      exact hl
    have hcu : Continuous fun l => updatedPdf A b y m S C l :=
      (continuous_pdf_shift S m).mul (hgc.comp (continuous_observe A b))
    have h3 := (hcu.ae_eq_iff_eq _ (continuous_pdf_shift _ _)).1 h2
    exact fun l => congrFun h3 l
  refine ⟨_, upF A S C, api_mud' A b y m S C α hα.ne', hUF, hU, hdens, fun l hl => ?_⟩
  rw [hdens, hdens, sub_self]
  exact normalPdf_lt hU (sub_ne_zero.2 hl)

/-! ## C130: the posterior -/

theorem map_square (A : Matrix (Fin d) (Fin p) ℝ) (b y : Fin d → ℝ) (m : Fin p → ℝ)
    {T : Matrix (Fin p) (Fin p) ℝ} (hT : T.PosDef) {C : Matrix (Fin d) (Fin d) ℝ} (hC : C.PosDef)
    (x' : Fin p → ℝ) {x : Fin p → ℝ}
    (hx : x = m + ((mapH A T C)⁻¹ * Aᵀ * C⁻¹) *ᵥ (y - b - A *ᵥ m)) :
    (x' - m) ⬝ᵥ (T⁻¹ *ᵥ (x' - m)) + (y - (A *ᵥ x' + b)) ⬝ᵥ (C⁻¹ *ᵥ (y - (A *ᵥ x' + b))) =
      ((x - m) ⬝ᵥ (T⁻¹ *ᵥ (x - m)) + (y - (A *ᵥ x + b)) ⬝ᵥ (C⁻¹ *ᵥ (y - (A *ᵥ x + b)))) +
        (x' - x) ⬝ᵥ (((mapH A T C)⁻¹)⁻¹ *ᵥ (x' - x)) := by
  set z := y - b - A *ᵥ m with hz
  have hH : (mapH A T C).PosDef := map_posDef hT hC
  rw [nonsing_inv_nonsing_inv _ (posDef_isUnit_det hH)]
  set H := mapH A T C with hHd
  have hCt := inv_symm (posSemidef_transpose hC.posSemidef)
  have hTt := inv_symm (posSemidef_transpose hT.posSemidef)
  have hgrad : Aᵀ *ᵥ (C⁻¹ *ᵥ (y - (A *ᵥ x + b))) = T⁻¹ *ᵥ (x - m) := by
    have h1 : y - (A *ᵥ x + b) = z - A *ᵥ (x - m) := by rw [hz, mulVec_sub]; abel
    have h2 : H *ᵥ (x - m) = (Aᵀ * C⁻¹) *ᵥ z := by
      rw [hx, add_sub_cancel_left, mulVec_mulVec, Matrix.mul_assoc H⁻¹, ← Matrix.mul_assoc H,
        mul_nonsing_inv _ (posDef_isUnit_det hH), Matrix.one_mul]
    have h3 : H *ᵥ (x - m) = Aᵀ *ᵥ (C⁻¹ *ᵥ (A *ᵥ (x - m))) + T⁻¹ *ᵥ (x - m) := by
      rw [hHd, mapH, add_mulVec, ← mulVec_mulVec, ← mulVec_mulVec]
    rw [h1, mulVec_sub, mulVec_sub, mulVec_mulVec (v := z), ← h2, h3]; abel
  set v := x' - x with hv
  have f1 : x' - m = v + (x - m) := by rw [hv]; abel
  have f2 : y - (A *ᵥ x' + b) = -(A *ᵥ v) + (y - (A *ᵥ x + b)) := by rw [hv, mulVec_sub]; abel
  have e3 : -(A *ᵥ v) ⬝ᵥ (C⁻¹ *ᵥ (y - (A *ᵥ x + b))) + v ⬝ᵥ (T⁻¹ *ᵥ (x - m)) = 0 := by
    rw [neg_dotProduct, dotProduct_comm (A *ᵥ v), dot_mulVec_transpose, dotProduct_comm _ v, hgrad]; ring
  have e4 : v ⬝ᵥ (H *ᵥ v) = (A *ᵥ v) ⬝ᵥ (C⁻¹ *ᵥ (A *ᵥ v)) + v ⬝ᵥ (T⁻¹ *ᵥ v) := by
    rw [hHd, mapH, add_mulVec, dotProduct_add, ← mulVec_mulVec, ← mulVec_mulVec,
      dotProduct_comm v (Aᵀ *ᵥ _), ← dot_mulVec_transpose, dotProduct_comm]
  rw [f1, f2, quad_add hTt, quad_add hCt, e4, mulVec_neg, neg_dotProduct_neg]
  linarith

/-- **C130.** The MAP point and its covariance are the mean and the covariance of the posterior: by Bayes'
theorem, prior `N(m, α S)` and data `y = A λ + b + ε` with `ε ~ N(0, C)`. -/
theorem C130_posterior (A : Matrix (Fin d) (Fin p) ℝ) (b y : Fin d → ℝ) (m : Fin p → ℝ)
    (S : Matrix (Fin p) (Fin p) ℝ) (hS : S.PosDef) (C : Matrix (Fin d) (Fin d) ℝ) (hC : C.PosDef)
    (α : ℝ) (hα : 0 < α) :
    ∃ (x : Fin p → ℝ) (V : Matrix (Fin p) (Fin p) ℝ) (Z : ℝ),
      mapSolWithCov (.mat ⟨d, p, A⟩) (some (.vec d b)) (some (.vec d y)) (some (.vec p m))
        (some ⟨p, p, S⟩) (some ⟨d, d, C⟩) α = .ok (.vec p x, ⟨p, p, V⟩) ∧
      Returns (Api.solve "map" A b y m S C α) x ∧ V.PosDef ∧
      (0 < Z ∧ Z = ∫ l, normalPdf (α • S) (l - m) * normalPdf C (y - (A *ᵥ l + b))) ∧
      (∀ l, normalPdf (α • S) (l - m) * normalPdf C (y - (A *ᵥ l + b)) / Z = normalPdf V (l - x)) ∧
      normalLaw x V = (normalLaw m (α • S)).withDensity
        fun l => ENNReal.ofReal (normalPdf C (y - (A *ᵥ l + b)) / Z) := by
  have hT : (α • S).PosDef := hS.smul hα
  have hH : (mapH A (α • S) C).PosDef := map_posDef hT hC
  obtain ⟨x, V, h1, -, h3, ⟨P, Q, r, g1, g2, g3⟩, h5, h6, -⟩ := C09_map_cov A b y m S hS C hC α hα
  have hret := api_map A b y m S C α (posDef_det_ne hC) (posDef_det_ne hT) (posDef_det_ne hH)
  have hx : x = m + ((mapH A (α • S) C)⁻¹ * Aᵀ * C⁻¹) *ᵥ (y - b - A *ᵥ m) := by
    have := h3.symm.trans hret
    simpa [Arr2.col, funext_iff] using this
  have hV : V = (mapH A (α • S) C)⁻¹ := by
    rw [h6, mapH, map_woodbury hT hC]; simp only [Matrix.mul_assoc]
  set k := Real.exp (-((x - m) ⬝ᵥ ((α • S)⁻¹ *ᵥ (x - m)) + (y - (A *ᵥ x + b)) ⬝ᵥ (C⁻¹ *ᵥ (y - (A *ᵥ x + b)))) / 2) /
    Real.sqrt ((2 * Real.pi) ^ p * (α • S).det) / Real.sqrt ((2 * Real.pi) ^ d * C.det) *
      Real.sqrt ((2 * Real.pi) ^ p * V.det) with hk
  have pT : 0 < Real.sqrt ((2 * Real.pi) ^ p * (α • S).det) :=
    Real.sqrt_pos.2 (mul_pos (pow_pos (by positivity) _) hT.det_pos)
  have pC : 0 < Real.sqrt ((2 * Real.pi) ^ d * C.det) :=
    Real.sqrt_pos.2 (mul_pos (pow_pos (by positivity) _) hC.det_pos)
  have pV : 0 < Real.sqrt ((2 * Real.pi) ^ p * V.det) :=
    Real.sqrt_pos.2 (mul_pos (pow_pos (by positivity) _) h5.det_pos)
  have hk0 : 0 < k := mul_pos (div_pos (div_pos (Real.exp_pos _) pT) pC) pV
  have hprod : ∀ l, normalPdf (α • S) (l - m) * normalPdf C (y - (A *ᵥ l + b)) = k * normalPdf V (l - x) := by
    intro l
    have hsq := map_square A b y m hT hC l hx
    rw [← hV] at hsq
    have he : Real.exp (-((l - m) ⬝ᵥ (α • S)⁻¹ *ᵥ (l - m)) / 2) *
        Real.exp (-((y - (A *ᵥ l + b)) ⬝ᵥ C⁻¹ *ᵥ (y - (A *ᵥ l + b))) / 2) =
        Real.exp (-((x - m) ⬝ᵥ ((α • S)⁻¹ *ᵥ (x - m)) + (y - (A *ᵥ x + b)) ⬝ᵥ (C⁻¹ *ᵥ (y - (A *ᵥ x + b)))) / 2) *
          Real.exp (-((l - x) ⬝ᵥ V⁻¹ *ᵥ (l - x)) / 2) := by
      rw [← Real.exp_add, ← Real.exp_add]
      congr 1; linarith
    rw [normalPdf, normalPdf, normalPdf, div_mul_div_comm, he, hk]
    field_simp
  have hint : ∫ l, normalPdf V (l - x) = 1 := integral_normalPdf h5 x
  have hZ : ∫ l, normalPdf (α • S) (l - m) * normalPdf C (y - (A *ᵥ l + b)) = k := by
    simp only [hprod]
    rw [integral_const_mul, hint, mul_one]
  have hpost : ∀ l, normalPdf (α • S) (l - m) * normalPdf C (y - (A *ᵥ l + b)) / k = normalPdf V (l - x) := by
    intro l; rw [hprod, mul_div_cancel_left₀ _ hk0.ne']
  refine ⟨x, V, k, h1, h3, h5, ⟨hk0, hZ.symm⟩, hpost, ?_⟩
  have hcC : Continuous fun l : Fin p → ℝ => normalPdf C (y - (A *ᵥ l + b)) :=
    (continuous_normalPdf C).comp (continuous_const.sub (continuous_observe A b))
  rw [normalLaw_eq_pdfLaw x h5, normalLaw_eq_pdfLaw m hT, pdfLaw, pdfLaw,
    ← withDensity_mul _ (continuous_pdf_shift _ m).measurable.ennreal_ofReal
      (hcC.div_const k).measurable.ennreal_ofReal]
  congr 1
  funext l
  rw [Pi.mul_apply, ← ENNReal.ofReal_mul (normalPdf_pos hT _).le, ← hpost, mul_div_assoc]

/-- C129 and C130 on a problem with two parameters and one observation. -/
example : ∃ (x : Fin 2 → ℝ) (U : Matrix (Fin 2) (Fin 2) ℝ) (x' : Fin 2 → ℝ) (V : Matrix (Fin 2) (Fin 2) ℝ),
    Returns (Api.solve "mud" (!![1, 2] : Matrix (Fin 1) (Fin 2) ℝ) ![1] ![3] ![0, 1] !![1, -1/4; -1/4, 1/2]
      !![3] 2) x ∧ U.PosDef ∧
    Returns (Api.solve "map" (!![1, 2] : Matrix (Fin 1) (Fin 2) ℝ) ![1] ![3] ![0, 1] !![1, -1/4; -1/4, 1/2]
      !![3] 2) x' ∧ V.PosDef := by
  have hS : (!![1, -1/4; -1/4, 1/2] : Matrix (Fin 2) (Fin 2) ℝ).PosDef :=
    posDef_fin_two (by norm_num) (by norm_num)
  have hC : (!![3] : Matrix (Fin 1) (Fin 1) ℝ).PosDef := posDef_fin_one (by norm_num)
  have hA : FullRowRank (!![1, 2] : Matrix (Fin 1) (Fin 2) ℝ) := fun y =>
    ⟨![y 0, 0], by funext i; fin_cases i; simp⟩
  obtain ⟨x, U, h1, -, h2, -⟩ := C129_mode !![1, 2] hA ![1] ![3] ![0, 1] _ hS _ hC 2 two_pos
  obtain ⟨x', V, Z, -, h3, h4, -⟩ := C130_posterior !![1, 2] ![1] ![3] ![0, 1] _ hS _ hC 2 two_pos
  exact ⟨x, U, x', V, h1, h2, h3, h4⟩

end Verif
