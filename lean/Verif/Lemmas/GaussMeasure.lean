import Verif.Lemmas.Gauss
import Verif.Lemmas.MudMath
import Mathlib.Probability.Distributions.Gaussian.Multivariate

/-!
# Normal distributions on `Fin d → ℝ`: affine images, sums, densities

`normalLaw m S` is Mathlib's `multivariateGaussian` transported from Euclidean space to
`Fin d → ℝ`.
-/

open Matrix MeasureTheory ProbabilityTheory WithLp Complex

namespace Verif

variable {d p : ℕ}

/-- The normal distribution with mean `m` and covariance `S` on `Fin d → ℝ`. -/
noncomputable def normalLaw (m : Fin d → ℝ) (S : Matrix (Fin d) (Fin d) ℝ) : Measure (Fin d → ℝ) :=
  (multivariateGaussian (toLp 2 m) S).map (ofLp : EuclideanSpace ℝ (Fin d) → Fin d → ℝ)

theorem measurable_ofLp' : Measurable (ofLp : EuclideanSpace ℝ (Fin d) → Fin d → ℝ) := by fun_prop

theorem measurable_toLp' : Measurable (toLp 2 : (Fin d → ℝ) → EuclideanSpace ℝ (Fin d)) := by fun_prop

instance (m : Fin d → ℝ) (S : Matrix (Fin d) (Fin d) ℝ) : IsProbabilityMeasure (normalLaw m S) :=
  Measure.isProbabilityMeasure_map measurable_ofLp'.aemeasurable

/-- Characteristic function on `Fin d → ℝ`. -/
noncomputable def cf (μ : Measure (Fin d → ℝ)) (t : Fin d → ℝ) : ℂ :=
  ∫ x, cexp (((t ⬝ᵥ x : ℝ) : ℂ) * I) ∂μ

theorem charFun_map_toLp (μ : Measure (Fin d → ℝ)) (t : EuclideanSpace ℝ (Fin d)) :
    charFun (μ.map (toLp 2)) t = cf μ t.ofLp := by
  rw [charFun_apply, integral_map measurable_toLp'.aemeasurable (by fun_prop)]
  rfl

theorem ext_of_cf {μ ν : Measure (Fin d → ℝ)} [IsFiniteMeasure μ] [IsFiniteMeasure ν]
    (h : ∀ t, cf μ t = cf ν t) : μ = ν := by
  have h1 : μ.map (toLp 2 : (Fin d → ℝ) → EuclideanSpace ℝ (Fin d)) = ν.map (toLp 2) := by
    apply Measure.ext_of_charFun
    funext t
    rw [charFun_map_toLp, charFun_map_toLp, h]
  have h2 := congrArg (Measure.map (ofLp : EuclideanSpace ℝ (Fin d) → Fin d → ℝ)) h1
  rw [Measure.map_map measurable_ofLp' measurable_toLp', Measure.map_map measurable_ofLp' measurable_toLp']
    at h2
  have h3 : (ofLp : EuclideanSpace ℝ (Fin d) → Fin d → ℝ) ∘ (toLp 2) = id := rfl
  rwa [h3, Measure.map_id, Measure.map_id] at h2

theorem cf_normalLaw (m : Fin d → ℝ) {S : Matrix (Fin d) (Fin d) ℝ} (hS : S.PosSemidef) (t : Fin d → ℝ) :
    cf (normalLaw m S) t = cexp (((t ⬝ᵥ m : ℝ) : ℂ) * I - ((t ⬝ᵥ S *ᵥ t : ℝ) : ℂ) / 2) := by
  have h := charFun_multivariateGaussian (μ := toLp 2 m) hS (toLp 2 t)
  rw [charFun_apply] at h
  rw [cf, normalLaw, integral_map measurable_ofLp'.aemeasurable (by fun_prop)]
  refine Eq.trans ?_ (h.trans ?_)
  · rfl
  · congr 3
    simp [PiLp.inner_apply, dotProduct, mul_comm]

theorem measurable_mulVec (B : Matrix (Fin p) (Fin d) ℝ) : Measurable fun x : Fin d → ℝ => B *ᵥ x :=
  (LinearMap.continuous_of_finiteDimensional (Matrix.mulVecLin B)).measurable

/-- Affine images of independent vectors. -/
theorem cf_affine {k : ℕ} (μ : Measure (Fin d → ℝ)) (ν : Measure (Fin k → ℝ)) [SFinite μ] [SFinite ν]
    (B : Matrix (Fin p) (Fin d) ℝ) (B' : Matrix (Fin p) (Fin k) ℝ) (c t : Fin p → ℝ) :
    cf ((μ.prod ν).map fun q => B *ᵥ q.1 + B' *ᵥ q.2 + c) t =
      cf μ (Bᵀ *ᵥ t) * cf ν (B'ᵀ *ᵥ t) * cexp (((t ⬝ᵥ c : ℝ) : ℂ) * I) := by
  have hm : Measurable fun q : (Fin d → ℝ) × (Fin k → ℝ) => B *ᵥ q.1 + B' *ᵥ q.2 + c :=
    (((measurable_mulVec B).comp measurable_fst).add ((measurable_mulVec B').comp measurable_snd)).add_const c
  have hc : Continuous fun x : Fin p → ℝ => cexp (((t ⬝ᵥ x : ℝ) : ℂ) * I) := by
    simp only [dotProduct]; fun_prop
  rw [cf, integral_map hm.aemeasurable hc.aestronglyMeasurable]
  have e : ∀ q : (Fin d → ℝ) × (Fin k → ℝ), cexp (((t ⬝ᵥ (B *ᵥ q.1 + B' *ᵥ q.2 + c) : ℝ) : ℂ) * I) =
      cexp ((((Bᵀ *ᵥ t) ⬝ᵥ q.1 : ℝ) : ℂ) * I) * cexp ((((B'ᵀ *ᵥ t) ⬝ᵥ q.2 : ℝ) : ℂ) * I) *
        cexp (((t ⬝ᵥ c : ℝ) : ℂ) * I) := by
    intro q
    rw [← Complex.exp_add, ← Complex.exp_add, dotProduct_add, dotProduct_add, dotProduct_mulVec,
      dotProduct_mulVec, mulVec_transpose, mulVec_transpose]
    congr 1; push_cast; ring
  simp only [e]
  rw [integral_mul_const, integral_prod_mul (fun x => cexp ((((Bᵀ *ᵥ t) ⬝ᵥ x : ℝ) : ℂ) * I))
    (fun x => cexp ((((B'ᵀ *ᵥ t) ⬝ᵥ x : ℝ) : ℂ) * I))]
  rfl

theorem quad_conj (S : Matrix (Fin d) (Fin d) ℝ) (B : Matrix (Fin p) (Fin d) ℝ) (t : Fin p → ℝ) :
    (Bᵀ *ᵥ t) ⬝ᵥ S *ᵥ (Bᵀ *ᵥ t) = t ⬝ᵥ (B * S * Bᵀ) *ᵥ t := by
  rw [← mulVec_mulVec, ← mulVec_mulVec, dotProduct_mulVec t B, mulVec_transpose]

/-- An affine combination of independent normal vectors is normal. -/
theorem normalLaw_affine {k : ℕ} (m : Fin d → ℝ) {S : Matrix (Fin d) (Fin d) ℝ} (hS : S.PosSemidef)
    (m' : Fin k → ℝ) {S' : Matrix (Fin k) (Fin k) ℝ} (hS' : S'.PosSemidef)
    (B : Matrix (Fin p) (Fin d) ℝ) (B' : Matrix (Fin p) (Fin k) ℝ) (c : Fin p → ℝ) :
    ((normalLaw m S).prod (normalLaw m' S')).map (fun q => B *ᵥ q.1 + B' *ᵥ q.2 + c) =
      normalLaw (B *ᵥ m + B' *ᵥ m' + c) (B * S * Bᵀ + B' * S' * B'ᵀ) := by
  have : IsProbabilityMeasure (((normalLaw m S).prod (normalLaw m' S')).map
      fun q => B *ᵥ q.1 + B' *ᵥ q.2 + c) := by
    refine Measure.isProbabilityMeasure_map (Measurable.aemeasurable ?_)
    exact (((measurable_mulVec B).comp measurable_fst).add
      ((measurable_mulVec B').comp measurable_snd)).add_const c
  refine ext_of_cf fun t => ?_
  rw [cf_affine, cf_normalLaw _ hS, cf_normalLaw _ hS',
    cf_normalLaw _ ((posSemidef_conj hS B).add (posSemidef_conj hS' B')), ← Complex.exp_add,
    ← Complex.exp_add, quad_conj, quad_conj, Matrix.add_mulVec]
  congr 1
  simp only [dotProduct_add, dotProduct_mulVec t B, dotProduct_mulVec t B', mulVec_transpose]
  push_cast; ring

/-- An affine image of a normal vector is normal. -/
theorem normalLaw_map (m : Fin d → ℝ) {S : Matrix (Fin d) (Fin d) ℝ} (hS : S.PosSemidef)
    (B : Matrix (Fin p) (Fin d) ℝ) (c : Fin p → ℝ) :
    (normalLaw m S).map (fun x => B *ᵥ x + c) = normalLaw (B *ᵥ m + c) (B * S * Bᵀ) := by
  have h := normalLaw_affine m hS (0 : Fin d → ℝ) hS B (0 : Matrix (Fin p) (Fin d) ℝ) c
  simp only [zero_mulVec, mulVec_zero, add_zero, Matrix.zero_mul] at h
  rw [← h, show (fun q : (Fin d → ℝ) × (Fin d → ℝ) => B *ᵥ q.1 + c) = (fun x => B *ᵥ x + c) ∘ Prod.fst from rfl,
    ← Measure.map_map ((measurable_mulVec B).add_const c) measurable_fst, ← Measure.fst,
    Measure.fst_prod]

theorem continuous_normalPdf (H : Matrix (Fin d) (Fin d) ℝ) : Continuous fun x : Fin d → ℝ => normalPdf H x := by
  unfold normalPdf
  refine Continuous.div_const (Real.continuous_exp.comp ?_) _
  refine Continuous.div_const (Continuous.neg ?_) _
  simp only [dotProduct, mulVec]
  fun_prop

/-- The law with density `normalPdf S (x - m)`. -/
noncomputable def pdfLaw (m : Fin d → ℝ) (S : Matrix (Fin d) (Fin d) ℝ) : Measure (Fin d → ℝ) :=
  volume.withDensity fun x => ENNReal.ofReal (normalPdf S (x - m))

theorem pdfLaw_univ (m : Fin d → ℝ) {S : Matrix (Fin d) (Fin d) ℝ} (hS : S.PosDef) :
    pdfLaw m S Set.univ = 1 := by
  rw [pdfLaw, withDensity_apply _ MeasurableSet.univ, setLIntegral_univ]
  refine (ofReal_integral_eq_lintegral_ofReal (integrable_normalPdf hS m)
      (Filter.Eventually.of_forall fun x => (normalPdf_pos hS _).le)).symm.trans ?_
  rw [integral_normalPdf hS m]
  simp

theorem pdfLaw_prob (m : Fin d → ℝ) {S : Matrix (Fin d) (Fin d) ℝ} (hS : S.PosDef) :
    IsProbabilityMeasure (pdfLaw m S) := ⟨pdfLaw_univ m hS⟩

theorem integral_pdfLaw (m : Fin d → ℝ) {S : Matrix (Fin d) (Fin d) ℝ} (hS : S.PosDef)
    (f : (Fin d → ℝ) → ℂ) : ∫ x, f x ∂(pdfLaw m S) = ∫ x, (normalPdf S (x - m) : ℂ) * f x := by
  have hm : Measurable fun x : Fin d → ℝ => normalPdf S (x - m) :=
    ((continuous_normalPdf S).comp (continuous_sub_right m)).measurable
  rw [pdfLaw, integral_withDensity_eq_integral_toReal_smul hm.ennreal_ofReal
    (Filter.Eventually.of_forall fun x => ENNReal.ofReal_lt_top)]
  refine integral_congr_ae (Filter.Eventually.of_forall fun x => ?_)
  dsimp only
  rw [ENNReal.toReal_ofReal (normalPdf_pos hS _).le, Complex.real_smul]

theorem cf_pdfLaw_one (t : Fin d → ℝ) : cf (pdfLaw 0 (1 : Matrix (Fin d) (Fin d) ℝ)) t =
    cexp (-((t ⬝ᵥ t : ℝ) : ℂ) / 2) := by
  rw [cf, integral_pdfLaw 0 PosDef.one]
  have e : ∀ x : Fin d → ℝ, (normalPdf (1 : Matrix (Fin d) (Fin d) ℝ) (x - 0) : ℂ) *
      cexp (((t ⬝ᵥ x : ℝ) : ℂ) * I) =
      ∏ j, (gaussianPDFReal 0 1 (x j) : ℂ) * cexp ((t j : ℂ) * (x j : ℂ) * I) := by
    intro x
    rw [sub_zero, normalPdf_one, Finset.prod_mul_distrib, ← Complex.exp_sum]
    congr 1
    · push_cast
      refine Finset.prod_congr rfl fun j _ => ?_
      simp only [gaussianPDFReal]
      push_cast
      rw [div_eq_inv_mul]
      simp [neg_div]
      left; ring_nf
    · congr 1; simp only [dotProduct]; push_cast; rw [Finset.sum_mul]
  simp only [e]
  rw [integral_fintype_prod_volume_eq_prod (fun (j : Fin d) (x : ℝ) =>
    (gaussianPDFReal 0 1 x : ℂ) * cexp ((t j : ℂ) * (x : ℂ) * I))]
  have h : ∀ j, ∫ x : ℝ, (gaussianPDFReal 0 1 x : ℂ) * cexp ((t j : ℂ) * (x : ℂ) * I) =
      cexp (-((t j * t j : ℝ) : ℂ) / 2) := by
    intro j
    have := charFun_gaussianReal (μ := 0) (v := 1) (t j)
    rw [charFun_apply_real, integral_gaussianReal_eq_integral_smul one_ne_zero] at this
    simp only [Complex.real_smul] at this
    rw [this]
    congr 1; push_cast; ring
  simp only [h]
  rw [← Complex.exp_sum]
  congr 1
  simp only [dotProduct]
  push_cast
  rw [← Finset.sum_div, Finset.sum_neg_distrib]

theorem normalLaw_std : normalLaw 0 (1 : Matrix (Fin d) (Fin d) ℝ) = pdfLaw 0 1 := by
  have := pdfLaw_prob (0 : Fin d → ℝ) PosDef.one
  refine ext_of_cf fun t => ?_
  rw [cf_pdfLaw_one, cf_normalLaw _ PosSemidef.one]
  simp [neg_div]

/-- The normal distribution with positive definite covariance has the normal density. -/
theorem normalLaw_eq_pdfLaw (m : Fin d → ℝ) {S : Matrix (Fin d) (Fin d) ℝ} (hS : S.PosDef) :
    normalLaw m S = pdfLaw m S := by
  have := pdfLaw_prob m hS
  obtain ⟨B, hB, hBB⟩ := exists_root hS
  have h1 : normalLaw m S = (pdfLaw 0 (1 : Matrix (Fin d) (Fin d) ℝ)).map fun x => B *ᵥ x + m := by
    rw [← normalLaw_std, normalLaw_map 0 PosSemidef.one, mulVec_zero, zero_add, Matrix.mul_one, hBB]
  have hd : B.det ≠ 0 := hB.ne_zero
  refine ext_of_cf fun t => ?_
  rw [h1]
  have hc : Continuous fun x : Fin d → ℝ => cexp (((t ⬝ᵥ x : ℝ) : ℂ) * I) := by
    simp only [dotProduct]; fun_prop
  rw [cf, integral_map ((measurable_mulVec B).add_const m).aemeasurable hc.aestronglyMeasurable,
    integral_pdfLaw _ PosDef.one, cf, integral_pdfLaw _ hS]
  have hmap := Real.map_matrix_volume_pi_eq_smul_volume_pi hd
  set g : (Fin d → ℝ) → ℂ := fun x => (normalPdf S x : ℂ) * cexp (((t ⬝ᵥ (x + m) : ℝ) : ℂ) * I) with hg
  have hgc : Continuous g := by
    rw [hg]
    exact (Complex.continuous_ofReal.comp (continuous_normalPdf S)).mul (hc.comp (continuous_add_const m))
  have e1 : ∫ x : Fin d → ℝ, (normalPdf S (x - m) : ℂ) * cexp (((t ⬝ᵥ x : ℝ) : ℂ) * I) = ∫ x, g x := by
    rw [← integral_sub_right_eq_self (μ := volume) g m]
    simp only [hg, sub_add_cancel]
  have e2 : ∫ x, g x ∂(Measure.map (toLin' B) volume) = ∫ u, g (B *ᵥ u) := by
    rw [integral_map (LinearMap.continuous_of_finiteDimensional _).aemeasurable hgc.aestronglyMeasurable]
    rfl
  rw [hmap, integral_smul_measure, ENNReal.toReal_ofReal (abs_nonneg _)] at e2
  have e3 : ∀ u, g (B *ᵥ u) = ((|B.det⁻¹| : ℝ) : ℂ) * ((normalPdf 1 (u - 0) : ℂ) *
      cexp (((t ⬝ᵥ (B *ᵥ u + m) : ℝ) : ℂ) * I)) := by
    intro u
    have := normalPdf_map 1 B hB u
    rw [Matrix.mul_one, ← hBB] at this
    simp only [hg, this, sub_zero, abs_inv]
    push_cast; ring
  simp only [e3] at e2
  rw [integral_const_mul, Complex.real_smul] at e2
  have hne : ((|B.det⁻¹| : ℝ) : ℂ) ≠ 0 := by
    rw [Complex.ofReal_ne_zero]; exact abs_ne_zero.2 (inv_ne_zero hd)
  rw [e1, mul_left_cancel₀ hne e2]

/-- Normal distributions with positive definite covariances have the same null sets. -/
theorem normalLaw_ac (m m' : Fin d → ℝ) {S S' : Matrix (Fin d) (Fin d) ℝ} (hS : S.PosDef) (hS' : S'.PosDef) :
    normalLaw m S ≪ normalLaw m' S' := by
  rw [normalLaw_eq_pdfLaw m hS, normalLaw_eq_pdfLaw m' hS']
  refine (withDensity_absolutelyContinuous _ _).trans (withDensity_absolutelyContinuous' ?_ ?_)
  · exact (((continuous_normalPdf S').comp (continuous_sub_right m')).measurable.ennreal_ofReal).aemeasurable
  · exact Filter.Eventually.of_forall fun x => by
      simpa using normalPdf_pos hS' (x - m')

/-- Reweighting a law by a function of an observable reweights the law of the observable: if
`(x, z) ↦ Φ x z` generates `μ` from the observable `q` and an independent part, replacing the law of the
observable is the same as multiplying with the density. -/
theorem reweight {k : ℕ} {μ : Measure (Fin p → ℝ)} {pr ob : Measure (Fin d → ℝ)} {ν : Measure (Fin k → ℝ)}
    [SFinite pr] [SFinite ν] {Q : (Fin p → ℝ) → Fin d → ℝ} (hQ : Measurable Q)
    {Φ : (Fin d → ℝ) × (Fin k → ℝ) → Fin p → ℝ} (hΦ : Measurable Φ) (hQΦ : ∀ z, Q (Φ z) = z.1)
    (hμ : (pr.prod ν).map Φ = μ) {ρ : (Fin d → ℝ) → ENNReal} (hρ : Measurable ρ) (hob : pr.withDensity ρ = ob) :
    μ.withDensity (fun x => ρ (Q x)) = (ob.prod ν).map Φ := by
  rw [← hob, prod_withDensity_left hρ, ← hμ]
  ext s hs
  rw [withDensity_apply _ hs, setLIntegral_map (f := fun x => ρ (Q x)) hs (hρ.comp hQ) hΦ, Measure.map_apply hΦ hs,
    withDensity_apply _ (hΦ hs)]
  simp only [hQΦ]

end Verif
