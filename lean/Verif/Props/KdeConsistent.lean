import Verif.Props.RatioLimit
import Verif.Props.SampleMode
import Verif.Props.Kde
import Mathlib.MeasureTheory.Measure.LevyConvergence
import Mathlib.Topology.MetricSpace.Equicontinuity

/-!
# C143: the default predicted density estimates the distribution of the outputs

Samples drawn independently, the model evaluated on them, `set_predicted()` without a distribution: almost surely it
returns for all large numbers of samples, and the kernel density estimates it evaluates converge weakly to the
distribution of the outputs.
-/

open MeasureTheory ProbabilityTheory Filter Topology WithLp Complex

namespace Verif

variable {p q : ℕ} {Ω : Type} [MeasurableSpace Ω] {user : ℕ → ℝ → ℕ → ℝ}

/-! ## Weak convergence from characteristic functions -/

theorem weak_of_cf {μ : ℕ → Measure (Fin q → ℝ)} {ν : Measure (Fin q → ℝ)} [hν : IsProbabilityMeasure ν]
    (hμ : ∀ᶠ n in atTop, IsProbabilityMeasure (μ n))
    (h : ∀ t, Tendsto (fun n => cf (μ n) t) atTop (𝓝 (cf ν t)))
    {f : (Fin q → ℝ) → ℝ} (hf : Continuous f) {C : ℝ} (hC : ∀ y, |f y| ≤ C) :
    Tendsto (fun n => ∫ y, f y ∂(μ n)) atTop (𝓝 (∫ y, f y ∂ν)) := by
  classical
  set μ' : ℕ → Measure (Fin q → ℝ) := fun n => if IsProbabilityMeasure (μ n) then μ n else ν with hμ'
  have hp : ∀ n, IsProbabilityMeasure (μ' n) := by
    intro n
    simp only [hμ']
    split_ifs with h1
    · exact h1
    · exact hν
  have he : ∀ᶠ n in atTop, μ' n = μ n := by
    filter_upwards [hμ] with n hn
    simp only [hμ', if_pos hn]
  have hp2 : ∀ n, IsProbabilityMeasure ((μ' n).map (toLp 2 : (Fin q → ℝ) → EuclideanSpace ℝ (Fin q))) := fun n =>
    Measure.isProbabilityMeasure_map measurable_toLp'.aemeasurable
  have hν2 : IsProbabilityMeasure (ν.map (toLp 2 : (Fin q → ℝ) → EuclideanSpace ℝ (Fin q))) :=
    Measure.isProbabilityMeasure_map measurable_toLp'.aemeasurable
  have key := ProbabilityMeasure.tendsto_of_tendsto_charFun
    (μ := fun n => (⟨(μ' n).map (toLp 2), hp2 n⟩ : ProbabilityMeasure (EuclideanSpace ℝ (Fin q))))
    (μ₀ := ⟨ν.map (toLp 2), hν2⟩) (fun t => by
      simp only [ProbabilityMeasure.coe_mk, charFun_map_toLp]
      refine (h t.ofLp).congr' ?_
      filter_upwards [he] with n hn
      rw [hn])
  have hfc : Continuous fun y : EuclideanSpace ℝ (Fin q) => f (ofLp y) :=
    hf.comp (PiLp.continuous_ofLp 2 _)
  have k2 := ProbabilityMeasure.tendsto_iff_forall_integral_tendsto.1 key
    (BoundedContinuousFunction.ofNormedAddCommGroup (fun y : EuclideanSpace ℝ (Fin q) => f (ofLp y)) hfc C
      fun y => hC _)
  simp only [ProbabilityMeasure.coe_mk, BoundedContinuousFunction.coe_ofNormedAddCommGroup] at k2
  rw [integral_map measurable_toLp'.aemeasurable hfc.aestronglyMeasurable] at k2
  refine k2.congr' ?_
  filter_upwards [he] with n hn
  rw [integral_map measurable_toLp'.aemeasurable hfc.aestronglyMeasurable, hn]

/-! ## Characteristic function of a mixture -/

/-- The mixture of normal densities with covariance `H` centred at the rows of `y`. -/
noncomputable def mixture {n : ℕ} (y : Fin n → Fin q → ℝ) (w : Fin n → ℝ) (H : Matrix (Fin q) (Fin q) ℝ)
    (x : Fin q → ℝ) : ℝ := (∑ i, w i * normalPdf H (x - y i)) / ∑ i, w i

theorem continuous_shift (H : Matrix (Fin q) (Fin q) ℝ) (a : Fin q → ℝ) :
    Continuous fun x : Fin q → ℝ => normalPdf H (x - a) :=
  (continuous_normalPdf H).comp (continuous_sub_right a)

theorem continuous_mixture {n : ℕ} (y : Fin n → Fin q → ℝ) (w : Fin n → ℝ) (H : Matrix (Fin q) (Fin q) ℝ) :
    Continuous (mixture y w H) := by
  unfold mixture
  refine Continuous.div_const (continuous_finsetSum _ fun i _ => continuous_const.mul (continuous_shift H _)) _

theorem mixture_nonneg {n : ℕ} (y : Fin n → Fin q → ℝ) {w : Fin n → ℝ} {H : Matrix (Fin q) (Fin q) ℝ}
    (hH : H.PosDef) (hw : ∀ i, 0 ≤ w i) (x : Fin q → ℝ) : 0 ≤ mixture y w H x :=
  div_nonneg (Finset.sum_nonneg fun i _ => mul_nonneg (hw i) (normalPdf_pos hH _).le)
    (Finset.sum_nonneg fun i _ => hw i)

theorem integrable_shift {H : Matrix (Fin q) (Fin q) ℝ} (hH : H.PosDef) (a : Fin q → ℝ) :
    Integrable fun x : Fin q → ℝ => normalPdf H (x - a) := integrable_normalPdf hH a

theorem integral_mixture {n : ℕ} (y : Fin n → Fin q → ℝ) (w : Fin n → ℝ) {H : Matrix (Fin q) (Fin q) ℝ}
    (hH : H.PosDef) (hw : ∑ i, w i ≠ 0) : ∫ x, mixture y w H x = 1 := by
  unfold mixture
  rw [integral_div, integral_finsetSum _ fun i _ => (integrable_shift hH (y i)).const_mul _]
  simp only [integral_const_mul]
  have : ∀ i, ∫ x : Fin q → ℝ, normalPdf H (x - y i) = 1 := fun i => integral_normalPdf hH (y i)
  simp only [this, mul_one, div_self hw]

theorem integrable_mixture {n : ℕ} (y : Fin n → Fin q → ℝ) (w : Fin n → ℝ) {H : Matrix (Fin q) (Fin q) ℝ}
    (hH : H.PosDef) : Integrable (mixture y w H) := by
  unfold mixture
  exact (integrable_finsetSum _ fun i _ => (integrable_shift hH (y i)).const_mul _).div_const _

/-- The distribution with the mixture as density. -/
noncomputable def mixtureLaw {n : ℕ} (y : Fin n → Fin q → ℝ) (w : Fin n → ℝ) (H : Matrix (Fin q) (Fin q) ℝ) :
    Measure (Fin q → ℝ) := volume.withDensity fun x => ENNReal.ofReal (mixture y w H x)

theorem mixtureLaw_prob {n : ℕ} (y : Fin n → Fin q → ℝ) {w : Fin n → ℝ} {H : Matrix (Fin q) (Fin q) ℝ}
    (hH : H.PosDef) (hw : ∀ i, 0 ≤ w i) (hs : ∑ i, w i ≠ 0) : IsProbabilityMeasure (mixtureLaw y w H) := by
  constructor
  rw [mixtureLaw, withDensity_apply _ MeasurableSet.univ, setLIntegral_univ,
    ← ofReal_integral_eq_lintegral_ofReal (integrable_mixture y w hH) (.of_forall (mixture_nonneg y hH hw)),
    integral_mixture y w hH hs, ENNReal.ofReal_one]

theorem integral_mixtureLaw {n : ℕ} (y : Fin n → Fin q → ℝ) {w : Fin n → ℝ} {H : Matrix (Fin q) (Fin q) ℝ}
    (hH : H.PosDef) (hw : ∀ i, 0 ≤ w i) {E : Type} [NormedAddCommGroup E] [NormedSpace ℝ E] (f : (Fin q → ℝ) → E) :
    ∫ x, f x ∂(mixtureLaw y w H) = ∫ x, mixture y w H x • f x := by
  rw [mixtureLaw, integral_withDensity_eq_integral_toReal_smul (continuous_mixture y w H).measurable.ennreal_ofReal
    (.of_forall fun x => ENNReal.ofReal_lt_top)]
  refine integral_congr_ae (.of_forall fun x => ?_)
  dsimp only
  rw [ENNReal.toReal_ofReal (mixture_nonneg y hH hw x)]

theorem cf_mixtureLaw {n : ℕ} (y : Fin n → Fin q → ℝ) {w : Fin n → ℝ} {H : Matrix (Fin q) (Fin q) ℝ}
    (hH : H.PosDef) (hw : ∀ i, 0 ≤ w i) (t : Fin q → ℝ) :
    cf (mixtureLaw y w H) t = (∑ i, (w i : ℂ) * cexp (((t ⬝ᵥ y i : ℝ) : ℂ) * I)) / ((∑ i, w i : ℝ) : ℂ) *
      cexp (-((t ⬝ᵥ H.mulVec t : ℝ) : ℂ) / 2) := by
  have hc : Continuous fun x : Fin q → ℝ => cexp (((t ⬝ᵥ x : ℝ) : ℂ) * I) := by
    simp only [dotProduct]; fun_prop
  have h1 : ∀ i, ∫ x, (normalPdf H (x - y i) : ℂ) * cexp (((t ⬝ᵥ x : ℝ) : ℂ) * I) =
      cexp (((t ⬝ᵥ y i : ℝ) : ℂ) * I - ((t ⬝ᵥ H.mulVec t : ℝ) : ℂ) / 2) := by
    intro i
    rw [← cf_normalLaw (y i) hH.posSemidef, normalLaw_eq_pdfLaw _ hH, cf, integral_pdfLaw _ hH]
  have hi : ∀ i, Integrable fun x => (normalPdf H (x - y i) : ℂ) * cexp (((t ⬝ᵥ x : ℝ) : ℂ) * I) := by
    intro i
    refine (integrable_shift hH (y i)).ofReal.mul_bdd (c := 1) hc.aestronglyMeasurable (.of_forall fun x => ?_)
    rw [norm_exp_ofReal_mul_I]
  rw [cf, integral_mixtureLaw y hH hw]
  have h2 : ∀ x, mixture y w H x • cexp (((t ⬝ᵥ x : ℝ) : ℂ) * I) = (((∑ i, w i : ℝ) : ℂ))⁻¹ *
      ∑ i, (w i : ℂ) * ((normalPdf H (x - y i) : ℂ) * cexp (((t ⬝ᵥ x : ℝ) : ℂ) * I)) := by
    intro x
    rw [Complex.real_smul, mixture, ofReal_div, div_eq_inv_mul, mul_assoc]
    congr 1
    rw [ofReal_sum, Finset.sum_mul]
    refine Finset.sum_congr rfl fun i _ => ?_
    push_cast
    ring
  simp only [h2]
  rw [integral_const_mul, integral_finsetSum _ fun i _ => (hi i).const_mul _]
  simp only [integral_const_mul, h1]
  conv_rhs => rw [div_eq_inv_mul, mul_assoc, Finset.sum_mul]
  congr 1
  refine Finset.sum_congr rfl fun i _ => ?_
  rw [sub_eq_add_neg, Complex.exp_add, mul_assoc, neg_div]

/-! ## Averages over independent samples -/

/-- The law of large numbers for functions of independent samples. -/
theorem sample_mean {P : Measure Ω} {x : ℕ → Ω → Fin p → ℝ} {τ : Measure (Fin p → ℝ)}
    (hi : iIndepFun x P) (hx : ∀ k, HasLaw (x k) τ P) {E : Type} [NormedAddCommGroup E] [NormedSpace ℝ E]
    [CompleteSpace E] [MeasurableSpace E] [BorelSpace E] {φ : (Fin p → ℝ) → E} (hφ : Measurable φ)
    (hint : Integrable φ τ) :
    ∀ᵐ ω ∂P, Tendsto (fun n : ℕ => (n : ℝ)⁻¹ • ∑ k ∈ Finset.range n, φ (x k ω)) atTop (𝓝 (∫ l, φ l ∂τ)) := by
  have hid : ∀ k, IdentDistrib (fun ω => φ (x k ω)) (fun ω => φ (x 0 ω)) P P := fun k =>
    (IdentDistrib.mk (hx k).aemeasurable (hx 0).aemeasurable ((hx k).map_eq.trans (hx 0).map_eq.symm)).comp hφ
  have hint' : Integrable φ (P.map (x 0)) := (hx 0).map_eq ▸ hint
  have hval : ∫ ω, φ (x 0 ω) ∂P = ∫ l, φ l ∂τ := by
    rw [← (hx 0).map_eq, integral_map (hx 0).aemeasurable hint'.aestronglyMeasurable]
  have := strong_law_ae (fun k ω => φ (x k ω)) (hint'.comp_aemeasurable (hx 0).aemeasurable)
    (fun i j hij => (hi.indepFun hij).comp hφ hφ) hid
  rwa [hval] at this

/-- The same with weights: samples from `τ`, averages with respect to `W τ`. -/
theorem weighted_mean {P : Measure Ω} {x : ℕ → Ω → Fin p → ℝ} {τ μ : Measure (Fin p → ℝ)}
    (hi : iIndepFun x P) (hx : ∀ k, HasLaw (x k) τ P) {w : (Fin p → ℝ) → ℝ} (hwm : Measurable w) (hw : ∀ l, 0 < w l)
    (hμ : μ = τ.withDensity fun l => ENNReal.ofReal (w l)) {E : Type} [NormedAddCommGroup E] [NormedSpace ℝ E]
    [CompleteSpace E] [MeasurableSpace E] [BorelSpace E] [SecondCountableTopology E] {φ : (Fin p → ℝ) → E} (hφ : Measurable φ)
    (hint : Integrable φ μ) :
    ∀ᵐ ω ∂P, Tendsto (fun n : ℕ => (n : ℝ)⁻¹ • ∑ k ∈ Finset.range n, w (x k ω) • φ (x k ω)) atTop
      (𝓝 (∫ l, φ l ∂μ)) := by
  have e : ∀ l, (ENNReal.ofReal (w l)).toReal = w l := fun l => ENNReal.toReal_ofReal (hw l).le
  have h1 : Integrable (fun l => w l • φ l) τ := by
    rw [hμ, integrable_withDensity_iff_integrable_smul' hwm.ennreal_ofReal
      (.of_forall fun l => ENNReal.ofReal_lt_top)] at hint
    simpa only [e] using hint
  have h2 : ∫ l, φ l ∂μ = ∫ l, w l • φ l ∂τ := by
    rw [hμ, integral_withDensity_eq_integral_toReal_smul hwm.ennreal_ofReal
      (.of_forall fun l => ENNReal.ofReal_lt_top)]
    simp only [e]
  rw [h2]
  exact sample_mean hi hx (hwm.smul hφ) h1

/-! ## One sequence of outputs and weights -/

/-- No weight dominates. -/
theorem sumsq_small {w : ℕ → ℝ} (hw : ∀ k, 0 < w k)
    (h : Tendsto (fun n : ℕ => (n : ℝ)⁻¹ * ∑ k ∈ Finset.range n, w k) atTop (𝓝 1)) :
    Tendsto (fun n : ℕ => (∑ k ∈ Finset.range n, w k ^ 2) / (∑ k ∈ Finset.range n, w k) ^ 2) atTop (𝓝 0) := by
  set S : ℕ → ℝ := fun n => ∑ k ∈ Finset.range n, w k with hS
  have hSpos : ∀ n, 0 < n → 0 < S n := fun n hn =>
    Finset.sum_pos (fun k _ => hw k) ⟨0, Finset.mem_range.2 hn⟩
  have h1 : Tendsto (fun n : ℕ => w n / ((n : ℝ) + 1)) atTop (𝓝 0) := by
    have a := (h.comp (tendsto_add_atTop_nat 1)).sub (h.mul (tendsto_natCast_div_add_atTop (1 : ℝ)))
    rw [mul_one, sub_self] at a
    refine a.congr' ?_
    filter_upwards [eventually_gt_atTop 0] with n hn
    have hn' : (n : ℝ) ≠ 0 := by exact_mod_cast hn.ne'
    have hn1 : (n : ℝ) + 1 ≠ 0 := by positivity
    simp only [Function.comp, Finset.sum_range_succ, Nat.cast_add, Nat.cast_one]
    field_simp
    ring
  rw [Metric.tendsto_atTop]
  intro ε hε
  obtain ⟨N, hN⟩ := (Metric.tendsto_atTop.1 h1) (ε / 4) (by positivity)
  have hb : ∀ n, ∀ k < n, w k ≤ S N + ε / 4 * n := by
    intro n k hk
    by_cases hkN : k < N
    · have : w k ≤ S N := Finset.single_le_sum (fun i _ => (hw i).le) (Finset.mem_range.2 hkN)
      have : 0 ≤ ε / 4 * n := by positivity
      linarith
    · have h2 := hN k (not_lt.1 hkN)
      rw [Real.dist_eq, sub_zero, abs_of_pos (div_pos (hw k) (by positivity)), div_lt_iff₀ (by positivity)] at h2
      have h3 : ((k : ℝ) + 1) ≤ n := by exact_mod_cast hk
      have h4 : 0 ≤ S N := Finset.sum_nonneg fun i _ => (hw i).le
      nlinarith
  have h5 : Tendsto (fun n : ℕ => (S N * (n : ℝ)⁻¹ + ε / 4) / ((n : ℝ)⁻¹ * S n)) atTop (𝓝 (ε / 4)) := by
    have : Tendsto (fun n : ℕ => (n : ℝ)⁻¹) atTop (𝓝 0) := tendsto_inv_atTop_nhds_zero_nat
    have := ((this.const_mul (S N)).add_const (ε / 4)).div h one_ne_zero
    rwa [mul_zero, zero_add, div_one] at this
  have h6 : ∀ᶠ n : ℕ in atTop, (S N * (n : ℝ)⁻¹ + ε / 4) / ((n : ℝ)⁻¹ * S n) < ε :=
    (tendsto_order.1 h5).2 ε (by linarith)
  obtain ⟨M, hM⟩ := eventually_atTop.1 (h6.and (eventually_gt_atTop 0))
  refine ⟨M, fun n hn => ?_⟩
  obtain ⟨h7, h8⟩ := hM n hn
  have hn' : (0 : ℝ) < n := by exact_mod_cast h8
  rw [Real.dist_eq, sub_zero, abs_of_nonneg (by positivity)]
  refine lt_of_le_of_lt ?_ h7
  have h9 : ∑ k ∈ Finset.range n, w k ^ 2 ≤ (S N + ε / 4 * n) * S n := by
    rw [hS, Finset.mul_sum]
    refine Finset.sum_le_sum fun k hk => ?_
    rw [sq]
    exact mul_le_mul_of_nonneg_right (hb n k (Finset.mem_range.1 hk)) (hw k).le
  have e : (S N * (n : ℝ)⁻¹ + ε / 4) / ((n : ℝ)⁻¹ * S n) = ((S N + ε / 4 * n) * S n) / (S n) ^ 2 := by
    have := (hSpos n h8).ne'
    field_simp
  rw [e]
  gcongr

theorem bandwidth_tendsto (bw d : ℕ) {ι : Type} {l : Filter ι} {m : ι → ℝ} (hm : Tendsto m l atTop) :
    Tendsto (fun i => bandwidth bw (m i) d) l (𝓝 0) := by
  have h : Tendsto (fun x : ℝ => x ^ (-1 / (d + 4 : ℝ))) atTop (𝓝 0) := by
    rw [show (-1 / (d + 4 : ℝ)) = -(1 / (d + 4 : ℝ)) by ring]
    exact tendsto_rpow_neg_atTop (by positivity)
  unfold bandwidth
  split_ifs
  · exact h.comp hm
  · refine h.comp ((hm.atTop_mul_const (r := ((d : ℝ) + 2) / 4) (by positivity)).congr fun i => by ring)

theorem bandwidth_pos (bw d : ℕ) {m : ℝ} (hm : 0 < m) : 0 < bandwidth bw m d := by
  unfold bandwidth
  split_ifs
  · exact Real.rpow_pos_of_pos hm _
  · exact Real.rpow_pos_of_pos (by positivity) _

theorem wMean_apply {n : ℕ} (y : Fin n → Fin q → ℝ) (w : Fin n → ℝ) (j : Fin q) :
    wMean y w j = (∑ i, w i * y i j) / ∑ i, w i := by
  unfold wMean
  rw [Pi.smul_apply, Finset.sum_apply, smul_eq_mul, div_eq_inv_mul]
  simp only [Pi.smul_apply, smul_eq_mul]

theorem wCov_apply {n : ℕ} (y : Fin n → Fin q → ℝ) (w : Fin n → ℝ) (hS : ∑ i, w i ≠ 0) (j l : Fin q) :
    wCov y w j l = (1 / (1 - (∑ i, w i ^ 2) / (∑ i, w i) ^ 2)) *
      ((∑ i, w i * (y i j * y i l)) / (∑ i, w i) -
        (∑ i, w i * y i j) / (∑ i, w i) * ((∑ i, w i * y i l) / ∑ i, w i)) := by
  unfold wCov
  rw [Matrix.smul_apply, Matrix.sum_apply, smul_eq_mul]
  simp only [Matrix.smul_apply, Matrix.vecMulVec_apply, Pi.sub_apply, smul_eq_mul, wMean_apply]
  set S := ∑ i, w i
  have e : ∑ i, w i * ((y i j - (∑ i, w i * y i j) / S) * (y i l - (∑ i, w i * y i l) / S)) =
      S * ((∑ i, w i * (y i j * y i l)) / S - (∑ i, w i * y i j) / S * ((∑ i, w i * y i l) / S)) := by
    set a := (∑ i, w i * y i j) / S with ha
    set b := (∑ i, w i * y i l) / S with hb
    have ha' : ∑ i, w i * y i j = a * S := (div_mul_cancel₀ _ hS).symm
    have hb' : ∑ i, w i * y i l = b * S := (div_mul_cancel₀ _ hS).symm
    have : ∀ i, w i * ((y i j - a) * (y i l - b)) =
        w i * (y i j * y i l) - b * (w i * y i j) - a * (w i * y i l) + a * b * w i := fun i => by ring
    simp only [this, Finset.sum_add_distrib, Finset.sum_sub_distrib, ← Finset.mul_sum, ha', hb']
    change _ - _ - _ + a * b * S = _
    field_simp
    ring
  rw [e, ← mul_assoc]
  congr 1
  have e2 : 1 - (∑ i, w i ^ 2) / S ^ 2 = (S ^ 2 - ∑ i, w i ^ 2) / S ^ 2 := by
    field_simp
  rw [e2, one_div_div]
  ring

theorem wCov_posSemidef {n : ℕ} (y : Fin n → Fin q → ℝ) {w : Fin n → ℝ} (hw : ∀ i, 0 ≤ w i) :
    (wCov y w).PosSemidef := by
  unfold wCov
  refine Matrix.PosSemidef.smul (Matrix.posSemidef_sum _ fun i _ => Matrix.PosSemidef.smul ?_ (hw i)) ?_
  · exact Matrix.posSemidef_vecMulVec_self_star _
  · refine div_nonneg (Finset.sum_nonneg fun i _ => hw i) (sub_nonneg.2 ?_)
    rw [sq, Finset.sum_mul]
    refine Finset.sum_le_sum fun i _ => ?_
    rw [sq]
    exact mul_le_mul_of_nonneg_left (Finset.single_le_sum (fun j _ => hw j) (Finset.mem_univ i)) (hw i)

/-- The averages of the weights times functions of the outputs that the kernel density estimate depends on converge to
the expectations under `ν`. -/
structure Averages (y : ℕ → Fin q → ℝ) (w : ℕ → ℝ) (ν : Measure (Fin q → ℝ)) : Prop where
  pos : ∀ k, 0 < w k
  one : Tendsto (fun n : ℕ => (n : ℝ)⁻¹ * ∑ k ∈ Finset.range n, w k) atTop (𝓝 1)
  first : ∀ j, Tendsto (fun n : ℕ => (n : ℝ)⁻¹ * ∑ k ∈ Finset.range n, w k * y k j) atTop (𝓝 (∫ z, z j ∂ν))
  second : ∀ j l, Tendsto (fun n : ℕ => (n : ℝ)⁻¹ * ∑ k ∈ Finset.range n, w k * (y k j * y k l)) atTop
    (𝓝 (∫ z, z j * z l ∂ν))
  norm : ∃ B, Tendsto (fun n : ℕ => (n : ℝ)⁻¹ * ∑ k ∈ Finset.range n, w k * ∑ j, |y k j|) atTop (𝓝 B)
  cf : ∀ i, Tendsto (fun n : ℕ => (n : ℝ)⁻¹ • ∑ k ∈ Finset.range n,
    w k • cexp (((TopologicalSpace.denseSeq (Fin q → ℝ) i ⬝ᵥ y k : ℝ) : ℂ) * I)) atTop
      (𝓝 (Verif.cf ν (TopologicalSpace.denseSeq (Fin q → ℝ) i)))

section Path
variable {y : ℕ → Fin q → ℝ} {w : ℕ → ℝ} {ν : Measure (Fin q → ℝ)}

/-- Covariance matrix of a distribution. -/
noncomputable def lawCov (ν : Measure (Fin q → ℝ)) : Matrix (Fin q) (Fin q) ℝ :=
  .of fun j l => (∫ z, z j * z l ∂ν) - (∫ z, z j ∂ν) * ∫ z, z l ∂ν

theorem continuous_cf [IsFiniteMeasure ν] : Continuous (cf ν) := by
  have h : cf ν = fun t => charFun (ν.map (toLp 2)) (toLp 2 t) := by
    funext t
    rw [charFun_map_toLp]
  rw [h]
  have : IsFiniteMeasure (ν.map (toLp 2 : (Fin q → ℝ) → EuclideanSpace ℝ (Fin q))) := inferInstance
  exact continuous_charFun.comp (PiLp.continuous_toLp 2 _)

theorem Averages.cf_all [IsFiniteMeasure ν] (h : Averages y w ν) (t : Fin q → ℝ) :
    Tendsto (fun n : ℕ => (n : ℝ)⁻¹ • ∑ k ∈ Finset.range n, w k • cexp (((t ⬝ᵥ y k : ℝ) : ℂ) * I)) atTop
      (𝓝 (Verif.cf ν t)) := by
  obtain ⟨B, hB⟩ := h.norm
  obtain ⟨K, hK⟩ := hB.bddAbove_range
  have hK' : ∀ n : ℕ, (n : ℝ)⁻¹ * ∑ k ∈ Finset.range n, w k * ∑ j, |y k j| ≤ K := fun n => hK ⟨n, rfl⟩
  have heq : EquicontinuousAt (fun (n : ℕ) (t : Fin q → ℝ) =>
      (n : ℝ)⁻¹ • ∑ k ∈ Finset.range n, w k • cexp (((t ⬝ᵥ y k : ℝ) : ℂ) * I)) t := by
    refine Metric.equicontinuousAt_of_continuity_modulus (fun s => K * ‖t - s‖) ?_ _ (.of_forall fun s n => ?_)
    · have : Tendsto (fun s => K * ‖t - s‖) (𝓝 t) (𝓝 (K * ‖t - t‖)) := by
        apply Continuous.tendsto
        fun_prop
      simpa using this
    · rw [dist_eq_norm, ← smul_sub, ← Finset.sum_sub_distrib, norm_smul, Real.norm_eq_abs, abs_of_nonneg (by positivity)]
      calc (n : ℝ)⁻¹ * ‖∑ k ∈ Finset.range n, (w k • cexp (((t ⬝ᵥ y k : ℝ) : ℂ) * I) -
            w k • cexp (((s ⬝ᵥ y k : ℝ) : ℂ) * I))‖
          ≤ (n : ℝ)⁻¹ * ∑ k ∈ Finset.range n, (w k * ∑ j, |y k j|) * ‖t - s‖ := by
            refine mul_le_mul_of_nonneg_left ((norm_sum_le _ _).trans (Finset.sum_le_sum fun k _ => ?_)) (by positivity)
            rw [← smul_sub, norm_smul, Real.norm_eq_abs, abs_of_pos (h.pos k), mul_assoc]
            refine mul_le_mul_of_nonneg_left ?_ (h.pos k).le
            have e1 : cexp (((t ⬝ᵥ y k : ℝ) : ℂ) * I) - cexp (((s ⬝ᵥ y k : ℝ) : ℂ) * I) =
                cexp (((s ⬝ᵥ y k : ℝ) : ℂ) * I) * (cexp (I * (((t - s) ⬝ᵥ y k : ℝ) : ℂ)) - 1) := by
              rw [mul_sub, ← Complex.exp_add, mul_one, sub_dotProduct]
              congr 2
              push_cast
              ring
            rw [e1, norm_mul, norm_exp_ofReal_mul_I, one_mul]
            refine (Real.norm_exp_I_mul_ofReal_sub_one_le).trans ?_
            rw [Real.norm_eq_abs, dotProduct, Finset.sum_mul]
            refine (Finset.abs_sum_le_sum_abs _ _).trans (Finset.sum_le_sum fun j _ => ?_)
            rw [abs_mul, mul_comm]
            exact mul_le_mul_of_nonneg_left (norm_le_pi_norm (t - s) j) (abs_nonneg _)
        _ ≤ K * ‖t - s‖ := by
            rw [← Finset.sum_mul, ← mul_assoc]
            exact mul_le_mul_of_nonneg_right (hK' n) (norm_nonneg _)
  refine heq.tendsto_of_mem_closure (s := Set.range (TopologicalSpace.denseSeq (Fin q → ℝ))) (f := Verif.cf ν)
    (continuous_cf.continuousAt.mono_left inf_le_left) ?_ (TopologicalSpace.denseRange_denseSeq _ t)
  rintro _ ⟨i, rfl⟩
  exact h.cf i

/-- Averages normalised by the sum of the weights. -/
theorem Averages.normalised (h : Averages y w ν) {φ : ℕ → ℝ} {c : ℝ}
    (hφ : Tendsto (fun n : ℕ => (n : ℝ)⁻¹ * ∑ k ∈ Finset.range n, w k * φ k) atTop (𝓝 c)) :
    Tendsto (fun n : ℕ => (∑ k : Fin n, w k * φ k) / ∑ k : Fin n, w k) atTop (𝓝 c) := by
  have := hφ.div h.one one_ne_zero
  rw [div_one] at this
  refine this.congr' ?_
  filter_upwards [eventually_gt_atTop 0] with n hn
  have hn' : (n : ℝ) ≠ 0 := by exact_mod_cast hn.ne'
  rw [Pi.div_apply, mul_div_mul_left _ _ (inv_ne_zero hn'), Finset.sum_range, Finset.sum_range]

theorem Averages.sum_pos (h : Averages y w ν) {n : ℕ} (hn : 0 < n) : 0 < ∑ k : Fin n, w k :=
  Finset.sum_pos (fun k _ => h.pos k) ⟨⟨0, hn⟩, Finset.mem_univ _⟩

theorem Averages.sumsq (h : Averages y w ν) :
    Tendsto (fun n : ℕ => (∑ k : Fin n, w k ^ 2) / (∑ k : Fin n, w k) ^ 2) atTop (𝓝 0) := by
  refine (sumsq_small h.pos h.one).congr fun n => ?_
  rw [Finset.sum_range, Finset.sum_range]

theorem Averages.effSize (h : Averages y w ν) :
    Tendsto (fun n : ℕ => Verif.effSize fun k : Fin n => w k) atTop atTop := by
  have h1 : Tendsto (fun n : ℕ => (∑ k : Fin n, w k ^ 2) / (∑ k : Fin n, w k) ^ 2) atTop (𝓝[>] 0) := by
    refine tendsto_nhdsWithin_iff.2 ⟨h.sumsq, ?_⟩
    filter_upwards [eventually_gt_atTop 0] with n hn
    exact div_pos (Finset.sum_pos (fun (k : Fin n) _ => pow_pos (h.pos k) 2) ⟨⟨0, hn⟩, Finset.mem_univ _⟩)
      (pow_pos (h.sum_pos hn) 2)
  refine h1.inv_tendsto_nhdsGT_zero.congr fun n => ?_
  rw [Pi.inv_apply, inv_div]
  rfl

theorem Averages.wCov (h : Averages y w ν) :
    Tendsto (fun n : ℕ => Verif.wCov (fun k : Fin n => y k) fun k : Fin n => w k) atTop (𝓝 (lawCov ν)) := by
  refine tendsto_pi_nhds.2 fun j => tendsto_pi_nhds.2 fun l => ?_
  have h1 : Tendsto (fun n : ℕ => 1 / (1 - (∑ k : Fin n, w k ^ 2) / (∑ k : Fin n, w k) ^ 2)) atTop (𝓝 1) := by
    have := (tendsto_const_nhds (x := (1 : ℝ))).div ((tendsto_const_nhds (x := (1 : ℝ))).sub h.sumsq)
      (by norm_num)
    rw [sub_zero, div_one] at this
    exact this
  have h2 := h1.mul ((h.normalised (h.second j l)).sub ((h.normalised (h.first j)).mul (h.normalised (h.first l))))
  rw [one_mul] at h2
  refine h2.congr' ?_
  filter_upwards [eventually_gt_atTop 0] with n hn
  rw [wCov_apply _ _ (h.sum_pos hn).ne']

theorem Averages.posDef (h : Averages y w ν) (hν : (lawCov ν).det ≠ 0) :
    ∀ᶠ n : ℕ in atTop, (Verif.wCov (fun k : Fin n => y k) fun k : Fin n => w k).PosDef := by
  have : Tendsto (fun n : ℕ => (Verif.wCov (fun k : Fin n => y k) fun k : Fin n => w k).det) atTop
      (𝓝 (lawCov ν).det) := ((Continuous.matrix_det continuous_id).tendsto _).comp h.wCov
  filter_upwards [this.eventually_ne hν] with n hn
  exact posSemidef_posDef (wCov_posSemidef _ fun k => (h.pos k).le) hn

/-- The kernel density estimate of the first `n` outputs. -/
noncomputable def kernelEstimate (bw : ℕ) (y : ℕ → Fin q → ℝ) (w : ℕ → ℝ) (n : ℕ) : (Fin q → ℝ) → ℝ :=
  mixture (fun k : Fin n => y k) (fun k : Fin n => w k)
    (bandwidth bw (Verif.effSize fun k : Fin n => w k) q ^ 2 • Verif.wCov (fun k : Fin n => y k) fun k : Fin n => w k)

theorem Averages.weak [IsProbabilityMeasure ν] (h : Averages y w ν) (hν : (lawCov ν).det ≠ 0) (bw : ℕ)
    {f : (Fin q → ℝ) → ℝ} (hf : Continuous f) {C : ℝ} (hC : ∀ y, |f y| ≤ C) :
    Tendsto (fun n => ∫ z, f z * kernelEstimate bw y w n z) atTop (𝓝 (∫ z, f z ∂ν)) := by
  have hb := bandwidth_tendsto bw q h.effSize
  have hH : ∀ᶠ n : ℕ in atTop, 0 < n ∧ (bandwidth bw (Verif.effSize fun k : Fin n => w k) q ^ 2 •
      Verif.wCov (fun k : Fin n => y k) fun k : Fin n => w k).PosDef := by
    filter_upwards [h.posDef hν, h.effSize.eventually_gt_atTop 0, eventually_gt_atTop 0] with n h1 h2 h3
    exact ⟨h3, h1.smul (pow_pos (bandwidth_pos bw q h2) 2)⟩
  have key := weak_of_cf (ν := ν) (μ := fun n => mixtureLaw (fun k : Fin n => y k) (fun k : Fin n => w k)
    (bandwidth bw (Verif.effSize fun k : Fin n => w k) q ^ 2 • Verif.wCov (fun k : Fin n => y k) fun k : Fin n => w k))
    (by
      filter_upwards [hH] with n hn
      exact mixtureLaw_prob _ hn.2 (fun k => (h.pos k).le) (h.sum_pos hn.1).ne')
    (fun t => by
      have h1 : Tendsto (fun n : ℕ => (∑ k : Fin n, (w k : ℂ) * cexp (((t ⬝ᵥ y k : ℝ) : ℂ) * I)) /
          ((∑ k : Fin n, w k : ℝ) : ℂ)) atTop (𝓝 (Verif.cf ν t)) := by
        have := (h.cf_all t).div ((continuous_ofReal.tendsto _).comp h.one) (by simp)
        rw [ofReal_one, div_one] at this
        refine this.congr' ?_
        filter_upwards [eventually_gt_atTop 0] with n hn
        have hn' : (n : ℂ) ≠ 0 := by exact_mod_cast hn.ne'
        simp only [Pi.div_apply, Function.comp, Complex.real_smul, ofReal_mul, ofReal_inv, ofReal_natCast]
        rw [mul_div_mul_left _ _ (inv_ne_zero hn'), Finset.sum_range, Finset.sum_range]
      have h2 : Tendsto (fun n : ℕ => t ⬝ᵥ (bandwidth bw (Verif.effSize fun k : Fin n => w k) q ^ 2 •
          Verif.wCov (fun k : Fin n => y k) fun k : Fin n => w k).mulVec t) atTop (𝓝 0) := by
        have e : Tendsto (fun n : ℕ => bandwidth bw (Verif.effSize fun k : Fin n => w k) q ^ 2 •
          Verif.wCov (fun k : Fin n => y k) fun k : Fin n => w k) atTop (𝓝 0) := by
          have := (hb.pow 2).smul h.wCov
          simpa using this
        have hc : Continuous fun M : Matrix (Fin q) (Fin q) ℝ => t ⬝ᵥ M.mulVec t :=
          continuous_const.dotProduct (continuous_id.matrix_mulVec continuous_const)
        have h0 := hc.tendsto 0
        rw [Matrix.zero_mulVec, dotProduct_zero] at h0
        exact h0.comp e
      have h3 : Tendsto (fun n : ℕ => cexp (-((t ⬝ᵥ (bandwidth bw (Verif.effSize fun k : Fin n => w k) q ^ 2 •
          Verif.wCov (fun k : Fin n => y k) fun k : Fin n => w k).mulVec t : ℝ) : ℂ) / 2)) atTop (𝓝 1) := by
        have hc : Continuous fun x : ℝ => cexp (-(x : ℂ) / 2) := by fun_prop
        have h0 := hc.tendsto 0
        rw [ofReal_zero, neg_zero, zero_div, Complex.exp_zero] at h0
        exact h0.comp h2
      have h4 := h1.mul h3
      rw [mul_one] at h4
      refine h4.congr' ?_
      filter_upwards [hH] with n hn
      exact (cf_mixtureLaw _ hn.2 (fun k => (h.pos k).le) t).symm)
    hf hC
  refine key.congr' ?_
  filter_upwards [hH] with n hn
  rw [integral_mixtureLaw _ hn.2 fun k => (h.pos k).le]
  refine integral_congr_ae (.of_forall fun z => ?_)
  simp only [kernelEstimate, smul_eq_mul, mul_comm]

end Path

/-! ## C143 -/

/-- No combination of the outputs is constant (up to a set of probability 0), except the trivial one. -/
def NotConfined (ν : Measure (Fin q → ℝ)) : Prop :=
  ∀ (u : Fin q → ℝ) (c : ℝ), (∀ᵐ z ∂ν, u ⬝ᵥ z = c) → u = 0

section Moments
variable {ν : Measure (Fin q → ℝ)} [IsProbabilityMeasure ν]

theorem integrable_coord (h2 : ∀ j, Integrable (fun z : Fin q → ℝ => z j ^ 2) ν) (j : Fin q) :
    Integrable (fun z : Fin q → ℝ => z j) ν := by
  refine ((h2 j).add (integrable_const 1)).mono' (measurable_pi_apply j).aestronglyMeasurable (.of_forall fun z => ?_)
  rw [Real.norm_eq_abs, Pi.add_apply]
  nlinarith [sq_abs (z j), sq_nonneg (|z j| - 1), abs_nonneg (z j)]

omit [IsProbabilityMeasure ν] in
theorem integrable_coords (h2 : ∀ j, Integrable (fun z : Fin q → ℝ => z j ^ 2) ν) (j l : Fin q) :
    Integrable (fun z : Fin q → ℝ => z j * z l) ν := by
  refine ((h2 j).add (h2 l)).mono' ((measurable_pi_apply j).mul (measurable_pi_apply l)).aestronglyMeasurable
    (.of_forall fun z => ?_)
  rw [Real.norm_eq_abs, Pi.add_apply, abs_le]
  constructor <;> nlinarith [sq_nonneg (z j - z l), sq_nonneg (z j + z l), sq_nonneg (z j), sq_nonneg (z l)]

/-- The quadratic form of the covariance is the variance of the combination. -/
theorem lawCov_quad (h2 : ∀ j, Integrable (fun z : Fin q → ℝ => z j ^ 2) ν) (u : Fin q → ℝ) :
    u ⬝ᵥ (lawCov ν).mulVec u = ∫ z, (u ⬝ᵥ z - ∑ j, u j * ∫ z, z j ∂ν) ^ 2 ∂ν := by
  set m : Fin q → ℝ := fun j => ∫ z, z j ∂ν with hm
  have e : ∀ z : Fin q → ℝ, (u ⬝ᵥ z - ∑ j, u j * m j) ^ 2 =
      ∑ j, ∑ l, (u j * u l) * (z j * z l - m l * z j - m j * z l + m j * m l) := by
    intro z
    have : u ⬝ᵥ z - ∑ j, u j * m j = ∑ j, u j * (z j - m j) := by
      rw [dotProduct, ← Finset.sum_sub_distrib]
      exact Finset.sum_congr rfl fun j _ => by ring
    rw [this, sq, Finset.sum_mul_sum]
    refine Finset.sum_congr rfl fun j _ => Finset.sum_congr rfl fun l _ => ?_
    ring
  have i1 : ∀ j l, Integrable (fun z : Fin q → ℝ => z j * z l - m l * z j) ν := fun j l =>
    (integrable_coords h2 j l).sub ((integrable_coord h2 j).const_mul _)
  have i2 : ∀ j l, Integrable (fun z : Fin q → ℝ => z j * z l - m l * z j - m j * z l) ν := fun j l =>
    (i1 j l).sub ((integrable_coord h2 l).const_mul _)
  have hi : ∀ j l, Integrable (fun z : Fin q → ℝ => z j * z l - m l * z j - m j * z l + m j * m l) ν := fun j l =>
    (i2 j l).add (integrable_const _)
  have hv : ∀ j l, ∫ z, (z j * z l - m l * z j - m j * z l + m j * m l) ∂ν = lawCov ν j l := by
    intro j l
    rw [integral_add (i2 j l) (integrable_const _), integral_sub (i1 j l) ((integrable_coord h2 l).const_mul _),
      integral_sub (integrable_coords h2 j l) ((integrable_coord h2 j).const_mul _), integral_const_mul,
      integral_const_mul, integral_const, probReal_univ, one_smul]
    change _ - m l * m j - m j * m l + m j * m l = _ - m j * m l
    ring
  change _ = ∫ z, (u ⬝ᵥ z - ∑ j, u j * m j) ^ 2 ∂ν
  simp only [e]
  rw [integral_finsetSum _ fun j _ => integrable_finsetSum _ fun l _ => (hi j l).const_mul _]
  rw [dotProduct]
  refine Finset.sum_congr rfl fun j _ => ?_
  rw [integral_finsetSum _ fun l _ => (hi j l).const_mul _, Matrix.mulVec, dotProduct, Finset.mul_sum]
  refine Finset.sum_congr rfl fun l _ => ?_
  rw [integral_const_mul, hv]
  ring

theorem lawCov_det (h2 : ∀ j, Integrable (fun z : Fin q → ℝ => z j ^ 2) ν) (hc : NotConfined ν) :
    (lawCov ν).det ≠ 0 := by
  intro hd
  obtain ⟨u, hu, hu0⟩ := Matrix.exists_mulVec_eq_zero_iff.2 hd
  have h3 := lawCov_quad h2 u
  rw [hu0, dotProduct_zero] at h3
  set c := ∑ j, u j * ∫ z, z j ∂ν with hcdef
  have hint : Integrable (fun z : Fin q → ℝ => (u ⬝ᵥ z - c) ^ 2) ν := by
    have hm : Measurable fun z : Fin q → ℝ => (u ⬝ᵥ z - c) := by
      simp only [dotProduct]; fun_prop
    have : MemLp (fun z : Fin q → ℝ => u ⬝ᵥ z - c) 2 ν := by
      refine MemLp.sub (f := fun z : Fin q → ℝ => ∑ j, u j * z j) ?_ (memLp_const c)
      refine memLp_finsetSum _ fun j _ => MemLp.const_mul ?_ _
      exact (memLp_two_iff_integrable_sq (measurable_pi_apply j).aestronglyMeasurable).2 (h2 j)
    exact this.integrable_sq
  have h4 := (integral_eq_zero_iff_of_nonneg (fun z => sq_nonneg _) hint).1 h3.symm
  refine hu (hc u c ?_)
  filter_upwards [h4] with z hz
  have : (u ⬝ᵥ z - c) ^ 2 = 0 := hz
  rwa [sq_eq_zero_iff, sub_eq_zero] at this

end Moments

theorem weighted_cf {P : Measure Ω} {x : ℕ → Ω → Fin p → ℝ} {τ μ : Measure (Fin p → ℝ)} [IsProbabilityMeasure μ]
    (hi : iIndepFun x P) (hx : ∀ k, HasLaw (x k) τ P) {w : (Fin p → ℝ) → ℝ} (hwm : Measurable w) (hw : ∀ l, 0 < w l)
    (hμ : μ = τ.withDensity fun l => ENNReal.ofReal (w l))
    {Q : (Fin p → ℝ) → Fin q → ℝ} (hQ : Measurable Q) (t : Fin q → ℝ) :
    ∀ᵐ ω ∂P, Tendsto (fun n : ℕ => (n : ℝ)⁻¹ • ∑ k ∈ Finset.range n, w (x k ω) • cexp (((t ⬝ᵥ Q (x k ω) : ℝ) : ℂ) * I))
      atTop (𝓝 (cf (μ.map Q) t)) := by
  have hc : Continuous fun z : Fin q → ℝ => cexp (((t ⬝ᵥ z : ℝ) : ℂ) * I) := by
    simp only [dotProduct]; fun_prop
  have hm : Measurable fun l => cexp (((t ⬝ᵥ Q l : ℝ) : ℂ) * I) := hc.measurable.comp hQ
  have hint : Integrable (fun l => cexp (((t ⬝ᵥ Q l : ℝ) : ℂ) * I)) μ := by
    refine (integrable_const (1 : ℝ)).mono' hm.aestronglyMeasurable (.of_forall fun z => ?_)
    rw [norm_exp_ofReal_mul_I]
  have e : cf (μ.map Q) t = ∫ l, cexp (((t ⬝ᵥ Q l : ℝ) : ℂ) * I) ∂μ := by
    rw [cf, integral_map hQ.aemeasurable hc.aestronglyMeasurable]
  have := weighted_mean hi hx hwm hw hμ hm hint
  rw [← e] at this
  exact this

/-- The averages converge along almost every sequence of samples. -/
theorem averages_ae {P : Measure Ω} {x : ℕ → Ω → Fin p → ℝ} {τ μ : Measure (Fin p → ℝ)} [IsProbabilityMeasure μ]
    (hi : iIndepFun x P) (hx : ∀ k, HasLaw (x k) τ P) {w : (Fin p → ℝ) → ℝ} (hwm : Measurable w) (hw : ∀ l, 0 < w l)
    (hμ : μ = τ.withDensity fun l => ENNReal.ofReal (w l))
    {Q : (Fin p → ℝ) → Fin q → ℝ} (hQ : Measurable Q) (h2 : ∀ j, Integrable (fun l => Q l j ^ 2) μ) :
    ∀ᵐ ω ∂P, Averages (fun k => Q (x k ω)) (fun k => w (x k ω)) (μ.map Q) := by
  have hprob : IsProbabilityMeasure (μ.map Q) := Measure.isProbabilityMeasure_map hQ.aemeasurable
  have hmap : ∀ {E : Type} [NormedAddCommGroup E] [NormedSpace ℝ E] {φ : (Fin q → ℝ) → E}, Integrable φ (μ.map Q) →
      Integrable (fun l => φ (Q l)) μ ∧ ∫ z, φ z ∂(μ.map Q) = ∫ l, φ (Q l) ∂μ := fun h =>
    ⟨h.comp_aemeasurable hQ.aemeasurable, integral_map hQ.aemeasurable h.aestronglyMeasurable⟩
  have h2' : ∀ j, Integrable (fun z : Fin q → ℝ => z j ^ 2) (μ.map Q) := fun j =>
    (integrable_map_measure ((measurable_pi_apply j).pow_const 2).aestronglyMeasurable hQ.aemeasurable).2 (h2 j)
  have wm : ∀ {φ : (Fin p → ℝ) → ℝ}, Measurable φ → Integrable φ μ → ∀ᵐ ω ∂P, Tendsto (fun n : ℕ => (n : ℝ)⁻¹ *
      ∑ k ∈ Finset.range n, w (x k ω) * φ (x k ω)) atTop (𝓝 (∫ l, φ l ∂μ)) := fun hφ h =>
    weighted_mean hi hx hwm hw hμ hφ h
  have hcoord : ∀ j, Measurable fun l => Q l j := fun j => (measurable_pi_apply j).comp hQ
  have a1 : ∀ᵐ ω ∂P, ∀ j, Tendsto (fun n : ℕ => (n : ℝ)⁻¹ * ∑ k ∈ Finset.range n, w (x k ω) * Q (x k ω) j) atTop
      (𝓝 (∫ z, z j ∂(μ.map Q))) := by
    rw [ae_all_iff]
    intro j
    obtain ⟨h3, h4⟩ := hmap (integrable_coord h2' j)
    rw [h4]
    exact wm (hcoord j) h3
  have a2 : ∀ᵐ ω ∂P, ∀ j l, Tendsto (fun n : ℕ => (n : ℝ)⁻¹ * ∑ k ∈ Finset.range n,
      w (x k ω) * (Q (x k ω) j * Q (x k ω) l)) atTop (𝓝 (∫ z, z j * z l ∂(μ.map Q))) := by
    rw [ae_all_iff]
    intro j
    rw [ae_all_iff]
    intro l
    obtain ⟨h3, h4⟩ := hmap (integrable_coords h2' j l)
    rw [h4]
    exact wm ((hcoord j).mul (hcoord l)) h3
  have a3 := wm (φ := fun l => ∑ j, |Q l j|) (Finset.measurable_sum _ fun j _ => (hcoord j).abs)
    (integrable_finsetSum _ fun j _ => (hmap (integrable_coord h2' j)).1.abs)
  have a0 := wm (φ := fun _ => 1) measurable_const (integrable_const 1)
  have a4 : ∀ᵐ ω ∂P, ∀ i, Tendsto (fun n : ℕ => (n : ℝ)⁻¹ • ∑ k ∈ Finset.range n,
      w (x k ω) • cexp (((TopologicalSpace.denseSeq (Fin q → ℝ) i ⬝ᵥ Q (x k ω) : ℝ) : ℂ) * I)) atTop
      (𝓝 (cf (μ.map Q) (TopologicalSpace.denseSeq (Fin q → ℝ) i))) := by
    rw [ae_all_iff]
    exact fun i => weighted_cf hi hx hwm hw hμ hQ _
  filter_upwards [a0, a1, a2, a3, a4] with ω b0 b1 b2 b3 b4
  refine ⟨fun k => hw _, ?_, b1, b2, ⟨_, b3⟩, b4⟩
  simpa using b0

/-- `P = DensityProblem(X, y, domain, weights)` where `X` are the first `n` samples, `y` the outputs of the model `Q` on
them and `weights` (if given) the values of a weight function on them. -/
noncomputable def sampledNew (x : ℕ → Fin p → ℝ) (Q : (Fin p → ℝ) → Fin q → ℝ)
    (dom : Option (Matrix (Fin p) (Fin 2) ℝ)) (W : Option ((Fin p → ℝ) → ℝ)) (n : ℕ) : Py DP :=
  DP.new (.mat ⟨n, p, .of fun k => x k⟩) (.mat ⟨n, q, .of fun k => Q (x k)⟩)
    (dom.map fun D => .mat ⟨p, 2, D⟩) (W.map fun w => .vec n fun k => w (x k))

/-- **C143.** Samples drawn independently from `τ` and weighted by `W > 0`, where `μ = W τ` is the initial distribution (no
weights: `μ = τ`); the outputs have finite second moments and are not confined to a hyperplane. Almost surely:
`set_predicted()` (either built-in bandwidth) returns for all large numbers of samples and stores the values of the kernel
density estimate `ρ n`; the estimates converge weakly to the distribution of the outputs. -/
theorem C143_consistent {P : Measure Ω} {x : ℕ → Ω → Fin p → ℝ} {τ μ : Measure (Fin p → ℝ)} [IsProbabilityMeasure μ]
    (hi : iIndepFun x P) (hx : ∀ k, HasLaw (x k) τ P)
    (W : Option ((Fin p → ℝ) → ℝ)) (hWm : Measurable (weightFn W)) (hW : ∀ l, 0 < weightFn W l)
    (hμ : μ = τ.withDensity fun l => ENNReal.ofReal (weightFn W l))
    {Q : (Fin p → ℝ) → Fin q → ℝ} (hQ : Measurable Q) (hq : 0 < q) (h2 : ∀ j, Integrable (fun l => Q l j ^ 2) μ)
    (hc : NotConfined (μ.map Q)) (dom : Option (Matrix (Fin p) (Fin 2) ℝ)) {bw : ℕ} (hbw : bw < 2) :
    ∀ᵐ ω ∂P, ∃ ρ : ℕ → (Fin q → ℝ) → ℝ,
      (∀ᶠ n in atTop, ∃ S, sampledNew (fun k => x k ω) Q dom W n = .ok S ∧
        (DP.setPredicted (scipyEnv user) none bw none S).1 = .ok () ∧
        (DP.setPredicted (scipyEnv user) none bw none S).2.pr =
          some (List.ofFn fun k : Fin n => F.fin (ρ n (Q (x k ω)))) ∧
        IsKernelEstimate bw (fun k : Fin n => Q (x k ω)) (fun k : Fin n => weightFn W (x k ω)) (ρ n)) ∧
      ∀ f : (Fin q → ℝ) → ℝ, Continuous f → (∃ C, ∀ z, |f z| ≤ C) →
        Tendsto (fun n => ∫ z, f z * ρ n z) atTop (𝓝 (∫ z, f z ∂(μ.map Q))) := by
  have hprob : IsProbabilityMeasure (μ.map Q) := Measure.isProbabilityMeasure_map hQ.aemeasurable
  have h2' : ∀ j, Integrable (fun z : Fin q → ℝ => z j ^ 2) (μ.map Q) := fun j =>
    (integrable_map_measure ((measurable_pi_apply j).pow_const 2).aestronglyMeasurable hQ.aemeasurable).2 (h2 j)
  have hd := lawCov_det h2' hc
  filter_upwards [averages_ae hi hx hWm hW hμ hQ h2] with ω h
  refine ⟨kernelEstimate bw (fun k => Q (x k ω)) fun k => weightFn W (x k ω), ?_, fun f hf ⟨C, hC⟩ =>
    h.weak hd bw hf hC⟩
  have hs := h.sumsq.eventually_lt_const zero_lt_one
  filter_upwards [h.posDef hd, hs, eventually_gt_atTop 1] with n a1 a2 a3
  obtain ⟨S, hS, -, hy, hw⟩ := sampled_new (fun k => x k ω) Q dom W (n := n) (by omega)
  have hpos := h.sum_pos (n := n) (by omega)
  have hret : (DP.setPredicted (scipyEnv user) none bw none S).1 = .ok () := by
    refine (C79_returns_iff hy hw bw).2 ⟨?_, hpos.ne', fun i => div_nonneg (hW _).le hpos.le, ?_, a1⟩
    · nlinarith
    · rw [sum_sq_div]
      exact a2
  obtain ⟨ρ, h3, h4⟩ := C79_predicted_density hy hw hbw hret
  have e : ρ = kernelEstimate bw (fun k => Q (x k ω)) (fun k => weightFn W (x k ω)) n := by
    funext z
    rw [h3.mixture]
    rfl
  rw [e] at h3 h4
  exact ⟨S, hS, hret, h4, h3⟩

/-- **C143**, the condition is necessary: if some non-trivial combination of the outputs is constant, `set_predicted()`
raises for every number of samples. -/
theorem C143_confined {P : Measure Ω} {x : ℕ → Ω → Fin p → ℝ} {τ μ : Measure (Fin p → ℝ)}
    (hx : ∀ k, HasLaw (x k) τ P)
    (W : Option ((Fin p → ℝ) → ℝ)) (hWm : Measurable (weightFn W)) (hW : ∀ l, 0 < weightFn W l)
    (hμ : μ = τ.withDensity fun l => ENNReal.ofReal (weightFn W l))
    {Q : (Fin p → ℝ) → Fin q → ℝ} (hQ : Measurable Q) (hc : ¬ NotConfined (μ.map Q))
    (dom : Option (Matrix (Fin p) (Fin 2) ℝ)) (bw : ℕ) :
    ∀ᵐ ω ∂P, ∀ n, 0 < n → ∃ S, sampledNew (fun k => x k ω) Q dom W n = .ok S ∧
      ∃ e, (DP.setPredicted (scipyEnv user) none bw none S).1 = .error e := by
  unfold NotConfined at hc
  push Not at hc
  obtain ⟨u, c, hu, hu0⟩ := hc
  have h1 : ∀ᵐ ω ∂P, ∀ k, u ⬝ᵥ Q (x k ω) = c := by
    rw [ae_all_iff]
    intro k
    have h2 : ∀ᵐ l ∂μ, u ⬝ᵥ Q l = c := ae_of_ae_map hQ.aemeasurable hu
    have h3 : ∀ᵐ l ∂τ, u ⬝ᵥ Q l = c := by
      rw [hμ, ae_withDensity_iff hWm.ennreal_ofReal] at h2
      filter_upwards [h2] with l hl
      exact hl (by simpa using hW l)
    rw [← (hx k).map_eq] at h3
    exact ae_of_ae_map (hx k).aemeasurable h3
  filter_upwards [h1] with ω hω n hn
  obtain ⟨S, hS, -, hy, hw⟩ := sampled_new (fun k => x k ω) Q dom W hn
  refine ⟨S, hS, ?_⟩
  cases hr : (DP.setPredicted (scipyEnv user) none bw none S).1 with
  | error e => exact ⟨e, rfl⟩
  | ok _ =>
    exfalso
    obtain ⟨-, h3, -, -, h4⟩ := (C79_returns_iff hy hw bw).1 hr
    set y : Fin n → Fin q → ℝ := fun k => Q (x k ω) with hyd
    set w : Fin n → ℝ := fun k => weightFn W (x k ω) with hwd
    have h4' : (wCov y w).PosDef := h4
    have h5 : (wCov y w).mulVec u = 0 := by
      have hm : wMean y w ⬝ᵥ u = c := by
        unfold wMean
        rw [smul_dotProduct, sum_dotProduct]
        have : ∀ i, (w i • y i) ⬝ᵥ u = w i * c := fun i => by
          rw [smul_dotProduct, dotProduct_comm, smul_eq_mul]
          congr 1
          exact hω i
        simp only [this, ← Finset.sum_mul, smul_eq_mul]
        exact inv_mul_cancel_left₀ h3 c
      unfold wCov
      rw [Matrix.smul_mulVec, Matrix.sum_mulVec]
      have : ∀ i, (w i • Matrix.vecMulVec (y i - wMean y w) (y i - wMean y w)).mulVec u = 0 := by
        intro i
        have e : (y i - wMean y w) ⬝ᵥ u = 0 := by
          rw [sub_dotProduct, hm, dotProduct_comm]
          exact sub_eq_zero.2 (hω i)
        rw [Matrix.smul_mulVec, Matrix.vecMulVec_mulVec, e]
        simp
      simp only [this, Finset.sum_const_zero, smul_zero]
    have h6 := h4'.dotProduct_mulVec_pos hu0
    rw [h5, dotProduct_zero] at h6
    exact lt_irrefl _ h6

/-! ## Normal samples and linear models -/

theorem notConfined_of_open {ν : Measure (Fin q → ℝ)} [ν.IsOpenPosMeasure] : NotConfined ν := by
  intro u c h
  have ho : IsOpen {z : Fin q → ℝ | u ⬝ᵥ z ≠ c} :=
    isOpen_ne_fun (continuous_const.dotProduct continuous_id) continuous_const
  have h0 : {z : Fin q → ℝ | u ⬝ᵥ z ≠ c} = ∅ := (ho.measure_eq_zero_iff (μ := ν)).1 h
  have h1 : ∀ z, u ⬝ᵥ z = c := fun z => by
    by_contra hz
    exact Set.notMem_empty z (h0 ▸ hz)
  have h2 := h1 0
  rw [dotProduct_zero] at h2
  have h3 := h1 u
  rw [← h2] at h3
  exact dotProduct_self_eq_zero.1 h3

theorem normalLaw_sq (m : Fin q → ℝ) {S : Matrix (Fin q) (Fin q) ℝ} (hS : S.PosSemidef) (j : Fin q) :
    Integrable (fun z : Fin q → ℝ => z j ^ 2) (normalLaw m S) ∧
      ∫ z, (z j - m j) ^ 2 ∂(normalLaw m S) = S j j := by
  have hL : MemLp (fun z : EuclideanSpace ℝ (Fin q) => z j) 2 (multivariateGaussian (toLp 2 m) S) :=
    IsGaussian.memLp_dual (multivariateGaussian (toLp 2 m) S) (EuclideanSpace.proj j) 2 (by simp)
  have hm : ∀ c : ℝ, Measurable fun z : Fin q → ℝ => (z j - c) ^ 2 := fun c => by fun_prop
  constructor
  · rw [normalLaw, integrable_map_measure ((measurable_pi_apply j).pow_const 2).aestronglyMeasurable
      measurable_ofLp'.aemeasurable]
    exact hL.integrable_sq
  · rw [normalLaw, integral_map measurable_ofLp'.aemeasurable (hm _).aestronglyMeasurable]
    have h := variance_eval_multivariateGaussian (μ := toLp 2 m) hS j
    rw [variance_eq_integral hL.aestronglyMeasurable.aemeasurable] at h
    have e : (∫ z : EuclideanSpace ℝ (Fin q), z j ∂(multivariateGaussian (toLp 2 m) S)) = m j := by
      have h1 := integral_id_multivariateGaussian (μ := toLp 2 m) (S := S)
      have h2 := (EuclideanSpace.proj (𝕜 := ℝ) j).integral_comp_comm
        (φ := fun z : EuclideanSpace ℝ (Fin q) => z) (μ := multivariateGaussian (toLp 2 m) S) IsGaussian.integrable_id
      rw [h1] at h2
      exact h2
    rw [e] at h
    exact h

/-- **C143**, normal initial distribution and linear model of full row rank: the default predicted densities converge
weakly to the normal distribution with mean `A m + b` and covariance `A S Aᵀ`. -/
theorem C143_linear {P : Measure Ω} {x : ℕ → Ω → Fin p → ℝ} (m : Fin p → ℝ) {S : Matrix (Fin p) (Fin p) ℝ}
    (hS : S.PosDef) (hi : iIndepFun x P) (hx : ∀ k, HasLaw (x k) (normalLaw m S) P)
    (A : Matrix (Fin q) (Fin p) ℝ) (hA : FullRowRank A) (hq : 0 < q) (b : Fin q → ℝ)
    (dom : Option (Matrix (Fin p) (Fin 2) ℝ)) {bw : ℕ} (hbw : bw < 2) :
    ∀ᵐ ω ∂P, ∃ ρ : ℕ → (Fin q → ℝ) → ℝ,
      (∀ᶠ n in atTop, ∃ T, sampledNew (fun k => x k ω) (fun l => A.mulVec l + b) dom none n = .ok T ∧
        (DP.setPredicted (scipyEnv user) none bw none T).1 = .ok () ∧
        (DP.setPredicted (scipyEnv user) none bw none T).2.pr =
          some (List.ofFn fun k : Fin n => F.fin (ρ n (A.mulVec (x k ω) + b))) ∧
        IsKernelEstimate bw (fun k : Fin n => A.mulVec (x k ω) + b) (fun _ : Fin n => 1) (ρ n)) ∧
      ∀ f : (Fin q → ℝ) → ℝ, Continuous f → (∃ C, ∀ z, |f z| ≤ C) →
        Tendsto (fun n => ∫ z, f z * ρ n z) atTop
          (𝓝 (∫ z, f z ∂(normalLaw (A.mulVec m + b) (A * S * A.transpose)))) := by
  have hP : (A * S * A.transpose).PosDef := posDef_conj hS A hA.inj
  have e := normalLaw_map m hS.posSemidef A b
  have hop := normalLaw_openPos (A.mulVec m + b) hP
  have h2 : ∀ j, Integrable (fun l => (A.mulVec l + b) j ^ 2) (normalLaw m S) := by
    intro j
    have h3 := (normalLaw_sq (A.mulVec m + b) hP.posSemidef j).1
    rw [← e] at h3
    exact h3.comp_aemeasurable (measurable_observe A b).aemeasurable
  have hc : NotConfined ((normalLaw m S).map fun l => A.mulVec l + b) := by
    rw [e]
    exact notConfined_of_open
  have := C143_consistent (user := user) (μ := normalLaw m S) hi hx none measurable_const (fun _ => one_pos)
    (by simp [weightFn]) (measurable_observe A b) hq h2 hc dom hbw
  rw [e] at this
  exact this

/-! ### Cases -/

/-- C143 on a model with two parameters and one output. -/
example (user : ℕ → ℝ → ℕ → ℝ) : ∃ (P : Measure (ℕ → Fin 2 → ℝ)) (Q : (Fin 2 → ℝ) → Fin 1 → ℝ)
    (ν : Measure (Fin 1 → ℝ)), IsProbabilityMeasure P ∧
    ∀ᵐ ω ∂P, ∃ ρ : ℕ → (Fin 1 → ℝ) → ℝ,
      (∀ᶠ n in atTop, ∃ T, sampledNew (fun k => ω k) Q none none n = .ok T ∧
        (DP.setPredicted (scipyEnv user) none 0 none T).1 = .ok () ∧
        (DP.setPredicted (scipyEnv user) none 0 none T).2.pr =
          some (List.ofFn fun k : Fin n => F.fin (ρ n (Q (ω k)))) ∧
        IsKernelEstimate 0 (fun k : Fin n => Q (ω k)) (fun _ : Fin n => 1) (ρ n)) ∧
      ∀ f : (Fin 1 → ℝ) → ℝ, Continuous f → (∃ C, ∀ z, |f z| ≤ C) →
        Tendsto (fun n => ∫ z, f z * ρ n z) atTop (𝓝 (∫ z, f z ∂ν)) := by
  have hs : ∀ j : Fin 2, 0 < (![1, 2] : Fin 2 → ℝ) j := by intro j; fin_cases j <;> norm_num
  generalize (![1, 2] : Fin 2 → ℝ) = s at hs
  obtain ⟨h1, h2⟩ := iid_coords (normalLaw ![0, 1] (Matrix.diagonal fun j : Fin 2 => s j ^ 2))
  exact ⟨_, _, _, inferInstance, C143_linear (user := user) (x := fun k (ω : ℕ → Fin 2 → ℝ) => ω k) ![0, 1]
    (posDef_diagonal hs) h1 h2 (!![1, 2] : Matrix (Fin 1) (Fin 2) ℝ)
    (fun y => ⟨![y 0, 0], by funext i; fin_cases i; simp⟩) one_pos ![1] none (by norm_num)⟩

/-- Two outputs that always add up to 1 are confined to a line: the estimate raises. -/
example (user : ℕ → ℝ → ℕ → ℝ) (τ : Measure (Fin 1 → ℝ)) [IsProbabilityMeasure τ] :
    ∀ᵐ ω ∂(Measure.infinitePi fun _ : ℕ => τ), ∀ n, 0 < n →
      ∃ S, sampledNew (fun k => ω k) (fun l => ![l 0, 1 - l 0]) none none n = .ok S ∧
        ∃ e, (DP.setPredicted (scipyEnv user) none 0 none S).1 = .error e := by
  have hQ : Measurable fun l : Fin 1 → ℝ => ![l 0, 1 - l 0] := by
    refine measurable_pi_iff.2 fun j => ?_
    fin_cases j <;> simp <;> fun_prop
  refine C143_confined (iid_coords τ).2 none measurable_const (fun _ => one_pos)
    (by simp [weightFn]; rfl) hQ ?_ none 0
  intro h
  have h1 := h ![1, 1] 1 (by
    have hm : MeasurableSet {z : Fin 2 → ℝ | ![1, 1] ⬝ᵥ z = 1} :=
      measurableSet_eq_fun (continuous_const.dotProduct continuous_id).measurable measurable_const
    rw [ae_map_iff hQ.aemeasurable hm]
    exact .of_forall fun l => by simp)
  have := congrFun h1 0
  norm_num at this

end Verif
