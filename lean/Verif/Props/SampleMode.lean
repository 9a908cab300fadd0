import Verif.Props.RatioLimit
import Verif.Props.Bayes
import Verif.Lemmas.Kaczmarz

/-!
# C134–C136: the estimates of the sampling classes converge

With independent samples the MUD point of a `DensityProblem` and the MAP point of a `BayesProblem` converge to
the maximiser of the updated and of the posterior density; in the linear Gaussian case to the solutions of
`LinearGaussianProblem`.
-/

open MeasureTheory ProbabilityTheory Filter Topology Matrix

namespace Verif

variable {env : Env} {p q : ℕ} {Ω : Type} [MeasurableSpace Ω]

/-- `x₀` is a peak of `u`: `u` is continuous there, and away from `x₀` smaller by a margin. -/
structure IsPeak (u : (Fin p → ℝ) → ℝ) (x₀ : Fin p → ℝ) : Prop where
  cont : ContinuousAt u x₀
  sep : ∀ ε > 0, ∃ η < u x₀, ∀ x, ε ≤ dist x x₀ → u x ≤ η

/-- `e n` is one of the first `n` points, one with the largest value of `u`. -/
def BestOf (x : ℕ → Fin p → ℝ) (u : (Fin p → ℝ) → ℝ) (n : ℕ) (e : Fin p → ℝ) : Prop :=
  ∃ m < n, e = x m ∧ ∀ k < n, u (x k) ≤ u (x m)

/-- The first `n` samples miss a set with the probability `(1 - τ U)ⁿ`. -/
theorem miss_prob {P : Measure Ω} {x : ℕ → Ω → Fin p → ℝ} {τ : Measure (Fin p → ℝ)} [IsProbabilityMeasure τ]
    (hi : iIndepFun x P) (hx : ∀ k, HasLaw (x k) τ P) {U : Set (Fin p → ℝ)} (hU : MeasurableSet U) (n : ℕ) :
    P {ω | ∀ k < n, x k ω ∉ U} = (1 - τ U) ^ n := by
  have h := hi.measure_inter_preimage_eq_mul (Finset.range n) (sets := fun _ => Uᶜ) fun _ _ => hU.compl
  have e : {ω | ∀ k < n, x k ω ∉ U} = ⋂ k ∈ Finset.range n, x k ⁻¹' Uᶜ := by
    ext ω; simp
  have e2 : ∀ k, P (x k ⁻¹' Uᶜ) = 1 - τ U := by
    intro k
    rw [← prob_compl_eq_one_sub hU, ← (hx k).map_eq, Measure.map_apply_of_aemeasurable (hx k).aemeasurable hU.compl]
  rw [e, h, Finset.prod_congr rfl fun k _ => e2 k, Finset.prod_const, Finset.card_range]

/-- A set of positive probability is hit almost surely. -/
theorem hit_ae {P : Measure Ω} {x : ℕ → Ω → Fin p → ℝ} {τ : Measure (Fin p → ℝ)} [IsProbabilityMeasure τ]
    (hi : iIndepFun x P) (hx : ∀ k, HasLaw (x k) τ P) {U : Set (Fin p → ℝ)} (hU : MeasurableSet U) (h0 : τ U ≠ 0) :
    ∀ᵐ ω ∂P, ∃ k, x k ω ∈ U := by
  rw [ae_iff]
  have hle : ∀ n : ℕ, P {ω | ¬ ∃ k, x k ω ∈ U} ≤ (1 - τ U) ^ n := by
    intro n
    rw [← miss_prob hi hx hU n]
    exact measure_mono fun ω hω k _ hk => hω ⟨k, hk⟩
  have hlt : 1 - τ U < 1 := ENNReal.sub_lt_self ENNReal.one_ne_top one_ne_zero h0
  have := ge_of_tendsto' (ENNReal.tendsto_pow_atTop_nhds_zero_of_lt_one hlt) hle
  exact le_antisymm this zero_le

/-- Best points converge to a peak that the samples can come close to. -/
theorem best_converges {P : Measure Ω} {x : ℕ → Ω → Fin p → ℝ} {τ : Measure (Fin p → ℝ)} [IsProbabilityMeasure τ]
    (hi : iIndepFun x P) (hx : ∀ k, HasLaw (x k) τ P) {u : (Fin p → ℝ) → ℝ} {x₀ : Fin p → ℝ} (hu : IsPeak u x₀)
    (hτ : ∀ U, IsOpen U → x₀ ∈ U → τ U ≠ 0) :
    ∀ᵐ ω ∂P, ∀ e : ℕ → Fin p → ℝ, (∀ᶠ n in atTop, BestOf (fun k => x k ω) u n (e n)) → Tendsto e atTop (𝓝 x₀) := by
  have hall : ∀ᵐ ω ∂P, ∀ i : ℕ, ∃ k, u (x k ω) > Classical.choose (hu.sep (1 / ((i : ℝ) + 1)) (by positivity)) := by
    rw [ae_all_iff]
    intro i
    obtain ⟨h1, h2⟩ := Classical.choose_spec (hu.sep (1 / ((i : ℝ) + 1)) (by positivity))
    set η := Classical.choose (hu.sep (1 / ((i : ℝ) + 1)) (by positivity))
    have hn : {y | η < u y} ∈ 𝓝 x₀ := hu.cont.eventually_const_lt h1
    obtain ⟨U, hUs, hUo, hU0⟩ := mem_nhds_iff.1 hn
    filter_upwards [hit_ae hi hx hUo.measurableSet (hτ U hUo hU0)] with ω hω
    obtain ⟨k, hk⟩ := hω
    exact ⟨k, hUs hk⟩
  filter_upwards [hall] with ω hω e he
  rw [Metric.tendsto_atTop]
  intro ε hε
  obtain ⟨i, hi'⟩ := exists_nat_one_div_lt hε
  obtain ⟨k, hk⟩ := hω i
  obtain ⟨h1, h2⟩ := Classical.choose_spec (hu.sep (1 / ((i : ℝ) + 1)) (by positivity))
  obtain ⟨N, hN⟩ := eventually_atTop.1 he
  refine ⟨max (k + 1) N, fun n hn => ?_⟩
  obtain ⟨m, -, hm, hbest⟩ := hN n (le_of_max_le_right hn)
  by_contra hd
  have h3 := h2 (e n) (hi'.le.trans (not_lt.1 hd))
  have h4 := hbest k (le_of_max_le_left hn)
  rw [hm] at h3
  have h5 : u (x k ω) > _ := hk
  exact absurd (h3.trans_lt h5) (not_lt.2 h4)

/-- The probability that the best of `n` points is not within `ε` of the peak. -/
theorem best_rate {P : Measure Ω} {x : ℕ → Ω → Fin p → ℝ} {τ : Measure (Fin p → ℝ)} [IsProbabilityMeasure τ]
    (hi : iIndepFun x P) (hx : ∀ k, HasLaw (x k) τ P) {u : (Fin p → ℝ) → ℝ} (hum : Measurable u) {x₀ : Fin p → ℝ}
    {ε η : ℝ} (hη : ∀ y, ε ≤ dist y x₀ → u y ≤ η) (n : ℕ) :
    P {ω | ∃ e, BestOf (fun k => x k ω) u n e ∧ ε ≤ dist e x₀} ≤ (1 - τ {y | η < u y}) ^ n := by
  rw [← miss_prob hi hx (measurableSet_lt measurable_const hum) n]
  refine measure_mono fun ω hω k hk hmem => ?_
  obtain ⟨e, ⟨m, -, rfl, hb⟩, hd⟩ := hω
  exact absurd (lt_of_lt_of_le hmem (hb k hk)) (not_lt.2 (hη _ hd))

/-! ## C134: `DensityProblem` -/

/-- The updated density up to a constant: initial × weight × observed / predicted. -/
noncomputable def updatedFn (a : (Fin p → ℝ) → ℝ) (W : Option ((Fin p → ℝ) → ℝ)) (Q : (Fin p → ℝ) → Fin q → ℝ)
    (f g : (Fin q → ℝ) → ℝ) (l : Fin p → ℝ) : ℝ := a l * weightFn W l * (f (Q l) / g (Q l))

/-- The estimate of a sampled problem is one of the samples with the largest updated density. -/
theorem sampled_best (x : ℕ → Fin p → ℝ) (Q : (Fin p → ℝ) → Fin q → ℝ)
    (dom : Option (Matrix (Fin p) (Fin 2) ℝ)) (W : Option ((Fin p → ℝ) → ℝ)) {di do_ dp : Dist}
    {a : (Fin p → ℝ) → ℝ} {f g : (Fin q → ℝ) → ℝ} (ha : di.Evaluates a) (hf : do_.Evaluates f)
    (hg : dp.EvaluatesFlat g) (hg0 : ∀ k, g (Q (x k)) ≠ 0) {n : ℕ} (hn : 0 < n) :
    ∃ S e, sampledProblem env x Q dom W di do_ dp n = .ok S ∧ (DP.mudPoint env S).1 = .ok (List.ofFn e) ∧
      BestOf x (updatedFn a W Q f g) n e := by
  obtain ⟨S, hS, hX, hy, hw⟩ := sampled_new x Q dom W hn
  obtain ⟨m, h1, -, h3⟩ := C28_mud_point_finite (env := env) S di do_ dp hn (by rw [hX]) (fun k : Fin n => a (x k)) _
    (fun k : Fin n => f (Q (x k))) (fun k : Fin n => g (Q (x k))) hw (by rw [hX]; exact ha n _)
    (by rw [hy]; exact hf n _) (by rw [hy]; exact hg n _) fun k => hg0 k
  refine ⟨_, x m, by rw [sampledProblem, hS]; rfl, h3.trans ?_, m, m.2, rfl, fun k hk => h1 ⟨k, hk⟩⟩
  rw [hX]
  simp [Arr2.get]

/-- **C134.** Independent samples from any distribution `τ` that charges the neighbourhoods of a peak `x₀` of
the updated density: almost surely `estimate` returns for every number of samples, the updated density at the
estimate never decreases as samples are added, and the estimates converge to `x₀`. -/
theorem C134_converges {P : Measure Ω} {x : ℕ → Ω → Fin p → ℝ} {τ : Measure (Fin p → ℝ)} [IsProbabilityMeasure τ]
    (hi : iIndepFun x P) (hx : ∀ k, HasLaw (x k) τ P) {Q : (Fin p → ℝ) → Fin q → ℝ}
    (W : Option ((Fin p → ℝ) → ℝ)) {di do_ dp : Dist} {a : (Fin p → ℝ) → ℝ} {f g : (Fin q → ℝ) → ℝ}
    (ha : di.Evaluates a) (hf : do_.Evaluates f) (hg : dp.EvaluatesFlat g)
    (hg0 : ∀ᵐ l ∂τ, g (Q l) ≠ 0) (dom : Option (Matrix (Fin p) (Fin 2) ℝ)) {x₀ : Fin p → ℝ}
    (hu : IsPeak (updatedFn a W Q f g) x₀) (hτ : ∀ U, IsOpen U → x₀ ∈ U → τ U ≠ 0) :
    ∀ᵐ ω ∂P, ∃ e : ℕ → Fin p → ℝ,
      (∀ n, 0 < n → ∃ S, sampledProblem env (fun k => x k ω) Q dom W di do_ dp n = .ok S ∧
        (DP.mudPoint env S).1 = .ok (List.ofFn (e n))) ∧
      (∀ n, 0 < n → updatedFn a W Q f g (e n) ≤ updatedFn a W Q f g (e (n + 1))) ∧
      Tendsto e atTop (𝓝 x₀) := by
  have hz : ∀ᵐ ω ∂P, ∀ k, g (Q (x k ω)) ≠ 0 := by
    rw [ae_all_iff]
    intro k
    rw [← (hx k).map_eq] at hg0
    exact ae_of_ae_map (hx k).aemeasurable hg0
  filter_upwards [hz, best_converges hi hx hu hτ] with ω h1 h2
  have h0 : ∀ n, ∃ e, 0 < n → (∃ S, sampledProblem env (fun k => x k ω) Q dom W di do_ dp n = .ok S ∧
      (DP.mudPoint env S).1 = .ok (List.ofFn e)) ∧ BestOf (fun k => x k ω) (updatedFn a W Q f g) n e := by
    intro n
    rcases Nat.eq_zero_or_pos n with rfl | hn
    · exact ⟨0, fun h => absurd h (lt_irrefl 0)⟩
    · obtain ⟨S, e, hS, he, hb⟩ := sampled_best (env := env) (fun k => x k ω) Q dom W ha hf hg h1 hn
      exact ⟨e, fun _ => ⟨⟨S, hS, he⟩, hb⟩⟩
  choose e he using h0
  have hb := fun n hn => (he n hn).2
  refine ⟨e, fun n hn => (he n hn).1, fun n hn => ?_, h2 e (eventually_atTop.2 ⟨1, hb⟩)⟩
  obtain ⟨m, hm, h3, -⟩ := hb n hn
  obtain ⟨m', -, h3', h4'⟩ := hb (n + 1) (by omega)
  rw [h3, h3']
  exact h4' m (by omega)

/-- **C134.** If the updated density is at most `η` outside the ball of radius `ε` around `x₀`, the estimate from
`n` samples lies in the ball except with a probability of at most `(1 - τ{updated > η})ⁿ`. -/
theorem C134_rate {P : Measure Ω} {x : ℕ → Ω → Fin p → ℝ} {τ : Measure (Fin p → ℝ)} [IsProbabilityMeasure τ]
    (hi : iIndepFun x P) (hx : ∀ k, HasLaw (x k) τ P) {Q : (Fin p → ℝ) → Fin q → ℝ} (hQ : Measurable Q)
    (W : Option ((Fin p → ℝ) → ℝ)) (hWm : Measurable (weightFn W)) {di do_ dp : Dist} {a : (Fin p → ℝ) → ℝ}
    {f g : (Fin q → ℝ) → ℝ} (ha : di.Evaluates a) (hf : do_.Evaluates f) (hg : dp.EvaluatesFlat g)
    (ham : Measurable a) (hfm : Measurable f) (hgm : Measurable g)
    (hg0 : ∀ᵐ l ∂τ, g (Q l) ≠ 0) (dom : Option (Matrix (Fin p) (Fin 2) ℝ)) {x₀ : Fin p → ℝ} {ε η : ℝ}
    (hη : ∀ y, ε ≤ dist y x₀ → updatedFn a W Q f g y ≤ η) {n : ℕ} (hn : 0 < n) :
    P {ω | ¬ ∃ S, ∃ e : Fin p → ℝ, sampledProblem env (fun k => x k ω) Q dom W di do_ dp n = .ok S ∧
        (DP.mudPoint env S).1 = .ok (List.ofFn e) ∧ dist e x₀ < ε} ≤
      (1 - τ {y | η < updatedFn a W Q f g y}) ^ n := by
  have hum : Measurable (updatedFn a W Q f g) := (ham.mul hWm).mul ((hfm.comp hQ).div (hgm.comp hQ))
  refine le_trans ?_ (best_rate hi hx hum hη n)
  have hz : ∀ᵐ ω ∂P, ∀ k, g (Q (x k ω)) ≠ 0 := by
    rw [ae_all_iff]
    intro k
    rw [← (hx k).map_eq] at hg0
    exact ae_of_ae_map (hx k).aemeasurable hg0
  refine measure_mono_ae ?_
  filter_upwards [hz] with ω h1 h2
  obtain ⟨S, e, hS, he, hb⟩ := sampled_best (env := env) (fun k => x k ω) Q dom W ha hf hg h1 hn
  refine ⟨e, hb, ?_⟩
  by_contra hd
  exact h2 ⟨S, e, hS, he, not_le.1 hd⟩

/-! ## C135: the linear Gaussian case -/

/-- The mean is a peak of a normal density. -/
theorem normal_peak {H : Matrix (Fin p) (Fin p) ℝ} (hH : H.PosDef) (x₀ : Fin p → ℝ) {c : ℝ} (hc : 0 < c) :
    IsPeak (fun l => c * normalPdf H (l - x₀)) x₀ := by
  refine ⟨(continuous_const.mul (continuous_pdf_shift H x₀)).continuousAt, fun ε hε => ?_⟩
  obtain ⟨k, hk, hq⟩ := qf_coercive hH
  have hD : 0 < Real.sqrt ((2 * Real.pi) ^ p * H.det) :=
    Real.sqrt_pos.2 (mul_pos (pow_pos (by positivity) _) hH.det_pos)
  refine ⟨c * (Real.exp (-(k * ε ^ 2) / 2) / Real.sqrt ((2 * Real.pi) ^ p * H.det)), ?_, fun x hx => ?_⟩
  · refine mul_lt_mul_of_pos_left (div_lt_div_of_pos_right (Real.exp_lt_exp.2 ?_) hD) hc
    rw [sub_self, mulVec_zero, dotProduct_zero]
    have : 0 < k * ε ^ 2 := by positivity
    linarith
  · refine mul_le_mul_of_nonneg_left (div_le_div_of_nonneg_right (Real.exp_le_exp.2 ?_) hD.le) hc.le
    have h1 := hq (x - x₀)
    rw [← dist_eq_norm] at h1
    have h2 : ε ^ 2 ≤ dist x x₀ ^ 2 := by gcongr
    have h3 : k * ε ^ 2 ≤ (x - x₀) ⬝ᵥ (H⁻¹ *ᵥ (x - x₀)) := (mul_le_mul_of_nonneg_left h2 hk.le).trans h1
    linarith

/-- A normal distribution with positive definite covariance charges every open set. -/
theorem normalLaw_openPos (m : Fin p → ℝ) {S : Matrix (Fin p) (Fin p) ℝ} (hS : S.PosDef) :
    (normalLaw m S).IsOpenPosMeasure := by
  rw [normalLaw_eq_pdfLaw m hS]
  have : (volume : Measure (Fin p → ℝ)) ≪ pdfLaw m S :=
    withDensity_absolutelyContinuous' (continuous_pdf_shift S m).measurable.ennreal_ofReal.aemeasurable
      (.of_forall fun x => by simpa using normalPdf_pos hS _)
  exact this.isOpenPosMeasure

/-- **C135.** Normal initial distribution, linear model of full row rank, normal observations and the true
predicted distribution: the MUD points of `DensityProblem` with independent samples from any distribution that
charges every open set converge almost surely to the MUD point of `LinearGaussianProblem`. -/
theorem C135_mud {P : Measure Ω} {x : ℕ → Ω → Fin p → ℝ} {τ : Measure (Fin p → ℝ)} [IsProbabilityMeasure τ]
    [τ.IsOpenPosMeasure] (hi : iIndepFun x P) (hx : ∀ k, HasLaw (x k) τ P) (m s : Fin p → ℝ) (hs : ∀ j, 0 < s j)
    (A : Matrix (Fin q) (Fin p) ℝ) (hA : FullRowRank A) (b y t : Fin q → ℝ) (ht : ∀ j, 0 < t j)
    (α : ℝ) (hα : 0 < α) (dom : Option (Matrix (Fin p) (Fin 2) ℝ)) :
    ∃ x₀ : Fin p → ℝ, Returns (Api.solve "mud" A b y m (diagonal fun j => s j ^ 2) (diagonal fun j => t j ^ 2) α) x₀ ∧
      ∀ᵐ ω ∂P, ∃ e : ℕ → Fin p → ℝ,
        (∀ n, 0 < n → ∃ S, sampledProblem env (fun k => x k ω) (fun l => A *ᵥ l + b) dom none
          (normColumns m s) (normColumns y t)
          (mvNormal (A *ᵥ m + b) (A * (diagonal fun j => s j ^ 2) * Aᵀ)) n = .ok S ∧
          (DP.mudPoint env S).1 = .ok (List.ofFn (e n))) ∧
        Tendsto e atTop (𝓝 x₀) := by
  have hS := posDef_diagonal hs
  have hC := posDef_diagonal ht
  have hP : (A * (diagonal fun j => s j ^ 2) * Aᵀ).PosDef := posDef_conj hS A hA.inj
  obtain ⟨x₀, U, h1, -, hU, h2, -⟩ := C129_mode A hA b y m _ hS _ hC α hα
  refine ⟨x₀, h1, ?_⟩
  have e : updatedFn (fun l => normalPdf (diagonal fun j => s j ^ 2) (l - m)) none (fun l => A *ᵥ l + b)
      (fun z => normalPdf (diagonal fun j => t j ^ 2) (z - y))
      (fun z => normalPdf (A * (diagonal fun j => s j ^ 2) * Aᵀ) (z - (A *ᵥ m + b))) =
      fun l => 1 * normalPdf U (l - x₀) := by
    funext l
    rw [one_mul, ← h2]
    simp only [updatedFn, weightFn, Option.getD_none, mul_one]
    rfl
  have h := C134_converges (env := env) hi hx (Q := fun l => A *ᵥ l + b) none (normColumns_evaluates m hs)
    (normColumns_evaluates y ht) (mvNormal_evaluates _ _)
    (.of_forall fun l => (normalPdf_pos hP _).ne') dom (x₀ := x₀) (by rw [e]; exact normal_peak hU x₀ one_pos)
    (fun V hV h0 => hV.measure_ne_zero τ ⟨x₀, h0⟩)
  filter_upwards [h] with ω hω
  obtain ⟨e, he1, -, he2⟩ := hω
  exact ⟨e, he1, he2⟩

/-- **C135.** The probability that the estimate from `n` samples is not within `ε` of the MUD point of
`LinearGaussianProblem` decreases exponentially in `n`. -/
theorem C135_rate {P : Measure Ω} {x : ℕ → Ω → Fin p → ℝ} {τ : Measure (Fin p → ℝ)} [IsProbabilityMeasure τ]
    [τ.IsOpenPosMeasure] (hi : iIndepFun x P) (hx : ∀ k, HasLaw (x k) τ P) (m s : Fin p → ℝ) (hs : ∀ j, 0 < s j)
    (A : Matrix (Fin q) (Fin p) ℝ) (hA : FullRowRank A) (b y t : Fin q → ℝ) (ht : ∀ j, 0 < t j)
    (α : ℝ) (hα : 0 < α) (dom : Option (Matrix (Fin p) (Fin 2) ℝ)) :
    ∃ x₀ : Fin p → ℝ, Returns (Api.solve "mud" A b y m (diagonal fun j => s j ^ 2) (diagonal fun j => t j ^ 2) α) x₀ ∧
      ∀ ε > 0, ∃ r < 1, ∀ n, 0 < n →
        P {ω | ¬ ∃ S, ∃ e : Fin p → ℝ, sampledProblem env (fun k => x k ω) (fun l => A *ᵥ l + b) dom none
          (normColumns m s) (normColumns y t)
          (mvNormal (A *ᵥ m + b) (A * (diagonal fun j => s j ^ 2) * Aᵀ)) n = .ok S ∧
          (DP.mudPoint env S).1 = .ok (List.ofFn e) ∧ dist e x₀ < ε} ≤ r ^ n := by
  have hS := posDef_diagonal hs
  have hC := posDef_diagonal ht
  have hP : (A * (diagonal fun j => s j ^ 2) * Aᵀ).PosDef := posDef_conj hS A hA.inj
  obtain ⟨x₀, U, h1, -, hU, h2, -⟩ := C129_mode A hA b y m _ hS _ hC α hα
  refine ⟨x₀, h1, fun ε hε => ?_⟩
  have e : updatedFn (fun l => normalPdf (diagonal fun j => s j ^ 2) (l - m)) none (fun l => A *ᵥ l + b)
      (fun z => normalPdf (diagonal fun j => t j ^ 2) (z - y))
      (fun z => normalPdf (A * (diagonal fun j => s j ^ 2) * Aᵀ) (z - (A *ᵥ m + b))) =
      fun l => 1 * normalPdf U (l - x₀) := by
    funext l
    rw [one_mul, ← h2]
    simp only [updatedFn, weightFn, Option.getD_none, mul_one]
    rfl
  obtain ⟨η, hη, hsep⟩ := (normal_peak hU x₀ one_pos).sep ε hε
  have hsep' : ∀ l, ε ≤ dist l x₀ → updatedFn (fun l => normalPdf (diagonal fun j => s j ^ 2) (l - m)) none
      (fun l => A *ᵥ l + b) (fun z => normalPdf (diagonal fun j => t j ^ 2) (z - y))
      (fun z => normalPdf (A * (diagonal fun j => s j ^ 2) * Aᵀ) (z - (A *ᵥ m + b))) l ≤ η := by
    intro l hl
    rw [e]
    exact hsep l hl
  refine ⟨_, ?_, fun n hn => C134_rate (env := env) hi hx (Q := fun l => A *ᵥ l + b) (measurable_observe A b) none
    measurable_const (normColumns_evaluates m hs) (normColumns_evaluates y ht) (mvNormal_evaluates _ _)
    (continuous_pdf_shift _ _).measurable (continuous_pdf_shift _ _).measurable (continuous_pdf_shift _ _).measurable
    (.of_forall fun l => (normalPdf_pos hP _).ne') dom hsep' hn⟩
  refine ENNReal.sub_lt_self ENNReal.one_ne_top one_ne_zero ?_
  have ho : IsOpen {l | η < 1 * normalPdf U (l - x₀)} :=
    isOpen_lt continuous_const (continuous_const.mul (continuous_pdf_shift U x₀))
  rw [e]
  exact ho.measure_ne_zero τ ⟨x₀, hη⟩

/-! ## C136: `BayesProblem` -/

/-- `P = BayesProblem(X, y, domain)` where `X` are the first `n` samples and `y` the outputs of the model `Q` on
them; then `P.set_prior(dp)`, `P.set_likelihood(d)`. -/
noncomputable def sampledBayes (x : ℕ → Fin p → ℝ) (Q : (Fin p → ℝ) → Fin q → ℝ)
    (dom : Option (Matrix (Fin p) (Fin 2) ℝ)) (dp d : Dist) (n : ℕ) : Py BP := do
  let P ← BP.new (.mat ⟨n, p, .of fun k => x k⟩) (.mat ⟨n, q, .of fun k => Q (x k)⟩)
    (dom.map fun D => .mat ⟨p, 2, D⟩)
  return P.after [.setPrior (some dp), .setLikelihood d false]

theorem sampledBayes_new (x : ℕ → Fin p → ℝ) (Q : (Fin p → ℝ) → Fin q → ℝ)
    (dom : Option (Matrix (Fin p) (Fin 2) ℝ)) {n : ℕ} (hn : 0 < n) :
    ∃ P : BP, BP.new (.mat ⟨n, p, .of fun k => x k⟩) (.mat ⟨n, q, .of fun k => Q (x k)⟩)
      (dom.map fun D => .mat ⟨p, 2, D⟩) = .ok P ∧
      P.X = ⟨n, p, .of fun k => x k⟩ ∧ P.y = ⟨n, q, .of fun k => Q (x k)⟩ := by
  cases dom with
  | some D =>
    refine ⟨{ X := ⟨n, p, .of fun k => x k⟩, y := ⟨n, q, .of fun k => Q (x k)⟩, domain := ⟨p, 2, D⟩ }, ?_, rfl, rfl⟩
    unfold BP.new
    simp only [NArr.shapeRow, Option.map_some]
    rw [pyAssert_true trivial]
    rfl
  | none =>
    have hd : ∃ D, fitDomain (some (⟨n, p, .of fun k : Fin n => x k⟩ : Arr2)) none (1 / 10) false = .ok D := by
      unfold fitDomain
      simp only
      rw [if_neg (by simpa using hn.ne')]
      unfold padBounds
      rw [if_neg (by simp)]
      exact ⟨_, rfl⟩
    obtain ⟨D, hD⟩ := hd
    refine ⟨{ X := ⟨n, p, .of fun k => x k⟩, y := ⟨n, q, .of fun k => Q (x k)⟩, domain := D }, ?_, rfl, rfl⟩
    unfold BP.new
    simp only [NArr.shapeRow, Option.map_none]
    rw [hD]
    rfl

/-- **C136.** Independent samples from any distribution that charges the neighbourhoods of a peak `x₀` of
prior × likelihood: almost surely `estimate` returns as soon as there are enough samples, and the estimates
converge to `x₀`. -/
theorem C136_converges {P : Measure Ω} {x : ℕ → Ω → Fin p → ℝ} {τ : Measure (Fin p → ℝ)} [IsProbabilityMeasure τ]
    (hi : iIndepFun x P) (hx : ∀ k, HasLaw (x k) τ P) {Q : (Fin p → ℝ) → Fin q → ℝ}
    {dp d : Dist} {a : (Fin p → ℝ) → ℝ} {f : (Fin q → ℝ) → ℝ} (ha : dp.Evaluates a) (hf : d.Evaluates f)
    (ha0 : ∀ l, 0 ≤ a l) (hf0 : ∀ y, 0 ≤ f y) (dom : Option (Matrix (Fin p) (Fin 2) ℝ)) {x₀ : Fin p → ℝ}
    (hpos : 0 < a x₀ * f (Q x₀)) (hu : IsPeak (fun l => a l * f (Q l)) x₀)
    (hτ : ∀ U, IsOpen U → x₀ ∈ U → τ U ≠ 0) :
    ∀ᵐ ω ∂P, ∃ e : ℕ → Fin p → ℝ,
      (∀ᶠ n in atTop, ∃ S, sampledBayes (fun k => x k ω) Q dom dp d n = .ok S ∧
        (BP.mapPoint S).1 = .ok (List.ofFn (e n))) ∧
      Tendsto e atTop (𝓝 x₀) := by
  have hn : {l | 0 < a l * f (Q l)} ∈ 𝓝 x₀ := hu.cont.eventually_const_lt hpos
  obtain ⟨U, hUs, hUo, hU0⟩ := mem_nhds_iff.1 hn
  filter_upwards [hit_ae hi hx hUo.measurableSet (hτ U hUo hU0), best_converges hi hx hu hτ] with ω h1 h2
  obtain ⟨k, hk⟩ := h1
  have h0 : ∀ n, ∃ e, k < n → (∃ S, sampledBayes (fun k => x k ω) Q dom dp d n = .ok S ∧
      (BP.mapPoint S).1 = .ok (List.ofFn e)) ∧ BestOf (fun k => x k ω) (fun l => a l * f (Q l)) n e := by
    intro n
    by_cases hkn : k < n
    · obtain ⟨S, hS, hX, hy⟩ := sampledBayes_new (fun k => x k ω) Q dom (n := n) (by omega)
      obtain ⟨m, g1, -, g3⟩ := C40_plain S dp d (n := n) (by omega) (by rw [hX]) (fun i : Fin n => a (x i ω))
        (fun i : Fin n => f (Q (x i ω))) (by rw [hX]; exact ha n _) (by rw [hy]; exact hf n _)
        (ne_of_gt (Finset.sum_pos' (fun i _ => mul_nonneg (ha0 _) (hf0 _))
          ⟨⟨k, hkn⟩, Finset.mem_univ _, hUs hk⟩))
      refine ⟨x m ω, fun _ => ⟨⟨_, by rw [sampledBayes, hS]; rfl, g3.trans ?_⟩, m, m.2, rfl,
        fun i hin => g1 ⟨i, hin⟩⟩⟩
      rw [hX]
      simp [Arr2.get]
    · exact ⟨0, fun h => absurd h hkn⟩
  choose e he using h0
  exact ⟨e, eventually_atTop.2 ⟨k + 1, fun n hn => (he n hn).1⟩, h2 e (eventually_atTop.2 ⟨k + 1, fun n hn => (he n hn).2⟩)⟩

/-- **C136**, the linear Gaussian case: the MAP points of `BayesProblem` converge almost surely to the MAP point
of `LinearGaussianProblem`. -/
theorem C136_map {P : Measure Ω} {x : ℕ → Ω → Fin p → ℝ} {τ : Measure (Fin p → ℝ)} [IsProbabilityMeasure τ]
    [τ.IsOpenPosMeasure] (hi : iIndepFun x P) (hx : ∀ k, HasLaw (x k) τ P) (m s : Fin p → ℝ) (hs : ∀ j, 0 < s j)
    (A : Matrix (Fin q) (Fin p) ℝ) (b y t : Fin q → ℝ) (ht : ∀ j, 0 < t j)
    (dom : Option (Matrix (Fin p) (Fin 2) ℝ)) :
    ∃ x₀ : Fin p → ℝ, Returns (Api.solve "map" A b y m (diagonal fun j => s j ^ 2) (diagonal fun j => t j ^ 2) 1) x₀ ∧
      ∀ᵐ ω ∂P, ∃ e : ℕ → Fin p → ℝ,
        (∀ᶠ n in atTop, ∃ S, sampledBayes (fun k => x k ω) (fun l => A *ᵥ l + b) dom
          (normColumns m s) (normColumns y t) n = .ok S ∧ (BP.mapPoint S).1 = .ok (List.ofFn (e n))) ∧
        Tendsto e atTop (𝓝 x₀) := by
  have hS := posDef_diagonal hs
  have hC := posDef_diagonal ht
  obtain ⟨x₀, V, Z, -, h1, hV, ⟨hZ, -⟩, h2, -⟩ := C130_posterior A b y m _ hS _ hC 1 one_pos
  refine ⟨x₀, h1, ?_⟩
  have e : (fun l => normalPdf (diagonal fun j => s j ^ 2) (l - m) *
      normalPdf (diagonal fun j => t j ^ 2) (A *ᵥ l + b - y)) = fun l => Z * normalPdf V (l - x₀) := by
    funext l
    rw [← h2 l, one_smul, mul_div_cancel₀ _ hZ.ne', ← neg_sub (A *ᵥ l + b) y]
    congr 1
    unfold normalPdf
    rw [mulVec_neg, neg_dotProduct_neg]
  exact C136_converges hi hx (normColumns_evaluates m hs) (normColumns_evaluates y ht)
    (fun l => (normalPdf_pos hS _).le) (fun z => (normalPdf_pos hC _).le) dom
    (mul_pos (normalPdf_pos hS _) (normalPdf_pos hC _)) (by rw [e]; exact normal_peak hV x₀ hZ)
    (fun W hW h0 => hW.measure_ne_zero τ ⟨x₀, h0⟩)

/-! ## Cases -/

/-- C134, C135 and C136 on a model with two parameters and one output; the samples are drawn from the initial
distribution. -/
example (env : Env) : ∃ (P : Measure (ℕ → Fin 2 → ℝ)) (Q : (Fin 2 → ℝ) → Fin 1 → ℝ) (di do_ dp : Dist)
    (x₀ x₁ : Fin 2 → ℝ), IsProbabilityMeasure P ∧
    (∀ᵐ ω ∂P, ∃ e : ℕ → Fin 2 → ℝ, (∀ n, 0 < n → ∃ S, sampledProblem env (fun k => ω k) Q none none di do_ dp n = .ok S ∧
      (DP.mudPoint env S).1 = .ok (List.ofFn (e n))) ∧ Tendsto e atTop (𝓝 x₀)) ∧
    (∀ ε > 0, ∃ r < 1, ∀ n, 0 < n → P {ω | ¬ ∃ S, ∃ e : Fin 2 → ℝ, sampledProblem env (fun k => ω k) Q none none di do_ dp n = .ok S ∧
      (DP.mudPoint env S).1 = .ok (List.ofFn e) ∧ dist e x₀ < ε} ≤ r ^ n) ∧
    (∀ᵐ ω ∂P, ∃ e : ℕ → Fin 2 → ℝ, (∀ᶠ n in atTop, ∃ S, sampledBayes (fun k => ω k) Q none di do_ n = .ok S ∧
      (BP.mapPoint S).1 = .ok (List.ofFn (e n))) ∧ Tendsto e atTop (𝓝 x₁)) := by
  have hs : ∀ j : Fin 2, 0 < (![1, 2] : Fin 2 → ℝ) j := by intro j; fin_cases j <;> norm_num
  have ht : ∀ j : Fin 1, 0 < (![1 / 2] : Fin 1 → ℝ) j := by intro j; fin_cases j; norm_num
  have hA : FullRowRank (!![1, 2] : Matrix (Fin 1) (Fin 2) ℝ) := fun y =>
    ⟨![y 0, 0], by funext i; fin_cases i; simp⟩
  generalize (![1, 2] : Fin 2 → ℝ) = s at hs
  generalize (![1 / 2] : Fin 1 → ℝ) = t at ht
  generalize (!![1, 2] : Matrix (Fin 1) (Fin 2) ℝ) = A at hA
  have := pdfLaw_prob (![0, 1] : Fin 2 → ℝ) (posDef_diagonal hs)
  rw [← normalLaw_eq_pdfLaw _ (posDef_diagonal hs)] at this
  have := normalLaw_openPos (![0, 1] : Fin 2 → ℝ) (posDef_diagonal hs)
  obtain ⟨h1, h2⟩ := iid_coords (normalLaw ![0, 1] (diagonal fun j : Fin 2 => s j ^ 2))
  obtain ⟨x₀, r0, c0⟩ := C135_mud (env := env) (x := fun k (ω : ℕ → Fin 2 → ℝ) => ω k) h1 h2 ![0, 1] s hs A hA ![1] ![3] t
    ht 1 one_pos none
  obtain ⟨x₀', r0', c0'⟩ := C135_rate (env := env) (x := fun k (ω : ℕ → Fin 2 → ℝ) => ω k) h1 h2 ![0, 1] s hs A hA ![1] ![3]
    t ht 1 one_pos none
  have e0 : x₀' = x₀ := by
    have := r0'.symm.trans r0
    simpa [Arr2.col, funext_iff] using this
  subst e0
  obtain ⟨x₁, r1, c1⟩ := C136_map (x := fun k (ω : ℕ → Fin 2 → ℝ) => ω k) h1 h2 ![0, 1] s hs A ![1] ![3] t ht none
  exact ⟨_, _, _, _, _, _, _, inferInstance, c0, c0', c1⟩

end Verif
