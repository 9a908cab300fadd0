import Verif.Props.DensitySelect
import Verif.Lemmas.WhiteNoise
import Verif.Props.DensityDefault
import Verif.Props.UpdatedLaw
import Verif.Model.Funs
import Mathlib.Probability.StrongLaw

/-!
# C132: what the expected ratio estimates

Samples drawn independently, the model evaluated on them, the true initial, predicted and observed densities:
`expected_ratio` converges almost surely, and the limit is 1 iff the observed distribution is absolutely
continuous with respect to the predicted one.
-/

open MeasureTheory ProbabilityTheory Filter Topology

namespace Verif

variable {env : Env} {p q : ℕ} {Ω : Type} [MeasurableSpace Ω]

/-- `d.pdf(X).prod(axis=1)` are the values of `f` at the rows of `X`, on every table with `p` columns. -/
def Dist.Evaluates (d : Dist) (f : (Fin p → ℝ) → ℝ) : Prop :=
  ∀ (n : ℕ) (M : Matrix (Fin n) (Fin p) ℝ), densAt d ⟨n, p, M⟩ = .ok (List.ofFn fun k => F.fin (f (M k)))

/-- `d.pdf(y).ravel()` are the values of `g` at the rows of `y`, on every table with `q` columns. -/
def Dist.EvaluatesFlat (d : Dist) (g : (Fin q → ℝ) → ℝ) : Prop :=
  ∀ (n : ℕ) (M : Matrix (Fin n) (Fin q) ℝ),
    ∃ out, d.pdf ⟨n, q, M⟩ = .ok out ∧ out.ravel = List.ofFn fun k => F.fin (g (M k))

/-- `P = DensityProblem(X, y, domain, weights)` where `X` are the first `n` samples, `y` the outputs of the
model `Q` on them and `weights` (if given) the values of a weight function on them; then
`P.set_initial(di)`, `P.set_observed(do_)`, `P.set_predicted(dp)`. -/
noncomputable def sampledProblem (env : Env) (x : ℕ → Fin p → ℝ) (Q : (Fin p → ℝ) → Fin q → ℝ)
    (dom : Option (Matrix (Fin p) (Fin 2) ℝ)) (W : Option ((Fin p → ℝ) → ℝ)) (di do_ dp : Dist) (n : ℕ) : Py DP := do
  let P ← DP.new (.mat ⟨n, p, .of fun k => x k⟩) (.mat ⟨n, q, .of fun k => Q (x k)⟩)
    (dom.map fun D => .mat ⟨p, 2, D⟩) (W.map fun w => .vec n fun k => w (x k))
  return P.after env [.setInitial (some di), .setObserved (some do_), .setPredicted (some dp) 0 none]

/-- The weight of a sample: 1 unless weights are given. -/
def weightFn (W : Option ((Fin p → ℝ) → ℝ)) (x : Fin p → ℝ) : ℝ := (W.getD fun _ => 1) x

theorem sampled_new (x : ℕ → Fin p → ℝ) (Q : (Fin p → ℝ) → Fin q → ℝ)
    (dom : Option (Matrix (Fin p) (Fin 2) ℝ)) (W : Option ((Fin p → ℝ) → ℝ)) {n : ℕ} (hn : 0 < n) :
    ∃ P : DP, DP.new (.mat ⟨n, p, .of fun k => x k⟩) (.mat ⟨n, q, .of fun k => Q (x k)⟩)
      (dom.map fun D => .mat ⟨p, 2, D⟩) (W.map fun w => .vec n fun k => w (x k)) = .ok P ∧
      P.X = ⟨n, p, .of fun k => x k⟩ ∧ P.y = ⟨n, q, .of fun k => Q (x k)⟩ ∧
      P.weights = List.ofFn fun k : Fin n => F.fin (weightFn W (x k)) := by
  have hw : DP.weightsOf n n (W.map fun w => NArr.vec n fun k => w (x k)) false =
      .ok (List.ofFn fun k : Fin n => F.fin (weightFn W (x k))) := by
    cases W with
    | none =>
      show Except.ok (List.replicate n (F.fin 1)) = _
      rw [← List.ofFn_const]; rfl
    | some w =>
      show DP.weightsOf n n (some (NArr.vec n fun k => w (x k))) false = _
      rw [weightsOf_vec, pyAssert_true rfl]
      show Except.ok _ = _
      simp only [List.map_ofFn]
      rfl
  cases dom with
  | some D =>
    refine ⟨{ X := ⟨n, p, .of fun k => x k⟩, y := ⟨n, q, .of fun k => Q (x k)⟩, domain := ⟨p, 2, D⟩
              domInt := false, weights := List.ofFn fun k : Fin n => F.fin (weightFn W (x k)) }, ?_, rfl, rfl, rfl⟩
    unfold DP.new
    simp only [NArr.shapeRow, Option.map_some]
    rw [pyAssert_true trivial]
    show (do let w ← DP.weightsOf n n _ false; _) = _
    rw [hw]
    rfl
  | none =>
    have hd : ∃ D, fitDomain (some (⟨n, p, .of fun k : Fin n => x k⟩ : Arr2)) none (1 / 10) false = .ok D := by
      unfold fitDomain
      simp only
      rw [if_neg (by simpa using hn.ne')]
      unfold padBounds
      rw [if_neg (by simp)]
      exact ⟨_, rfl⟩
    obtain ⟨D, hD⟩ := hd
    refine ⟨{ X := ⟨n, p, .of fun k => x k⟩, y := ⟨n, q, .of fun k => Q (x k)⟩, domain := D
              domInt := false, weights := List.ofFn fun k : Fin n => F.fin (weightFn W (x k)) }, ?_, rfl, rfl, rfl⟩
    unfold DP.new
    simp only [NArr.shapeRow, NArr.shapeCol, Option.map_none]
    rw [hD]
    show (do let w ← DP.weightsOf n n _ false; _) = _
    rw [hw]
    rfl

/-- The expected ratio of a sampled problem, all predicted densities non-zero. -/
theorem sampled_ratio (x : ℕ → Fin p → ℝ) (Q : (Fin p → ℝ) → Fin q → ℝ)
    (dom : Option (Matrix (Fin p) (Fin 2) ℝ)) (W : Option ((Fin p → ℝ) → ℝ)) {di do_ dp : Dist}
    {a : (Fin p → ℝ) → ℝ} {f g : (Fin q → ℝ) → ℝ} (ha : di.Evaluates a) (hf : do_.Evaluates f)
    (hg : dp.EvaluatesFlat g) (hg0 : ∀ k, g (Q (x k)) ≠ 0) (hW : ∀ k, 0 < weightFn W (x k)) {n : ℕ} (hn : 0 < n) :
    ∃ P, sampledProblem env x Q dom W di do_ dp n = .ok P ∧ (DP.expectedRatio env P).1 =
      .ok (.fin ((∑ k ∈ Finset.range n, weightFn W (x k) * (f (Q (x k)) / g (Q (x k)))) /
        ∑ k ∈ Finset.range n, weightFn W (x k))) := by
  obtain ⟨P, hP, hX, hy, hw⟩ := sampled_new x Q dom W hn
  refine ⟨_, by rw [sampledProblem, hP]; rfl, ?_⟩
  rw [C34_weighted_mean P di do_ dp (fun k : Fin n => a (x k)) _ (fun k : Fin n => f (Q (x k)))
    (fun k : Fin n => g (Q (x k))) hw (by rw [hX]; exact ha n _) (by rw [hy]; exact hf n _)
    (by rw [hy]; exact hg n _) fun k => hg0 k]
  have hpos : 0 < ∑ k : Fin n, weightFn W (x k) :=
    Finset.sum_pos (fun k _ => hW k) ⟨⟨0, hn⟩, Finset.mem_univ _⟩
  rw [if_neg hpos.ne', Finset.sum_range, Finset.sum_range]

theorem lintegral_ratio {f g : (Fin q → ℝ) → ℝ} (hfm : Measurable f) (hgm : Measurable g) (hg : ∀ y, 0 ≤ g y) :
    ∫⁻ y, ENNReal.ofReal (f y / g y) ∂(volume.withDensity fun y => ENNReal.ofReal (g y)) =
      (volume.withDensity fun y => ENNReal.ofReal (f y)) {y | g y ≠ 0} := by
  have hm : MeasurableSet {y | g y ≠ 0} := hgm (measurableSet_singleton (0 : ℝ)).compl
  have hr : Measurable fun y => ENNReal.ofReal (f y / g y) := (hfm.div hgm).ennreal_ofReal
  rw [lintegral_withDensity_eq_lintegral_mul _ hgm.ennreal_ofReal hr,
    withDensity_apply _ hm, ← lintegral_indicator hm]
  refine lintegral_congr fun y => ?_
  by_cases h : g y = 0
  · simp [h]
  · rw [Set.indicator_of_mem (by exact h), Pi.mul_apply, ← ENNReal.ofReal_mul (hg y), mul_div_cancel₀ _ h]

/-- **C132.** Samples drawn independently from `τ` and weighted by `W > 0`, where `μ = W τ` is the initial
distribution (no weights: `μ = τ`); the density of the predicted distribution is the density `g` of the
distribution of the outputs, the observed distribution `ν` has the density `f`. Almost surely: `expected_ratio`
returns for every number of samples, and converges to the observed probability of the region where the
predicted density does not vanish. -/
theorem C132_limit {P : Measure Ω} {x : ℕ → Ω → Fin p → ℝ} {τ μ : Measure (Fin p → ℝ)} [IsProbabilityMeasure μ]
    (hi : iIndepFun x P) (hx : ∀ k, HasLaw (x k) τ P)
    (W : Option ((Fin p → ℝ) → ℝ)) (hWm : Measurable (weightFn W)) (hW : ∀ l, 0 < weightFn W l)
    (hμ : μ = τ.withDensity fun l => ENNReal.ofReal (weightFn W l))
    {Q : (Fin p → ℝ) → Fin q → ℝ} (hQ : Measurable Q)
    {di do_ dp : Dist} {a : (Fin p → ℝ) → ℝ} {f g : (Fin q → ℝ) → ℝ}
    (ha : di.Evaluates a) (hf : do_.Evaluates f) (hg : dp.EvaluatesFlat g)
    (hfm : Measurable f) (hf0 : ∀ y, 0 ≤ f y) (hgm : Measurable g) (hg0 : ∀ y, 0 ≤ g y)
    {ν : Measure (Fin q → ℝ)} [IsProbabilityMeasure ν] (hν : ν = volume.withDensity fun y => ENNReal.ofReal (f y))
    (hpred : μ.map Q = volume.withDensity fun y => ENNReal.ofReal (g y))
    (dom : Option (Matrix (Fin p) (Fin 2) ℝ)) :
    ∀ᵐ ω ∂P, ∃ r : ℕ → ℝ,
      (∀ n, 0 < n → ∃ S, sampledProblem env (fun k => x k ω) Q dom W di do_ dp n = .ok S ∧
        (DP.expectedRatio env S).1 = .ok (.fin (r n))) ∧
      Tendsto r atTop (𝓝 (ν {y | g y ≠ 0}).toReal) := by
  set w := weightFn W with hw
  set h : (Fin p → ℝ) → ℝ := fun l => w l * (f (Q l) / g (Q l)) with hh
  have hhm : Measurable h := hWm.mul ((hfm.comp hQ).div (hgm.comp hQ))
  have hh0 : ∀ l, 0 ≤ h l := fun l => mul_nonneg (hW l).le (div_nonneg (hf0 _) (hg0 _))
  have hprobP := hi.isProbabilityMeasure
  have hτ : IsProbabilityMeasure τ := by
    rw [← (hx 0).map_eq]; exact Measure.isProbabilityMeasure_map (hx 0).aemeasurable
  -- the two integrals
  have hint1 : ∫⁻ l, ENNReal.ofReal (w l) ∂τ = 1 := by
    have := measure_univ (μ := μ)
    rwa [hμ, withDensity_apply _ MeasurableSet.univ, setLIntegral_univ] at this
  have hint2 : ∫⁻ l, ENNReal.ofReal (h l) ∂τ = ν {y | g y ≠ 0} := by
    have hr : Measurable fun y => ENNReal.ofReal (f y / g y) := (hfm.div hgm).ennreal_ofReal
    have hr' : Measurable fun l => ENNReal.ofReal (f (Q l) / g (Q l)) := hr.comp hQ
    rw [hν, ← lintegral_ratio hfm hgm hg0, ← hpred, lintegral_map hr hQ, hμ,
      lintegral_withDensity_eq_lintegral_mul _ hWm.ennreal_ofReal hr']
    refine lintegral_congr fun l => ?_
    rw [Pi.mul_apply, ← ENNReal.ofReal_mul (hW l).le]
  have law : ∀ (φ : (Fin p → ℝ) → ℝ) (_ : Measurable φ) (_ : ∀ l, 0 ≤ φ l) (c : ENNReal), c ≠ ⊤ →
      ∫⁻ l, ENNReal.ofReal (φ l) ∂τ = c →
      ∀ᵐ ω ∂P, Tendsto (fun n : ℕ => (∑ k ∈ Finset.range n, φ (x k ω)) / n) atTop (𝓝 c.toReal) := by
    intro φ hφ h0 c hc hI
    have hiφ : Integrable φ τ := by
      refine ⟨hφ.aestronglyMeasurable, ?_⟩
      rw [hasFiniteIntegral_iff_ofReal (.of_forall h0), hI]
      exact lt_top_iff_ne_top.2 hc
    have hid : ∀ k, IdentDistrib (fun ω => φ (x k ω)) (fun ω => φ (x 0 ω)) P P := fun k =>
      (IdentDistrib.mk (hx k).aemeasurable (hx 0).aemeasurable ((hx k).map_eq.trans (hx 0).map_eq.symm)).comp hφ
    have hint : Integrable (fun ω => φ (x 0 ω)) P := by
      have h1 := (hx 0).map_eq
      rw [← h1] at hiφ
      exact hiφ.comp_aemeasurable (hx 0).aemeasurable
    have hval : ∫ ω, φ (x 0 ω) ∂P = c.toReal := by
      have h2 : ∫ ω, φ (x 0 ω) ∂P = ∫ l, φ l ∂τ := by
        rw [← (hx 0).map_eq, integral_map (hx 0).aemeasurable hφ.aestronglyMeasurable]
      rw [h2, integral_eq_lintegral_of_nonneg_ae (.of_forall h0) hφ.aestronglyMeasurable, hI]
    have := strong_law_ae_real (fun k ω => φ (x k ω)) hint
      (fun i j hij => (hi.indepFun hij).comp hφ hφ) hid
    filter_upwards [this] with ω hω
    rw [← hval]
    exact hω
  have l1 := law w hWm (fun l => (hW l).le) 1 ENNReal.one_ne_top hint1
  have l2 := law h hhm hh0 _ (measure_ne_top ν _) hint2
  have hz : ∀ᵐ ω ∂P, ∀ k, g (Q (x k ω)) ≠ 0 := by
    rw [ae_all_iff]
    intro k
    have h1 : ∀ᵐ y ∂(μ.map Q), g y ≠ 0 := by
      rw [hpred, ae_withDensity_iff hgm.ennreal_ofReal]
      exact .of_forall fun y hy h0 => hy (by rw [h0, ENNReal.ofReal_zero])
    have h2 : ∀ᵐ l ∂μ, g (Q l) ≠ 0 := ae_of_ae_map hQ.aemeasurable h1
    have h3 : ∀ᵐ l ∂τ, g (Q l) ≠ 0 := by
      rw [hμ, ae_withDensity_iff hWm.ennreal_ofReal] at h2
      filter_upwards [h2] with l hl
      exact hl (by simpa using hW l)
    rw [← (hx k).map_eq] at h3
    exact ae_of_ae_map (hx k).aemeasurable h3
  filter_upwards [l1, l2, hz] with ω h1 h2 h3
  refine ⟨fun n => (∑ k ∈ Finset.range n, h (x k ω)) / ∑ k ∈ Finset.range n, w (x k ω), fun n hn =>
    sampled_ratio (fun k => x k ω) Q dom W ha hf hg h3 (fun k => hW _) hn, ?_⟩
  have := h2.div h1 (by simp)
  rw [ENNReal.toReal_one, div_one] at this
  refine this.congr' ?_
  filter_upwards [eventually_gt_atTop 0] with n hn
  have : (n : ℝ) ≠ 0 := by exact_mod_cast hn.ne'
  exact div_div_div_cancel_right₀ this _ _

/-- **C132.** The limit is 1 iff the observed distribution is absolutely continuous with respect to the
distribution of the outputs (the predictability assumption). -/
theorem C132_one_iff {f g : (Fin q → ℝ) → ℝ} (hgm : Measurable g) (hg0 : ∀ y, 0 ≤ g y)
    {ν ρ : Measure (Fin q → ℝ)} [IsProbabilityMeasure ν] (hν : ν = volume.withDensity fun y => ENNReal.ofReal (f y))
    (hρ : ρ = volume.withDensity fun y => ENNReal.ofReal (g y)) :
    (ν {y | g y ≠ 0}).toReal = 1 ↔ ν ≪ ρ := by
  have hm : MeasurableSet {y | g y ≠ 0} := hgm (measurableSet_singleton (0 : ℝ)).compl
  constructor
  · intro h s hs
    have h1 : ν {y | g y ≠ 0} = 1 := by
      rwa [ENNReal.toReal_eq_one_iff] at h
    have h2 : ν {y | g y ≠ 0}ᶜ = 0 := (prob_compl_eq_zero_iff hm).2 h1
    -- restrict to `{g ≠ 0}`
    refine measure_mono_null (t := (s ∩ {y | g y ≠ 0}) ∪ {y | g y ≠ 0}ᶜ) ?_ ?_
    · intro y hy
      by_cases h : g y ≠ 0
      · exact .inl ⟨hy, h⟩
      · exact .inr h
    refine measure_union_null ?_ h2
    rw [hρ, withDensity_apply_eq_zero hgm.ennreal_ofReal] at hs
    rw [hν]
    refine withDensity_absolutelyContinuous _ _ (measure_mono_null ?_ hs)
    intro y hy
    refine ⟨?_, hy.1⟩
    have : 0 < g y := lt_of_le_of_ne (hg0 y) (Ne.symm hy.2)
    simpa using this
  · intro h
    have h0 : ρ {y | g y ≠ 0}ᶜ = 0 := by
      rw [hρ, withDensity_apply_eq_zero hgm.ennreal_ofReal]
      convert measure_empty (μ := (volume : Measure (Fin q → ℝ)))
      ext y
      simp
      intro h h'
      linarith
    rw [(prob_compl_eq_zero_iff hm).1 (h h0), ENNReal.toReal_one]

/-! ## Distributions of scipy that evaluate densities -/

/-- `scipy.stats.norm(loc=m, scale=s)` with one location and one scale per column.
Simplification: tables of another width are `unmodelled`. -/
noncomputable def normColumns (m s : Fin p → ℝ) : Dist where
  pdf A := if h : A.c = p then
      .ok (.tab (List.ofFn fun i => List.ofFn fun j : Fin p => Funs.normPdf (m j) (s j) (A.m i (Fin.cast h.symm j))))
    else .error .unmodelled
  logpdf _ := .error .unmodelled

/-- `scipy.stats.multivariate_normal(mean=m, cov=S)`, `S` positive definite.
Simplification: tables of another width are `unmodelled`. -/
noncomputable def mvNormal (m : Fin q → ℝ) (S : Matrix (Fin q) (Fin q) ℝ) : Dist where
  pdf A := if h : A.c = q then
      .ok (.vec (List.ofFn fun i => F.fin (normalPdf S fun j => A.m i (Fin.cast h.symm j) - m j)))
    else .error .unmodelled
  logpdf _ := .error .unmodelled

theorem normalPdf_diagonal {s : Fin p → ℝ} (hs : ∀ j, 0 < s j) (z : Fin p → ℝ) :
    normalPdf (Matrix.diagonal fun j => s j ^ 2) z =
      ∏ j, Real.exp (-(z j / s j) ^ 2 / 2) / (s j * Real.sqrt (2 * Real.pi)) := by
  have hinv : (Matrix.diagonal fun j => s j ^ 2)⁻¹ = Matrix.diagonal fun j => (s j ^ 2)⁻¹ := by
    refine Matrix.inv_eq_right_inv ?_
    rw [Matrix.diagonal_mul_diagonal, ← Matrix.diagonal_one]
    congr 1
    funext j
    exact mul_inv_cancel₀ (pow_ne_zero 2 (hs j).ne')
  unfold normalPdf
  rw [hinv, Finset.prod_div_distrib, ← Real.exp_sum]
  congr 1
  · congr 1
    rw [← Finset.sum_div]
    congr 1
    simp only [dotProduct, Matrix.mulVec_diagonal, ← Finset.sum_neg_distrib]
    refine Finset.sum_congr rfl fun j _ => ?_
    have := (hs j).ne'
    field_simp
  · rw [Matrix.det_diagonal, Finset.prod_mul_distrib, Finset.prod_const, Finset.card_univ, Fintype.card_fin,
      Finset.prod_pow, mul_comm, Real.sqrt_mul (sq_nonneg _), Real.sqrt_sq (Finset.prod_nonneg fun j _ => (hs j).le)]
    congr 1
    rw [Real.sqrt_eq_rpow, Real.sqrt_eq_rpow, ← Real.rpow_natCast, ← Real.rpow_natCast,
      ← Real.rpow_mul (by positivity), ← Real.rpow_mul (by positivity), mul_comm (1 / 2 : ℝ)]

/-- `norm(loc, scale)` evaluates the density of the normal distribution with independent entries. -/
theorem normColumns_evaluates (m : Fin p → ℝ) {s : Fin p → ℝ} (hs : ∀ j, 0 < s j) :
    (normColumns m s).Evaluates fun x => normalPdf (Matrix.diagonal fun j => s j ^ 2) (x - m) := by
  intro n M
  have e : (normColumns m s).pdf ⟨n, p, M⟩ =
      .ok (.tab (List.ofFn fun i => List.ofFn fun j : Fin p => Funs.normPdf (m j) (s j) (M i j))) := dif_pos rfl
  unfold densAt
  rw [e]
  show Except.ok _ = _
  rw [List.map_ofFn]
  congr 2
  funext k
  simp only [Function.comp]
  rw [List.prod_ofFn, normalPdf_diagonal hs, ← F.prod_fin]
  refine Finset.prod_congr rfl fun j _ => ?_
  rw [Funs.normPdf, if_pos (hs j)]
  rfl

/-- `multivariate_normal(mean, cov)` evaluates the density of the normal distribution. -/
theorem mvNormal_evaluates (m : Fin q → ℝ) (S : Matrix (Fin q) (Fin q) ℝ) :
    (mvNormal m S).EvaluatesFlat fun y => normalPdf S (y - m) := by
  intro n M
  exact ⟨_, dif_pos rfl, rfl⟩

theorem posDef_diagonal {s : Fin p → ℝ} (hs : ∀ j, 0 < s j) : (Matrix.diagonal fun j => s j ^ 2).PosDef :=
  Matrix.PosDef.diagonal fun j => pow_pos (hs j) 2

/-- **C132**, the linear Gaussian case: samples from the normal initial distribution, a linear model of full row
rank and normal observations. The expected ratio converges to 1, whatever the data. -/
theorem C132_linear {P : Measure Ω} {x : ℕ → Ω → Fin p → ℝ} (m s : Fin p → ℝ) (hs : ∀ j, 0 < s j)
    (hi : iIndepFun x P) (hx : ∀ k, HasLaw (x k) (normalLaw m (Matrix.diagonal fun j => s j ^ 2)) P)
    (A : Matrix (Fin q) (Fin p) ℝ) (hA : FullRowRank A) (b y t : Fin q → ℝ) (ht : ∀ j, 0 < t j) :
    ∀ᵐ ω ∂P, ∃ r : ℕ → ℝ,
      (∀ n, 0 < n → ∃ S, sampledProblem env (fun k => x k ω) (fun l => A.mulVec l + b) none none
        (normColumns m s) (normColumns y t)
        (mvNormal (A.mulVec m + b) (A * (Matrix.diagonal fun j => s j ^ 2) * A.transpose)) n = .ok S ∧
        (DP.expectedRatio env S).1 = .ok (.fin (r n))) ∧
      Tendsto r atTop (𝓝 1) := by
  have hS := posDef_diagonal hs
  have hC := posDef_diagonal ht
  have hP : (A * (Matrix.diagonal fun j => s j ^ 2) * A.transpose).PosDef := posDef_conj hS A hA.inj
  have := pdfLaw_prob m hS
  have hpr : IsProbabilityMeasure (normalLaw m (Matrix.diagonal fun j => s j ^ 2)) := by
    rw [normalLaw_eq_pdfLaw _ hS]; infer_instance
  have := pdfLaw_prob y hC
  have hgp : ∀ z, 0 < normalPdf (A * (Matrix.diagonal fun j => s j ^ 2) * A.transpose) (z - (A.mulVec m + b)) :=
    fun z => normalPdf_pos hP _
  have h := C132_limit (env := env) (μ := normalLaw m (Matrix.diagonal fun j => s j ^ 2)) hi hx none measurable_const
    (fun _ => one_pos) (by simp [weightFn]) (measurable_observe A b) (normColumns_evaluates m hs)
    (normColumns_evaluates y ht) (mvNormal_evaluates _ _) (continuous_pdf_shift _ y).measurable
    (fun z => (normalPdf_pos hC _).le) (continuous_pdf_shift _ _).measurable (fun z => (hgp z).le)
    (ν := pdfLaw y (Matrix.diagonal fun j => t j ^ 2)) rfl
    (by rw [normalLaw_map m hS.posSemidef, normalLaw_eq_pdfLaw _ hP]; rfl) none
  have e : {z | normalPdf (A * (Matrix.diagonal fun j => s j ^ 2) * A.transpose) (z - (A.mulVec m + b)) ≠ 0} =
      Set.univ := Set.eq_univ_of_forall fun z => (hgp z).ne'
  rw [e, measure_univ, ENNReal.toReal_one] at h
  exact h

/-- Independent samples with law `τ`: the coordinates of a random sequence. -/
theorem iid_coords (τ : Measure (Fin p → ℝ)) [IsProbabilityMeasure τ] :
    iIndepFun (fun (k : ℕ) (ω : ℕ → Fin p → ℝ) => ω k) (Measure.infinitePi fun _ : ℕ => τ) ∧
    ∀ k, HasLaw (fun ω : ℕ → Fin p → ℝ => ω k) τ (Measure.infinitePi fun _ : ℕ => τ) :=
  ⟨iIndepFun_infinitePi (X := fun _ x => x) fun _ => measurable_id,
    fun k => (measurePreserving_eval_infinitePi (fun _ : ℕ => τ) k).hasLaw⟩

/-- **C132**, importance sampling: samples drawn from a positive density `t` with the weights `a / t` estimate
the same limit as samples drawn from the initial density `a`. -/
theorem C132_importance {P : Measure Ω} {x : ℕ → Ω → Fin p → ℝ} {a t : (Fin p → ℝ) → ℝ}
    (ham : Measurable a) (ha0 : ∀ l, 0 < a l) (htm : Measurable t) (ht0 : ∀ l, 0 < t l)
    (hi : iIndepFun x P) (hx : ∀ k, HasLaw (x k) (volume.withDensity fun l => ENNReal.ofReal (t l)) P)
    [IsProbabilityMeasure (volume.withDensity fun l => ENNReal.ofReal (a l))]
    {Q : (Fin p → ℝ) → Fin q → ℝ} (hQ : Measurable Q) {di do_ dp : Dist} {f g : (Fin q → ℝ) → ℝ}
    (ha : di.Evaluates a) (hf : do_.Evaluates f) (hg : dp.EvaluatesFlat g)
    (hfm : Measurable f) (hf0 : ∀ y, 0 ≤ f y) (hgm : Measurable g) (hg0 : ∀ y, 0 ≤ g y)
    {ν : Measure (Fin q → ℝ)} [IsProbabilityMeasure ν] (hν : ν = volume.withDensity fun y => ENNReal.ofReal (f y))
    (hpred : (volume.withDensity fun l => ENNReal.ofReal (a l)).map Q =
      volume.withDensity fun y => ENNReal.ofReal (g y))
    (dom : Option (Matrix (Fin p) (Fin 2) ℝ)) :
    ∀ᵐ ω ∂P, ∃ r : ℕ → ℝ,
      (∀ n, 0 < n → ∃ S, sampledProblem env (fun k => x k ω) Q dom (some fun l => a l / t l) di do_ dp n = .ok S ∧
        (DP.expectedRatio env S).1 = .ok (.fin (r n))) ∧
      Tendsto r atTop (𝓝 (ν {y | g y ≠ 0}).toReal) := by
  have hm : Measurable fun l => a l / t l := ham.div htm
  refine C132_limit (μ := volume.withDensity fun l => ENNReal.ofReal (a l)) hi hx (some fun l => a l / t l)
    hm (fun l => div_pos (ha0 l) (ht0 l)) ?_ hQ ha hf hg hfm hf0 hgm hg0 hν hpred dom
  show _ = (volume.withDensity fun l => ENNReal.ofReal (t l)).withDensity fun l => ENNReal.ofReal (a l / t l)
  rw [← withDensity_mul _ htm.ennreal_ofReal hm.ennreal_ofReal]
  congr 1
  funext l
  rw [Pi.mul_apply, ← ENNReal.ofReal_mul (ht0 l).le, mul_div_cancel₀ _ (ht0 l).ne']

/-! ## Cases -/

/-- C132 on a model with two parameters and one output. -/
example (env : Env) : ∃ (P : Measure (ℕ → Fin 2 → ℝ)) (Q : (Fin 2 → ℝ) → Fin 1 → ℝ) (di do_ dp : Dist),
    IsProbabilityMeasure P ∧ ∀ᵐ ω ∂P, ∃ r : ℕ → ℝ,
    (∀ n, 0 < n → ∃ S, sampledProblem env (fun k => ω k) Q none none di do_ dp n = .ok S ∧
      (DP.expectedRatio env S).1 = .ok (.fin (r n))) ∧ Tendsto r atTop (𝓝 1) := by
  have hs : ∀ j : Fin 2, 0 < (![1, 2] : Fin 2 → ℝ) j := by intro j; fin_cases j <;> norm_num
  generalize (![1, 2] : Fin 2 → ℝ) = s at hs
  have := pdfLaw_prob (![0, 1] : Fin 2 → ℝ) (posDef_diagonal hs)
  rw [← normalLaw_eq_pdfLaw _ (posDef_diagonal hs)] at this
  obtain ⟨h1, h2⟩ := iid_coords (normalLaw ![0, 1] (Matrix.diagonal fun j : Fin 2 => s j ^ 2))
  exact ⟨_, _, _, _, _, inferInstance, C132_linear (env := env) (x := fun k (ω : ℕ → Fin 2 → ℝ) => ω k) ![0, 1] s hs h1 h2
    (!![1, 2] : Matrix (Fin 1) (Fin 2) ℝ) (fun y => ⟨![y 0, 0], by funext i; fin_cases i; simp⟩) ![1] ![3] ![1 / 2]
    (by intro j; fin_cases j; norm_num)⟩

/-- The uniform density on a box. -/
noncomputable def boxDensity (D : Matrix (Fin p) (Fin 2) ℝ) : (Fin p → ℝ) → ℝ :=
  (Set.Icc (fun j => D j 0) fun j => D j 1).indicator
    fun _ => 1 / (volume (Set.Icc (fun j => D j 0) fun j => D j 1)).toReal

/-- The uniform distribution on a box. -/
noncomputable def boxLaw (D : Matrix (Fin p) (Fin 2) ℝ) : Measure (Fin p → ℝ) :=
  volume.withDensity fun x => ENNReal.ofReal (boxDensity D x)

theorem measurable_boxDensity (D : Matrix (Fin p) (Fin 2) ℝ) : Measurable (boxDensity D) :=
  measurable_const.indicator measurableSet_Icc

theorem boxDensity_nonneg (D : Matrix (Fin p) (Fin 2) ℝ) (x : Fin p → ℝ) : 0 ≤ boxDensity D x :=
  Set.indicator_nonneg (fun _ _ => by positivity) x

theorem volume_box_pos {D : Matrix (Fin p) (Fin 2) ℝ} (hD : ∀ j, D j 0 < D j 1) :
    0 < (volume (Set.Icc (fun j => D j 0) fun j => D j 1)).toReal := by
  rw [Real.volume_Icc_pi_toReal fun j => (hD j).le]
  exact Finset.prod_pos fun j _ => by linarith [hD j]

/-- The probability of a set under the uniform distribution. -/
theorem boxLaw_apply {D : Matrix (Fin p) (Fin 2) ℝ} (hD : ∀ j, D j 0 < D j 1) {s : Set (Fin p → ℝ)}
    (hs : MeasurableSet s) : (boxLaw D s).toReal =
      (volume (s ∩ Set.Icc (fun j => D j 0) fun j => D j 1)).toReal /
        (volume (Set.Icc (fun j => D j 0) fun j => D j 1)).toReal := by
  have hv := volume_box_pos hD
  rw [boxLaw, withDensity_apply _ hs]
  have e : ∀ x, ENNReal.ofReal (boxDensity D x) = (Set.Icc (fun j => D j 0) fun j => D j 1).indicator
      (fun _ => ENNReal.ofReal (1 / (volume (Set.Icc (fun j => D j 0) fun j => D j 1)).toReal)) x := by
    intro x
    unfold boxDensity
    by_cases h : x ∈ Set.Icc (fun j => D j 0) fun j => D j 1
    · rw [Set.indicator_of_mem h, Set.indicator_of_mem h]
    · rw [Set.indicator_of_notMem h, Set.indicator_of_notMem h, ENNReal.ofReal_zero]
  simp only [e]
  rw [lintegral_indicator measurableSet_Icc, lintegral_const, Measure.restrict_restrict measurableSet_Icc,
    Measure.restrict_apply MeasurableSet.univ, Set.univ_inter, ENNReal.toReal_mul,
    ENNReal.toReal_ofReal (by positivity), Set.inter_comm]
  field_simp

theorem boxLaw_prob {D : Matrix (Fin p) (Fin 2) ℝ} (hD : ∀ j, D j 0 < D j 1) : IsProbabilityMeasure (boxLaw D) := by
  refine ⟨(ENNReal.toReal_eq_one_iff _).1 ?_⟩
  rw [boxLaw_apply hD MeasurableSet.univ, Set.univ_inter, div_self (volume_box_pos hD).ne']

theorem uniform_evaluates {D : Matrix (Fin p) (Fin 2) ℝ} (hD : ∀ j, D j 0 < D j 1) :
    (uniformOn ⟨p, 2, D⟩).Evaluates (boxDensity D) := fun _ M => C28_default_initial M D hD

theorem ravel_single (f : ℕ → ℝ → F) {n : ℕ} (M : Matrix (Fin n) (Fin 1) ℝ) :
    (FOut.tab (rowsOf f ⟨n, 1, M⟩)).ravel = (rowsOf f ⟨n, 1, M⟩).map List.prod := by
  have e : rowsOf f ⟨n, 1, M⟩ = List.ofFn fun i => [f 0 (M i 0)] := by simp [rowsOf]
  rw [e, FOut.ravel, List.map_ofFn, List.ofFn_eq_map, List.ofFn_eq_map, List.flatten_eq_flatMap, List.flatMap_map]
  simp only [Function.comp_def, List.prod_singleton]
  exact List.flatMap_pure_eq_map _ _

theorem uniform_evaluatesFlat {D : Matrix (Fin 1) (Fin 2) ℝ} (hD : ∀ j, D j 0 < D j 1) :
    (uniformOn ⟨1, 2, D⟩).EvaluatesFlat (boxDensity D) := by
  intro n M
  have h : densAt (uniformOn ⟨1, 2, D⟩) ⟨n, 1, M⟩ = .ok (List.ofFn fun k => F.fin (boxDensity D (M k))) :=
    C28_default_initial M D hD
  unfold densAt uniformOn at h
  simp only [OfNat.ofNat_ne_zero, false_and, if_false, Py.ok_bind, FOut.prodRows] at h
  refine ⟨_, by unfold uniformOn; simp only [OfNat.ofNat_ne_zero, false_and, if_false]; rfl, ?_⟩
  rw [ravel_single]
  exact Except.ok.inj h

/-- C132: parameters uniform on `[0, 1]`, the identity as model, observations uniform on `[0, 2]`: half of the
observed distribution cannot be predicted, and the expected ratio converges to 1/2. -/
example (env : Env) : ∀ᵐ ω ∂(Measure.infinitePi fun _ : ℕ => boxLaw (!![0, 1] : Matrix (Fin 1) (Fin 2) ℝ)),
    ∃ r : ℕ → ℝ, (∀ n, 0 < n → ∃ S, sampledProblem env (fun k => ω k) id (some !![0, 1]) none
        (uniformOn ⟨1, 2, !![0, 1]⟩) (uniformOn ⟨1, 2, !![0, 2]⟩) (uniformOn ⟨1, 2, !![0, 1]⟩) n = .ok S ∧
        (DP.expectedRatio env S).1 = .ok (.fin (r n))) ∧ Tendsto r atTop (𝓝 (1 / 2)) := by
  have h1 : ∀ j : Fin 1, (!![0, 1] : Matrix (Fin 1) (Fin 2) ℝ) j 0 < (!![0, 1] : Matrix (Fin 1) (Fin 2) ℝ) j 1 := by
    intro j; fin_cases j; norm_num
  have h2 : ∀ j : Fin 1, (!![0, 2] : Matrix (Fin 1) (Fin 2) ℝ) j 0 < (!![0, 2] : Matrix (Fin 1) (Fin 2) ℝ) j 1 := by
    intro j; fin_cases j; norm_num
  have := boxLaw_prob h1
  have := boxLaw_prob h2
  obtain ⟨i1, i2⟩ := iid_coords (boxLaw (!![0, 1] : Matrix (Fin 1) (Fin 2) ℝ))
  have h := C132_limit (env := env) (μ := boxLaw (!![0, 1] : Matrix (Fin 1) (Fin 2) ℝ)) i1 i2 none measurable_const
    (fun _ => one_pos) (by simp [weightFn]) measurable_id (uniform_evaluates h1) (uniform_evaluates h2)
    (uniform_evaluatesFlat h1) (measurable_boxDensity _) (boxDensity_nonneg _) (measurable_boxDensity _)
    (boxDensity_nonneg _) (ν := boxLaw (!![0, 2] : Matrix (Fin 1) (Fin 2) ℝ)) rfl Measure.map_id (some !![0, 1])
  have e : {y | boxDensity (!![0, 1] : Matrix (Fin 1) (Fin 2) ℝ) y ≠ 0} =
      Set.Icc (fun j => (!![0, 1] : Matrix (Fin 1) (Fin 2) ℝ) j 0) fun j => (!![0, 1] : Matrix (Fin 1) (Fin 2) ℝ) j 1 := by
    ext y
    unfold boxDensity
    by_cases hy : y ∈ Set.Icc (fun j => (!![0, 1] : Matrix (Fin 1) (Fin 2) ℝ) j 0)
        fun j => (!![0, 1] : Matrix (Fin 1) (Fin 2) ℝ) j 1
    · have := volume_box_pos h1
      simp only [Set.mem_ofPred_eq, Set.indicator_of_mem hy, hy, iff_true]
      positivity
    · simp only [Set.mem_ofPred_eq, Set.indicator_of_notMem hy, hy, ne_eq, not_true]
  rw [e, boxLaw_apply h2 measurableSet_Icc, Set.inter_eq_left.2, Real.volume_Icc_pi_toReal fun j => (h1 j).le,
    Real.volume_Icc_pi_toReal fun j => (h2 j).le] at h
  · simpa using h
  · refine Set.Icc_subset_Icc (fun j => ?_) fun j => ?_ <;> fin_cases j <;> simp

/-- Half of the observed distribution cannot be predicted: it is not absolutely continuous. -/
example : ¬ boxLaw (!![0, 2] : Matrix (Fin 1) (Fin 2) ℝ) ≪ boxLaw (!![0, 1] : Matrix (Fin 1) (Fin 2) ℝ) := by
  have h1 : ∀ j : Fin 1, (!![0, 1] : Matrix (Fin 1) (Fin 2) ℝ) j 0 < (!![0, 1] : Matrix (Fin 1) (Fin 2) ℝ) j 1 := by
    intro j; fin_cases j; norm_num
  have h2 : ∀ j : Fin 1, (!![0, 2] : Matrix (Fin 1) (Fin 2) ℝ) j 0 < (!![0, 2] : Matrix (Fin 1) (Fin 2) ℝ) j 1 := by
    intro j; fin_cases j; norm_num
  have := boxLaw_prob h2
  rw [← C132_one_iff (measurable_boxDensity _) (boxDensity_nonneg _)
    (ν := boxLaw (!![0, 2] : Matrix (Fin 1) (Fin 2) ℝ)) rfl
    (show boxLaw (!![0, 1] : Matrix (Fin 1) (Fin 2) ℝ) = _ from rfl)]
  have hs : {y | boxDensity (!![0, 1] : Matrix (Fin 1) (Fin 2) ℝ) y ≠ 0} ⊆
      Set.Icc (fun j => (!![0, 1] : Matrix (Fin 1) (Fin 2) ℝ) j 0) fun j => (!![0, 1] : Matrix (Fin 1) (Fin 2) ℝ) j 1 := by
    intro y hy
    by_contra h
    exact hy (Set.indicator_of_notMem h _)
  refine ne_of_lt (lt_of_le_of_lt (ENNReal.toReal_mono (measure_ne_top _ _) (measure_mono hs)) ?_)
  rw [boxLaw_apply h2 measurableSet_Icc, Set.inter_eq_left.2, Real.volume_Icc_pi_toReal fun j => (h1 j).le,
    Real.volume_Icc_pi_toReal fun j => (h2 j).le]
  · norm_num
  · refine Set.Icc_subset_Icc (fun j => ?_) fun j => ?_ <;> fin_cases j <;> simp

/-- C132, importance sampling: the initial distribution is `N(1, 1)`, the samples are drawn from `N(0, 4)`. -/
example (env : Env) : ∃ (P : Measure (ℕ → Fin 1 → ℝ)) (W : (Fin 1 → ℝ) → ℝ) (di do_ dp : Dist),
    IsProbabilityMeasure P ∧ ∀ᵐ ω ∂P, ∃ r : ℕ → ℝ,
    (∀ n, 0 < n → ∃ S, sampledProblem env (fun k => ω k) id none (some W) di do_ dp n = .ok S ∧
      (DP.expectedRatio env S).1 = .ok (.fin (r n))) ∧ Tendsto r atTop (𝓝 1) := by
  have hs : ∀ j : Fin 1, 0 < (![1] : Fin 1 → ℝ) j := by intro j; fin_cases j; norm_num
  have hs2 : ∀ j : Fin 1, 0 < (![2] : Fin 1 → ℝ) j := by intro j; fin_cases j; norm_num
  have i0 := pdfLaw_prob (![1] : Fin 1 → ℝ) (posDef_diagonal hs)
  unfold pdfLaw at i0
  have i1 := pdfLaw_prob (![0] : Fin 1 → ℝ) (posDef_diagonal hs2)
  have i2 := pdfLaw_prob (![3] : Fin 1 → ℝ) (posDef_diagonal hs)
  obtain ⟨h1, h2⟩ := iid_coords (pdfLaw ![0] (Matrix.diagonal fun j : Fin 1 => ![2] j ^ 2))
  have h := C132_importance (env := env) (x := fun k (ω : ℕ → Fin 1 → ℝ) => ω k) (continuous_pdf_shift _ _).measurable
    (fun l => normalPdf_pos (posDef_diagonal hs) (l - ![1])) (continuous_pdf_shift _ _).measurable
    (fun l => normalPdf_pos (posDef_diagonal hs2) (l - ![0])) h1 h2 measurable_id (normColumns_evaluates ![1] hs)
    (normColumns_evaluates ![3] hs) (mvNormal_evaluates ![1] _) (continuous_pdf_shift _ _).measurable
    (fun l => (normalPdf_pos (posDef_diagonal hs) _).le) (continuous_pdf_shift _ _).measurable
    (fun l => (normalPdf_pos (posDef_diagonal hs) _).le)
    (ν := pdfLaw ![3] (Matrix.diagonal fun j : Fin 1 => ![1] j ^ 2)) rfl Measure.map_id none
  have e : {z | normalPdf (Matrix.diagonal fun j : Fin 1 => (![1] : Fin 1 → ℝ) j ^ 2) (z - ![1]) ≠ 0} = Set.univ :=
    Set.eq_univ_of_forall fun z => (normalPdf_pos (posDef_diagonal hs) _).ne'
  rw [e, measure_univ, ENNReal.toReal_one] at h
  exact ⟨_, _, _, _, _, inferInstance, h⟩

end Verif
