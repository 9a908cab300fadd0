import Verif.Props.KdeMud

/-!
# C146, C147: expected ratio and reweighted samples with the default predicted density

`DensityProblem` with independent samples and no predicted density given: the diagnostic `expected_ratio` and the averages
over the samples weighted by the ratios of the first fit.
-/

open MeasureTheory ProbabilityTheory Filter Topology WithLp Complex

namespace Verif

variable {p q : ℕ} {Ω : Type} [MeasurableSpace Ω] {user : ℕ → ℝ → ℕ → ℝ}

/-- Averages of `rn n k * φ k` with weights, when `rn n` approaches `r` up to errors that are small on average. -/
theorem reweighted {w r φ : ℕ → ℝ} {rn : ℕ → ℕ → ℝ} {L B : ℝ} (hw : ∀ k, 0 ≤ w k)
    (hone : Tendsto (fun n : ℕ => (n : ℝ)⁻¹ * ∑ k ∈ Finset.range n, w k) atTop (𝓝 1)) (hφ : ∀ k, |φ k| ≤ B)
    (hL : Tendsto (fun n : ℕ => (n : ℝ)⁻¹ * ∑ k ∈ Finset.range n, w k * (r k * φ k)) atTop (𝓝 L))
    (hψ : ∀ ε > 0, ∃ (ψ : ℕ → ℝ) (c : ℝ), c < ε ∧
      Tendsto (fun n : ℕ => (n : ℝ)⁻¹ * ∑ k ∈ Finset.range n, w k * ψ k) atTop (𝓝 c) ∧
      ∀ᶠ n in atTop, ∀ k, |rn n k - r k| ≤ ψ k) :
    Tendsto (fun n : ℕ => (∑ k ∈ Finset.range n, w k * (rn n k * φ k)) / ∑ k ∈ Finset.range n, w k) atTop (𝓝 L) := by
  have hB : 0 ≤ B := (abs_nonneg _).trans (hφ 0)
  have h1 : Tendsto (fun n : ℕ => (n : ℝ)⁻¹ * ∑ k ∈ Finset.range n, w k * (rn n k * φ k)) atTop (𝓝 L) := by
    have h2 : Tendsto (fun n : ℕ => (n : ℝ)⁻¹ * ∑ k ∈ Finset.range n, w k * ((rn n k - r k) * φ k)) atTop (𝓝 0) := by
      rw [Metric.tendsto_nhds]
      intro ε hε
      obtain ⟨ψ, c, hc, h3, h4⟩ := hψ (ε / (B + 1)) (by positivity)
      filter_upwards [h3.eventually_lt_const hc, h4] with n a1 a2
      rw [Real.dist_eq, sub_zero, abs_mul, abs_of_nonneg (by positivity)]
      have h5 : |∑ k ∈ Finset.range n, w k * ((rn n k - r k) * φ k)| ≤
          (∑ k ∈ Finset.range n, w k * ψ k) * B := by
        rw [Finset.sum_mul]
        refine (Finset.abs_sum_le_sum_abs _ _).trans (Finset.sum_le_sum fun k _ => ?_)
        rw [abs_mul, abs_mul, abs_of_nonneg (hw k), mul_assoc]
        exact mul_le_mul_of_nonneg_left (mul_le_mul (a2 k) (hφ k) (abs_nonneg _) ((abs_nonneg _).trans (a2 k))) (hw k)
      calc (n : ℝ)⁻¹ * |∑ k ∈ Finset.range n, w k * ((rn n k - r k) * φ k)|
          ≤ (n : ℝ)⁻¹ * ((∑ k ∈ Finset.range n, w k * ψ k) * B) := mul_le_mul_of_nonneg_left h5 (by positivity)
        _ = ((n : ℝ)⁻¹ * ∑ k ∈ Finset.range n, w k * ψ k) * B := by ring
        _ ≤ ε / (B + 1) * B := mul_le_mul_of_nonneg_right a1.le hB
        _ < ε := by
          rw [div_mul_eq_mul_div, div_lt_iff₀ (by positivity)]
          nlinarith
    have h3 := h2.add hL
    rw [zero_add] at h3
    refine h3.congr fun n => ?_
    rw [← mul_add, ← Finset.sum_add_distrib]
    congr 1
    exact Finset.sum_congr rfl fun k _ => by ring
  have h2 := h1.div hone one_ne_zero
  rw [div_one] at h2
  refine h2.congr' ?_
  filter_upwards [eventually_gt_atTop 0] with n hn
  have : (n : ℝ)⁻¹ ≠ 0 := inv_ne_zero (by exact_mod_cast hn.ne')
  exact mul_div_mul_left _ _ this

/-- The expected ratio of the session: the weighted mean of observed over kernel estimate. -/
theorem default_ratio {x : ℕ → Fin p → ℝ} {Q : (Fin p → ℝ) → Fin q → ℝ}
    {dom : Option (Matrix (Fin p) (Fin 2) ℝ)} {W : Option ((Fin p → ℝ) → ℝ)} {di : Option Dist} {do_ : Dist}
    {a : (Fin p → ℝ) → ℝ} {f ρ : (Fin q → ℝ) → ℝ} (ha : InitialIs di dom a) (hf : do_.Evaluates f)
    (hW : ∀ l, 0 < weightFn W l) {n : ℕ} (hn : 0 < n) (h : Predicts user x Q dom W 0 n ρ) :
    ∃ S, sampledDefault user x Q dom W di do_ n = .ok S ∧ (DP.expectedRatio (scipyEnv user) S).1 =
      .ok (.fin ((∑ k ∈ Finset.range n, weightFn W (x k) * (f (Q (x k)) / ρ (Q (x k)))) /
        ∑ k ∈ Finset.range n, weightFn W (x k))) := by
  have hρ : ∀ z, ρ z ≠ 0 := fun z => (h.choose_spec.2.2.2.pos z).ne'
  obtain ⟨S, S', hS, hup, hfit, -, hw, hr, -⟩ := default_fit (di := di) ha hf hn h
  refine ⟨S, hS, ?_⟩
  unfold DP.expectedRatio
  have : S.up.isNone = true := by rw [hup]; rfl
  rw [PyM.get_bind_run, this, PyM.when_true, PyM.bind_run, hfit]
  simp only [PyM.get_bind_run, hr, DP.theAttr, PyM.lift_ok_bind, PyM.lift_run, hw]
  have z : List.zipWith (· * ·) (List.ofFn fun k : Fin n => F.fin (f (Q (x k))) / F.fin (ρ (Q (x k))))
      (List.ofFn fun k : Fin n => F.fin (weightFn W (x k))) =
      List.ofFn fun k : Fin n => F.fin (weightFn W (x k) * (f (Q (x k)) / ρ (Q (x k)))) := by
    apply List.ext_getElem
    · simp
    · intro i h1 h2
      simp only [List.getElem_zipWith, List.getElem_ofFn]
      rw [F.fin_div_of_ne _ (hρ _), F.fin_mul, mul_comm]
  have hpos : 0 < ∑ k : Fin n, weightFn W (x k) :=
    Finset.sum_pos (fun k _ => hW _) ⟨⟨0, hn⟩, Finset.mem_univ _⟩
  unfold DP.npAverage
  rw [z, List.sum_ofFn, List.sum_ofFn, F.sum_fin, F.sum_fin, Finset.sum_range, Finset.sum_range]
  simp [raiseIf, hpos.ne', F.fin_div_of_ne _ hpos.ne']

/-- What the user sees of the first fit: the ratios `P._r` used as weights of the samples in the marginal plots. -/
theorem default_ratios {x : ℕ → Fin p → ℝ} {Q : (Fin p → ℝ) → Fin q → ℝ}
    {dom : Option (Matrix (Fin p) (Fin 2) ℝ)} {W : Option ((Fin p → ℝ) → ℝ)} {di : Option Dist} {do_ : Dist}
    {a : (Fin p → ℝ) → ℝ} {f ρ : (Fin q → ℝ) → ℝ} (ha : InitialIs di dom a) (hf : do_.Evaluates f)
    {n : ℕ} (hn : 0 < n) (h : Predicts user x Q dom W 0 n ρ) :
    ∃ S, sampledDefault user x Q dom W di do_ n = .ok S ∧ (DP.fit (scipyEnv user) none 0 none S).1 = .ok () ∧
      (DP.fit (scipyEnv user) none 0 none S).2.r = some (List.ofFn fun k : Fin n => F.fin (f (Q (x k)) / ρ (Q (x k)))) := by
  have hρ : ∀ z, ρ z ≠ 0 := fun z => (h.choose_spec.2.2.2.pos z).ne'
  obtain ⟨S, S', hS, hup, hfit, -, hw, hr, -⟩ := default_fit (di := di) ha hf hn h
  refine ⟨S, hS, by rw [hfit], ?_⟩
  rw [hfit]
  dsimp only
  rw [hr]
  congr 2
  funext k
  rw [F.fin_div_of_ne _ (hρ _)]

theorem Predicts.unique {x : ℕ → Fin p → ℝ} {Q : (Fin p → ℝ) → Fin q → ℝ}
    {dom : Option (Matrix (Fin p) (Fin 2) ℝ)} {W : Option ((Fin p → ℝ) → ℝ)} {bw n : ℕ} {ρ ρ' : (Fin q → ℝ) → ℝ}
    (h : Predicts user x Q dom W bw n ρ) (h' : Predicts user x Q dom W bw n ρ') {k : ℕ} (hk : k < n) :
    ρ (Q (x k)) = ρ' (Q (x k)) := by
  obtain ⟨S, hS, -, h1, -⟩ := h
  obtain ⟨S', hS', -, h2, -⟩ := h'
  rw [hS] at hS'
  cases hS'
  rw [h1] at h2
  have h3 := congrFun (List.ofFn_injective (Option.some.inj h2)) ⟨k, hk⟩
  exact F.fin.inj h3

/-! ## The updated distribution -/

/-- The updated distribution: the initial distribution `μ` reweighted with the ratio of the observed density `f` to the
density `g` of the outputs. -/
noncomputable def updatedLaw (μ : Measure (Fin p → ℝ)) (Q : (Fin p → ℝ) → Fin q → ℝ) (f g : (Fin q → ℝ) → ℝ) :
    Measure (Fin p → ℝ) := μ.withDensity fun l => ENNReal.ofReal (f (Q l) / g (Q l))

/-- **C147.** The outputs of the updated distribution have the observed distribution, wherever `g` does not vanish. -/
theorem C147_outputs {μ : Measure (Fin p → ℝ)} {Q : (Fin p → ℝ) → Fin q → ℝ} (hQ : Measurable Q)
    {f g : (Fin q → ℝ) → ℝ} (hfm : Measurable f) (hgm : Measurable g) (hg0 : ∀ z, 0 ≤ g z)
    (hg : μ.map Q = volume.withDensity fun z => ENNReal.ofReal (g z)) (s : Set (Fin q → ℝ)) (hs : MeasurableSet s) :
    (updatedLaw μ Q f g).map Q s = (volume.withDensity fun z => ENNReal.ofReal (f z)) (s ∩ {z | g z ≠ 0}) := by
  have hm : MeasurableSet {y | g y ≠ 0} := hgm (measurableSet_singleton (0 : ℝ)).compl
  have hr : Measurable fun y => ENNReal.ofReal (f y / g y) := (hfm.div hgm).ennreal_ofReal
  rw [Measure.map_apply hQ hs, updatedLaw, withDensity_apply _ (hQ hs),
    ← setLIntegral_map hs hr hQ, hg, setLIntegral_withDensity_eq_setLIntegral_mul _ hgm.ennreal_ofReal hr hs,
    withDensity_apply _ (hs.inter hm), ← lintegral_indicator hs, ← lintegral_indicator (hs.inter hm)]
  refine lintegral_congr fun y => ?_
  by_cases h : y ∈ s
  · by_cases h0 : g y = 0
    · rw [Set.indicator_of_mem h, Set.indicator_of_notMem fun h' => h'.2 h0, Pi.mul_apply, h0]
      simp
    · rw [Set.indicator_of_mem h, Set.indicator_of_mem (show y ∈ s ∩ {z | g z ≠ 0} from ⟨h, h0⟩), Pi.mul_apply,
        ← ENNReal.ofReal_mul (hg0 y), mul_div_cancel₀ _ h0]
  · rw [Set.indicator_of_notMem h, Set.indicator_of_notMem fun h' => h h'.1]

/-- The ratios of the session with the default predicted density, as long as `fit` returns. -/
def FittedRatios (user : ℕ → ℝ → ℕ → ℝ) (x : ℕ → Fin p → ℝ) (Q : (Fin p → ℝ) → Fin q → ℝ)
    (dom : Option (Matrix (Fin p) (Fin 2) ℝ)) (W : Option ((Fin p → ℝ) → ℝ)) (di : Option Dist) (do_ : Dist) (n : ℕ)
    (R : ℕ → ℝ) : Prop :=
  ∃ S, sampledDefault user x Q dom W di do_ n = .ok S ∧ (DP.fit (scipyEnv user) none 0 none S).1 = .ok () ∧
    (DP.fit (scipyEnv user) none 0 none S).2.r = some (List.ofFn fun k : Fin n => F.fin (R k))

theorem ratio_uniform {f g : (Fin q → ℝ) → ℝ} {ρ : ℕ → (Fin q → ℝ) → ℝ} {Bf : ℝ} (hBf : ∀ z, |f z| ≤ Bf)
    {K : Set (Fin q → ℝ)} (hK : IsCompact K) (hgK : ∀ z ∈ K, ContinuousAt g z ∧ 0 < g z) (hfK : ∀ z, z ∉ K → f z = 0)
    (hρ : TendstoUniformlyOn ρ g atTop K) : ∀ ε > 0, ∀ᶠ n in atTop, ∀ z, |f z / ρ n z - f z / g z| ≤ ε := by
  intro ε hε
  obtain ⟨c, hc0, hc⟩ : ∃ c > 0, ∀ z ∈ K, c ≤ g z := by
    rcases K.eq_empty_or_nonempty with rfl | hne
    · exact ⟨1, one_pos, fun z hz => hz.elim⟩
    · obtain ⟨z, hz, hmin⟩ := hK.exists_isMinOn hne fun z hz => (hgK z hz).1.continuousWithinAt
      exact ⟨g z, (hgK z hz).2, fun z' hz' => hmin hz'⟩
  have hB0 : 0 ≤ Bf := (abs_nonneg _).trans (hBf 0)
  have hpos : 0 < min (c / 2) (ε * c ^ 2 / (2 * (Bf + 1))) := by positivity
  filter_upwards [Metric.tendstoUniformlyOn_iff.1 hρ _ hpos] with n h z
  by_cases hz : z ∈ K
  · have h1 := h z hz
    rw [Real.dist_eq, lt_min_iff] at h1
    have hg := hc z hz
    have hρ2 : c / 2 ≤ ρ n z := by have := (abs_lt.1 h1.1).2; linarith
    have hgp : 0 < g z := by linarith
    have hρp : 0 < ρ n z := by linarith
    have e : f z / ρ n z - f z / g z = f z * ((g z - ρ n z) / (g z * ρ n z)) := by field_simp
    rw [e, abs_mul, abs_div, abs_of_pos (mul_pos hgp hρp)]
    have h2 : c * (c / 2) ≤ g z * ρ n z := mul_le_mul hg hρ2 (by positivity) hgp.le
    have h3 : |g z - ρ n z| / (g z * ρ n z) ≤ ε / (Bf + 1) := by
      rw [div_le_iff₀ (mul_pos hgp hρp)]
      have h4 : ε / (Bf + 1) * (c * (c / 2)) = ε * c ^ 2 / (2 * (Bf + 1)) := by field_simp
      have h5 : 0 ≤ ε / (Bf + 1) := by positivity
      nlinarith [h1.2, mul_le_mul_of_nonneg_left h2 h5]
    calc |f z| * (|g z - ρ n z| / (g z * ρ n z)) ≤ Bf * (ε / (Bf + 1)) :=
          mul_le_mul (hBf z) h3 (by positivity) hB0
      _ ≤ ε := by
        rw [← mul_div_assoc, div_le_iff₀ (by positivity)]
        nlinarith
  · rw [hfK z hz, zero_div, zero_div, sub_self, abs_zero]
    exact hε.le

section Interior
variable {P : Measure Ω} {x : ℕ → Ω → Fin p → ℝ} {τ μ : Measure (Fin p → ℝ)} [IsProbabilityMeasure μ]

/-- The averages over the samples with the weights of the update, along almost every path. -/
theorem default_average (hi : iIndepFun x P) (hx : ∀ k, HasLaw (x k) τ P)
    (W : Option ((Fin p → ℝ) → ℝ)) (hWm : Measurable (weightFn W)) (hW : ∀ l, 0 < weightFn W l)
    {M : ℝ} (hM : ∀ l, weightFn W l ≤ M) (hμ : μ = τ.withDensity fun l => ENNReal.ofReal (weightFn W l))
    {Q : (Fin p → ℝ) → Fin q → ℝ} (hQ : Measurable Q) (hq : 0 < q)
    (h2 : ∀ j, Integrable (fun l => Q l j ^ 2) μ)
    {g : (Fin q → ℝ) → ℝ} (hgm : Measurable g) (hg0 : ∀ z, 0 ≤ g z) {B : ℝ} (hB : ∀ z, g z ≤ B)
    (hg : μ.map Q = volume.withDensity fun z => ENNReal.ofReal (g z))
    {f : (Fin q → ℝ) → ℝ} (hfm : Measurable f) (hf0 : ∀ z, 0 ≤ f z) {Bf : ℝ} (hBf : ∀ z, f z ≤ Bf)
    {K : Set (Fin q → ℝ)} (hK : IsCompact K) (hgK : ∀ z ∈ K, ContinuousAt g z ∧ 0 < g z) (hfK : ∀ z, z ∉ K → f z = 0)
    (dom : Option (Matrix (Fin p) (Fin 2) ℝ))
    {φ : (Fin p → ℝ) → ℝ} (hφm : Measurable φ) {Bφ : ℝ} (hφ : ∀ l, |φ l| ≤ Bφ) :
    ∀ᵐ ω ∂P, ∃ ρ : ℕ → (Fin q → ℝ) → ℝ,
      (∀ᶠ n in atTop, Predicts user (fun k => x k ω) Q dom W 0 n (ρ n)) ∧
      Tendsto (fun n : ℕ => (∑ k ∈ Finset.range n, weightFn W (x k ω) * (f (Q (x k ω)) / ρ n (Q (x k ω)) * φ (x k ω))) /
        ∑ k ∈ Finset.range n, weightFn W (x k ω)) atTop (𝓝 (∫ l, φ l ∂(updatedLaw μ Q f g))) := by
  have hBf' : ∀ z, |f z| ≤ Bf := fun z => by rw [abs_of_nonneg (hf0 z)]; exact hBf z
  have hr0 : ∀ z, 0 ≤ f z / g z := fun z => div_nonneg (hf0 z) (hg0 z)
  have hrm : Measurable fun l => f (Q l) / g (Q l) := (hfm.comp hQ).div (hgm.comp hQ)
  have hrm' : Measurable fun y => ENNReal.ofReal (f y / g y) := (hfm.div hgm).ennreal_ofReal
  obtain ⟨C, hC⟩ : ∃ C, ∀ z, f z / g z ≤ C := by
    rcases K.eq_empty_or_nonempty with rfl | hne
    · exact ⟨0, fun z => by rw [hfK z (Set.notMem_empty _), zero_div]⟩
    · obtain ⟨z, hz, hmin⟩ := hK.exists_isMinOn hne fun z hz => (hgK z hz).1.continuousWithinAt
      have hB0 : 0 ≤ Bf := (hf0 z).trans (hBf z)
      refine ⟨Bf / g z, fun z' => ?_⟩
      by_cases hz' : z' ∈ K
      · exact div_le_div₀ hB0 (hBf z') (hgK z hz).2 (hmin hz')
      · rw [hfK z' hz', zero_div]
        exact div_nonneg hB0 (hg0 z)
  have hint : Integrable (fun l => f (Q l) / g (Q l) * φ l) μ := by
    refine (integrable_const (C * Bφ)).mono' (hrm.mul hφm).aestronglyMeasurable (.of_forall fun l => ?_)
    rw [Real.norm_eq_abs, abs_mul, abs_of_nonneg (hr0 _)]
    exact mul_le_mul (hC _) (hφ l) (abs_nonneg _) ((hr0 _).trans (hC (Q l)))
  have hlim : ∫ l, f (Q l) / g (Q l) * φ l ∂μ = ∫ l, φ l ∂(updatedLaw μ Q f g) := by
    rw [updatedLaw, integral_withDensity_eq_integral_toReal_smul hrm.ennreal_ofReal
      (.of_forall fun l => ENNReal.ofReal_lt_top)]
    refine integral_congr_ae (.of_forall fun l => ?_)
    dsimp only
    rw [ENNReal.toReal_ofReal (hr0 _), smul_eq_mul]
  have hm := weighted_mean hi hx hWm hW hμ (hrm.mul hφm) hint
  filter_upwards [averages_ae hi hx hWm hW hμ hQ h2,
    C144_uniform (user := user) hi hx W hWm hW hM hμ hQ hq h2 hgm hg0 hB hg dom two_pos, hm] with ω h1 ⟨ρ, h3, h4⟩ h5
  refine ⟨ρ, h3, ?_⟩
  have hu := ratio_uniform hBf' hK hgK hfK (h4 K hK fun z hz => (hgK z hz).1)
  rw [← hlim]
  refine reweighted (w := fun k => weightFn W (x k ω)) (r := fun k => f (Q (x k ω)) / g (Q (x k ω)))
    (φ := fun k => φ (x k ω)) (rn := fun n k => f (Q (x k ω)) / ρ n (Q (x k ω))) (fun k => (hW _).le) h1.one
    (fun k => hφ _) ?_ fun ε hε => ⟨fun _ => ε / 2, ε / 2, by linarith, ?_, (hu (ε / 2) (by positivity)).mono fun n h k => h _⟩
  · simpa only [smul_eq_mul, Pi.mul_apply] using h5
  · have := h1.one.mul_const (ε / 2)
    rw [one_mul] at this
    refine this.congr fun n => ?_
    rw [mul_assoc, Finset.sum_mul]

omit [IsProbabilityMeasure μ] in
/-- The updated distribution is a probability measure in the setting of C146 and C147. -/
theorem updatedLaw_prob {Q : (Fin p → ℝ) → Fin q → ℝ} (hQ : Measurable Q)
    {f g : (Fin q → ℝ) → ℝ} (hfm : Measurable f) (hgm : Measurable g) (hg0 : ∀ z, 0 ≤ g z)
    (hg : μ.map Q = volume.withDensity fun z => ENNReal.ofReal (g z))
    {ν : Measure (Fin q → ℝ)} [IsProbabilityMeasure ν] (hν : ν = volume.withDensity fun z => ENNReal.ofReal (f z))
    (hfg : ∀ z, g z = 0 → f z = 0) : (updatedLaw μ Q f g).map Q = ν ∧ IsProbabilityMeasure (updatedLaw μ Q f g) := by
  have h1 : (updatedLaw μ Q f g).map Q = ν := by
    refine Measure.ext fun s hs => ?_
    rw [C147_outputs hQ hfm hgm hg0 hg s hs, hν]
    have hm : MeasurableSet {y | g y ≠ 0} := hgm (measurableSet_singleton (0 : ℝ)).compl
    rw [withDensity_apply _ (hs.inter hm), withDensity_apply _ hs, ← lintegral_indicator hs,
      ← lintegral_indicator (hs.inter hm)]
    refine lintegral_congr fun y => ?_
    by_cases h : y ∈ s
    · by_cases h0 : g y = 0
      · rw [Set.indicator_of_mem h, Set.indicator_of_notMem fun h' => h'.2 h0, hfg y h0, ENNReal.ofReal_zero]
      · rw [Set.indicator_of_mem h, Set.indicator_of_mem (show y ∈ s ∩ {z | g z ≠ 0} from ⟨h, h0⟩)]
    · rw [Set.indicator_of_notMem h, Set.indicator_of_notMem fun h' => h h'.1]
  refine ⟨h1, ⟨?_⟩⟩
  have h2 := measure_univ (μ := ν)
  rwa [← h1, Measure.map_apply hQ MeasurableSet.univ] at h2

/-- **C146.** Samples drawn independently from `τ` with bounded weights `W > 0`, `μ = W τ` the initial distribution, any
number of outputs with finite second moments and a bounded density `g`; the observed distribution `ν` has a bounded density `f`
that vanishes outside a compact set at whose points `g` is continuous and positive. Almost surely `expected_ratio`, with
the default predicted density, returns for all large numbers of samples and converges to 1. -/
theorem C146_expected_ratio (hi : iIndepFun x P) (hx : ∀ k, HasLaw (x k) τ P)
    (W : Option ((Fin p → ℝ) → ℝ)) (hWm : Measurable (weightFn W)) (hW : ∀ l, 0 < weightFn W l)
    {M : ℝ} (hM : ∀ l, weightFn W l ≤ M) (hμ : μ = τ.withDensity fun l => ENNReal.ofReal (weightFn W l))
    {Q : (Fin p → ℝ) → Fin q → ℝ} (hQ : Measurable Q) (hq : 0 < q)
    (h2 : ∀ j, Integrable (fun l => Q l j ^ 2) μ)
    {g : (Fin q → ℝ) → ℝ} (hgm : Measurable g) (hg0 : ∀ z, 0 ≤ g z) {B : ℝ} (hB : ∀ z, g z ≤ B)
    (hg : μ.map Q = volume.withDensity fun z => ENNReal.ofReal (g z))
    {di : Option Dist} {do_ : Dist} {dom : Option (Matrix (Fin p) (Fin 2) ℝ)}
    {a : (Fin p → ℝ) → ℝ} {f : (Fin q → ℝ) → ℝ} (ha : InitialIs di dom a) (hf : do_.Evaluates f)
    (hfm : Measurable f) (hf0 : ∀ z, 0 ≤ f z) {Bf : ℝ} (hBf : ∀ z, f z ≤ Bf)
    {ν : Measure (Fin q → ℝ)} [IsProbabilityMeasure ν] (hν : ν = volume.withDensity fun z => ENNReal.ofReal (f z))
    {K : Set (Fin q → ℝ)} (hK : IsCompact K) (hgK : ∀ z ∈ K, ContinuousAt g z ∧ 0 < g z) (hfK : ∀ z, z ∉ K → f z = 0) :
    ∀ᵐ ω ∂P, ∃ r : ℕ → ℝ,
      (∀ᶠ n in atTop, ∃ S, sampledDefault user (fun k => x k ω) Q dom W di do_ n = .ok S ∧
        (DP.expectedRatio (scipyEnv user) S).1 = .ok (.fin (r n))) ∧
      Tendsto r atTop (𝓝 1) := by
  have hprob := (updatedLaw_prob hQ hfm hgm hg0 hg hν fun z hz => hfK z fun hzK => (hgK z hzK).2.ne' hz).2
  filter_upwards [default_average (user := user) hi hx W hWm hW hM hμ hQ hq h2 hgm hg0 hB hg hfm hf0 hBf hK hgK hfK
    dom (φ := fun _ => 1) measurable_const (Bφ := 1) (fun _ => by simp)] with ω ⟨ρ, h3, h4⟩
  simp only [mul_one, integral_const, probReal_univ, smul_eq_mul] at h4
  refine ⟨_, ?_, h4⟩
  filter_upwards [h3, eventually_gt_atTop 0] with n hn hn0
  exact default_ratio ha hf hW hn0 hn

/-- **C147.** In the same setting: the samples, weighted with their weights times the ratios of the first fit, represent
the updated distribution, whose outputs have the observed distribution: the weighted averages of every bounded measurable
function of the parameters converge almost surely to its mean under the updated distribution. -/
theorem C147_update (hi : iIndepFun x P) (hx : ∀ k, HasLaw (x k) τ P)
    (W : Option ((Fin p → ℝ) → ℝ)) (hWm : Measurable (weightFn W)) (hW : ∀ l, 0 < weightFn W l)
    {M : ℝ} (hM : ∀ l, weightFn W l ≤ M) (hμ : μ = τ.withDensity fun l => ENNReal.ofReal (weightFn W l))
    {Q : (Fin p → ℝ) → Fin q → ℝ} (hQ : Measurable Q) (hq : 0 < q)
    (h2 : ∀ j, Integrable (fun l => Q l j ^ 2) μ)
    {g : (Fin q → ℝ) → ℝ} (hgm : Measurable g) (hg0 : ∀ z, 0 ≤ g z) {B : ℝ} (hB : ∀ z, g z ≤ B)
    (hg : μ.map Q = volume.withDensity fun z => ENNReal.ofReal (g z))
    {di : Option Dist} {do_ : Dist} {dom : Option (Matrix (Fin p) (Fin 2) ℝ)}
    {a : (Fin p → ℝ) → ℝ} {f : (Fin q → ℝ) → ℝ} (ha : InitialIs di dom a) (hf : do_.Evaluates f)
    (hfm : Measurable f) (hf0 : ∀ z, 0 ≤ f z) {Bf : ℝ} (hBf : ∀ z, f z ≤ Bf)
    {ν : Measure (Fin q → ℝ)} [IsProbabilityMeasure ν] (hν : ν = volume.withDensity fun z => ENNReal.ofReal (f z))
    {K : Set (Fin q → ℝ)} (hK : IsCompact K) (hgK : ∀ z ∈ K, ContinuousAt g z ∧ 0 < g z) (hfK : ∀ z, z ∉ K → f z = 0) :
    ∃ π : Measure (Fin p → ℝ), IsProbabilityMeasure π ∧ π.map Q = ν ∧
      (π = μ.withDensity fun l => ENNReal.ofReal (f (Q l) / g (Q l))) ∧
      ∀ φ : (Fin p → ℝ) → ℝ, Measurable φ → (∃ Bφ, ∀ l, |φ l| ≤ Bφ) →
        ∀ᵐ ω ∂P, ∃ R : ℕ → ℕ → ℝ,
          (∀ᶠ n in atTop, FittedRatios user (fun k => x k ω) Q dom W di do_ n (R n)) ∧
          Tendsto (fun n : ℕ => (∑ k ∈ Finset.range n, weightFn W (x k ω) * R n k * φ (x k ω)) /
            ∑ k ∈ Finset.range n, weightFn W (x k ω) * R n k) atTop (𝓝 (∫ l, φ l ∂π)) := by
  obtain ⟨hmap, hprob⟩ := updatedLaw_prob hQ hfm hgm hg0 hg hν fun z hz => hfK z fun hzK => (hgK z hzK).2.ne' hz
  refine ⟨updatedLaw μ Q f g, hprob, hmap, rfl, fun φ hφm ⟨Bφ, hφ⟩ => ?_⟩
  have A1 := default_average (user := user) hi hx W hWm hW hM hμ hQ hq h2 hgm hg0 hB hg hfm hf0 hBf hK hgK hfK
    dom (φ := φ) hφm hφ
  have A2 := default_average (user := user) hi hx W hWm hW hM hμ hQ hq h2 hgm hg0 hB hg hfm hf0 hBf hK hgK hfK
    dom (φ := fun _ => 1) measurable_const (Bφ := 1) (fun _ => by simp)
  filter_upwards [A1, A2] with ω ⟨ρ, h3, h4⟩ ⟨ρ', h3', h4'⟩
  simp only [mul_one, integral_const, probReal_univ, smul_eq_mul] at h4'
  refine ⟨fun n k => f (Q (x k ω)) / ρ n (Q (x k ω)), ?_, ?_⟩
  · filter_upwards [h3, eventually_gt_atTop 0] with n hn hn0
    exact default_ratios ha hf hn0 hn
  · have h5 := h4.div h4' one_ne_zero
    rw [div_one] at h5
    refine h5.congr' ?_
    filter_upwards [h3, h3', eventually_gt_atTop 0] with n a1 a2 hn
    have hpos : 0 < ∑ k ∈ Finset.range n, weightFn W (x k ω) :=
      Finset.sum_pos (fun k _ => hW _) ⟨0, Finset.mem_range.2 hn⟩
    have e : ∀ k ∈ Finset.range n, ρ' n (Q (x k ω)) = ρ n (Q (x k ω)) := fun k hk =>
      a2.unique a1 (Finset.mem_range.1 hk)
    rw [Pi.div_apply, div_div_div_cancel_right₀ hpos.ne']
    congr 1
    · exact Finset.sum_congr rfl fun k _ => by ring
    · exact Finset.sum_congr rfl fun k hk => by rw [e k hk]

end Interior

/-- The ratios of the session with all three distributions given, as long as `fit` returns. -/
def GivenRatios (env : Env) (x : ℕ → Fin p → ℝ) (Q : (Fin p → ℝ) → Fin q → ℝ)
    (dom : Option (Matrix (Fin p) (Fin 2) ℝ)) (W : Option ((Fin p → ℝ) → ℝ)) (di do_ dp : Dist) (n : ℕ)
    (R : ℕ → ℝ) : Prop :=
  ∃ S, sampledProblem env x Q dom W di do_ dp n = .ok S ∧ (DP.fit env none 0 none S).1 = .ok () ∧
    (DP.fit env none 0 none S).2.r = some (List.ofFn fun k : Fin n => F.fin (R k))

theorem given_ratios {env : Env} (x : ℕ → Fin p → ℝ) (Q : (Fin p → ℝ) → Fin q → ℝ)
    (dom : Option (Matrix (Fin p) (Fin 2) ℝ)) (W : Option ((Fin p → ℝ) → ℝ)) {di do_ dp : Dist}
    {a : (Fin p → ℝ) → ℝ} {f g : (Fin q → ℝ) → ℝ} (ha : di.Evaluates a) (hf : do_.Evaluates f)
    (hg : dp.EvaluatesFlat g) (hg0 : ∀ k, g (Q (x k)) ≠ 0) {n : ℕ} (hn : 0 < n) :
    GivenRatios env x Q dom W di do_ dp n fun k => f (Q (x k)) / g (Q (x k)) := by
  obtain ⟨P, hP, hX, hy, hw⟩ := sampled_new x Q dom W hn
  refine ⟨_, by rw [sampledProblem, hP]; rfl, ?_⟩
  have hset := after_set (env := env) P di do_ dp
    (a := List.ofFn fun k : Fin n => F.fin (a (x k))) (b := List.ofFn fun k : Fin n => F.fin (f (Q (x k))))
    (c := List.ofFn fun k : Fin n => F.fin (g (Q (x k)))) (by rw [hX]; exact ha n _) (by rw [hy]; exact hf n _) (by rw [hy]; exact hg n _)
  have hfit := DP.fit_set (env := env) none 0 none
    { P with init := some (List.ofFn fun k : Fin n => F.fin (a (x k)))
             ob := some (List.ofFn fun k : Fin n => F.fin (f (Q (x k))))
             pr := some (List.ofFn fun k : Fin n => F.fin (g (Q (x k)))), up := none }
    (fun k : Fin n => F.fin (a (x k))) (fun k : Fin n => F.fin (weightFn W (x k)))
    (fun k : Fin n => F.fin (f (Q (x k)))) (fun k : Fin n => F.fin (g (Q (x k)))) hw rfl rfl rfl
  rw [hset, hfit]
  refine ⟨rfl, ?_⟩
  dsimp only
  congr 2
  funext k
  rw [F.fin_div_of_ne _ (hg0 _)]

/-- **C147** with the true density of the outputs given as predicted density: any number of outputs, any weights, and every
observed distribution that is predictable (its density vanishes where the density of the outputs does). -/
theorem C147_given {env : Env} {P : Measure Ω} {x : ℕ → Ω → Fin p → ℝ} {τ μ : Measure (Fin p → ℝ)}
    [IsProbabilityMeasure μ] (hi : iIndepFun x P) (hx : ∀ k, HasLaw (x k) τ P)
    (W : Option ((Fin p → ℝ) → ℝ)) (hWm : Measurable (weightFn W)) (hW : ∀ l, 0 < weightFn W l)
    (hμ : μ = τ.withDensity fun l => ENNReal.ofReal (weightFn W l))
    {Q : (Fin p → ℝ) → Fin q → ℝ} (hQ : Measurable Q)
    {g : (Fin q → ℝ) → ℝ} (hgm : Measurable g) (hg0 : ∀ z, 0 ≤ g z)
    (hg : μ.map Q = volume.withDensity fun z => ENNReal.ofReal (g z))
    {di do_ dp : Dist} {dom : Option (Matrix (Fin p) (Fin 2) ℝ)}
    {a : (Fin p → ℝ) → ℝ} {f : (Fin q → ℝ) → ℝ} (ha : di.Evaluates a) (hf : do_.Evaluates f) (hp : dp.EvaluatesFlat g)
    (hfm : Measurable f) (hf0 : ∀ z, 0 ≤ f z)
    {ν : Measure (Fin q → ℝ)} [IsProbabilityMeasure ν] (hν : ν = volume.withDensity fun z => ENNReal.ofReal (f z))
    (hfg : ∀ z, g z = 0 → f z = 0) :
    ∃ π : Measure (Fin p → ℝ), IsProbabilityMeasure π ∧ π.map Q = ν ∧
      (π = μ.withDensity fun l => ENNReal.ofReal (f (Q l) / g (Q l))) ∧
      ∀ φ : (Fin p → ℝ) → ℝ, Measurable φ → (∃ Bφ, ∀ l, |φ l| ≤ Bφ) →
        ∀ᵐ ω ∂P, ∃ R : ℕ → ℕ → ℝ,
          (∀ n, 0 < n → GivenRatios env (fun k => x k ω) Q dom W di do_ dp n (R n)) ∧
          Tendsto (fun n : ℕ => (∑ k ∈ Finset.range n, weightFn W (x k ω) * R n k * φ (x k ω)) /
            ∑ k ∈ Finset.range n, weightFn W (x k ω) * R n k) atTop (𝓝 (∫ l, φ l ∂π)) := by
  obtain ⟨hmap, hprob⟩ := updatedLaw_prob hQ hfm hgm hg0 hg hν hfg
  refine ⟨updatedLaw μ Q f g, hprob, hmap, rfl, fun φ hφm ⟨Bφ, hφ⟩ => ?_⟩
  have hr0 : ∀ z, 0 ≤ f z / g z := fun z => div_nonneg (hf0 z) (hg0 z)
  have hrm : Measurable fun l => f (Q l) / g (Q l) := (hfm.comp hQ).div (hgm.comp hQ)
  have hri : Integrable (fun l => f (Q l) / g (Q l)) μ := by
    refine ⟨hrm.aestronglyMeasurable, ?_⟩
    rw [hasFiniteIntegral_iff_ofReal (.of_forall fun l => hr0 _)]
    have := measure_univ (μ := updatedLaw μ Q f g)
    rw [updatedLaw, withDensity_apply _ MeasurableSet.univ, setLIntegral_univ] at this
    rw [this]
    exact ENNReal.one_lt_top
  have hall : ∀ ψ : (Fin p → ℝ) → ℝ, Measurable ψ → (∃ Bψ, ∀ l, |ψ l| ≤ Bψ) →
      ∀ᵐ ω ∂P, Tendsto (fun n : ℕ => (n : ℝ)⁻¹ * ∑ k ∈ Finset.range n,
        weightFn W (x k ω) * (f (Q (x k ω)) / g (Q (x k ω)) * ψ (x k ω))) atTop (𝓝 (∫ l, ψ l ∂(updatedLaw μ Q f g))) := by
    rintro ψ hψm ⟨Bψ, hψ⟩
    have hint : Integrable (fun l => f (Q l) / g (Q l) * ψ l) μ := by
      refine (hri.mul_const Bψ).mono' (hrm.mul hψm).aestronglyMeasurable (.of_forall fun l => ?_)
      rw [Real.norm_eq_abs, abs_mul, abs_of_nonneg (hr0 _)]
      exact mul_le_mul_of_nonneg_left (hψ l) (hr0 _)
    have hlim : ∫ l, f (Q l) / g (Q l) * ψ l ∂μ = ∫ l, ψ l ∂(updatedLaw μ Q f g) := by
      rw [updatedLaw, integral_withDensity_eq_integral_toReal_smul hrm.ennreal_ofReal
        (.of_forall fun l => ENNReal.ofReal_lt_top)]
      refine integral_congr_ae (.of_forall fun l => ?_)
      dsimp only
      rw [ENNReal.toReal_ofReal (hr0 _), smul_eq_mul]
    rw [← hlim]
    filter_upwards [weighted_mean hi hx hWm hW hμ (hrm.mul hψm) hint] with ω h
    simpa only [smul_eq_mul, Pi.mul_apply] using h
  have hz : ∀ᵐ ω ∂P, ∀ k, g (Q (x k ω)) ≠ 0 := by
    rw [ae_all_iff]
    intro k
    have h1 : ∀ᵐ y ∂(μ.map Q), g y ≠ 0 := by
      rw [hg, ae_withDensity_iff hgm.ennreal_ofReal]
      exact .of_forall fun y hy h0 => hy (by rw [h0, ENNReal.ofReal_zero])
    have h2 : ∀ᵐ l ∂μ, g (Q l) ≠ 0 := ae_of_ae_map hQ.aemeasurable h1
    have h3 : ∀ᵐ l ∂τ, g (Q l) ≠ 0 := by
      rw [hμ, ae_withDensity_iff hWm.ennreal_ofReal] at h2
      filter_upwards [h2] with l hl
      exact hl (by simpa using hW l)
    rw [← (hx k).map_eq] at h3
    exact ae_of_ae_map (hx k).aemeasurable h3
  filter_upwards [hall φ hφm ⟨Bφ, hφ⟩, hall (fun _ => 1) measurable_const ⟨1, fun _ => by simp⟩, hz] with ω h1 h2 h3
  refine ⟨fun _ k => f (Q (x k ω)) / g (Q (x k ω)), fun n hn => given_ratios _ Q dom W ha hf hp h3 hn, ?_⟩
  simp only [mul_one, integral_const, probReal_univ, smul_eq_mul] at h2
  have h5 := h1.div h2 one_ne_zero
  rw [div_one] at h5
  refine h5.congr' ?_
  filter_upwards [eventually_gt_atTop 0] with n hn
  have hn' : (n : ℝ)⁻¹ ≠ 0 := inv_ne_zero (by exact_mod_cast hn.ne')
  rw [Pi.div_apply, mul_div_mul_left _ _ hn']
  congr 1
  exact Finset.sum_congr rfl fun k _ => by ring

/-! ## Uniform samples on the unit interval -/

theorem unitLaw_lower {c : ℝ} (h1 : c ≤ 1) : unitLaw {y | y 0 < c} = ENNReal.ofReal c := by
  have hm : MeasurableSet {y : Fin 1 → ℝ | y 0 < c} := measurableSet_lt (measurable_pi_apply 0) measurable_const
  rw [unitLaw, Measure.restrict_apply hm]
  have : {y : Fin 1 → ℝ | y 0 < c} ∩ Set.Icc 0 1 = Set.univ.pi fun _ => Set.Ico 0 c := by
    ext y
    rw [Set.mem_inter_iff, mem_unit, Set.mem_univ_pi, Set.mem_ofPred_eq]
    constructor
    · intro h j
      rw [Subsingleton.elim j 0]
      exact ⟨h.2.1, h.1⟩
    · intro h
      have := h 0
      rw [Set.mem_Ico] at this
      exact ⟨this.2, this.1, by linarith⟩
  rw [this, volume_pi, Measure.pi_pi]
  simp [Real.volume_Ico]

/-- **C146**, uniform samples on the unit interval and the identity as model, no condition on where the observed density
lies: for every continuous observed density `f` the expected ratio with the default predicted density converges almost
surely to the observed probability of the interval, although the ratios near its ends are about twice too large. -/
theorem C146_unit {P : Measure Ω} {x : ℕ → Ω → Fin 1 → ℝ} (hi : iIndepFun x P) (hx : ∀ k, HasLaw (x k) unitLaw P)
    {di : Option Dist} {do_ : Dist} {dom : Option (Matrix (Fin 1) (Fin 2) ℝ)} {a f : (Fin 1 → ℝ) → ℝ}
    (ha : InitialIs di dom a) (hf : do_.Evaluates f) (hf0 : ∀ z, 0 ≤ f z) (hfc : Continuous f) :
    ∀ᵐ ω ∂P, ∃ r : ℕ → ℝ,
      (∀ᶠ n in atTop, ∃ S, sampledDefault user (fun k => x k ω) id dom none di do_ n = .ok S ∧
        (DP.expectedRatio (scipyEnv user) S).1 = .ok (.fin (r n))) ∧
      Tendsto r atTop (𝓝 (∫ z in Set.Icc (0 : Fin 1 → ℝ) 1, f z)) := by
  obtain ⟨Bf, hBf⟩ : ∃ Bf, ∀ z, 0 ≤ z 0 → z 0 ≤ 1 → f z ≤ Bf := by
    obtain ⟨z, hz, hz2⟩ := (isCompact_Icc (a := (0 : Fin 1 → ℝ)) (b := 1)).exists_isMaxOn
      ⟨0, mem_unit.2 (by simp)⟩ hfc.continuousOn
    exact ⟨f z, fun z' a b => hz2 (mem_unit.2 ⟨a, b⟩)⟩
  have hB0 : 0 ≤ Bf := (hf0 0).trans (hBf 0 (by simp) (by simp))
  have hfi : Integrable f unitLaw := hfc.continuousOn.integrableOn_compact isCompact_Icc
  set E : ℕ → Set (Fin 1 → ℝ) := fun m => {z | z 0 < 1 / ((m : ℝ) + 1)} ∪ {z | 1 - 1 / ((m : ℝ) + 1) < z 0} with hE
  have hEm : ∀ m, MeasurableSet (E m) := fun m =>
    (measurableSet_lt (measurable_pi_apply 0) measurable_const).union
      (measurableSet_lt measurable_const (measurable_pi_apply 0))
  have hEle : ∀ m, unitLaw.real (E m) ≤ 2 * (1 / ((m : ℝ) + 1)) := by
    intro m
    have hc1 : 1 / ((m : ℝ) + 1) ≤ 1 := by
      rw [div_le_one (by positivity)]
      linarith [(Nat.cast_nonneg m : (0 : ℝ) ≤ m)]
    have hc0 : 0 ≤ 1 / ((m : ℝ) + 1) := by positivity
    have h1 := measureReal_union_le (μ := unitLaw) {z | z 0 < 1 / ((m : ℝ) + 1)} {z | 1 - 1 / ((m : ℝ) + 1) < z 0}
    rw [measureReal_def unitLaw {z | z 0 < 1 / ((m : ℝ) + 1)}, unitLaw_lower hc1,
      measureReal_def unitLaw {z | 1 - 1 / ((m : ℝ) + 1) < z 0}, unitLaw_upper hc1, ENNReal.toReal_ofReal hc0] at h1
    rw [hE]
    linarith
  have hends : ∀ᵐ ω ∂P, ∀ m, Tendsto (fun n : ℕ => (n : ℝ)⁻¹ • ∑ k ∈ Finset.range n,
      (E m).indicator (fun _ => (1 : ℝ)) (x k ω)) atTop (𝓝 (unitLaw.real (E m))) := by
    rw [ae_all_iff]
    intro m
    have := sample_mean hi hx (φ := (E m).indicator fun _ => (1 : ℝ)) (measurable_const.indicator (hEm m))
      ((integrable_const (1 : ℝ)).indicator (hEm m))
    rwa [integral_indicator_const _ (hEm m), smul_eq_mul, mul_one] at this
  filter_upwards [unit_path (user := user) hi hx dom, sample_mean hi hx hfc.measurable hfi, hends] with ω ⟨ρ, h⟩ h1 h2
  have hone : Tendsto (fun n : ℕ => (n : ℝ)⁻¹ * ∑ k ∈ Finset.range n, weightFn none (x k ω)) atTop (𝓝 1) := by
    refine tendsto_const_nhds.congr' ?_
    filter_upwards [eventually_gt_atTop 0] with n hn
    have : (n : ℝ) ≠ 0 := by exact_mod_cast hn.ne'
    simp [weightFn, this]
  refine ⟨fun n => (∑ k ∈ Finset.range n, weightFn none (x k ω) * (f (id (x k ω)) / ρ n (id (x k ω)))) /
    ∑ k ∈ Finset.range n, weightFn none (x k ω), ?_, ?_⟩
  · filter_upwards [h.predicts, eventually_gt_atTop 0] with n hn hn0
    exact default_ratio ha hf (fun _ => one_pos) hn0 hn
  · have key := reweighted (w := fun k => weightFn none (x k ω)) (r := fun k => f (x k ω)) (φ := fun _ => 1)
      (rn := fun n k => f (x k ω) / ρ n (x k ω)) (L := ∫ z, f z ∂unitLaw) (B := 1) (fun k => zero_le_one) hone
      (fun k => by simp) ?_ fun ε hε => ?_
    · simp only [mul_one] at key
      exact key
    · simp only [weightFn, Option.getD_none, mul_one, one_mul]
      exact h1
    · obtain ⟨m, hm⟩ := exists_nat_one_div_lt (show 0 < ε / (20 * (Bf + 1)) by positivity)
      have hm' : 5 * Bf * unitLaw.real (E m) < ε / 2 := by
        have h3 := hEle m
        have h4 : unitLaw.real (E m) ≤ 2 * (ε / (20 * (Bf + 1))) := by linarith
        calc 5 * Bf * unitLaw.real (E m) ≤ 5 * Bf * (2 * (ε / (20 * (Bf + 1)))) :=
              mul_le_mul_of_nonneg_left h4 (by positivity)
          _ = ε / 2 * (Bf / (Bf + 1)) := by field_simp; ring
          _ < ε / 2 := by
            have : Bf / (Bf + 1) < 1 := (div_lt_one (by positivity)).2 (by linarith)
            nlinarith
      have hp : (0 : ℝ) < 1 / ((m : ℝ) + 1) := by positivity
      have hδ : 0 < min (1 / 2) (ε / (4 * (Bf + 1))) := by positivity
      refine ⟨fun k => ε / 2 + 5 * Bf * (E m).indicator (fun _ => (1 : ℝ)) (x k ω),
        ε / 2 + 5 * Bf * unitLaw.real (E m), by linarith, ?_, ?_⟩
      · have h3 := (hone.mul_const (ε / 2)).add ((h2 m).const_mul (5 * Bf))
        rw [one_mul] at h3
        refine h3.congr fun n => ?_
        simp only [weightFn, Option.getD_none, one_mul, smul_eq_mul, Finset.sum_add_distrib, ← Finset.mul_sum, Finset.sum_const,
          Finset.card_range, nsmul_eq_mul]
        ring
      · filter_upwards [h.half (1 / 4) (by norm_num), h.upper _ hδ, h.interior _ hp _ hδ] with n a1 a2 a3 k
        obtain ⟨k0, k1⟩ := h.inside k
        have hfk := hBf _ k0 k1
        have hfk0 := hf0 (x k ω)
        have hρ : 1 / 4 ≤ ρ n (x k ω) := by have := a1 _ k0 k1; linarith
        by_cases hk : x k ω ∈ E m
        · rw [Set.indicator_of_mem hk, mul_one]
          have h4 : f (x k ω) / ρ n (x k ω) ≤ 4 * Bf := by
            rw [div_le_iff₀ (by linarith)]
            nlinarith
          have h5 : 0 ≤ f (x k ω) / ρ n (x k ω) := div_nonneg hfk0 (by linarith)
          rw [abs_le]
          constructor <;> linarith
        · rw [Set.indicator_of_notMem hk, mul_zero, add_zero]
          have hk' : 1 / ((m : ℝ) + 1) ≤ x k ω 0 ∧ x k ω 0 ≤ 1 - 1 / ((m : ℝ) + 1) := by
            rw [hE] at hk
            simp only [Set.mem_union, Set.mem_ofPred_eq, not_or, not_lt] at hk
            exact hk
          have b1 := a3 _ hk'.1 hk'.2
          have b2 := a2 (x k ω)
          have b3 := min_le_left (1 / 2) (ε / (4 * (Bf + 1)))
          have b4 := min_le_right (1 / 2) (ε / (4 * (Bf + 1)))
          have hρ2 : 1 / 2 ≤ ρ n (x k ω) := by linarith
          have hρp : 0 < ρ n (x k ω) := by linarith
          have e : f (x k ω) / ρ n (x k ω) - f (x k ω) = f (x k ω) * ((1 - ρ n (x k ω)) / ρ n (x k ω)) := by
            field_simp
          rw [e, abs_mul, abs_of_nonneg hfk0, abs_div, abs_of_pos hρp]
          have h6 : |1 - ρ n (x k ω)| ≤ ε / (4 * (Bf + 1)) := abs_le.2 ⟨by linarith, by linarith⟩
          have h7 : |1 - ρ n (x k ω)| / ρ n (x k ω) ≤ 2 * (ε / (4 * (Bf + 1))) := by
            rw [div_le_iff₀ hρp]
            have : 0 ≤ ε / (4 * (Bf + 1)) := by positivity
            nlinarith
          calc f (x k ω) * (|1 - ρ n (x k ω)| / ρ n (x k ω)) ≤ Bf * (2 * (ε / (4 * (Bf + 1)))) :=
                mul_le_mul hfk h7 (by positivity) hB0
            _ = ε / 2 * (Bf / (Bf + 1)) := by field_simp; ring
            _ ≤ ε / 2 := by
              have : Bf / (Bf + 1) ≤ 1 := (div_le_one (by positivity)).2 (by linarith)
              nlinarith

/-! ### Cases -/

/-- The hypotheses of C146 and C147: uniform samples on `[0, 1]`, the observed distribution uniform on `[1/4, 3/4]`. -/
theorem quarter_case : ∃ (f : (Fin 1 → ℝ) → ℝ) (K : Set (Fin 1 → ℝ)),
    (uniformOn ⟨1, 2, (!![1 / 4, 3 / 4] : Matrix (Fin 1) (Fin 2) ℝ)⟩).Evaluates f ∧ Measurable f ∧ (∀ z, 0 ≤ f z) ∧
    (∀ z, f z ≤ 2) ∧ IsProbabilityMeasure (volume.withDensity fun z => ENNReal.ofReal (f z)) ∧ IsCompact K ∧
    (∀ z ∈ K, ContinuousAt unitPdf z ∧ 0 < unitPdf z) ∧ ∀ z, z ∉ K → f z = 0 := by
  have hD : ∀ j : Fin 1, (!![1 / 4, 3 / 4] : Matrix (Fin 1) (Fin 2) ℝ) j 0 <
      (!![1 / 4, 3 / 4] : Matrix (Fin 1) (Fin 2) ℝ) j 1 := by intro j; fin_cases j; norm_num
  have hp := boxLaw_prob hD
  have hm := measurable_boxDensity (!![1 / 4, 3 / 4] : Matrix (Fin 1) (Fin 2) ℝ)
  have hf := uniform_evaluates hD
  have h0 := boxDensity_nonneg (!![1 / 4, 3 / 4] : Matrix (Fin 1) (Fin 2) ℝ)
  have ef : boxDensity (!![1 / 4, 3 / 4] : Matrix (Fin 1) (Fin 2) ℝ) =
      (Set.Icc (fun _ => 1 / 4) fun _ => 3 / 4).indicator fun _ => 2 := by
    have e0 : (fun j => (!![1 / 4, 3 / 4] : Matrix (Fin 1) (Fin 2) ℝ) j 0) = fun _ => 1 / 4 := by
      funext j; fin_cases j; rfl
    have e1 : (fun j => (!![1 / 4, 3 / 4] : Matrix (Fin 1) (Fin 2) ℝ) j 1) = fun _ => 3 / 4 := by
      funext j; fin_cases j; rfl
    rw [boxDensity, e0, e1, Real.volume_Icc_pi]
    norm_num
  rw [boxLaw] at hp
  refine ⟨_, Set.Icc (fun _ => 1 / 4) fun _ => 3 / 4, hf, hm, h0, fun z => ?_, hp, isCompact_Icc, fun z hz => ?_,
    fun z hz => ?_⟩
  · rw [ef]
    by_cases hz : z ∈ Set.Icc (fun _ : Fin 1 => (1 / 4 : ℝ)) fun _ => 3 / 4
    · rw [Set.indicator_of_mem hz]
    · rw [Set.indicator_of_notMem hz]; norm_num
  · have h1 : 1 / 4 ≤ z 0 := hz.1 0
    have h2 : z 0 ≤ 3 / 4 := hz.2 0
    have hO : IsOpen {z : Fin 1 → ℝ | 0 < z 0 ∧ z 0 < 1} :=
      (isOpen_lt continuous_const (continuous_apply 0)).inter (isOpen_lt (continuous_apply 0) continuous_const)
    refine ⟨?_, by rw [unitPdf_in (by linarith) (by linarith)]; exact one_pos⟩
    refine (continuousAt_const (y := (1 : ℝ))).congr ?_
    filter_upwards [hO.mem_nhds (show z ∈ {z : Fin 1 → ℝ | 0 < z 0 ∧ z 0 < 1} from ⟨by linarith, by linarith⟩)] with y hy
    exact (unitPdf_in hy.1.le hy.2.le).symm
  · rw [ef, Set.indicator_of_notMem hz]

example (user : ℕ → ℝ → ℕ → ℝ) : ∀ᵐ ω ∂(Measure.infinitePi fun _ : ℕ => unitLaw), ∃ r : ℕ → ℝ,
    (∀ᶠ n in atTop, ∃ S, sampledDefault user (fun k => ω k) id (some !![0, 1]) none none
      (uniformOn ⟨1, 2, (!![1 / 4, 3 / 4] : Matrix (Fin 1) (Fin 2) ℝ)⟩) n = .ok S ∧
      (DP.expectedRatio (scipyEnv user) S).1 = .ok (.fin (r n))) ∧ Tendsto r atTop (𝓝 1) := by
  obtain ⟨f, K, hf, hm, h0, h2, hp, hK, hgK, hfK⟩ := quarter_case
  obtain ⟨i1, i2⟩ := iid_coords unitLaw
  exact C146_expected_ratio (user := user) (μ := unitLaw) i1 i2 none measurable_const (fun _ => one_pos)
    (M := 1) (fun _ => le_rfl) (by simp [weightFn]) measurable_id one_pos unit_sq unitPdf_measurable
    unitPdf_nonneg unitPdf_le (by rw [Measure.map_id]; exact unitLaw_density) unit_initial hf hm h0 h2 rfl hK hgK hfK

example (user : ℕ → ℝ → ℕ → ℝ) : ∃ π : Measure (Fin 1 → ℝ), IsProbabilityMeasure π ∧
    ∀ᵐ ω ∂(Measure.infinitePi fun _ : ℕ => unitLaw), ∃ R : ℕ → ℕ → ℝ,
    (∀ᶠ n in atTop, FittedRatios user (fun k => ω k) id (some !![0, 1]) none none
      (uniformOn ⟨1, 2, (!![1 / 4, 3 / 4] : Matrix (Fin 1) (Fin 2) ℝ)⟩) n (R n)) ∧
    Tendsto (fun n : ℕ => (∑ k ∈ Finset.range n, weightFn none (ω k) * R n k * Real.cos (ω k 0)) /
      ∑ k ∈ Finset.range n, weightFn none (ω k) * R n k) atTop (𝓝 (∫ l, Real.cos (l 0) ∂π)) := by
  obtain ⟨f, K, hf, hm, h0, h2, hp, hK, hgK, hfK⟩ := quarter_case
  obtain ⟨i1, i2⟩ := iid_coords unitLaw
  obtain ⟨π, hπ, -, -, h⟩ := C147_update (user := user) (μ := unitLaw) i1 i2 none measurable_const (fun _ => one_pos)
    (M := 1) (fun _ => le_rfl) (by simp [weightFn]) measurable_id one_pos unit_sq unitPdf_measurable
    unitPdf_nonneg unitPdf_le (by rw [Measure.map_id]; exact unitLaw_density) unit_initial hf hm h0 h2 rfl hK hgK hfK
  exact ⟨π, hπ, h (fun l => Real.cos (l 0)) (Real.continuous_cos.measurable.comp (measurable_pi_apply 0))
    ⟨1, fun l => Real.abs_cos_le_one _⟩⟩

/-- C147_given: the same case with the uniform density given as predicted density. -/
example {env : Env} : ∃ π : Measure (Fin 1 → ℝ), IsProbabilityMeasure π ∧
    ∀ᵐ ω ∂(Measure.infinitePi fun _ : ℕ => unitLaw), ∃ R : ℕ → ℕ → ℝ,
    (∀ n, 0 < n → GivenRatios env (fun k => ω k) id none none (uniformOn ⟨1, 2, (!![0, 1] : Matrix (Fin 1) (Fin 2) ℝ)⟩)
      (uniformOn ⟨1, 2, (!![1 / 4, 3 / 4] : Matrix (Fin 1) (Fin 2) ℝ)⟩)
      (uniformOn ⟨1, 2, (!![0, 1] : Matrix (Fin 1) (Fin 2) ℝ)⟩) n (R n)) ∧
    Tendsto (fun n : ℕ => (∑ k ∈ Finset.range n, weightFn none (ω k) * R n k * Real.cos (ω k 0)) /
      ∑ k ∈ Finset.range n, weightFn none (ω k) * R n k) atTop (𝓝 (∫ l, Real.cos (l 0) ∂π)) := by
  obtain ⟨f, K, hf, hm, h0, h2, hp, hK, hgK, hfK⟩ := quarter_case
  obtain ⟨i1, i2⟩ := iid_coords unitLaw
  have hD : ∀ j : Fin 1, (!![0, 1] : Matrix (Fin 1) (Fin 2) ℝ) j 0 < (!![0, 1] : Matrix (Fin 1) (Fin 2) ℝ) j 1 := by
    intro j; fin_cases j; norm_num
  have hu := uniform_evaluatesFlat hD
  rw [unit_box] at hu
  obtain ⟨π, hπ, -, -, h⟩ := C147_given (env := env) (μ := unitLaw) i1 i2 none measurable_const (fun _ => one_pos)
    (by simp [weightFn]) measurable_id unitPdf_measurable
    unitPdf_nonneg (by rw [Measure.map_id]; exact unitLaw_density) (uniform_evaluates hD) hf hu hm h0 rfl
    (fun z hz => hfK z fun hzK => (hgK z hzK).2.ne' hz)
  exact ⟨π, hπ, h (fun l => Real.cos (l 0)) (Real.continuous_cos.measurable.comp (measurable_pi_apply 0))
    ⟨1, fun l => Real.abs_cos_le_one _⟩⟩

/-- C146_unit: the observed density `norm(3/4, 3/10)` of the refutation of C145. -/
example (user : ℕ → ℝ → ℕ → ℝ) : ∃ f : (Fin 1 → ℝ) → ℝ,
    ∀ᵐ ω ∂(Measure.infinitePi fun _ : ℕ => unitLaw), ∃ r : ℕ → ℝ,
    (∀ᶠ n in atTop, ∃ S, sampledDefault user (fun k => ω k) id (some !![0, 1]) none none
      (normColumns (fun _ : Fin 1 => 3 / 4) fun _ => 3 / 10) n = .ok S ∧
      (DP.expectedRatio (scipyEnv user) S).1 = .ok (.fin (r n))) ∧
    Tendsto r atTop (𝓝 (∫ z in Set.Icc (0 : Fin 1 → ℝ) 1, f z)) := by
  obtain ⟨c, hc, hf⟩ := normal_one (3 / 4) (s := 3 / 10) (by norm_num)
  obtain ⟨i1, i2⟩ := iid_coords unitLaw
  exact ⟨_, C146_unit (user := user) i1 i2 unit_initial hf (fun z => by positivity) (by fun_prop)⟩

end Verif
