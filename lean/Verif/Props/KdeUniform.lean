import Verif.Lemmas.KernelUniform

/-!
# C144: uniform convergence of the default predicted density

Independent samples with bounded weights and outputs with a bounded density: almost surely the kernel density estimates of
`set_predicted()` converge to the density of the outputs, uniformly on every compact set at whose points it is continuous.
-/

open MeasureTheory ProbabilityTheory Filter Topology WithLp Complex

namespace Verif

variable {p q : ℕ} {Ω : Type} [MeasurableSpace Ω] {user : ℕ → ℝ → ℕ → ℝ}

/-! ## C144 -/

/-- `set_predicted()` on the first `n` samples returns and stores the values of the kernel density estimate `ρ`. -/
def Predicts (user : ℕ → ℝ → ℕ → ℝ) (x : ℕ → Fin p → ℝ) (Q : (Fin p → ℝ) → Fin q → ℝ)
    (dom : Option (Matrix (Fin p) (Fin 2) ℝ)) (W : Option ((Fin p → ℝ) → ℝ)) (bw n : ℕ) (ρ : (Fin q → ℝ) → ℝ) : Prop :=
  ∃ S, sampledNew x Q dom W n = .ok S ∧ (DP.setPredicted (scipyEnv user) none bw none S).1 = .ok () ∧
    (DP.setPredicted (scipyEnv user) none bw none S).2.pr = some (List.ofFn fun k : Fin n => F.fin (ρ (Q (x k)))) ∧
    IsKernelEstimate bw (fun k : Fin n => Q (x k)) (fun k : Fin n => weightFn W (x k)) ρ

theorem Averages.predicts {x : ℕ → Fin p → ℝ} {Q : (Fin p → ℝ) → Fin q → ℝ} {W : Option ((Fin p → ℝ) → ℝ)}
    {ν : Measure (Fin q → ℝ)} (h : Averages (fun k => Q (x k)) (fun k => weightFn W (x k)) ν)
    (hd : (lawCov ν).det ≠ 0) (dom : Option (Matrix (Fin p) (Fin 2) ℝ)) {bw : ℕ} (hbw : bw < 2) (hq : 0 < q) :
    ∀ᶠ n in atTop, Predicts user x Q dom W bw n (kernelEstimate bw (fun k => Q (x k)) (fun k => weightFn W (x k)) n) := by
  have hs := h.sumsq.eventually_lt_const zero_lt_one
  filter_upwards [h.posDef hd, hs, eventually_gt_atTop 1] with n a1 a2 a3
  obtain ⟨S, hS, -, hy, hw⟩ := sampled_new x Q dom W (n := n) (by omega)
  have hpos := h.sum_pos (n := n) (by omega)
  have hret : (DP.setPredicted (scipyEnv user) none bw none S).1 = .ok () := by
    refine (C79_returns_iff hy hw bw).2 ⟨?_, hpos.ne', fun i => div_nonneg (h.pos _).le hpos.le, ?_, a1⟩
    · nlinarith
    · rw [sum_sq_div]
      exact a2
  obtain ⟨ρ, h3, h4⟩ := C79_predicted_density hy hw hbw hret
  have e : ρ = kernelEstimate bw (fun k => Q (x k)) (fun k => weightFn W (x k)) n := by
    funext z
    rw [h3.mixture]
    rfl
  rw [e] at h3 h4
  exact ⟨S, hS, hret, h4, h3⟩

theorem notConfined_of_ac {ν : Measure (Fin q → ℝ)} (hac : ν ≪ volume) (hprob : IsProbabilityMeasure ν) :
    NotConfined ν := by
  intro u c h
  by_contra hu
  let φ : (Fin q → ℝ) →ₗ[ℝ] ℝ :=
    { toFun := fun z => u ⬝ᵥ z, map_add' := dotProduct_add u, map_smul' := fun a z => dotProduct_smul a u z }
  have huu : u ⬝ᵥ u ≠ 0 := fun h0 => hu (dotProduct_self_eq_zero.1 h0)
  have h0 : volume {z : Fin q → ℝ | u ⬝ᵥ z = 0} = 0 := by
    have := Measure.addHaar_submodule volume (LinearMap.ker φ) fun htop => by
      have h1 : u ∈ LinearMap.ker φ := htop ▸ Submodule.mem_top
      exact huu h1
    exact this
  have h1 : volume {z : Fin q → ℝ | u ⬝ᵥ z = c} = 0 := by
    have e : {z : Fin q → ℝ | u ⬝ᵥ z = c} = (fun z => z + (-(c / (u ⬝ᵥ u)) • u)) ⁻¹' {z | u ⬝ᵥ z = 0} := by
      ext z
      simp only [Set.mem_preimage, Set.mem_ofPred_eq, dotProduct_add, dotProduct_smul, smul_eq_mul, neg_mul,
        div_mul_cancel₀ _ huu]
      constructor <;> intro h <;> linarith
    rw [e, measure_preimage_add_right, h0]
  have h2 : ν {z : Fin q → ℝ | u ⬝ᵥ z = c} = 0 := hac h1
  have h3 : ν Set.univ = 0 := by
    have : (Set.univ : Set (Fin q → ℝ)) = {z | u ⬝ᵥ z = c} ∪ {z | ¬ u ⬝ᵥ z = c} := by
      ext z; simp [em]
    rw [this]
    exact measure_union_null h2 (ae_iff.1 h)
  rw [measure_univ] at h3
  exact one_ne_zero h3

/-- **C144.** Samples drawn independently from `τ` with bounded weights `W > 0`, `μ = W τ` the initial distribution, any
number of outputs, with finite second moments and a bounded density `g`. Almost surely `set_predicted()` (either built-in
bandwidth) returns for all large numbers of samples and stores the values of a kernel density estimate `ρ n`, and the
estimates converge to `g` uniformly on every compact set at whose points `g` is continuous. -/
theorem C144_uniform {P : Measure Ω} {x : ℕ → Ω → Fin p → ℝ} {τ μ : Measure (Fin p → ℝ)} [IsProbabilityMeasure μ]
    (hi : iIndepFun x P) (hx : ∀ k, HasLaw (x k) τ P)
    (W : Option ((Fin p → ℝ) → ℝ)) (hWm : Measurable (weightFn W)) (hW : ∀ l, 0 < weightFn W l)
    {M : ℝ} (hM : ∀ l, weightFn W l ≤ M) (hμ : μ = τ.withDensity fun l => ENNReal.ofReal (weightFn W l))
    {Q : (Fin p → ℝ) → Fin q → ℝ} (hQ : Measurable Q) (hq : 0 < q)
    (h2 : ∀ j, Integrable (fun l => Q l j ^ 2) μ)
    {g : (Fin q → ℝ) → ℝ} (hgm : Measurable g) (hg0 : ∀ z, 0 ≤ g z) {B : ℝ} (hB : ∀ z, g z ≤ B)
    (hg : μ.map Q = volume.withDensity fun z => ENNReal.ofReal (g z))
    (dom : Option (Matrix (Fin p) (Fin 2) ℝ)) {bw : ℕ} (hbw : bw < 2) :
    ∀ᵐ ω ∂P, ∃ ρ : ℕ → (Fin q → ℝ) → ℝ,
      (∀ᶠ n in atTop, Predicts user (fun k => x k ω) Q dom W bw n (ρ n)) ∧
      ∀ K : Set (Fin q → ℝ), IsCompact K → (∀ z ∈ K, ContinuousAt g z) → TendstoUniformlyOn ρ g atTop K := by
  have hprob : IsProbabilityMeasure (μ.map Q) := Measure.isProbabilityMeasure_map hQ.aemeasurable
  have h2' : ∀ j, Integrable (fun z : Fin q → ℝ => z j ^ 2) (μ.map Q) := fun j =>
    (integrable_map_measure ((measurable_pi_apply j).pow_const 2).aestronglyMeasurable hQ.aemeasurable).2 (h2 j)
  have hc : NotConfined (μ.map Q) := by
    rw [hg]
    exact notConfined_of_ac (withDensity_absolutelyContinuous _ _) (hg ▸ hprob)
  have hd := lawCov_det h2' hc
  filter_upwards [averages_ae hi hx hWm hW hμ hQ h2, kernel_uniform hi hx hWm hW hμ hM hQ h2 hgm hg0 hB hg hd bw]
    with ω h hr
  exact ⟨_, h.predicts hd dom hbw hq, fun K hK hcont => hr K (uniformOn_compact hK hcont)⟩

theorem uniformOn_normal {H : Matrix (Fin q) (Fin q) ℝ} (hH : H.PosDef) (m : Fin q → ℝ) :
    UniformOn (fun z => normalPdf H (z - m)) Set.univ := by
  have h0 : Tendsto (normalPdf H) (cocompact _) (𝓝 0) := by
    obtain ⟨k, hk, hq⟩ := qf_coercive hH
    have h1 : Tendsto (fun z : Fin q → ℝ => -(k * ‖z‖ ^ 2) / 2) (cocompact _) atBot := by
      have h2 : Tendsto (fun z : Fin q → ℝ => k / 2 * ‖z‖ ^ 2) (cocompact _) atTop :=
        ((tendsto_pow_atTop two_ne_zero).comp (tendsto_norm_cocompact_atTop (E := Fin q → ℝ))).const_mul_atTop
          (by positivity)
      exact (tendsto_neg_atTop_atBot.comp h2).congr fun z => by simp only [Function.comp]; ring
    have h3 := (Real.tendsto_exp_atBot.comp h1).div_const (Real.sqrt ((2 * Real.pi) ^ q * H.det))
    rw [zero_div] at h3
    refine squeeze_zero (fun z => (normalPdf_pos hH z).le) (fun z => ?_) h3
    rw [normalPdf]
    refine div_le_div_of_nonneg_right (Real.exp_le_exp.2 ?_) (Real.sqrt_nonneg _)
    have := hq z
    rw [qf] at this
    linarith
  have hu := (continuous_normalPdf H).uniformContinuous_of_tendsto_cocompact h0
  intro ε hε
  obtain ⟨δ, hδ, h⟩ := Metric.uniformContinuous_iff.1 hu ε hε
  refine ⟨δ, hδ, fun z _ z' hd => ?_⟩
  have := h (a := z' - m) (b := z - m) (by rwa [dist_sub_right, dist_comm])
  rw [Real.dist_eq] at this
  exact this.le

/-- **C144**, normal initial distribution and linear model of full row rank: the default
predicted densities converge to the density of `N(A m + b, A S Aᵀ)`, uniformly on the whole space. -/
theorem C144_linear {P : Measure Ω} {x : ℕ → Ω → Fin p → ℝ} (m : Fin p → ℝ) {S : Matrix (Fin p) (Fin p) ℝ}
    (hS : S.PosDef) (hi : iIndepFun x P) (hx : ∀ k, HasLaw (x k) (normalLaw m S) P)
    (A : Matrix (Fin q) (Fin p) ℝ) (hA : FullRowRank A) (hq : 0 < q) (b : Fin q → ℝ)
    (dom : Option (Matrix (Fin p) (Fin 2) ℝ)) {bw : ℕ} (hbw : bw < 2) :
    ∀ᵐ ω ∂P, ∃ ρ : ℕ → (Fin q → ℝ) → ℝ,
      (∀ᶠ n in atTop, Predicts user (fun k => x k ω) (fun l => A.mulVec l + b) dom none bw n (ρ n)) ∧
      TendstoUniformly ρ (fun z => normalPdf (A * S * A.transpose) (z - (A.mulVec m + b))) atTop := by
  have hP : (A * S * A.transpose).PosDef := posDef_conj hS A hA.inj
  have e := normalLaw_map m hS.posSemidef A b
  have hop := normalLaw_openPos (A.mulVec m + b) hP
  have h2' : ∀ j, Integrable (fun z : Fin q → ℝ => z j ^ 2) (normalLaw (A.mulVec m + b) (A * S * A.transpose)) :=
    fun j => (normalLaw_sq (A.mulVec m + b) hP.posSemidef j).1
  have h2 : ∀ j, Integrable (fun l => (A.mulVec l + b) j ^ 2) (normalLaw m S) := by
    intro j
    have h3 := h2' j
    rw [← e] at h3
    exact h3.comp_aemeasurable (measurable_observe A b).aemeasurable
  have hd := lawCov_det h2' notConfined_of_open
  have hμ : normalLaw m S = (normalLaw m S).withDensity fun l => ENNReal.ofReal (weightFn none l) := by
    simp [weightFn]
  have hb : ∀ z, normalPdf (A * S * A.transpose) (z - (A.mulVec m + b)) ≤ normalTop (A * S * A.transpose) := by
    intro z
    rw [normalPdf, normalTop]
    refine div_le_div_of_nonneg_right (Real.exp_le_one_iff.2 ?_) (Real.sqrt_nonneg _)
    have := hP.inv.posSemidef.dotProduct_mulVec_nonneg (z - (A.mulVec m + b))
    simp only [star_trivial] at this
    linarith
  have hr := kernel_uniform hi hx (w := weightFn none) (M := 1) measurable_const (fun _ => one_pos) hμ (fun _ => le_rfl)
    (measurable_observe A b) h2 (continuous_shift (A * S * A.transpose) (A.mulVec m + b)).measurable
    (fun z => (normalPdf_pos hP _).le) hb (e.trans (normalLaw_eq_pdfLaw _ hP)) (by rw [e]; exact hd) bw
  have ha := averages_ae hi hx (w := weightFn none) measurable_const (fun _ => one_pos) hμ
    (measurable_observe A b) h2
  rw [e] at ha
  filter_upwards [ha, hr] with ω h hr
  refine ⟨_, h.predicts hd dom hbw hq, ?_⟩
  rw [← tendstoUniformlyOn_univ]
  exact hr _ (uniformOn_normal hP _)

/-! ### Cases -/

/-- C144 on a model with two parameters and one output. -/
example (user : ℕ → ℝ → ℕ → ℝ) : ∃ (P : Measure (ℕ → Fin 2 → ℝ)) (Q : (Fin 2 → ℝ) → Fin 1 → ℝ)
    (g : (Fin 1 → ℝ) → ℝ), IsProbabilityMeasure P ∧
    ∀ᵐ ω ∂P, ∃ ρ : ℕ → (Fin 1 → ℝ) → ℝ,
      (∀ᶠ n in atTop, Predicts user (fun k => ω k) Q none none 0 n (ρ n)) ∧ TendstoUniformly ρ g atTop := by
  have hs : ∀ j : Fin 2, 0 < (![1, 2] : Fin 2 → ℝ) j := by intro j; fin_cases j <;> norm_num
  generalize (![1, 2] : Fin 2 → ℝ) = s at hs
  obtain ⟨h1, h2⟩ := iid_coords (normalLaw ![0, 1] (Matrix.diagonal fun j : Fin 2 => s j ^ 2))
  exact ⟨_, _, _, inferInstance, C144_linear (user := user) (x := fun k (ω : ℕ → Fin 2 → ℝ) => ω k) ![0, 1]
    (posDef_diagonal hs) h1 h2 (!![1, 2] : Matrix (Fin 1) (Fin 2) ℝ)
    (fun y => ⟨![y 0, 0], by funext i; fin_cases i; simp⟩) one_pos ![1] none (by norm_num)⟩

/-- C144 with five outputs: the sums of consecutive parameters. -/
example (user : ℕ → ℝ → ℕ → ℝ) : ∃ (P : Measure (ℕ → Fin 6 → ℝ)) (Q : (Fin 6 → ℝ) → Fin 5 → ℝ)
    (g : (Fin 5 → ℝ) → ℝ), IsProbabilityMeasure P ∧ Q (fun j => j) = ![1, 3, 5, 7, 9] ∧
    ∀ᵐ ω ∂P, ∃ ρ : ℕ → (Fin 5 → ℝ) → ℝ,
      (∀ᶠ n in atTop, Predicts user (fun k => ω k) Q none none 1 n (ρ n)) ∧ TendstoUniformly ρ g atTop := by
  obtain ⟨h1, h2⟩ := iid_coords (normalLaw (0 : Fin 6 → ℝ) (Matrix.diagonal fun _ : Fin 6 => (1 : ℝ) ^ 2))
  let A : Matrix (Fin 5) (Fin 6) ℝ :=
    !![1, 1, 0, 0, 0, 0; 0, 1, 1, 0, 0, 0; 0, 0, 1, 1, 0, 0; 0, 0, 0, 1, 1, 0; 0, 0, 0, 0, 1, 1]
  have hA : FullRowRank A := fun y => ⟨![y 0 - (y 1 - (y 2 - (y 3 - y 4))), y 1 - (y 2 - (y 3 - y 4)), y 2 - (y 3 - y 4),
    y 3 - y 4, y 4, 0], by
      funext i
      fin_cases i <;> simp [A]⟩
  refine ⟨_, _, _, inferInstance, ?_, C144_linear (user := user) (x := fun k (ω : ℕ → Fin 6 → ℝ) => ω k) 0
    (posDef_diagonal fun _ => one_pos) h1 h2 A hA (by norm_num) 0 none (by norm_num)⟩
  funext i
  fin_cases i <;> simp [A, dotProduct, Fin.sum_univ_six] <;> norm_num

end Verif
