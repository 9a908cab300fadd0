import Verif.Props.KdeConsistent
import Mathlib.Probability.Moments.SubGaussian
import Mathlib.MeasureTheory.OuterMeasure.BorelCantelli

/-!
# The rate of convergence of averages of characters

For independent samples with bounded weights the averages of `w exp(i t·Q)` approach their mean on the ball of radius `n`
up to a multiple of `n ^ (-4/9)`, almost surely. (Hoeffding's inequality on a grid.) Used by C144.
-/

open MeasureTheory ProbabilityTheory Filter Topology WithLp Complex

namespace Verif

variable {p q : ℕ} {Ω : Type} [MeasurableSpace Ω]

theorem hoeffding_upper {P : Measure Ω} [IsProbabilityMeasure P] {x : ℕ → Ω → Fin p → ℝ} {τ : Measure (Fin p → ℝ)}
    (hi : iIndepFun x P) (hx : ∀ k, HasLaw (x k) τ P) {g : (Fin p → ℝ) → ℝ} (hg : Measurable g) {M : ℝ}
    (hM : 0 < M) (hb : ∀ l, |g l| ≤ M) {n : ℕ} (hn : 0 < n) {ε : ℝ} (hε : 0 ≤ ε) :
    P.real {ω | ε ≤ (n : ℝ)⁻¹ * ∑ k ∈ Finset.range n, g (x k ω) - ∫ l, g l ∂τ} ≤
      Real.exp (-(n * ε ^ 2 / (2 * M ^ 2))) := by
  have hn' : (0 : ℝ) < n := by exact_mod_cast hn
  have hv : ∀ k, ∫ ω, g (x k ω) ∂P = ∫ l, g l ∂τ := fun k => by
    rw [← (hx k).map_eq, integral_map (hx k).aemeasurable hg.aestronglyMeasurable]
  have hsub : ∀ k, HasSubgaussianMGF (fun ω => g (x k ω) - ∫ l, g l ∂τ) ((‖M - -M‖₊ / 2) ^ 2) P := fun k => by
    have := hasSubgaussianMGF_of_mem_Icc (μ := P) (X := fun ω => g (x k ω)) (a := -M) (b := M)
      (hg.comp_aemeasurable (hx k).aemeasurable) (.of_forall fun ω => abs_le.1 (hb _))
    rwa [hv k] at this
  have hind : iIndepFun (fun k ω => g (x k ω) - ∫ l, g l ∂τ) P :=
    hi.comp (fun _ l => g l - ∫ l, g l ∂τ) fun _ => hg.sub_const _
  have h := HasSubgaussianMGF.measure_sum_range_ge_le_of_iIndepFun hind (n := n) (fun k _ => hsub k)
    (ε := n * ε) (by positivity)
  have e1 : {ω | ε ≤ (n : ℝ)⁻¹ * ∑ k ∈ Finset.range n, g (x k ω) - ∫ l, g l ∂τ} =
      {ω | n * ε ≤ ∑ k ∈ Finset.range n, (g (x k ω) - ∫ l, g l ∂τ)} := by
    ext ω
    simp only [Set.mem_ofPred_eq]
    rw [Finset.sum_sub_distrib, Finset.sum_const, Finset.card_range, nsmul_eq_mul]
    rw [← mul_le_mul_iff_right₀ hn', mul_sub, mul_inv_cancel_left₀ hn'.ne']
  rw [e1]
  refine h.trans (le_of_eq ?_)
  congr 1
  have e2 : (((‖M - -M‖₊ / 2) ^ 2 : NNReal) : ℝ) = M ^ 2 := by
    rw [NNReal.coe_pow, NNReal.coe_div, coe_nnnorm, Real.norm_eq_abs, abs_of_pos (by linarith)]
    simp
  rw [e2]
  field_simp

theorem hoeffding {P : Measure Ω} [IsProbabilityMeasure P] {x : ℕ → Ω → Fin p → ℝ} {τ : Measure (Fin p → ℝ)}
    (hi : iIndepFun x P) (hx : ∀ k, HasLaw (x k) τ P) {g : (Fin p → ℝ) → ℝ} (hg : Measurable g) {M : ℝ}
    (hM : 0 < M) (hb : ∀ l, |g l| ≤ M) {n : ℕ} (hn : 0 < n) {ε : ℝ} (hε : 0 ≤ ε) :
    P.real {ω | ε ≤ |(n : ℝ)⁻¹ * ∑ k ∈ Finset.range n, g (x k ω) - ∫ l, g l ∂τ|} ≤
      2 * Real.exp (-(n * ε ^ 2 / (2 * M ^ 2))) := by
  have h1 := hoeffding_upper hi hx hg hM hb hn hε
  have h2 := hoeffding_upper hi hx hg.neg hM (g := fun l => - g l) (fun l => by rw [abs_neg]; exact hb l) hn hε
  have : {ω | ε ≤ |(n : ℝ)⁻¹ * ∑ k ∈ Finset.range n, g (x k ω) - ∫ l, g l ∂τ|} ⊆
      {ω | ε ≤ (n : ℝ)⁻¹ * ∑ k ∈ Finset.range n, g (x k ω) - ∫ l, g l ∂τ} ∪
      {ω | ε ≤ (n : ℝ)⁻¹ * ∑ k ∈ Finset.range n, - g (x k ω) - ∫ l, - g l ∂τ} := by
    intro ω h
    rw [Set.mem_ofPred_eq] at h
    rcases le_abs.1 h with h | h
    · exact .inl h
    · refine .inr ?_
      rw [Set.mem_ofPred_eq, Finset.sum_neg_distrib, integral_neg]
      linarith
  refine (measureReal_mono this).trans ((measureReal_union_le _ _).trans ?_)
  linarith

/-- Average of the weighted characters. -/
noncomputable def ecf (y : ℕ → Fin q → ℝ) (w : ℕ → ℝ) (n : ℕ) (t : Fin q → ℝ) : ℂ :=
  (n : ℝ)⁻¹ • ∑ k ∈ Finset.range n, w k • cexp (((t ⬝ᵥ y k : ℝ) : ℂ) * I)

theorem ecf_concentrates {P : Measure Ω} [IsProbabilityMeasure P] {x : ℕ → Ω → Fin p → ℝ} {τ μ : Measure (Fin p → ℝ)}
    [IsProbabilityMeasure μ]
    (hi : iIndepFun x P) (hx : ∀ k, HasLaw (x k) τ P) {w : (Fin p → ℝ) → ℝ} (hwm : Measurable w) (hw : ∀ l, 0 < w l)
    (hμ : μ = τ.withDensity fun l => ENNReal.ofReal (w l)) {M : ℝ} (hM : ∀ l, w l ≤ M)
    {Q : (Fin p → ℝ) → Fin q → ℝ} (hQ : Measurable Q) (t : Fin q → ℝ) {n : ℕ} (hn : 0 < n) {ε : ℝ} (hε : 0 ≤ ε) :
    P.real {ω | 2 * ε ≤ ‖ecf (fun k => Q (x k ω)) (fun k => w (x k ω)) n t - cf (μ.map Q) t‖} ≤
      4 * Real.exp (-(n * ε ^ 2 / (2 * M ^ 2))) := by
  have hM0 : 0 < M := (hw 0).trans_le (hM 0)
  have hc : Continuous fun z : Fin q → ℝ => cexp (((t ⬝ᵥ z : ℝ) : ℂ) * I) := by
    simp only [dotProduct]; fun_prop
  have hd : Measurable fun l => t ⬝ᵥ Q l := by
    have : Continuous fun z : Fin q → ℝ => t ⬝ᵥ z := by simp only [dotProduct]; fun_prop
    exact this.measurable.comp hQ
  have hm : Measurable fun l => cexp (((t ⬝ᵥ Q l : ℝ) : ℂ) * I) := hc.measurable.comp hQ
  have e : ∀ l, (ENNReal.ofReal (w l)).toReal = w l := fun l => ENNReal.toReal_ofReal (hw l).le
  have hcf : cf (μ.map Q) t = ∫ l, w l • cexp (((t ⬝ᵥ Q l : ℝ) : ℂ) * I) ∂τ := by
    rw [cf, integral_map hQ.aemeasurable hc.aestronglyMeasurable, hμ,
      integral_withDensity_eq_integral_toReal_smul hwm.ennreal_ofReal (.of_forall fun l => ENNReal.ofReal_lt_top)]
    simp only [e]
  have hint : Integrable (fun l => w l • cexp (((t ⬝ᵥ Q l : ℝ) : ℂ) * I)) τ := by
    have : IsProbabilityMeasure τ := (hx 0).map_eq ▸ Measure.isProbabilityMeasure_map (hx 0).aemeasurable
    refine (integrable_const M).mono' (hwm.smul hm).aestronglyMeasurable (.of_forall fun l => ?_)
    rw [norm_smul, norm_exp_ofReal_mul_I, mul_one, Real.norm_eq_abs, abs_of_pos (hw l)]
    exact hM l
  have hre : (cf (μ.map Q) t).re = ∫ l, w l * Real.cos (t ⬝ᵥ Q l) ∂τ := by
    rw [hcf, ← RCLike.re_eq_complex_re, ← integral_re hint]
    refine integral_congr_ae (.of_forall fun l => ?_)
    simp [Complex.exp_ofReal_mul_I_re]
  have him : (cf (μ.map Q) t).im = ∫ l, w l * Real.sin (t ⬝ᵥ Q l) ∂τ := by
    rw [hcf, ← RCLike.im_eq_complex_im, ← integral_im hint]
    refine integral_congr_ae (.of_forall fun l => ?_)
    simp [Complex.exp_ofReal_mul_I_im]
  have hb : ∀ (f : ℝ → ℝ), (∀ a, |f a| ≤ 1) → ∀ l, |w l * f (t ⬝ᵥ Q l)| ≤ M := fun f hf l => by
    rw [abs_mul, abs_of_pos (hw l)]
    calc w l * |f (t ⬝ᵥ Q l)| ≤ w l * 1 := mul_le_mul_of_nonneg_left (hf _) (hw l).le
      _ ≤ M := by rw [mul_one]; exact hM l
  have h1 := hoeffding hi hx (hwm.mul hd.cos) hM0 (hb _ Real.abs_cos_le_one) hn hε
  have h2 := hoeffding hi hx (hwm.mul hd.sin) hM0 (hb _ Real.abs_sin_le_one) hn hε
  have hsub : {ω | 2 * ε ≤ ‖ecf (fun k => Q (x k ω)) (fun k => w (x k ω)) n t - cf (μ.map Q) t‖} ⊆
      {ω | ε ≤ |(n : ℝ)⁻¹ * ∑ k ∈ Finset.range n, w (x k ω) * Real.cos (t ⬝ᵥ Q (x k ω)) -
        ∫ l, w l * Real.cos (t ⬝ᵥ Q l) ∂τ|} ∪
      {ω | ε ≤ |(n : ℝ)⁻¹ * ∑ k ∈ Finset.range n, w (x k ω) * Real.sin (t ⬝ᵥ Q (x k ω)) -
        ∫ l, w l * Real.sin (t ⬝ᵥ Q l) ∂τ|} := by
    intro ω h
    rw [Set.mem_ofPred_eq] at h
    have h3 := h.trans (Complex.norm_le_abs_re_add_abs_im _)
    have hr : (ecf (fun k => Q (x k ω)) (fun k => w (x k ω)) n t).re =
        (n : ℝ)⁻¹ * ∑ k ∈ Finset.range n, w (x k ω) * Real.cos (t ⬝ᵥ Q (x k ω)) := by
      rw [ecf, Complex.smul_re, Complex.re_sum, smul_eq_mul]
      simp only [Complex.smul_re, Complex.exp_ofReal_mul_I_re, smul_eq_mul]
    have hj : (ecf (fun k => Q (x k ω)) (fun k => w (x k ω)) n t).im =
        (n : ℝ)⁻¹ * ∑ k ∈ Finset.range n, w (x k ω) * Real.sin (t ⬝ᵥ Q (x k ω)) := by
      rw [ecf, Complex.smul_im, Complex.im_sum, smul_eq_mul]
      simp only [Complex.smul_im, Complex.exp_ofReal_mul_I_im, smul_eq_mul]
    rw [Complex.sub_re, Complex.sub_im, hre, him, hr, hj] at h3
    by_contra hcon
    rw [Set.mem_union, not_or, Set.mem_ofPred_eq, Set.mem_ofPred_eq, not_le, not_le] at hcon
    linarith [hcon.1, hcon.2]
  refine (measureReal_mono hsub).trans ((measureReal_union_le _ _).trans ?_)
  simp only [Pi.mul_apply] at h1 h2
  linarith

theorem ecf_lip {y : ℕ → Fin q → ℝ} {w : ℕ → ℝ} (hw : ∀ k, 0 < w k) {K : ℝ}
    (hK : ∀ n : ℕ, (n : ℝ)⁻¹ * ∑ k ∈ Finset.range n, w k * ∑ j, |y k j| ≤ K) (n : ℕ) (t s : Fin q → ℝ) :
    ‖ecf y w n t - ecf y w n s‖ ≤ K * ‖t - s‖ := by
  rw [ecf, ecf, ← smul_sub, ← Finset.sum_sub_distrib, norm_smul, Real.norm_eq_abs, abs_of_nonneg (by positivity)]
  calc (n : ℝ)⁻¹ * ‖∑ k ∈ Finset.range n, (w k • cexp (((t ⬝ᵥ y k : ℝ) : ℂ) * I) -
        w k • cexp (((s ⬝ᵥ y k : ℝ) : ℂ) * I))‖
      ≤ (n : ℝ)⁻¹ * ∑ k ∈ Finset.range n, (w k * ∑ j, |y k j|) * ‖t - s‖ := by
        refine mul_le_mul_of_nonneg_left ((norm_sum_le _ _).trans (Finset.sum_le_sum fun k _ => ?_)) (by positivity)
        rw [← smul_sub, norm_smul, Real.norm_eq_abs, abs_of_pos (hw k), mul_assoc]
        refine mul_le_mul_of_nonneg_left ?_ (hw k).le
        have e1 : cexp (((t ⬝ᵥ y k : ℝ) : ℂ) * I) - cexp (((s ⬝ᵥ y k : ℝ) : ℂ) * I) =
            cexp (((s ⬝ᵥ y k : ℝ) : ℂ) * I) * (cexp (I * (((t - s) ⬝ᵥ y k : ℝ) : ℂ)) - 1) := by
          rw [mul_sub, ← Complex.exp_add, mul_one, sub_dotProduct]
          congr 2
          push_cast
          ring
        rw [e1, norm_mul, norm_exp_ofReal_mul_I, one_mul]
        refine (Real.norm_exp_I_mul_ofReal_sub_one_le).trans ?_
        rw [Real.norm_eq_abs, dotProduct, Finset.sum_mul]
        refine (Finset.abs_sum_le_sum_abs _ _).trans (Finset.sum_le_sum fun j _ => ?_)
        rw [abs_mul, mul_comm]
        exact mul_le_mul_of_nonneg_left (norm_le_pi_norm (t - s) j) (abs_nonneg _)
    _ ≤ K * ‖t - s‖ := by
        rw [← Finset.sum_mul, ← mul_assoc]
        exact mul_le_mul_of_nonneg_right (hK n) (norm_nonneg _)

/-- Integer points, later divided by `n`, that cover the cube of half side `n`. -/
noncomputable def grid (q n : ℕ) : Finset (Fin q → ℤ) := Fintype.piFinset fun _ => Finset.Icc (-(n ^ 2 : ℤ)) (n ^ 2)

theorem card_grid (n : ℕ) : (grid q n).card = (2 * n ^ 2 + 1) ^ q := by
  rw [grid, Fintype.card_piFinset]
  simp only [Int.card_Icc, Finset.prod_const, Finset.card_univ, Fintype.card_fin]
  congr 1
  have : ((n : ℤ) ^ 2 + 1 - -(n : ℤ) ^ 2) = ((2 * n ^ 2 + 1 : ℕ) : ℤ) := by push_cast; ring
  rw [this, Int.toNat_natCast]

theorem grid_covers {n : ℕ} (hn : 0 < n) {t : Fin q → ℝ} (ht : ‖t‖ ≤ n) :
    ∃ κ ∈ grid q n, ‖t - fun j => (κ j : ℝ) / n‖ ≤ (n : ℝ)⁻¹ := by
  have hn' : (0 : ℝ) < n := by exact_mod_cast hn
  refine ⟨fun j => ⌊t j * n⌋, ?_, ?_⟩
  · rw [grid, Fintype.mem_piFinset]
    intro j
    have h1 : |t j| ≤ n := (norm_le_pi_norm t j).trans ht
    rw [abs_le] at h1
    rw [Finset.mem_Icc]
    constructor
    · rw [Int.le_floor]
      push_cast
      nlinarith
    · have : (⌊t j * n⌋ : ℝ) ≤ ((n ^ 2 : ℤ) : ℝ) := (Int.floor_le _).trans (by push_cast; nlinarith)
      exact_mod_cast this
  · rw [pi_norm_le_iff_of_nonneg (by positivity)]
    intro j
    have h1 := Int.floor_le (t j * n)
    have h2 := (Int.lt_floor_add_one (t j * n)).le
    have e : t j - (⌊t j * n⌋ : ℝ) / n = (t j * n - ⌊t j * n⌋) * (n : ℝ)⁻¹ := by field_simp
    rw [Pi.sub_apply, Real.norm_eq_abs, e, abs_of_nonneg (mul_nonneg (by linarith) (by positivity))]
    calc (t j * n - ⌊t j * n⌋) * (n : ℝ)⁻¹ ≤ 1 * (n : ℝ)⁻¹ := mul_le_mul_of_nonneg_right (by linarith) (by positivity)
      _ = _ := one_mul _

theorem summable_grid (q : ℕ) {a : ℝ} (ha : 0 < a) :
    Summable fun n : ℕ => (((2 * n ^ 2 + 1) ^ q : ℕ) : ℝ) * (4 * Real.exp (-a * (n : ℝ) ^ (1 / 9 : ℝ))) := by
  have h0 : Tendsto (fun n : ℕ => (n : ℝ) ^ (1 / 9 : ℝ)) atTop atTop :=
    (tendsto_rpow_atTop (by norm_num)).comp tendsto_natCast_atTop_atTop
  have h1 := (isLittleO_exp_neg_mul_rpow_atTop ha (-(9 * (2 * q + 2) : ℝ))).isBigO.comp_tendsto h0
  have h2 : (fun n : ℕ => (((2 * n ^ 2 + 1) ^ q : ℕ) : ℝ) * 4) =O[atTop] fun n : ℕ => (n : ℝ) ^ (2 * q : ℝ) := by
    refine Asymptotics.IsBigO.of_bound (3 ^ q * 4) ?_
    filter_upwards [eventually_gt_atTop 0] with n hn
    have hn' : (1 : ℝ) ≤ n := by exact_mod_cast hn
    have e : (n : ℝ) ^ (2 * q : ℝ) = (n ^ 2) ^ q := by
      rw [← pow_mul, ← Real.rpow_natCast]; push_cast; rfl
    rw [e, Real.norm_eq_abs, Real.norm_eq_abs, abs_of_nonneg (by positivity), abs_of_nonneg (by positivity),
      mul_right_comm, ← mul_pow]
    push_cast
    gcongr
    nlinarith
  have h3 := h2.mul h1
  refine summable_of_isBigO_nat (Real.summable_nat_rpow.2 (by norm_num : (-2 : ℝ) < -1)) ((h3.congr' ?_ ?_))
  · exact .of_forall fun n => by simp only [Function.comp]; ring
  · filter_upwards [eventually_gt_atTop 0] with n hn
    have hn' : (0 : ℝ) < n := by exact_mod_cast hn
    simp only [Function.comp]
    rw [← Real.rpow_mul hn'.le, ← Real.rpow_add hn']
    congr 1
    ring

/-- The averages of the characters approach the characteristic function fast on large balls. -/
theorem ecf_rate {P : Measure Ω} {x : ℕ → Ω → Fin p → ℝ} {τ μ : Measure (Fin p → ℝ)} [IsProbabilityMeasure μ]
    (hi : iIndepFun x P) (hx : ∀ k, HasLaw (x k) τ P) {w : (Fin p → ℝ) → ℝ} (hwm : Measurable w) (hw : ∀ l, 0 < w l)
    (hμ : μ = τ.withDensity fun l => ENNReal.ofReal (w l)) {M : ℝ} (hM : ∀ l, w l ≤ M)
    {Q : (Fin p → ℝ) → Fin q → ℝ} (hQ : Measurable Q) (h2 : ∀ j, Integrable (fun l => Q l j ^ 2) μ) :
    ∀ᵐ ω ∂P, ∃ C, ∀ᶠ n : ℕ in atTop, ∀ t : Fin q → ℝ, ‖t‖ ≤ n →
      ‖ecf (fun k => Q (x k ω)) (fun k => w (x k ω)) n t - cf (μ.map Q) t‖ ≤ C * (n : ℝ) ^ (-(4 / 9) : ℝ) := by
  have hP : IsProbabilityMeasure P := hi.isProbabilityMeasure
  have hM0 : 0 < M := (hw 0).trans_le (hM 0)
  have hprob : IsProbabilityMeasure (μ.map Q) := Measure.isProbabilityMeasure_map hQ.aemeasurable
  set ε : ℕ → ℝ := fun n => (n : ℝ) ^ (-(4 / 9) : ℝ) with hε
  set bad : ℕ → Set Ω := fun n => {ω | 0 < n ∧ ∃ κ ∈ grid q n, 2 * ε n ≤
    ‖ecf (fun k => Q (x k ω)) (fun k => w (x k ω)) n (fun j => (κ j : ℝ) / n) -
      cf (μ.map Q) (fun j => (κ j : ℝ) / n)‖} with hbad
  have hb : ∀ n, P (bad n) ≤ ENNReal.ofReal ((((2 * n ^ 2 + 1) ^ q : ℕ) : ℝ) *
      (4 * Real.exp (-(1 / (2 * M ^ 2)) * (n : ℝ) ^ (1 / 9 : ℝ)))) := by
    intro n
    rw [← ofReal_measureReal]
    refine ENNReal.ofReal_le_ofReal ?_
    rcases Nat.eq_zero_or_pos n with rfl | hn
    · have : bad 0 = ∅ := by
        ext ω; simp [hbad]
      rw [this, measureReal_empty]
      positivity
    · have hn' : (0 : ℝ) < n := by exact_mod_cast hn
      have e : bad n = ⋃ κ ∈ grid q n, {ω | 2 * ε n ≤
          ‖ecf (fun k => Q (x k ω)) (fun k => w (x k ω)) n (fun j => (κ j : ℝ) / n) -
            cf (μ.map Q) (fun j => (κ j : ℝ) / n)‖} := by
        ext ω
        simp only [hbad, Set.mem_ofPred_eq, Set.mem_iUnion, exists_prop, hn, true_and]
      rw [e]
      refine (measureReal_biUnion_finset_le _ _).trans ?_
      refine (Finset.sum_le_card_nsmul _ _ _ fun κ _ =>
        ecf_concentrates hi hx hwm hw hμ hM hQ _ hn (Real.rpow_nonneg hn'.le _)).trans (le_of_eq ?_)
      rw [card_grid, nsmul_eq_mul]
      congr 3
      have : (n : ℝ) ^ (1 / 9 : ℝ) = n * ε n ^ 2 := by
        rw [hε, ← Real.rpow_natCast, ← Real.rpow_mul hn'.le]
        nth_rw 2 [← Real.rpow_one (n : ℝ)]
        rw [← Real.rpow_add hn']
        norm_num
      rw [this]
      ring
  have hsum : ∑' n, P (bad n) ≠ ⊤ := by
    refine ne_top_of_le_ne_top ?_ (ENNReal.tsum_le_tsum hb)
    exact (summable_grid q (by positivity)).tsum_ofReal_ne_top
  filter_upwards [ae_eventually_notMem hsum, averages_ae hi hx hwm hw hμ hQ h2] with ω h1 h3
  obtain ⟨B, hB⟩ := h3.norm
  obtain ⟨K, hK⟩ := hB.bddAbove_range
  have hK' : ∀ n : ℕ, (n : ℝ)⁻¹ * ∑ k ∈ Finset.range n, w (x k ω) * ∑ j, |Q (x k ω) j| ≤ K := fun n => hK ⟨n, rfl⟩
  have hK0 : 0 ≤ K := by have := hK' 0; simpa using this
  have hl := ecf_lip (y := fun k => Q (x k ω)) (w := fun k => w (x k ω)) (fun k => hw _) hK'
  have hlc : ∀ t s, ‖cf (μ.map Q) t - cf (μ.map Q) s‖ ≤ K * ‖t - s‖ := fun t s =>
    le_of_tendsto ((h3.cf_all t).sub (h3.cf_all s)).norm (.of_forall fun n => hl n t s)
  refine ⟨2 + 2 * K, ?_⟩
  filter_upwards [h1, eventually_gt_atTop 0] with n a1 hn t ht
  have hn' : (1 : ℝ) ≤ n := by exact_mod_cast hn
  obtain ⟨κ, hκ, hd⟩ := grid_covers hn ht
  have a2 : ‖ecf (fun k => Q (x k ω)) (fun k => w (x k ω)) n (fun j => (κ j : ℝ) / n) -
      cf (μ.map Q) (fun j => (κ j : ℝ) / n)‖ < 2 * ε n := by
    by_contra hcon
    exact a1 ⟨hn, κ, hκ, not_lt.1 hcon⟩
  have a3 : (n : ℝ)⁻¹ ≤ ε n := by
    rw [← Real.rpow_neg_one]
    exact Real.rpow_le_rpow_of_exponent_le hn' (by norm_num)
  have a4 := (hl n t fun j => (κ j : ℝ) / n).trans (mul_le_mul_of_nonneg_left (hd.trans a3) hK0)
  have a5 := (hlc t fun j => (κ j : ℝ) / n).trans (mul_le_mul_of_nonneg_left (hd.trans a3) hK0)
  set s : Fin q → ℝ := fun j => (κ j : ℝ) / n
  have e : ecf (fun k => Q (x k ω)) (fun k => w (x k ω)) n t - cf (μ.map Q) t =
      (ecf (fun k => Q (x k ω)) (fun k => w (x k ω)) n t - ecf (fun k => Q (x k ω)) (fun k => w (x k ω)) n s) +
      (ecf (fun k => Q (x k ω)) (fun k => w (x k ω)) n s - cf (μ.map Q) s) - (cf (μ.map Q) t - cf (μ.map Q) s) := by ring
  rw [e]
  refine (norm_sub_le _ _).trans ?_
  refine (add_le_add (norm_add_le _ _) le_rfl).trans ?_
  change _ ≤ (2 + 2 * K) * ε n
  nlinarith

end Verif
