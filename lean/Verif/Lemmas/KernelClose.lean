import Verif.Lemmas.EmpiricalCf
import Verif.Lemmas.MixtureClose
import Verif.Props.Stability
import Verif.Props.SampleMode
import Mathlib.Topology.UniformSpace.HeineCantor
import Mathlib.Algebra.Order.Chebyshev

/-!
# Kernel density estimates and the smoothed distribution

The kernel density estimates of independent samples with bounded weights, up to three outputs, approach the output
distribution smoothed by the kernel, uniformly; a bounded density smoothed by narrowing kernels converges uniformly on
every set where it is uniformly continuous. Used by C144 and C145.
-/

open MeasureTheory ProbabilityTheory Filter Topology WithLp Complex

namespace Verif

variable {p q : ℕ} {Ω : Type} [MeasurableSpace Ω] {user : ℕ → ℝ → ℕ → ℝ}

/-! ## Bandwidth and covariance of the kernel -/

theorem effSize_le {n : ℕ} (w : Fin n → ℝ) : effSize w ≤ n := by
  refine div_le_of_le_mul₀ (Finset.sum_nonneg fun i _ => sq_nonneg _) (by positivity) ?_
  have := sq_sum_le_card_mul_sum_sq (s := Finset.univ) (f := w)
  rwa [Finset.card_univ, Fintype.card_fin] at this

theorem bandwidth_inv_le (bw q : ℕ) {m : ℝ} {n : ℕ} (hm : 0 < m) (hmn : m ≤ n) :
    (bandwidth bw m q)⁻¹ ≤ (((q : ℝ) + 2) * n) ^ (1 / (q + 4 : ℝ)) := by
  have hq : (0 : ℝ) ≤ q := by positivity
  have e : ∀ a : ℝ, 0 ≤ a → (a ^ (-1 / (q + 4 : ℝ)))⁻¹ = a ^ (1 / (q + 4 : ℝ)) := fun a ha => by
    rw [← Real.rpow_neg ha]
    congr 1
    ring
  unfold bandwidth
  split_ifs
  · rw [e m hm.le]
    exact Real.rpow_le_rpow hm.le (by nlinarith) (by positivity)
  · rw [e _ (by positivity)]
    exact Real.rpow_le_rpow (by positivity) (by nlinarith) (by positivity)

theorem bandwidth_tail (q k : ℕ) {a : ℝ} (hk : (k : ℝ) / (q + 4) < a) :
    Tendsto (fun n : ℕ => ((((q : ℝ) + 2) * n) ^ (1 / (q + 4 : ℝ))) ^ k * (n : ℝ) ^ (-a)) atTop (𝓝 0) := by
  have h1 : Tendsto (fun n : ℕ => (((q : ℝ) + 2) ^ (k / (q + 4 : ℝ))) * (n : ℝ) ^ (-(a - k / (q + 4)))) atTop (𝓝 0) := by
    have := ((tendsto_rpow_neg_atTop (sub_pos.2 hk)).comp tendsto_natCast_atTop_atTop).const_mul
      (((q : ℝ) + 2) ^ (k / (q + 4 : ℝ)))
    rwa [mul_zero] at this
  refine h1.congr' ?_
  filter_upwards [eventually_gt_atTop 0] with n hn
  have hn' : (0 : ℝ) < n := by exact_mod_cast hn
  rw [← Real.rpow_natCast, ← Real.rpow_mul (by positivity), Real.mul_rpow (by positivity) hn'.le, mul_assoc,
    ← Real.rpow_add hn']
  congr 2 <;> ring

theorem normalTop_smul {h : ℝ} (hh : 0 < h) (S : Matrix (Fin q) (Fin q) ℝ) :
    normalTop (h ^ 2 • S) = h⁻¹ ^ q * normalTop S := by
  rw [normalTop, normalTop, Matrix.det_smul, Fintype.card_fin, mul_left_comm, ← pow_mul, mul_comm 2 q, pow_mul,
    Real.sqrt_mul (by positivity), Real.sqrt_sq (by positivity), inv_pow, one_div, mul_inv, one_div]

theorem inv_smul_sq {h : ℝ} (hh : 0 < h) {S : Matrix (Fin q) (Fin q) ℝ} (hS : S.det ≠ 0) :
    (h ^ 2 • S)⁻¹ = h⁻¹ ^ 2 • S⁻¹ := by
  refine Matrix.inv_eq_right_inv ?_
  rw [Matrix.smul_mul, Matrix.mul_smul, smul_smul, Matrix.mul_nonsing_inv _ (isUnit_iff_ne_zero.2 hS), ← mul_pow,
    mul_inv_cancel₀ hh.ne', one_pow, one_smul]

theorem normalTop_tendsto {ι : Type} {l : Filter ι} {M : Matrix (Fin q) (Fin q) ℝ}
    {M' : ι → Matrix (Fin q) (Fin q) ℝ} (h : 0 < M.det) (hM : Tendsto M' l (𝓝 M)) :
    Tendsto (fun i => normalTop (M' i)) l (𝓝 (normalTop M)) := by
  have h1 : Tendsto (fun i => (M' i).det) l (𝓝 M.det) := (continuous_id.matrix_det.tendsto M).comp hM
  refine (tendsto_const_nhds (x := (1 : ℝ))).div (h1.const_mul _).sqrt ?_
  exact (Real.sqrt_pos.2 (by positivity)).ne'

/-! ## Distance from the smoothed distribution -/

section Path
variable {y : ℕ → Fin q → ℝ} {w : ℕ → ℝ} {ν : Measure (Fin q → ℝ)} [IsProbabilityMeasure ν]

/-- Covariance of the kernels. -/
noncomputable def kernelCov (bw : ℕ) (y : ℕ → Fin q → ℝ) (w : ℕ → ℝ) (n : ℕ) : Matrix (Fin q) (Fin q) ℝ :=
  bandwidth bw (Verif.effSize fun k : Fin n => w k) q ^ 2 • Verif.wCov (fun k : Fin n => y k) fun k : Fin n => w k

theorem kernelEstimate_eq (bw : ℕ) (y : ℕ → Fin q → ℝ) (w : ℕ → ℝ) (n : ℕ) :
    kernelEstimate bw y w n = mixture (fun k : Fin n => y k) (fun k : Fin n => w k) (kernelCov bw y w n) := rfl

theorem Averages.normalised_rate (h : Averages y w ν) {C : ℝ}
    (hr : ∀ᶠ n : ℕ in atTop, ∀ t : Fin q → ℝ, ‖t‖ ≤ n → ‖ecf y w n t - Verif.cf ν t‖ ≤ C * (n : ℝ) ^ (-(4 / 9) : ℝ)) :
    ∀ᶠ n : ℕ in atTop, ∀ t : Fin q → ℝ, ‖t‖ ≤ n →
      ‖(∑ k : Fin n, w k)⁻¹ • ∑ k : Fin n, w k • cexp (((t ⬝ᵥ y k : ℝ) : ℂ) * I) - Verif.cf ν t‖ ≤
        4 * C * (n : ℝ) ^ (-(4 / 9) : ℝ) := by
  have hhalf := h.one.eventually_const_lt (show (1 / 2 : ℝ) < 1 by norm_num)
  filter_upwards [hr, hhalf, eventually_gt_atTop 0] with n a1 a2 hn t ht
  have hn' : (n : ℝ) ≠ 0 := by exact_mod_cast hn.ne'
  set s : ℝ := (n : ℝ)⁻¹ * ∑ k ∈ Finset.range n, w k with hs
  set δ : ℝ := C * (n : ℝ) ^ (-(4 / 9) : ℝ) with hδ
  have hs0 : 0 < s := by linarith
  have h0 := a1 0 (by simp)
  have e0 : ecf y w n 0 - Verif.cf ν 0 = ((s - 1 : ℝ) : ℂ) := by
    rw [ecf, Verif.cf]
    simp only [zero_dotProduct, ofReal_zero, zero_mul, Complex.exp_zero, integral_const, probReal_univ, one_smul,
      Complex.real_smul, mul_one]
    rw [hs]
    push_cast
    rfl
  rw [e0, Complex.norm_real, Real.norm_eq_abs] at h0
  have e1 : (∑ k : Fin n, w k)⁻¹ • ∑ k : Fin n, w k • cexp (((t ⬝ᵥ y k : ℝ) : ℂ) * I) = s⁻¹ • ecf y w n t := by
    rw [ecf, hs, smul_smul, mul_inv, inv_inv, mul_right_comm, mul_inv_cancel₀ hn', one_mul, Finset.sum_range,
      Finset.sum_range]
  have hcf : ‖Verif.cf ν t‖ ≤ 1 := by
    refine (norm_integral_le_integral_norm _).trans ?_
    simp only [norm_exp_ofReal_mul_I]
    simp
  have e2 : s⁻¹ • ecf y w n t - Verif.cf ν t =
      s⁻¹ • ((ecf y w n t - Verif.cf ν t) + (1 - s) • Verif.cf ν t) := by
    rw [smul_add, smul_sub, smul_smul, mul_sub, inv_mul_cancel₀ hs0.ne', mul_one, sub_smul, one_smul]
    ring
  rw [e1, e2, norm_smul, Real.norm_eq_abs, abs_of_pos (inv_pos.2 hs0)]
  have h3 : ‖(ecf y w n t - Verif.cf ν t) + (1 - s) • Verif.cf ν t‖ ≤ 2 * δ := by
    refine (norm_add_le _ _).trans ?_
    rw [norm_smul, Real.norm_eq_abs, abs_sub_comm]
    have := mul_le_mul_of_nonneg_left hcf (abs_nonneg (s - 1))
    linarith [a1 t ht]
  have h4 : s⁻¹ ≤ 2 := by
    rw [inv_le_comm₀ hs0 (by norm_num)]
    linarith
  calc s⁻¹ * ‖(ecf y w n t - Verif.cf ν t) + (1 - s) • Verif.cf ν t‖ ≤ 2 * (2 * δ) :=
        mul_le_mul h4 h3 (norm_nonneg _) (by norm_num)
    _ = 4 * C * (n : ℝ) ^ (-(4 / 9) : ℝ) := by rw [hδ]; ring

omit [IsProbabilityMeasure ν] in
theorem Averages.kernelCov_posDef (h : Averages y w ν) (hν : (lawCov ν).det ≠ 0) (bw : ℕ) :
    ∀ᶠ n : ℕ in atTop, (kernelCov bw y w n).PosDef := by
  filter_upwards [h.posDef hν, h.effSize.eventually_gt_atTop 0] with n a1 a2
  exact a1.smul (pow_pos (bandwidth_pos bw q a2) 2)

omit [IsProbabilityMeasure ν] in
theorem Averages.kernelCov_zero (h : Averages y w ν) (bw : ℕ) :
    Tendsto (fun n : ℕ => kernelCov bw y w n) atTop (𝓝 0) := by
  have := ((bandwidth_tendsto bw q h.effSize).pow 2).smul h.wCov
  rwa [zero_pow two_ne_zero, zero_smul] at this

/-- The kernel density estimates approach the smoothed distribution uniformly. -/
theorem Averages.close (h : Averages y w ν) (hν : (lawCov ν).det ≠ 0) (hq : q ≤ 3) (bw : ℕ)
    (hr : ∃ C, ∀ᶠ n : ℕ in atTop, ∀ t : Fin q → ℝ, ‖t‖ ≤ n →
      ‖ecf y w n t - Verif.cf ν t‖ ≤ C * (n : ℝ) ^ (-(4 / 9) : ℝ)) :
    ∃ η : ℕ → ℝ, Tendsto η atTop (𝓝 0) ∧ ∀ᶠ n : ℕ in atTop, ∀ z,
      |kernelEstimate bw y w n z - ∫ z', normalPdf (kernelCov bw y w n) (z - z') ∂ν| ≤ η n := by
  obtain ⟨C, hC⟩ := hr
  have hdet : 0 < (lawCov ν).det := by
    have : Tendsto (fun n : ℕ => (Verif.wCov (fun k : Fin n => y k) fun k : Fin n => w k).det) atTop
      (𝓝 (lawCov ν).det) := (continuous_id.matrix_det.tendsto _).comp h.wCov
    refine lt_of_le_of_ne (ge_of_tendsto this ?_) hν.symm
    filter_upwards [h.posDef hν] with n hn
    exact hn.det_pos.le
  set S : ℕ → Matrix (Fin q) (Fin q) ℝ := fun n => Verif.wCov (fun k : Fin n => y k) fun k : Fin n => w k with hS
  set b : ℕ → ℝ := fun n => (((q : ℝ) + 2) * n) ^ (1 / (q + 4 : ℝ)) with hb
  have hq3 : (q : ℝ) ≤ 3 := by exact_mod_cast hq
  have hq0 : (0 : ℝ) ≤ q := by positivity
  have ht : Tendsto (fun n => normalTop (S n)) atTop (𝓝 (normalTop (lawCov ν))) := normalTop_tendsto hdet h.wCov
  have htr : Tendsto (fun n => ∑ j, (S n)⁻¹ j j) atTop (𝓝 (∑ j, (lawCov ν)⁻¹ j j)) := by
    refine tendsto_finsetSum _ fun j _ => ?_
    exact ((continuous_id.matrix_elem j j).tendsto _).comp (tendsto_inv hν h.wCov)
  have t1 := bandwidth_tail q q (a := 4 / 9) (by rw [div_lt_div_iff₀ (by positivity) (by norm_num)]; linarith)
  have t2 := bandwidth_tail q (q + 2) (a := 2) (by
    rw [div_lt_iff₀ (by positivity)]; push_cast; linarith)
  refine ⟨fun n => (b n ^ q * (n : ℝ) ^ (-(4 / 9) : ℝ)) * (normalTop (S n) * (4 * C)) +
    (b n ^ (q + 2) * (n : ℝ) ^ (-2 : ℝ)) * (2 * normalTop (S n) * ∑ j, (S n)⁻¹ j j), ?_, ?_⟩
  · have := (t1.mul (ht.mul_const (4 * C))).add (t2.mul ((ht.const_mul 2).mul htr))
    rw [zero_mul, zero_mul, add_zero] at this
    exact this
  · filter_upwards [h.posDef hν, h.effSize.eventually_gt_atTop 0, h.normalised_rate hC, eventually_gt_atTop 0]
      with n a1 a2 a3 hn z
    have hn' : (0 : ℝ) < n := by exact_mod_cast hn
    have hbp := bandwidth_pos bw q a2
    have hH : (kernelCov bw y w n).PosDef := a1.smul (pow_pos hbp 2)
    refine (mixture_close (fun k : Fin n => y k) (fun k => (h.pos k).le) (h.sum_pos hn) hH hn' a3 z).trans ?_
    have hle := bandwidth_inv_le bw q a2 (effSize_le fun k : Fin n => w k)
    have hC0 : 0 ≤ 4 * C * (n : ℝ) ^ (-(4 / 9) : ℝ) := (norm_nonneg _).trans (a3 0 (by simp))
    have hC1 : 0 ≤ 4 * C := nonneg_of_mul_nonneg_left hC0 (Real.rpow_pos_of_pos hn' _)
    have htop : 0 ≤ normalTop (S n) := by unfold normalTop; positivity
    have hdiag : 0 ≤ ∑ j, (S n)⁻¹ j j := Finset.sum_nonneg fun j _ => a1.inv.posSemidef.diag_nonneg
    have e1 : normalTop (kernelCov bw y w n) = (bandwidth bw (Verif.effSize fun k : Fin n => w k) q)⁻¹ ^ q *
        normalTop (S n) := normalTop_smul hbp _
    have e2 : ∑ j, (kernelCov bw y w n)⁻¹ j j = (bandwidth bw (Verif.effSize fun k : Fin n => w k) q)⁻¹ ^ 2 *
        ∑ j, (S n)⁻¹ j j := by
      rw [kernelCov, inv_smul_sq hbp a1.det_pos.ne', Finset.mul_sum]
      rfl
    have e3 : (n : ℝ) ^ (-2 : ℝ) = ((n : ℝ) ^ 2)⁻¹ := by
      rw [Real.rpow_neg hn'.le]
      norm_num
    set c := (bandwidth bw (Verif.effSize fun k : Fin n => w k) q)⁻¹ with hc
    have hc0 : 0 ≤ c := (inv_pos.2 hbp).le
    have p1 : c ^ q ≤ b n ^ q := pow_le_pow_left₀ hc0 hle q
    have p2 : c ^ (q + 2) ≤ b n ^ (q + 2) := pow_le_pow_left₀ hc0 hle (q + 2)
    rw [e1, e2, e3]
    have e4 : c ^ q * normalTop (S n) * (4 * C * (n : ℝ) ^ (-(4 / 9) : ℝ) + 2 * (c ^ 2 * (∑ j, (S n)⁻¹ j j) / n ^ 2)) =
        (c ^ q * (n : ℝ) ^ (-(4 / 9) : ℝ)) * (normalTop (S n) * (4 * C)) +
        (c ^ (q + 2) * ((n : ℝ) ^ 2)⁻¹) * (2 * normalTop (S n) * ∑ j, (S n)⁻¹ j j) := by
      rw [pow_add]; ring
    rw [e4]
    gcongr

end Path

/-! ## Smoothing a bounded density -/

/-- The smoothed density is the mean of the density under the normal distribution around the point. -/
theorem smoothed_eq {g : (Fin q → ℝ) → ℝ} (hgm : Measurable g) (hg0 : ∀ z, 0 ≤ g z)
    {H : Matrix (Fin q) (Fin q) ℝ} (hH : H.PosDef) (z : Fin q → ℝ) :
    ∫ z', normalPdf H (z - z') ∂(volume.withDensity fun z => ENNReal.ofReal (g z)) = ∫ z', g z' ∂(normalLaw z H) := by
  have hm : Measurable fun x : Fin q → ℝ => normalPdf H (x - z) := (continuous_shift H z).measurable
  rw [normalLaw_eq_pdfLaw z hH, pdfLaw, integral_withDensity_eq_integral_toReal_smul hgm.ennreal_ofReal
    (.of_forall fun x => ENNReal.ofReal_lt_top), integral_withDensity_eq_integral_toReal_smul hm.ennreal_ofReal
    (.of_forall fun x => ENNReal.ofReal_lt_top)]
  refine integral_congr_ae (.of_forall fun z' => ?_)
  dsimp only
  rw [ENNReal.toReal_ofReal (hg0 z'), ENNReal.toReal_ofReal (normalPdf_pos hH _).le, smul_eq_mul, smul_eq_mul, mul_comm,
    ← neg_sub z' z]
  congr 1
  rw [normalPdf, normalPdf, Matrix.mulVec_neg, neg_dotProduct_neg]

theorem smoothed_near {g : (Fin q → ℝ) → ℝ} (hgm : Measurable g) {B : ℝ} (hB : ∀ z, |g z| ≤ B) {z : Fin q → ℝ}
    {ε δ : ℝ} (hδ : 0 < δ) (hε : ∀ z', dist z z' < δ → |g z' - g z| ≤ ε) {H : Matrix (Fin q) (Fin q) ℝ} (hH : H.PosDef) :
    |∫ z', g z' ∂(normalLaw z H) - g z| ≤ ε + 2 * B * ((∑ j, H j j) / δ ^ 2) := by
  have hB0 : 0 ≤ B := (abs_nonneg _).trans (hB 0)
  have hε0 : 0 ≤ ε := by have := hε z (by simpa using hδ); simpa using this
  have hgi : Integrable g (normalLaw z H) :=
    (integrable_const B).mono' hgm.aestronglyMeasurable (.of_forall fun x => hB x)
  have hsq : ∀ j, Integrable (fun t : Fin q → ℝ => (t j - z j) ^ 2) (normalLaw z H) := fun j => by
    have h1 := (normalLaw_sq z hH.posSemidef j).1
    have h2 : Integrable (fun t : Fin q → ℝ => t j) (normalLaw z H) := by
      refine ((integrable_const (1 : ℝ)).add h1).mono' (measurable_pi_apply j).aestronglyMeasurable
        (.of_forall fun t => ?_)
      rw [Real.norm_eq_abs, Pi.add_apply]
      nlinarith [sq_abs (t j), sq_nonneg (|t j| - 1)]
    have h3 : Integrable (fun t : Fin q → ℝ => t j ^ 2 - 2 * z j * t j + z j ^ 2) (normalLaw z H) :=
      (h1.sub (h2.const_mul (2 * z j))).add (integrable_const _)
    exact h3.congr (.of_forall fun t => by ring)
  have hi : Integrable (fun t : Fin q → ℝ => (∑ j, (t j - z j) ^ 2) / δ ^ 2) (normalLaw z H) :=
    (integrable_finsetSum _ fun j _ => hsq j).div_const _
  have e1 : ∫ z', g z' ∂(normalLaw z H) - g z = ∫ z', (g z' - g z) ∂(normalLaw z H) := by
    rw [integral_sub hgi (integrable_const _), integral_const, probReal_univ, one_smul]
  have e2 : ∫ t : Fin q → ℝ, (ε + 2 * B * ((∑ j, (t j - z j) ^ 2) / δ ^ 2)) ∂(normalLaw z H) =
      ε + 2 * B * ((∑ j, H j j) / δ ^ 2) := by
    rw [integral_add (integrable_const ε) (hi.const_mul _), integral_const, probReal_univ, one_smul,
      integral_const_mul, integral_div, integral_finsetSum _ fun j _ => hsq j]
    simp only [fun j => (normalLaw_sq z hH.posSemidef j).2]
  rw [e1, ← e2, ← Real.norm_eq_abs]
  refine norm_integral_le_of_norm_le ((integrable_const ε).add (hi.const_mul _)) (.of_forall fun t => ?_)
  rw [Real.norm_eq_abs]
  by_cases ht : dist z t < δ
  · have h1 := hε t ht
    have : 0 ≤ 2 * B * ((∑ j, (t j - z j) ^ 2) / δ ^ 2) := by positivity
    linarith
  · have h1 : 1 ≤ (∑ j, (t j - z j) ^ 2) / δ ^ 2 := by
      rw [dist_comm, dist_eq_norm, not_lt] at ht
      have hne : ∃ j, δ ≤ ‖(t - z) j‖ := by
        by_contra hcon
        push Not at hcon
        exact absurd ((pi_norm_lt_iff hδ).2 hcon) (not_lt.2 ht)
      obtain ⟨j, hj⟩ := hne
      rw [one_le_div (by positivity)]
      have h2 : (t j - z j) ^ 2 ≤ ∑ j, (t j - z j) ^ 2 :=
        Finset.single_le_sum (f := fun j => (t j - z j) ^ 2) (fun j _ => sq_nonneg _) (Finset.mem_univ j)
      rw [Pi.sub_apply, Real.norm_eq_abs] at hj
      have h3 : δ ^ 2 ≤ (t j - z j) ^ 2 := by
        rw [← sq_abs (t j - z j)]
        exact pow_le_pow_left₀ hδ.le hj 2
      linarith
    have h2 : |g t - g z| ≤ 2 * B := by
      refine (abs_sub _ _).trans ?_
      linarith [hB t, hB z]
    nlinarith

/-- `g` is continuous at the points of `K`, uniformly. -/
def UniformOn (g : (Fin q → ℝ) → ℝ) (K : Set (Fin q → ℝ)) : Prop :=
  ∀ ε > 0, ∃ δ > 0, ∀ z ∈ K, ∀ z', dist z z' < δ → |g z' - g z| ≤ ε

theorem uniformOn_compact {g : (Fin q → ℝ) → ℝ} {K : Set (Fin q → ℝ)} (hK : IsCompact K)
    (hg : ∀ z ∈ K, ContinuousAt g z) : UniformOn g K := by
  intro ε hε
  have h := hK.uniformContinuousAt_of_continuousAt g hg (Metric.dist_mem_uniformity hε)
  obtain ⟨δ, hδ, h2⟩ := Metric.mem_uniformity_dist.1 h
  refine ⟨δ, hδ, fun z hz z' hd => ?_⟩
  have h3 : dist (g z) (g z') < ε := h2 hd hz
  rw [dist_comm, Real.dist_eq] at h3
  exact h3.le

theorem smoothed_uniform {g : (Fin q → ℝ) → ℝ} (hgm : Measurable g) {B : ℝ} (hB : ∀ z, |g z| ≤ B)
    {K : Set (Fin q → ℝ)} (hK : UniformOn g K) {H : ℕ → Matrix (Fin q) (Fin q) ℝ}
    (hH : ∀ᶠ n in atTop, (H n).PosDef) (h0 : Tendsto H atTop (𝓝 0)) :
    TendstoUniformlyOn (fun n z => ∫ z', g z' ∂(normalLaw z (H n))) g atTop K := by
  rw [Metric.tendstoUniformlyOn_iff]
  intro ε hε
  obtain ⟨δ, hδ, h1⟩ := hK (ε / 2) (by positivity)
  have htr : Tendsto (fun n => 2 * B * ((∑ j, H n j j) / δ ^ 2)) atTop (𝓝 0) := by
    have h2 : Tendsto (fun n => ∑ j, H n j j) atTop (𝓝 (∑ j : Fin q, (0 : Matrix (Fin q) (Fin q) ℝ) j j)) :=
      tendsto_finsetSum _ fun j _ => ((continuous_id.matrix_elem j j).tendsto _).comp h0
    have h3 := (h2.div_const (δ ^ 2)).const_mul (2 * B)
    simpa using h3
  filter_upwards [hH, htr.eventually_lt_const (show 0 < ε / 2 by positivity)] with n a1 a2 z hz
  have := smoothed_near hgm hB hδ (fun z' hd => h1 z hz z' hd) a1
  rw [dist_comm, Real.dist_eq]
  linarith

end Verif
