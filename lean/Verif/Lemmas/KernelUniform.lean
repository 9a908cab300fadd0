import Verif.Lemmas.KernelAverage

/-!
# Kernel density estimates converge uniformly

The kernels of `gaussian_kde` have a covariance computed from the samples, so the averages of `KernelAverage` do not apply
to them directly. The bandwidth divided by `n ^ (-1/(q+4))` and the covariance of the outputs converge; the kernel lies
between two kernels of fixed shape, one slightly narrower and one slightly wider than the limit. Used by C144.
-/

open MeasureTheory ProbabilityTheory Filter Topology WithLp
open scoped Matrix

namespace Verif

variable {p q : ℕ} {Ω : Type} [MeasurableSpace Ω]

theorem bandwidth_band (bw : ℕ) {m : ℝ} (hm : 0 < m) {n : ℕ} (hn : 0 < n) :
    bandwidth bw m q = bandwidth bw (m / n) q * band q n := by
  have hn' : (0 : ℝ) < n := by exact_mod_cast hn
  unfold bandwidth band
  split_ifs
  · rw [← Real.mul_rpow (by positivity) hn'.le, div_mul_cancel₀ _ hn'.ne']
  · rw [← Real.mul_rpow (by positivity) hn'.le]
    congr 1
    field_simp

theorem bandwidth_continuous (bw : ℕ) {m : ℝ} (hm : 0 < m) : ContinuousAt (fun m => bandwidth bw m q) m := by
  unfold bandwidth
  split_ifs
  · exact continuousAt_id.rpow_const (.inl hm.ne')
  · refine ContinuousAt.rpow_const (by fun_prop) (.inl ?_)
    positivity

section Path
variable {y : ℕ → Fin q → ℝ} {w : ℕ → ℝ} {ν : Measure (Fin q → ℝ)}

/-- The bandwidth is asymptotically a multiple of `n ^ (-1/(q+4))`. -/
theorem Averages.bandwidth_ratio (h : Averages y w ν) {V : ℝ} (hV : 0 < V)
    (h2 : Tendsto (fun n : ℕ => (n : ℝ)⁻¹ * ∑ k ∈ Finset.range n, w k ^ 2) atTop (𝓝 V)) (bw : ℕ) :
    Tendsto (fun n : ℕ => bandwidth bw ((Verif.effSize fun k : Fin n => w k) / n) q) atTop (𝓝 (bandwidth bw V⁻¹ q)) := by
  have h3 : Tendsto (fun n : ℕ => (Verif.effSize fun k : Fin n => w k) / n) atTop (𝓝 V⁻¹) := by
    have h4 := (h.one.pow 2).div h2 hV.ne'
    rw [one_pow, one_div] at h4
    refine h4.congr' ?_
    filter_upwards [eventually_gt_atTop 0] with n hn
    have hn' : (n : ℝ) ≠ 0 := by exact_mod_cast hn.ne'
    have h5 : (∑ k : Fin n, w k ^ 2) ≠ 0 :=
      (Finset.sum_pos (fun (k : Fin n) _ => pow_pos (h.pos k) 2) ⟨⟨0, hn⟩, Finset.mem_univ _⟩).ne'
    rw [Pi.div_apply, Finset.sum_range, Finset.sum_range, Verif.effSize]
    field_simp
  exact ((bandwidth_continuous (q := q) bw (inv_pos.2 hV)).tendsto).comp h3

theorem qf_close {C : Matrix (Fin q) (Fin q) ℝ} (hC : C.PosDef) {Cn : ℕ → Matrix (Fin q) (Fin q) ℝ}
    (h : Tendsto Cn atTop (𝓝 C)) {δ : ℝ} (hδ : 0 < δ) :
    ∀ᶠ n in atTop, ∀ u, |qf (Cn n) u - qf C u| ≤ δ * qf C u := by
  obtain ⟨k, hk, hc⟩ := qf_coercive hC
  have h1 : Tendsto (fun n => ∑ i, ∑ j, |(Cn n)⁻¹ i j - C⁻¹ i j|) atTop (𝓝 0) := by
    have h2 : ∀ i j, Tendsto (fun n => |(Cn n)⁻¹ i j - C⁻¹ i j|) atTop (𝓝 0) := fun i j => by
      have h3 := ((continuous_id.matrix_elem i j).tendsto _).comp (tendsto_inv hC.det_pos.ne' h)
      have h4 := (h3.sub_const (C⁻¹ i j)).abs
      simpa using h4
    have := tendsto_finsetSum Finset.univ fun i (_ : i ∈ Finset.univ) =>
      tendsto_finsetSum Finset.univ fun j (_ : j ∈ Finset.univ) => h2 i j
    simpa using this
  filter_upwards [h1.eventually_lt_const (show 0 < δ * k by positivity)] with n hn u
  have e : qf (Cn n) u - qf C u = ∑ i, ∑ j, ((Cn n)⁻¹ i j - C⁻¹ i j) * (u i * u j) := by
    rw [qf, qf, ← dotProduct_sub, ← Matrix.sub_mulVec]
    simp only [dotProduct, Matrix.mulVec, Finset.mul_sum, Matrix.sub_apply]
    refine Finset.sum_congr rfl fun i _ => Finset.sum_congr rfl fun j _ => by ring
  rw [e]
  calc |∑ i, ∑ j, ((Cn n)⁻¹ i j - C⁻¹ i j) * (u i * u j)|
      ≤ ∑ i, ∑ j, |(Cn n)⁻¹ i j - C⁻¹ i j| * ‖u‖ ^ 2 := by
        refine (Finset.abs_sum_le_sum_abs _ _).trans (Finset.sum_le_sum fun i _ => ?_)
        refine (Finset.abs_sum_le_sum_abs _ _).trans (Finset.sum_le_sum fun j _ => ?_)
        rw [abs_mul, abs_mul, sq]
        exact mul_le_mul_of_nonneg_left
          (mul_le_mul (norm_le_pi_norm u i) (norm_le_pi_norm u j) (abs_nonneg _) (norm_nonneg _)) (abs_nonneg _)
    _ = (∑ i, ∑ j, |(Cn n)⁻¹ i j - C⁻¹ i j|) * ‖u‖ ^ 2 := by simp only [Finset.sum_mul]
    _ ≤ δ * k * ‖u‖ ^ 2 := mul_le_mul_of_nonneg_right hn.le (sq_nonneg _)
    _ = δ * (k * ‖u‖ ^ 2) := by ring
    _ ≤ δ * qf C u := mul_le_mul_of_nonneg_left (hc u) hδ.le

/-- Kernels with a converging shape lie between kernels of fixed shape. -/
theorem kern_between {C : Matrix (Fin q) (Fin q) ℝ} (hC : C.PosDef) {Cn : ℕ → Matrix (Fin q) (Fin q) ℝ}
    (h : Tendsto Cn atTop (𝓝 C)) (hp : ∀ᶠ n in atTop, (Cn n).PosDef) {t : ℕ → ℝ} {κ : ℝ} (hκ : 0 < κ)
    (ht : Tendsto t atTop (𝓝 κ)) {a b : ℝ} (ha : 0 < a) (haκ : a < κ) (hκb : κ < b) :
    ∀ᶠ n in atTop, ∀ s : ℝ, 0 < s → ∀ u, kern (s ^ 2 • a ^ 2 • C) u ≤ kern ((t n * s) ^ 2 • Cn n) u ∧
      kern ((t n * s) ^ 2 • Cn n) u ≤ kern (s ^ 2 • b ^ 2 • C) u := by
  have hb : 0 < b := hκ.trans hκb
  obtain ⟨δ, hδ, h1, h2⟩ : ∃ δ > 0, κ⁻¹ ^ 2 * (1 + δ) < a⁻¹ ^ 2 ∧ b⁻¹ ^ 2 < κ⁻¹ ^ 2 * (1 - δ) := by
    have c1 : Tendsto (fun δ : ℝ => κ⁻¹ ^ 2 * (1 + δ)) (𝓝[>] 0) (𝓝 (κ⁻¹ ^ 2 * (1 + 0))) :=
      Tendsto.mono_left (Continuous.tendsto (by fun_prop) 0) nhdsWithin_le_nhds
    have c2 : Tendsto (fun δ : ℝ => κ⁻¹ ^ 2 * (1 - δ)) (𝓝[>] 0) (𝓝 (κ⁻¹ ^ 2 * (1 - 0))) :=
      Tendsto.mono_left (Continuous.tendsto (by fun_prop) 0) nhdsWithin_le_nhds
    rw [add_zero, mul_one] at c1
    rw [sub_zero, mul_one] at c2
    have d1 : κ⁻¹ ^ 2 < a⁻¹ ^ 2 := pow_lt_pow_left₀ (inv_strictAnti₀ ha haκ) (by positivity) two_ne_zero
    have d2 : b⁻¹ ^ 2 < κ⁻¹ ^ 2 := pow_lt_pow_left₀ (inv_strictAnti₀ hκ hκb) (by positivity) two_ne_zero
    obtain ⟨δ, e1, e2, e3⟩ := ((c1.eventually_lt_const d1).and ((c2.eventually_const_lt d2).and
      self_mem_nhdsWithin)).exists
    exact ⟨δ, e3, e1, e2⟩
  have g1 : Tendsto (fun n => (t n)⁻¹ ^ 2 * (1 + δ)) atTop (𝓝 (κ⁻¹ ^ 2 * (1 + δ))) :=
    ((ht.inv₀ hκ.ne').pow 2).mul_const _
  have g2 : Tendsto (fun n => (t n)⁻¹ ^ 2 * (1 - δ)) atTop (𝓝 (κ⁻¹ ^ 2 * (1 - δ))) :=
    ((ht.inv₀ hκ.ne').pow 2).mul_const _
  filter_upwards [qf_close hC h hδ, hp, g1.eventually_lt_const h1, g2.eventually_const_lt h2,
    ht.eventually_const_lt hκ] with n a1 a2 a3 a4 a5 s hs u
  have q0 := qf_nonneg hC u
  have b1 := abs_le.1 (a1 u)
  have hs2 : 0 ≤ s⁻¹ ^ 2 := by positivity
  have ht2 : 0 ≤ (t n)⁻¹ ^ 2 := by positivity
  have e1 : qf ((t n * s) ^ 2 • Cn n) u = s⁻¹ ^ 2 * ((t n)⁻¹ ^ 2 * qf (Cn n) u) := by
    rw [qf_scale (mul_pos a5 hs) a2, mul_inv]; ring
  have e2 : ∀ c : ℝ, 0 < c → qf (s ^ 2 • c ^ 2 • C) u = s⁻¹ ^ 2 * (c⁻¹ ^ 2 * qf C u) := fun c hc => by
    rw [qf_scale hs (hC.smul (pow_pos hc 2)), qf_scale hc hC]
  have f1 : (t n)⁻¹ ^ 2 * qf (Cn n) u ≤ a⁻¹ ^ 2 * qf C u := by
    have := mul_le_mul_of_nonneg_left (show qf (Cn n) u ≤ (1 + δ) * qf C u by linarith) ht2
    refine this.trans ?_
    rw [← mul_assoc]
    exact mul_le_mul_of_nonneg_right a3.le q0
  have f2 : b⁻¹ ^ 2 * qf C u ≤ (t n)⁻¹ ^ 2 * qf (Cn n) u := by
    have := mul_le_mul_of_nonneg_left (show (1 - δ) * qf C u ≤ qf (Cn n) u by linarith) ht2
    refine le_trans ?_ this
    rw [← mul_assoc]
    exact mul_le_mul_of_nonneg_right a4.le q0
  rw [kern, kern, kern, e1, e2 a ha, e2 b hb]
  have f3 := mul_le_mul_of_nonneg_left f1 hs2
  have f4 := mul_le_mul_of_nonneg_left f2 hs2
  exact ⟨Real.exp_le_exp.2 (by linarith), Real.exp_le_exp.2 (by linarith)⟩

theorem kavg_mono (hw : ∀ k, 0 < w k) {H H' : Matrix (Fin q) (Fin q) ℝ} (h : ∀ u, kern H u ≤ kern H' u) (n : ℕ)
    (z : Fin q → ℝ) : kavg y w n H z ≤ kavg y w n H' z :=
  mul_le_mul_of_nonneg_left (Finset.sum_le_sum fun k _ => mul_le_mul_of_nonneg_left (h _) (hw k).le) (by positivity)

theorem kernelEstimate_kavg (bw : ℕ) (y : ℕ → Fin q → ℝ) (w : ℕ → ℝ) {n : ℕ} (hn : 0 < n) (z : Fin q → ℝ) :
    kernelEstimate bw y w n z = normalTop (kernelCov bw y w n) * ((n : ℝ)⁻¹ * ∑ k ∈ Finset.range n, w k)⁻¹ *
      kavg y w n (kernelCov bw y w n) z := by
  have hn' : (n : ℝ) ≠ 0 := by exact_mod_cast hn.ne'
  rw [kernelEstimate_eq, mixture, kavg, Finset.sum_range, Finset.sum_range, mul_inv, inv_inv]
  simp only [normalPdf_kern]
  have e : ∑ i : Fin n, w i * (normalTop (kernelCov bw y w n) * kern (kernelCov bw y w n) (z - y i)) =
      normalTop (kernelCov bw y w n) * ∑ i : Fin n, w i * kern (kernelCov bw y w n) (z - y i) := by
    rw [Finset.mul_sum]
    exact Finset.sum_congr rfl fun i _ => by ring
  rw [e, div_eq_mul_inv]
  field_simp

theorem Averages.lawCov_posDef (h : Averages y w ν) (hν : (lawCov ν).det ≠ 0) : (lawCov ν).PosDef := by
  refine posSemidef_posDef ?_ hν
  have hcl : IsClosed {S : Matrix (Fin q) (Fin q) ℝ | S.PosSemidef} := by
    have e : {S : Matrix (Fin q) (Fin q) ℝ | S.PosSemidef} =
        {S | Sᵀ = S} ∩ ⋂ u : Fin q → ℝ, {S | 0 ≤ u ⬝ᵥ (S *ᵥ u)} := by
      ext S
      simp only [Set.mem_ofPred_eq, Set.mem_inter_iff, Set.mem_iInter]
      refine ⟨fun hS => ⟨by simpa using hS.isHermitian.eq, fun u => by
        simpa using hS.dotProduct_mulVec_nonneg u⟩, fun hS => ?_⟩
      refine Matrix.PosSemidef.of_dotProduct_mulVec_nonneg (by
        rw [Matrix.IsHermitian, Matrix.conjTranspose_eq_transpose_of_trivial]; exact hS.1) fun u => by
        simpa using hS.2 u
    rw [e]
    refine (isClosed_eq (by fun_prop) continuous_id).inter (isClosed_iInter fun u => isClosed_le continuous_const ?_)
    simp only [dotProduct, Matrix.mulVec]
    fun_prop
  refine hcl.mem_of_tendsto h.wCov ?_
  filter_upwards [h.posDef hν] with n hn
  exact hn.posSemidef

/-- If the averages of kernels of fixed shape approach their means, the kernel density estimates converge to the density,
uniformly where it is uniformly continuous. -/
theorem Averages.uniform (h : Averages y w ν) (hν : (lawCov ν).det ≠ 0) {V : ℝ} (hV : 0 < V)
    (hsq : Tendsto (fun n : ℕ => (n : ℝ)⁻¹ * ∑ k ∈ Finset.range n, w k ^ 2) atTop (𝓝 V)) (bw : ℕ)
    (hr : ∀ c : ℚ, 0 < c → ∀ ε > 0, ∀ᶠ n : ℕ in atTop, ∀ z,
      |kavg y w n (band q n ^ 2 • (c : ℝ) ^ 2 • lawCov ν) z - kmean ν (band q n ^ 2 • (c : ℝ) ^ 2 • lawCov ν) z| ≤
        ε * band q n ^ q)
    {g : (Fin q → ℝ) → ℝ} (hgm : Measurable g) (hg0 : ∀ z, 0 ≤ g z) {B : ℝ} (hB : ∀ z, g z ≤ B)
    (hg : ν = volume.withDensity fun z => ENNReal.ofReal (g z)) {K : Set (Fin q → ℝ)} (hK : UniformOn g K) :
    TendstoUniformlyOn (kernelEstimate bw y w) g atTop K := by
  have hB0 : 0 ≤ B := (hg0 0).trans (hB 0)
  set κ := bandwidth bw V⁻¹ q with hκdef
  have hκ : 0 < κ := bandwidth_pos bw q (inv_pos.2 hV)
  set C := lawCov ν with hCdef
  set Cn : ℕ → Matrix (Fin q) (Fin q) ℝ := fun n => Verif.wCov (fun k : Fin n => y k) fun k : Fin n => w k with hCn
  have hC : C.PosDef := h.lawCov_posDef hν
  set T := normalTop C with hT
  have hTp : 0 < T := normalTop_pos hC
  set t : ℕ → ℝ := fun n => bandwidth bw ((Verif.effSize fun k : Fin n => w k) / n) q with htdef
  have ht : Tendsto t atTop (𝓝 κ) := h.bandwidth_ratio hV hsq bw
  set s : ℕ → ℝ := fun n => (n : ℝ)⁻¹ * ∑ k ∈ Finset.range n, w k with hsdef
  set A : ℕ → ℝ := fun n => (t n)⁻¹ ^ q * normalTop (Cn n) * (s n)⁻¹ with hA
  have hAt : Tendsto A atTop (𝓝 (κ⁻¹ ^ q * T)) := by
    have h1 := (((ht.inv₀ hκ.ne').pow q).mul (normalTop_tendsto hC.det_pos h.wCov)).mul (h.one.inv₀ one_ne_zero)
    rwa [inv_one, mul_one] at h1
  have hcov : ∀ᶠ n : ℕ in atTop, kernelCov bw y w n = (t n * band q n) ^ 2 • Cn n := by
    filter_upwards [h.effSize.eventually_gt_atTop 0, eventually_gt_atTop 0] with n a1 a2
    rw [kernelCov, bandwidth_band bw a1 a2]
  have hest : ∀ᶠ n : ℕ in atTop, ∀ z, kernelEstimate bw y w n z =
      A n * ((band q n)⁻¹ ^ q * kavg y w n (kernelCov bw y w n) z) := by
    filter_upwards [hcov, eventually_gt_atTop 0, ht.eventually_const_lt hκ] with n a1 a2 a3 z
    rw [kernelEstimate_kavg bw y w a2, a1, normalTop_smul (mul_pos a3 (band_pos q a2)), mul_inv, mul_pow]
    simp only [hA, hsdef]
    ring
  -- kernels of fixed shape
  have hfix : ∀ c : ℚ, 0 < c → ∀ ε > 0, ∀ᶠ n : ℕ in atTop, ∀ z ∈ K,
      |A n * ((band q n)⁻¹ ^ q * kavg y w n (band q n ^ 2 • (c : ℝ) ^ 2 • C) z) - ((c : ℝ) / κ) ^ q * g z| ≤ ε := by
    intro c hc ε hε
    have hc' : (0 : ℝ) < c := by exact_mod_cast hc
    set S := (c : ℝ) ^ 2 • C with hS
    have hSp : S.PosDef := hC.smul (pow_pos hc' 2)
    have hHp : ∀ᶠ n : ℕ in atTop, (band q n ^ 2 • S).PosDef := by
      filter_upwards [eventually_gt_atTop 0] with n hn
      exact hSp.smul (pow_pos (band_pos q hn) 2)
    have hH0 : Tendsto (fun n => band q n ^ 2 • S) atTop (𝓝 0) := by
      have := ((band_tendsto q).pow 2).smul_const S
      rwa [zero_pow two_ne_zero, zero_smul] at this
    have hsm := smoothed_uniform hgm (fun z => (abs_of_nonneg (hg0 z)).trans_le (hB z)) hK hHp hH0
    rw [Metric.tendstoUniformlyOn_iff] at hsm
    set D : ℝ := (c : ℝ) ^ q / T with hD
    have hDp : 0 < D := by positivity
    have hAD : Tendsto (fun n => |A n * D - ((c : ℝ) / κ) ^ q| * B) atTop (𝓝 0) := by
      have h1 := (hAt.mul_const D).sub_const (((c : ℝ) / κ) ^ q)
      have e : κ⁻¹ ^ q * T * D - ((c : ℝ) / κ) ^ q = 0 := by
        rw [hD, div_pow, inv_pow]
        field_simp
        ring
      rw [e] at h1
      have h2 := h1.abs.mul_const B
      simpa using h2
    set L := κ⁻¹ ^ q * T + 1 with hL
    have hL0 : 0 < L := by positivity
    filter_upwards [hr c hc (ε / (4 * L)) (by positivity), hsm (ε / (4 * L * D)) (by positivity),
      hAD.eventually_lt_const (show 0 < ε / 4 by positivity), hAt.eventually_lt_const (show κ⁻¹ ^ q * T < L by linarith),
      hAt.eventually_const_lt (show 0 < κ⁻¹ ^ q * T by positivity), eventually_gt_atTop 0, hHp] with n a1 a2 a3 a4 a5 a6 a7 z hz
    have hb := pow_pos (band_pos q a6) q
    have hbi : 0 < (band q n)⁻¹ ^ q := pow_pos (inv_pos.2 (band_pos q a6)) q
    set m := ∫ z', g z' ∂(normalLaw z (band q n ^ 2 • S)) with hm
    have e1 : (band q n)⁻¹ ^ q * kmean ν (band q n ^ 2 • S) z = D * m := by
      have := kmean_eq hgm hg0 a7 z
      rw [← hg, normalTop_smul (band_pos q a6), hS, normalTop_smul hc', ← hS, ← hm] at this
      rw [← this, hD, inv_pow (c : ℝ)]
      have := (pow_pos hc' q).ne'
      field_simp
      rw [hT]
    have b1 : |(band q n)⁻¹ ^ q * kavg y w n (band q n ^ 2 • S) z - D * m| ≤ ε / (4 * L) := by
      rw [← e1, ← mul_sub, abs_mul, abs_of_pos hbi]
      calc (band q n)⁻¹ ^ q * |kavg y w n (band q n ^ 2 • S) z - kmean ν (band q n ^ 2 • S) z|
          ≤ (band q n)⁻¹ ^ q * (ε / (4 * L) * band q n ^ q) := mul_le_mul_of_nonneg_left (a1 z) hbi.le
        _ = ε / (4 * L) := by
          rw [inv_pow]
          field_simp
    have b2 := a2 z hz
    rw [dist_comm, Real.dist_eq] at b2
    set k := (band q n)⁻¹ ^ q * kavg y w n (band q n ^ 2 • S) z with hk
    have e2 : A n * k - ((c : ℝ) / κ) ^ q * g z =
        A n * (k - D * m) + A n * D * (m - g z) + (A n * D - ((c : ℝ) / κ) ^ q) * g z := by ring
    rw [e2]
    have c1 : |A n * (k - D * m)| ≤ ε / 4 := by
      rw [abs_mul, abs_of_pos a5]
      calc A n * |k - D * m| ≤ L * (ε / (4 * L)) := mul_le_mul a4.le b1 (abs_nonneg _) hL0.le
        _ = ε / 4 := by field_simp
    have c2 : |A n * D * (m - g z)| ≤ ε / 4 := by
      rw [abs_mul, abs_of_pos (mul_pos a5 hDp)]
      calc A n * D * |m - g z| ≤ L * D * (ε / (4 * L * D)) :=
            mul_le_mul (mul_le_mul_of_nonneg_right a4.le hDp.le) b2.le (abs_nonneg _) (by positivity)
        _ = ε / 4 := by field_simp
    have c3 : |(A n * D - ((c : ℝ) / κ) ^ q) * g z| ≤ ε / 4 := by
      rw [abs_mul, abs_of_nonneg (hg0 z)]
      exact (mul_le_mul_of_nonneg_left (hB z) (abs_nonneg _)).trans a3.le
    refine (abs_add_three _ _ _).trans ?_
    linarith
  rw [Metric.tendstoUniformlyOn_iff]
  intro ε hε
  -- the two shapes
  have hcont : Tendsto (fun c : ℝ => |((c : ℝ) / κ) ^ q - 1| * B) (𝓝 κ) (𝓝 0) := by
    have : Continuous fun c : ℝ => |((c : ℝ) / κ) ^ q - 1| * B := by fun_prop
    have h1 := this.tendsto κ
    rwa [div_self hκ.ne', one_pow, sub_self, abs_zero, zero_mul] at h1
  obtain ⟨η, hη, h1⟩ := Metric.eventually_nhds_iff.1 (hcont.eventually_lt_const (show 0 < ε / 4 by positivity))
  obtain ⟨b, hb1, hb2⟩ := exists_rat_btwn (show κ < κ + η by linarith)
  obtain ⟨a, ha1, ha2⟩ := exists_rat_btwn (show max 0 (κ - η) < κ from max_lt hκ (by linarith))
  have ha0 : (0 : ℝ) < a := (le_max_left _ _).trans_lt ha1
  have haη : κ - η < a := (le_max_right _ _).trans_lt ha1
  have hb0 : (0 : ℝ) < b := hκ.trans hb1
  have da := h1 (y := (a : ℝ)) (by rw [Real.dist_eq, abs_lt]; constructor <;> linarith)
  have db := h1 (y := (b : ℝ)) (by rw [Real.dist_eq, abs_lt]; constructor <;> linarith)
  filter_upwards [hfix a (by exact_mod_cast ha0) (ε / 4) (by positivity),
    hfix b (by exact_mod_cast hb0) (ε / 4) (by positivity), kern_between hC h.wCov (h.posDef hν) hκ ht ha0 ha2 hb1,
    hest, hcov, eventually_gt_atTop 0, hAt.eventually_const_lt (show 0 < κ⁻¹ ^ q * T by positivity)]
    with n a1 a2 a3 a4 a5 a6 a7 z hz
  have hbn := band_pos q a6
  have m1 := kavg_mono (y := y) h.pos (fun u => (a3 _ hbn u).1) n z
  have m2 := kavg_mono (y := y) h.pos (fun u => (a3 _ hbn u).2) n z
  rw [a4 z, a5]
  have m3 := mul_le_mul_of_nonneg_left (mul_le_mul_of_nonneg_left m1 (show 0 ≤ (band q n)⁻¹ ^ q by positivity)) a7.le
  have m4 := mul_le_mul_of_nonneg_left (mul_le_mul_of_nonneg_left m2 (show 0 ≤ (band q n)⁻¹ ^ q by positivity)) a7.le
  have b1 := abs_le.1 (a1 z hz)
  have b2 := abs_le.1 (a2 z hz)
  have ga : |(((a : ℝ) / κ) ^ q - 1) * g z| < ε / 4 := by
    rw [abs_mul, abs_of_nonneg (hg0 z)]
    exact (mul_le_mul_of_nonneg_left (hB z) (abs_nonneg _)).trans_lt da
  have gb : |(((b : ℝ) / κ) ^ q - 1) * g z| < ε / 4 := by
    rw [abs_mul, abs_of_nonneg (hg0 z)]
    exact (mul_le_mul_of_nonneg_left (hB z) (abs_nonneg _)).trans_lt db
  have ga' := abs_lt.1 ga
  have gb' := abs_lt.1 gb
  rw [dist_comm, Real.dist_eq, abs_lt]
  constructor <;> linarith

end Path

/-- The same for independent samples with bounded weights, almost surely. -/
theorem kernel_uniform {P : Measure Ω} {x : ℕ → Ω → Fin p → ℝ} {τ μ : Measure (Fin p → ℝ)} [IsProbabilityMeasure μ]
    (hi : iIndepFun x P) (hx : ∀ k, HasLaw (x k) τ P) {w : (Fin p → ℝ) → ℝ} (hwm : Measurable w) (hw : ∀ l, 0 < w l)
    (hμ : μ = τ.withDensity fun l => ENNReal.ofReal (w l)) {M : ℝ} (hM : ∀ l, w l ≤ M)
    {Q : (Fin p → ℝ) → Fin q → ℝ} (hQ : Measurable Q) (h2 : ∀ j, Integrable (fun l => Q l j ^ 2) μ)
    {g : (Fin q → ℝ) → ℝ} (hgm : Measurable g) (hg0 : ∀ z, 0 ≤ g z) {B : ℝ} (hB : ∀ z, g z ≤ B)
    (hg : μ.map Q = volume.withDensity fun z => ENNReal.ofReal (g z)) (hd : (lawCov (μ.map Q)).det ≠ 0)
    (bw : ℕ) :
    ∀ᵐ ω ∂P, ∀ K : Set (Fin q → ℝ), UniformOn g K →
      TendstoUniformlyOn (kernelEstimate bw (fun k => Q (x k ω)) fun k => w (x k ω)) g atTop K := by
  have hP : IsProbabilityMeasure P := hi.isProbabilityMeasure
  have hτ : IsProbabilityMeasure τ := (hx 0).map_eq ▸ Measure.isProbabilityMeasure_map (hx 0).aemeasurable
  have hprob : IsProbabilityMeasure (μ.map Q) := Measure.isProbabilityMeasure_map hQ.aemeasurable
  have hp : (lawCov (μ.map Q)).PosDef := (averages_ae hi hx hwm hw hμ hQ h2).exists.choose_spec.lawCov_posDef hd
  have hwi : Integrable (fun l => w l ^ 2) τ := by
    refine (integrable_const (M ^ 2)).mono' (hwm.pow_const 2).aestronglyMeasurable (.of_forall fun l => ?_)
    rw [Real.norm_eq_abs, abs_of_nonneg (sq_nonneg _)]
    exact pow_le_pow_left₀ (hw l).le (hM l) 2
  have hV : 0 < ∫ l, w l ^ 2 ∂τ := by
    rw [integral_pos_iff_support_of_nonneg (fun l => sq_nonneg _) hwi]
    have : Function.support (fun l => w l ^ 2) = Set.univ := by
      ext l
      simp [(hw l).ne']
    rw [this, measure_univ]
    exact one_pos
  have hrate : ∀ᵐ ω ∂P, ∀ c : ℚ, 0 < c → ∀ ε > 0, ∀ᶠ n : ℕ in atTop, ∀ z,
      |kavg (fun k => Q (x k ω)) (fun k => w (x k ω)) n (band q n ^ 2 • (c : ℝ) ^ 2 • lawCov (μ.map Q)) z -
        kmean (μ.map Q) (band q n ^ 2 • (c : ℝ) ^ 2 • lawCov (μ.map Q)) z| ≤ ε * band q n ^ q := by
    refine ae_all_iff.2 fun c => ?_
    by_cases hc : 0 < c
    · have hc' : (0 : ℝ) < c := by exact_mod_cast hc
      filter_upwards [kavg_rate hi hx hwm hw hμ hM hQ h2 hgm hg0 hB hg (hp.smul (pow_pos hc' 2))] with ω h _
      exact h
    · exact .of_forall fun ω h => absurd h hc
  filter_upwards [averages_ae hi hx hwm hw hμ hQ h2, hrate, sample_mean hi hx (hwm.pow_const 2) hwi] with ω h1 h3 h4 K hK
  exact h1.uniform hd hV h4 bw h3 hgm hg0 hB hg hK

end Verif
