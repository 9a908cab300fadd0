import Verif.Lemmas.KernelClose

/-!
# Averages of narrowing kernels

Independent samples with bounded weights whose outputs have a bounded density: the averages of a normal kernel with
bandwidth `n ^ (-1/(q+4))` approach their means uniformly, up to any multiple of the volume `n ^ (-q/(q+4))` of the kernel,
almost surely and for any number `q` of outputs. (Bernstein's inequality on a grid.) Used by C144.
-/

open MeasureTheory ProbabilityTheory Filter Topology WithLp
open scoped Matrix

namespace Verif

variable {p q : ℕ} {Ω : Type} [MeasurableSpace Ω]

/-! ## Bernstein's inequality -/

theorem mgf_small {τ : Measure (Fin p → ℝ)} [IsProbabilityMeasure τ] {f : (Fin p → ℝ) → ℝ} (hf : Measurable f)
    (h0 : ∀ l, 0 ≤ f l) {M : ℝ} (hM : ∀ l, f l ≤ M) {c : ℝ} (hc : |c| * M ≤ 1) :
    Integrable (fun l => Real.exp (c * f l)) τ ∧
      ∫ l, Real.exp (c * f l) ∂τ ≤ Real.exp (c * (∫ l, f l ∂τ) + c ^ 2 * M * ∫ l, f l ∂τ) := by
  have hfi : Integrable f τ := (integrable_const M).mono' hf.aestronglyMeasurable
    (.of_forall fun l => by rw [Real.norm_eq_abs, abs_of_nonneg (h0 l)]; exact hM l)
  have hx : ∀ l, |c * f l| ≤ 1 := fun l => by
    rw [abs_mul, abs_of_nonneg (h0 l)]
    exact (mul_le_mul_of_nonneg_left (hM l) (abs_nonneg c)).trans hc
  have hle : ∀ l, Real.exp (c * f l) ≤ 1 + c * f l + c ^ 2 * M * f l := fun l => by
    have h1 := (abs_le.1 (Real.abs_exp_sub_one_sub_id_le (hx l))).2
    have h2 : (c * f l) ^ 2 ≤ c ^ 2 * M * f l := by
      have := mul_le_mul_of_nonneg_left (mul_le_mul_of_nonneg_right (hM l) (h0 l)) (sq_nonneg c)
      nlinarith
    linarith
  have hb : Integrable (fun l => 1 + c * f l + c ^ 2 * M * f l) τ :=
    ((integrable_const 1).add (hfi.const_mul c)).add (hfi.const_mul _)
  have hm : Measurable fun l => Real.exp (c * f l) := (hf.const_mul c).exp
  have hi : Integrable (fun l => Real.exp (c * f l)) τ := hb.mono' hm.aestronglyMeasurable
    (.of_forall fun l => by rw [Real.norm_eq_abs, Real.abs_exp]; exact hle l)
  refine ⟨hi, (integral_mono hi hb hle).trans ?_⟩
  have e : ∫ l, (1 + c * f l + c ^ 2 * M * f l) ∂τ = 1 + c * (∫ l, f l ∂τ) + c ^ 2 * M * ∫ l, f l ∂τ := by
    have i1 : Integrable (fun l => 1 + c * f l) τ := (integrable_const 1).add (hfi.const_mul c)
    rw [integral_add i1 (hfi.const_mul _), integral_add (integrable_const 1) (hfi.const_mul c),
      integral_const_mul, integral_const_mul, integral_const, probReal_univ, one_smul]
  rw [e]
  have := Real.add_one_le_exp (c * (∫ l, f l ∂τ) + c ^ 2 * M * ∫ l, f l ∂τ)
  linarith

theorem chernoff {P : Measure Ω} {x : ℕ → Ω → Fin p → ℝ} {τ : Measure (Fin p → ℝ)}
    (hi : iIndepFun x P) (hx : ∀ k, HasLaw (x k) τ P) {f : (Fin p → ℝ) → ℝ} (hf : Measurable f)
    (h0 : ∀ l, 0 ≤ f l) {M : ℝ} (hM : ∀ l, f l ≤ M) {c : ℝ} (hc : |c| * M ≤ 1) (n : ℕ) (s : ℝ) :
    P.real {ω | s ≤ c * ∑ k ∈ Finset.range n, f (x k ω)} ≤
      Real.exp (-s + n * (c * (∫ l, f l ∂τ) + c ^ 2 * M * ∫ l, f l ∂τ)) := by
  have hP : IsProbabilityMeasure P := hi.isProbabilityMeasure
  have hτ : IsProbabilityMeasure τ := (hx 0).map_eq ▸ Measure.isProbabilityMeasure_map (hx 0).aemeasurable
  obtain ⟨h1, h2⟩ := mgf_small (τ := τ) hf h0 hM hc
  have hind : iIndepFun (fun k ω => c * f (x k ω)) P := hi.comp (fun _ l => c * f l) fun _ => hf.const_mul c
  have hae : ∀ k, AEMeasurable (fun ω => c * f (x k ω)) P := fun k =>
    (hf.const_mul c).comp_aemeasurable (hx k).aemeasurable
  have hsum := hind.mgf_sum₀ (t := 1) hae (Finset.range n)
  have hone : ∀ k, mgf (fun ω => c * f (x k ω)) P 1 = ∫ l, Real.exp (c * f l) ∂τ := fun k => by
    have hm : Measurable fun l => Real.exp (c * f l) := (hf.const_mul c).exp
    rw [mgf, ← (hx k).map_eq, integral_map (hx k).aemeasurable hm.aestronglyMeasurable]
    simp only [one_mul]
  have hint : Integrable (fun ω => Real.exp (1 * (∑ k ∈ Finset.range n, fun ω => c * f (x k ω)) ω)) P := by
    have hb : ∀ ω, |∑ k ∈ Finset.range n, c * f (x k ω)| ≤ n := fun ω => by
      refine (Finset.abs_sum_le_sum_abs _ _).trans ?_
      refine (Finset.sum_le_card_nsmul _ _ 1 fun k _ => ?_).trans (le_of_eq (by simp))
      rw [abs_mul, abs_of_nonneg (h0 _)]
      exact (mul_le_mul_of_nonneg_left (hM _) (abs_nonneg c)).trans hc
    have hsm : AEMeasurable (fun ω => ∑ k ∈ Finset.range n, c * f (x k ω)) P :=
      Finset.aemeasurable_fun_sum _ fun k _ => hae k
    simp only [one_mul, Finset.sum_apply]
    refine (integrable_const (Real.exp n)).mono' hsm.exp.aestronglyMeasurable (.of_forall fun ω => ?_)
    rw [Real.norm_eq_abs, Real.abs_exp]
    exact Real.exp_le_exp.2 ((le_abs_self _).trans (hb ω))
  have h := measure_ge_le_exp_mul_mgf (μ := P) s zero_le_one hint
  rw [hsum] at h
  simp only [hone, Finset.prod_const, Finset.card_range, Finset.sum_apply, ← Finset.mul_sum] at h
  refine h.trans ?_
  rw [neg_one_mul, Real.exp_add, Real.exp_nat_mul]
  refine mul_le_mul_of_nonneg_left (pow_le_pow_left₀ ?_ h2 n) (Real.exp_pos _).le
  exact integral_nonneg fun l => (Real.exp_pos _).le

/-- Deviations of an average of nonnegative bounded quantities from a small mean. -/
theorem bernstein {P : Measure Ω} {x : ℕ → Ω → Fin p → ℝ} {τ : Measure (Fin p → ℝ)}
    (hi : iIndepFun x P) (hx : ∀ k, HasLaw (x k) τ P) {f : (Fin p → ℝ) → ℝ} (hf : Measurable f)
    (h0 : ∀ l, 0 ≤ f l) {M : ℝ} (hM : ∀ l, f l ≤ M) {D r ε c : ℝ} (hr : 0 < r) (hD : ∫ l, f l ∂τ ≤ D * r)
    (hc : 0 < c) (hcM : c * M ≤ 1) (hcD : c * M * D ≤ ε / 2) {n : ℕ} (hn : 0 < n) :
    P.real {ω | ε * r ≤ |(n : ℝ)⁻¹ * ∑ k ∈ Finset.range n, f (x k ω) - ∫ l, f l ∂τ|} ≤
      2 * Real.exp (-(c * ε / 2) * (n * r)) := by
  have hP : IsProbabilityMeasure P := hi.isProbabilityMeasure
  have hn' : (0 : ℝ) < n := by exact_mod_cast hn
  have hM0 : 0 ≤ M := (h0 0).trans (hM 0)
  set m := ∫ l, f l ∂τ with hm
  have h1 := chernoff hi hx hf h0 hM (c := c) (by rwa [abs_of_pos hc]) n (c * (n * (m + ε * r)))
  have h2 := chernoff hi hx hf h0 hM (c := -c) (by rwa [abs_neg, abs_of_pos hc]) n (-c * (n * (m - ε * r)))
  rw [← hm] at h1 h2
  have key : c ^ 2 * M * m ≤ c * ε / 2 * r := by
    have e1 : c * M * m ≤ ε / 2 * r :=
      calc c * M * m ≤ c * M * (D * r) := mul_le_mul_of_nonneg_left hD (by positivity)
        _ = c * M * D * r := by ring
        _ ≤ ε / 2 * r := mul_le_mul_of_nonneg_right hcD hr.le
    have := mul_le_mul_of_nonneg_left e1 hc.le
    nlinarith
  have hnk := mul_le_mul_of_nonneg_left key hn'.le
  have b1 : -(c * (n * (m + ε * r))) + n * (c * m + c ^ 2 * M * m) ≤ -(c * ε / 2) * (n * r) := by nlinarith
  have b2 : -(-c * (n * (m - ε * r))) + n * (-c * m + (-c) ^ 2 * M * m) ≤ -(c * ε / 2) * (n * r) := by nlinarith
  have hsub : {ω | ε * r ≤ |(n : ℝ)⁻¹ * ∑ k ∈ Finset.range n, f (x k ω) - m|} ⊆
      {ω | c * (n * (m + ε * r)) ≤ c * ∑ k ∈ Finset.range n, f (x k ω)} ∪
      {ω | -c * (n * (m - ε * r)) ≤ -c * ∑ k ∈ Finset.range n, f (x k ω)} := by
    intro ω h
    rw [Set.mem_ofPred_eq] at h
    have e : ∑ k ∈ Finset.range n, f (x k ω) = n * ((n : ℝ)⁻¹ * ∑ k ∈ Finset.range n, f (x k ω)) := by
      rw [mul_inv_cancel_left₀ hn'.ne']
    rcases le_abs.1 h with h | h
    · refine .inl ?_
      rw [Set.mem_ofPred_eq, e]
      exact mul_le_mul_of_nonneg_left (mul_le_mul_of_nonneg_left (by linarith) hn'.le) hc.le
    · refine .inr ?_
      rw [Set.mem_ofPred_eq, e, neg_mul, neg_mul, neg_le_neg_iff]
      exact mul_le_mul_of_nonneg_left (mul_le_mul_of_nonneg_left (by linarith) hn'.le) hc.le
  refine (measureReal_mono hsub).trans ((measureReal_union_le _ _).trans ?_)
  have := h1.trans (Real.exp_le_exp.2 b1)
  have := h2.trans (Real.exp_le_exp.2 b2)
  linarith

/-! ## The kernel -/

/-- The normal kernel with covariance `H`, with value 1 at 0. -/
noncomputable def kern (H : Matrix (Fin q) (Fin q) ℝ) (u : Fin q → ℝ) : ℝ := Real.exp (-qf H u / 2)

theorem kern_pos (H : Matrix (Fin q) (Fin q) ℝ) (u : Fin q → ℝ) : 0 < kern H u := Real.exp_pos _

theorem kern_le_one {H : Matrix (Fin q) (Fin q) ℝ} (hH : H.PosDef) (u : Fin q → ℝ) : kern H u ≤ 1 :=
  Real.exp_le_one_iff.2 (by have := qf_nonneg hH u; linarith)

theorem normalPdf_kern (H : Matrix (Fin q) (Fin q) ℝ) (u : Fin q → ℝ) : normalPdf H u = normalTop H * kern H u := by
  rw [normalPdf, normalTop, kern, qf, div_mul_eq_mul_div, one_mul]

theorem normalTop_pos {H : Matrix (Fin q) (Fin q) ℝ} (hH : H.PosDef) : 0 < normalTop H := by
  have := hH.det_pos
  unfold normalTop
  positivity

theorem continuous_kern (H : Matrix (Fin q) (Fin q) ℝ) : Continuous (kern H) := by
  have : Continuous (qf H) := by
    unfold qf
    simp only [dotProduct, Matrix.mulVec]
    fun_prop
  unfold kern
  fun_prop

theorem qf_scale {h : ℝ} (hh : 0 < h) {S : Matrix (Fin q) (Fin q) ℝ} (hS : S.PosDef) (u : Fin q → ℝ) :
    qf (h ^ 2 • S) u = h⁻¹ ^ 2 * qf S u := by
  rw [qf, qf, inv_smul_sq hh hS.det_pos.ne', Matrix.smul_mulVec, dotProduct_smul, smul_eq_mul]

theorem gauss_lip (s t : ℝ) : |Real.exp (-s ^ 2 / 2) - Real.exp (-t ^ 2 / 2)| ≤ |s - t| := by
  have hd : ∀ s : ℝ, HasDerivAt (fun s : ℝ => Real.exp (-s ^ 2 / 2)) (-s * Real.exp (-s ^ 2 / 2)) s := fun s => by
    have h1 : HasDerivAt (fun s : ℝ => -s ^ 2 / 2) (-s) s := by
      have h2 := ((hasDerivAt_pow 2 s).neg).div_const 2
      have e : -(((2 : ℕ) : ℝ) * s ^ (2 - 1)) / 2 = -s := by norm_num; ring
      rw [e] at h2
      exact h2
    have := h1.exp
    convert this using 1
    ring
  have hb : ∀ s : ℝ, ‖-s * Real.exp (-s ^ 2 / 2)‖ ≤ 1 := fun s => by
    rw [norm_mul, norm_neg, Real.norm_eq_abs, Real.norm_eq_abs, Real.abs_exp, neg_div, Real.exp_neg,
      ← div_eq_mul_inv, div_le_one (Real.exp_pos _)]
    have := Real.add_one_le_exp (s ^ 2 / 2)
    nlinarith [sq_abs s, sq_nonneg (|s| - 1)]
  have := Convex.norm_image_sub_le_of_norm_hasDerivWithin_le (𝕜 := ℝ) (s := Set.univ) (C := 1)
    (fun x _ => (hd x).hasDerivWithinAt) (fun x _ => hb x) convex_univ (Set.mem_univ t) (Set.mem_univ s)
  simpa [Real.norm_eq_abs] using this

theorem kern_lip {S : Matrix (Fin q) (Fin q) ℝ} (hS : S.PosDef) :
    ∃ C, 0 ≤ C ∧ ∀ h : ℝ, 0 < h → ∀ u v, |kern (h ^ 2 • S) u - kern (h ^ 2 • S) v| ≤ C * h⁻¹ * ‖u - v‖ := by
  obtain ⟨R, hR⟩ := exists_factor hS.inv.posSemidef
  have hq : ∀ u, qf S u = ‖(toLp 2 (R *ᵥ u) : EuclideanSpace ℝ (Fin q))‖ ^ 2 := fun u => by
    rw [EuclideanSpace.norm_sq_eq, qf, hR, ← Matrix.mulVec_mulVec, dotProduct_comm, ← Matrix.vecMul_transpose,
      Matrix.transpose_transpose, ← Matrix.dotProduct_mulVec, dotProduct]
    refine Finset.sum_congr rfl fun j _ => ?_
    simp [sq]
  let L : (Fin q → ℝ) →L[ℝ] EuclideanSpace ℝ (Fin q) :=
    LinearMap.toContinuousLinearMap ((WithLp.linearEquiv 2 ℝ (Fin q → ℝ)).symm.toLinearMap ∘ₗ R.mulVecLin)
  have hL : ∀ u, L u = (toLp 2 (R *ᵥ u) : EuclideanSpace ℝ (Fin q)) := fun u => rfl
  refine ⟨‖L‖, norm_nonneg _, fun h hh u v => ?_⟩
  have e : ∀ u, kern (h ^ 2 • S) u = Real.exp (-(h⁻¹ * ‖L u‖) ^ 2 / 2) := fun u => by
    rw [kern, qf_scale hh hS, hq, hL, mul_pow]
  rw [e, e]
  refine (gauss_lip _ _).trans ?_
  rw [← mul_sub, abs_mul, abs_of_pos (inv_pos.2 hh)]
  calc h⁻¹ * |‖L u‖ - ‖L v‖| ≤ h⁻¹ * (‖L‖ * ‖u - v‖) := by
        refine mul_le_mul_of_nonneg_left ?_ (inv_pos.2 hh).le
        refine (abs_norm_sub_norm_le _ _).trans ?_
        rw [← map_sub]
        exact L.le_opNorm _
    _ = ‖L‖ * h⁻¹ * ‖u - v‖ := by ring

/-- Far away points see little of the kernel. -/
theorem kern_far {S : Matrix (Fin q) (Fin q) ℝ} (hS : S.PosDef) :
    ∃ C, 0 ≤ C ∧ ∀ h : ℝ, 0 < h → ∀ R : ℝ, 0 < R → ∀ z y : Fin q → ℝ, R ≤ ‖z‖ →
      kern (h ^ 2 • S) (z - y) ≤ 2 / R * (∑ j, |y j|) + C * h ^ 2 / R ^ 2 := by
  obtain ⟨k, hk, hc⟩ := qf_coercive hS
  refine ⟨8 / k, by positivity, fun h hh R hR z y hz => ?_⟩
  have hy0 : 0 ≤ ∑ j, |y j| := Finset.sum_nonneg fun j _ => abs_nonneg _
  by_cases hy : R / 2 ≤ ‖y‖
  · have h1 : ‖y‖ ≤ ∑ j, |y j| := (pi_norm_le_iff_of_nonneg hy0).2 fun j =>
      Finset.single_le_sum (f := fun j => |y j|) (fun j _ => abs_nonneg _) (Finset.mem_univ j)
    have h2 : 1 ≤ 2 / R * ∑ j, |y j| := by
      rw [div_mul_eq_mul_div, one_le_div hR]
      linarith
    have h3 := kern_le_one (hS.smul (pow_pos hh 2)) (z - y)
    have : 0 ≤ 8 / k * h ^ 2 / R ^ 2 := by positivity
    linarith
  · have h1 : R / 2 ≤ ‖z - y‖ := by
      have := norm_sub_norm_le z y
      linarith
    have h2 : k * (R / 2) ^ 2 ≤ qf S (z - y) :=
      (mul_le_mul_of_nonneg_left (pow_le_pow_left₀ (by positivity) h1 2) hk.le).trans (hc _)
    have h3 : kern (h ^ 2 • S) (z - y) ≤ 8 / k * h ^ 2 / R ^ 2 := by
      rw [kern, qf_scale hh hS, neg_div, Real.exp_neg]
      have hX : k * R ^ 2 / (8 * h ^ 2) ≤ h⁻¹ ^ 2 * qf S (z - y) / 2 := by
        have := mul_le_mul_of_nonneg_left h2 (sq_nonneg h⁻¹)
        have e : k * R ^ 2 / (8 * h ^ 2) = h⁻¹ ^ 2 * (k * (R / 2) ^ 2) / 2 := by field_simp; ring
        rw [e]
        linarith
      have hpos : 0 < k * R ^ 2 / (8 * h ^ 2) := by positivity
      have h4 : k * R ^ 2 / (8 * h ^ 2) ≤ Real.exp (h⁻¹ ^ 2 * qf S (z - y) / 2) := by
        have := Real.add_one_le_exp (h⁻¹ ^ 2 * qf S (z - y) / 2)
        linarith
      refine (inv_anti₀ hpos h4).trans (le_of_eq ?_)
      field_simp
    have : 0 ≤ 2 / R * ∑ j, |y j| := by positivity
    linarith

/-! ## Bandwidths -/

/-- The bandwidth `n ^ (-1/(q+4))`. -/
noncomputable def band (q n : ℕ) : ℝ := (n : ℝ) ^ (-1 / (q + 4 : ℝ))

theorem band_pos (q : ℕ) {n : ℕ} (hn : 0 < n) : 0 < band q n := Real.rpow_pos_of_pos (by exact_mod_cast hn) _

theorem band_le_one (q : ℕ) {n : ℕ} (hn : 0 < n) : band q n ≤ 1 := by
  refine Real.rpow_le_one_of_one_le_of_nonpos (by exact_mod_cast hn) ?_
  exact div_nonpos_of_nonpos_of_nonneg (by norm_num) (by positivity)

theorem band_tendsto (q : ℕ) : Tendsto (band q) atTop (𝓝 0) := by
  have h := (tendsto_rpow_neg_atTop (show 0 < 1 / (q + 4 : ℝ) by positivity)).comp
    (tendsto_natCast_atTop_atTop (R := ℝ))
  refine h.congr fun n => ?_
  rw [band, Function.comp, neg_div]

theorem band_pow (q : ℕ) {n : ℕ} (hn : 0 < n) (k : ℕ) : band q n ^ k = (n : ℝ) ^ (-k / (q + 4 : ℝ)) := by
  have hn' : (0 : ℝ) < n := by exact_mod_cast hn
  rw [band, ← Real.rpow_natCast, ← Real.rpow_mul hn'.le]
  congr 1
  ring

theorem mul_band (q : ℕ) {n : ℕ} (hn : 0 < n) : n * band q n ^ q = (n : ℝ) ^ (4 / (q + 4 : ℝ)) := by
  have hn' : (0 : ℝ) < n := by exact_mod_cast hn
  rw [band_pow q hn]
  nth_rw 1 [← Real.rpow_one (n : ℝ)]
  rw [← Real.rpow_add hn']
  congr 1
  field_simp
  ring

theorem inv_le_band (q : ℕ) {n : ℕ} (hn : 0 < n) : (n : ℝ)⁻¹ ≤ band q n ^ q := by
  have hn' : (1 : ℝ) ≤ n := by exact_mod_cast hn
  rw [band_pow q hn, ← Real.rpow_neg_one]
  refine Real.rpow_le_rpow_of_exponent_le hn' ?_
  rw [neg_div, neg_le_neg_iff, div_le_one (by positivity)]
  linarith

theorem band_inv (q : ℕ) {n : ℕ} (hn : 0 < n) : (band q n)⁻¹ * ((n : ℝ) ^ 2)⁻¹ ≤ (n : ℝ)⁻¹ * band q n ^ q := by
  have hn' : (1 : ℝ) ≤ n := by exact_mod_cast hn
  have hn0 : (0 : ℝ) < n := by linarith
  have hq : (0 : ℝ) ≤ q := by positivity
  have e1 : (band q n)⁻¹ * ((n : ℝ) ^ 2)⁻¹ = (n : ℝ) ^ (1 / (q + 4 : ℝ) - 2) := by
    rw [band, ← Real.rpow_neg hn0.le, ← Real.rpow_natCast, ← Real.rpow_neg hn0.le, ← Real.rpow_add hn0]
    congr 1
    push_cast
    ring
  have e2 : (n : ℝ)⁻¹ * band q n ^ q = (n : ℝ) ^ (-1 - q / (q + 4 : ℝ)) := by
    rw [band_pow q hn, ← Real.rpow_neg_one, ← Real.rpow_add hn0]
    congr 1
    ring
  rw [e1, e2]
  refine Real.rpow_le_rpow_of_exponent_le hn' ?_
  have : (1 : ℝ) / (q + 4) + q / (q + 4) ≤ 1 := by
    rw [← add_div, div_le_one (by positivity)]
    linarith
  linarith

theorem summable_fine (q : ℕ) {a s : ℝ} (ha : 0 < a) (hs : 0 < s) :
    Summable fun n : ℕ => (((2 * (n ^ 2) ^ 2 + 1) ^ q : ℕ) : ℝ) * (2 * Real.exp (-a * (n : ℝ) ^ s)) := by
  have h0 : Tendsto (fun n : ℕ => (n : ℝ) ^ s) atTop atTop :=
    (tendsto_rpow_atTop hs).comp tendsto_natCast_atTop_atTop
  have h1 := (isLittleO_exp_neg_mul_rpow_atTop ha (-((4 * q + 2) / s : ℝ))).isBigO.comp_tendsto h0
  have h2 : (fun n : ℕ => (((2 * (n ^ 2) ^ 2 + 1) ^ q : ℕ) : ℝ) * 2) =O[atTop] fun n : ℕ => (n : ℝ) ^ (4 * q : ℝ) := by
    refine Asymptotics.IsBigO.of_bound (3 ^ q * 2) ?_
    filter_upwards [eventually_gt_atTop 0] with n hn
    have hn' : (1 : ℝ) ≤ n := by exact_mod_cast hn
    have e : (n : ℝ) ^ (4 * q : ℝ) = ((n ^ 2) ^ 2) ^ q := by
      rw [← pow_mul, ← pow_mul, ← Real.rpow_natCast]; push_cast; ring_nf
    rw [e, Real.norm_eq_abs, Real.norm_eq_abs, abs_of_nonneg (by positivity), abs_of_nonneg (by positivity),
      mul_right_comm, ← mul_pow]
    push_cast
    have h4 : (1 : ℝ) ≤ (n ^ 2) ^ 2 := one_le_pow₀ (one_le_pow₀ hn')
    gcongr
    linarith
  have h3 := h2.mul h1
  refine summable_of_isBigO_nat (Real.summable_nat_rpow.2 (by norm_num : (-2 : ℝ) < -1)) ((h3.congr' ?_ ?_))
  · exact .of_forall fun n => by simp only [Function.comp]; ring
  · filter_upwards [eventually_gt_atTop 0] with n hn
    have hn' : (0 : ℝ) < n := by exact_mod_cast hn
    simp only [Function.comp]
    rw [← Real.rpow_mul hn'.le, ← Real.rpow_add hn']
    congr 1
    field_simp
    ring

/-! ## The averages -/

/-- Average of the weighted kernels. -/
noncomputable def kavg (y : ℕ → Fin q → ℝ) (w : ℕ → ℝ) (n : ℕ) (H : Matrix (Fin q) (Fin q) ℝ) (z : Fin q → ℝ) : ℝ :=
  (n : ℝ)⁻¹ * ∑ k ∈ Finset.range n, w k * kern H (z - y k)

/-- Its mean. -/
noncomputable def kmean (ν : Measure (Fin q → ℝ)) (H : Matrix (Fin q) (Fin q) ℝ) (z : Fin q → ℝ) : ℝ :=
  ∫ z', kern H (z - z') ∂ν

theorem integrable_kern {ν : Measure (Fin q → ℝ)} [IsFiniteMeasure ν] {H : Matrix (Fin q) (Fin q) ℝ} (hH : H.PosDef)
    (z : Fin q → ℝ) : Integrable (fun z' => kern H (z - z')) ν := by
  have hc : Continuous fun z' => kern H (z - z') := (continuous_kern H).comp (continuous_sub_left z)
  refine (integrable_const (1 : ℝ)).mono' hc.aestronglyMeasurable (.of_forall fun z' => ?_)
  rw [Real.norm_eq_abs, abs_of_pos (kern_pos _ _)]
  exact kern_le_one hH _

theorem kmean_eq {g : (Fin q → ℝ) → ℝ} (hgm : Measurable g) (hg0 : ∀ z, 0 ≤ g z)
    {H : Matrix (Fin q) (Fin q) ℝ} (hH : H.PosDef) (z : Fin q → ℝ) :
    normalTop H * kmean (volume.withDensity fun z => ENNReal.ofReal (g z)) H z = ∫ z', g z' ∂(normalLaw z H) := by
  rw [← smoothed_eq hgm hg0 hH z, kmean, ← integral_const_mul]
  simp only [normalPdf_kern]

theorem kmean_le {g : (Fin q → ℝ) → ℝ} (hgm : Measurable g) (hg0 : ∀ z, 0 ≤ g z) {B : ℝ} (hB : ∀ z, g z ≤ B)
    {H : Matrix (Fin q) (Fin q) ℝ} (hH : H.PosDef) (z : Fin q → ℝ) :
    kmean (volume.withDensity fun z => ENNReal.ofReal (g z)) H z ≤ B / normalTop H := by
  rw [le_div_iff₀ (normalTop_pos hH), mul_comm, kmean_eq hgm hg0 hH z]
  have hgi : Integrable g (normalLaw z H) := (integrable_const B).mono' hgm.aestronglyMeasurable
    (.of_forall fun x => by rw [Real.norm_eq_abs, abs_of_nonneg (hg0 x)]; exact hB x)
  refine (integral_mono hgi (integrable_const B) hB).trans (le_of_eq ?_)
  simp

theorem kavg_lip {y : ℕ → Fin q → ℝ} {w : ℕ → ℝ} (hw : ∀ k, 0 < w k) {M : ℝ} (hM : ∀ k, w k ≤ M)
    {H : Matrix (Fin q) (Fin q) ℝ} {L : ℝ} (hL : ∀ u v, |kern H u - kern H v| ≤ L * ‖u - v‖) {n : ℕ} (hn : 0 < n)
    (z z' : Fin q → ℝ) : |kavg y w n H z - kavg y w n H z'| ≤ M * (L * ‖z - z'‖) := by
  have hn' : (0 : ℝ) < n := by exact_mod_cast hn
  rw [kavg, kavg, ← mul_sub, ← Finset.sum_sub_distrib, abs_mul, abs_of_pos (inv_pos.2 hn')]
  have hb : |∑ k ∈ Finset.range n, (w k * kern H (z - y k) - w k * kern H (z' - y k))| ≤ n * (M * (L * ‖z - z'‖)) := by
    refine (Finset.abs_sum_le_sum_abs _ _).trans
      ((Finset.sum_le_card_nsmul _ _ (M * (L * ‖z - z'‖)) fun k _ => ?_).trans (le_of_eq ?_))
    · have h1 := hL (z - y k) (z' - y k)
      rw [sub_sub_sub_cancel_right] at h1
      rw [← mul_sub, abs_mul, abs_of_pos (hw k)]
      exact mul_le_mul (hM k) h1 (abs_nonneg _) ((hw k).le.trans (hM k))
    · rw [Finset.card_range, nsmul_eq_mul]
  calc (n : ℝ)⁻¹ * _ ≤ (n : ℝ)⁻¹ * (n * (M * (L * ‖z - z'‖))) := mul_le_mul_of_nonneg_left hb (inv_pos.2 hn').le
    _ = _ := by rw [inv_mul_cancel_left₀ hn'.ne']

theorem kmean_lip {ν : Measure (Fin q → ℝ)} [IsProbabilityMeasure ν]
    {H : Matrix (Fin q) (Fin q) ℝ} (hH : H.PosDef) {L : ℝ} (hL : ∀ u v, |kern H u - kern H v| ≤ L * ‖u - v‖)
    (z z' : Fin q → ℝ) : |kmean ν H z - kmean ν H z'| ≤ L * ‖z - z'‖ := by
  rw [kmean, kmean, ← integral_sub (integrable_kern hH z) (integrable_kern hH z'), ← Real.norm_eq_abs]
  refine (norm_integral_le_of_norm_le (integrable_const (L * ‖z - z'‖)) (.of_forall fun t => ?_)).trans (by simp)
  have h1 := hL (z - t) (z' - t)
  rwa [sub_sub_sub_cancel_right] at h1

/-- The averages of the kernels approach their means faster than the volume of the kernel shrinks. -/
theorem kavg_rate {P : Measure Ω} {x : ℕ → Ω → Fin p → ℝ} {τ μ : Measure (Fin p → ℝ)} [IsProbabilityMeasure μ]
    (hi : iIndepFun x P) (hx : ∀ k, HasLaw (x k) τ P) {w : (Fin p → ℝ) → ℝ} (hwm : Measurable w) (hw : ∀ l, 0 < w l)
    (hμ : μ = τ.withDensity fun l => ENNReal.ofReal (w l)) {M : ℝ} (hM : ∀ l, w l ≤ M)
    {Q : (Fin p → ℝ) → Fin q → ℝ} (hQ : Measurable Q) (h2 : ∀ j, Integrable (fun l => Q l j ^ 2) μ)
    {g : (Fin q → ℝ) → ℝ} (hgm : Measurable g) (hg0 : ∀ z, 0 ≤ g z) {B : ℝ} (hB : ∀ z, g z ≤ B)
    (hg : μ.map Q = volume.withDensity fun z => ENNReal.ofReal (g z))
    {S : Matrix (Fin q) (Fin q) ℝ} (hS : S.PosDef) :
    ∀ᵐ ω ∂P, ∀ ε > 0, ∀ᶠ n : ℕ in atTop, ∀ z,
      |kavg (fun k => Q (x k ω)) (fun k => w (x k ω)) n (band q n ^ 2 • S) z -
        kmean (μ.map Q) (band q n ^ 2 • S) z| ≤ ε * band q n ^ q := by
  have hP : IsProbabilityMeasure P := hi.isProbabilityMeasure
  have hM0 : 0 < M := (hw 0).trans_le (hM 0)
  have hprob : IsProbabilityMeasure (μ.map Q) := Measure.isProbabilityMeasure_map hQ.aemeasurable
  have hB0 : 0 ≤ B := (hg0 0).trans (hB 0)
  have hHn : ∀ {n : ℕ}, 0 < n → (band q n ^ 2 • S).PosDef := fun hn => hS.smul (pow_pos (band_pos q hn) 2)
  have h2' : ∀ j, Integrable (fun z : Fin q → ℝ => z j ^ 2) (μ.map Q) := fun j =>
    (integrable_map_measure ((measurable_pi_apply j).pow_const 2).aestronglyMeasurable hQ.aemeasurable).2 (h2 j)
  -- the mean of one term
  have hmean : ∀ (H : Matrix (Fin q) (Fin q) ℝ) (z : Fin q → ℝ), ∫ l, w l * kern H (z - Q l) ∂τ = kmean (μ.map Q) H z := by
    intro H z
    have hc : Continuous fun z' => kern H (z - z') := (continuous_kern H).comp (continuous_sub_left z)
    rw [kmean, integral_map hQ.aemeasurable hc.aestronglyMeasurable, hμ,
      integral_withDensity_eq_integral_toReal_smul hwm.ennreal_ofReal (.of_forall fun l => ENNReal.ofReal_lt_top)]
    refine integral_congr_ae (.of_forall fun l => ?_)
    dsimp only
    rw [ENNReal.toReal_ofReal (hw l).le, smul_eq_mul]
  -- one point, one number of samples
  set D : ℝ := B / normalTop S with hD
  have hDn : ∀ {n : ℕ}, 0 < n → ∀ z, kmean (μ.map Q) (band q n ^ 2 • S) z ≤ D * band q n ^ q := by
    intro n hn z
    have h := kmean_le hgm hg0 hB (hHn hn) z
    rw [← hg, normalTop_smul (band_pos q hn), inv_pow] at h
    refine h.trans (le_of_eq ?_)
    have := (pow_pos (band_pos q hn) q).ne'
    have := (normalTop_pos hS).ne'
    rw [hD]
    field_simp
  have grid_ae : ∀ ε > 0, ∀ᵐ ω ∂P, ∀ᶠ n : ℕ in atTop, ∀ κ ∈ grid q (n ^ 2),
      |kavg (fun k => Q (x k ω)) (fun k => w (x k ω)) n (band q n ^ 2 • S) (fun j => (κ j : ℝ) / ((n ^ 2 : ℕ) : ℝ)) -
        kmean (μ.map Q) (band q n ^ 2 • S) (fun j => (κ j : ℝ) / ((n ^ 2 : ℕ) : ℝ))| < ε * band q n ^ q := by
    intro ε hε
    obtain ⟨c, hc, hcM, hcD⟩ : ∃ c > 0, c * M ≤ 1 ∧ c * M * D ≤ ε / 2 := by
      have hD0 : 0 ≤ D := div_nonneg hB0 (normalTop_pos hS).le
      refine ⟨min (1 / M) (ε / (2 * M * (D + 1))), by positivity, ?_, ?_⟩
      · calc min (1 / M) (ε / (2 * M * (D + 1))) * M ≤ 1 / M * M :=
              mul_le_mul_of_nonneg_right (min_le_left _ _) hM0.le
          _ = 1 := by field_simp
      · calc min (1 / M) (ε / (2 * M * (D + 1))) * M * D ≤ ε / (2 * M * (D + 1)) * M * D := by
              refine mul_le_mul_of_nonneg_right (mul_le_mul_of_nonneg_right (min_le_right _ _) hM0.le) hD0
          _ = ε / 2 * (D / (D + 1)) := by field_simp
          _ ≤ ε / 2 * 1 := by
              refine mul_le_mul_of_nonneg_left ?_ (by positivity)
              rw [div_le_one (by positivity)]
              linarith
          _ = ε / 2 := mul_one _
    set bad : ℕ → Set Ω := fun n => {ω | 0 < n ∧ ∃ κ ∈ grid q (n ^ 2), ε * band q n ^ q ≤
      |kavg (fun k => Q (x k ω)) (fun k => w (x k ω)) n (band q n ^ 2 • S) (fun j => (κ j : ℝ) / ((n ^ 2 : ℕ) : ℝ)) -
        kmean (μ.map Q) (band q n ^ 2 • S) (fun j => (κ j : ℝ) / ((n ^ 2 : ℕ) : ℝ))|} with hbad
    have hb : ∀ n, P (bad n) ≤ ENNReal.ofReal ((((2 * (n ^ 2) ^ 2 + 1) ^ q : ℕ) : ℝ) *
        (2 * Real.exp (-(c * ε / 2) * (n : ℝ) ^ (4 / (q + 4 : ℝ))))) := by
      intro n
      rw [← ofReal_measureReal]
      refine ENNReal.ofReal_le_ofReal ?_
      rcases Nat.eq_zero_or_pos n with rfl | hn
      · have : bad 0 = ∅ := by
          ext ω; simp [hbad]
        rw [this, measureReal_empty]
        positivity
      · have e : bad n = ⋃ κ ∈ grid q (n ^ 2), {ω | ε * band q n ^ q ≤
            |kavg (fun k => Q (x k ω)) (fun k => w (x k ω)) n (band q n ^ 2 • S) (fun j => (κ j : ℝ) / ((n ^ 2 : ℕ) : ℝ)) -
              kmean (μ.map Q) (band q n ^ 2 • S) (fun j => (κ j : ℝ) / ((n ^ 2 : ℕ) : ℝ))|} := by
          ext ω
          simp only [hbad, Set.mem_ofPred_eq, Set.mem_iUnion, exists_prop, hn, true_and]
        rw [e]
        refine (measureReal_biUnion_finset_le _ _).trans ?_
        refine (Finset.sum_le_card_nsmul _ _ (2 * Real.exp (-(c * ε / 2) * (n * band q n ^ q))) fun κ _ => ?_).trans
          (le_of_eq ?_)
        · set z : Fin q → ℝ := fun j => (κ j : ℝ) / ((n ^ 2 : ℕ) : ℝ)
          have hfm : Measurable fun l => w l * kern (band q n ^ 2 • S) (z - Q l) :=
            hwm.mul ((continuous_kern _).measurable.comp (measurable_const.sub hQ))
          have := bernstein hi hx (f := fun l => w l * kern (band q n ^ 2 • S) (z - Q l)) hfm
            (fun l => mul_nonneg (hw l).le (kern_pos _ _).le) (M := M)
            (fun l => (mul_le_of_le_one_right (hw l).le (kern_le_one (hHn hn) _)).trans (hM l))
            (pow_pos (band_pos q hn) q) (by rw [hmean]; exact hDn hn z) hc hcM hcD hn
          rw [hmean] at this
          exact this
        · rw [card_grid, nsmul_eq_mul, mul_band q hn]
    have hsum : ∑' n, P (bad n) ≠ ⊤ := by
      refine ne_top_of_le_ne_top ?_ (ENNReal.tsum_le_tsum hb)
      exact (summable_fine q (by positivity) (by positivity)).tsum_ofReal_ne_top
    filter_upwards [ae_eventually_notMem hsum] with ω h1
    filter_upwards [h1, eventually_gt_atTop 0] with n a1 hn κ hκ
    by_contra hcon
    exact a1 ⟨hn, κ, hκ, not_lt.1 hcon⟩
  have hall : ∀ᵐ ω ∂P, ∀ m : ℕ, ∀ᶠ n : ℕ in atTop, ∀ κ ∈ grid q (n ^ 2),
      |kavg (fun k => Q (x k ω)) (fun k => w (x k ω)) n (band q n ^ 2 • S) (fun j => (κ j : ℝ) / ((n ^ 2 : ℕ) : ℝ)) -
        kmean (μ.map Q) (band q n ^ 2 • S) (fun j => (κ j : ℝ) / ((n ^ 2 : ℕ) : ℝ))| < 1 / ((m : ℝ) + 1) * band q n ^ q :=
    ae_all_iff.2 fun m => grid_ae _ (by positivity)
  obtain ⟨L, hL0, hL⟩ := kern_lip hS
  obtain ⟨C, hC0, hC⟩ := kern_far hS
  have hI : Integrable (fun z : Fin q → ℝ => ∑ j, |z j|) (μ.map Q) :=
    integrable_finsetSum _ fun j _ => (integrable_coord h2' j).abs
  filter_upwards [hall, averages_ae hi hx hwm hw hμ hQ h2] with ω h1 h3 ε hε
  obtain ⟨m, hm⟩ := exists_nat_one_div_lt (show 0 < ε / 2 by positivity)
  obtain ⟨A, hA⟩ := h3.norm
  obtain ⟨K, hK⟩ := hA.bddAbove_range
  have hK' : ∀ n : ℕ, (n : ℝ)⁻¹ * ∑ k ∈ Finset.range n, w (x k ω) * ∑ j, |Q (x k ω) j| ≤ K := fun n => hK ⟨n, rfl⟩
  have hinv : Tendsto (fun n : ℕ => (n : ℝ)⁻¹) atTop (𝓝 0) := tendsto_inv_atTop_nhds_zero_nat
  set E : ℝ := ∫ z, ∑ j, |z j| ∂(μ.map Q) with hE
  have t1 : Tendsto (fun n : ℕ => (M + 1) * L * (n : ℝ)⁻¹) atTop (𝓝 0) := by
    have := hinv.const_mul ((M + 1) * L); rwa [mul_zero] at this
  have t2 : Tendsto (fun n : ℕ => (2 * K + C * M + 2 * E + C) * (n : ℝ)⁻¹) atTop (𝓝 0) := by
    have := hinv.const_mul (2 * K + C * M + 2 * E + C); rwa [mul_zero] at this
  filter_upwards [h1 m, t1.eventually_lt_const (show 0 < ε / 2 by positivity), t2.eventually_lt_const hε,
    eventually_gt_atTop 0] with n a1 a2 a3 hn z
  have hn' : (1 : ℝ) ≤ n := by exact_mod_cast hn
  have hr := pow_pos (band_pos q hn) q
  by_cases hz : ‖z‖ ≤ (n ^ 2 : ℕ)
  · obtain ⟨κ, hκ, hd⟩ := grid_covers (n := n ^ 2) (by positivity) hz
    have b1 := a1 κ hκ
    set s : Fin q → ℝ := fun j => (κ j : ℝ) / ((n ^ 2 : ℕ) : ℝ)
    have b2 := kavg_lip (y := fun k => Q (x k ω)) (w := fun k => w (x k ω)) (fun k => hw _) (fun k => hM _)
      (hL _ (band_pos q hn)) hn z s
    have b3 := kmean_lip (ν := μ.map Q) (hHn hn) (hL _ (band_pos q hn)) z s
    have b4 : L * (band q n)⁻¹ * ‖z - s‖ ≤ L * (n : ℝ)⁻¹ * band q n ^ q := by
      have h5 : (band q n)⁻¹ * ‖z - s‖ ≤ (n : ℝ)⁻¹ * band q n ^ q := by
        refine (mul_le_mul_of_nonneg_left hd (inv_pos.2 (band_pos q hn)).le).trans ?_
        push_cast
        exact band_inv q hn
      calc L * (band q n)⁻¹ * ‖z - s‖ = L * ((band q n)⁻¹ * ‖z - s‖) := by ring
        _ ≤ L * ((n : ℝ)⁻¹ * band q n ^ q) := mul_le_mul_of_nonneg_left h5 hL0
        _ = _ := by ring
    have b5 : M * (L * (band q n)⁻¹ * ‖z - s‖) ≤ M * (L * (n : ℝ)⁻¹ * band q n ^ q) :=
      mul_le_mul_of_nonneg_left b4 hM0.le
    have b6 : 1 / ((m : ℝ) + 1) * band q n ^ q ≤ ε / 2 * band q n ^ q := mul_le_mul_of_nonneg_right hm.le hr.le
    have b7 : (M + 1) * L * (n : ℝ)⁻¹ * band q n ^ q ≤ ε / 2 * band q n ^ q := mul_le_mul_of_nonneg_right a2.le hr.le
    rw [abs_le] at b2 b3 ⊢
    rw [abs_lt] at b1
    constructor <;> nlinarith [b1.1, b1.2, b2.1, b2.2, b3.1, b3.2]
  · have hR : (0 : ℝ) < n ^ 2 := by positivity
    have hz' : (n : ℝ) ^ 2 ≤ ‖z‖ := by push_cast at hz; linarith
    have hb1 : band q n ^ 2 ≤ 1 := pow_le_one₀ (band_pos q hn).le (band_le_one q hn)
    obtain ⟨d, hd⟩ : ∃ d : ℝ, d = ((n : ℝ) ^ 2)⁻¹ := ⟨_, rfl⟩
    have hd0 : 0 ≤ d := by rw [hd]; positivity
    have hfar : ∀ y : Fin q → ℝ, kern (band q n ^ 2 • S) (z - y) ≤ 2 * d * (∑ j, |y j|) + C * d := by
      intro y
      refine (hC _ (band_pos q hn) _ hR z y hz').trans ?_
      have i1 : 2 / (n : ℝ) ^ 2 = 2 * d := by rw [hd, div_eq_mul_inv]
      have i2 : C * band q n ^ 2 / ((n : ℝ) ^ 2) ^ 2 ≤ C * d := by
        rw [mul_div_assoc]
        refine mul_le_mul_of_nonneg_left ?_ hC0
        rw [div_eq_mul_inv]
        have : (((n : ℝ) ^ 2) ^ 2)⁻¹ ≤ d := by
          rw [hd]
          exact inv_anti₀ (by positivity) (le_self_pow₀ (one_le_pow₀ hn') (by norm_num))
        calc band q n ^ 2 * (((n : ℝ) ^ 2) ^ 2)⁻¹ ≤ 1 * d := mul_le_mul hb1 this (by positivity) zero_le_one
          _ = _ := one_mul _
      rw [i1]
      exact add_le_add le_rfl i2
    have c1 : kavg (fun k => Q (x k ω)) (fun k => w (x k ω)) n (band q n ^ 2 • S) z ≤ (2 * K + C * M) * d := by
      have s1 : ∑ k ∈ Finset.range n, w (x k ω) * kern (band q n ^ 2 • S) (z - Q (x k ω)) ≤
          2 * d * (∑ k ∈ Finset.range n, w (x k ω) * ∑ j, |Q (x k ω) j|) + n * (C * M * d) := by
        have s2 : n * (C * M * d) = ∑ k ∈ Finset.range n, C * M * d := by simp
        rw [s2, Finset.mul_sum, ← Finset.sum_add_distrib]
        refine Finset.sum_le_sum fun k _ => ?_
        have j1 := mul_le_mul_of_nonneg_left (hfar (Q (x k ω))) (hw (x k ω)).le
        have j2 : w (x k ω) * (C * d) ≤ M * (C * d) := mul_le_mul_of_nonneg_right (hM _) (by positivity)
        linarith
      have hn0 : (0 : ℝ) < n := by linarith
      have hi0 : 0 ≤ (n : ℝ)⁻¹ := (inv_pos.2 hn0).le
      rw [kavg]
      refine (mul_le_mul_of_nonneg_left s1 hi0).trans ?_
      have j3 := mul_le_mul_of_nonneg_left (hK' n) (show 0 ≤ 2 * d by positivity)
      have j4 : (n : ℝ)⁻¹ * (n * (C * M * d)) = C * M * d := inv_mul_cancel_left₀ hn0.ne' _
      calc (n : ℝ)⁻¹ * (2 * d * (∑ k ∈ Finset.range n, w (x k ω) * ∑ j, |Q (x k ω) j|) + n * (C * M * d))
          = 2 * d * ((n : ℝ)⁻¹ * ∑ k ∈ Finset.range n, w (x k ω) * ∑ j, |Q (x k ω) j|) +
            (n : ℝ)⁻¹ * (n * (C * M * d)) := by ring
        _ ≤ 2 * d * K + C * M * d := add_le_add j3 j4.le
        _ = (2 * K + C * M) * d := by ring
    have c2 : kmean (μ.map Q) (band q n ^ 2 • S) z ≤ (2 * E + C) * d := by
      have i1 : Integrable (fun y : Fin q → ℝ => 2 * d * (∑ j, |y j|) + C * d) (μ.map Q) :=
        (hI.const_mul _).add (integrable_const _)
      refine (integral_mono (integrable_kern (hHn hn) z) i1 hfar).trans (le_of_eq ?_)
      rw [integral_add (hI.const_mul _) (integrable_const _), integral_const_mul, integral_const, probReal_univ, one_smul]
      ring
    have c3 : 0 ≤ kavg (fun k => Q (x k ω)) (fun k => w (x k ω)) n (band q n ^ 2 • S) z :=
      mul_nonneg (by positivity) (Finset.sum_nonneg fun k _ => mul_nonneg (hw _).le (kern_pos _ _).le)
    have c4 : 0 ≤ kmean (μ.map Q) (band q n ^ 2 • S) z := integral_nonneg fun _ => (kern_pos _ _).le
    have c5 : (2 * K + C * M + 2 * E + C) * d ≤ ε * band q n ^ q := by
      have hn0 : (0 : ℝ) ≤ (n : ℝ)⁻¹ := by positivity
      have e : d = (n : ℝ)⁻¹ * (n : ℝ)⁻¹ := by rw [hd, sq, mul_inv]
      rw [e, ← mul_assoc]
      exact mul_le_mul a3.le (inv_le_band q hn) hn0 hε.le
    have c6 : (2 * K + C * M) * d + (2 * E + C) * d ≤ ε * band q n ^ q := by linarith
    rw [abs_le]
    constructor <;> linarith

end Verif
