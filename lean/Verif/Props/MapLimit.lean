import Verif.Props.MoreData
import Verif.Props.Iterate

/-!
# C85: the MAP point between the initial mean and the MUD point
-/

open Matrix Filter Topology

namespace Verif

variable {d p : ℕ}

/-- The stationarity condition of the MAP point. -/
theorem map_gradient (A : Matrix (Fin d) (Fin p) ℝ) (b y : Fin d → ℝ) (m : Fin p → ℝ)
    (S : Matrix (Fin p) (Fin p) ℝ) (hS : S.PosDef) (C : Matrix (Fin d) (Fin d) ℝ) (hC : C.PosDef)
    (α : ℝ) (hα : 0 < α) :
    ∃ x, Returns (Api.solve "map" A b y m S C α) x ∧
      Aᵀ *ᵥ (C⁻¹ *ᵥ (A *ᵥ x + b - y)) + (α • S)⁻¹ *ᵥ (x - m) = 0 := by
  have hSα : (α • S).PosDef := hS.smul hα
  have hH : (mapH A (α • S) C).PosDef := map_posDef hSα hC
  refine ⟨_, api_map A b y m S C α (posDef_det_ne hC) (posDef_det_ne hSα) (posDef_det_ne hH), ?_⟩
  set T := α • S with hT
  set z := y - b - A *ᵥ m with hz
  set H := mapH A T C with hHd
  set x := m + (H⁻¹ * Aᵀ * C⁻¹) *ᵥ z with hx
  have h1 : A *ᵥ x + b - y = A *ᵥ (x - m) - z := by rw [hz, mulVec_sub]; abel
  have h2 : H *ᵥ (x - m) = (Aᵀ * C⁻¹) *ᵥ z := by
    rw [hx, add_sub_cancel_left, mulVec_mulVec, Matrix.mul_assoc H⁻¹, ← Matrix.mul_assoc H,
      mul_nonsing_inv _ (posDef_isUnit_det hH), Matrix.one_mul]
  have h3 : H *ᵥ (x - m) = Aᵀ *ᵥ (C⁻¹ *ᵥ (A *ᵥ (x - m))) + T⁻¹ *ᵥ (x - m) := by
    rw [hHd, mapH, add_mulVec, ← mulVec_mulVec, ← mulVec_mulVec]
  rw [h1, mulVec_sub, mulVec_sub, mulVec_mulVec (v := z), ← h2, h3]; abel

theorem inv_smul_pos {S : Matrix (Fin p) (Fin p) ℝ} (hS : S.PosDef) {α : ℝ} (hα : 0 < α) :
    (α • S)⁻¹ = α⁻¹ • S⁻¹ := by
  apply inv_eq_right_inv
  rw [Matrix.smul_mul, Matrix.mul_smul, smul_smul, mul_inv_cancel₀ hα.ne', one_smul,
    mul_nonsing_inv _ (posDef_isUnit_det hS)]

/-- **C85.** Attainable data, `x` the MUD point. There is a vector `v`, depending on neither the
data covariance nor `alpha`, such that for every positive definite data covariance `C` and every
`alpha > 0` the MAP point is within `vᵀ C v / (4 alpha)` of the MUD point, in the squared norm of
the initial covariance: less prior weight or less noise brings the MAP point to the MUD point. -/
theorem C85_map_near_mud (A : Matrix (Fin d) (Fin p) ℝ) (b y : Fin d → ℝ) (m : Fin p → ℝ)
    (S : Matrix (Fin p) (Fin p) ℝ) (hS : S.PosDef) (hy : ∃ x₀, A *ᵥ x₀ + b = y) :
    ∃ (x : Fin p → ℝ) (v : Fin d → ℝ), (∀ C α, 0 < α → Returns (Api.solve "mud" A b y m S C α) x) ∧
      ∀ C : Matrix (Fin d) (Fin d) ℝ, C.PosDef → ∀ α : ℝ, 0 < α →
        ∃ u, Returns (Api.solve "map" A b y m S C α) u ∧
          mahal S u x ≤ v ⬝ᵥ (C *ᵥ v) / (4 * α) := by
  obtain ⟨x, hx, hAx⟩ := C01_mud_reproduces_attainable A b y m S hS 1 1 one_pos hy
  have hxF := returns_unique hx (api_mud' A b y m S 1 1 one_ne_zero)
  set z := y - b - A *ᵥ m with hz
  set v := mpinv (A * S * Aᵀ) *ᵥ z with hv
  have hSu := posDef_isUnit_det hS
  have hxm : S⁻¹ *ᵥ (x - m) = Aᵀ *ᵥ v := by
    rw [hxF, mudF, add_sub_cancel_left, mulVec_mulVec, Matrix.mul_assoc S, ← Matrix.mul_assoc S⁻¹,
      nonsing_inv_mul _ hSu, Matrix.one_mul, hv, mulVec_mulVec]
  refine ⟨x, v, fun C α hα => ?_, fun C hC α hα => ?_⟩
  · rw [hxF]; exact api_mud' A b y m S C α hα.ne'
  obtain ⟨u, hu, hgrad⟩ := map_gradient A b y m S hS C hC α hα
  refine ⟨u, hu, ?_⟩
  set e := u - x with he
  set w := A *ᵥ e with hw
  have h1 : A *ᵥ u + b - y = w := by rw [← hAx, hw, he, mulVec_sub]; abel
  have h2 : u - m = e + (x - m) := by rw [he]; abel
  rw [h1, inv_smul_pos hS hα, h2, mulVec_add, Matrix.smul_mulVec, Matrix.smul_mulVec, hxm] at hgrad
  have h3 : w ⬝ᵥ (C⁻¹ *ᵥ w) + α⁻¹ * (e ⬝ᵥ (S⁻¹ *ᵥ e)) + α⁻¹ * (v ⬝ᵥ w) = 0 := by
    have := congrArg (fun t => e ⬝ᵥ t) hgrad
    simp only [dotProduct_add, dotProduct_smul, smul_eq_mul, dotProduct_zero] at this
    rw [dotProduct_comm e (Aᵀ *ᵥ _), ← dot_mulVec_transpose, dotProduct_comm e (Aᵀ *ᵥ v),
      ← dot_mulVec_transpose, dotProduct_comm _ (A *ᵥ e), ← hw] at this
    linarith
  -- Young's inequality in the norm of `C`
  have hCu := posDef_isUnit_det hC
  have hCt := inv_symm (posSemidef_transpose hC.posSemidef)
  have hy1 : 0 ≤ w ⬝ᵥ (C⁻¹ *ᵥ w) + 2 * ((2 * α)⁻¹ * (v ⬝ᵥ w)) +
      (2 * α)⁻¹ * ((2 * α)⁻¹ * (v ⬝ᵥ (C *ᵥ v))) := by
    have h := quad_nonneg hC.inv.posSemidef (w + (2 * α)⁻¹ • (C *ᵥ v))
    rw [quad_add hCt] at h
    have e1 : C⁻¹ *ᵥ ((2 * α)⁻¹ • (C *ᵥ v)) = (2 * α)⁻¹ • v := by
      rw [mulVec_smul, mulVec_mulVec, nonsing_inv_mul _ hCu, one_mulVec]
    rw [e1, dotProduct_smul, smul_dotProduct, dotProduct_smul, dotProduct_comm w v,
      dotProduct_comm (C *ᵥ v) v] at h
    simpa [smul_eq_mul] using h
  have e5 : mahal S u x = e ⬝ᵥ (S⁻¹ *ᵥ e) := rfl
  rw [e5, le_div_iff₀ (by positivity)]
  have hq : α⁻¹ * (e ⬝ᵥ (S⁻¹ *ᵥ e)) ≤ (2 * α)⁻¹ * ((2 * α)⁻¹ * (v ⬝ᵥ (C *ᵥ v))) := by
    have : 2 * ((2 * α)⁻¹ * (v ⬝ᵥ w)) = α⁻¹ * (v ⬝ᵥ w) := by field_simp
    linarith
  have hα2 : (0 : ℝ) < 4 * α ^ 2 := by positivity
  have := mul_le_mul_of_nonneg_left hq hα2.le
  have r1 : 4 * α ^ 2 * (α⁻¹ * (e ⬝ᵥ (S⁻¹ *ᵥ e))) = e ⬝ᵥ (S⁻¹ *ᵥ e) * (4 * α) := by
    field_simp
  have r2 : 4 * α ^ 2 * ((2 * α)⁻¹ * ((2 * α)⁻¹ * (v ⬝ᵥ (C *ᵥ v)))) = v ⬝ᵥ (C *ᵥ v) := by
    field_simp; ring
  rw [r1, r2] at this
  exact this

/-- **C85**, the limit: as `alpha → ∞` the MAP points converge to the MUD point. -/
theorem C85_map_tendsto_mud (A : Matrix (Fin d) (Fin p) ℝ) (b y : Fin d → ℝ) (m : Fin p → ℝ)
    (S : Matrix (Fin p) (Fin p) ℝ) (hS : S.PosDef) (C : Matrix (Fin d) (Fin d) ℝ) (hC : C.PosDef)
    (hy : ∃ x₀, A *ᵥ x₀ + b = y) :
    ∃ (x : Fin p → ℝ) (u : ℝ → Fin p → ℝ), Returns (Api.solve "mud" A b y m S C 1) x ∧
      (∀ α : ℝ, 0 < α → Returns (Api.solve "map" A b y m S C α) (u α)) ∧ Tendsto u atTop (𝓝 x) := by
  obtain ⟨x, v, h1, h2⟩ := C85_map_near_mud A b y m S hS hy
  choose u hu using fun α : {α : ℝ // 0 < α} => h2 C hC α α.2
  refine ⟨x, fun α => if h : 0 < α then u ⟨α, h⟩ else 0, h1 C 1 one_pos, fun α hα => ?_, ?_⟩
  · have hα' : 0 < α := hα
    simp only [dif_pos hα']; exact (hu ⟨α, hα⟩).1
  obtain ⟨c, hc, hcq⟩ := qf_coercive hS
  rw [tendsto_iff_norm_sub_tendsto_zero]
  have hsq : Tendsto (fun α : ℝ => ‖(if h : 0 < α then u ⟨α, h⟩ else 0) - x‖ ^ 2) atTop (𝓝 0) := by
    refine squeeze_zero' (Eventually.of_forall fun n => sq_nonneg _)
      (g := fun α => (v ⬝ᵥ (C *ᵥ v) / (4 * c)) * α⁻¹) ?_ ?_
    · filter_upwards [eventually_gt_atTop 0] with α hα
      rw [dif_pos hα]
      have := (hcq (u ⟨α, hα⟩ - x)).trans (hu ⟨α, hα⟩).2
      rw [div_mul_eq_mul_div, ← div_eq_mul_inv, div_div, le_div_iff₀ (by positivity)]
      rw [le_div_iff₀ (by positivity)] at this
      nlinarith
    · simpa using tendsto_inv_atTop_zero.const_mul (v ⬝ᵥ (C *ᵥ v) / (4 * c))
  have := hsq.sqrt
  simpa [Real.sqrt_sq] using this

/-- **C85**, the other end: the MAP point is within `alpha` times the initial misfit of the initial
mean (for any data). -/
theorem C85_map_near_mean (A : Matrix (Fin d) (Fin p) ℝ) (b y : Fin d → ℝ) (m : Fin p → ℝ)
    (S : Matrix (Fin p) (Fin p) ℝ) (hS : S.PosDef) (C : Matrix (Fin d) (Fin d) ℝ) (hC : C.PosDef)
    (α : ℝ) (hα : 0 < α) :
    ∃ u, Returns (Api.solve "map" A b y m S C α) u ∧
      mahal S u m ≤ α * mahal C (A *ᵥ m + b) y := by
  obtain ⟨u, hu, hmin⟩ := C08_map_minimises A b y m S hS C hC α hα
  refine ⟨u, hu, ?_⟩
  have e : mahal (α • S) u m = α⁻¹ * mahal S u m := by
    unfold mahal; rw [inv_smul_pos hS hα, Matrix.smul_mulVec, dotProduct_smul, smul_eq_mul]
  have h1 := mahal_nonneg hC (A *ᵥ u + b) y
  by_cases h : m = u
  · rw [← h, mahal_self]
    exact mul_nonneg hα.le (mahal_nonneg hC _ _)
  · have := hmin m h
    rw [mahal_self, e] at this
    have h2 : α⁻¹ * mahal S u m ≤ mahal C (A *ᵥ m + b) y := by linarith
    have := mul_le_mul_of_nonneg_left h2 hα.le
    rwa [← mul_assoc, mul_inv_cancel₀ hα.ne', one_mul] at this

/-- Non-vacuity. -/
example : (!![1, -1/4; -1/4, 1/2] : Matrix (Fin 2) (Fin 2) ℝ).PosDef ∧
    (!![3] : Matrix (Fin 1) (Fin 1) ℝ).PosDef ∧
    ∃ x₀, (!![1, 1] : Matrix (Fin 1) (Fin 2) ℝ) *ᵥ x₀ + ![1] = ![3] :=
  ⟨posDef_fin_two (by norm_num) (by norm_num), posDef_fin_one (by norm_num),
   ![2, 0], by ext i; fin_cases i; simp; norm_num⟩

end Verif
