import Verif.Props.Calibrated

/-!
# C172: credible regions and the size of the misfit

`chiSq n` is the chi-squared distribution with `n` degrees of freedom.
-/

open Matrix MeasureTheory ProbabilityTheory WithLp

namespace Verif

variable {d p n : ℕ}

/-- The distribution of the sum of the squares of `n` independent standard normal variables. -/
noncomputable def chiSq (n : ℕ) : Measure ℝ :=
  (Measure.pi fun _ : Fin n => gaussianReal 0 1).map fun z => ∑ i, z i ^ 2

/-! ### Lemmas -/

theorem normalLaw_pi (n : ℕ) :
    normalLaw 0 (1 : Matrix (Fin n) (Fin n) ℝ) = Measure.pi fun _ : Fin n => gaussianReal 0 1 := by
  have hi : iIndepFun (fun (k : Fin n) (z : Fin n → ℝ) => z k) (Measure.pi fun _ : Fin n => gaussianReal 0 1) :=
    iIndepFun_pi (μ := fun _ : Fin n => gaussianReal 0 1) (X := fun _ => id) fun _ => aemeasurable_id
  have h := hasLaw_std hi fun k => ⟨(measurable_pi_apply k).aemeasurable,
    (measurePreserving_eval (fun _ : Fin n => gaussianReal 0 1) k).map_eq⟩
  rw [← h.map_eq]
  exact (Measure.map_id ..)

/-- The normalised square of a normal vector has the chi-squared distribution. -/
theorem chiSq_of_law {Ω : Type} [MeasurableSpace Ω] {P : Measure Ω} {X : Ω → Fin n → ℝ} {V : Matrix (Fin n) (Fin n) ℝ}
    (hV : V.PosDef) (hX : HasLaw X (normalLaw 0 V) P) :
    HasLaw (fun ω => X ω ⬝ᵥ (V⁻¹ *ᵥ X ω)) (chiSq n) P := by
  obtain ⟨B, hB, rfl⟩ := exists_root hV
  have hBt : IsUnit Bᵀ.det := by rwa [det_transpose]
  have h1 : (normalLaw 0 (B * Bᵀ)).map (fun x => B⁻¹ *ᵥ x + 0) = normalLaw 0 (1 : Matrix (Fin n) (Fin n) ℝ) := by
    rw [normalLaw_map 0 hV.posSemidef]
    congr 1
    · simp
    · rw [← Matrix.mul_assoc, nonsing_inv_mul _ hB, Matrix.one_mul, transpose_nonsing_inv, mul_nonsing_inv _ hBt]
  have hq : ∀ x : Fin n → ℝ, x ⬝ᵥ ((B * Bᵀ)⁻¹ *ᵥ x) = ∑ i, (B⁻¹ *ᵥ x + 0) i ^ 2 := by
    intro x
    rw [Matrix.mul_inv_rev, ← transpose_nonsing_inv, ← mulVec_mulVec, dot_mulVec_transpose, transpose_transpose, add_zero]
    simp [dotProduct, sq]
  have hm : Measurable fun z : Fin n → ℝ => ∑ i, z i ^ 2 := by fun_prop
  have hl : Measurable fun x : Fin n → ℝ => B⁻¹ *ᵥ x + 0 := (measurable_mulVec _).add_const _
  simp only [hq]
  refine ⟨(hm.comp hl).comp_aemeasurable hX.aemeasurable, ?_⟩
  rw [show (fun ω => ∑ i, (B⁻¹ *ᵥ X ω + 0) i ^ 2) = ((fun z : Fin n → ℝ => ∑ i, z i ^ 2) ∘ fun x => B⁻¹ *ᵥ x + 0) ∘ X
    from rfl, ← AEMeasurable.map_map_of_aemeasurable (hm.comp hl).aemeasurable hX.aemeasurable, hX.map_eq,
    ← Measure.map_map hm hl, h1, normalLaw_pi]
  rfl

/-- The misfit of the data before the solution. -/
theorem residual_law (A : Matrix (Fin d) (Fin p) ℝ) (b : Fin d → ℝ) (m : Fin p → ℝ) {S : Matrix (Fin p) (Fin p) ℝ}
    {C : Matrix (Fin d) (Fin d) ℝ} (hS : S.PosSemidef) (hC : C.PosSemidef) :
    HasLaw (fun x => seen A b x - b - A *ᵥ m) (normalLaw 0 (A * S * Aᵀ + C)) (paramNoise m S C) := by
  have e : (fun x : (Fin p → ℝ) × (Fin d → ℝ) => seen A b x - b - A *ᵥ m) =
      fun x => A *ᵥ x.1 + (1 : Matrix (Fin d) (Fin d) ℝ) *ᵥ x.2 + -(A *ᵥ m) := by
    funext x
    rw [seen, one_mulVec]
    abel
  rw [e]
  refine ⟨(Continuous.measurable (by fun_prop)).aemeasurable, ?_⟩
  rw [paramNoise, normalLaw_affine m hS 0 hC]
  congr 1
  · rw [mulVec_zero]; abel
  · rw [Matrix.one_mul, transpose_one, Matrix.mul_one]

theorem upF_posDef (A : Matrix (Fin d) (Fin p) ℝ) {S : Matrix (Fin p) (Fin p) ℝ} {C : Matrix (Fin d) (Fin d) ℝ}
    (hS : S.PosDef) (hC : C.PosDef) : (upF A S C).PosDef := by
  have h0 := gainErr_posSemidef A hS.posSemidef hC.posSemidef (gainF A S)
  rw [gainErr, ← upF_eq A hS.posSemidef C] at h0
  refine Matrix.PosDef.of_dotProduct_mulVec_pos h0.isHermitian fun {v} hv => ?_
  have e : star v ⬝ᵥ (upF A S C *ᵥ v) = ((gainF A S)ᵀ *ᵥ v) ⬝ᵥ (C *ᵥ ((gainF A S)ᵀ *ᵥ v)) +
      ((1 - gainF A S * A)ᵀ *ᵥ v) ⬝ᵥ (S *ᵥ ((1 - gainF A S * A)ᵀ *ᵥ v)) := by
    rw [upF_eq A hS.posSemidef C, add_mulVec, dotProduct_add, star_trivial, quad_conj, quad_conj]
  rw [e]
  by_cases hk : (gainF A S)ᵀ *ᵥ v = 0
  · have h1 : (1 - gainF A S * A)ᵀ *ᵥ v = v := by
      rw [transpose_sub, transpose_one, transpose_mul, sub_mulVec, one_mulVec, ← mulVec_mulVec, hk, mulVec_zero,
        sub_zero]
    rw [hk, h1, mulVec_zero, dotProduct_zero, zero_add]
    exact quad_pos hS hv
  · have h1 := quad_pos hC hk
    have h2 := quad_nonneg hS.posSemidef ((1 - gainF A S * A)ᵀ *ᵥ v)
    linarith

theorem mapCov_eq {A : Matrix (Fin d) (Fin p) ℝ} {b y : Fin d → ℝ} {m : Fin p → ℝ} {S : Matrix (Fin p) (Fin p) ℝ}
    {C : Matrix (Fin d) (Fin d) ℝ} {α : ℝ} (hS : (α • S).PosDef) (hC : C.PosDef) {V : Matrix (Fin p) (Fin p) ℝ}
    (h : MapCov A b y m S C α V) : V = (mapH A (α • S) C)⁻¹ := by
  obtain ⟨P, Q, r, e1, e2, e3⟩ := h
  obtain ⟨P', Q', r', e1', e2', e3'⟩ := mapCov_run A b y m hS hC
  rw [e1] at e1'
  obtain rfl := Except.ok.inj e1'
  rw [e2] at e2'
  obtain ⟨-, rfl⟩ := Prod.mk.inj e2'
  rw [e3] at e3'
  exact eq_of_heq (Arr2.mk.inj (Option.some.inj e3')).2.2

/-! ### C172 -/

section solutions
variable (A : Matrix (Fin d) (Fin p) ℝ) (b : Fin d → ℝ) (m : Fin p → ℝ) {S : Matrix (Fin p) (Fin p) ℝ}
  {C : Matrix (Fin d) (Fin d) ℝ}

/-- **C172, MAP.** The ellipsoid of the parameters `λ` with `(λ - x)ᵀ cov_p⁻¹ (λ - x) ≤ t` around the MAP point `x`
contains the true parameters with the probability that a chi-squared variable with as many degrees of freedom as there
are parameters is at most `t`; also among those data that lie in any given set `B` of possible data. -/
theorem C172_map_region (hS : S.PosDef) (hC : C.PosDef) (α : ℝ) (hα : 0 < α) :
    ∃ (g : (Fin d → ℝ) → Fin p → ℝ) (V : Matrix (Fin p) (Fin p) ℝ),
      (∀ y, Returns (Api.solve "map" A b y m S C α) (g y) ∧ MapCov A b y m S C α V) ∧ V.PosDef ∧
      ∀ t : ℝ, ∀ B : Set (Fin d → ℝ), MeasurableSet B →
        (paramNoise m (α • S) C) {x | mahal V (g (seen A b x)) x.1 ≤ t ∧ seen A b x ∈ B} =
          chiSq p (Set.Iic t) * (paramNoise m (α • S) C) {x | seen A b x ∈ B} := by
  obtain ⟨g, V, h1, h2, h3⟩ := C169_map A b m hS hC α hα
  have hV : V.PosDef := by
    rw [mapCov_eq (hS.smul hα) hC (h1 0).2]
    exact (map_posDef (A := A) (hS.smul hα) hC).inv
  refine ⟨g, V, h1, hV, fun t B hB => ?_⟩
  have hl := chiSq_of_law hV h2
  have hi := h3.comp (φ := fun e => e ⬝ᵥ (V⁻¹ *ᵥ e)) (ψ := id) (Continuous.measurable (by fun_prop)) measurable_id
  have key := hi.measure_inter_preimage_eq_mul _ _ (measurableSet_Iic (a := t)) hB
  rw [← hl.map_eq, Measure.map_apply_of_aemeasurable hl.aemeasurable measurableSet_Iic]
  exact key

/-- **C172, MUD.** The same for the MUD point and `updated_cov`, over all data. -/
theorem C172_mud_region (hS : S.PosDef) (hC : C.PosDef) (α : ℝ) (hα : 0 < α) :
    ∃ (g : (Fin d → ℝ) → Fin p → ℝ) (U : Matrix (Fin p) (Fin p) ℝ),
      (∀ y, Returns (Api.solve "mud" A b y m S C α) (g y) ∧ MudCov A b y m S C α U) ∧ U.PosDef ∧
      ∀ t : ℝ, (paramNoise m S C) {x | mahal U (g (seen A b x)) x.1 ≤ t} = chiSq p (Set.Iic t) := by
  have hU := upF_posDef A hS hC
  refine ⟨fun y => mudF A (y - b - A *ᵥ m) m S, upF A S C,
    fun y => ⟨api_mud' A b y m S C α hα.ne', mudCov_run A b y m S C α⟩, hU, fun t => ?_⟩
  have hl := error_law A b m hS.posSemidef hC.posSemidef (gainF A S)
  rw [gainErr, ← upF_eq A hS.posSemidef C] at hl
  have h := chiSq_of_law hU hl
  rw [← h.map_eq, Measure.map_apply_of_aemeasurable h.aemeasurable measurableSet_Iic]
  rfl

/-- **C172, misfit.** The regularised misfit that the MAP point minimises, at its minimum, has the chi-squared
distribution with as many degrees of freedom as there are observations. -/
theorem C172_misfit (hS : S.PosDef) (hC : C.PosDef) (α : ℝ) (hα : 0 < α) :
    ∃ g : (Fin d → ℝ) → Fin p → ℝ,
      (∀ y, Returns (Api.solve "map" A b y m S C α) (g y)) ∧
      HasLaw (fun x => mahal C (A *ᵥ g (seen A b x) + b) (seen A b x) + mahal (α • S) (g (seen A b x)) m) (chiSq d)
        (paramNoise m (α • S) C) := by
  have hSα : (α • S).PosDef := hS.smul hα
  have hH : (mapH A (α • S) C).PosDef := map_posDef hSα hC
  have hGd := gain_posDef (A := A) hSα hC
  have hG := posDef_isUnit_det hGd
  have hKm : (mapH A (α • S) C)⁻¹ * Aᵀ * C⁻¹ = (α • S) * Aᵀ * (A * (α • S) * Aᵀ + C)⁻¹ := map_gain hSα hC
  refine ⟨fun y => m + ((mapH A (α • S) C)⁻¹ * Aᵀ * C⁻¹) *ᵥ (y - b - A *ᵥ m),
    fun y => api_map A b y m S C α (posDef_det_ne hC) (posDef_det_ne hSα) (posDef_det_ne hH), ?_⟩
  have hl := chiSq_of_law hGd (residual_law A b m hSα.posSemidef hC.posSemidef)
  refine hl.congr (.of_forall fun x => ?_)
  dsimp only
  generalize seen A b x = y
  rw [hKm]
  set T := α • S with hT
  set G := A * T * Aᵀ + C with hGe
  set r := y - b - A *ᵥ m with hr
  have hGt : (G⁻¹)ᵀ = G⁻¹ := inv_symm (posSemidef_transpose hGd.posSemidef)
  have hCt := posSemidef_transpose hC.posSemidef
  have hTt := posSemidef_transpose hSα.posSemidef
  have hAK : A * (T * Aᵀ * G⁻¹) - 1 = -(C * G⁻¹) := by
    have : A * (T * Aᵀ * G⁻¹) = (G - C) * G⁻¹ := by
      rw [hGe, add_sub_cancel_right]
      simp only [Matrix.mul_assoc]
    rw [this, Matrix.sub_mul, mul_nonsing_inv _ hG]
    abel
  have e1 : A *ᵥ (m + (T * Aᵀ * G⁻¹) *ᵥ r) + b - y = -((C * G⁻¹) *ᵥ r) := by
    have h1 : A *ᵥ (m + (T * Aᵀ * G⁻¹) *ᵥ r) + b - y = (A * (T * Aᵀ * G⁻¹)) *ᵥ r - (y - b - A *ᵥ m) := by
      rw [mulVec_add, mulVec_mulVec]
      abel
    rw [h1, ← hr, ← neg_mulVec, ← hAK, sub_mulVec, one_mulVec]
  have e2 : m + (T * Aᵀ * G⁻¹) *ᵥ r - m = (T * Aᵀ * G⁻¹) *ᵥ r := add_sub_cancel_left _ _
  rw [mahal, mahal, e1, e2, mulVec_neg, neg_dotProduct_neg]
  have f1 : ((C * G⁻¹) *ᵥ r) ⬝ᵥ (C⁻¹ *ᵥ ((C * G⁻¹) *ᵥ r)) = (G⁻¹ *ᵥ r) ⬝ᵥ (C *ᵥ (G⁻¹ *ᵥ r)) := by
    rw [mulVec_mulVec _ C⁻¹, ← Matrix.mul_assoc, nonsing_inv_mul _ (posDef_isUnit_det hC), Matrix.one_mul,
      ← mulVec_mulVec, dotProduct_comm]
  have f2 : ((T * Aᵀ * G⁻¹) *ᵥ r) ⬝ᵥ (T⁻¹ *ᵥ ((T * Aᵀ * G⁻¹) *ᵥ r)) =
      (G⁻¹ *ᵥ r) ⬝ᵥ ((A * T * Aᵀ) *ᵥ (G⁻¹ *ᵥ r)) := by
    rw [← mulVec_mulVec, ← mulVec_mulVec, ← mulVec_mulVec, ← mulVec_mulVec, mulVec_mulVec _ T⁻¹ T,
      nonsing_inv_mul _ (posDef_isUnit_det hSα), one_mulVec, dot_mulVec_transpose A (G⁻¹ *ᵥ r), dotProduct_comm]
  rw [f1, f2, ← dotProduct_add, ← add_mulVec, add_comm C, ← hGe, mulVec_mulVec, mul_nonsing_inv _ hG, one_mulVec,
    dotProduct_comm]

end solutions

/-- The chi-squared distribution is a probability distribution. -/
theorem chiSq_prob (n : ℕ) : IsProbabilityMeasure (chiSq n) :=
  Measure.isProbabilityMeasure_map (Measurable.aemeasurable (by fun_prop))

/-- Non-vacuity: one observation of two correlated parameters, `α = 2`; the region `t = 6` when the observation is
positive. -/
example : ∃ (g : (Fin 1 → ℝ) → Fin 2 → ℝ) (V : Matrix (Fin 2) (Fin 2) ℝ), V.PosDef ∧
    (∀ y, Returns (Api.solve "map" !![1, 2] ![1] y ![0, 1] !![1, -1/4; -1/4, 1/2] !![3] 2) (g y)) ∧
    (paramNoise ![0, 1] ((2 : ℝ) • !![1, -1/4; -1/4, 1/2]) !![3])
      {x | mahal V (g (seen !![1, 2] ![1] x)) x.1 ≤ 6 ∧ seen !![1, 2] ![1] x ∈ {y : Fin 1 → ℝ | 0 < y 0}} =
      chiSq 2 (Set.Iic 6) * (paramNoise ![0, 1] ((2 : ℝ) • !![1, -1/4; -1/4, 1/2]) !![3])
        {x | seen !![1, 2] ![1] x ∈ {y : Fin 1 → ℝ | 0 < y 0}} := by
  obtain ⟨g, V, h, hV, h'⟩ := C172_map_region (!![1, 2] : Matrix (Fin 1) (Fin 2) ℝ) ![1] ![0, 1]
    (S := !![1, -1/4; -1/4, 1/2]) (C := !![3]) (posDef_fin_two (by norm_num) (by norm_num))
    (posDef_fin_one (by norm_num)) 2 two_pos
  exact ⟨g, V, hV, fun y => (h y).1, h' 6 _ (measurableSet_lt measurable_const (measurable_pi_apply 0))⟩

/-- The same problem satisfies the hypotheses of the other two theorems. -/
example : (!![1, -1/4; -1/4, 1/2] : Matrix (Fin 2) (Fin 2) ℝ).PosDef ∧ (!![3] : Matrix (Fin 1) (Fin 1) ℝ).PosDef :=
  ⟨posDef_fin_two (by norm_num) (by norm_num), posDef_fin_one (by norm_num)⟩

end Verif
