import Verif.Props.MoreInformation
import Verif.Lemmas.WhiteNoise

/-!
# C169: the reported uncertainties are calibrated

The parameters are drawn from the initial distribution and the data carry independent normal noise: what share of
the intervals "estimate plus or minus z standard deviations" contain the true value?
-/

open Matrix MeasureTheory ProbabilityTheory WithLp

namespace Verif

variable {d p : ℕ}

/-! ### Lemmas -/

/-- The Joseph form with an optimal gain. -/
theorem gainErr_opt {A : Matrix (Fin d) (Fin p) ℝ} {S : Matrix (Fin p) (Fin p) ℝ} {C : Matrix (Fin d) (Fin d) ℝ}
    {K : Matrix (Fin p) (Fin d) ℝ} (hK : K * (A * S * Aᵀ + C) = S * Aᵀ) :
    gainErr A S C K = S - K * (A * S) := by
  have h1 : K * (A * S * Aᵀ + C) * Kᵀ = S * Aᵀ * Kᵀ := by rw [hK]
  rw [Matrix.mul_add, Matrix.add_mul] at h1
  have h2 : K * C * Kᵀ = S * Aᵀ * Kᵀ - K * (A * S * Aᵀ) * Kᵀ := by rw [← h1]; abel
  rw [gainErr, h2, transpose_sub, transpose_one, transpose_mul, Matrix.sub_mul, Matrix.sub_mul, Matrix.mul_sub,
    Matrix.mul_sub, Matrix.one_mul, Matrix.mul_one, Matrix.mul_one]
  simp only [Matrix.mul_assoc]
  abel

/-- The error of the estimate with gain `K`. -/
theorem error_vec (A : Matrix (Fin d) (Fin p) ℝ) (b : Fin d → ℝ) (m : Fin p → ℝ) (K : Matrix (Fin p) (Fin d) ℝ)
    (x : (Fin p → ℝ) × (Fin d → ℝ)) :
    m + K *ᵥ (seen A b x - b - A *ᵥ m) - x.1 = (-(1 - K * A)) *ᵥ x.1 + K *ᵥ x.2 + (1 - K * A) *ᵥ m := by
  have e : seen A b x - b - A *ᵥ m = A *ᵥ x.1 + x.2 - A *ᵥ m := by rw [seen]; abel
  rw [e, neg_mulVec, sub_mulVec, sub_mulVec, one_mulVec, one_mulVec, mulVec_sub, mulVec_add, ← mulVec_mulVec,
    ← mulVec_mulVec]
  abel

theorem error_law (A : Matrix (Fin d) (Fin p) ℝ) (b : Fin d → ℝ) (m : Fin p → ℝ) {S : Matrix (Fin p) (Fin p) ℝ}
    {C : Matrix (Fin d) (Fin d) ℝ} (hS : S.PosSemidef) (hC : C.PosSemidef) (K : Matrix (Fin p) (Fin d) ℝ) :
    HasLaw (fun x => m + K *ᵥ (seen A b x - b - A *ᵥ m) - x.1) (normalLaw 0 (gainErr A S C K)) (paramNoise m S C) := by
  simp only [error_vec]
  refine ⟨(Continuous.measurable (by fun_prop)).aemeasurable, ?_⟩
  rw [paramNoise, normalLaw_affine m hS 0 hC]
  congr 1
  · rw [neg_mulVec, mulVec_zero]; abel
  · rw [gainErr, transpose_neg, Matrix.neg_mul, Matrix.neg_mul, Matrix.mul_neg, neg_neg, add_comm]

theorem gainErr_posSemidef (A : Matrix (Fin d) (Fin p) ℝ) {S : Matrix (Fin p) (Fin p) ℝ}
    {C : Matrix (Fin d) (Fin d) ℝ} (hS : S.PosSemidef) (hC : C.PosSemidef) (K : Matrix (Fin p) (Fin d) ℝ) :
    (gainErr A S C K).PosSemidef := (posSemidef_conj hC K).add (posSemidef_conj hS _)

/-- With an optimal gain the error is independent of the data. -/
theorem error_indep (A : Matrix (Fin d) (Fin p) ℝ) (b : Fin d → ℝ) (m : Fin p → ℝ) {S : Matrix (Fin p) (Fin p) ℝ}
    {C : Matrix (Fin d) (Fin d) ℝ} (hS : S.PosSemidef) (hC : C.PosSemidef) (K : Matrix (Fin p) (Fin d) ℝ)
    (hK : K * (A * S * Aᵀ + C) = S * Aᵀ) :
    IndepFun (fun x => m + K *ᵥ (seen A b x - b - A *ᵥ m) - x.1) (seen A b) (paramNoise m S C) := by
  have hSt := posSemidef_transpose hS
  have hCt := posSemidef_transpose hC
  have hg : HasGaussianLaw (fun x : (Fin p → ℝ) × (Fin d → ℝ) =>
      (fun i => ((-(1 - K * A)) *ᵥ x.1 + K *ᵥ x.2 : Fin p → ℝ) i, fun j => (A *ᵥ x.1 + x.2 : Fin d → ℝ) j)) (paramNoise m S C) := by
    let L : ((Fin p → ℝ) × (Fin d → ℝ)) →L[ℝ] ((Fin p → ℝ) × (Fin d → ℝ)) :=
      LinearMap.toContinuousLinearMap
        { toFun := fun x => ((-(1 - K * A)) *ᵥ x.1 + K *ᵥ x.2, A *ᵥ x.1 + x.2)
          map_add' := fun x y => by
            refine Prod.ext ?_ ?_
            · simp only [Prod.fst_add, Prod.snd_add, mulVec_add]; abel
            · simp only [Prod.fst_add, Prod.snd_add, mulVec_add]; abel
          map_smul' := fun c x => by
            refine Prod.ext ?_ ?_
            · simp only [Prod.smul_fst, Prod.smul_snd, mulVec_smul, smul_add, RingHom.id_apply]
            · simp only [Prod.smul_fst, Prod.smul_snd, mulVec_smul, smul_add, RingHom.id_apply] }
    exact (IsGaussian.hasGaussianLaw_id (μ := paramNoise m S C)).map L
  have hcross : A * S * (-(1 - K * A))ᵀ + C * Kᵀ = 0 := by
    have h := congrArg transpose hK
    rw [transpose_mul, transpose_add, transpose_mul, transpose_mul, transpose_transpose, hSt, hCt,
      transpose_mul, transpose_transpose, hSt, Matrix.add_mul] at h
    have h2 : C * Kᵀ = A * S - A * (S * Aᵀ) * Kᵀ := by rw [← h]; simp only [Matrix.mul_assoc]; abel
    rw [h2, transpose_neg, transpose_sub, transpose_one, transpose_mul, Matrix.mul_neg, Matrix.mul_sub, Matrix.mul_one]
    simp only [Matrix.mul_assoc]
    abel
  have h := hg.indepFun_of_covariance_eval
    (X := fun (i : Fin p) (x : (Fin p → ℝ) × (Fin d → ℝ)) => ((-(1 - K * A)) *ᵥ x.1 + K *ᵥ x.2 : Fin p → ℝ) i)
    (Y := fun j (x : (Fin p → ℝ) × (Fin d → ℝ)) => (A *ᵥ x.1 + x.2) j) fun i j => by
      have e1 : (fun x : (Fin p → ℝ) × (Fin d → ℝ) => (A *ᵥ x.1 + x.2) j) =
          fun x => A j ⬝ᵥ x.1 + Pi.single j 1 ⬝ᵥ x.2 := by
        funext x; simp [mulVec]
      have e2 : (fun x : (Fin p → ℝ) × (Fin d → ℝ) => ((-(1 - K * A)) *ᵥ x.1 + K *ᵥ x.2 : Fin p → ℝ) i) =
          fun x => (-(1 - K * A) : Matrix (Fin p) (Fin p) ℝ) i ⬝ᵥ x.1 + K i ⬝ᵥ x.2 := by
        funext x; rfl
      rw [e1, e2, covariance_comm, cov_lin m hS hC, single_one_dotProduct]
      have h := congrFun (congrFun hcross j) i
      rw [Matrix.add_apply, Matrix.mul_assoc] at h
      exact h
  refine (h.comp (φ := fun z => z + (1 - K * A) *ᵥ m) (ψ := fun z => z + b) (by fun_prop) (by fun_prop)).congr
    (.of_forall fun x => ?_) (.of_forall fun x => ?_)
  · dsimp only [Function.comp_apply]; rw [error_vec]
  · show A *ᵥ x.1 + x.2 + b = seen A b x
    rw [seen]; abel

/-- A centred normal variable divided by its standard deviation. -/
theorem standardised {Ω : Type} [MeasurableSpace Ω] {P : Measure Ω} {X : Ω → Fin p → ℝ} {V : Matrix (Fin p) (Fin p) ℝ}
    (hV : V.PosSemidef) (hX : HasLaw X (normalLaw 0 V) P) (w : Fin p → ℝ) (hw : 0 < w ⬝ᵥ (V *ᵥ w)) :
    HasLaw (fun ω => w ⬝ᵥ X ω / √(w ⬝ᵥ (V *ᵥ w))) (gaussianReal 0 1) P := by
  have h := hasLaw_dot hV hX ((√(w ⬝ᵥ (V *ᵥ w)))⁻¹ • w) 0
  have hs : √(w ⬝ᵥ (V *ᵥ w)) ≠ 0 := (Real.sqrt_pos.2 hw).ne'
  have e : (((√(w ⬝ᵥ (V *ᵥ w)))⁻¹ • w) ⬝ᵥ (V *ᵥ ((√(w ⬝ᵥ (V *ᵥ w)))⁻¹ • w))).toNNReal = 1 := by
    rw [mulVec_smul, smul_dotProduct, dotProduct_smul, smul_eq_mul, smul_eq_mul]
    have : (√(w ⬝ᵥ (V *ᵥ w)))⁻¹ * ((√(w ⬝ᵥ (V *ᵥ w)))⁻¹ * (w ⬝ᵥ (V *ᵥ w))) = 1 := by
      nth_rewrite 3 [← Real.mul_self_sqrt hw.le]
      field_simp
    rw [this, Real.toNNReal_one]
  rw [e, dotProduct_zero, zero_add] at h
  refine h.congr (.of_forall fun ω => ?_)
  dsimp only
  rw [smul_dotProduct, smul_eq_mul, add_zero, div_eq_inv_mul]

/-! ### C169 -/

section solutions
variable (A : Matrix (Fin d) (Fin p) ℝ) (b : Fin d → ℝ) (m : Fin p → ℝ) {S : Matrix (Fin p) (Fin p) ℝ}
  {C : Matrix (Fin d) (Fin d) ℝ}

/-- **C169, MAP.** The error of the MAP point is normal with mean zero and covariance `cov_p`, and independent of the
data. -/
theorem C169_map (hS : S.PosDef) (hC : C.PosDef) (α : ℝ) (hα : 0 < α) :
    ∃ (g : (Fin d → ℝ) → Fin p → ℝ) (V : Matrix (Fin p) (Fin p) ℝ),
      (∀ y, Returns (Api.solve "map" A b y m S C α) (g y) ∧ MapCov A b y m S C α V) ∧
      HasLaw (fun x => g (seen A b x) - x.1) (normalLaw 0 V) (paramNoise m (α • S) C) ∧
      IndepFun (fun x => g (seen A b x) - x.1) (seen A b) (paramNoise m (α • S) C) := by
  have hSα : (α • S).PosDef := hS.smul hα
  have hH : (mapH A (α • S) C).PosDef := map_posDef hSα hC
  have hG := posDef_isUnit_det (gain_posDef (A := A) hSα hC)
  have hV : (mapH A (α • S) C)⁻¹ = α • S - (α • S) * Aᵀ * (A * (α • S) * Aᵀ + C)⁻¹ * (A * (α • S)) :=
    map_woodbury hSα hC
  have hKm : (mapH A (α • S) C)⁻¹ * Aᵀ * C⁻¹ = (α • S) * Aᵀ * (A * (α • S) * Aᵀ + C)⁻¹ := map_gain hSα hC
  have hK : (mapH A (α • S) C)⁻¹ * Aᵀ * C⁻¹ * (A * (α • S) * Aᵀ + C) = (α • S) * Aᵀ := by
    rw [hKm, Matrix.mul_assoc, nonsing_inv_mul _ hG, Matrix.mul_one]
  refine ⟨fun y => m + ((mapH A (α • S) C)⁻¹ * Aᵀ * C⁻¹) *ᵥ (y - b - A *ᵥ m), (mapH A (α • S) C)⁻¹,
    fun y => ⟨api_map A b y m S C α (posDef_det_ne hC) (posDef_det_ne hSα) (posDef_det_ne hH),
      mapCov_run A b y m hSα hC⟩, ?_, error_indep A b m hSα.posSemidef hC.posSemidef _ hK⟩
  have h := error_law A b m hSα.posSemidef hC.posSemidef ((mapH A (α • S) C)⁻¹ * Aᵀ * C⁻¹)
  rw [gainErr_opt hK, hKm, ← hV] at h
  rw [hKm]
  exact h

/-- **C169, MUD.** The error of the MUD point is normal with mean zero and covariance `updated_cov`. -/
theorem C169_mud (hS : S.PosSemidef) (hC : C.PosSemidef) (α : ℝ) (hα : 0 < α) :
    ∃ (g : (Fin d → ℝ) → Fin p → ℝ) (U : Matrix (Fin p) (Fin p) ℝ),
      (∀ y, Returns (Api.solve "mud" A b y m S C α) (g y) ∧ MudCov A b y m S C α U) ∧
      HasLaw (fun x => g (seen A b x) - x.1) (normalLaw 0 U) (paramNoise m S C) := by
  refine ⟨fun y => mudF A (y - b - A *ᵥ m) m S, upF A S C,
    fun y => ⟨api_mud' A b y m S C α hα.ne', mudCov_run A b y m S C α⟩, ?_⟩
  rw [upF_eq A hS C]
  exact error_law A b m hS hC (gainF A S)

/-- **C169, intervals.** For every quantity `w · λ`, the interval of `z` reported standard deviations around the MAP
estimate contains the true value with the probability with which a standard normal variable is at most `z` in
modulus; also among those data that lie in any given set `B` of possible data. -/
theorem C169_intervals (hS : S.PosDef) (hC : C.PosDef) (α : ℝ) (hα : 0 < α) :
    ∃ (g : (Fin d → ℝ) → Fin p → ℝ) (V : Matrix (Fin p) (Fin p) ℝ),
      (∀ y, Returns (Api.solve "map" A b y m S C α) (g y) ∧ MapCov A b y m S C α V) ∧
      ∀ w : Fin p → ℝ, w ≠ 0 → ∀ z : ℝ, ∀ B : Set (Fin d → ℝ), MeasurableSet B →
        (paramNoise m (α • S) C) {x | |w ⬝ᵥ g (seen A b x) - w ⬝ᵥ x.1| ≤ z * √(w ⬝ᵥ (V *ᵥ w)) ∧ seen A b x ∈ B} =
          gaussianReal 0 1 {t | |t| ≤ z} * (paramNoise m (α • S) C) {x | seen A b x ∈ B} := by
  obtain ⟨g, V, h1, h2, h3⟩ := C169_map A b m hS hC α hα
  refine ⟨g, V, h1, fun w hw z B hB => ?_⟩
  have hVp : V.PosDef := by
    obtain ⟨P, Q, r, e1, e2, e3⟩ := (h1 0).2
    obtain ⟨P', Q', r', e1', e2', e3'⟩ := mapCov_run A b 0 m (hS.smul hα) hC
    rw [e1] at e1'
    obtain rfl := Except.ok.inj e1'
    rw [e2] at e2'
    obtain ⟨-, rfl⟩ := Prod.mk.inj e2'
    rw [e3] at e3'
    obtain rfl := eq_of_heq (Arr2.mk.inj (Option.some.inj e3')).2.2
    exact (map_posDef (A := A) (hS.smul hα) hC).inv
  have hv : 0 < w ⬝ᵥ (V *ᵥ w) := by simpa using hVp.dotProduct_mulVec_pos hw
  have hs := Real.sqrt_pos.2 hv
  have hl := standardised hVp.posSemidef h2 w hv
  have hi : IndepFun (fun x => w ⬝ᵥ (g (seen A b x) - x.1) / √(w ⬝ᵥ (V *ᵥ w))) (seen A b)
      (paramNoise m (α • S) C) :=
    h3.comp (φ := fun e => w ⬝ᵥ e / √(w ⬝ᵥ (V *ᵥ w))) (ψ := id)
      (Continuous.measurable (by fun_prop)) measurable_id
  have hT : MeasurableSet {t : ℝ | |t| ≤ z} := measurableSet_le (by fun_prop) measurable_const
  have key := hi.measure_inter_preimage_eq_mul _ _ hT hB
  rw [← hl.map_eq, Measure.map_apply_of_aemeasurable hl.aemeasurable hT]
  refine Eq.trans (congrArg _ ?_) key
  ext x
  rw [Set.mem_ofPred_eq, Set.mem_inter_iff, Set.mem_preimage, Set.mem_preimage, Set.mem_ofPred_eq, abs_div,
    abs_of_pos hs, div_le_iff₀ hs, dotProduct_sub]

/-- **C169, intervals of MUD.** The same for the MUD point and `updated_cov`, over all data. -/
theorem C169_mud_intervals (hS : S.PosSemidef) (hC : C.PosSemidef) (α : ℝ) (hα : 0 < α) :
    ∃ (g : (Fin d → ℝ) → Fin p → ℝ) (U : Matrix (Fin p) (Fin p) ℝ),
      (∀ y, Returns (Api.solve "mud" A b y m S C α) (g y) ∧ MudCov A b y m S C α U) ∧
      ∀ w : Fin p → ℝ, 0 < w ⬝ᵥ (U *ᵥ w) → ∀ z : ℝ,
        (paramNoise m S C) {x | |w ⬝ᵥ g (seen A b x) - w ⬝ᵥ x.1| ≤ z * √(w ⬝ᵥ (U *ᵥ w))} =
          gaussianReal 0 1 {t | |t| ≤ z} := by
  refine ⟨fun y => mudF A (y - b - A *ᵥ m) m S, upF A S C,
    fun y => ⟨api_mud' A b y m S C α hα.ne', mudCov_run A b y m S C α⟩, fun w hv z => ?_⟩
  have hl := error_law A b m hS hC (gainF A S)
  have hU := gainErr_posSemidef A hS hC (gainF A S)
  rw [gainErr, ← upF_eq A hS C] at hl hU
  have hs := Real.sqrt_pos.2 hv
  have hn := standardised hU hl w hv
  have hT : MeasurableSet {t : ℝ | |t| ≤ z} := measurableSet_le (by fun_prop) measurable_const
  rw [← hn.map_eq, Measure.map_apply_of_aemeasurable hn.aemeasurable hT]
  congr 1
  ext x
  rw [Set.mem_ofPred_eq, Set.mem_preimage, Set.mem_ofPred_eq, abs_div, abs_of_pos hs, div_le_iff₀ hs,
    dotProduct_sub]
  rfl

end solutions

/-- Non-vacuity: one observation of two correlated parameters, `α = 2`; an interval for the first parameter when the
observation is positive. -/
example : ∃ (g : (Fin 1 → ℝ) → Fin 2 → ℝ) (V : Matrix (Fin 2) (Fin 2) ℝ),
    (∀ y, Returns (Api.solve "map" !![1, 2] ![1] y ![0, 1] !![1, -1/4; -1/4, 1/2] !![3] 2) (g y)) ∧
    (paramNoise ![0, 1] ((2 : ℝ) • !![1, -1/4; -1/4, 1/2]) !![3])
      {x | |![1, 0] ⬝ᵥ g (seen !![1, 2] ![1] x) - ![1, 0] ⬝ᵥ x.1| ≤ 2 * √(![1, 0] ⬝ᵥ (V *ᵥ ![1, 0])) ∧
        seen !![1, 2] ![1] x ∈ {y : Fin 1 → ℝ | 0 < y 0}} =
      gaussianReal 0 1 {t | |t| ≤ 2} * (paramNoise ![0, 1] ((2 : ℝ) • !![1, -1/4; -1/4, 1/2]) !![3])
        {x | seen !![1, 2] ![1] x ∈ {y : Fin 1 → ℝ | 0 < y 0}} := by
  obtain ⟨g, V, h, h'⟩ := C169_intervals (!![1, 2] : Matrix (Fin 1) (Fin 2) ℝ) ![1] ![0, 1]
    (S := !![1, -1/4; -1/4, 1/2]) (C := !![3]) (posDef_fin_two (by norm_num) (by norm_num))
    (posDef_fin_one (by norm_num)) 2 two_pos
  exact ⟨g, V, fun y => (h y).1, h' ![1, 0] (fun h => by simpa using congrFun h 0) 2 _
    (measurableSet_lt measurable_const (measurable_pi_apply 0))⟩

/-- Non-vacuity of `C169_mud_intervals`: the updated variance of the observed quantity is that of the data. -/
example : (0 : ℝ) < ![1, 0] ⬝ᵥ (upF (!![1, 0] : Matrix (Fin 1) (Fin 2) ℝ) 1 !![3] *ᵥ ![1, 0]) := by
  have e : (!![1, 0] : Matrix (Fin 1) (Fin 2) ℝ) * (1 : Matrix (Fin 2) (Fin 2) ℝ) *
      (!![1, 0] : Matrix (Fin 1) (Fin 2) ℝ)ᵀ = 1 := by
    ext i j; fin_cases i; fin_cases j; simp [Matrix.mul_apply, Fin.sum_univ_two]
  rw [upF, e, mpinv_of_isUnit_det (by simp), inv_one]
  simp [dotProduct, mulVec, Fin.sum_univ_two, Matrix.mul_apply, Matrix.one_apply]

end Verif
