import Verif.Props.MeanSquare

/-!
# C168: more or better information

How the uncertainty of the MAP and MUD points depends on the data and on the initial distribution.
-/

open Matrix MeasureTheory ProbabilityTheory

namespace Verif

variable {d e p : ℕ}

/-! ### Specification -/

/-- After `solve("map")` on a new problem, the attribute `cov_p` is `V`. -/
def MapCov (A : Matrix (Fin d) (Fin p) ℝ) (b y : Fin d → ℝ) (m : Fin p → ℝ) (S : Matrix (Fin p) (Fin p) ℝ)
    (C : Matrix (Fin d) (Fin d) ℝ) (α : ℝ) (V : Matrix (Fin p) (Fin p) ℝ) : Prop :=
  ∃ P Q r, Api.new A b y m S C α = .ok P ∧ LGP.solve "map" none P = (.ok r, Q) ∧ Q.cov_p = some ⟨p, p, V⟩

/-- The `updated_cov` of a new problem is `U`. -/
def MudCov (A : Matrix (Fin d) (Fin p) ℝ) (b y : Fin d → ℝ) (m : Fin p → ℝ) (S : Matrix (Fin p) (Fin p) ℝ)
    (C : Matrix (Fin d) (Fin d) ℝ) (α : ℝ) (U : Matrix (Fin p) (Fin p) ℝ) : Prop :=
  ∃ P, Api.new A b y m S C α = .ok P ∧ P.updated_cov = .ok ⟨p, p, U⟩

/-- `V` is at most `V'`: every combination of the parameters has at most the variance. -/
def CovLe (V V' : Matrix (Fin p) (Fin p) ℝ) : Prop := ∀ w : Fin p → ℝ, w ⬝ᵥ (V *ᵥ w) ≤ w ⬝ᵥ (V' *ᵥ w)

/-! ### Gains -/

/-- The mean square error of the estimate with gain `K`. -/
def gainErr (A : Matrix (Fin d) (Fin p) ℝ) (S : Matrix (Fin p) (Fin p) ℝ) (C : Matrix (Fin d) (Fin d) ℝ)
    (K : Matrix (Fin p) (Fin d) ℝ) : Matrix (Fin p) (Fin p) ℝ :=
  K * C * Kᵀ + (1 - K * A) * S * (1 - K * A)ᵀ

theorem covLe_conj {V V' : Matrix (Fin d) (Fin d) ℝ} (h : CovLe V V') (B : Matrix (Fin p) (Fin d) ℝ) :
    CovLe (B * V * Bᵀ) (B * V' * Bᵀ) := fun w => by
  rw [← quad_conj, ← quad_conj]; exact h _

theorem covLe_add {V V' W W' : Matrix (Fin p) (Fin p) ℝ} (h : CovLe V V') (h' : CovLe W W') :
    CovLe (V + W) (V' + W') := fun w => by
  rw [add_mulVec, add_mulVec, dotProduct_add, dotProduct_add]; exact add_le_add (h w) (h' w)

theorem CovLe.trans {V V' V'' : Matrix (Fin p) (Fin p) ℝ} (h : CovLe V V') (h' : CovLe V' V'') : CovLe V V'' :=
  fun w => (h w).trans (h' w)

theorem CovLe.rfl {V : Matrix (Fin p) (Fin p) ℝ} : CovLe V V := fun _ => le_rfl

/-- No gain is better than that of the MAP point. -/
theorem map_le_gain (A : Matrix (Fin d) (Fin p) ℝ) {S : Matrix (Fin p) (Fin p) ℝ} {C : Matrix (Fin d) (Fin d) ℝ}
    (hS : S.PosDef) (hC : C.PosDef) (K : Matrix (Fin p) (Fin d) ℝ) : CovLe (mapH A S C)⁻¹ (gainErr A S C K) := by
  intro w
  have hG := posDef_isUnit_det (gain_posDef (A := A) hS hC)
  have hV : (mapH A S C)⁻¹ = S - S * Aᵀ * (A * S * Aᵀ + C)⁻¹ * (A * S) := map_woodbury hS hC
  have h := (best_of_uncorrelated A 0 0 hS.posSemidef hC.posSemidef (S * Aᵀ * (A * S * Aᵀ + C)⁻¹)
    (by rw [Matrix.mul_assoc, nonsing_inv_mul _ hG, Matrix.mul_one]) w).2
    (fun y => w ⬝ᵥ (0 + K *ᵥ (y - 0 - A *ᵥ 0))) (Continuous.measurable (by fun_prop)) ?_
  · rw [error_of_gain A 0 0 hS.posSemidef hC.posSemidef K w, ← hV] at h
    exact h
  · have hf : MemLp (fun x : (Fin p → ℝ) × (Fin d → ℝ) =>
        (-((1 - K * A)ᵀ *ᵥ w)) ⬝ᵥ x.1 + (Kᵀ *ᵥ w) ⬝ᵥ x.2 + ((1 - K * A)ᵀ *ᵥ w) ⬝ᵥ 0) 2
        (paramNoise 0 S C) := (memLp_lin 0 _ _).add (memLp_const _)
    refine hf.integrable_sq.congr (.of_forall fun x => ?_)
    exact congrArg (· ^ 2) (error_lin A 0 0 K w x).symm

/-- The MAP covariance is the error of its gain. -/
theorem map_eq_gain (A : Matrix (Fin d) (Fin p) ℝ) {S : Matrix (Fin p) (Fin p) ℝ} {C : Matrix (Fin d) (Fin d) ℝ}
    (hS : S.PosDef) (hC : C.PosDef) : CovLe (gainErr A S C (S * Aᵀ * (A * S * Aᵀ + C)⁻¹)) (mapH A S C)⁻¹ := by
  intro w
  have hG := posDef_isUnit_det (gain_posDef (A := A) hS hC)
  have hV : (mapH A S C)⁻¹ = S - S * Aᵀ * (A * S * Aᵀ + C)⁻¹ * (A * S) := map_woodbury hS hC
  have h := (best_of_uncorrelated A 0 0 hS.posSemidef hC.posSemidef (S * Aᵀ * (A * S * Aᵀ + C)⁻¹)
    (by rw [Matrix.mul_assoc, nonsing_inv_mul _ hG, Matrix.mul_one]) w).1
  rw [error_of_gain A 0 0 hS.posSemidef hC.posSemidef, ← hV] at h
  exact h.le

theorem gainErr_comp (A : Matrix (Fin d) (Fin p) ℝ) (S : Matrix (Fin p) (Fin p) ℝ) (C : Matrix (Fin d) (Fin d) ℝ)
    (R : Matrix (Fin e) (Fin d) ℝ) (K : Matrix (Fin p) (Fin e) ℝ) :
    gainErr (R * A) S (R * C * Rᵀ) K = gainErr A S C (K * R) := by
  simp only [gainErr, transpose_mul, Matrix.mul_assoc]

theorem gainErr_mono (A : Matrix (Fin d) (Fin p) ℝ) {S S' : Matrix (Fin p) (Fin p) ℝ} {C C' : Matrix (Fin d) (Fin d) ℝ}
    (hS : CovLe S S') (hC : CovLe C C') (K : Matrix (Fin p) (Fin d) ℝ) :
    CovLe (gainErr A S C K) (gainErr A S' C' K) :=
  covLe_add (covLe_conj hC K) (covLe_conj hS _)

theorem mapCov_run (A : Matrix (Fin d) (Fin p) ℝ) (b y : Fin d → ℝ) (m : Fin p → ℝ) {S : Matrix (Fin p) (Fin p) ℝ}
    {C : Matrix (Fin d) (Fin d) ℝ} {α : ℝ} (hS : (α • S).PosDef) (hC : C.PosDef) :
    MapCov A b y m S C α (mapH A (α • S) C)⁻¹ := by
  have hH : (mapH A (α • S) C).PosDef := map_posDef hS hC
  have hrun : LGP.solve "map" none (LGP.typed A b y m S C α) =
      (.ok (.arr (.col (m + ((mapH A (α • S) C)⁻¹ * Aᵀ * C⁻¹) *ᵥ (y - b - A *ᵥ m)))),
        { LGP.typed A b y m S C α with
          map := some (.col (m + ((mapH A (α • S) C)⁻¹ * Aᵀ * C⁻¹) *ᵥ (y - b - A *ᵥ m)))
          cov_p := some ⟨p, p, (mapH A (α • S) C)⁻¹⟩ }) := by
    rw [solve_map _ _ (locals_typed ..)]
    rw [mapBranch_typed _ _ _ _ _ m _ _ rfl,
      if_neg (by rw [not_or, not_or]; exact ⟨posDef_det_ne hC, posDef_det_ne hS, posDef_det_ne hH⟩)]
  exact ⟨_, _, _, new_typed .., hrun, rfl⟩

theorem mudCov_run (A : Matrix (Fin d) (Fin p) ℝ) (b y : Fin d → ℝ) (m : Fin p → ℝ) (S : Matrix (Fin p) (Fin p) ℝ)
    (C : Matrix (Fin d) (Fin d) ℝ) (α : ℝ) : MudCov A b y m S C α (upF A S C) :=
  ⟨_, new_typed .., by simp [LGP.updated_cov, LGP.typed, updatedCovBody_typed]⟩

/-! ### C168 -/

/-- **C168, MAP.** Two problems with the same parameters. The data `y'` of the second are the combinations `R y` of
the data of the first, or worse (its covariance `C'` is at least `R C Rᵀ`): some of the observations, averages, more
noise. Its initial covariance is the same or larger. Then every combination of the parameters has in the first
problem at most the posterior variance it has in the second. -/
theorem C168_map (A : Matrix (Fin d) (Fin p) ℝ) (b y : Fin d → ℝ) (m : Fin p → ℝ) {S : Matrix (Fin p) (Fin p) ℝ}
    {C : Matrix (Fin d) (Fin d) ℝ} {α : ℝ} (R : Matrix (Fin e) (Fin d) ℝ) (b' y' : Fin e → ℝ) (m' : Fin p → ℝ)
    {S' : Matrix (Fin p) (Fin p) ℝ} {C' : Matrix (Fin e) (Fin e) ℝ} {α' : ℝ}
    (hS : S.PosDef) (hα : 0 < α) (hC : C.PosDef) (hS' : S'.PosDef) (hα' : 0 < α') (hC' : C'.PosDef)
    (hle : CovLe (α • S) (α' • S')) (hR : CovLe (R * C * Rᵀ) C') :
    ∃ V V', MapCov A b y m S C α V ∧ MapCov (R * A) b' y' m' S' C' α' V' ∧ CovLe V V' := by
  have h1 : (α • S).PosDef := hS.smul hα
  have h2 : (α' • S').PosDef := hS'.smul hα'
  refine ⟨_, _, mapCov_run A b y m h1 hC, mapCov_run (R * A) b' y' m' h2 hC', ?_⟩
  refine (map_le_gain A h1 hC
    ((α' • S') * (R * A)ᵀ * ((R * A) * (α' • S') * (R * A)ᵀ + C')⁻¹ * R)).trans ?_
  rw [← gainErr_comp]
  exact (gainErr_mono _ hle hR _).trans (map_eq_gain (R * A) h2 hC')

/-- **C168, MUD.** Less noise in the data gives smaller updated covariances. -/
theorem C168_mud_partial (A : Matrix (Fin d) (Fin p) ℝ) (b y b' y' : Fin d → ℝ) (m m' : Fin p → ℝ)
    {S : Matrix (Fin p) (Fin p) ℝ} (hS : S.PosSemidef) {C C' : Matrix (Fin d) (Fin d) ℝ} (α α' : ℝ)
    (hle : CovLe C C') :
    ∃ U U', MudCov A b y m S C α U ∧ MudCov A b' y' m' S C' α' U' ∧ CovLe U U' := by
  refine ⟨_, _, mudCov_run A b y m S C α, mudCov_run A b' y' m' S C' α', ?_⟩
  rw [upF_eq A hS, upF_eq A hS]
  exact gainErr_mono A CovLe.rfl hle _

/-- The claim for MUD: leaving out observations does not give smaller updated covariances, at least when the
observations are more precise than the predictions. -/
def C168_mud_claim : Prop :=
  ∀ (d e p : ℕ) (A : Matrix (Fin d) (Fin p) ℝ) (b y : Fin d → ℝ) (m : Fin p → ℝ) (S : Matrix (Fin p) (Fin p) ℝ)
    (C : Matrix (Fin d) (Fin d) ℝ) (f : Fin e ↪ Fin d), S.PosDef → C.PosDef → CovLe C (A * S * Aᵀ) →
    ∀ U U', MudCov A b y m S C 1 U →
      MudCov (A.submatrix f id) (b ∘ f) (y ∘ f) m S (C.submatrix f f) 1 U' → CovLe U U'

/-- It fails: two observations with correlated errors. -/
theorem C168_mud_claim_refuted : ¬ C168_mud_claim := by
  intro h
  let C : Matrix (Fin 2) (Fin 2) ℝ := !![11/20, -9/20; -9/20, 11/20]
  let f : Fin 1 ↪ Fin 2 := ⟨fun _ => 0, fun i j _ => Subsingleton.elim i j⟩
  have hC : C.PosDef := posDef_fin_two (by norm_num) (by norm_num)
  have h := h 2 1 2 1 0 0 0 1 C f PosDef.one hC
    (fun w => by
      simp [C, dotProduct, mulVec, Fin.sum_univ_two, transpose_one]
      nlinarith [sq_nonneg (w 0 + w 1), sq_nonneg (w 0), sq_nonneg (w 1)])
    _ _ (mudCov_run ..) (mudCov_run ..) ![1, -1]
  have e1 : mpinv (1 : Matrix (Fin 2) (Fin 2) ℝ) = 1 := by
    rw [mpinv_of_isUnit_det (by simp), inv_one]
  have hA : (1 : Matrix (Fin 2) (Fin 2) ℝ).submatrix f id = !![1, 0] := by
    have hf : ∀ i, f i = 0 := fun _ => rfl
    ext i j; fin_cases i; fin_cases j <;> simp [hf, Matrix.one_apply]
  have hCf : C.submatrix f f = !![11/20] := by
    ext i j; fin_cases i; fin_cases j; rfl
  have e2 : (!![1, 0] : Matrix (Fin 1) (Fin 2) ℝ) * (1 : Matrix (Fin 2) (Fin 2) ℝ) * (!![1, 0] : Matrix (Fin 1) (Fin 2) ℝ)ᵀ = 1 := by
    ext i j; fin_cases i; fin_cases j; simp [Matrix.mul_apply, Fin.sum_univ_two]
  have e3 : mpinv (1 : Matrix (Fin 1) (Fin 1) ℝ) = 1 := by
    rw [mpinv_of_isUnit_det (by simp), inv_one]
  rw [upF, upF, hA, hCf, e2, e3, transpose_one, Matrix.mul_one, Matrix.mul_one, e1] at h
  simp [C, dotProduct, mulVec, Fin.sum_univ_two, Matrix.mul_apply, Matrix.one_apply] at h
  norm_num at h

/-- Non-vacuity of `C168_map`: the average of two observations, and a larger initial covariance. -/
example : ∃ V V', MapCov (!![1, 2; 0, 1] : Matrix (Fin 2) (Fin 2) ℝ) ![1, 0] ![0, 0] ![0, 1]
      !![1, -1/4; -1/4, 1/2] !![3, 0; 0, 1] 2 V ∧
    MapCov ((!![1/2, 1/2] : Matrix (Fin 1) (Fin 2) ℝ) * (!![1, 2; 0, 1] : Matrix (Fin 2) (Fin 2) ℝ)) ![1] ![2] ![0, 1]
      !![1, -1/4; -1/4, 1/2] !![1] 3 V' ∧ CovLe V V' := by
  have hS : (!![1, -1/4; -1/4, 1/2] : Matrix (Fin 2) (Fin 2) ℝ).PosDef := posDef_fin_two (by norm_num) (by norm_num)
  refine C168_map _ _ _ _ _ _ _ _ hS two_pos (posDef_fin_two (by norm_num) (by norm_num)) hS three_pos
    (posDef_fin_one (by norm_num)) (fun w => ?_) (fun w => ?_)
  · have h0 := hS.posSemidef.dotProduct_mulVec_nonneg w
    simp only [smul_mulVec, dotProduct_smul, star_trivial, smul_eq_mul] at h0 ⊢
    linarith
  · simp [dotProduct, mulVec, Matrix.mul_apply, Fin.sum_univ_two]
    nlinarith [sq_nonneg (w 0)]

/-- Non-vacuity of `C168_mud_partial`. -/
example : ∃ U U', MudCov (!![1, 2] : Matrix (Fin 1) (Fin 2) ℝ) ![1] ![0] ![0, 1] !![1, 0; 0, 1] !![1] 1 U ∧
    MudCov (!![1, 2] : Matrix (Fin 1) (Fin 2) ℝ) ![1] ![0] ![0, 1] !![1, 0; 0, 1] !![4] 1 U' ∧ CovLe U U' :=
  C168_mud_partial _ _ _ _ _ _ _ (posDef_fin_two (by norm_num) (by norm_num)).posSemidef _ _ fun w => by
    simp [dotProduct, mulVec]
    nlinarith [sq_nonneg (w 0)]

end Verif
