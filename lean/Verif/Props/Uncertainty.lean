import Verif.Props.Unrelated

/-!
# C164: how the updates change the uncertainty

The variances of linear combinations `c · λ` of the parameters under the initial, the updated (MUD) and the
posterior (MAP) distribution.
-/

open Matrix MeasureTheory ProbabilityTheory WithLp

namespace Verif

variable {d p : ℕ}

theorem var_normalLaw (m : Fin p → ℝ) {S : Matrix (Fin p) (Fin p) ℝ} (hS : S.PosSemidef) (u : Fin p → ℝ) :
    Var[fun x => u ⬝ᵥ x; normalLaw m S] = u ⬝ᵥ (S *ᵥ u) := by
  rw [← covariance_self (by fun_prop)]
  exact cov_normalLaw m hS u u

/-- The variance of a combination of the outputs of the map. -/
theorem var_output (A : Matrix (Fin d) (Fin p) ℝ) (b : Fin d → ℝ) (m : Fin p → ℝ) {S : Matrix (Fin p) (Fin p) ℝ}
    (hS : S.PosSemidef) (w : Fin d → ℝ) :
    Var[fun l => w ⬝ᵥ (A *ᵥ l + b); normalLaw m S] = w ⬝ᵥ ((A * S * Aᵀ) *ᵥ w) := by
  have e : (fun l : Fin p → ℝ => w ⬝ᵥ (A *ᵥ l + b)) = fun l => (Aᵀ *ᵥ w) ⬝ᵥ l + w ⬝ᵥ b := by
    funext l
    rw [dotProduct_add, dotProduct_mulVec, mulVec_transpose]
  rw [e, variance_add_const (by fun_prop), var_normalLaw m hS, quad_conj]

section algebra
variable {A : Matrix (Fin d) (Fin p) ℝ} {S : Matrix (Fin p) (Fin p) ℝ} {C : Matrix (Fin d) (Fin d) ℝ}

/-- The change of the variance of `c · λ` by the MUD update. -/
theorem upF_quad (A : Matrix (Fin d) (Fin p) ℝ) (S : Matrix (Fin p) (Fin p) ℝ) (C : Matrix (Fin d) (Fin d) ℝ)
    (c : Fin p → ℝ) :
    c ⬝ᵥ (upF A S C *ᵥ c) - c ⬝ᵥ (S *ᵥ c) =
      ((gainF A S)ᵀ *ᵥ c) ⬝ᵥ (C *ᵥ ((gainF A S)ᵀ *ᵥ c)) -
        ((gainF A S)ᵀ *ᵥ c) ⬝ᵥ ((A * S * Aᵀ) *ᵥ ((gainF A S)ᵀ *ᵥ c)) := by
  rw [upF_gain, sub_mulVec, dotProduct_sub, ← quad_conj, sub_mulVec, dotProduct_sub]
  ring

/-- The difference between the MUD and the MAP covariance. -/
theorem upF_sub_map (hS : S.PosDef) (hC : C.PosDef) (hP : (A * S * Aᵀ).PosDef) :
    upF A S C - (mapH A S C)⁻¹ = gainF A S * (C * (A * S * Aᵀ + C)⁻¹ * C) * (gainF A S)ᵀ := by
  have hPu := posDef_isUnit_det hP
  have hG := posDef_isUnit_det (gain_posDef (A := A) hS hC)
  have hSt := posDef_symm hS
  have hPt := posDef_symm hP
  rw [upF_gain, mapH, map_woodbury hS hC]
  have hK : gainF A S = S * Aᵀ * (A * S * Aᵀ)⁻¹ := by rw [gainF, mpinv_of_isUnit_det (posDef_isUnit_det hP)]
  have hKt : (gainF A S)ᵀ = (A * S * Aᵀ)⁻¹ * (A * S) := by
    rw [hK, transpose_mul, inv_symm hPt, transpose_mul, transpose_transpose, hSt]
  rw [hKt, hK]
  generalize hPd : A * S * Aᵀ = P at hPu hG
  generalize hGd : P + C = G at hG
  have hCe : C = G - P := by rw [← hGd]; abel
  have key : P⁻¹ * (C * G⁻¹ * C) * P⁻¹ = G⁻¹ - P⁻¹ * (P - C) * P⁻¹ := by
    have e1 : C * G⁻¹ * C = G - P - P + P * G⁻¹ * P := by
      rw [hCe, Matrix.sub_mul, mul_nonsing_inv _ hG, Matrix.sub_mul, Matrix.one_mul, Matrix.mul_sub,
        Matrix.mul_assoc P G⁻¹ G, nonsing_inv_mul _ hG, Matrix.mul_one]
      abel
    have e2 : P - C = P + P - G := by rw [hCe]; abel
    have e3 : P⁻¹ * (P * G⁻¹ * P) * P⁻¹ = G⁻¹ := by
      rw [← Matrix.mul_assoc, ← Matrix.mul_assoc, nonsing_inv_mul _ hPu, Matrix.one_mul, Matrix.mul_assoc,
        mul_nonsing_inv _ hPu, Matrix.mul_one]
    rw [e1, e2, Matrix.mul_add, Matrix.add_mul, e3, Matrix.mul_sub, Matrix.mul_sub, Matrix.mul_sub, Matrix.mul_add]
    simp only [Matrix.sub_mul, Matrix.add_mul]
    abel
  calc S - S * Aᵀ * P⁻¹ * (P - C) * (P⁻¹ * (A * S)) - (S - S * Aᵀ * G⁻¹ * (A * S))
      = S * Aᵀ * (G⁻¹ - P⁻¹ * (P - C) * P⁻¹) * (A * S) := by
        rw [sub_sub_sub_cancel_left, Matrix.mul_sub (S * Aᵀ) G⁻¹, Matrix.sub_mul (S * Aᵀ * G⁻¹)]
        simp only [Matrix.mul_assoc]
    _ = S * Aᵀ * P⁻¹ * (C * G⁻¹ * C) * (P⁻¹ * (A * S)) := by
        rw [← key]; simp only [Matrix.mul_assoc]

/-- The difference between the covariance of the data and of the predictions of the posterior. -/
theorem data_sub_map (hS : S.PosDef) (hC : C.PosDef) :
    C - A * (mapH A S C)⁻¹ * Aᵀ = C * (A * S * Aᵀ + C)⁻¹ * C := by
  have hG := posDef_isUnit_det (gain_posDef (A := A) hS hC)
  rw [mapH, map_woodbury hS hC, Matrix.mul_sub, Matrix.sub_mul]
  have e : A * (S * Aᵀ * (A * S * Aᵀ + C)⁻¹ * (A * S)) * Aᵀ =
      (A * S * Aᵀ) * (A * S * Aᵀ + C)⁻¹ * (A * S * Aᵀ) := by simp only [Matrix.mul_assoc]
  rw [e]
  generalize A * S * Aᵀ = P at hG
  generalize hGd : P + C = G at hG
  have hPe : P = G - C := by rw [← hGd]; abel
  rw [hPe, Matrix.sub_mul, mul_nonsing_inv _ hG, Matrix.sub_mul, Matrix.one_mul, Matrix.mul_sub,
    Matrix.mul_assoc C G⁻¹ G, nonsing_inv_mul _ hG, Matrix.mul_one]
  abel

end algebra

section solutions
variable (A : Matrix (Fin d) (Fin p) ℝ) (b y : Fin d → ℝ) (m : Fin p → ℝ) {S : Matrix (Fin p) (Fin p) ℝ}
  {C : Matrix (Fin d) (Fin d) ℝ}

/-- **C164, MUD, one quantity.** The variance of a quantity `c · λ` changes as that of its best linear prediction
`w · q` from the outputs does, whose variance under the initial distribution is replaced by that of the data. -/
theorem C164_mud_quantity (hS : S.PosSemidef) (hC : C.PosSemidef) (α : ℝ) (hα : 0 < α) :
    ∃ (x : Fin p → ℝ) (U : Matrix (Fin p) (Fin p) ℝ), Returns (Api.solve "mud" A b y m S C α) x ∧
      funsUpdatedCov ⟨d, p, A⟩ (some ⟨p, p, S⟩) (some ⟨d, d, C⟩) = .ok ⟨p, p, U⟩ ∧
      (∃ P, Api.new A b y m S C α = .ok P ∧ P.updated_cov = .ok ⟨p, p, U⟩) ∧
      ∀ c : Fin p → ℝ, ∃ w : Fin d → ℝ,
        (∀ i, cov[fun l => (A *ᵥ l + b) i, fun l => c ⬝ᵥ l - w ⬝ᵥ (A *ᵥ l + b); normalLaw m S] = 0) ∧
        Var[fun l => c ⬝ᵥ l; normalLaw x U] - Var[fun l => c ⬝ᵥ l; normalLaw m S] =
          Var[fun q => w ⬝ᵥ q; normalLaw y C] - Var[fun l => w ⬝ᵥ (A *ᵥ l + b); normalLaw m S] := by
  have hU : (upF A S C).PosSemidef := upd_posSemidef hS hC
  refine ⟨_, upF A S C, api_mud' A b y m S C α hα.ne', by simp [funsUpdatedCov, updatedCovBody_typed],
    ⟨_, new_typed .., by simp [LGP.updated_cov, LGP.typed, updatedCovBody_typed]⟩,
    fun c => ⟨(gainF A S)ᵀ *ᵥ c, fun i => ?_, ?_⟩⟩
  · have hSt := posSemidef_transpose hS
    have h := (C163_uncorrelated A
      (Matrix.of fun (_ : Fin 1) => c - Aᵀ *ᵥ ((gainF A S)ᵀ *ᵥ c)) b m hS).1 ?_ i 0
    · have e : (fun l : Fin p → ℝ => c ⬝ᵥ l - ((gainF A S)ᵀ *ᵥ c) ⬝ᵥ (A *ᵥ l + b)) = fun l =>
          ((Matrix.of fun (_ : Fin 1) => c - Aᵀ *ᵥ ((gainF A S)ᵀ *ᵥ c)) *ᵥ l) 0 - ((gainF A S)ᵀ *ᵥ c) ⬝ᵥ b := by
        funext l
        have e1 : ((Matrix.of fun (_ : Fin 1) => c - Aᵀ *ᵥ ((gainF A S)ᵀ *ᵥ c)) *ᵥ l) 0 =
          (c - Aᵀ *ᵥ ((gainF A S)ᵀ *ᵥ c)) ⬝ᵥ l := rfl
        rw [e1, sub_dotProduct, dotProduct_add, dotProduct_mulVec _ A l, ← mulVec_transpose A]
        ring
      rw [e, covariance_sub_const_right]
      · exact h
      · have : Integrable (fun x : EuclideanSpace ℝ (Fin p) =>
            inner ℝ (toLp 2 (c - Aᵀ *ᵥ ((gainF A S)ᵀ *ᵥ c))) x) (multivariateGaussian (toLp 2 m) S) :=
          (IsGaussian.integrable_fun_id (μ := multivariateGaussian (toLp 2 m) S)).const_inner _
        rw [normalLaw, integrable_map_measure (by fun_prop) measurable_ofLp'.aemeasurable]
        refine this.congr (Filter.Eventually.of_forall fun x => ?_)
        simp [PiLp.inner_apply, dotProduct, mulVec, mul_comm]
    · have hPt : (A * S * Aᵀ)ᵀ = A * S * Aᵀ := posSemidef_transpose (posSemidef_conj hS A)
      have hK : gainF A S * (A * S * Aᵀ) = S * Aᵀ := proj_range' hS A
      have hKt : (A * S * Aᵀ) * (gainF A S)ᵀ = A * S := by
        have h := congrArg transpose hK
        rwa [transpose_mul, hPt, transpose_mul, transpose_transpose, hSt] at h
      ext i j
      have e2 : (A * S * (Matrix.of fun (_ : Fin 1) => c - Aᵀ *ᵥ ((gainF A S)ᵀ *ᵥ c))ᵀ) i j =
        ((A * S) *ᵥ (c - Aᵀ *ᵥ ((gainF A S)ᵀ *ᵥ c))) i := rfl
      rw [e2, mulVec_sub, mulVec_mulVec, mulVec_mulVec, hKt, sub_self]
      rfl
  · rw [var_normalLaw _ hU, var_normalLaw m hS, var_normalLaw y hC, var_output A b m hS]
    exact upF_quad A S C c

/-- **C164, MUD.** The update makes every quantity less uncertain (or no more) exactly when the data are no more
spread than the predictions, in every direction; more uncertain (or no less) exactly when they are no less spread;
and leaves all variances as they are exactly when data and predictions are spread alike. -/
theorem C164_mud (hA : FullRowRank A) (hS : S.PosDef) (hC : C.PosSemidef) (α : ℝ) (hα : 0 < α) :
    ∃ (x : Fin p → ℝ) (U : Matrix (Fin p) (Fin p) ℝ), Returns (Api.solve "mud" A b y m S C α) x ∧
      funsUpdatedCov ⟨d, p, A⟩ (some ⟨p, p, S⟩) (some ⟨d, d, C⟩) = .ok ⟨p, p, U⟩ ∧
      (∃ P, Api.new A b y m S C α = .ok P ∧ P.updated_cov = .ok ⟨p, p, U⟩) ∧
      ((∀ c : Fin p → ℝ, Var[fun l => c ⬝ᵥ l; normalLaw x U] ≤ Var[fun l => c ⬝ᵥ l; normalLaw m S]) ↔
        ∀ w : Fin d → ℝ, Var[fun q => w ⬝ᵥ q; normalLaw y C] ≤ Var[fun l => w ⬝ᵥ (A *ᵥ l + b); normalLaw m S]) ∧
      ((∀ c : Fin p → ℝ, Var[fun l => c ⬝ᵥ l; normalLaw m S] ≤ Var[fun l => c ⬝ᵥ l; normalLaw x U]) ↔
        ∀ w : Fin d → ℝ, Var[fun l => w ⬝ᵥ (A *ᵥ l + b); normalLaw m S] ≤ Var[fun q => w ⬝ᵥ q; normalLaw y C]) ∧
      (U = S ↔ A * S * Aᵀ = C) := by
  obtain ⟨x, U, h1, h2, h3, h4⟩ := C164_mud_quantity A b y m hS.posSemidef hC α hα
  have hP : (A * S * Aᵀ).det ≠ 0 := posDef_det_ne (posDef_conj hS A hA.inj)
  obtain ⟨U', hU1, -, hU2⟩ := C05_pushforward A S C hP (LGP.typed A b y m S C 1)
  obtain rfl : U' = U := by simpa using hU1.symm.trans h2
  obtain ⟨U'', hU'', hUp⟩ : ∃ U'' : Matrix (Fin p) (Fin p) ℝ,
      funsUpdatedCov ⟨d, p, A⟩ (some ⟨p, p, S⟩) (some ⟨d, d, C⟩) = .ok ⟨p, p, U''⟩ ∧ U''.PosSemidef :=
    ⟨upF A S C, by simp [funsUpdatedCov, updatedCovBody_typed], upd_posSemidef hS.posSemidef hC⟩
  obtain rfl : U'' = U' := by simpa using hU''.symm.trans h2
  have hw : ∀ w : Fin d → ℝ, Var[fun l => (Aᵀ *ᵥ w) ⬝ᵥ l; normalLaw x U''] = Var[fun q => w ⬝ᵥ q; normalLaw y C] ∧
      Var[fun l => (Aᵀ *ᵥ w) ⬝ᵥ l; normalLaw m S] = Var[fun l => w ⬝ᵥ (A *ᵥ l + b); normalLaw m S] := by
    intro w
    rw [var_normalLaw _ hUp, var_normalLaw _ hC, var_normalLaw _ hS.posSemidef, var_output _ _ _ hS.posSemidef,
      quad_conj, quad_conj, hU2]
    exact ⟨rfl, rfl⟩
  refine ⟨x, U'', h1, h2, h3, ⟨fun h w => ?_, fun h c => ?_⟩, ⟨fun h w => ?_, fun h c => ?_⟩, fun h => ?_, fun h => ?_⟩
  · have := h (Aᵀ *ᵥ w); rwa [(hw w).1, (hw w).2] at this
  · obtain ⟨w, -, e⟩ := h4 c; have := h w; linarith
  · have := h (Aᵀ *ᵥ w); rwa [(hw w).1, (hw w).2] at this
  · obtain ⟨w, -, e⟩ := h4 c; have := h w; linarith
  · rw [← hU2, h]
  · have hF : funsUpdatedCov ⟨d, p, A⟩ (some ⟨p, p, S⟩) (some ⟨d, d, C⟩) = .ok ⟨p, p, upF A S C⟩ := by
      simp [funsUpdatedCov, updatedCovBody_typed]
    have : U'' = upF A S C := by simpa using h2.symm.trans hF
    rw [this, upF_gain, h, sub_self, Matrix.mul_zero, Matrix.zero_mul, sub_zero]

/-- **C164, MAP and MUD.** The MAP variance of a quantity is smaller than its MUD variance, whatever the data
covariance, unless the quantity is uncorrelated with the outputs of the map (then both are the initial one). -/
theorem C164_map_below_mud (hA : FullRowRank A) (hS : S.PosDef) (hC : C.PosDef) (α : ℝ) (hα : 0 < α) :
    ∃ (x : Fin p → ℝ) (V U : Matrix (Fin p) (Fin p) ℝ) (x' : Fin p → ℝ) (P P' : LGP),
      Api.new A b y m S C α = .ok P ∧
      LGP.solve "map" none P = (.ok (.arr (Arr2.col x)), P') ∧ P'.cov_p = some ⟨p, p, V⟩ ∧
      Returns (Api.solve "mud" A b y m (α • S) C α) x' ∧
      P.updated_cov none (some ⟨p, p, α • S⟩) none = .ok ⟨p, p, U⟩ ∧
      ∀ c : Fin p → ℝ, (A *ᵥ (S *ᵥ c) = 0 →
          Var[fun l => c ⬝ᵥ l; normalLaw x V] = Var[fun l => c ⬝ᵥ l; normalLaw x' U]) ∧
        (A *ᵥ (S *ᵥ c) ≠ 0 → Var[fun l => c ⬝ᵥ l; normalLaw x V] < Var[fun l => c ⬝ᵥ l; normalLaw x' U]) := by
  have hSα : (α • S).PosDef := hS.smul hα
  have hH : (mapH A (α • S) C).PosDef := map_posDef hSα hC
  have hP : (A * (α • S) * Aᵀ).PosDef := posDef_conj hSα A hA.inj
  have hUp : (upF A (α • S) C).PosSemidef := upd_posSemidef hSα.posSemidef hC.posSemidef
  have hrun : LGP.solve "map" none (LGP.typed A b y m S C α) =
      (.ok (.arr (.col (m + ((mapH A (α • S) C)⁻¹ * Aᵀ * C⁻¹) *ᵥ (y - b - A *ᵥ m)))),
        { LGP.typed A b y m S C α with
          map := some (.col (m + ((mapH A (α • S) C)⁻¹ * Aᵀ * C⁻¹) *ᵥ (y - b - A *ᵥ m)))
          cov_p := some ⟨p, p, (mapH A (α • S) C)⁻¹⟩ }) := by
    rw [solve_map _ _ (locals_typed ..)]
    rw [mapBranch_typed _ _ _ _ _ m _ _ rfl,
      if_neg (by rw [not_or, not_or]; exact ⟨posDef_det_ne hC, posDef_det_ne hSα, posDef_det_ne hH⟩)]
  refine ⟨_, (mapH A (α • S) C)⁻¹, upF A (α • S) C, _, _, _, new_typed .., hrun, rfl,
    api_mud' A b y m (α • S) C α hα.ne', by simp [LGP.updated_cov, LGP.typed, updatedCovBody_typed], fun c => ?_⟩
  rw [var_normalLaw _ hH.inv.posSemidef, var_normalLaw _ hUp]
  have hd : c ⬝ᵥ (upF A (α • S) C *ᵥ c) - c ⬝ᵥ ((mapH A (α • S) C)⁻¹ *ᵥ c) =
      (C *ᵥ ((gainF A (α • S))ᵀ *ᵥ c)) ⬝ᵥ
        ((A * (α • S) * Aᵀ + C)⁻¹ *ᵥ (C *ᵥ ((gainF A (α • S))ᵀ *ᵥ c))) := by
    rw [← dotProduct_sub, ← sub_mulVec, upF_sub_map hSα hC hP, ← quad_conj]
    have hCt := posDef_symm hC
    conv_lhs => rw [show C * (A * (α • S) * Aᵀ + C)⁻¹ * C = C * (A * (α • S) * Aᵀ + C)⁻¹ * Cᵀ by rw [hCt], ← quad_conj,
      hCt]
  have hg : (gainF A (α • S))ᵀ *ᵥ c = α • ((A * (α • S) * Aᵀ)⁻¹ *ᵥ (A *ᵥ (S *ᵥ c))) := by
    rw [gainF, mpinv_of_isUnit_det (posDef_isUnit_det hP), transpose_mul, inv_symm (posDef_symm hP), transpose_mul,
      transpose_transpose, posDef_symm hSα, ← mulVec_mulVec, ← mulVec_mulVec, smul_mulVec, mulVec_smul, mulVec_smul]
  constructor
  · intro h0
    rw [hg, h0, mulVec_zero, smul_zero, mulVec_zero, mulVec_zero, dotProduct_zero] at hd
    linarith
  · intro h0
    have hne : C *ᵥ ((gainF A (α • S))ᵀ *ᵥ c) ≠ 0 := by
      rw [hg]
      intro h1
      apply h0
      have h2 := congrArg (C⁻¹ *ᵥ ·) h1
      simp only [mulVec_mulVec (v := α • _), nonsing_inv_mul _ (posDef_isUnit_det hC), one_mulVec, mulVec_zero] at h2
      have h3 := (smul_eq_zero.1 h2).resolve_left hα.ne'
      have h4 := congrArg ((A * (α • S) * Aᵀ) *ᵥ ·) h3
      simp only [mulVec_zero] at h4
      rwa [mulVec_mulVec, mul_nonsing_inv _ (posDef_isUnit_det hP), one_mulVec] at h4
    have := quad_pos (gain_posDef (A := A) hSα hC).inv hne
    linarith

/-- **C164, predictions of the posterior.** The predictions of the MAP distribution are less spread than the data,
in every direction and for every map (those of the updated distribution are spread as the data, C128). -/
theorem C164_map_predictions (hS : S.PosDef) (hC : C.PosDef) (α : ℝ) (hα : 0 < α) :
    ∃ (x : Fin p → ℝ) (V : Matrix (Fin p) (Fin p) ℝ) (P P' : LGP), Api.new A b y m S C α = .ok P ∧
      LGP.solve "map" none P = (.ok (.arr (Arr2.col x)), P') ∧ P'.cov_p = some ⟨p, p, V⟩ ∧
      ∀ w : Fin d → ℝ, w ≠ 0 →
        Var[fun l => w ⬝ᵥ (A *ᵥ l + b); normalLaw x V] < Var[fun q => w ⬝ᵥ q; normalLaw y C] := by
  have hSα : (α • S).PosDef := hS.smul hα
  have hH : (mapH A (α • S) C).PosDef := map_posDef hSα hC
  have hrun : LGP.solve "map" none (LGP.typed A b y m S C α) =
      (.ok (.arr (.col (m + ((mapH A (α • S) C)⁻¹ * Aᵀ * C⁻¹) *ᵥ (y - b - A *ᵥ m)))),
        { LGP.typed A b y m S C α with
          map := some (.col (m + ((mapH A (α • S) C)⁻¹ * Aᵀ * C⁻¹) *ᵥ (y - b - A *ᵥ m)))
          cov_p := some ⟨p, p, (mapH A (α • S) C)⁻¹⟩ }) := by
    rw [solve_map _ _ (locals_typed ..)]
    rw [mapBranch_typed _ _ _ _ _ m _ _ rfl,
      if_neg (by rw [not_or, not_or]; exact ⟨posDef_det_ne hC, posDef_det_ne hSα, posDef_det_ne hH⟩)]
  refine ⟨_, (mapH A (α • S) C)⁻¹, _, _, new_typed .., hrun, rfl, fun w hw => ?_⟩
  rw [var_output _ _ _ hH.inv.posSemidef, var_normalLaw _ hC.posSemidef]
  have hd : w ⬝ᵥ (C *ᵥ w) - w ⬝ᵥ ((A * (mapH A (α • S) C)⁻¹ * Aᵀ) *ᵥ w) =
      (C *ᵥ w) ⬝ᵥ ((A * (α • S) * Aᵀ + C)⁻¹ *ᵥ (C *ᵥ w)) := by
    rw [← dotProduct_sub, ← sub_mulVec, data_sub_map hSα hC]
    have hCt := posDef_symm hC
    conv_lhs => rw [show C * (A * (α • S) * Aᵀ + C)⁻¹ * C = C * (A * (α • S) * Aᵀ + C)⁻¹ * Cᵀ by rw [hCt], ← quad_conj,
      hCt]
  have hne : C *ᵥ w ≠ 0 := by
    intro h1
    apply hw
    have h2 := congrArg (C⁻¹ *ᵥ ·) h1
    simpa only [mulVec_mulVec, nonsing_inv_mul _ (posDef_isUnit_det hC), one_mulVec, mulVec_zero] using h2
  have := quad_pos (gain_posDef (A := A) hSα hC).inv hne
  linarith

end solutions

/-! ### Concrete cases -/

/-- A problem with two parameters and one output whose data are more spread than its predictions: the MUD update
makes quantities more uncertain. -/
example : FullRowRank (!![1, 2] : Matrix (Fin 1) (Fin 2) ℝ) ∧
    (!![1, -1/4; -1/4, 1/2] : Matrix (Fin 2) (Fin 2) ℝ).PosDef ∧ (!![3] : Matrix (Fin 1) (Fin 1) ℝ).PosDef ∧
    (!![1, 2] : Matrix (Fin 1) (Fin 2) ℝ) * (!![1, -1/4; -1/4, 1/2] : Matrix (Fin 2) (Fin 2) ℝ) *
      (!![1, 2] : Matrix (Fin 1) (Fin 2) ℝ)ᵀ = !![2] := by
  refine ⟨fun z => ⟨![z 0, 0], ?_⟩, posDef_fin_two (by norm_num) (by norm_num), posDef_fin_one (by norm_num), ?_⟩
  · funext i; fin_cases i; simp [mulVec, dotProduct, Fin.sum_univ_two]
  · ext i j; fin_cases i; fin_cases j; simp [mul_apply, Fin.sum_univ_two]; norm_num

end Verif
