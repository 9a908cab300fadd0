import Verif.Props.Batches
import Verif.Props.ObservationOrder
import Verif.Props.UpdatedLaw
import Verif.Props.Iterate

/-!
# C163: quantities unrelated to the data keep their initial distribution
-/

open Matrix MeasureTheory ProbabilityTheory WithLp

namespace Verif

variable {d p k : ℕ}

/-! ### What unrelated means -/

theorem cov_normalLaw (m : Fin p → ℝ) {S : Matrix (Fin p) (Fin p) ℝ} (hS : S.PosSemidef) (u v : Fin p → ℝ) :
    cov[fun x => u ⬝ᵥ x, fun x => v ⬝ᵥ x; normalLaw m S] = u ⬝ᵥ (S *ᵥ v) := by
  have h := covarianceBilin_multivariateGaussian (μ := toLp 2 m) hS (toLp 2 u) (toLp 2 v)
  rw [covarianceBilin_apply_eq_cov IsGaussian.memLp_two_id] at h
  have e : ∀ w : Fin p → ℝ, (fun x : EuclideanSpace ℝ (Fin p) => inner ℝ (toLp 2 w) x) =
      (fun x : Fin p → ℝ => w ⬝ᵥ x) ∘ ofLp := fun w => by
    funext x; simp [PiLp.inner_apply, dotProduct, mul_comm]
  rw [e, e] at h
  rw [normalLaw, covariance_map (by fun_prop) (by fun_prop) measurable_ofLp'.aemeasurable]
  exact h

/-- The condition `A S Bᵀ = 0` of the theorems below: parameters distributed as `N(m, S)`, each output of the
map `A` is uncorrelated with each of the quantities `B λ`. -/
theorem C163_uncorrelated (A : Matrix (Fin d) (Fin p) ℝ) (B : Matrix (Fin k) (Fin p) ℝ) (b : Fin d → ℝ)
    (m : Fin p → ℝ) {S : Matrix (Fin p) (Fin p) ℝ} (hS : S.PosSemidef) :
    A * S * Bᵀ = 0 ↔ ∀ i j, cov[fun l => (A *ᵥ l + b) i, fun l => (B *ᵥ l) j; normalLaw m S] = 0 := by
  have h : ∀ i j, cov[fun l => (A *ᵥ l + b) i, fun l => (B *ᵥ l) j; normalLaw m S] = (A * S * Bᵀ) i j := by
    intro i j
    have e : (fun l : Fin p → ℝ => (A *ᵥ l + b) i) = fun l => A i ⬝ᵥ l + b i := rfl
    rw [e, covariance_add_const_left]
    · refine (cov_normalLaw m hS (A i) (B j)).trans ?_
      rw [Matrix.mul_assoc]
      simp only [mul_apply, dotProduct, mulVec, transpose_apply]
    · have : Integrable (fun x : EuclideanSpace ℝ (Fin p) => inner ℝ (toLp 2 (A i)) x)
          (multivariateGaussian (toLp 2 m) S) :=
        (IsGaussian.integrable_fun_id (μ := multivariateGaussian (toLp 2 m) S)).const_inner _
      rw [normalLaw, integrable_map_measure (by fun_prop) measurable_ofLp'.aemeasurable]
      refine this.congr (Filter.Eventually.of_forall fun x => ?_)
      simp [PiLp.inner_apply, dotProduct, mul_comm]
  constructor
  · intro h0 i j; rw [h, h0]; rfl
  · intro h0; ext i j; rw [← h, h0]; rfl

/-! ### Algebra -/

section algebra
variable {A : Matrix (Fin d) (Fin p) ℝ} {B : Matrix (Fin k) (Fin p) ℝ} {S : Matrix (Fin p) (Fin p) ℝ}

theorem unrelated_symm (hS : Sᵀ = S) (h : A * S * Bᵀ = 0) : B * S * Aᵀ = 0 := by
  have h := congrArg transpose h
  rwa [transpose_mul, transpose_mul, transpose_transpose, hS, ← Matrix.mul_assoc, transpose_zero] at h

theorem unrelated_mudF (hS : Sᵀ = S) (h : A * S * Bᵀ = 0) (z : Fin d → ℝ) (m : Fin p → ℝ) :
    B *ᵥ mudF A z m S = B *ᵥ m := by
  rw [mudF, mulVec_add, mulVec_mulVec, ← Matrix.mul_assoc, ← Matrix.mul_assoc, unrelated_symm hS h,
    Matrix.zero_mul, zero_mulVec, add_zero]

theorem upF_symm (hS : Sᵀ = S) {C : Matrix (Fin d) (Fin d) ℝ} (hC : Cᵀ = C) : (upF A S C)ᵀ = upF A S C := by
  have hPt : (A * S * Aᵀ)ᵀ = A * S * Aᵀ := by
    simp only [transpose_mul, transpose_transpose, hS, Matrix.mul_assoc]
  rw [upF_gain, transpose_sub, transpose_mul, transpose_mul, transpose_transpose, transpose_sub, hPt, hC, hS,
    Matrix.mul_assoc (gainF A S)]

theorem unrelated_alt (hS : Sᵀ = S) (h : A * S * Bᵀ = 0) {C : Matrix (Fin d) (Fin d) ℝ} (hC : Cᵀ = C)
    (M : Matrix (Fin d) (Fin d) ℝ) (z : Fin d → ℝ) (m : Fin p → ℝ) :
    B *ᵥ (m + (upF A S C * Aᵀ * M) *ᵥ z) = B *ᵥ m := by
  have hU : B * upF A S C * Aᵀ = 0 := by
    have e := upF_mul_orth hS h C
    have e' := congrArg (A * ·) e
    simp only [← Matrix.mul_assoc] at e'
    rw [h] at e'
    exact unrelated_symm (upF_symm hS hC) e'
  rw [mulVec_add, mulVec_mulVec, ← Matrix.mul_assoc, ← Matrix.mul_assoc, hU, Matrix.zero_mul, zero_mulVec, add_zero]

theorem unrelated_mapH (hS : S.PosDef) {C : Matrix (Fin d) (Fin d) ℝ} (hC : C.PosDef) (h : A * S * Bᵀ = 0) :
    (mapH A S C)⁻¹ * Bᵀ = S * Bᵀ := by
  have hH : (mapH A S C).PosDef := map_posDef hS hC
  have e : mapH A S C * (S * Bᵀ) = Bᵀ := by
    rw [mapH, Matrix.add_mul, nonsing_inv_mul_cancel_left _ _ (posDef_isUnit_det hS), ← Matrix.mul_assoc,
      Matrix.mul_assoc _ A S, Matrix.mul_assoc _ (A * S) Bᵀ, h, Matrix.mul_zero, zero_add]
  conv_lhs => rw [← e]
  rw [nonsing_inv_mul_cancel_left _ _ (posDef_isUnit_det hH)]

theorem posDef_symm {n : ℕ} {M : Matrix (Fin n) (Fin n) ℝ} (h : M.PosDef) : Mᵀ = M :=
  posSemidef_transpose h.posSemidef

theorem unrelated_map (hS : S.PosDef) {C : Matrix (Fin d) (Fin d) ℝ} (hC : C.PosDef) (h : A * S * Bᵀ = 0)
    (M : Matrix (Fin d) (Fin d) ℝ) (z : Fin d → ℝ) (m : Fin p → ℝ) :
    B *ᵥ (m + ((mapH A S C)⁻¹ * Aᵀ * M) *ᵥ z) = B *ᵥ m := by
  have hH : (mapH A S C).PosDef := map_posDef hS hC
  have hU : B * (mapH A S C)⁻¹ * Aᵀ = 0 := by
    refine unrelated_symm (posDef_symm hH.inv) ?_
    rw [Matrix.mul_assoc, unrelated_mapH hS hC h, ← Matrix.mul_assoc, h]
  rw [mulVec_add, mulVec_mulVec, ← Matrix.mul_assoc, ← Matrix.mul_assoc, hU, Matrix.zero_mul, zero_mulVec, add_zero]

theorem unrelated_kstep (hS : Sᵀ = S) (h : A * S * Bᵀ = 0) (c : Fin d) (β : ℝ) (x : Fin p → ℝ) :
    B *ᵥ kstep S (A c) β x = B *ᵥ x := by
  have e : B *ᵥ (S *ᵥ A c) = 0 := by
    have h' := unrelated_symm hS h
    funext j
    rw [mulVec_mulVec]
    exact congrFun (congrFun h' j) c
  rw [kstep, mulVec_add, mulVec_smul, e, smul_zero, add_zero]

end algebra

/-! ### The solutions -/

section solutions
variable (A : Matrix (Fin d) (Fin p) ℝ) (b y : Fin d → ℝ) (m : Fin p → ℝ) {S : Matrix (Fin p) (Fin p) ℝ}
  {C : Matrix (Fin d) (Fin d) ℝ} (Q : Matrix (Fin k) (Fin p) ℝ)

theorem unrelated_law {x : Fin p → ℝ} {U : Matrix (Fin p) (Fin p) ℝ} (hS : S.PosSemidef) (hU : U.PosSemidef)
    (hx : Q *ᵥ x = Q *ᵥ m) (h : U * Qᵀ = S * Qᵀ) :
    (normalLaw x U).map (fun l => Q *ᵥ l) = (normalLaw m S).map fun l => Q *ᵥ l := by
  have h1 := normalLaw_map x hU Q 0
  have h2 := normalLaw_map m hS Q 0
  simp only [add_zero] at h1 h2
  rw [h1, h2, hx, Matrix.mul_assoc, h, Matrix.mul_assoc]

/-- **C163, MUD.** Quantities `Q λ` uncorrelated with the outputs of the map have at the MUD point the initial
value, whatever the data and the rank of the map; their covariances with all parameters under the updated
covariance are the initial ones, and their distribution is the initial one. -/
theorem C163_mud (hS : S.PosSemidef) (hC : C.PosSemidef) (α : ℝ) (hα : 0 < α) (h : A * S * Qᵀ = 0) :
    ∃ (x : Fin p → ℝ) (U : Matrix (Fin p) (Fin p) ℝ), Returns (Api.solve "mud" A b y m S C α) x ∧
      funsUpdatedCov ⟨d, p, A⟩ (some ⟨p, p, S⟩) (some ⟨d, d, C⟩) = .ok ⟨p, p, U⟩ ∧
      (∃ P, Api.new A b y m S C α = .ok P ∧ P.updated_cov = .ok ⟨p, p, U⟩) ∧
      Q *ᵥ x = Q *ᵥ m ∧ U * Qᵀ = S * Qᵀ ∧
      (normalLaw x U).map (fun l => Q *ᵥ l) = (normalLaw m S).map fun l => Q *ᵥ l := by
  have hSt := posSemidef_transpose hS
  have hx := unrelated_mudF hSt h (y - b - A *ᵥ m) m
  have hU := upF_mul_orth hSt h C
  exact ⟨_, upF A S C, api_mud' A b y m S C α hα.ne', by simp [funsUpdatedCov, updatedCovBody_typed],
    ⟨_, new_typed .., updated_cov_attrs ..⟩, hx, hU,
    unrelated_law m Q hS (upd_posSemidef hS hC) hx hU⟩

/-- The alternative MUD point likewise. -/
theorem C163_mud_alt (hS : Sᵀ = S) (hC : Cᵀ = C) (hCd : C.det ≠ 0) (α : ℝ) (h : A * S * Qᵀ = 0) :
    ∃ x : Fin p → ℝ, Returns (Api.solve "mud_alt" A b y m S C α) x ∧ Q *ᵥ x = Q *ᵥ m := by
  refine ⟨_, api_mud_alt A b y m S C α hCd, unrelated_alt ?_ ?_ hC _ _ _⟩
  · rw [transpose_smul, hS]
  · rw [Matrix.mul_smul, Matrix.smul_mul, h, smul_zero]

/-- **C163, MAP.** The MAP point and the covariance stored with it likewise (the initial covariance being
`alpha` times the one given). -/
theorem C163_map (hS : S.PosDef) (hC : C.PosDef) (α : ℝ) (hα : 0 < α) (h : A * S * Qᵀ = 0) :
    ∃ (x : Fin p → ℝ) (V : Matrix (Fin p) (Fin p) ℝ) (P P' : LGP), Api.new A b y m S C α = .ok P ∧
      LGP.solve "map" none P = (.ok (.arr (Arr2.col x)), P') ∧ P'.cov_p = some ⟨p, p, V⟩ ∧
      Q *ᵥ x = Q *ᵥ m ∧ V * Qᵀ = (α • S) * Qᵀ ∧
      (normalLaw x V).map (fun l => Q *ᵥ l) = (normalLaw m (α • S)).map fun l => Q *ᵥ l := by
  have hSα : (α • S).PosDef := hS.smul hα
  have hH : (mapH A (α • S) C).PosDef := map_posDef hSα hC
  have h' : A * (α • S) * Qᵀ = 0 := by rw [Matrix.mul_smul, Matrix.smul_mul, h, smul_zero]
  have hx := unrelated_map hSα hC h' C⁻¹ (y - b - A *ᵥ m) m
  have hV := unrelated_mapH hSα hC h'
  have hrun : LGP.solve "map" none (LGP.typed A b y m S C α) =
      (.ok (.arr (.col (m + ((mapH A (α • S) C)⁻¹ * Aᵀ * C⁻¹) *ᵥ (y - b - A *ᵥ m)))),
        { LGP.typed A b y m S C α with
          map := some (.col (m + ((mapH A (α • S) C)⁻¹ * Aᵀ * C⁻¹) *ᵥ (y - b - A *ᵥ m)))
          cov_p := some ⟨p, p, (mapH A (α • S) C)⁻¹⟩ }) := by
    rw [solve_map _ _ (locals_typed ..)]
    rw [mapBranch_typed _ _ _ _ _ m _ _ rfl,
      if_neg (by rw [not_or, not_or]; exact ⟨posDef_det_ne hC, posDef_det_ne hSα, posDef_det_ne hH⟩)]
  exact ⟨_, (mapH A (α • S) C)⁻¹, _, _, new_typed .., hrun, rfl, hx, hV,
    unrelated_law m Q hSα.posSemidef hH.inv.posSemidef hx hV⟩

/-- And only those: the MAP variance of a quantity `c · λ` is the initial one only if the quantity is
uncorrelated with the outputs of the map; of all others it is smaller. -/
theorem C163_map_only (hS : S.PosDef) (hC : C.PosDef) :
    ∃ (x : Fin p → ℝ) (V : Matrix (Fin p) (Fin p) ℝ),
      Api.mapCov (.mat ⟨d, p, A⟩) (.vec d b) (.vec d y) (.vec p m) ⟨p, p, S⟩ ⟨d, d, C⟩ =
        .ok (.vec p x, ⟨p, p, V⟩) ∧
      ∀ c : Fin p → ℝ, (A *ᵥ (S *ᵥ c) = 0 → c ⬝ᵥ (V *ᵥ c) = c ⬝ᵥ (S *ᵥ c)) ∧
        (A *ᵥ (S *ᵥ c) ≠ 0 → c ⬝ᵥ (V *ᵥ c) < c ⬝ᵥ (S *ᵥ c)) := by
  have hH : (mapH A S C).PosDef := map_posDef hS hC
  refine ⟨_, _, mapCov_typed A b y m hS hC, fun c => ?_⟩
  have hSu := posDef_isUnit_det hS
  have key : ∀ v, (mapH A S C *ᵥ v) ⬝ᵥ (S *ᵥ (mapH A S C *ᵥ v)) = v ⬝ᵥ (mapH A S C *ᵥ v) +
      ((A *ᵥ v) ⬝ᵥ (C⁻¹ *ᵥ (A *ᵥ v)) + (Aᵀ *ᵥ (C⁻¹ *ᵥ (A *ᵥ v))) ⬝ᵥ (S *ᵥ (Aᵀ *ᵥ (C⁻¹ *ᵥ (A *ᵥ v))))) := by
    intro v
    have e : mapH A S C *ᵥ v = Aᵀ *ᵥ (C⁻¹ *ᵥ (A *ᵥ v)) + S⁻¹ *ᵥ v := by
      rw [mapH, add_mulVec, ← mulVec_mulVec, ← mulVec_mulVec]
    have e1 : v ⬝ᵥ (Aᵀ *ᵥ (C⁻¹ *ᵥ (A *ᵥ v))) = (A *ᵥ v) ⬝ᵥ (C⁻¹ *ᵥ (A *ᵥ v)) := by
      rw [dotProduct_mulVec, vecMul_transpose]
    rw [e]
    generalize Aᵀ *ᵥ (C⁻¹ *ᵥ (A *ᵥ v)) = w at e1 ⊢
    have e2 : S *ᵥ (S⁻¹ *ᵥ v) = v := by rw [mulVec_mulVec, mul_nonsing_inv _ hSu, one_mulVec]
    have e3 : (S⁻¹ *ᵥ v) ⬝ᵥ (S *ᵥ w) = v ⬝ᵥ w := by
      rw [dotProduct_mulVec, vecMul_mulVec, posDef_symm hS.inv, nonsing_inv_mul _ hSu, vecMul_one]
    rw [mulVec_add, e2, add_dotProduct, dotProduct_add, dotProduct_add, e3, dotProduct_add, ← e1,
      dotProduct_comm w v, dotProduct_comm (S⁻¹ *ᵥ v) v]
    ring
  have hc : mapH A S C *ᵥ ((mapH A S C)⁻¹ *ᵥ c) = c := by
    rw [mulVec_mulVec, mul_nonsing_inv _ (posDef_isUnit_det hH), one_mulVec]
  have hk := key ((mapH A S C)⁻¹ *ᵥ c)
  rw [hc, dotProduct_comm ((mapH A S C)⁻¹ *ᵥ c) c] at hk
  have p2 := quad_nonneg hS.posSemidef (Aᵀ *ᵥ (C⁻¹ *ᵥ (A *ᵥ ((mapH A S C)⁻¹ *ᵥ c))))
  constructor
  · intro h0
    have e : (mapH A S C)⁻¹ *ᵥ c = S *ᵥ c := by
      have e' : mapH A S C *ᵥ (S *ᵥ c) = c := by
        rw [mapH, add_mulVec, ← mulVec_mulVec, h0, mulVec_zero, zero_add, mulVec_mulVec, nonsing_inv_mul _ hSu,
          one_mulVec]
      conv_lhs => rw [← e']
      rw [mulVec_mulVec, nonsing_inv_mul _ (posDef_isUnit_det hH), one_mulVec]
    rw [e]
  · intro h0
    have hne : A *ᵥ ((mapH A S C)⁻¹ *ᵥ c) ≠ 0 := by
      intro h1
      apply h0
      have : S *ᵥ c = (mapH A S C)⁻¹ *ᵥ c := by
        conv_lhs => rw [← hc]
        rw [mapH, add_mulVec, ← mulVec_mulVec]
        rw [show A *ᵥ ((Aᵀ * C⁻¹ * A + S⁻¹)⁻¹ *ᵥ c) = 0 from h1, mulVec_zero, zero_add, mulVec_mulVec,
          mul_nonsing_inv _ hSu, one_mulVec]
      rw [this, h1]
    have := quad_pos hC.inv hne
    linarith

/-- **C163, iteration.** All points of the chain returned by `iterate`, in whatever order the rows are visited. -/
theorem C163_iterate (hS : Sᵀ = S) {b y mean : NArr} {β η : Fin d → ℝ} (hb : IsVec b β) (hy : IsVec y η)
    {idx : Option (List ℤ)} {ks : List (Fin d)} (hi : Visits d idx ks) (hm : IsVec mean m) (n : ℤ)
    (h : A * S * Qᵀ = 0) :
    ∃ (chain : List NArr) (pts : List (Fin p → ℝ)),
      iterate ⟨d, p, A⟩ b y mean (some ⟨p, p, S⟩) n idx = .ok chain ∧ List.Forall₂ IsVec chain pts ∧
      ∀ x ∈ pts, Q *ᵥ x = Q *ᵥ m := by
  obtain ⟨chain, h1, h2⟩ := iterate_eval S A hb hy hi hm n
  refine ⟨chain, _, h1, h2, ?_⟩
  have hE : ∀ (ks : List (Fin d)) (x : Fin p → ℝ), Q *ᵥ x = Q *ᵥ m →
      ∀ v ∈ x :: epochPts S A (η - β) x ks, Q *ᵥ v = Q *ᵥ m := by
    intro ks
    induction ks with
    | nil => intro x hx v hv; rw [epochPts, List.mem_singleton] at hv; rw [hv, hx]
    | cons k ks ih =>
      intro x hx v hv
      rcases List.mem_cons.1 hv with rfl | hv
      · exact hx
      · exact ih _ ((unrelated_kstep hS h k _ x).trans hx) v hv
  have hL : ∀ x : Fin p → ℝ, Q *ᵥ x = Q *ᵥ m → Q *ᵥ epochEnd S A (η - β) ks x = Q *ᵥ m := by
    intro x hx
    refine hE ks x hx _ ?_
    rw [epochEnd, List.getLastD_eq_getLast?]
    cases hl : (epochPts S A (η - β) x ks).getLast? with
    | none => simp
    | some v => exact List.mem_cons_of_mem _ (List.mem_of_getLast? hl)
  have hI : ∀ (n : ℕ) (x : Fin p → ℝ), Q *ᵥ x = Q *ᵥ m → ∀ v ∈ iterPts S A (η - β) ks n x, Q *ᵥ v = Q *ᵥ m := by
    intro n
    induction n with
    | zero => intro x _ v hv; simp [iterPts] at hv
    | succ n ih =>
      intro x hx v hv
      rw [iterPts] at hv
      rcases List.mem_append.1 hv with hv | hv
      · exact hE ks x hx v hv
      · exact ih _ (hL x hx) v hv
  exact hI _ _ rfl

theorem mudCov_any (hCd : C.det ≠ 0) : Api.mudCov (.mat ⟨d, p, A⟩) (.vec d b) (.vec d y) (.vec p m) ⟨p, p, S⟩
    ⟨d, d, C⟩ = .ok (.vec p (m + (upF A S C * Aᵀ * C⁻¹) *ᵥ (y - b - A *ᵥ m)), ⟨p, p, upF A S C⟩) := by
  have hs : LGP.new (.mat ⟨d, p, A⟩) (some (.vec d b)) (some (.vec d y)) (some (.vec p m))
      (some ⟨p, p, S⟩) (some ⟨d, d, C⟩) none = .ok (LGP.typed A b y m S C 1) := new_typed ..
  rw [Api.mudCov, mudSolWithCov, linProb, hs, Py.ok_bind, LGP.solveArr, solve_mud_alt _ _ (locals_typed ..)]
  rw [mudAltBranch_typed _ _ _ _ _ m _ _ rfl, if_neg hCd]
  simp [ravelUnless2, ndimOpt, getAttr]

end solutions

/-- **C163, batches, MUD.** Batches one after the other: what is initially uncorrelated with all of them stays
as it is. -/
theorem C163_mud_batches (Q : Matrix (Fin k) (Fin p) ℝ) (Bs : List (Batch p))
    (hC : ∀ B ∈ Bs, B.Cᵀ = B.C ∧ B.C.det ≠ 0) : ∀ (m : Fin p → ℝ) (S : Matrix (Fin p) (Fin p) ℝ), Sᵀ = S →
    (∀ B ∈ Bs, B.A * S * Qᵀ = 0) →
    ∃ (x : Fin p → ℝ) (U : Matrix (Fin p) (Fin p) ℝ),
      useBatches Api.mudCov Bs (.vec p m) ⟨p, p, S⟩ = .ok (.vec p x, ⟨p, p, U⟩) ∧
      Q *ᵥ x = Q *ᵥ m ∧ U * Qᵀ = S * Qᵀ := by
  induction Bs with
  | nil => exact fun m S _ _ => ⟨m, S, rfl, rfl, rfl⟩
  | cons B Bs ih =>
    intro m S hS h
    obtain ⟨hBt, hBd⟩ := hC B (by simp)
    have hU := upF_mul_orth hS (h B (by simp)) B.C
    obtain ⟨x, U, h1, h2, h3⟩ := ih (fun B' h => hC B' (by simp [h]))
      (m + (upF B.A S B.C * B.Aᵀ * B.C⁻¹) *ᵥ (B.y - B.b - B.A *ᵥ m)) (upF B.A S B.C) (upF_symm hS hBt)
      (fun B' hB' => by rw [Matrix.mul_assoc, hU, ← Matrix.mul_assoc]; exact h B' (by simp [hB']))
    refine ⟨x, U, ?_, ?_, h3.trans hU⟩
    · rw [useBatches, mudCov_any _ _ _ _ hBd, Py.ok_bind]; exact h1
    · rw [h2, unrelated_alt hS (h B (by simp)) hBt]

/-- **C163, batches, MAP.** -/
theorem C163_map_batches (Q : Matrix (Fin k) (Fin p) ℝ) (Bs : List (Batch p))
    (hC : ∀ B ∈ Bs, B.C.PosDef) : ∀ (m : Fin p → ℝ) (S : Matrix (Fin p) (Fin p) ℝ), S.PosDef →
    (∀ B ∈ Bs, B.A * S * Qᵀ = 0) →
    ∃ (x : Fin p → ℝ) (V : Matrix (Fin p) (Fin p) ℝ),
      useBatches Api.mapCov Bs (.vec p m) ⟨p, p, S⟩ = .ok (.vec p x, ⟨p, p, V⟩) ∧
      Q *ᵥ x = Q *ᵥ m ∧ V * Qᵀ = S * Qᵀ := by
  induction Bs with
  | nil => exact fun m S _ _ => ⟨m, S, rfl, rfl, rfl⟩
  | cons B Bs ih =>
    intro m S hS h
    have hB := hC B (by simp)
    have hV := unrelated_mapH hS hB (h B (by simp))
    obtain ⟨x, V, h1, h2, h3⟩ := ih (fun B' h => hC B' (by simp [h]))
      (m + ((mapH B.A S B.C)⁻¹ * B.Aᵀ * B.C⁻¹) *ᵥ (B.y - B.b - B.A *ᵥ m)) (mapH B.A S B.C)⁻¹
      (map_posDef hS hB).inv
      (fun B' hB' => by rw [Matrix.mul_assoc, hV, ← Matrix.mul_assoc]; exact h B' (by simp [hB']))
    refine ⟨x, V, ?_, ?_, h3.trans hV⟩
    · rw [useBatches, mapCov_typed _ _ _ _ hS hB, Py.ok_bind]; exact h1
    · rw [h2, unrelated_map hS hB (h B (by simp))]

/-- A parameter that the map does not use and that is initially independent of the others is such a quantity. -/
theorem C163_unused_parameter (A : Matrix (Fin d) (Fin p) ℝ) (S : Matrix (Fin p) (Fin p) ℝ) (i : Fin p)
    (hA : ∀ r, A r i = 0) (hS : ∀ j, j ≠ i → S j i = 0) :
    A * S * (Matrix.of fun (_ : Fin 1) j => if j = i then (1 : ℝ) else 0)ᵀ = 0 := by
  ext r c
  rw [mul_apply]
  simp only [transpose_apply, of_apply, mul_ite, mul_one, mul_zero, Finset.sum_ite_eq', Finset.mem_univ, if_true,
    Matrix.zero_apply, mul_apply]
  refine Finset.sum_eq_zero fun j _ => ?_
  by_cases hj : j = i
  · rw [hj, hA, zero_mul]
  · rw [hS j hj, mul_zero]

/-! ### Concrete cases -/

/-- A correlated initial covariance, and a quantity that is not a parameter; it is uncorrelated with the output
although it depends on the parameter used by the map. -/
example : (!![2, 1; 1, 2] : Matrix (Fin 2) (Fin 2) ℝ).PosDef ∧ (!![3] : Matrix (Fin 1) (Fin 1) ℝ).PosDef ∧
    (!![1, 0] : Matrix (Fin 1) (Fin 2) ℝ) * (!![2, 1; 1, 2] : Matrix (Fin 2) (Fin 2) ℝ) * (!![1, -2] : Matrix (Fin 1) (Fin 2) ℝ)ᵀ = 0 := by
  refine ⟨posDef_fin_two (by norm_num) (by norm_num), posDef_fin_one (by norm_num), ?_⟩
  ext i j; fin_cases i; fin_cases j; simp [mul_apply, Fin.sum_univ_two]

end Verif
