import Verif.Spec
import Verif.Lemmas.LinearRun
import Verif.Lemmas.Small

/-!
# Properties C01–C10, C14: the linear Gaussian solvers
-/

open Matrix

namespace Verif

variable {d p : ℕ}

/-! ## Helpers -/

section helpers
variable (A : Matrix (Fin d) (Fin p) ℝ) (b y : Fin d → ℝ) (m : Fin p → ℝ)
  (S : Matrix (Fin p) (Fin p) ℝ) (C : Matrix (Fin d) (Fin d) ℝ) (α : ℝ)

theorem api_mud :
    Returns (Api.solve "mud" A b y m S C α) (mudF A (y - b - A *ᵥ m) m (α • S)) := by
  rw [Returns, Api.solve, new_typed, Py.ok_bind, solve_mud _ _ (locals_typed ..)]
  rw [mudBranch_typed _ _ _ _ _ m _ _ rfl]

theorem mudF_smul (z : Fin d → ℝ) (hα : α ≠ 0) : mudF A z m (α • S) = mudF A z m S := by
  unfold mudF
  have e : A * (α • S) * Aᵀ = α • (A * S * Aᵀ) := by rw [Matrix.mul_smul, Matrix.smul_mul]
  rw [e, mpinv_smul _ hα, Matrix.smul_mul, Matrix.smul_mul,
    Matrix.mul_smul, smul_smul, mul_inv_cancel₀ hα, one_smul]

theorem api_mud' (hα : α ≠ 0) :
    Returns (Api.solve "mud" A b y m S C α) (mudF A (y - b - A *ᵥ m) m S) := by
  rw [← mudF_smul A m S α _ hα]; exact api_mud ..

theorem api_mud_alt (hC : C.det ≠ 0) :
    Returns (Api.solve "mud_alt" A b y m S C α)
      (m + (upF A (α • S) C * Aᵀ * C⁻¹) *ᵥ (y - b - A *ᵥ m)) := by
  rw [Returns, Api.solve, new_typed, Py.ok_bind, solve_mud_alt _ _ (locals_typed ..)]
  rw [mudAltBranch_typed _ _ _ _ _ m _ _ rfl,
      if_neg hC]

theorem api_map (hC : C.det ≠ 0) (hS : (α • S).det ≠ 0) (hH : (mapH A (α • S) C).det ≠ 0) :
    Returns (Api.solve "map" A b y m S C α)
      (m + ((mapH A (α • S) C)⁻¹ * Aᵀ * C⁻¹) *ᵥ (y - b - A *ᵥ m)) := by
  rw [Returns, Api.solve, new_typed, Py.ok_bind, solve_map _ _ (locals_typed ..)]
  rw [mapBranch_typed _ _ _ _ _ m _ _ rfl,
      if_neg (by rw [not_or, not_or]; exact ⟨hC, hS, hH⟩)]

theorem api_ls :
    Returns (Api.solve "ls" A b y m S C α) (mpinv A *ᵥ (y - b)) := by
  rw [Returns, Api.solve, new_typed, Py.ok_bind, solve_ls _ _ (locals_typed ..)]
  rw [lsBranch_typed]

theorem returns_unique {r : Py SolveRes} {x x' : Fin p → ℝ} (h : Returns r x) (h' : Returns r x') :
    x = x' := by
  rw [Returns] at h h'
  rw [h] at h'
  injection h' with h'
  injection h' with h'
  exact Arr2.col_inj.1 h'

theorem sqDist_eq_dot {n : ℕ} (u v : Fin n → ℝ) : sqDist u v = (u - v) ⬝ᵥ (u - v) := by
  simp [sqDist, dotProduct, pow_two]

theorem FullRowRank.inj {A : Matrix (Fin d) (Fin p) ℝ} (h : FullRowRank A) (u : Fin d → ℝ)
    (hu : Aᵀ *ᵥ u = 0) : u = 0 := by
  obtain ⟨x, hx⟩ := h u
  have : u ⬝ᵥ u = 0 := by
    have h1 : u ⬝ᵥ (A *ᵥ x) = 0 := by rw [dot_mulVec_transpose, hu, zero_dotProduct]
    rwa [hx] at h1
  exact dotProduct_self_eq_zero.1 this

/-- The residual of the MUD point is the part of `z` outside the range of `P`. -/
theorem mudF_residual (z : Fin d → ℝ) :
    A *ᵥ mudF A z m S = A *ᵥ m + ((A * S * Aᵀ) * mpinv (A * S * Aᵀ)) *ᵥ z := by
  unfold mudF
  rw [mulVec_add, mulVec_mulVec]
  simp only [Matrix.mul_assoc]

theorem proj_fix {S : Matrix (Fin p) (Fin p) ℝ} (hS : S.PosSemidef) (w : Fin p → ℝ) :
    ((A * S * Aᵀ) * mpinv (A * S * Aᵀ)) *ᵥ (A *ᵥ (S *ᵥ w)) = A *ᵥ (S *ᵥ w) := by
  rw [mulVec_mulVec, mulVec_mulVec, mulVec_mulVec, Matrix.mul_assoc _ A S, proj_range hS A]

end helpers

/-! ## C01: the MUD point reproduces the data -/

/-- If the data can be reached by moving the initial mean in directions the initial
covariance allows, `solve('mud')` returns a point that reproduces them exactly. -/
theorem C01_mud_reproduces_data (A : Matrix (Fin d) (Fin p) ℝ) (b y : Fin d → ℝ) (m : Fin p → ℝ)
    (S : Matrix (Fin p) (Fin p) ℝ) (hS : S.PosSemidef) (C : Matrix (Fin d) (Fin d) ℝ) (α : ℝ)
    (hα : 0 < α) (hy : ∃ w, A *ᵥ (m + S *ᵥ w) + b = y) :
    ∃ x, Returns (Api.solve "mud" A b y m S C α) x ∧ A *ᵥ x + b = y := by
  refine ⟨_, api_mud' A b y m S C α hα.ne', ?_⟩
  obtain ⟨w, rfl⟩ := hy
  have hz : A *ᵥ (m + S *ᵥ w) + b - b - A *ᵥ m = A *ᵥ (S *ᵥ w) := by
    rw [mulVec_add]; abel
  rw [hz, mudF_residual, proj_fix A hS, mulVec_add]

/-- For a positive definite initial covariance every attainable datum is reproduced. -/
theorem C01_mud_reproduces_attainable (A : Matrix (Fin d) (Fin p) ℝ) (b y : Fin d → ℝ)
    (m : Fin p → ℝ) (S : Matrix (Fin p) (Fin p) ℝ) (hS : S.PosDef) (C : Matrix (Fin d) (Fin d) ℝ)
    (α : ℝ) (hα : 0 < α) (hy : ∃ x₀, A *ᵥ x₀ + b = y) :
    ∃ x, Returns (Api.solve "mud" A b y m S C α) x ∧ A *ᵥ x + b = y := by
  obtain ⟨x₀, h₀⟩ := hy
  refine C01_mud_reproduces_data A b y m S hS.posSemidef C α hα ⟨S⁻¹ *ᵥ (x₀ - m), ?_⟩
  rw [mulVec_mulVec, mul_nonsing_inv _ (posDef_isUnit_det hS), one_mulVec]
  simpa using h₀

/-- With full row rank every datum is reproduced. -/
theorem C01_mud_reproduces_full_rank (A : Matrix (Fin d) (Fin p) ℝ) (hA : FullRowRank A)
    (b y : Fin d → ℝ) (m : Fin p → ℝ) (S : Matrix (Fin p) (Fin p) ℝ) (hS : S.PosDef)
    (C : Matrix (Fin d) (Fin d) ℝ) (α : ℝ) (hα : 0 < α) :
    ∃ x, Returns (Api.solve "mud" A b y m S C α) x ∧ A *ᵥ x + b = y := by
  obtain ⟨x₀, h₀⟩ := hA (y - b)
  exact C01_mud_reproduces_attainable A b y m S hS C α hα ⟨x₀, by rw [h₀]; abel⟩

/-- In general (no attainability) the prediction of the MUD point is the unique point of
the attainable set `{A (m + S w) + b}` closest to the data. -/
theorem C01_mud_closest (A : Matrix (Fin d) (Fin p) ℝ) (b y : Fin d → ℝ) (m : Fin p → ℝ)
    (S : Matrix (Fin p) (Fin p) ℝ) (hS : S.PosSemidef) (C : Matrix (Fin d) (Fin d) ℝ) (α : ℝ)
    (hα : 0 < α) :
    ∃ x, Returns (Api.solve "mud" A b y m S C α) x ∧ (∃ w, x = m + S *ᵥ w) ∧
      ∀ w, sqDist (A *ᵥ x + b) y ≤ sqDist (A *ᵥ (m + S *ᵥ w) + b) y ∧
        (sqDist (A *ᵥ (m + S *ᵥ w) + b) y ≤ sqDist (A *ᵥ x + b) y →
          A *ᵥ (m + S *ᵥ w) + b = A *ᵥ x + b) := by
  refine ⟨_, api_mud' A b y m S C α hα.ne',
    ⟨(Aᵀ * mpinv (A * S * Aᵀ)) *ᵥ (y - b - A *ᵥ m), ?_⟩, fun w => ?_⟩
  · rw [mudF, mulVec_mulVec]; simp only [Matrix.mul_assoc]
  set P := A * S * Aᵀ with hP
  set z := y - b - A *ᵥ m with hz
  set x := mudF A z m S with hx
  have hAx : A *ᵥ x = A *ᵥ m + (P * mpinv P) *ᵥ z := mudF_residual A m S z
  set ρ := A *ᵥ x + b - y with hρ
  have hρz : ρ = (P * mpinv P) *ᵥ z - z := by
    rw [hρ, hAx, hz]; abel
  -- difference of the two predictions lies in the range of `A S`
  have hdiff : ∃ v, A *ᵥ (m + S *ᵥ w) + b - (A *ᵥ x + b) = A *ᵥ (S *ᵥ v) := by
    refine ⟨w - (Aᵀ * mpinv P) *ᵥ z, ?_⟩
    have e : (P * mpinv P) *ᵥ z = A *ᵥ (S *ᵥ ((Aᵀ * mpinv P) *ᵥ z)) := by
      rw [mulVec_mulVec, mulVec_mulVec]
      congr 1
      rw [hP]; simp only [Matrix.mul_assoc]
    rw [hAx, mulVec_sub S, mulVec_sub A, mulVec_add, ← e]
    abel
  obtain ⟨v, hv⟩ := hdiff
  have horth : ρ ⬝ᵥ (A *ᵥ (S *ᵥ v)) = 0 := by
    have h1 := proj_fix A hS v
    rw [hρz, sub_dotProduct, ← h1]
    have hs : (P * mpinv P)ᵀ = P * mpinv P := (mpinv_spec P).symAB
    have hpp : (P * mpinv P) * (P * mpinv P) = P * mpinv P := by
      rw [← Matrix.mul_assoc, (mpinv_spec P).aba]
    rw [← hP, dot_mulVec_transpose (P * mpinv P) ((P * mpinv P) *ᵥ z), hs, mulVec_mulVec, hpp,
      dot_mulVec_transpose (P * mpinv P) z, hs, sub_self]
  have hsum : sqDist (A *ᵥ (m + S *ᵥ w) + b) y = sqDist (A *ᵥ x + b) y
      + (A *ᵥ (S *ᵥ v)) ⬝ᵥ (A *ᵥ (S *ᵥ v)) := by
    rw [sqDist_eq_dot, sqDist_eq_dot]
    have : A *ᵥ (m + S *ᵥ w) + b - y = ρ + A *ᵥ (S *ᵥ v) := by rw [← hv, hρ]; abel
    rw [this, add_dotProduct, dotProduct_add, dotProduct_add, horth,
      dotProduct_comm (A *ᵥ (S *ᵥ v)) ρ, horth]
    ring
  have hnn : 0 ≤ (A *ᵥ (S *ᵥ v)) ⬝ᵥ (A *ᵥ (S *ᵥ v)) := by
    rw [dotProduct]; exact Finset.sum_nonneg fun i _ => mul_self_nonneg _
  refine ⟨by linarith, fun hle => ?_⟩
  have h0 : (A *ᵥ (S *ᵥ v)) ⬝ᵥ (A *ᵥ (S *ᵥ v)) = 0 := by linarith
  have := dotProduct_self_eq_zero.1 h0
  rw [this] at hv
  exact sub_eq_zero.1 hv

/-- `mud_sol(A, b, y, mean, cov, data_cov)` returns the same point as a 1-D array. -/
theorem C01_mud_sol (A : Matrix (Fin d) (Fin p) ℝ) (b y : Fin d → ℝ) (m : Fin p → ℝ)
    (S : Matrix (Fin p) (Fin p) ℝ) (C : Matrix (Fin d) (Fin d) ℝ) (x : Fin p → ℝ) :
    mudSol (.mat ⟨d, p, A⟩) (some (.vec d b)) (some (.vec d y)) (some (.vec p m))
        (some ⟨p, p, S⟩) (some ⟨d, d, C⟩) = .ok (.vec p x)
      ↔ Returns (Api.solve "mud" A b y m S C 1) x := by
  have h := api_mud A b y m S C 1
  have hs : LGP.new (.mat ⟨d, p, A⟩) (some (.vec d b)) (some (.vec d y)) (some (.vec p m))
      (some ⟨p, p, S⟩) (some ⟨d, d, C⟩) none = .ok (LGP.typed A b y m S C 1) := new_typed ..
  have hsol : (LGP.solve "mud" none (LGP.typed A b y m S C 1)).1 =
      .ok (.arr (.col (mudF A (y - b - A *ᵥ m) m ((1 : ℝ) • S)))) := by
    rw [Returns, Api.solve, new_typed] at h; exact h
  have hval : mudSol (.mat ⟨d, p, A⟩) (some (.vec d b)) (some (.vec d y)) (some (.vec p m))
        (some ⟨p, p, S⟩) (some ⟨d, d, C⟩) = .ok (.vec p (mudF A (y - b - A *ᵥ m) m ((1 : ℝ) • S))) := by
    rw [mudSol, linProb, hs, Py.ok_bind, LGP.solveArr]
    rcases hr : LGP.solve "mud" none (LGP.typed A b y m S C 1) with ⟨r, Q⟩
    rw [hr] at hsol
    simp only at hsol
    subst hsol
    simp [ravelUnless2, ndimOpt]
  rw [hval]
  constructor
  · intro hx
    injection hx with hx; injection hx with _ hx
    subst hx; exact h
  · intro hx; rw [returns_unique h hx]

/-- Non-vacuity of C01: a rank-deficient system with a singular covariance whose data are
attainable. -/
example : ∃ w, (!![1, 1; 2, 2] : Matrix (Fin 2) (Fin 2) ℝ) *ᵥ
    (![1, 0] + (!![1, 0; 0, 0] : Matrix (Fin 2) (Fin 2) ℝ) *ᵥ w) + ![0, 1] = ![3, 7] :=
  ⟨![2, 5], by ext i; fin_cases i <;> simp [vecHead, vecTail] <;> norm_num⟩

example : (!![1, 0; 0, 0] : Matrix (Fin 2) (Fin 2) ℝ).PosSemidef := by
  have : (!![1, 0; 0, 0] : Matrix (Fin 2) (Fin 2) ℝ) = diagonal ![1, 0] := by
    ext i j; fin_cases i <;> fin_cases j <;> simp
  rw [this]
  exact Matrix.PosSemidef.diagonal fun i => by fin_cases i <;> simp

example : FullRowRank (!![1, 1] : Matrix (Fin 1) (Fin 2) ℝ) := fun y =>
  ⟨![y 0, 0], by ext i; fin_cases i; simp⟩

/-! ## C02: nearest data-consistent point -/

theorem C02_mud_minimises_distance (A : Matrix (Fin d) (Fin p) ℝ) (b y : Fin d → ℝ)
    (m : Fin p → ℝ) (S : Matrix (Fin p) (Fin p) ℝ) (hS : S.PosDef) (C : Matrix (Fin d) (Fin d) ℝ)
    (α : ℝ) (hα : 0 < α) (hy : ∃ x₀, A *ᵥ x₀ + b = y) :
    ∃ x, Returns (Api.solve "mud" A b y m S C α) x ∧ A *ᵥ x + b = y ∧
      ∀ x', A *ᵥ x' + b = y → x' ≠ x → mahal S x m < mahal S x' m := by
  obtain ⟨x, hx, hAx⟩ := C01_mud_reproduces_attainable A b y m S hS C α hα hy
  refine ⟨x, hx, hAx, fun x' hx' hne => ?_⟩
  have hxF := returns_unique hx (api_mud' A b y m S C α hα.ne')
  set z := y - b - A *ᵥ m
  have hSt := posSemidef_transpose hS.posSemidef
  have hSu := posDef_isUnit_det hS
  have hxm : S⁻¹ *ᵥ (x - m) = Aᵀ *ᵥ (mpinv (A * S * Aᵀ) *ᵥ z) := by
    rw [hxF, mudF]
    rw [add_sub_cancel_left, mulVec_mulVec, Matrix.mul_assoc S, ← Matrix.mul_assoc S⁻¹,
      nonsing_inv_mul _ hSu, Matrix.one_mul, mulVec_mulVec]
  have hker : A *ᵥ (x' - x) = 0 := by
    rw [mulVec_sub]
    have : A *ᵥ x' + b = A *ᵥ x + b := by rw [hx', hAx]
    exact sub_eq_zero.2 (add_right_cancel this)
  have hcross : (x' - x) ⬝ᵥ (S⁻¹ *ᵥ (x - m)) = 0 := by
    rw [hxm, dot_mulVec_transpose, transpose_transpose, hker, zero_dotProduct]
  have hsplit : mahal S x' m = mahal S x m + (x' - x) ⬝ᵥ (S⁻¹ *ᵥ (x' - x)) := by
    have : x' - m = (x' - x) + (x - m) := by abel
    rw [mahal, mahal, this, quad_add (inv_symm hSt), hcross]; ring
  have := quad_pos hS.inv (sub_ne_zero.2 hne)
  linarith

example : (!![1, -1/4; -1/4, 1/2] : Matrix (Fin 2) (Fin 2) ℝ).PosDef ∧
    ∃ x₀, (!![1, 1] : Matrix (Fin 1) (Fin 2) ℝ) *ᵥ x₀ + ![1] = ![3] :=
  ⟨posDef_fin_two (by norm_num) (by norm_num),
   ![2, 0], by ext i; fin_cases i; simp; norm_num⟩

/-! ## C03: the MUD point ignores `alpha` and `cov_o` -/

theorem C03_mud_indep_alpha_cov (A : Matrix (Fin d) (Fin p) ℝ) (b y : Fin d → ℝ) (m : Fin p → ℝ)
    (S : Matrix (Fin p) (Fin p) ℝ) (C C' : Matrix (Fin d) (Fin d) ℝ) (α α' : ℝ) (hα : 0 < α)
    (hα' : 0 < α') :
    Api.solve "mud" A b y m S C α = Api.solve "mud" A b y m S C' α' := by
  rw [api_mud' A b y m S C α hα.ne', api_mud' A b y m S C' α' hα'.ne']

/-- Different `cov_o` and `alpha`, singular initial covariance. -/
example : Api.solve "mud" (!![1, 2] : Matrix (Fin 1) (Fin 2) ℝ) ![1] ![3] ![0, 1] !![1, 0; 0, 0] !![3] 1 =
    Api.solve "mud" (!![1, 2] : Matrix (Fin 1) (Fin 2) ℝ) ![1] ![3] ![0, 1] !![1, 0; 0, 0] !![5] (1 / 10) :=
  C03_mud_indep_alpha_cov _ _ _ _ _ _ _ _ _ one_pos (by norm_num)

/-! ## C05–C07: the updated covariance -/

/-- `A @ updated_cov(A, init_cov, data_cov) @ A.T = data_cov`, for the function in `funs`
and for the method (called on any object). -/
theorem C05_pushforward (A : Matrix (Fin d) (Fin p) ℝ) (S : Matrix (Fin p) (Fin p) ℝ)
    (C : Matrix (Fin d) (Fin d) ℝ) (hP : (A * S * Aᵀ).det ≠ 0) (P : LGP) :
    ∃ U : Matrix (Fin p) (Fin p) ℝ,
      funsUpdatedCov ⟨d, p, A⟩ (some ⟨p, p, S⟩) (some ⟨d, d, C⟩) = .ok ⟨p, p, U⟩ ∧
      P.updated_cov (some ⟨d, p, A⟩) (some ⟨p, p, S⟩) (some ⟨d, d, C⟩) = .ok ⟨p, p, U⟩ ∧
      A * U * Aᵀ = C := by
  refine ⟨upF A S C, by simp [funsUpdatedCov, updatedCovBody_typed], updated_cov_typed .., ?_⟩
  have hu : IsUnit (A * S * Aᵀ).det := isUnit_iff_ne_zero.2 hP
  rw [upF, mpinv_of_isUnit_det hu]
  set K := S * Aᵀ * (A * S * Aᵀ)⁻¹ with hK
  have hAK : A * K = 1 := by
    rw [hK, ← Matrix.mul_assoc, ← Matrix.mul_assoc, mul_nonsing_inv _ hu]
  have hKA : Kᵀ * Aᵀ = 1 := by rw [← transpose_mul, hAK, transpose_one]
  calc A * (S - K * (A * S * Aᵀ - C) * Kᵀ) * Aᵀ
      = A * S * Aᵀ - (A * K) * (A * S * Aᵀ - C) * (Kᵀ * Aᵀ) := by
        rw [Matrix.mul_sub, Matrix.sub_mul]; simp only [Matrix.mul_assoc]
    _ = C := by rw [hAK, hKA, Matrix.one_mul, Matrix.mul_one]; abel

example : ((!![1, 1] : Matrix (Fin 1) (Fin 2) ℝ) * (!![1, -1/4; -1/4, 1/2] : Matrix (Fin 2) (Fin 2) ℝ) * (!![1, 1] :
    Matrix (Fin 1) (Fin 2) ℝ)ᵀ).det ≠ 0 := by
  simp [vecMul_transpose]; norm_num

/-- `updated_cov` returns a symmetric positive semidefinite matrix, for every `A`. -/
theorem C06_updated_cov_posSemidef (A : Matrix (Fin d) (Fin p) ℝ) (S : Matrix (Fin p) (Fin p) ℝ)
    (hS : S.PosSemidef) (C : Matrix (Fin d) (Fin d) ℝ) (hC : C.PosSemidef) (P : LGP) :
    ∃ U : Matrix (Fin p) (Fin p) ℝ,
      funsUpdatedCov ⟨d, p, A⟩ (some ⟨p, p, S⟩) (some ⟨d, d, C⟩) = .ok ⟨p, p, U⟩ ∧
      P.updated_cov (some ⟨d, p, A⟩) (some ⟨p, p, S⟩) (some ⟨d, d, C⟩) = .ok ⟨p, p, U⟩ ∧
      Uᵀ = U ∧ U.PosSemidef := by
  have h : (upF A S C).PosSemidef := upd_posSemidef hS hC
  exact ⟨upF A S C, by simp [funsUpdatedCov, updatedCovBody_typed], updated_cov_typed ..,
    posSemidef_transpose h, h⟩

/-- The hypotheses of C06 (`A` of rank 0 included) and C07 are met. -/
example : (!![1, -1/4; -1/4, 1/2] : Matrix (Fin 2) (Fin 2) ℝ).PosSemidef ∧
    (!![3] : Matrix (Fin 1) (Fin 1) ℝ).PosSemidef ∧ FullRowRank (!![1, 2] : Matrix (Fin 1) (Fin 2) ℝ) ∧
    (!![1, -1/4; -1/4, 1/2] : Matrix (Fin 2) (Fin 2) ℝ).PosDef ∧ (!![3] : Matrix (Fin 1) (Fin 1) ℝ).PosDef :=
  have h : (!![1, -1/4; -1/4, 1/2] : Matrix (Fin 2) (Fin 2) ℝ).PosDef := posDef_fin_two (by norm_num) (by norm_num)
  have h' : (!![3] : Matrix (Fin 1) (Fin 1) ℝ).PosDef := posDef_fin_one (by norm_num)
  ⟨h.posSemidef, h'.posSemidef, fun y => ⟨![y 0, 0], by ext i; fin_cases i; simp⟩, h, h'⟩

/-- `updated_cov` is the inverse of the matrix in its documentation, whenever the covariances and the predicted
covariance are invertible (the outer inverse then exists). -/
theorem C07_updated_cov_closed_form (A : Matrix (Fin d) (Fin p) ℝ)
    (S : Matrix (Fin p) (Fin p) ℝ) (hSt : Sᵀ = S) (hS : S.det ≠ 0) (C : Matrix (Fin d) (Fin d) ℝ) (hC : C.det ≠ 0)
    (hP : (A * S * Aᵀ).det ≠ 0) (P : LGP) :
    ∃ U : Matrix (Fin p) (Fin p) ℝ,
      funsUpdatedCov ⟨d, p, A⟩ (some ⟨p, p, S⟩) (some ⟨d, d, C⟩) = .ok ⟨p, p, U⟩ ∧
      P.updated_cov (some ⟨d, p, A⟩) (some ⟨p, p, S⟩) (some ⟨d, d, C⟩) = .ok ⟨p, p, U⟩ ∧
      (Aᵀ * (C⁻¹ - (A * S * Aᵀ)⁻¹) * A + S⁻¹).det ≠ 0 ∧
      U = (Aᵀ * (C⁻¹ - (A * S * Aᵀ)⁻¹) * A + S⁻¹)⁻¹ := by
  have hP := isUnit_iff_ne_zero.2 hP
  have h := upd_closed (A := A) hSt (isUnit_iff_ne_zero.2 hS) (isUnit_iff_ne_zero.2 hC) hP
  refine ⟨upF A S C, by simp [funsUpdatedCov, updatedCovBody_typed], updated_cov_typed .., ?_, ?_⟩
  · exact (isUnit_iff_ne_zero.1 (Matrix.isUnit_det_of_left_inverse h))
  · rw [upF, mpinv_of_isUnit_det hP]; exact (inv_eq_left_inv h).symm

/-- ... in particular for positive definite covariances and a map of full row rank. -/
theorem C07_full_rank (A : Matrix (Fin d) (Fin p) ℝ) (hA : FullRowRank A)
    (S : Matrix (Fin p) (Fin p) ℝ) (hS : S.PosDef) (C : Matrix (Fin d) (Fin d) ℝ) (hC : C.PosDef)
    (P : LGP) :
    ∃ U : Matrix (Fin p) (Fin p) ℝ,
      funsUpdatedCov ⟨d, p, A⟩ (some ⟨p, p, S⟩) (some ⟨d, d, C⟩) = .ok ⟨p, p, U⟩ ∧
      P.updated_cov (some ⟨d, p, A⟩) (some ⟨p, p, S⟩) (some ⟨d, d, C⟩) = .ok ⟨p, p, U⟩ ∧
      (Aᵀ * (C⁻¹ - (A * S * Aᵀ)⁻¹) * A + S⁻¹).det ≠ 0 ∧
      U = (Aᵀ * (C⁻¹ - (A * S * Aᵀ)⁻¹) * A + S⁻¹)⁻¹ :=
  C07_updated_cov_closed_form A S (posSemidef_transpose hS.posSemidef) (posDef_isUnit_det hS).ne_zero C
    (posDef_isUnit_det hC).ne_zero (posDef_isUnit_det (posDef_conj hS A hA.inj)).ne_zero P

/-! ## C04: the two MUD formulas agree -/

theorem C04_mud_eq_mud_alt (A : Matrix (Fin d) (Fin p) ℝ) (b y : Fin d → ℝ) (m : Fin p → ℝ)
    (S : Matrix (Fin p) (Fin p) ℝ) (hSt : Sᵀ = S) (C : Matrix (Fin d) (Fin d) ℝ) (α : ℝ)
    (hα : 0 < α) (hP : (A * S * Aᵀ).det ≠ 0) (hC : C.det ≠ 0) :
    ∃ x : Fin p → ℝ, Returns (Api.solve "mud" A b y m S C α) x ∧
      Returns (Api.solve "mud_alt" A b y m S C α) x := by
  refine ⟨_, api_mud' A b y m S C α hα.ne', ?_⟩
  have h := api_mud_alt A b y m S C α hC
  have hPα : A * (α • S) * Aᵀ = α • (A * S * Aᵀ) := by
    rw [Matrix.mul_smul, Matrix.smul_mul]
  have hu : IsUnit (A * (α • S) * Aᵀ).det := by
    rw [isUnit_iff_ne_zero, hPα, det_smul]
    exact mul_ne_zero (pow_ne_zero _ hα.ne') hP
  have hCu : IsUnit C.det := isUnit_iff_ne_zero.2 hC
  have key : upF A (α • S) C * Aᵀ * C⁻¹ = (α • S) * Aᵀ * mpinv (A * (α • S) * Aᵀ) := by
    rw [upF, mpinv_of_isUnit_det hu, upd_mul_transpose hu (by rw [transpose_smul, hSt]),
      Matrix.mul_assoc _ C, mul_nonsing_inv _ hCu, Matrix.mul_one]
  rw [key] at h
  rw [← mudF_smul A m S α _ hα.ne', mudF]; exact h

example : ((!![1, 2] : Matrix (Fin 1) (Fin 2) ℝ) * (!![1, -1/4; -1/4, 1/2] : Matrix (Fin 2) (Fin 2) ℝ) * (!![1, 2] :
    Matrix (Fin 1) (Fin 2) ℝ)ᵀ).det ≠ 0 ∧ (!![3] : Matrix (Fin 1) (Fin 1) ℝ).det ≠ 0 ∧
    (!![1, -1/4; -1/4, 1/2] : Matrix (Fin 2) (Fin 2) ℝ)ᵀ = !![1, -1/4; -1/4, 1/2] := by
  refine ⟨?_, by simp, ?_⟩
  · simp [vecMul_transpose]; norm_num
  · ext i j; fin_cases i <;> fin_cases j <;> simp

/-- `mud_sol_with_cov` returns the `mud_alt` point (as a 1-D array) together with
`updated_cov`. -/
theorem C04_mud_sol_with_cov (A : Matrix (Fin d) (Fin p) ℝ) (b y : Fin d → ℝ) (m : Fin p → ℝ)
    (S : Matrix (Fin p) (Fin p) ℝ) (hSt : Sᵀ = S) (C : Matrix (Fin d) (Fin d) ℝ)
    (hP : (A * S * Aᵀ).det ≠ 0) (hC : C.det ≠ 0) :
    ∃ (x : Fin p → ℝ) (U : Matrix (Fin p) (Fin p) ℝ),
      mudSolWithCov (.mat ⟨d, p, A⟩) (some (.vec d b)) (some (.vec d y)) (some (.vec p m))
        (some ⟨p, p, S⟩) (some ⟨d, d, C⟩) = .ok (.vec p x, ⟨p, p, U⟩) ∧
      mudSol (.mat ⟨d, p, A⟩) (some (.vec d b)) (some (.vec d y)) (some (.vec p m))
        (some ⟨p, p, S⟩) (some ⟨d, d, C⟩) = .ok (.vec p x) ∧
      funsUpdatedCov ⟨d, p, A⟩ (some ⟨p, p, S⟩) (some ⟨d, d, C⟩) = .ok ⟨p, p, U⟩ := by
  obtain ⟨x, hx, hx'⟩ := C04_mud_eq_mud_alt A b y m S hSt C 1 one_pos hP hC
  refine ⟨x, upF A S C, ?_, (C01_mud_sol A b y m S C x).2 hx,
    by simp [funsUpdatedCov, updatedCovBody_typed]⟩
  have hs : LGP.new (.mat ⟨d, p, A⟩) (some (.vec d b)) (some (.vec d y)) (some (.vec p m))
      (some ⟨p, p, S⟩) (some ⟨d, d, C⟩) none = .ok (LGP.typed A b y m S C 1) := new_typed ..
  have hxe := returns_unique hx' (api_mud_alt A b y m S C 1 hC)
  rw [mudSolWithCov, linProb, hs, Py.ok_bind, LGP.solveArr, solve_mud_alt _ _ (locals_typed ..)]
  rw [mudAltBranch_typed _ _ _ _ _ m _ _ rfl, if_neg hC, ← hxe]
  simp [ravelUnless2, ndimOpt, getAttr]

/-! ## C08, C09: the MAP point and its covariance -/

/-- `solve('map')` is the unique minimiser of the regularised misfit. -/
theorem C08_map_minimises (A : Matrix (Fin d) (Fin p) ℝ) (b y : Fin d → ℝ) (m : Fin p → ℝ)
    (S : Matrix (Fin p) (Fin p) ℝ) (hS : S.PosDef) (C : Matrix (Fin d) (Fin d) ℝ) (hC : C.PosDef)
    (α : ℝ) (hα : 0 < α) :
    ∃ x, Returns (Api.solve "map" A b y m S C α) x ∧
      ∀ x', x' ≠ x →
        mahal C (A *ᵥ x + b) y + mahal (α • S) x m < mahal C (A *ᵥ x' + b) y + mahal (α • S) x' m := by
  have hSα : (α • S).PosDef := hS.smul hα
  have hH : (mapH A (α • S) C).PosDef := map_posDef hSα hC
  refine ⟨_, api_map A b y m S C α (posDef_det_ne hC) (posDef_det_ne hSα) (posDef_det_ne hH), ?_⟩
  intro x' hne
  set T := α • S with hT
  set z := y - b - A *ᵥ m with hz
  set H := mapH A T C with hHd
  set x := m + (H⁻¹ * Aᵀ * C⁻¹) *ᵥ z with hx
  have hCt := inv_symm (posSemidef_transpose hC.posSemidef)
  have hTt := inv_symm (posSemidef_transpose hSα.posSemidef)
  -- stationarity
  have hgrad : Aᵀ *ᵥ (C⁻¹ *ᵥ (A *ᵥ x + b - y)) + T⁻¹ *ᵥ (x - m) = 0 := by
    have h1 : A *ᵥ x + b - y = A *ᵥ (x - m) - z := by rw [hz, mulVec_sub]; abel
    have h2 : H *ᵥ (x - m) = (Aᵀ * C⁻¹) *ᵥ z := by
      rw [hx, add_sub_cancel_left, mulVec_mulVec, Matrix.mul_assoc H⁻¹, ← Matrix.mul_assoc H,
        mul_nonsing_inv _ (posDef_isUnit_det hH), Matrix.one_mul]
    have h3 : H *ᵥ (x - m) = Aᵀ *ᵥ (C⁻¹ *ᵥ (A *ᵥ (x - m))) + T⁻¹ *ᵥ (x - m) := by
      rw [hHd, mapH, add_mulVec, ← mulVec_mulVec, ← mulVec_mulVec]
    rw [h1, mulVec_sub, mulVec_sub, mulVec_mulVec (v := z), ← h2, h3]; abel
  have e1 : mahal C (A *ᵥ x' + b) y = mahal C (A *ᵥ x + b) y
      + 2 * ((A *ᵥ (x' - x)) ⬝ᵥ (C⁻¹ *ᵥ (A *ᵥ x + b - y)))
      + (A *ᵥ (x' - x)) ⬝ᵥ (C⁻¹ *ᵥ (A *ᵥ (x' - x))) := by
    have : A *ᵥ x' + b - y = A *ᵥ (x' - x) + (A *ᵥ x + b - y) := by rw [mulVec_sub]; abel
    rw [mahal, mahal, this, quad_add hCt]; ring
  have e2 : mahal T x' m = mahal T x m + 2 * ((x' - x) ⬝ᵥ (T⁻¹ *ᵥ (x - m)))
      + (x' - x) ⬝ᵥ (T⁻¹ *ᵥ (x' - x)) := by
    have : x' - m = (x' - x) + (x - m) := by abel
    rw [mahal, mahal, this, quad_add hTt]; ring
  have e3 : (A *ᵥ (x' - x)) ⬝ᵥ (C⁻¹ *ᵥ (A *ᵥ x + b - y)) + (x' - x) ⬝ᵥ (T⁻¹ *ᵥ (x - m)) = 0 := by
    rw [dotProduct_comm (A *ᵥ (x' - x)), dot_mulVec_transpose, dotProduct_comm _ (x' - x),
      ← dotProduct_add, hgrad, dotProduct_zero]
  have e4 := quad_nonneg hC.inv.posSemidef (A *ᵥ (x' - x))
  have e5 := quad_pos hSα.inv (sub_ne_zero.2 hne)
  linarith

example : (!![1, -1/4; -1/4, 1/2] : Matrix (Fin 2) (Fin 2) ℝ).PosDef ∧
    (!![3] : Matrix (Fin 1) (Fin 1) ℝ).PosDef :=
  ⟨posDef_fin_two (by norm_num) (by norm_num), posDef_fin_one (by norm_num)⟩

/-- The covariance stored by `solve('map')` (and returned by `map_sol_with_cov`) is
symmetric positive definite, has the Kalman form, and never exceeds the prior one. -/
theorem C09_map_cov (A : Matrix (Fin d) (Fin p) ℝ) (b y : Fin d → ℝ) (m : Fin p → ℝ)
    (S : Matrix (Fin p) (Fin p) ℝ) (hS : S.PosDef) (C : Matrix (Fin d) (Fin d) ℝ) (hC : C.PosDef)
    (α : ℝ) (hα : 0 < α) :
    ∃ (x : Fin p → ℝ) (V : Matrix (Fin p) (Fin p) ℝ),
      mapSolWithCov (.mat ⟨d, p, A⟩) (some (.vec d b)) (some (.vec d y)) (some (.vec p m))
        (some ⟨p, p, S⟩) (some ⟨d, d, C⟩) α = .ok (.vec p x, ⟨p, p, V⟩) ∧
      mapSol (.mat ⟨d, p, A⟩) (some (.vec d b)) (some (.vec d y)) (some (.vec p m))
        (some ⟨p, p, S⟩) (some ⟨d, d, C⟩) α = .ok (.vec p x) ∧
      Returns (Api.solve "map" A b y m S C α) x ∧
      (∃ P Q r, Api.new A b y m S C α = .ok P ∧ LGP.solve "map" none P = (.ok r, Q) ∧
        Q.cov_p = some ⟨p, p, V⟩) ∧
      V.PosDef ∧
      V = α • S - (α • S) * Aᵀ * (A * (α • S) * Aᵀ + C)⁻¹ * A * (α • S) ∧
      (α • S - V).PosSemidef := by
  have hSα : (α • S).PosDef := hS.smul hα
  have hH : (mapH A (α • S) C).PosDef := map_posDef hSα hC
  have hret := api_map A b y m S C α (posDef_det_ne hC) (posDef_det_ne hSα) (posDef_det_ne hH)
  have hrun : LGP.solve "map" none (LGP.typed A b y m S C α) =
      (.ok (.arr (.col (m + ((mapH A (α • S) C)⁻¹ * Aᵀ * C⁻¹) *ᵥ (y - b - A *ᵥ m)))),
        { LGP.typed A b y m S C α with
          map := some (.col (m + ((mapH A (α • S) C)⁻¹ * Aᵀ * C⁻¹) *ᵥ (y - b - A *ᵥ m)))
          cov_p := some ⟨p, p, (mapH A (α • S) C)⁻¹⟩ }) := by
    rw [solve_map _ _ (locals_typed ..)]
    rw [mapBranch_typed _ _ _ _ _ m _ _ rfl,
      if_neg (by rw [not_or, not_or]; exact ⟨posDef_det_ne hC, posDef_det_ne hSα, posDef_det_ne hH⟩)]
  have hw := map_woodbury (A := A) hSα hC
  refine ⟨_, (mapH A (α • S) C)⁻¹, ?_, ?_, hret, ⟨_, _, _, new_typed .., hrun, rfl⟩, hH.inv, ?_, ?_⟩
  · rw [mapSolWithCov, linProb, new_typed, Py.ok_bind, LGP.solveArr, hrun]
    simp [ravelUnless2, ndimOpt, getAttr]
  · rw [mapSol, linProb, new_typed, Py.ok_bind, LGP.solveArr, hrun]
    simp [ravelUnless2, ndimOpt]
  · rw [mapH, hw]; simp only [Matrix.mul_assoc]
  · rw [mapH, hw, sub_sub_cancel]
    have hG := gain_posDef (A := A) hSα hC
    have := posSemidef_conj hG.inv.posSemidef ((α • S) * Aᵀ)
    rwa [transpose_mul, transpose_transpose, posSemidef_transpose hSα.posSemidef] at this

/-- C09 on a problem with two parameters and one observation. -/
example : ∃ (x : Fin 2 → ℝ) (V : Matrix (Fin 2) (Fin 2) ℝ),
    mapSol (.mat ⟨1, 2, !![1, 2]⟩) (some (.vec 1 ![1])) (some (.vec 1 ![3])) (some (.vec 2 ![0, 1]))
      (some ⟨2, 2, !![1, -1/4; -1/4, 1/2]⟩) (some ⟨1, 1, !![3]⟩) 2 = .ok (.vec 2 x) ∧ V.PosDef ∧
    ((2 : ℝ) • (!![1, -1/4; -1/4, 1/2] : Matrix (Fin 2) (Fin 2) ℝ) - V).PosSemidef := by
  obtain ⟨x, V, -, h2, -, -, h5, -, h7⟩ := C09_map_cov !![1, 2] ![1] ![3] ![0, 1] !![1, -1/4; -1/4, 1/2]
    (posDef_fin_two (by norm_num) (by norm_num)) !![3] (posDef_fin_one (by norm_num)) 2 two_pos
  exact ⟨x, V, h2, h5, h7⟩

/-! ## C10: least squares -/

theorem C10_least_squares (A : Matrix (Fin d) (Fin p) ℝ) (b y : Fin d → ℝ) (m : Fin p → ℝ)
    (S : Matrix (Fin p) (Fin p) ℝ) (C : Matrix (Fin d) (Fin d) ℝ) (α : ℝ) :
    ∃ x, Returns (Api.solve "ls" A b y m S C α) x ∧
      ∀ x', sqDist (A *ᵥ x) (y - b) ≤ sqDist (A *ᵥ x') (y - b) ∧
        (sqDist (A *ᵥ x') (y - b) ≤ sqDist (A *ᵥ x) (y - b) → x' ≠ x →
          sqDist x 0 < sqDist x' 0) := by
  refine ⟨_, api_ls A b y m S C α, fun x' => ?_⟩
  set c := y - b
  have h := mpinv_spec A
  set x := mpinv A *ᵥ c with hx
  -- residual is orthogonal to the range of `A`
  have horth : ∀ v, (A *ᵥ x - c) ⬝ᵥ (A *ᵥ v) = 0 := by
    intro v
    have hAx : A *ᵥ x = (A * mpinv A) *ᵥ c := by rw [hx, mulVec_mulVec]
    rw [sub_dotProduct, hAx, dotProduct_comm, dot_mulVec_transpose, h.symAB, mulVec_mulVec, h.aba,
      dotProduct_comm, sub_self]
  have e : sqDist (A *ᵥ x') c = sqDist (A *ᵥ x) c + (A *ᵥ (x' - x)) ⬝ᵥ (A *ᵥ (x' - x)) := by
    rw [sqDist_eq_dot, sqDist_eq_dot]
    have : A *ᵥ x' - c = (A *ᵥ x - c) + A *ᵥ (x' - x) := by rw [mulVec_sub]; abel
    rw [this, add_dotProduct, dotProduct_add, dotProduct_add, horth,
      dotProduct_comm (A *ᵥ (x' - x)) (A *ᵥ x - c), horth]; ring
  have hnn : 0 ≤ (A *ᵥ (x' - x)) ⬝ᵥ (A *ᵥ (x' - x)) := by
    rw [dotProduct]; exact Finset.sum_nonneg fun i _ => mul_self_nonneg _
  refine ⟨by linarith, fun hle hne => ?_⟩
  have hker : A *ᵥ (x' - x) = 0 := dotProduct_self_eq_zero.1 (by linarith)
  have hx0 : x ⬝ᵥ (x' - x) = 0 := by
    have : x = (mpinv A * A) *ᵥ x := by
      rw [hx, mulVec_mulVec, ← h.bab]; simp only [h.bab]
    rw [dotProduct_comm]
    conv_lhs => rw [this]
    rw [dot_mulVec_transpose, h.symBA, ← mulVec_mulVec, ← this, hker, mulVec_zero, zero_dotProduct]
  have e' : sqDist x' 0 = sqDist x 0 + (x' - x) ⬝ᵥ (x' - x) := by
    rw [sqDist_eq_dot, sqDist_eq_dot, sub_zero, sub_zero]
    have : x' = x + (x' - x) := by abel
    conv_lhs => rw [this]
    rw [add_dotProduct, dotProduct_add, dotProduct_add, hx0, dotProduct_comm (x' - x) x, hx0]; ring
  have hpos : 0 < (x' - x) ⬝ᵥ (x' - x) := by
    have h0 : 0 ≤ (x' - x) ⬝ᵥ (x' - x) := by
      rw [dotProduct]; exact Finset.sum_nonneg fun i _ => mul_self_nonneg _
    rcases h0.lt_or_eq with h1 | h1
    · exact h1
    · exact absurd (dotProduct_self_eq_zero.1 h1.symm) (sub_ne_zero.2 hne)
  linarith

/-- C10 with a rank-deficient operator and unattainable data. -/
example : ∃ x, Returns (Api.solve "ls" (!![1, 1; 1, 1] : Matrix (Fin 2) (Fin 2) ℝ) ![0, 1] ![2, 7] ![0, 1] 1 1 1) x ∧
    ∀ x', sqDist ((!![1, 1; 1, 1] : Matrix (Fin 2) (Fin 2) ℝ) *ᵥ x) (![2, 7] - ![0, 1]) ≤
      sqDist ((!![1, 1; 1, 1] : Matrix (Fin 2) (Fin 2) ℝ) *ᵥ x') (![2, 7] - ![0, 1]) := by
  obtain ⟨x, h1, h2⟩ := C10_least_squares (!![1, 1; 1, 1] : Matrix (Fin 2) (Fin 2) ℝ) ![0, 1] ![2, 7] ![0, 1] 1 1 1
  exact ⟨x, h1, fun x' => (h2 x').1⟩

end Verif
