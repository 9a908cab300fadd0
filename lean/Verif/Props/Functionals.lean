import Verif.Props.LinearApi

/-!
# Property C15: `LinearGaussianProblem.compute_functionals`
-/

open Matrix

namespace Verif

variable {d p N : ℕ}

/-- `LinearGaussianProblem(A, b, y, mean_i, cov_i, cov_o, alpha).compute_functionals(X, terms)`:
what the call returns (or raises); the rows of `X` are the samples. -/
noncomputable def Api.functionals (A : Matrix (Fin d) (Fin p) ℝ) (b y : Fin d → ℝ)
    (m : Fin p → ℝ) (S : Matrix (Fin p) (Fin p) ℝ) (C : Matrix (Fin d) (Fin d) ℝ) (α : ℝ)
    (X : Matrix (Fin N) (Fin p) ℝ) (terms : String) : Py FunRes := do
  let P ← Api.new A b y m S C α
  P.compute_functionals ⟨N, p, X⟩ terms

/-! ## Evaluation -/

section eval
open Arr2

theorem ip_mk {r n : ℕ} (X : Matrix (Fin r) (Fin n) ℝ) (M : Matrix (Fin r) (Fin r) ℝ)
    (h : M.det ≠ 0) :
    LGP.ip ⟨r, n, X⟩ ⟨r, r, M⟩ = .ok (.vec n fun j => (fun i => X i j) ⬝ᵥ (M⁻¹ *ᵥ fun i => X i j)) := by
  simp only [LGP.ip, inv_mk_of_ne h, Py.ok_bind, matmul_mk, hmul, zipB_mk]
  rfl

theorem zip1_mk (f : ℝ → ℝ → ℝ) {n : ℕ} (v w : Fin n → ℝ) :
    NArr.zip1 f (.vec n v) (.vec n w) = .ok (.vec n fun i => f (v i) (w i)) := by
  simp only [NArr.zip1, bdim_self]
  congr 2
  funext i
  have hv : ∀ v : Fin n → ℝ, (Arr2.row v).bget 0 (i : ℕ) = v i := by
    intro v
    have := bget_mk (.of fun (_ : Fin 1) j => v j) 0 i
    simpa [Arr2.row] using this
  rw [hv, hv]

/-- The observation that the code compares sample `j` with. -/
def obsFor (y : Fin d → ℝ) (j : ℕ) : ℝ := (Arr2.row y).bget 0 j

theorem obsFor_one (y : Fin 1 → ℝ) (j : ℕ) : obsFor y j = y 0 := by
  simp [obsFor, bget, Arr2.row, Arr2.get]

theorem obsFor_fin (y : Fin d → ℝ) (j : Fin d) : obsFor y j = y j := by
  have := bget_mk (.of fun (_ : Fin 1) j => y j) 0 j
  simpa [Arr2.row, obsFor] using this

theorem add_bcol (M : Matrix (Fin d) (Fin N) ℝ) (b : Fin d → ℝ) :
    Arr2.add ⟨d, N, M⟩ (Arr2.col b) = .ok ⟨d, N, .of fun i j => M i j + b i⟩ := by
  have hN : bdim N 1 = some N := by
    unfold bdim; split <;> simp_all
  simp only [Arr2.add, zipB, Arr2.col, bdim_self, hN]
  congr 2
  ext i j
  simp only [of_apply]
  rw [bget_mk]
  have := bget_mk (.of fun (i : Fin d) (_ : Fin 1) => b i) i 0
  simp only [of_apply] at this
  rw [← this]
  simp [bget]

theorem sub_row (M : Matrix (Fin d) (Fin N) ℝ) (v : Fin d → ℝ) (h : d = 1 ∨ N = d) :
    Arr2.sub ⟨d, N, M⟩ (Arr2.col v).T = .ok ⟨d, N, .of fun i j => M i j - obsFor v j⟩ := by
  have hd : bdim d 1 = some d := by unfold bdim; split <;> simp_all
  have hN : bdim N d = some N := by
    unfold bdim
    rcases h with rfl | rfl
    · split <;> simp_all
    · simp
  simp only [Arr2.sub, zipB, Arr2.col, T, hd, hN]
  congr 2
  ext i j
  simp only [of_apply]
  rw [bget_mk]
  simp [obsFor, bget, Arr2.row, Arr2.get]; rfl

theorem sub_row_error (M : Matrix (Fin d) (Fin N) ℝ) (v : Fin d → ℝ) (hd : d ≠ 1) (hN : N ≠ 1)
    (h : N ≠ d) : Arr2.sub ⟨d, N, M⟩ (Arr2.col v).T = .error .valueError := by
  have hd' : bdim d 1 = some d := by unfold bdim; split <;> simp_all
  have hN' : bdim N d = none := by unfold bdim; simp [*]
  simp only [Arr2.sub, zipB, Arr2.col, T, hd', hN']

theorem sub_mrow (X : Matrix (Fin N) (Fin p) ℝ) (m : Fin p → ℝ) :
    Arr2.sub ⟨N, p, X⟩ (Arr2.col m).T = .ok ⟨N, p, .of fun i j => X i j - m j⟩ := by
  have hN : bdim N 1 = some N := by unfold bdim; split <;> simp_all
  simp only [Arr2.sub, zipB, Arr2.col, T, hN, bdim_self]
  congr 2
  ext i j
  simp only [of_apply]
  rw [bget_mk]
  congr 1
  have := bget_mk (.of fun (_ : Fin 1) (j : Fin p) => m j) 0 j
  simp only [of_apply] at this
  rw [← this]
  simp [bget]; rfl

variable (A : Matrix (Fin d) (Fin p) ℝ) (b y : Fin d → ℝ)
    (m : Fin p → ℝ) (S : Matrix (Fin p) (Fin p) ℝ) (C : Matrix (Fin d) (Fin d) ℝ) (α : ℝ)
    (X : Matrix (Fin N) (Fin p) ℝ)

/-- Data term computed for sample `j`. -/
noncomputable def fData (j : Fin N) : ℝ :=
  mahal C (A *ᵥ X j + b) (fun _ => obsFor (y - b) j)
/-- Regularisation term computed for sample `j`. -/
noncomputable def fReg (j : Fin N) : ℝ := α * mahal S (X j) m
/-- Data-consistent term computed for sample `j`. -/
noncomputable def fDc (j : Fin N) : ℝ := α * mahal (A * S * Aᵀ) (A *ᵥ X j) (A *ᵥ m)

theorem functionals_eval (h : d = 1 ∨ N = d) (hC : C.det ≠ 0) (hS : S.det ≠ 0)
    (hP : (A * S * Aᵀ).det ≠ 0) (terms : String) :
    Api.functionals A b y m S C α X terms =
      .ok (if terms = "data" then .one (.vec N (fData A b y C X))
      else if terms = "reg" then .one (.vec N (fReg m S α X))
      else if terms = "dc_term" then .one (.vec N (fDc A m S α X))
      else if terms = "reg_m" then .one (.vec N fun j => fReg m S α X j - fDc A m S α X j)
      else if terms = "bayes" then .one (.vec N fun j => fData A b y C X j + fReg m S α X j)
      else if terms = "dc" then
        .one (.vec N fun j => fData A b y C X j + fReg m S α X j - fDc A m S α X j)
      else .five (.vec N (fData A b y C X)) (.vec N (fReg m S α X)) (.vec N (fDc A m S α X))
        (.vec N fun j => fData A b y C X j + fReg m S α X j)
        (.vec N fun j => fData A b y C X j + fReg m S α X j - fDc A m S α X j)) := by
  have hd : LGP.ip ⟨d, N, .of fun i j => (Matrix.of fun i j => (A * Xᵀ) i j + b i) i j
      - obsFor (y - b) j⟩ ⟨d, d, C⟩ = .ok (.vec N (fData A b y C X)) := by
    rw [ip_mk _ _ hC]
    refine congrArg (fun v => Except.ok (NArr.vec N v)) (funext fun j => ?_)
    have : (fun i => (Matrix.of fun i j => (Matrix.of fun i j => (A * Xᵀ) i j + b i) i j
        - obsFor (y - b) j) i j) = (A *ᵥ X j + b) - (fun _ => obsFor (y - b) j) := by
      funext i; simp [Matrix.mul_apply, mulVec, dotProduct]
    rw [this]; rfl
  have hr : LGP.ip ⟨p, N, (Matrix.of fun i j => X i j - m j)ᵀ⟩ ⟨p, p, S⟩
      = .ok (.vec N fun j => mahal S (X j) m) := ip_mk _ _ hS
  have hk : LGP.ip ⟨d, N, A * (Matrix.of fun i j => X i j - m j)ᵀ⟩ ⟨d, d, A * S * Aᵀ⟩
      = .ok (.vec N fun j => mahal (A * S * Aᵀ) (A *ᵥ X j) (A *ᵥ m)) := by
    rw [ip_mk _ _ hP]
    congr 2
    funext j
    have : (fun i => (A * (Matrix.of fun i j => X i j - m j)ᵀ) i j) = A *ᵥ X j - A *ᵥ m := by
      rw [← mulVec_sub]; rfl
    rw [this]; rfl
  rw [Api.functionals, Api.new, new_typed, Py.ok_bind]
  simp only [LGP.compute_functionals, LGP.typed, sub_col, Py.ok_bind, T_mk, matmul_mk, add_bcol,
    sub_row _ _ h, hd, sub_mrow, hr, hk, NArr.smul1, zip1_mk]
  split_ifs <;> rfl

end eval


theorem mahal_nonneg {n : ℕ} {S : Matrix (Fin n) (Fin n) ℝ} (hS : S.PosDef) (x m : Fin n → ℝ) :
    0 ≤ mahal S x m := quad_nonneg hS.inv.posSemidef _

/-- The regularisation splits into a data-informed part and a non-negative rest. -/
theorem mahal_split (A : Matrix (Fin d) (Fin p) ℝ) {S : Matrix (Fin p) (Fin p) ℝ} (hS : S.PosDef)
    (hP : (A * S * Aᵀ).det ≠ 0) (x m : Fin p → ℝ) :
    mahal S x m = mahal S x (m + (S * Aᵀ * (A * S * Aᵀ)⁻¹) *ᵥ (A *ᵥ (x - m)))
      + mahal (A * S * Aᵀ) (A *ᵥ x) (A *ᵥ m) := by
  have hSt := posSemidef_transpose hS.posSemidef
  have hSi := inv_symm hSt
  have hSu := posDef_isUnit_det hS
  have hPu : IsUnit (A * S * Aᵀ).det := isUnit_iff_ne_zero.2 hP
  set e := x - m with he
  set k := (S * Aᵀ * (A * S * Aᵀ)⁻¹) *ᵥ (A *ᵥ e) with hk
  have e1 : x - (m + k) = e - k := by rw [he]; abel
  have e2 : A *ᵥ x - A *ᵥ m = A *ᵥ e := by rw [he, mulVec_sub]
  have hSk : S⁻¹ *ᵥ k = Aᵀ *ᵥ ((A * S * Aᵀ)⁻¹ *ᵥ (A *ᵥ e)) := by
    rw [hk, mulVec_mulVec, Matrix.mul_assoc S, ← Matrix.mul_assoc S⁻¹,
      nonsing_inv_mul _ hSu, Matrix.one_mul, ← mulVec_mulVec]
  have hAk : A *ᵥ k = A *ᵥ e := by
    rw [hk, mulVec_mulVec, ← Matrix.mul_assoc, ← Matrix.mul_assoc, mul_nonsing_inv _ hPu,
      one_mulVec]
  have hx : ∀ v, v ⬝ᵥ (S⁻¹ *ᵥ k) = (A *ᵥ v) ⬝ᵥ ((A * S * Aᵀ)⁻¹ *ᵥ (A *ᵥ e)) := by
    intro v
    rw [hSk, dot_mulVec_transpose, transpose_transpose]
  have h1 := quad_add hSi (e - k) k
  rw [sub_add_cancel] at h1
  simp only [mahal]
  have hAe : A *ᵥ (e - k) = 0 := by rw [mulVec_sub, hAk, sub_self]
  rw [e1, e2, h1, hx, hx, hAk, hAe, zero_dotProduct]
  ring


/-! ## C15 -/

/-- Whenever there is a single observation, or exactly as many samples as observations (the
only cases in which the call does not raise or change the number of samples, see
`C15_shape_refuted`), the returned tuple consists of non-negative terms with
`bayes = data + reg`, `dc = bayes - dc_term`, `dc_term ≤ reg` (so `dc ≥ 0`), and asking for a
single term returns the corresponding component. -/
theorem C15_terms (A : Matrix (Fin d) (Fin p) ℝ) (hA : FullRowRank A) (b y : Fin d → ℝ)
    (m : Fin p → ℝ) (S : Matrix (Fin p) (Fin p) ℝ) (hS : S.PosDef) (C : Matrix (Fin d) (Fin d) ℝ)
    (hC : C.PosDef) (α : ℝ) (hα : 0 ≤ α) (X : Matrix (Fin N) (Fin p) ℝ) (h : d = 1 ∨ N = d) :
    ∃ data reg dct bayes dc : Fin N → ℝ,
      Api.functionals A b y m S C α X "all" =
        .ok (.five (.vec N data) (.vec N reg) (.vec N dct) (.vec N bayes) (.vec N dc)) ∧
      Api.functionals A b y m S C α X "data" = .ok (.one (.vec N data)) ∧
      Api.functionals A b y m S C α X "reg" = .ok (.one (.vec N reg)) ∧
      Api.functionals A b y m S C α X "dc_term" = .ok (.one (.vec N dct)) ∧
      Api.functionals A b y m S C α X "reg_m" = .ok (.one (.vec N fun j => reg j - dct j)) ∧
      Api.functionals A b y m S C α X "bayes" = .ok (.one (.vec N bayes)) ∧
      Api.functionals A b y m S C α X "dc" = .ok (.one (.vec N dc)) ∧
      ∀ j, 0 ≤ data j ∧ reg j = α * mahal S (X j) m ∧ 0 ≤ dct j ∧ dct j ≤ reg j ∧
        bayes j = data j + reg j ∧ dc j = bayes j - dct j ∧ 0 ≤ dc j ∧
        dct j = α * mahal (A * S * Aᵀ) (A *ᵥ X j) (A *ᵥ m) ∧
        (d = 1 → data j = mahal C (A *ᵥ X j + b) (y - b)) := by
  have hP := posDef_conj hS A hA.inj
  have ev := functionals_eval A b y m S C α X h (posDef_det_ne hC) (posDef_det_ne hS)
    (posDef_det_ne hP)
  refine ⟨fData A b y C X, fReg m S α X, fDc A m S α X,
    fun j => fData A b y C X j + fReg m S α X j,
    fun j => fData A b y C X j + fReg m S α X j - fDc A m S α X j, ?_, ?_, ?_, ?_, ?_, ?_, ?_, ?_⟩
  · rw [ev]; rfl
  · rw [ev]; rfl
  · rw [ev]; rfl
  · rw [ev]; rfl
  · rw [ev]; rfl
  · rw [ev]; rfl
  · rw [ev]; rfl
  · intro j
    have h1 : 0 ≤ fData A b y C X j := mahal_nonneg hC _ _
    have h3 : 0 ≤ fDc A m S α X j := mul_nonneg hα (mahal_nonneg hP _ _)
    have h4 : fDc A m S α X j ≤ fReg m S α X j := by
      refine mul_le_mul_of_nonneg_left ?_ hα
      rw [mahal_split A hS (posDef_det_ne hP) (X j) m]
      have := mahal_nonneg hS (X j) (m + (S * Aᵀ * (A * S * Aᵀ)⁻¹) *ᵥ (A *ᵥ (X j - m)))
      linarith
    refine ⟨h1, rfl, h3, h4, rfl, rfl, by linarith, rfl, fun hd => ?_⟩
    subst hd
    unfold fData
    rw [obsFor_one]
    congr 1
    funext i
    rw [Subsingleton.elim i 0]

/-- One sample as a one-row array. -/
def oneSample (x : Fin p → ℝ) : Matrix (Fin 1) (Fin p) ℝ := .of fun _ => x

/-- What C15 claims about the minimisers is true for a single observation (`d = 1`) without
offset (`b = 0`) and with `alpha = 1`: `solve('map')` is the unique minimiser of the values
returned for `'bayes'`.  Missing: `b ≠ 0`, `alpha ≠ 1` and several observations, where the
claim is false (`C15_offset_refuted`, `C15_alpha_refuted`, `C15_shape_refuted`). -/
theorem C15_map_minimises_bayes_partial (A : Matrix (Fin 1) (Fin p) ℝ) (hA : FullRowRank A)
    (y : Fin 1 → ℝ) (m : Fin p → ℝ) (S : Matrix (Fin p) (Fin p) ℝ) (hS : S.PosDef)
    (C : Matrix (Fin 1) (Fin 1) ℝ) (hC : C.PosDef) :
    ∃ (x : Fin p → ℝ) (f : (Fin p → ℝ) → ℝ),
      Returns (Api.solve "map" A 0 y m S C 1) x ∧
      (∀ x', Api.functionals A 0 y m S C 1 (oneSample x') "bayes" = .ok (.one (.vec 1 ![f x']))) ∧
      ∀ x', x' ≠ x → f x < f x' := by
  obtain ⟨x, hx, hmin⟩ := C08_map_minimises A 0 y m S hS C hC 1 one_pos
  have hP := posDef_conj hS A hA.inj
  refine ⟨x, fun x' => mahal C (A *ᵥ x' + 0) y + mahal ((1 : ℝ) • S) x' m, hx, fun x' => ?_, hmin⟩
  rw [functionals_eval A 0 y m S C 1 _ (.inl rfl) (posDef_det_ne hC) (posDef_det_ne hS)
    (posDef_det_ne hP)]
  simp only [show ("bayes" : String) ≠ "data" by decide, show ("bayes" : String) ≠ "reg" by decide,
    show ("bayes" : String) ≠ "dc_term" by decide, show ("bayes" : String) ≠ "reg_m" by decide,
    if_false, if_true]
  congr 3
  funext j
  fin_cases j
  simp only [fData, fReg, obsFor_one, oneSample, one_mul, one_smul, sub_zero]
  have : (fun _ : Fin 1 => y 0) = y := by funext i; fin_cases i; rfl
  rw [this]; rfl

/-- ... and `solve('mud')` is the unique minimiser of the values returned for `'dc'`, where the
value is 0 (any `alpha > 0`). -/
theorem C15_mud_minimises_dc_partial (A : Matrix (Fin 1) (Fin p) ℝ) (hA : FullRowRank A)
    (y : Fin 1 → ℝ) (m : Fin p → ℝ) (S : Matrix (Fin p) (Fin p) ℝ) (hS : S.PosDef)
    (C : Matrix (Fin 1) (Fin 1) ℝ) (hC : C.PosDef) (α : ℝ) (hα : 0 < α) :
    ∃ (x : Fin p → ℝ) (f : (Fin p → ℝ) → ℝ),
      Returns (Api.solve "mud" A 0 y m S C α) x ∧
      (∀ x', Api.functionals A 0 y m S C α (oneSample x') "dc" = .ok (.one (.vec 1 ![f x']))) ∧
      f x = 0 ∧ ∀ x', x' ≠ x → 0 < f x' := by
  obtain ⟨x, hx, hAx⟩ := C01_mud_reproduces_full_rank A hA 0 y m S hS C α hα
  have hP := posDef_conj hS A hA.inj
  have hPn := posDef_det_ne hP
  have hxF := returns_unique hx (api_mud' A 0 y m S C α hα.ne')
  rw [add_zero] at hAx
  rw [sub_zero, mudF, mpinv_of_isUnit_det (posDef_isUnit_det hP)] at hxF
  let f : (Fin p → ℝ) → ℝ := fun x' => mahal C (A *ᵥ x') y + α *
    mahal S x' (m + (S * Aᵀ * (A * S * Aᵀ)⁻¹) *ᵥ (A *ᵥ (x' - m)))
  refine ⟨x, f, hx, fun x' => ?_, ?_, fun x' hne => ?_⟩
  · rw [functionals_eval A 0 y m S C α _ (.inl rfl) (posDef_det_ne hC) (posDef_det_ne hS) hPn]
    simp only [show ("dc" : String) ≠ "data" by decide, show ("dc" : String) ≠ "reg" by decide,
      show ("dc" : String) ≠ "dc_term" by decide, show ("dc" : String) ≠ "reg_m" by decide,
      show ("dc" : String) ≠ "bayes" by decide, if_false, if_true]
    congr 3
    funext j
    fin_cases j
    have e : (fun _ : Fin 1 => y 0) = y := by funext i; fin_cases i; rfl
    have hs := mahal_split A hS hPn x' m
    have goal : mahal C (A *ᵥ x' + 0) y + α * mahal S x' m
        - α * mahal (A * S * Aᵀ) (A *ᵥ x') (A *ᵥ m) = f x' := by
      simp only [f]
      rw [hs, add_zero]; ring
    simp only [fData, fReg, fDc, obsFor_one, oneSample, sub_zero]
    rw [e]
    exact goal
  · simp only [f]
    have : m + (S * Aᵀ * (A * S * Aᵀ)⁻¹) *ᵥ (A *ᵥ (x - m)) = x := by
      rw [mulVec_sub, hAx]; exact hxF.symm
    rw [this, hAx]; simp [mahal]
  · have h1 := mahal_nonneg hC (A *ᵥ x') y
    have h2 := mahal_nonneg hS x' (m + (S * Aᵀ * (A * S * Aᵀ)⁻¹) *ᵥ (A *ᵥ (x' - m)))
    by_cases hy : A *ᵥ x' = y
    · have hne' : x' - x ≠ 0 := sub_ne_zero.2 hne
      have : 0 < mahal S x' x := quad_pos hS.inv hne'
      have h3 : m + (S * Aᵀ * (A * S * Aᵀ)⁻¹) *ᵥ (A *ᵥ (x' - m)) = x := by
        rw [mulVec_sub, hy]; exact hxF.symm
      simp only [f]
      rw [h3]
      have := mul_pos hα this
      linarith
    · have : 0 < mahal C (A *ᵥ x') y := quad_pos hC.inv (sub_ne_zero.2 hy)
      have := mul_nonneg hα.le h2
      simp only [f]; linarith

theorem bayes_value (A : Matrix (Fin 1) (Fin p) ℝ) (hA : FullRowRank A) (b y : Fin 1 → ℝ) (m : Fin p → ℝ)
    (S : Matrix (Fin p) (Fin p) ℝ) (hS : S.PosDef) (C : Matrix (Fin 1) (Fin 1) ℝ) (hC : C.PosDef) (α : ℝ) (hα : 0 ≤ α)
    (x : Fin p → ℝ) :
    Api.functionals A b y m S C α (oneSample x) "bayes" =
      .ok (.one (.vec 1 ![mahal C (A *ᵥ x + (b + b)) y + α * mahal S x m])) ∧
    Api.functionals A b y m S C α (oneSample x) "dc" =
      .ok (.one (.vec 1 ![mahal C (A *ᵥ x + (b + b)) y +
        α * mahal S x (m + (S * Aᵀ * (A * S * Aᵀ)⁻¹) *ᵥ (A *ᵥ (x - m)))])) := by
  obtain ⟨data, reg, dct, bayes, dc, -, -, -, -, -, h1, h2, h3⟩ := C15_terms A hA b y m S hS C hC α hα (oneSample x) (.inl rfl)
  obtain ⟨-, r1, -, -, r2, r3, -, r4, r5⟩ := h3 0
  have e : mahal C (A *ᵥ x + b) (y - b) = mahal C (A *ᵥ x + (b + b)) y := by
    unfold mahal
    congr 1 <;> [skip; congr 1] <;> abel
  have r5' : data 0 = mahal C (A *ᵥ x + (b + b)) y := (r5 rfl).trans e
  have r1' : reg 0 = α * mahal S x m := r1
  have r4' : dct 0 = α * mahal (A * S * Aᵀ) (A *ᵥ x) (A *ᵥ m) := r4
  constructor
  · rw [h1]
    congr 3
    funext j
    rw [Subsingleton.elim j 0, r2, r5', r1']
    rfl
  · rw [h2]
    congr 3
    funext j
    rw [Subsingleton.elim j 0, r3, r2, r5', r1', r4', mahal_split A hS (posDef_det_ne (posDef_conj hS A hA.inj)) x m]
    simp only [Matrix.cons_val_zero]
    ring

/-- What `compute_functionals` minimises (one observation): the unique minimiser of `'bayes'` is the MAP point of the
problem with twice the offset and the inverse of `alpha`. -/
theorem C15_bayes_exact (A : Matrix (Fin 1) (Fin p) ℝ) (hA : FullRowRank A) (b y : Fin 1 → ℝ) (m : Fin p → ℝ)
    (S : Matrix (Fin p) (Fin p) ℝ) (hS : S.PosDef) (C : Matrix (Fin 1) (Fin 1) ℝ) (hC : C.PosDef) (α : ℝ) (hα : 0 < α) :
    ∃ (x : Fin p → ℝ) (f : (Fin p → ℝ) → ℝ),
      Returns (Api.solve "map" A (b + b) y m S C α⁻¹) x ∧
      (∀ x', Api.functionals A b y m S C α (oneSample x') "bayes" = .ok (.one (.vec 1 ![f x']))) ∧
      ∀ x', x' ≠ x → f x < f x' := by
  obtain ⟨x, hx, hmin⟩ := C08_map_minimises A (b + b) y m S hS C hC α⁻¹ (inv_pos.2 hα)
  refine ⟨x, _, hx, fun x' => (bayes_value A hA b y m S hS C hC α hα.le x').1, fun x' hne => ?_⟩
  have h := hmin x' hne
  have e : ∀ z, mahal (α⁻¹ • S) z m = α * mahal S z m := by
    intro z
    have hi : (α⁻¹ • S)⁻¹ = α • S⁻¹ := by
      apply inv_eq_right_inv
      rw [Matrix.smul_mul, Matrix.mul_smul, smul_smul, mul_nonsing_inv _ (posDef_isUnit_det hS), inv_mul_cancel₀ hα.ne', one_smul]
    unfold mahal
    rw [hi, smul_mulVec, dotProduct_smul, smul_eq_mul]
  rwa [e, e] at h

/-- ... and the unique minimiser of `'dc'` is the MUD point of the problem with twice the offset. -/
theorem C15_dc_exact (A : Matrix (Fin 1) (Fin p) ℝ) (hA : FullRowRank A) (b y : Fin 1 → ℝ) (m : Fin p → ℝ)
    (S : Matrix (Fin p) (Fin p) ℝ) (hS : S.PosDef) (C : Matrix (Fin 1) (Fin 1) ℝ) (hC : C.PosDef) (α : ℝ) (hα : 0 < α) :
    ∃ (x : Fin p → ℝ) (f : (Fin p → ℝ) → ℝ),
      Returns (Api.solve "mud" A (b + b) y m S C α) x ∧
      (∀ x', Api.functionals A b y m S C α (oneSample x') "dc" = .ok (.one (.vec 1 ![f x']))) ∧
      f x = 0 ∧ ∀ x', x' ≠ x → 0 < f x' := by
  obtain ⟨x, hx, hAx⟩ := C01_mud_reproduces_full_rank A hA (b + b) y m S hS C α hα
  have hP := posDef_conj hS A hA.inj
  have hxF := returns_unique hx (api_mud' A (b + b) y m S C α hα.ne')
  rw [mudF, mpinv_of_isUnit_det (posDef_isUnit_det hP)] at hxF
  have key : ∀ z, A *ᵥ z + (b + b) = y → m + (S * Aᵀ * (A * S * Aᵀ)⁻¹) *ᵥ (A *ᵥ (z - m)) = x := by
    intro z hz
    rw [hxF, mulVec_sub, ← hz, add_sub_cancel_right]
  refine ⟨x, _, hx, fun x' => (bayes_value A hA b y m S hS C hC α hα.le x').2, ?_, fun x' hne => ?_⟩
  · rw [key x hAx, hAx]
    simp [mahal]
  · have h1 := mahal_nonneg hC (A *ᵥ x' + (b + b)) y
    have h2 := mahal_nonneg hS x' (m + (S * Aᵀ * (A * S * Aᵀ)⁻¹) *ᵥ (A *ᵥ (x' - m)))
    by_cases hy : A *ᵥ x' + (b + b) = y
    · have : 0 < mahal S x' x := quad_pos hS.inv (sub_ne_zero.2 hne)
      rw [key x' hy]
      have := mul_pos hα this
      linarith
    · have : 0 < mahal C (A *ᵥ x' + (b + b)) y := quad_pos hC.inv (sub_ne_zero.2 hy)
      have := mul_nonneg hα.le h2
      linarith

/-- One observation: the claim about the MUD point is true exactly when there is no offset. -/
theorem C15_mud_exact (A : Matrix (Fin 1) (Fin p) ℝ) (hA : FullRowRank A) (b y : Fin 1 → ℝ) (m : Fin p → ℝ)
    (S : Matrix (Fin p) (Fin p) ℝ) (hS : S.PosDef) (C : Matrix (Fin 1) (Fin 1) ℝ) (hC : C.PosDef) (α : ℝ) (hα : 0 < α)
    {x : Fin p → ℝ} (hx : Returns (Api.solve "mud" A b y m S C α) x) {f : (Fin p → ℝ) → ℝ}
    (hf : ∀ x', Api.functionals A b y m S C α (oneSample x') "dc" = .ok (.one (.vec 1 ![f x']))) :
    (∀ x', f x ≤ f x') ↔ b = 0 := by
  obtain ⟨z, g, hz, hg, h0, hpos⟩ := C15_dc_exact A hA b y m S hS C hC α hα
  have hfg : f = g := by
    funext x'
    have := (hf x').symm.trans (hg x')
    simp only [Except.ok.injEq, FunRes.one.injEq, NArr.vec.injEq, heq_eq_eq, true_and] at this
    simpa using congrFun this 0
  subst hfg
  obtain ⟨x1, hx1, hAx⟩ := C01_mud_reproduces_full_rank A hA b y m S hS C α hα
  obtain ⟨z1, hz1, hAz⟩ := C01_mud_reproduces_full_rank A hA (b + b) y m S hS C α hα
  rw [← returns_unique hx hx1] at hAx
  rw [← returns_unique hz hz1] at hAz
  constructor
  · intro h
    have : x = z := by
      by_contra hne
      have := hpos x hne
      have := h z
      linarith
    rw [this] at hAx
    have := hAx.trans hAz.symm
    have h2 : b = b + b := add_left_cancel this
    simpa using h2
  · rintro rfl x'
    rw [add_zero] at hz
    rw [returns_unique hx hz, h0]
    by_cases hne : x' = z
    · rw [hne, h0]
    · exact (hpos x' hne).le

/-- One observation: the claim about the MAP point is true exactly when the two gains weigh the two residuals equally
(with `P = A cov_i Aᵀ`, `c = cov_o`, `r = y - b - A mean_i`); for `alpha = 1` this means that there is no offset. -/
theorem C15_map_exact (A : Matrix (Fin 1) (Fin p) ℝ) (hA : FullRowRank A) (b y : Fin 1 → ℝ) (m : Fin p → ℝ)
    (S : Matrix (Fin p) (Fin p) ℝ) (hS : S.PosDef) (C : Matrix (Fin 1) (Fin 1) ℝ) (hC : C.PosDef) (α : ℝ) (hα : 0 < α)
    {x : Fin p → ℝ} (hx : Returns (Api.solve "map" A b y m S C α) x) {f : (Fin p → ℝ) → ℝ}
    (hf : ∀ x', Api.functionals A b y m S C α (oneSample x') "bayes" = .ok (.one (.vec 1 ![f x'])))
    {P c r : ℝ} (hP : P = (A * S * Aᵀ) 0 0) (hc : c = C 0 0) (hr : r = y 0 - b 0 - (A *ᵥ m) 0) :
    ((∀ x', f x ≤ f x') ↔ α * r * (P + α * c) = (r - b 0) * (α * P + c)) ∧
    (α = 1 → ((∀ x', f x ≤ f x') ↔ b = 0)) := by
  obtain ⟨z, g, hz, hg, hpos⟩ := C15_bayes_exact A hA b y m S hS C hC α hα
  have hfg : f = g := by
    funext x'
    have := (hf x').symm.trans (hg x')
    simp only [Except.ok.injEq, FunRes.one.injEq, NArr.vec.injEq, heq_eq_eq, true_and] at this
    simpa using congrFun this 0
  subst hfg
  have hmin : (∀ x', f x ≤ f x') ↔ x = z := by
    constructor
    · intro h
      by_contra hne
      have := hpos x hne
      have := h z
      linarith
    · rintro rfl x'
      by_cases hne : x' = x
      · rw [hne]
      · exact (hpos x' hne).le
  have hPpos : 0 < P := by
    rw [hP]
    have := (posDef_conj hS A hA.inj).diag_pos (i := 0)
    exact this
  have hcpos : 0 < c := by
    rw [hc]
    exact hC.diag_pos (i := 0)
  -- the MAP point in gain form
  have gain : ∀ (β : ℝ) (hβ : 0 < β) (b' : Fin 1 → ℝ) (w : Fin p → ℝ), Returns (Api.solve "map" A b' y m S C β) w →
      w = m + (β * (y 0 - b' 0 - (A *ᵥ m) 0) / (β * P + c)) • (fun i => (S * Aᵀ) i 0) := by
    intro β hβ b' w hw
    have hSβ : (β • S).PosDef := hS.smul hβ
    have h1 := api_map A b' y m S C β (posDef_det_ne hC) (posDef_det_ne hSβ) (posDef_det_ne (map_posDef hSβ hC))
    rw [returns_unique hw h1, mapH, map_gain hSβ hC]
    congr 1
    have hGe : A * (β • S) * Aᵀ + C = !![β * P + c] := by
      ext i j
      rw [Subsingleton.elim i 0, Subsingleton.elim j 0]
      simp [Matrix.mul_smul, Matrix.smul_mul, hP, hc]
    have hne : β * P + c ≠ 0 := by positivity
    have hGi : (!![β * P + c] : Matrix (Fin 1) (Fin 1) ℝ)⁻¹ = !![(β * P + c)⁻¹] := by
      apply inv_eq_right_inv
      ext i j
      rw [Subsingleton.elim i 0, Subsingleton.elim j 0]
      simp [hne]
    rw [hGe, hGi]
    funext i
    simp only [mulVec, dotProduct, Finset.univ_unique, Fin.default_eq_zero, Finset.sum_singleton, Matrix.mul_apply,
      Pi.sub_apply, Pi.smul_apply, smul_eq_mul, Matrix.smul_mul, Matrix.smul_apply]
    simp
    field_simp
  have g1 := gain α hα b x hx
  have g2 := gain α⁻¹ (inv_pos.2 hα) (b + b) z hz
  have hA0 : (fun i => (S * Aᵀ) i 0) ≠ 0 := by
    intro h0
    have : P = 0 := by
      rw [hP, Matrix.mul_assoc, Matrix.mul_apply]
      refine Finset.sum_eq_zero fun i _ => ?_
      rw [show (S * Aᵀ) i 0 = 0 from congrFun h0 i, mul_zero]
    linarith
  have hiff : x = z ↔ α * r * (P + α * c) = (r - b 0) * (α * P + c) := by
    rw [g1, g2, add_right_inj]
    have hd1 : α * P + c ≠ 0 := by positivity
    have hd2 : P + α * c ≠ 0 := by positivity
    have e2 : α⁻¹ * (y 0 - (b + b) 0 - (A *ᵥ m) 0) / (α⁻¹ * P + c) = (r - b 0) / (P + α * c) := by
      have : α⁻¹ * P + c = α⁻¹ * (P + α * c) := by field_simp
      rw [this, mul_div_mul_left _ _ (inv_ne_zero hα.ne'), hr]
      congr 1
      simp only [Pi.add_apply]
      ring
    rw [e2, ← hr]
    constructor
    · intro h
      have := smul_left_injective ℝ hA0 h
      rwa [div_eq_div_iff hd1 hd2] at this
    · intro h
      rw [(div_eq_div_iff hd1 hd2).2 h]
  refine ⟨hmin.trans hiff, fun h1 => hmin.trans (hiff.trans ?_)⟩
  subst h1
  have hs : 0 < P + c := by positivity
  constructor
  · intro h
    have : b 0 * (P + c) = 0 := by nlinarith
    funext i
    rw [Subsingleton.elim i 0]
    exact (mul_eq_zero.1 this).resolve_right hs.ne'
  · rintro rfl
    simp

/-- Non-vacuity: a two-parameter problem meets the hypotheses. -/
example : FullRowRank (!![1, 2] : Matrix (Fin 1) (Fin 2) ℝ) ∧
    (!![2, 1; 1, 3] : Matrix (Fin 2) (Fin 2) ℝ).PosDef ∧
    (!![5] : Matrix (Fin 1) (Fin 1) ℝ).PosDef :=
  ⟨fun y => ⟨![y 0, 0], by ext i; fin_cases i; simp⟩, posDef_fin_two (by norm_num) (by norm_num),
    posDef_fin_one (by norm_num)⟩

/-- The exact statements at a case with correlated parameters, an offset and `alpha = 2`: the MUD point does not
minimise `'dc'`. -/
example {x : Fin 2 → ℝ} {f : (Fin 2 → ℝ) → ℝ}
    (hx : Returns (Api.solve "mud" (!![1, 2] : Matrix (Fin 1) (Fin 2) ℝ) ![3] ![1] ![0, 1] !![2, 1; 1, 3] !![5] 2) x)
    (hf : ∀ x', Api.functionals (!![1, 2] : Matrix (Fin 1) (Fin 2) ℝ) ![3] ![1] ![0, 1] !![2, 1; 1, 3] !![5] 2
      (oneSample x') "dc" = .ok (.one (.vec 1 ![f x']))) : ¬ ∀ x', f x ≤ f x' := by
  rw [C15_mud_exact _ (fun y => ⟨![y 0, 0], by ext i; fin_cases i; simp⟩) _ _ _ _ (posDef_fin_two (by norm_num) (by norm_num))
    _ (posDef_fin_one (by norm_num)) 2 two_pos hx hf]
  intro h
  have := congrFun h 0
  norm_num at this

/-- With two or more observations and a number of samples that is neither 1 nor the number of
observations every call raises `ValueError`, whatever is asked for. -/
theorem C15_shape_refuted (A : Matrix (Fin d) (Fin p) ℝ) (b y : Fin d → ℝ) (m : Fin p → ℝ)
    (S : Matrix (Fin p) (Fin p) ℝ) (C : Matrix (Fin d) (Fin d) ℝ) (α : ℝ)
    (X : Matrix (Fin N) (Fin p) ℝ) (terms : String) (hd : d ≠ 1) (hN : N ≠ 1) (h : N ≠ d) :
    Api.functionals A b y m S C α X terms = .error .valueError := by
  rw [Api.functionals, Api.new, new_typed, Py.ok_bind]
  simp only [LGP.compute_functionals, LGP.typed, Arr2.sub_col, Py.ok_bind, Arr2.T_mk,
    Arr2.matmul_mk, add_bcol, sub_row_error _ _ hd hN h, Py.error_bind]

/-- The value of `'bayes'` for the scalar problem `x + b = y`, unit covariances, zero mean. -/
theorem bayes_one_dim (b y α x : ℝ) :
    Api.functionals (!![1] : Matrix (Fin 1) (Fin 1) ℝ) ![b] ![y] ![0] 1 1 α (oneSample ![x]) "bayes"
      = .ok (.one (.vec 1 ![(x + 2 * b - y) ^ 2 + α * x ^ 2])) := by
  rw [functionals_eval _ _ _ _ _ _ _ _ (.inl rfl) (by simp) (by simp) (by simp [vecMul_transpose])]
  simp only [show ("bayes" : String) ≠ "data" by decide, show ("bayes" : String) ≠ "reg" by decide,
    show ("bayes" : String) ≠ "dc_term" by decide, show ("bayes" : String) ≠ "reg_m" by decide,
    if_false, if_true]
  congr 3
  funext j
  fin_cases j
  simp [fData, fReg, obsFor_one, oneSample, mahal, dotProduct, mulVec]
  ring

/-- With an offset the claim of C15 fails: the offset is added to the prediction and also
subtracted from the data, so the MAP point does not minimise the returned functional. -/
theorem C15_offset_refuted :
    ∃ (x : Fin 1 → ℝ) (v w : ℝ), 
      Returns (Api.solve "map" (!![1] : Matrix (Fin 1) (Fin 1) ℝ) ![1] ![1] ![0] 1 1 1) x ∧
      Api.functionals (!![1] : Matrix (Fin 1) (Fin 1) ℝ) ![1] ![1] ![0] 1 1 1 (oneSample x) "bayes"
        = .ok (.one (.vec 1 ![v])) ∧
      Api.functionals (!![1] : Matrix (Fin 1) (Fin 1) ℝ) ![1] ![1] ![0] 1 1 1
        (oneSample ![-1/2]) "bayes" = .ok (.one (.vec 1 ![w])) ∧ w < v := by
  refine ⟨![0], _, _, ?_, bayes_one_dim 1 1 1 0, bayes_one_dim 1 1 1 (-1/2), by norm_num⟩
  have h := map_one_dim 0 1 one_pos
  have e := C14_offset (!![1] : Matrix (Fin 1) (Fin 1) ℝ) ![0] ![0] ![1] ![0] 1 1 1 "map"
    (by simp [solveMethods])
  simp at e h
  rw [e]; exact h

/-- With `alpha ≠ 1` the claim of C15 fails: the solver regularises with
`(alpha cov_i)⁻¹`, the functional with `alpha cov_i⁻¹`. -/
theorem C15_alpha_refuted :
    ∃ (x : Fin 1 → ℝ) (v w : ℝ), 
      Returns (Api.solve "map" (!![1] : Matrix (Fin 1) (Fin 1) ℝ) ![0] ![1] ![0] 1 1 2) x ∧
      Api.functionals (!![1] : Matrix (Fin 1) (Fin 1) ℝ) ![0] ![1] ![0] 1 1 2 (oneSample x) "bayes"
        = .ok (.one (.vec 1 ![v])) ∧
      Api.functionals (!![1] : Matrix (Fin 1) (Fin 1) ℝ) ![0] ![1] ![0] 1 1 2
        (oneSample ![1/3]) "bayes" = .ok (.one (.vec 1 ![w])) ∧ w < v := by
  exact ⟨_, _, _, map_one_dim 1 2 two_pos, bayes_one_dim 0 1 2 _, bayes_one_dim 0 1 2 (1/3),
    by norm_num⟩

/-- With as many samples as observations the call succeeds but compares all predictions of
sample `j` with observation `j`: the data term does not vanish at an exact solution. -/
theorem C15_several_observations_refuted :
    ∃ x : Fin 2 → ℝ, (1 : Matrix (Fin 2) (Fin 2) ℝ) *ᵥ x + ![0, 0] = ![0, 1] ∧
      Api.functionals 1 ![0, 0] ![0, 1] ![0, 0] 1 1 1 (.of fun _ : Fin 2 => x) "data"
        = .ok (.one (.vec 2 ![1, 1])) := by
  refine ⟨![0, 1], by ext i; fin_cases i <;> simp, ?_⟩
  rw [functionals_eval _ _ _ _ _ _ _ _ (.inr rfl) (by simp) (by simp) (by simp)]
  simp only [if_true]
  refine congrArg (fun v => Except.ok (FunRes.one (NArr.vec 2 v))) (funext fun j => ?_)
  have e : ∀ c : ℝ, mahal (1 : Matrix (Fin 2) (Fin 2) ℝ)
      ((1 : Matrix (Fin 2) (Fin 2) ℝ) *ᵥ ![0, 1] + ![0, 0]) (fun _ => c) = c ^ 2 + (1 - c) ^ 2 := by
    intro c
    simp only [mahal, inv_one, one_mulVec, dotProduct, Fin.sum_univ_two]
    simp
    ring
  have h : fData (N := 2) 1 ![0, 0] ![0, 1] 1 (.of fun _ : Fin 2 => ![0, 1]) j
      = (![0, 1] j) ^ 2 + (1 - ![0, 1] j) ^ 2 := by
    refine (e _).trans ?_
    rw [obsFor_fin]; fin_cases j <;> simp
  rw [h]
  fin_cases j <;> simp

end Verif
