import Verif.Props.UpdatedLaw
import Mathlib.Data.Matrix.ColumnRowPartitioned

/-!
# C161: data used in batches
-/

open Matrix

namespace Verif

/-- A batch of data about `p` parameters: `y = A λ + b + noise`, noise covariance `C`. -/
structure Batch (p : ℕ) where
  d : ℕ
  A : Matrix (Fin d) (Fin p) ℝ
  b : Fin d → ℝ
  y : Fin d → ℝ
  C : Matrix (Fin d) (Fin d) ℝ

variable {p : ℕ}

/-- The script `for B in batches: mean, cov = f(B.A, B.b, B.y, mean, cov, B.C)`. -/
def useBatches (f : NArr → NArr → NArr → NArr → Arr2 → Arr2 → Py (NArr × Arr2)) :
    List (Batch p) → NArr → Arr2 → Py (NArr × Arr2)
  | [], mean, cov => .ok (mean, cov)
  | B :: Bs, mean, cov => do
    let r ← f (.mat ⟨B.d, p, B.A⟩) (.vec B.d B.b) (.vec B.d B.y) mean cov ⟨B.d, B.d, B.C⟩
    useBatches f Bs r.1 r.2

/-- `map_sol_with_cov(A, b, y, mean, cov, data_cov)`. -/
noncomputable def Api.mapCov (A b y mean : NArr) (cov data_cov : Arr2) : Py (NArr × Arr2) :=
  mapSolWithCov A (some b) (some y) (some mean) (some cov) (some data_cov)

/-- `mud_sol_with_cov(A, b, y, mean, cov, data_cov)`. -/
noncomputable def Api.mudCov (A b y mean : NArr) (cov data_cov : Arr2) : Py (NArr × Arr2) :=
  mudSolWithCov A (some b) (some y) (some mean) (some cov) (some data_cov)

/-- Two batches as one: the rows below each other, independent noise. -/
abbrev Batch.join (B B' : Batch p) : Batch p where
  d := B.d + B'.d
  A := .of fun i j => Fin.append (fun k => B.A k j) (fun k => B'.A k j) i
  b := Fin.append B.b B'.b
  y := Fin.append B.y B'.y
  C := (fromBlocks B.C 0 0 B'.C).submatrix finSumFinEquiv.symm finSumFinEquiv.symm

/-- The misfit of a batch. -/
noncomputable def Batch.misfit (B : Batch p) (x : Fin p → ℝ) : ℝ := mahal B.C (B.A *ᵥ x + B.b) B.y

/-! ### Algebra -/

theorem mapCov_typed {d : ℕ} (A : Matrix (Fin d) (Fin p) ℝ) (b y : Fin d → ℝ) (m : Fin p → ℝ)
    {S : Matrix (Fin p) (Fin p) ℝ} (hS : S.PosDef) {C : Matrix (Fin d) (Fin d) ℝ} (hC : C.PosDef) :
    Api.mapCov (.mat ⟨d, p, A⟩) (.vec d b) (.vec d y) (.vec p m) ⟨p, p, S⟩ ⟨d, d, C⟩ =
      .ok (.vec p (m + ((mapH A S C)⁻¹ * Aᵀ * C⁻¹) *ᵥ (y - b - A *ᵥ m)), ⟨p, p, (mapH A S C)⁻¹⟩) := by
  have hH : (mapH A S C).PosDef := map_posDef hS hC
  have e : (1 : ℝ) • S = S := one_smul _ _
  rw [Api.mapCov, mapSolWithCov, linProb, new_typed, Py.ok_bind, LGP.solveArr,
    solve_map _ _ (locals_typed ..), mapBranch_typed _ _ _ _ _ m _ _ rfl, e,
    if_neg (by rw [not_or, not_or]; exact ⟨posDef_det_ne hC, posDef_det_ne hS, posDef_det_ne hH⟩)]
  simp [ravelUnless2, ndimOpt, getAttr]

theorem misfit_square {d : ℕ} (A : Matrix (Fin d) (Fin p) ℝ) (b y : Fin d → ℝ) (m : Fin p → ℝ)
    {S : Matrix (Fin p) (Fin p) ℝ} (hS : S.PosDef) {C : Matrix (Fin d) (Fin d) ℝ} (hC : C.PosDef) :
    ∃ c : ℝ, ∀ x', mahal C (A *ᵥ x' + b) y + mahal S x' m =
      c + mahal (mapH A S C)⁻¹ x' (m + ((mapH A S C)⁻¹ * Aᵀ * C⁻¹) *ᵥ (y - b - A *ᵥ m)) := by
  generalize hx : m + ((mapH A S C)⁻¹ * Aᵀ * C⁻¹) *ᵥ (y - b - A *ᵥ m) = x
  refine ⟨(x - m) ⬝ᵥ (S⁻¹ *ᵥ (x - m)) + (y - (A *ᵥ x + b)) ⬝ᵥ (C⁻¹ *ᵥ (y - (A *ᵥ x + b))), fun x' => ?_⟩
  have h := map_square A b y m hS hC x' hx.symm
  have e : mahal C (A *ᵥ x' + b) y = (y - (A *ᵥ x' + b)) ⬝ᵥ (C⁻¹ *ᵥ (y - (A *ᵥ x' + b))) := by
    rw [mahal, ← neg_sub, mulVec_neg, neg_dotProduct_neg]
  rw [e, mahal, add_comm, h, mahal]

theorem batches_run (Bs : List (Batch p)) (hB : ∀ B ∈ Bs, B.C.PosDef) : ∀ (m : Fin p → ℝ)
    (S : Matrix (Fin p) (Fin p) ℝ), S.PosDef →
    ∃ (x : Fin p → ℝ) (V : Matrix (Fin p) (Fin p) ℝ),
      useBatches Api.mapCov Bs (.vec p m) ⟨p, p, S⟩ = .ok (.vec p x, ⟨p, p, V⟩) ∧ V.PosDef ∧
      V⁻¹ = S⁻¹ + (Bs.map fun B => B.Aᵀ * B.C⁻¹ * B.A).sum ∧
      ∃ c : ℝ, ∀ x', mahal S x' m + (Bs.map fun B => B.misfit x').sum = c + mahal V x' x := by
  induction Bs with
  | nil => exact fun m S hS => ⟨m, S, rfl, hS, by simp, 0, by simp⟩
  | cons B Bs ih =>
    intro m S hS
    have hC := hB B (by simp)
    have hH : (mapH B.A S B.C).PosDef := map_posDef hS hC
    obtain ⟨c, hc⟩ := misfit_square B.A B.b B.y m hS hC
    obtain ⟨x, V, h1, h2, h3, c', hc'⟩ := ih (fun B' h => hB B' (by simp [h]))
      (m + ((mapH B.A S B.C)⁻¹ * B.Aᵀ * B.C⁻¹) *ᵥ (B.y - B.b - B.A *ᵥ m)) _ hH.inv
    refine ⟨x, V, ?_, h2, ?_, c + c', fun x' => ?_⟩
    · rw [useBatches, mapCov_typed _ _ _ _ hS hC, Py.ok_bind]; exact h1
    · rw [h3, nonsing_inv_nonsing_inv _ (posDef_isUnit_det hH), mapH, List.map_cons, List.sum_cons]; abel
    · have e1 := hc x'
      have e2 := hc' x'
      rw [List.map_cons, List.sum_cons, Batch.misfit]
      linarith

theorem mahal_self (S : Matrix (Fin p) (Fin p) ℝ) (x : Fin p → ℝ) : mahal S x x = 0 := by
  simp [mahal]

theorem mahal_pos {S : Matrix (Fin p) (Fin p) ℝ} (hS : S.PosDef) {x m : Fin p → ℝ} (h : x ≠ m) :
    0 < mahal S x m := quad_pos hS.inv (sub_ne_zero.2 h)

/-! ### MAP -/

/-- **C161, MAP.** Using any number of batches one after the other, the MAP point and covariance of each
being the initial mean and covariance for the next, returns the unique minimiser of the sum of all misfits
and the initial distance, and the covariance whose inverse collects the information of all batches. -/
theorem C161_map_batches (Bs : List (Batch p)) (hB : ∀ B ∈ Bs, B.C.PosDef) (m : Fin p → ℝ)
    (S : Matrix (Fin p) (Fin p) ℝ) (hS : S.PosDef) :
    ∃ (x : Fin p → ℝ) (V : Matrix (Fin p) (Fin p) ℝ),
      useBatches Api.mapCov Bs (.vec p m) ⟨p, p, S⟩ = .ok (.vec p x, ⟨p, p, V⟩) ∧ V.PosDef ∧
      V⁻¹ = S⁻¹ + (Bs.map fun B => B.Aᵀ * B.C⁻¹ * B.A).sum ∧
      ∀ x', x' ≠ x → mahal S x m + (Bs.map fun B => B.misfit x).sum <
        mahal S x' m + (Bs.map fun B => B.misfit x').sum := by
  obtain ⟨x, V, h1, h2, h3, c, hc⟩ := batches_run Bs hB m S hS
  refine ⟨x, V, h1, h2, h3, fun x' hx => ?_⟩
  rw [hc, hc, mahal_self]
  linarith [mahal_pos h2 hx]

theorem batches_eq {Bs Bs' : List (Batch p)} (hB : ∀ B ∈ Bs, B.C.PosDef) (hB' : ∀ B ∈ Bs', B.C.PosDef)
    (m : Fin p → ℝ) (S : Matrix (Fin p) (Fin p) ℝ) (hS : S.PosDef)
    (hi : (Bs.map fun B => B.Aᵀ * B.C⁻¹ * B.A).sum = (Bs'.map fun B => B.Aᵀ * B.C⁻¹ * B.A).sum)
    (hm : ∀ x, (Bs.map fun B => B.misfit x).sum = (Bs'.map fun B => B.misfit x).sum) :
    useBatches Api.mapCov Bs (.vec p m) ⟨p, p, S⟩ = useBatches Api.mapCov Bs' (.vec p m) ⟨p, p, S⟩ := by
  obtain ⟨x, V, h1, h2, h3, h4⟩ := C161_map_batches Bs hB m S hS
  obtain ⟨x', V', h1', h2', h3', h4'⟩ := C161_map_batches Bs' hB' m S hS
  have hV : V = V' := by
    rw [← nonsing_inv_nonsing_inv V (posDef_isUnit_det h2), h3, hi, ← h3',
      nonsing_inv_nonsing_inv V' (posDef_isUnit_det h2')]
  have hx : x = x' := by
    by_contra hne
    have e1 := h4 x' (Ne.symm hne)
    have e2 := h4' x hne
    rw [hm, hm] at e1
    exact lt_asymm e1 e2
  rw [h1, h1', hV, hx]

/-- The order of the batches is irrelevant. -/
theorem C161_map_order {Bs Bs' : List (Batch p)} (h : Bs.Perm Bs') (hB : ∀ B ∈ Bs, B.C.PosDef)
    (m : Fin p → ℝ) (S : Matrix (Fin p) (Fin p) ℝ) (hS : S.PosDef) :
    useBatches Api.mapCov Bs (.vec p m) ⟨p, p, S⟩ = useBatches Api.mapCov Bs' (.vec p m) ⟨p, p, S⟩ :=
  batches_eq hB (fun B hb => hB B (h.mem_iff.2 hb)) m S hS (h.map _).sum_eq fun _ => (h.map _).sum_eq

section join
variable (B B' : Batch p)

theorem Batch.join_A : (B.join B').A = (fromRows B.A B'.A).submatrix finSumFinEquiv.symm id := by
  ext i j
  refine Fin.addCases (fun i => ?_) (fun i => ?_) i
  · show Fin.append (fun k => B.A k j) (fun k => B'.A k j) (Fin.castAdd B'.d i) = _
    rw [Fin.append_left]; simp
  · show Fin.append (fun k => B.A k j) (fun k => B'.A k j) (Fin.natAdd B.d i) = _
    rw [Fin.append_right]; simp

theorem append_eq {d d' : ℕ} (u : Fin d → ℝ) (v : Fin d' → ℝ) :
    Fin.append u v = Sum.elim u v ∘ finSumFinEquiv.symm := by
  funext i
  refine Fin.addCases (fun i => ?_) (fun i => ?_) i <;> simp

theorem Batch.join_inv (hB : B.C.PosDef) (hB' : B'.C.PosDef) : (B.join B').C⁻¹ =
    (fromBlocks B.C⁻¹ 0 0 B'.C⁻¹).submatrix finSumFinEquiv.symm finSumFinEquiv.symm := by
  refine inv_eq_left_inv ?_
  rw [show (B.join B').C = (fromBlocks B.C 0 0 B'.C).submatrix finSumFinEquiv.symm finSumFinEquiv.symm from rfl,
    submatrix_mul_equiv, fromBlocks_multiply]
  simp [nonsing_inv_mul _ (posDef_isUnit_det hB), nonsing_inv_mul _ (posDef_isUnit_det hB'), submatrix_one_equiv]

theorem Batch.join_posDef (hB : B.C.PosDef) (hB' : B'.C.PosDef) : (B.join B').C.PosDef := by
  have h : (fromBlocks B.C 0 0 B'.C).PosDef := by
    refine Matrix.PosDef.of_dotProduct_mulVec_pos ?_ fun x hx => ?_
    · have h1 := hB.isHermitian
      have h2 := hB'.isHermitian
      rw [Matrix.IsHermitian] at h1 h2 ⊢
      rw [fromBlocks_conjTranspose, h1, h2]; simp
    · have e : star x ⬝ᵥ (fromBlocks B.C 0 0 B'.C *ᵥ x) =
          (x ∘ Sum.inl) ⬝ᵥ (B.C *ᵥ (x ∘ Sum.inl)) + (x ∘ Sum.inr) ⬝ᵥ (B'.C *ᵥ (x ∘ Sum.inr)) := by
        rw [fromBlocks_mulVec, star_trivial]
        simp [dotProduct, Fintype.sum_sum_type]
      rw [e]
      by_cases h0 : x ∘ Sum.inl = 0
      · have h1 : x ∘ Sum.inr ≠ 0 := by
          intro h1
          refine hx (funext fun i => ?_)
          rcases i with i | i
          exacts [congrFun h0 i, congrFun h1 i]
        linarith [quad_pos hB' h1, quad_nonneg hB.posSemidef (x ∘ Sum.inl)]
      · linarith [quad_pos hB h0, quad_nonneg hB'.posSemidef (x ∘ Sum.inr)]
  exact h.submatrix finSumFinEquiv.symm.injective

theorem Batch.join_info (hB : B.C.PosDef) (hB' : B'.C.PosDef) :
    (B.join B').Aᵀ * (B.join B').C⁻¹ * (B.join B').A = B.Aᵀ * B.C⁻¹ * B.A + B'.Aᵀ * B'.C⁻¹ * B'.A := by
  rw [B.join_inv B' hB hB', B.join_A, transpose_submatrix, submatrix_mul_equiv, submatrix_mul_equiv,
    transpose_fromRows, fromCols_mul_fromBlocks, fromCols_mul_fromRows]
  simp

theorem Batch.join_misfit (hB : B.C.PosDef) (hB' : B'.C.PosDef) (x : Fin p → ℝ) :
    (B.join B').misfit x = B.misfit x + B'.misfit x := by
  rw [Batch.misfit, mahal, B.join_inv B' hB hB', B.join_A]
  have e : (fromRows B.A B'.A).submatrix finSumFinEquiv.symm id *ᵥ x + (B.join B').b - (B.join B').y =
      Sum.elim (B.A *ᵥ x + B.b - B.y) (B'.A *ᵥ x + B'.b - B'.y) ∘ finSumFinEquiv.symm := by
    rw [show (B.join B').b = Fin.append B.b B'.b from rfl, show (B.join B').y = Fin.append B.y B'.y from rfl,
      append_eq, append_eq]
    funext i
    simp only [Pi.add_apply, Pi.sub_apply, Function.comp_apply, mulVec, submatrix_apply]
    rcases finSumFinEquiv.symm i with j | j <;> simp [mulVec, dotProduct]
  rw [e]
  have e2 : (fromBlocks B.C⁻¹ 0 0 B'.C⁻¹).submatrix finSumFinEquiv.symm finSumFinEquiv.symm *ᵥ
      (Sum.elim (B.A *ᵥ x + B.b - B.y) (B'.A *ᵥ x + B'.b - B'.y) ∘ finSumFinEquiv.symm) =
      Sum.elim (B.C⁻¹ *ᵥ (B.A *ᵥ x + B.b - B.y)) (B'.C⁻¹ *ᵥ (B'.A *ᵥ x + B'.b - B'.y)) ∘
        finSumFinEquiv.symm := by
    rw [submatrix_mulVec_equiv, fromBlocks_mulVec]
    simp [Function.comp_assoc]
  rw [e2, dotProduct]
  simp only [Function.comp_apply]
  rw [Equiv.sum_comp finSumFinEquiv.symm (fun i => Sum.elim (B.A *ᵥ x + B.b - B.y)
    (B'.A *ᵥ x + B'.b - B'.y) i * Sum.elim (B.C⁻¹ *ᵥ (B.A *ᵥ x + B.b - B.y))
    (B'.C⁻¹ *ᵥ (B'.A *ᵥ x + B'.b - B'.y)) i), Fintype.sum_sum_type]
  rfl

end join

/-- Two batches one after the other give the MAP point and covariance of one call with all the data, at any
point of the sequence. -/
theorem C161_map_joint (B B' : Batch p) (Bs : List (Batch p)) (hB : B.C.PosDef) (hB' : B'.C.PosDef)
    (hBs : ∀ B ∈ Bs, B.C.PosDef) (m : Fin p → ℝ) (S : Matrix (Fin p) (Fin p) ℝ) (hS : S.PosDef) :
    useBatches Api.mapCov (B :: B' :: Bs) (.vec p m) ⟨p, p, S⟩ =
      useBatches Api.mapCov (B.join B' :: Bs) (.vec p m) ⟨p, p, S⟩ := by
  have hJ := B.join_posDef B' hB hB'
  refine batches_eq (by simp [hB, hB']; exact hBs) (by simp [hJ]; exact hBs) m S hS ?_ fun x => ?_
  · simp only [List.map_cons, List.sum_cons, B.join_info B' hB hB']; abel
  · simp only [List.map_cons, List.sum_cons, B.join_misfit B' hB hB']; ring

/-! ### MUD -/

theorem mudCov_typed {d : ℕ} (A : Matrix (Fin d) (Fin p) ℝ) (b y : Fin d → ℝ) (m : Fin p → ℝ)
    {S : Matrix (Fin p) (Fin p) ℝ} (hS : Sᵀ = S) {C : Matrix (Fin d) (Fin d) ℝ} (hC : C.det ≠ 0)
    (hP : (A * S * Aᵀ).det ≠ 0) :
    Api.mudCov (.mat ⟨d, p, A⟩) (.vec d b) (.vec d y) (.vec p m) ⟨p, p, S⟩ ⟨d, d, C⟩ =
      .ok (.vec p (mudF A (y - b - A *ᵥ m) m S), ⟨p, p, upF A S C⟩) := by
  obtain ⟨x, U, h1, h2, h3⟩ := C04_mud_sol_with_cov A b y m S hS C hP hC
  have hx := returns_unique ((C01_mud_sol A b y m S C x).1 h2) (api_mud' A b y m S C 1 one_ne_zero)
  have hU : (Except.ok ⟨p, p, upF A S C⟩ : Py Arr2) = .ok ⟨p, p, U⟩ := by
    rw [← h3]; simp [funsUpdatedCov, updatedCovBody_typed]
  rw [Api.mudCov, h1, hx]
  injection hU with hU
  rw [hU]

section mud
variable {d d' : ℕ} {A : Matrix (Fin d) (Fin p) ℝ} {A' : Matrix (Fin d') (Fin p) ℝ}
  {S : Matrix (Fin p) (Fin p) ℝ}

theorem gainF_eq {d : ℕ} {A : Matrix (Fin d) (Fin p) ℝ} (hP : (A * S * Aᵀ).det ≠ 0) :
    gainF A S = S * Aᵀ * (A * S * Aᵀ)⁻¹ := by
  rw [gainF, mpinv_of_isUnit_det (isUnit_iff_ne_zero.2 hP)]

theorem upF_mul_orth (hS : Sᵀ = S) (hA : A * S * A'ᵀ = 0) (C : Matrix (Fin d) (Fin d) ℝ) :
    upF A S C * A'ᵀ = S * A'ᵀ := by
  have h : (S * Aᵀ * mpinv (A * S * Aᵀ))ᵀ * A'ᵀ = 0 := by
    have hPt : (A * S * Aᵀ)ᵀ = A * S * Aᵀ := by
      simp only [transpose_mul, transpose_transpose, hS, Matrix.mul_assoc]
    rw [transpose_mul, transpose_mul, transpose_transpose, hS, mpinv_symm hPt, Matrix.mul_assoc, hA,
      Matrix.mul_zero]
  rw [upF, Matrix.sub_mul, Matrix.mul_assoc _ _ A'ᵀ, h, Matrix.mul_zero, sub_zero]

theorem join_pred (hS : Sᵀ = S) (hA : A * S * A'ᵀ = 0) :
    fromRows A A' * S * (fromRows A A')ᵀ = fromBlocks (A * S * Aᵀ) 0 0 (A' * S * A'ᵀ) := by
  have hA2 : A' * S * Aᵀ = 0 := by
    have h := congrArg transpose hA
    rwa [transpose_mul, transpose_mul, transpose_transpose, hS, ← Matrix.mul_assoc, transpose_zero] at h
  rw [fromRows_mul, transpose_fromRows, fromRows_mul_fromCols, hA, hA2]

theorem inv_blocks {M : Matrix (Fin d) (Fin d) ℝ} {M' : Matrix (Fin d') (Fin d') ℝ} (hM : M.det ≠ 0)
    (hM' : M'.det ≠ 0) : (fromBlocks M 0 0 M')⁻¹ = fromBlocks M⁻¹ 0 0 M'⁻¹ := by
  refine inv_eq_left_inv ?_
  rw [fromBlocks_multiply]
  simp [nonsing_inv_mul _ (isUnit_iff_ne_zero.2 hM), nonsing_inv_mul _ (isUnit_iff_ne_zero.2 hM')]

end mud

section two
variable (B B' : Batch p) {S : Matrix (Fin p) (Fin p) ℝ}

theorem Batch.join_pred (hS : Sᵀ = S) (hA : B.A * S * B'.Aᵀ = 0) :
    (B.join B').A * S * (B.join B').Aᵀ =
      (fromBlocks (B.A * S * B.Aᵀ) 0 0 (B'.A * S * B'.Aᵀ)).submatrix finSumFinEquiv.symm finSumFinEquiv.symm := by
  rw [B.join_A, transpose_submatrix, ← Verif.join_pred hS hA]
  rfl

theorem Batch.join_gain (hS : Sᵀ = S) (hA : B.A * S * B'.Aᵀ = 0) (hP : (B.A * S * B.Aᵀ).det ≠ 0)
    (hP' : (B'.A * S * B'.Aᵀ).det ≠ 0) :
    gainF (B.join B').A S = (fromCols (gainF B.A S) (gainF B'.A S)).submatrix id finSumFinEquiv.symm := by
  have hu : IsUnit ((B.join B').A * S * (B.join B').Aᵀ).det := by
    rw [B.join_pred B' hS hA, isUnit_iff_ne_zero, det_submatrix_equiv_self, det_fromBlocks_zero₁₂]
    exact mul_ne_zero hP hP'
  rw [gainF, mpinv_of_isUnit_det hu, B.join_pred B' hS hA, inv_submatrix_equiv, inv_blocks hP hP', B.join_A,
    transpose_submatrix, gainF_eq hP, gainF_eq hP', transpose_fromRows]
  have e : S * (fromCols B.Aᵀ B'.Aᵀ).submatrix id finSumFinEquiv.symm =
      (fromCols (S * B.Aᵀ) (S * B'.Aᵀ)).submatrix id finSumFinEquiv.symm := by
    rw [← mul_fromCols]; rfl
  rw [e, submatrix_mul_equiv, fromCols_mul_fromBlocks]
  simp

theorem Batch.join_residual (x : Fin p → ℝ) :
    (B.join B').y - (B.join B').b - (B.join B').A *ᵥ x =
      Sum.elim (B.y - B.b - B.A *ᵥ x) (B'.y - B'.b - B'.A *ᵥ x) ∘ finSumFinEquiv.symm := by
  rw [show (B.join B').b = Fin.append B.b B'.b from rfl, show (B.join B').y = Fin.append B.y B'.y from rfl,
    append_eq, append_eq, B.join_A]
  funext i
  simp only [Pi.sub_apply, Function.comp_apply, mulVec, submatrix_apply]
  rcases finSumFinEquiv.symm i with j | j <;> simp [mulVec, dotProduct]

theorem Batch.join_det (hB : B.C.det ≠ 0) (hB' : B'.C.det ≠ 0) : (B.join B').C.det ≠ 0 := by
  rw [show (B.join B').C = (fromBlocks B.C 0 0 B'.C).submatrix finSumFinEquiv.symm finSumFinEquiv.symm from rfl,
    det_submatrix_equiv_self, det_fromBlocks_zero₁₂]
  exact mul_ne_zero hB hB'

theorem upF_gain {d : ℕ} (A : Matrix (Fin d) (Fin p) ℝ) (S : Matrix (Fin p) (Fin p) ℝ)
    (C : Matrix (Fin d) (Fin d) ℝ) : upF A S C = S - gainF A S * (A * S * Aᵀ - C) * (gainF A S)ᵀ := rfl

/-- **C161, MUD.** For MUD this holds if the predictions of the two batches are uncorrelated. -/
theorem C161_mud_uncorrelated_partial (hS : Sᵀ = S) (hA : B.A * S * B'.Aᵀ = 0) (hBt : B.Cᵀ = B.C)
    (hB : B.C.det ≠ 0) (hB' : B'.C.det ≠ 0) (hP : (B.A * S * B.Aᵀ).det ≠ 0) (hP' : (B'.A * S * B'.Aᵀ).det ≠ 0)
    (m : Fin p → ℝ) :
    useBatches Api.mudCov [B, B'] (.vec p m) ⟨p, p, S⟩ =
      useBatches Api.mudCov [B.join B'] (.vec p m) ⟨p, p, S⟩ := by
  have hu : ((B.join B').A * S * (B.join B').Aᵀ).det ≠ 0 := by
    rw [B.join_pred B' hS hA, det_submatrix_equiv_self, det_fromBlocks_zero₁₂]
    exact mul_ne_zero hP hP'
  have hA2 : B'.A * S * B.Aᵀ = 0 := by
    have h := congrArg transpose hA
    rwa [transpose_mul, transpose_mul, transpose_transpose, hS, ← Matrix.mul_assoc, transpose_zero] at h
  have hPt : (B.A * S * B.Aᵀ)ᵀ = B.A * S * B.Aᵀ := by
    simp only [transpose_mul, transpose_transpose, hS, Matrix.mul_assoc]
  have hUt : (upF B.A S B.C)ᵀ = upF B.A S B.C := by
    rw [upF_gain, transpose_sub, transpose_mul, transpose_mul, transpose_transpose, transpose_sub, hPt, hBt, hS,
      Matrix.mul_assoc (gainF B.A S)]
  have hU := upF_mul_orth (A := B.A) (A' := B'.A) hS hA B.C
  have hPU : B'.A * upF B.A S B.C * B'.Aᵀ = B'.A * S * B'.Aᵀ := by
    rw [Matrix.mul_assoc, hU, ← Matrix.mul_assoc]
  have hG : gainF B'.A (upF B.A S B.C) = gainF B'.A S := by rw [gainF, gainF, hU, hPU]
  have hx : B'.A *ᵥ mudF B.A (B.y - B.b - B.A *ᵥ m) m S = B'.A *ᵥ m := by
    rw [mudF, mulVec_add, mulVec_mulVec, ← Matrix.mul_assoc, ← Matrix.mul_assoc, hA2, Matrix.zero_mul,
      zero_mulVec, add_zero]
  rw [useBatches, useBatches, mudCov_typed _ _ _ _ hS hB hP, Py.ok_bind, useBatches,
    mudCov_typed _ _ _ _ hUt hB' (by rw [hPU]; exact hP'), Py.ok_bind,
    mudCov_typed _ _ _ _ hS (B.join_det B' hB hB') hu, Py.ok_bind, useBatches, useBatches]
  have e1 : mudF B'.A (B'.y - B'.b - B'.A *ᵥ mudF B.A (B.y - B.b - B.A *ᵥ m) m S)
      (mudF B.A (B.y - B.b - B.A *ᵥ m) m S) (upF B.A S B.C) =
      mudF (B.join B').A ((B.join B').y - (B.join B').b - (B.join B').A *ᵥ m) m S := by
    rw [hx, mudF, ← gainF, hG, mudF, mudF, ← gainF, ← gainF, B.join_gain B' hS hA hP hP', B.join_residual B',
      add_assoc]
    congr 1
    have : (fromCols (gainF B.A S) (gainF B'.A S)).submatrix id finSumFinEquiv.symm *ᵥ
        (Sum.elim (B.y - B.b - B.A *ᵥ m) (B'.y - B'.b - B'.A *ᵥ m) ∘ finSumFinEquiv.symm) =
        fromCols (gainF B.A S) (gainF B'.A S) *ᵥ
          Sum.elim (B.y - B.b - B.A *ᵥ m) (B'.y - B'.b - B'.A *ᵥ m) := by
      rw [submatrix_mulVec_equiv]
      simp [Function.comp_assoc]
    rw [this, fromCols_mulVec]
    simp
  have e2 : upF B'.A (upF B.A S B.C) B'.C = upF (B.join B').A S (B.join B').C := by
    rw [upF_gain, hG, hPU, upF_gain, upF_gain, B.join_gain B' hS hA hP hP', B.join_pred B' hS hA]
    have : (fromBlocks (B.A * S * B.Aᵀ) 0 0 (B'.A * S * B'.Aᵀ)).submatrix finSumFinEquiv.symm
        finSumFinEquiv.symm - (B.join B').C =
        (fromBlocks (B.A * S * B.Aᵀ - B.C) 0 0 (B'.A * S * B'.Aᵀ - B'.C)).submatrix finSumFinEquiv.symm
          finSumFinEquiv.symm := by
      rw [show (B.join B').C = (fromBlocks B.C 0 0 B'.C).submatrix finSumFinEquiv.symm finSumFinEquiv.symm
        from rfl]
      ext i j
      rw [Matrix.sub_apply, submatrix_apply, submatrix_apply, submatrix_apply]
      rcases finSumFinEquiv.symm i with i | i <;> rcases finSumFinEquiv.symm j with j | j <;> simp
    rw [this, submatrix_mul_equiv, transpose_submatrix, submatrix_mul_equiv, fromCols_mul_fromBlocks,
      transpose_fromCols, fromCols_mul_fromRows]
    simp [sub_sub]
  rw [e1, e2]

end two

theorem join_fullRowRank (B B' : Batch p) (h : ∀ y y', ∃ x, B.A *ᵥ x = y ∧ B'.A *ᵥ x = y') :
    FullRowRank (B.join B').A := by
  intro y
  obtain ⟨x, h1, h2⟩ := h (fun i => y (Fin.castAdd B'.d i)) (fun i => y (Fin.natAdd B.d i))
  refine ⟨x, funext fun i => ?_⟩
  rw [B.join_A]
  refine Fin.addCases (fun i => ?_) (fun i => ?_) i
  · rw [← congrFun h1 i]; simp [mulVec, dotProduct]
  · rw [← congrFun h2 i]; simp [mulVec, dotProduct]

theorem mudF_reproduces {d : ℕ} {A : Matrix (Fin d) (Fin p) ℝ} {S : Matrix (Fin p) (Fin p) ℝ}
    (hP : (A * S * Aᵀ).det ≠ 0) (b y : Fin d → ℝ) (m : Fin p → ℝ) :
    A *ᵥ mudF A (y - b - A *ᵥ m) m S = y - b := by
  rw [mudF, ← gainF, mulVec_add, mulVec_mulVec, gain_one A hP, one_mulVec]; abel

/-- Exactly then: for jointly attainable data, MUD in two batches is MUD with all the data, whatever the data
are, if and only if the predictions of the batches are uncorrelated under the initial distribution. -/
theorem C161_mud_exact {d d' : ℕ} (A : Matrix (Fin d) (Fin p) ℝ) (A' : Matrix (Fin d') (Fin p) ℝ)
    (b : Fin d → ℝ) (b' : Fin d' → ℝ) (m : Fin p → ℝ) (S : Matrix (Fin p) (Fin p) ℝ) (hS : S.PosDef)
    (C : Matrix (Fin d) (Fin d) ℝ) (hC : C.PosDef) (C' : Matrix (Fin d') (Fin d') ℝ) (hC' : C'.PosDef)
    (hr : ∀ y y', ∃ x, A *ᵥ x = y ∧ A' *ᵥ x = y') :
    (∀ y y', useBatches Api.mudCov [⟨d, A, b, y, C⟩, ⟨d', A', b', y', C'⟩] (.vec p m) ⟨p, p, S⟩ =
      useBatches Api.mudCov [Batch.join ⟨d, A, b, y, C⟩ ⟨d', A', b', y', C'⟩] (.vec p m) ⟨p, p, S⟩) ↔
    A * S * A'ᵀ = 0 := by
  have hSt := posSemidef_transpose hS.posSemidef
  have hA : FullRowRank A := fun y => (hr y 0).imp fun x h => h.1
  have hA' : FullRowRank A' := fun y => (hr 0 y).imp fun x h => h.2
  have hP := posDef_det_ne (posDef_conj hS A hA.inj)
  have hP' := posDef_det_ne (posDef_conj hS A' hA'.inj)
  refine ⟨fun h => ?_, fun h0 y y' => C161_mud_uncorrelated_partial ⟨d, A, b, y, C⟩ ⟨d', A', b', y', C'⟩ hSt h0
    (posSemidef_transpose hC.posSemidef) (posDef_det_ne hC) (posDef_det_ne hC') hP hP' m⟩
  have hUs : (upF A S C).PosSemidef := upd_posSemidef hS.posSemidef hC.posSemidef
  have hUd : (upF A S C).det ≠ 0 := by
    obtain ⟨U, h1, -, h2, h3⟩ := C07_full_rank A hA S hS C hC (LGP.typed A b b m S C 1)
    have hU : (Except.ok ⟨p, p, upF A S C⟩ : Py Arr2) = .ok ⟨p, p, U⟩ := by
      rw [← h1]; simp [funsUpdatedCov, updatedCovBody_typed]
    injection hU with hU
    injection hU with _ _ hU
    rw [hU, h3, det_nonsing_inv]
    exact (isUnit_iff_ne_zero.2 h2).ringInverse.ne_zero
  have hU := posSemidef_posDef hUs hUd
  have hQ := posDef_det_ne (posDef_conj hU A' hA'.inj)
  have hUt := posSemidef_transpose hUs
  -- the first batch is still reproduced
  have key : ∀ w, A *ᵥ (gainF A' (upF A S C) *ᵥ w) = 0 := by
    intro w
    set x₁ := mudF A (0 - b - A *ᵥ m) m S with hx₁
    have e := h 0 (w + b' + A' *ᵥ x₁)
    have hJ := join_fullRowRank ⟨d, A, b, 0, C⟩ ⟨d', A', b', w + b' + A' *ᵥ x₁, C'⟩ hr
    have hJP := posDef_det_ne (posDef_conj hS _ hJ.inj)
    rw [useBatches, useBatches, mudCov_typed _ _ _ _ hSt (posDef_det_ne hC) hP, Py.ok_bind, useBatches,
      mudCov_typed _ _ _ _ hUt (posDef_det_ne hC') hQ, Py.ok_bind,
      mudCov_typed _ _ _ _ hSt (Batch.join_det _ _ (posDef_det_ne hC) (posDef_det_ne hC')) hJP, Py.ok_bind,
      useBatches, useBatches] at e
    injection e with e
    have e := congrArg Prod.fst e
    dsimp only at e
    injection e with _ e
    rw [← hx₁] at e
    have hx₂ : mudF A' (w + b' + A' *ᵥ x₁ - b' - A' *ᵥ x₁) x₁ (upF A S C) = x₁ + gainF A' (upF A S C) *ᵥ w := by
      rw [mudF, ← gainF]; congr 2; abel
    rw [hx₂] at e
    have e3 := mudF_reproduces hJP (Batch.join ⟨d, A, b, 0, C⟩ ⟨d', A', b', w + b' + A' *ᵥ x₁, C'⟩).b
      (Batch.join ⟨d, A, b, 0, C⟩ ⟨d', A', b', w + b' + A' *ᵥ x₁, C'⟩).y m
    have e4 := mudF_reproduces hP b 0 m
    rw [← hx₁] at e4
    rw [← e] at e3
    have e5 : A *ᵥ (x₁ + gainF A' (upF A S C) *ᵥ w) = 0 - b := by
      funext i
      have := congrFun e3 (Fin.castAdd d' i)
      simpa [mulVec, dotProduct] using this
    rw [mulVec_add, e4] at e5
    simpa using e5
  have hAG : A * gainF A' (upF A S C) = 0 := by
    refine Matrix.ext_of_mulVec_single fun i => ?_
    rw [← mulVec_mulVec, key, zero_mulVec]
  have hAU : A * upF A S C * A'ᵀ = 0 := by
    rw [gainF_eq hQ] at hAG
    have := congrArg (· * (A' * upF A S C * A'ᵀ)) hAG
    rwa [Matrix.zero_mul, Matrix.mul_assoc A, nonsing_inv_mul_cancel_right _ _ (isUnit_iff_ne_zero.2 hQ),
      ← Matrix.mul_assoc] at this
  have hPt : (A * S * Aᵀ)ᵀ = A * S * Aᵀ := by
    simp only [transpose_mul, transpose_transpose, hSt, Matrix.mul_assoc]
  have hAU2 : A * upF A S C = C * (A * S * Aᵀ)⁻¹ * (A * S) := by
    have hGt : (gainF A S)ᵀ = (A * S * Aᵀ)⁻¹ * (A * S) := by
      rw [gainF_eq hP, transpose_mul, transpose_mul, transpose_transpose, hSt, transpose_nonsing_inv, hPt]
    rw [upF_gain, Matrix.mul_sub, ← Matrix.mul_assoc, ← Matrix.mul_assoc, gain_one A hP, Matrix.one_mul, hGt,
      Matrix.sub_mul, mul_nonsing_inv_cancel_left _ _ (isUnit_iff_ne_zero.2 hP), sub_sub_cancel, ← Matrix.mul_assoc]
  rw [hAU2, Matrix.mul_assoc (C * _), Matrix.mul_assoc C] at hAU
  have := congrArg (fun M => A * S * Aᵀ * (C⁻¹ * M)) hAU
  rwa [Matrix.mul_zero, Matrix.mul_zero, nonsing_inv_mul_cancel_left _ _ (posDef_isUnit_det hC),
    mul_nonsing_inv_cancel_left _ _ (isUnit_iff_ne_zero.2 hP)] at this

/-- The claim for MUD: two batches are as good as one call with all the data. -/
def C161_mud_claim : Prop :=
  ∀ (p : ℕ) (B B' : Batch p) (m : Fin p → ℝ) (S : Matrix (Fin p) (Fin p) ℝ), S.PosDef → B.C.PosDef →
    B'.C.PosDef → (∀ y y', ∃ x, B.A *ᵥ x = y ∧ B'.A *ᵥ x = y') →
    useBatches Api.mudCov [B, B'] (.vec p m) ⟨p, p, S⟩ =
      useBatches Api.mudCov [B.join B'] (.vec p m) ⟨p, p, S⟩

theorem C161_claim_refuted : ¬ C161_mud_claim := by
  intro h
  have hI : (1 : Matrix (Fin 2) (Fin 2) ℝ).PosDef := Matrix.PosDef.one
  have h1 : (1 : Matrix (Fin 1) (Fin 1) ℝ).PosDef := Matrix.PosDef.one
  have hr : ∀ y y' : Fin 1 → ℝ, ∃ x, (!![1, 0] : Matrix (Fin 1) (Fin 2) ℝ) *ᵥ x = y ∧
      (!![1, 1] : Matrix (Fin 1) (Fin 2) ℝ) *ᵥ x = y' := fun y y' =>
    ⟨![y 0, y' 0 - y 0], by ext i; fin_cases i; simp, by ext i; fin_cases i; simp⟩
  have e := (C161_mud_exact !![1, 0] !![1, 1] 0 0 0 1 hI 1 h1 1 h1 hr).1
    fun y y' => h 2 ⟨1, !![1, 0], 0, y, 1⟩ ⟨1, !![1, 1], 0, y', 1⟩ 0 1 hI h1 h1 hr
  have := congrFun (congrFun e 0) 0
  simp [Matrix.mul_apply] at this

/-! ### Concrete cases -/

/-- `C161_map_batches`, `C161_map_order`: two parameters, a batch of two noisy observations and a batch of one. -/
example : ∃ (Bs Bs' : List (Batch 2)) (S : Matrix (Fin 2) (Fin 2) ℝ), Bs.Perm Bs' ∧ Bs ≠ Bs' ∧ Bs.length = 2 ∧
    (∀ B ∈ Bs, B.C.PosDef) ∧ S.PosDef := by
  refine ⟨[⟨2, !![1, 2; 0, 1], ![1, 0], ![3, 4], !![2, 1; 1, 1]⟩, ⟨1, !![1, 1], ![0], ![5], !![4]⟩],
    [⟨1, !![1, 1], ![0], ![5], !![4]⟩, ⟨2, !![1, 2; 0, 1], ![1, 0], ![3, 4], !![2, 1; 1, 1]⟩], !![2, 1; 1, 3],
    List.Perm.swap _ _ _, ?_, rfl, ?_, posDef_fin_two (by norm_num) (by norm_num)⟩
  · intro h
    injection h with h _
    injection h with h
    omega
  · intro B hB
    rw [List.mem_cons, List.mem_singleton] at hB
    rcases hB with rfl | rfl
    exacts [posDef_fin_two (by norm_num) (by norm_num), posDef_fin_one (by norm_num)]

/-- `C161_mud_uncorrelated_partial`: correlated initial parameters, predictions that are not. -/
example : ∃ (B B' : Batch 2) (S : Matrix (Fin 2) (Fin 2) ℝ), Sᵀ = S ∧ S 0 1 ≠ 0 ∧ B.A * S * B'.Aᵀ = 0 ∧
    B.Cᵀ = B.C ∧ B.C.det ≠ 0 ∧ B'.C.det ≠ 0 ∧ (B.A * S * B.Aᵀ).det ≠ 0 ∧ (B'.A * S * B'.Aᵀ).det ≠ 0 := by
  refine ⟨⟨1, !![1, 0], ![0], ![1], !![2]⟩, ⟨1, !![1, -2], ![0], ![1], !![3]⟩, !![2, 1; 1, 3], ?_, ?_, ?_, ?_, ?_,
    ?_, ?_, ?_⟩
  · ext i j; fin_cases i <;> fin_cases j <;> simp
  · simp
  · ext i j; fin_cases i; fin_cases j; simp [Matrix.mul_apply, Fin.sum_univ_two]
  · ext i j; fin_cases i; fin_cases j; simp
  · simp
  · simp
  · rw [det_fin_one]; simp [Matrix.mul_apply, Fin.sum_univ_two]
  · rw [det_fin_one]; simp [Matrix.mul_apply, Fin.sum_univ_two]; norm_num

/-- `C161_mud_exact`: both sides of the equivalence occur. -/
example : (!![1, 0] : Matrix (Fin 1) (Fin 2) ℝ) * (!![2, 1; 1, 3] : Matrix (Fin 2) (Fin 2) ℝ) *
      (!![1, -2] : Matrix (Fin 1) (Fin 2) ℝ)ᵀ = 0 ∧
    (!![1, 0] : Matrix (Fin 1) (Fin 2) ℝ) * (!![2, 1; 1, 3] : Matrix (Fin 2) (Fin 2) ℝ) *
      (!![0, 1] : Matrix (Fin 1) (Fin 2) ℝ)ᵀ ≠ 0 ∧
    (!![2, 1; 1, 3] : Matrix (Fin 2) (Fin 2) ℝ).PosDef ∧ (!![2] : Matrix (Fin 1) (Fin 1) ℝ).PosDef ∧
    (∀ y y' : Fin 1 → ℝ, ∃ x, (!![1, 0] : Matrix (Fin 1) (Fin 2) ℝ) *ᵥ x = y ∧
      (!![0, 1] : Matrix (Fin 1) (Fin 2) ℝ) *ᵥ x = y') ∧
    ∀ y y' : Fin 1 → ℝ, ∃ x, (!![1, 0] : Matrix (Fin 1) (Fin 2) ℝ) *ᵥ x = y ∧
      (!![1, -2] : Matrix (Fin 1) (Fin 2) ℝ) *ᵥ x = y' := by
  refine ⟨?_, ?_, posDef_fin_two (by norm_num) (by norm_num), posDef_fin_one (by norm_num), fun y y' => ?_,
    fun y y' => ?_⟩
  · ext i j; fin_cases i; fin_cases j; simp [Matrix.mul_apply, Fin.sum_univ_two]
  · intro h
    have := congrFun (congrFun h 0) 0
    simp [Matrix.mul_apply, Fin.sum_univ_two] at this
  · exact ⟨![y 0, y' 0], by ext i; fin_cases i; simp, by ext i; fin_cases i; simp⟩
  · exact ⟨![y 0, (y 0 - y' 0) / 2], by ext i; fin_cases i; simp, by
      ext i; fin_cases i; simp⟩

end Verif
