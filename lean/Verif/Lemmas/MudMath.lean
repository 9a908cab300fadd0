import Verif.Lemmas.Pinv
import Mathlib.Analysis.Real.Sqrt

/-!
Matrix algebra behind the linear Gaussian solvers (independent of the model).
-/

open Matrix

namespace Verif

set_option linter.unusedSectionVars false

variable {d p k : Type*} [Fintype d] [Fintype p] [Fintype k]
  [DecidableEq d] [DecidableEq p] [DecidableEq k]

theorem posSemidef_transpose {S : Matrix p p ℝ} (h : S.PosSemidef) : Sᵀ = S := by
  have := h.isHermitian
  rwa [Matrix.IsHermitian, conjTranspose_eq_transpose_of_trivial] at this

/-- A positive semidefinite matrix factors as `Bᵀ B`. -/
theorem exists_factor {S : Matrix p p ℝ} (h : S.PosSemidef) : ∃ B : Matrix p p ℝ, S = Bᵀ * B := by
  classical
  have hH := h.isHermitian
  set U : Matrix p p ℝ := (hH.eigenvectorUnitary : Matrix p p ℝ) with hU
  set l : p → ℝ := hH.eigenvalues with hl
  have hS : S = U * diagonal l * Uᵀ := by
    have := hH.spectral_theorem
    rw [Unitary.conjStarAlgAut_apply, Matrix.star_eq_conjTranspose,
      conjTranspose_eq_transpose_of_trivial] at this
    exact this
  refine ⟨diagonal (fun i => Real.sqrt (l i)) * Uᵀ, ?_⟩
  rw [transpose_mul, transpose_transpose, diagonal_transpose, Matrix.mul_assoc,
    ← Matrix.mul_assoc (diagonal _) (diagonal _), diagonal_mul_diagonal]
  have : (fun i => Real.sqrt (l i) * Real.sqrt (l i)) = l := by
    funext i; exact Real.mul_self_sqrt (h.eigenvalues_nonneg i)
  rw [this, ← Matrix.mul_assoc]; exact hS

theorem posSemidef_conj {S : Matrix p p ℝ} (h : S.PosSemidef) (A : Matrix d p ℝ) :
    (A * S * Aᵀ).PosSemidef := by
  have := h.mul_mul_conjTranspose_same A
  rwa [conjTranspose_eq_transpose_of_trivial] at this

/-- `P P⁺ A S = A S` for `P = A S Aᵀ`, `S` positive semidefinite. -/
theorem proj_range {S : Matrix p p ℝ} (h : S.PosSemidef) (A : Matrix d p ℝ) :
    (A * S * Aᵀ) * mpinv (A * S * Aᵀ) * (A * S) = A * S := by
  obtain ⟨B, hB⟩ := exists_factor h
  set P := A * S * Aᵀ with hP
  set Y := A * Bᵀ with hY
  have hPY : P = Y * Yᵀ := by
    rw [hP, hB, hY, transpose_mul, transpose_transpose]; simp only [Matrix.mul_assoc]
  have hmp := mpinv_spec P
  have h0 : (P * mpinv P - 1) * Y = 0 := by
    have hz : ((P * mpinv P - 1) * Y) * ((P * mpinv P - 1) * Y)ᵀ = 0 := by
      rw [transpose_mul]
      calc (P * mpinv P - 1) * Y * (Yᵀ * (P * mpinv P - 1)ᵀ)
          = ((P * mpinv P - 1) * (Y * Yᵀ)) * (P * mpinv P - 1)ᵀ := by
            simp only [Matrix.mul_assoc]
        _ = 0 := by rw [← hPY, Matrix.sub_mul, hmp.aba, Matrix.one_mul, sub_self, Matrix.zero_mul]
    have := eq_zero_of_transpose_mul_self (M := ((P * mpinv P - 1) * Y)ᵀ)
      (by rw [transpose_transpose]; exact hz)
    simpa using congrArg transpose this
  have hAS : A * S = Y * B := by rw [hB, hY]; simp only [Matrix.mul_assoc]
  have := congrArg (· * B) h0
  simp only [Matrix.sub_mul, Matrix.zero_mul, Matrix.one_mul] at this
  rw [hAS, ← Matrix.mul_assoc]
  exact sub_eq_zero.1 this

/-- `A S P⁺ ...` transposed version: `S Aᵀ P⁺ P = S Aᵀ`. -/
theorem proj_range' {S : Matrix p p ℝ} (h : S.PosSemidef) (A : Matrix d p ℝ) :
    S * Aᵀ * mpinv (A * S * Aᵀ) * (A * S * Aᵀ) = S * Aᵀ := by
  have hS := posSemidef_transpose h
  have hP : (A * S * Aᵀ)ᵀ = A * S * Aᵀ := posSemidef_transpose (posSemidef_conj h A)
  have := congrArg transpose (proj_range h A)
  rw [transpose_mul, transpose_mul, transpose_mul, mpinv_symm hP, hP, hS] at this
  simpa only [Matrix.mul_assoc] using this

theorem dot_mulVec_transpose (A : Matrix d p ℝ) (u : d → ℝ) (v : p → ℝ) :
    u ⬝ᵥ (A *ᵥ v) = (Aᵀ *ᵥ u) ⬝ᵥ v := by
  rw [dotProduct_mulVec, mulVec_transpose]

/-- Symmetric bilinear expansion of a quadratic form. -/
theorem quad_add {M : Matrix p p ℝ} (hM : Mᵀ = M) (u v : p → ℝ) :
    (u + v) ⬝ᵥ (M *ᵥ (u + v)) = u ⬝ᵥ (M *ᵥ u) + 2 * (u ⬝ᵥ (M *ᵥ v)) + v ⬝ᵥ (M *ᵥ v) := by
  have : v ⬝ᵥ (M *ᵥ u) = u ⬝ᵥ (M *ᵥ v) := by
    rw [dot_mulVec_transpose, hM, dotProduct_comm]
  rw [mulVec_add, add_dotProduct, dotProduct_add, dotProduct_add, this]; ring

theorem inv_symm {M : Matrix p p ℝ} (hM : Mᵀ = M) : (M⁻¹)ᵀ = M⁻¹ := by
  rw [transpose_nonsing_inv, hM]

theorem posDef_det_ne {M : Matrix p p ℝ} (h : M.PosDef) : M.det ≠ 0 := h.det_pos.ne'

theorem posDef_isUnit_det {M : Matrix p p ℝ} (h : M.PosDef) : IsUnit M.det :=
  isUnit_iff_ne_zero.2 h.det_pos.ne'

theorem quad_nonneg {M : Matrix p p ℝ} (h : M.PosSemidef) (x : p → ℝ) : 0 ≤ x ⬝ᵥ (M *ᵥ x) := by
  simpa using h.dotProduct_mulVec_nonneg x

theorem quad_pos {M : Matrix p p ℝ} (h : M.PosDef) {x : p → ℝ} (hx : x ≠ 0) :
    0 < x ⬝ᵥ (M *ᵥ x) := by
  simpa using h.dotProduct_mulVec_pos hx

/-- `A S Aᵀ` is positive definite when `A` has linearly independent rows and `S` is
positive definite. -/
theorem posDef_conj {S : Matrix p p ℝ} (h : S.PosDef) (A : Matrix d p ℝ)
    (hA : ∀ u : d → ℝ, Aᵀ *ᵥ u = 0 → u = 0) : (A * S * Aᵀ).PosDef := by
  have h' := posSemidef_conj h.posSemidef A
  refine Matrix.PosDef.of_dotProduct_mulVec_pos h'.isHermitian fun u hu => ?_
  have hne : Aᵀ *ᵥ u ≠ 0 := fun h0 => hu (hA u h0)
  have := quad_pos h hne
  have e : star u ⬝ᵥ ((A * S * Aᵀ) *ᵥ u) = (Aᵀ *ᵥ u) ⬝ᵥ (S *ᵥ (Aᵀ *ᵥ u)) := by
    rw [star_trivial, ← mulVec_mulVec, ← mulVec_mulVec, dot_mulVec_transpose]
  rw [e]; exact this

section updated
variable {S : Matrix p p ℝ} {A : Matrix d p ℝ} {C : Matrix d d ℝ}

/-- `up = (S - K P Kᵀ) + K C Kᵀ` is positive semidefinite. -/
theorem upd_posSemidef (hS : S.PosSemidef) (hC : C.PosSemidef) :
    (S - S * Aᵀ * mpinv (A * S * Aᵀ) * (A * S * Aᵀ - C) * (S * Aᵀ * mpinv (A * S * Aᵀ))ᵀ).PosSemidef := by
  set P := A * S * Aᵀ with hP
  set K := S * Aᵀ * mpinv P with hK
  have hSt := posSemidef_transpose hS
  have hPt : Pᵀ = P := posSemidef_transpose (posSemidef_conj hS A)
  have hmp := mpinv_spec P
  have hKt : Kᵀ = mpinv P * (A * S) := by
    rw [hK, transpose_mul, mpinv_symm hPt, transpose_mul, transpose_transpose, hSt]
  have hKP : K * P = S * Aᵀ := proj_range' hS A
  have e1 : K * P * Kᵀ = K * A * S := by
    rw [hKP, hKt, hK]; simp only [Matrix.mul_assoc]
  have e2 : S - K * P * Kᵀ = (1 - K * A) * S * (1 - K * A)ᵀ := by
    have hT : (K * A)ᵀ = Aᵀ * Kᵀ := transpose_mul _ _
    rw [transpose_sub, transpose_one, hT, Matrix.sub_mul, Matrix.one_mul, Matrix.mul_sub,
      Matrix.mul_one, Matrix.sub_mul]
    have e3 : K * A * S * (Aᵀ * Kᵀ) = K * P * Kᵀ := by
      rw [hP]; simp only [Matrix.mul_assoc]
    have e4 : S * (Aᵀ * Kᵀ) = K * P * Kᵀ := by rw [hKP]; simp only [Matrix.mul_assoc]
    rw [e3, e4, e1]; abel
  have e5 : S - K * (P - C) * Kᵀ = (1 - K * A) * S * (1 - K * A)ᵀ + K * C * Kᵀ := by
    rw [← e2, Matrix.mul_sub, Matrix.sub_mul]; abel
  rw [e5]
  exact (posSemidef_conj hS _).add (posSemidef_conj hC _)

/-- Push-forward of the updated covariance, general form. -/
theorem upd_push (hS : S.PosSemidef) :
    A * (S - S * Aᵀ * mpinv (A * S * Aᵀ) * (A * S * Aᵀ - C) * (S * Aᵀ * mpinv (A * S * Aᵀ))ᵀ) * Aᵀ
      = (A * S * Aᵀ) * mpinv (A * S * Aᵀ) * C * ((A * S * Aᵀ) * mpinv (A * S * Aᵀ)) := by
  set P := A * S * Aᵀ with hP
  set K := S * Aᵀ * mpinv P with hK
  have hmp := mpinv_spec P
  have hAK : A * K = P * mpinv P := by rw [hK, hP]; simp only [Matrix.mul_assoc]
  have hKA : Kᵀ * Aᵀ = P * mpinv P := by rw [← transpose_mul, hAK, hmp.symAB]
  have hPt : Pᵀ = P := posSemidef_transpose (posSemidef_conj hS A)
  have hcomm : mpinv P * P = P * mpinv P := by
    rw [← hmp.symAB, transpose_mul, hPt, mpinv_symm hPt]
  calc A * (S - K * (P - C) * Kᵀ) * Aᵀ
      = P - (A * K) * (P - C) * (Kᵀ * Aᵀ) := by
        rw [Matrix.mul_sub, Matrix.sub_mul, hP]; simp only [Matrix.mul_assoc]
    _ = P - (P * mpinv P) * (P - C) * (P * mpinv P) := by rw [hAK, hKA]
    _ = P - (P * mpinv P * P) * (P * mpinv P) + P * mpinv P * C * (P * mpinv P) := by
        rw [Matrix.mul_sub, Matrix.sub_mul]; abel
    _ = P * mpinv P * C * (P * mpinv P) := by
        rw [hmp.aba, ← hcomm, ← Matrix.mul_assoc, hmp.aba]; abel

/-- `up Aᵀ = K C` when the predicted covariance is invertible. -/
theorem upd_mul_transpose (hP : IsUnit (A * S * Aᵀ).det) (hSt : Sᵀ = S) :
    (S - S * Aᵀ * (A * S * Aᵀ)⁻¹ * (A * S * Aᵀ - C) * (S * Aᵀ * (A * S * Aᵀ)⁻¹)ᵀ) * Aᵀ
      = S * Aᵀ * (A * S * Aᵀ)⁻¹ * C := by
  have hPt : (A * S * Aᵀ)ᵀ = A * S * Aᵀ := by
    rw [transpose_mul, transpose_mul, transpose_transpose, hSt, Matrix.mul_assoc]
  set P := A * S * Aᵀ with hPd
  have hKA : (S * Aᵀ * P⁻¹)ᵀ * Aᵀ = 1 := by
    rw [transpose_mul, transpose_mul, transpose_transpose, inv_symm hPt, hSt, Matrix.mul_assoc,
      ← hPd, nonsing_inv_mul _ hP]
  rw [Matrix.sub_mul, Matrix.mul_assoc _ _ Aᵀ, hKA, Matrix.mul_one, Matrix.mul_sub,
    Matrix.mul_assoc (S * Aᵀ) P⁻¹ P, nonsing_inv_mul _ hP, Matrix.mul_one]
  abel

/-- Closed form of the updated covariance. -/
theorem upd_closed (hSt : Sᵀ = S) (hSu : IsUnit S.det) (hC : IsUnit C.det) (hP : IsUnit (A * S * Aᵀ).det) :
    (S - S * Aᵀ * (A * S * Aᵀ)⁻¹ * (A * S * Aᵀ - C) * (S * Aᵀ * (A * S * Aᵀ)⁻¹)ᵀ)
      * (Aᵀ * (C⁻¹ - (A * S * Aᵀ)⁻¹) * A + S⁻¹) = 1 := by
  have hPt : (A * S * Aᵀ)ᵀ = A * S * Aᵀ := by
    rw [transpose_mul, transpose_mul, transpose_transpose, hSt, Matrix.mul_assoc]
  have hk := upd_mul_transpose (A := A) (S := S) (C := C) hP hSt
  set P := A * S * Aᵀ with hPd
  set K := S * Aᵀ * P⁻¹ with hK
  set U := S - K * (P - C) * Kᵀ with hU
  have hKt : Kᵀ = P⁻¹ * A * S := by
    rw [hK, transpose_mul, transpose_mul, transpose_transpose, inv_symm hPt, hSt, Matrix.mul_assoc]
  have e1 : U * (Aᵀ * (C⁻¹ - P⁻¹) * A) = K * A - K * C * P⁻¹ * A := by
    calc U * (Aᵀ * (C⁻¹ - P⁻¹) * A) = (U * Aᵀ) * (C⁻¹ - P⁻¹) * A := by simp only [Matrix.mul_assoc]
      _ = K * (C * C⁻¹) * A - K * C * P⁻¹ * A := by
        rw [hk, Matrix.mul_sub, Matrix.sub_mul]; simp only [Matrix.mul_assoc]
      _ = _ := by rw [mul_nonsing_inv _ hC, Matrix.mul_one]
  have e2 : U * S⁻¹ = 1 - K * (P - C) * P⁻¹ * A := by
    rw [hU, Matrix.sub_mul, mul_nonsing_inv _ hSu, hKt]
    congr 1
    calc K * (P - C) * (P⁻¹ * A * S) * S⁻¹ = K * (P - C) * (P⁻¹ * A) * (S * S⁻¹) := by
          simp only [Matrix.mul_assoc]
      _ = _ := by rw [mul_nonsing_inv _ hSu, Matrix.mul_one]; simp only [Matrix.mul_assoc]
  rw [Matrix.mul_add, e1, e2, Matrix.mul_sub, Matrix.sub_mul, Matrix.sub_mul, Matrix.mul_assoc K P P⁻¹,
    mul_nonsing_inv _ hP, Matrix.mul_one]
  abel

end updated

section woodbury
variable {S : Matrix p p ℝ} {A : Matrix d p ℝ} {C : Matrix d d ℝ}

theorem map_posDef (hS : S.PosDef) (hC : C.PosDef) : (Aᵀ * C⁻¹ * A + S⁻¹).PosDef := by
  have h1 : (Aᵀ * C⁻¹ * A).PosSemidef := by
    have := posSemidef_conj hC.inv.posSemidef Aᵀ
    rwa [transpose_transpose] at this
  exact Matrix.PosDef.posSemidef_add h1 hS.inv

theorem gain_posDef (hS : S.PosDef) (hC : C.PosDef) : (A * S * Aᵀ + C).PosDef :=
  Matrix.PosDef.posSemidef_add (posSemidef_conj hS.posSemidef A) hC

/-- Woodbury identity for the MAP covariance. -/
theorem map_woodbury (hS : S.PosDef) (hC : C.PosDef) :
    (Aᵀ * C⁻¹ * A + S⁻¹)⁻¹ = S - S * Aᵀ * (A * S * Aᵀ + C)⁻¹ * (A * S) := by
  have hSu := posDef_isUnit_det hS
  have hCu := posDef_isUnit_det hC
  have hG := posDef_isUnit_det (gain_posDef (A := A) hS hC)
  apply inv_eq_right_inv
  set G := A * S * Aᵀ + C with hGd
  have e : (Aᵀ * C⁻¹ * A + S⁻¹) * (S * Aᵀ) = Aᵀ * C⁻¹ * G := by
    rw [Matrix.add_mul, ← Matrix.mul_assoc S⁻¹, nonsing_inv_mul _ hSu, Matrix.one_mul, hGd,
      Matrix.mul_add, Matrix.mul_assoc Aᵀ C⁻¹ C, nonsing_inv_mul _ hCu, Matrix.mul_one]
    simp only [Matrix.mul_assoc]
  calc (Aᵀ * C⁻¹ * A + S⁻¹) * (S - S * Aᵀ * G⁻¹ * (A * S))
      = (Aᵀ * C⁻¹ * A + S⁻¹) * S - ((Aᵀ * C⁻¹ * A + S⁻¹) * (S * Aᵀ)) * G⁻¹ * (A * S) := by
        rw [Matrix.mul_sub]; simp only [Matrix.mul_assoc]
    _ = (Aᵀ * C⁻¹ * A * S + 1) - Aᵀ * C⁻¹ * (G * G⁻¹) * (A * S) := by
        rw [e, Matrix.add_mul, nonsing_inv_mul _ hSu]; simp only [Matrix.mul_assoc]
    _ = 1 := by
        rw [mul_nonsing_inv _ hG, Matrix.mul_one]; simp only [Matrix.mul_assoc]; abel

/-- The gain of the MAP point in its two forms. -/
theorem map_gain (hS : S.PosDef) (hC : C.PosDef) :
    (Aᵀ * C⁻¹ * A + S⁻¹)⁻¹ * Aᵀ * C⁻¹ = S * Aᵀ * (A * S * Aᵀ + C)⁻¹ := by
  have hSu := posDef_isUnit_det hS
  have hCu := posDef_isUnit_det hC
  have hG := posDef_isUnit_det (gain_posDef (A := A) hS hC)
  have hH := posDef_isUnit_det (map_posDef (A := A) hS hC)
  set G := A * S * Aᵀ + C with hGd
  have e : (Aᵀ * C⁻¹ * A + S⁻¹) * (S * Aᵀ) = Aᵀ * C⁻¹ * G := by
    rw [Matrix.add_mul, ← Matrix.mul_assoc S⁻¹, nonsing_inv_mul _ hSu, Matrix.one_mul, hGd,
      Matrix.mul_add, Matrix.mul_assoc Aᵀ C⁻¹ C, nonsing_inv_mul _ hCu, Matrix.mul_one]
    simp only [Matrix.mul_assoc]
  calc (Aᵀ * C⁻¹ * A + S⁻¹)⁻¹ * Aᵀ * C⁻¹ = (Aᵀ * C⁻¹ * A + S⁻¹)⁻¹ * (Aᵀ * C⁻¹ * G) * G⁻¹ := by
        rw [Matrix.mul_assoc _ _ G⁻¹, Matrix.mul_assoc _ G, mul_nonsing_inv _ hG, Matrix.mul_one, Matrix.mul_assoc]
    _ = S * Aᵀ * G⁻¹ := by
        rw [← e, ← Matrix.mul_assoc, nonsing_inv_mul _ hH, Matrix.one_mul]

end woodbury

end Verif
