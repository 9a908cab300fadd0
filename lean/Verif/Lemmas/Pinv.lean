import Mathlib.Analysis.Matrix.PosDef
import Mathlib.Analysis.Matrix.Spectrum
import Mathlib.LinearAlgebra.Matrix.DotProduct
import Mathlib.Algebra.Order.Star.Real

/-!
Moore–Penrose pseudo-inverse of real matrices: definition by the four Penrose
equations, existence (via the spectral theorem for `Aᵀ A`), uniqueness, and the
algebra used in the property proofs.
-/

open Matrix

namespace Verif

set_option linter.unusedSectionVars false

variable {m n : Type*} [Fintype m] [Fintype n]

/-- The four Penrose equations: `B` is the Moore–Penrose inverse of `A`. -/
structure IsMP (A : Matrix m n ℝ) (B : Matrix n m ℝ) : Prop where
  aba : A * B * A = A
  bab : B * A * B = B
  symAB : (A * B)ᵀ = A * B
  symBA : (B * A)ᵀ = B * A

theorem IsMP.unique {A : Matrix m n ℝ} {B C : Matrix n m ℝ}
    (hB : IsMP A B) (hC : IsMP A C) : B = C := by
  have h1 : A * B = A * C := by
    calc A * B = (A * B)ᵀ := hB.symAB.symm
      _ = ((A * C * A) * B)ᵀ := by rw [hC.aba]
      _ = ((A * C) * (A * B))ᵀ := by simp only [Matrix.mul_assoc]
      _ = (A * B)ᵀ * (A * C)ᵀ := by rw [transpose_mul]
      _ = (A * B * A) * C := by rw [hB.symAB, hC.symAB]; simp only [Matrix.mul_assoc]
      _ = A * C := by rw [hB.aba]
  have h2 : B * A = C * A := by
    calc B * A = (B * A)ᵀ := hB.symBA.symm
      _ = (B * (A * C * A))ᵀ := by rw [hC.aba]
      _ = ((B * A) * (C * A))ᵀ := by simp only [Matrix.mul_assoc]
      _ = (C * A)ᵀ * (B * A)ᵀ := by rw [transpose_mul]
      _ = C * (A * B * A) := by rw [hB.symBA, hC.symBA]; simp only [Matrix.mul_assoc]
      _ = C * A := by rw [hB.aba]
  calc B = B * A * B := hB.bab.symm
    _ = C * (A * B) := by rw [h2, Matrix.mul_assoc]
    _ = C * (A * C) := by rw [h1]
    _ = C := by rw [← Matrix.mul_assoc, hC.bab]

/-- If `Mᵀ M = 0` then `M = 0` (real matrices). -/
theorem eq_zero_of_transpose_mul_self {M : Matrix m n ℝ} (h : Mᵀ * M = 0) : M = 0 := by
  have := Matrix.conjTranspose_mul_self_eq_zero (A := M)
  rw [conjTranspose_eq_transpose_of_trivial] at this
  exact this.1 h

/-- A symmetric real matrix has a (symmetric) Moore–Penrose inverse. -/
theorem exists_isMP_symm (G : Matrix n n ℝ) (hG : Gᵀ = G) :
    ∃ B, IsMP G B ∧ Bᵀ = B := by
  classical
  have hH : G.IsHermitian := by
    rw [Matrix.IsHermitian, conjTranspose_eq_transpose_of_trivial]; exact hG
  set U : Matrix n n ℝ := (hH.eigenvectorUnitary : Matrix n n ℝ) with hU
  set l : n → ℝ := hH.eigenvalues with hl
  have hUU : Uᵀ * U = 1 := by
    have := Unitary.coe_star_mul_self hH.eigenvectorUnitary
    rwa [Matrix.star_eq_conjTranspose, conjTranspose_eq_transpose_of_trivial] at this
  have hS : G = U * diagonal l * Uᵀ := by
    have := hH.spectral_theorem
    rw [Unitary.conjStarAlgAut_apply, Matrix.star_eq_conjTranspose,
      conjTranspose_eq_transpose_of_trivial] at this
    exact this
  have key : ∀ a b : n → ℝ, (U * diagonal a * Uᵀ) * (U * diagonal b * Uᵀ)
      = U * diagonal (fun i => a i * b i) * Uᵀ := by
    intro a b
    calc _ = U * diagonal a * (Uᵀ * U) * diagonal b * Uᵀ := by simp only [Matrix.mul_assoc]
      _ = _ := by rw [hUU, Matrix.mul_one, Matrix.mul_assoc U, diagonal_mul_diagonal]
  have keyT : ∀ a : n → ℝ, (U * diagonal a * Uᵀ)ᵀ = U * diagonal a * Uᵀ := by
    intro a; simp [transpose_mul, Matrix.mul_assoc]
  refine ⟨U * diagonal (fun i => (l i)⁻¹) * Uᵀ, ⟨?_, ?_, ?_, ?_⟩, keyT _⟩
  · rw [hS, key, key]; congr 3; funext i
    by_cases h : l i = 0 <;> simp [h]
  · rw [hS, key, key]; congr 3; funext i
    by_cases h : l i = 0 <;> simp [h]
  · rw [hS, key, keyT]
  · rw [hS, key, keyT]

/-- Every real matrix has a Moore–Penrose inverse. -/
theorem exists_isMP (A : Matrix m n ℝ) : ∃ B, IsMP A B := by
  classical
  obtain ⟨H, hH, hHs⟩ := exists_isMP_symm (Aᵀ * A) (by simp [transpose_mul])
  have h0 : A * (H * (Aᵀ * A) - 1) = 0 := by
    apply eq_zero_of_transpose_mul_self
    rw [transpose_mul]
    calc (H * (Aᵀ * A) - 1)ᵀ * Aᵀ * (A * (H * (Aᵀ * A) - 1))
        = (H * (Aᵀ * A) - 1)ᵀ * ((Aᵀ * A) * H * (Aᵀ * A) - Aᵀ * A) := by
          simp only [Matrix.mul_assoc, Matrix.mul_sub, Matrix.mul_one]
      _ = 0 := by rw [hH.aba]; simp
  have hA : A * H * (Aᵀ * A) = A := by
    have : A * (H * (Aᵀ * A)) - A = 0 := by simpa [Matrix.mul_sub] using h0
    rw [Matrix.mul_assoc]; exact sub_eq_zero.1 this
  refine ⟨H * Aᵀ, ⟨?_, ?_, ?_, ?_⟩⟩
  · rw [← Matrix.mul_assoc, Matrix.mul_assoc _ Aᵀ A]; exact hA
  · calc H * Aᵀ * A * (H * Aᵀ) = (H * (Aᵀ * A) * H) * Aᵀ := by simp only [Matrix.mul_assoc]
      _ = H * Aᵀ := by rw [hH.bab]
  · simp [transpose_mul, hHs, Matrix.mul_assoc]
  · rw [Matrix.mul_assoc]; exact hH.symBA

/-- The Moore–Penrose pseudo-inverse of a real matrix. -/
noncomputable def mpinv (A : Matrix m n ℝ) : Matrix n m ℝ := (exists_isMP A).choose

theorem mpinv_spec (A : Matrix m n ℝ) : IsMP A (mpinv A) := (exists_isMP A).choose_spec

theorem mpinv_eq {A : Matrix m n ℝ} {B : Matrix n m ℝ} (h : IsMP A B) : mpinv A = B :=
  (mpinv_spec A).unique h

theorem mpinv_smul (A : Matrix m n ℝ) {c : ℝ} (hc : c ≠ 0) : mpinv (c • A) = c⁻¹ • mpinv A := by
  have h := mpinv_spec A
  apply mpinv_eq
  constructor
  · simp [smul_smul, hc, h.aba]
  · simp [smul_smul, hc, h.bab]
  · simp [smul_smul, hc, h.symAB]
  · simp [smul_smul, hc, h.symBA]

theorem mpinv_transpose (A : Matrix m n ℝ) : mpinv Aᵀ = (mpinv A)ᵀ := by
  have h := mpinv_spec A
  apply mpinv_eq
  constructor
  · rw [← transpose_mul, ← transpose_mul, ← Matrix.mul_assoc, h.aba]
  · rw [← transpose_mul, ← transpose_mul, ← Matrix.mul_assoc, h.bab]
  · rw [← transpose_mul, transpose_transpose, h.symBA]
  · rw [← transpose_mul, transpose_transpose, h.symAB]

theorem mpinv_symm {A : Matrix n n ℝ} (h : Aᵀ = A) : (mpinv A)ᵀ = mpinv A := by
  rw [← mpinv_transpose, h]

/-- For an invertible matrix the pseudo-inverse is the inverse. -/
theorem mpinv_of_isUnit_det [DecidableEq n] {A : Matrix n n ℝ} (h : IsUnit A.det) : mpinv A = A⁻¹ := by
  apply mpinv_eq
  constructor <;> simp [Matrix.mul_nonsing_inv _ h, Matrix.nonsing_inv_mul _ h]

theorem mpinv_zero : mpinv (0 : Matrix m n ℝ) = 0 := by
  apply mpinv_eq; constructor <;> simp

end Verif
