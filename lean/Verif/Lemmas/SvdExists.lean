import Verif.Model.Svd
import Mathlib.Analysis.InnerProductSpace.SingularValues
import Mathlib.Analysis.InnerProductSpace.PiL2

/-!
# Every real matrix has a singular value decomposition

So the hypothesis `IsSvd A o` of the theorems about `null_space` and `rank_decomposition` can be met
for every matrix.
-/

open Matrix InnerProductSpace

namespace Verif

variable {M N : ℕ}

theorem orthBasis_mul {n : ℕ} (b : OrthonormalBasis (Fin n) ℝ (EuclideanSpace ℝ (Fin n))) :
    (Matrix.of fun i j : Fin n => b i j) * (Matrix.of fun i j : Fin n => b i j)ᵀ = 1 := by
  ext i j
  rw [Matrix.mul_apply, Matrix.one_apply, ← orthonormal_iff_ite.1 b.orthonormal i j,
    PiLp.inner_apply]
  refine Finset.sum_congr rfl fun k _ => ?_
  simp only [Matrix.of_apply, Matrix.transpose_apply, RCLike.inner_apply, conj_trivial]
  exact mul_comm _ _

/-- Right singular vectors and singular values. -/
theorem exists_right (T : EuclideanSpace ℝ (Fin N) →ₗ[ℝ] EuclideanSpace ℝ (Fin M)) :
    ∃ (v : OrthonormalBasis (Fin N) ℝ (EuclideanSpace ℝ (Fin N))) (σ : ℕ → ℝ),
      (∀ i, 0 ≤ σ i) ∧ Antitone σ ∧ (∀ i, σ i ≠ 0 → i < M ∧ i < N) ∧
      ∀ i j : Fin N, ⟪T (v i), T (v j)⟫_ℝ = if i = j then σ i ^ 2 else 0 := by
  have hn : Module.finrank ℝ (EuclideanSpace ℝ (Fin N)) = N := by simp
  have hσ0 : ∀ i, 0 ≤ T.singularValues i := T.singularValues_nonneg
  refine ⟨T.isSymmetric_adjoint_comp_self.eigenvectorBasis hn, fun i => T.singularValues i, hσ0,
    T.singularValues_antitone, fun i hi => ?_, fun i j => ?_⟩
  · have h1 : i < Module.finrank ℝ T.range :=
      T.singularValues_pos_iff_lt_finrank_range.1 (lt_of_le_of_ne (hσ0 i) (Ne.symm hi))
    have h2 : Module.finrank ℝ T.range ≤ M := by
      simpa using Submodule.finrank_le T.range
    have h3 : Module.finrank ℝ T.range ≤ N := by
      simpa using LinearMap.finrank_range_le T
    omega
  · rw [← LinearMap.adjoint_inner_right]
    have h1 := T.isSymmetric_adjoint_comp_self.apply_eigenvectorBasis hn j
    have h2 := T.sq_singularValues_fin hn j
    rw [LinearMap.comp_apply] at h1
    rw [h1, ← h2, inner_smul_right, orthonormal_iff_ite.1 (OrthonormalBasis.orthonormal _) i j]
    by_cases hij : i = j
    · subst hij; simp
    · simp [hij]

theorem exists_isSvd (A : Matrix (Fin M) (Fin N) ℝ) : ∃ o, IsSvd A o := by
  classical
  obtain ⟨T, hT⟩ : ∃ T : EuclideanSpace ℝ (Fin N) →ₗ[ℝ] EuclideanSpace ℝ (Fin M),
    ∀ x r, T x r = ∑ j, A r j * x j := ⟨Matrix.toEuclideanLin A, fun x r => rfl⟩
  obtain ⟨v, σ, hσ0, hanti, hrank, hin⟩ := exists_right T
  -- the left singular vectors
  set w : Fin M → EuclideanSpace ℝ (Fin M) := fun i =>
    if h : (i : ℕ) < N then (σ i)⁻¹ • T (v ⟨i, h⟩) else 0 with hw
  set S : Set (Fin M) := {i | σ i ≠ 0} with hS
  have hon : Orthonormal ℝ (S.domRestrict w) := by
    rw [orthonormal_iff_ite]
    rintro ⟨i, hi⟩ ⟨j, hj⟩
    have hi' : σ i ≠ 0 := hi
    have hj' : σ j ≠ 0 := hj
    simp only [Set.domRestrict_apply, hw, (hrank i hi').2, (hrank j hj').2, dif_pos, inner_smul_left,
      inner_smul_right, hin]
    by_cases hij : i = j
    · subst hij
      simp
      field_simp
    · have h1 : ¬ (i : ℕ) = j := fun h => hij (Fin.ext h)
      simp [hij, h1]
  obtain ⟨b, hb⟩ := hon.exists_orthonormalBasis_extension_of_card_eq (by simp)
  refine ⟨⟨.of fun r i => b i r, List.ofFn fun i : Fin (min M N) => σ i, .of fun i j => v i j⟩,
    ?_, ?_, by simp, ?_, ?_, ?_⟩
  · exact orthBasis_mul b
  · exact orthBasis_mul v
  · intro x hx
    obtain ⟨i, rfl⟩ := (List.mem_ofFn' _ _).1 hx
    exact hσ0 _
  · rw [List.pairwise_ofFn]
    intro i j hij
    exact hanti (by exact_mod_cast hij.le)
  · have horth := orthBasis_mul v
    have key : A * (Matrix.of fun (i j : Fin N) => v i j)ᵀ =
        (Matrix.of fun (r i : Fin M) => b i r) *
          diagOf M N (List.ofFn fun i : Fin (min M N) => σ i) := by
      ext r j
      have h1 : (A * (Matrix.of fun (i j : Fin N) => v i j)ᵀ) r j = T (v j) r := by
        rw [hT, Matrix.mul_apply]; rfl
      rw [h1, Matrix.mul_apply]
      have hd : ∀ i : Fin M, diagOf M N (List.ofFn fun i : Fin (min M N) => σ i) i j =
          if (i : ℕ) = j then σ j else 0 := by
        intro i
        unfold diagOf
        rw [Matrix.of_apply]
        split_ifs with h
        · rw [List.getD_eq_getElem?_getD, List.getElem?_ofFn, dif_pos (by have := i.2; have := j.2; omega)]
          simp [h]
        · rfl
      simp only [hd, Matrix.of_apply]
      by_cases h0 : σ j = 0
      · have : T (v j) = 0 := by
          rw [← inner_self_eq_zero (𝕜 := ℝ), hin, if_pos rfl, h0]; norm_num
        rw [this]
        simp [h0]
      · have hj := hrank j h0
        rw [Finset.sum_eq_single (⟨j, hj.1⟩ : Fin M)]
        · have hbj : b ⟨j, hj.1⟩ = w ⟨j, hj.1⟩ := hb _ h0
          rw [hbj]
          simp only [hw, hj.2, dif_pos, if_true]
          simp
          field_simp
        · intro i _ hi
          have : ¬ (i : ℕ) = j := fun h => hi (Fin.ext h)
          simp [this]
        · simp
    rw [← key, Matrix.mul_assoc, mul_eq_one_comm.1 horth, Matrix.mul_one]

end Verif
