import Verif.Props.Linear
import Mathlib.Topology.Instances.Matrix
import Mathlib.Analysis.Matrix.Normed

/-!
# C142: small changes of a problem change its estimates little
-/

open Matrix Filter Topology

namespace Verif

variable {d p : ℕ}

theorem continuousAt_inv {n : ℕ} {M : Matrix (Fin n) (Fin n) ℝ} (h : M.det ≠ 0) :
    ContinuousAt (fun N : Matrix (Fin n) (Fin n) ℝ => N⁻¹) M := by
  have e : (fun N : Matrix (Fin n) (Fin n) ℝ => N⁻¹) = fun N => (N.det)⁻¹ • N.adjugate := by
    funext N
    rw [Matrix.inv_def, Ring.inverse_eq_inv']
  rw [e]
  exact (continuous_id.matrix_det.continuousAt.inv₀ h).smul continuous_id.matrix_adjugate.continuousAt

theorem tendsto_inv {ι : Type} {l : Filter ι} {n : ℕ} {M : Matrix (Fin n) (Fin n) ℝ}
    {M' : ι → Matrix (Fin n) (Fin n) ℝ} (h : M.det ≠ 0) (hM : Tendsto M' l (𝓝 M)) :
    Tendsto (fun i => (M' i)⁻¹) l (𝓝 M⁻¹) :=
  (continuousAt_inv h).tendsto.comp hM

theorem eventually_det {ι : Type} {l : Filter ι} {n : ℕ} {M : Matrix (Fin n) (Fin n) ℝ}
    {M' : ι → Matrix (Fin n) (Fin n) ℝ} (h : M.det ≠ 0) (hM : Tendsto M' l (𝓝 M)) : ∀ᶠ i in l, (M' i).det ≠ 0 :=
  ((continuous_id.matrix_det.tendsto M).comp hM).eventually_ne h

theorem tendsto_mpinv {ι : Type} {l : Filter ι} {n : ℕ} {M : Matrix (Fin n) (Fin n) ℝ}
    {M' : ι → Matrix (Fin n) (Fin n) ℝ} (h : M.det ≠ 0) (hM : Tendsto M' l (𝓝 M)) :
    Tendsto (fun i => mpinv (M' i)) l (𝓝 (mpinv M)) := by
  rw [mpinv_of_isUnit_det (isUnit_iff_ne_zero.2 h)]
  refine (tendsto_inv h hM).congr' ?_
  filter_upwards [eventually_det h hM] with i hi
  exact (mpinv_of_isUnit_det (isUnit_iff_ne_zero.2 hi)).symm

theorem _root_.Filter.Tendsto.mmul {ι : Type} {l : Filter ι} {a b c : ℕ} {M : Matrix (Fin a) (Fin b) ℝ}
    {M' : ι → Matrix (Fin a) (Fin b) ℝ} {N : Matrix (Fin b) (Fin c) ℝ} {N' : ι → Matrix (Fin b) (Fin c) ℝ}
    (hM : Tendsto M' l (𝓝 M)) (hN : Tendsto N' l (𝓝 N)) : Tendsto (fun i => M' i * N' i) l (𝓝 (M * N)) := by
  have h : Continuous fun q : Matrix (Fin a) (Fin b) ℝ × Matrix (Fin b) (Fin c) ℝ => q.1 * q.2 :=
    continuous_fst.matrix_mul continuous_snd
  exact (h.tendsto (M, N)).comp (hM.prodMk_nhds hN)

theorem _root_.Filter.Tendsto.mvec {ι : Type} {l : Filter ι} {a b : ℕ} {M : Matrix (Fin a) (Fin b) ℝ}
    {M' : ι → Matrix (Fin a) (Fin b) ℝ} {v : Fin b → ℝ} {v' : ι → Fin b → ℝ}
    (hM : Tendsto M' l (𝓝 M)) (hv : Tendsto v' l (𝓝 v)) : Tendsto (fun i => M' i *ᵥ v' i) l (𝓝 (M *ᵥ v)) := by
  have h : Continuous fun q : Matrix (Fin a) (Fin b) ℝ × (Fin b → ℝ) => q.1 *ᵥ q.2 :=
    continuous_fst.matrix_mulVec continuous_snd
  exact (h.tendsto (M, v)).comp (hM.prodMk_nhds hv)

theorem _root_.Filter.Tendsto.mtr {ι : Type} {l : Filter ι} {a b : ℕ} {M : Matrix (Fin a) (Fin b) ℝ}
    {M' : ι → Matrix (Fin a) (Fin b) ℝ} (hM : Tendsto M' l (𝓝 M)) : Tendsto (fun i => (M' i)ᵀ) l (𝓝 Mᵀ) :=
  (continuous_id.matrix_transpose.tendsto M).comp hM

theorem mpinv_row {A : Matrix (Fin d) (Fin p) ℝ} (h : (A * Aᵀ).det ≠ 0) : mpinv A = Aᵀ * (A * Aᵀ)⁻¹ := by
  have hu := isUnit_iff_ne_zero.2 h
  have hs : ((A * Aᵀ)⁻¹)ᵀ = (A * Aᵀ)⁻¹ := by rw [transpose_nonsing_inv, transpose_mul, transpose_transpose]
  have h1 : A * (Aᵀ * (A * Aᵀ)⁻¹) = 1 := by rw [← Matrix.mul_assoc, mul_nonsing_inv _ hu]
  apply mpinv_eq
  constructor
  · rw [h1, Matrix.one_mul]
  · rw [Matrix.mul_assoc, h1, Matrix.mul_one]
  · rw [h1, transpose_one]
  · rw [transpose_mul, transpose_mul, hs, transpose_transpose, Matrix.mul_assoc]

theorem mpinv_column {A : Matrix (Fin d) (Fin p) ℝ} (h : (Aᵀ * A).det ≠ 0) : mpinv A = (Aᵀ * A)⁻¹ * Aᵀ := by
  have := mpinv_row (A := Aᵀ) (by rwa [transpose_transpose])
  rw [mpinv_transpose, transpose_transpose] at this
  have h2 := congrArg transpose this
  rw [transpose_transpose, transpose_mul, transpose_nonsing_inv, transpose_mul, transpose_transpose] at h2
  exact h2

section
variable {ι : Type} {l : Filter ι} {A : Matrix (Fin d) (Fin p) ℝ} {A' : ι → Matrix (Fin d) (Fin p) ℝ}
  {b y : Fin d → ℝ} {b' y' : ι → Fin d → ℝ} {m : Fin p → ℝ} {m' : ι → Fin p → ℝ}
  {S : Matrix (Fin p) (Fin p) ℝ} {S' : ι → Matrix (Fin p) (Fin p) ℝ} {C : Matrix (Fin d) (Fin d) ℝ}
  {C' : ι → Matrix (Fin d) (Fin d) ℝ} {α : ℝ} {α' : ι → ℝ}

/-- **C142.** Problems that tend to a problem with invertible predicted covariance: their MUD points and updated
covariances tend to its MUD point and updated covariance. -/
theorem C142_mud (hA : Tendsto A' l (𝓝 A)) (hb : Tendsto b' l (𝓝 b)) (hy : Tendsto y' l (𝓝 y))
    (hm : Tendsto m' l (𝓝 m)) (hS : Tendsto S' l (𝓝 S)) (hC : Tendsto C' l (𝓝 C)) (hα : Tendsto α' l (𝓝 α))
    (hα0 : α ≠ 0) (hP : (A * S * Aᵀ).det ≠ 0) :
    ∃ x U, ∃ x' : ι → Fin p → ℝ, ∃ U' : ι → Matrix (Fin p) (Fin p) ℝ,
      Returns (Api.solve "mud" A b y m S C α) x ∧
      funsUpdatedCov ⟨d, p, A⟩ (some ⟨p, p, S⟩) (some ⟨d, d, C⟩) = .ok ⟨p, p, U⟩ ∧
      (∀ i, Returns (Api.solve "mud" (A' i) (b' i) (y' i) (m' i) (S' i) (C' i) (α' i)) (x' i) ∧
        funsUpdatedCov ⟨d, p, A' i⟩ (some ⟨p, p, S' i⟩) (some ⟨d, d, C' i⟩) = .ok ⟨p, p, U' i⟩) ∧
      Tendsto x' l (𝓝 x) ∧ Tendsto U' l (𝓝 U) := by
  refine ⟨_, upF A S C, _, fun i => upF (A' i) (S' i) (C' i), api_mud A b y m S C α, by simp [funsUpdatedCov, updatedCovBody_typed],
    fun i => ⟨api_mud .., by simp [funsUpdatedCov, updatedCovBody_typed]⟩, ?_, ?_⟩
  · have hSα : Tendsto (fun i => α' i • S' i) l (𝓝 (α • S)) := hα.smul hS
    have hdet : (A * (α • S) * Aᵀ).det ≠ 0 := by
      rw [Matrix.mul_smul, Matrix.smul_mul, det_smul]
      exact mul_ne_zero (pow_ne_zero _ hα0) hP
    exact hm.add ((((hSα.mmul hA.mtr).mmul (tendsto_mpinv hdet ((hA.mmul hSα).mmul hA.mtr)))).mvec
      ((hy.sub hb).sub (hA.mvec hm)))
  · have hK := (hS.mmul hA.mtr).mmul (tendsto_mpinv hP ((hA.mmul hS).mmul hA.mtr))
    exact hS.sub ((hK.mmul (((hA.mmul hS).mmul hA.mtr).sub hC)).mmul hK.mtr)

/-- **C142**, the MAP point and its covariance: for every operator. -/
theorem C142_map (hA : Tendsto A' l (𝓝 A)) (hb : Tendsto b' l (𝓝 b)) (hy : Tendsto y' l (𝓝 y))
    (hm : Tendsto m' l (𝓝 m)) (hS : Tendsto S' l (𝓝 S)) (hC : Tendsto C' l (𝓝 C)) (hα : Tendsto α' l (𝓝 α))
    (hα0 : 0 < α) (hSp : S.PosDef) (hCp : C.PosDef) :
    ∃ x, ∃ x' : ι → Fin p → ℝ, Returns (Api.solve "map" A b y m S C α) x ∧
      (∀ᶠ i in l, Returns (Api.solve "map" (A' i) (b' i) (y' i) (m' i) (S' i) (C' i) (α' i)) (x' i)) ∧
      Tendsto x' l (𝓝 x) := by
  have hSα : Tendsto (fun i => α' i • S' i) l (𝓝 (α • S)) := hα.smul hS
  have dS := (posDef_isUnit_det (hSp.smul hα0)).ne_zero
  have dC := (posDef_isUnit_det hCp).ne_zero
  have dH : (mapH A (α • S) C).det ≠ 0 := (posDef_isUnit_det (map_posDef (hSp.smul hα0) hCp)).ne_zero
  have hH : Tendsto (fun i => mapH (A' i) (α' i • S' i) (C' i)) l (𝓝 (mapH A (α • S) C)) :=
    ((hA.mtr.mmul (tendsto_inv dC hC)).mmul hA).add (tendsto_inv dS hSα)
  refine ⟨_, fun i => m' i + ((mapH (A' i) (α' i • S' i) (C' i))⁻¹ * (A' i)ᵀ * (C' i)⁻¹) *ᵥ (y' i - b' i - A' i *ᵥ m' i),
    api_map A b y m S C α dC dS dH, ?_, ?_⟩
  · filter_upwards [eventually_det dS hSα, eventually_det dC hC, eventually_det dH hH] with i h1 h2 h3
    exact api_map _ _ _ _ _ _ _ h2 h1 h3
  · exact hm.add ((((tendsto_inv dH hH).mmul hA.mtr).mmul (tendsto_inv dC hC)).mvec
      ((hy.sub hb).sub (hA.mvec hm)))

/-- **C142**, the least squares point, for operators of full row rank and of full column rank. -/
theorem C142_ls (hA : Tendsto A' l (𝓝 A)) (hb : Tendsto b' l (𝓝 b)) (hy : Tendsto y' l (𝓝 y))
    (hr : (A * Aᵀ).det ≠ 0 ∨ (Aᵀ * A).det ≠ 0) (m : Fin p → ℝ) (S : Matrix (Fin p) (Fin p) ℝ)
    (C : Matrix (Fin d) (Fin d) ℝ) (α : ℝ) :
    ∃ x, ∃ x' : ι → Fin p → ℝ, Returns (Api.solve "ls" A b y m S C α) x ∧
      (∀ i, Returns (Api.solve "ls" (A' i) (b' i) (y' i) m S C α) (x' i)) ∧ Tendsto x' l (𝓝 x) := by
  refine ⟨_, _, api_ls A b y m S C α, fun i => api_ls .., ?_⟩
  refine Filter.Tendsto.mvec ?_ (hy.sub hb)
  rcases hr with h | h
  · rw [mpinv_row h]
    have hG := hA.mmul hA.mtr
    refine (hA.mtr.mmul (tendsto_inv h hG)).congr' ?_
    filter_upwards [eventually_det h hG] with i hi
    exact (mpinv_row hi).symm
  · rw [mpinv_column h]
    have hG := hA.mtr.mmul hA
    refine ((tendsto_inv h hG).mmul hA.mtr).congr' ?_
    filter_upwards [eventually_det h hG] with i hi
    exact (mpinv_column hi).symm

end

/-- **C142**, changes of the data, the offset and the initial mean: for a given operator and given covariances there is
a constant `K` such that the estimates of two problems differ by at most `K` times the changes. -/
theorem C142_lipschitz (A : Matrix (Fin d) (Fin p) ℝ) (S : Matrix (Fin p) (Fin p) ℝ) (C : Matrix (Fin d) (Fin d) ℝ)
    (α : ℝ) (method : String)
    (h : method = "mud" ∨ method = "ls" ∨ method = "mud_alt" ∧ C.det ≠ 0 ∨
      method = "map" ∧ S.PosDef ∧ C.PosDef ∧ 0 < α) :
    ∃ K, ∀ (b y : Fin d → ℝ) (m : Fin p → ℝ) (b' y' : Fin d → ℝ) (m' : Fin p → ℝ), ∃ x x' : Fin p → ℝ,
      Returns (Api.solve method A b y m S C α) x ∧ Returns (Api.solve method A b' y' m' S C α) x' ∧
      ‖x - x'‖ ≤ K * (‖b - b'‖ + ‖y - y'‖ + ‖m - m'‖) := by
  have key : ∀ (M : Matrix (Fin p) (Fin d) ℝ) (N : Matrix (Fin p) (Fin p) ℝ),
      ∃ K, ∀ (b y : Fin d → ℝ) (m : Fin p → ℝ) (b' y' : Fin d → ℝ) (m' : Fin p → ℝ),
        ‖(M *ᵥ (y - b) + N *ᵥ m) - (M *ᵥ (y' - b') + N *ᵥ m')‖ ≤ K * (‖b - b'‖ + ‖y - y'‖ + ‖m - m'‖) := by
    intro M N
    obtain ⟨K1, hK1⟩ := (Matrix.mulVecLin M).toContinuousLinearMap.bound
    obtain ⟨K2, hK2⟩ := (Matrix.mulVecLin N).toContinuousLinearMap.bound
    obtain ⟨hK1p, hK1⟩ := hK1
    obtain ⟨hK2p, hK2⟩ := hK2
    refine ⟨K1 + K2, fun b y m b' y' m' => ?_⟩
    have e : (M *ᵥ (y - b) + N *ᵥ m) - (M *ᵥ (y' - b') + N *ᵥ m') = M *ᵥ ((y - y') - (b - b')) + N *ᵥ (m - m') := by
      simp only [mulVec_sub]
      abel
    rw [e]
    have h1 := hK1 ((y - y') - (b - b'))
    have h2 := hK2 (m - m')
    simp only [LinearMap.coe_toContinuousLinearMap', mulVecLin_apply] at h1 h2
    have h3 := norm_sub_le (y - y') (b - b')
    have h4 := norm_add_le (M *ᵥ ((y - y') - (b - b'))) (N *ᵥ (m - m'))
    have h5 := mul_le_mul_of_nonneg_left h3 hK1p.le
    have := norm_nonneg (m - m')
    have := norm_nonneg (y - y')
    have := norm_nonneg (b - b')
    nlinarith
  have red : ∀ (M : Matrix (Fin p) (Fin d) ℝ) (b y : Fin d → ℝ) (m : Fin p → ℝ),
      m + M *ᵥ (y - b - A *ᵥ m) = M *ᵥ (y - b) + (1 - M * A) *ᵥ m := by
    intro M b y m
    rw [mulVec_sub M (y - b), sub_mulVec, one_mulVec, mulVec_mulVec]
    abel
  rcases h with rfl | rfl | ⟨rfl, hC⟩ | ⟨rfl, hS, hC, hα⟩
  · obtain ⟨K, hK⟩ := key (α • S * Aᵀ * mpinv (A * (α • S) * Aᵀ)) (1 - (α • S * Aᵀ * mpinv (A * (α • S) * Aᵀ)) * A)
    refine ⟨K, fun b y m b' y' m' => ⟨_, _, api_mud .., api_mud .., ?_⟩⟩
    rw [mudF, mudF, red, red]
    exact hK ..
  · obtain ⟨K, hK⟩ := key (mpinv A) 0
    refine ⟨K, fun b y m b' y' m' => ⟨_, _, api_ls .., api_ls .., ?_⟩⟩
    simpa using hK b y m b' y' m'
  · obtain ⟨K, hK⟩ := key (upF A (α • S) C * Aᵀ * C⁻¹) (1 - (upF A (α • S) C * Aᵀ * C⁻¹) * A)
    refine ⟨K, fun b y m b' y' m' => ⟨_, _, api_mud_alt _ _ _ _ _ _ _ hC, api_mud_alt _ _ _ _ _ _ _ hC, ?_⟩⟩
    rw [red, red]
    exact hK ..
  · have dS := (posDef_isUnit_det (hS.smul hα)).ne_zero
    have dC := (posDef_isUnit_det hC).ne_zero
    have dH : (mapH A (α • S) C).det ≠ 0 := (posDef_isUnit_det (map_posDef (hS.smul hα) hC)).ne_zero
    obtain ⟨K, hK⟩ := key ((mapH A (α • S) C)⁻¹ * Aᵀ * C⁻¹) (1 - ((mapH A (α • S) C)⁻¹ * Aᵀ * C⁻¹) * A)
    refine ⟨K, fun b y m b' y' m' => ⟨_, _, api_map _ _ _ _ _ _ _ dC dS dH, api_map _ _ _ _ _ _ _ dC dS dH, ?_⟩⟩
    rw [red, red]
    exact hK ..

/-- **C142**, where it ends: at the operator `0`, an operator as close as one likes moves the MUD and the least squares
point as far as one likes. -/
theorem C142_jump (δ D : ℝ) (hδ : 0 < δ) :
    ∃ ε : ℝ, 0 < ε ∧ ε < δ ∧ ∀ method ∈ ["mud", "ls"], ∃ x x' : Fin 1 → ℝ,
      Returns (Api.solve method !![(0 : ℝ)] ![0] ![1] ![0] 1 1 1) x ∧
      Returns (Api.solve method !![ε] ![0] ![1] ![0] 1 1 1) x' ∧ D < ‖x' - x‖ := by
  refine ⟨min (δ / 2) (1 / (|D| + 1)), by positivity, (min_le_left _ _).trans_lt (by linarith), ?_⟩
  set ε := min (δ / 2) (1 / (|D| + 1)) with hε
  have h0 : 0 < ε := by positivity
  have h1 : ε ≤ 1 / (|D| + 1) := min_le_right _ _
  have h2 : D < ε⁻¹ := by
    have := le_abs_self D
    have h3 : |D| + 1 ≤ ε⁻¹ := by
      rw [le_inv_comm₀ (by positivity) h0, ← one_div]
      exact h1
    linarith
  have z : (!![(0 : ℝ)] : Matrix (Fin 1) (Fin 1) ℝ) = 0 := by ext i j; fin_cases i; fin_cases j; rfl
  have i1 : (!![ε] : Matrix (Fin 1) (Fin 1) ℝ)⁻¹ = !![ε⁻¹] := by
    apply inv_eq_right_inv
    ext i j
    fin_cases i; fin_cases j
    simp [Matrix.mul_apply, h0.ne']
  intro method hm
  rw [List.mem_cons, List.mem_singleton] at hm
  rcases hm with rfl | rfl
  · refine ⟨_, _, api_mud .., api_mud .., ?_⟩
    have i2 : (!![ε] * (1 : Matrix (Fin 1) (Fin 1) ℝ) * !![ε]ᵀ) = !![ε * ε] := by
      ext i j; fin_cases i; fin_cases j; simp [Matrix.mul_apply]
    have i3 : mpinv (!![ε * ε] : Matrix (Fin 1) (Fin 1) ℝ) = !![ε⁻¹ * ε⁻¹] := by
      rw [mpinv_of_isUnit_det (by simp [h0.ne'])]
      apply inv_eq_right_inv
      ext i j
      fin_cases i; fin_cases j
      simp [Matrix.mul_apply]
      field_simp
    have i4 : (1 : Matrix (Fin 1) (Fin 1) ℝ) * !![ε]ᵀ * !![ε⁻¹ * ε⁻¹] = !![ε⁻¹] := by
      ext i j
      fin_cases i; fin_cases j
      simp [Matrix.mul_apply]
      field_simp
    rw [mudF, mudF, z, one_smul, i2, i3, i4]
    simp only [zero_mul, mul_zero, transpose_zero, mpinv_zero, zero_mulVec]
    refine h2.trans_le ?_
    refine le_trans (le_of_eq ?_) (norm_le_pi_norm _ 0)
    simp [vecHead]
    exact (abs_of_pos h0).symm
  · refine ⟨_, _, api_ls .., api_ls .., ?_⟩
    rw [z, mpinv_zero, mpinv_of_isUnit_det (by simp [h0.ne']), i1]
    refine h2.trans_le ?_
    refine le_trans (le_of_eq ?_) (norm_le_pi_norm _ 0)
    simp
    exact (abs_of_pos h0).symm

theorem exGram : (!![1, 0, 2; 0, 1, 1] : Matrix (Fin 2) (Fin 3) ℝ) * (!![1, 0, 2; 0, 1, 1] : Matrix (Fin 2) (Fin 3) ℝ)ᵀ =
    !![5, 2; 2, 2] := by
  ext i j
  fin_cases i <;> fin_cases j <;> simp [Matrix.mul_apply, Fin.sum_univ_three] <;> norm_num

/-- The hypotheses of `C142_mud`, `C142_map` and `C142_ls` hold for two observations of three parameters. -/
example (A : Matrix (Fin 2) (Fin 3) ℝ) (hA : A = !![1, 0, 2; 0, 1, 1]) :
    (A * (1 : Matrix (Fin 3) (Fin 3) ℝ) * Aᵀ).det ≠ 0 ∧ (A * Aᵀ).det ≠ 0 ∧
      (1 : Matrix (Fin 3) (Fin 3) ℝ).PosDef := by
  rw [Matrix.mul_one, hA, exGram]
  refine ⟨?_, ?_, PosDef.one⟩ <;> norm_num [det_fin_two]

/-- C142 on this problem, with an operator and data known up to `1 / n`. -/
example (y : Fin 2 → ℝ) : ∃ x, ∃ x' : ℕ → Fin 3 → ℝ,
    Returns (Api.solve "mud" !![1, 0, 2; 0, 1, 1] ![0, 0] y ![0, 0, 0] 1 1 1) x ∧
    (∀ n : ℕ, Returns (Api.solve "mud" (!![1, 0, 2; 0, 1, 1] + (1 / ((n : ℝ) + 1)) • !![1, 2, 3; 4, 5, 6]) ![0, 0]
      (y + (1 / ((n : ℝ) + 1)) • ![1, 1]) ![0, 0, 0] 1 1 1) (x' n)) ∧ Tendsto x' atTop (𝓝 x) := by
  have h0 : Tendsto (fun n : ℕ => 1 / ((n : ℝ) + 1)) atTop (𝓝 0) := tendsto_one_div_add_atTop_nhds_zero_nat
  have hA := (tendsto_const_nhds (x := (!![1, 0, 2; 0, 1, 1] : Matrix (Fin 2) (Fin 3) ℝ))).add
    (h0.smul (tendsto_const_nhds (x := (!![1, 2, 3; 4, 5, 6] : Matrix (Fin 2) (Fin 3) ℝ))))
  have hy := (tendsto_const_nhds (x := y)).add (h0.smul (tendsto_const_nhds (x := (![1, 1] : Fin 2 → ℝ))))
  rw [zero_smul, add_zero] at hA hy
  have hd : ((!![1, 0, 2; 0, 1, 1] : Matrix (Fin 2) (Fin 3) ℝ) * (1 : Matrix (Fin 3) (Fin 3) ℝ) *
      (!![1, 0, 2; 0, 1, 1] : Matrix (Fin 2) (Fin 3) ℝ)ᵀ).det ≠ 0 := by
    rw [Matrix.mul_one, exGram]
    norm_num [det_fin_two]
  generalize (!![1, 0, 2; 0, 1, 1] : Matrix (Fin 2) (Fin 3) ℝ) = A at hA hd ⊢
  generalize (!![1, 2, 3; 4, 5, 6] : Matrix (Fin 2) (Fin 3) ℝ) = B at hA ⊢
  obtain ⟨x, U, x', U', h1, -, h2, h3, -⟩ := C142_mud hA (b := ![0, 0]) tendsto_const_nhds hy (m := ![0, 0, 0])
    tendsto_const_nhds (S := 1) tendsto_const_nhds (C := 1) tendsto_const_nhds (α := 1) tendsto_const_nhds one_ne_zero hd
  exact ⟨x, x', h1, fun n => (h2 n).1, h3⟩

/-- C142 for two estimates of a rank deficient operator. -/
example : ∃ K, ∀ (b y : Fin 2 → ℝ) (m : Fin 2 → ℝ) (b' y' : Fin 2 → ℝ) (m' : Fin 2 → ℝ), ∃ x x' : Fin 2 → ℝ,
    Returns (Api.solve "mud" !![1, 1; 2, 2] b y m 1 1 1) x ∧ Returns (Api.solve "mud" !![1, 1; 2, 2] b' y' m' 1 1 1) x' ∧
      ‖x - x'‖ ≤ K * (‖b - b'‖ + ‖y - y'‖ + ‖m - m'‖) :=
  C142_lipschitz !![1, 1; 2, 2] 1 1 1 "mud" (Or.inl rfl)

end Verif
