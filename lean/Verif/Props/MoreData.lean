import Verif.Props.Functionals

/-!
# C82–C84: consistent observations

For data that some parameter reproduces exactly, the MUD point depends only on the set of
parameters that do; using more rows never moves it away from any of them; solving again from the
solution returns the solution.
-/

open Matrix

namespace Verif

variable {d d' p : ℕ}

/-- Orthogonal decomposition: the MUD point is the foot of the perpendicular from the initial mean
on the set of parameters that reproduce the data. -/
theorem mud_pythagoras (A : Matrix (Fin d) (Fin p) ℝ) (b y : Fin d → ℝ)
    (m : Fin p → ℝ) (S : Matrix (Fin p) (Fin p) ℝ) (hS : S.PosDef) (C : Matrix (Fin d) (Fin d) ℝ)
    (α : ℝ) (hα : 0 < α) (hy : ∃ x₀, A *ᵥ x₀ + b = y) :
    ∃ x, Returns (Api.solve "mud" A b y m S C α) x ∧ A *ᵥ x + b = y ∧
      ∀ x', A *ᵥ x' + b = y → mahal S x' m = mahal S x m + mahal S x' x := by
  obtain ⟨x, hx, hAx⟩ := C01_mud_reproduces_attainable A b y m S hS C α hα hy
  refine ⟨x, hx, hAx, fun x' hx' => ?_⟩
  have hxF := returns_unique hx (api_mud' A b y m S C α hα.ne')
  set z := y - b - A *ᵥ m
  have hSt := posSemidef_transpose hS.posSemidef
  have hSu := posDef_isUnit_det hS
  have hxm : S⁻¹ *ᵥ (x - m) = Aᵀ *ᵥ (mpinv (A * S * Aᵀ) *ᵥ z) := by
    rw [hxF, mudF]
    rw [add_sub_cancel_left, mulVec_mulVec, Matrix.mul_assoc S, ← Matrix.mul_assoc S⁻¹,
      nonsing_inv_mul _ hSu, Matrix.one_mul, mulVec_mulVec]
  have hker : A *ᵥ (x' - x) = 0 := by
    rw [mulVec_sub]
    have : A *ᵥ x' + b = A *ᵥ x + b := by rw [hx', hAx]
    exact sub_eq_zero.2 (add_right_cancel this)
  have hcross : (x' - x) ⬝ᵥ (S⁻¹ *ᵥ (x - m)) = 0 := by
    rw [hxm, dot_mulVec_transpose, transpose_transpose, hker, zero_dotProduct]
  have : x' - m = (x' - x) + (x - m) := by abel
  rw [mahal, mahal, this, quad_add (inv_symm hSt), hcross, mahal]; ring

theorem mahal_eq_zero {S : Matrix (Fin p) (Fin p) ℝ} (hS : S.PosDef) {x m : Fin p → ℝ}
    (h : mahal S x m ≤ 0) : x = m := by
  by_contra hne
  exact absurd (quad_pos hS.inv (sub_ne_zero.2 hne)) (not_lt.2 h)

theorem mahal_self (S : Matrix (Fin p) (Fin p) ℝ) (x : Fin p → ℝ) : mahal S x x = 0 := by
  simp [mahal]

theorem mahal_comm (S : Matrix (Fin p) (Fin p) ℝ) (x m : Fin p → ℝ) : mahal S x m = mahal S m x := by
  unfold mahal
  have : x - m = -(m - x) := by abel
  rw [this, mulVec_neg, neg_dotProduct, dotProduct_neg, neg_neg]

/-- **C83.** Two problems with the same initial mean and covariance whose (non-empty) sets of
data-consistent parameters coincide have the same MUD point, however the observations are written:
reordered, repeated, rescaled, combined, with redundant ones added or removed. -/
theorem C83_mud_solution_set (A : Matrix (Fin d) (Fin p) ℝ) (b y : Fin d → ℝ)
    (A' : Matrix (Fin d') (Fin p) ℝ) (b' y' : Fin d' → ℝ) (m : Fin p → ℝ)
    (S : Matrix (Fin p) (Fin p) ℝ) (hS : S.PosDef) (C : Matrix (Fin d) (Fin d) ℝ)
    (C' : Matrix (Fin d') (Fin d') ℝ) (α α' : ℝ) (hα : 0 < α) (hα' : 0 < α')
    (hy : ∃ x₀, A *ᵥ x₀ + b = y) (heq : ∀ x, A *ᵥ x + b = y ↔ A' *ᵥ x + b' = y') :
    ∃ x : Fin p → ℝ, Returns (Api.solve "mud" A b y m S C α) x ∧
      Returns (Api.solve "mud" A' b' y' m S C' α') x := by
  obtain ⟨x, h1, h2, h3⟩ := mud_pythagoras A b y m S hS C α hα hy
  obtain ⟨x', g1, g2, g3⟩ := mud_pythagoras A' b' y' m S hS C' α' hα'
    (by obtain ⟨x₀, h⟩ := hy; exact ⟨x₀, (heq x₀).1 h⟩)
  have e1 := h3 x' ((heq x').2 g2)
  have e2 := g3 x ((heq x).1 h2)
  have n1 := mahal_nonneg hS x' x
  have n2 := mahal_nonneg hS x x'
  obtain rfl : x = x' := mahal_eq_zero hS (by linarith)
  exact ⟨x, h1, g1⟩

/-- The least-squares point of a consistent problem is its MUD point for a zero initial mean and
identity initial covariance. -/
theorem ls_eq_mud (A : Matrix (Fin d) (Fin p) ℝ) (b y : Fin d → ℝ) (m : Fin p → ℝ)
    (S : Matrix (Fin p) (Fin p) ℝ) (C : Matrix (Fin d) (Fin d) ℝ) (α : ℝ)
    (hy : ∃ x₀, A *ᵥ x₀ + b = y) :
    ∃ x : Fin p → ℝ, Returns (Api.solve "ls" A b y m S C α) x ∧ Returns (Api.solve "mud" A b y 0 1 1 1) x := by
  obtain ⟨x, h1, h2⟩ := C10_least_squares A b y m S C α
  obtain ⟨x', g1, g2, g3⟩ := C02_mud_minimises_distance A b y 0 1 Matrix.PosDef.one 1 1 one_pos hy
  have hx' : sqDist (A *ᵥ x') (y - b) = 0 := by
    rw [← g2, add_sub_cancel_right]; simp [sqDist]
  have h4 := (h2 x').1
  rw [hx'] at h4
  have hAx : A *ᵥ x = y - b := by
    have h0 : sqDist (A *ᵥ x) (y - b) = 0 := le_antisymm h4 (Finset.sum_nonneg fun _ _ => sq_nonneg _)
    funext i
    have := (Finset.sum_eq_zero_iff_of_nonneg (fun i _ => sq_nonneg _)).1 h0 i (Finset.mem_univ i)
    have := pow_eq_zero_iff (two_ne_zero) |>.1 this
    linarith
  have hAx' : A *ᵥ x + b = y := by rw [hAx]; abel
  have e : ∀ v : Fin p → ℝ, mahal 1 v 0 = sqDist v 0 := by
    intro v; simp [mahal, sqDist_eq_dot]
  by_contra hcon
  have hne : x ≠ x' := fun h => hcon ⟨x, h1, h ▸ g1⟩
  have a1 := g3 x hAx' hne
  have a2 := (h2 x').2 (by rw [hx']; exact Finset.sum_nonneg fun _ _ => sq_nonneg _) hne.symm
  rw [e, e] at a1
  linarith

/-- **C83**, least squares. -/
theorem C83_ls_solution_set (A : Matrix (Fin d) (Fin p) ℝ) (b y : Fin d → ℝ)
    (A' : Matrix (Fin d') (Fin p) ℝ) (b' y' : Fin d' → ℝ) (m m' : Fin p → ℝ)
    (S S' : Matrix (Fin p) (Fin p) ℝ) (C : Matrix (Fin d) (Fin d) ℝ)
    (C' : Matrix (Fin d') (Fin d') ℝ) (α α' : ℝ)
    (hy : ∃ x₀, A *ᵥ x₀ + b = y) (heq : ∀ x, A *ᵥ x + b = y ↔ A' *ᵥ x + b' = y') :
    ∃ x : Fin p → ℝ, Returns (Api.solve "ls" A b y m S C α) x ∧ Returns (Api.solve "ls" A' b' y' m' S' C' α') x := by
  obtain ⟨x, h1, h2⟩ := ls_eq_mud A b y m S C α hy
  obtain ⟨x', g1, g2⟩ := ls_eq_mud A' b' y' m' S' C' α'
    (by obtain ⟨x₀, h⟩ := hy; exact ⟨x₀, (heq x₀).1 h⟩)
  obtain ⟨u, k1, k2⟩ := C83_mud_solution_set A b y A' b' y' 0 1 Matrix.PosDef.one 1 1 1 1 one_pos one_pos
    hy heq
  rw [returns_unique h2 k1] at h1
  rw [returns_unique g2 k2] at g1
  exact ⟨u, h1, g1⟩

/-- Non-vacuity: one observation `x₀ + x₁ = 3`, or the same observation doubled, twice, in other
units. -/
example : (∃ x₀, (!![1, 1] : Matrix (Fin 1) (Fin 2) ℝ) *ᵥ x₀ + ![0] = ![3]) ∧
    ∀ x, (!![1, 1] : Matrix (Fin 1) (Fin 2) ℝ) *ᵥ x + ![0] = ![3] ↔
      (!![2, 2; -1, -1] : Matrix (Fin 2) (Fin 2) ℝ) *ᵥ x + ![1, 0] = ![7, -3] := by
  refine ⟨⟨![3, 0], by ext i; fin_cases i; simp⟩, fun x => ?_⟩
  constructor
  · intro h
    have h0 := congrFun h 0
    simp [dotProduct, Fin.sum_univ_two] at h0
    ext i; fin_cases i <;> simp [dotProduct, Fin.sum_univ_two] <;> linarith
  · intro h
    have h0 := congrFun h 0
    simp [dotProduct, Fin.sum_univ_two] at h0
    ext i; fin_cases i; simp [dotProduct, Fin.sum_univ_two]; linarith

/-- **C84.** Solving again from the solution returns the solution: the MUD point of the problem
whose initial mean is the MUD point `x` is `x`. -/
theorem C84_mud_fixed (A : Matrix (Fin d) (Fin p) ℝ) (b y : Fin d → ℝ) (m : Fin p → ℝ)
    (S : Matrix (Fin p) (Fin p) ℝ) (C : Matrix (Fin d) (Fin d) ℝ) (α : ℝ)
    (hα : 0 < α) :
    ∃ x : Fin p → ℝ, Returns (Api.solve "mud" A b y m S C α) x ∧ Returns (Api.solve "mud" A b y x S C α) x := by
  refine ⟨_, api_mud' A b y m S C α hα.ne', ?_⟩
  set z := y - b - A *ᵥ m with hz
  set x := mudF A z m S with hx
  have h := api_mud' A b y x S C α hα.ne'
  suffices e : mudF A (y - b - A *ᵥ x) x S = x by rwa [e] at h
  have hAx : A *ᵥ x = A *ᵥ m + ((A * S * Aᵀ) * mpinv (A * S * Aᵀ)) *ᵥ z := mudF_residual A m S z
  have hmp := mpinv_spec (A * S * Aᵀ)
  have : y - b - A *ᵥ x = z - ((A * S * Aᵀ) * mpinv (A * S * Aᵀ)) *ᵥ z := by
    rw [hAx, hz]; abel
  rw [mudF, this, mulVec_sub, mulVec_mulVec]
  have e2 : S * Aᵀ * mpinv (A * S * Aᵀ) * (A * S * Aᵀ * mpinv (A * S * Aᵀ)) =
      S * Aᵀ * mpinv (A * S * Aᵀ) := by
    rw [Matrix.mul_assoc (S * Aᵀ), ← Matrix.mul_assoc (mpinv _) (A * S * Aᵀ), hmp.bab]
  rw [e2, sub_self, add_zero]

/-! ## C82 -/

theorem output_dim_mud (A : Matrix (Fin d) (Fin p) ℝ) (b y : Fin d → ℝ) (m : Fin p → ℝ)
    (S : Matrix (Fin p) (Fin p) ℝ) (C : Matrix (Fin d) (Fin d) ℝ) (α : ℝ) {k : ℕ} (hk : k ≤ d)
    {method : String} (hm : method ∈ solveMethods) :
    (LGP.solve method (some (k : ℤ)) (LGP.typed A b y m S C α)).1 =
      Api.solve method (A.submatrix (Fin.castLE hk) id) (b ∘ Fin.castLE hk) (y ∘ Fin.castLE hk)
          m S (C.submatrix (Fin.castLE hk) (Fin.castLE hk)) α := by
  obtain ⟨P, h1, h2⟩ := C12_output_dim A b y m S C α k k (Or.inl ⟨by omega, by omega⟩) hk method hm
  rw [Api.new, new_typed] at h1
  cases h1
  exact h2

theorem sub_solves (A : Matrix (Fin d) (Fin p) ℝ) (b y : Fin d → ℝ) {k : ℕ} (hk : k ≤ d)
    (x : Fin p → ℝ) : A.submatrix (Fin.castLE hk) id *ᵥ x + b ∘ Fin.castLE hk = y ∘ Fin.castLE hk ↔
      ∀ i : Fin d, (i : ℕ) < k → (A *ᵥ x) i + b i = y i := by
  constructor
  · intro h i hi
    exact congrFun h ⟨i, hi⟩
  · intro h
    funext i
    exact h _ i.2

/-- **C82.** Data that the reference parameter `lam` reproduces exactly, `k ≤ l` of the rows used:
`solve('mud', output_dim=l)` is at least as close to `lam` as `solve('mud', output_dim=k)`, in the
norm of the initial covariance; and it is `lam` itself as soon as the first `l` rows determine the
parameter. -/
theorem C82_mud_more_outputs (A : Matrix (Fin d) (Fin p) ℝ) (b y : Fin d → ℝ) (m : Fin p → ℝ)
    (S : Matrix (Fin p) (Fin p) ℝ) (hS : S.PosDef) (C : Matrix (Fin d) (Fin d) ℝ) (α : ℝ)
    (hα : 0 < α) (lam : Fin p → ℝ) (hlam : A *ᵥ lam + b = y) {k l : ℕ} (hkl : k ≤ l) (hl : l ≤ d) :
    ∃ (P : LGP) (xk xl : Fin p → ℝ), Api.new A b y m S C α = .ok P ∧
      Returns (LGP.solve "mud" (some (k : ℤ)) P).1 xk ∧ Returns (LGP.solve "mud" (some (l : ℤ)) P).1 xl ∧
      mahal S xl lam ≤ mahal S xk lam ∧ mahal S xk m ≤ mahal S xl m ∧
      ((∀ v : Fin p → ℝ, (∀ i : Fin d, (i : ℕ) < l → (A *ᵥ v) i = 0) → v = 0) → xl = lam) := by
  have hk := hkl.trans hl
  have hlam' : ∀ i, (A *ᵥ lam) i + b i = y i := fun i => congrFun hlam i
  obtain ⟨xk, h1, h2, h3⟩ := mud_pythagoras (A.submatrix (Fin.castLE hk) id) (b ∘ Fin.castLE hk)
    (y ∘ Fin.castLE hk) m S hS (C.submatrix (Fin.castLE hk) (Fin.castLE hk)) α hα
    ⟨lam, (sub_solves A b y hk lam).2 fun i _ => hlam' i⟩
  obtain ⟨xl, g1, g2, g3⟩ := mud_pythagoras (A.submatrix (Fin.castLE hl) id) (b ∘ Fin.castLE hl)
    (y ∘ Fin.castLE hl) m S hS (C.submatrix (Fin.castLE hl) (Fin.castLE hl)) α hα
    ⟨lam, (sub_solves A b y hl lam).2 fun i _ => hlam' i⟩
  rw [sub_solves] at h2 g2
  have e1 := h3 lam ((sub_solves A b y hk lam).2 fun i _ => hlam' i)
  have e2 := g3 lam ((sub_solves A b y hl lam).2 fun i _ => hlam' i)
  have e3 := h3 xl ((sub_solves A b y hk xl).2 fun i hi => g2 i (by omega))
  have n := mahal_nonneg hS xl xk
  refine ⟨_, xk, xl, new_typed .., ?_, ?_, ?_, by linarith, fun hdet => ?_⟩
  · rw [output_dim_mud A b y m S C α hk (by simp [solveMethods])]; exact h1
  · rw [output_dim_mud A b y m S C α hl (by simp [solveMethods])]; exact g1
  · rw [mahal_comm S xl, mahal_comm S xk]; linarith
  · refine sub_eq_zero.1 (hdet _ fun i hi => ?_)
    rw [mulVec_sub, Pi.sub_apply]
    have a1 := g2 i hi
    have a2 := hlam' i
    linarith

/-- **C82**, least squares: the Euclidean distance to the reference does not grow. -/
theorem C82_ls_more_outputs (A : Matrix (Fin d) (Fin p) ℝ) (b y : Fin d → ℝ) (m : Fin p → ℝ)
    (S : Matrix (Fin p) (Fin p) ℝ) (C : Matrix (Fin d) (Fin d) ℝ) (α : ℝ)
    (lam : Fin p → ℝ) (hlam : A *ᵥ lam + b = y) {k l : ℕ} (hkl : k ≤ l) (hl : l ≤ d) :
    ∃ (P : LGP) (xk xl : Fin p → ℝ), Api.new A b y m S C α = .ok P ∧
      Returns (LGP.solve "ls" (some (k : ℤ)) P).1 xk ∧ Returns (LGP.solve "ls" (some (l : ℤ)) P).1 xl ∧
      sqDist xl lam ≤ sqDist xk lam ∧
      ((∀ v : Fin p → ℝ, (∀ i : Fin d, (i : ℕ) < l → (A *ᵥ v) i = 0) → v = 0) → xl = lam) := by
  have hk := hkl.trans hl
  have hlam' : ∀ i, (A *ᵥ lam) i + b i = y i := fun i => congrFun hlam i
  obtain ⟨Q, xk, xl, hQ, h1, h2, h3, -, h5⟩ := C82_mud_more_outputs A b y 0 1 Matrix.PosDef.one 1 1
    one_pos lam hlam hkl hl
  rw [Api.new, new_typed] at hQ
  cases hQ
  obtain ⟨uk, a1, a2⟩ := ls_eq_mud (A.submatrix (Fin.castLE hk) id) (b ∘ Fin.castLE hk)
    (y ∘ Fin.castLE hk) m S (C.submatrix (Fin.castLE hk) (Fin.castLE hk)) α
    ⟨lam, (sub_solves A b y hk lam).2 fun i _ => hlam' i⟩
  obtain ⟨ul, b1, b2⟩ := ls_eq_mud (A.submatrix (Fin.castLE hl) id) (b ∘ Fin.castLE hl)
    (y ∘ Fin.castLE hl) m S (C.submatrix (Fin.castLE hl) (Fin.castLE hl)) α
    ⟨lam, (sub_solves A b y hl lam).2 fun i _ => hlam' i⟩
  rw [output_dim_mud A b y 0 1 1 1 hk (by simp [solveMethods]), submatrix_one _
    (Fin.castLE_injective hk)] at h1
  rw [output_dim_mud A b y 0 1 1 1 hl (by simp [solveMethods]), submatrix_one _
    (Fin.castLE_injective hl)] at h2
  obtain rfl := returns_unique h1 a2
  obtain rfl := returns_unique h2 b2
  refine ⟨_, xk, xl, new_typed .., ?_, ?_, ?_, h5⟩
  · rw [output_dim_mud A b y m S C α hk (by simp [solveMethods])]; exact a1
  · rw [output_dim_mud A b y m S C α hl (by simp [solveMethods])]; exact b1
  · simpa [mahal, sqDist_eq_dot] using h3

/-- Non-vacuity: two rows, the first of which does not determine the parameter while both do. -/
example : (!![1, 1; 0, 1] : Matrix (Fin 2) (Fin 2) ℝ) *ᵥ ![2, 3] + ![1, 0] = ![6, 3] ∧
    ∀ v : Fin 2 → ℝ, (∀ i : Fin 2, (i : ℕ) < 2 →
      ((!![1, 1; 0, 1] : Matrix (Fin 2) (Fin 2) ℝ) *ᵥ v) i = 0) → v = 0 := by
  constructor
  · ext i; fin_cases i <;> simp [dotProduct, Fin.sum_univ_two]; norm_num
  · intro v h
    have h0 := h 0 (by simp)
    have h1 := h 1 (by simp)
    simp [dotProduct, Fin.sum_univ_two] at h0 h1
    ext i; fin_cases i <;> simp <;> linarith

end Verif
