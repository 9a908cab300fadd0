import Verif.Props.MapLimit

/-!
# C173: MAP points for a vague prior or small noise, for data that no parameters reproduce

For attainable data the limit is the MUD point (C85). Here the data are arbitrary.
-/

open Matrix Filter Topology

namespace Verif

variable {d p : ℕ}

/-- `x` fits the data as well as any point, in the norm of the noise covariance: a weighted least-squares point. -/
def BestFit (A : Matrix (Fin d) (Fin p) ℝ) (b y : Fin d → ℝ) (C : Matrix (Fin d) (Fin d) ℝ) (x : Fin p → ℝ) : Prop :=
  ∀ x', mahal C (A *ᵥ x + b) y ≤ mahal C (A *ᵥ x' + b) y

/-! ### Lemmas -/

/-- The normal equations have a solution. -/
theorem wls_exists (A : Matrix (Fin d) (Fin p) ℝ) (b y : Fin d → ℝ) {C : Matrix (Fin d) (Fin d) ℝ} (hC : C.PosDef) :
    ∃ x₀, Aᵀ *ᵥ (C⁻¹ *ᵥ (A *ᵥ x₀ + b - y)) = 0 := by
  obtain ⟨B, hB⟩ := exists_factor hC.inv.posSemidef
  have h := mpinv_spec (B * A)
  refine ⟨mpinv (B * A) *ᵥ (B *ᵥ (y - b)), ?_⟩
  have e1 : (B * A)ᵀ * ((B * A) * mpinv (B * A)) = (B * A)ᵀ := by
    rw [← h.symAB, ← transpose_mul, h.aba]
  have e2 : Aᵀ *ᵥ (C⁻¹ *ᵥ (A *ᵥ (mpinv (B * A) *ᵥ (B *ᵥ (y - b))) + b - y)) =
      ((B * A)ᵀ * ((B * A) * mpinv (B * A))) *ᵥ (B *ᵥ (y - b)) - (B * A)ᵀ *ᵥ (B *ᵥ (y - b)) := by
    rw [hB, add_sub_assoc, ← neg_sub y b, ← sub_eq_add_neg, mulVec_sub, mulVec_sub, transpose_mul]
    simp only [mulVec_mulVec, Matrix.mul_assoc]
  rw [e2, e1, sub_self]

/-- Pythagoras. -/
theorem wls_split {A : Matrix (Fin d) (Fin p) ℝ} {b y : Fin d → ℝ} {C : Matrix (Fin d) (Fin d) ℝ} (hC : C.PosDef)
    {x₀ : Fin p → ℝ} (h : Aᵀ *ᵥ (C⁻¹ *ᵥ (A *ᵥ x₀ + b - y)) = 0) (x : Fin p → ℝ) :
    mahal C (A *ᵥ x + b) y = mahal C (A *ᵥ x + b) (A *ᵥ x₀ + b) + mahal C (A *ᵥ x₀ + b) y := by
  have hs := inv_symm (posSemidef_transpose hC.posSemidef)
  have e1 : A *ᵥ x + b - (A *ᵥ x₀ + b) = A *ᵥ (x - x₀) := by rw [mulVec_sub]; abel
  have e2 : A *ᵥ x + b - y = A *ᵥ (x - x₀) + (A *ᵥ x₀ + b - y) := by rw [mulVec_sub]; abel
  have e3 : (A *ᵥ (x - x₀)) ⬝ᵥ (C⁻¹ *ᵥ (A *ᵥ x₀ + b - y)) = 0 := by
    rw [dotProduct_comm, dot_mulVec_transpose, h, zero_dotProduct]
  have e4 : (A *ᵥ x₀ + b - y) ⬝ᵥ (C⁻¹ *ᵥ (A *ᵥ (x - x₀))) = 0 := by
    rw [dot_mulVec_transpose, hs, dotProduct_comm, e3]
  rw [mahal, mahal, mahal, e1, e2, mulVec_add, add_dotProduct, dotProduct_add, dotProduct_add, e3, e4]
  ring

/-- Replacing the data by the prediction of a best fit does not change the MAP point. -/
theorem map_projected {A : Matrix (Fin d) (Fin p) ℝ} {b y : Fin d → ℝ} {m : Fin p → ℝ} {S : Matrix (Fin p) (Fin p) ℝ}
    (hS : S.PosDef) {C : Matrix (Fin d) (Fin d) ℝ} (hC : C.PosDef) {α : ℝ} (hα : 0 < α) {x₀ u : Fin p → ℝ}
    (h : Aᵀ *ᵥ (C⁻¹ *ᵥ (A *ᵥ x₀ + b - y)) = 0) (hu : Returns (Api.solve "map" A b (A *ᵥ x₀ + b) m S C α) u) :
    Returns (Api.solve "map" A b y m S C α) u := by
  obtain ⟨x, hx, h1⟩ := C08_map_minimises A b y m S hS C hC α hα
  obtain ⟨x', hx', h2⟩ := C08_map_minimises A b (A *ᵥ x₀ + b) m S hS C hC α hα
  obtain rfl := returns_unique hu hx'
  by_cases he : u = x
  · rwa [he]
  · have h3 := h1 u he
    have h4 := h2 x fun h => he h.symm
    rw [wls_split hC h u, wls_split hC h x] at h3
    linarith

theorem bestFit_iff {A : Matrix (Fin d) (Fin p) ℝ} {b y : Fin d → ℝ} {C : Matrix (Fin d) (Fin d) ℝ} (hC : C.PosDef)
    {x₀ : Fin p → ℝ} (h : Aᵀ *ᵥ (C⁻¹ *ᵥ (A *ᵥ x₀ + b - y)) = 0) (x : Fin p → ℝ) :
    BestFit A b y C x ↔ A *ᵥ x + b = A *ᵥ x₀ + b := by
  constructor
  · intro hx
    have h1 := hx x₀
    rw [wls_split hC h x] at h1
    by_contra hne
    have := qf_pos hC (sub_ne_zero.2 hne)
    rw [qf] at this
    rw [mahal] at h1
    linarith
  · intro hx x'
    rw [wls_split hC h x', hx]
    have := mahal_nonneg hC (A *ᵥ x' + b) (A *ᵥ x₀ + b)
    linarith

/-! ### C173 -/

/-- **C173.** There is exactly one point `x` that is nearest to the initial mean among the best fits, and the MAP
points are near it when `alpha` is large or the noise `t C` small. -/
theorem C173_map (A : Matrix (Fin d) (Fin p) ℝ) (b y : Fin d → ℝ) (m : Fin p → ℝ) {S : Matrix (Fin p) (Fin p) ℝ}
    (hS : S.PosDef) {C : Matrix (Fin d) (Fin d) ℝ} (hC : C.PosDef) :
    ∃ (x : Fin p → ℝ) (κ : ℝ), BestFit A b y C x ∧
      (∀ x', BestFit A b y C x' → x' ≠ x → mahal S x m < mahal S x' m) ∧
      ∀ α t : ℝ, 0 < α → 0 < t → ∃ u, Returns (Api.solve "map" A b y m S (t • C) α) u ∧
        mahal S u x ≤ κ * t / α := by
  obtain ⟨x₀, h₀⟩ := wls_exists A b y hC
  obtain ⟨x, hx, hAx, hn⟩ := C02_mud_minimises_distance A b (A *ᵥ x₀ + b) m S hS C 1 one_pos ⟨x₀, rfl⟩
  obtain ⟨x', v, hx', hv⟩ := C85_map_near_mud A b (A *ᵥ x₀ + b) m S hS ⟨x₀, rfl⟩
  obtain rfl := returns_unique hx (hx' C 1 one_pos)
  refine ⟨x, v ⬝ᵥ (C *ᵥ v) / 4, (bestFit_iff hC h₀ x).2 hAx,
    fun z hz hne => hn z ((bestFit_iff hC h₀ z).1 hz) hne, fun α t hα ht => ?_⟩
  have htC : (t • C).PosDef := hC.smul ht
  obtain ⟨u, hu, hb⟩ := hv (t • C) htC α hα
  have h₀' : Aᵀ *ᵥ ((t • C)⁻¹ *ᵥ (A *ᵥ x₀ + b - y)) = 0 := by
    rw [inv_smul_pos hC ht, smul_mulVec, mulVec_smul, h₀, smul_zero]
  refine ⟨u, map_projected hS htC hα h₀' hu, hb.trans (le_of_eq ?_)⟩
  rw [smul_mulVec, dotProduct_smul, smul_eq_mul]
  field_simp

/-- As `alpha` grows the MAP points converge to the best fit nearest to the initial mean. -/
theorem C173_map_tendsto (A : Matrix (Fin d) (Fin p) ℝ) (b y : Fin d → ℝ) (m : Fin p → ℝ)
    {S : Matrix (Fin p) (Fin p) ℝ} (hS : S.PosDef) {C : Matrix (Fin d) (Fin d) ℝ} (hC : C.PosDef) {u : ℝ → Fin p → ℝ}
    (hu : ∀ α : ℝ, 0 < α → Returns (Api.solve "map" A b y m S C α) (u α)) :
    ∃ x, BestFit A b y C x ∧ (∀ x', BestFit A b y C x' → x' ≠ x → mahal S x m < mahal S x' m) ∧
      Tendsto u atTop (𝓝 x) := by
  obtain ⟨x, κ, h1, h2, h3⟩ := C173_map A b y m hS hC
  refine ⟨x, h1, h2, ?_⟩
  obtain ⟨c, hc, hcq⟩ := qf_coercive hS
  rw [tendsto_iff_norm_sub_tendsto_zero]
  have hsq : Tendsto (fun α : ℝ => ‖u α - x‖ ^ 2) atTop (𝓝 0) := by
    refine squeeze_zero' (Eventually.of_forall fun n => sq_nonneg _) (g := fun α => (κ / c) * α⁻¹) ?_ ?_
    · filter_upwards [eventually_gt_atTop 0] with α hα
      obtain ⟨w, hw, hb⟩ := h3 α 1 hα one_pos
      rw [one_smul] at hw
      obtain rfl := returns_unique hw (hu α hα)
      have := (hcq (u α - x)).trans hb
      rw [mul_one] at this
      rw [div_mul_eq_mul_div, ← div_eq_mul_inv, le_div_iff₀ hc, mul_comm]
      exact this
    · simpa using tendsto_inv_atTop_zero.const_mul (κ / c)
  have := hsq.sqrt
  simpa [Real.sqrt_sq] using this

/-! ### The limit is not the MUD point -/

/-- For every data the MAP points converge to the MUD point as `alpha` grows. -/
def C173_mud_claim : Prop :=
  ∀ (d p : ℕ) (A : Matrix (Fin d) (Fin p) ℝ) (b y : Fin d → ℝ) (m : Fin p → ℝ) (S : Matrix (Fin p) (Fin p) ℝ)
    (C : Matrix (Fin d) (Fin d) ℝ) (u : ℝ → Fin p → ℝ) (x : Fin p → ℝ), S.PosDef → C.PosDef →
    (∀ α : ℝ, 0 < α → Returns (Api.solve "map" A b y m S C α) (u α)) →
    Returns (Api.solve "mud" A b y m S C 1) x → Tendsto u atTop (𝓝 x)

/-- **C173**, refuted part: two measurements `0` and `2` of one parameter; MAP tends to their average weighted by the
precisions, MUD is the same for all of them. -/
theorem C173_mud_claim_refuted : ¬ C173_mud_claim := by
  intro h
  have hmud := api_mud' (!![1; 1] : Matrix (Fin 2) (Fin 1) ℝ) ![0, 0] ![0, 2] ![0] 1
  have key : ∀ C : Matrix (Fin 2) (Fin 2) ℝ, C.PosDef →
      BestFit (!![1; 1] : Matrix (Fin 2) (Fin 1) ℝ) ![0, 0] ![0, 2] C
        (mudF !![1; 1] (![0, 2] - ![0, 0] - (!![1; 1] : Matrix (Fin 2) (Fin 1) ℝ) *ᵥ ![0]) ![0] 1) := by
    intro C hC
    have hu : ∀ α : ℝ, ∃ u : Fin 1 → ℝ, 0 < α → Returns (Api.solve "map" (!![1; 1] : Matrix (Fin 2) (Fin 1) ℝ) ![0, 0] ![0, 2]
        ![0] 1 C α) u := by
      intro α
      by_cases hα : 0 < α
      · obtain ⟨u, hu, -⟩ := C08_map_minimises (!![1; 1] : Matrix (Fin 2) (Fin 1) ℝ) ![0, 0] ![0, 2] ![0] 1
          Matrix.PosDef.one C hC α hα
        exact ⟨u, fun _ => hu⟩
      · exact ⟨0, fun h => absurd h hα⟩
    choose u hu using hu
    obtain ⟨x, h1, -, h3⟩ := C173_map_tendsto _ _ _ _ Matrix.PosDef.one hC hu
    have h4 := h 2 1 _ _ _ _ _ _ u _ Matrix.PosDef.one hC hu (hmud C 1 one_ne_zero)
    rwa [tendsto_nhds_unique h4 h3]
  generalize mudF (!![1; 1] : Matrix (Fin 2) (Fin 1) ℝ)
    (![0, 2] - ![0, 0] - (!![1; 1] : Matrix (Fin 2) (Fin 1) ℝ) *ᵥ ![0]) ![0] 1 = x at key
  have hi : ∀ s t : ℝ, s ≠ 0 → t ≠ 0 → (diagonal ![s, t] : Matrix (Fin 2) (Fin 2) ℝ)⁻¹ = diagonal ![s⁻¹, t⁻¹] := by
    intro s t hs ht
    apply inv_eq_right_inv
    rw [diagonal_mul_diagonal, ← diagonal_one]
    congr 1
    funext i
    fin_cases i
    · exact mul_inv_cancel₀ hs
    · exact mul_inv_cancel₀ ht
  have hm : ∀ s t : ℝ, s ≠ 0 → t ≠ 0 → ∀ z : Fin 1 → ℝ,
      mahal (diagonal ![s, t]) ((!![1; 1] : Matrix (Fin 2) (Fin 1) ℝ) *ᵥ z + ![0, 0]) ![0, 2] =
        z 0 ^ 2 * s⁻¹ + (z 0 - 2) ^ 2 * t⁻¹ := by
    intro s t hs ht z
    rw [mahal, hi s t hs ht]
    simp [mulVec, dotProduct, Fin.sum_univ_two, diagonal_apply]
    ring
  have hp : ∀ s t : ℝ, 0 < s → 0 < t → (diagonal ![s, t] : Matrix (Fin 2) (Fin 2) ℝ).PosDef := by
    intro s t hs ht
    refine Matrix.PosDef.diagonal fun i => ?_
    fin_cases i
    · exact hs
    · exact ht
  have h1 := key _ (hp 1 4 one_pos (by norm_num)) ![2 / 5]
  have h2 := key _ (hp 4 1 (by norm_num) one_pos) ![8 / 5]
  rw [hm 1 4 one_ne_zero (by norm_num), hm 1 4 one_ne_zero (by norm_num)] at h1
  rw [hm 4 1 (by norm_num) one_ne_zero, hm 4 1 (by norm_num) one_ne_zero] at h2
  simp only [Matrix.cons_val_zero] at h1 h2
  generalize x 0 = z at h1 h2
  have e1 : (z - 2 / 5) ^ 2 ≤ 0 := by norm_num at h1; nlinarith
  have e2 : (z - 8 / 5) ^ 2 ≤ 0 := by norm_num at h2; nlinarith
  have f1 : z - 2 / 5 = 0 := pow_eq_zero_iff two_ne_zero |>.1 (le_antisymm e1 (sq_nonneg _))
  have f2 : z - 8 / 5 = 0 := pow_eq_zero_iff two_ne_zero |>.1 (le_antisymm e2 (sq_nonneg _))
  linarith

/-- Non-vacuity: measurements of two parameters that contradict each other. -/
example : (¬ ∃ x₀ : Fin 2 → ℝ, (!![1, 0; 1, 0; 1, 1] : Matrix (Fin 3) (Fin 2) ℝ) *ᵥ x₀ + ![1, 0, 0] = ![2, 3, 5]) ∧
    (!![2, 1; 1, 3] : Matrix (Fin 2) (Fin 2) ℝ).PosDef ∧ (diagonal ![1, 2, 3] : Matrix (Fin 3) (Fin 3) ℝ).PosDef := by
  refine ⟨?_, posDef_fin_two (by norm_num) (by norm_num), Matrix.PosDef.diagonal fun i => ?_⟩
  · rintro ⟨x, hx⟩
    have h0 := congrFun hx 0
    have h1 := congrFun hx 1
    simp [dotProduct, Fin.sum_univ_two] at h0 h1
    linarith
  · fin_cases i <;> norm_num

end Verif
