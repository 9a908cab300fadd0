import Verif.Props.VaguePrior

/-!
# C175: when the three estimates agree

`/repo/src/mud/base.py:1131-1180` (`LinearGaussianProblem.solve`), for data that some parameters reproduce.
-/

open Matrix

namespace Verif

variable {d p : ℕ}

/-! ### Lemmas -/

/-- Both distances along a line through the initial mean. -/
theorem mahal_line {n : ℕ} (S : Matrix (Fin n) (Fin n) ℝ) (x m : Fin n → ℝ) (t : ℝ) :
    mahal S (m + t • (x - m)) m = t ^ 2 * mahal S x m := by
  have : m + t • (x - m) - m = t • (x - m) := by abel
  simp only [mahal, this, mulVec_smul, dotProduct_smul, smul_dotProduct, smul_eq_mul]
  ring

theorem misfit_line (C : Matrix (Fin d) (Fin d) ℝ) {A : Matrix (Fin d) (Fin p) ℝ} {b y : Fin d → ℝ} {x : Fin p → ℝ}
    (hx : A *ᵥ x + b = y) (m : Fin p → ℝ) (t : ℝ) :
    mahal C (A *ᵥ (m + t • (x - m)) + b) y = (1 - t) ^ 2 * mahal C (A *ᵥ m + b) y := by
  have : A *ᵥ (m + t • (x - m)) + b - y = (1 - t) • (A *ᵥ m + b - y) := by
    rw [← hx, mulVec_add, mulVec_smul, mulVec_sub]
    ext i
    simp only [Pi.add_apply, Pi.sub_apply, Pi.smul_apply, smul_eq_mul]
    ring
  simp only [mahal, this, mulVec_smul, dotProduct_smul, smul_dotProduct, smul_eq_mul]
  ring

theorem mahal_smul_cov {n : ℕ} {S : Matrix (Fin n) (Fin n) ℝ} (hS : S.PosDef) {α : ℝ} (hα : 0 < α)
    (x m : Fin n → ℝ) : mahal (α • S) x m = mahal S x m / α := by
  rw [mahal, mahal, inv_smul_pos hS hα, smul_mulVec, dotProduct_smul, smul_eq_mul, div_eq_inv_mul]

theorem mahal_shift {n : ℕ} {S : Matrix (Fin n) (Fin n) ℝ} (hS : S.PosDef) (x m v : Fin n → ℝ) :
    mahal S (x + v) m = mahal S x m + 2 * (v ⬝ᵥ (S⁻¹ *ᵥ (x - m))) + qf S v := by
  have hs := inv_symm (posSemidef_transpose hS.posSemidef)
  have e1 : x + v - m = (x - m) + v := by abel
  have e2 : (x - m) ⬝ᵥ (S⁻¹ *ᵥ v) = v ⬝ᵥ (S⁻¹ *ᵥ (x - m)) := by
    rw [dot_mulVec_transpose, hs, dotProduct_comm]
  rw [mahal, mahal, qf, e1, mulVec_add, add_dotProduct, dotProduct_add, dotProduct_add, e2]
  ring

/-- The nearest point of the affine set is characterised by orthogonality. -/
theorem nearest_iff {S : Matrix (Fin p) (Fin p) ℝ} (hS : S.PosDef) {A : Matrix (Fin d) (Fin p) ℝ} {b y : Fin d → ℝ}
    {x m : Fin p → ℝ} (hx : A *ᵥ x + b = y) :
    (∀ x', A *ᵥ x' + b = y → x' ≠ x → mahal S x m < mahal S x' m) ↔
      ∀ v, A *ᵥ v = 0 → v ⬝ᵥ (S⁻¹ *ᵥ (x - m)) = 0 := by
  constructor
  · intro h v hv
    by_contra hc
    set c := v ⬝ᵥ (S⁻¹ *ᵥ (x - m)) with hcdef
    have hv0 : v ≠ 0 := by rintro rfl; simp [hcdef] at hc
    have hq := qf_pos hS hv0
    have ht : -(c / qf S v) ≠ 0 := neg_ne_zero.2 (div_ne_zero hc hq.ne')
    have h1 := h (x + (-(c / qf S v)) • v) (by rw [mulVec_add, mulVec_smul, hv, smul_zero, add_zero, hx])
      (fun he => (smul_ne_zero ht hv0) (by simpa using he))
    rw [mahal_shift hS, qf_smul, smul_dotProduct, ← hcdef, smul_eq_mul] at h1
    have h2 : 2 * (-(c / qf S v) * c) + (-(c / qf S v)) ^ 2 * qf S v = -(c ^ 2 / qf S v) := by
      field_simp; ring
    have h3 : 0 < c ^ 2 / qf S v := div_pos (by positivity) hq
    linarith
  · intro h x' hx' hne
    have hv : A *ᵥ (x' - x) = 0 := by
      rw [mulVec_sub, sub_eq_zero]
      exact add_right_cancel (hx'.trans hx.symm)
    have e : x' = x + (x' - x) := by abel
    rw [e, mahal_shift hS, h _ hv]
    linarith [qf_pos hS (sub_ne_zero.2 hne)]

/-- The least-squares point of attainable data is the nearest point to the origin. -/
theorem ls_nearest {A : Matrix (Fin d) (Fin p) ℝ} {b y : Fin d → ℝ} (hy : ∃ x₀, A *ᵥ x₀ + b = y) (m : Fin p → ℝ)
    (S : Matrix (Fin p) (Fin p) ℝ) (C : Matrix (Fin d) (Fin d) ℝ) (α : ℝ) :
    ∃ x, Returns (Api.solve "ls" A b y m S C α) x ∧ A *ᵥ x + b = y ∧ ∀ v, A *ᵥ v = 0 → v ⬝ᵥ x = 0 := by
  obtain ⟨x₀, hx₀⟩ := hy
  obtain ⟨x, hx, h⟩ := C10_least_squares A b y m S C α
  have hz : ∀ {z}, A *ᵥ z + b = y → sqDist (A *ᵥ z) (y - b) = 0 := by
    intro z hz
    rw [← hz]; simp [sqDist]
  have hxy : A *ᵥ x + b = y := by
    have h0 : sqDist (A *ᵥ x) (y - b) ≤ 0 := (h x₀).1.trans_eq (hz hx₀)
    have h1 := (Finset.sum_eq_zero_iff_of_nonneg fun i _ => sq_nonneg ((A *ᵥ x) i - (y - b) i)).1
      (le_antisymm h0 (Finset.sum_nonneg fun i _ => sq_nonneg _))
    ext i
    have := pow_eq_zero_iff two_ne_zero |>.1 (h1 i (Finset.mem_univ i))
    simp only [Pi.sub_apply] at this
    simp only [Pi.add_apply]
    linarith
  refine ⟨x, hx, hxy, ?_⟩
  have hn : ∀ x', A *ᵥ x' + b = y → x' ≠ x → mahal (1 : Matrix (Fin p) (Fin p) ℝ) x 0 < mahal 1 x' 0 := by
    intro x' hx' hne
    have := (h x').2 (by rw [hz hx', hz hxy]) hne
    have e : ∀ z : Fin p → ℝ, mahal (1 : Matrix (Fin p) (Fin p) ℝ) z 0 = sqDist z 0 := by
      intro z
      rw [mahal, inv_one, one_mulVec, sqDist, dotProduct]
      exact Finset.sum_congr rfl fun i _ => by simp [sq]
    rw [e, e]; exact this
  intro v hv
  have := (nearest_iff PosDef.one hxy).1 hn v hv
  simpa using this

/-! ### C175 -/

/-- **C175, MUD and MAP.** For attainable data, the following are equivalent: the initial mean reproduces the data; MUD
is the initial mean; MAP is the initial mean; MAP is MUD. Otherwise MAP lies strictly between: it is nearer to the
initial mean than MUD without being equal to it, and fits the data better than the initial mean but not exactly. -/
theorem C175_mud_map (A : Matrix (Fin d) (Fin p) ℝ) (b y : Fin d → ℝ) (m : Fin p → ℝ) {S : Matrix (Fin p) (Fin p) ℝ}
    (hS : S.PosDef) {C : Matrix (Fin d) (Fin d) ℝ} (hC : C.PosDef) {α : ℝ} (hα : 0 < α)
    (hy : ∃ x₀, A *ᵥ x₀ + b = y) :
    ∃ x u, Returns (Api.solve "mud" A b y m S C α) x ∧ Returns (Api.solve "map" A b y m S C α) u ∧
      (x = m ↔ A *ᵥ m + b = y) ∧ (u = m ↔ A *ᵥ m + b = y) ∧ (u = x ↔ A *ᵥ m + b = y) ∧
      (A *ᵥ m + b ≠ y → 0 < mahal S u m ∧ mahal S u m < mahal S x m ∧
        0 < mahal C (A *ᵥ u + b) y ∧ mahal C (A *ᵥ u + b) y < mahal C (A *ᵥ m + b) y) := by
  obtain ⟨x, hx, hxy, hn⟩ := C02_mud_minimises_distance A b y m S hS C α hα hy
  obtain ⟨u, hu, ho⟩ := C08_map_minimises A b y m S hS C hC α hα
  simp only [mahal_smul_cov hS hα] at ho
  have hCu := mahal_nonneg hC (A *ᵥ u + b) y
  have pos : ∀ {n : ℕ} {M : Matrix (Fin n) (Fin n) ℝ}, M.PosDef → ∀ {v w : Fin n → ℝ}, v ≠ w → 0 < mahal M v w :=
    fun hM _ _ h => qf_pos hM (sub_ne_zero.2 h)
  have zero : ∀ {n : ℕ} (M : Matrix (Fin n) (Fin n) ℝ) (v : Fin n → ℝ), mahal M v v = 0 := by
    intro n M v; simp [mahal]
  have hxm : A *ᵥ m + b = y → x = m := by
    intro h
    by_contra hne
    have h1 := hn m h fun h => hne h.symm
    rw [zero] at h1
    linarith [mahal_nonneg hS x m]
  have hum : A *ᵥ m + b = y → u = m := by
    intro h
    by_contra hne
    have h1 := ho m fun h => hne h.symm
    rw [h, zero, zero, zero_div, add_zero] at h1
    have := div_nonneg (mahal_nonneg hS u m) hα.le
    linarith
  -- a point between the initial mean and MUD that is better than both
  have key : A *ᵥ m + b ≠ y → u ≠ m ∧ u ≠ x := by
    intro h
    have hne : x ≠ m := fun he => h (he ▸ hxy)
    have hM := pos hC h
    have hK := div_pos (pos hS hne) hα
    set M₀ := mahal C (A *ᵥ m + b) y with hM₀
    set K := mahal S x m / α with hKd
    set t := M₀ / (M₀ + K) with ht
    have hval : mahal C (A *ᵥ (m + t • (x - m)) + b) y + mahal S (m + t • (x - m)) m / α = M₀ * K / (M₀ + K) := by
      rw [misfit_line C hxy, mahal_line, mul_div_assoc, ← hM₀, ← hKd, ht]
      have : M₀ + K ≠ 0 := by positivity
      field_simp
      ring
    have hle : mahal C (A *ᵥ u + b) y + mahal S u m / α ≤ M₀ * K / (M₀ + K) := by
      rw [← hval]
      by_cases he : m + t • (x - m) = u
      · rw [he]
      · exact (ho _ he).le
    constructor
    · rintro rfl
      rw [zero, zero_div, add_zero, ← hM₀, le_div_iff₀ (by positivity)] at hle
      nlinarith
    · rintro rfl
      rw [hxy, zero, zero_add, ← hKd, le_div_iff₀ (by positivity)] at hle
      nlinarith
  refine ⟨x, u, hx, hu, ⟨fun h => h ▸ hxy, hxm⟩, ⟨fun h => ?_, hum⟩, ⟨fun h => ?_, fun h => ?_⟩, fun h => ?_⟩
  · by_contra hc; exact (key hc).1 h
  · by_contra hc; exact (key hc).2 h
  · rw [hum h, hxm h]
  · obtain ⟨h1, h2⟩ := key h
    have h3 := ho x fun h => h2 h.symm
    rw [hxy, zero, zero_add] at h3
    have h4 := ho m fun h => h1 h.symm
    rw [zero, zero_div, add_zero] at h4
    have h5 : mahal S u m < mahal S x m := by
      have : mahal S u m / α < mahal S x m / α := by linarith
      exact (div_lt_div_iff_of_pos_right hα).1 this
    have h6 := pos hS h1
    refine ⟨h6, h5, ?_, ?_⟩
    · refine pos hC fun he => ?_
      exact absurd (hn u he h2) (not_lt.2 h5.le)
    · have := div_pos h6 hα
      linarith

/-- **C175, MUD and LS.** For attainable data, MUD is the least-squares point exactly when the latter differs from the
initial mean by a vector that `cov_i⁻¹` takes to a combination of the rows of `A`, that is, orthogonal to the directions
the data do not inform. -/
theorem C175_mud_ls (A : Matrix (Fin d) (Fin p) ℝ) (b y : Fin d → ℝ) (m : Fin p → ℝ) {S : Matrix (Fin p) (Fin p) ℝ}
    (hS : S.PosDef) (C : Matrix (Fin d) (Fin d) ℝ) {α : ℝ} (hα : 0 < α) (hy : ∃ x₀, A *ᵥ x₀ + b = y) :
    ∃ x l, Returns (Api.solve "mud" A b y m S C α) x ∧ Returns (Api.solve "ls" A b y m S C α) l ∧
      (x = l ↔ ∀ v, A *ᵥ v = 0 → v ⬝ᵥ (S⁻¹ *ᵥ (l - m)) = 0) := by
  obtain ⟨x, hx, hxy, hn⟩ := C02_mud_minimises_distance A b y m S hS C α hα hy
  obtain ⟨l, hl, hly, -⟩ := ls_nearest hy m S C α
  refine ⟨x, l, hx, hl, fun h => ?_, fun h => ?_⟩
  · subst h
    exact (nearest_iff hS hxy).1 hn
  · by_contra hne
    have h1 := (nearest_iff hS hly).2 h x hxy hne
    have h2 := hn l hly fun h => hne h.symm
    exact absurd h1 (not_lt.2 h2.le)

/-- For initial parameters that are independent with the same variance, MUD is the least-squares point exactly when the
initial mean has no part in the directions the data do not inform; in particular if it is zero. -/
theorem C175_isotropic (A : Matrix (Fin d) (Fin p) ℝ) (b y : Fin d → ℝ) (m : Fin p → ℝ) {s : ℝ} (hs : 0 < s)
    (C : Matrix (Fin d) (Fin d) ℝ) {α : ℝ} (hα : 0 < α) (hy : ∃ x₀, A *ᵥ x₀ + b = y) :
    ∃ x l : Fin p → ℝ, Returns (Api.solve "mud" A b y m (s • 1) C α) x ∧ Returns (Api.solve "ls" A b y m (s • 1) C α) l ∧
      (x = l ↔ ∀ v, A *ᵥ v = 0 → v ⬝ᵥ m = 0) := by
  have hS : (s • (1 : Matrix (Fin p) (Fin p) ℝ)).PosDef := PosDef.one.smul hs
  obtain ⟨x, l, hx, hl, h⟩ := C175_mud_ls A b y m hS C hα hy
  obtain ⟨l', hl', -, ho⟩ := ls_nearest hy m (s • 1) C α
  obtain rfl := returns_unique hl hl'
  refine ⟨x, l, hx, hl, h.trans (forall_congr' fun v => imp_congr_right fun hv => ?_)⟩
  rw [inv_smul_pos PosDef.one hs, inv_one, smul_mulVec, one_mulVec, dotProduct_smul, smul_eq_mul, dotProduct_sub,
    ho v hv, zero_sub]
  simp [hs.ne']

/-- When the data determine the parameters, MUD and LS are these parameters, whatever the initial distribution. -/
theorem C175_determined (A : Matrix (Fin d) (Fin p) ℝ) (b : Fin d → ℝ) (x₀ m : Fin p → ℝ) {S : Matrix (Fin p) (Fin p) ℝ}
    (hS : S.PosDef) (C : Matrix (Fin d) (Fin d) ℝ) {α : ℝ} (hα : 0 < α) (hA : ∀ v, A *ᵥ v = 0 → v = 0) :
    Returns (Api.solve "mud" A b (A *ᵥ x₀ + b) m S C α) x₀ ∧ Returns (Api.solve "ls" A b (A *ᵥ x₀ + b) m S C α) x₀ := by
  obtain ⟨x, hx, hxy, -⟩ := C02_mud_minimises_distance A b (A *ᵥ x₀ + b) m S hS C α hα ⟨x₀, rfl⟩
  obtain ⟨l, hl, hly, -⟩ := ls_nearest (A := A) (b := b) ⟨x₀, rfl⟩ m S C α
  have e : ∀ {z}, A *ᵥ z + b = A *ᵥ x₀ + b → z = x₀ := by
    intro z hz
    exact sub_eq_zero.1 (hA _ (by rw [mulVec_sub, add_right_cancel hz, sub_self]))
  rw [e hxy] at hx
  rw [e hly] at hl
  exact ⟨hx, hl⟩

/-! ### Concrete cases -/

/-- One measurement `1` of the sum of two parameters, initial mean `(1, 1)`, which does not reproduce it: MAP lies
strictly between. -/
example : ∃ x u : Fin 2 → ℝ, Returns (Api.solve "mud" !![1, 1] ![0] ![1] ![1, 1] 1 1 1) x ∧
    Returns (Api.solve "map" !![1, 1] ![0] ![1] ![1, 1] 1 1 1) u ∧ u ≠ x ∧ mahal 1 u ![1, 1] < mahal 1 x ![1, 1] := by
  have hm : (!![1, 1] : Matrix (Fin 1) (Fin 2) ℝ) *ᵥ ![1, 1] + ![0] ≠ ![1] := by
    intro h; have := congrFun h 0; simp at this
  obtain ⟨x, u, hx, hu, -, -, h3, h4⟩ := C175_mud_map !![1, 1] ![0] ![1] ![1, 1] PosDef.one PosDef.one one_pos
    ⟨![1, 0], by ext i; fin_cases i; simp⟩
  exact ⟨x, u, hx, hu, fun h => hm (h3.1 h), (h4 hm).2.1⟩

/-- For it MUD is the least-squares point, for the mean `(1, 0)` it is not. -/
example : (∃ x : Fin 2 → ℝ, Returns (Api.solve "mud" !![1, 1] ![0] ![1] ![1, 1] ((2 : ℝ) • 1) 1 1) x ∧
      Returns (Api.solve "ls" !![1, 1] ![0] ![1] ![1, 1] ((2 : ℝ) • 1) 1 1) x) ∧
    ∃ x l : Fin 2 → ℝ, Returns (Api.solve "mud" !![1, 1] ![0] ![1] ![1, 0] ((2 : ℝ) • 1) 1 1) x ∧
      Returns (Api.solve "ls" !![1, 1] ![0] ![1] ![1, 0] ((2 : ℝ) • 1) 1 1) l ∧ x ≠ l := by
  have hy : ∃ x₀, (!![1, 1] : Matrix (Fin 1) (Fin 2) ℝ) *ᵥ x₀ + ![0] = ![1] :=
    ⟨![1, 0], by ext i; fin_cases i; simp⟩
  have hk : ∀ v : Fin 2 → ℝ, (!![1, 1] : Matrix (Fin 1) (Fin 2) ℝ) *ᵥ v = 0 → v 0 + v 1 = 0 := by
    intro v hv; have := congrFun hv 0; simpa [mulVec, dotProduct] using this
  constructor
  · obtain ⟨x, l, hx, hl, h⟩ := C175_isotropic !![1, 1] ![0] ![1] ![1, 1] two_pos 1 one_pos hy
    obtain rfl := h.2 fun v hv => by simpa [dotProduct] using hk v hv
    exact ⟨x, hx, hl⟩
  · obtain ⟨x, l, hx, hl, h⟩ := C175_isotropic !![1, 1] ![0] ![1] ![1, 0] two_pos 1 one_pos hy
    refine ⟨x, l, hx, hl, fun he => ?_⟩
    have := h.1 he ![1, -1] (by ext i; fin_cases i; simp)
    simp [dotProduct] at this

end Verif
