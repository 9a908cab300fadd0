import Verif.Props.KdeRatio
import Verif.Props.KdeUnits
import Verif.Props.WmeEstimate

/-!
# C148, C149: fixed samples, growing data

`DensityProblem` on the weighted mean errors (`wme`) of `k` quantities of interest, each measured `N` times, with the
samples kept and `N` growing: the MUD point and the diagnostic `expected_ratio`.
-/

open MeasureTheory ProbabilityTheory Filter Topology
open scoped Matrix

namespace Verif

variable {n p k : ℕ} {Ω : Type} [MeasurableSpace Ω] {user : ℕ → ℝ → ℕ → ℝ}

/-! ## Specification -/

/-- The columns of `Y` are `wme(predictions[:, :N], data[:N], sd)` for each of the `k` quantities: sample `i` predicts
`q i j l` for measurement `l` of quantity `j`, `d j` are the measurements of this quantity and `s j` is the standard
deviation. -/
def WmeTable (q : Fin n → Fin k → ℕ → ℝ) (d : Fin k → ℕ → ℝ) (s : Fin k → ℝ) (N : ℕ) (Y : Matrix (Fin n) (Fin k) ℝ) : Prop :=
  ∀ j, wme (.mat ⟨n, N, .of fun i l => q i j l⟩) (.vec N fun l => d j l) (some (s j)) =
    .ok (List.ofFn fun i => F.fin (Y i j))

/-- Squared distance of predicted values from the values `t`, in units of the standard deviations. -/
noncomputable def misfitTo (s t : Fin k → ℝ) (z : Fin k → ℝ) : ℝ := ∑ j, ((z j - t j) / s j) ^ 2

/-! ## Lemmas -/

theorem wCov_affine (T : Matrix (Fin k) (Fin k) ℝ) (c : Fin k → ℝ) (y : Matrix (Fin n) (Fin k) ℝ) {w : Fin n → ℝ}
    (hW : ∑ i, w i ≠ 0) : wCov (affineRows T c y) w = T * wCov y w * Tᵀ := by
  have h1 : ∑ i, w i / ∑ l, w l = 1 := by rw [← Finset.sum_div, div_self hW]
  have h2 := kdeCov_eq_wCov (affineRows T c y) w hW
  rw [kdeCov_affine T c y h1, kdeCov_eq_wCov y w hW] at h2
  exact h2.symm

/-- The mixture of normal densities. -/
noncomputable def mixAt (bw : ℕ) (y : Fin n → Fin k → ℝ) (w : Fin n → ℝ) (x : Fin k → ℝ) : ℝ :=
  (∑ i, w i * normalPdf (bandwidth bw (effSize w) k ^ 2 • wCov y w) (x - y i)) / ∑ i, w i

/-- The kernel density estimate in other units. -/
theorem IsKernelEstimate.affine {bw : ℕ} {T : Matrix (Fin k) (Fin k) ℝ} (hT : IsUnit T.det) {c : Fin k → ℝ}
    {y : Matrix (Fin n) (Fin k) ℝ} {w : Fin n → ℝ} (hW : ∑ i, w i ≠ 0) {ρ' : (Fin k → ℝ) → ℝ}
    (h' : IsKernelEstimate bw (affineRows T c y) w ρ') (x : Fin k → ℝ) :
    ρ' (T *ᵥ x + c) = mixAt bw y w x / |T.det| := by
  unfold mixAt
  rw [h'.mixture, wCov_affine T c y hW, div_right_comm]
  congr 1
  rw [Finset.sum_div]
  refine Finset.sum_congr rfl fun i _ => ?_
  have e1 : T *ᵥ x + c - affineRows T c y i = T *ᵥ (x - y i) := by
    rw [Matrix.mulVec_sub]
    funext j
    simp [affineRows]
  have e2 : bandwidth bw (effSize w) k ^ 2 • (T * wCov y w * Tᵀ) = T * (bandwidth bw (effSize w) k ^ 2 • wCov y w) * Tᵀ := by
    simp
  rw [e1, e2, normalPdf_map _ _ hT, mul_div_assoc]

theorem wCov_tendsto {y : ℕ → Fin n → Fin k → ℝ} {y0 : Fin n → Fin k → ℝ} (h : Tendsto y atTop (𝓝 y0)) (w : Fin n → ℝ) :
    Tendsto (fun N => wCov (y N) w) atTop (𝓝 (wCov y0 w)) := by
  have hc : Continuous fun y : Fin n → Fin k → ℝ => wCov y w := by
    refine continuous_matrix fun a b => ?_
    simp only [wCov, wMean, Matrix.smul_apply, Matrix.sum_apply, Matrix.vecMulVec_apply, Pi.sub_apply, Pi.smul_apply,
      Finset.sum_apply, smul_eq_mul]
    fun_prop
  exact (hc.tendsto _).comp h

theorem mixAt_tendsto {bw : ℕ} {y : ℕ → Fin n → Fin k → ℝ} {y0 : Fin n → Fin k → ℝ} (h : Tendsto y atTop (𝓝 y0))
    {w : Fin n → ℝ} {ρ : (Fin k → ℝ) → ℝ} (h0 : IsKernelEstimate bw y0 w ρ) (hb : bandwidth bw (effSize w) k ≠ 0) (i : Fin n) :
    Tendsto (fun N => mixAt bw (y N) w (y N i)) atTop (𝓝 (ρ (y0 i))) := by
  rw [h0.mixture]
  unfold mixAt
  refine Tendsto.div_const (tendsto_finsetSum _ fun l _ => Tendsto.const_mul _ ?_) _
  have hy : ∀ l, Tendsto (fun N => y N l) atTop (𝓝 (y0 l)) := fun l => (tendsto_pi_nhds.1 h) l
  have hz := (hy i).sub (hy l)
  have hC := (wCov_tendsto h w).const_smul (bandwidth bw (effSize w) k ^ 2)
  have hdet : 0 < (bandwidth bw (effSize w) k ^ 2 • wCov y0 w).det := (h0.covPos.smul (by positivity)).det_pos
  have hinv := tendsto_inv hdet.ne' hC
  have hd := ((Continuous.matrix_det continuous_id).tendsto _).comp hC
  unfold normalPdf
  refine Tendsto.div ?_ ?_ (Real.sqrt_pos.2 (by positivity)).ne'
  · refine (Real.continuous_exp.tendsto _).comp ?_
    refine Tendsto.div_const (Tendsto.neg ?_) _
    simp only [dotProduct, Matrix.mulVec]
    refine tendsto_finsetSum _ fun a _ => Tendsto.mul (tendsto_pi_nhds.1 hz a) ?_
    refine tendsto_finsetSum _ fun b _ => Tendsto.mul ?_ (tendsto_pi_nhds.1 hz b)
    exact ((continuous_id.matrix_elem a b).tendsto _).comp hinv
  · exact (Real.continuous_sqrt.tendsto _).comp (hd.const_mul _)

/-- Outputs that are not confined to a hyperplane stay so under small changes. -/
theorem spread_eventually (hn : 0 < n) {y : ℕ → Fin n → Fin k → ℝ} {y0 : Fin n → Fin k → ℝ} (h : Tendsto y atTop (𝓝 y0))
    (hy : ∀ u : Fin k → ℝ, (∃ c, ∀ i, u ⬝ᵥ y0 i = c) → u = 0) :
    ∀ᶠ N in atTop, ∀ u : Fin k → ℝ, (∃ c, ∀ i, u ⬝ᵥ y N i = c) → u = 0 := by
  let M : (Fin n → Fin k → ℝ) → Matrix (Fin n) (Option (Fin k)) ℝ := fun y => .of fun i j => j.elim 1 (y i)
  have hM : ∀ (y : Fin n → Fin k → ℝ) (v : Option (Fin k) → ℝ) (i : Fin n),
      (M y *ᵥ v) i = v none + (fun j => v (some j)) ⬝ᵥ y i := by
    intro y v i
    simp only [Matrix.mulVec, dotProduct, Fintype.sum_option, M, Matrix.of_apply, Option.elim]
    rw [one_mul]
    congr 1
    exact Finset.sum_congr rfl fun j _ => mul_comm _ _
  have hinj : Function.Injective (M y0).mulVec := by
    refine (injective_iff_map_eq_zero ((M y0).mulVecLin)).2 fun v hv => ?_
    have hv' : ∀ i, v none + (fun j => v (some j)) ⬝ᵥ y0 i = 0 := fun i => by
      rw [← hM]; exact congrFun hv i
    have h1 := hy (fun j => v (some j)) ⟨-v none, fun i => by linarith [hv' i]⟩
    have h2 := hv' ⟨0, hn⟩
    rw [h1, zero_dotProduct, add_zero] at h2
    funext o
    cases o with
    | none => exact h2
    | some j => exact congrFun h1 j
  have hpos : 0 < ((M y0)ᵀ * M y0).det := by
    have := Matrix.PosDef.conjTranspose_mul_self (M y0) hinj
    rw [Matrix.conjTranspose_eq_transpose_of_trivial] at this
    exact this.det_pos
  have hc : Continuous fun y => ((M y)ᵀ * M y).det := by
    have hMc : Continuous M := by
      refine continuous_matrix fun i j => ?_
      cases j with
      | none => exact continuous_const
      | some j => exact (continuous_apply j).comp (continuous_apply i)
    exact (hMc.matrix_transpose.matrix_mul hMc).matrix_det
  filter_upwards [((hc.tendsto _).comp h).eventually_const_lt hpos] with N hN
  rintro u ⟨c, hu⟩
  simp only [Function.comp] at hN
  have h1 : M (y N) *ᵥ (fun o : Option (Fin k) => o.elim (-c) u) = 0 := by
    funext i
    rw [hM]
    show -c + u ⬝ᵥ y N i = 0
    rw [hu i]; ring
  have h2 : ((M (y N))ᵀ * M (y N)) *ᵥ (fun o : Option (Fin k) => o.elim (-c) u) = 0 := by
    rw [← Matrix.mulVec_mulVec, h1, Matrix.mulVec_zero]
  have h3 := Matrix.eq_zero_of_mulVec_eq_zero hN.ne' h2
  funext j
  exact congrFun h3 (some j)

/-- Mean of the first `N` predictions. -/
noncomputable def rowMean (q : Fin n → Fin k → ℕ → ℝ) (N : ℕ) : Matrix (Fin n) (Fin k) ℝ :=
  .of fun i j => (∑ l ∈ Finset.range N, q i j l) / N

/-- The table of weighted mean errors. -/
theorem wmeTable_iff {q : Fin n → Fin k → ℕ → ℝ} {d : Fin k → ℕ → ℝ} {s : Fin k → ℝ} (hs : ∀ j, s j ≠ 0) {N : ℕ} (hN : 0 < N)
    {Y : Matrix (Fin n) (Fin k) ℝ} :
    WmeTable q d s N Y ↔ ∀ i j, Y i j = Real.sqrt N / s j * (rowMean q N i j - (∑ l ∈ Finset.range N, d j l) / N) := by
  have hNr : (0 : ℝ) < N := by exact_mod_cast hN
  have hq := Real.sqrt_pos.2 hNr
  have e : ∀ i j, 1 / (s j * Real.sqrt N) * ∑ l : Fin N, (q i j l - d j l) =
      Real.sqrt N / s j * (rowMean q N i j - (∑ l ∈ Finset.range N, d j l) / N) := by
    intro i j
    rw [Finset.sum_sub_distrib, rowMean, Matrix.of_apply, Finset.sum_range, Finset.sum_range]
    have := hs j
    field_simp
    rw [Real.sq_sqrt hNr.le]
    ring
  constructor
  · intro h i j
    have h1 := h j
    rw [C21_formula _ _ _ (hs j) hN] at h1
    have h2 := congrFun (List.ofFn_injective (Except.ok.inj h1)) i
    rw [← F.fin.inj h2, ← e]
    rfl
  · intro h j
    rw [C21_formula _ _ _ (hs j) hN]
    congr 2
    funext i
    rw [h i j, ← e]
    rfl

theorem wmeTable_affine {q : Fin n → Fin k → ℕ → ℝ} {d : Fin k → ℕ → ℝ} {s : Fin k → ℝ} (hs : ∀ j, s j ≠ 0) {N : ℕ}
    (hN : 0 < N) {Y : Matrix (Fin n) (Fin k) ℝ} (h : WmeTable q d s N Y) :
    Y = affineRows (.diagonal fun j => Real.sqrt N / s j)
      (fun j => -(Real.sqrt N / s j * ((∑ l ∈ Finset.range N, d j l) / N))) (rowMean q N) := by
  ext i j
  rw [(wmeTable_iff hs hN).1 h i j, affineRows, Matrix.of_apply, Pi.add_apply, Matrix.mulVec_diagonal]
  ring

/-- The expected ratio with the defaults. -/
theorem default_expected {q : ℕ} (X : Matrix (Fin n) (Fin p) ℝ) (Y : Matrix (Fin n) (Fin q) ℝ) (Dm : Matrix (Fin p) (Fin 2) ℝ)
    (hn : 0 < n) (hD : ∀ j, Dm j 0 < Dm j 1) (w : Fin n → ℝ) (hw : ∀ k, 0 < w k) {P : DP}
    (hP : DP.new (.mat ⟨n, p, X⟩) (.mat ⟨n, q, Y⟩) (some (.mat ⟨p, 2, Dm⟩)) (some (.vec n w)) = .ok P)
    (hPX : P.X = ⟨n, p, X⟩) (hPy : P.y = ⟨n, q, Y⟩) (hPd : P.domain = ⟨p, 2, Dm⟩)
    (hPw : P.weights = List.ofFn fun k => F.fin (w k)) {ρ : (Fin q → ℝ) → ℝ} (hρ : ∀ z, 0 < ρ z)
    (hv : (scipyEnv user).kde P.y 0 P.weights = .ok (List.ofFn fun i => F.fin (ρ (Y i)))) :
    (DP.expectedRatio (scipyEnv user) P).1 =
      .ok (.fin ((∑ i, w i * ((∏ j, gaussianPDFReal 0 1 (Y i j)) / ρ (Y i))) / ∑ i, w i)) := by
  have hrel := new_rel (env := scipyEnv user) hP
  have hD0 := C28_default_initial X Dm hD
  rw [← hPX, ← hPd] at hD0
  have hO0 := C28_default_observed Y
  rw [← hPy] at hO0
  rw [(sim_expectedRatio P P.start hrel).1, (specEstimate_fresh _ hrel.inv (Or.inl rfl)).2]
  have hu := Settings.updated_ofFn (env := scipyEnv user) (D := P.data) (s := P.start.cur.complete) hPw hD0 hO0 hv
  have hr := Settings.ratio_ofFn (env := scipyEnv user) (D := P.data) (s := P.start.cur.complete) hO0 hv
  rw [hu, Py.ok_bind, hr, Py.ok_bind]
  have hpos : 0 < ∑ i, w i := Finset.sum_pos (fun i _ => hw i) ⟨⟨0, hn⟩, Finset.mem_univ _⟩
  have z : List.zipWith (· * ·) (List.ofFn fun i => F.fin (∏ j, gaussianPDFReal 0 1 (Y i j)) / F.fin (ρ (Y i)))
      (List.ofFn fun i => F.fin (w i)) =
      List.ofFn fun i => F.fin (w i * ((∏ j, gaussianPDFReal 0 1 (Y i j)) / ρ (Y i))) := by
    apply List.ext_getElem
    · simp
    · intro i h1 h2
      simp only [List.getElem_zipWith, List.getElem_ofFn]
      rw [F.fin_div_of_ne _ (hρ _).ne', F.fin_mul, mul_comm]
  have hw' : P.start.cur.weights = List.ofFn fun i => F.fin (w i) := hPw
  unfold DP.npAverage
  rw [hw', z, List.sum_ofFn, List.sum_ofFn, F.sum_fin, F.sum_fin]
  simp [raiseIf, hpos.ne', F.fin_div_of_ne _ hpos.ne']

/-- The ratio of sample `i` in terms of the misfit to the means of the data. -/
theorem nearest_ratio {q : Fin n → Fin k → ℕ → ℝ} {d : Fin k → ℕ → ℝ} {s : Fin k → ℝ} (hs : ∀ j, 0 < s j) {N : ℕ}
    (hN : 0 < N) {Y : Matrix (Fin n) (Fin k) ℝ} (h : WmeTable q d s N Y) {w : Fin n → ℝ} (hW : ∑ i, w i ≠ 0)
    {ρ' : (Fin k → ℝ) → ℝ} (h2 : IsKernelEstimate 0 Y w ρ') (i : Fin n) :
    (∏ j, gaussianPDFReal 0 1 (Y i j)) / ρ' (Y i) = Real.sqrt N ^ k / (∏ j, s j) * ((Real.sqrt (2 * Real.pi))⁻¹ ^ k *
      Real.exp (-(N / 2 * misfitTo s (fun j => (∑ l ∈ Finset.range N, d j l) / N) (rowMean q N i))) /
        mixAt 0 (rowMean q N) w (rowMean q N i)) ∧ 0 < mixAt 0 (rowMean q N) w (rowMean q N i) := by
  have hNr : (0 : ℝ) < N := by exact_mod_cast hN
  have hs' : ∀ j, s j ≠ 0 := fun j => (hs j).ne'
  have hq := Real.sqrt_pos.2 hNr
  have hY := wmeTable_affine hs' hN h
  have hdet : (Matrix.diagonal fun j => Real.sqrt N / s j).det = Real.sqrt N ^ k / ∏ j, s j := by
    rw [Matrix.det_diagonal, Finset.prod_div_distrib, Finset.prod_const, Finset.card_univ, Fintype.card_fin]
  have hP : 0 < ∏ j, s j := Finset.prod_pos fun j _ => hs j
  have hpos : 0 < Real.sqrt N ^ k / ∏ j, s j := by positivity
  have hT : IsUnit (Matrix.diagonal fun j => Real.sqrt N / s j).det := by
    rw [hdet]; exact hpos.ne'.isUnit
  have h2' := h2
  rw [hY] at h2'
  have e1 := h2'.affine hT hW (rowMean q N i)
  have e2 : (Matrix.diagonal fun j => Real.sqrt N / s j) *ᵥ rowMean q N i +
      (fun j => -(Real.sqrt N / s j * ((∑ l ∈ Finset.range N, d j l) / N))) = Y i := by
    conv_rhs => rw [hY]
    rfl
  rw [e2, hdet, abs_of_pos hpos] at e1
  have hmix : 0 < mixAt 0 (rowMean q N) w (rowMean q N i) := by
    have h3 := h2.pos (Y i)
    rw [e1] at h3
    exact (div_pos_iff_of_pos_right hpos).1 h3
  refine ⟨?_, hmix⟩
  rw [e1]
  have e3 : ∏ j, gaussianPDFReal 0 1 (Y i j) = (Real.sqrt (2 * Real.pi))⁻¹ ^ k *
      Real.exp (-(N / 2 * misfitTo s (fun j => (∑ l ∈ Finset.range N, d j l) / N) (rowMean q N i))) := by
    simp only [gaussianPDFReal]
    rw [Finset.prod_mul_distrib, Finset.prod_const, Finset.card_univ, Fintype.card_fin, ← Real.exp_sum]
    congr 2
    · simp
    · rw [misfitTo, Finset.mul_sum, ← Finset.sum_neg_distrib]
      refine Finset.sum_congr rfl fun j _ => ?_
      rw [(wmeTable_iff hs' hN).1 h i j]
      simp only [NNReal.coe_one]
      rw [sub_zero, mul_pow, div_pow, Real.sq_sqrt hNr.le]
      ring
  rw [e3]
  field_simp

theorem misfit_tendsto {s t : Fin k → ℝ} {d : Fin k → ℕ → ℝ}
    (hd : ∀ j, Tendsto (fun N : ℕ => (∑ l ∈ Finset.range N, d j l) / N) atTop (𝓝 (t j))) {q : Fin n → Fin k → ℕ → ℝ}
    {qb : Fin n → Fin k → ℝ} (hqb : ∀ i j, Tendsto (fun N : ℕ => (∑ l ∈ Finset.range N, q i j l) / N) atTop (𝓝 (qb i j)))
    (i : Fin n) :
    Tendsto (fun N : ℕ => misfitTo s (fun j => (∑ l ∈ Finset.range N, d j l) / N) (rowMean q N i)) atTop
      (𝓝 (misfitTo s t (qb i))) := by
  unfold misfitTo
  refine tendsto_finsetSum _ fun j _ => ?_
  exact (((hqb i j).sub (hd j)).div_const (s j)).pow 2

theorem rowMean_tendsto {q : Fin n → Fin k → ℕ → ℝ} {qb : Fin n → Fin k → ℝ}
    (hqb : ∀ i j, Tendsto (fun N : ℕ => (∑ l ∈ Finset.range N, q i j l) / N) atTop (𝓝 (qb i j))) :
    Tendsto (fun N => (rowMean q N : Fin n → Fin k → ℝ)) atTop (𝓝 qb) :=
  tendsto_pi_nhds.2 fun i => tendsto_pi_nhds.2 fun j => hqb i j

theorem wmeTable_exists {q : Fin n → Fin k → ℕ → ℝ} (d : Fin k → ℕ → ℝ) {s : Fin k → ℝ} (hs : ∀ j, 0 < s j) {N : ℕ} (hN : 0 < N)
    (hq : ∀ u : Fin k → ℝ, (∃ c, ∀ i, u ⬝ᵥ rowMean q N i = c) → u = 0) :
    ∃ Y, WmeTable q d s N Y ∧ ∀ u : Fin k → ℝ, (∃ c, ∀ i, u ⬝ᵥ Y i = c) → u = 0 := by
  have hNr : (0 : ℝ) < N := by exact_mod_cast hN
  have hsq := Real.sqrt_pos.2 hNr
  refine ⟨.of fun i j => Real.sqrt N / s j * (rowMean q N i j - (∑ l ∈ Finset.range N, d j l) / N),
    (wmeTable_iff (fun j => (hs j).ne') hN).2 fun i j => rfl, ?_⟩
  rintro u ⟨c, hc⟩
  have h := hq (fun j => u j * (Real.sqrt N / s j))
    ⟨c + ∑ j, u j * (Real.sqrt N / s j * ((∑ l ∈ Finset.range N, d j l) / N)), fun i => by
      rw [← hc i, dotProduct, dotProduct, ← Finset.sum_add_distrib]
      refine Finset.sum_congr rfl fun j _ => ?_
      rw [Matrix.of_apply]
      ring⟩
  funext j
  have := congrFun h j
  simpa [hsq.ne', (hs j).ne'] using this

/-- The means of the data converge. -/
theorem mean_of_data (tr : Fin k → ℕ → ℝ) (t : Fin k → ℝ)
    (ht : ∀ j, Tendsto (fun N : ℕ => (∑ l ∈ Finset.range N, tr j l) / N) atTop (𝓝 (t j)))
    (P : Measure Ω) (e : Fin k → ℕ → Ω → ℝ) (hint : ∀ j, Integrable (e j 0) P)
    (hpair : ∀ j, Pairwise fun l l' => IndepFun (e j l) (e j l') P) (hid : ∀ j l, IdentDistrib (e j l) (e j 0) P P)
    (h0 : ∀ j, ∫ ω, e j 0 ω ∂P = 0) :
    ∀ᵐ ω ∂P, ∀ j, Tendsto (fun N : ℕ => (∑ l ∈ Finset.range N, (tr j l + e j l ω)) / N) atTop (𝓝 (t j)) := by
  rw [ae_all_iff]
  intro j
  have h := strong_law_ae_real (e j) (hint j) (hpair j) (hid j)
  rw [h0 j] at h
  filter_upwards [h] with ω hω
  have h1 := (ht j).add hω
  rw [add_zero] at h1
  refine h1.congr fun N => ?_
  rw [Finset.sum_add_distrib, add_div]

theorem mean_const (c : ℝ) : Tendsto (fun N : ℕ => (∑ _l ∈ Finset.range N, c) / N) atTop (𝓝 c) := by
  refine tendsto_const_nhds.congr' ?_
  filter_upwards [eventually_gt_atTop 0] with N hN
  have hN' : (N : ℝ) ≠ 0 := by exact_mod_cast hN.ne'
  rw [Finset.sum_const, Finset.card_range, nsmul_eq_mul, mul_div_cancel_left₀ _ hN']

theorem bandwidth_effSize (hn : 0 < n) {w : Fin n → ℝ} (hw : ∀ i, 0 < w i) : bandwidth 0 (effSize w) k ≠ 0 := by
  have h1 : 0 < ∑ i, w i := Finset.sum_pos (fun i _ => hw i) ⟨⟨0, hn⟩, Finset.mem_univ _⟩
  have h2 : 0 < ∑ i, w i ^ 2 := Finset.sum_pos (fun i _ => pow_pos (hw i) 2) ⟨⟨0, hn⟩, Finset.mem_univ _⟩
  have h3 : 0 < effSize w := by unfold effSize; positivity
  unfold bandwidth
  rw [if_pos rfl]
  exact (Real.rpow_pos_of_pos h3 _).ne'

/-! ## C148 -/

/-- **C148.** Sample `i` predicts `q i j l` for measurement `l` of quantity `j`. If the means of the predictions converge to
`qb` and those of the measurements to `t`, then from some number of measurements on, the MUD point is one of the samples in
the domain for which `qb` is nearest to `t`. -/
theorem C148_nearest (hn : 2 ≤ n) (hk : 0 < k) (X : Matrix (Fin n) (Fin p) ℝ) (q : Fin n → Fin k → ℕ → ℝ)
    (qb : Fin n → Fin k → ℝ) (hqb : ∀ i j, Tendsto (fun N : ℕ => (∑ l ∈ Finset.range N, q i j l) / N) atTop (𝓝 (qb i j)))
    (hq : ∀ u : Fin k → ℝ, (∃ c, ∀ i, u ⬝ᵥ qb i = c) → u = 0) (Dm : Matrix (Fin p) (Fin 2) ℝ) (hD : ∀ j, Dm j 0 < Dm j 1)
    (w : Fin n → ℝ) (hw : ∀ i, 0 < w i) (s : Fin k → ℝ) (hs : ∀ j, 0 < s j) (d : Fin k → ℕ → ℝ) (t : Fin k → ℝ)
    (hd : ∀ j, Tendsto (fun N : ℕ => (∑ l ∈ Finset.range N, d j l) / N) atTop (𝓝 (t j))) :
    ∀ᶠ N in atTop, ∃ (Y : Matrix (Fin n) (Fin k) ℝ) (P : DP) (m : Fin n), WmeTable q d s N Y ∧
      DP.new (.mat ⟨n, p, X⟩) (.mat ⟨n, k, Y⟩) (some (.mat ⟨p, 2, Dm⟩)) (some (.vec n w)) = .ok P ∧
      (DP.mudPoint (scipyEnv user) P).1 = .ok (List.ofFn (X m)) ∧
      ∀ i, X i ∈ Set.Icc (fun j => Dm j 0) (fun j => Dm j 1) →
        X m ∈ Set.Icc (fun j => Dm j 0) (fun j => Dm j 1) ∧ misfitTo s t (qb m) ≤ misfitTo s t (qb i) := by
  have hW : ∑ i, w i ≠ 0 := (Finset.sum_pos (fun i _ => hw i) ⟨⟨0, by omega⟩, Finset.mem_univ _⟩).ne'
  obtain ⟨-, ρ, -, -, -, -, -, hρ, -⟩ := default_setup (user := user) hn hk X (.of qb) Dm w hw hq
  have hR : ∀ i, Tendsto (fun N => mixAt 0 (rowMean q N) w (rowMean q N i)) atTop (𝓝 (ρ (qb i))) := fun i =>
    mixAt_tendsto (rowMean_tendsto hqb) hρ (bandwidth_effSize (by omega) hw) i
  have key : ∀ᶠ N : ℕ in atTop, ∀ i m : Fin n, misfitTo s t (qb i) < misfitTo s t (qb m) →
      w m * Real.exp (-(N / 2 * misfitTo s (fun j => (∑ l ∈ Finset.range N, d j l) / N) (rowMean q N m))) / mixAt 0 (rowMean q N) w (rowMean q N m) <
        w i * Real.exp (-(N / 2 * misfitTo s (fun j => (∑ l ∈ Finset.range N, d j l) / N) (rowMean q N i))) / mixAt 0 (rowMean q N) w (rowMean q N i) := by
    rw [eventually_all]; intro i
    rw [eventually_all]; intro m
    by_cases him : misfitTo s t (qb i) < misfitTo s t (qb m)
    swap
    · exact .of_forall fun N h => absurd h him
    have h1 := (misfit_tendsto (s := s) hd hqb m).sub (misfit_tendsto (s := s) hd hqb i)
    have h2 : Tendsto (fun N : ℕ => (N : ℝ) / 2 * (misfitTo s (fun j => (∑ l ∈ Finset.range N, d j l) / N) (rowMean q N m) -
        misfitTo s (fun j => (∑ l ∈ Finset.range N, d j l) / N) (rowMean q N i))) atTop atTop :=
      Tendsto.atTop_mul_pos (sub_pos.2 him) (tendsto_natCast_atTop_atTop.atTop_div_const two_pos) h1
    have h3 := Real.tendsto_exp_atTop.comp h2
    have hq0 : 0 < ρ (qb i) := hρ.pos _
    have hm0 : 0 < ρ (qb m) := hρ.pos _
    have h4 : Tendsto (fun N => w m / mixAt 0 (rowMean q N) w (rowMean q N m) / (w i / mixAt 0 (rowMean q N) w (rowMean q N i))) atTop
        (𝓝 (w m / ρ (qb m) / (w i / ρ (qb i)))) :=
      (tendsto_const_nhds.div (hR m) hm0.ne').div (tendsto_const_nhds.div (hR i) hq0.ne') (div_pos (hw i) hq0).ne'
    filter_upwards [h3.eventually_gt_atTop (w m / ρ (qb m) / (w i / ρ (qb i)) + 1),
      h4.eventually_lt_const (lt_add_one _), (hR i).eventually_const_lt hq0] with N hN' hN4 hRi _
    have hN := hN4.trans hN'
    have a1 : 0 < w i / mixAt 0 (rowMean q N) w (rowMean q N i) := div_pos (hw i) hRi
    rw [div_lt_iff₀ a1] at hN
    simp only [Function.comp] at hN
    rw [mul_sub, sub_eq_neg_add, Real.exp_add] at hN
    have a2 := Real.exp_pos (-(N / 2 * misfitTo s (fun j => (∑ l ∈ Finset.range N, d j l) / N) (rowMean q N m)))
    have a3 := mul_lt_mul_of_pos_left hN a2
    have a4 : Real.exp (-(N / 2 * misfitTo s (fun j => (∑ l ∈ Finset.range N, d j l) / N) (rowMean q N m))) *
        Real.exp (N / 2 * misfitTo s (fun j => (∑ l ∈ Finset.range N, d j l) / N) (rowMean q N m)) = 1 := by
      rw [← Real.exp_add]; simp
    calc _ = Real.exp (-(N / 2 * misfitTo s (fun j => (∑ l ∈ Finset.range N, d j l) / N) (rowMean q N m))) *
          (w m / mixAt 0 (rowMean q N) w (rowMean q N m)) := by ring
      _ < _ := a3
      _ = Real.exp (-(N / 2 * misfitTo s (fun j => (∑ l ∈ Finset.range N, d j l) / N) (rowMean q N m))) *
          Real.exp (N / 2 * misfitTo s (fun j => (∑ l ∈ Finset.range N, d j l) / N) (rowMean q N m)) *
          (Real.exp (-(N / 2 * misfitTo s (fun j => (∑ l ∈ Finset.range N, d j l) / N) (rowMean q N i))) *
            (w i / mixAt 0 (rowMean q N) w (rowMean q N i))) := by ring
      _ = _ := by rw [a4]; ring
  filter_upwards [key, eventually_gt_atTop 0, spread_eventually (by omega) (rowMean_tendsto hqb) hq] with N hkey hN hsp
  obtain ⟨Y, hY, hYc⟩ := wmeTable_exists (q := q) d hs hN hsp
  obtain ⟨P, ρ', m, hP, hm, hρ', hmax⟩ := C106_default_estimate (user := user) hn hk X Y Dm hD w hw hYc
  refine ⟨Y, P, m, hY, hP, hm, fun i hi => ⟨(hmax i hi).1, ?_⟩⟩
  by_contra hlt
  have h1 := hkey i m (not_le.1 hlt)
  have h2 := (hmax i hi).2.1
  rw [mul_div_assoc, mul_div_assoc, (nearest_ratio hs hN hY hW hρ' i).1, (nearest_ratio hs hN hY hW hρ' m).1] at h2
  have hP : 0 < ∏ j, s j := Finset.prod_pos fun j _ => hs j
  have hNr : (0 : ℝ) < N := by exact_mod_cast hN
  have hc : 0 < Real.sqrt N ^ k / (∏ j, s j) * (Real.sqrt (2 * Real.pi))⁻¹ ^ k := by positivity
  have h3 := mul_lt_mul_of_pos_left h1 hc
  refine absurd h2 (not_le.2 ?_)
  calc _ = _ := ?_
    _ < _ := h3
    _ = _ := ?_
  · ring
  · ring

/-- **C148.** With independent measurement errors of mean zero, almost surely, from some number of measurements on, the MUD
point is one of the samples in the domain whose predictions are, in the mean, nearest to the true values `tr`. -/
theorem C148_almost_surely (hn : 2 ≤ n) (hk : 0 < k) (X : Matrix (Fin n) (Fin p) ℝ) (q : Fin n → Fin k → ℕ → ℝ)
    (qb : Fin n → Fin k → ℝ) (hqb : ∀ i j, Tendsto (fun N : ℕ => (∑ l ∈ Finset.range N, q i j l) / N) atTop (𝓝 (qb i j)))
    (hq : ∀ u : Fin k → ℝ, (∃ c, ∀ i, u ⬝ᵥ qb i = c) → u = 0) (Dm : Matrix (Fin p) (Fin 2) ℝ) (hD : ∀ j, Dm j 0 < Dm j 1)
    (w : Fin n → ℝ) (hw : ∀ i, 0 < w i) (s : Fin k → ℝ) (hs : ∀ j, 0 < s j)
    (tr : Fin k → ℕ → ℝ) (t : Fin k → ℝ)
    (ht : ∀ j, Tendsto (fun N : ℕ => (∑ l ∈ Finset.range N, tr j l) / N) atTop (𝓝 (t j)))
    (P : Measure Ω) (e : Fin k → ℕ → Ω → ℝ) (hint : ∀ j, Integrable (e j 0) P)
    (hpair : ∀ j, Pairwise fun l l' => IndepFun (e j l) (e j l') P) (hid : ∀ j l, IdentDistrib (e j l) (e j 0) P P)
    (h0 : ∀ j, ∫ ω, e j 0 ω ∂P = 0) :
    ∀ᵐ ω ∂P, ∀ᶠ N in atTop, ∃ (Y : Matrix (Fin n) (Fin k) ℝ) (Pb : DP) (m : Fin n),
      WmeTable q (fun j l => tr j l + e j l ω) s N Y ∧
      DP.new (.mat ⟨n, p, X⟩) (.mat ⟨n, k, Y⟩) (some (.mat ⟨p, 2, Dm⟩)) (some (.vec n w)) = .ok Pb ∧
      (DP.mudPoint (scipyEnv user) Pb).1 = .ok (List.ofFn (X m)) ∧
      ∀ i, X i ∈ Set.Icc (fun j => Dm j 0) (fun j => Dm j 1) →
        X m ∈ Set.Icc (fun j => Dm j 0) (fun j => Dm j 1) ∧ misfitTo s t (qb m) ≤ misfitTo s t (qb i) := by
  filter_upwards [mean_of_data tr t ht P e hint hpair hid h0] with ω hω
  exact C148_nearest hn hk X q qb hqb hq Dm hD w hw s hs _ t hω

/-- **C148.** Repeated measurements of the same `k` numbers `t`, predicted as `q i`: if one sample in the domain is nearer to
`t` than every other one in the domain, the MUD point is this sample, almost surely from some number of measurements on. -/
theorem C148_unique (hn : 2 ≤ n) (hk : 0 < k) (X : Matrix (Fin n) (Fin p) ℝ) (q : Fin n → Fin k → ℝ)
    (hq : ∀ u : Fin k → ℝ, (∃ c, ∀ i, u ⬝ᵥ q i = c) → u = 0) (Dm : Matrix (Fin p) (Fin 2) ℝ) (hD : ∀ j, Dm j 0 < Dm j 1)
    (w : Fin n → ℝ) (hw : ∀ i, 0 < w i) (s : Fin k → ℝ) (hs : ∀ j, 0 < s j) (t : Fin k → ℝ)
    (P : Measure Ω) (e : Fin k → ℕ → Ω → ℝ) (hint : ∀ j, Integrable (e j 0) P)
    (hpair : ∀ j, Pairwise fun l l' => IndepFun (e j l) (e j l') P) (hid : ∀ j l, IdentDistrib (e j l) (e j 0) P P)
    (h0 : ∀ j, ∫ ω, e j 0 ω ∂P = 0) (m : Fin n) (hm : X m ∈ Set.Icc (fun j => Dm j 0) (fun j => Dm j 1))
    (hnear : ∀ i, i ≠ m → X i ∈ Set.Icc (fun j => Dm j 0) (fun j => Dm j 1) →
      misfitTo s t (q m) < misfitTo s t (q i)) :
    ∀ᵐ ω ∂P, ∀ᶠ N in atTop, ∃ (Y : Matrix (Fin n) (Fin k) ℝ) (Pb : DP),
      WmeTable (fun i j _ => q i j) (fun j l => t j + e j l ω) s N Y ∧
      DP.new (.mat ⟨n, p, X⟩) (.mat ⟨n, k, Y⟩) (some (.mat ⟨p, 2, Dm⟩)) (some (.vec n w)) = .ok Pb ∧
      (DP.mudPoint (scipyEnv user) Pb).1 = .ok (List.ofFn (X m)) := by
  filter_upwards [C148_almost_surely (user := user) hn hk X (fun i j _ => q i j) q (fun i j => mean_const (q i j)) hq Dm hD w hw s hs
    (fun j _ => t j) t (fun j => mean_const (t j)) P e hint hpair hid h0] with ω hω
  filter_upwards [hω] with N hN
  obtain ⟨Y, Pb, m', h1, h2, h3, h4⟩ := hN
  have : m' = m := by
    by_contra hne
    obtain ⟨h5, h6⟩ := h4 m hm
    exact absurd h6 (not_le.2 (hnear m' hne h5))
  subst this
  exact ⟨Y, Pb, h1, h2, h3⟩

/-! ## C149 -/

theorem sqrt_exp_zero (k : ℕ) {D : ℕ → ℝ} {δ : ℝ} (hδ : 0 < δ) (h : Tendsto D atTop (𝓝 δ)) :
    Tendsto (fun N : ℕ => Real.sqrt N ^ k * Real.exp (-(N / 2 * D N))) atTop (𝓝 0) := by
  have h1 := (Real.tendsto_pow_mul_exp_neg_atTop_nhds_zero k).comp
    ((tendsto_natCast_atTop_atTop (R := ℝ)).atTop_mul_const (show 0 < δ / 4 by positivity))
  have h2 := h1.const_mul ((δ / 4)⁻¹ ^ k)
  rw [mul_zero] at h2
  refine squeeze_zero' (.of_forall fun N => by positivity) ?_ h2
  filter_upwards [h.eventually_const_lt (show δ / 2 < δ by linarith), eventually_ge_atTop 1] with N hN h1
  have hN1 : (1 : ℝ) ≤ N := by exact_mod_cast h1
  simp only [Function.comp]
  rw [← mul_assoc, ← mul_pow]
  have e : (δ / 4)⁻¹ * (N * (δ / 4)) = N := by field_simp
  rw [e]
  refine mul_le_mul (pow_le_pow_left₀ (Real.sqrt_nonneg _) ?_ k) (Real.exp_le_exp.2 ?_) (Real.exp_pos _).le (by positivity)
  · rw [Real.sqrt_le_left (by positivity)]
    nlinarith
  · nlinarith

theorem misfitTo_pos {s t z : Fin k → ℝ} (hs : ∀ j, 0 < s j) (h : z ≠ t) : 0 < misfitTo s t z := by
  obtain ⟨j, hj⟩ := Function.ne_iff.1 h
  refine Finset.sum_pos' (fun _ _ => sq_nonneg _) ⟨j, Finset.mem_univ j, ?_⟩
  have : (z j - t j) / s j ≠ 0 := div_ne_zero (sub_ne_zero.2 hj) (hs j).ne'
  positivity

/-- The expected ratio in terms of the misfits. -/
noncomputable def ratioFormula (q : Fin n → Fin k → ℕ → ℝ) (d : Fin k → ℕ → ℝ) (s : Fin k → ℝ) (w : Fin n → ℝ) (N : ℕ) : ℝ :=
  (∑ i, w i * (Real.sqrt N ^ k / (∏ j, s j) * ((Real.sqrt (2 * Real.pi))⁻¹ ^ k *
    Real.exp (-(N / 2 * misfitTo s (fun j => (∑ l ∈ Finset.range N, d j l) / N) (rowMean q N i))) / mixAt 0 (rowMean q N) w (rowMean q N i)))) / ∑ i, w i

theorem ratioFormula_spec (hn : 2 ≤ n) (hk : 0 < k) (X : Matrix (Fin n) (Fin p) ℝ) {q : Fin n → Fin k → ℕ → ℝ}
    {Dm : Matrix (Fin p) (Fin 2) ℝ} (hD : ∀ j, Dm j 0 < Dm j 1) {w : Fin n → ℝ} (hw : ∀ i, 0 < w i) {s : Fin k → ℝ}
    (hs : ∀ j, 0 < s j) (d : Fin k → ℕ → ℝ) {N : ℕ} (hN : 0 < N)
    (hsp : ∀ u : Fin k → ℝ, (∃ c, ∀ i, u ⬝ᵥ rowMean q N i = c) → u = 0) :
    (∀ i, 0 < mixAt 0 (rowMean q N) w (rowMean q N i)) ∧ ∃ (Y : Matrix (Fin n) (Fin k) ℝ) (P : DP), WmeTable q d s N Y ∧
      DP.new (.mat ⟨n, p, X⟩) (.mat ⟨n, k, Y⟩) (some (.mat ⟨p, 2, Dm⟩)) (some (.vec n w)) = .ok P ∧
      (DP.expectedRatio (scipyEnv user) P).1 = .ok (.fin (ratioFormula q d s w N)) := by
  have hWp : 0 < ∑ i, w i := Finset.sum_pos (fun i _ => hw i) ⟨⟨0, by omega⟩, Finset.mem_univ _⟩
  obtain ⟨Y, hY, hYc⟩ := wmeTable_exists (q := q) d hs hN hsp
  obtain ⟨P, ρ', hP', hPX, hPy, hPd, hPw, hρ', hv⟩ := default_setup (user := user) hn hk X Y Dm w hw hYc
  refine ⟨fun i => (nearest_ratio hs hN hY hWp.ne' hρ' i).2, Y, P, hY, hP', ?_⟩
  rw [default_expected X Y Dm (by omega) hD w hw hP' hPX hPy hPd hPw hρ'.pos hv]
  unfold ratioFormula
  congr 3
  refine Finset.sum_congr rfl fun i _ => ?_
  rw [(nearest_ratio hs hN hY hWp.ne' hρ' i).1]

/-- **C149.** If the means of the measurements and of the predictions converge and no sample predicts the limits `t`
exactly, the diagnostic `expected_ratio` tends to zero. -/
theorem C149_expected_ratio (hn : 2 ≤ n) (hk : 0 < k) (X : Matrix (Fin n) (Fin p) ℝ) (q : Fin n → Fin k → ℕ → ℝ)
    (qb : Fin n → Fin k → ℝ) (hqb : ∀ i j, Tendsto (fun N : ℕ => (∑ l ∈ Finset.range N, q i j l) / N) atTop (𝓝 (qb i j)))
    (hq : ∀ u : Fin k → ℝ, (∃ c, ∀ i, u ⬝ᵥ qb i = c) → u = 0) (Dm : Matrix (Fin p) (Fin 2) ℝ) (hD : ∀ j, Dm j 0 < Dm j 1)
    (w : Fin n → ℝ) (hw : ∀ i, 0 < w i) (s : Fin k → ℝ) (hs : ∀ j, 0 < s j) (d : Fin k → ℕ → ℝ) (t : Fin k → ℝ)
    (hd : ∀ j, Tendsto (fun N : ℕ => (∑ l ∈ Finset.range N, d j l) / N) atTop (𝓝 (t j))) (ht : ∀ i, qb i ≠ t) :
    ∃ E : ℕ → ℝ, Tendsto E atTop (𝓝 0) ∧ ∀ᶠ N in atTop,
      ∃ (Y : Matrix (Fin n) (Fin k) ℝ) (P : DP), WmeTable q d s N Y ∧
        DP.new (.mat ⟨n, p, X⟩) (.mat ⟨n, k, Y⟩) (some (.mat ⟨p, 2, Dm⟩)) (some (.vec n w)) = .ok P ∧
        (DP.expectedRatio (scipyEnv user) P).1 = .ok (.fin (E N)) := by
  have hWp : 0 < ∑ i, w i := Finset.sum_pos (fun i _ => hw i) ⟨⟨0, by omega⟩, Finset.mem_univ _⟩
  obtain ⟨-, ρ, -, -, -, -, -, hρ, -⟩ := default_setup (user := user) hn hk X (.of qb) Dm w hw hq
  have hR : ∀ i, Tendsto (fun N => mixAt 0 (rowMean q N) w (rowMean q N i)) atTop (𝓝 (ρ (qb i))) := fun i =>
    mixAt_tendsto (rowMean_tendsto hqb) hρ (bandwidth_effSize (by omega) hw) i
  refine ⟨ratioFormula q d s w, ?_, ?_⟩
  · have h1 := tendsto_finsetSum Finset.univ fun i (_ : i ∈ Finset.univ) =>
      ((sqrt_exp_zero k (misfitTo_pos hs (ht i)) (misfit_tendsto (s := s) hd hqb i)).const_mul
        (w i / (∏ j, s j) * (Real.sqrt (2 * Real.pi))⁻¹ ^ k)).div (hR i) (show ρ (qb i) ≠ 0 from (hρ.pos _).ne')
    have h2 := h1.div_const (∑ i, w i)
    simp only [mul_zero, zero_div, Finset.sum_const_zero] at h2
    refine h2.congr fun N => ?_
    unfold ratioFormula
    congr 1
    refine Finset.sum_congr rfl fun i _ => ?_
    simp only [Pi.div_apply]
    ring
  · filter_upwards [eventually_gt_atTop 0, spread_eventually (by omega) (rowMean_tendsto hqb) hq] with N hN hsp
    exact (ratioFormula_spec (user := user) hn hk X hD hw hs d hN hsp).2

/-- **C149.** With independent measurement errors of mean zero, almost surely. -/
theorem C149_almost_surely (hn : 2 ≤ n) (hk : 0 < k) (X : Matrix (Fin n) (Fin p) ℝ) (q : Fin n → Fin k → ℕ → ℝ)
    (qb : Fin n → Fin k → ℝ) (hqb : ∀ i j, Tendsto (fun N : ℕ => (∑ l ∈ Finset.range N, q i j l) / N) atTop (𝓝 (qb i j)))
    (hq : ∀ u : Fin k → ℝ, (∃ c, ∀ i, u ⬝ᵥ qb i = c) → u = 0) (Dm : Matrix (Fin p) (Fin 2) ℝ) (hD : ∀ j, Dm j 0 < Dm j 1)
    (w : Fin n → ℝ) (hw : ∀ i, 0 < w i) (s : Fin k → ℝ) (hs : ∀ j, 0 < s j)
    (tr : Fin k → ℕ → ℝ) (t : Fin k → ℝ)
    (ht : ∀ j, Tendsto (fun N : ℕ => (∑ l ∈ Finset.range N, tr j l) / N) atTop (𝓝 (t j)))
    (P : Measure Ω) (e : Fin k → ℕ → Ω → ℝ) (hint : ∀ j, Integrable (e j 0) P)
    (hpair : ∀ j, Pairwise fun l l' => IndepFun (e j l) (e j l') P) (hid : ∀ j l, IdentDistrib (e j l) (e j 0) P P)
    (h0 : ∀ j, ∫ ω, e j 0 ω ∂P = 0) (hne : ∀ i, qb i ≠ t) :
    ∀ᵐ ω ∂P, ∃ E : ℕ → ℝ, Tendsto E atTop (𝓝 0) ∧ ∀ᶠ N in atTop,
      ∃ (Y : Matrix (Fin n) (Fin k) ℝ) (Pb : DP), WmeTable q (fun j l => tr j l + e j l ω) s N Y ∧
        DP.new (.mat ⟨n, p, X⟩) (.mat ⟨n, k, Y⟩) (some (.mat ⟨p, 2, Dm⟩)) (some (.vec n w)) = .ok Pb ∧
        (DP.expectedRatio (scipyEnv user) Pb).1 = .ok (.fin (E N)) := by
  filter_upwards [mean_of_data tr t ht P e hint hpair hid h0] with ω hω
  exact C149_expected_ratio hn hk X q qb hqb hq Dm hD w hw s hs _ t hω hne

/-- **C149.** With exact data, predicted exactly by a sample, `expected_ratio` grows beyond all bounds. -/
theorem C149_exact_sample (hn : 2 ≤ n) (hk : 0 < k) (X : Matrix (Fin n) (Fin p) ℝ) (q : Fin n → Fin k → ℕ → ℝ)
    (qb : Fin n → Fin k → ℝ) (hqb : ∀ i j, Tendsto (fun N : ℕ => (∑ l ∈ Finset.range N, q i j l) / N) atTop (𝓝 (qb i j)))
    (hq : ∀ u : Fin k → ℝ, (∃ c, ∀ i, u ⬝ᵥ qb i = c) → u = 0) (Dm : Matrix (Fin p) (Fin 2) ℝ) (hD : ∀ j, Dm j 0 < Dm j 1)
    (w : Fin n → ℝ) (hw : ∀ i, 0 < w i) (s : Fin k → ℝ) (hs : ∀ j, 0 < s j) (m : Fin n) :
    ∃ E : ℕ → ℝ, Tendsto E atTop atTop ∧ ∀ᶠ N in atTop,
      ∃ (Y : Matrix (Fin n) (Fin k) ℝ) (P : DP), WmeTable q (q m) s N Y ∧
        DP.new (.mat ⟨n, p, X⟩) (.mat ⟨n, k, Y⟩) (some (.mat ⟨p, 2, Dm⟩)) (some (.vec n w)) = .ok P ∧
        (DP.expectedRatio (scipyEnv user) P).1 = .ok (.fin (E N)) := by
  have hWp : 0 < ∑ i, w i := Finset.sum_pos (fun i _ => hw i) ⟨⟨0, by omega⟩, Finset.mem_univ _⟩
  obtain ⟨-, ρ, -, -, -, -, -, hρ, -⟩ := default_setup (user := user) hn hk X (.of qb) Dm w hw hq
  have hR : Tendsto (fun N => mixAt 0 (rowMean q N) w (rowMean q N m)) atTop (𝓝 (ρ (qb m))) :=
    mixAt_tendsto (rowMean_tendsto hqb) hρ (bandwidth_effSize (by omega) hw) m
  have hρm : 0 < ρ (qb m) := hρ.pos _
  have hP : 0 < ∏ j, s j := Finset.prod_pos fun j _ => hs j
  have hsp := spread_eventually (by omega) (rowMean_tendsto hqb) hq
  refine ⟨ratioFormula q (q m) s w, ?_, ?_⟩
  · have hwm := hw m
    have h1 : Tendsto (fun N : ℕ => w m / (∏ j, s j) * (Real.sqrt (2 * Real.pi))⁻¹ ^ k / mixAt 0 (rowMean q N) w (rowMean q N m) / (∑ i, w i) *
        Real.sqrt N ^ k) atTop atTop := by
      refine Tendsto.pos_mul_atTop
        (show 0 < w m / (∏ j, s j) * (Real.sqrt (2 * Real.pi))⁻¹ ^ k / ρ (qb m) / (∑ i, w i) by positivity)
        ((tendsto_const_nhds.div hR hρm.ne').div_const _)
        ((tendsto_pow_atTop hk.ne').comp (Real.tendsto_sqrt_atTop.comp tendsto_natCast_atTop_atTop))
    refine tendsto_atTop_mono' _ ?_ h1
    filter_upwards [eventually_gt_atTop 0, hsp] with N hN hspN
    have hpos := (ratioFormula_spec (user := user) hn hk X hD hw hs (q m) hN hspN).1
    have h2 : misfitTo s (fun j => (∑ l ∈ Finset.range N, q m j l) / N) (rowMean q N m) = 0 := by
      refine Finset.sum_eq_zero fun j _ => ?_
      simp [rowMean]
    unfold ratioFormula
    rw [div_mul_eq_mul_div]
    refine div_le_div_of_nonneg_right ?_ hWp.le
    refine le_trans (le_of_eq ?_) (Finset.single_le_sum (fun i _ => ?_) (Finset.mem_univ m))
    · rw [h2]
      simp only [mul_zero, neg_zero, Real.exp_zero, mul_one]
      ring
    · have := (hw i).le
      have := hpos i
      positivity
  · filter_upwards [eventually_gt_atTop 0, hsp] with N hN hspN
    exact (ratioFormula_spec (user := user) hn hk X hD hw hs (q m) hN hspN).2

/-! ## A concrete case -/

/-- Four samples of one parameter on `[0, 3]`, one of them outside, and two quantities, `x²` and `x`, measured with standard
deviations `1/2` and `1`: the outputs are not confined to a line. -/
theorem squares_spread : ∀ u : Fin 2 → ℝ, (∃ c, ∀ i : Fin 4, u ⬝ᵥ (![![0, 0], ![1, 1], ![4, 2], ![25, 5]] : Fin 4 → Fin 2 → ℝ) i = c) →
    u = 0 := by
  rintro u ⟨c, hc⟩
  have h0 := hc 0
  have h1 := hc 1
  have h2 := hc 2
  simp [dotProduct, Fin.sum_univ_two] at h0 h1 h2
  ext j
  fin_cases j
  · show u 0 = 0; linarith
  · show u 1 = 0; linarith

/-- The true values are those of `x = 1.2`; noise of ±1 by a coin. The MUD point settles at the sample `1`. -/
example : ∀ᵐ ω ∂(Measure.infinitePi fun _ : Fin 2 × ℕ => coin), ∀ᶠ N in atTop, ∃ (Y : Matrix (Fin 4) (Fin 2) ℝ) (Pb : DP),
      WmeTable (fun i j _ => ![![0, 0], ![1, 1], ![4, 2], ![25, 5]] i j) (fun j l => (![36/25, 6/5] : Fin 2 → ℝ) j + ω (j, l)) ![1/2, 1] N Y ∧
      DP.new (.mat ⟨4, 1, !![(0 : ℝ); 1; 2; 5]⟩) (.mat ⟨4, 2, Y⟩) (some (.mat ⟨1, 2, !![(0 : ℝ), 3]⟩))
        (some (.vec 4 ![1, 1, 2, 9])) = .ok Pb ∧
      (DP.mudPoint (scipyEnv user) Pb).1 = .ok [1] := by
  have hl := grid_law (k := 2) coin
  have h := C148_unique (user := user) (n := 4) (p := 1) (k := 2) (by norm_num) (by norm_num) !![(0 : ℝ); 1; 2; 5] _ squares_spread
    !![(0 : ℝ), 3] (by intro j; fin_cases j; norm_num) ![1, 1, 2, 9] (by intro k; fin_cases k <;> norm_num)
    ![1/2, 1] (by intro k; fin_cases k <;> norm_num) ![36/25, 6/5]
    (Measure.infinitePi fun _ : Fin 2 × ℕ => coin) (fun i j ω => ω (i, j))
    (fun i => by
      have : Integrable (fun x : ℝ => x) coin := by
        refine Integrable.add_measure ?_ ?_ <;>
          exact (integrable_dirac' measurable_id.stronglyMeasurable (by simp)).smul_measure (by simp)
      rw [← (hl (i, 0)).map_eq] at this
      exact (integrable_map_measure (by fun_prop) (hl (i, 0)).aemeasurable).1 this)
    (fun i j j' hjj => (grid_indep coin).indepFun fun h => hjj (Prod.mk.inj h).2)
    (fun i j => ⟨(hl _).aemeasurable, (hl _).aemeasurable, by rw [(hl _).map_eq, (hl _).map_eq]⟩)
    (fun i => by
      have h : ∫ ω, (fun x : ℝ => x) ((fun ω : Fin 2 × ℕ → ℝ => ω (i, 0)) ω) ∂(Measure.infinitePi fun _ : Fin 2 × ℕ => coin) =
          ∫ x, x ∂coin := by
        conv_rhs => rw [← (hl (i, 0)).map_eq]
        rw [integral_map (hl (i, 0)).aemeasurable (by fun_prop)]
      rw [show (∫ ω : Fin 2 × ℕ → ℝ, ω (i, 0) ∂(Measure.infinitePi fun _ : Fin 2 × ℕ => coin)) = ∫ x, x ∂coin from h,
        integral_coin (fun x => x) measurable_id]
      norm_num)
    1 (by constructor <;> intro j <;> fin_cases j <;> norm_num) (by
      intro i hi hX
      fin_cases i
      · norm_num [misfitTo, Fin.sum_univ_two]
      · exact absurd rfl hi
      · norm_num [misfitTo, Fin.sum_univ_two]
      · norm_num [misfitTo, Fin.sum_univ_two])
  filter_upwards [h] with ω hω
  filter_upwards [hω] with N hN
  simpa using hN

/-- C149 on the same problem with the exact values of `x = 1.2`, and with the exact values of `x = 2`. -/
example := C149_expected_ratio (user := user) (n := 4) (p := 1) (k := 2) (by norm_num) (by norm_num) !![(0 : ℝ); 1; 2; 5]
  (fun i j _ => ![![0, 0], ![1, 1], ![4, 2], ![25, 5]] i j) _ (fun i j => mean_const _)
  squares_spread !![(0 : ℝ), 3] (by intro j; fin_cases j; norm_num) ![1, 1, 2, 9] (by intro k; fin_cases k <;> norm_num)
  ![1/2, 1] (by intro k; fin_cases k <;> norm_num) (fun j _ => (![36/25, 6/5] : Fin 2 → ℝ) j) ![36/25, 6/5]
  (fun j => mean_const _)
  (by
    intro i h
    have := congrFun h 1
    fin_cases i <;> norm_num at this)

example := C149_exact_sample (user := user) (n := 4) (p := 1) (k := 2) (by norm_num) (by norm_num) !![(0 : ℝ); 1; 2; 5]
  (fun i j _ => ![![0, 0], ![1, 1], ![4, 2], ![25, 5]] i j) _ (fun i j => mean_const _)
  squares_spread !![(0 : ℝ), 3] (by intro j; fin_cases j; norm_num) ![1, 1, 2, 9] (by intro k; fin_cases k <;> norm_num)
  ![1/2, 1] (by intro k; fin_cases k <;> norm_num) 2

end Verif
