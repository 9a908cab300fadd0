import Verif.Model.Kde
import Verif.Props.DensityPerm
import Verif.Lemmas.Gauss

/-!
# scipy's Gaussian kernel density estimate: C30 and C33 without assumptions, C79, C80
-/

open Matrix

namespace Verif

variable {user : ℕ → ℝ → ℕ → ℝ}

/-! ## The estimate depends on relative weights only -/

theorem re_pos_mul {c : ℝ} (x : F) : (F.fin c * x).re = c * x.re := by
  cases x with
  | fin x => rfl
  | _ =>
    rw [F.mul_of_not (by simp [F.isFin])]
    simp only [F.re, mul_zero, F.sgn]
    unfold F.infOf
    split_ifs <;> rfl

theorem isFin_pos_mul {c : ℝ} (x : F) : (F.fin c * x).isFin ↔ x.isFin := by
  by_cases h : x.isFin
  · cases x <;> simp_all [F.isFin]
  · constructor
    · intro h'; exact absurd h' (F.mul_sgn (by tauto))
    · intro h'; exact absurd h' h

theorem sum_re_scale {c : ℝ} (w : List F) :
    ((w.map (F.fin c * ·)).map F.re).sum = c * (w.map F.re).sum := by
  rw [List.map_map, ← List.sum_map_mul_left]
  congr 1
  apply List.map_congr_left
  intro x _
  exact re_pos_mul x

theorem kdeWeights_scale {c : ℝ} (hc : 0 < c) (n : ℕ) (w : List F) :
    kdeWeights n (w.map (F.fin c * ·)) = kdeWeights n w := by
  funext i
  unfold kdeWeights
  have : (w.map (F.fin c * ·)).getD i (.fin 0) = F.fin c * w.getD i (.fin 0) := by
    simp only [List.getD_eq_getElem?_getD, List.getElem?_map]
    cases w[i.1]? <;> simp
  rw [this, sum_re_scale, re_pos_mul, mul_div_mul_left _ _ hc.ne']

theorem raiseIf_congr {p q : Prop} [Decidable p] [Decidable q] (h : p ↔ q) (e : Err) :
    raiseIf p e = raiseIf q e := by
  unfold raiseIf
  by_cases hq : q
  · rw [if_pos hq, if_pos (h.2 hq)]
  · rw [if_neg hq, if_neg (fun hp => hq (h.1 hp))]

theorem kdeCheck_congr {D D' : Arr2} {w w' : List F} (h1 : D.r * D.c ≤ 1 ↔ D'.r * D'.c ≤ 1)
    (h2 : w.length ≠ D.r ↔ w'.length ≠ D'.r)
    (h3 : (¬ ∀ x ∈ w, x.isFin) ↔ ¬ ∀ x ∈ w', x.isFin)
    (h4 : (w.map F.re).sum = 0 ↔ (w'.map F.re).sum = 0)
    (h5 : (∃ i, kdeWeights D.r w i < 0) ↔ ∃ i, kdeWeights D'.r w' i < 0)
    (h6 : 1 ≤ ∑ i, kdeWeights D.r w i ^ 2 ↔ 1 ≤ ∑ i, kdeWeights D'.r w' i ^ 2)
    (h7 : (¬ (kdeCov D.m (kdeWeights D.r w)).PosDef) ↔
      ¬ (kdeCov D'.m (kdeWeights D'.r w')).PosDef) : kdeCheck D w = kdeCheck D' w' := by
  classical
  unfold kdeCheck
  rw [raiseIf_congr h1, raiseIf_congr h2, raiseIf_congr h3, raiseIf_congr h4, raiseIf_congr h5,
    raiseIf_congr h6, raiseIf_congr h7]

theorem kdeCheck_scale {c : ℝ} (hc : 0 < c) (D : Arr2) (w : List F) :
    kdeCheck D (w.map (F.fin c * ·)) = kdeCheck D w := by
  apply kdeCheck_congr <;> try rw [kdeWeights_scale hc]
  · rfl
  · rw [List.length_map]
  · simp [isFin_pos_mul]
  · rw [sum_re_scale]; simp [hc.ne']

/-- What `C30_relative_weights` assumes of the kernel density estimate holds of scipy's. -/
theorem scipy_kdeScale : KdeScale (scipyEnv user) := by
  intro y bw w c hc
  simp only [scipyEnv, gaussianKde, kdeCheck_scale hc, kdeWeights_scale hc]

/-! ## Reordering the samples reorders the estimate -/

section Perm
variable {n d : ℕ} (e : Equiv.Perm (Fin n)) (N : Matrix (Fin n) (Fin d) ℝ) (w : Fin n → F)

theorem sum_re_ofFn (w : Fin n → F) : ((List.ofFn w).map F.re).sum = ∑ i, (w i).re := by
  rw [List.map_ofFn, List.sum_ofFn]; rfl

theorem kdeWeights_ofFn (w : Fin n → F) (i : Fin n) :
    kdeWeights n (List.ofFn w) i = (w i).re / ∑ l, (w l).re := by
  unfold kdeWeights
  rw [sum_re_ofFn]
  simp

theorem kdeWeights_perm :
    kdeWeights n (List.ofFn (w ∘ e)) = kdeWeights n (List.ofFn w) ∘ e := by
  funext i
  simp only [Function.comp, kdeWeights_ofFn]
  rw [Equiv.sum_comp e fun i => (w i).re]

theorem kdeCov_perm (v : Fin n → ℝ) : kdeCov (N.submatrix e id) (v ∘ e) = kdeCov N v := by
  ext j k
  simp only [kdeCov, Matrix.of_apply, Function.comp, Matrix.submatrix_apply, id]
  rw [Equiv.sum_comp e fun i => v i ^ 2, Equiv.sum_comp e fun l => v l * N l j,
    Equiv.sum_comp e fun l => v l * N l k,
    Equiv.sum_comp e fun i => v i * ((N i j - ∑ l, v l * N l j) * (N i k - ∑ l, v l * N l k))]

theorem kdeAt_perm (v : Fin n → ℝ) (h : ℝ) (x : Fin d → ℝ) :
    kdeAt (N.submatrix e id) (v ∘ e) h x = kdeAt N v h x := by
  unfold kdeAt
  rw [kdeCov_perm]
  exact Equiv.sum_comp e fun i => v i * normalPdf (h ^ 2 • kdeCov N v) fun j => x j - N i j

theorem kdeCheck_perm :
    kdeCheck ⟨n, d, N.submatrix e id⟩ (List.ofFn (w ∘ e)) = kdeCheck ⟨n, d, N⟩ (List.ofFn w) := by
  apply kdeCheck_congr <;> try simp only [kdeWeights_perm, kdeCov_perm, Function.comp]
  · simp
  · simp only [List.forall_mem_ofFn_iff]
    rw [not_iff_not]
    exact ⟨fun h i => by simpa using h (e.symm i), fun h i => h _⟩
  · rw [sum_re_ofFn, sum_re_ofFn]
    exact iff_of_eq (congrArg (· = 0) (Equiv.sum_comp e fun i => (w i).re))
  · exact ⟨fun ⟨i, h⟩ => ⟨_, h⟩, fun ⟨i, h⟩ => ⟨e.symm i, by simpa using h⟩⟩
  · rw [Equiv.sum_comp e fun i => kdeWeights n (List.ofFn w) i ^ 2]

/-- What `C33_sample_order` assumes of the kernel density estimate holds of scipy's. -/
theorem scipy_kdePerm : KdePerm (scipyEnv user) := by
  intro n k N w bw e
  simp only [scipyEnv, gaussianKde, kdeCheck_perm]
  cases kdeCheck ⟨n, k, N⟩ (List.ofFn w) with
  | error _ => exact rfl
  | ok _ =>
    refine ⟨fun i => .fin (kdeAt N (kdeWeights n (List.ofFn w))
      (kdeFactor user bw (kdeNeff (kdeWeights n (List.ofFn w))) k) (N i)), rfl, ?_⟩
    congr 1
    funext i
    have hn : kdeNeff (kdeWeights n (List.ofFn (w ∘ e))) = kdeNeff (kdeWeights n (List.ofFn w)) := by
      unfold kdeNeff
      rw [kdeWeights_perm]
      simp only [Function.comp]
      rw [Equiv.sum_comp e fun i => kdeWeights n (List.ofFn w) i ^ 2]
    rw [hn, kdeWeights_perm, kdeAt_perm]
    rfl

end Perm

/-! ## The estimate is a positive probability density -/

section Density
variable {n d : ℕ} {D : Matrix (Fin n) (Fin d) ℝ}

/-- The data and weights with which scipy computes an estimate. -/
theorem kdeCheck_ok {D : Arr2} {w : List F} (h : kdeCheck D w = .ok ()) :
    1 < D.r * D.c ∧ w.length = D.r ∧ (∀ i, 0 ≤ kdeWeights D.r w i) ∧
      ∑ i, kdeWeights D.r w i = 1 ∧ ∑ i, kdeWeights D.r w i ^ 2 < 1 ∧
      (kdeCov D.m (kdeWeights D.r w)).PosDef := by
  classical
  unfold kdeCheck at h
  have step : ∀ {p : Prop} [Decidable p] {e : Err} {x : Py Unit},
      (raiseIf p e >>= fun _ => x) = .ok () → ¬ p ∧ x = .ok () := by
    intro p _ e x h
    by_cases hp : p
    · rw [raiseIf_true hp] at h; cases h
    · rw [raiseIf_false hp] at h; exact ⟨hp, h⟩
  obtain ⟨h1, h⟩ := step h
  obtain ⟨h2, h⟩ := step h
  obtain ⟨h3, h⟩ := step h
  obtain ⟨h4, h⟩ := step h
  obtain ⟨h5, h⟩ := step h
  obtain ⟨h6, h⟩ := step h
  have h7 : (kdeCov D.m (kdeWeights D.r w)).PosDef := by
    by_contra hp
    rw [raiseIf_true hp] at h
    cases h
  have h2' : w.length = D.r := not_not.1 h2
  refine ⟨not_le.1 h1, h2', fun i => not_lt.1 fun hi => h5 ⟨i, hi⟩, ?_, not_le.1 h6, h7⟩
  unfold kdeWeights
  rw [← Finset.sum_div]
  have : ∑ i : Fin D.r, (w.getD i (.fin 0)).re = (w.map F.re).sum := by
    rcases D with ⟨n, d, D⟩
    obtain rfl : w.length = n := h2'
    conv_rhs => rw [← List.ofFn_getElem (xs := w)]
    rw [sum_re_ofFn]
    exact Finset.sum_congr rfl fun i _ => by simp
  rw [this, div_self h4]

theorem kdeNeff_gt_one {v : Fin n → ℝ} (h1 : ∑ i, v i = 1) (h2 : ∑ i, v i ^ 2 < 1) :
    1 < kdeNeff v := by
  unfold kdeNeff
  have : 0 < ∑ i, v i ^ 2 := by
    refine lt_of_le_of_ne (Finset.sum_nonneg fun i _ => sq_nonneg _) fun h => ?_
    have h3 := (Finset.sum_eq_zero_iff_of_nonneg fun i _ => sq_nonneg (v i)).1 h.symm
    have : ∑ i, v i = 0 := Finset.sum_eq_zero fun i hi => by simpa using h3 i hi
    rw [this] at h1
    exact zero_ne_one h1
  rwa [lt_div_iff₀ this, one_mul]

/-- The two built-in bandwidth methods give a positive factor. -/
theorem kdeFactor_pos {bw : ℕ} (hbw : bw < 2) {neff : ℝ} (hn : 0 < neff) (d : ℕ) :
    0 < kdeFactor user bw neff d := by
  match bw, hbw with
  | 0, _ => exact Real.rpow_pos_of_pos hn _
  | 1, _ => exact Real.rpow_pos_of_pos (by positivity) _

theorem kdeAt_pos {v : Fin n → ℝ} {h : ℝ} (hv : ∀ i, 0 ≤ v i) (h1 : ∑ i, v i = 1) (hh : 0 < h)
    (hC : (kdeCov D v).PosDef) (x : Fin d → ℝ) : 0 < kdeAt D v h x := by
  have hH : (h ^ 2 • kdeCov D v).PosDef := hC.smul (by positivity)
  refine Finset.sum_pos' (fun i _ => mul_nonneg (hv i) (normalPdf_pos hH _).le) ?_
  by_contra hcon
  push Not at hcon
  have : ∑ i, v i = 0 := Finset.sum_eq_zero fun i hi => by
    have := hcon i hi
    have h2 := normalPdf_pos hH fun j => x j - D i j
    nlinarith [hv i]
  rw [this] at h1
  exact zero_ne_one h1

theorem integral_kdeAt {v : Fin n → ℝ} {h : ℝ} (h1 : ∑ i, v i = 1) (hh : 0 < h)
    (hC : (kdeCov D v).PosDef) : ∫ x, kdeAt D v h x = 1 := by
  have hH : (h ^ 2 • kdeCov D v).PosDef := hC.smul (by positivity)
  unfold kdeAt
  rw [MeasureTheory.integral_finsetSum _ fun i _ => (integrable_normalPdf hH (D i)).const_mul _]
  simp only [MeasureTheory.integral_const_mul, integral_normalPdf hH, mul_one, h1]

end Density

/-! ## C79: the default predicted density -/

/-- A probability density on `ℝᵈ` that vanishes nowhere. -/
structure IsPositiveDensity {d : ℕ} (ρ : (Fin d → ℝ) → ℝ) : Prop where
  pos : ∀ x, 0 < ρ x
  mass : ∫ x, ρ x = 1

/-- Mean of the rows of `y` with weights `w`. -/
noncomputable def wMean {n d : ℕ} (y : Fin n → Fin d → ℝ) (w : Fin n → ℝ) : Fin d → ℝ :=
  (∑ i, w i)⁻¹ • ∑ i, w i • y i

/-- Effective number of samples (Kish): `n` for equal weights. -/
noncomputable def effSize {n : ℕ} (w : Fin n → ℝ) : ℝ := (∑ i, w i) ^ 2 / ∑ i, w i ^ 2

/-- Unbiased covariance of the rows of `y` with weights `w`; for equal weights the usual one with `n - 1`. -/
noncomputable def wCov {n d : ℕ} (y : Fin n → Fin d → ℝ) (w : Fin n → ℝ) : Matrix (Fin d) (Fin d) ℝ :=
  ((∑ i, w i) / ((∑ i, w i) ^ 2 - ∑ i, w i ^ 2)) •
    ∑ i, w i • Matrix.vecMulVec (y i - wMean y w) (y i - wMean y w)

/-- The rules of Scott (0) and Silverman (1) for the bandwidth with `m` samples in `d` dimensions. -/
noncomputable def bandwidth (bw : ℕ) (m : ℝ) (d : ℕ) : ℝ :=
  if bw = 0 then m ^ (-1 / (d + 4 : ℝ)) else (m * (d + 2) / 4) ^ (-1 / (d + 4 : ℝ))

/-- `ρ` is the normal kernel density estimate of the rows of `y` with weights `w`: a positive probability density, the
mixture of normal densities centred at the rows, in proportion of the weights, with the squared bandwidth times the
covariance of the rows as covariance. -/
structure IsKernelEstimate {n d : ℕ} (bw : ℕ) (y : Fin n → Fin d → ℝ) (w : Fin n → ℝ) (ρ : (Fin d → ℝ) → ℝ) : Prop
    extends IsPositiveDensity ρ where
  covPos : (wCov y w).PosDef
  mixture : ∀ x, ρ x =
    (∑ i, w i * normalPdf (bandwidth bw (effSize w) d ^ 2 • wCov y w) (x - y i)) / ∑ i, w i

theorem sum_sq_div {n : ℕ} (w : Fin n → ℝ) (W : ℝ) : ∑ i, (w i / W) ^ 2 = (∑ i, w i ^ 2) / W ^ 2 := by
  simp only [div_pow]
  rw [Finset.sum_div]

theorem kdeNeff_eq {n : ℕ} (w : Fin n → ℝ) : kdeNeff (fun i => w i / ∑ l, w l) = effSize w := by
  rw [kdeNeff, effSize, sum_sq_div, one_div_div]

theorem kdeFactor_eq {bw : ℕ} (hbw : bw < 2) (m : ℝ) (d : ℕ) : kdeFactor user bw m d = bandwidth bw m d := by
  match bw, hbw with
  | 0, _ => rfl
  | 1, _ => rfl

theorem kdeCov_eq_wCov {n d : ℕ} (y : Matrix (Fin n) (Fin d) ℝ) (w : Fin n → ℝ) (hW : ∑ i, w i ≠ 0) :
    kdeCov y (fun i => w i / ∑ l, w l) = wCov y w := by
  set W := ∑ l, w l with hWd
  have hm : ∀ j, ∑ l, w l / W * y l j = wMean y w j := by
    intro j
    unfold wMean
    rw [← hWd, Pi.smul_apply, Finset.sum_apply, smul_eq_mul, Finset.mul_sum]
    refine Finset.sum_congr rfl fun l _ => ?_
    rw [Pi.smul_apply, smul_eq_mul]
    ring
  ext j k
  unfold kdeCov wCov
  rw [Matrix.of_apply, Matrix.smul_apply, Matrix.sum_apply, sum_sq_div, ← hWd, smul_eq_mul]
  simp only [hm, Matrix.smul_apply, Matrix.vecMulVec_apply, Pi.sub_apply, smul_eq_mul]
  rw [Finset.mul_sum, Finset.mul_sum]
  refine Finset.sum_congr rfl fun i _ => ?_
  by_cases h : W ^ 2 - ∑ i, w i ^ 2 = 0
  · have h2 : 1 - (∑ i, w i ^ 2) / W ^ 2 = 0 := by
      rw [sub_eq_zero, eq_div_iff (pow_ne_zero 2 hW)]
      linarith
    rw [h2, h]
    simp
  · have h2 : 1 - (∑ i, w i ^ 2) / W ^ 2 ≠ 0 := by
      intro h0
      rw [sub_eq_zero, eq_div_iff (pow_ne_zero 2 hW)] at h0
      exact h (by linarith)
    field_simp

theorem setPredicted_kde {Q : DP} {env : Env} (bw : ℕ) {v : List F}
    (h : env.kde Q.y bw Q.weights = .ok v) :
    DP.setPredicted env none bw none Q = (.ok (), { Q with pr := some v, up := none }) := by
  simp [DP.setPredicted, DP.setWeightsIf, DP.predVals, h, PyM.bind_run]

theorem setPredicted_kde_iff {Q : DP} {env : Env} (bw : ℕ) :
    (DP.setPredicted env none bw none Q).1 = .ok () ↔ ∃ v, env.kde Q.y bw Q.weights = .ok v := by
  cases h : env.kde Q.y bw Q.weights with
  | error e => simp [DP.setPredicted, DP.setWeightsIf, DP.predVals, h, PyM.bind_run]
  | ok v => simp [setPredicted_kde bw h]

theorem gaussianKde_iff {D : Arr2} {w : List F} {bw : ℕ} :
    (∃ v, gaussianKde user D bw w = .ok v) ↔ kdeCheck D w = .ok () := by
  unfold gaussianKde
  cases kdeCheck D w with
  | error e => simp
  | ok _ => simp

theorem kdeWeights_sum {n : ℕ} {w : List F} (h : w.length = n) :
    (w.map F.re).sum = ∑ i : Fin n, (w.getD i (.fin 0)).re := by
  subst h
  conv_lhs => rw [← List.ofFn_getElem (xs := w)]
  rw [sum_re_ofFn]
  exact Finset.sum_congr rfl fun i _ => by simp

/-- The density computed by scipy. -/
theorem kde_density {D : Arr2} {w : List F} {bw : ℕ} (hbw : bw < 2) {v : List F}
    (h : gaussianKde user D bw w = .ok v) :
    ∃ ρ : (Fin D.c → ℝ) → ℝ, IsKernelEstimate bw D.m (fun i : Fin D.r => (w.getD i (.fin 0)).re) ρ ∧
      v = List.ofFn fun i => F.fin (ρ (D.m i)) := by
  have hc := gaussianKde_iff.1 ⟨v, h⟩
  obtain ⟨-, h2, h3, h4, h5, h6⟩ := kdeCheck_ok hc
  have hh := kdeFactor_pos (user := user) hbw
    (lt_trans one_pos (kdeNeff_gt_one h4 h5)) D.c
  rw [gaussianKde, hc] at h
  cases h
  have e : kdeWeights D.r w = fun i : Fin D.r => (w.getD i (.fin 0)).re / ∑ l : Fin D.r, (w.getD l (.fin 0)).re := by
    funext i
    rw [kdeWeights, kdeWeights_sum h2]
  have hW : ∑ l : Fin D.r, (w.getD l (.fin 0)).re ≠ 0 := by
    intro h0
    rw [e, ← Finset.sum_div, h0, div_zero] at h4
    exact zero_ne_one h4
  have hcov : kdeCov D.m (kdeWeights D.r w) = wCov D.m fun i : Fin D.r => (w.getD i (.fin 0)).re := by
    rw [e, kdeCov_eq_wCov D.m _ hW]
  refine ⟨_, ⟨⟨kdeAt_pos h3 h4 hh h6, integral_kdeAt h4 hh h6⟩, hcov ▸ h6, fun x => ?_⟩, rfl⟩
  rw [kdeAt, hcov, kdeFactor_eq hbw, e, kdeNeff_eq, Finset.sum_div]
  refine Finset.sum_congr rfl fun i _ => ?_
  rw [div_mul_eq_mul_div]
  rfl

/-- The same for finite weights. -/
theorem kde_density' {n d : ℕ} {D : Matrix (Fin n) (Fin d) ℝ} {w : Fin n → ℝ} {bw : ℕ} (hbw : bw < 2) {v : List F}
    (h : gaussianKde user ⟨n, d, D⟩ bw (List.ofFn fun i => F.fin (w i)) = .ok v) :
    ∃ ρ : (Fin d → ℝ) → ℝ, IsKernelEstimate bw D w ρ ∧ v = List.ofFn fun i => F.fin (ρ (D i)) := by
  obtain ⟨ρ, h1, h2⟩ := kde_density hbw h
  have e : (fun i : Fin n => ((List.ofFn fun i => F.fin (w i)).getD i (.fin 0)).re) = w := by
    funext i
    simp [F.re]
  have h3 : IsKernelEstimate bw D (fun i : Fin n => ((List.ofFn fun i => F.fin (w i)).getD i (.fin 0)).re) ρ := h1
  rw [e] at h3
  exact ⟨ρ, h3, h2⟩

/-- **C79.** `set_predicted()` without a distribution (any state of the object, either built-in
bandwidth method): if it returns, the predicted values are the values at the samples of the kernel density estimate of
the outputs with the current weights, a probability density that is positive everywhere. -/
theorem C79_predicted_density {n d : ℕ} {D : Matrix (Fin n) (Fin d) ℝ} {w : Fin n → ℝ} {Q : DP}
    (hy : Q.y = ⟨n, d, D⟩) (hw : Q.weights = List.ofFn fun i => F.fin (w i)) {bw : ℕ} (hbw : bw < 2)
    (h : (DP.setPredicted (scipyEnv user) none bw none Q).1 = .ok ()) :
    ∃ ρ : (Fin d → ℝ) → ℝ, IsKernelEstimate bw D w ρ ∧
      (DP.setPredicted (scipyEnv user) none bw none Q).2.pr =
        some (List.ofFn fun i => F.fin (ρ (D i))) := by
  obtain ⟨v, hv⟩ := (setPredicted_kde_iff bw).1 h
  have hv' : gaussianKde user Q.y bw Q.weights = .ok v := hv
  rw [hy, hw] at hv'
  obtain ⟨ρ, h1, h2⟩ := kde_density' hbw hv'
  exact ⟨ρ, h1, by rw [setPredicted_kde bw hv, h2]⟩

/-- **C79.** The weights are always finite if it returns. -/
theorem C79_weights {Q : DP} (bw : ℕ) (h : (DP.setPredicted (scipyEnv user) none bw none Q).1 = .ok ()) :
    ∃ w : Fin Q.y.r → ℝ, Q.weights = List.ofFn fun i => F.fin (w i) := by
  classical
  obtain ⟨v, hv⟩ := (setPredicted_kde_iff bw).1 h
  have hc := gaussianKde_iff.1 ⟨v, hv⟩
  have h2 := (kdeCheck_ok hc).2.1
  have h3 : ∀ x ∈ Q.weights, x.isFin := by
    by_contra hn
    unfold kdeCheck at hc
    by_cases a1 : Q.y.r * Q.y.c ≤ 1
    · rw [raiseIf_true a1] at hc; cases hc
    · rw [raiseIf_false a1] at hc
      by_cases a2 : Q.weights.length ≠ Q.y.r
      · exact a2 h2
      · change (raiseIf _ _ >>= _) = _ at hc
        rw [raiseIf_false a2] at hc
        change (raiseIf _ _ >>= _) = _ at hc
        rw [raiseIf_true hn] at hc
        cases hc
  refine ⟨fun i => (Q.weights.getD i (.fin 0)).re, ?_⟩
  apply List.ext_getElem
  · simp [h2]
  · intro i hi hi'
    have := h3 _ (List.getElem_mem hi)
    simp only [List.getElem_ofFn]
    rw [List.getD_eq_getElem?_getD, List.getElem?_eq_getElem hi, Option.getD_some]
    cases hx : Q.weights[i] with
    | fin x => rfl
    | _ => rw [hx] at this; exact absurd this (by simp [F.isFin])

/-- When it returns, in terms of the covariance as scipy computes it. -/
theorem setPredicted_returns_iff {n d : ℕ} {D : Matrix (Fin n) (Fin d) ℝ} {w : Fin n → ℝ} {Q : DP}
    (hy : Q.y = ⟨n, d, D⟩) (hw : Q.weights = List.ofFn fun i => F.fin (w i)) (bw : ℕ) :
    (DP.setPredicted (scipyEnv user) none bw none Q).1 = .ok () ↔
      1 < n * d ∧ ∑ i, w i ≠ 0 ∧ (∀ i, 0 ≤ w i / ∑ l, w l) ∧
      ∑ i, (w i / ∑ l, w l) ^ 2 < 1 ∧ (kdeCov D fun i => w i / ∑ l, w l).PosDef := by
  classical
  rw [setPredicted_kde_iff]
  change (∃ v, gaussianKde user Q.y bw Q.weights = .ok v) ↔ _
  rw [gaussianKde_iff, hy, hw]
  have e : kdeWeights n (List.ofFn fun i => F.fin (w i)) = fun i => w i / ∑ l, w l := by
    funext i; rw [kdeWeights_ofFn]; rfl
  have e2 : ((List.ofFn fun i => F.fin (w i)).map F.re).sum = ∑ i, w i := by
    rw [sum_re_ofFn]; rfl
  constructor
  · intro h
    obtain ⟨h1, -, h3, h4, h5, h6⟩ := kdeCheck_ok h
    simp only [e] at h3 h4 h5 h6
    refine ⟨h1, fun h0 => ?_, h3, h5, h6⟩
    simp [h0] at h4
  · rintro ⟨h1, h2, h3, h4, h5⟩
    unfold kdeCheck
    simp only [e, e2]
    rw [raiseIf_false (not_le.2 h1), raiseIf_false (by simp),
      raiseIf_false (by simp [F.isFin]), raiseIf_false h2,
      raiseIf_false (by rintro ⟨i, hi⟩; exact absurd hi (not_lt.2 (h3 i))),
      raiseIf_false (not_le.2 h4), raiseIf_false (not_not.2 h5)]
    rfl

/-- **C79.** When it returns: at least two numbers, one finite weight per sample, all weights of one
sign, more than one sample of non-zero weight, and outputs that are not confined to a hyperplane
(the weighted covariance is positive definite). -/
theorem C79_returns_iff {n d : ℕ} {D : Matrix (Fin n) (Fin d) ℝ} {w : Fin n → ℝ} {Q : DP}
    (hy : Q.y = ⟨n, d, D⟩) (hw : Q.weights = List.ofFn fun i => F.fin (w i)) (bw : ℕ) :
    (DP.setPredicted (scipyEnv user) none bw none Q).1 = .ok () ↔
      1 < n * d ∧ ∑ i, w i ≠ 0 ∧ (∀ i, 0 ≤ w i / ∑ l, w l) ∧
      ∑ i, (w i / ∑ l, w l) ^ 2 < 1 ∧ (wCov D w).PosDef := by
  rw [setPredicted_returns_iff hy hw]
  constructor
  · rintro ⟨h1, h2, h3, h4, h5⟩
    exact ⟨h1, h2, h3, h4, kdeCov_eq_wCov D w h2 ▸ h5⟩
  · rintro ⟨h1, h2, h3, h4, h5⟩
    exact ⟨h1, h2, h3, h4, (kdeCov_eq_wCov D w h2).symm ▸ h5⟩

/-- Estimate with a kernel density estimate that returns non-zero numbers. -/
theorem mudPoint_kde {env : Env} (Q : DP) (di do_ : Dist) {n : ℕ} (hn : 0 < n) (hX : Q.X.r = n)
    (a w b c : Fin n → ℝ) (hw : Q.weights = List.ofFn fun k => F.fin (w k))
    (ha : densAt di Q.X = .ok (List.ofFn fun k => F.fin (a k)))
    (hb : densAt do_ Q.y = .ok (List.ofFn fun k => F.fin (b k))) {bw : ℕ}
    (hv : env.kde Q.y bw Q.weights = .ok (List.ofFn fun k => F.fin (c k))) (hc0 : ∀ k, c k ≠ 0) :
    ∃ m : Fin n,
      (∀ k, a k * w k * (b k / c k) ≤ a m * w m * (b m / c m)) ∧
      (∀ k, k < m → a k * w k * (b k / c k) < a m * w m * (b m / c m)) ∧
      DP.mudPoint env (Q.after env [.setInitial (some di),
        .setObserved (some do_), .setPredicted none bw none]) =
        (.ok (List.ofFn fun j : Fin Q.X.c => Q.X.get m j), { Q with
          init := some (List.ofFn fun k => F.fin (a k))
          ob := some (List.ofFn fun k => F.fin (b k))
          pr := some (List.ofFn fun k => F.fin (c k))
          r := some (List.ofFn fun k => F.fin (b k / c k))
          up := some (List.ofFn fun k => F.fin (a k * w k * (b k / c k))) }) := by
  obtain ⟨o1, ho1, ho1'⟩ := Py.bind_eq_ok.1 ha
  obtain ⟨o2, ho2, ho2'⟩ := Py.bind_eq_ok.1 hb
  have e : Q.after env [.setInitial (some di), .setObserved (some do_),
      .setPredicted none bw none] =
      { Q with
        init := some (List.ofFn fun k => F.fin (a k)), ob := some (List.ofFn fun k => F.fin (b k))
        pr := some (List.ofFn fun k => F.fin (c k)), up := none } := by
    simp only [DP.after, List.foldl_cons, List.foldl_nil, DOp.run, DP.setInitial, DP.setObserved,
      PyM.get_bind_run, Option.getD_some, ho1, ho2,
      PyM.lift_ok_bind, ho1', ho2', PyM.modify_run]
    exact congrArg Prod.snd (setPredicted_kde (env := env) (Q := { Q with
      init := some (List.ofFn fun k => F.fin (a k)), ob := some (List.ofFn fun k => F.fin (b k))
      pr := none, up := none }) bw hv)
  rw [e]
  have hfit := DP.fit_set (env := env) none 0 none
    { Q with
      init := some (List.ofFn fun k => F.fin (a k)), ob := some (List.ofFn fun k => F.fin (b k))
      pr := some (List.ofFn fun k => F.fin (c k)), up := none }
    (fun k => F.fin (a k)) (fun k => F.fin (w k)) (fun k => F.fin (b k)) (fun k => F.fin (c k))
    hw rfl rfl rfl
  have e1 : (fun k => F.fin (b k) / F.fin (c k)) = fun k => F.fin (b k / c k) := by
    funext k; rw [F.fin_div_of_ne _ (hc0 k)]
  have e2 : (fun k => F.fin (a k) * F.fin (w k) * (F.fin (b k) / F.fin (c k))) =
      fun k => F.fin (a k * w k * (b k / c k)) := by
    funext k; rw [F.fin_div_of_ne _ (hc0 k)]; rfl
  rw [e1, e2] at hfit
  obtain ⟨m, hm, hm'⟩ := npArgmax_spec (l := List.ofFn fun k => F.fin (a k * w k * (b k / c k)))
    (by intro h; rw [List.ofFn_eq_nil_iff] at h; omega)
  have hmn : m < n := by obtain ⟨h, -⟩ := hm'; simpa using h
  have e3 : (List.ofFn fun k => F.fin (a k * w k * (b k / c k))) =
      (List.ofFn fun k => a k * w k * (b k / c k)).map F.fin := by rw [List.map_ofFn]; rfl
  have hm2 := hm'
  rw [e3, isArgmax_fin] at hm2
  obtain ⟨hm0, g1, g2⟩ := hm2
  refine ⟨⟨m, hmn⟩, fun k => by simpa using g2 k (by simp), fun k hk => by simpa using g1 k hk, ?_⟩
  unfold DP.mudPoint
  rw [PyM.get_bind_run, Option.isNone_none, PyM.when_true, PyM.bind_run, hfit]
  have e4 : Q.X.rowAt m = .ok (List.ofFn fun j : Fin Q.X.c => Q.X.get m j) := by
    unfold Arr2.rowAt
    rw [dif_pos (by omega)]
    congr 2
    funext j
    rw [Arr2.get, dif_pos ⟨by omega, j.2⟩]
  simp only [PyM.get_bind_run, DP.theAttr, PyM.lift_ok_bind, hm, PyM.lift_run, e4]

/-- **C79.** With the default predicted density the ratio `observed/predicted` is a number at every
sample (never `inf` or `nan`), and the MUD point is a sample maximising
`initial * weight * observed / predicted`, the first one if there are several. -/
theorem C79_mud_point (Q : DP) (di do_ : Dist) {n d : ℕ} (hn : 0 < n) (hX : Q.X.r = n)
    {D : Matrix (Fin n) (Fin d) ℝ} (hy : Q.y = ⟨n, d, D⟩) (a w b : Fin n → ℝ)
    (hw : Q.weights = List.ofFn fun k => F.fin (w k))
    (ha : densAt di Q.X = .ok (List.ofFn fun k => F.fin (a k)))
    (hb : densAt do_ Q.y = .ok (List.ofFn fun k => F.fin (b k))) {bw : ℕ} (hbw : bw < 2)
    (h : (DP.setPredicted (scipyEnv user) none bw none Q).1 = .ok ()) :
    ∃ ρ : (Fin d → ℝ) → ℝ, IsKernelEstimate bw D w ρ ∧ ∃ c : Fin n → ℝ,
      (∀ k, c k = ρ (D k)) ∧ ∃ m : Fin n,
      (∀ k, a k * w k * (b k / c k) ≤ a m * w m * (b m / c m)) ∧
      (∀ k, k < m → a k * w k * (b k / c k) < a m * w m * (b m / c m)) ∧
      DP.mudPoint (scipyEnv user) (Q.after (scipyEnv user) [.setInitial (some di),
        .setObserved (some do_), .setPredicted none bw none]) =
        (.ok (List.ofFn fun j : Fin Q.X.c => Q.X.get m j), { Q with
          init := some (List.ofFn fun k => F.fin (a k))
          ob := some (List.ofFn fun k => F.fin (b k))
          pr := some (List.ofFn fun k => F.fin (c k))
          r := some (List.ofFn fun k => F.fin (b k / c k))
          up := some (List.ofFn fun k => F.fin (a k * w k * (b k / c k))) }) := by
  obtain ⟨v, hv⟩ := (setPredicted_kde_iff bw).1 h
  have hv' : gaussianKde user Q.y bw Q.weights = .ok v := hv
  rw [hy, hw] at hv'
  obtain ⟨ρ, h1, h2⟩ := kde_density' hbw hv'
  refine ⟨ρ, h1, fun k => ρ (D k), fun k => rfl, ?_⟩
  rw [h2] at hv
  exact mudPoint_kde Q di do_ hn hX a w b _ hw ha hb hv fun k => (h1.pos _).ne'

/-- The conditions under which `set_predicted` returns are met by the concrete problem with outputs
0 and 1. -/
theorem demo_kde : (DP.setPredicted (scipyEnv user) none 0 none demoP).1 = .ok () := by
  refine (setPredicted_returns_iff (n := 2) (d := 1) (D := !![(0 : ℝ); 1]) (w := fun _ => 1) rfl
    (by simp [demoP]) 0).2 ⟨by norm_num, by simp, fun i => by simp, by
      simp; norm_num, ?_⟩
  have : (kdeCov !![(0 : ℝ); 1] fun i : Fin 2 => 1 / ∑ _l : Fin 2, (1 : ℝ)) =
      Matrix.diagonal fun _ => 1 / 2 := by
    ext i j
    fin_cases i
    fin_cases j
    simp [kdeCov, Fin.sum_univ_two]
    norm_num
  rw [this]
  exact Matrix.PosDef.diagonal fun _ => by norm_num

example (f : ℝ → ℝ) := C79_mud_point demoP (distOf fun _ => 1) (distOf f) (n := 2) (d := 1) (by norm_num) rfl
  (D := !![(0 : ℝ); 1]) rfl ![1, 1] ![1, 1] ![f 0, f 1] (by simp [demoP])
  (by rw [demo_densAt]; simp) (by
    have := demo_densAt f
    change densAt (distOf f) demoP.y = _ at this
    rw [this]; simp) (bw := 0) (by norm_num) (demo_kde (user := user))

example := C79_predicted_density (user := user) (Q := demoP) (n := 2) (d := 1) (D := !![(0 : ℝ); 1]) (w := fun _ => 1) rfl
  (by simp [demoP]) (bw := 0) (by norm_num) demo_kde

example := C79_weights (user := user) (Q := demoP) 0 demo_kde

/-- Three samples with weights 1, 2, 1 and outputs -1, 0, 1: mean 0, effective size 8/3, covariance 4/5. -/
example : effSize ![1, 2, 1] = 8 / 3 ∧ wMean ![![-1], ![0], ![1]] ![1, 2, 1] = ![(0 : ℝ)] ∧
    wCov ![![-1], ![0], ![1]] ![1, 2, 1] = !![4 / 5] := by
  have e : wMean ![![-1], ![0], ![1]] ![1, 2, 1] = ![(0 : ℝ)] := by
    ext j
    fin_cases j
    simp [wMean, Fin.sum_univ_three]
  refine ⟨by simp [effSize, Fin.sum_univ_three]; norm_num, e, ?_⟩
  unfold wCov
  rw [e]
  ext j k
  fin_cases j
  fin_cases k
  simp [Fin.sum_univ_three, Matrix.vecMulVec_apply]
  norm_num

/-- **C30** with scipy's kernel density estimate, no assumption left. -/
theorem C30_relative_weights_scipy {X y : NArr} {dom w w' : Option NArr} {nrm : Bool}
    {pad : ℝ} {xi di : Bool} {P P' : DP} (h : DP.new X y dom w nrm pad xi di = .ok P)
    (h' : DP.new X y dom w' nrm pad xi di = .ok P') (hw : ScaledW w w') {ops ops' : List DOp}
    (hops : List.Forall₂ (OpRel (fun _ => True) ScaledW) ops ops') :
    (DP.mudPoint (scipyEnv user) (P'.after (scipyEnv user) ops')).1 =
      (DP.mudPoint (scipyEnv user) (P.after (scipyEnv user) ops)).1 ∧
    (DP.expectedRatio (scipyEnv user) (P'.after (scipyEnv user) ops')).1 =
      (DP.expectedRatio (scipyEnv user) (P.after (scipyEnv user) ops)).1 :=
  C30_relative_weights scipy_kdeScale h h' hw hops

/-- **C33** with scipy's kernel density estimate, no assumption left. -/
theorem C33_sample_order_scipy {n p k : ℕ} (e : Equiv.Perm (Fin n))
    (M : Matrix (Fin n) (Fin p) ℝ) (N : Matrix (Fin n) (Fin k) ℝ) {dom w w' : Option NArr}
    {nrm : Bool} {pad : ℝ} {xi di : Bool} {P P' : DP}
    (h : DP.new (.mat ⟨n, p, M⟩) (.mat ⟨n, k, N⟩) dom w nrm pad xi di = .ok P)
    (h' : DP.new (.mat ⟨n, p, M.submatrix e id⟩) (.mat ⟨n, k, N.submatrix e id⟩) dom w' nrm pad xi di
      = .ok P') (hw : PermW e w w') {ops ops' : List DOp}
    (hops : List.Forall₂ (OpRel okRow (PermW e)) ops ops') :
    ((∀ u, (DP.mudPoint (scipyEnv user) (P.after (scipyEnv user) ops)).2.up = some u → UniqueMax u) →
      (DP.mudPoint (scipyEnv user) (P'.after (scipyEnv user) ops')).1 =
        (DP.mudPoint (scipyEnv user) (P.after (scipyEnv user) ops)).1) ∧
    (DP.expectedRatio (scipyEnv user) (P'.after (scipyEnv user) ops')).1 =
      (DP.expectedRatio (scipyEnv user) (P.after (scipyEnv user) ops)).1 :=
  C33_sample_order scipy_kdePerm e M N h h' hw hops

/-- C30 with scipy's estimate: weights `1, 3` and `5, 15`. -/
example {user : ℕ → ℝ → ℕ → ℝ} := C30_relative_weights_scipy (user := user) (X := demoX) (y := demoX)
  (dom := some demoDom) (w := some (.vec 2 ![1, 3])) (w' := some (.vec 2 fun k => 5 * ![1, 3] k))
  (nrm := false) (pad := 0) (xi := false) (di := false) rfl rfl
  (Or.inr ⟨5, 2, ![1, 3], by norm_num, rfl, rfl⟩) (ops := [.estimate]) (ops' := [.estimate]) (.cons .estimate .nil)

/-- C33 with scipy's estimate: two samples and their weights swapped. -/
example {user : ℕ → ℝ → ℕ → ℝ} := C33_sample_order_scipy (user := user) (Equiv.swap (0 : Fin 2) 1)
  !![(0 : ℝ); 1] !![(0 : ℝ); 1]
  (dom := some demoDom) (w := some (.vec 2 ![1, 3])) (w' := some (.vec 2 (![1, 3] ∘ Equiv.swap (0 : Fin 2) 1)))
  (nrm := false) (pad := 0) (xi := false) (di := false) rfl rfl (Or.inr ⟨_, rfl, rfl⟩)
  (ops := [.setObserved (some (distOf fun x => 1 + x)), .estimate])
  (.cons (.setObserved (rowWise_distOf _)) (.cons .estimate .nil))

end Verif
