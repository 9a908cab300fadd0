import Verif.Props.Kde
import Verif.Props.DensitySelect
import Mathlib.Probability.Distributions.Gaussian.Real
import Mathlib.MeasureTheory.Measure.Lebesgue.Basic

/-!
# The default distributions and the default work flow: C28, C106

Densities are stated with Mathlib's own normal density and Lebesgue measure.
-/

open Matrix MeasureTheory ProbabilityTheory

namespace Verif

variable {user : ℕ → ℝ → ℕ → ℝ}

theorem stdNormalPdf_eq (x : ℝ) : stdNormalPdf x = gaussianPDFReal 0 1 x := by
  unfold stdNormalPdf gaussianPDFReal
  simp only [NNReal.coe_one, mul_one, sub_zero]
  rw [div_eq_inv_mul]

/-- **C28, default observed density**: the standard normal density of each quantity of interest. -/
theorem C28_default_observed {n q : ℕ} (Y : Matrix (Fin n) (Fin q) ℝ) :
    densAt stdNormal ⟨n, q, Y⟩ = .ok (List.ofFn fun k => F.fin (∏ j, gaussianPDFReal 0 1 (Y k j))) := by
  show Except.ok (List.map List.prod (List.ofFn _)) = _
  rw [List.map_ofFn]
  congr 2
  funext k
  show List.prod (List.ofFn fun j => F.fin (stdNormalPdf (Y k j))) = _
  rw [List.prod_ofFn, F.prod_fin]
  simp only [stdNormalPdf_eq]

/-- **C28, default initial density**: uniform on the box given by the domain, 0 outside. -/
theorem C28_default_initial {n p : ℕ} (X : Matrix (Fin n) (Fin p) ℝ) (Dm : Matrix (Fin p) (Fin 2) ℝ)
    (h : ∀ j, Dm j 0 < Dm j 1) :
    densAt (uniformOn ⟨p, 2, Dm⟩) ⟨n, p, X⟩ = .ok (List.ofFn fun k => F.fin
      ((Set.Icc (fun j => Dm j 0) fun j => Dm j 1).indicator
        (fun _ => 1 / (volume (Set.Icc (fun j => Dm j 0) fun j => Dm j 1)).toReal) (X k))) := by
  classical
  rw [densAt_uniformOn X Dm fun j => (h j).le]
  congr 2
  funext k
  have e : ∀ j, uniformPdf (Dm j 0) (Dm j 1) (X k j) =
      .fin (if Dm j 0 ≤ X k j ∧ X k j ≤ Dm j 1 then 1 / (Dm j 1 - Dm j 0) else 0) := by
    intro j
    unfold uniformPdf
    rw [if_pos (by linarith [h j])]
    split_ifs <;> rfl
  simp only [e]
  rw [F.prod_fin]
  congr 1
  by_cases hk : X k ∈ Set.Icc (fun j => Dm j 0) fun j => Dm j 1
  · rw [Set.indicator_of_mem hk, Real.volume_Icc_pi_toReal fun j => (h j).le, one_div,
      ← Finset.prod_inv_distrib]
    refine Finset.prod_congr rfl fun j _ => ?_
    rw [if_pos ⟨hk.1 j, hk.2 j⟩, one_div]
  · rw [Set.indicator_of_notMem hk]
    have : ∃ j, ¬ (Dm j 0 ≤ X k j ∧ X k j ≤ Dm j 1) := by
      by_contra hcon
      push Not at hcon
      exact hk ⟨fun j => (hcon j).1, fun j => (hcon j).2⟩
    obtain ⟨j, hj⟩ := this
    exact Finset.prod_eq_zero (Finset.mem_univ j) (if_neg hj)

/-- The covariance of weighted data is positive definite if the data are not confined to a
hyperplane. -/
theorem kdeCov_posDef {n d : ℕ} (Y : Matrix (Fin n) (Fin d) ℝ) {v : Fin n → ℝ} (hv : ∀ i, 0 < v i)
    (h2 : ∑ i, v i ^ 2 < 1) (hY : ∀ u : Fin d → ℝ, (∃ c, ∀ i, u ⬝ᵥ Y i = c) → u = 0) :
    (kdeCov Y v).PosDef := by
  set K := 1 / (1 - ∑ i, v i ^ 2) with hK
  have hKpos : 0 < K := by rw [hK]; apply one_div_pos.2; linarith
  set mu : Fin d → ℝ := fun j => ∑ l, v l * Y l j with hmu
  have hq : ∀ u : Fin d → ℝ, u ⬝ᵥ (kdeCov Y v *ᵥ u) = K * ∑ i, v i * (u ⬝ᵥ Y i - u ⬝ᵥ mu) ^ 2 := by
    intro u
    have h1 : ∀ i, u ⬝ᵥ Y i - u ⬝ᵥ mu = ∑ j, u j * (Y i j - mu j) := by
      intro i
      simp only [dotProduct, mul_sub, Finset.sum_sub_distrib]
    simp only [h1]
    simp only [dotProduct, mulVec, kdeCov, of_apply, ← hK]
    simp only [pow_two, Finset.mul_sum, Finset.sum_mul]
    rw [Finset.sum_comm]
    conv_rhs => rw [Finset.sum_comm]
    rw [Finset.sum_comm]
    refine Finset.sum_congr rfl fun j _ => ?_
    rw [Finset.sum_comm]
    conv_rhs => rw [Finset.sum_comm]
    rw [Finset.sum_comm]
    refine Finset.sum_congr rfl fun k _ => Finset.sum_congr rfl fun i _ => ?_
    simp only [hmu]
    ring
  have hsymm : (kdeCov Y v).IsHermitian := by
    ext j k
    simp only [conjTranspose_apply, star_trivial, kdeCov, of_apply]
    congr 1
    refine Finset.sum_congr rfl fun i _ => ?_
    ring
  refine PosDef.of_dotProduct_mulVec_pos hsymm fun u hu => ?_
  rw [star_trivial, hq]
  refine mul_pos hKpos ?_
  refine lt_of_le_of_ne (Finset.sum_nonneg fun i _ => mul_nonneg (hv i).le (sq_nonneg _)) fun h => hu ?_
  refine hY u ⟨u ⬝ᵥ mu, fun i => ?_⟩
  have := (Finset.sum_eq_zero_iff_of_nonneg fun i _ => mul_nonneg (hv i).le (sq_nonneg _)).1 h.symm i
    (Finset.mem_univ i)
  rcases mul_eq_zero.1 this with h | h
  · exact absurd h (hv i).ne'
  · exact sub_eq_zero.1 (by simpa using h)

/-- The object with its defaults, and the density predicted by it. -/
theorem default_setup {n p q : ℕ} (hn : 2 ≤ n) (hq : 0 < q) (X : Matrix (Fin n) (Fin p) ℝ)
    (Y : Matrix (Fin n) (Fin q) ℝ) (Dm : Matrix (Fin p) (Fin 2) ℝ) (w : Fin n → ℝ) (hw : ∀ k, 0 < w k)
    (hY : ∀ u : Fin q → ℝ, (∃ c, ∀ i, u ⬝ᵥ Y i = c) → u = 0) :
    ∃ (P : DP) (ρ : (Fin q → ℝ) → ℝ),
      DP.new (.mat ⟨n, p, X⟩) (.mat ⟨n, q, Y⟩) (some (.mat ⟨p, 2, Dm⟩)) (some (.vec n w)) = .ok P ∧
      P.X = ⟨n, p, X⟩ ∧ P.y = ⟨n, q, Y⟩ ∧ P.domain = ⟨p, 2, Dm⟩ ∧ (P.weights = List.ofFn fun k => F.fin (w k)) ∧
      IsKernelEstimate 0 Y w ρ ∧
      (scipyEnv user).kde P.y 0 P.weights = .ok (List.ofFn fun i => F.fin (ρ (Y i))) := by
  classical
  set W := ∑ l, w l with hW
  have hWpos : 0 < W := Finset.sum_pos (fun i _ => hw i) ⟨⟨0, by omega⟩, Finset.mem_univ _⟩
  have hlt : ∀ i, w i / W < 1 := by
    intro i
    rw [div_lt_one hWpos, hW, ← Finset.add_sum_erase _ _ (Finset.mem_univ i)]
    have : 0 < ∑ x ∈ Finset.univ.erase i, w x := by
      refine Finset.sum_pos (fun i _ => hw i) ?_
      rw [← Finset.card_pos, Finset.card_erase_of_mem (Finset.mem_univ i), Finset.card_univ, Fintype.card_fin]
      omega
    linarith
  have h1 : ∑ i, w i / W = 1 := by rw [← Finset.sum_div, ← hW, div_self hWpos.ne']
  have h2 : ∑ i, (w i / W) ^ 2 < 1 := by
    rw [← h1]
    refine Finset.sum_lt_sum_of_nonempty ⟨⟨0, by omega⟩, Finset.mem_univ _⟩ fun i _ => ?_
    have := hlt i
    have h0 : 0 < w i / W := div_pos (hw i) hWpos
    nlinarith
  obtain ⟨P, hP, hPX, hPy, hPd, hPw⟩ : ∃ P : DP, DP.new (.mat ⟨n, p, X⟩) (.mat ⟨n, q, Y⟩)
      (some (.mat ⟨p, 2, Dm⟩)) (some (.vec n w)) = .ok P ∧ P.X = ⟨n, p, X⟩ ∧ P.y = ⟨n, q, Y⟩ ∧
      P.domain = ⟨p, 2, Dm⟩ ∧ P.weights = List.ofFn fun k => F.fin (w k) := by
    refine ⟨{ X := ⟨n, p, X⟩, y := ⟨n, q, Y⟩, domain := ⟨p, 2, Dm⟩, domInt := false,
              weights := List.ofFn fun k => F.fin (w k) }, ?_, rfl, rfl, rfl, rfl⟩
    unfold DP.new
    simp only [NArr.shapeRow]
    rw [pyAssert_true trivial]
    show (do let w ← DP.weightsOf n n (some (NArr.vec n w)) false; _) = _
    rw [weightsOf_vec, pyAssert_true rfl]
    show Except.ok _ = _
    simp only [List.map_ofFn]
    rfl
  have hkde : (DP.setPredicted (scipyEnv user) none 0 none P).1 = .ok () := by
    refine (setPredicted_returns_iff hPy hPw 0).2 ⟨?_, hWpos.ne', fun i => (div_pos (hw i) hWpos).le, h2, ?_⟩
    · nlinarith
    · exact kdeCov_posDef Y (fun i => div_pos (hw i) hWpos) h2 hY
  obtain ⟨v, hv⟩ := (setPredicted_kde_iff 0).1 hkde
  have hv' : gaussianKde user P.y 0 P.weights = .ok v := hv
  rw [hPy, hPw] at hv'
  obtain ⟨ρ, hρ, hvρ⟩ := kde_density' (by norm_num) hv'
  exact ⟨P, ρ, hP, hPX, hPy, hPd, hPw, hρ, hv.trans (congrArg _ hvρ)⟩

/-- **C106.** `DensityProblem(X, y, domain, weights)` with positive weights, at least two samples,
outputs not confined to a hyperplane and a proper domain, nothing else set: `estimate` returns, and the
predicted density is the kernel density estimate of the outputs, positive with mass 1. If some sample lies in the domain, the estimate is the
sample in the domain with the largest `weight * φ(y) / predicted(y)`, `φ` the standard normal density,
the first one if there are several. -/
theorem C106_default_estimate {n p q : ℕ} (hn : 2 ≤ n) (hq : 0 < q) (X : Matrix (Fin n) (Fin p) ℝ)
    (Y : Matrix (Fin n) (Fin q) ℝ) (Dm : Matrix (Fin p) (Fin 2) ℝ) (hD : ∀ j, Dm j 0 < Dm j 1)
    (w : Fin n → ℝ) (hw : ∀ k, 0 < w k)
    (hY : ∀ u : Fin q → ℝ, (∃ c, ∀ i, u ⬝ᵥ Y i = c) → u = 0) :
    ∃ (P : DP) (ρ : (Fin q → ℝ) → ℝ) (m : Fin n),
      DP.new (.mat ⟨n, p, X⟩) (.mat ⟨n, q, Y⟩) (some (.mat ⟨p, 2, Dm⟩)) (some (.vec n w)) = .ok P ∧
      (DP.mudPoint (scipyEnv user) P).1 = .ok (List.ofFn (X m)) ∧
      IsKernelEstimate 0 Y w ρ ∧
      ∀ k, X k ∈ Set.Icc (fun j => Dm j 0) (fun j => Dm j 1) →
        X m ∈ Set.Icc (fun j => Dm j 0) (fun j => Dm j 1) ∧
        w k * (∏ j, gaussianPDFReal 0 1 (Y k j)) / ρ (Y k) ≤
          w m * (∏ j, gaussianPDFReal 0 1 (Y m j)) / ρ (Y m) ∧
        (k < m → w k * (∏ j, gaussianPDFReal 0 1 (Y k j)) / ρ (Y k) <
          w m * (∏ j, gaussianPDFReal 0 1 (Y m j)) / ρ (Y m)) := by
  classical
  obtain ⟨P, ρ, hP, hPX, hPy, hPd, hPw, hρ, hv⟩ := default_setup (user := user) hn hq X Y Dm w hw hY
  have hX0 : P.X.r = n := by rw [hPX]
  have hD0 := C28_default_initial X Dm hD
  rw [← hPX, ← hPd] at hD0
  have hO0 := C28_default_observed Y
  rw [← hPy] at hO0
  obtain ⟨m, hm, hpt⟩ := C28_defaults (env := scipyEnv user) hP (n := n) (by omega) hX0 _ _ _ _ hPw
    hD0 hO0 hv
  set B := Set.Icc (fun j => Dm j 0) (fun j => Dm j 1) with hB
  set V := (volume B).toReal with hV
  have hVpos : 0 < V := by
    rw [hV, hB, Real.volume_Icc_pi_toReal fun j => (hD j).le]
    exact Finset.prod_pos fun j _ => by linarith [hD j]
  have e : (List.ofFn fun k => F.fin (B.indicator (fun _ => 1 / V) (X k)) * F.fin (w k) *
      (F.fin (∏ j, gaussianPDFReal 0 1 (Y k j)) / F.fin (ρ (Y k)))) =
      (List.ofFn fun k => B.indicator (fun _ => 1 / V) (X k) * w k *
        ((∏ j, gaussianPDFReal 0 1 (Y k j)) / ρ (Y k))).map F.fin := by
    rw [List.map_ofFn]
    congr 1; funext k
    rw [F.fin_div_of_ne _ (hρ.pos _).ne']; rfl
  rw [e, isArgmax_fin] at hm
  obtain ⟨hm0, hm1, hm2⟩ := hm
  have H1 : ∀ k : Fin n, B.indicator (fun _ => 1 / V) (X k) * w k *
      ((∏ j, gaussianPDFReal 0 1 (Y k j)) / ρ (Y k)) ≤ B.indicator (fun _ => 1 / V) (X m) * w m *
      ((∏ j, gaussianPDFReal 0 1 (Y m j)) / ρ (Y m)) := by
    intro k
    have := hm2 k (by simp)
    simpa using this
  have H2 : ∀ k : Fin n, k < m → B.indicator (fun _ => 1 / V) (X k) * w k *
      ((∏ j, gaussianPDFReal 0 1 (Y k j)) / ρ (Y k)) < B.indicator (fun _ => 1 / V) (X m) * w m *
      ((∏ j, gaussianPDFReal 0 1 (Y m j)) / ρ (Y m)) := by
    intro k hk
    have := hm1 k hk
    simpa using this
  refine ⟨P, ρ, m, hP, ?_, hρ, fun k hk => ?_⟩
  · rw [hpt]
    obtain ⟨PX, Py', Pd, Pi, Pw, _, _, _, _, _⟩ := P
    subst hPX
    congr 2
    funext j
    exact Arr2.get_mk X m j
  · have hpos : ∀ k, 0 < w k * ((∏ j, gaussianPDFReal 0 1 (Y k j)) / ρ (Y k)) := fun k =>
      mul_pos (hw k) (div_pos (Finset.prod_pos fun j _ => gaussianPDFReal_pos _ _ _ one_ne_zero) (hρ.pos _))
    have hmB : X m ∈ B := by
      by_contra hmB
      have := H1 k
      rw [Set.indicator_of_mem hk, Set.indicator_of_notMem hmB, zero_mul, zero_mul, mul_assoc] at this
      exact absurd this (not_le.2 (mul_pos (one_div_pos.2 hVpos) (hpos k)))
    refine ⟨hmB, ?_, fun hkm => ?_⟩
    · have := H1 k
      rw [Set.indicator_of_mem hk, Set.indicator_of_mem hmB, mul_assoc, mul_assoc,
        mul_le_mul_iff_right₀ (one_div_pos.2 hVpos)] at this
      rwa [mul_div_assoc, mul_div_assoc]
    · have := H2 k hkm
      rw [Set.indicator_of_mem hk, Set.indicator_of_mem hmB, mul_assoc, mul_assoc,
        mul_lt_mul_iff_right₀ (one_div_pos.2 hVpos)] at this
      rwa [mul_div_assoc, mul_div_assoc]

/-- Three samples of one parameter with outputs 0, 1 and 4. -/
example := C106_default_estimate (user := user) (n := 3) (p := 1) (q := 1) (by norm_num) one_pos
  !![(0 : ℝ); 1; 2] !![(0 : ℝ); 1; 4] !![(0 : ℝ), 3] (by intro j; fin_cases j; norm_num) ![1, 2, 1]
  (by intro k; fin_cases k <;> norm_num) (by
    rintro u ⟨c, hc⟩
    have h0 := hc 0
    have h1 := hc 1
    simp [dotProduct] at h0 h1
    ext j
    fin_cases j
    show u 0 = 0
    rw [h1, ← h0])

/-- The default initial density of the samples `0`, `5` on the interval `[0, 4]`. -/
example := C28_default_initial !![(0 : ℝ); 5] !![(0 : ℝ), 4] (by intro j; fin_cases j; norm_num)

/-- C28 with the default distributions, on two samples and a predicted density of 1. -/
example := C28_defaults (env := ⟨fun _ _ w => .ok w⟩) demo_new (n := 2) (by norm_num) rfl _ ![.fin 1, .fin 1] _
  ![.fin 1, .fin 1] (by simp [demoP]) (C28_default_initial !![(0 : ℝ); 1] !![(0 : ℝ), 1] (by intro j; fin_cases j; norm_num))
  (C28_default_observed !![(0 : ℝ); 1]) (by simp [demoP])

end Verif
