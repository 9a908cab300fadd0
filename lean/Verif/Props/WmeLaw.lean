import Verif.Lemmas.WhiteNoise
import Verif.Props.Wme
import Mathlib.Probability.CentralLimitTheorem

/-!
# C131: the weighted mean error of noisy data

`add_noise` with a generator whose draws are independent and standard normal (`White`), or independent and
identically distributed with mean 0 and variance 1 (`Iid`), followed by `wme`.
-/

open Matrix MeasureTheory ProbabilityTheory Filter Topology

namespace Verif

open SpecST

variable {n S : ℕ} {σ : Type} [MeasurableSpace σ]

/-- `wme(predictions, add_noise(signal, sd), sd)` run from state `s` gives the numbers `v`. -/
def NoisyWme (G : Rng σ) (signal : ND) (sd : ℝ) (P : Matrix (Fin S) (Fin n) ℝ) (s : σ) (v : Fin S → ℝ) : Prop :=
  ∃ r s', addNoise G signal sd none s = (.ok r, s') ∧ r.shape = [n] ∧
    wme (.mat ⟨S, n, P⟩) (.vec n fun j => r.data.getD j 0) (some sd) = .ok (List.ofFn fun i => F.fin (v i))

/-- The bias: the sum of the differences over `sd √n`. -/
noncomputable def wmeBias (signal : ND) (sd : ℝ) (P : Matrix (Fin S) (Fin n) ℝ) (i : Fin S) : ℝ :=
  (∑ j : Fin n, (P i j - signal.data.getD j 0)) / (sd * Real.sqrt n)

omit [MeasurableSpace σ] in
theorem noisyWme_eval (G : Rng σ) (signal : ND) (hs : signal.shape = [n]) (hn : 0 < n) {sd : ℝ} (hsd : 0 < sd)
    (P : Matrix (Fin S) (Fin n) ℝ) (s : σ) :
    NoisyWme G signal sd P s fun i =>
      wmeBias signal sd P i - (Real.sqrt n)⁻¹ * ∑ j : Fin n, nthDraw G s j := by
  obtain ⟨r, h1, h2, h3⟩ := C66_vector_partial G signal hs sd none s
  refine ⟨r, _, h1, h2, ?_⟩
  rw [C21_formula _ _ _ hsd.ne' hn]
  congr 3
  funext i
  congr 1
  have hq : Real.sqrt n ≠ 0 := (Real.sqrt_pos.2 (by exact_mod_cast hn)).ne'
  rw [Finset.sum_congr rfl fun (j : Fin n) _ => by
    rw [h3 j j.2, show P i j - (signal.data.getD j 0 + sd * nthDraw G (startState G none s) j) =
      (P i j - signal.data.getD j 0) - sd * nthDraw G s j by rw [sub_sub]; rfl], Finset.sum_sub_distrib,
    ← Finset.mul_sum]
  simp only [wmeBias]
  field_simp

/-- **C131.** With normal noise, the weighted mean error of the predictions of sample `i` has exactly the
normal distribution with variance 1 and mean the bias of these predictions, for any number of data: standard
normal for predictions equal to the true signal. -/
theorem C131_normal (G : Rng σ) (Q : Measure σ) (hG : White G Q) (signal : ND) (hs : signal.shape = [n]) (hn : 0 < n)
    (sd : ℝ) (hsd : 0 < sd) (P : Matrix (Fin S) (Fin n) ℝ) :
    ∃ f : σ → Fin S → ℝ, (∀ s, NoisyWme G signal sd P s (f s)) ∧
      (∀ i, HasLaw (fun s => f s i) (gaussianReal (wmeBias signal sd P i) 1) Q) ∧
      ∀ i, (∀ j : Fin n, P i j = signal.data.getD j 0) → HasLaw (fun s => f s i) (gaussianReal 0 1) Q := by
  have hlaw : ∀ i, HasLaw (fun s => wmeBias signal sd P i - (Real.sqrt n)⁻¹ * ∑ j : Fin n, nthDraw G s j)
      (gaussianReal (wmeBias signal sd P i) 1) Q := by
    intro i
    have h := hasLaw_dot PosSemidef.one (hG.draws 0 n) (fun _ => -(Real.sqrt n)⁻¹) (wmeBias signal sd P i)
    have hv : ((fun _ : Fin n => -(Real.sqrt n)⁻¹) ⬝ᵥ (1 : Matrix (Fin n) (Fin n) ℝ) *ᵥ fun _ => -(Real.sqrt n)⁻¹) =
        1 := by
      have hq : (0 : ℝ) < n := by exact_mod_cast hn
      rw [one_mulVec]
      simp only [dotProduct, Finset.sum_const, Finset.card_univ, Fintype.card_fin, nsmul_eq_mul, neg_mul_neg]
      rw [← mul_inv, Real.mul_self_sqrt hq.le, mul_inv_cancel₀ hq.ne']
    rw [hv, Real.toNNReal_one, dotProduct_zero, zero_add] at h
    refine h.congr (.of_forall fun s => ?_)
    simp only [dotProduct, zero_add, neg_mul, Finset.sum_neg_distrib, ← Finset.mul_sum]
    ring
  refine ⟨_, noisyWme_eval G signal hs hn hsd P, hlaw, fun i hi => ?_⟩
  have h0 : wmeBias signal sd P i = 0 := by simp [wmeBias, hi]
  have := hlaw i
  rwa [h0] at this ⊢

/-- **C131.** With any other independent and identically distributed noise of mean 0 and variance 1, the
weighted mean error of predictions equal to the true signals tends to the standard normal distribution as the
number of data grows. -/
theorem C131_limit (G : Rng σ) (Q : Measure σ) (hG : Iid G Q) (h0 : ∫ s, nthDraw G s 0 ∂Q = 0)
    (h1 : ∫ s, nthDraw G s 0 ^ 2 ∂Q = 1) (signal : ℕ → ND) (hs : ∀ n, (signal n).shape = [n]) (sd : ℝ) (hsd : 0 < sd)
    {Ω : Type} [MeasurableSpace Ω] {P' : Measure Ω} [IsProbabilityMeasure P'] {Y : Ω → ℝ}
    (hY : HasLaw Y (gaussianReal 0 1) P') [IsProbabilityMeasure Q] :
    ∃ f : ℕ → σ → ℝ,
      (∀ n, 0 < n → ∀ s, NoisyWme (S := 1) (n := n) G (signal n) sd (.of fun _ j => (signal n).data.getD j 0) s
        fun _ => f n s) ∧
      TendstoInDistribution f atTop Y (fun _ => Q) P' := by
  refine ⟨fun n s => (Real.sqrt n)⁻¹ * ∑ k ∈ Finset.range n, -nthDraw G s k, fun n hn s => ?_, ?_⟩
  · have h := noisyWme_eval G (signal n) (hs n) hn hsd (.of fun (_ : Fin 1) j => (signal n).data.getD j 0) s
    convert! h using 2
    simp [wmeBias, Finset.sum_range fun k => nthDraw G s k]
  · refine tendstoInDistribution_inv_sqrt_mul_sum (X := fun k s => -nthDraw G s k) hY ?_ ?_ ?_ fun k => ?_
    · rw [integral_neg, h0, neg_zero]
    · simpa using h1
    · exact hG.indep.comp (fun _ x => -x) fun _ => measurable_neg
    · exact (hG.ident k).comp measurable_neg

/-- C131 for three data, signal `(1, 2, 3)`, deviation `1/2`, predictions of two samples, and the generator
whose state is the stream of numbers it will draw. -/
example : ∃ f : (ℕ → ℝ) → Fin 2 → ℝ,
    (∀ s, NoisyWme tapeRng (ndOfNats [3] [1, 2, 3] rfl) (1/2) (!![1, 2, 3; 2, 2, 2] : Matrix (Fin 2) (Fin 3) ℝ) s (f s)) ∧
    HasLaw (fun s => f s 0) (gaussianReal 0 1) (Measure.infinitePi fun _ : ℕ => gaussianReal 0 1) := by
  obtain ⟨f, h1, -, h2⟩ := C131_normal tapeRng _ white_tape (ndOfNats [3] [1, 2, 3] rfl) rfl (by norm_num) (1/2)
    (by norm_num) (!![1, 2, 3; 2, 2, 2] : Matrix (Fin 2) (Fin 3) ℝ)
  exact ⟨f, h1, h2 0 fun j => by fin_cases j <;> simp [ndOfNats]⟩

/-- C131 for noise that is 1 or -1 with equal probability. -/
example : ∃ f : ℕ → (ℕ → ℝ) → ℝ,
    (∀ n, 0 < n → ∀ s, NoisyWme (S := 1) (n := n) tapeRng (.ofFn [n] fun _ => 7) 2
      (.of fun _ j => (ND.ofFn [n] fun _ => 7).data.getD j 0) s fun _ => f n s) ∧
    TendstoInDistribution f atTop (id : ℝ → ℝ) (fun _ => Measure.infinitePi fun _ : ℕ => coin) (gaussianReal 0 1) :=
  C131_limit tapeRng _ (iid_tape coin)
    (by rw [integral_tape coin (fun x => x) measurable_id, integral_coin (fun x => x) measurable_id]; norm_num)
    (by rw [integral_tape coin (fun x => x ^ 2) (by fun_prop), integral_coin _ (by fun_prop)]; norm_num)
    (fun n => .ofFn [n] fun _ => 7) (fun _ => rfl) 2 two_pos HasLaw.id

end Verif
