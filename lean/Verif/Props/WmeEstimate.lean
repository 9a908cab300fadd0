import Verif.Props.WmeLaw
import Verif.Props.LinearWme
import Verif.Props.UpdatedLaw
import Mathlib.Probability.StrongLaw

/-!
# C133: the MUD point of a weighted mean error problem as an estimate of the true parameter

The data of each quantity of interest are the values at a parameter `lam` plus noise with the deviation given to
`LinearWMEProblem`.
-/

open Matrix MeasureTheory ProbabilityTheory Filter Topology

namespace Verif

variable {p k : ℕ} {Ω : Type} [MeasurableSpace Ω]

/-- The quantity of interest with the same operator and deviation, observed at `lam` with noise `e`: datum `i` is
the value at `lam` plus the deviation times `e i`. -/
noncomputable def QoI.observe (lam : Fin p → ℝ) (e : ℕ → ℝ) : QoI p → QoI p
  | .stacked N M _ sd => .stacked N M (fun i => M i ⬝ᵥ lam + sd i * e i) sd
  | .repeated N a _ s => .repeated N a (fun i => a ⬝ᵥ lam + s * e i) s

theorem QoI.observe_valid {lam : Fin p → ℝ} {e : ℕ → ℝ} {q : QoI p} (h : q.Valid) : (q.observe lam e).Valid := by
  cases q <;> exact h

theorem QoI.observe_rowA (lam : Fin p → ℝ) (e : ℕ → ℝ) (q : QoI p) : (q.observe lam e).rowA = q.rowA := by
  cases q <;> rfl

theorem QoI.observe_size (lam : Fin p → ℝ) (e : ℕ → ℝ) (q : QoI p) : (q.observe lam e).size = q.size := by
  cases q <;> rfl

theorem QoI.observe_misfit {lam : Fin p → ℝ} {e : ℕ → ℝ} {q : QoI p} (h : q.Valid) :
    (q.observe lam e).misfit lam = -∑ i : Fin q.size, e i := by
  rw [← Finset.sum_neg_distrib]
  cases q with
  | stacked N M d sd =>
    refine Finset.sum_congr rfl fun i _ => ?_
    have h0 : sd i ≠ 0 := fun h0 => by have := h.2 i; rw [h0, abs_zero] at this; norm_num at this
    field_simp; ring
  | repeated N a d s =>
    refine Finset.sum_congr rfl fun i _ => ?_
    have h0 : s ≠ 0 := (lt_trans (by norm_num) h.2).ne'
    field_simp; ring

theorem lwp_fn (q : Fin k → QoI p) (hk : 0 < k) (hv : ∀ i, (q i).Valid) (m : Fin p → ℝ)
    (S : Matrix (Fin p) (Fin p) ℝ) (α : ℝ) :
    Api.lwp (List.ofFn q) m S none α =
      .ok (LGP.typed (.of fun i => (q i).rowA) (fun i => (q i).offB) 0 m S 1 α) := by
  obtain ⟨l, hl⟩ : ∃ l, l = List.ofFn q := ⟨_, rfl⟩
  have hlen : l.length = k := by rw [hl, List.length_ofFn]
  subst hlen
  have hq : q = fun i => l[i] := by
    funext i
    have : ∀ (l : List (QoI p)) (h : l = List.ofFn q) (i : Fin l.length), l[i] = q (i.cast (by rw [h, List.length_ofFn])) := by
      rintro _ rfl i; simp; rfl
    exact (this l hl i).symm
  have h := lwp_typed l (List.ne_nil_of_length_pos hk) (fun x hx => by
    obtain ⟨i, hi, rfl⟩ := List.getElem_of_mem hx
    have := hv ⟨i, hi⟩
    rwa [hq] at this) m S none α
  rw [← hl, hq]
  exact h

/-- The stacked map of the problem. -/
noncomputable def stackedMap (q : Fin k → QoI p) : Matrix (Fin k) (Fin p) ℝ := .of fun i => (q i).rowA

theorem lwp_observe (q : Fin k → QoI p) (hk : 0 < k) (hv : ∀ i, (q i).Valid) (lam m : Fin p → ℝ)
    (S : Matrix (Fin p) (Fin p) ℝ) (α : ℝ) (e : Fin k → ℕ → ℝ) :
    Api.lwp (List.ofFn fun i => (q i).observe lam (e i)) m S none α =
      .ok (LGP.typed (stackedMap q)
        (fun i => -((Real.sqrt (q i).size)⁻¹ * ∑ j : Fin (q i).size, e i j) - (q i).rowA ⬝ᵥ lam) 0 m S 1 α) := by
  rw [lwp_fn _ hk (fun i => QoI.observe_valid (hv i))]
  congr 2
  · simp only [QoI.observe_rowA, stackedMap]
  · funext i
    have h := QoI.row_misfit (QoI.observe_valid (lam := lam) (e := e i) (hv i)) lam
    rw [QoI.observe_misfit (hv i), QoI.observe_size, QoI.observe_rowA] at h
    rw [eq_sub_iff_add_eq, add_comm, h, one_div, mul_neg]

theorem mud_observe (q : Fin k → QoI p) (hk : 0 < k) (hv : ∀ i, (q i).Valid) (lam m : Fin p → ℝ)
    (S : Matrix (Fin p) (Fin p) ℝ) (α : ℝ) (hα : 0 < α) (e : Fin k → ℕ → ℝ) :
    ∃ Pb, Api.lwp (List.ofFn fun i => (q i).observe lam (e i)) m S none α = .ok Pb ∧
      Returns (LGP.solve "mud" none Pb).1 (m + gainF (stackedMap q) S *ᵥ ((fun i => (Real.sqrt (q i).size)⁻¹ *
        ∑ j : Fin (q i).size, e i j) + stackedMap q *ᵥ (lam - m))) ∧
      Pb.updated_cov = .ok ⟨p, p, upF (stackedMap q) S 1⟩ := by
  refine ⟨_, lwp_observe q hk hv lam m S α e, ?_, ?_⟩
  · have h := api_mud' (stackedMap q) (fun i => -((Real.sqrt (q i).size)⁻¹ * ∑ j : Fin (q i).size, e i j) -
      (q i).rowA ⬝ᵥ lam) 0 m S 1 α hα.ne'
    unfold Api.solve at h
    rw [new_typed] at h
    rw [mudF, ← gainF] at h
    have e0 : ∀ a b : Fin k → ℝ, a = b → Returns (LGP.solve "mud" none (LGP.typed (stackedMap q) (fun i => -((Real.sqrt (q i).size)⁻¹ * ∑ j : Fin (q i).size, e i j) -
      (q i).rowA ⬝ᵥ lam) 0 m S 1 α)).1 (m + gainF (stackedMap q) S *ᵥ b) → Returns (LGP.solve "mud" none (LGP.typed (stackedMap q) (fun i => -((Real.sqrt (q i).size)⁻¹ * ∑ j : Fin (q i).size, e i j) -
      (q i).rowA ⬝ᵥ lam) 0 m S 1 α)).1 (m + gainF (stackedMap q) S *ᵥ a) := by rintro a _ rfl h; exact h
    refine e0 _ _ ?_ h
    funext i
    have e1 : (stackedMap q *ᵥ (lam - m)) i = (q i).rowA ⬝ᵥ lam - (stackedMap q *ᵥ m) i := by
      rw [mulVec_sub]; rfl
    rw [Pi.add_apply, e1]
    simp only [Pi.sub_apply, Pi.zero_apply]
    ring
  · have h := updated_cov_typed (LGP.typed (stackedMap q) (fun i => -((Real.sqrt (q i).size)⁻¹ *
      ∑ j : Fin (q i).size, e i j) - (q i).rowA ⬝ᵥ lam) 0 m S 1 α) (stackedMap q) S 1
    rw [← h]
    simp [LGP.updated_cov, LGP.typed]

/-- The weighted means of independent standard normal noise are independent and standard normal. -/
theorem means_law {P : Measure Ω} {e : Fin k → ℕ → Ω → ℝ} (hi : iIndepFun (fun ij : Fin k × ℕ => e ij.1 ij.2) P)
    (hl : ∀ i j, HasLaw (e i j) (gaussianReal 0 1) P) (N : Fin k → ℕ) (hN : ∀ i, 0 < N i) :
    HasLaw (fun ω i => (Real.sqrt (N i))⁻¹ * ∑ j : Fin (N i), e i j ω) (normalLaw 0 (1 : Matrix (Fin k) (Fin k) ℝ)) P := by
  obtain ⟨M, ⟨φ⟩⟩ : ∃ M, Nonempty ((Σ i, Fin (N i)) ≃ Fin M) := ⟨_, ⟨finSigmaFinEquiv⟩⟩
  have h0 := hasLaw_std (X := fun (l : Fin M) ω => e (φ.symm l).1 (φ.symm l).2 ω)
    (hi.precomp (g := fun l : Fin M => ((φ.symm l).1, ((φ.symm l).2 : ℕ))) fun a b hab => by
      apply φ.symm.injective
      obtain ⟨h1, h2⟩ := Prod.mk.inj hab
      rcases ha : φ.symm a with ⟨i, j⟩
      rcases hb : φ.symm b with ⟨i', j'⟩
      rw [ha, hb] at h1 h2
      dsimp only at h1 h2
      subst h1
      rw [Fin.ext h2]) fun l => hl _ _
  set B : Matrix (Fin k) (Fin M) ℝ := .of fun i l =>
    if (φ.symm l).1 = i then (Real.sqrt (N i))⁻¹ else 0 with hB
  have hsum : ∀ (i : Fin k) (g : Fin M → ℝ), ∑ l, B i l * g l =
      (Real.sqrt (N i))⁻¹ * ∑ j : Fin (N i), g (φ ⟨i, j⟩) := by
    intro i g
    rw [← Equiv.sum_comp φ, Fintype.sum_sigma, Finset.sum_eq_single i]
    · simp [hB, Finset.mul_sum]
    · intro i' _ hne
      exact Finset.sum_eq_zero fun j _ => by simp [hB, hne]
    · simp
  have hBB : B * (1 : Matrix (Fin M) (Fin M) ℝ) * Bᵀ = 1 := by
    rw [Matrix.mul_one]
    ext i i'
    rw [mul_apply]
    simp only [transpose_apply]
    rw [hsum i fun l => B i' l]
    simp only [hB, of_apply, Equiv.symm_apply_apply]
    by_cases hii : i = i'
    · subst hii
      have hq : (0 : ℝ) < N i := by exact_mod_cast hN i
      simp only [if_true, Finset.sum_const, Finset.card_univ, Fintype.card_fin, nsmul_eq_mul, one_apply_eq]
      rw [mul_left_comm, ← mul_inv, Real.mul_self_sqrt hq.le, mul_inv_cancel₀ hq.ne']
    · simp [hii]
  have h1 : HasLaw (fun x => B *ᵥ x + 0) (normalLaw (B *ᵥ 0 + 0) (B * (1 : Matrix (Fin M) (Fin M) ℝ) * Bᵀ))
      (normalLaw 0 (1 : Matrix (Fin M) (Fin M) ℝ)) :=
    ⟨((measurable_mulVec B).add_const 0).aemeasurable, normalLaw_map 0 PosSemidef.one B 0⟩
  rw [hBB, mulVec_zero, add_zero] at h1
  refine (h1.comp h0).congr (.of_forall fun ω => ?_)
  funext i
  have hj : ∀ j, (fun z : Σ i, Fin (N i) => e z.1 z.2 ω) (φ.symm (φ ⟨i, j⟩)) = e i j ω := fun j => by
    rw [Equiv.symm_apply_apply]
  have := (hsum i fun l => e (φ.symm l).1 (φ.symm l).2 ω).trans
    (congrArg _ (Finset.sum_congr rfl fun j _ => hj j))
  refine this.symm.trans ?_
  simp [mulVec, dotProduct]

theorem rowA_grad {q : QoI p} (h : q.Valid) : q.rowA = (Real.sqrt q.size)⁻¹ • q.grad := by
  have hN : (0 : ℝ) < q.size := by exact_mod_cast QoI.size_pos h
  have hq := Real.sqrt_pos.2 hN
  have hs := Real.mul_self_sqrt hN.le
  funext j
  cases q with
  | stacked N M d sd =>
    simp only [QoI.rowA, QoI.grad, Pi.smul_apply, smul_eq_mul, QoI.size, Finset.mul_sum]
    exact Finset.sum_congr rfl fun i _ => by rw [one_div, mul_inv]; ring
  | repeated N a d s =>
    simp only [QoI.rowA, QoI.grad, Pi.smul_apply, smul_eq_mul, QoI.size] at hN hq hs ⊢
    rw [← mul_div_assoc, ← mul_assoc, show (Real.sqrt N)⁻¹ * (N : ℝ) = Real.sqrt N by
      rw [inv_mul_eq_div, div_eq_iff hq.ne', hs]]
    ring

theorem stackedMap_mulVec {q : Fin k → QoI p} (hv : ∀ i, (q i).Valid) (x : Fin p → ℝ) (i : Fin k) :
    (stackedMap q *ᵥ x) i = (Real.sqrt (q i).size)⁻¹ * ((q i).grad ⬝ᵥ x) := by
  show (q i).rowA ⬝ᵥ x = _
  rw [rowA_grad (hv i), smul_dotProduct, smul_eq_mul]

theorem sqrt_size_pos {q : QoI p} (h : q.Valid) : 0 < (Real.sqrt q.size)⁻¹ :=
  inv_pos.2 (Real.sqrt_pos.2 (by exact_mod_cast QoI.size_pos h))

theorem stackedMap_indep {q : Fin k → QoI p} (hv : ∀ i, (q i).Valid)
    (hi : LinearIndependent ℝ fun i => (q i).grad) : LinearIndependent ℝ fun i => stackedMap q i := by
  have h := hi.units_smul fun i => Units.mk0 _ (sqrt_size_pos (hv i)).ne'
  convert! h using 1
  funext i
  exact rowA_grad (hv i)

theorem fullRowRank_of_indep {A : Matrix (Fin k) (Fin p) ℝ} (hi : LinearIndependent ℝ fun i => A i) : FullRowRank A := by
  have hr : A.rank = k := by
    have := LinearIndependent.rank_matrix (M := A) hi
    simpa using this
  have htop : LinearMap.range A.mulVecLin = ⊤ := by
    apply Submodule.eq_top_of_finrank_eq
    rw [Module.finrank_fin_fun]
    exact hr
  intro c
  obtain ⟨x, hx⟩ := LinearMap.range_eq_top.1 htop c
  exact ⟨x, hx⟩

theorem gainF_transpose (A : Matrix (Fin k) (Fin p) ℝ) {S : Matrix (Fin p) (Fin p) ℝ} (hS : S.PosSemidef) :
    (gainF A S)ᵀ = mpinv (A * S * Aᵀ) * (A * S) := by
  rw [gainF, transpose_mul, mpinv_symm (posSemidef_transpose (posSemidef_conj hS A)), transpose_mul,
    transpose_transpose, posSemidef_transpose hS]

/-- **C133.** With independent standard normal noise the MUD point has a normal distribution, whatever the rank. Its
mean is the MUD point for exact data. In directions the data do not inform nothing is estimated: no variance, the
initial mean, and the updated covariance equals the initial one. If the gradients are independent the estimate is
unbiased for each quantity of interest, and the covariances of these estimates are those of `updated_cov`. -/
theorem C133_law (q : Fin k → QoI p) (hk : 0 < k) (hv : ∀ i, (q i).Valid) (lam m : Fin p → ℝ)
    (S : Matrix (Fin p) (Fin p) ℝ) (hS : S.PosDef) (α : ℝ) (hα : 0 < α) (P : Measure Ω) (e : Fin k → ℕ → Ω → ℝ)
    (hi : iIndepFun (fun ij : Fin k × ℕ => e ij.1 ij.2) P) (hl : ∀ i j, HasLaw (e i j) (gaussianReal 0 1) P) :
    ∃ (x : Ω → Fin p → ℝ) (x₀ : Fin p → ℝ) (V U : Matrix (Fin p) (Fin p) ℝ),
      (∀ ω, ∃ Pb, Api.lwp (List.ofFn fun i => (q i).observe lam fun j => e i j ω) m S none α = .ok Pb ∧
        Returns (LGP.solve "mud" none Pb).1 (x ω) ∧ Pb.updated_cov = .ok ⟨p, p, U⟩) ∧
      (∃ Pb, Api.lwp (List.ofFn fun i => (q i).observe lam fun _ => 0) m S none α = .ok Pb ∧
        Returns (LGP.solve "mud" none Pb).1 x₀) ∧
      HasLaw x (normalLaw x₀ V) P ∧
      (∀ v, (∀ i, (q i).grad ⬝ᵥ (S *ᵥ v) = 0) → V *ᵥ v = 0 ∧ U *ᵥ v = S *ᵥ v ∧ v ⬝ᵥ x₀ = v ⬝ᵥ m) ∧
      (LinearIndependent ℝ (fun i => (q i).grad) → (∀ i, (q i).grad ⬝ᵥ x₀ = (q i).grad ⬝ᵥ lam) ∧
        ∀ i j, (q i).grad ⬝ᵥ (V *ᵥ (q j).grad) = (q i).grad ⬝ᵥ (U *ᵥ (q j).grad)) := by
  set A := stackedMap q with hA
  set K := gainF A S with hK
  have hw := means_law hi hl (fun i => (q i).size) fun i => QoI.size_pos (hv i)
  refine ⟨fun ω => K *ᵥ (fun i => (Real.sqrt (q i).size)⁻¹ * ∑ j : Fin (q i).size, e i j ω) + (m + K *ᵥ (A *ᵥ (lam - m))),
    m + K *ᵥ (A *ᵥ (lam - m)), K * Kᵀ, upF A S 1, fun ω => ?_, ?_, ?_, fun v hvv => ?_, fun hind => ?_⟩
  · obtain ⟨Pb, h1, h2, h3⟩ := mud_observe q hk hv lam m S α hα fun i j => e i j ω
    refine ⟨Pb, h1, ?_, h3⟩
    rw [mulVec_add, ← hA, ← hK, add_left_comm] at h2
    exact h2
  · obtain ⟨Pb, h1, h2, -⟩ := mud_observe q hk hv lam m S α hα fun i j => 0
    refine ⟨Pb, h1, ?_⟩
    convert! h2 using 3
    funext i
    simp [hA]
  · have h1 : HasLaw (fun w => K *ᵥ w + (m + K *ᵥ (A *ᵥ (lam - m)))) (normalLaw (K *ᵥ 0 + (m + K *ᵥ (A *ᵥ (lam - m))))
        (K * (1 : Matrix (Fin k) (Fin k) ℝ) * Kᵀ)) (normalLaw 0 (1 : Matrix (Fin k) (Fin k) ℝ)) :=
      ⟨((measurable_mulVec K).add_const _).aemeasurable, normalLaw_map 0 PosSemidef.one K _⟩
    rw [mulVec_zero, zero_add, Matrix.mul_one] at h1
    exact h1.comp hw
  · have h0 : A *ᵥ (S *ᵥ v) = 0 := by
      funext i
      rw [hA, stackedMap_mulVec hv, hvv i, mul_zero]; rfl
    have h1 : Kᵀ *ᵥ v = 0 := by
      rw [hK, gainF_transpose A hS.posSemidef, ← mulVec_mulVec, ← mulVec_mulVec, h0, mulVec_zero]
    refine ⟨by rw [← mulVec_mulVec, h1, mulVec_zero], ?_, ?_⟩
    · rw [upF, sub_mulVec, ← gainF, ← hK, ← mulVec_mulVec, h1, mulVec_zero, sub_zero]
    · rw [dotProduct_add, dotProduct_mulVec, ← mulVec_transpose, h1, zero_dotProduct, add_zero]
  · have hAi : FullRowRank A := fullRowRank_of_indep (stackedMap_indep hv hind)
    have hP := posDef_det_ne (posDef_conj hS A hAi.inj)
    have h1 := gain_one A hP
    have hc : ∀ i (x y : Fin p → ℝ), (A *ᵥ x) i = (A *ᵥ y) i → (q i).grad ⬝ᵥ x = (q i).grad ⬝ᵥ y := by
      intro i x y h
      rw [hA, stackedMap_mulVec hv, stackedMap_mulVec hv] at h
      exact mul_left_cancel₀ (sqrt_size_pos (hv i)).ne' h
    refine ⟨fun i => hc i _ _ (congrFun ?_ i), fun i j => hc i _ _ ?_⟩
    · rw [mulVec_add, mulVec_mulVec, h1, one_mulVec, mulVec_sub]; abel
    · have hAV : A * (K * Kᵀ) = A * upF A S 1 := by
        rw [upF_eq A hS.posSemidef, Matrix.mul_one, Matrix.mul_add, ← hK]
        have : A * (1 - K * A) = 0 := by rw [Matrix.mul_sub, Matrix.mul_one, ← Matrix.mul_assoc, h1, Matrix.one_mul, sub_self]
        rw [Matrix.mul_assoc (1 - K * A), ← Matrix.mul_assoc A (1 - K * A), this, Matrix.zero_mul, add_zero]
      rw [mulVec_mulVec, mulVec_mulVec, hAV]

/-- **C133.** With as many quantities of interest as parameters and independent gradients, the MUD point is normally
distributed around the true parameter, and its covariance is `updated_cov`. -/
theorem C133_identified (q : Fin p → QoI p) (hp : 0 < p) (hv : ∀ i, (q i).Valid)
    (hind : LinearIndependent ℝ fun i => (q i).grad) (lam m : Fin p → ℝ) (S : Matrix (Fin p) (Fin p) ℝ) (hS : S.PosDef)
    (α : ℝ) (hα : 0 < α) (P : Measure Ω) (e : Fin p → ℕ → Ω → ℝ)
    (hi : iIndepFun (fun ij : Fin p × ℕ => e ij.1 ij.2) P) (hl : ∀ i j, HasLaw (e i j) (gaussianReal 0 1) P) :
    ∃ (x : Ω → Fin p → ℝ) (U : Matrix (Fin p) (Fin p) ℝ),
      (∀ ω, ∃ Pb, Api.lwp (List.ofFn fun i => (q i).observe lam fun j => e i j ω) m S none α = .ok Pb ∧
        Returns (LGP.solve "mud" none Pb).1 (x ω) ∧ Pb.updated_cov = .ok ⟨p, p, U⟩) ∧
      HasLaw x (normalLaw lam U) P := by
  obtain ⟨x, x₀, V, U, h1, h2, h3, -, h5⟩ := C133_law q hp hv lam m S hS α hα P e hi hl
  obtain ⟨h6, h7⟩ := h5 hind
  set M : Matrix (Fin p) (Fin p) ℝ := .of fun i => (q i).grad with hM
  have hu : IsUnit M := linearIndependent_rows_iff_isUnit.1 hind
  have hx : x₀ = lam := by
    have : M *ᵥ x₀ = M *ᵥ lam := funext h6
    exact Matrix.mulVec_injective_iff_isUnit.2 hu this
  have hV : V = U := by
    have h8 : M * V * Mᵀ = M * U * Mᵀ := by
      ext i j
      have := h7 i j
      have e : ∀ T : Matrix (Fin p) (Fin p) ℝ, (M * T * Mᵀ) i j = (q i).grad ⬝ᵥ (T *ᵥ (q j).grad) := by
        intro T
        rw [Matrix.mul_assoc, mul_apply]
        simp only [mul_apply, transpose_apply, dotProduct, mulVec, hM, of_apply]
      rw [e, e, this]
    have hut : IsUnit Mᵀ := (Matrix.isUnit_transpose M).2 hu
    have h9 := hut.mul_left_injective h8
    exact hu.mul_right_injective h9
  exact ⟨x, U, h1, by rw [← hx, ← hV]; exact h3⟩

theorem gainF_diag (M : Matrix (Fin k) (Fin p) ℝ) {S : Matrix (Fin p) (Fin p) ℝ} (hP : (M * S * Mᵀ).det ≠ 0)
    {c : Fin k → ℝ} (hc : ∀ i, c i ≠ 0) :
    gainF (diagonal c * M) S = gainF M S * diagonal fun i => (c i)⁻¹ := by
  have hu : IsUnit (M * S * Mᵀ).det := isUnit_iff_ne_zero.2 hP
  have hD : diagonal c * diagonal (fun i => (c i)⁻¹) = (1 : Matrix (Fin k) (Fin k) ℝ) := by
    rw [diagonal_mul_diagonal, ← diagonal_one]; congr 1; funext i; exact mul_inv_cancel₀ (hc i)
  have e : diagonal c * M * S * (diagonal c * M)ᵀ = diagonal c * (M * S * Mᵀ) * diagonal c := by
    rw [transpose_mul, diagonal_transpose]; simp only [Matrix.mul_assoc]
  have hu' : IsUnit (diagonal c * (M * S * Mᵀ) * diagonal c).det := by
    rw [det_mul, det_mul, det_diagonal]
    exact ((isUnit_iff_ne_zero.2 (Finset.prod_ne_zero_iff.2 fun i _ => hc i)).mul hu).mul
      (isUnit_iff_ne_zero.2 (Finset.prod_ne_zero_iff.2 fun i _ => hc i))
  have hinv : (diagonal c * (M * S * Mᵀ) * diagonal c)⁻¹ =
      diagonal (fun i => (c i)⁻¹) * (M * S * Mᵀ)⁻¹ * diagonal fun i => (c i)⁻¹ := by
    refine inv_eq_right_inv ?_
    calc diagonal c * (M * S * Mᵀ) * diagonal c * (diagonal (fun i => (c i)⁻¹) * (M * S * Mᵀ)⁻¹ * diagonal fun i => (c i)⁻¹)
        = diagonal c * (M * S * Mᵀ) * (diagonal c * diagonal fun i => (c i)⁻¹) * (M * S * Mᵀ)⁻¹ *
          diagonal (fun i => (c i)⁻¹) := by simp only [Matrix.mul_assoc]
      _ = 1 := by rw [hD, Matrix.mul_one, Matrix.mul_assoc (diagonal c), mul_nonsing_inv _ hu, Matrix.mul_one, hD]
  rw [gainF, e, mpinv_of_isUnit_det hu', hinv, gainF, mpinv_of_isUnit_det hu, transpose_mul, diagonal_transpose]
  calc S * (Mᵀ * diagonal c) * (diagonal (fun i => (c i)⁻¹) * (M * S * Mᵀ)⁻¹ * diagonal fun i => (c i)⁻¹)
      = S * Mᵀ * (diagonal c * diagonal fun i => (c i)⁻¹) * (M * S * Mᵀ)⁻¹ * diagonal (fun i => (c i)⁻¹) := by
        simp only [Matrix.mul_assoc]
    _ = _ := by rw [hD, Matrix.mul_one]

/-- **C133.** With more and more data of quantities with independent gradients, and any integrable noise of mean 0
that is independent and identically distributed within each quantity, the MUD point converges almost surely to
the MUD point of the problem with exact data, which reproduces every quantity; to the true parameter if there
are as many quantities as parameters. -/
theorem C133_consistent (a : Fin k → Fin p → ℝ) (hk : 0 < k) (hind : LinearIndependent ℝ a) (s : Fin k → ℝ)
    (hs : ∀ i, 1 / 10 ^ 14 < s i) (lam m : Fin p → ℝ) (S : Matrix (Fin p) (Fin p) ℝ) (hS : S.PosDef)
    (C : Matrix (Fin k) (Fin k) ℝ) (α : ℝ) (hα : 0 < α) (P : Measure Ω) (e : Fin k → ℕ → Ω → ℝ)
    (hint : ∀ i, Integrable (e i 0) P) (hpair : ∀ i, Pairwise fun j j' => IndepFun (e i j) (e i j') P)
    (hid : ∀ i j, IdentDistrib (e i j) (e i 0) P P) (h0 : ∀ i, ∫ ω, e i 0 ω ∂P = 0) :
    ∃ (x : ℕ → Ω → Fin p → ℝ) (x₀ : Fin p → ℝ),
      (∀ N, 0 < N → ∀ ω, ∃ Pb,
        Api.lwp (List.ofFn fun i => (QoI.repeated N (a i) 0 (s i)).observe lam fun j => e i j ω) m S none α = .ok Pb ∧
        Returns (LGP.solve "mud" none Pb).1 (x N ω)) ∧
      Returns (Api.solve "mud" (.of a) 0 (.of a *ᵥ lam) m S C α) x₀ ∧
      (∀ i, a i ⬝ᵥ x₀ = a i ⬝ᵥ lam) ∧
      (∀ᵐ ω ∂P, Tendsto (fun N => x N ω) atTop (𝓝 x₀)) ∧
      (k = p → x₀ = lam) := by
  set M : Matrix (Fin k) (Fin p) ℝ := .of a with hM
  have hAi : FullRowRank M := fullRowRank_of_indep hind
  have hP := posDef_det_ne (posDef_conj hS M hAi.inj)
  have h1 := gain_one M hP
  have hs0 : ∀ i, 0 < s i := fun i => lt_trans (by norm_num) (hs i)
  have hrep : ∀ i, a i ⬝ᵥ (m + gainF M S *ᵥ (M *ᵥ lam - M *ᵥ m)) = a i ⬝ᵥ lam := by
    have : M *ᵥ (m + gainF M S *ᵥ (M *ᵥ lam - M *ᵥ m)) = M *ᵥ lam := by
      rw [mulVec_add, mulVec_mulVec, h1, one_mulVec]; abel
    exact fun i => congrFun this i
  refine ⟨fun N ω => m + gainF M S *ᵥ ((fun i => s i * ((∑ j ∈ Finset.range N, e i j ω) / N)) + (M *ᵥ lam - M *ᵥ m)),
    m + gainF M S *ᵥ (M *ᵥ lam - M *ᵥ m), fun N hN ω => ?_, ?_, hrep, ?_, ?_⟩
  · obtain ⟨Pb, g1, g2, -⟩ := mud_observe (fun i => QoI.repeated N (a i) 0 (s i)) hk (fun i => ⟨hN, hs i⟩) lam m S α hα
      fun i j => e i j ω
    refine ⟨Pb, g1, ?_⟩
    have hNr : (0 : ℝ) < N := by exact_mod_cast hN
    have hq := Real.sqrt_pos.2 hNr
    have hA : stackedMap (fun i => QoI.repeated N (a i) 0 (s i)) = diagonal (fun i => Real.sqrt N / s i) * M := by
      ext i j
      rw [diagonal_mul]; rfl
    rw [hA, gainF_diag M hP fun i => (div_pos hq (hs0 i)).ne', ← mulVec_mulVec] at g2
    have hfin : ((diagonal fun i => (Real.sqrt N / s i)⁻¹) *ᵥ ((fun i => (Real.sqrt (QoI.repeated N (a i) 0 (s i)).size)⁻¹ *
        ∑ j : Fin (QoI.repeated N (a i) 0 (s i)).size, e i j ω) + (diagonal (fun i => Real.sqrt N / s i) * M) *ᵥ (lam - m))) =
        (fun i => s i * ((∑ j ∈ Finset.range N, e i j ω) / N)) + (M *ᵥ lam - M *ᵥ m) := by
      funext i
      rw [mulVec_diagonal, Pi.add_apply, ← mulVec_mulVec, mulVec_diagonal, Pi.add_apply, mulVec_sub, mul_add, ← mul_assoc,
        ← mul_assoc, inv_mul_cancel₀ (div_pos hq (hs0 i)).ne', one_mul]
      congr 1
      rw [inv_div, Finset.sum_range fun j => e i j ω]
      show s i / Real.sqrt N * (Real.sqrt N)⁻¹ * ∑ j : Fin N, e i j ω = _
      rw [div_mul_eq_mul_div, div_eq_mul_inv, mul_assoc (s i), ← mul_inv, Real.mul_self_sqrt hNr.le]
      ring
    rw [hfin] at g2
    exact g2
  · have h := api_mud' M 0 (M *ᵥ lam) m S C α hα.ne'
    rw [sub_zero, mudF, ← gainF] at h
    exact h
  · have hae : ∀ᵐ ω ∂P, ∀ i, Tendsto (fun N : ℕ => (∑ j ∈ Finset.range N, e i j ω) / N) atTop (𝓝 0) := by
      rw [ae_all_iff]
      intro i
      have := strong_law_ae_real (e i) (hint i) (hpair i) (hid i)
      rwa [h0 i] at this
    filter_upwards [hae] with ω hω
    have hlim : Tendsto (fun N : ℕ => (fun i => s i * ((∑ j ∈ Finset.range N, e i j ω) / N)) + (M *ᵥ lam - M *ᵥ m)) atTop
        (𝓝 ((fun i => s i * 0) + (M *ᵥ lam - M *ᵥ m))) :=
      (tendsto_pi_nhds.2 fun i => (hω i).const_mul (s i)).add_const _
    have hz : ((fun i => s i * 0) + (M *ᵥ lam - M *ᵥ m)) = M *ᵥ lam - M *ᵥ m := by
      funext i; simp
    rw [hz] at hlim
    exact (((LinearMap.continuous_of_finiteDimensional (Matrix.mulVecLin (gainF M S))).tendsto _).comp hlim).const_add m
  · rintro rfl
    have hu : IsUnit M := linearIndependent_rows_iff_isUnit.1 hind
    have : M *ᵥ (m + gainF M S *ᵥ (M *ᵥ lam - M *ᵥ m)) = M *ᵥ lam := funext hrep
    exact Matrix.mulVec_injective_iff_isUnit.2 hu this

/-- Independent noise, one number per quantity of interest and datum. -/
theorem grid_indep (μ : Measure ℝ) [IsProbabilityMeasure μ] :
    iIndepFun (fun (ij : Fin k × ℕ) (ω : Fin k × ℕ → ℝ) => ω ij) (Measure.infinitePi fun _ : Fin k × ℕ => μ) :=
  iIndepFun_infinitePi (X := fun _ x => x) fun _ => measurable_id

theorem grid_law (μ : Measure ℝ) [IsProbabilityMeasure μ] (ij : Fin k × ℕ) :
    HasLaw (fun ω : Fin k × ℕ → ℝ => ω ij) μ (Measure.infinitePi fun _ : Fin k × ℕ => μ) :=
  (measurePreserving_eval_infinitePi (fun _ : Fin k × ℕ => μ) ij).hasLaw

/-- C133 for two parameters and two quantities of interest: two stacked rows and a row observed three times. -/
example : ∃ (x : (Fin 2 × ℕ → ℝ) → Fin 2 → ℝ) (U : Matrix (Fin 2) (Fin 2) ℝ),
    (∀ ω, ∃ Pb, Api.lwp [(QoI.stacked 2 !![1, 2; 3, 4] 0 ![1/10, 1/5]).observe ![1, 2] fun j => ω (0, j),
        (QoI.repeated 3 ![1, 1] 0 (1/2)).observe ![1, 2] fun j => ω (1, j)] ![0, 0] !![1, -1/4; -1/4, 1/2] none 1 = .ok Pb ∧
      Returns (LGP.solve "mud" none Pb).1 (x ω) ∧ Pb.updated_cov = .ok ⟨2, 2, U⟩) ∧
    HasLaw x (normalLaw ![1, 2] U) (Measure.infinitePi fun _ : Fin 2 × ℕ => gaussianReal 0 1) := by
  have hS : (!![1, -1/4; -1/4, 1/2] : Matrix (Fin 2) (Fin 2) ℝ).PosDef :=
    posDef_fin_two (by norm_num) (by norm_num)
  have hind : LinearIndependent ℝ fun i => ((![QoI.stacked 2 !![1, 2; 3, 4] 0 ![1/10, 1/5],
      QoI.repeated 3 ![1, 1] 0 (1/2)] : Fin 2 → QoI 2) i).grad := by
    have hM : IsUnit (Matrix.of fun i => ((![QoI.stacked 2 !![1, 2; 3, 4] 0 ![1/10, 1/5],
        QoI.repeated 3 ![1, 1] 0 (1/2)] : Fin 2 → QoI 2) i).grad) := by
      rw [Matrix.isUnit_iff_isUnit_det, Matrix.det_fin_two, isUnit_iff_ne_zero]
      simp [QoI.grad, Fin.sum_univ_two]
      norm_num
    exact linearIndependent_rows_iff_isUnit.2 hM
  obtain ⟨x, U, h1, h2⟩ := C133_identified (Ω := Fin 2 × ℕ → ℝ) ![QoI.stacked 2 !![1, 2; 3, 4] 0 ![1/10, 1/5],
    QoI.repeated 3 ![1, 1] 0 (1/2)] two_pos (fun i => by
      fin_cases i
      · exact ⟨by norm_num, fun i => by fin_cases i <;> norm_num⟩
      · exact ⟨by norm_num, by norm_num⟩) hind ![1, 2] ![0, 0] _ hS 1 one_pos _ (fun i j ω => ω (i, j))
    (grid_indep _) fun i j => grid_law _ (i, j)
  refine ⟨x, U, fun ω => ?_, h2⟩
  obtain ⟨Pb, h⟩ := h1 ω
  exact ⟨Pb, by simpa [List.ofFn_succ] using h⟩

/-- C133 for one quantity of interest of two parameters and noise from a fair coin: the estimates converge, to a
parameter with the right value of the quantity. -/
example : ∃ (x : ℕ → (Fin 1 × ℕ → ℝ) → Fin 2 → ℝ) (x₀ : Fin 2 → ℝ),
    (![1, 1] : Fin 2 → ℝ) ⬝ᵥ x₀ = 3 ∧ ∀ᵐ ω ∂(Measure.infinitePi fun _ : Fin 1 × ℕ => coin), Tendsto (fun N => x N ω) atTop (𝓝 x₀) := by
  have hS : (!![1, -1/4; -1/4, 1/2] : Matrix (Fin 2) (Fin 2) ℝ).PosDef :=
    posDef_fin_two (by norm_num) (by norm_num)
  have hl := grid_law (k := 1) coin
  obtain ⟨x, x₀, -, -, h1, h2, -⟩ := C133_consistent (k := 1) (fun _ => ![1, 1]) one_pos
    (LinearIndependent.of_subsingleton 0 (by simp)) (fun _ => 1/2) (fun _ => by norm_num) ![1, 2] ![0, 0] _ hS 1 1 one_pos
    (Measure.infinitePi fun _ : Fin 1 × ℕ => coin) (fun i j ω => ω (i, j))
    (fun i => by
      have : Integrable (fun x : ℝ => x) coin := by
        refine Integrable.add_measure ?_ ?_ <;>
          exact (integrable_dirac' measurable_id.stronglyMeasurable (by simp)).smul_measure (by simp)
      rw [← (hl (i, 0)).map_eq] at this
      exact (integrable_map_measure (by fun_prop) (hl (i, 0)).aemeasurable).1 this)
    (fun i j j' hjj => (grid_indep coin).indepFun fun h => hjj (Prod.mk.inj h).2)
    (fun i j => ⟨(hl _).aemeasurable, (hl _).aemeasurable, by rw [(hl _).map_eq, (hl _).map_eq]⟩)
    (fun i => by
      have h : ∫ ω, (fun x : ℝ => x) ((fun ω : Fin 1 × ℕ → ℝ => ω (i, 0)) ω) ∂(Measure.infinitePi fun _ : Fin 1 × ℕ => coin) =
          ∫ x, x ∂coin := by
        conv_rhs => rw [← (hl (i, 0)).map_eq]
        rw [integral_map (hl (i, 0)).aemeasurable (by fun_prop)]
      rw [show (∫ ω : Fin 1 × ℕ → ℝ, ω (i, 0) ∂(Measure.infinitePi fun _ : Fin 1 × ℕ => coin)) = ∫ x, x ∂coin from h,
        integral_coin (fun x => x) measurable_id]
      norm_num)
  refine ⟨x, x₀, ?_, h2⟩
  rw [h1 0]
  norm_num [dotProduct, Fin.sum_univ_two]

end Verif
