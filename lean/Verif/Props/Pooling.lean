import Verif.Props.ObservationOrder

/-!
# C165: repeated measurements count through their number and their mean
-/

open Matrix

namespace Verif

variable {d d' p S n n' : ℕ}

/-! ### The weighted mean error -/

/-- Data with the same sum (so the same mean), and predictions with the same sums: the same errors. -/
theorem C165_wme_average (P P' : Matrix (Fin S) (Fin n) ℝ) (v v' : Fin n → ℝ) (s : ℝ) (hs : s ≠ 0) (hn : 0 < n)
    (hP : ∀ i, ∑ j, P' i j = ∑ j, P i j) (hv : ∑ j, v' j = ∑ j, v j) :
    wme (.mat ⟨S, n, P'⟩) (.vec n v') (some s) = wme (.mat ⟨S, n, P⟩) (.vec n v) (some s) := by
  rw [C21_formula _ _ _ hs hn, C21_formula _ _ _ hs hn]
  congr 2
  funext i
  rw [Finset.sum_sub_distrib, Finset.sum_sub_distrib, hP, hv]

/-- Two sets of measurements in one call: the errors of the sets, weighted by the square roots of their sizes. -/
theorem C165_wme_pooled (P : Matrix (Fin S) (Fin n) ℝ) (P' : Matrix (Fin S) (Fin n') ℝ) (v : Fin n → ℝ)
    (v' : Fin n' → ℝ) (s : ℝ) (hs : s ≠ 0) (hn : 0 < n) (hn' : 0 < n') :
    ∃ u u' w : Fin S → ℝ,
      wme (.mat ⟨S, n, P⟩) (.vec n v) (some s) = .ok (List.ofFn fun i => F.fin (u i)) ∧
      wme (.mat ⟨S, n', P'⟩) (.vec n' v') (some s) = .ok (List.ofFn fun i => F.fin (u' i)) ∧
      wme (.mat ⟨S, n + n', .of fun i => Fin.append (P i) (P' i)⟩) (.vec (n + n') (Fin.append v v')) (some s) =
        .ok (List.ofFn fun i => F.fin (w i)) ∧
      ∀ i, Real.sqrt (n + n') * w i = Real.sqrt n * u i + Real.sqrt n' * u' i := by
  refine ⟨_, _, _, C21_formula P v s hs hn, C21_formula P' v' s hs hn', C21_formula _ _ s hs (by omega), fun i => ?_⟩
  have e : ∑ j, (Fin.append (P i) (P' i) j - Fin.append v v' j) = ∑ j, (P i j - v j) + ∑ j, (P' i j - v' j) := by
    rw [Fin.sum_univ_add]
    simp
  have h0 : Real.sqrt n ≠ 0 := (Real.sqrt_pos.2 (by exact_mod_cast hn)).ne'
  have h1 : Real.sqrt n' ≠ 0 := (Real.sqrt_pos.2 (by exact_mod_cast hn')).ne'
  have h2 : Real.sqrt ((n : ℝ) + n') ≠ 0 := (Real.sqrt_pos.2 (by positivity)).ne'
  simp only [of_apply, e, Nat.cast_add]
  field_simp

/-! ### Splitting rows -/

section isometry
variable {B : Matrix (Fin d') (Fin d) ℝ} (hB : Bᵀ * B = 1) (A : Matrix (Fin d) (Fin p) ℝ) (z : Fin d' → ℝ)
  (m : Fin p → ℝ) (S : Matrix (Fin p) (Fin p) ℝ)
include hB

theorem iso_cancel {k : ℕ} (X : Matrix (Fin d) (Fin k) ℝ) : Bᵀ * (B * X) = X := by
  rw [← Matrix.mul_assoc, hB, Matrix.one_mul]

theorem mpinv_iso {k : ℕ} (M : Matrix (Fin d) (Fin k) ℝ) : mpinv (B * M) = mpinv M * Bᵀ := by
  obtain ⟨h1, h2, h3, h4⟩ := mpinv_spec M
  have e : mpinv M * Bᵀ * (B * M) = mpinv M * M := by rw [Matrix.mul_assoc, iso_cancel hB]
  refine mpinv_eq ⟨?_, ?_, ?_, ?_⟩
  · rw [Matrix.mul_assoc (B * M), e, Matrix.mul_assoc, ← Matrix.mul_assoc M, h1]
  · rw [e, ← Matrix.mul_assoc, h2]
  · rw [show B * M * (mpinv M * Bᵀ) = B * (M * mpinv M) * Bᵀ by simp only [Matrix.mul_assoc], transpose_mul,
      transpose_mul, transpose_transpose, h3, Matrix.mul_assoc B]
  · rw [e, h4]

theorem mpinv_iso_sq (M : Matrix (Fin d) (Fin d) ℝ) : mpinv (B * M * Bᵀ) = B * mpinv M * Bᵀ := by
  rw [Matrix.mul_assoc, mpinv_iso hB]
  have h : mpinv (M * Bᵀ) = B * mpinv M := by
    have h := mpinv_iso hB Mᵀ
    rw [mpinv_transpose, ← transpose_transpose B, ← transpose_mul, transpose_transpose] at h
    rw [← transpose_inj, ← mpinv_transpose, transpose_mul, transpose_transpose, transpose_mul]
    rw [mpinv_iso hB, mpinv_transpose]
  rw [h]

theorem gain_iso : S * (B * A)ᵀ * mpinv (B * A * S * (B * A)ᵀ) = S * Aᵀ * mpinv (A * S * Aᵀ) * Bᵀ := by
  have e : B * A * S * (B * A)ᵀ = B * (A * S * Aᵀ) * Bᵀ := by
    rw [transpose_mul]; simp only [Matrix.mul_assoc]
  rw [e, mpinv_iso_sq hB, transpose_mul]
  rw [show S * (Aᵀ * Bᵀ) * (B * mpinv (A * S * Aᵀ) * Bᵀ) = S * (Aᵀ * (Bᵀ * (B * (mpinv (A * S * Aᵀ) * Bᵀ)))) by
    simp only [Matrix.mul_assoc], iso_cancel hB]
  simp only [Matrix.mul_assoc]

theorem mudF_iso : mudF (B * A) z m S = mudF A (Bᵀ *ᵥ z) m S := by
  rw [mudF, mudF, gain_iso hB, mulVec_mulVec]

theorem upF_iso : upF (B * A) S 1 = upF A S 1 := by
  have e : B * A * S * (B * A)ᵀ = B * (A * S * Aᵀ) * Bᵀ := by
    rw [transpose_mul]; simp only [Matrix.mul_assoc]
  have h : Bᵀ * (B * (A * S * Aᵀ) * Bᵀ - 1) * B = A * S * Aᵀ - 1 := by
    rw [Matrix.mul_sub, Matrix.sub_mul, Matrix.mul_one, hB, Matrix.mul_assoc B, iso_cancel hB, Matrix.mul_assoc, hB,
      Matrix.mul_one]
  rw [upF, gain_iso hB, e, upF, transpose_mul _ Bᵀ, transpose_transpose, ← h]
  simp only [Matrix.mul_assoc]

theorem mapH_iso : mapH (B * A) S 1 = mapH A S 1 := by
  rw [mapH, mapH, inv_one, inv_one, Matrix.mul_one, Matrix.mul_one, transpose_mul, Matrix.mul_assoc, iso_cancel hB]

theorem residual_iso (b y : Fin d' → ℝ) :
    Bᵀ *ᵥ (y - b - (B * A) *ᵥ m) = Bᵀ *ᵥ y - Bᵀ *ᵥ b - A *ᵥ m := by
  rw [mulVec_sub, mulVec_sub, mulVec_mulVec, iso_cancel hB]

/-- The two problems. -/
theorem branches_iso (b y : Fin d' → ℝ) (α : ℝ) :
    let P := LGP.typed A (Bᵀ *ᵥ b) (Bᵀ *ᵥ y) m S 1 α
    let P' := LGP.typed (B * A) b y m S 1 α
    let w := LGP.Locals.typed A (Bᵀ *ᵥ b) (Bᵀ *ᵥ y) 1 (Bᵀ *ᵥ y - Bᵀ *ᵥ b - A *ᵥ m) (α • S)
    let w' := LGP.Locals.typed (B * A) b y 1 (y - b - (B * A) *ᵥ m) (α • S)
    P'.mudBranch w' = P.mudBranch w ∧ P'.mudAltBranch w' = P.mudAltBranch w ∧
      P'.mapBranch w' = P.mapBranch w ∧ P'.lsBranch w' = P.lsBranch w := by
  dsimp only
  rw [mudBranch_typed _ _ _ _ _ m _ _ rfl, mudBranch_typed _ _ _ _ _ m _ _ rfl,
    mudAltBranch_typed _ _ _ _ _ m _ _ rfl, mudAltBranch_typed _ _ _ _ _ m _ _ rfl,
    mapBranch_typed _ _ _ _ _ m _ _ rfl, mapBranch_typed _ _ _ _ _ m _ _ rfl, lsBranch_typed, lsBranch_typed,
    mudF_iso hB, upF_iso hB, mapH_iso hB, ← residual_iso hB, det_one, det_one, inv_one, inv_one, transpose_mul,
    mpinv_iso hB, ← mulVec_sub]
  simp only [Matrix.mul_one, mulVec_mulVec, Matrix.mul_assoc, and_self]

end isometry

/-! ### Problems for the weighted mean error -/

/-- Another set of data for a quantity of interest, with the same (weighted) sum. -/
inductive QoI.SameSum : QoI p → QoI p → Prop
  | stacked (N : ℕ) (M : Matrix (Fin N) (Fin p) ℝ) (v v' s : Fin N → ℝ) (h : ∑ i, v' i / s i = ∑ i, v i / s i) :
    SameSum (.stacked N M v s) (.stacked N M v' s)
  | repeated (N : ℕ) (a : Fin p → ℝ) (v v' : Fin N → ℝ) (s : ℝ) (h : ∑ i, v' i = ∑ i, v i) :
    SameSum (.repeated N a v s) (.repeated N a v' s)

/-- **C165, averages.** Other data with the same (weighted) averages: the same problem, or the same exception. -/
theorem C165_average {qs qs' : List (QoI p)} (h : List.Forall₂ QoI.SameSum qs qs') (m : Fin p → ℝ)
    (S : Matrix (Fin p) (Fin p) ℝ) (C : Option Arr2) (α : ℝ) : Api.lwp qs' m S C α = Api.lwp qs m S C α := by
  have key : ∀ q q' : QoI p, q.SameSum q' →
      transformLinearMap q'.op q'.data.1 q'.data.2 q'.std = transformLinearMap q.op q.data.1 q.data.2 q.std := by
    intro q q' h
    cases h with
    | stacked N M v v' s h =>
      have hB : ∑ i : Fin N, v' i / (if h : (i : ℕ) < N then s ⟨i, h⟩ else 0) =
          ∑ i : Fin N, v i / (if h : (i : ℕ) < N then s ⟨i, h⟩ else 0) := by
        simpa only [Fin.is_lt, ↓reduceDIte, Fin.eta] using h
      change transformLinearMap ⟨N, p, M⟩ N v' (.seq N s) = transformLinearMap ⟨N, p, M⟩ N v (.seq N s)
      unfold transformLinearMap
      dsimp only
      rw [hB]
    | repeated N a v v' s h =>
      have hB : ∑ i : Fin N, v' i / s = ∑ i : Fin N, v i / s := by rw [← Finset.sum_div, h, Finset.sum_div]
      change transformLinearMap (Arr2.row a) N v' (.num s) = transformLinearMap (Arr2.row a) N v (.num s)
      unfold transformLinearMap
      rw [if_neg (by simp [Arr2.row]), if_neg (by simp [Arr2.row])]
      dsimp only
      rw [hB]
  have e : transformAll ((qs'.map QoI.op).zip ((qs'.map QoI.data).zip (qs'.map QoI.std))) =
      transformAll ((qs.map QoI.op).zip ((qs.map QoI.data).zip (qs.map QoI.std))) := by
    induction h with
    | nil => rfl
    | cons h _ ih => simp only [List.map_cons, List.zip_cons_cons, transformAll, key _ _ h, ih]
  simp only [Api.lwp, LWP.new, transformLinearSetup, SigmaArg.toList, e]

/-- `qs'` contains the measurements of `qs`, those of a repeatedly measured quantity perhaps in several entries:
entry `i` of `qs'` belongs to entry `E i` of `qs`; an entry of `qs` is itself an entry of `qs'`, or it is a repeated
measurement and its entries in `qs'` have together its number of data and the sum of its data. -/
def Pooled (qs qs' : List (QoI p)) (E : Fin qs'.length → Fin qs.length) : Prop :=
  ∀ j, (∃ i, (∀ i', E i' = j ↔ i' = i) ∧ qs'[i] = qs[j]) ∨
    ∃ (N : ℕ) (a : Fin p → ℝ) (v : Fin N → ℝ) (s : ℝ) (n : Fin qs'.length → ℕ) (u : ∀ i, Fin (n i) → ℝ),
      qs[j] = .repeated N a v s ∧ (∀ i, E i = j → qs'[i] = .repeated (n i) a (u i) s) ∧
      ∑ i with E i = j, n i = N ∧ ∑ i with E i = j, ∑ k, u i k = ∑ k, v k

/-- **C165, pooling.** It does not matter whether the measurements of a quantity are in one entry or in several,
in any order: all sequences of calls of `solve` return and store the same, and the updated covariance is the same. -/
theorem C165_pooled {qs qs' : List (QoI p)} (hne : qs ≠ []) (hv : ∀ q ∈ qs, q.Valid) (hv' : ∀ q ∈ qs', q.Valid)
    (E : Fin qs'.length → Fin qs.length) (hE : Pooled qs qs' E) (m : Fin p → ℝ) (S : Matrix (Fin p) (Fin p) ℝ)
    (α : ℝ) :
    ∃ P P', Api.lwp qs m S none α = .ok P ∧ Api.lwp qs' m S none α = .ok P' ∧
      P'.updated_cov = P.updated_cov ∧ ∀ ms : List String, (∀ m ∈ ms, m ∈ solveMethods) →
        (P'.solveRun ms).1 = (P.solveRun ms).1 ∧ (P'.solveRun ms).2.solved = (P.solveRun ms).2.solved := by
  have hvi : ∀ i : Fin qs.length, qs[i].Valid := fun i => hv _ (List.getElem_mem _)
  have hvi' : ∀ i : Fin qs'.length, qs'[i].Valid := fun i => hv' _ (List.getElem_mem _)
  set w : Fin qs'.length → ℝ := fun i => Real.sqrt qs'[i].size / Real.sqrt qs[E i].size with hw
  set A : Matrix (Fin qs.length) (Fin p) ℝ := .of fun i => qs[i].rowA with hA
  set B : Matrix (Fin qs'.length) (Fin qs.length) ℝ := .of fun i j => if E i = j then w i else 0 with hBd
  have ej : ∀ i j, E i = j → qs[E i] = qs[j] := by rintro i _ rfl; rfl
  have pos : ∀ {q : QoI p}, q.Valid → 0 < Real.sqrt q.size := fun h =>
    Real.sqrt_pos.2 (by exact_mod_cast QoI.size_pos h)
  have hne' : qs' ≠ [] := by
    intro h0
    have hl : 0 < qs.length := List.length_pos_iff.2 hne
    have hz : IsEmpty (Fin qs'.length) := by rw [h0]; exact Fin.isEmpty'
    rcases hE ⟨0, hl⟩ with ⟨i, -⟩ | ⟨N, a, v, s, n, u, h1, -, h3, -⟩
    · exact hz.elim i
    · rw [Finset.univ_eq_empty, Finset.filter_empty, Finset.sum_empty] at h3
      have := hvi ⟨0, hl⟩
      rw [h1, QoI.Valid, ← h3] at this
      exact absurd this.1 (lt_irrefl _)
  have hiso : Bᵀ * B = 1 := by
    ext j k
    rw [mul_apply]
    simp only [transpose_apply, hBd, of_apply]
    by_cases hjk : j = k
    · subst hjk
      rw [one_apply_eq]
      have : ∀ i, ((if E i = j then w i else 0) * if E i = j then w i else 0) =
          if E i = j then (qs'[i].size : ℝ) / qs[j].size else 0 := by
        intro i
        split_ifs with h
        · rw [hw]; dsimp only
          rw [ej i j h, div_mul_div_comm, Real.mul_self_sqrt (Nat.cast_nonneg _), Real.mul_self_sqrt (Nat.cast_nonneg _)]
        · ring
      simp only [this]
      rw [← Finset.sum_filter]
      have hs : (qs[j].size : ℝ) ≠ 0 := by exact_mod_cast (QoI.size_pos (hvi j)).ne'
      rw [← Finset.sum_div, div_eq_one_iff_eq hs]
      rcases hE j with ⟨i, h1, h2⟩ | ⟨N, a, v, s, n, u, h1, h2, h3, -⟩
      · have : Finset.univ.filter (fun i => E i = j) = {i} := by ext i'; simp [h1]
        rw [this, Finset.sum_singleton, h2]
      · rw [h1, QoI.size, ← h3, Nat.cast_sum]
        refine Finset.sum_congr rfl fun i hi => ?_
        rw [h2 i (Finset.mem_filter.1 hi).2, QoI.size]
    · rw [one_apply_ne hjk]
      refine Finset.sum_eq_zero fun i _ => ?_
      by_cases h : E i = j
      · rw [if_neg (h ▸ hjk : E i ≠ k), mul_zero]
      · rw [if_neg h, zero_mul]
  have hrow : ∀ i, qs'[i].rowA = w i • qs[E i].rowA := by
    intro i
    have h0 := (pos (hvi (E i))).ne'
    have h0' := (pos (hvi' i)).ne'
    rcases hE (E i) with ⟨i', h1, h2⟩ | ⟨N, a, v, s, n, u, h1, h2, -, -⟩
    · obtain rfl := (h1 i).1 rfl
      rw [hw]; dsimp only
      rw [h2, div_self h0, one_smul]
    · have h3 := h2 i rfl
      rw [hw]; dsimp only
      rw [h1] at h0 ⊢
      rw [h3] at h0' ⊢
      simp only [QoI.size] at h0 h0' ⊢
      funext j
      simp only [QoI.rowA, Pi.smul_apply, smul_eq_mul]
      field_simp
  have hAB : (.of fun i => qs'[i].rowA : Matrix (Fin qs'.length) (Fin p) ℝ) = B * A := by
    ext i j
    rw [mul_apply]
    simp only [hBd, hA, of_apply, ite_mul, zero_mul, Finset.sum_ite_eq, Finset.mem_univ, if_true, hrow i,
      Pi.smul_apply, smul_eq_mul]
  have hb : Bᵀ *ᵥ (fun i => qs'[i].offB) = fun i => qs[i].offB := by
    funext j
    have e : (Bᵀ *ᵥ fun i => qs'[i].offB) j = ∑ i with E i = j, w i * qs'[i].offB := by
      rw [Finset.sum_filter]
      simp only [mulVec, dotProduct, transpose_apply, hBd, of_apply, ite_mul, zero_mul]
    rw [e]
    have h0 := (pos (hvi j)).ne'
    rcases hE j with ⟨i, h1, h2⟩ | ⟨N, a, v, s, n, u, h1, h2, h3, h4⟩
    · have : Finset.univ.filter (fun i => E i = j) = {i} := by ext i'; simp [h1]
      rw [this, Finset.sum_singleton, hw]; dsimp only
      rw [ej i j ((h1 i).2 rfl), h2, div_self h0, one_mul]
    · have hj : (fun i => w i * qs'[i].offB) = fun i => w i * qs'[i].offB := rfl
      have : ∀ i ∈ Finset.univ.filter (fun i => E i = j), w i * qs'[i].offB =
          (-1 / Real.sqrt N / s) * ∑ k, u i k := by
        intro i hi
        have hi := (Finset.mem_filter.1 hi).2
        have h0' := (pos (hvi' i)).ne'
        have hs : s ≠ 0 := by
          have := hvi j
          rw [h1] at this
          exact (lt_trans (by norm_num) this.2).ne'
        rw [hw]; dsimp only
        rw [ej i j hi]
        rw [h1] at h0 ⊢
        rw [h2 i hi] at h0' ⊢
        simp only [QoI.size] at h0 h0' ⊢
        simp only [QoI.offB]
        rw [← Finset.sum_div]
        field_simp
      rw [Finset.sum_congr rfl this, ← Finset.mul_sum, h4, h1]
      simp only [QoI.offB]
      rw [← Finset.sum_div]
      ring
  have h1 := lwp_typed qs hne hv m S none α
  have h2 := lwp_typed qs' hne' hv' m S none α
  rw [hAB] at h2
  rw [← hb, ← mulVec_zero Bᵀ] at h1
  simp only [Option.map_none, Option.getD_none] at h1 h2
  obtain ⟨e1, e2, e3, e4⟩ := branches_iso hiso A m S (fun i => qs'[i].offB) 0 α
  refine ⟨_, _, h1, h2, ?_, fun ms hms => ?_⟩
  · rw [updated_cov_attrs, updated_cov_attrs, upF_iso hiso]
  · exact solveRun_pair (locals_typed ..) (locals_typed ..) e1 e2 e3 e4 ms hms ⟨none, none, none, none, none, none⟩

/-- Two entries for one quantity. -/
theorem C165_two (N N' : ℕ) (hN : 0 < N) (hN' : 0 < N') (a : Fin p → ℝ) (v : Fin N → ℝ) (v' : Fin N' → ℝ) (s : ℝ)
    (hs : 1 / 10 ^ 14 < s) (m : Fin p → ℝ) (S : Matrix (Fin p) (Fin p) ℝ) (α : ℝ) :
    ∃ P P', Api.lwp [.repeated (N + N') a (Fin.append v v') s] m S none α = .ok P ∧
      Api.lwp [.repeated N a v s, .repeated N' a v' s] m S none α = .ok P' ∧
      P'.updated_cov = P.updated_cov ∧ ∀ ms : List String, (∀ m ∈ ms, m ∈ solveMethods) →
        (P'.solveRun ms).1 = (P.solveRun ms).1 ∧ (P'.solveRun ms).2.solved = (P.solveRun ms).2.solved := by
  refine C165_pooled (qs := [.repeated (N + N') a (Fin.append v v') s])
    (qs' := [.repeated N a v s, .repeated N' a v' s]) (by simp) ?_ ?_ (fun _ => (0 : Fin 1)) ?_ m S α
  · intro q hq; rw [List.mem_singleton.1 hq]; exact ⟨by omega, hs⟩
  · intro q hq
    simp only [List.mem_cons, List.not_mem_nil, or_false] at hq
    rcases hq with rfl | rfl
    · exact ⟨hN, hs⟩
    · exact ⟨hN', hs⟩
  · intro j
    right
    obtain rfl : j = (0 : Fin 1) := Subsingleton.elim (α := Fin 1) _ _
    refine ⟨N + N', a, Fin.append v v', s, (Fin.cons N (Fin.cons N' Fin.elim0) : Fin 2 → ℕ),
      (Fin.cons v (Fin.cons v' fun i => i.elim0) : ∀ i : Fin 2, Fin ((Fin.cons N (Fin.cons N' Fin.elim0) : Fin 2 → ℕ) i) → ℝ),
      rfl, ?_, ?_, ?_⟩
    · show ∀ i : Fin 2, _
      exact Fin.forall_fin_two.2 ⟨fun _ => rfl, fun _ => rfl⟩
    · rw [Finset.filter_true_of_mem fun _ _ => rfl]
      exact Fin.sum_univ_two (f := (Fin.cons N (Fin.cons N' Fin.elim0) : Fin 2 → ℕ))
    · rw [Finset.filter_true_of_mem fun _ _ => rfl, Fin.sum_univ_add]
      simp only [Fin.append_left, Fin.append_right]
      exact Fin.sum_univ_two (f := fun i : Fin 2 => ∑ k, (Fin.cons v (Fin.cons v' fun i => i.elim0) :
        ∀ i : Fin 2, Fin ((Fin.cons N (Fin.cons N' Fin.elim0) : Fin 2 → ℕ) i) → ℝ) i k)

/-! ### Concrete cases -/

/-- `C165_pooled`: three measurements of one quantity in two entries, around an entry of another kind. -/
example : Pooled (p := 2) [.repeated 3 ![1, 2] ![1, 2, 6] 1, .stacked 2 !![1, 0; 0, 1] ![1, 1] ![1, 2]]
    [.repeated 1 ![1, 2] ![2] 1, .stacked 2 !![1, 0; 0, 1] ![1, 1] ![1, 2], .repeated 2 ![1, 2] ![3, 4] 1]
    (![0, 1, 0] : Fin 3 → Fin 2) := by
  refine Fin.forall_fin_two.2 ⟨Or.inr ?_, Or.inl ⟨(1 : Fin 3), by decide, rfl⟩⟩
  have hf : (Finset.univ.filter fun i : Fin 3 => (![0, 1, 0] : Fin 3 → Fin 2) i = 0) = {0, 2} := by decide
  refine ⟨3, ![1, 2], ![1, 2, 6], 1, (![1, 0, 2] : Fin 3 → ℕ),
    (Fin.cons ![2] (Fin.cons ![] (Fin.cons ![3, 4] fun i => i.elim0)) : ∀ i : Fin 3, Fin ((![1, 0, 2] : Fin 3 → ℕ) i) → ℝ),
    rfl, ?_, ?_, ?_⟩
  · intro i hi
    have : i ∈ (Finset.univ.filter fun i : Fin 3 => (![0, 1, 0] : Fin 3 → Fin 2) i = 0) := by simpa using hi
    rw [hf] at this
    simp only [Finset.mem_insert, Finset.mem_singleton] at this
    rcases this with rfl | rfl <;> rfl
  · exact (congrArg (fun s : Finset (Fin 3) => ∑ i ∈ s, (![1, 0, 2] : Fin 3 → ℕ) i) hf).trans (by decide)
  · refine (congrArg (fun s : Finset (Fin 3) => ∑ i ∈ s, ∑ k, (Fin.cons ![2] (Fin.cons ![] (Fin.cons ![3, 4]
      fun i => i.elim0)) : ∀ i : Fin 3, Fin ((![1, 0, 2] : Fin 3 → ℕ) i) → ℝ) i k) hf).trans ?_
    rw [Finset.sum_pair (by decide)]
    have e1 : ∑ k, (![2] : Fin 1 → ℝ) k + ∑ k, (![3, 4] : Fin 2 → ℝ) k = ∑ k, (![1, 2, 6] : Fin 3 → ℝ) k := by
      simp [Fin.sum_univ_succ]; norm_num
    exact e1

end Verif
