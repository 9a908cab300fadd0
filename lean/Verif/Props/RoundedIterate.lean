import Verif.Props.Iterate
import Mathlib.Analysis.InnerProductSpace.PiL2

/-!
# C141: rounding errors in `iterate`

A computed chain is one in which every update is the exact one up to an error of at most `ε`, measured by the
covariance.
-/

open Matrix

namespace Verif

variable {d p : ℕ}

/-- Distance measured by the covariance: `√((x - z)ᵀ S⁻¹ (x - z))`. -/
noncomputable def covDist (S : Matrix (Fin p) (Fin p) ℝ) (x z : Fin p → ℝ) : ℝ := Real.sqrt (mahal S x z)

/-- `w` is reached from `x` by updates with the rows `ks`, each one computed by `mud_sol` up to an error of `ε`. -/
inductive Computes (A : Matrix (Fin d) (Fin p) ℝ) (β η : Fin d → ℝ) (S : Matrix (Fin p) (Fin p) ℝ) (ε : ℝ) :
    (Fin p → ℝ) → List (Fin d) → (Fin p → ℝ) → Prop
  | nil (x : Fin p → ℝ) : Computes A β η S ε x [] x
  | cons {x x' z w : Fin p → ℝ} {k : Fin d} {ks : List (Fin d)}
      (exact : mudSol (.mat (Arr2.row (A k))) (some (.scal (β k))) (some (.scal (η k))) (some (.vec p x))
        (some ⟨p, p, S⟩) none = .ok (.vec p x'))
      (error : covDist S z x' ≤ ε) (rest : Computes A β η S ε z ks w) : Computes A β η S ε x (k :: ks) w

theorem covDist_eq (S : Matrix (Fin p) (Fin p) ℝ) (x z : Fin p → ℝ) : covDist S x z = Real.sqrt (qf S (x - z)) := rfl

theorem covDist_self (S : Matrix (Fin p) (Fin p) ℝ) (x : Fin p → ℝ) : covDist S x x = 0 := by
  simp [covDist_eq, qf]

/-- The square root of a positive definite form is a norm. -/
theorem sqrt_qf_add {S : Matrix (Fin p) (Fin p) ℝ} (hS : S.PosDef) (u v : Fin p → ℝ) :
    Real.sqrt (qf S (u + v)) ≤ Real.sqrt (qf S u) + Real.sqrt (qf S v) := by
  obtain ⟨B, hB⟩ := exists_factor hS.inv.posSemidef
  have h : ∀ e, Real.sqrt (qf S e) = ‖(WithLp.toLp 2 (B *ᵥ e) : EuclideanSpace ℝ (Fin p))‖ := by
    intro e
    rw [EuclideanSpace.norm_eq]
    congr 1
    rw [qf, hB, ← mulVec_mulVec, dot_mulVec_transpose, transpose_transpose]
    simp [dotProduct, pow_two]
  rw [h, h, h, mulVec_add, WithLp.toLp_add]
  exact norm_add_le _ _

theorem covDist_triangle {S : Matrix (Fin p) (Fin p) ℝ} (hS : S.PosDef) (x y z : Fin p → ℝ) :
    covDist S x z ≤ covDist S x y + covDist S y z := by
  rw [covDist_eq, covDist_eq, covDist_eq]
  have := sqrt_qf_add hS (x - y) (y - z)
  rwa [sub_add_sub_cancel] at this

theorem kstep_diff (S : Matrix (Fin p) (Fin p) ℝ) (a : Fin p → ℝ) (β : ℝ) (x z : Fin p → ℝ) :
    kstep S a β x - kstep S a β z = kmat S a *ᵥ (x - z) := by
  have h : β - a ⬝ᵥ x = (β - a ⬝ᵥ z) - a ⬝ᵥ (x - z) := by rw [dotProduct_sub]; ring
  rw [kmat_mulVec, kstep, kstep, h, sub_div, sub_smul]
  abel

theorem epochEnd_diff (S : Matrix (Fin p) (Fin p) ℝ) (A : Matrix (Fin d) (Fin p) ℝ) (c : Fin d → ℝ)
    (ks : List (Fin d)) (x z : Fin p → ℝ) :
    epochEnd S A c ks x - epochEnd S A c ks z = epochMat S A ks *ᵥ (x - z) := by
  induction ks generalizing x z with
  | nil => simp [epochEnd, epochPts, epochMat]
  | cons k ks ih => rw [epochEnd_cons, epochEnd_cons, ih, epochMat_cons, kstep_diff]

theorem scal_toCol (c : ℝ) : (NArr.scal c).toCol = Arr2.col ![c] := by
  simp only [NArr.toCol, Arr2.col, Arr2.mk_inj]
  ext i j
  fin_cases i
  rfl

theorem mudSol_kstep (A : Matrix (Fin d) (Fin p) ℝ) (β η : Fin d → ℝ) (S : Matrix (Fin p) (Fin p) ℝ) (k : Fin d)
    (x : Fin p → ℝ) :
    mudSol (.mat (Arr2.row (A k))) (some (.scal (β k))) (some (.scal (η k))) (some (.vec p x))
      (some ⟨p, p, S⟩) none = .ok (.vec p (kstep S (A k) ((η - β) k) x)) :=
  mudSol_row (A k) S (scal_toCol _) (scal_toCol _) (by simp [ndimOpt]) rfl

/-- One pass: the errors add up at most. -/
theorem computes_epoch {A : Matrix (Fin d) (Fin p) ℝ} {β η : Fin d → ℝ} {S : Matrix (Fin p) (Fin p) ℝ} (hS : S.PosDef)
    {ε : ℝ} {x w : Fin p → ℝ} {ks : List (Fin d)} (h : Computes A β η S ε x ks w) :
    covDist S w (epochEnd S A (η - β) ks x) ≤ ks.length * ε := by
  induction h with
  | nil x => simp [epochEnd, epochPts, covDist_self]
  | @cons x x' z w k ks hx he _ ih =>
    rw [mudSol_kstep] at hx
    cases hx
    rw [epochEnd_cons]
    have h1 := covDist_triangle hS w (epochEnd S A (η - β) ks z)
      (epochEnd S A (η - β) ks (kstep S (A k) ((η - β) k) x))
    have h2 : covDist S (epochEnd S A (η - β) ks z) (epochEnd S A (η - β) ks (kstep S (A k) ((η - β) k) x)) ≤
        covDist S z (kstep S (A k) ((η - β) k) x) := by
      rw [covDist_eq, covDist_eq, epochEnd_diff]
      exact Real.sqrt_le_sqrt (qf_epoch_le hS ks _)
    rw [List.length_cons]
    push_cast
    linarith

theorem epochEnd_append (S : Matrix (Fin p) (Fin p) ℝ) (A : Matrix (Fin d) (Fin p) ℝ) (c : Fin d → ℝ)
    (ks ls : List (Fin d)) (x : Fin p → ℝ) :
    epochEnd S A c (ks ++ ls) x = epochEnd S A c ls (epochEnd S A c ks x) := by
  induction ks generalizing x with
  | nil => rfl
  | cons k ks ih => rw [List.cons_append, epochEnd_cons, epochEnd_cons, ih]

theorem epochEnd_iter (S : Matrix (Fin p) (Fin p) ℝ) (A : Matrix (Fin d) (Fin p) ℝ) (c : Fin d → ℝ)
    (ks : List (Fin d)) (n : ℕ) (x : Fin p → ℝ) :
    epochEnd S A c (List.replicate n ks).flatten x = (epochEnd S A c ks)^[n] x := by
  induction n generalizing x with
  | zero => rfl
  | succ n ih => rw [List.replicate_succ, List.flatten_cons, epochEnd_append, ih, Function.iterate_succ_apply]

/-- The last point of `iterate`. -/
theorem iterate_last {A : Matrix (Fin d) (Fin p) ℝ} {S : Matrix (Fin p) (Fin p) ℝ} {b y mean : NArr} {β η : Fin d → ℝ}
    {m : Fin p → ℝ} (hb : IsVec b β) (hy : IsVec y η) (hm : IsVec mean m) {idx : Option (List ℤ)} {ks : List (Fin d)}
    (h : Visits d idx ks) {n : ℕ} (hn : 0 < n) :
    ∃ chain z, iterate ⟨d, p, A⟩ b y mean (some ⟨p, p, S⟩) n idx = .ok chain ∧ chain.getLast? = some z ∧
      IsVec z (epochEnd S A (η - β) (List.replicate n ks).flatten m) := by
  obtain ⟨chain, h1, h2⟩ := iterate_eval S A hb hy h hm n
  have e : (max (n : ℤ) 1).toNat = n := by omega
  rw [e] at h2
  obtain ⟨k, rfl⟩ : ∃ k, n = k + 1 := ⟨n - 1, by omega⟩
  have hne : chain ≠ [] := by
    rintro rfl
    have := h2.length_eq
    rw [iterPts_length] at this
    simp at this
  refine ⟨chain, chain.getLast hne, h1, List.getLast?_eq_some_getLast hne, ?_⟩
  have h3 := forall₂_last h2 hm
  rw [iterPts_last, ← epochEnd_iter] at h3
  rwa [List.getLastD_eq_getLast?, List.getLast?_eq_some_getLast hne] at h3

/-- **C141.** If every update of `iterate` is computed up to an error `ε`, the result is within `ε` times the number of
updates of the exact result, for every system, consistent or not. -/
theorem C141_linear {A : Matrix (Fin d) (Fin p) ℝ} {S : Matrix (Fin p) (Fin p) ℝ} (hS : S.PosDef) {b y mean : NArr}
    {β η : Fin d → ℝ} {m : Fin p → ℝ} (hb : IsVec b β) (hy : IsVec y η) (hm : IsVec mean m) {idx : Option (List ℤ)}
    {ks : List (Fin d)} (h : Visits d idx ks) {n : ℕ} (hn : 0 < n) {ε : ℝ} {w : Fin p → ℝ}
    (hw : Computes A β η S ε m (List.replicate n ks).flatten w) :
    ∃ chain z, ∃ x : Fin p → ℝ, iterate ⟨d, p, A⟩ b y mean (some ⟨p, p, S⟩) n idx = .ok chain ∧
      chain.getLast? = some z ∧ IsVec z x ∧ covDist S w x ≤ n * ks.length * ε := by
  obtain ⟨chain, z, h1, h2, h3⟩ := iterate_last (A := A) (S := S) hb hy hm h hn
  refine ⟨chain, z, _, h1, h2, h3, ?_⟩
  have := computes_epoch hS hw
  simpa using this

theorem Computes.split {A : Matrix (Fin d) (Fin p) ℝ} {β η : Fin d → ℝ} {S : Matrix (Fin p) (Fin p) ℝ} {ε : ℝ}
    {x w : Fin p → ℝ} {ks ls : List (Fin d)} (h : Computes A β η S ε x (ks ++ ls) w) :
    ∃ z, Computes A β η S ε x ks z ∧ Computes A β η S ε z ls w := by
  induction ks generalizing x with
  | nil => exact ⟨x, .nil x, h⟩
  | cons k ks ih =>
    cases h with
    | cons h1 h2 h3 =>
      obtain ⟨z, h4, h5⟩ := ih h3
      exact ⟨z, .cons h1 h2 h4, h5⟩

theorem inRange_all {A : Matrix (Fin d) (Fin p) ℝ} {S : Matrix (Fin p) (Fin p) ℝ} (hS : S.PosDef)
    (hA : ∀ e, A *ᵥ e = 0 → e = 0) (e : Fin p → ℝ) : InRange S A e := by
  have hG : (Aᵀ * A).PosDef := by
    have := Matrix.PosDef.conjTranspose_mul_self A (by
      intro u v huv
      have := hA (u - v) (by rw [mulVec_sub]; exact sub_eq_zero.2 huv)
      exact sub_eq_zero.1 this)
    rwa [conjTranspose_eq_transpose_of_trivial] at this
  refine ⟨A *ᵥ ((Aᵀ * A)⁻¹ *ᵥ (S⁻¹ *ᵥ e)), ?_⟩
  rw [mulVec_mulVec, mulVec_mulVec, mulVec_mulVec, Matrix.mul_assoc S, Matrix.mul_assoc S,
    mul_nonsing_inv _ (posDef_isUnit_det hG), Matrix.mul_one, mul_nonsing_inv _ (posDef_isUnit_det hS), one_mulVec]

/-- **C141**, the errors do not accumulate: if the solution of the system is unique and every row is visited, there is
a rate `ρ < 1` such that after any number `n` of computed epochs the distance to the solution is at most `ρⁿ` times the
initial one plus `ε len(idx) / (1 - ρ)`. -/
theorem C141_bounded {A : Matrix (Fin d) (Fin p) ℝ} {S : Matrix (Fin p) (Fin p) ℝ} (hS : S.PosDef) {β η : Fin d → ℝ}
    (hA : ∀ e, A *ᵥ e = 0 → e = 0) {xs : Fin p → ℝ} (hxs : A *ᵥ xs + β = η) {ks : List (Fin d)}
    (hall : ∀ k, k ∈ ks) :
    ∃ ρ, 0 ≤ ρ ∧ ρ < 1 ∧ ∀ (ε : ℝ) (n : ℕ) (m w : Fin p → ℝ), 0 ≤ ε →
      Computes A β η S ε m (List.replicate n ks).flatten w →
      covDist S w xs ≤ ρ ^ n * covDist S m xs + ks.length * ε / (1 - ρ) := by
  obtain ⟨r, hr0, hr1, hr⟩ := epoch_contract (A := A) hS hall
  have hρ1 : Real.sqrt r < 1 := by
    rw [← Real.sqrt_one]
    exact Real.sqrt_lt_sqrt hr0 hr1
  have hρ0 := Real.sqrt_nonneg r
  refine ⟨Real.sqrt r, hρ0, hρ1, fun ε n m w hε => ?_⟩
  have hs : A *ᵥ xs = η - β := by rw [← hxs]; abel
  set L : ℝ := ks.length * ε with hL
  have hL0 : 0 ≤ L := by positivity
  have hq : 0 < 1 - Real.sqrt r := by linarith
  have step : ∀ m, covDist S (epochEnd S A (η - β) ks m) xs ≤ Real.sqrt r * covDist S m xs := by
    intro m
    rw [covDist_eq, covDist_eq, epochEnd_sub S A hs, ← Real.sqrt_mul hr0]
    exact Real.sqrt_le_sqrt (hr _ (inRange_all hS hA _))
  induction n generalizing w with
  | zero =>
    intro h
    cases h
    rw [pow_zero, one_mul]
    have : 0 ≤ L / (1 - Real.sqrt r) := div_nonneg hL0 hq.le
    linarith
  | succ n ih =>
    intro h
    rw [List.replicate_succ', List.flatten_append, List.flatten_singleton] at h
    obtain ⟨z, h1, h2⟩ := h.split
    have h3 := mul_le_mul_of_nonneg_left (ih z h1) hρ0
    have h4 := covDist_triangle hS w (epochEnd S A (η - β) ks z) xs
    have h5 := computes_epoch hS h2
    have h6 := step z
    have h7 : Real.sqrt r * (L / (1 - Real.sqrt r)) = L / (1 - Real.sqrt r) - L := by
      field_simp
      ring
    rw [mul_add, h7, ← mul_assoc, ← pow_succ'] at h3
    linarith

/-- The chain without errors is a computed chain. -/
theorem computes_exact (A : Matrix (Fin d) (Fin p) ℝ) (β η : Fin d → ℝ) (S : Matrix (Fin p) (Fin p) ℝ) {ε : ℝ}
    (hε : 0 ≤ ε) (x : Fin p → ℝ) (ks : List (Fin d)) : Computes A β η S ε x ks (epochEnd S A (η - β) ks x) := by
  induction ks generalizing x with
  | nil => exact .nil x
  | cons k ks ih =>
    rw [epochEnd_cons]
    exact .cons (mudSol_kstep A β η S k x) (by rw [covDist_self]; exact hε) (ih _)

/-- **C141**, the linear bound is attained when the solution is not unique: with the single row `[1 0]`, the errors
along the second axis are never corrected, and after `n` epochs the distance to the exact result is `n ε`. -/
theorem C141_drift (n : ℕ) (hn : 0 < n) {ε : ℝ} (hε : 0 ≤ ε) :
    ∃ w, Computes !![1, 0] ![0] ![1] 1 ε ![0, 0] (List.replicate n [(0 : Fin 1)]).flatten w ∧
      ∃ chain z, ∃ x : Fin 2 → ℝ, iterate ⟨1, 2, !![1, 0]⟩ (.vec 1 ![0]) (.vec 1 ![1]) (.vec 2 ![0, 0])
        (some ⟨2, 2, 1⟩) n none = .ok chain ∧ chain.getLast? = some z ∧ IsVec z x ∧ covDist 1 w x = n * ε := by
  have key : ∀ x : Fin 2 → ℝ, kstep 1 ((!![1, 0] : Matrix (Fin 1) (Fin 2) ℝ) 0) ((![1] - ![0] : Fin 1 → ℝ) 0) x =
      ![1, x 1] := by
    intro x
    ext i
    fin_cases i <;> simp [kstep, dotProduct, Fin.sum_univ_two]
  have hc : ∀ (n : ℕ) (t s : ℝ), Computes !![1, 0] ![0] ![1] 1 ε ![t, s] (List.replicate n [(0 : Fin 1)]).flatten
      ![if n = 0 then t else 1, s + n * ε] := by
    intro n
    induction n with
    | zero =>
      intro t s
      simpa using Computes.nil (A := (!![1, 0] : Matrix (Fin 1) (Fin 2) ℝ)) (β := ![0]) (η := ![1]) (S := 1) (ε := ε)
        ![t, s]
    | succ n ih =>
      intro t s
      rw [List.replicate_succ, List.flatten_cons, List.singleton_append]
      have h := ih 1 (s + ε)
      rw [ite_self, add_assoc, show ε + n * ε = ((n + 1 : ℕ) : ℝ) * ε by push_cast; ring] at h
      rw [if_neg (by omega)]
      refine .cons (mudSol_kstep _ _ _ _ _ _) ?_ h
      rw [key]
      simp [covDist_eq, qf, dotProduct, Fin.sum_univ_two, Real.sqrt_mul_self hε]
  refine ⟨_, hc n 0 0, ?_⟩
  obtain ⟨chain, z, h1, h2, h3⟩ := iterate_last (A := (!![1, 0] : Matrix (Fin 1) (Fin 2) ℝ)) (S := 1) (b := .vec 1 ![0])
    (y := .vec 1 ![1]) (mean := .vec 2 ![0, 0]) (Or.inl rfl) (Or.inl rfl) (Or.inl rfl) (idx := none) (ks := [0])
    (by simp only [Visits]; rfl) hn
  refine ⟨chain, z, _, h1, h2, h3, ?_⟩
  have he : ∀ (n : ℕ) (t s : ℝ), epochEnd 1 (!![1, 0] : Matrix (Fin 1) (Fin 2) ℝ) (![1] - ![0])
      (List.replicate n [(0 : Fin 1)]).flatten ![t, s] = ![if n = 0 then t else 1, s] := by
    intro n
    induction n with
    | zero => intro t s; simp [epochEnd, epochPts]
    | succ n ih =>
      intro t s
      rw [List.replicate_succ, List.flatten_cons, List.singleton_append, epochEnd_cons, key]
      have := ih 1 s
      rw [ite_self] at this
      simpa using this
  rw [he]
  have hnn : 0 ≤ (n : ℝ) * ε := by positivity
  simp [covDist_eq, qf, dotProduct, Fin.sum_univ_two, Real.sqrt_mul_self hnn]

/-- C141 on the problem of `Props/Iterate.lean`, whose solution `(1, 2)` is unique: five epochs over the rows 2, 0 and
1, computed in any way with errors up to `10⁻¹²`. -/
example {w : Fin 2 → ℝ}
    (hw : Computes !![1, 0; 1, 1; 0, 2] ![1, 0, 0] ![2, 3, 4] !![2, 1; 1, 3] (1 / 10 ^ 12) ![0, 0]
      (List.replicate 5 [(2 : Fin 3), 0, 1]).flatten w) :
    ∃ chain z, ∃ x : Fin 2 → ℝ, iterate ⟨3, 2, !![1, 0; 1, 1; 0, 2]⟩ (.vec 3 ![1, 0, 0]) (.vec 3 ![2, 3, 4])
      (.vec 2 ![0, 0]) (some ⟨2, 2, !![2, 1; 1, 3]⟩) 5 (some [2, 0, -2]) = .ok chain ∧ chain.getLast? = some z ∧
      IsVec z x ∧ covDist !![2, 1; 1, 3] w x ≤ 15 / 10 ^ 12 := by
  have h : Visits 3 (some [2, 0, -2]) [2, 0, 1] := by simp [Visits]
  obtain ⟨chain, z, x, h1, h2, h3, h4⟩ := C141_linear (posDef_fin_two (by norm_num) (by norm_num))
    (b := .vec 3 ![1, 0, 0]) (y := .vec 3 ![2, 3, 4]) (mean := .vec 2 ![0, 0]) (Or.inl rfl) (Or.inl rfl) (Or.inl rfl)
    h (n := 5) (by norm_num) hw
  refine ⟨chain, z, x, by exact_mod_cast h1, h2, h3, h4.trans (le_of_eq ?_)⟩
  norm_num

/-- Such a computed chain exists. -/
example : ∃ w : Fin 2 → ℝ, Computes !![1, 0; 1, 1; 0, 2] ![1, 0, 0] ![2, 3, 4] !![2, 1; 1, 3] (1 / 10 ^ 12) ![0, 0]
    (List.replicate 5 [(2 : Fin 3), 0, 1]).flatten w :=
  ⟨_, computes_exact _ _ _ _ (by norm_num) _ _⟩

/-- The hypotheses of `C141_bounded` hold for it. -/
example : ∃ ρ, 0 ≤ ρ ∧ ρ < 1 ∧ ∀ (ε : ℝ) (n : ℕ) (m w : Fin 2 → ℝ), 0 ≤ ε →
    Computes !![1, 0; 1, 1; 0, 2] ![1, 0, 0] ![2, 3, 4] !![2, 1; 1, 3] ε m
      (List.replicate n [(2 : Fin 3), 0, 1]).flatten w →
    covDist !![2, 1; 1, 3] w ![1, 2] ≤ ρ ^ n * covDist !![2, 1; 1, 3] m ![1, 2] + 3 * ε / (1 - ρ) := by
  refine C141_bounded (ks := [(2 : Fin 3), 0, 1]) (posDef_fin_two (by norm_num) (by norm_num)) ?_ ?_ (by decide)
  · intro e he
    have h0 := congrFun he 0
    have h2 := congrFun he 2
    simp [mulVec, dotProduct, Fin.sum_univ_two] at h0 h2
    ext i
    fin_cases i <;> simp [h0, h2]
  · ext i; fin_cases i <;> simp [vecHead, vecTail] <;> norm_num

end Verif
