import Verif.Lemmas.IterateRun

/-!
# Properties C16–C19: `performEpoch` and `iterate`

`b`, `y` and the initial mean may be 1-D arrays or columns (`IsVec`); `idx` is any list of
(possibly negative) row numbers or `None` (`Visits`).
-/

open Matrix

namespace Verif

variable {d p : ℕ}

/-! ## C16 -/

/-- An epoch returns the initial mean followed by one point per visited row; each point is the
`mud_sol` of that single row with the previous point as initial mean, and satisfies the row's
equation unless the covariance annihilates the row. -/
theorem C16_epoch (A : Matrix (Fin d) (Fin p) ℝ) (S : Matrix (Fin p) (Fin p) ℝ) {b y mean : NArr}
    {β η : Fin d → ℝ} {m : Fin p → ℝ} (hb : IsVec b β) (hy : IsVec y η) (hm : IsVec mean m)
    {idx : Option (List ℤ)} {ks : List (Fin d)} (h : Visits d idx ks) :
    ∃ pts : List (Fin p → ℝ),
      performEpoch ⟨d, p, A⟩ b y mean (some ⟨p, p, S⟩) idx = .ok (mean :: pts.map (NArr.vec p)) ∧
      pts.length = ks.length ∧
      ∀ (j : ℕ) (k : Fin d) (prev next : Fin p → ℝ), ks[j]? = some k → (m :: pts)[j]? = some prev → pts[j]? = some next →
        mudSol (.mat (Arr2.row (A k))) (some (.scal (β k))) (some (.scal (η k)))
          (some (.vec p prev)) (some ⟨p, p, S⟩) none = .ok (.vec p next) ∧
        (A k ⬝ᵥ (S *ᵥ A k) ≠ 0 → A k ⬝ᵥ next + β k = η k) := by
  refine ⟨_, performEpoch_eval S A hb hy h hm, epochPts_length .., ?_⟩
  have key : ∀ (ks : List (Fin d)) (m : Fin p → ℝ) (j : ℕ) (k : Fin d) (prev next : Fin p → ℝ),
      ks[j]? = some k → (m :: epochPts S A (η - β) m ks)[j]? = some prev →
      (epochPts S A (η - β) m ks)[j]? = some next → next = kstep S (A k) (η k - β k) prev := by
    intro ks
    induction ks with
    | nil => intro m j k prev next h; simp at h
    | cons i ks ih =>
      intro m j k prev next h1 h2 h3
      cases j with
      | zero =>
        simp only [List.getElem?_cons_zero, Option.some.injEq, epochPts] at h1 h2 h3
        subst h1 h2 h3; rfl
      | succ j =>
        simp only [List.getElem?_cons_succ, epochPts] at h1 h2 h3
        exact ih _ j k prev next h1 h2 h3
  intro j k prev next h1 h2 h3
  have hn := key ks m j k prev next h1 h2 h3
  subst hn
  refine ⟨mudSol_row (A k) S ?_ ?_ (by simp [ndimOpt]) rfl, fun hne => ?_⟩
  · simp only [NArr.toCol, Arr2.col, Arr2.mk_inj]
    ext i j; fin_cases i; rfl
  · simp only [NArr.toCol, Arr2.col, Arr2.mk_inj]
    ext i j; fin_cases i; rfl
  · rw [kstep_hits _ _ _ _ hne]; ring

/-- A missing covariance is the identity. -/
theorem C16_default_cov (A : Matrix (Fin d) (Fin p) ℝ) (b y mean : NArr)
    (idx : Option (List ℤ)) :
    performEpoch ⟨d, p, A⟩ b y mean none idx =
      performEpoch ⟨d, p, A⟩ b y mean (some ⟨p, p, 1⟩) idx := by
  have key : ∀ (l : List ℤ) (mean : NArr), epochLoop ⟨d, p, A⟩ b y none mean l =
      epochLoop ⟨d, p, A⟩ b y (some ⟨p, p, 1⟩) mean l := by
    intro l
    induction l with
    | nil => intro mean; rfl
    | cons i l ih =>
      intro mean
      simp only [epochLoop]
      congr 1; funext k; congr 1; funext bi; congr 1; funext yi
      have : mudSol (.mat (Arr2.row fun j => A k j)) (some bi) (some yi) (some mean) none none =
        mudSol (.mat (Arr2.row fun j => A k j)) (some bi) (some yi) (some mean)
          (some ⟨p, p, 1⟩) none := rfl
      rw [this]
      simp only [ih]
  simp only [performEpoch, key]

/-! ## C17 -/

private theorem epoch_ne_nil {A : Arr2} {b y m : NArr} {cov : Option Arr2} {idx : Option (List ℤ)}
    {e : List NArr} (h : performEpoch A b y m cov idx = .ok e) : ∃ s, e.getLast? = some s := by
  unfold performEpoch at h
  dsimp only at h
  generalize epochLoop A b y cov m _ = r at h
  cases r with
  | error er => cases h
  | ok r =>
    injection h with h
    subst h
    exact ⟨_, List.getLast?_cons⟩

/-- `es` is a sequence of epochs, each started at the last point of the one before. -/
def EpochSeq (A : Arr2) (b y : NArr) (cov : Option Arr2) (idx : Option (List ℤ)) :
    NArr → List (List NArr) → Prop
  | _, [] => True
  | s, e :: es => performEpoch A b y s cov idx = .ok e ∧
      ∃ t, e.getLast? = some t ∧ EpochSeq A b y cov idx t es

private theorem more_seq {A : Arr2} {b y m₀ : NArr} {cov : Option Arr2} {idx : Option (List ℤ)}
    (n : ℕ) {chain out : List NArr} {t : NArr} (ht : chain.getLast? = some t)
    (h : iterateMore A b y m₀ cov idx n chain = .ok out) :
    ∃ es, es.length = n ∧ out = chain ++ es.flatten ∧ EpochSeq A b y cov idx t es := by
  induction n generalizing chain t with
  | zero => injection h with h; exact ⟨[], rfl, by simp [h], trivial⟩
  | succ n ih =>
    rw [iterateMore] at h
    have hl : lastOr chain m₀ = t := by
      rw [lastOr, List.getLastD_eq_getLast?, ht]; rfl
    rw [hl] at h
    cases he : performEpoch A b y t cov idx with
    | error er => rw [he] at h; cases h
    | ok e =>
      rw [he, Py.ok_bind] at h
      obtain ⟨s, hs⟩ := epoch_ne_nil he
      obtain ⟨es, h1, h2, h3⟩ := ih (t := s) (by rw [List.getLast?_append, hs]; rfl) h
      exact ⟨e :: es, by simp [h1], by rw [h2]; simp, he, s, hs, h3⟩

/-- Whatever `iterate(num_epochs=n)` returns is the concatenation of `max(n, 1)` epochs, the
first started at the initial mean and each further one at the last point of the one before. -/
theorem C17_chain_of_epochs (A : Arr2) (b y m : NArr) (cov : Option Arr2) (n : ℤ)
    (idx : Option (List ℤ)) (chain : List NArr) (h : iterate A b y m cov n idx = .ok chain) :
    ∃ es, (es.length : ℤ) = max n 1 ∧ chain = es.flatten ∧ EpochSeq A b y cov idx m es := by
  unfold iterate at h
  cases he : performEpoch A b y m cov idx with
  | error er => rw [he] at h; cases h
  | ok e =>
    rw [he, Py.ok_bind] at h
    obtain ⟨s, hs⟩ := epoch_ne_nil he
    obtain ⟨es, h1, h2, h3⟩ := more_seq _ hs h
    exact ⟨e :: es, by simp only [List.length_cons, h1]; push_cast; omega, by rw [h2]; simp, he, s,
      hs, h3⟩

/-- On well-shaped input `iterate` succeeds and the chain has `max(n, 1) * (len(idx) + 1)`
points. -/
theorem C17_length (A : Matrix (Fin d) (Fin p) ℝ) (S : Matrix (Fin p) (Fin p) ℝ) {b y mean : NArr}
    {β η : Fin d → ℝ} {m : Fin p → ℝ} (hb : IsVec b β) (hy : IsVec y η) (hm : IsVec mean m)
    {idx : Option (List ℤ)} {ks : List (Fin d)} (h : Visits d idx ks) (n : ℤ) :
    ∃ chain, iterate ⟨d, p, A⟩ b y mean (some ⟨p, p, S⟩) n idx = .ok chain ∧
      (chain.length : ℤ) = max n 1 * (ks.length + 1) := by
  obtain ⟨chain, h1, h2⟩ := iterate_eval S A hb hy h hm n
  refine ⟨chain, h1, ?_⟩
  rw [h2.length_eq, iterPts_length]
  push_cast
  rw [Int.toNat_of_nonneg (by omega)]

/-! ## C18 -/

private theorem mem_epochPts {A : Matrix (Fin d) (Fin p) ℝ} {S : Matrix (Fin p) (Fin p) ℝ}
    (hS : S.PosDef) {c : Fin d → ℝ} {xs : Fin p → ℝ} (hs : A *ᵥ xs = c) (ks : List (Fin d))
    (x : Fin p → ℝ) :
    List.Pairwise (fun u v => qf S (v - xs) ≤ qf S (u - xs)) (x :: epochPts S A c x ks) := by
  induction ks generalizing x with
  | nil => simp [epochPts]
  | cons k ks ih =>
    have hk : c k = A k ⬝ᵥ xs := by rw [← hs]; rfl
    have h1 : qf S (kstep S (A k) (c k) x - xs) ≤ qf S (x - xs) := by
      rw [hk, kstep_sub]; exact qf_kmat_le hS _ _
    have h2 := ih (kstep S (A k) (c k) x)
    rw [epochPts, List.pairwise_cons]
    refine ⟨fun v hv => ?_, h2⟩
    rcases List.mem_cons.1 hv with rfl | hv
    · exact h1
    · exact ((List.pairwise_cons.1 h2).1 v hv).trans h1

private theorem mem_iterPts {A : Matrix (Fin d) (Fin p) ℝ} {S : Matrix (Fin p) (Fin p) ℝ}
    (hS : S.PosDef) {c : Fin d → ℝ} {xs : Fin p → ℝ} (hs : A *ᵥ xs = c) (ks : List (Fin d))
    (n : ℕ) (x : Fin p → ℝ) :
    List.Pairwise (fun u v => qf S (v - xs) ≤ qf S (u - xs)) (iterPts S A c ks n x) ∧
    ∀ v ∈ iterPts S A c ks n x, qf S (v - xs) ≤ qf S (x - xs) := by
  induction n generalizing x with
  | zero => simp [iterPts]
  | succ n ih =>
    have h1 := mem_epochPts hS hs ks x
    obtain ⟨h2, h3⟩ := ih (epochEnd S A c ks x)
    have hx : ∀ u ∈ x :: epochPts S A c x ks,
        qf S (epochEnd S A c ks x - xs) ≤ qf S (u - xs) := by
      intro u hu
      exact pairwise_last (R := fun u v => qf S (v - xs) ≤ qf S (u - xs)) (fun _ => le_rfl) _ _ h1 u hu
    have hend : qf S (epochEnd S A c ks x - xs) ≤ qf S (x - xs) := hx x (by simp)
    rw [iterPts]
    refine ⟨List.pairwise_append.2 ⟨h1, h2, fun u hu v hv => (h3 v hv).trans (hx u hu)⟩, ?_⟩
    intro v hv
    rcases List.mem_append.1 hv with hv | hv
    · rcases List.mem_cons.1 hv with rfl | hv
      · exact le_rfl
      · exact (List.pairwise_cons.1 h1).1 v hv
    · exact (h3 v hv).trans hend

/-- The distance to every exact solution never increases along the chain, from any point to
any later one. -/
theorem C18_monotone (A : Matrix (Fin d) (Fin p) ℝ) (S : Matrix (Fin p) (Fin p) ℝ) (hS : S.PosDef)
    {b y mean : NArr} {β η : Fin d → ℝ} {m : Fin p → ℝ} (hb : IsVec b β) (hy : IsVec y η)
    (hm : IsVec mean m) {idx : Option (List ℤ)} {ks : List (Fin d)} (h : Visits d idx ks) (n : ℤ) :
    ∃ chain pts, iterate ⟨d, p, A⟩ b y mean (some ⟨p, p, S⟩) n idx = .ok chain ∧
      List.Forall₂ IsVec chain pts ∧ pts.head? = some m ∧
      ∀ xs, A *ᵥ xs + β = η → List.Pairwise (fun u v => mahal S v xs ≤ mahal S u xs) pts := by
  obtain ⟨chain, h1, h2⟩ := iterate_eval S A hb hy h hm n
  refine ⟨chain, _, h1, h2, ?_, fun xs hxs => ?_⟩
  · obtain ⟨k, hk⟩ : ∃ k, (max n 1).toNat = k + 1 := ⟨(max n 1).toNat - 1, by omega⟩
    rw [hk]; rfl
  · exact (mem_iterPts hS (by rw [← hxs]; abel) ks _ m).1

/-- A chain started at a solution stays there. -/
theorem C18_stationary (A : Matrix (Fin d) (Fin p) ℝ) (S : Matrix (Fin p) (Fin p) ℝ)
    (hS : S.PosDef) {b y mean : NArr} {β η : Fin d → ℝ} {m : Fin p → ℝ} (hb : IsVec b β)
    (hy : IsVec y η) (hm : IsVec mean m) {idx : Option (List ℤ)} {ks : List (Fin d)}
    (h : Visits d idx ks) (n : ℤ) (hsol : A *ᵥ m + β = η) :
    ∃ chain, iterate ⟨d, p, A⟩ b y mean (some ⟨p, p, S⟩) n idx = .ok chain ∧
      ∀ x ∈ chain, IsVec x m := by
  obtain ⟨chain, h1, h2⟩ := iterate_eval S A hb hy h hm n
  refine ⟨chain, h1, fun x hx => ?_⟩
  have h3 := (mem_iterPts (A := A) (c := η - β) hS (xs := m) (by rw [← hsol]; abel) ks
    (max n 1).toNat m).2
  obtain ⟨i, hi, rfl⟩ := List.mem_iff_getElem.1 hx
  have hi' : i < (iterPts S A (η - β) ks (max n 1).toNat m).length := h2.length_eq ▸ hi
  have h4 := h3 _ (List.getElem_mem hi')
  have h5 : (iterPts S A (η - β) ks (max n 1).toNat m)[i] = m := by
    by_contra hne
    have := qf_pos hS (sub_ne_zero.2 hne)
    rw [sub_self] at h4
    simp only [qf, mulVec_zero, dotProduct_zero] at h4 this
    linarith
  have h6 := (List.forall₂_iff_get.1 h2).2 i hi hi'
  simpa [h5] using h6

/-! ## C19 -/

/-- The last point of `iterate(num_epochs=n)` converges, with a geometric rate, to
`mud_sol(A, b, y, mean, cov)`: the data-consistent point of the whole system nearest to the
initial mean. -/
theorem C19_converges (A : Matrix (Fin d) (Fin p) ℝ) (S : Matrix (Fin p) (Fin p) ℝ)
    (hS : S.PosDef) (β η : Fin d → ℝ) (m : Fin p → ℝ) (hcons : ∃ x₀, A *ᵥ x₀ + β = η)
    {idx : Option (List ℤ)} {ks : List (Fin d)} (h : Visits d idx ks) (hall : ∀ k, k ∈ ks) :
    ∃ (xM : Fin p → ℝ) (f : ℕ → Fin p → ℝ) (ρ : ℝ),
      mudSol (.mat ⟨d, p, A⟩) (some (.vec d β)) (some (.vec d η)) (some (.vec p m))
        (some ⟨p, p, S⟩) (some ⟨d, d, 1⟩) = .ok (.vec p xM) ∧
      A *ᵥ xM + β = η ∧
      (∀ b y mean : NArr, IsVec b β → IsVec y η → IsVec mean m → ∀ n : ℕ, ∃ chain z,
        iterate ⟨d, p, A⟩ b y mean (some ⟨p, p, S⟩) n idx = .ok chain ∧
          chain.getLast? = some z ∧ IsVec z (f n)) ∧
      Filter.Tendsto f Filter.atTop (nhds xM) ∧
      0 ≤ ρ ∧ ρ < 1 ∧ ∀ n, mahal S (f n) xM ≤ ρ ^ n * mahal S m xM := by
  obtain ⟨xM, hx, hAx⟩ := C01_mud_reproduces_attainable A β η m S hS 1 1 one_pos hcons
  have hxF := returns_unique hx (api_mud' A β η m S 1 1 one_ne_zero)
  have hA : A *ᵥ xM = η - β := by rw [← hAx]; abel
  have hr : InRange S A (m - xM) := by
    refine ⟨-(mpinv (A * S * Aᵀ) *ᵥ (η - β - A *ᵥ m)), ?_⟩
    rw [hxF, mudF, mulVec_neg, mulVec_mulVec]; abel
  obtain ⟨ρ, hρ0, hρ1, hρ⟩ := epoch_contract (A := A) hS hall
  have hiter : ∀ k, InRange S A ((epochEnd S A (η - β) ks)^[k] m - xM) ∧
      qf S ((epochEnd S A (η - β) ks)^[k] m - xM) ≤ ρ ^ k * qf S (m - xM) := by
    intro k
    induction k with
    | zero => exact ⟨hr, by simp⟩
    | succ k ih =>
      rw [Function.iterate_succ_apply', epochEnd_sub S A hA]
      refine ⟨ih.1.epoch ks, (hρ _ ih.1).trans ?_⟩
      rw [pow_succ, mul_comm (ρ ^ k), mul_assoc]
      exact mul_le_mul_of_nonneg_left ih.2 hρ0
  let f : ℕ → Fin p → ℝ := fun n => (epochEnd S A (η - β) ks)^[max n 1] m
  have hf : ∀ n, qf S (f n - xM) ≤ ρ ^ n * qf S (m - xM) := by
    intro n
    refine (hiter _).2.trans (mul_le_mul_of_nonneg_right ?_ (qf_nonneg hS _))
    exact pow_le_pow_of_le_one hρ0 hρ1.le (le_max_left _ _)
  refine ⟨xM, f, ρ, (C01_mud_sol A β η m S 1 xM).2 hx, hAx, fun b y mean hb hy hm n => ?_,
    tendsto_of_qf hS hρ0 hρ1 hf, hρ0, hρ1, hf⟩
  obtain ⟨chain, h1, h2⟩ := iterate_eval S A hb hy h hm n
  obtain ⟨k, hk⟩ : ∃ k, (max (n : ℤ) 1).toNat = k + 1 := ⟨(max (n : ℤ) 1).toNat - 1, by omega⟩
  have hk' : max n 1 = k + 1 := by omega
  have hl := iterPts_last S A (η - β) ks k m m
  rw [hk] at h2
  have hne : iterPts S A (η - β) ks (k + 1) m ≠ [] := by simp [iterPts]
  have hne' : chain ≠ [] := by
    rintro rfl
    exact hne (List.forall₂_nil_left_iff.1 h2)
  rw [List.getLastD_eq_getLast?, List.getLast?_eq_some_getLast hne] at hl
  simp only [Option.getD_some] at hl
  refine ⟨chain, chain.getLast hne', h1, List.getLast?_eq_some_getLast hne', ?_⟩
  have hlen := h2.length_eq
  have h3 := (List.forall₂_iff_get.1 h2).2 (chain.length - 1)
    (by have := List.length_pos_of_ne_nil hne'; omega)
    (by have := List.length_pos_of_ne_nil hne; omega)
  simp only [List.get_eq_getElem] at h3
  rw [List.getLast_eq_getElem] at hl ⊢
  simp only [f, hk', ← hl]
  simp only [hlen] at h3 ⊢
  exact h3

/-- Non-vacuity: an inconsistent-looking but consistent 3-row system in two unknowns, visited
in the order 2, 0, -2. -/
example : (∃ x₀ : Fin 2 → ℝ, (!![1, 0; 1, 1; 0, 2] : Matrix (Fin 3) (Fin 2) ℝ) *ᵥ x₀ + ![1, 0, 0]
      = ![2, 3, 4]) ∧ (!![2, 1; 1, 3] : Matrix (Fin 2) (Fin 2) ℝ).PosDef ∧
    Visits 3 (some [2, 0, -2]) [2, 0, 1] ∧ ∀ k : Fin 3, k ∈ [(2 : Fin 3), 0, 1] := by
  refine ⟨⟨![1, 2], ?_⟩, posDef_fin_two (by norm_num) (by norm_num), ?_, by decide⟩
  · ext i; fin_cases i <;> simp [vecHead, vecTail] <;> norm_num
  · simp [Visits]

/-- C16 and C17 on the same problem, visiting rows 2, 0 and 1 in three epochs. -/
example : ∃ chain, iterate ⟨3, 2, !![1, 0; 1, 1; 0, 2]⟩ (.vec 3 ![1, 0, 0]) (.vec 3 ![2, 3, 4]) (.vec 2 ![0, 0])
    (some ⟨2, 2, !![2, 1; 1, 3]⟩) 3 (some [2, 0, -2]) = .ok chain ∧ (chain.length : ℤ) = 12 := by
  have h : Visits 3 (some [2, 0, -2]) [2, 0, 1] := by simp [Visits]
  exact C17_length !![1, 0; 1, 1; 0, 2] !![2, 1; 1, 3] (b := .vec 3 ![1, 0, 0]) (y := .vec 3 ![2, 3, 4])
    (mean := .vec 2 ![0, 0]) (Or.inl rfl) (Or.inl rfl) (Or.inl rfl) h 3

end Verif
