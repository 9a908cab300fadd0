import Verif.Props.RoundedIterate

/-!
# C170: `iterate` on data that no point satisfies

No assumption on the data: the rows may contradict each other. The chain then need not converge, but it settles into a
cycle of one point per visited row.
-/

open Matrix

namespace Verif

variable {d p : ℕ}

theorem epochPts_submatrix {e : ℕ} (S : Matrix (Fin p) (Fin p) ℝ) (A : Matrix (Fin d) (Fin p) ℝ) (c : Fin d → ℝ)
    (g : Fin e → Fin d) (ls : List (Fin e)) (x : Fin p → ℝ) :
    epochPts S A c x (ls.map g) = epochPts S (A.submatrix g id) (c ∘ g) x ls := by
  induction ls generalizing x with
  | nil => rfl
  | cons k ls ih =>
    rw [List.map_cons, epochPts, epochPts, ih]
    rfl

theorem InRange.add' {S : Matrix (Fin p) (Fin p) ℝ} {A : Matrix (Fin d) (Fin p) ℝ} {u v : Fin p → ℝ}
    (hu : InRange S A u) (hv : InRange S A v) : InRange S A (u + v) := by
  obtain ⟨a, rfl⟩ := hu
  obtain ⟨b, rfl⟩ := hv
  exact ⟨a + b, by rw [mulVec_add]⟩

/-- Every update moves along a direction in the range of `S Aᵀ`. -/
theorem epochEnd_inRange (S : Matrix (Fin p) (Fin p) ℝ) (A : Matrix (Fin d) (Fin p) ℝ) (c : Fin d → ℝ)
    (ks : List (Fin d)) (x : Fin p → ℝ) : InRange S A (epochEnd S A c ks x - x) := by
  induction ks generalizing x with
  | nil => exact ⟨0, by simp [epochEnd, epochPts]⟩
  | cons k ks ih =>
    have h := (ih (kstep S (A k) (c k) x)).add'
      ((inRange_row (S := S) (A := A) k).smul ((c k - A k ⬝ᵥ x) / (A k ⬝ᵥ (S *ᵥ A k))))
    rw [epochEnd_cons]
    have e : kstep S (A k) (c k) x = x + ((c k - A k ⬝ᵥ x) / (A k ⬝ᵥ (S *ᵥ A k))) • (S *ᵥ A k) := rfl
    convert h using 1
    nth_rewrite 3 [e]
    abel

/-- A pass over all rows has a fixed point that differs from the start by a vector in the range of `S Aᵀ`. -/
theorem epoch_fixed {S : Matrix (Fin p) (Fin p) ℝ} (hS : S.PosDef) (A : Matrix (Fin d) (Fin p) ℝ) (c : Fin d → ℝ)
    {ks : List (Fin d)} (hks : ∀ k, k ∈ ks) (m : Fin p → ℝ) :
    ∃ x, epochEnd S A c ks x = x ∧ InRange S A (m - x) := by
  let V := LinearMap.range (S * Aᵀ).mulVecLin
  let T : (Fin p → ℝ) →ₗ[ℝ] (Fin p → ℝ) := LinearMap.id - (epochMat S A ks).mulVecLin
  have hT : ∀ v ∈ V, T v ∈ V := by
    intro v hv
    exact V.sub_mem hv ((inRange_iff _).1 (((inRange_iff _).2 hv).epoch ks))
  have hinj : Function.Injective (T.restrict hT) := by
    rw [← LinearMap.ker_eq_bot, LinearMap.ker_eq_bot']
    intro v hv
    have h0 : T v.1 = 0 := congrArg Subtype.val hv
    have h1 : epochMat S A ks *ᵥ v.1 = v.1 := (sub_eq_zero.1 h0).symm
    by_contra hne
    have h2 := qf_epoch_lt hS hks ((inRange_iff _).2 v.2) (fun h => hne (Subtype.ext h))
    rw [h1] at h2
    exact lt_irrefl _ h2
  obtain ⟨v, hv⟩ := LinearMap.surjective_of_injective hinj
    ⟨epochEnd S A c ks m - m, (inRange_iff _).1 (epochEnd_inRange S A c ks m)⟩
  have h3 : v.1 - epochMat S A ks *ᵥ v.1 = epochEnd S A c ks m - m := congrArg Subtype.val hv
  have h4 := epochEnd_diff S A c ks (m + v.1) m
  rw [add_sub_cancel_left] at h4
  refine ⟨m + v.1, ?_, ?_⟩
  · rw [sub_eq_iff_eq_add.1 h4, sub_eq_iff_eq_add.1 h3.symm]
    abel
  · have : m - (m + v.1) = (-1 : ℝ) • v.1 := by rw [neg_one_smul]; abel
    rw [this]
    exact ((inRange_iff _).2 v.2).smul _

/-- The points of two passes: each pair is no farther apart than the two starts. -/
theorem epochPts_pair {S : Matrix (Fin p) (Fin p) ℝ} (hS : S.PosDef) (A : Matrix (Fin d) (Fin p) ℝ) (c : Fin d → ℝ)
    (ks : List (Fin d)) (x z : Fin p → ℝ) :
    List.Forall₂ (fun u v => qf S (u - v) ≤ qf S (x - z)) (x :: epochPts S A c x ks) (z :: epochPts S A c z ks) := by
  induction ks generalizing x z with
  | nil => exact .cons le_rfl .nil
  | cons k ks ih =>
    refine .cons le_rfl ((ih (kstep S (A k) (c k) x) (kstep S (A k) (c k) z)).imp fun u v h => h.trans ?_)
    rw [kstep_diff]
    exact qf_kmat_le hS _ _

theorem iterPts_get (S : Matrix (Fin p) (Fin p) ℝ) (A : Matrix (Fin d) (Fin p) ℝ) (c : Fin d → ℝ) (ks : List (Fin d))
    {n i j : ℕ} (hi : i < n) (hj : j ≤ ks.length) (x : Fin p → ℝ) :
    (iterPts S A c ks n x)[i * (ks.length + 1) + j]? =
      ((epochEnd S A c ks)^[i] x :: epochPts S A c ((epochEnd S A c ks)^[i] x) ks)[j]? := by
  induction i generalizing n x with
  | zero =>
    obtain ⟨n, rfl⟩ : ∃ k, n = k + 1 := ⟨n - 1, by omega⟩
    rw [iterPts, zero_mul, zero_add, List.getElem?_append_left]
    · rfl
    · rw [List.length_cons, epochPts_length]; omega
  | succ i ih =>
    obtain ⟨n, rfl⟩ : ∃ k, n = k + 1 := ⟨n - 1, by omega⟩
    rw [iterPts, List.getElem?_append_right, List.length_cons, epochPts_length, Function.iterate_succ_apply]
    · rw [← ih (n := n) (by omega)]
      congr 1
      rw [add_mul, one_mul]
      omega
    · rw [List.length_cons, epochPts_length, add_mul, one_mul]; omega

/-- The fixed point, for any list of visited rows. -/
theorem epoch_settles {S : Matrix (Fin p) (Fin p) ℝ} (hS : S.PosDef) (A : Matrix (Fin d) (Fin p) ℝ)
    (ks : List (Fin d)) :
    ∃ ρ : ℝ, 0 ≤ ρ ∧ ρ < 1 ∧ ∀ (c : Fin d → ℝ) (m : Fin p → ℝ), ∃ x, epochEnd S A c ks x = x ∧
      ∀ n, qf S ((epochEnd S A c ks)^[n] m - x) ≤ ρ ^ n * qf S (m - x) := by
  set B : Matrix (Fin ks.length) (Fin p) ℝ := A.submatrix ks.get id with hB
  have hks : ks = (List.finRange ks.length).map ks.get := by simp
  have he : ∀ c : Fin d → ℝ, epochEnd S A c ks = epochEnd S B (c ∘ ks.get) (List.finRange ks.length) := by
    intro c
    funext x
    rw [epochEnd, epochEnd, hB, ← epochPts_submatrix, ← hks]
  obtain ⟨ρ, h0, h1, h⟩ := epoch_contract (A := B) hS (ks := List.finRange ks.length) (fun k => List.mem_finRange k)
  refine ⟨ρ, h0, h1, fun c m => ?_⟩
  rw [he]
  obtain ⟨x, hx, hr⟩ := epoch_fixed hS B (c ∘ ks.get) (ks := List.finRange ks.length)
    (fun k => List.mem_finRange k) m
  refine ⟨x, hx, fun n => ?_⟩
  have key : ∀ n, InRange S B ((epochEnd S B (c ∘ ks.get) (List.finRange ks.length))^[n] m - x) ∧
      qf S ((epochEnd S B (c ∘ ks.get) (List.finRange ks.length))^[n] m - x) ≤ ρ ^ n * qf S (m - x) := by
    intro n
    induction n with
    | zero => exact ⟨hr, by simp⟩
    | succ n ih =>
      rw [Function.iterate_succ_apply']
      have hd := epochEnd_diff S B (c ∘ ks.get) (List.finRange ks.length)
        ((epochEnd S B (c ∘ ks.get) (List.finRange ks.length))^[n] m) x
      rw [hx] at hd
      rw [hd]
      refine ⟨ih.1.epoch _, (h _ ih.1).trans ?_⟩
      rw [pow_succ, mul_comm (ρ ^ n), mul_assoc]
      exact mul_le_mul_of_nonneg_left ih.2 h0
  exact (key n).2

/-- **C170.** For every system, data and list of rows there is a rate `ρ < 1`, which does not depend on the data, such
that the chain of `iterate` approaches a cycle: an epoch started at a certain point `xM` runs through the points `cyc`
and ends at `xM` again, and the `j`-th point of the `i`-th epoch is within `√(ρⁱ)` times the first distance of the
`j`-th point of that cycle. -/
theorem C170_settles (A : Matrix (Fin d) (Fin p) ℝ) {S : Matrix (Fin p) (Fin p) ℝ} (hS : S.PosDef)
    {idx : Option (List ℤ)} {ks : List (Fin d)} (h : Visits d idx ks) :
    ∃ ρ : ℝ, 0 ≤ ρ ∧ ρ < 1 ∧ ∀ (β η : Fin d → ℝ) (m : Fin p → ℝ), ∃ (xM : Fin p → ℝ) (cyc : List (Fin p → ℝ)),
      cyc.length = ks.length ∧ (xM :: cyc).getLast? = some xM ∧
      ∀ b y : NArr, IsVec b β → IsVec y η →
        performEpoch ⟨d, p, A⟩ b y (.vec p xM) (some ⟨p, p, S⟩) idx = .ok ((xM :: cyc).map (NArr.vec p)) ∧
        ∀ mean : NArr, IsVec mean m → ∀ n : ℕ, ∃ chain,
          iterate ⟨d, p, A⟩ b y mean (some ⟨p, p, S⟩) n idx = .ok chain ∧
          ∀ i < max n 1, ∀ j ≤ ks.length, ∃ (z : NArr) (x u : Fin p → ℝ),
            chain[i * (ks.length + 1) + j]? = some z ∧ IsVec z x ∧ (xM :: cyc)[j]? = some u ∧
            mahal S x u ≤ ρ ^ i * mahal S m xM := by
  obtain ⟨ρ, h0, h1, hρ⟩ := epoch_settles hS A ks
  refine ⟨ρ, h0, h1, fun β η m => ?_⟩
  obtain ⟨xM, hx, hq⟩ := hρ (η - β) m
  refine ⟨xM, epochPts S A (η - β) xM ks, epochPts_length .., ?_, fun b y hb hy => ⟨?_, fun mean hm n => ?_⟩⟩
  · rw [List.getLast?_cons, ← List.getLastD_eq_getLast?]
    exact congrArg some hx
  · rw [performEpoch_eval S A hb hy h (Or.inl rfl)]
    rfl
  · obtain ⟨chain, h2, h3⟩ := iterate_eval S A hb hy h hm n
    refine ⟨chain, h2, fun i hi j hj => ?_⟩
    have hi' : i < (max (n : ℤ) 1).toNat := by omega
    have h4 := iterPts_get S A (η - β) ks hi' hj m
    have h5 := epochPts_pair hS A (η - β) ks ((epochEnd S A (η - β) ks)^[i] m) xM
    have hj1 : j < ((epochEnd S A (η - β) ks)^[i] m ::
        epochPts S A (η - β) ((epochEnd S A (η - β) ks)^[i] m) ks).length := by
      rw [List.length_cons, epochPts_length]; omega
    have hj2 : j < (xM :: epochPts S A (η - β) xM ks).length := by
      rw [List.length_cons, epochPts_length]; omega
    have h6 := (List.forall₂_iff_get.1 h5).2 j hj1 hj2
    rw [List.getElem?_eq_getElem hj1] at h4
    obtain ⟨hk, h7⟩ := List.getElem?_eq_some_iff.1 h4
    have hk' : i * (ks.length + 1) + j < chain.length := h3.length_eq ▸ hk
    have h8 := (List.forall₂_iff_get.1 h3).2 _ hk' hk
    simp only [List.get_eq_getElem] at h6 h8
    rw [h7] at h8
    exact ⟨_, _, _, List.getElem?_eq_getElem hk', h8, List.getElem?_eq_getElem hj2, h6.trans (hq i)⟩

/-- `f n` is the last point of `iterate(num_epochs=n)`. -/
def LastPoints (A : Matrix (Fin d) (Fin p) ℝ) (β η : Fin d → ℝ) (m : Fin p → ℝ) (S : Matrix (Fin p) (Fin p) ℝ)
    (idx : Option (List ℤ)) (f : ℕ → Fin p → ℝ) : Prop :=
  ∀ n : ℕ, ∃ chain z, iterate ⟨d, p, A⟩ (.vec d β) (.vec d η) (.vec p m) (some ⟨p, p, S⟩) n idx = .ok chain ∧
    chain.getLast? = some z ∧ IsVec z (f n)

theorem isVec_inj {z : NArr} {x x' : Fin p → ℝ} (h : IsVec z x) (h' : IsVec z x') : x = x' := by
  have e := h.toCol.symm.trans h'.toCol
  simp only [Arr2.col, Arr2.mk_inj] at e
  exact funext fun i => congrFun (congrFun e i) 0

theorem lastPoints_eq {A : Matrix (Fin d) (Fin p) ℝ} {β η : Fin d → ℝ} {m : Fin p → ℝ} {S : Matrix (Fin p) (Fin p) ℝ}
    {idx : Option (List ℤ)} {ks : List (Fin d)} (h : Visits d idx ks) {f : ℕ → Fin p → ℝ}
    (hf : LastPoints A β η m S idx f) {n : ℕ} (hn : 0 < n) : f n = (epochEnd S A (η - β) ks)^[n] m := by
  obtain ⟨chain, z, h1, h2, h3⟩ := hf n
  obtain ⟨chain', z', h1', h2', h3'⟩ := iterate_last (A := A) (S := S) (b := .vec d β) (y := .vec d η)
    (mean := .vec p m) (Or.inl rfl) (Or.inl rfl) (Or.inl rfl) h hn
  rw [h1] at h1'
  cases h1'
  rw [h2] at h2'
  cases h2'
  rw [← epochEnd_iter]
  exact isVec_inj h3 h3'

theorem lastPoints_exists (A : Matrix (Fin d) (Fin p) ℝ) (S : Matrix (Fin p) (Fin p) ℝ) (β η : Fin d → ℝ)
    (m : Fin p → ℝ) {idx : Option (List ℤ)} {ks : List (Fin d)} (h : Visits d idx ks) :
    LastPoints A β η m S idx (fun n => (epochEnd S A (η - β) ks)^[max n 1] m) := by
  intro n
  obtain ⟨chain, z, h1, h2, h3⟩ := iterate_last (A := A) (S := S) (b := .vec d β) (y := .vec d η)
    (mean := .vec p m) (Or.inl rfl) (Or.inl rfl) (Or.inl rfl) h (n := max n 1) (by omega)
  refine ⟨chain, z, ?_, h2, ?_⟩
  · rw [← h1]
    have : ((n : ℤ) - 1).toNat = (((max n 1 : ℕ) : ℤ) - 1).toNat := by omega
    simp only [iterate, this]
  · dsimp only
    rwa [← epochEnd_iter]

theorem epochEnd_hits {A : Matrix (Fin d) (Fin p) ℝ} {S : Matrix (Fin p) (Fin p) ℝ} (hS : S.PosDef) (c : Fin d → ℝ)
    {ks : List (Fin d)} {k : Fin d} (hk : ks.getLast? = some k) (ha : A k ≠ 0) (x : Fin p → ℝ) :
    A k ⬝ᵥ epochEnd S A c ks x = c k := by
  obtain ⟨ls, rfl⟩ : ∃ ls, ks = ls ++ [k] := by
    have hne : ks ≠ [] := by rintro rfl; simp at hk
    refine ⟨ks.dropLast, ?_⟩
    rw [List.getLast?_eq_some_getLast hne] at hk
    cases hk
    exact (List.dropLast_append_getLast hne).symm
  rw [epochEnd_append, epochEnd_cons]
  exact kstep_hits _ _ _ _ (quad_pos hS ha).ne'

theorem iterate_fixed {f : (Fin p → ℝ) → (Fin p → ℝ)} {x : Fin p → ℝ} (h : f x = x) (n : ℕ) : f^[n] x = x := by
  induction n with
  | zero => rfl
  | succ n ih => rw [Function.iterate_succ_apply, h, ih]

/-- The last points converge, whatever the data are, to a point at which `iterate` started there ends again, and which
satisfies the row visited last. -/
theorem C170_converges (A : Matrix (Fin d) (Fin p) ℝ) {S : Matrix (Fin p) (Fin p) ℝ} (hS : S.PosDef)
    {idx : Option (List ℤ)} {ks : List (Fin d)} (h : Visits d idx ks) (β η : Fin d → ℝ) (m : Fin p → ℝ)
    {f : ℕ → Fin p → ℝ} (hf : LastPoints A β η m S idx f) :
    ∃ xM, Filter.Tendsto f Filter.atTop (nhds xM) ∧ LastPoints A β η xM S idx (fun _ => xM) ∧
      ∀ k, ks.getLast? = some k → A k ≠ 0 → A k ⬝ᵥ xM + β k = η k := by
  obtain ⟨ρ, h0, h1, hρ⟩ := epoch_settles hS A ks
  obtain ⟨xM, hx, hq⟩ := hρ (η - β) m
  refine ⟨xM, ?_, ?_, fun k hk ha => ?_⟩
  · have ht := tendsto_of_qf hS h0 h1 hq
    refine ht.congr' ?_
    filter_upwards [Filter.eventually_gt_atTop 0] with n hn
    exact (lastPoints_eq h hf hn).symm
  · have := lastPoints_exists A S β η xM h
    simpa only [iterate_fixed hx] using this
  · have := epochEnd_hits hS (η - β) hk ha xM
    rw [hx] at this
    rw [this]
    simp

theorem fixed_diff {A : Matrix (Fin d) (Fin p) ℝ} {S : Matrix (Fin p) (Fin p) ℝ} (hS : S.PosDef) {ks : List (Fin d)}
    {c c' : Fin d → ℝ} {x z : Fin p → ℝ} (hc : ∀ k ∈ ks, c k = c' k)
    (hx : epochEnd S A c ks x = x) (hz : epochEnd S A c' ks z = z) : ∀ k ∈ ks, A k ⬝ᵥ (x - z) = 0 := by
  have hcc : ∀ (ls : List (Fin d)) (w : Fin p → ℝ), (∀ k ∈ ls, c k = c' k) →
      epochEnd S A c ls w = epochEnd S A c' ls w := by
    intro ls
    induction ls with
    | nil => intro w _; rfl
    | cons k ls ih =>
      intro w hl
      rw [epochEnd_cons, epochEnd_cons, hl k (by simp), ih _ fun j hj => hl j (by simp [hj])]
  have h1 := epochEnd_diff S A c' ks x z
  rw [← hcc ks x hc, hx, hz] at h1
  exact qf_epoch_eq hS ks (x - z) (by rw [← h1])

/-- The limit does not depend on the initial mean if the visited rows determine the parameters. -/
theorem C170_any_start (A : Matrix (Fin d) (Fin p) ℝ) {S : Matrix (Fin p) (Fin p) ℝ} (hS : S.PosDef)
    {idx : Option (List ℤ)} {ks : List (Fin d)} (h : Visits d idx ks)
    (hA : ∀ e : Fin p → ℝ, (∀ k ∈ ks, A k ⬝ᵥ e = 0) → e = 0) (β η : Fin d → ℝ) :
    ∃ xM, ∀ (m : Fin p → ℝ) (f : ℕ → Fin p → ℝ), LastPoints A β η m S idx f →
      Filter.Tendsto f Filter.atTop (nhds xM) := by
  obtain ⟨ρ, h0, h1, hρ⟩ := epoch_settles hS A ks
  obtain ⟨xM, hx, -⟩ := hρ (η - β) 0
  refine ⟨xM, fun m f hf => ?_⟩
  obtain ⟨x, hx', hq⟩ := hρ (η - β) m
  have : x = xM := sub_eq_zero.1 (hA _ (fixed_diff hS (fun _ _ => rfl) hx' hx))
  subst this
  refine (tendsto_of_qf hS h0 h1 hq).congr' ?_
  filter_upwards [Filter.eventually_gt_atTop 0] with n hn
  exact (lastPoints_eq h hf hn).symm

/-- If some point satisfies the visited rows, so does the limit; rows that are not visited have no influence. -/
theorem C170_visited_rows (A : Matrix (Fin d) (Fin p) ℝ) {S : Matrix (Fin p) (Fin p) ℝ} (hS : S.PosDef)
    {idx : Option (List ℤ)} {ks : List (Fin d)} (h : Visits d idx ks) (β η : Fin d → ℝ) (m : Fin p → ℝ)
    {f : ℕ → Fin p → ℝ} (hf : LastPoints A β η m S idx f)
    (hcons : ∃ x₀ : Fin p → ℝ, ∀ k ∈ ks, A k ⬝ᵥ x₀ + β k = η k) :
    ∃ xM, Filter.Tendsto f Filter.atTop (nhds xM) ∧ ∀ k ∈ ks, A k ⬝ᵥ xM + β k = η k := by
  obtain ⟨ρ, h0, h1, hρ⟩ := epoch_settles hS A ks
  obtain ⟨xM, hx, hq⟩ := hρ (η - β) m
  obtain ⟨x₀, hx₀⟩ := hcons
  refine ⟨xM, ?_, fun k hk => ?_⟩
  · refine (tendsto_of_qf hS h0 h1 hq).congr' ?_
    filter_upwards [Filter.eventually_gt_atTop 0] with n hn
    exact (lastPoints_eq h hf hn).symm
  · have hfix : epochEnd S A (A *ᵥ x₀) ks x₀ = x₀ := by
      have := epochEnd_sub S A (xs := x₀) rfl ks x₀
      rw [sub_self, mulVec_zero] at this
      exact sub_eq_zero.1 this
    have hd := fixed_diff (c := η - β) (c' := A *ᵥ x₀) hS
      (fun k hk => by have := hx₀ k hk; simp only [Pi.sub_apply]; rw [← this]; simp [mulVec]) hx hfix k hk
    rw [dotProduct_sub] at hd
    linarith [hx₀ k hk]

/-! ## What the limit is not -/

/-- The limit is the MUD point of the whole system. -/
def C170_mud_claim : Prop :=
  ∀ (d p : ℕ) (A : Matrix (Fin d) (Fin p) ℝ) (S : Matrix (Fin p) (Fin p) ℝ) (β η : Fin d → ℝ) (m : Fin p → ℝ)
    (idx : Option (List ℤ)) (ks : List (Fin d)) (f : ℕ → Fin p → ℝ) (x : Fin p → ℝ),
    S.PosDef → Visits d idx ks → (∀ k, k ∈ ks) → LastPoints A β η m S idx f →
    mudSol (.mat ⟨d, p, A⟩) (some (.vec d β)) (some (.vec d η)) (some (.vec p m)) (some ⟨p, p, S⟩) none =
      .ok (.vec p x) → Filter.Tendsto f Filter.atTop (nhds x)

/-- The order in which the rows are visited does not change the limit. -/
def C170_order_claim : Prop :=
  ∀ (d p : ℕ) (A : Matrix (Fin d) (Fin p) ℝ) (S : Matrix (Fin p) (Fin p) ℝ) (β η : Fin d → ℝ) (m : Fin p → ℝ)
    (idx idx' : Option (List ℤ)) (ks ks' : List (Fin d)) (f f' : ℕ → Fin p → ℝ) (x : Fin p → ℝ),
    S.PosDef → Visits d idx ks → Visits d idx' ks' → ks.Perm ks' → (∀ k, k ∈ ks) →
    LastPoints A β η m S idx f → LastPoints A β η m S idx' f' →
    Filter.Tendsto f Filter.atTop (nhds x) → Filter.Tendsto f' Filter.atTop (nhds x)

/-- Two measurements `0` and `2` of the same parameter: the last point is always the measurement visited last. -/
theorem two_last (ks : List (Fin 2)) (k : Fin 2) (hk : ks.getLast? = some k) (n : ℕ) (m : Fin 1 → ℝ) :
    (epochEnd 1 (!![1; 1] : Matrix (Fin 2) (Fin 1) ℝ) (![0, 2] - ![0, 0]) ks)^[max n 1] m =
      ![(![0, 2] : Fin 2 → ℝ) k] := by
  obtain ⟨j, hj⟩ : ∃ j, max n 1 = j + 1 := ⟨max n 1 - 1, by omega⟩
  rw [hj, Function.iterate_succ_apply']
  generalize (epochEnd 1 (!![1; 1] : Matrix (Fin 2) (Fin 1) ℝ) (![0, 2] - ![0, 0]) ks)^[j] m = z
  have h := epochEnd_hits (A := (!![1; 1] : Matrix (Fin 2) (Fin 1) ℝ)) (S := 1) Matrix.PosDef.one
    (![0, 2] - ![0, 0]) hk (by intro h; have := congrFun h 0; fin_cases k <;> simp at this) z
  ext i
  fin_cases i
  fin_cases k <;> simpa [dotProduct] using h

theorem two_fwd : LastPoints (!![1; 1] : Matrix (Fin 2) (Fin 1) ℝ) ![0, 0] ![0, 2] ![0] 1 (some [0, 1])
    (fun _ => ![2]) := by
  have h : Visits 2 (some [0, 1]) [0, 1] := by simp [Visits]
  have := lastPoints_exists (!![1; 1] : Matrix (Fin 2) (Fin 1) ℝ) 1 ![0, 0] ![0, 2] ![0] h
  simp only [two_last [0, 1] 1 rfl] at this
  simpa using this

theorem two_bwd : LastPoints (!![1; 1] : Matrix (Fin 2) (Fin 1) ℝ) ![0, 0] ![0, 2] ![0] 1 (some [1, 0])
    (fun _ => ![0]) := by
  have h : Visits 2 (some [1, 0]) [1, 0] := by simp [Visits]
  have := lastPoints_exists (!![1; 1] : Matrix (Fin 2) (Fin 1) ℝ) 1 ![0, 0] ![0, 2] ![0] h
  simp only [two_last [1, 0] 0 rfl] at this
  simpa using this

theorem two_ne {x : Fin 1 → ℝ} (h : Filter.Tendsto (fun _ : ℕ => (![2] : Fin 1 → ℝ)) Filter.atTop (nhds x))
    (h' : Filter.Tendsto (fun _ : ℕ => (![0] : Fin 1 → ℝ)) Filter.atTop (nhds x)) : False := by
  have h1 := tendsto_nhds_unique h tendsto_const_nhds
  have h2 := tendsto_nhds_unique h' tendsto_const_nhds
  have := congrFun (h1.symm.trans h2) 0
  simp at this

/-- **C170**, refuted part: with two measurements of one parameter that disagree, `iterate` ends at the one it visits
last, so its result depends on the order of the rows. -/
theorem C170_order_claim_refuted : ¬ C170_order_claim := by
  intro h
  exact two_ne tendsto_const_nhds (h 2 1 _ _ _ _ _ _ _ [0, 1] [1, 0] _ _ ![2] Matrix.PosDef.one
    (by simp [Visits]) (by simp [Visits]) (List.Perm.swap _ _ _) (by decide) two_fwd two_bwd tendsto_const_nhds)

/-- and is not the MUD point. -/
theorem C170_mud_claim_refuted : ¬ C170_mud_claim := by
  intro h
  have hx : ∃ x, mudSol (.mat ⟨2, 1, !![1; 1]⟩) (some (.vec 2 ![0, 0])) (some (.vec 2 ![0, 2]))
      (some (.vec 1 ![0])) (some ⟨1, 1, 1⟩) (some ⟨2, 2, 1⟩) = .ok (.vec 1 x) :=
    ⟨_, (C01_mud_sol _ _ _ _ _ 1 _).2 (api_mud' (!![1; 1] : Matrix (Fin 2) (Fin 1) ℝ) ![0, 0] ![0, 2] ![0] 1 1 1
      one_ne_zero)⟩
  obtain ⟨x, hx⟩ := hx
  have hx' : mudSol (.mat ⟨2, 1, !![1; 1]⟩) (some (.vec 2 ![0, 0])) (some (.vec 2 ![0, 2]))
      (some (.vec 1 ![0])) (some ⟨1, 1, 1⟩) none = .ok (.vec 1 x) := hx
  exact two_ne (h 2 1 _ _ _ _ _ _ [0, 1] _ x Matrix.PosDef.one (by simp [Visits]) (by decide) two_fwd hx')
    (h 2 1 _ _ _ _ _ _ [1, 0] _ x Matrix.PosDef.one (by simp [Visits]) (by decide) two_bwd hx')

/-! ## The hypotheses can be met -/

/-- Three measurements of two parameters that contradict each other, in the order 2, 0, 1: the hypotheses of all
theorems above hold, and no point satisfies all rows. -/
example : (¬ ∃ x₀ : Fin 2 → ℝ, (!![1, 0; 1, 1; 0, 2] : Matrix (Fin 3) (Fin 2) ℝ) *ᵥ x₀ + ![1, 0, 0] = ![2, 3, 5]) ∧
    (!![2, 1; 1, 3] : Matrix (Fin 2) (Fin 2) ℝ).PosDef ∧ Visits 3 (some [2, 0, -2]) [2, 0, 1] ∧
    (∃ f, LastPoints (!![1, 0; 1, 1; 0, 2] : Matrix (Fin 3) (Fin 2) ℝ) ![1, 0, 0] ![2, 3, 5] ![0, 0]
      !![2, 1; 1, 3] (some [2, 0, -2]) f) ∧
    ∀ e : Fin 2 → ℝ, (∀ k ∈ [(2 : Fin 3), 0, 1],
      (!![1, 0; 1, 1; 0, 2] : Matrix (Fin 3) (Fin 2) ℝ) k ⬝ᵥ e = 0) → e = 0 := by
  have h : Visits 3 (some [2, 0, -2]) [2, 0, 1] := by simp [Visits]
  refine ⟨?_, posDef_fin_two (by norm_num) (by norm_num), h, ⟨_, lastPoints_exists _ _ _ _ _ h⟩, ?_⟩
  · rintro ⟨x, hx⟩
    have h0 := congrFun hx 0
    have h1 := congrFun hx 1
    have h2 := congrFun hx 2
    simp [dotProduct, Fin.sum_univ_two] at h0 h1 h2
    linarith
  · intro e he
    have h0 := he 0 (by decide)
    have h2 := he 2 (by decide)
    simp [dotProduct, Fin.sum_univ_two] at h0 h2
    ext i
    fin_cases i <;> simp [h0, h2]

/-- Two rows that agree, visited while a third one, which contradicts them, is not: the hypotheses of
`C170_visited_rows`. -/
example : Visits 3 (some [0, 1]) [0, 1] ∧
    (∃ x₀ : Fin 2 → ℝ, ∀ k ∈ [(0 : Fin 3), 1], (!![1, 0; 1, 1; 0, 2] : Matrix (Fin 3) (Fin 2) ℝ) k ⬝ᵥ x₀ +
      (![1, 0, 0] : Fin 3 → ℝ) k = (![2, 3, 5] : Fin 3 → ℝ) k) := by
  refine ⟨by simp [Visits], ![1, 2], ?_⟩
  intro k hk
  fin_cases k <;> simp_all [dotProduct, Fin.sum_univ_two]
  all_goals norm_num

end Verif
