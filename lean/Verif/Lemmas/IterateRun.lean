import Verif.Props.Linear
import Verif.Lemmas.Kaczmarz

/-!
Evaluation of the model of `performEpoch` / `iterate` on well-shaped input.
-/

open Matrix

namespace Verif

variable {d p : ℕ}

theorem mpinv_one (M : Matrix (Fin 1) (Fin 1) ℝ) : mpinv M = .of fun _ _ => (M 0 0)⁻¹ := by
  apply mpinv_eq
  by_cases h : M 0 0 = 0
  · constructor <;> (ext i j; fin_cases i; fin_cases j; simp [Matrix.mul_apply, h])
  · constructor <;> (ext i j; fin_cases i; fin_cases j; simp [Matrix.mul_apply, h])

theorem mudF_row (a : Fin p → ℝ) (β η : ℝ) (x : Fin p → ℝ) (S : Matrix (Fin p) (Fin p) ℝ) :
    mudF (.of fun (_ : Fin 1) j => a j) (![η] - ![β] - (.of fun (_ : Fin 1) j => a j) *ᵥ x) x S
      = kstep S a (η - β) x := by
  rw [mudF, mpinv_one, kstep]
  congr 1
  have hz : (![η] - ![β] - (Matrix.of fun (_ : Fin 1) j => a j) *ᵥ x) = ![η - β - a ⬝ᵥ x] := by
    ext i; fin_cases i; simp [mulVec]
  have hs : ((Matrix.of fun (_ : Fin 1) j => a j) * S * (Matrix.of fun (_ : Fin 1) j => a j)ᵀ) 0 0
      = a ⬝ᵥ (S *ᵥ a) := by
    rw [dotProduct_mulVec]
    simp [Matrix.mul_apply, dotProduct, vecMul]
  rw [hz, hs]
  funext i
  simp [mulVec, dotProduct, Matrix.mul_apply]
  ring

theorem IsVec.toCol {n : ℕ} {x : NArr} {v : Fin n → ℝ} (h : IsVec x v) : x.toCol = Arr2.col v := by
  rcases h with rfl | rfl
  · rfl
  · exact Arr2.ravelCol_col v

theorem IsVec.index {n : ℕ} {x : NArr} {v : Fin n → ℝ} (h : IsVec x v) {i : ℤ} {k : Fin n}
    (hk : pyIndex n i = .ok k) :
    ∃ xi, x.index i = .ok xi ∧ xi.toCol = Arr2.col ![v k] ∧ ndimOpt (some xi) ≤ 1 := by
  rcases h with rfl | rfl
  · refine ⟨.scal (v k), by simp [NArr.index, hk], ?_, by simp [ndimOpt]⟩
    simp only [NArr.toCol, Arr2.col, Arr2.mk_inj]
    ext i j; fin_cases i; rfl
  · refine ⟨.vec 1 fun _ => v k, ?_, ?_, by simp [ndimOpt]⟩
    · simp only [NArr.index]
      have : pyIndex (Arr2.col v).r i = .ok k := hk
      rw [this]; rfl
    · simp only [NArr.toCol]
      congr 1; ext i; fin_cases i; rfl

theorem mudSol_row (a : Fin p → ℝ) {bi yi mean : NArr} {β η : ℝ} {x : Fin p → ℝ}
    (S : Matrix (Fin p) (Fin p) ℝ) (hb : bi.toCol = Arr2.col ![β]) (hy : yi.toCol = Arr2.col ![η])
    (hy1 : ndimOpt (some yi) ≤ 1) (hm : mean.toCol = Arr2.col x) :
    mudSol (.mat (Arr2.row a)) (some bi) (some yi) (some mean) (some ⟨p, p, S⟩) none
      = .ok (.vec p (kstep S a (η - β) x)) := by
  have hs : LGP.new (.mat (Arr2.row a)) (some bi) (some yi) (some mean) (some ⟨p, p, S⟩) none none
      = .ok (LGP.typed (.of fun (_ : Fin 1) j => a j) ![β] ![η] x S 1 1) := by
    simp [LGP.new, LGP.typed, hb, hy, hm, Arr2.row, Arr2.eye]
    rfl
  have hsol := solve_mud (LGP.typed (.of fun (_ : Fin 1) j => a j) ![β] ![η] x S 1 1) none
    (locals_typed ..)
  rw [mudBranch_typed _ _ _ _ _ x _ _ rfl, one_smul, mudF_row] at hsol
  rw [mudSol, linProb, hs, Py.ok_bind, LGP.solveArr, hsol]
  simp only [Py.ok_bind, ravelUnless2, if_neg (not_lt.2 hy1), Arr2.ravel_col, Py.pure_eq]

/-- Points visited by one pass over the rows `ks`, starting at `x` (not included). -/
noncomputable def epochPts (S : Matrix (Fin p) (Fin p) ℝ) (A : Matrix (Fin d) (Fin p) ℝ)
    (c : Fin d → ℝ) : (Fin p → ℝ) → List (Fin d) → List (Fin p → ℝ)
  | _, [] => []
  | x, k :: ks => kstep S (A k) (c k) x :: epochPts S A c (kstep S (A k) (c k) x) ks

theorem pyIndex_of {i : ℤ} {k : Fin d} (h : i = (k : ℕ) ∨ i = (k : ℕ) - (d : ℤ)) :
    pyIndex d i = .ok k := by
  have hk := k.2
  unfold pyIndex
  have e : (if i < 0 then i + d else i) = (k : ℕ) := by
    rcases h with rfl | rfl
    · rw [if_neg (by omega)]
    · rw [if_pos (by omega)]; omega
  simp only [e]
  rw [dif_pos (by omega)]
  simp

theorem epochLoop_eval (S : Matrix (Fin p) (Fin p) ℝ) (A : Matrix (Fin d) (Fin p) ℝ) {b y : NArr}
    {β η : Fin d → ℝ} (hb : IsVec b β) (hy : IsVec y η) {l : List ℤ} {ks : List (Fin d)}
    (h : List.Forall₂ (fun (i : ℤ) (k : Fin d) => i = (k : ℕ) ∨ i = (k : ℕ) - (d : ℤ)) l ks)
    {mean : NArr} {x : Fin p → ℝ} (hm : mean.toCol = Arr2.col x) :
    epochLoop ⟨d, p, A⟩ b y (some ⟨p, p, S⟩) mean l =
      .ok ((epochPts S A (η - β) x ks).map (NArr.vec p)) := by
  induction h generalizing mean x with
  | nil => rfl
  | @cons i k l ks hik _ ih =>
    obtain ⟨bi, h1, h2, -⟩ := hb.index (pyIndex_of hik)
    obtain ⟨yi, h3, h4, h5⟩ := hy.index (pyIndex_of hik)
    have hx := mudSol_row (A k) S h2 h4 h5 hm
    simp only [epochLoop, pyIndex_of hik, h1, h3, Py.ok_bind]
    rw [hx, Py.ok_bind, ih (x := kstep S (A k) (η k - β k) x) rfl]
    rfl

theorem visits_none (d : ℕ) :
    List.Forall₂ (fun (i : ℤ) (k : Fin d) => i = (k : ℕ) ∨ i = (k : ℕ) - (d : ℤ))
      ((List.range d).map Int.ofNat) (List.finRange d) := by
  rw [List.forall₂_iff_get]
  refine ⟨by simp, fun i h1 h2 => Or.inl ?_⟩
  simp

theorem performEpoch_eval (S : Matrix (Fin p) (Fin p) ℝ) (A : Matrix (Fin d) (Fin p) ℝ)
    {b y : NArr} {β η : Fin d → ℝ} (hb : IsVec b β) (hy : IsVec y η) {idx : Option (List ℤ)}
    {ks : List (Fin d)} (h : Visits d idx ks) {mean : NArr} {x : Fin p → ℝ} (hm : IsVec mean x) :
    performEpoch ⟨d, p, A⟩ b y mean (some ⟨p, p, S⟩) idx =
      .ok (mean :: (epochPts S A (η - β) x ks).map (NArr.vec p)) := by
  unfold performEpoch
  cases idx with
  | none =>
    rw [Visits] at h
    subst h
    dsimp only
    rw [epochLoop_eval S A hb hy (visits_none d) hm.toCol]
    rfl
  | some l =>
    dsimp only
    rw [epochLoop_eval S A hb hy h hm.toCol]
    rfl

theorem epochPts_length (S : Matrix (Fin p) (Fin p) ℝ) (A : Matrix (Fin d) (Fin p) ℝ)
    (c : Fin d → ℝ) (x : Fin p → ℝ) (ks : List (Fin d)) :
    (epochPts S A c x ks).length = ks.length := by
  induction ks generalizing x with
  | nil => rfl
  | cons k ks ih => simp [epochPts, ih]

/-- Last point of a pass. -/
noncomputable def epochEnd (S : Matrix (Fin p) (Fin p) ℝ) (A : Matrix (Fin d) (Fin p) ℝ)
    (c : Fin d → ℝ) (ks : List (Fin d)) (x : Fin p → ℝ) : Fin p → ℝ :=
  (epochPts S A c x ks).getLastD x

theorem epochEnd_cons (S : Matrix (Fin p) (Fin p) ℝ) (A : Matrix (Fin d) (Fin p) ℝ)
    (c : Fin d → ℝ) (k : Fin d) (ks : List (Fin d)) (x : Fin p → ℝ) :
    epochEnd S A c (k :: ks) x = epochEnd S A c ks (kstep S (A k) (c k) x) := by
  simp only [epochEnd, epochPts, List.getLastD_cons]

theorem epochEnd_sub (S : Matrix (Fin p) (Fin p) ℝ) (A : Matrix (Fin d) (Fin p) ℝ)
    {c : Fin d → ℝ} {xs : Fin p → ℝ} (hs : A *ᵥ xs = c) (ks : List (Fin d)) (x : Fin p → ℝ) :
    epochEnd S A c ks x - xs = epochMat S A ks *ᵥ (x - xs) := by
  induction ks generalizing x with
  | nil => simp [epochEnd, epochPts, epochMat]
  | cons k ks ih =>
    have hk : c k = A k ⬝ᵥ xs := by rw [← hs]; rfl
    rw [epochEnd_cons, ih, epochMat_cons, hk, kstep_sub]

theorem getLastD_append' {α : Type} (l l' : List α) (z : α) :
    (l ++ l').getLastD z = l'.getLastD (l.getLastD z) := by
  induction l generalizing z with
  | nil => rfl
  | cons a l ih => rw [List.cons_append, List.getLastD_cons, List.getLastD_cons, ih]

/-- Points of `n` epochs, the first starting at `x`. -/
noncomputable def iterPts (S : Matrix (Fin p) (Fin p) ℝ) (A : Matrix (Fin d) (Fin p) ℝ)
    (c : Fin d → ℝ) (ks : List (Fin d)) : ℕ → (Fin p → ℝ) → List (Fin p → ℝ)
  | 0, _ => []
  | n + 1, x => x :: epochPts S A c x ks ++ iterPts S A c ks n (epochEnd S A c ks x)

theorem iterPts_length (S : Matrix (Fin p) (Fin p) ℝ) (A : Matrix (Fin d) (Fin p) ℝ)
    (c : Fin d → ℝ) (ks : List (Fin d)) (n : ℕ) (x : Fin p → ℝ) :
    (iterPts S A c ks n x).length = n * (ks.length + 1) := by
  induction n generalizing x with
  | zero => simp [iterPts]
  | succ n ih => simp [iterPts, ih, epochPts_length]; ring

theorem iterPts_last (S : Matrix (Fin p) (Fin p) ℝ) (A : Matrix (Fin d) (Fin p) ℝ)
    (c : Fin d → ℝ) (ks : List (Fin d)) (n : ℕ) (x z : Fin p → ℝ) :
    (iterPts S A c ks (n + 1) x).getLastD z = (epochEnd S A c ks)^[n + 1] x := by
  induction n generalizing x z with
  | zero =>
    rw [iterPts, iterPts, List.append_nil, List.getLastD_cons]; rfl
  | succ n ih =>
    rw [iterPts, getLastD_append', ih, Function.iterate_succ_apply (n := n + 1)]

theorem forall₂_last {l : List NArr} {pts : List (Fin p → ℝ)} (h : List.Forall₂ IsVec l pts)
    {m : NArr} {x : Fin p → ℝ} (hm : IsVec m x) : IsVec (l.getLastD m) (pts.getLastD x) := by
  induction h generalizing m x with
  | nil => exact hm
  | cons h1 _ ih => simp only [List.getLastD_cons]; exact ih h1

theorem forall₂_vec (pts : List (Fin p → ℝ)) : List.Forall₂ IsVec (pts.map (NArr.vec p)) pts := by
  induction pts with
  | nil => exact .nil
  | cons x xs ih => exact .cons (Or.inl rfl) ih

theorem epoch_forall₂ (S : Matrix (Fin p) (Fin p) ℝ) (A : Matrix (Fin d) (Fin p) ℝ)
    {b y : NArr} {β η : Fin d → ℝ} (hb : IsVec b β) (hy : IsVec y η) {idx : Option (List ℤ)}
    {ks : List (Fin d)} (h : Visits d idx ks) {mean : NArr} {x : Fin p → ℝ} (hm : IsVec mean x) :
    ∃ e, performEpoch ⟨d, p, A⟩ b y mean (some ⟨p, p, S⟩) idx = .ok e ∧
      List.Forall₂ IsVec e (x :: epochPts S A (η - β) x ks) :=
  ⟨_, performEpoch_eval S A hb hy h hm, .cons hm (forall₂_vec _)⟩

theorem iterateMore_eval (S : Matrix (Fin p) (Fin p) ℝ) (A : Matrix (Fin d) (Fin p) ℝ)
    {b y : NArr} {β η : Fin d → ℝ} (hb : IsVec b β) (hy : IsVec y η) {idx : Option (List ℤ)}
    {ks : List (Fin d)} (h : Visits d idx ks) {m : NArr} {x₀ : Fin p → ℝ} (hm : IsVec m x₀)
    (n : ℕ) {chain : List NArr} {pts : List (Fin p → ℝ)} (hc : List.Forall₂ IsVec chain pts) :
    ∃ chain', iterateMore ⟨d, p, A⟩ b y m (some ⟨p, p, S⟩) idx n chain = .ok chain' ∧
      List.Forall₂ IsVec chain' (pts ++ iterPts S A (η - β) ks n (pts.getLastD x₀)) := by
  induction n generalizing chain pts with
  | zero => exact ⟨chain, rfl, by simpa [iterPts] using hc⟩
  | succ n ih =>
    obtain ⟨e, he, hf⟩ := epoch_forall₂ S A hb hy h (forall₂_last hc hm)
    obtain ⟨c', h1, h2⟩ := ih (List.rel_append hc hf)
    refine ⟨c', ?_, ?_⟩
    · rw [iterateMore, lastOr, he, Py.ok_bind, h1]
    · rw [getLastD_append', List.getLastD_cons, List.append_assoc] at h2
      exact h2

theorem iterate_eval (S : Matrix (Fin p) (Fin p) ℝ) (A : Matrix (Fin d) (Fin p) ℝ)
    {b y : NArr} {β η : Fin d → ℝ} (hb : IsVec b β) (hy : IsVec y η) {idx : Option (List ℤ)}
    {ks : List (Fin d)} (h : Visits d idx ks) {m : NArr} {x : Fin p → ℝ} (hm : IsVec m x) (n : ℤ) :
    ∃ chain, iterate ⟨d, p, A⟩ b y m (some ⟨p, p, S⟩) n idx = .ok chain ∧
      List.Forall₂ IsVec chain (iterPts S A (η - β) ks (max n 1).toNat x) := by
  obtain ⟨e, he, hf⟩ := epoch_forall₂ S A hb hy h hm
  obtain ⟨c, h1, h2⟩ := iterateMore_eval S A hb hy h hm (n - 1).toNat hf
  refine ⟨c, by rw [iterate, he, Py.ok_bind, h1], ?_⟩
  have hn : (max n 1).toNat = (n - 1).toNat + 1 := by omega
  rw [hn]
  rw [List.getLastD_cons] at h2
  exact h2

/-- With 1-D input all entries of the chain are 1-D. -/
theorem iterate_eval_vec (S : Matrix (Fin p) (Fin p) ℝ) (A : Matrix (Fin d) (Fin p) ℝ)
    {b y : NArr} {β η : Fin d → ℝ} (hb : IsVec b β) (hy : IsVec y η) {idx : Option (List ℤ)}
    {ks : List (Fin d)} (h : Visits d idx ks) (x : Fin p → ℝ) (n : ℤ) :
    iterate ⟨d, p, A⟩ b y (.vec p x) (some ⟨p, p, S⟩) n idx
      = .ok ((iterPts S A (η - β) ks (max n 1).toNat x).map (NArr.vec p)) := by
  have more : ∀ (k : ℕ) (pts : List (Fin p → ℝ)),
      iterateMore ⟨d, p, A⟩ b y (.vec p x) (some ⟨p, p, S⟩) idx k (pts.map (NArr.vec p))
        = .ok ((pts ++ iterPts S A (η - β) ks k (pts.getLastD x)).map (NArr.vec p)) := by
    intro k
    induction k with
    | zero => intro pts; simp [iterateMore, iterPts]
    | succ k ih =>
      intro pts
      have hl : lastOr (pts.map (NArr.vec p)) (.vec p x) = .vec p (pts.getLastD x) := by
        rw [lastOr, List.getLastD_eq_getLast?, List.getLastD_eq_getLast?, List.getLast?_map]
        cases pts.getLast? <;> rfl
      rw [iterateMore, hl, performEpoch_eval S A hb hy h (Or.inl rfl), Py.ok_bind,
        ← List.map_cons, ← List.map_append, ih, getLastD_append', List.getLastD_cons,
        List.append_assoc]
      rfl
  rw [iterate, performEpoch_eval S A hb hy h (Or.inl rfl), Py.ok_bind, ← List.map_cons, more]
  have hn : (max n 1).toNat = (n - 1).toNat + 1 := by omega
  rw [hn, List.getLastD_cons]
  rfl

theorem pairwise_last {α : Type} {R : α → α → Prop} (hr : ∀ u, R u u) (l : List α) (x : α)
    (h : List.Pairwise R (x :: l)) : ∀ u ∈ x :: l, R u (l.getLastD x) := by
  induction l generalizing x with
  | nil => intro u hu; rw [List.mem_singleton.1 hu]; exact hr x
  | cons a l ih =>
    intro u hu
    rw [List.getLastD_cons]
    rw [List.pairwise_cons] at h
    rcases List.mem_cons.1 hu with rfl | hu
    · apply h.1
      rcases List.eq_nil_or_concat l with rfl | ⟨l', b, rfl⟩
      · simp
      · simp
    · exact ih a h.2 u hu

end Verif
