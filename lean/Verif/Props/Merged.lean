import Verif.Props.DensitySelect

/-!
# C178: a repeated sample and one sample with the sum of the weights

`/repo/src/mud/base.py:134-420` (`DensityProblem`).
-/

namespace Verif

variable {env : Env} {n n' p d : ℕ}

/-- `d.pdf` gives each row of a table with `p` columns the density `α row`, as the product over the columns (this is
how initial and observed distributions are read). -/
def RowDensity (p : ℕ) (dist : Dist) (α : (Fin p → ℝ) → ℝ) : Prop :=
  ∀ n (A : Matrix (Fin n) (Fin p) ℝ), densAt dist ⟨n, p, A⟩ = .ok (List.ofFn fun i => F.fin (α (A i)))

/-- `d.pdf` gives each row the density `γ row`, as a flat array (this is how a predicted distribution is read). -/
def FlatDensity (p : ℕ) (dist : Dist) (γ : (Fin p → ℝ) → ℝ) : Prop :=
  ∀ n (A : Matrix (Fin n) (Fin p) ℝ), ∃ out, dist.pdf ⟨n, p, A⟩ = .ok out ∧
    out.ravel = List.ofFn fun i => F.fin (γ (A i))

/-- The problem `Q'` has one sample for each group of equal samples of `Q` (the samples `i` with `f i = k` are the
sample `k` of `Q'`), and its weight is the sum of their weights. -/
structure Merges (Q Q' : DP) (X : Matrix (Fin n) (Fin p) ℝ) (Y : Matrix (Fin n) (Fin d) ℝ) (w : Fin n → ℝ)
    (X' : Matrix (Fin n') (Fin p) ℝ) (Y' : Matrix (Fin n') (Fin d) ℝ) (f : Fin n → Fin n') : Prop where
  tabX : Q.X = ⟨n, p, X⟩
  tabY : Q.y = ⟨n, d, Y⟩
  weights : Q.weights = List.ofFn fun i => F.fin (w i)
  tabX' : Q'.X = ⟨n', p, X'⟩
  tabY' : Q'.y = ⟨n', d, Y'⟩
  weights' : Q'.weights = List.ofFn fun k => F.fin (∑ i with f i = k, w i)
  sameX : ∀ i j, X i j = X' (f i) j
  sameY : ∀ i j, Y i j = Y' (f i) j

/-- **C178, expected ratio.** With distributions whose density at a sample depends on its row alone and a predicted
density that is nowhere 0: repeated samples and merged samples with summed weights have the same expected ratio. -/
theorem C178_expected_ratio (Q Q' : DP) {X : Matrix (Fin n) (Fin p) ℝ} {Y : Matrix (Fin n) (Fin d) ℝ}
    {w : Fin n → ℝ} {X' : Matrix (Fin n') (Fin p) ℝ} {Y' : Matrix (Fin n') (Fin d) ℝ} {f : Fin n → Fin n'}
    (h : Merges Q Q' X Y w X' Y' f) (di do_ dp : Dist) {α : (Fin p → ℝ) → ℝ} {β γ : (Fin d → ℝ) → ℝ}
    (hi : RowDensity p di α) (ho : RowDensity d do_ β) (hp : FlatDensity d dp γ) (h0 : ∀ r, γ r ≠ 0) :
    (DP.expectedRatio env (Q'.after env [.setInitial (some di), .setObserved (some do_),
        .setPredicted (some dp) 0 none])).1 =
      (DP.expectedRatio env (Q.after env [.setInitial (some di), .setObserved (some do_),
        .setPredicted (some dp) 0 none])).1 := by
  have hY : ∀ i, Y i = Y' (f i) := fun i => funext (h.sameY i)
  rw [C34_weighted_mean Q di do_ dp _ w _ _ h.weights (by rw [h.tabX]; exact hi n X) (by rw [h.tabY]; exact ho n Y)
      (by rw [h.tabY]; exact hp n Y) fun k => h0 _,
    C34_weighted_mean Q' di do_ dp _ _ _ _ h.weights' (by rw [h.tabX']; exact hi n' X')
      (by rw [h.tabY']; exact ho n' Y') (by rw [h.tabY']; exact hp n' Y') fun k => h0 _]
  have e1 : ∑ k, ∑ i with f i = k, w i = ∑ i, w i := Finset.sum_fiberwise _ _ _
  have e2 : ∑ k, (∑ i with f i = k, w i) * (β (Y' k) / γ (Y' k)) = ∑ i, w i * (β (Y i) / γ (Y i)) := by
    rw [← Finset.sum_fiberwise (s := Finset.univ) (g := f) (f := fun i => w i * (β (Y i) / γ (Y i)))]
    refine Finset.sum_congr rfl fun k _ => ?_
    rw [Finset.sum_mul]
    refine Finset.sum_congr rfl fun i hi => ?_
    rw [hY, (Finset.mem_filter.1 hi).2]
  rw [e1, e2]

/-- Entrywise densities of one parameter are such densities. -/
theorem rowDensity_distOf (g : ℝ → ℝ) : RowDensity 1 (distOf g) fun r => g (r 0) := fun n A => by
  simp [densAt, distOf, FOut.prodRows, rowsOf, List.map_ofFn, Function.comp_def]

theorem flatDensity_distOf (g : ℝ → ℝ) : FlatDensity 1 (distOf g) fun r => g (r 0) := fun n A => by
  refine ⟨_, rfl, ?_⟩
  simp only [FOut.ravel, rowsOf]
  have e : (List.ofFn fun i => List.ofFn fun j => F.fin (g (A i j))) =
      (List.ofFn fun i => F.fin (g (A i 0))).map fun x => [x] := by
    simp [List.map_ofFn, Function.comp_def]
  rw [e]
  generalize (List.ofFn fun i => F.fin (g (A i 0))) = l
  induction l with
  | nil => rfl
  | cons x l ih => simpa using ih

/-- Three samples 0, 0, 1 of weight 1. -/
def repeatedP : DP where
  X := ⟨3, 1, !![(0 : ℝ); 0; 1]⟩
  y := ⟨3, 1, !![(0 : ℝ); 0; 1]⟩
  domain := ⟨1, 2, !![(0 : ℝ), 1]⟩
  domInt := false
  weights := [.fin 1, .fin 1, .fin 1]

/-- Two samples 0 and 1 of weights 2 and 1. -/
def mergedP : DP where
  X := ⟨2, 1, !![(0 : ℝ); 1]⟩
  y := ⟨2, 1, !![(0 : ℝ); 1]⟩
  domain := ⟨1, 2, !![(0 : ℝ), 1]⟩
  domInt := false
  weights := [.fin 2, .fin 1]

theorem merges_demo : Merges repeatedP mergedP !![(0 : ℝ); 0; 1] !![(0 : ℝ); 0; 1] (fun _ => 1)
    !![(0 : ℝ); 1] !![(0 : ℝ); 1] ![0, 0, 1] where
  tabX := rfl
  tabY := rfl
  weights := by simp [repeatedP]
  tabX' := rfl
  tabY' := rfl
  weights' := by
    have e0 : (Finset.univ.filter fun i : Fin 3 => (![0, 0, 1] : Fin 3 → Fin 2) i = 0).card = 2 := by decide
    have e1 : (Finset.univ.filter fun i : Fin 3 => (![0, 0, 1] : Fin 3 → Fin 2) i = 1).card = 1 := by decide
    simp [mergedP, e0, e1]
  sameX i j := by fin_cases i <;> fin_cases j <;> rfl
  sameY i j := by fin_cases i <;> fin_cases j <;> rfl

/-- The hypotheses of `C178_expected_ratio` are met by the three samples 0, 0, 1 and the merged two. -/
example := C178_expected_ratio (env := env) _ _ merges_demo (distOf fun _ => 1) (distOf fun x => 2 + x)
  (distOf fun x => 1 + x ^ 2) (rowDensity_distOf _) (rowDensity_distOf _) (flatDensity_distOf _)
  (fun r => by positivity)

/-- **C178, MUD point, the cases where it is the same.** If merging multiplies every weight by the same positive number
(for example: equal weights and each sample repeated `c` times) and one merged sample alone has the largest value, the
MUD points are the same. -/
theorem C178_mud_partial (Q Q' : DP) {X : Matrix (Fin n) (Fin p) ℝ} {Y : Matrix (Fin n) (Fin d) ℝ}
    {w : Fin n → ℝ} {X' : Matrix (Fin n') (Fin p) ℝ} {Y' : Matrix (Fin n') (Fin d) ℝ} {f : Fin n → Fin n'}
    (h : Merges Q Q' X Y w X' Y' f) (hf : Function.Surjective f) {c : ℝ} (hc : 0 < c)
    (hw : ∀ i, ∑ j with f j = f i, w j = c * w i) (di do_ dp : Dist)
    {α : (Fin p → ℝ) → ℝ} {β γ : (Fin d → ℝ) → ℝ}
    (hi : RowDensity p di α) (ho : RowDensity d do_ β) (hp : FlatDensity d dp γ) (h0 : ∀ r, γ r ≠ 0) (best : Fin n')
    (hb : ∀ k, k ≠ best → α (X' k) * (∑ i with f i = k, w i) * (β (Y' k) / γ (Y' k)) <
      α (X' best) * (∑ i with f i = best, w i) * (β (Y' best) / γ (Y' best))) :
    (DP.mudPoint env (Q'.after env [.setInitial (some di), .setObserved (some do_),
        .setPredicted (some dp) 0 none])).1 =
      (DP.mudPoint env (Q.after env [.setInitial (some di), .setObserved (some do_),
        .setPredicted (some dp) 0 none])).1 := by
  have hX : ∀ i, X i = X' (f i) := fun i => funext (h.sameX i)
  have hY : ∀ i, Y i = Y' (f i) := fun i => funext (h.sameY i)
  obtain ⟨i0, h0'⟩ := hf best
  obtain ⟨m, h1, -, h2⟩ := C28_mud_point_finite (env := env) Q di do_ dp (by have := i0.2; omega)
    (by rw [h.tabX]) _ w _ _ h.weights (by rw [h.tabX]; exact hi n X) (by rw [h.tabY]; exact ho n Y)
    (by rw [h.tabY]; exact hp n Y) fun k => h0 _
  obtain ⟨m', h1', -, h2'⟩ := C28_mud_point_finite (env := env) Q' di do_ dp (by have := best.2; omega)
    (by rw [h.tabX']) _ _ _ _ h.weights' (by rw [h.tabX']; exact hi n' X') (by rw [h.tabY']; exact ho n' Y')
    (by rw [h.tabY']; exact hp n' Y') fun k => h0 _
  have e' : m' = best := by
    by_contra hne
    exact absurd (h1' best) (not_le.2 (hb m' hne))
  have val : ∀ i, α (X' (f i)) * (∑ j with f j = f i, w j) * (β (Y' (f i)) / γ (Y' (f i))) =
      c * (α (X i) * w i * (β (Y i) / γ (Y i))) := fun i => by
    rw [hw, hX, hY]; ring
  have e : f m = best := by
    by_contra hne
    have a := hb (f m) hne
    rw [← h0', val, val] at a
    exact absurd (h1 i0) (not_le.2 (lt_of_mul_lt_mul_left a hc.le))
  rw [h2, h2', e']
  have key : ∀ (A B : Arr2) (hA : A = ⟨n, p, X⟩) (hB : B = ⟨n', p, X'⟩),
      (List.ofFn fun j : Fin B.c => B.get best j) = List.ofFn fun j : Fin A.c => A.get m j := by
    rintro A B rfl rfl
    congr 1
    funext j
    have := h.sameX m j
    rw [e] at this
    simp [Arr2.get, this]
  rw [key _ _ h.tabX h.tabX']

/-- Samples 0, 0, 1, 1 of weight 1. -/
def doubledP : DP where
  X := ⟨4, 1, !![(0 : ℝ); 0; 1; 1]⟩
  y := ⟨4, 1, !![(0 : ℝ); 0; 1; 1]⟩
  domain := ⟨1, 2, !![(0 : ℝ), 1]⟩
  domInt := false
  weights := [.fin 1, .fin 1, .fin 1, .fin 1]

/-- The hypotheses of `C178_mud_partial` are met: samples 0, 0, 1, 1 and samples 0, 1 of weight 2. -/
example := C178_mud_partial (env := env) doubledP { mergedP with weights := [.fin 2, .fin 2] }
  (X := !![(0 : ℝ); 0; 1; 1]) (Y := !![(0 : ℝ); 0; 1; 1]) (w := fun _ => 1) (X' := !![(0 : ℝ); 1])
  (Y' := !![(0 : ℝ); 1]) (f := ![0, 0, 1, 1])
  (by
    have e0 : (Finset.univ.filter fun i : Fin 4 => (![0, 0, 1, 1] : Fin 4 → Fin 2) i = 0).card = 2 := by decide
    have e1 : (Finset.univ.filter fun i : Fin 4 => (![0, 0, 1, 1] : Fin 4 → Fin 2) i = 1).card = 2 := by decide
    exact ⟨rfl, rfl, by simp [doubledP], rfl, rfl, by simp [e0, e1],
      fun i j => by fin_cases i <;> fin_cases j <;> rfl, fun i j => by fin_cases i <;> fin_cases j <;> rfl⟩)
  (by decide) (c := 2) (by norm_num)
  (fun i => by
    have e : ∀ i, (Finset.univ.filter fun j : Fin 4 =>
      (![0, 0, 1, 1] : Fin 4 → Fin 2) j = (![0, 0, 1, 1] : Fin 4 → Fin 2) i).card = 2 := by decide
    simp [e])
  (distOf fun _ => 1) (distOf fun x => 2 + x) (distOf fun _ => 1) (rowDensity_distOf _) (rowDensity_distOf _)
  (flatDensity_distOf _) (fun _ => one_ne_zero) 1
  (fun k hk => by
    have hk : k = 0 := by omega
    have e0 : (Finset.univ.filter fun i : Fin 4 => (![0, 0, 1, 1] : Fin 4 → Fin 2) i = 0).card = 2 := by decide
    have e1 : (Finset.univ.filter fun i : Fin 4 => (![0, 0, 1, 1] : Fin 4 → Fin 2) i = 1).card = 2 := by decide
    subst hk
    simp [e0, e1])

/-- Merging repeated samples leaves the MUD point the same. -/
def C178_mud_claim : Prop := ∀ (env : Env) (n n' p d : ℕ) (Q Q' : DP) (X : Matrix (Fin n) (Fin p) ℝ)
  (Y : Matrix (Fin n) (Fin d) ℝ) (w : Fin n → ℝ) (X' : Matrix (Fin n') (Fin p) ℝ) (Y' : Matrix (Fin n') (Fin d) ℝ)
  (f : Fin n → Fin n'), Merges Q Q' X Y w X' Y' f → ∀ (di do_ dp : Dist) (α : (Fin p → ℝ) → ℝ)
  (β γ : (Fin d → ℝ) → ℝ), RowDensity p di α → RowDensity d do_ β → FlatDensity d dp γ → (∀ r, γ r ≠ 0) →
    (DP.mudPoint env (Q'.after env [.setInitial (some di), .setObserved (some do_),
        .setPredicted (some dp) 0 none])).1 =
      (DP.mudPoint env (Q.after env [.setInitial (some di), .setObserved (some do_),
        .setPredicted (some dp) 0 none])).1

/-- **C178, MUD point.** Samples 0, 0, 1 and ratios 2, 2, 3: the MUD point is 1. Merged into the samples 0 and 1 with
weights 2 and 1 it is 0: the weight enters the value that is maximised. -/
theorem C178_mud_claim_refuted : ¬ C178_mud_claim := by
  intro hc
  let env : Env := ⟨fun _ _ _ => .ok []⟩
  have hA : (DP.mudPoint env (repeatedP.after env [.setInitial (some (distOf fun _ => 1)),
      .setObserved (some (distOf fun x => 2 + x)), .setPredicted (some (distOf fun _ => 1)) 0 none])).1 = .ok [1] := by
    obtain ⟨m, h1, -, h⟩ := C28_mud_point_finite (env := env) repeatedP (distOf fun _ => 1)
      (distOf fun x => 2 + x) (distOf fun _ => 1) (n := 3) (by norm_num) rfl _ (fun _ => 1) _ _
      merges_demo.weights (rowDensity_distOf _ 3 _) (rowDensity_distOf _ 3 _) (flatDensity_distOf _ 3 _)
      (fun k => one_ne_zero)
    rw [h]
    have : m = 2 := by
      fin_cases m
      · have : (1 : ℝ) * 1 * ((2 + 1) / 1) ≤ 1 * 1 * ((2 + 0) / 1) := h1 2
        norm_num at this
      · have : (1 : ℝ) * 1 * ((2 + 1) / 1) ≤ 1 * 1 * ((2 + 0) / 1) := h1 2
        norm_num at this
      · rfl
    subst this
    simp [repeatedP, Arr2.get]
  have hB : (DP.mudPoint env (mergedP.after env [.setInitial (some (distOf fun _ => 1)),
      .setObserved (some (distOf fun x => 2 + x)), .setPredicted (some (distOf fun _ => 1)) 0 none])).1 = .ok [0] := by
    obtain ⟨m, h1, -, h⟩ := C28_mud_point_finite (env := env) mergedP (distOf fun _ => 1)
      (distOf fun x => 2 + x) (distOf fun _ => 1) (n := 2) (by norm_num) rfl _ ![2, 1] _ _
      (by simp [mergedP]) (rowDensity_distOf _ 2 _) (rowDensity_distOf _ 2 _) (flatDensity_distOf _ 2 _)
      (fun k => one_ne_zero)
    rw [h]
    have : m = 0 := by
      have := h1 0
      fin_cases m
      · rfl
      · norm_num at this
    subst this
    simp [mergedP, Arr2.get]
  have := hc env _ _ _ _ _ _ _ _ _ _ _ _ merges_demo _ _ _ _ _ _ (rowDensity_distOf fun _ => 1)
    (rowDensity_distOf fun x => 2 + x) (flatDensity_distOf fun _ => 1) fun _ => one_ne_zero
  rw [hA, hB] at this
  simp at this

end Verif
