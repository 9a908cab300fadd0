import Verif.Model.Wme
import Verif.Spec
import Verif.Lemmas.Small
import Verif.Lemmas.LinearRun

/-!
# Properties C21, C22: the weighted mean error functional
-/

open Matrix

namespace Verif

variable {n S : ℕ}

/-- The weighted mean error of one row of predictions. -/
noncomputable def wmeSpec (sd : ℝ) (pred data : Fin n → ℝ) : ℝ :=
  (∑ j, (pred j - data j)) / (sd * Real.sqrt n)

theorem sub_rowvec (P : Matrix (Fin S) (Fin n) ℝ) (d : Fin n → ℝ) :
    Arr2.sub ⟨S, n, P⟩ (Arr2.row d) = .ok ⟨S, n, .of fun i j => P i j - d j⟩ := by
  have hN : Arr2.bdim S 1 = some S := by unfold Arr2.bdim; split <;> simp_all
  simp only [Arr2.sub, Arr2.zipB, Arr2.row, hN, Arr2.bdim_self]
  congr 2
  ext i j
  simp only [of_apply]
  rw [Arr2.bget_mk]
  congr 1
  have := Arr2.bget_mk (.of fun (_ : Fin 1) (j : Fin n) => d j) 0 j
  simp only [of_apply] at this
  rw [← this]
  simp [Arr2.bget]

/-- Evaluation: the general formula, with the float special values that arise for `sd = 0`. -/
theorem wme_eval (P : Matrix (Fin S) (Fin n) ℝ) (d : Fin n → ℝ) (sd : Option ℝ) :
    wme (.mat ⟨S, n, P⟩) (.vec n d) sd =
      .ok (List.ofFn fun i => ∑ j, F.fin 1 /
        (sd.elim (npStd (.vec n d)) F.fin * .fin (Real.sqrt n)) * .fin (P i j - d j)) := by
  unfold wme
  simp only [Py.pure_eq, Py.ok_bind, NArr.len, ne_eq, not_true_eq_false, not_false_eq_true,
    raiseIf_false, NArr.bcast2, sub_rowvec]
  cases sd <;> rfl

theorem wme_row_fin (pred data : Fin n → ℝ) {s : ℝ} (hs : s ≠ 0) (hn : 0 < n) :
    ∑ j, F.fin 1 / (F.fin s * .fin (Real.sqrt n)) * .fin (pred j - data j)
      = .fin (wmeSpec s pred data) := by
  have hq : Real.sqrt n ≠ 0 := (Real.sqrt_pos.2 (by exact_mod_cast hn)).ne'
  have hne : s * Real.sqrt n ≠ 0 := mul_ne_zero hs hq
  simp only [F.fin_mul, F.fin_div_of_ne _ hne, F.sum_fin, wmeSpec]
  rw [← Finset.mul_sum]
  congr 1
  field_simp

/-! ## C21 -/

/-- `wme(predictions, data, sd)[i] = (1/(sd √N)) Σ_j (predictions[i,j] - data[j])`. -/
theorem C21_formula (P : Matrix (Fin S) (Fin n) ℝ) (d : Fin n → ℝ) (s : ℝ) (hs : s ≠ 0)
    (hn : 0 < n) :
    wme (.mat ⟨S, n, P⟩) (.vec n d) (some s) =
      .ok (List.ofFn fun i => F.fin (1 / (s * Real.sqrt n) * ∑ j, (P i j - d j))) := by
  rw [wme_eval]
  congr 2
  funext i
  refine (wme_row_fin (P i) d hs hn).trans ?_
  rw [wmeSpec]
  congr 1; ring

/-- When `sd` is omitted the population standard deviation of the data is used (data not all
equal). -/
theorem C21_default_sd (P : Matrix (Fin S) (Fin n) ℝ) (d : Fin n → ℝ) (hd : ∃ i j, d i ≠ d j) :
    0 < popVar d ∧ wme (.mat ⟨S, n, P⟩) (.vec n d) none =
      wme (.mat ⟨S, n, P⟩) (.vec n d) (some (Real.sqrt (popVar d))) := by
  obtain ⟨i, j, hij⟩ := hd
  have hn : 0 < n := i.pos
  refine ⟨?_, ?_⟩
  · unfold popVar
    refine div_pos (lt_of_le_of_ne (Finset.sum_nonneg fun _ _ => sq_nonneg _) ?_)
      (by exact_mod_cast hn)
    intro h
    have h0 := (Finset.sum_eq_zero_iff_of_nonneg fun _ _ => sq_nonneg _).1 h.symm
    have hi := pow_eq_zero_iff (two_ne_zero) |>.1 (h0 i (Finset.mem_univ _))
    have hj := pow_eq_zero_iff (two_ne_zero) |>.1 (h0 j (Finset.mem_univ _))
    exact hij (by linarith)
  · rw [wme_eval, wme_eval]
    simp only [npStd, hn.ne', if_false, Option.elim]

/-- It vanishes when every prediction equals its datum. -/
theorem C21_zero (d : Fin n → ℝ) (s : ℝ) (hs : s ≠ 0) (hn : 0 < n) :
    wme (.mat ⟨S, n, .of fun _ j => d j⟩) (.vec n d) (some s) = .ok (List.replicate S (F.fin 0)) := by
  rw [C21_formula _ _ _ hs hn]
  simp [List.ofFn_const]

/-- It is affine in the predictions: predictions of a weighted average are averaged. -/
theorem C21_affine (P Q : Matrix (Fin S) (Fin n) ℝ) (d : Fin n → ℝ) (s t : ℝ) (hs : s ≠ 0)
    (hn : 0 < n) : ∃ u v w : Fin S → ℝ,
      wme (.mat ⟨S, n, P⟩) (.vec n d) (some s) = .ok (List.ofFn fun i => F.fin (u i)) ∧
      wme (.mat ⟨S, n, Q⟩) (.vec n d) (some s) = .ok (List.ofFn fun i => F.fin (v i)) ∧
      wme (.mat ⟨S, n, .of fun i j => t * P i j + (1 - t) * Q i j⟩) (.vec n d) (some s)
        = .ok (List.ofFn fun i => F.fin (w i)) ∧
      ∀ i, w i = t * u i + (1 - t) * v i := by
  refine ⟨_, _, _, C21_formula P d s hs hn, C21_formula Q d s hs hn, C21_formula _ d s hs hn, ?_⟩
  intro i
  simp only [of_apply]
  rw [Finset.mul_sum, Finset.mul_sum, Finset.mul_sum, Finset.mul_sum, Finset.mul_sum,
    ← Finset.sum_add_distrib]
  exact Finset.sum_congr rfl fun j _ => by ring

/-- The order of the observations is irrelevant (also for the default `sd`, and in the
degenerate cases `sd = 0`, no data). -/
theorem C21_perm (P : Matrix (Fin S) (Fin n) ℝ) (d : Fin n → ℝ) (sd : Option ℝ)
    (π : Equiv.Perm (Fin n)) :
    wme (.mat ⟨S, n, .of fun i j => P i (π j)⟩) (.vec n fun j => d (π j)) sd =
      wme (.mat ⟨S, n, P⟩) (.vec n d) sd := by
  have hstd : npStd (.vec n fun j => d (π j)) = npStd (.vec n d) := by
    simp only [npStd, popVar]
    have h1 : ∑ j, d (π j) = ∑ j, d j := Equiv.sum_comp π d
    rw [h1, Equiv.sum_comp π fun j => (d j - (∑ j, d j) / n) ^ 2]
  rw [wme_eval, wme_eval, hstd]
  congr 2
  funext i
  exact Equiv.sum_comp π fun j => F.fin 1 /
        (sd.elim (npStd (.vec n d)) F.fin * .fin (Real.sqrt n)) * F.fin (P i j - d j)

/-- With `sd = 0` (also: omitted `sd` and constant data) no entry is finite. -/
theorem C21_zero_sd (P : Matrix (Fin S) (Fin n) ℝ) (d : Fin n → ℝ) (hn : 0 < n) :
    ∃ l, wme (.mat ⟨S, n, P⟩) (.vec n d) (some 0) = .ok l ∧ ∀ x ∈ l, ¬ x.isFin := by
  refine ⟨_, wme_eval P d _, fun x hx => ?_⟩
  obtain ⟨i, rfl⟩ := List.mem_ofFn' _ _ |>.1 hx
  have h0 : ∀ j, ¬ (F.fin 1 / (F.fin 0 * .fin (Real.sqrt n)) * .fin (P i j - d j)).isFin := by
    intro j
    rw [F.fin_mul, zero_mul, F.fin_div, if_pos rfl]
    exact F.mul_sgn fun h => F.infOf_not_fin 1 h.1
  have hadd : ∀ a b : F, ¬ a.isFin → ¬ (a + b).isFin := by
    intro a b ha
    cases a <;> cases b <;> simp_all [F.isFin] <;> intro h <;> exact h
  obtain ⟨k, rfl⟩ : ∃ k, n = k + 1 := ⟨n - 1, by omega⟩
  have e := Fin.sum_univ_succ fun j => F.fin 1 / (F.fin 0 * .fin (Real.sqrt ((k + 1 : ℕ) : ℝ))) *
    F.fin (P i j - d j)
  have hne := hadd _ (∑ i_1 : Fin k, F.fin 1 / (F.fin 0 * .fin (Real.sqrt ((k + 1 : ℕ) : ℝ))) *
    F.fin (P i i_1.succ - d i_1.succ)) (h0 0)
  rw [← e] at hne
  exact hne

/-- C21 on two predictions of two data: `(1 - 0 + 3 - 2) / (2 √2)` and `(0 - 0 + 0 - 2) / (2 √2)`. -/
example : wme (.mat ⟨2, 2, !![1, 3; 0, 0]⟩) (.vec 2 ![0, 2]) (some 2) =
    .ok [F.fin (1 / (2 * Real.sqrt 2) * 2), F.fin (1 / (2 * Real.sqrt 2) * (-2))] := by
  rw [C21_formula _ _ _ two_ne_zero two_pos]
  simp [Fin.sum_univ_two]
  norm_num
  ring

/-- Data that are not all equal. -/
example : 0 < popVar ![(0 : ℝ), 2] := (C21_default_sd (S := 1) 0 ![0, 2] ⟨0, 1, by simp⟩).1

/-! ## C22 -/

/-- `ValueError` exactly when the number of columns differs from `len(data)`. -/
theorem C22_mismatch (P : Matrix (Fin S) (Fin n) ℝ) {k : ℕ} (d : Fin k → ℝ) (sd : Option ℝ) :
    (wme (.mat ⟨S, n, P⟩) (.vec k d) sd = .error .valueError ↔ n ≠ k) ∧
    ((∃ l, wme (.mat ⟨S, n, P⟩) (.vec k d) sd = .ok l) ↔ n = k) := by
  by_cases h : n = k
  · subst h
    rw [wme_eval]
    simp
  · have : wme (.mat ⟨S, n, P⟩) (.vec k d) sd = .error .valueError := by
      unfold wme
      simp [NArr.len, raiseIf_true, h]
    rw [this]; simp [h]

/-- A 1-D prediction is a single sample. -/
theorem C22_one_dim (v : Fin n → ℝ) (data : NArr) (sd : Option ℝ) :
    wme (.vec n v) data sd = wme (.mat (Arr2.row v)) data sd := rfl

/-- Data given as a single-element column behave like 1-D data. -/
theorem C22_column_partial (P : Matrix (Fin S) (Fin 1) ℝ) (d : Fin 1 → ℝ) (s : ℝ) :
    wme (.mat ⟨S, 1, P⟩) (.mat (Arr2.col d)) (some s) = wme (.mat ⟨S, 1, P⟩) (.vec 1 d) (some s) := by
  have : Arr2.col d = Arr2.row d := by
    simp only [Arr2.col, Arr2.row, Arr2.mk_inj]
    ext i j; fin_cases i; fin_cases j; rfl
  unfold wme
  simp only [NArr.bcast2, this]
  rfl

/-- The documented data shape `(n_features, 1)` does not work for more than one observation:
a single prediction that equals the data has weighted mean error 0, but with column data
the call returns two numbers, not 0. -/
theorem C22_column_refuted :
    wme (.mat ⟨1, 2, !![0, 1]⟩) (.vec 2 ![0, 1]) (some (1 / Real.sqrt 2)) = .ok [F.fin 0] ∧
    wme (.mat ⟨1, 2, !![0, 1]⟩) (.mat (Arr2.col ![0, 1])) (some (1 / Real.sqrt 2))
      = .ok [F.fin 1, F.fin (-1)] := by
  have h2 : Real.sqrt 2 ≠ 0 := by positivity
  constructor
  · rw [C21_formula _ _ _ (by positivity) (by norm_num)]
    simp
  · have hs : Arr2.sub ⟨1, 2, !![0, 1]⟩ (Arr2.col ![0, 1]) = .ok ⟨2, 2, !![0, 1; -1, 0]⟩ := by
      simp only [Arr2.sub, Arr2.zipB, Arr2.col, Arr2.bdim]
      norm_num
      ext i j; fin_cases i <;> fin_cases j <;> simp [Arr2.bget, Arr2.get]
    unfold wme
    simp only [NArr.len, Py.ok_bind, Py.pure_eq, Arr2.col_r, ne_eq, not_true_eq_false,
      not_false_eq_true, raiseIf_false, NArr.bcast2, hs]
    have hc : (F.fin (1 / Real.sqrt 2) * F.fin (Real.sqrt ((2 : ℕ) : ℝ))) = F.fin 1 := by
      rw [F.fin_mul]; push_cast; congr 1; field_simp
    rw [hc]
    simp [List.ofFn_succ, Fin.sum_univ_two, F.fin_div]

/-- ... and for every number of samples other than 1 and `n` it raises. -/
theorem C22_column_raises (P : Matrix (Fin S) (Fin n) ℝ) (d : Fin n → ℝ) (sd : Option ℝ)
    (hS : S ≠ 1) (hn : n ≠ 1) (h : S ≠ n) :
    wme (.mat ⟨S, n, P⟩) (.mat (Arr2.col d)) sd = .error .valueError := by
  have : Arr2.sub ⟨S, n, P⟩ (Arr2.col d) = .error .valueError := by
    simp [Arr2.sub, Arr2.zipB, Arr2.col, Arr2.bdim, *]
  unfold wme
  simp [NArr.len, NArr.bcast2, this, Arr2.col_r]

/-- Both outcomes of C22 occur: three samples of two predictions with two column data. -/
example : (∃ l, wme (.mat ⟨3, 2, 0⟩) (.vec 2 ![0, 2]) (some 2) = .ok l) ∧
    wme (.mat ⟨3, 2, 0⟩) (.mat (Arr2.col ![0, 2])) (some 2) = .error .valueError ∧
    wme (.mat ⟨3, 2, 0⟩) (.vec 1 ![0]) (some 2) = .error .valueError :=
  ⟨(C22_mismatch 0 ![0, 2] (some 2)).2.2 rfl, C22_column_raises 0 ![0, 2] (some 2) (by norm_num) (by norm_num)
    (by norm_num), (C22_mismatch 0 ![0] (some 2)).1.2 (by norm_num)⟩

end Verif
