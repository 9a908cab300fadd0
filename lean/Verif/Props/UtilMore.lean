import Verif.Props.Util

/-!
# `add_noise` on 2-D signals (C66)
-/

namespace Verif

open ND SpecST STP

variable {σ : Type} (G : Rng σ)

/-- **C66 for a single row** `(1, m)`. -/
theorem C66_row_partial (signal : ND) {m : ℕ} (hs : signal.shape = [1, m]) (sd : ℝ) (seed : Option ℕ) (s : σ) :
    ∃ r, addNoise G signal sd seed s = (.ok r, stateAfter G (startState G seed s) m) ∧ r.shape = [1, m] ∧
      ∀ k < m, r.data.getD k 0 = signal.data.getD k 0 + sd * nthDraw G (startState G seed s) k := by
  have hl : signal.data.length = m := by rw [signal.size_eq, hs]; simp
  rw [addNoise_run, hl]
  simp only [ND.addVec, hs]
  simp only [List.getLast?_cons_cons, List.getLast?_singleton, List.length_map, List.length_range, Arr2.bdim_self]
  refine ⟨_, rfl, rfl, fun k hk => ?_⟩
  have hb : InB [1, m] [0, k] := ⟨Nat.zero_lt_one, hk, trivial⟩
  have ho : offset [1, m] [0, k] = k := by simp [offset]
  have e := get_ofFn (f := fun idx => signal.get (idx.dropLast ++ [if m = 1 then 0 else idx.getLastD 0]) +
      ((List.range m).map fun i => nthDraw G (startState G seed s) i * sd).getD (if m = 1 then 0 else idx.getLastD 0) 0) hb
  rw [ND.get, ofFn_shape, ho] at e
  have h1 : (if m = 1 then 0 else k) = k := by split <;> omega
  refine Eq.trans ?_ (e.trans ?_)
  · rfl
  · simp [hs, offset, h1, ND.get, List.getD_eq_getElem?_getD, hk, mul_comm]

/-- **C66, exactly when it holds for tables**: for a non-empty 2-D signal the result has the signal's shape if and only if
there is one row (and then the values are as claimed). -/
theorem C66_table_exact (signal : ND) {n m : ℕ} (hs : signal.shape = [n, m]) (hn : 0 < n) (hm : 0 < m) (sd : ℝ)
    (seed : Option ℕ) (s : σ) :
    (∃ r s', addNoise G signal sd seed s = (.ok r, s') ∧ r.shape = signal.shape ∧ ∀ k < signal.data.length,
        r.data.getD k 0 = signal.data.getD k 0 + sd * nthDraw G (startState G seed s) k) ↔ n = 1 := by
  constructor
  · rintro ⟨r, s', h, hr, -⟩
    by_contra hne
    by_cases h1 : m = 1
    · subst h1
      obtain ⟨r', h2, h3, -⟩ := C66_column G signal hs (by omega) sd seed s
      rw [h] at h2
      cases h2
      rw [hr, hs] at h3
      injection h3 with _ h3
      injection h3 with h3
      omega
    · have h2 := C66_table G signal hs (by omega) (by omega) sd seed s
      rw [h] at h2
      cases h2
  · rintro rfl
    obtain ⟨r, h1, h2, h3⟩ := C66_row_partial G signal hs sd seed s
    have hl : signal.data.length = m := by rw [signal.size_eq, hs]; simp
    exact ⟨r, _, h1, h2.trans hs.symm, fun k hk => h3 k (by omega)⟩

/-- A row of three, a column of three. -/
example (s : σ) : (∃ r s', addNoise G (ndOfNats [1, 3] [1, 2, 3] rfl) 2 (some 5) s = (.ok r, s') ∧ r.shape = [1, 3]) ∧
    ¬ ∃ r s', addNoise G (ndOfNats [3, 1] [1, 2, 3] rfl) 2 (some 5) s = (.ok r, s') ∧ r.shape = [3, 1] := by
  constructor
  · obtain ⟨r, s', h, h', -⟩ := (C66_table_exact G (ndOfNats [1, 3] [1, 2, 3] rfl) rfl one_pos (by norm_num) 2 (some 5) s).2 rfl
    exact ⟨r, s', h, h'⟩
  · rintro ⟨r, s', h, h'⟩
    obtain ⟨r', h2, h3, -⟩ := C66_column G (ndOfNats [3, 1] [1, 2, 3] rfl) rfl (by norm_num) 2 (some 5) s
    rw [h] at h2
    cases h2
    rw [h'] at h3
    cases h3

end Verif
