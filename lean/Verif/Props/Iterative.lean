import Verif.Model.Iterative
import Verif.Props.Linear

/-!
# Property C20: `IterativeLinearProblem.solve` and `iter_lin_solve`

The full property ("return the last point of the chain of row-by-row MUD solutions") is false of
the code: whenever there is a row to visit the call raises, because keyword arguments that the
callee does not have are passed.  What is proved: that refutation, for every problem, and the
degenerate case in which the claim holds.  (The working implementation of the same algorithm is
`funs.iterate`, C16–C19.)
-/

open Matrix

namespace Verif

/-- A weak consequence of the claim: for a fresh, well-posed problem over `d` rows,
`solve(num_epochs=n)` with `n ≥ 1` returns some point at all. -/
def C20_claim : Prop :=
  ∀ (d p : ℕ) (A : Matrix (Fin d) (Fin p) ℝ) (b y : Fin d → ℝ) (m : Fin p → ℝ)
    (S : Matrix (Fin p) (Fin p) ℝ), S.PosDef → (∀ i, A i ≠ 0) → ∀ n : ℕ, 1 ≤ n →
    ∃ x, (ILP.solve n "mud" (ILP.new (.mat ⟨d, p, A⟩) (some (.vec d b)) (some (.vec d y))
      (some (.vec p m)) (some ⟨p, p, S⟩))).1 = .ok x

theorem pyIndex_cases (n : ℕ) (i : ℤ) :
    (∃ k, pyIndex n i = .ok k) ∨ pyIndex n i = .error .indexError := by
  by_cases h : 0 ≤ (if i < 0 then i + (n : ℤ) else i) ∧ (if i < 0 then i + (n : ℤ) else i) < n
  · exact Or.inl ⟨_, dif_pos h⟩
  · exact Or.inr (dif_neg h)

theorem index_cases (x : NArr) (i : ℤ) :
    (∃ k, x.index i = .ok k) ∨ x.index i = .error .indexError := by
  cases x with
  | scal x => exact Or.inr rfl
  | vec n v =>
    rcases pyIndex_cases n i with ⟨k, h⟩ | h
    · exact Or.inl ⟨.scal (v k), by simp [NArr.index, h]⟩
    · exact Or.inr (by simp [NArr.index, h])
  | mat A =>
    rcases pyIndex_cases A.r i with ⟨k, h⟩ | h
    · exact Or.inl ⟨.vec A.c fun j => A.m k j, by simp [NArr.index, h]⟩
    · exact Or.inr (by simp [NArr.index, h])

/-- As soon as there is an index to visit no call of `solve` succeeds (`TypeError`, or
`IndexError` for an index out of range), whatever the problem, method and number of epochs; the
object is left unchanged. -/
theorem C20_solve_raises (P : ILP) (hP : P.idx_order ≠ [])
    (hc : P.solution_chains = []) (n : ℤ) (hn : 1 ≤ n) (method : String) :
    ((ILP.solve n method P).1 = .error .typeError ∨ (ILP.solve n method P).1 = .error .indexError) ∧
      (ILP.solve n method P).2 = P := by
  obtain ⟨i, is, hi⟩ := List.exists_cons_of_ne_nil hP
  obtain ⟨k, hk⟩ : ∃ k, n.toNat = k + 1 := ⟨n.toNat - 1, by omega⟩
  have hstep : P.step method P.mu_i i = .error .typeError ∨
      P.step method P.mu_i i = .error .indexError := by
    have hb : bindCall LGP.params 0 3 ["mean", "cov", "data_cov"] = .error .typeError := by
      unfold bindCall
      rw [if_neg]
      rintro ⟨-, h, -⟩
      have := h "mean" (by simp)
      revert this
      decide
    unfold ILP.step
    rcases pyIndex_cases P.A.r i with ⟨k, h1⟩ | h1 <;> rw [h1]
    · rcases index_cases (.mat P.b) i with ⟨bi, h2⟩ | h2 <;> simp only [Py.ok_bind] <;> rw [h2]
      · rcases index_cases P.y i with ⟨yi, h3⟩ | h3 <;> simp only [Py.ok_bind] <;> rw [h3]
        · left; simp [hb]
        · right; rfl
      · right; rfl
    · right; rfl
  have hrun : ∀ e, P.step method P.mu_i i = .error e →
      ILP.solve n method P = (.error e, P) := by
    intro e he
    simp [ILP.solve, PyM.bind_run, hc, hk, ILP.epochs, hi, ILP.epoch, he]
  rcases hstep with h | h
  · rw [hrun _ h]; exact ⟨Or.inl rfl, rfl⟩
  · rw [hrun _ h]; exact ⟨Or.inr rfl, rfl⟩

/-- With every index in range the exception is `TypeError`. -/
theorem C20_solve_type_error {d p : ℕ} (A : Matrix (Fin d) (Fin p) ℝ) (b y : Fin d → ℝ)
    (m : Fin p → ℝ) (S : Matrix (Fin p) (Fin p) ℝ) (hd : 0 < d) (n : ℤ) (hn : 1 ≤ n)
    (method : String) :
    (ILP.solve n method (ILP.new (.mat ⟨d, p, A⟩) (some (.vec d b)) (some (.vec d y))
      (some (.vec p m)) (some ⟨p, p, S⟩))).1 = .error .typeError := by
  obtain ⟨k, hk⟩ : ∃ k, n.toNat = k + 1 := ⟨n.toNat - 1, by omega⟩
  obtain ⟨d, rfl⟩ : ∃ e, d = e + 1 := ⟨d - 1, by omega⟩
  have hb : bindCall LGP.params 0 3 ["mean", "cov", "data_cov"] = .error .typeError := by
    unfold bindCall
    rw [if_neg]
    rintro ⟨-, h, -⟩
    have := h "mean" (by simp)
    revert this
    decide
  have h0 : ∀ n : ℕ, pyIndex (n + 1) 0 = .ok 0 := by
    intro n
    unfold pyIndex
    simp
  simp [ILP.solve, ILP.new, PyM.bind_run, hk, ILP.epochs, List.range_succ_eq_map, ILP.epoch,
    ILP.step, NArr.toRow2, NArr.toCol, NArr.index, h0, hb, Arr2.col]

theorem C20_claim_refuted : ¬ C20_claim := by
  intro h
  obtain ⟨x, hx⟩ := h 1 1 1 0 0 0 1 Matrix.PosDef.one
    (fun i hi => by have := congrFun hi i; simp at this) 1 le_rfl
  rw [C20_solve_type_error 1 0 0 0 1 one_pos _ (by norm_num)] at hx
  cases hx

/-- `iter_lin_solve` raises `TypeError` on every input. -/
theorem C20_iter_lin_solve_refuted (A : NArr) (b y mean : Option NArr) (cov data_cov : Option Arr2)
    (method : String) (n : ℤ) (idx : Option (List ℤ)) :
    iterLinSolve A b y mean cov data_cov method n idx = .error .typeError := by
  have hb : bindCall ILP.params 2 1 ["b", "y", "mean_i", "cov_i", "cov_o", "alpha", "idx_order"]
      = .error .typeError := by
    unfold bindCall
    rw [if_neg]
    rintro ⟨-, h, -⟩
    have := h "mean_i" (by simp)
    revert this
    decide
  simp [iterLinSolve, hb]

/-- The part of the claim that holds: with no row to visit and at least one epoch, `solve`
returns the initial mean (the last point of the empty chain), however often it is called. -/
theorem C20_empty_partial (A : NArr) (b y mu : Option NArr) (cov data_cov : Option Arr2) (n : ℕ)
    (hn : 1 ≤ n) (method : String) :
    (ILP.solve n method (ILP.new A b y mu cov data_cov (some []))).1
      = .ok (ILP.new A b y mu cov data_cov (some [])).mu_i := by
  have key : ∀ (n : ℕ) (P : ILP) (m : Arr2), P.idx_order = [] →
      ILP.epochs method n m P = (.ok (), { P with
        solution_chains := P.solution_chains ++ List.replicate n [m] }) := by
    intro n
    induction n with
    | zero => intro P m _; simp [ILP.epochs]
    | succ n ih =>
      intro P m h
      simp only [ILP.epochs, PyM.get_bind_run, h, ILP.epoch, PyM.lift_ok_bind, PyM.modify_bind_run,
        List.getLastD_cons, List.getLastD_nil]
      have := ih { P with solution_chains := P.solution_chains ++ [[m]] } m h
      rw [h] at this
      rw [this]
      simp [List.replicate_succ]
  obtain ⟨k, rfl⟩ : ∃ k, n = k + 1 := ⟨n - 1, by omega⟩
  set P := ILP.new A b y mu cov data_cov (some []) with hP
  have h1 : P.idx_order = [] := rfl
  have h2 : P.solution_chains = [] := rfl
  have := key (k + 1) P P.mu_i h1
  have e : ILP.solve ((k + 1 : ℕ) : ℤ) method P = (.ok P.mu_i, { P with
      solution_chains := P.solution_chains ++ List.replicate (k + 1) [P.mu_i] }) := by
    unfold ILP.solve
    rw [PyM.get_bind_run, if_pos (by rw [h2]; rfl), PyM.lift_ok_bind, PyM.bind_run,
      Int.toNat_natCast, this]
    simp [ILP.last, List.getLast?_replicate]
  rw [e]

/-- With `num_epochs ≤ 0` a fresh problem has no chain to return: `IndexError`. -/
theorem C20_no_epochs (A : NArr) (b y mu : Option NArr) (cov data_cov : Option Arr2)
    (idx : Option (List ℤ)) (n : ℤ) (hn : n ≤ 0) (method : String) :
    (ILP.solve n method (ILP.new A b y mu cov data_cov idx)).1 = .error .indexError := by
  have h0 : n.toNat = 0 := by omega
  have h2 : (ILP.new A b y mu cov data_cov idx).solution_chains = [] := rfl
  simp [ILP.solve, PyM.bind_run, h2, h0, ILP.epochs, ILP.last]

/-! ### Cases meeting the hypotheses -/

/-- Two equations in two unknowns, rows visited as `[1, 0]`: `solve(3)` raises and changes nothing. -/
example : ∀ P, P = ILP.new (.mat ⟨2, 2, !![1, 2; 3, 4]⟩) (some (.vec 2 ![0, 1])) (some (.vec 2 ![5, 6])) none none none
      (some [1, 0]) →
    ((ILP.solve 3 "mud" P).1 = .error .typeError ∨ (ILP.solve 3 "mud" P).1 = .error .indexError) ∧
      (ILP.solve 3 "mud" P).2 = P := by
  rintro P rfl
  exact C20_solve_raises _ (by simp [ILP.new]) rfl 3 (by norm_num) "mud"

/-- The same problem with no rows to visit returns the initial mean `0`; with no epochs it raises. -/
example :
    (ILP.solve 3 "mud" (ILP.new (.mat ⟨2, 2, !![1, 2; 3, 4]⟩) none none none none none (some []))).1 =
      .ok (Arr2.zeros 2 1) ∧
    (ILP.solve (-1) "mud" (ILP.new (.mat ⟨2, 2, !![1, 2; 3, 4]⟩) none none none none none none)).1 =
      .error .indexError :=
  ⟨C20_empty_partial _ _ _ _ _ _ 3 (by norm_num) "mud", C20_no_epochs _ _ _ _ _ _ _ (-1) (by norm_num) "mud"⟩

end Verif
