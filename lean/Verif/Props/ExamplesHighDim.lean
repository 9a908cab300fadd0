import Verif.Model.ExamplesHighDim
import Verif.Props.ExamplesLinear
import Verif.Props.MoreData
import Verif.Props.Svd
import Verif.Props.Chain

/-!
# C107: `run_high_dim_linear`
-/

open Matrix

namespace Verif

open SpecST

variable {σ : Type} {d p : ℕ}

/-! ## Specification -/

/-- `x`, `y`, `z` are the MUD, MAP and least squares solutions of the problem with operator `B`, data
`B lam` without noise, initial mean 0, initial covariance `α S` and unit data covariance: the MUD
point is the point with the data `B lam` that is closest to 0 in the norm of `S`, the least squares
point the one closest in the Euclidean norm, and the MAP point the minimiser of misfit plus prior. -/
structure ThreeSolutions (B : Matrix (Fin d) (Fin p) ℝ) (S : Matrix (Fin p) (Fin p) ℝ) (α : ℝ)
    (lam x y z : Fin p → ℝ) : Prop where
  mud_data : B *ᵥ x = B *ᵥ lam
  mud_min : ∀ x', B *ᵥ x' = B *ᵥ lam → x' ≠ x → mahal S x 0 < mahal S x' 0
  map_min : ∀ y', y' ≠ y → sqDist (B *ᵥ y) (B *ᵥ lam) + mahal (α • S) y 0 <
    sqDist (B *ᵥ y') (B *ᵥ lam) + mahal (α • S) y' 0
  ls_data : B *ᵥ z = B *ᵥ lam
  ls_min : ∀ z', B *ᵥ z' = B *ᵥ lam → z' ≠ z → sqDist z 0 < sqDist z' 0

/-- Relative error of `x`. -/
noncomputable def relDist (lam x : Fin p → ℝ) : ℝ := Real.sqrt (sqDist x lam) / Real.sqrt (sqDist lam 0)

/-- One row of errors: MUD, MAP, least squares. -/
def ErrRow (B : Matrix (Fin d) (Fin p) ℝ) (S : Matrix (Fin p) (Fin p) ℝ) (α : ℝ) (lam : Fin p → ℝ)
    (row : List F) : Prop :=
  ∃ x y z, ThreeSolutions B S α lam x y z ∧
    row = [.fin (relDist lam x), .fin (relDist lam y), .fin (relDist lam z)]

/-- The first `k` rows. -/
def firstRows (A : Matrix (Fin d) (Fin p) ℝ) {k : ℕ} (hk : k ≤ d) : Matrix (Fin k) (Fin p) ℝ :=
  A.submatrix (Fin.castLE hk) id

/-! ## One problem -/

theorem mahal_one_eq {n : ℕ} (x y : Fin n → ℝ) : mahal (1 : Matrix (Fin n) (Fin n) ℝ) x y = sqDist x y := by
  rw [mahal, inv_one, one_mulVec, sqDist_eq_dot]

/-- `solve('all')` on noise-free data. -/
theorem solve_all_exact (B : Matrix (Fin d) (Fin p) ℝ) (b : Fin d → ℝ) (S : Matrix (Fin p) (Fin p) ℝ)
    (hS : S.PosDef) {α : ℝ} (hα : 0 < α) (lam : Fin p → ℝ) :
    ∃ x y z, ThreeSolutions B S α lam x y z ∧
      (LGP.solve "all" none (LGP.typed B b (B *ᵥ lam + b) 0 S 1 α)).1 =
        .ok (.triple (Arr2.col x) (Arr2.col y) (Arr2.col z)) := by
  have hy : ∃ x₀, B *ᵥ x₀ + b = B *ᵥ lam + b := ⟨lam, rfl⟩
  obtain ⟨x, x1, x2, x3⟩ := C02_mud_minimises_distance B b (B *ᵥ lam + b) 0 S hS 1 α hα hy
  obtain ⟨y, y1, y2⟩ := C08_map_minimises B b (B *ᵥ lam + b) 0 S hS 1 PosDef.one α hα
  obtain ⟨z, z1, z2⟩ := ls_eq_mud B b (B *ᵥ lam + b) 0 S 1 α hy
  obtain ⟨z', z3, z4, z5⟩ := C02_mud_minimises_distance B b (B *ᵥ lam + b) 0 1 PosDef.one 1 1 one_pos hy
  obtain rfl := returns_unique z2 z3
  have hu := api_mud_alt B b (B *ᵥ lam + b) 0 S 1 α (by simp)
  have cancel : ∀ {u v : Fin p → ℝ}, B *ᵥ u + b = B *ᵥ v + b ↔ B *ᵥ u = B *ᵥ v := by
    intro u v; exact add_left_inj b
  have sd : ∀ u, mahal (1 : Matrix (Fin d) (Fin d) ℝ) (B *ᵥ u + b) (B *ᵥ lam + b) =
      sqDist (B *ᵥ u) (B *ᵥ lam) := by
    intro u
    rw [mahal_one_eq]
    simp [sqDist]
  refine ⟨x, y, z, ⟨cancel.1 x2, fun x' h => x3 x' (cancel.2 h), fun y' h => ?_, cancel.1 z4,
    fun z' h hne => ?_⟩, ?_⟩
  · have := y2 y' h
    rwa [sd, sd] at this
  · have := z5 z' (cancel.2 h) hne
    rwa [mahal_one_eq, mahal_one_eq] at this
  · have e : ∀ m, Api.solve m B b (B *ᵥ lam + b) 0 S 1 α =
        (LGP.solve m none (LGP.typed B b (B *ᵥ lam + b) 0 S 1 α)).1 := by
      intro m
      rw [Api.solve, new_typed]; rfl
    unfold Returns at x1 y1 z1 hu
    rw [e] at x1 y1 z1 hu
    exact (C11_all _ _ _ _ _).2 ⟨x1, y1, z1, _, hu⟩

theorem norm2_col (v : Fin p → ℝ) : ILPE.norm2 (Arr2.col v) = Real.sqrt (sqDist v 0) := by
  show Real.sqrt (∑ i : Fin p, ∑ j : Fin 1, _) = _
  simp [sqDist, Arr2.col]

theorem relErr_col {lam : Fin p → ℝ} (hl : lam ≠ 0) (x : Fin p → ℝ) :
    relErr (Arr2.col lam) (Arr2.col x) = .ok (.fin (relDist lam x)) := by
  unfold relErr
  rw [Arr2.sub_col, Py.ok_bind, norm2_col, norm2_col]
  have h0 : Real.sqrt (sqDist lam 0) ≠ 0 := by
    have hnn : 0 ≤ sqDist lam 0 := Finset.sum_nonneg fun _ _ => sq_nonneg _
    rw [Real.sqrt_ne_zero hnn]
    intro h
    apply hl
    funext i
    have := (Finset.sum_eq_zero_iff_of_nonneg fun i _ => sq_nonneg (lam i - (0 : Fin p → ℝ) i)).1 h i
      (Finset.mem_univ i)
    simpa using this
  rw [F.fin_div_of_ne _ h0]
  have : sqDist (x - lam) 0 = sqDist x lam := by simp [sqDist]
  rw [this]
  rfl

theorem errList_cols {lam : Fin p → ℝ} (hl : lam ≠ 0) (x y z : Fin p → ℝ) :
    errList (Arr2.col lam) (.triple (Arr2.col x) (Arr2.col y) (Arr2.col z)) =
      .ok [.fin (relDist lam x), .fin (relDist lam y), .fin (relDist lam z)] := by
  show [Arr2.col x, Arr2.col y, Arr2.col z].mapM (relErr (Arr2.col lam)) = _
  simp only [List.mapM_cons, List.mapM_nil, relErr_col hl]
  rfl

/-! ## The loops -/

section loops
variable (A : Matrix (Fin d) (Fin p) ℝ) (b : Fin d → ℝ) (S : Matrix (Fin p) (Fin p) ℝ) (hS : S.PosDef)
  {lam : Fin p → ℝ} (hl : lam ≠ 0) (ranks : List (Matrix (Fin d) (Fin p) ℝ))

/-- Rank problem of the step. -/
theorem rankProblem_typed {P : LGP} {α' : ℝ}
    (hP : SameProblem P (LGP.typed A b (A *ᵥ lam + b) 0 S 1 α')) (B : Matrix (Fin d) (Fin p) ℝ) (α : ℝ) :
    rankProblem P (Arr2.col lam) B α = .ok (LGP.typed B b (B *ᵥ lam + b) 0 S 1 α) := by
  obtain ⟨h1, h2, h3, h4, h5, h6, h7⟩ := hP
  unfold rankProblem
  rw [Arr2.matmul_col, Py.ok_bind, h2, h4, h5]
  show ((Arr2.col (B *ᵥ lam)).add (Arr2.col b) >>= fun y => LGP.new (.mat ⟨d, p, B⟩)
    (some (.mat (Arr2.col b))) (some (.mat y)) (some (.mat (Arr2.col 0))) (some ⟨p, p, S⟩) none (some α)) = _
  rw [Arr2.add_col, Py.ok_bind]
  unfold LGP.new
  have e : ∀ {n : ℕ} (v : Fin n → ℝ), (NArr.mat (Arr2.col v)).toCol = Arr2.col v := fun v =>
    Arr2.ravelCol_col v
  simp only [e, NArr.toRow2]
  rw [raiseIf_false (by simp [Arr2.col])]
  rfl

include hS hl in
theorem step_ok {P : LGP} {α : ℝ} (hα : 0 < α)
    (hP : SameProblem P (LGP.typed A b (A *ᵥ lam + b) 0 S 1 α)) {k : ℕ} (hk : k + 1 ≤ d)
    {B : Matrix (Fin d) (Fin p) ℝ} (hB : ranks[k]? = some B) :
    ∃ r r' P', highDimStep (Arr2.col lam) ranks α (k + 1) P = (.ok (r, r'), P') ∧
      SameProblem P' (LGP.typed A b (A *ᵥ lam + b) 0 S 1 α) ∧
      ErrRow (firstRows A hk) S α lam r ∧ ErrRow B S α lam r' := by
  have hsub : (1 : Matrix (Fin d) (Fin d) ℝ).submatrix (Fin.castLE hk) (Fin.castLE hk) = 1 :=
    submatrix_one _ (Fin.castLE_injective hk)
  have h1 : (LGP.solve "all" (some ((k + 1 : ℕ) : ℤ)) P).1 = (LGP.solve "all" none
      (LGP.typed (firstRows A hk) (b ∘ Fin.castLE hk) (firstRows A hk *ᵥ lam + b ∘ Fin.castLE hk) 0 S 1 α)).1 := by
    rw [solve_congr hP "all" (by simp [solveMethods]),
      output_dim_mud A b (A *ᵥ lam + b) 0 S 1 α hk (by simp [solveMethods]), hsub, Api.solve, new_typed]
    rfl
  obtain ⟨x, y, z, h2, h3⟩ := solve_all_exact (firstRows A hk) (b ∘ Fin.castLE hk) S hS hα lam
  obtain ⟨x', y', z', h4, h5⟩ := solve_all_exact B b S hS hα lam
  have hP' := (C11_solve_keeps_problem P "all" (some ((k + 1 : ℕ) : ℤ))).trans' hP
  refine ⟨_, _, (LGP.solve "all" (some ((k + 1 : ℕ) : ℤ)) P).2, ?_, hP', ⟨x, y, z, h2, rfl⟩, ⟨x', y', z', h4, rfl⟩⟩
  unfold highDimStep
  rw [PyM.bind_run]
  rcases hrun : LGP.solve "all" (some ((k + 1 : ℕ) : ℤ)) P with ⟨r, P'⟩
  rw [hrun] at h1 hP'
  have h6 : r = .ok (.triple (Arr2.col x) (Arr2.col y) (Arr2.col z)) := h1.trans h3
  subst h6
  simp only
  rw [PyM.get_bind_run, show listAt ranks (k + 1 - 1) = .ok B by unfold listAt; simp [hB],
    PyM.lift_ok_bind, rankProblem_typed A b S hP' B α, PyM.lift_ok_bind, h5, PyM.lift_ok_bind,
    errList_cols hl, PyM.lift_ok_bind, errList_cols hl, PyM.lift_ok_bind]
  rfl

include hS in
theorem step_err {P : LGP} {α : ℝ} (hα : 0 < α)
    (hP : SameProblem P (LGP.typed A b (A *ᵥ lam + b) 0 S 1 α)) {k : ℕ} (hk : k + 1 ≤ d)
    (hB : ranks[k]? = none) :
    (highDimStep (Arr2.col lam) ranks α (k + 1) P).1 = .error .indexError := by
  have hsub : (1 : Matrix (Fin d) (Fin d) ℝ).submatrix (Fin.castLE hk) (Fin.castLE hk) = 1 :=
    submatrix_one _ (Fin.castLE_injective hk)
  have h1 : (LGP.solve "all" (some ((k + 1 : ℕ) : ℤ)) P).1 = (LGP.solve "all" none
      (LGP.typed (firstRows A hk) (b ∘ Fin.castLE hk) (firstRows A hk *ᵥ lam + b ∘ Fin.castLE hk) 0 S 1 α)).1 := by
    rw [solve_congr hP "all" (by simp [solveMethods]),
      output_dim_mud A b (A *ᵥ lam + b) 0 S 1 α hk (by simp [solveMethods]), hsub, Api.solve, new_typed]
    rfl
  obtain ⟨x, y, z, h2, h3⟩ := solve_all_exact (firstRows A hk) (b ∘ Fin.castLE hk) S hS hα lam
  unfold highDimStep
  rw [PyM.bind_run]
  rcases hrun : LGP.solve "all" (some ((k + 1 : ℕ) : ℤ)) P with ⟨r, P'⟩
  rw [hrun] at h1
  have h6 : r = .ok (.triple (Arr2.col x) (Arr2.col y) (Arr2.col z)) := h1.trans h3
  subst h6
  simp only
  rw [PyM.get_bind_run, show listAt ranks (k + 1 - 1) = .error .indexError by unfold listAt; simp [hB]]
  rfl

include hS hl in
theorem loop_err {α : ℝ} (hα : 0 < α) : ∀ (ks : List ℕ) (_ : ∀ k ∈ ks, k < d)
    (_ : ∃ k ∈ ks, ranks[k]? = none) (P : LGP),
    SameProblem P (LGP.typed A b (A *ᵥ lam + b) 0 S 1 α) →
    (highDimLoop (Arr2.col lam) ranks α (ks.map (· + 1)) P).1 = .error .indexError := by
  intro ks
  induction ks with
  | nil => rintro - ⟨k, h, -⟩; cases h
  | cons k ks ih =>
    intro hks hex P hP
    have hk : k < d := hks k List.mem_cons_self
    rw [List.map_cons]
    show ((do
      let r ← highDimStep (Arr2.col lam) ranks α (k + 1)
      let rs ← highDimLoop (Arr2.col lam) ranks α (ks.map (· + 1))
      return r :: rs : PyM LGP _) P).1 = _
    rw [PyM.bind_run]
    rcases hB : ranks[k]? with _ | B
    · have := step_err A b S hS ranks hα hP (k := k) hk hB
      rcases hrun : highDimStep (Arr2.col lam) ranks α (k + 1) P with ⟨r, P'⟩
      rw [hrun] at this
      simp only at this
      subst this
      rfl
    · obtain ⟨r, r', P1, h1, h2, h3, h4⟩ := step_ok A b S hS hl ranks hα hP (k := k) hk hB
      have hex' : ∃ k ∈ ks, ranks[k]? = none := by
        obtain ⟨j, hj, hj'⟩ := hex
        rcases List.mem_cons.1 hj with rfl | hj
        · rw [hB] at hj'; cases hj'
        · exact ⟨j, hj, hj'⟩
      have := ih (fun k h => hks k (List.mem_cons_of_mem _ h)) hex' P1 h2
      rw [h1]
      simp only
      rw [PyM.bind_run]
      rcases hrun : highDimLoop (Arr2.col lam) ranks α (ks.map (· + 1)) P1 with ⟨r, P'⟩
      rw [hrun] at this
      simp only at this
      subst this
      rfl

include hS hl in
theorem loop_ok {α : ℝ} (hα : 0 < α) (R : ℕ → Matrix (Fin d) (Fin p) ℝ)
    (hR : ∀ k < d, ranks[k]? = some (R k)) : ∀ (ks : List ℕ) (_ : ∀ k ∈ ks, k < d) (P : LGP),
    SameProblem P (LGP.typed A b (A *ᵥ lam + b) 0 S 1 α) →
    ∃ rs P', highDimLoop (Arr2.col lam) ranks α (ks.map (· + 1)) P = (.ok rs, P') ∧
      SameProblem P' (LGP.typed A b (A *ᵥ lam + b) 0 S 1 α) ∧
      List.Forall₂ (fun k r => (∃ hk : k + 1 ≤ d, ErrRow (firstRows A hk) S α lam r.1) ∧
        ErrRow (R k) S α lam r.2) ks rs := by
  intro ks
  induction ks with
  | nil => intro _ P hP; exact ⟨[], P, rfl, hP, .nil⟩
  | cons k ks ih =>
    intro hks P hP
    have hk : k < d := hks k List.mem_cons_self
    obtain ⟨r, r', P1, h1, h2, h3, h4⟩ := step_ok A b S hS hl ranks hα hP (k := k) hk (hR k hk)
    obtain ⟨rs, P2, g1, g2, g3⟩ := ih (fun k h => hks k (List.mem_cons_of_mem _ h)) P1 h2
    refine ⟨(r, r') :: rs, P2, ?_, g2, .cons ⟨⟨hk, h3⟩, h4⟩ g3⟩
    rw [List.map_cons]
    show (do
      let r ← highDimStep (Arr2.col lam) ranks α (k + 1)
      let rs ← highDimLoop (Arr2.col lam) ranks α (ks.map (· + 1))
      return r :: rs : PyM LGP _) P = _
    rw [PyM.bind_run, h1]
    simp only
    rw [PyM.bind_run, g1]
    rfl

/-- One table of errors per `α`. -/
def TableOk (R : ℕ → Matrix (Fin d) (Fin p) ℝ) (α : ℝ) (rows : List (List F × List F)) : Prop :=
  List.Forall₂ (fun k r => (∃ hk : k + 1 ≤ d, ErrRow (firstRows A hk) S α lam r.1) ∧
    ErrRow (R k) S α lam r.2) (List.range d) rows

include hS hl in
theorem alphas_ok (R : ℕ → Matrix (Fin d) (Fin p) ℝ)
    (hR : ∀ k < d, ranks[k]? = some (R k)) : ∀ (αs : List ℝ) (_ : ∀ α ∈ αs, 0 < α) (P : LGP) (α' : ℝ),
    SameProblem P (LGP.typed A b (A *ᵥ lam + b) 0 S 1 α') →
    ∃ rs P', highDimAlphas (Arr2.col lam) ranks d αs P = (.ok rs, P') ∧
      List.Forall₂ (TableOk A S (lam := lam) R) αs rs := by
  intro αs
  induction αs with
  | nil => intro _ P _ _; exact ⟨[], P, rfl, .nil⟩
  | cons α αs ih =>
    intro hαs P α' hP
    have hα := hαs α List.mem_cons_self
    have hP1 : SameProblem { P with alpha := α } (LGP.typed A b (A *ᵥ lam + b) 0 S 1 α) := by
      obtain ⟨a1, a2, a3, a4, a5, a6, a7⟩ := hP
      exact ⟨a1, a2, a3, a4, a5, a6, rfl⟩
    obtain ⟨r, P1, h1, h2, h3⟩ := loop_ok A b S hS hl ranks hα R hR (List.range d) (by simp)
      { P with alpha := α } hP1
    obtain ⟨rs, P2, g1, g2⟩ := ih (fun a h => hαs a (List.mem_cons_of_mem _ h)) P1 α h2
    refine ⟨r :: rs, P2, ?_, .cons h3 g2⟩
    show (do
      PyM.modify fun P => { P with alpha := α }
      let r ← highDimLoop (Arr2.col lam) ranks α ((List.range d).map (· + 1))
      let rs ← highDimAlphas (Arr2.col lam) ranks d αs
      return r :: rs : PyM LGP _) P = _
    rw [PyM.modify_bind_run, PyM.bind_run, h1]
    simp only
    rw [PyM.bind_run, g1]
    rfl

end loops

/-! ## C107 -/

/-- The matrix the code uses for rank `k + 1`: the first term alone, then the sum of the terms
`1 … k` (term 0 is missing; `codeTerm` has columns of `vh`, see C61). -/
noncomputable def codeRank {M N : ℕ} (o : SvdOut M N) (k : ℕ) : Matrix (Fin M) (Fin N) ℝ :=
  if k = 0 then codeTerm o 0 else ∑ i ∈ Finset.Icc 1 k, codeTerm o i

theorem rankDecomposition_code {M N : ℕ} {A : Matrix (Fin M) (Fin N) ℝ} {o : SvdOut M N}
    (h : IsSvd A o) (hN : N ≠ 0) (hle : N ≤ M) :
    ∃ L, rankDecomposition o = .ok L ∧ L.length = N ∧ ∀ k < N, L[k]? = some (codeRank o k) := by
  obtain ⟨L, h1, h2, h3, h4⟩ := C61_rank_decomposition_exact h hN hle
  refine ⟨L, h1, h2, fun k hk => ?_⟩
  cases k with
  | zero => rw [h3]; rfl
  | succ k => rw [h4 k hk]; simp [codeRank]

/-- The state of the generator at the start and the numbers drawn for `A`, `b` and the reference. -/
noncomputable def hdA (G : Gen σ) (di dO : ℕ) (seed : Option ℕ) (s : σ) : Matrix (Fin dO) (Fin di) ℝ :=
  drawMat G.normal (startState G.normal seed s) 0 dO di

noncomputable def hdRef (G : Gen σ) (di dO : ℕ) (seed : Option ℕ) (s : σ) : Fin di → ℝ :=
  drawVec G.normal (startState G.normal seed s) (dO * di + dO) di

variable {G : Gen σ} {svd : (A : Arr2) → SvdOut A.r A.c}

theorem lift_bind_fst {τ α β : Type} (x : Py α) (f : α → PyM τ β) (s : τ) :
    ((PyM.lift x >>= f) s).1 = x >>= fun a => (f a s).1 := by
  cases x <;> rfl

theorem runHighDim_start (hU : ∀ s, 0 ≤ (G.unif s).1) (di dO : ℕ) (seed : Option ℕ) (s : σ) :
    ∃ (b : Fin dO → ℝ) (v : Fin di → ℝ), (∀ i, 1 / 2 ≤ v i) ∧ Antitone v ∧
      (runHighDim G svd di dO seed s).1 = (do
        let ranks ← rankDecomposition (svd ⟨dO, di, hdA G di dO seed s⟩)
        let rows ← (highDimAlphas (Arr2.col (hdRef G di dO seed s)) ranks dO [1, 1 / 10, 1 / 1000]
          (LGP.typed (hdA G di dO seed s) b (hdA G di dO seed s *ᵥ hdRef G di dO seed s + b) 0
            (diagonal v) 1 1)).1
        return (rows.map fun l => l.map (·.1), rows.map fun l => l.map (·.2))) := by
  obtain ⟨P, v, h1, h2, h3, h4⟩ := random_default G hU di dO (mean := none) (m := 0)
    (Or.inl ⟨rfl, rfl⟩) seed s
  rw [Api.new, new_typed] at h2
  cases h2
  refine ⟨drawVec G.normal (startState G.normal seed s) (dO * di) dO, v, h3, h4, ?_⟩
  unfold runHighDim
  rw [PyM.bind_run]
  rcases hr : randomLinearProblem G di dO none none seed s with ⟨r, s'⟩
  rw [hr] at h1
  simp only at h1
  subst h1
  simp only
  rw [lift_bind_fst]
  congr 1
  funext ranks
  rw [lift_bind_fst]
  rfl

/-- A problem with more inputs than outputs: `rank_decomposition` raises. -/
theorem C107_wide (hU : ∀ s, 0 ≤ (G.unif s).1) (hsvd : ∀ A : Arr2, IsSvd A.m (svd A)) {di dO : ℕ}
    (h : di = 0 ∨ dO < di) (seed : Option ℕ) (s : σ) :
    (runHighDim G svd di dO seed s).1 = .error .indexError := by
  obtain ⟨b, v, -, -, e⟩ := runHighDim_start (svd := svd) hU di dO seed s
  rw [e, C61_rank_decomposition_wide (hsvd _) h]
  rfl

/-- More outputs than inputs: the list of matrices has one entry per input, and the loop over the
outputs runs past its end. -/
theorem C107_tall (hU : ∀ s, 0 ≤ (G.unif s).1) (hsvd : ∀ A : Arr2, IsSvd A.m (svd A)) {di dO : ℕ}
    (hdi : di ≠ 0) (h : di < dO) (seed : Option ℕ) (s : σ) (hl : hdRef G di dO seed s ≠ 0) :
    (runHighDim G svd di dO seed s).1 = .error .indexError := by
  obtain ⟨b, v, hv, -, e⟩ := runHighDim_start (svd := svd) hU di dO seed s
  obtain ⟨L, h1, h2, h3⟩ := rankDecomposition_code (hsvd ⟨dO, di, hdA G di dO seed s⟩) hdi h.le
  rw [e, h1, Py.ok_bind]
  have h2' : L.length = di := h2
  have hS : (diagonal v : Matrix (Fin di) (Fin di) ℝ).PosDef :=
    PosDef.diagonal fun i => lt_of_lt_of_le (by norm_num) (hv i)
  have := loop_err (hdA G di dO seed s) b (diagonal v) hS hl L one_pos (List.range dO) (by simp)
    ⟨di, by simpa using h, by rw [List.getElem?_eq_none_iff]; omega⟩ _ (SameProblem.rfl' _)
  show ((highDimAlphas _ L dO (1 :: [1 / 10, 1 / 1000]) _).1 >>= fun rows => _) = _
  rw [show highDimAlphas (Arr2.col (hdRef G di dO seed s)) L dO (1 :: [1 / 10, 1 / 1000]) = (do
      PyM.modify fun P => { P with alpha := 1 }
      let r ← highDimLoop (Arr2.col (hdRef G di dO seed s)) L 1 ((List.range dO).map (· + 1))
      let rs ← highDimAlphas (Arr2.col (hdRef G di dO seed s)) L dO [1 / 10, 1 / 1000]
      return r :: rs : PyM LGP _) from rfl, PyM.modify_bind_run, PyM.bind_run]
  rcases hrun : highDimLoop (Arr2.col (hdRef G di dO seed s)) L 1 ((List.range dO).map (· + 1))
    (LGP.typed (hdA G di dO seed s) b (hdA G di dO seed s *ᵥ hdRef G di dO seed s + b) 0
      (diagonal v) 1 1) with ⟨r, P'⟩
  rw [hrun] at this
  simp only at this
  subst this
  rw [show ({ LGP.typed (hdA G di dO seed s) b (hdA G di dO seed s *ᵥ hdRef G di dO seed s + b) 0
      (diagonal v) 1 1 with alpha := 1 } : LGP) = LGP.typed (hdA G di dO seed s) b
      (hdA G di dO seed s *ᵥ hdRef G di dO seed s + b) 0 (diagonal v) 1 1 from rfl, hrun]
  rfl

/-- **C107, what is computed.** As many outputs as inputs, and a reference that is not 0: for each of
the `α` = 1, 0.1, 0.001 the first component of what is returned holds the relative errors of the
three solutions for the first 1, …, n rows of the operator, the second one those for the operators
`codeRank`. -/
theorem C107_exact (hU : ∀ s, 0 ≤ (G.unif s).1) (hsvd : ∀ A : Arr2, IsSvd A.m (svd A)) {n : ℕ}
    (hn : n ≠ 0) (seed : Option ℕ) (s : σ) (hl : hdRef G n n seed s ≠ 0) :
    ∃ (v : Fin n → ℝ) (D R : List (List (List F))), (∀ i, 1 / 2 ≤ v i) ∧ Antitone v ∧
      (runHighDim G svd n n seed s).1 = .ok (D, R) ∧
      List.Forall₂ (fun α rows => List.Forall₂ (fun k row => ∃ hk : k + 1 ≤ n,
        ErrRow (firstRows (hdA G n n seed s) hk) (diagonal v) α (hdRef G n n seed s) row)
          (List.range n) rows) [1, 1 / 10, 1 / 1000] D ∧
      List.Forall₂ (fun α rows => List.Forall₂ (fun k row =>
        ErrRow (codeRank (svd ⟨n, n, hdA G n n seed s⟩) k) (diagonal v) α (hdRef G n n seed s) row)
          (List.range n) rows) [1, 1 / 10, 1 / 1000] R := by
  obtain ⟨b, v, hv, hv', e⟩ := runHighDim_start (svd := svd) hU n n seed s
  obtain ⟨L, h1, h2, h3⟩ := rankDecomposition_code (hsvd ⟨n, n, hdA G n n seed s⟩) hn le_rfl
  have hS : (diagonal v : Matrix (Fin n) (Fin n) ℝ).PosDef :=
    PosDef.diagonal fun i => lt_of_lt_of_le (by norm_num) (hv i)
  obtain ⟨rs, P', g1, g2⟩ := alphas_ok (hdA G n n seed s) b (diagonal v) hS hl L
    (codeRank (svd ⟨n, n, hdA G n n seed s⟩)) h3 [1, 1 / 10, 1 / 1000]
    (by intro α h; simp at h; rcases h with rfl | rfl | rfl <;> norm_num) _ 1 (SameProblem.rfl' _)
  refine ⟨v, rs.map fun l => l.map (·.1), rs.map fun l => l.map (·.2), hv, hv', ?_, ?_, ?_⟩
  · rw [e, h1, Py.ok_bind, g1]
    rfl
  · rw [List.forall₂_map_right_iff]
    refine g2.imp fun α rows h => ?_
    rw [List.forall₂_map_right_iff]
    exact h.imp fun k r hr => hr.1
  · rw [List.forall₂_map_right_iff]
    refine g2.imp fun α rows h => ?_
    rw [List.forall₂_map_right_iff]
    exact h.imp fun k r hr => hr.2

/-! ## What the tables say -/

section tables
variable {B : Matrix (Fin d) (Fin p) ℝ} {S : Matrix (Fin p) (Fin p) ℝ} {lam : Fin p → ℝ}

/-- MUD and least squares points do not depend on `α`. -/
theorem ThreeSolutions.alpha_free {α β : ℝ} {x y z x' y' z' : Fin p → ℝ}
    (h : ThreeSolutions B S α lam x y z) (h' : ThreeSolutions B S β lam x' y' z') : x = x' ∧ z = z' := by
  constructor
  · by_contra hne
    exact lt_asymm (h.mud_min x' h'.mud_data (Ne.symm hne)) (h'.mud_min x h.mud_data hne)
  · by_contra hne
    exact lt_asymm (h.ls_min z' h'.ls_data (Ne.symm hne)) (h'.ls_min z h.ls_data hne)

theorem sqDist_zero_dot (v : Fin p → ℝ) : sqDist v 0 = v ⬝ᵥ v := by
  rw [sqDist_eq_dot, sub_zero]

/-- The least squares point is orthogonal to the null space of the operator. -/
theorem ThreeSolutions.ls_orth {α : ℝ} {x y z : Fin p → ℝ} (h : ThreeSolutions B S α lam x y z)
    {w : Fin p → ℝ} (hw : B *ᵥ w = 0) : z ⬝ᵥ w = 0 := by
  by_contra hne
  have hww : 0 < w ⬝ᵥ w := by
    refine lt_of_le_of_ne (by simpa [dotProduct] using Finset.sum_nonneg fun i _ => mul_self_nonneg (w i)) ?_
    intro h0
    apply hne
    have : w = 0 := by
      funext i
      have h1 := (Finset.sum_eq_zero_iff_of_nonneg fun i _ => mul_self_nonneg (w i)).1 h0.symm i
        (Finset.mem_univ i)
      simpa using h1
    rw [this, dotProduct_zero]
  set t : ℝ := z ⬝ᵥ w / (w ⬝ᵥ w) with ht
  have ht0 : t ≠ 0 := div_ne_zero hne hww.ne'
  have hfe : B *ᵥ (z - t • w) = B *ᵥ lam := by
    rw [mulVec_sub, mulVec_smul, hw, smul_zero, sub_zero, h.ls_data]
  have hneq : z - t • w ≠ z := by
    intro e
    have : t • w = 0 := by
      have := congrArg (fun u => z - u) e
      simpa using this
    rcases smul_eq_zero.1 this with h1 | h1
    · exact ht0 h1
    · rw [h1, dotProduct_zero] at hne; exact hne rfl
  have := h.ls_min _ hfe hneq
  rw [sqDist_zero_dot, sqDist_zero_dot] at this
  have e : (z - t • w) ⬝ᵥ (z - t • w) = z ⬝ᵥ z - (z ⬝ᵥ w) ^ 2 / (w ⬝ᵥ w) := by
    simp only [sub_dotProduct, dotProduct_sub, smul_dotProduct, dotProduct_smul, smul_eq_mul,
      dotProduct_comm w z, ht]
    field_simp
    ring
  rw [e] at this
  have : 0 ≤ (z ⬝ᵥ w) ^ 2 / (w ⬝ᵥ w) := by positivity
  linarith

/-- Pythagoras for the least squares point. -/
theorem ThreeSolutions.ls_pythagoras {α : ℝ} {x y z : Fin p → ℝ} (h : ThreeSolutions B S α lam x y z) :
    sqDist z lam = sqDist lam 0 - sqDist z 0 := by
  have h0 := h.ls_orth (w := lam - z) (by rw [mulVec_sub, h.ls_data, sub_self])
  rw [dotProduct_sub] at h0
  rw [sqDist_zero_dot, sqDist_zero_dot, sqDist_eq_dot]
  simp only [sub_dotProduct, dotProduct_sub, dotProduct_comm lam z]
  linarith

/-- With a larger null space the least squares error is larger. -/
theorem ThreeSolutions.ls_mono {d' : ℕ} {B' : Matrix (Fin d') (Fin p) ℝ} {α β : ℝ}
    {x y z x' y' z' : Fin p → ℝ} (h : ThreeSolutions B S α lam x y z)
    (h' : ThreeSolutions B' S β lam x' y' z') (hB : ∀ w, B' *ᵥ w = B' *ᵥ lam → B *ᵥ w = B *ᵥ lam) :
    relDist lam z' ≤ relDist lam z := by
  unfold relDist
  apply div_le_div_of_nonneg_right _ (Real.sqrt_nonneg _)
  apply Real.sqrt_le_sqrt
  rw [h.ls_pythagoras, h'.ls_pythagoras]
  rcases eq_or_ne z' z with rfl | hne
  · exact le_rfl
  · have := h.ls_min z' (hB _ h'.ls_data) hne
    linarith

/-- Injective operator: MUD and least squares recover the reference. -/
theorem ThreeSolutions.recover {α : ℝ} {x y z : Fin p → ℝ} (h : ThreeSolutions B S α lam x y z)
    (hB : ∀ w, B *ᵥ w = 0 → w = 0) : x = lam ∧ z = lam :=
  ⟨sub_eq_zero.1 (hB _ (by rw [mulVec_sub, h.mud_data, sub_self])),
    sub_eq_zero.1 (hB _ (by rw [mulVec_sub, h.ls_data, sub_self]))⟩

/-- A unit vector the operator does not see: the least squares error is at least the part of the
reference along it. -/
theorem ThreeSolutions.ls_blind {α : ℝ} {x y z : Fin p → ℝ} (h : ThreeSolutions B S α lam x y z)
    {w : Fin p → ℝ} (hw : B *ᵥ w = 0) (h1 : w ⬝ᵥ w = 1) :
    |w ⬝ᵥ lam| / Real.sqrt (sqDist lam 0) ≤ relDist lam z := by
  unfold relDist
  apply div_le_div_of_nonneg_right _ (Real.sqrt_nonneg _)
  apply Real.abs_le_sqrt
  have e : w ⬝ᵥ lam = w ⬝ᵥ (lam - z) := by
    rw [dotProduct_sub, dotProduct_comm w z, h.ls_orth hw, sub_zero]
  rw [e]
  have cs : (w ⬝ᵥ (lam - z)) ^ 2 ≤ (w ⬝ᵥ w) * ((lam - z) ⬝ᵥ (lam - z)) := by
    have := Finset.sum_mul_sq_le_sq_mul_sq Finset.univ w (lam - z)
    simpa only [dotProduct, ← sq] using this
  rw [h1, one_mul] at cs
  refine cs.trans (le_of_eq ?_)
  rw [sqDist_eq_dot, ← neg_sub lam z, neg_dotProduct_neg]

end tables

/-- Entry of a table: `T[a][k][c]`, if there is one. -/
def cell (T : List (List (List F))) (a k c : ℕ) : Option F :=
  (T[a]?).bind fun rows => (rows[k]?).bind fun row => row[c]?

theorem cell_of {α : ℝ} {n a k : ℕ} {αs : List ℝ} {T : List (List (List F))} {Q : ℝ → ℕ → List F → Prop}
    (hT : List.Forall₂ (fun α rows => List.Forall₂ (Q α) (List.range n) rows) αs T)
    (ha : αs[a]? = some α) (hk : k < n) : ∃ row, Q α k row ∧ ∀ c, cell T a k c = row[c]? := by
  have hlen := hT.length_eq
  have haT : a < T.length := by
    rw [← hlen]
    exact (List.getElem?_eq_some_iff.1 ha).1
  have h1 := List.Forall₂.get hT (i := a) (hlen ▸ haT) haT
  have ha' : αs.get ⟨a, hlen ▸ haT⟩ = α := by
    have := (List.getElem?_eq_some_iff.1 ha).2
    simpa using this
  rw [ha'] at h1
  have hkR : k < (T.get ⟨a, haT⟩).length := by rw [← h1.length_eq]; simpa using hk
  have h2 := List.Forall₂.get h1 (i := k) (by simpa using hk) hkR
  refine ⟨(T.get ⟨a, haT⟩).get ⟨k, hkR⟩, by simpa using h2, fun c => ?_⟩
  unfold cell
  rw [List.getElem?_eq_getElem haT]
  simp only [Option.bind_some]
  rw [List.get_eq_getElem] at hkR
  rw [List.getElem?_eq_getElem hkR]
  rfl

theorem alphaList_get {a : ℕ} (ha : a < 3) : ∃ α, [(1 : ℝ), 1 / 10, 1 / 1000][a]? = some α := by
  have : a < ([1, 1 / 10, 1 / 1000] : List ℝ).length := by simpa using ha
  exact ⟨_, List.getElem?_eq_getElem this⟩

/-- **C107, what the tables show** (square problem, reference not 0). In both tables the columns of
MUD (0) and least squares (2) are the same for every `α`. In the first table the least squares error
does not grow with the number of rows, and if the operator is invertible both errors are 0 once all
rows are used. In the second table the last row, of the operator said to have full rank, has at
least two dimensions: there the least squares error is at least the share of the reference along the
first column of `vh`, which the matrix the code uses does not see. -/
theorem C107_tables (hU : ∀ s, 0 ≤ (G.unif s).1) (hsvd : ∀ A : Arr2, IsSvd A.m (svd A)) {n : ℕ}
    (hn : n ≠ 0) (seed : Option ℕ) (s : σ) (hl : hdRef G n n seed s ≠ 0) :
    ∃ (D R : List (List (List F))) (mud ls mudR lsR : ℕ → ℝ),
      (runHighDim G svd n n seed s).1 = .ok (D, R) ∧
      (∀ a < 3, ∀ k < n, cell D a k 0 = some (.fin (mud k)) ∧ cell D a k 2 = some (.fin (ls k)) ∧
        cell R a k 0 = some (.fin (mudR k)) ∧ cell R a k 2 = some (.fin (lsR k))) ∧
      (∀ j k, j ≤ k → k < n → ls k ≤ ls j) ∧
      ((hdA G n n seed s).det ≠ 0 → mud (n - 1) = 0 ∧ ls (n - 1) = 0) ∧
      (∀ h2 : 2 ≤ n, |(fun i => (svd ⟨n, n, hdA G n n seed s⟩).vh i ⟨0, by show 0 < n; omega⟩) ⬝ᵥ
        hdRef G n n seed s| / Real.sqrt (sqDist (hdRef G n n seed s) 0) ≤ lsR (n - 1)) := by
  obtain ⟨v, D, R, hv, hv', e, hD, hR⟩ := C107_exact hU hsvd hn seed s hl
  set A := hdA G n n seed s with hA
  set lam := hdRef G n n seed s with hlam
  have dD : ∀ a < 3, ∀ k < n, ∃ α, ∃ hk : k + 1 ≤ n, ∃ x y z,
      ThreeSolutions (firstRows A hk) (diagonal v) α lam x y z ∧
      ∀ c, cell D a k c = [F.fin (relDist lam x), .fin (relDist lam y), .fin (relDist lam z)][c]? := by
    intro a ha k hk
    obtain ⟨α, hα⟩ := alphaList_get ha
    obtain ⟨row, ⟨hk', x, y, z, h1, rfl⟩, h3⟩ := cell_of hD hα hk
    exact ⟨α, hk', x, y, z, h1, h3⟩
  have dR : ∀ a < 3, ∀ k < n, ∃ α, ∃ x y z,
      ThreeSolutions (codeRank (svd ⟨n, n, A⟩) k) (diagonal v) α lam x y z ∧
      ∀ c, cell R a k c = [F.fin (relDist lam x), .fin (relDist lam y), .fin (relDist lam z)][c]? := by
    intro a ha k hk
    obtain ⟨α, hα⟩ := alphaList_get ha
    obtain ⟨row, ⟨x, y, z, h1, rfl⟩, h3⟩ := cell_of hR hα hk
    exact ⟨α, x, y, z, h1, h3⟩
  -- the points for the first `α`
  have pD : ∀ k : ℕ, ∃ x z : Fin n → ℝ, ∀ hk : k + 1 ≤ n,
      ∃ y, ThreeSolutions (firstRows A hk) (diagonal v) 1 lam x y z := by
    intro k
    by_cases hk : k + 1 ≤ n
    · obtain ⟨α, hk', x, y, z, h1, -⟩ := dD 0 (by norm_num) k hk
      obtain ⟨x', y', z', h2, -⟩ := solve_all_exact (firstRows A hk) 0 (diagonal v)
        (PosDef.diagonal fun i => lt_of_lt_of_le (by norm_num) (hv i)) one_pos lam
      exact ⟨x', z', fun _ => ⟨y', h2⟩⟩
    · exact ⟨0, 0, fun h => absurd h hk⟩
  have pR : ∀ k : ℕ, ∃ x z : Fin n → ℝ,
      ∃ y, ThreeSolutions (codeRank (svd ⟨n, n, A⟩) k) (diagonal v) 1 lam x y z := by
    intro k
    obtain ⟨x', y', z', h2, -⟩ := solve_all_exact (codeRank (svd ⟨n, n, A⟩) k) 0 (diagonal v)
      (PosDef.diagonal fun i => lt_of_lt_of_le (by norm_num) (hv i)) one_pos lam
    exact ⟨x', z', y', h2⟩
  choose X Z hXZ using pD
  choose X' Z' Y' hXZ' using pR
  refine ⟨D, R, fun k => relDist lam (X k), fun k => relDist lam (Z k), fun k => relDist lam (X' k),
    fun k => relDist lam (Z' k), e, ?_, ?_, ?_, ?_⟩
  · intro a ha k hk
    obtain ⟨α, hk', x, y, z, h1, h2⟩ := dD a ha k hk
    obtain ⟨α', x', y', z', h1', h2'⟩ := dR a ha k hk
    obtain ⟨Y, hY⟩ := hXZ k hk'
    obtain ⟨rfl, rfl⟩ := hY.alpha_free h1
    obtain ⟨rfl, rfl⟩ := (hXZ' k).alpha_free h1'
    rw [h2, h2, h2', h2']
    exact ⟨rfl, rfl, rfl, rfl⟩
  · intro j k hjk hk
    have hj' : j + 1 ≤ n := by omega
    have hk' : k + 1 ≤ n := hk
    obtain ⟨Y, hY⟩ := hXZ j hj'
    obtain ⟨W, hW⟩ := hXZ k hk'
    refine hY.ls_mono hW fun w hw => ?_
    funext i
    have := congrFun hw (Fin.castLE (by omega) i)
    exact this
  · intro hdet
    have hk : n - 1 + 1 ≤ n := by omega
    obtain ⟨Y, hY⟩ := hXZ (n - 1) hk
    have inj : ∀ w, firstRows A hk *ᵥ w = 0 → w = 0 := by
      intro w hw
      have hAw : A *ᵥ w = 0 := by
        funext i
        have hi : (i : ℕ) < n - 1 + 1 := by have := i.2; omega
        exact congrFun hw ⟨i, hi⟩
      have := congrArg (fun u => A⁻¹ *ᵥ u) hAw
      simpa [mulVec_mulVec, nonsing_inv_mul _ (isUnit_iff_ne_zero.2 hdet)] using this
    obtain ⟨h1, h2⟩ := hY.recover inj
    have z : relDist lam lam = 0 := by simp [relDist, sqDist]
    exact ⟨by simp only [h1, z], by simp only [h2, z]⟩
  · intro h2
    set w : Fin n → ℝ := fun i => (svd ⟨n, n, A⟩).vh i ⟨0, by show 0 < n; omega⟩ with hw
    have hcol : (svd ⟨n, n, A⟩).vhᵀ * (svd ⟨n, n, A⟩).vh = 1 :=
      mul_eq_one_comm.1 (hsvd ⟨n, n, A⟩).vh_orth
    have hww : ∀ i : Fin n, (fun c => (svd ⟨n, n, A⟩).vh c i) ⬝ᵥ w =
        if i = ⟨0, by omega⟩ then 1 else 0 := by
      intro i
      have := congrFun (congrFun hcol i) ⟨0, by show 0 < n; omega⟩
      rw [mul_apply, one_apply] at this
      exact this
    refine (hXZ' (n - 1)).ls_blind (w := w) ?_ (by simpa [hw] using hww ⟨0, by omega⟩)
    rw [codeRank, if_neg (by omega), Matrix.sum_mulVec]
    refine Finset.sum_eq_zero fun i hi => ?_
    have hi1 : 1 ≤ i ∧ i ≤ n - 1 := by simpa using hi
    have hin : i < n := by omega
    funext r
    have h0 := hww ⟨i, hin⟩
    rw [if_neg (by simp only [Fin.mk.injEq]; omega)] at h0
    show ∑ c, codeTerm (svd ⟨n, n, A⟩) i r c * w c = 0
    have : ∀ c : Fin n, codeTerm (svd ⟨n, n, A⟩) i r c * w c =
        ((svd ⟨n, n, A⟩).s.getD i 0 * (svd ⟨n, n, A⟩).u r ⟨i, hin⟩) *
          ((svd ⟨n, n, A⟩).vh c ⟨i, hin⟩ * w c) := by
      intro c
      unfold codeTerm
      rw [of_apply, dif_pos ⟨hin, hin⟩]
      ring
    refine (Finset.sum_congr rfl fun c _ => this c).trans ?_
    rw [← Finset.mul_sum]
    have h0' : ∑ c : Fin n, (svd ⟨n, n, A⟩).vh c ⟨i, hin⟩ * w c = 0 := h0
    rw [h0', mul_zero]

/-- The documented claim: for positive dimensions the tables of errors are returned (the reference
not being 0). -/
def C107_claim : Prop :=
  ∀ (σ : Type) (G : Gen σ) (svd : (A : Arr2) → SvdOut A.r A.c) (_ : ∀ s, 0 ≤ (G.unif s).1)
    (_ : ∀ A : Arr2, IsSvd A.m (svd A)) (di dO : ℕ) (_ : 0 < di) (_ : 0 < dO) (seed : Option ℕ) (s : σ)
    (_ : hdRef G di dO seed s ≠ 0), ∃ D R, (runHighDim G svd di dO seed s).1 = .ok (D, R)

/-- A generator: the normal draws are `1, 2, 3, …` from the state of the seed on. -/
noncomputable def hdGen : Gen ℕ := ⟨⟨id, fun s => (s + 1, s + 1)⟩, fun s => (1 / 2, s + 1)⟩

theorem hdGen_ref (di dO : ℕ) (h : 0 < di) : hdRef hdGen di dO (some 0) 0 ≠ 0 := by
  intro e
  have h1 := congrFun e ⟨0, h⟩
  have pos : ∀ s k : ℕ, 0 < nthDraw hdGen.normal s k := by
    intro s k
    show (0 : ℝ) < ((stateAfter hdGen.normal s k : ℕ) : ℝ) + 1
    positivity
  exact absurd h1 (pos _ _).ne'

theorem C107_claim_refuted : ¬ C107_claim := by
  intro h
  choose svd hsvd using fun A : Arr2 => exists_isSvd A.m
  obtain ⟨D, R, e⟩ := h ℕ hdGen svd (fun _ => by simp [hdGen]) hsvd 2 1 (by norm_num) (by norm_num)
    (some 0) 0 (hdGen_ref 2 1 (by norm_num))
  rw [C107_wide (fun _ => by simp [hdGen]) hsvd (Or.inr (by norm_num))] at e
  cases e

/-- The hypotheses of C107 are met: this generator, any number of dimensions. -/
example : ∃ svd : (A : Arr2) → SvdOut A.r A.c, (∀ A : Arr2, IsSvd A.m (svd A)) ∧
    (∀ s, 0 ≤ (hdGen.unif s).1) ∧ hdRef hdGen 2 2 (some 0) 0 ≠ 0 ∧
    (hdA hdGen 2 2 (some 0) 0).det ≠ 0 := by
  choose svd hsvd using fun A : Arr2 => exists_isSvd A.m
  refine ⟨svd, hsvd, fun _ => by simp [hdGen], hdGen_ref 2 2 (by norm_num), ?_⟩
  rw [det_fin_two]
  norm_num [hdA, drawMat, nthDraw, stateAfter, startState, hdGen]

/-- C107: two parameters, three outputs. -/
example (svd : (A : Arr2) → SvdOut A.r A.c) (hsvd : ∀ A : Arr2, IsSvd A.m (svd A)) :
    (runHighDim hdGen svd 2 3 (some 0) 0).1 = .error .indexError :=
  C107_tall (fun _ => by simp [hdGen]) hsvd (by norm_num) (by norm_num) (some 0) 0 (hdGen_ref 2 3 (by norm_num))

end Verif
