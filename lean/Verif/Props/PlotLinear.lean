import Verif.Model.PlotLinear
import Verif.Props.Functionals
import Verif.Props.Util

/-!
# Properties C77, C78: the numbers drawn by `plot_fun_contours` and `plot_sol`
-/

open Matrix

namespace Verif

/-! ### C77 -/

/-- `LinearGaussianProblem(A, b, y, mean_i, cov_i, cov_o, alpha).plot_fun_contours(terms=terms, N=N, r=r)`:
the arrays `X`, `Y`, `Z` given to `contour`. -/
noncomputable def Api.funContours {d : ℕ} (A : Matrix (Fin d) (Fin 2) ℝ) (b y : Fin d → ℝ)
    (m : Fin 2 → ℝ) (S : Matrix (Fin 2) (Fin 2) ℝ) (C : Matrix (Fin d) (Fin d) ℝ) (α : ℝ)
    (mesh : Option Arr2) (terms : String) (N : ℕ) (r : ℝ) :
    Py (Matrix (Fin N) (Fin N) ℝ × Matrix (Fin N) (Fin N) ℝ × Matrix (Fin N) (Fin N) ℝ) := do
  let P ← Api.new A b y m S C α
  P.plotFunContours mesh terms N r

/-- The names of the single terms. -/
def termNames : List String := ["data", "reg", "dc_term", "reg_m", "bayes", "dc"]

/-- The claim: for every two-parameter problem and every term, the surface drawn is the graph, over
the `N × N` grid of `[0, r]²`, of the functional that `compute_functionals` returns. -/
def C77_claim : Prop :=
  ∀ (d : ℕ) (A : Matrix (Fin d) (Fin 2) ℝ) (_ : FullRowRank A) (b y : Fin d → ℝ) (m : Fin 2 → ℝ)
    (S : Matrix (Fin 2) (Fin 2) ℝ) (_ : S.PosDef) (C : Matrix (Fin d) (Fin d) ℝ) (_ : C.PosDef)
    (α r : ℝ) (N : ℕ) (terms : String), terms ∈ termNames →
    ∃ Z : Matrix (Fin N) (Fin N) ℝ,
      Api.funContours A b y m S C α none terms N r =
        .ok (.of fun _ c => c * r / (N - 1 : ℕ), .of fun i _ => i * r / (N - 1 : ℕ), Z) ∧
      ∀ i c : Fin N, Api.functionals A b y m S C α
        (oneSample ![c * r / (N - 1 : ℕ), i * r / (N - 1 : ℕ)]) terms = .ok (.one (.vec 1 ![Z i c]))

theorem squareOf_ok {N n : ℕ} (h : n = N * N) (v : Fin n → ℝ) {M : Matrix (Fin N) (Fin N) ℝ}
    (hM : ∀ (k : Fin n) (r c : Fin N), (k : ℕ) = r * N + c → M r c = v k) :
    squareOf N v = .ok M := by
  rw [squareOf, dif_pos h]
  congr 1
  ext r c
  exact (hM ⟨r * N + c, _⟩ r c rfl).symm

theorem colVec_table (l : List (ℝ × ℝ)) (k : Fin 2) :
    (tableOf l).colVec k = .ok (fun i : Fin l.length => tabM l i k) := by
  rw [Arr2.colVec, if_pos (show (k : ℕ) < (tableOf l).c from k.2)]
  congr 1
  funext i
  exact Arr2.get_mk _ _ _

theorem plotFun_step (P : LGP) (terms : String) (N : ℕ) (r : ℝ) {l : List (ℝ × ℝ)}
    (hl : (make2dUnitMesh N r).2.2 = l) {t : FunRes}
    (h : P.compute_functionals (tableOf l) terms = .ok t) :
    P.plotFunContours none terms N r = (do
      let X ← squareOf N (fun i : Fin l.length => tabM l i 0)
      let Y ← squareOf N (fun i : Fin l.length => tabM l i 1)
      let Z ← t.square N
      return (X, Y, Z)) := by
  subst hl
  rw [LGP.plotFunContours]
  show (do
    let term ← P.compute_functionals (tableOf (make2dUnitMesh N r).2.2) terms
    let x ← (tableOf (make2dUnitMesh N r).2.2).colVec ((0 : Fin 2) : ℕ)
    let X ← squareOf N x
    let y ← (tableOf (make2dUnitMesh N r).2.2).colVec ((1 : Fin 2) : ℕ)
    let Y ← squareOf N y
    let Z ← term.square N
    return (X, Y, Z) : Py _) = _
  rw [h, Py.ok_bind, colVec_table _ 0, colVec_table _ 1]
  rfl

/-- The table of mesh points. -/
theorem tableOf_entry {l : List (ℝ × ℝ)} {z : ℝ × ℝ} {k : Fin l.length} (h : l[(k : ℕ)]? = some z) :
    tabM l k = ![z.1, z.2] := by
  have := (List.getElem?_eq_some_iff.1 h).2
  funext j
  fin_cases j <;> simp [tabM, this]

/-- **C77** for a single observation: the drawn grid is the unit mesh, and the height drawn at a grid
point is the value of the requested functional there. Missing: several observations, where the claim is
false (`C77_several_observations`). -/
theorem C77_contours_partial (A : Matrix (Fin 1) (Fin 2) ℝ) (hA : FullRowRank A) (b y : Fin 1 → ℝ)
    (m : Fin 2 → ℝ) (S : Matrix (Fin 2) (Fin 2) ℝ) (hS : S.PosDef) (C : Matrix (Fin 1) (Fin 1) ℝ)
    (hC : C.PosDef) (α r : ℝ) (N : ℕ) (terms : String) (ht : terms ∈ termNames) :
    ∃ Z : Matrix (Fin N) (Fin N) ℝ,
      Api.funContours A b y m S C α none terms N r =
        .ok (.of fun _ c => c * r / (N - 1 : ℕ), .of fun i _ => i * r / (N - 1 : ℕ), Z) ∧
      ∀ i c : Fin N, Api.functionals A b y m S C α
        (oneSample ![c * r / (N - 1 : ℕ), i * r / (N - 1 : ℕ)]) terms
          = .ok (.one (.vec 1 ![Z i c])) := by
  have hP := posDef_conj hS A hA.inj
  set l := (make2dUnitMesh N r).2.2 with hl
  have hlen : l.length = N * N := mesh_length 0 r N
  have hpt : ∀ (k : Fin l.length) (i c : Fin N), (k : ℕ) = i * N + c →
      tabM l k = ![c * r / (N - 1 : ℕ), i * r / (N - 1 : ℕ)] := by
    intro k i c hk
    have e : l[(k : ℕ)]? = _ := (congrArg (l[·]?) hk).trans (mesh_getElem? 0 r i.2 c.2)
    rw [tableOf_entry e]
    simp only [linspaceAt]
    congr 1
    · ring
    · congr 1; ring
  have ev := functionals_eval A b y m S C α (tabM l) (.inl rfl) (posDef_det_ne hC)
    (posDef_det_ne hS) (posDef_det_ne hP) terms
  have e1 := fun x : Fin 2 → ℝ => functionals_eval A b y m S C α (oneSample x) (.inl rfl)
    (posDef_det_ne hC) (posDef_det_ne hS) (posDef_det_ne hP) terms
  -- the value of one term at a point
  obtain ⟨g, hg, hg1⟩ : ∃ g : (Fin 2 → ℝ) → ℝ,
      Api.functionals A b y m S C α (tabM l) terms
        = .ok (.one (.vec _ fun k => g (tabM l k))) ∧
      ∀ x, Api.functionals A b y m S C α (oneSample x) terms = .ok (.one (.vec 1 ![g x])) := by
    have hf : ∀ (n : ℕ) (X : Matrix (Fin n) (Fin 2) ℝ) (k : Fin n), fData A b y C X k =
        mahal C (A *ᵥ X k + b) (fun _ => (y - b) 0) := fun n X k => by rw [fData, obsFor_one]
    have one : ∀ (f : Fin 1 → ℝ) (a : ℝ), f 0 = a →
        (Except.ok (FunRes.one (NArr.vec 1 f)) : Py FunRes) = .ok (.one (.vec 1 ![a])) := by
      rintro f a rfl
      refine congrArg (fun v => Except.ok (FunRes.one (NArr.vec 1 v))) (funext fun i => ?_)
      fin_cases i; rfl
    simp only [termNames, List.mem_cons, List.not_mem_nil, or_false] at ht
    rcases ht with rfl | rfl | rfl | rfl | rfl | rfl
    · refine ⟨fun x => mahal C (A *ᵥ x + b) (fun _ => (y - b) 0), ?_, fun x => ?_⟩
      · rw [ev]; simp only [if_true]; exact congrArg (fun v => Except.ok (FunRes.one (NArr.vec _ v))) (funext fun k => hf _ _ k)
      · exact (e1 x).trans (one _ _ (hf _ _ _))
    · refine ⟨fun x => α * mahal S x m, ?_, fun x => ?_⟩
      · rw [ev]; rfl
      · exact (e1 x).trans (one _ _ rfl)
    · refine ⟨fun x => α * mahal (A * S * Aᵀ) (A *ᵥ x) (A *ᵥ m), ?_, fun x => ?_⟩
      · rw [ev]; rfl
      · exact (e1 x).trans (one _ _ rfl)
    · refine ⟨fun x => α * mahal S x m - α * mahal (A * S * Aᵀ) (A *ᵥ x) (A *ᵥ m), ?_, fun x => ?_⟩
      · rw [ev]; rfl
      · exact (e1 x).trans (one _ _ rfl)
    · refine ⟨fun x => mahal C (A *ᵥ x + b) (fun _ => (y - b) 0) + α * mahal S x m, ?_, fun x => ?_⟩
      · rw [ev]; simp only [hf]; rfl
      · refine (e1 x).trans (one _ _ ?_); simp only [hf]; rfl
    · refine ⟨fun x => mahal C (A *ᵥ x + b) (fun _ => (y - b) 0) + α * mahal S x m
        - α * mahal (A * S * Aᵀ) (A *ᵥ x) (A *ᵥ m), ?_, fun x => ?_⟩
      · rw [ev]; simp only [hf]; rfl
      · refine (e1 x).trans (one _ _ ?_); simp only [hf]; rfl
  refine ⟨.of fun i c => g ![c * r / (N - 1 : ℕ), i * r / (N - 1 : ℕ)], ?_, fun i c => hg1 _⟩
  rw [Api.functionals, Api.new, new_typed, Py.ok_bind] at hg
  have hg' : (LGP.typed A b y m S C α).compute_functionals (tableOf l) terms = _ := hg
  rw [Api.funContours, Api.new, new_typed, Py.ok_bind]
  rw [plotFun_step _ _ _ _ hl.symm hg',
    squareOf_ok (M := .of fun _ c => c * r / (N - 1 : ℕ)) hlen _ ?_, Py.ok_bind,
    squareOf_ok (M := .of fun i _ => i * r / (N - 1 : ℕ)) hlen _ ?_, Py.ok_bind,
    FunRes.square, squareOf_ok hlen _ ?_, Py.ok_bind]
  · rfl
  · intro k i c hk
    rw [hpt k i c hk]; rfl
  · intro k i c hk
    rw [hpt k i c hk]; rfl
  · intro k i c hk
    rw [hpt k i c hk]; rfl

/-- With several observations nothing can be drawn: `ValueError`, unless the number of mesh points
is 1 or happens to be the number of observations. -/
theorem C77_several_observations {d : ℕ} (A : Matrix (Fin d) (Fin 2) ℝ) (b y : Fin d → ℝ)
    (m : Fin 2 → ℝ) (S : Matrix (Fin 2) (Fin 2) ℝ) (C : Matrix (Fin d) (Fin d) ℝ) (α r : ℝ) (N : ℕ)
    (terms : String) (hd : d ≠ 1) (hN : N ≠ 1) (h : N * N ≠ d) :
    Api.funContours A b y m S C α none terms N r = .error .valueError := by
  set l := (make2dUnitMesh N r).2.2 with hl
  have hlen : l.length = N * N := mesh_length 0 r N
  have e := C15_shape_refuted A b y m S C α (tabM l) terms hd
    (by rw [hlen]
        intro h1; exact hN (Nat.eq_one_of_mul_eq_one_left h1))
    (by rw [hlen]; exact h)
  rw [Api.functionals, Api.new, new_typed, Py.ok_bind] at e
  have e' : (LGP.typed A b y m S C α).compute_functionals (tableOf l) terms = _ := e
  rw [Api.funContours, Api.new, new_typed, Py.ok_bind]
  simp only [LGP.plotFunContours, ← hl, e', Py.error_bind]

theorem C77_claim_refuted : ¬ C77_claim := by
  intro h
  obtain ⟨Z, hZ, -⟩ := h 2 1 (fun y => ⟨y, by simp⟩) 0 0 0 1 PosDef.one 1 PosDef.one 1 1 3 "dc"
    (by simp [termNames])
  rw [C77_several_observations _ _ _ _ _ _ _ _ _ _ (by norm_num) (by norm_num) (by norm_num)] at hZ
  cases hZ

/-- Asking for the tuple of all terms fails: a tuple has no `reshape`. -/
theorem C77_all (A : Matrix (Fin 1) (Fin 2) ℝ) (hA : FullRowRank A) (b y : Fin 1 → ℝ)
    (m : Fin 2 → ℝ) (S : Matrix (Fin 2) (Fin 2) ℝ) (hS : S.PosDef) (C : Matrix (Fin 1) (Fin 1) ℝ)
    (hC : C.PosDef) (α r : ℝ) (N : ℕ) (terms : String) (ht : terms ∉ termNames) :
    Api.funContours A b y m S C α none terms N r = .error .attributeError := by
  have hP := posDef_conj hS A hA.inj
  set l := (make2dUnitMesh N r).2.2 with hl
  have hlen : l.length = N * N := mesh_length 0 r N
  have ev := functionals_eval A b y m S C α (tabM l) (.inl rfl) (posDef_det_ne hC)
    (posDef_det_ne hS) (posDef_det_ne hP) terms
  simp only [termNames, List.mem_cons, List.not_mem_nil, or_false, not_or] at ht
  obtain ⟨h1, h2, h3, h4, h5, h6⟩ := ht
  simp only [h1, h2, h3, h4, h5, h6, if_false] at ev
  rw [Api.functionals, Api.new, new_typed, Py.ok_bind] at ev
  have e' : (LGP.typed A b y m S C α).compute_functionals (tableOf l) terms = _ := ev
  rw [Api.funContours, Api.new, new_typed, Py.ok_bind]
  have sq : ∀ v : Fin l.length → ℝ, ∃ M, squareOf N v = .ok M := fun v => ⟨_, dif_pos hlen⟩
  obtain ⟨M0, h0⟩ := sq fun i => tabM l i 0
  obtain ⟨M1, h1⟩ := sq fun i => tabM l i 1
  rw [plotFun_step _ _ _ _ hl.symm e', h0, Py.ok_bind, h1, Py.ok_bind]
  rfl

/-- A mesh of the caller must have `N²` points, otherwise `ValueError`. -/
theorem C77_own_mesh (A : Matrix (Fin 1) (Fin 2) ℝ) (hA : FullRowRank A) (b y : Fin 1 → ℝ)
    (m : Fin 2 → ℝ) (S : Matrix (Fin 2) (Fin 2) ℝ) (hS : S.PosDef) (C : Matrix (Fin 1) (Fin 1) ℝ)
    (hC : C.PosDef) (α r : ℝ) (N K : ℕ) (M : Matrix (Fin K) (Fin 2) ℝ) (hK : K ≠ N * N)
    (terms : String) :
    Api.funContours A b y m S C α (some ⟨K, 2, M⟩) terms N r = .error .valueError := by
  have hP := posDef_conj hS A hA.inj
  have ev := functionals_eval A b y m S C α M (.inl rfl) (posDef_det_ne hC)
    (posDef_det_ne hS) (posDef_det_ne hP) terms
  rw [Api.functionals, Api.new, new_typed, Py.ok_bind] at ev
  rw [Api.funContours, Api.new, new_typed, Py.ok_bind]
  simp only [LGP.plotFunContours, ev, Py.ok_bind]
  have : ∀ v : Fin K → ℝ, squareOf N v = .error .valueError := fun v => dif_neg hK
  rw [Arr2.colVec, if_pos (by norm_num : (0 : ℕ) < 2), Py.ok_bind, this]
  rfl

/-! ### C78 -/

/-- `LinearGaussianProblem(...).plot_sol(point, ln_opts)`: what is drawn. -/
noncomputable def Api.plotSol {d p : ℕ} (point : String) (withLine : Bool)
    (A : Matrix (Fin d) (Fin p) ℝ) (b y : Fin d → ℝ)
    (m : Fin p → ℝ) (S : Matrix (Fin p) (Fin p) ℝ) (C : Matrix (Fin d) (Fin d) ℝ) (α : ℝ) :
    Py SolPlot := do
  let P ← Api.new A b y m S C α
  (P.plotSol point withLine).1

/-- The entries of a column as `pt[0]`, `pt[1]`. -/
theorem rowList_col {p : ℕ} (x : Fin p → ℝ) (i : Fin p) : (Arr2.col x).rowList i = .ok [x i] := by
  rw [Arr2.rowList, if_pos (show (i : ℕ) < (Arr2.col x).r from i.2)]
  congr 1
  show (List.range 1).map _ = _
  simp [Arr2.col, Arr2.get]

theorem flatAt_col {p : ℕ} (x : Fin p → ℝ) (i : Fin p) : (Arr2.col x).flatAt i = .ok (x i) := by
  rw [Arr2.flatAt, if_pos (show (i : ℕ) < (Arr2.col x).r * (Arr2.col x).c by simp)]
  congr 1
  have : (i : ℕ) % 1 = 0 := Nat.mod_one _
  simp [Arr2.col, Arr2.get, this]

/-- **C78.** `plot_sol(point)` marks the first two coordinates of what `solve(point)` returns and, unless
`ln_opts=None`, draws the line to it from the initial mean. -/
theorem C78_plot_sol {d p : ℕ} (A : Matrix (Fin d) (Fin (p + 2)) ℝ) (b y : Fin d → ℝ)
    (m : Fin (p + 2) → ℝ) (S : Matrix (Fin (p + 2)) (Fin (p + 2)) ℝ) (C : Matrix (Fin d) (Fin d) ℝ)
    (α : ℝ) (point : String) (hp : point ≠ "initial") (withLine : Bool) (x : Fin (p + 2) → ℝ)
    (hx : Returns (Api.solve point A b y m S C α) x) :
    Api.plotSol point withLine A b y m S C α = .ok ⟨[(x 0, x 1)],
      if withLine then some ((m 0, m 1), (x 0, x 1)) else none⟩ := by
  rw [Returns, Api.solve, new_typed, Py.ok_bind] at hx
  rw [Api.plotSol, Api.new, new_typed, Py.ok_bind]
  have keep := (C11_solve_keeps_problem (LGP.typed A b y m S C α) point none).2.2.2.1
  rcases hs : LGP.solve point none (LGP.typed A b y m S C α) with ⟨r, Q⟩
  rw [hs] at hx keep
  obtain rfl : r = _ := hx
  have hm : Q.mean_i = Arr2.col m := keep
  have hpt : LGP.plotPt point withLine (LGP.typed A b y m S C α) = (.ok (Arr2.col x), Q) := by
    rw [LGP.plotPt, if_neg hp, PyM.bind_run, hs]
    rfl
  rw [LGP.plotSol, PyM.bind_run, hpt]
  show ((do
    let xs ← PyM.lift ((Arr2.col x).rowList ((0 : Fin (p + 2)) : ℕ))
    let ys ← PyM.lift ((Arr2.col x).rowList 1)
    let P ← PyM.get
    let line ← PyM.lift (LGP.plotLine point withLine P (Arr2.col x))
    return (⟨List.zip xs ys, line⟩ : SolPlot) : PyM LGP SolPlot) Q).1 = _
  have h1 : ((1 : Fin (p + 2)) : ℕ) = 1 := by simp
  have hl : LGP.plotLine point withLine Q (Arr2.col x) =
      .ok (if withLine then some ((m 0, m 1), (x 0, x 1)) else none) := by
    have f0 := fun z : Fin (p + 2) → ℝ => flatAt_col z 0
    have f1 := fun z : Fin (p + 2) → ℝ => flatAt_col z 1
    simp only [h1, Fin.val_zero] at f0 f1
    cases withLine
    · simp [LGP.plotLine]
    · simp [LGP.plotLine, hp, hm, f0, f1]
  have r1 := rowList_col x 1
  rw [h1] at r1
  rw [rowList_col, PyM.lift_ok_bind, r1, PyM.lift_ok_bind, PyM.get_bind_run, hl, PyM.lift_ok_bind]
  rfl

/-- `plot_sol('initial')` marks the initial mean only and does not touch the object. -/
theorem C78_initial {d p : ℕ} (A : Matrix (Fin d) (Fin (p + 2)) ℝ) (b y : Fin d → ℝ)
    (m : Fin (p + 2) → ℝ) (S : Matrix (Fin (p + 2)) (Fin (p + 2)) ℝ) (C : Matrix (Fin d) (Fin d) ℝ)
    (α : ℝ) (withLine : Bool) :
    ∃ P, Api.new A b y m S C α = .ok P ∧
      LGP.plotSol "initial" withLine P = (.ok ⟨[(m 0, m 1)], none⟩, P) := by
  refine ⟨LGP.typed A b y m S C α, by rw [Api.new, new_typed], ?_⟩
  have h1 : ((1 : Fin (p + 2)) : ℕ) = 1 := by simp
  have r0 := rowList_col m 0
  have r1 := rowList_col m 1
  rw [h1] at r1
  simp only [Fin.val_zero] at r0
  simp [LGP.plotSol, LGP.plotPt, LGP.plotLine, PyM.bind_run, LGP.typed, r0, r1]

/-- With a single parameter there is nothing to draw: `IndexError`. -/
theorem C78_one_parameter {d : ℕ} (A : Matrix (Fin d) (Fin 1) ℝ) (b y : Fin d → ℝ)
    (m : Fin 1 → ℝ) (S : Matrix (Fin 1) (Fin 1) ℝ) (C : Matrix (Fin d) (Fin d) ℝ)
    (α : ℝ) (point : String) (hp : point ≠ "initial") (withLine : Bool) (x : Fin 1 → ℝ)
    (hx : Returns (Api.solve point A b y m S C α) x) :
    Api.plotSol point withLine A b y m S C α = .error .indexError := by
  rw [Returns, Api.solve, new_typed, Py.ok_bind] at hx
  rw [Api.plotSol, Api.new, new_typed, Py.ok_bind]
  rcases hs : LGP.solve point none (LGP.typed A b y m S C α) with ⟨r, Q⟩
  rw [hs] at hx
  obtain rfl : r = _ := hx
  have hpt : LGP.plotPt point withLine (LGP.typed A b y m S C α) = (.ok (Arr2.col x), Q) := by
    rw [LGP.plotPt, if_neg hp, PyM.bind_run, hs]
    rfl
  rw [LGP.plotSol, PyM.bind_run, hpt]
  have r0 := rowList_col x 0
  simp only [Fin.val_zero] at r0
  have r1 : (Arr2.col x).rowList 1 = .error .indexError := if_neg (by simp)
  show ((do
    let xs ← PyM.lift ((Arr2.col x).rowList 0)
    let ys ← PyM.lift ((Arr2.col x).rowList 1)
    let P ← PyM.get
    let line ← PyM.lift (LGP.plotLine point withLine P (Arr2.col x))
    return (⟨List.zip xs ys, line⟩ : SolPlot) : PyM LGP SolPlot) Q).1 = _
  rw [r0, PyM.lift_ok_bind, r1]
  rfl

/-- Non-vacuity of C77 and C78: the two-parameter problem `x₀ + 2 x₁ = 1`. -/
example : FullRowRank (!![1, 2] : Matrix (Fin 1) (Fin 2) ℝ) ∧ "bayes" ∈ termNames ∧
    ∃ x : Fin 2 → ℝ, Returns (Api.solve "mud" (!![1, 2] : Matrix (Fin 1) (Fin 2) ℝ) ![0] ![1] ![0, 0] 1 1 1) x :=
  have h : FullRowRank (!![1, 2] : Matrix (Fin 1) (Fin 2) ℝ) :=
    fun y => ⟨![y 0, 0], by ext i; fin_cases i; simp⟩
  ⟨h, by simp [termNames],
    let ⟨x, hx, _⟩ := C01_mud_reproduces_full_rank _ h ![0] ![1] ![0, 0] 1 PosDef.one 1 1 one_pos
    ⟨x, hx⟩⟩

end Verif
