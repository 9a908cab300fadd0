import Verif.Model.Adcirc

/-!
# The commands `poisson_solve` and `poisson_trials`

Models `/repo/src/mud/examples/examples.py:110-120, 357-532` over the models of `run_2d_poisson_sol` and
`run_2d_poisson_trials`.  `click` passes an option with `multiple=True` as a tuple.  Left out: `plt.show`,
`dpi`, limits of the vertical axes, and the layout of the printed table (`print_res` is the subject of C71).
-/

namespace Verif

namespace Cli

open Poisson

variable {σ ρ : Type}

/-- A value given for `plot_fig`: a string, a list of strings or a tuple of strings. For `poisson.py:283`. -/
inductive FigArg
  | text (s : String)
  | list (l : List String)
  | tuple (l : List String)
  deriving DecidableEq

/-- `plot_fig = [plot_fig] if not isinstance(plot_fig, list) else plot_fig` (`poisson.py:283`): the items
of the resulting list. -/
def figItems : FigArg → List FigArg
  | .list l => l.map .text
  | a => [a]

/-- The strings among the items: `"qoi" in plot_fig` compares with these only. For `examples.py:375-402`. -/
def figNames (a : FigArg) : List String :=
  (figItems a).filterMap fun i =>
    match i with
    | .text s => some s
    | _ => none

/-- The group's callback (`examples.py:110-120`): NumPy's generator is seeded if a seed is given. -/
def seedNp (G : Rng σ) (seed : Option ℕ) : PyM σ Unit := G.reseed seed

/-- What `poisson_solve` leaves: the result of `run_2d_poisson_sol` and the point printed.
For `examples.py:375-402`. -/
structure SolveOut where
  res : SolResult
  printed : List ℝ

/-- `poisson_solve DATA_FILE -s sigma -p ...` (`examples.py:375-402`). -/
noncomputable def poissonSolve (E : STP.FileEnv) (G : Rng σ) (R : PyRandom ρ) (ext : STP.Decomp) (env : Env)
    (pe : PlotEnv) (closest : List ℝ) (path : String) (sigma : ℝ) (seed : Option ℕ)
    (plot_fig : List String) : PyM (σ × ρ) SolveOut := do
  onNp (seedNp G seed)
  let out ← runSol E G R ext env pe closest path sigma seed (figNames (.tuple plot_fig))
  let pt ← PyM.lift (runVal (DPD.mudPoint env) out.mud)
  return ⟨{ out with mud := pt.2 }, pt.1⟩

/-- A row of the table of `poisson_trials`. For `examples.py:524-525`. -/
structure TrialRow where
  N : ℤ
  mud : List ℝ
  ratio : F

/-- `{"N": n_vals[i], "mud_pt": p.estimate(), "r": p.expected_ratio()}` (`examples.py:524-525`). -/
noncomputable def trialRow (env : Env) (n_vals : List ℤ) (p : Trial × ℕ) : Py TrialRow := do
  let N ← STP.need n_vals[p.2]? .indexError
  let r ← runVal (Adcirc.rowOf env) p.1.2
  return ⟨N, r.1.1, r.1.2⟩

/-- `n_vals = list(n_vals); n_vals.sort()` (`examples.py:508-509`). -/
def sortVals (n_vals : List ℤ) : List ℤ := n_vals.mergeSort (fun a b => decide (a ≤ b))

/-- `poisson_trials DATA_FILE -n ... -s sigma -p ...` (`examples.py:493-532`); `x_range` is
`np.array([xlim1, xlim2])`; the names of figures are not used. -/
noncomputable def poissonTrials (E : STP.FileEnv) (G : Rng σ) (R : PyRandom ρ) (ext : STP.Decomp) (env : Env)
    (pe : PlotEnv) (closest : List ℝ) (x_range : Arr2) (path : String) (n_vals : List ℤ) (sigma : ℝ)
    (seed : Option ℕ) (_plot_fig : List String) : PyM (σ × ρ) ((STP × List Trial) × List TrialRow) := do
  onNp (seedNp G seed)
  let res ← runTrials E G R ext env pe closest x_range path (sortVals n_vals) "random" true true sigma seed
  let rows ← PyM.lift (res.2.zipIdx.mapM (trialRow env (sortVals n_vals)))
  return (res, rows)

end Cli

end Verif
