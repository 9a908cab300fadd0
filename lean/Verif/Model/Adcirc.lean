import Verif.Model.PoissonRun

/-!
# The ADCIRC example

Models `adcirc_time_window`, `updated_dist_plot`, `pca_vector_plot`, `adcirc_ts_plot` and `tri_mesh_plot`
(`/repo/src/mud/examples/adcirc.py:53-324`) and the command `adcirc_solve`
(`/repo/src/mud/examples/examples.py:770-849`) over the models of the loader, `mud_problem`, `estimate`
and the plotting methods.  Instants are real numbers (`pd.to_datetime` is external).  Left out: axis
limits, labels, colours, wind speeds, the text of titles (only the number shown in it), the printed table
(`print_res`).  Saving a figure is the name given to `save_figure`.
-/

namespace Verif

namespace Adcirc

open Poisson

variable {σ α : Type}

/-- `x in plot_figs or "all" in plot_figs` (`adcirc.py:212`, `224`, `236`). -/
def wants (plot_figs : List String) (x : String) : Bool := decide (x ∈ plot_figs ∨ "all" ∈ plot_figs)

open Classical in
/-- `np.logical_and(times > time_window[0], times < time_window[1])` (`adcirc.py:195-198`); `TypeError`
without times or unless they are one-dimensional. -/
noncomputable def windowMask (P : STP) (w : ℝ × ℝ) : Py (List Bool) := do
  let t ← STP.need P.times .typeError
  raiseIf (t.shape.length ≠ 1) .typeError
  return t.data.map fun x => decide (w.1 < x ∧ x < w.2)

/-- `len([x for x in t_mask if x])` (`adcirc.py:199`). -/
def nData (mask : List Bool) : ℕ := mask.countP id

/-- `pca_res.components_`, stored in `adcirc_prob.pca["vecs"]` by `mud_problem` with the method "pca"
(`base.py:2008-2015`). -/
noncomputable def pcaVecs (ext : STP.Decomp) (P : STP) (k : ℕ) (mask : List Bool) : Py Arr2 := do
  let s ← P.sampleData none (some (.bools mask)) none
  let m ← STP.need s.meas .typeError
  let sd ← STP.need P.stdDev .typeError
  let R ← STP.residuals s.data m sd
  ext.pcaComponents R k

/-- The vectors stored after `mud_problem`: those of this call, or those of an earlier one.
For `adcirc.py:178-260`. -/
noncomputable def vecsAfter (ext : STP.Decomp) (P : STP) (method : String) (k : ℕ) (mask : List Bool)
    (pca0 : Option Arr2) : Py (Option Arr2) :=
  if method = "pca" then do return some (← pcaVecs ext P k mask) else return pca0

/-- One round of the loop of `pca_vector_plot` (`adcirc.py:312-320`): three colours; `ValueError` if there
are not as many times as entries. -/
def vecLine (times : List ℝ) (V : Arr2) (i : ℕ) : Py (List (ℝ × ℝ)) := do
  raiseIf (3 ≤ i) .indexError
  raiseIf (times.length ≠ V.c) .valueError
  return times.zip ((List.range V.c).map fun j => V.get i j)

/-- The time series and the vectors of `pca_vector_plot` (`adcirc.py:297-324`). -/
structure PcaFig where
  series : STP.TsFigure
  vecs : List (List (ℝ × ℝ))

/-- `pca_vector_plot(adcirc_prob, t_mask, max_plot)` (`adcirc.py:297-324`). -/
def pcaVectorPlot (choice : ℕ → ℕ → List ℕ) (P : STP) (mask : List Bool) (max_plot : ℤ)
    (vecs : Option Arr2) : Py PcaFig := do
  let f ← P.plotTs choice none (some (.bools mask)) (some (.int 0)) max_plot
  let V ← STP.need vecs .typeError
  let times ← STP.need P.times .typeError
  let t ← times.index 1 0 (.bools mask)
  let l ← (List.range V.r).mapM (vecLine t.data V)
  return ⟨f, l⟩

/-- `ylims[p_idx]` (`adcirc.py:288`), `n` the number of entries; `None` is replaced by enough entries. -/
def ylimAt (ylims : Option ℕ) (k : ℕ) : Py Unit :=
  match ylims with
  | none => .ok ()
  | some n => raiseIf (n ≤ k) .indexError

/-- The loop of `updated_dist_plot` (`adcirc.py:271-292`). -/
noncomputable def distAxes (env : Env) (pe : PlotEnv) (lam_ref : List ℝ) (ylims : Option ℕ) :
    List ℕ → PyM DPD (List (List Item))
  | [] => pure []
  | k :: ks => do
    PyM.lift (ylimAt ylims k)
    let a ← DPD.plotParamSpace env pe (k : ℤ) (some lam_ref)
    let r ← distAxes env pe lam_ref ylims ks
    return a :: r

/-- `updated_dist_plot(prob, lam_ref=adcirc_prob.lam_ref, ...)`, on demand (`adcirc.py:224-233`,
`263-294`), with the object it leaves. Reading `lam_ref` raises `AttributeError` if it was never set. -/
noncomputable def distIf (env : Env) (pe : PlotEnv) (P : STP) (ylims : Option ℕ) (b : Bool) (S : DPD) :
    Py (Option (List (List Item)) × DPD) :=
  if b then do
    let ref ← STP.need P.lamRef .attributeError
    let r ← runVal (distAxes env pe ref.data ylims (List.range S.core.n_params)) S
    return (some r.1, r.2)
  else return (none, S)

/-- One axis of the learned quantities (`adcirc.py:239-243`): the figure has two places. -/
noncomputable def qoiAxis (Q : DP) (i : ℕ) : Py (List ℝ × List ℝ × List ℝ) := do
  raiseIf (2 ≤ i) .valueError
  Q.plotParams2d 0 1 (i : ℤ)

/-- The learned quantities (`adcirc.py:236-243`). -/
noncomputable def learnedQoi (Q : DP) (num_components : ℕ) : Py (List (List ℝ × List ℝ × List ℝ)) :=
  (List.range num_components).mapM (qoiAxis Q)

/-- What `adcirc_time_window` returns (`prob`), shows (`ratio` in the title) and draws, the names of the
files saved, and the principal vectors left in the problem. For `adcirc.py:178-260`. -/
structure WindowResult where
  prob : DPD
  ndata : ℕ
  ratio : Option F
  pca : Option PcaFig
  dist : Option (List (List Item))
  qoi : Option (List (List ℝ × List ℝ × List ℝ))
  saved : List String
  vecs : Option Arr2

/-- The name of a saved figure, if it is drawn and there is a path. For `adcirc.py:178-260`. -/
def savedIf (b save : Bool) (name : String) : List String := if b && save then [name] else []

/-- `prob.expected_ratio()` if there is a title (`adcirc.py:205-211`). -/
noncomputable def ratioIf (env : Env) (title : Bool) (S : DPD) : Py (Option F × DPD) :=
  if title then do
    let r ← runVal (DPD.expectedRatio env) S
    return (some r.1, r.2)
  else return (none, S)

/-- `adcirc_time_window` (`adcirc.py:178-260`). `title`, `save`: is there a title, a path? `ylims`: number
of limits. The third name is not an f-string (`adcirc.py:249`). -/
noncomputable def timeWindow (ext : STP.Decomp) (env : Env) (pe : PlotEnv) (choice : ℕ → ℕ → List ℕ)
    (P : STP) (pca0 : Option Arr2) (w : ℝ × ℝ) (method : String := "pca") (num_components : ℕ := 1)
    (max_plot : ℤ := 50) (ylims : Option ℕ := none) (title save : Bool := false)
    (plot_figs : List String := ["all"]) : Py WindowResult := do
  let mask ← windowMask P w
  let Q ← P.mudProblem ext method none none num_components none (some (.bools mask)) none
  let vecs ← vecsAfter ext P method num_components mask pca0
  let S ← runObj (DPD.mudPoint env) { core := Q }
  let r ← ratioIf env title S
  let p ← onDemand (wants plot_figs "ts-pca") (pcaVectorPlot choice P mask max_plot vecs)
  let d ← distIf env pe P ylims (wants plot_figs "updated_dist") r.2
  let q ← onDemand (wants plot_figs "learned_qoi") (learnedQoi d.2.core num_components)
  return { prob := d.2, ndata := nData mask, ratio := r.1, pca := p, dist := d.1, qoi := q
           saved := savedIf (wants plot_figs "ts-pca") save s!"pca_vecs_{num_components}_{nData mask}" ++
             savedIf (wants plot_figs "updated_dist") save
               s!"updated_dist_{num_components}_{nData mask}" ++
             savedIf (wants plot_figs "learned_qoi") save "qoi_{num_components}_{ndata}"
           vecs := vecs }

/-- `adcirc_ts_plot(adcirc_prob, time_windows)` (`adcirc.py:119-175`): the time series and the pairs of
lines of the windows; three line styles. -/
def tsPlot (choice : ℕ → ℕ → List ℕ) (P : STP) (windows : List (ℝ × ℝ)) :
    Py (STP.TsFigure × List (ℝ × ℝ)) := do
  let f ← P.plotTs choice none none (some (.int 0)) 50
  raiseIf (3 < windows.length) .indexError
  return (f, windows)

/-- Values over the grid: what is in the data set under a name. For `adcirc.py:69-93`. -/
abbrev Grid := List (String × List ℝ)

/-- The values drawn by `tri_mesh_plot(grid, value, colorbar_cutoff)` (`adcirc.py:69-93`); the
triangulation is external. -/
noncomputable def meshValues (grid : Grid) (value : String) (cutoff : ℝ) : Py (List ℝ) :=
  if value = "DP" then do
    let d ← STP.need (grid.lookup "DP") .keyError
    return d.map fun x => max (-x) cutoff
  else if (grid.lookup value).isSome then STP.need (grid.lookup "wind_speed_mult_0") .keyError
  else .error .valueError

/-- One row of the table (`examples.py:836-843`). -/
structure Row where
  window : ℝ × ℝ
  mud : List ℝ
  ratio : F

/-- `res.estimate()`, `res.expected_ratio()` (`examples.py:840-841`). -/
noncomputable def rowOf (env : Env) : PyM DPD (List ℝ × F) := do
  let a ← DPD.mudPoint env
  let b ← DPD.expectedRatio env
  return (a, b)

/-- The loop over the windows (`examples.py:823-844`): the principal vectors of a window stay in the
problem until the next. `ylims`: are there limits (two per window)? -/
noncomputable def windowsLoop (ext : STP.Decomp) (env : Env) (pe : PlotEnv) (choice : ℕ → ℕ → List ℕ)
    (P : STP) (num_components : ℕ) (ylims : Option ℕ) (save : Bool) (plot_fig : List String) :
    List (ℝ × ℝ) → Option Arr2 → Py (List (WindowResult × Row))
  | [], _ => return []
  | w :: ws, pca0 => do
    let res ← timeWindow ext env pe choice P pca0 w "pca" num_components 50 ylims true save plot_fig
    let r ← runVal (rowOf env) res.prob
    let rest ← windowsLoop ext env pe choice P num_components ylims save plot_fig ws res.vecs
    return (res, ⟨w, r.1.1, r.1.2⟩) :: rest

/-- What `adcirc_solve` draws and prints. For `examples.py:797-846`. -/
structure SolveResult where
  prob : STP
  full : Option (STP.TsFigure × List (ℝ × ℝ))
  mesh : Option (List ℝ)
  windows : List (WindowResult × Row)

/-- `ylims if len(ylims) == len(time_windows) else None` (`examples.py:799-800`): two limits for each
window, or none. -/
def ylimsFor (p1 p2 : List ℝ) (nw : ℕ) : Option ℕ := if (p1.zip p2).length = nw then some 2 else none

/-- `adcirc_solve` after the problem is loaded (`examples.py:797-846`). -/
noncomputable def solveWith (ext : STP.Decomp) (env : Env) (pe : PlotEnv) (choice : ℕ → ℕ → List ℕ)
    (grid : Grid) (P : STP) (num_components : ℕ) (t_start t_end p1 p2 : List ℝ) (mesh_value : String)
    (cutoff : ℝ) (save : Bool) (plot_fig : List String) : Py SolveResult := do
  let f ← onDemand (wants plot_fig "full_ts") (tsPlot choice P (t_start.zip t_end))
  let m ← onDemand (wants plot_fig "mesh") (meshValues grid mesh_value cutoff)
  let l ← windowsLoop ext env pe choice P num_components (ylimsFor p1 p2 (t_start.zip t_end).length) save
    plot_fig (t_start.zip t_end) none
  return ⟨P, f, m, l⟩

/-- `adcirc_solve` (`examples.py:770-853`): one sensor at the origin; `sigma` is not used by the loader.
`grid` is `raw_data["grid_data"]`. -/
noncomputable def adcircSolve (E : STP.FileEnv) (G : Rng σ) (ext : STP.Decomp) (env : Env) (pe : PlotEnv)
    (choice : ℕ → ℕ → List ℕ) (grid : Grid) (path : String) (num_components : ℕ := 2)
    (t_start t_end p1 p2 : List ℝ) (sigma : ℝ := 0.1) (mesh_value : String := "wind_speed_mult_0")
    (cutoff : ℝ := -10) (save : Bool := false) (plot_fig : List String := ["all"])
    (seed : Option ℕ := none) : PyM σ SolveResult := do
  let l ← loadAdcirc E G path ⟨[1, 2], [0, 0], rfl⟩ sigma seed
  PyM.lift (solveWith ext env pe choice grid l.2 num_components t_start t_end p1 p2 mesh_value cutoff save
    plot_fig)

end Adcirc

end Verif
