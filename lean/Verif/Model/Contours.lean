import Verif.Model.PlotLinear
import Verif.Model.Svd

/-!
# `run_contours`

Models `/repo/src/mud/examples/linear.py:265-597` and the method `plot_contours` of
`LinearGaussianProblem` (`/repo/src/mud/base.py:1276-1315`). What is handed to matplotlib is modelled as
numbers; colours, labels and axis limits are not.
-/

open Matrix

namespace Verif

namespace Contours

/-- `LinearGaussianProblem.plot_contours(w)` with the default `ref` and `subset`
(`base.py:1295-1310`): the least squares solution is computed anew (`solve("ls")`) and used as the
reference point. `svd1 row` is the decomposition NumPy returns for one row of the operator.
Simplification: only operators with two columns (the callers draw a functional over a two-dimensional
mesh first, which raises otherwise). -/
noncomputable def solContours (svd1 : (Fin 2 → ℝ) → SvdOut 1 2) (w : ℝ) :
    PyM LGP (List ((ℝ × ℝ) × (ℝ × ℝ))) := do
  let r ← LGP.solve "ls"
  let ref ← PyM.lift (LGP.ptOf true r)
  let P ← PyM.get
  PyM.lift (raiseIf (P.A.c ≠ 2) .unmodelled)
  PyM.lift (plotContours (m := P.A.r) (fun i => svd1 fun j => P.A.get i j)
    (fun j => ref.get j 0) w)

/-- A surface given to `contour`: the name of the functional and the three arrays.
For `base.py:1317-1337`, `linear.py:287-324`. -/
structure Surface where
  terms : String
  X : Matrix (Fin 250) (Fin 250) ℝ
  Y : Matrix (Fin 250) (Fin 250) ℝ
  Z : Matrix (Fin 250) (Fin 250) ℝ

/-- What one figure shows: contour maps, marked solutions, solution contours and the point labelled
"Truth". For `linear.py:567-594`. -/
structure Figure where
  file : String
  surfaces : List Surface
  sols : List (String × SolPlot)
  lines : List ((ℝ × ℝ) × (ℝ × ℝ))
  truth : Option (ℝ × ℝ)

/-- `lin_prob.plot_fun_contours(ax=ax, terms=terms, ...)`: default mesh, `N=250`, `r=1`. For `linear.py:287-324`. -/
noncomputable def surface (terms : String) : PyM LGP Surface := do
  let P ← PyM.get
  let t ← PyM.lift (P.plotFunContours none terms 250 1)
  return ⟨terms, t.1, t.2.1, t.2.2⟩

/-- `lin_prob.plot_sol(ax=ax, point=point, ln_opts=...)`. For `linear.py:307-324`. -/
noncomputable def mark (point : String) (withLine : Bool := true) : PyM LGP (String × SolPlot) := do
  let s ← LGP.plotSol point withLine
  return (point, s)

/-- `call_mismatch` (`linear.py:287-304`). -/
noncomputable def callMismatch (svd1 : (Fin 2 → ℝ) → SvdOut 1 2) : PyM LGP Figure := do
  let f ← surface "data"
  let l ← solContours svd1 1
  return ⟨"data_mismatch_contour.png", [f], [], l, none⟩

/-- `call_tikhonov` (`linear.py:307-324`). -/
noncomputable def callTikhonov : PyM LGP Figure := do
  let f ← surface "reg"
  let i ← mark "initial"
  return ⟨"tikhonov_contour.png", [f], [i], [], none⟩

/-- `call_consistent` (`linear.py:265-284`). -/
noncomputable def callConsistent : PyM LGP Figure := do
  let f ← surface "reg_m"
  let i ← mark "initial"
  return ⟨"consistent_contour.png", [f], [i], [], none⟩

/-- `call_map` (`linear.py:327-382`). -/
noncomputable def callMap (svd1 : (Fin 2 → ℝ) → SvdOut 1 2) : PyM LGP Figure := do
  let f ← surface "bayes"
  let g ← surface "data"
  let i ← mark "initial"
  let s ← mark "ls"
  let p ← mark "map" false
  let l ← solContours svd1 1
  return ⟨"classical_solution.png", [f, g], [i, s, p], l, none⟩

/-- `call_mud` (`linear.py:385-435`). -/
noncomputable def callMud (svd1 : (Fin 2 → ℝ) → SvdOut 1 2) : PyM LGP Figure := do
  let f ← surface "dc"
  let g ← surface "data"
  let i ← mark "initial"
  let s ← mark "ls"
  let p ← mark "mud"
  let l ← solContours svd1 1
  return ⟨"consistent_solution.png", [f, g], [i, s, p], l, none⟩

/-- `call_comparison` (`linear.py:438-510`). -/
noncomputable def callComparison (svd1 : (Fin 2 → ℝ) → SvdOut 1 2) : PyM LGP Figure := do
  let f ← surface "bayes"
  let g ← surface "data"
  let i ← mark "initial"
  let s ← mark "ls"
  let p ← mark "map" false
  let q ← mark "mud"
  let l ← solContours svd1 1
  return ⟨"map_compare_contour.png", [f, g], [i, s, p, q], l, some (0.7, 0.3)⟩

/-- The argument `plot_fig`: a list of names, or one string (as in `mud_paper`,
`examples.py:898,919`), for which `in` tests for a substring. -/
inductive PlotFig
  | names (l : List String)
  | text (s : String)

/-- `name in plot_fig`. For `linear.py:553`. -/
def PlotFig.has (name : String) : PlotFig → Bool
  | .names l => decide (name ∈ l)
  | .text s => s.toList.tails.any fun t => name.toList.isPrefixOf t

/-- `plot_fig = ["all"] if plot_fig is None else plot_fig` (`linear.py:553`) and the conditions
`"..." in plot_fig or "all" in plot_fig`. -/
def wanted (plot_fig : Option PlotFig) (name : String) : Bool :=
  (plot_fig.getD (.names ["all"])).has name || (plot_fig.getD (.names ["all"])).has "all"

/-- The keyword arguments of the linear problem: those that are passed. An argument passed as `None` is
not modelled. For `linear.py:556-565`. -/
structure Args where
  A : Option NArr := none
  b : Option NArr := none
  y : Option NArr := none
  mean_i : Option NArr := none
  cov_i : Option Arr2 := none
  cov_o : Option Arr2 := none
  alpha : Option ℝ := none

/-- The problem built by `run_contours` (`linear.py:556-565`): defaults, overwritten by `kwargs`. -/
noncomputable def newProblem (kw : Args) : Py LGP :=
  LGP.new (kw.A.getD (.mat ⟨1, 2, !![1, 1]⟩)) (some (kw.b.getD (.mat ⟨1, 1, !![0]⟩)))
    (some (kw.y.getD (.mat ⟨1, 1, !![1]⟩))) (some (kw.mean_i.getD (.mat ⟨2, 1, !![0.25; 0.25]⟩)))
    (some (kw.cov_i.getD ⟨2, 2, !![1, -0.25; -0.25, 0.5]⟩)) (some (kw.cov_o.getD ⟨1, 1, !![1]⟩))
    (some (kw.alpha.getD 1))

/-- A figure if it is asked for. For `linear.py:567-594`. -/
noncomputable def figIf (b : Bool) (x : PyM LGP Figure) : PyM LGP (List Figure) :=
  if b then do
    let f ← x
    return [f]
  else return []

/-- What `run_contours` returns (the problem) and leaves behind: the figures in the order they are drawn and
the names of the files written. For `linear.py:513-597`. -/
structure Out where
  prob : LGP
  figs : List Figure
  saved : List String

/-- The part of `run_contours` after the construction of the problem (`linear.py:567-594`). `save` is
whether a non-empty `save_path` is given; every figure is saved as soon as it is drawn. -/
noncomputable def figures (svd1 : (Fin 2 → ℝ) → SvdOut 1 2) (plot_fig : Option PlotFig) :
    PyM LGP (List Figure) := do
  let _ ← LGP.solve "mud"
  let _ ← LGP.solve "map"
  let _ ← LGP.solve "ls"
  let f1 ← figIf (wanted plot_fig "data_mismatch") (callMismatch svd1)
  let f2 ← figIf (wanted plot_fig "tikhonov") callTikhonov
  let f3 ← figIf (wanted plot_fig "consistent") callConsistent
  let f4 ← figIf (wanted plot_fig "map") (callMap svd1)
  let f5 ← figIf (wanted plot_fig "mud") (callMud svd1)
  let f6 ← figIf (wanted plot_fig "comparison") (callComparison svd1)
  return f1 ++ f2 ++ f3 ++ f4 ++ f5 ++ f6

/-- The result of a run as a value. For `linear.py:513-597`. -/
def outOf (save : Bool) : Py (List Figure) × LGP → Py Out
  | (.ok fs, P) => .ok ⟨P, fs, if save then fs.map (·.file) else []⟩
  | (.error e, _) => .error e

/-- `run_contours(plot_fig, save_path, **kwargs)` (`linear.py:513-597`). -/
noncomputable def runContours (svd1 : (Fin 2 → ℝ) → SvdOut 1 2) (plot_fig : Option PlotFig)
    (save : Bool) (kw : Args) : Py Out := do
  let P ← newProblem kw
  outOf save (figures svd1 plot_fig P)

end Contours

end Verif
