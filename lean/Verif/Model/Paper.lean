import Verif.Model.Cli
import Verif.Model.Contours
import Verif.Model.Comparison
import Verif.Model.ExamplesWme
import Verif.Model.ExamplesHighDim
import Verif.Model.Fenics

/-!
# `mud_paper`

Models the command `mud_paper` (`/repo/src/mud/examples/examples.py:850-1060`) as the sequence of the example
runs modelled elsewhere, on one NumPy generator, one generator of Python's `random` and one disk.
External: everything external there; the files on the web server.  Left out: creating the directories,
titles, limits and `dpi`.  Instants are real numbers.
-/

namespace Verif

namespace Paper

open Poisson Cli

variable {σ ρ : Type}

/-- `str(Path(d) / f)`. Simplification: `d` has no trailing slash and is not empty. For `examples.py:850-1060`. -/
def join (d f : String) : String := if d = "." then f else d ++ "/" ++ f

/-- Everything `mud_paper` depends on besides its options and the generators' states. `remote` is what
`wget.download` fetches for a name, `windows` are the instants of the three time windows, `grid` is
`raw_data["grid_data"]`. For `examples.py:867-911`. -/
structure World (σ ρ : Type) where
  G : Gen σ
  R : PyRandom ρ
  ext : STP.Decomp
  env : Env
  pe : PlotEnv
  closest : List ℝ
  svd1 : (Fin 2 → ℝ) → SvdOut 1 2
  svd : (A : Arr2) → SvdOut A.r A.c
  choice : ℕ → ℕ → List ℕ
  dolfin : Fenics.Dolfin
  remote : String → Py STP.DataSet
  disk : Fenics.Disk
  grid : Adcirc.Grid
  x_range : Arr2
  t1 : ℝ × ℝ
  t2 : ℝ × ℝ
  t3 : ℝ × ℝ

/-- Figures 1 to 6. For `examples.py:867-911`. -/
structure Figs where
  fig1 : List CompOut
  fig2 : List CompOut
  fig3 : Contours.Out
  fig4 : LGP × List Arr2
  fig5 : Contours.Out
  fig6 : List (List (List F)) × List (List (List F))

/-- `lin_prob` (`examples.py:896-904`). -/
noncomputable def lin_prob : Contours.Args :=
  { A := some (.mat ⟨1, 2, !![1, 1]⟩), b := some (.mat ⟨1, 1, !![0]⟩), y := some (.mat ⟨1, 1, !![1]⟩)
    mean_i := some (.mat ⟨2, 1, !![0.25; 0.25]⟩), cov_i := some ⟨2, 2, !![1.0, -0.5; -0.5, 0.5]⟩
    cov_o := some ⟨1, 1, !![0.5]⟩, alpha := some 1.0 }

/-- `_set_seed()` (`examples.py:863-865`). -/
def setSeed (G : Gen σ) (seed : Option ℕ) : PyM σ Unit := G.normal.reseed seed

/-- Figures 1 to 6 (`examples.py:867-911`). Figure 6 does not use the seed: the default of
`run_high_dim_linear` is 21. -/
noncomputable def linearFigs (W : World σ ρ) (seed : Option ℕ) : PyM σ Figs := do
  setSeed W.G seed
  let f1 ← runComparison W.env W.pe W.G 5 1000 0.25 0.1 (-1) 1 true [1]
  setSeed W.G seed
  let f2 ← runComparison W.env W.pe W.G 5 1000 0.25 0.1 (-1) 1 true [5, 10, 20]
  setSeed W.G seed
  let f3 ← PyM.lift (Contours.runContours W.svd1 (some (.text "all")) true {})
  setSeed W.G seed
  let f4 ← runWmeCovariance W.G 20 5 0.1 [10, 100, 1000, 10000] none
  setSeed W.G seed
  let f5 ← PyM.lift (Contours.runContours W.svd1 (some (.text "comparison")) true lin_prob)
  setSeed W.G seed
  let f6 ← runHighDim W.G W.svd 100 100
  return ⟨f1, f2, f3, f4, f5, f6⟩

/-- `download(url)` of a file named `name`, then `Path(name).rename(path)` (`examples.py:919-920`,
`961-962`): `wget` does not overwrite, so that a file `name` already in the working directory is the one
moved (the new one is then `name (1)`). -/
def fetch (W : World σ ρ) (K : Fenics.Disk) (name path : String) : Py Fenics.Disk := do
  let ds ← W.remote name
  return { K with file := fun q => if q = path then some ((K.file name).getD (.pickle ds))
                                    else if q = name then none else K.file q }

/-- The Poisson data (`examples.py:913-929`): nothing if the file exists, else download, or generate if
FEniCS is installed. -/
noncomputable def poissonData (W : World σ ρ) (path : String) (seed : Option ℕ) : PyM σ Fenics.Disk :=
  if (W.disk.file path).isSome then pure W.disk
  else if W.dolfin.available = false then PyM.lift (fetch W W.disk "poisson_data.pkl" path)
  else do
    let o ← Fenics.runFenics W.dolfin W.G W.disk 1000 500 [-4, -4] [0, 0] [0, 0] [1, 1] (-3) (some ".") seed
    return o.disk

/-- The ADCIRC data (`examples.py:957-962`). -/
def adcircData (W : World σ ρ) (K : Fenics.Disk) (path : String) : Py Fenics.Disk :=
  if (K.file path).isSome then pure K else fetch W K "adcirc-si.pkl" path

/-- Figures 10 to 13. For `examples.py:964-1060`. -/
structure Tides where
  prob : STP
  mesh : List ℝ × List ℝ
  full : STP.TsFigure × List (ℝ × ℝ)
  windows : List Adcirc.WindowResult

/-- `adcirc_time_window(adcirc_prob, t, num_components=k, plot_figs="updated_dist", ...)`
(`examples.py:993-1059`): of the names, only "updated_dist" is a substring of "updated_dist". -/
noncomputable def paperWindow (W : World σ ρ) (P : STP) (w : ℝ × ℝ) (k : ℕ) (ylims : Option ℕ) :
    Py Adcirc.WindowResult :=
  Adcirc.timeWindow W.ext W.env W.pe W.choice P none w "pca" k 50 ylims true true ["updated_dist"]

/-- Figures 10 to 13 (`examples.py:964-1060`), after the problem is loaded. -/
noncomputable def tides (W : World σ ρ) (P : STP) : Py Tides := do
  let m1 ← Adcirc.meshValues W.grid "wind_speed_mult_0" (-10)
  let m2 ← Adcirc.meshValues W.grid "DP" (-10)
  let full ← Adcirc.tsPlot W.choice P [W.t1, W.t2, W.t3]
  let a1 ← paperWindow W P W.t1 1 (some 2)
  let a2 ← paperWindow W P W.t1 2 none
  let b1 ← paperWindow W P W.t2 1 (some 2)
  let b2 ← paperWindow W P W.t2 2 (some 2)
  let c1 ← paperWindow W P W.t3 1 (some 2)
  let c2 ← paperWindow W P W.t3 2 (some 2)
  return ⟨P, (m1, m2), full, [a1, a2, b1, b2, c1, c2]⟩

/-- What `mud_paper` draws and prints, and the disk it leaves (figures are listed in `saved`).
For `examples.py:850-1060`. -/
structure Out where
  figs : Figs
  sol : SolResult
  trials : STP × List Trial
  table : List TrialRow
  tides : Tides
  disk : Fenics.Disk

/-- Figure 9 and the table (`examples.py:942-955`). -/
noncomputable def trialsTable (W : World σ ρ) (E : STP.FileEnv) (path : String) (seed : Option ℕ) :
    PyM (σ × ρ) ((STP × List Trial) × List TrialRow) := do
  let res ← runTrials E W.G.normal W.R W.ext W.env W.pe W.closest W.x_range path [5, 50, 500] "random" true
    true 0.05 seed
  let rows ← PyM.lift (res.2.zipIdx.mapM (trialRow W.env [5, 50, 500]))
  return (res, rows)

/-- `mud_paper` (`examples.py:850-1060`), after the group's callback has seeded NumPy's generator. -/
noncomputable def mudPaper (W : World σ ρ) (save_path : String) (seed : Option ℕ) : PyM (σ × ρ) Out := do
  onNp (setSeed W.G seed)
  let figs ← onNp (linearFigs W seed)
  let K ← onNp (poissonData W (join (join save_path "data") "poisson_data.pkl") seed)
  onNp (setSeed W.G seed)
  let sol ← runSol K.toFileEnv W.G.normal W.R W.ext W.env W.pe W.closest
    (join (join save_path "data") "poisson_data.pkl") 0.05 seed ["response", "qoi"]
  let tr ← trialsTable W K.toFileEnv (join (join save_path "data") "poisson_data.pkl") seed
  let K' ← PyM.lift (adcircData W K (join (join save_path "data") "adcirc-si.pkl"))
  let l ← onNp (loadAdcirc K'.toFileEnv W.G.normal (join (join save_path "data") "adcirc-si.pkl")
    ⟨[1, 2], [0, 0], rfl⟩ 0.05 (some 21))
  let t ← PyM.lift (tides W l.2)
  return ⟨figs, sol, tr.1, tr.2, t, K'⟩

/-- The two names per number of data (`comparison.py:207-224`). -/
def compFiles (N : ℕ) : List String := [s!"bip-vs-sip-{N}.png", s!"bip-vs-sip-pf-{N}.png"]

/-- The image files written, in order, with their directories: all figures go to `figures`, but those of the
trials to `save_path` itself (`examples.py:948`). -/
def saved (save_path : String) (o : Out) : List String :=
  ([1, 5, 10, 20].flatMap compFiles ++ o.figs.fig3.saved ++ ["lin-meas-cov-sd-convergence.png"] ++
    o.figs.fig5.saved ++ ["lin-dim-cov-convergence.png", "lin-rank-cov-convergence.png",
    "response_surface", "learned_qoi"]).map (join (join save_path "figures")) ++
  ([5, 50, 500].map fun N : ℕ => join save_path s!"solution_n{N}") ++
  (["si-wind_speed_mult_0", "si-DP", "adcirc_full_ts"] ++ o.tides.windows.flatMap (·.saved)).map
    (join (join save_path "figures"))

end Paper

end Verif
