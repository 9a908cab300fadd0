import Verif.Model.ExamplesSimple
import Verif.Model.SpatioTemporal

/-!
# The Poisson and ADCIRC examples

Models `/repo/src/mud/examples/poisson.py:27-131`, `261-272`, `404-419` and
`/repo/src/mud/examples/adcirc.py:24-50`, `196-205`, except drawing.
-/

namespace Verif

namespace Poisson

/-- The boundary function `g` (`poisson.py:87-88`, `116-117`). -/
noncomputable def gTrue (x : ℝ) : ℝ := 197.65032 * x ^ 2 * (x - 1) ^ 5

open Classical in
/-- `np.searchsorted(xs, x)`: the number of entries smaller than `x` (of a sorted list). For `poisson.py:101-122`. -/
noncomputable def searchSorted (xs : List ℝ) (x : ℝ) : ℕ := xs.countP fun a => decide (a < x)

/-- `scipy.interpolate.interp1d(xs, ys)` evaluated at `x`: the index is clipped to `1..len - 1`, and the
line through the points on both sides is evaluated; `ValueError` outside the range. `xs` is sorted.
For `poisson.py:101-122`. -/
noncomputable def interp1d (xs ys : List ℝ) (x : ℝ) : Py ℝ := do
  raiseIf (x < xs.getD 0 0 ∨ xs.getD (xs.length - 1) 0 < x) .valueError
  let hi := min (max (searchSorted xs x) 1) (xs.length - 1)
  let lo := hi - 1
  let slope := (ys.getD hi 0 - ys.getD lo 0) / (xs.getD hi 0 - xs.getD lo 0)
  return slope * (x - xs.getD lo 0) + ys.getD lo 0

/-- `spline_objective_function_2d(lam, aff)` (`poisson.py:101-122`). -/
noncomputable def splineObjective (lam : Fin 2 → ℝ) (aff : ℕ) : Py ℝ := do
  let x := linspace 0 1 aff
  let vals ← x.mapM (interp1d [0, 1 / 3, 2 / 3, 1] [0, lam 0, lam 1, 0])
  return Real.sqrt ((List.zipWith (fun a v => (gTrue a - v) ^ 2) x vals).sum)

/-- `plot_solution_spline(lam, aff, plot_true)` (`poisson.py:71-98`): the lines drawn, as lists of
abscissae and ordinates. -/
noncomputable def solutionSpline (lam : List ℝ) (aff : ℕ) (plotTrue : Bool) :
    List (List ℝ × List ℝ) :=
  let intervals := ((linspace 0 1 (2 + lam.length)).drop 1).dropLast
  (if plotTrue then [(linspace 0 1 aff, (linspace 0 1 aff).map gTrue)] else []) ++
    [([0] ++ intervals ++ [1], [0] ++ lam ++ [0])]

/-- `measurements_from_reference(std_dev=0.05, seed=seed)` on the loaded object, and `return`
(`poisson.py:66-68`, `adcirc.py:48-50`). -/
noncomputable def addNoise {σ : Type} (G : Rng σ) (seed : Option ℕ) (ds : STP.DataSet) (P : STP) :
    PyM σ (STP.DataSet × STP) := fun s =>
  match STP.measurementsFromReference G none (some 0.05) seed (P, s) with
  | (.ok _, (P', s')) => (.ok (ds, P'), s')
  | (.error e, (_, s')) => (.error e, s')

/-- `load(path, ...)` into a fresh object, then `measurements_from_reference(std_dev=0.05, seed)`: the
data set and the object. For `poisson.py:27-68`. -/
noncomputable def loadThen {σ : Type} (E : STP.FileEnv) (G : Rng σ) (path : String)
    (kwargs : STP.DataSet) (seed : Option ℕ) : PyM σ (STP.DataSet × STP) := do
  let ds ← PyM.lift (E.read path)
  let P ← PyM.lift (runObj (STP.loadDs ds (.str "lam") (.str "data") kwargs) {})
  addNoise G seed ds P

/-- `load_poisson_prob(path, std_dev, seed)` (`poisson.py:27-68`): `std_dev` is not used. -/
noncomputable def loadPoisson {σ : Type} (E : STP.FileEnv) (G : Rng σ) (path : String)
    (_std_dev : ℝ := 0.05) (seed : Option ℕ := some 21) : PyM σ (STP.DataSet × STP) :=
  loadThen E G path
    [("true_vals", .str "true_vals"), ("measurements", .none), ("std_dev", .num 0.05),
     ("sample_dist", .str "uniform"), ("domain", .str "domain"), ("lam_ref", .none),
     ("sensors", .str "sensors"), ("times", .arr STP.zero1)] seed

/-- `load_adcirc_prob(path, std_dev, seed, sensors)` (`adcirc.py:24-50`): `std_dev` is not used. -/
noncomputable def loadAdcirc {σ : Type} (E : STP.FileEnv) (G : Rng σ) (path : String)
    (sensors : ND) (_std_dev : ℝ := 0.05) (seed : Option ℕ := some 21) :
    PyM σ (STP.DataSet × STP) :=
  loadThen E G path
    [("true_vals", .str "true_vals"), ("measurements", .none), ("std_dev", .num 0.05),
     ("sample_dist", .str "uniform"), ("domain", .str "domain"), ("lam_ref", .str "lam_ref"),
     ("sensors", .arr sensors), ("times", .str "times")] seed

end Poisson

end Verif
