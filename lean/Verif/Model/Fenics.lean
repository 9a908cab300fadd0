import Verif.Model.Examples
import Verif.Model.ExamplesLinear
import Verif.Model.SpatioTemporal

/-!
# Generating data with FEniCS

Models `fenics_poisson_solve` and `run_fenics` (`/repo/src/mud/examples/fenics.py:53-202`).  External:
FEniCS itself, that is, turning a boundary expression into a solution surface.
-/

namespace Verif

namespace Fenics

open STP

variable {σ : Type}

/-- The text of a boundary expression: `pow(x[1], 2) * pow(1 - x[1], 5) * {cons}`
(`fenics.py:97-98`), or the text built by `piecewise_eval_from_vector` (`fenics.py:100`). -/
inductive BExpr
  | power (cons : ℝ)
  | text (ts : List Piecewise.Tok)

/-- A solution surface: its value at a point (an exception outside of the mesh), and the coordinates of
the mesh. For `fenics.py:173-176`. -/
structure Surface where
  value : ℝ × ℝ → Py ℝ
  nodes : List (ℝ × ℝ)

/-- FEniCS: can it be imported (`fin_flag`, `fenics.py:19-27`), and the solution of the variational
problem (`fenics.py:57-94`, `102-143`) for a boundary expression. -/
structure Dolfin where
  available : Bool
  solve : BExpr → Py Surface

/-- The boundary expression of `fenics_poisson_solve(gamma, lam)` (`fenics.py:96-100`). -/
noncomputable def boundary (gamma : ℝ) (lam : Option (List ℝ)) : BExpr :=
  match lam with
  | none => .power (gamma * 823543 / 12500)
  | some u => .text (Piecewise.evalFromVector u)

/-- `fenics_poisson_solve(gamma, lam)` (`fenics.py:53-143`). -/
noncomputable def poissonSolve (D : Dolfin) (gamma : ℝ := -3) (lam : Option (List ℝ) := none) :
    Py Surface := D.solve (boundary gamma lam)

/-- A list of bounds broadcast to `d` columns. For `fenics.py:168-169`. -/
def bounds (l : List ℝ) (d : ℕ) : Py (List ℝ) :=
  if l.length = d then .ok l
  else if l.length = 1 then .ok (List.replicate d (l.getD 0 0))
  else .error .valueError

/-- The array `low + (high - low) * u` of shape `(n, d)`, with `u` in row-major order. For `fenics.py:168-169`. -/
def scaled (lo hi u : List ℝ) (n d : ℕ) : ND :=
  ND.ofFn [n, d] fun idx =>
    lo.getD (idx.getD 1 0) 0 +
      (hi.getD (idx.getD 1 0) 0 - lo.getD (idx.getD 1 0) 0) * u.getD (idx.getD 0 0 * d + idx.getD 1 0) 0

/-- `np.random.uniform(low=low, high=high, size=(n, d))` for lists `low`, `high` (`fenics.py:168-169`). -/
def uniform (G : Gen σ) (low high : List ℝ) (n d : ℕ) : PyM σ ND := do
  let lo ← PyM.lift (bounds low d)
  let hi ← PyM.lift (bounds high d)
  let u ← G.uniform.take (n * d)
  return scaled lo hi u n d

/-- Row `i` of a 2-D array. For `fenics.py:173-176`. -/
def rowOf (A : ND) (i : ℕ) : List ℝ := (List.range (A.shape.getD 1 0)).map fun k => A.get [i, k]

/-- The points of an `(m, 2)` array. For `fenics.py:170-194`. -/
def pointsOf (A : ND) : List (ℝ × ℝ) :=
  (List.range (A.shape.headD 0)).map fun j => (A.get [j, 0], A.get [j, 1])

/-- A table filled row by row from lists of `m` numbers. For `fenics.py:170-194`. -/
def tableOf (n m : ℕ) (rows : List (List ℝ)) : ND :=
  ND.ofFn [n, m] fun idx => (rows.getD (idx.getD 0 0) []).getD (idx.getD 1 0) 0

/-- One round of the loop (`fenics.py:173-176`). -/
noncomputable def simRow (D : Dolfin) (lams : ND) (sensors : List (ℝ × ℝ)) (i : ℕ) : Py (List ℝ) := do
  let u ← poissonSolve D (lam := some (rowOf lams i))
  sensors.mapM u.value

/-- The dictionary `full_res` (`fenics.py:187-194`); `u` as rows `x, y, value`. -/
structure Result where
  lam : ND
  data : ND
  true_vals : ND
  domain : List (ℝ × ℝ)
  sensors : ND
  u : List (ℝ × ℝ × ℝ)

/-- `list(zip(mins, maxs))` as an array of numbers (what `np.reshape` makes of it). For `fenics.py:196-200`. -/
def pairsND (l : List (ℝ × ℝ)) : ND := ND.ofFn [l.length, 2] fun idx =>
  if idx.getD 1 0 = 0 then (l.getD (idx.getD 0 0) (0, 0)).1 else (l.getD (idx.getD 0 0) (0, 0)).2

/-- The dictionary as a data set. Simplification: the tuple of two arrays under `u` is one array with rows
`x, y, value`. For `fenics.py:196-200`. -/
def Result.toDs (r : Result) : DataSet :=
  [("lam", .arr r.lam), ("data", .arr r.data), ("true_vals", .arr r.true_vals),
   ("domain", .arr (pairsND r.domain)), ("sensors", .arr r.sensors),
   ("u", .arr (tableOf r.u.length 3 (r.u.map fun p => [p.1, p.2.1, p.2.2])))]

/-- The disk: its files, and which directories exist. For `fenics.py:196-200`. -/
structure Disk extends FileEnv where
  dir : String → Bool

/-- `with open(p, "wb") as fp: pickle.dump(...)` for a file directly in the directory `d`. For `fenics.py:196-200`. -/
def Disk.write (K : Disk) (d p : String) (ds : DataSet) : Py Disk := do
  raiseIf (K.dir d = false) .fileNotFoundError
  return { K with file := fun q => if q = p then some (.pickle ds) else K.file q }

/-- `f"{save_path}/s{num_samples}_n{num_sensors}_d{len(mins)}_res"` (`fenics.py:198`). -/
def resPath (save_path : String) (n m d : ℕ) : String :=
  save_path ++ "/s" ++ toString n ++ "_n" ++ toString m ++ "_d" ++ toString d ++ "_res"

/-- The value of a surface at a node, with the node (`fenics.py:184-185`). -/
def nodeRow (u : Surface) (c : ℝ × ℝ) : Py (ℝ × ℝ × ℝ) := do
  let v ← u.value c
  return (c.1, c.2, v)

/-- The simulations (`fenics.py:170-194`). -/
noncomputable def simulateAll (D : Dolfin) (mins maxs : List ℝ) (gamma : ℝ) (n m : ℕ) (sensors lams : ND) :
    Py Result := do
  let rows ← (List.range n).mapM (simRow D lams (pointsOf sensors))
  let t ← poissonSolve D gamma
  let tv ← (pointsOf sensors).mapM t.value
  let nodes ← t.nodes.mapM (nodeRow t)
  return { lam := lams
           data := tableOf n m rows
           true_vals := tableOf m 1 (tv.map fun v => [v])
           domain := List.zip mins maxs
           sensors := sensors
           u := nodes }

/-- Saving the results (`fenics.py:196-200`): the path and the disk. -/
def save (K : Disk) (save_path : Option String) (n m d : ℕ) (r : Result) : Py (Option String × Disk) :=
  match save_path with
  | none => return (none, K)
  | some sp => do
    let K' ← K.write sp (resPath sp n m d) r.toDs
    return (some (resPath sp n m d), K')

/-- What `run_fenics` returns, and the disk it leaves. For `fenics.py:146-202`. -/
structure Out where
  res : Result
  path : Option String
  disk : Disk

/-- `run_fenics(num_samples, num_sensors, mins, maxs, sensor_low, sensor_high, gamma, save_path, seed)`
(`fenics.py:146-202`). -/
noncomputable def runFenics (D : Dolfin) (G : Gen σ) (K : Disk) (n m : ℕ) (mins : List ℝ := [-4, -4])
    (maxs : List ℝ := [0, 0]) (sensor_low : List ℝ := [0, 0]) (sensor_high : List ℝ := [1, 1])
    (gamma : ℝ := -3) (save_path : Option String := none) (seed : Option ℕ := none) : PyM σ Out := do
  PyM.lift (raiseIf (D.available = false) .moduleNotFoundError)
  G.uniform.reseed seed
  PyM.lift (raiseIf (mins.length ≠ maxs.length) .valueError)
  let sensors ← uniform G sensor_low sensor_high m 2
  let lams ← uniform G mins maxs n mins.length
  let r ← PyM.lift (simulateAll D mins maxs gamma n m sensors lams)
  let p ← PyM.lift (save K save_path n m mins.length r)
  return ⟨r, p.1, p.2⟩

end Fenics

end Verif
