import Verif.Model.Poisson
import Verif.Model.PlotProb
import Verif.Model.PlotTs

/-!
# Running the Poisson example

Models `run_2d_poisson_sol` and `run_2d_poisson_trials` (`/repo/src/mud/examples/poisson.py:134-469`)
over the models of the loader, `mud_problem`, `estimate` and the plotting methods.  External:
`scipy.optimize.minimize` (its result is the parameter `closest`), the generator of Python's `random`,
the drawing itself.  Left out: the contour plot of `raw_data["u"]`, titles, limits, legends, saving.
-/

namespace Verif

namespace Poisson

variable {σ ρ α : Type}

/-- The generator behind Python's module `random`: `seed(a)` and `_randbelow(n)`. For `poisson.py:266-268`. -/
structure PyRandom (ρ : Type) where
  seed : ℕ → ρ
  below : ℕ → ρ → ℕ × ρ

/-- The loop of CPython's `random.sample(population, k)` for `k = len(population)` on a pool of `m`
elements: `j = randbelow(m)`, take `pool[j]`, move the last element to its place. For `poisson.py:266-268`. -/
def samplePool (R : PyRandom ρ) : ℕ → List ℕ → ρ → List ℕ × ρ
  | 0, _, s => ([], s)
  | m + 1, pool, s =>
    let j := R.below (m + 1) s
    let rest := samplePool R m ((pool.set j.1 (pool.getD m 0)).take m) j.2
    (pool.getD j.1 0 :: rest.1, rest.2)

/-- `random.sample(range(n), n)` (`poisson.py:266-268`, `405-407`). -/
def sampleRange (R : PyRandom ρ) (n : ℕ) : PyM ρ (List ℕ) := fun s =>
  (.ok (samplePool R n (List.range n) s).1, (samplePool R n (List.range n) s).2)

/-- A step that uses NumPy's generator. For `poisson.py:219-327`. -/
def onNp (x : PyM σ α) : PyM (σ × ρ) α := fun s => ((x s.1).1, ((x s.1).2, s.2))

/-- A step that uses Python's generator. For `poisson.py:219-327`. -/
def onPy (x : PyM ρ α) : PyM (σ × ρ) α := fun s => ((x s.2).1, (s.1, (x s.2).2))

/-- `if seed is not None: random.seed(seed)` (`poisson.py:391-392`). -/
def seedPy (R : PyRandom ρ) (seed : Option ℕ) : PyM ρ Unit := fun s =>
  (.ok (), match seed with
    | none => s
    | some k => R.seed k)

open Classical in
/-- `list(np.lexsort((sensors[:, 1], sensors[:, 0])))` (`poisson.py:270-272`, `409-411`): a stable sort
of the indices by the first, then the second coordinate. -/
noncomputable def lexOrder (pts : List (ℝ × ℝ)) : List ℕ :=
  (List.range pts.length).mergeSort fun i j =>
    decide ((pts.getD i (0, 0)).1 < (pts.getD j (0, 0)).1 ∨
      (pts.getD i (0, 0)).1 = (pts.getD j (0, 0)).1 ∧ (pts.getD i (0, 0)).2 ≤ (pts.getD j (0, 0)).2)

/-- The order of the sensors (`poisson.py:265-274`, `404-413`). -/
noncomputable def sensorOrder (R : PyRandom ρ) (order : String) (P : STP) : PyM ρ (List ℕ) :=
  if order = "random" then do
    let n ← PyM.lift P.nSensors
    sampleRange R n
  else if order = "sorted" then do
    let s ← PyM.lift (STP.need P.sensors .typeError)
    let pts ← PyM.lift (STP.pairs s)
    return lexOrder pts
  else do
    let n ← PyM.lift P.nSensors
    return List.range n

/-- `l[a:b]` for integers. For `poisson.py:166-175`. -/
def slice (l : List α) (a b : ℤ) : List α :=
  (l.take (if b < 0 then b + l.length else b).toNat).drop (if a < 0 then a + l.length else a).toNat

/-- A list of integers used as an index. For `poisson.py:166-175`. -/
def asMask (l : List ℕ) : ND.Mask := .ints (l.map fun k : ℕ => (k : ℤ))

/-- The sensors drawn by one round of the loop of `plot_response_ex` (`poisson.py:166-175`); `styles` is
the number of colours and markers available. -/
def groupPoints (P : STP) (idx : List ℕ) (styles : ℕ) (g : (ℤ × ℤ) × ℕ) : Py (List (ℝ × ℝ)) := do
  raiseIf (styles ≤ g.2) .indexError
  P.sensorScatter (some (asMask (slice idx g.1.1 g.1.2)))

/-- `poisson_prob.lam[0:50]` (`poisson.py:196`). -/
def firstRows (lam : ND) (m : ℕ) : List (List ℝ) :=
  (List.range (min m (lam.shape.headD 0))).map fun i =>
    (List.range (lam.shape.getD 1 0)).map fun j => lam.get [i, j]

/-- What `plot_response_ex` draws: sensors, group by group, and boundary functions. For `poisson.py:145-215`. -/
structure ResponseFig where
  groups : List (List (ℝ × ℝ))
  splines : List (List (List ℝ × List ℝ))

/-- `plot_response_ex` (`poisson.py:145-215`). -/
noncomputable def responseFig (P : STP) (idx : List ℕ) (closest : List ℝ)
    (group_idxs : List (ℤ × ℤ)) (styles : ℕ) : Py ResponseFig := do
  let groups ← group_idxs.zipIdx.mapM (groupPoints P idx styles)
  let lam ← STP.need P.lam .typeError
  return { groups := groups
           splines := solutionSpline closest 1000 true ::
             (firstRows lam 50).map fun l => solutionSpline l 1000 false }

/-- `plot_qoi_ex(mud_prob, num_components)` (`poisson.py:134-143`). -/
noncomputable def qoiFig (Q : DP) (num_components : ℕ) : Py (List (List ℝ × List ℝ × List ℝ)) :=
  (List.range num_components).mapM fun i : ℕ => Q.plotParams2d 0 1 (i : ℤ)

/-- The object and the value after a method. For `poisson.py:414-467`. -/
def runVal {τ : Type} (m : PyM τ α) (D : τ) : Py (α × τ) :=
  match m D with
  | (.ok a, D') => .ok (a, D')
  | (.error e, _) => .error e

/-- Compute something if wanted. For `poisson.py:275-327`. -/
def onDemand (b : Bool) (x : Py α) : Py (Option α) := if b then do return some (← x) else return none

/-- The densities of both parameters (`poisson.py:312-325`), without further keyword arguments. -/
noncomputable def densityFigs (env : Env) (pe : PlotEnv) : PyM DPD (List Item × List Item) := do
  let a ← DPD.plotParamSpace env pe 0
  let b ← DPD.plotParamSpace env pe 1
  return (a, b)

/-- What `run_2d_poisson_sol` returns and draws. For `poisson.py:275-327`. -/
structure SolResult where
  prob : STP
  mud : DPD
  response : Option ResponseFig
  qoi : Option (List (List ℝ × List ℝ × List ℝ))
  densities : Option (List Item × List Item)

/-- The densities, on demand, with the object they leave. For `poisson.py:275-327`. -/
noncomputable def densitiesIf (env : Env) (pe : PlotEnv) (b : Bool) (S : DPD) :
    Py (Option (List Item × List Item) × DPD) :=
  if b then do
    let r ← runVal (densityFigs env pe) S
    return (some r.1, r.2)
  else return (none, S)

/-- `run_2d_poisson_sol` after the order of the sensors is chosen (`poisson.py:275-327`). -/
noncomputable def solWith (ext : STP.Decomp) (env : Env) (pe : PlotEnv) (closest : List ℝ)
    (plot_fig : List String) (group_idxs : List (ℤ × ℤ)) (styles : ℕ) (P : STP) (idx : List ℕ) :
    Py SolResult := do
  let Q ← P.mudProblem ext "pca" none none 2 none none (some (asMask idx))
  let S ← runObj (DPD.mudPoint env) { core := Q }
  let r ← onDemand (decide ("response" ∈ plot_fig ∨ "all" ∈ plot_fig))
    (responseFig P idx closest group_idxs styles)
  let q ← onDemand (decide ("qoi" ∈ plot_fig ∨ "all" ∈ plot_fig)) (qoiFig S.core 2)
  let d ← densitiesIf env pe (decide ("densities" ∈ plot_fig ∨ "all" ∈ plot_fig)) S
  return { prob := P, mud := d.2, response := r, qoi := q, densities := d.1 }

/-- `run_2d_poisson_sol` (`poisson.py:219-327`): Python's generator is not seeded. -/
noncomputable def runSol (E : STP.FileEnv) (G : Rng σ) (R : PyRandom ρ) (ext : STP.Decomp) (env : Env)
    (pe : PlotEnv) (closest : List ℝ) (path : String) (sigma : ℝ := 0.05) (seed : Option ℕ := none)
    (plot_fig : List String := ["all"]) (order : String := "random")
    (group_idxs : List (ℤ × ℤ) := [(0, 5), (5, 50), (50, -1)]) (styles : ℕ := 3) :
    PyM (σ × ρ) SolResult := do
  let l ← onNp (loadPoisson E G path sigma seed)
  let idx ← onPy (sensorOrder R order l.2)
  PyM.lift (solWith ext env pe closest plot_fig group_idxs styles l.2 idx)

/-- `if annotate_location is not None: ... mud_prob.expected_ratio()` (`poisson.py:434-440`, `454-460`):
the number printed. -/
noncomputable def annotateIf (env : Env) : Bool → PyM DPD (List F)
  | true => do
    let e ← DPD.expectedRatio env
    return [e]
  | false => pure []

/-- One axis of a trial (`poisson.py:425-441`, `443-461`): densities over the given range, then the lines,
then the annotation. -/
noncomputable def trialAxis (env : Env) (pe : PlotEnv) (R : Arr2) (closest : List ℝ) (annotate : Bool)
    (k : ℤ) : PyM DPD (List Item × List F) := do
  let a ← DPD.plotParamSpace env pe k none (some R) (mud_opts := false) (true_opts := false)
  let b ← DPD.plotParamSpace env pe k (some closest) none (in_opts := false) (up_opts := false)
  let e ← annotateIf env annotate
  return (a ++ b, e)

/-- `estimate` and both axes. For `poisson.py:414-467`. -/
noncomputable def trialFigs (env : Env) (pe : PlotEnv) (R : Arr2) (closest : List ℝ) (ann1 ann2 : Bool) :
    PyM DPD ((List Item × List F) × (List Item × List F)) := do
  let _ ← DPD.mudPoint env
  let a ← trialAxis env pe R closest ann1 0
  let b ← trialAxis env pe R closest ann2 1
  return (a, b)

/-- A trial: figures and problem. For `poisson.py:414-467`. -/
abbrev Trial := ((List Item × List F) × (List Item × List F)) × DPD

/-- One round of the loop of `run_2d_poisson_trials` (`poisson.py:414-467`). -/
noncomputable def trial (ext : STP.Decomp) (env : Env) (pe : PlotEnv) (R : Arr2) (closest : List ℝ)
    (ann1 ann2 : Bool) (P : STP) (idx : List ℕ) (N : ℤ) : Py Trial := do
  let Q ← P.mudProblem ext "pca" none none 2 none none (some (asMask (slice idx 0 N)))
  runVal (trialFigs env pe R closest ann1 ann2) { core := Q }

/-- `run_2d_poisson_trials` (`poisson.py:330-469`); `x_range` is `np.array([xlim1, xlim2])`, `ann1` and
`ann2` tell whether the annotation locations are not `None`. -/
noncomputable def runTrials (E : STP.FileEnv) (G : Rng σ) (R : PyRandom ρ) (ext : STP.Decomp) (env : Env)
    (pe : PlotEnv) (closest : List ℝ) (x_range : Arr2) (path : String) (N_vals : List ℤ)
    (order : String := "random") (ann1 ann2 : Bool := true) (sigma : ℝ := 0.05)
    (seed : Option ℕ := none) : PyM (σ × ρ) (STP × List Trial) := do
  onPy (seedPy R seed)
  let l ← onNp (loadPoisson E G path sigma seed)
  let idx ← onPy (sensorOrder R order l.2)
  let ts ← PyM.lift (N_vals.mapM (trial ext env pe x_range closest ann1 ann2 l.2 idx))
  return (l.2, ts)

end Poisson

end Verif
