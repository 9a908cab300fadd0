import Verif.Model.ExamplesSimple
import Verif.Model.PlotProb

/-!
# `run_comparison_example` (`/repo/src/mud/examples/comparison.py`)

Formatting of the figures and saving them is not modelled.
-/

namespace Verif

/-- A method call on an object in a script: result and object, or the exception. For `comparison.py:93-97`. -/
def runM {τ α : Type} (m : PyM τ α) (S : τ) : Py (α × τ) :=
  match m S with
  | (.ok a, S') => .ok (a, S')
  | (.error e, _) => .error e

/-- `comparison_plot(d_prob, b_prob, space="param")` (`comparison.py:93-97`): what is drawn, and the
two objects afterwards. -/
noncomputable def comparisonParam (env : Env) (pe : PlotEnv) (S : DPD) (T : BPD) :
    Py (List Item × DPD × BPD) := do
  let r ← runM (DPD.plotParamSpace env pe (win_opts := false) (mud_opts := false)) S
  let q ← runM (BPD.plotParamSpace pe (pr_opts := false) (map_opts := false)) T
  return (r.1 ++ q.1, r.2, q.2)

/-- `comparison_plot(d_prob, b_prob, space="obs")` (`comparison.py:106-114`). -/
noncomputable def comparisonObs (pe : PlotEnv) (S : DPD) (T : BPD) : Py (List Item) := do
  let r ← DPD.plotObsSpace pe S (y_range := some ⟨1, 2, .of fun _ k => if k = 0 then -1 else 1⟩)
  let q ← BPD.plotObsSpace pe T (ll_opts := false)
  return r ++ q

/-- What one pass of the loop yields: the two problems and the contents of the two figures.
For `comparison.py:191-226`. -/
structure CompOut where
  d : DPD
  b : BPD
  param : List Item
  obs : List Item

/-- `d_prob` (`comparison.py:191-193`); `domInt`: is `domain` a list of integers? -/
noncomputable def compDensity (env : Env) (lam q : Arr2) (data : List ℝ) (sigma a b : ℝ)
    (domInt : Bool) : Py DPD := do
  let P ← DP.new (.mat lam) (.mat q) (some (.vec 2 ![a, b])) none false (1 / 10) false domInt
  let r ← runM (DPD.setObserved (some (normDist (listMean data) sigma))) { core := P }
  let r ← runM (DPD.mudPoint env) r.2
  return r.2

/-- `b_prob` (`comparison.py:195-197`). -/
noncomputable def compBayes (lam q : Arr2) (data : List ℝ) (sigma a b : ℝ) : Py BPD := do
  let P ← BP.new (.mat lam) (.mat q) (some (.vec 2 ![a, b]))
  let r ← runM (BPD.setLikelihood (normDists data sigma) false) { core := P }
  let r ← runM BPD.mapPoint r.2
  return r.2

/-- One pass of the loop after the data have been generated (`comparison.py:191-226`). -/
noncomputable def compPass (env : Env) (pe : PlotEnv) (lam q : Arr2) (data : List ℝ)
    (sigma a b : ℝ) (domInt : Bool) : Py CompOut := do
  let D ← compDensity env lam q data sigma a b domInt
  let B ← compBayes lam q data sigma a b
  let r ← comparisonParam env pe D B
  let o ← comparisonObs pe r.2.1 r.2.2
  return { d := r.2.1, b := r.2.2, param := r.1, obs := o }

/-- `run_comparison_example(p, num_samples, mu, sigma, [a, b], N_vals)` (`comparison.py:130-229`).
The samples are drawn from `polynomial_1D_data`'s default, uniform on [0, 1]: `domain` is not used
for them. -/
noncomputable def runComparison {σ : Type} (env : Env) (pe : PlotEnv) (G : Gen σ) (p n : ℕ)
    (mu sigma a b : ℝ) (domInt : Bool) : List ℕ → PyM σ (List CompOut)
  | [] => pure []
  | N :: Ns => do
    let out ← polynomial1DData G (Frozen.uniform G 0 1) p n mu sigma N
    let o ← PyM.lift (compPass env pe out.1 out.2.1 out.2.2 sigma a b domInt)
    let os ← runComparison env pe G p n mu sigma a b domInt Ns
    return o :: os

end Verif
