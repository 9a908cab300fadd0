import Verif.SpecDensity
import Verif.SpecBayes
import Verif.Model.NDArray

/-!
# What `DensityProblem` and `BayesProblem` draw

Models `/repo/src/mud/base.py:425-532`, `534-619` (`DensityProblem.plot_param_space`,
`plot_obs_space`) and `842-899`, `901-974` (`BayesProblem`).  A figure is the list of curves and
vertical lines drawn.  A curve is the density that is handed to `plot_dist`: that of a distribution
object, or a kernel density estimate of points with weights.

The plotting methods read the stored distribution objects, which `Model/Density.lean` leaves out;
the object here is the one there plus these attributes.
-/

namespace Verif

/-- The density that is plotted. For `base.py:298-305`. -/
inductive Curve
  /-- a distribution object -/
  | ofDist (d : Dist)
  /-- `gaussian_kde(pts.T, bw_method=bw, weights=w)`; `none` is no weights -/
  | ofKde (pts : Arr2) (bw : ℕ) (w : Option (List F))

/-- One element of a figure. For `base.py:521-524`. -/
inductive Item
  | curve (role : String) (c : Curve)
  | vert (role : String) (x : ℝ)

/-- External code: drawing. `draw source c range idx aff` is the construction of the density `c`
and `plot_dist(c, range, idx=idx, source=source, aff=aff)`, or the drawing code of
`BayesProblem.plot_obs_space`; it raises or draws.  `isFrozen` tells whether an object is a SciPy
frozen distribution. For `base.py:508-516`. -/
structure PlotEnv where
  draw : String → Curve → Arr2 → ℤ → ℤ → Py Unit
  isFrozen : Dist → Bool

/-- Draw a curve if wanted. For `base.py:508-516`. -/
def drawIf (pe : PlotEnv) (b : Bool) (role source : String) (c : Curve) (rng : Arr2) (idx aff : ℤ) :
    Py (List Item) :=
  if b then do
    pe.draw source c rng idx aff
    return [.curve role c]
  else return []

/-- `plot_vert_line(ax, pt[idx])`. For `base.py:521-524`. -/
def vertAt (role : String) (pt : List ℝ) (idx : ℤ) : Py (List Item) := do
  let k ← ND.normIdx pt.length idx
  return [.vert role (pt.getD k 0)]

/-- `if true_val is not None and true_opts: plot_vert_line(ax, true_val[param_idx])`. For `base.py:425-532`. -/
def vertTrue (opts : Bool) (true_val : Option (List ℝ)) (idx : ℤ) : Py (List Item) :=
  match true_val with
  | none => return []
  | some v => if opts then vertAt "true" v idx else return []

/-- A `DensityProblem` with its distribution attributes. For `base.py:25-711`. -/
structure DPD where
  core : DP
  inDist : Option Dist := none
  prDist : Option Curve := none
  obDist : Option Dist := none

namespace DPD

/-- A method that does not touch the distribution attributes. For `base.py:25-711`. -/
def emb {α : Type} (x : PyM DP α) : PyM DPD α := fun S => ((x S.core).1, { S with core := (x S.core).2 })

/-- `set_weights` (`base.py:149-195`). -/
noncomputable def setWeights (w : Option NArr) (n : Bool := false) : PyM DPD Unit := do
  emb (DP.setWeights w n)
  PyM.modify fun S => { S with prDist := none }

/-- `if weights is not None: self.set_weights(weights)` (`base.py:295-296`). -/
noncomputable def setWeightsIf : Option NArr → PyM DPD Unit
  | none => pure ()
  | some w => setWeights (some w)

/-- `set_observed` (`base.py:197-215`): the attribute is assigned before the density is
evaluated. -/
noncomputable def setObserved (d : Option Dist) : PyM DPD Unit := do
  PyM.modify fun S => { S with obDist := some (d.getD stdNormal) }
  emb (DP.setObserved d)

/-- `set_initial` (`base.py:217-248`): the attribute is assigned after the density is evaluated. -/
noncomputable def setInitial (d : Option Dist) : PyM DPD Unit := do
  let S ← PyM.get
  emb (DP.setInitial d)
  PyM.modify fun S' => { S' with inDist := some (d.getD (uniformOn S.core.domain)), prDist := none }

/-- The object stored by `set_predicted` (`base.py:298-305`). -/
def predCurve (y : Arr2) (w : List F) : Option Dist × ℕ → Curve
  | (none, bw) => .ofKde y bw (some w)
  | (some d, _) => .ofDist d

/-- `set_predicted` (`base.py:250-309`). -/
noncomputable def setPredicted (env : Env) (d : Option Dist) (bw : ℕ := 0)
    (w : Option NArr := none) : PyM DPD Unit := do
  setWeightsIf w
  let S ← PyM.get
  emb (DP.setPredicted env d bw none)
  PyM.modify fun S' => { S' with prDist := some (predCurve S.core.y S.core.weights (d, bw)) }

/-- The last lines of `fit` (`base.py:345-352`), after unset distributions have been set. -/
noncomputable def fitTail : PyM DP Unit := do
  let P ← PyM.get
  let ob ← PyM.lift (DP.theAttr P.ob)
  let pr ← PyM.lift (DP.theAttr P.pr)
  let ini ← PyM.lift (DP.theAttr P.init)
  let r ← PyM.lift (bzip1 (· / ·) ob pr)
  PyM.modify fun s => { s with r := some r }
  let iw ← PyM.lift (bzip1 (· * ·) ini P.weights)
  let u ← PyM.lift (bzip1 (· * ·) iw r)
  PyM.modify fun s => { s with up := some u }

/-- `fit` (`base.py:311-352`). -/
noncomputable def fit (env : Env) (d : Option Dist := none) (bw : ℕ := 0)
    (w : Option NArr := none) : PyM DPD Unit := do
  let S ← PyM.get
  PyM.when S.core.init.isNone (setInitial none)
  let S ← PyM.get
  PyM.when S.core.pr.isNone (setPredicted env d bw w)
  let S ← PyM.get
  PyM.when S.core.ob.isNone (setObserved none)
  emb fitTail

/-- `self.X[np.argmax(self._up), :]` (`base.py:378-379`). -/
noncomputable def pick : PyM DP (List ℝ) := do
  let P ← PyM.get
  let u ← PyM.lift (DP.theAttr P.up)
  let m ← PyM.lift (npArgmax u)
  PyM.lift (P.X.rowAt m)

/-- `mud_point` (`base.py:354-379`) and `estimate`. -/
noncomputable def mudPoint (env : Env) : PyM DPD (List ℝ) := do
  let S ← PyM.get
  PyM.when S.core.up.isNone (fit env)
  emb pick

/-- `np.average(self._r, weights=self._weights)` (`base.py:422`). -/
noncomputable def average : PyM DP F := do
  let P ← PyM.get
  let r ← PyM.lift (DP.theAttr P.r)
  PyM.lift (DP.npAverage r P.weights)

/-- `expected_ratio` (`base.py:397-422`). -/
noncomputable def expectedRatio (env : Env) : PyM DPD F := do
  let S ← PyM.get
  PyM.when S.core.up.isNone (fit env)
  emb average

/-- A call of the public interface (result dropped; exceptions are caught by the user). For `base.py:25-711`. -/
noncomputable def run (env : Env) : DOp → PyM DPD Unit
  | .setWeights w n => setWeights w n
  | .setObserved d => setObserved d
  | .setInitial d => setInitial d
  | .setPredicted d bw w => setPredicted env d bw w
  | .fit d bw w => fit env d bw w
  | .estimate => do let _ ← mudPoint env; pure ()
  | .expectedRatio => do let _ ← expectedRatio env; pure ()

/-- The object after a sequence of calls. For `base.py:25-711`. -/
noncomputable def after (env : Env) (S : DPD) (ops : List DOp) : DPD :=
  ops.foldl (fun S op => (run env op S).2) S

/-- `self._r * self._weights if self._r is not None else None` (`base.py:510-513`, `613-616`; the
product is commutative). -/
noncomputable def ratioWeights (P : DP) : Py (Option (List F)) :=
  match P.r with
  | none => return none
  | some r => do
    let v ← bzip1 (· * ·) r P.weights
    return some v

/-- The range of `plot_param_space`: given, or the domain grown in place (`base.py:490-491`). -/
noncomputable def paramRange (x_range : Option Arr2) (pad_ratio : ℝ) : PyM DPD Arr2 :=
  match x_range with
  | some R => pure R
  | none => do
    let S ← PyM.get
    let D ← PyM.lift (fitDomain none (some S.core.domain) pad_ratio S.core.domInt)
    PyM.modify fun S => { S with core := { S.core with domain := D } }
    return D

/-- The MUD line (`base.py:521-524`). -/
noncomputable def mudLine (env : Env) (opts : Bool) (idx : ℤ) : PyM DPD (List Item) :=
  if opts then do
    let pt ← mudPoint env
    PyM.lift (vertAt "mud" pt idx)
  else pure []

/-- The updated curve (`base.py:508-516`). -/
noncomputable def updateCurve (pe : PlotEnv) (opts : Bool) (P : DP) (rng : Arr2) (idx aff : ℤ) :
    Py (List Item) :=
  if opts then do
    let w ← ratioWeights P
    drawIf pe true "update" "kde" (.ofKde P.X 0 w) rng idx aff
  else return []

/-- `assert self._in_dist is not None` (`base.py:494`). -/
def theDist : Option Dist → Py Dist
  | some d => .ok d
  | none => .error .assertionError

/-- `plot_param_space` (`base.py:425-532`); an option is `false` for `None`. -/
noncomputable def plotParamSpace (env : Env) (pe : PlotEnv) (param_idx : ℤ := 0)
    (true_val : Option (List ℝ) := none) (x_range : Option Arr2 := none) (pad_ratio : ℝ := 5 / 100)
    (aff : ℤ := 100) (in_opts up_opts : Bool := true) (win_opts : Bool := false)
    (mud_opts true_opts : Bool := true) : PyM DPD (List Item) := do
  let rng ← paramRange x_range pad_ratio
  let S ← PyM.get
  let d ← PyM.lift (theDist S.inDist)
  let a ← PyM.lift (drawIf pe in_opts "initial" "pdf" (.ofDist d) rng param_idx aff)
  let b ← PyM.lift (updateCurve pe up_opts S.core rng param_idx aff)
  let c ← PyM.lift (drawIf pe win_opts "weighted initial" "kde"
    (.ofKde S.core.X 0 (some S.core.weights)) rng param_idx aff)
  let m ← mudLine env mud_opts param_idx
  let t ← PyM.lift (vertTrue true_opts true_val param_idx)
  return a ++ b ++ c ++ m ++ t

/-- The range of `plot_obs_space` (`base.py:593`); `yInt`: is `y` an integer array? -/
noncomputable def obsRange (P : DP) (yInt : Bool) : Option Arr2 → Py Arr2
  | some R => .ok R
  | none => fitDomain (some P.y) none (1 / 10) yInt

/-- The predicted curve (`base.py:603-608`): `_pr_dist` may be `None`, which is not callable. -/
def predictedCurve (pe : PlotEnv) (opts : Bool) (c : Option Curve) (rng : Arr2) (idx aff : ℤ) :
    Py (List Item) :=
  if opts then
    match c with
    | none => .error .typeError
    | some (.ofDist d) =>
      drawIf pe true "predicted" (if pe.isFrozen d then "pdf" else "kde") (.ofDist d) rng idx aff
    | some c => drawIf pe true "predicted" "kde" c rng idx aff
  else return []

/-- The push-forward of the update (`base.py:609-617`). -/
noncomputable def pushforwardCurve (pe : PlotEnv) (opts : Bool) (P : DP) (rng : Arr2) (idx aff : ℤ) :
    Py (List Item) :=
  if opts then do
    let w ← ratioWeights P
    drawIf pe true "push-forward" "kde" (.ofKde P.y 0 w) rng idx aff
  else return []

/-- `plot_obs_space` (`base.py:534-619`). It does not change the object. -/
noncomputable def plotObsSpace (pe : PlotEnv) (S : DPD) (obs_idx : ℤ := 0)
    (y_range : Option Arr2 := none) (aff : ℤ := 100) (ob_opts pr_opts pf_opts : Bool := true)
    (yInt : Bool := false) : Py (List Item) := do
  let rng ← obsRange S.core yInt y_range
  raiseIf (rng.r ≠ S.core.n_features) .valueError
  let d ← theDist S.obDist
  let a ← drawIf pe ob_opts "observed" "pdf" (.ofDist d) rng obs_idx aff
  let b ← predictedCurve pe pr_opts S.prDist rng obs_idx aff
  let c ← pushforwardCurve pe pf_opts S.core rng obs_idx aff
  return a ++ b ++ c

end DPD

/-- A `BayesProblem` with its distribution attributes. For `base.py:713-975`. -/
structure BPD where
  core : BP
  prDist : Option Dist := none
  llDist : Option Dist := none

namespace BPD

/-- A method that does not touch the distribution attributes. For `base.py:713-975`. -/
def emb {α : Type} (x : PyM BP α) : PyM BPD α := fun S => ((x S.core).1, { S with core := (x S.core).2 })

/-- `set_prior` (`base.py:804-814`): the attribute is assigned before the density is evaluated. -/
noncomputable def setPrior (d : Option Dist) : PyM BPD Unit := do
  PyM.modify fun S => { S with prDist := some (d.getD (uniformOn S.core.domain)) }
  emb (BP.setPrior d)

/-- `set_likelihood` (`base.py:788-802`). -/
noncomputable def setLikelihood (d : Dist) (log : Bool := false) : PyM BPD Unit := do
  PyM.modify fun S => { S with llDist := some d }
  emb (BP.setLikelihood d log)

open Classical in
/-- `fit` after the prior has been set (`base.py:819-830`). -/
noncomputable def fitTail : PyM BP Unit := do
  let P ← PyM.get
  PyM.when P.ll.isNone (PyM.throw .typeError)
  let pr ← PyM.lift (DP.theAttr P.pr)
  let ll ← PyM.lift (DP.theAttr P.ll)
  let ps ← PyM.lift (if P.log then bzip1 (· + ·) (pr.map F.log) ll else bzip1 (· * ·) pr ll)
  PyM.lift (pyAssert (ps.length = P.X.r))
  PyM.lift (raiseIf (ps.sum = .fin 0) .valueError)
  PyM.modify fun s => { s with ps := some ps }

/-- `fit` (`base.py:816-830`). -/
noncomputable def fit : PyM BPD Unit := do
  let S ← PyM.get
  PyM.when S.core.pr.isNone (setPrior none)
  emb fitTail

/-- `self.X[np.argmax(self._ps), :]` (`base.py:835-836`). -/
noncomputable def pick : PyM BP (List ℝ) := do
  let P ← PyM.get
  let u ← PyM.lift (DP.theAttr P.ps)
  let m ← PyM.lift (npArgmax u)
  PyM.lift (P.X.rowAt m)

/-- `map_point` (`base.py:832-836`) and `estimate`. -/
noncomputable def mapPoint : PyM BPD (List ℝ) := do
  let S ← PyM.get
  PyM.when S.core.ps.isNone fit
  emb pick

/-- A call of the public interface. For `base.py:713-975`. -/
noncomputable def run : BOp → PyM BPD Unit
  | .setPrior d => setPrior d
  | .setLikelihood d log => setLikelihood d log
  | .fit => fit
  | .estimate => do let _ ← mapPoint; pure ()

/-- The object after a sequence of calls. For `base.py:713-975`. -/
noncomputable def after (S : BPD) (ops : List BOp) : BPD := ops.foldl (fun S op => (run op S).2) S

/-- `plot_dist(self._pr_dist, ...)` (`base.py:867-878`): `None` has no attribute `pdf`. -/
def priorCurve (pe : PlotEnv) (opts : Bool) (d : Option Dist) (rng : Arr2) (idx aff : ℤ) :
    Py (List Item) :=
  if opts then
    match d with
    | none => .error .attributeError
    | some d => drawIf pe true "prior" "pdf" (.ofDist d) rng idx aff
  else return []

/-- The posterior curve (`base.py:879-885`). -/
noncomputable def posteriorCurve (pe : PlotEnv) (opts : Bool) (rng : Arr2) (idx aff : ℤ) :
    PyM BPD (List Item) :=
  if opts then do
    let _ ← mapPoint
    let S ← PyM.get
    PyM.lift (drawIf pe true "posterior" "kde" (.ofKde S.core.X 0 S.core.ps) rng idx aff)
  else pure []

/-- The MAP line (`base.py:886-889`). -/
noncomputable def mapLine (opts : Bool) (idx : ℤ) : PyM BPD (List Item) :=
  if opts then do
    let pt ← mapPoint
    PyM.lift (vertAt "map" pt idx)
  else pure []

/-- `plot_param_space` (`base.py:842-899`). -/
noncomputable def plotParamSpace (pe : PlotEnv) (param_idx : ℤ := 0) (x_range : Option Arr2 := none)
    (aff : ℤ := 1000) (pr_opts ps_opts map_opts true_opts : Bool := true)
    (true_val : Option (List ℝ) := none) : PyM BPD (List Item) := do
  let S ← PyM.get
  let rng := x_range.getD S.core.domain
  let a ← PyM.lift (priorCurve pe pr_opts S.prDist rng param_idx aff)
  let b ← posteriorCurve pe ps_opts rng param_idx aff
  let m ← mapLine map_opts param_idx
  let t ← PyM.lift (vertTrue true_opts true_val param_idx)
  return a ++ b ++ m ++ t

/-- `np.repeat([[-1, 1]], self.y.shape[1], axis=0)` (`base.py:937`). -/
def obsRange (P : BP) (y_range : Option Arr2) : Arr2 :=
  y_range.getD ⟨P.y.c, 2, .of fun _ k => if k = 0 then -1 else 1⟩

/-- The likelihood curve (`base.py:944-957`). `_ll_dist` is set whenever `_ll` is. -/
def likelihoodCurve (pe : PlotEnv) (opts : Bool) (S : BPD) (rng : Arr2) (idx aff : ℤ) :
    Py (List Item) :=
  if opts then
    match S.core.ll, S.llDist with
    | none, _ => .error .valueError
    | some _, none => .error .attributeError
    | some _, some d => drawIf pe true "likelihood" "bayes" (.ofDist d) rng idx aff
  else return []

/-- `plot_obs_space` (`base.py:901-974`). It does not change the object. -/
def plotObsSpace (pe : PlotEnv) (S : BPD) (obs_idx : ℤ := 0) (y_range : Option Arr2 := none)
    (aff : ℤ := 1000) (ll_opts pf_opts : Bool := true) : Py (List Item) := do
  let rng := obsRange S.core y_range
  let a ← likelihoodCurve pe ll_opts S rng obs_idx aff
  let b ← drawIf pe pf_opts "push-forward" "bayes" (.ofKde S.core.y 0 S.core.ps) rng obs_idx aff
  return a ++ b

end BPD

end Verif
