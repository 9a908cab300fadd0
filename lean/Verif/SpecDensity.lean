import Verif.Model.Density

/-!
# Specification of `DensityProblem`: settings, not cached arrays

What a user sets is a list of weights and three distributions.  `Settings` records exactly that, and
the updated density is a function of it.
-/

namespace Verif

/-- The fixed data of a density problem: samples, their push-forward, the domain. -/
structure DData where
  X : Arr2
  y : Arr2
  domain : Arr2

/-- What has been set so far. -/
structure Settings where
  weights : List F
  /-- `none`: not set; `some none`: set to the default (uniform on the domain). -/
  initial : Option (Option Dist) := none
  /-- `none`: not set; `some (none, bw)`: kernel density estimate with bandwidth method `bw`. -/
  predicted : Option (Option Dist × ℕ) := none
  /-- `none`: standard normal. -/
  observed : Option Dist := none

/-- Density of each row under `d`: the product over the columns. -/
noncomputable def densAt (d : Dist) (A : Arr2) : Py (List F) := do
  let out ← d.pdf A
  out.prodRows

namespace Settings

/-- Initial density of the samples. -/
noncomputable def ini (D : DData) (s : Settings) : Py (List F) :=
  densAt ((s.initial.getD none).getD (uniformOn D.domain)) D.X

/-- Predicted density of the push-forward samples. -/
noncomputable def pred (env : Env) (D : DData) (s : Settings) : Py (List F) :=
  match s.predicted.getD (none, 0) with
  | (none, bw) => env.kde D.y bw s.weights
  | (some d, _) => do let out ← d.pdf D.y; return out.ravel

/-- Observed density of the push-forward samples. -/
noncomputable def obs (D : DData) (s : Settings) : Py (List F) :=
  densAt (s.observed.getD stdNormal) D.y

/-- `observed / predicted`, sample by sample. -/
noncomputable def ratio (env : Env) (D : DData) (s : Settings) : Py (List F) := do
  let pr ← s.pred env D
  let ob ← s.obs D
  bzip1 (· / ·) ob pr

/-- `initial * weights * observed / predicted`, sample by sample. -/
noncomputable def updated (env : Env) (D : DData) (s : Settings) : Py (List F) := do
  let ini ← s.ini D
  let r ← s.ratio env D
  let iw ← bzip1 (· * ·) ini s.weights
  bzip1 (· * ·) iw r

/-- The sample with the largest updated density. -/
noncomputable def best (env : Env) (D : DData) (s : Settings) : Py (List ℝ) := do
  let u ← s.updated env D
  let m ← npArgmax u
  D.X.rowAt m

/-- The settings with which an estimate is computed: an initial distribution that was never set
becomes the default one, which (as documented for `set_initial`) discards a predicted distribution
set earlier; predicted defaults to the kernel density estimate. -/
def complete (s : Settings) : Settings :=
  let s := if s.initial.isNone then { s with initial := some none, predicted := none } else s
  { s with predicted := some (s.predicted.getD (none, 0)) }

end Settings

/-- The calls a user can make, with their arguments. -/
inductive DOp
  | setWeights (w : Option NArr) (normalize : Bool)
  | setObserved (d : Option Dist)
  | setInitial (d : Option Dist)
  | setPredicted (d : Option Dist) (bw : ℕ) (w : Option NArr)
  | fit (d : Option Dist) (bw : ℕ) (w : Option NArr)
  | estimate
  | expectedRatio

/-- The call on the object (result dropped; an exception is caught by the user). -/
noncomputable def DOp.run (env : Env) : DOp → PyM DP Unit
  | .setWeights w n => DP.setWeights w n
  | .setObserved d => DP.setObserved d
  | .setInitial d => DP.setInitial d
  | .setPredicted d bw w => DP.setPredicted env d bw w
  | .fit d bw w => DP.fit env d bw w
  | .estimate => do let _ ← DP.mudPoint env; pure ()
  | .expectedRatio => do let _ ← DP.expectedRatio env; pure ()

/-- The object after a sequence of calls. -/
noncomputable def DP.after (env : Env) (P : DP) (ops : List DOp) : DP :=
  ops.foldl (fun P op => (op.run env P).2) P

/-! ### Bookkeeping of settings -/

/-- Current settings, and the settings of the last successful fit if no call since has
invalidated it. -/
structure SpecState where
  cur : Settings
  fitted : Option Settings := none
  /-- settings for which the ratio observed/predicted was last computed -/
  ratioOf : Option Settings := none

namespace SpecState

/-- New weights: the predicted distribution is reset (documented). -/
noncomputable def setWeights (D : DData) (w : Option NArr) (n : Bool) : PyM SpecState Unit := do
  let v ← PyM.lift (DP.weightsOf D.X.r D.y.r w n)
  PyM.modify fun σ => ⟨{ σ.cur with weights := v, predicted := none }, none, σ.ratioOf⟩

/-- New weights if given. -/
noncomputable def setWeightsIf (D : DData) : Option NArr → PyM SpecState Unit
  | none => pure ()
  | some w => setWeights D (some w) false

/-- New observed distribution. The code does **not** invalidate the last fit. -/
noncomputable def setObserved (D : DData) (d : Option Dist) : PyM SpecState Unit := do
  let σ ← PyM.get
  let _ ← PyM.lift ({ σ.cur with observed := d }.obs D)
  PyM.modify fun σ => ⟨{ σ.cur with observed := d }, σ.fitted, σ.ratioOf⟩

/-- New initial distribution: the predicted distribution is reset (documented). -/
noncomputable def setInitial (D : DData) (d : Option Dist) : PyM SpecState Unit := do
  let σ ← PyM.get
  let _ ← PyM.lift ({ σ.cur with initial := some d }.ini D)
  PyM.modify fun σ => ⟨{ σ.cur with initial := some d, predicted := none }, none, σ.ratioOf⟩

/-- New predicted distribution, after new weights if these are given. -/
noncomputable def setPredicted (env : Env) (D : DData) (d : Option Dist) (bw : ℕ) (w : Option NArr) :
    PyM SpecState Unit := do
  setWeightsIf D w
  let σ ← PyM.get
  let _ ← PyM.lift ({ σ.cur with predicted := some (d, bw) }.pred env D)
  PyM.modify fun σ => ⟨{ σ.cur with predicted := some (d, bw) }, none, σ.ratioOf⟩

/-- Fit: unset distributions get their defaults, then the updated density is computed for the
current settings. -/
noncomputable def fit (env : Env) (D : DData) (d : Option Dist) (bw : ℕ) (w : Option NArr) :
    PyM SpecState Unit := do
  let σ ← PyM.get
  PyM.when σ.cur.initial.isNone (setInitial D none)
  let σ ← PyM.get
  PyM.when σ.cur.predicted.isNone (setPredicted env D d bw w)
  let σ ← PyM.get
  let _ ← PyM.lift (σ.cur.ratio env D)
  PyM.modify fun σ => ⟨σ.cur, σ.fitted, some σ.cur⟩
  let _ ← PyM.lift (σ.cur.updated env D)
  PyM.modify fun σ => ⟨σ.cur, some σ.cur, σ.ratioOf⟩

/-- Estimate: the best sample for the settings of the last valid fit. -/
noncomputable def estimate (env : Env) (D : DData) : PyM SpecState (List ℝ) := do
  let σ ← PyM.get
  PyM.when σ.fitted.isNone (fit env D none 0 none)
  let σ ← PyM.get
  PyM.lift ((σ.fitted.getD σ.cur).best env D)

/-- Expected ratio: weighted mean of the last computed ratio. -/
noncomputable def expectedRatio (env : Env) (D : DData) : PyM SpecState F := do
  let σ ← PyM.get
  PyM.when σ.fitted.isNone (fit env D none 0 none)
  let σ ← PyM.get
  PyM.lift (do
    let r ← (σ.ratioOf.getD σ.cur).ratio env D
    DP.npAverage r σ.cur.weights)

end SpecState

/-- The bookkeeping of a call. -/
noncomputable def DOp.spec (env : Env) (D : DData) : DOp → PyM SpecState Unit
  | .setWeights w n => SpecState.setWeights D w n
  | .setObserved d => SpecState.setObserved D d
  | .setInitial d => SpecState.setInitial D d
  | .setPredicted d bw w => SpecState.setPredicted env D d bw w
  | .fit d bw w => SpecState.fit env D d bw w
  | .estimate | .expectedRatio => do
    let σ ← PyM.get
    PyM.when σ.fitted.isNone (SpecState.fit env D none 0 none)

/-- The settings after a sequence of calls. -/
noncomputable def SpecState.after (env : Env) (D : DData) (σ : SpecState) (ops : List DOp) :
    SpecState := ops.foldl (fun σ op => (op.spec env D σ).2) σ

/-- The data of a problem object. -/
def DP.data (P : DP) : DData := ⟨P.X, P.y, P.domain⟩

/-- The settings right after construction: only the weights. -/
def DP.start (P : DP) : SpecState := { cur := { weights := P.weights } }

/-- The settings in force after a history of calls on a freshly constructed problem `P`, with
defaults filled in. -/
noncomputable def DP.settings (env : Env) (P : DP) (ops : List DOp) : Settings :=
  (P.start.after env P.data ops).cur.complete

end Verif
