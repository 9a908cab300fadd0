import Verif.Model.PlotProb
import Verif.Model.PlotTs
import Verif.Model.Contours

/-!
# Options of the figures

The keyword dictionaries of the plotting methods of `/repo/src/mud/base.py`: `DensityProblem.plot_param_space`, `plot_obs_space`
(`425-619`), `BayesProblem.plot_param_space`, `plot_obs_space` (`842-974`), `SpatioTemporalProblem.plot_ts` (`1928-1974`),
`LinearGaussianProblem.plot_sol` and `plot_contours` (`1239-1315`).  `Model/PlotProb.lean`, `PlotTs.lean`, `PlotLinear.lean`
and `Contours.lean` model what is drawn; here every element drawn carries the keywords handed to matplotlib with it.
-/

namespace Verif

/-- The value of an option. For `base.py:522-528`. -/
inductive OptVal
  | text (s : String)
  | num (x : ℝ)

/-- A dictionary: keys in the order of insertion. For `base.py:522-528`. -/
abbrev Dict := List (String × OptVal)

namespace Dict

/-- `d.get(k)`. For `base.py:425-619`. -/
def get (d : Dict) (k : String) : Option OptVal := (d.find? fun e => e.1 = k).map (·.2)

/-- `k in d`. For `base.py:425-619`. -/
def has (d : Dict) (k : String) : Bool := d.any fun e => e.1 = k

/-- `d[k] = v`. For `base.py:425-619`. -/
def set (d : Dict) (k : String) (v : OptVal) : Dict :=
  if d.has k then d.map fun e => if e.1 = k then (k, v) else e else d ++ [(k, v)]

/-- `d.update(e)`. For `base.py:425-619`. -/
def update (d e : Dict) : Dict := e.foldl (fun d p => d.set p.1 p.2) d

/-- The dictionary without a key. For `base.py:842-975`. -/
def drop (d : Dict) (k : String) : Dict := d.filter fun e => e.1 ≠ k

end Dict

/-- An element of a figure with the keywords given to matplotlib. For `base.py:522-528`. -/
structure Drawn where
  item : Item
  kw : Dict

/-- `f(..., **kw)` where the arguments `taken` of `f` have been given already: `TypeError` for a second value.
For `base.py:522-528`. -/
def noClash (taken : List String) (kw : Dict) : Py Unit := raiseIf (∃ k ∈ taken, kw.has k = true) .typeError

/-- The parameters of `plot_dist` (`plot.py:195`), all of which are given by the callers. -/
def plotDistArgs : List String := ["dist", "domain", "ax", "idx", "source", "aff"]

/-- A curve unless its options are `None`; `acc` is matplotlib's reaction to the keywords (external).
`base` are the options defined in the body, updated by those of the user.  Simplification: a clash of keywords is checked
before the estimate of the density is built; in the code after it (which of the two errors is raised).
For `base.py:508-516`. -/
def drawKw (pe : PlotEnv) (acc : Dict → Py Unit) (taken : List String) (role source : String) (c : Curve) (rng : Arr2) (idx aff : ℤ)
    (base : Dict) : Option Dict → Py (List Drawn)
  | none => return []
  | some u => do
    noClash taken (base.update u)
    pe.draw source c rng idx aff
    acc (base.update u)
    return [⟨.curve role c, base.update u⟩]

/-- `plot_vert_line(ax, pt[idx], ylim=ylim, **kw)` (`base.py:522-528`). -/
def vertKw (acc : Dict → Py Unit) (role : String) (pt : List ℝ) (idx : ℤ) (kw : Dict) : Py (List Drawn) := do
  let k ← ND.normIdx pt.length idx
  noClash ["ax", "x_loc", "ylim"] kw
  acc kw
  return [⟨.vert role (pt.getD k 0), kw⟩]

/-- `plot_vert_line(ax, pt[idx], **kw)` (`base.py:890-895`): here an option `ylim` is taken as the argument of that name and
not handed on. -/
def vertKwB (acc : Dict → Py Unit) (role : String) (pt : List ℝ) (idx : ℤ) (kw : Dict) : Py (List Drawn) := do
  let k ← ND.normIdx pt.length idx
  noClash ["ax", "x_loc"] kw
  acc (kw.drop "ylim")
  return [⟨.vert role (pt.getD k 0), kw.drop "ylim"⟩]

/-- `if opts:`, as opposed to `if opts is not None:` — an empty dictionary counts as `None`. For `base.py:534-619`. -/
def truthy : Option Dict → Option Dict
  | some [] => none
  | o => o

/-- `if true_val is not None and true_opts: ...` with either way of drawing the line. For `base.py:425-532`. -/
def trueKw (vert : List ℝ → Dict → Py (List Drawn)) (base : Dict) (o : Option Dict) (true_val : Option (List ℝ)) : Py (List Drawn) :=
  match true_val with
  | none => return []
  | some v =>
    match truthy o with
    | none => return []
    | some u => vert v (base.update u)

namespace DPD

/-- Options of `plot_param_space`; the defaults are those of the signature (`base.py:434-438`). -/
structure ParamOpts where
  inO : Option Dict := some [("color", .text "b"), ("linestyle", .text "-"), ("label", .text "$\\pi_\\mathrm{init}$")]
  upO : Option Dict := some [("color", .text "k"), ("linestyle", .text "-."), ("label", .text "$\\pi_\\mathrm{update}$")]
  winO : Option Dict := none
  mudO : Option Dict := some [("color", .text "g"), ("label", .text "$\\lambda^\\mathrm{MUD}$")]
  trueO : Option Dict := some [("color", .text "r"), ("label", .text "$\\lambda^{\\dagger}$")]

/-- The dictionaries in the body of `plot_param_space` (`base.py:482-486`). -/
def io : Dict := [("color", .text "b"), ("linestyle", .text "--"), ("label", .text "$\\pi_\\\\mathrm{init}$")]
/-- As `io`. For `base.py:508-516`. -/
def uo : Dict := [("color", .text "k"), ("linestyle", .text "-."), ("label", .text "$\\pi_\\\\mathrm{update}$")]
/-- As `io`. For `base.py:425-532`. -/
def wo : Dict := [("color", .text "b"), ("linestyle", .text ":"), ("label", .text "$\\\\tilde{\\pi}_\\\\mathrm{init}$")]
/-- As `io`. For `base.py:521-524`. -/
def mo : Dict := [("color", .text "g"), ("label", .text "$\\lambda^\\mathrm{MUD}$")]
/-- As `io`. For `base.py:425-532`. -/
def tro : Dict := [("color", .text "r"), ("linestyle", .text "-."), ("label", .text "$\\lambda^{\\dagger}$")]

/-- The updated curve (`base.py:508-516`). -/
noncomputable def updateKw (pe : PlotEnv) (acc : Dict → Py Unit) (o : Option Dict) (P : DP) (rng : Arr2) (idx aff : ℤ) :
    Py (List Drawn) :=
  if o.isSome then do
    let w ← ratioWeights P
    drawKw pe acc plotDistArgs "update" "kde" (.ofKde P.X 0 w) rng idx aff uo o
  else return []

/-- The MUD line (`base.py:521-524`). -/
noncomputable def mudLineKw (env : Env) (acc : Dict → Py Unit) (idx : ℤ) : Option Dict → PyM DPD (List Drawn)
  | none => pure []
  | some u => do
    let pt ← mudPoint env
    PyM.lift (vertKw acc "mud" pt idx (mo.update u))

/-- `plot_param_space` with its options (`base.py:425-532`). -/
noncomputable def plotParamSpaceKw (env : Env) (pe : PlotEnv) (acc : Dict → Py Unit) (param_idx : ℤ := 0)
    (true_val : Option (List ℝ) := none) (x_range : Option Arr2 := none) (pad_ratio : ℝ := 5 / 100)
    (aff : ℤ := 100) (o : ParamOpts := {}) : PyM DPD (List Drawn) := do
  let rng ← paramRange x_range pad_ratio
  let S ← PyM.get
  let d ← PyM.lift (theDist S.inDist)
  let a ← PyM.lift (drawKw pe acc plotDistArgs "initial" "pdf" (.ofDist d) rng param_idx aff io o.inO)
  let b ← PyM.lift (updateKw pe acc o.upO S.core rng param_idx aff)
  let c ← PyM.lift (drawKw pe acc plotDistArgs "weighted initial" "kde"
    (.ofKde S.core.X 0 (some S.core.weights)) rng param_idx aff wo o.winO)
  let m ← mudLineKw env acc param_idx o.mudO
  let t ← PyM.lift (trueKw (vertKw acc "true" · param_idx ·) tro o.trueO true_val)
  return a ++ b ++ c ++ m ++ t

/-- Options of `plot_obs_space` (`base.py:540-542`). -/
structure ObsOpts where
  obO : Option Dict := some [("color", .text "r"), ("linestyle", .text "-"), ("label", .text "$\\pi_\\mathrm{obs}$")]
  prO : Option Dict := some [("color", .text "b"), ("linestyle", .text "-"), ("label", .text "$\\pi_\\mathrm{pred}$")]
  pfO : Option Dict := some [("color", .text "k"), ("linestyle", .text "-."), ("label", .text "$\\pi_\\mathrm{pf-pr}$")]

/-- The dictionaries in the body of `plot_obs_space` (`base.py:584-586`). -/
def oo : Dict := [("color", .text "r"), ("linestyle", .text "-"), ("label", .text "$\\pi_\\mathrm{obs}$")]
/-- As `oo`. For `base.py:603-608`. -/
def po : Dict := [("color", .text "b"), ("linestyle", .text "-"), ("label", .text "$\\pi_\\mathrm{pred}$")]
/-- As `oo`. For `base.py:609-617`. -/
def fo : Dict := [("color", .text "k"), ("linestyle", .text "-."), ("label", .text "$\\pi_\\mathrm{pf-pr}$")]

/-- The predicted curve (`base.py:603-608`). -/
def predictedKw (pe : PlotEnv) (acc : Dict → Py Unit) (o : Option Dict) (c : Option Curve) (rng : Arr2) (idx aff : ℤ) :
    Py (List Drawn) :=
  if o.isSome then
    match c with
    | none => .error .typeError
    | some (.ofDist d) =>
      drawKw pe acc plotDistArgs "predicted" (if pe.isFrozen d then "pdf" else "kde") (.ofDist d) rng idx aff po o
    | some c => drawKw pe acc plotDistArgs "predicted" "kde" c rng idx aff po o
  else return []

/-- The push-forward of the update (`base.py:609-617`). -/
noncomputable def pushforwardKw (pe : PlotEnv) (acc : Dict → Py Unit) (o : Option Dict) (P : DP) (rng : Arr2) (idx aff : ℤ) :
    Py (List Drawn) :=
  if o.isSome then do
    let w ← ratioWeights P
    drawKw pe acc plotDistArgs "push-forward" "kde" (.ofKde P.y 0 w) rng idx aff fo o
  else return []

/-- `plot_obs_space` with its options (`base.py:534-619`): `if ob_opts:`. -/
noncomputable def plotObsSpaceKw (pe : PlotEnv) (acc : Dict → Py Unit) (S : DPD) (obs_idx : ℤ := 0)
    (y_range : Option Arr2 := none) (aff : ℤ := 100) (o : ObsOpts := {}) (yInt : Bool := false) : Py (List Drawn) := do
  let rng ← obsRange S.core yInt y_range
  raiseIf (rng.r ≠ S.core.n_features) .valueError
  let d ← theDist S.obDist
  let a ← drawKw pe acc plotDistArgs "observed" "pdf" (.ofDist d) rng obs_idx aff oo (truthy o.obO)
  let b ← predictedKw pe acc (truthy o.prO) S.prDist rng obs_idx aff
  let c ← pushforwardKw pe acc (truthy o.pfO) S.core rng obs_idx aff
  return a ++ b ++ c

end DPD

namespace BPD

/-- Options of `plot_param_space` (`base.py:848-851`). -/
structure ParamOpts where
  prO : Option Dict := some [("color", .text "b"), ("linestyle", .text "--"), ("linewidth", .num 4), ("label", .text "Prior")]
  psO : Option Dict := some [("color", .text "g"), ("linestyle", .text ":"), ("linewidth", .num 4), ("label", .text "Posterior")]
  mapO : Option Dict := some [("color", .text "g"), ("label", .text "$\\lambda^\\mathrm{MAP}$")]
  trueO : Option Dict := some [("color", .text "r"), ("linestyle", .text "-."), ("label", .text "$\\lambda^{\\dagger}$")]

/-- The dictionaries in the body (`base.py:859-862`). -/
noncomputable def pro : Dict := [("color", .text "b"), ("linestyle", .text "--"), ("linewidth", .num 4), ("label", .text "Prior")]
/-- As `pro`. For `base.py:882-888`. -/
noncomputable def pso : Dict :=
  [("color", .text "g"), ("linestyle", .text ":"), ("linewidth", .num 4), ("label", .text "Posterior")]
/-- As `pro`. For `base.py:521-524`. -/
def mo : Dict := [("color", .text "g"), ("label", .text "$\\lambda^\\mathrm{MAP}$")]
/-- As `pro`. For `base.py:425-532`. -/
def tro : Dict := [("color", .text "r"), ("linestyle", .text "-."), ("label", .text "$\\lambda^{\\dagger}$")]

/-- The prior curve (`base.py:871-881`). -/
noncomputable def priorKw (pe : PlotEnv) (acc : Dict → Py Unit) (o : Option Dict) (d : Option Dist) (rng : Arr2) (idx aff : ℤ) :
    Py (List Drawn) :=
  if o.isSome then
    match d with
    | none => .error .attributeError
    | some d => drawKw pe acc plotDistArgs "prior" "pdf" (.ofDist d) rng idx aff pro o
  else return []

/-- The posterior curve (`base.py:882-888`). -/
noncomputable def posteriorKw (pe : PlotEnv) (acc : Dict → Py Unit) (o : Option Dict) (rng : Arr2) (idx aff : ℤ) :
    PyM BPD (List Drawn) :=
  if o.isSome then do
    let _ ← mapPoint
    let S ← PyM.get
    PyM.lift (drawKw pe acc plotDistArgs "posterior" "kde" (.ofKde S.core.X 0 S.core.ps) rng idx aff pso o)
  else pure []

/-- The MAP line (`base.py:889-892`). -/
noncomputable def mapLineKw (acc : Dict → Py Unit) (idx : ℤ) : Option Dict → PyM BPD (List Drawn)
  | none => pure []
  | some u => do
    let pt ← mapPoint
    PyM.lift (vertKwB acc "map" pt idx (mo.update u))

/-- `plot_param_space` with its options (`base.py:842-899`). -/
noncomputable def plotParamSpaceKw (pe : PlotEnv) (acc : Dict → Py Unit) (param_idx : ℤ := 0) (x_range : Option Arr2 := none)
    (aff : ℤ := 1000) (o : ParamOpts := {}) (true_val : Option (List ℝ) := none) : PyM BPD (List Drawn) := do
  let S ← PyM.get
  let rng := x_range.getD S.core.domain
  let a ← PyM.lift (priorKw pe acc o.prO S.prDist rng param_idx aff)
  let b ← posteriorKw pe acc o.psO rng param_idx aff
  let m ← mapLineKw acc param_idx o.mapO
  let t ← PyM.lift (trueKw (vertKwB acc "true" · param_idx ·) tro o.trueO true_val)
  return a ++ b ++ m ++ t

/-- Options of `plot_obs_space` (`base.py:907-918`). -/
structure ObsOpts where
  llO : Option Dict := some [("color", .text "r"), ("linestyle", .text "-"), ("linewidth", .num 4), ("label", .text "Data-Likelihood")]
  pfO : Option Dict := some [("color", .text "g"), ("linestyle", .text ":"), ("linewidth", .num 4), ("label", .text "PF of Posterior")]

/-- The dictionaries in the body (`base.py:923-934`). -/
noncomputable def lo : Dict :=
  [("color", .text "r"), ("linestyle", .text "-"), ("linewidth", .num 4), ("label", .text "Data-Likelihood")]
/-- As `lo`. For `base.py:603-608`. -/
noncomputable def po : Dict :=
  [("color", .text "g"), ("linestyle", .text ":"), ("linewidth", .num 4), ("label", .text "PF of Posterior")]

/-- The likelihood curve (`base.py:948-960`); the keywords go to `ax.plot` directly. -/
noncomputable def likelihoodKw (pe : PlotEnv) (acc : Dict → Py Unit) (o : Option Dict) (S : BPD) (rng : Arr2) (idx aff : ℤ) :
    Py (List Drawn) :=
  if o.isSome then
    match S.core.ll, S.llDist with
    | none, _ => .error .valueError
    | some _, none => .error .attributeError
    | some _, some d => drawKw pe acc [] "likelihood" "bayes" (.ofDist d) rng idx aff lo o
  else return []

/-- `plot_obs_space` with its options (`base.py:901-974`). -/
noncomputable def plotObsSpaceKw (pe : PlotEnv) (acc : Dict → Py Unit) (S : BPD) (obs_idx : ℤ := 0) (y_range : Option Arr2 := none)
    (aff : ℤ := 1000) (o : ObsOpts := {}) : Py (List Drawn) := do
  let rng := obsRange S.core y_range
  let a ← likelihoodKw pe acc o.llO S rng obs_idx aff
  let b ← drawKw pe acc [] "push-forward" "bayes" (.ofKde S.core.y 0 S.core.ps) rng obs_idx aff po o.pfO
  return a ++ b

end BPD

namespace STP

open ND

/-- What `plot_ts` draws, with keywords. For `base.py:1928-1974`. -/
structure TsDrawn where
  measured : List (ℝ × ℝ) × Dict
  series : List (List (ℝ × ℝ) × Dict)

/-- `def_kwargs` (`base.py:1949-1955`) and `def_sample_kwargs` (`base.py:1960`). -/
noncomputable def measBase : Dict :=
  [("color", .text "k"), ("marker", .text "^"), ("label", .text "$\\zeta_{obs}$"), ("zorder", .num 50), ("s", .num 2)]
/-- As `measBase`. For `base.py:1963-1972`. -/
noncomputable def sampleBase : Dict :=
  [("color", .text "r"), ("linestyle", .text "-"), ("zorder", .num 1), ("alpha", .num 0.1)]

/-- The keywords of line `i` of `k` (`base.py:1963-1972`); `"fmt"` stands for the format string `"r-"` of the last call. -/
noncomputable def lineKw (sensor : String) (alpha : ℝ) (samples_kwargs : Dict) (k : ℤ) (i : ℕ) : Dict :=
  if (i : ℤ) ≠ k - 1 then sampleBase.update samples_kwargs
  else [("fmt", .text "r-"), ("alpha", .num alpha), ("label", .text ("Sensor " ++ sensor))]

/-- `plot_ts` with its keywords (`base.py:1928-1974`); `sensor` is `str(sensor_idx)`. Matplotlib accepts the keywords. -/
noncomputable def plotTsKw (choice : ℕ → ℕ → List ℕ) (P : STP) (sensor : String) (samples times : Option Mask := none)
    (sensor_idx : Option Mask := some (.int 0)) (max_plot : ℤ := 100) (meas_kwargs samples_kwargs : Dict := []) (alpha : ℝ := 0.1) :
    Py TsDrawn := do
  let s ← P.sampleData samples times sensor_idx
  let n ← s.data.dim 0
  let k := if max_plot > n then (n : ℤ) else max_plot
  let pts ← scatterTs s.times s.meas
  raiseIf (k < 0) .valueError
  let lines ← (choice n k.toNat).zipIdx.mapM fun p => do
    let l ← lineTs s.times s.data p.2
    return (l, lineKw sensor alpha samples_kwargs k p.2)
  return ⟨(pts, measBase.update meas_kwargs), lines⟩

end STP

/-- The dictionaries of a program, by reference: the caller's and the default arguments of the functions.
For `base.py:1239-1274`. -/
abbrev DictHeap := ℕ → Dict

/-- `h[ref][k] = v`. For `base.py:1239-1274`. -/
def DictHeap.put (h : DictHeap) (ref : ℕ) (k : String) (v : OptVal) : DictHeap := fun r => if r = ref then (h r).set k v else h r

/-- What `plot_sol` hands to matplotlib: the markers, the line, the annotation with its position.
For `base.py:1239-1274`. -/
structure SolDrawn where
  markers : List (ℝ × ℝ) × Dict
  line : Option (((ℝ × ℝ) × (ℝ × ℝ)) × Dict)
  note : Option (String × (List ℝ × List ℝ) × Dict)

/-- An `LGP` method in a program with dictionaries. For `base.py:1239-1274`. -/
def LGP.onHeap {α : Type} (x : PyM LGP α) : PyM (LGP × DictHeap) α := fun S => ((x S.1).1, ((x S.1).2, S.2))

/-- `nc = (pt[0] - 0.02, pt[1] + 0.02) if note_loc is None else note_loc` and `ax.annotate(label, nc, **annotate_opts)`
(`base.py:1270-1274`). -/
noncomputable def LGP.noteOf (kw : Dict) (xs ys : List ℝ) (note_loc : Option (ℝ × ℝ)) (label : Option String) :
    Option (String × (List ℝ × List ℝ) × Dict) :=
  label.map fun l => (l, match note_loc with
    | none => (xs.map (· - 0.02), ys.map (· + 0.02))
    | some p => ([p.1], [p.2]), kw)

/-- `plot_sol(point, label, note_loc, pt_opts, ln_opts, annotate_opts)` (`base.py:1239-1274`); the dictionaries are given by
reference (`pt_opts["label"] = point` changes the one that was passed). Matplotlib accepts the keywords. -/
noncomputable def LGP.plotSolKw (ptRef annRef : ℕ) (lnRef : Option ℕ) (point : String := "mud") (label : Option String := none)
    (note_loc : Option (ℝ × ℝ) := none) : PyM (LGP × DictHeap) SolDrawn := do
  let pt ← LGP.onHeap (LGP.plotPt point lnRef.isSome)
  PyM.modify fun S => (S.1, S.2.put ptRef "label" (.text point))
  let xs ← PyM.lift (pt.rowList 0)
  let ys ← PyM.lift (pt.rowList 1)
  let S ← PyM.get
  let line ← PyM.lift (LGP.plotLine point lnRef.isSome S.1 pt)
  return ⟨(List.zip xs ys, S.2 ptRef), line.bind fun l => lnRef.map fun r => (l, S.2 r), LGP.noteOf (S.2 annRef) xs ys note_loc label⟩

/-- The default `plot_opts` of `plot_contours` (`base.py:1285`). -/
noncomputable def contourOpts : Dict := [("color", .text "k"), ("ls", .text ":"), ("lw", .num 1), ("fs", .num 20)]

/-- A contour drawn by `plot_contours`: the end points, the keywords, the annotation with its position.
For `base.py:1276-1315`. -/
structure ContourDrawn where
  seg : (ℝ × ℝ) × (ℝ × ℝ)
  kw : Dict
  note : Option (String × (ℝ × ℝ) × Dict)

/-- `plot_contours(w=w, annotate=.., note_loc=.., label=.., plot_opts=.., annotate_opts=..)` of `LinearGaussianProblem`
(`base.py:1276-1315`), two columns, default `ref` and `subset`: each segment is plotted with the options and annotated;
`acc` is matplotlib's reaction to the keywords of a line, `fmt label n` is `label.format(i=n)`. -/
noncomputable def contoursKw (acc : Dict → Py Unit) (fmt : String → ℕ → String) (svd1 : (Fin 2 → ℝ) → SvdOut 1 2) (w : ℝ := 1)
    (annotate : Bool := false) (note_loc : Option (ℝ × ℝ) := none) (label : String := "{i}") (plot_opts : Dict := contourOpts)
    (annotate_opts : Dict := [("fontsize", .num 20)]) : PyM LGP (List ContourDrawn) := do
  let l ← Contours.solContours svd1 w
  PyM.lift (l.zipIdx.mapM fun p => do
    acc plot_opts
    return ⟨p.1, plot_opts, if annotate then some (fmt label (p.2 + 1), note_loc.getD p.1.1, annotate_opts) else none⟩)

end Verif
