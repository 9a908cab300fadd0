import Verif.Model.Float
import Verif.Model.Numpy
import Mathlib.Algebra.Order.Floor.Ring
import Mathlib.Algebra.Order.Archimedean.Real.Basic
import Mathlib.Analysis.SpecialFunctions.Exp
import Mathlib.Analysis.Real.Pi.Bounds

/-!
# `DensityProblem`, `BayesProblem` and `fit_domain`

Models `/repo/src/mud/base.py:25-712` (`DensityProblem`), `713-839` (`BayesProblem`) and
`/repo/src/mud/util.py:243-289` (`fit_domain`, `set_shape`).

One-dimensional float arrays are `List F`.  Distributions and the Gaussian kernel density estimate
are parameters: the code only calls their `pdf`/`logpdf`.  The stored distribution objects
(`_in_dist`, `_ob_dist`, `_pr_dist`) are only read by the plotting methods and are left out, except
that `_in_dist is not None` iff `_in is not None`.
-/

namespace Verif

/-- What `pdf(array)` of a distribution object returns: a 1-D or 2-D array. For `base.py:233-237`. -/
inductive FOut
  | vec (l : List F)
  | tab (rows : List (List F))

/-- A distribution object. For `base.py:233-237`. -/
structure Dist where
  pdf : Arr2 → Py FOut
  logpdf : Arr2 → Py FOut

/-- A distribution that evaluates entry by entry: `f j x` is the density of column `j` at `x`
(scipy's frozen `rv_continuous` with scalar or per-column parameters). For `base.py:233-237`. -/
def rowsOf (f : ℕ → ℝ → F) (A : Arr2) : List (List F) :=
  List.ofFn fun i => List.ofFn fun j => f j (A.m i j)

/-- `.prod(axis=1)`: `AxisError` (a `ValueError`) on a 1-D array. For `base.py:197-215`. -/
noncomputable def FOut.prodRows : FOut → Py (List F)
  | .vec _ => .error .valueError
  | .tab rows => .ok (rows.map List.prod)

/-- `.sum(axis=1)`. For `base.py:788-802`. -/
noncomputable def FOut.sumRows : FOut → Py (List F)
  | .vec _ => .error .valueError
  | .tab rows => .ok (rows.map List.sum)

/-- `.ravel()`. For `base.py:295-301`. -/
def FOut.ravel : FOut → List F
  | .vec l => l
  | .tab rows => rows.flatten

/-- Elementwise binary operation on 1-D arrays with broadcasting of length-1 arrays. For `base.py:311-352`. -/
def bzip1 (f : F → F → F) (a b : List F) : Py (List F) :=
  if a.length = b.length then .ok (List.zipWith f a b)
  else match a, b with
    | [x], b => .ok (b.map fun y => f x y)
    | a, [y] => .ok (a.map fun x => f x y)
    | _, _ => .error .valueError

open Classical in
/-- Loop of `np.argmax` on floats: `bi`, `b` index and value of the current best, `i` the index of
the head of the remaining list. A `nan` is never replaced. For `base.py:354-379`. -/
noncomputable def argmaxGo (bi : ℕ) (b : F) (i : ℕ) : List F → ℕ
  | [] => bi
  | v :: vs =>
    if b = .nan then bi
    else if v = .nan ∨ b.lt v then argmaxGo i v (i + 1) vs
    else argmaxGo bi b (i + 1) vs

/-- `np.argmax`: index of the first `nan` if there is one, else of the first maximum; `ValueError`
on an empty array. For `base.py:354-379`. -/
noncomputable def npArgmax : List F → Py ℕ
  | [] => .error .valueError
  | v :: vs => .ok (argmaxGo 0 v 1 vs)

/-- `X[m, :]`. For `base.py:354-379`. -/
def Arr2.rowAt (A : Arr2) (m : ℕ) : Py (List ℝ) :=
  if h : m < A.r then .ok (List.ofFn fun j => A.m ⟨m, h⟩ j) else .error .indexError

/-- `set_shape(x, (1, -1))` (`util.py:287-289`). -/
def NArr.shapeRow : NArr → Arr2
  | .scal x => ⟨1, 1, .of fun _ _ => x⟩
  | .vec _ v => Arr2.row v
  | .mat A => A

/-- `set_shape(x, (-1, 1))` (`util.py:287-289`). -/
def NArr.shapeCol : NArr → Arr2
  | .scal x => ⟨1, 1, .of fun _ _ => x⟩
  | .vec _ v => Arr2.col v
  | .mat A => A

/-- Rounding toward zero, the cast from float to integer. For `util.py:281-284`. -/
noncomputable def truncR (x : ℝ) : ℝ := if 0 ≤ x then (⌊x⌋ : ℝ) else (⌈x⌉ : ℝ)

/-- Assigning a float into an array of the given dtype. For `util.py:281-284`. -/
noncomputable def storeAs (isInt : Bool) (x : ℝ) : ℝ := if isInt then truncR x else x

/-- `x.min(axis=0)[j]` for a table with at least one row. For `util.py:243-284`. -/
noncomputable def colMin (X : Arr2) (j : Fin X.c) : ℝ := ⨅ i, X.m i j
/-- `x.max(axis=0)[j]`. For `util.py:243-284`. -/
noncomputable def colMax (X : Arr2) (j : Fin X.c) : ℝ := ⨆ i, X.m i j

/-- The padding part of `fit_domain` (`util.py:281-284`), writing in place into an array whose
dtype is integer iff `isInt`. Only the first two columns are read and written. -/
noncomputable def padBounds (isInt : Bool) (pad_ratio : ℝ) (B : Arr2) : Py Arr2 :=
  if B.c < 2 then .error .indexError
  else .ok ⟨B.r, B.c, .of fun i j =>
    let pad := pad_ratio * (B.get i 1 - B.get i 0)
    if j.1 = 0 then storeAs isInt (B.get i 0 - pad)
    else if j.1 = 1 then storeAs isInt (B.get i 1 + pad)
    else B.m i j⟩

/-- `fit_domain(x, min_max_bounds, pad_ratio)` (`util.py:243-284`). When `min_max_bounds` is given
the array passed in is itself overwritten with the result. -/
noncomputable def fitDomain (x min_max_bounds : Option Arr2) (pad_ratio : ℝ) (isInt : Bool) :
    Py Arr2 :=
  match min_max_bounds with
  | some B => padBounds isInt pad_ratio B
  | none =>
    match x with
    | none => .error .valueError
    | some X =>
      if X.r = 0 then .error .valueError
      else padBounds isInt pad_ratio
        ⟨X.c, 2, .of fun j k => if k = 0 then colMin X j else colMax X j⟩

/-- `scipy.stats.uniform(loc=mn, scale=mx-mn).pdf(x)`: `nan` unless the scale is positive. For `base.py:233-237`. -/
noncomputable def uniformPdf (mn mx x : ℝ) : F :=
  if 0 < mx - mn then (if mn ≤ x ∧ x ≤ mx then .fin (1 / (mx - mn)) else .fin 0) else .nan

/-- `scipy.stats.norm().pdf(x)`. For `base.py:197`. -/
noncomputable def stdNormalPdf (x : ℝ) : ℝ := Real.exp (-x ^ 2 / 2) / Real.sqrt (2 * Real.pi)

/-- The default initial distribution (`base.py:233-237`): uniform between row minimum and row
maximum of the domain; `ValueError` if the domain has no column.
Simplification: `domain` has one row per column of the argument (asserted by the constructor). -/
noncomputable def uniformOn (domain : Arr2) : Dist where
  pdf A := if domain.c = 0 ∧ domain.r ≠ 0 then .error .valueError else
    .ok (.tab (rowsOf (fun j x =>
      uniformPdf (⨅ k : Fin domain.c, domain.get j k) (⨆ k : Fin domain.c, domain.get j k) x) A))
  logpdf _ := .error .unmodelled

/-- `scipy.stats.norm()` (`base.py:197`). -/
noncomputable def stdNormal : Dist where
  pdf A := .ok (.tab (rowsOf (fun _ x => .fin (stdNormalPdf x)) A))
  logpdf _ := .error .unmodelled

/-- External code: `gaussian_kde(y.T, bw_method=bw, weights=w).pdf(y.T).T`, where the bandwidth
method is represented by a number (0 = default). For `base.py:295-301`. -/
structure Env where
  kde : Arr2 → ℕ → List F → Py (List F)

/-- Attributes of a `DensityProblem` (`base.py:111-135`). -/
structure DP where
  X : Arr2
  y : Arr2
  domain : Arr2
  /-- is `domain` an array of integers? -/
  domInt : Bool
  weights : List F
  r : Option (List F) := none
  up : Option (List F) := none
  init : Option (List F) := none
  pr : Option (List F) := none
  ob : Option (List F) := none

namespace DP

/-- `n_params`. For `base.py:650-710`. -/
def n_params (P : DP) : ℕ := P.X.c
/-- `n_features`. For `base.py:650-710`. -/
def n_features (P : DP) : ℕ := P.y.c
/-- `n_samples`. For `base.py:149-195`. -/
def n_samples (P : DP) : ℕ := P.y.r

/-- Euclidean norm of a 1-D array of floats (`np.linalg.norm`). Finite on finite input. For `base.py:174-190`. -/
noncomputable def norm2 (w : List ℝ) : ℝ := Real.sqrt ((w.map fun x => x ^ 2).sum)

/-- The weights computed by `set_weights` (`base.py:174-190`). -/
noncomputable def weightsOf (nX nY : ℕ) (weights : Option NArr) (normalize : Bool) :
    Py (List F) :=
  match weights with
  | none => .ok (List.replicate nX (.fin 1))
  | some (.scal _) => .error .indexError
  | some w => do
    let A := w.shapeRow
    pyAssert (nY = A.c)
    let v : List ℝ := List.ofFn fun j : Fin A.c => ∏ i, A.m i j
    if normalize then return v.map fun x => .fin x / .fin (norm2 v)
    else return v.map .fin

/-- `DensityProblem.set_weights` (`base.py:149-195`). -/
noncomputable def setWeights (weights : Option NArr) (normalize : Bool := false) : PyM DP Unit := do
  let P ← PyM.get
  let w ← PyM.lift (weightsOf P.X.r P.n_samples weights normalize)
  PyM.modify fun s => { s with weights := w, pr := none, up := none }

/-- `if weights is not None: self.set_weights(weights)` (`base.py:292-293`). -/
noncomputable def setWeightsIf : Option NArr → PyM DP Unit
  | none => pure ()
  | some w => setWeights (some w)

/-- `DensityProblem.set_observed` (`base.py:197-215`). -/
noncomputable def setObserved (d : Option Dist) : PyM DP Unit := do
  let P ← PyM.get
  let out ← PyM.lift ((d.getD stdNormal).pdf P.y)
  let v ← PyM.lift out.prodRows
  PyM.modify fun s => { s with ob := some v }

/-- `DensityProblem.set_initial` (`base.py:217-248`). -/
noncomputable def setInitial (d : Option Dist) : PyM DP Unit := do
  let P ← PyM.get
  let out ← PyM.lift ((d.getD (uniformOn P.domain)).pdf P.X)
  let v ← PyM.lift out.prodRows
  PyM.modify fun s => { s with init := some v, up := none, pr := none }

/-- The predicted density values (`base.py:295-301`). -/
noncomputable def predVals (env : Env) (P : DP) (d : Option Dist) (bw : ℕ) : Py (List F) :=
  match d with
  | none => env.kde P.y bw P.weights
  | some d => do let out ← d.pdf P.y; return out.ravel

/-- `DensityProblem.set_predicted` (`base.py:250-309`). -/
noncomputable def setPredicted (env : Env) (d : Option Dist) (bw : ℕ := 0)
    (weights : Option NArr := none) : PyM DP Unit := do
  setWeightsIf weights
  let P ← PyM.get
  let v ← PyM.lift (predVals env P d bw)
  PyM.modify fun s => { s with pr := some v, up := none }

/-- Read an attribute that has been set. For `base.py:311-352`. -/
def theAttr (x : Option (List F)) : Py (List F) :=
  match x with
  | some v => .ok v
  | none => .error .typeError

/-- `DensityProblem.fit(**kwargs)` (`base.py:311-352`); the keyword arguments are those of
`set_predicted`. -/
noncomputable def fit (env : Env) (d : Option Dist := none) (bw : ℕ := 0)
    (weights : Option NArr := none) : PyM DP Unit := do
  let P ← PyM.get
  PyM.when P.init.isNone (setInitial none)
  let P ← PyM.get
  PyM.when P.pr.isNone (setPredicted env d bw weights)
  let P ← PyM.get
  PyM.when P.ob.isNone (setObserved none)
  let P ← PyM.get
  let ob ← PyM.lift (theAttr P.ob)
  let pr ← PyM.lift (theAttr P.pr)
  let ini ← PyM.lift (theAttr P.init)
  let r ← PyM.lift (bzip1 (· / ·) ob pr)
  PyM.modify fun s => { s with r := some r }
  let iw ← PyM.lift (bzip1 (· * ·) ini P.weights)
  let u ← PyM.lift (bzip1 (· * ·) iw r)
  PyM.modify fun s => { s with up := some u }

/-- `DensityProblem.mud_point` (`base.py:354-379`) and `estimate` (`381-395`). -/
noncomputable def mudPoint (env : Env) : PyM DP (List ℝ) := do
  let P ← PyM.get
  PyM.when P.up.isNone (fit env)
  let P ← PyM.get
  let u ← PyM.lift (theAttr P.up)
  let m ← PyM.lift (npArgmax u)
  PyM.lift (P.X.rowAt m)

open Classical in
/-- `np.average(a, weights=w)`: `TypeError` if the shapes differ, `ZeroDivisionError` if the
weights sum to 0. For `base.py:397-422`. -/
noncomputable def npAverage (a w : List F) : Py F := do
  raiseIf (a.length ≠ w.length) .typeError
  raiseIf (w.sum = .fin 0) .zeroDivisionError
  return (List.zipWith (· * ·) a w).sum / w.sum

/-- `DensityProblem.expected_ratio` (`base.py:397-422`). -/
noncomputable def expectedRatio (env : Env) : PyM DP F := do
  let P ← PyM.get
  PyM.when P.up.isNone (fit env)
  let P ← PyM.get
  let r ← PyM.lift (theAttr P.r)
  PyM.lift (npAverage r P.weights)

/-- `DensityProblem.__init__` (`base.py:102-135`). `xInt`, `domInt`: are the arrays integer? The
argument `pad_domain` is accepted and not used. -/
noncomputable def new (X y : NArr) (domain : Option NArr := none) (weights : Option NArr := none)
    (normalize : Bool := false) (_pad_domain : ℝ := 1 / 10) (xInt domInt : Bool := false) :
    Py DP := do
  let X := X.shapeRow
  let y := y.shapeCol
  let dom ← match domain with
    | some d => do
      let D := d.shapeRow
      pyAssert (D.r = X.c)
      pure (D, domInt)
    | none => do
      let D ← fitDomain (some X) none (1 / 10) xInt
      pure (D, xInt)
  let w ← weightsOf X.r y.r weights normalize
  return { X, y, domain := dom.1, domInt := dom.2, weights := w }

/-- The effect of `plot_param_space(x_range, pad_ratio, mud_opts)` on the object
(`base.py:425-532`): `fit_domain` overwrites `self.domain` when no range is given, then
`_in_dist` is asserted, and unless `mud_opts=None` the estimate is computed. Drawing is not
modelled. -/
noncomputable def plotParamSpace (env : Env) (xRangeGiven : Bool := false)
    (pad_ratio : ℝ := 5 / 100) (mudOpts : Bool := true) : PyM DP Unit := do
  let P ← PyM.get
  if xRangeGiven then pure ()
  else
    let D ← PyM.lift (fitDomain none (some P.domain) pad_ratio P.domInt)
    PyM.modify fun s => { s with domain := D }
  PyM.lift (pyAssert (P.init.isSome = true))
  if mudOpts then
    let _ ← mudPoint env
  pure ()

/-- The columns handed to `scatter` by `plot_params_2d` (`base.py:650-710`): x, y and colour.
Negative indices pass the checks; `y` is then taken from the end. -/
def plotParams2d (P : DP) (x_1 x_2 y : ℤ) : Py (List ℝ × List ℝ × List ℝ) := do
  raiseIf (P.n_params < 2) .attributeError
  raiseIf (x_1 ≥ P.n_params ∨ x_2 ≥ P.n_params) .valueError
  raiseIf (y ≥ P.n_features) .valueError
  let k : ℤ := if y < 0 then y + P.n_features else y
  raiseIf (k < 0) .indexError
  let col (A : Arr2) (j : ℕ) : List ℝ := List.ofFn fun i : Fin A.r => A.get i j
  return (col P.X 0, col P.X 1, col P.y k.toNat)

end DP

/-- Attributes of a `BayesProblem` (`base.py:749-774`); `log` is unset until `set_likelihood`. -/
structure BP where
  X : Arr2
  y : Arr2
  domain : Arr2
  ps : Option (List F) := none
  pr : Option (List F) := none
  ll : Option (List F) := none
  log : Bool := false

namespace BP

/-- `BayesProblem.__init__` (`base.py:749-774`). -/
noncomputable def new (X y : NArr) (domain : Option NArr := none) (xInt : Bool := false) :
    Py BP := do
  let X := X.shapeRow
  let y := y.shapeRow
  let D ← match domain with
    | some d => do
      let D := d.shapeRow
      pyAssert (D.r = X.c)
      pure D
    | none => fitDomain (some X) none (1 / 10) xInt
  return { X, y, domain := D }

/-- `BayesProblem.set_likelihood` (`base.py:788-802`). -/
noncomputable def setLikelihood (d : Dist) (log : Bool := false) : PyM BP Unit := do
  let P ← PyM.get
  if log then
    PyM.modify fun s => { s with log := true }
    let out ← PyM.lift (d.logpdf P.y)
    let v ← PyM.lift out.sumRows
    PyM.modify fun s => { s with ll := some v }
  else
    PyM.modify fun s => { s with log := false }
    let out ← PyM.lift (d.pdf P.y)
    let v ← PyM.lift out.prodRows
    PyM.modify fun s => { s with ll := some v }
  PyM.modify fun s => { s with ps := none }

/-- `BayesProblem.set_prior` (`base.py:804-814`). -/
noncomputable def setPrior (d : Option Dist) : PyM BP Unit := do
  let P ← PyM.get
  let out ← PyM.lift ((d.getD (uniformOn P.domain)).pdf P.X)
  let v ← PyM.lift out.prodRows
  PyM.modify fun s => { s with pr := some v, ps := none }

open Classical in
/-- `BayesProblem.fit` (`base.py:816-830`). Without a likelihood `self.set_likelihood()` is called,
which lacks its argument: `TypeError`. -/
noncomputable def fit : PyM BP Unit := do
  let P ← PyM.get
  PyM.when P.pr.isNone (setPrior none)
  let P ← PyM.get
  PyM.when P.ll.isNone (PyM.throw .typeError)
  let pr ← PyM.lift (DP.theAttr P.pr)
  let ll ← PyM.lift (DP.theAttr P.ll)
  let ps ← PyM.lift (if P.log then bzip1 (· + ·) (pr.map F.log) ll else bzip1 (· * ·) pr ll)
  PyM.lift (pyAssert (ps.length = P.X.r))
  PyM.lift (raiseIf (ps.sum = .fin 0) .valueError)
  PyM.modify fun s => { s with ps := some ps }

/-- `BayesProblem.map_point` (`base.py:832-839`) and `estimate`. -/
noncomputable def mapPoint : PyM BP (List ℝ) := do
  let P ← PyM.get
  PyM.when P.ps.isNone (fit)
  let P ← PyM.get
  let u ← PyM.lift (DP.theAttr P.ps)
  let m ← PyM.lift (npArgmax u)
  PyM.lift (P.X.rowAt m)

end BP

end Verif
