import Verif.Model.Util
import Verif.Model.Density

/-!
# `SpatioTemporalProblem`

Models `/repo/src/mud/base.py:1528-2030` except the plotting methods.  Arrays are `ND`; `sensors`
and `times` are plain attributes of the object and are assumed to be arrays or `None`;
`std_dev` is a number or `None`. The attributes `qoi`, `pca`, `svd` (only written) and
`_true_lam` (never used) are left out.
-/

namespace Verif

/-- Attributes of a `SpatioTemporalProblem` (`base.py:1545-1557`). `lamRef = none` means that
`_lam_ref` has not been created (it is not initialised by the constructor). -/
structure STP where
  domain : Option ND := none
  lam : Option ND := none
  lamRef : Option ND := none
  data : Option ND := none
  measurements : Option ND := none
  trueVals : Option ND := none
  sampleDist : Option String := none
  sensors : Option ND := none
  times : Option ND := none
  stdDev : Option ℝ := none

namespace STP

/-- Read an attribute that must not be `None`; otherwise the given exception. For `base.py:1562-1566`. -/
def need {α : Type} (x : Option α) (e : Err) : Py α :=
  match x with
  | some a => .ok a
  | none => .error e

/-- `n_samples` (`base.py:1562-1566`). -/
def nSamples (P : STP) : Py ℕ := do (← need P.lam .attributeError).dim 0
/-- `n_sensors` (`base.py:1574-1578`). -/
def nSensors (P : STP) : Py ℕ := do (← need P.sensors .attributeError).dim 0
/-- `n_ts` (`base.py:1580-1584`). -/
def nTs (P : STP) : Py ℕ := do (← need P.times .attributeError).dim 0

/-- `np.vstack([lam.min(axis=0), lam.max(axis=0)]).T` for a table of samples
(`base.py:1604`, `1637`); `ValueError` without samples. Simplification: arrays that are not 2-D
are `unmodelled`. -/
noncomputable def minMax (lam : ND) : Py ND :=
  match lam.shape with
  | [n, p] =>
    if n = 0 then .error .valueError
    else .ok (.ofFn [p, 2] fun idx =>
      if idx.getD 1 0 = 0 then ⨅ i : Fin n, lam.get [i, idx.getD 0 0]
      else ⨆ i : Fin n, lam.get [i, idx.getD 0 0])
  | _ => .error .unmodelled

open Classical in
/-- `all(a OP b)` for 1-D arrays of lengths `r`, `p` (broadcast). For `base.py:1634-1641`. -/
noncomputable def allB (r p : ℕ) (f : ℕ → ℕ → Prop) : Py Bool :=
  match Arr2.bdim r p with
  | none => .error .valueError
  | some n => .ok (decide (∀ i < n, f (if r = 1 then 0 else i) (if p = 1 then 0 else i)))

/-- The checks in the `domain` setter when samples are present (`base.py:1634-1641`). -/
noncomputable def checkDomain (old : Option ND) (D lam : ND) : Py Unit := do
  let r ← (← need old .attributeError).dim 0
  let p ← lam.dim 1
  raiseIf (r ≠ p) .valueError
  let mm ← minMax lam
  let lo ← allB (D.shape.getD 0 0) p fun i j => D.get [i, 0] ≤ mm.get [j, 0]
  let hi ← allB (D.shape.getD 0 0) p fun i j => mm.get [j, 1] ≤ D.get [i, 1]
  raiseIf ((lo && hi) = false) .valueError

/-- `checkDomain` only `if self.lam is not None`. For `base.py:1632-1643`. -/
noncomputable def checkDomainIf (old : Option ND) (D : ND) : Option ND → Py Unit
  | none => .ok ()
  | some lam => checkDomain old D lam

/-- `domain` setter (`base.py:1632-1643`). -/
noncomputable def setDomain (dom : ND) : PyM STP Unit := do
  let D ← PyM.lift (dom.reshapeCols 2)
  let P ← PyM.get
  PyM.lift (checkDomainIf P.domain D P.lam)
  PyM.modify fun s => { s with domain := some D }

/-- `sample_dist` setter (`base.py:1709-1714`). -/
def setSampleDist (d : String) : PyM STP Unit := do
  PyM.lift (raiseIf (d ≠ "u" ∧ d ≠ "n") .valueError)
  PyM.modify fun s => { s with sampleDist := some d }

/-- `lam.reshape(-1, 1) if lam.ndim == 1 else lam` (`base.py:1596-1597`). -/
def asColumn (a : ND) : ND :=
  match h : a.shape with
  | [n] => ⟨[n, 1], a.data, by rw [a.size_eq, h]; simp⟩
  | _ => a

/-- The domain part of the `lam` setter (`base.py:1599-1604`). -/
noncomputable def lamDomain (lam : ND) : Option ND → PyM STP Unit
  | some D => do
    let c ← PyM.lift (lam.dim 1)
    let p ← PyM.lift (D.dim 0)
    PyM.lift (raiseIf (c ≠ p) .valueError)
  | none => do
    let mm ← PyM.lift (minMax lam)
    setDomain mm

/-- `lam` setter (`base.py:1595-1609`). -/
noncomputable def setLam (lam : ND) : PyM STP Unit := do
  let lam := asColumn lam
  let P ← PyM.get
  lamDomain lam P.domain
  let P ← PyM.get
  PyM.when P.sampleDist.isNone (setSampleDist "u")
  PyM.modify fun s => { s with lam := some lam }

/-- The loop of the `lam_ref` setter (`base.py:1620-1624`). -/
noncomputable def checkRef (D : ND) : ℕ → List ℝ → Py Unit
  | _, [] => .ok ()
  | i, x :: xs => do
    raiseIf (D.shape.getD 0 0 ≤ i) .indexError
    raiseIf (x < D.get [i, 0] ∨ x > D.get [i, 1]) .valueError
    checkRef D (i + 1) xs

/-- `lam_ref` setter (`base.py:1616-1625`). -/
noncomputable def setLamRef (ref : ND) : PyM STP Unit := do
  let P ← PyM.get
  let D ← PyM.lift (need P.domain .attributeError)
  PyM.lift (checkRef D 0 ref.data)
  PyM.modify fun s => { s with lamRef := some ref.ravel }

/-- `np.reshape(data, (-1, 1))` / `np.reshape(data, (dim[0], -1))` (`base.py:1651-1657`). -/
def dataTable (a : ND) : Py ND :=
  match a.shape with
  | [_] => .ok (asColumn a)
  | [n, _, _] => a.reshapeRows n
  | _ => .ok a

/-- `np.array([0])`. For `base.py:1661-1681`. -/
def zero1 : ND := ⟨[1], [0], rfl⟩
/-- `np.arange(0, k)`. For `base.py:1661-1681`. -/
def arange (k : ℕ) : ND := ⟨[k], (List.range k).map (fun i : ℕ => (i : ℝ)), by simp⟩

/-- The layout part of the `data` setter (`base.py:1661-1681`): the new values of `sensors` and
`times`. The four tests are evaluated one after the other. -/
def layout (k : ℕ) (sensors times : Option ND) : Py (ND × ND) := do
  let st : Option ND × Option ND := match sensors, times with
    | none, none => (some zero1, some (arange k))
    | s, t => (s, t)
  let st ← match st with
    | (some s, none) => do
      let S ← s.dim 0
      raiseIf (S ≠ k) .valueError
      pure (some s, some zero1)
    | st => pure st
  let st ← match st with
    | (none, some t) => do
      let T ← t.dim 0
      raiseIf (T ≠ k) .valueError
      pure (some zero1, some t)
    | st => pure st
  match st with
  | (some s, some t) => do
    let T ← t.dim 0
    let S ← s.dim 0
    raiseIf (T * S ≠ k) .valueError
    return (s, t)
  | _ => .error .unmodelled

/-- `dim[1]` in the `data` setter (`base.py:1661-1664`): when neither `sensors` nor `times` is set,
`sensors` is assigned before `dim[1]` is read, which raises for a 0-dimensional array. -/
def dataCols (D : ND) : PyM STP ℕ := fun s =>
  match D.dim 1 with
  | .ok k => (.ok k, s)
  | .error e => (.error e,
      if s.sensors.isNone && s.times.isNone then { s with sensors := some zero1 } else s)

theorem dataCols_ok {D : ND} {k : ℕ} (h : D.dim 1 = .ok k) : dataCols D = PyM.lift (.ok k) := by
  funext s; simp only [dataCols, h]; rfl

/-- `data` setter (`base.py:1650-1684`). Simplification: `sensors` and `times` are stored together
at the end; when one of them is filled in the tests that follow cannot fail, so no assignment is
lost by an exception. -/
def setData (data : ND) : PyM STP Unit := do
  let D ← PyM.lift (dataTable data)
  let k ← dataCols D
  let P ← PyM.get
  let st ← PyM.lift (layout k P.sensors P.times)
  PyM.modify fun s => { s with sensors := some st.1, times := some st.2, data := some D }

/-- `n_sensors * n_ts`. For `base.py:1691-1693`. -/
def nData (P : STP) : Py ℕ := do
  let S ← P.nSensors
  let T ← P.nTs
  return S * T

/-- `measurements` setter (`base.py:1691-1693`). -/
def setMeasurements (m : ND) : PyM STP Unit := do
  let P ← PyM.get
  let k ← PyM.lift P.nData
  let M ← PyM.lift (m.reshape [k, 1])
  PyM.modify fun s => { s with measurements := some M }

/-- `true_vals` setter (`base.py:1700-1702`). -/
def setTrueVals (m : ND) : PyM STP Unit := do
  let P ← PyM.get
  let k ← PyM.lift P.nData
  let M ← PyM.lift (m.reshape [k, 1])
  PyM.modify fun s => { s with trueVals := some M }

/-- What `sample_data` returns. For `base.py:1844-1880`. -/
structure Sampled where
  lam : ND
  times : ND
  sensors : ND
  data : ND
  meas : Option ND

/-- `f(x)` `if x is not None`. For `base.py:1865-1869`. -/
def mapOpt {α β : Type} (f : α → Py β) : Option α → Py (Option β)
  | none => .ok none
  | some a => do return some (← f a)

/-- `if samples_mask is not None` (`base.py:1862-1864`). -/
def maskSamples (lam data : ND) : Option ND.Mask → Py (ND × ND)
  | none => .ok (lam, data)
  | some m => do
    let l ← lam.index 2 0 m
    let d ← data.index 3 0 m
    return (l, d)

/-- `if times_mask is not None` (`base.py:1865-1869`). -/
def maskTimes (times data : ND) (meas : Option ND) : Option ND.Mask → Py (ND × ND × Option ND)
  | none => .ok (times, data, meas)
  | some m => do
    let t ← (← times.index 1 0 m).reshapeCols 1
    let d ← data.index 3 2 m
    let e ← mapOpt (fun a => a.index 2 1 m) meas
    return (t, d, e)

/-- `if sensors_mask is not None` (`base.py:1870-1874`). -/
def maskSensors (sensors data : ND) (meas : Option ND) : Option ND.Mask → Py (ND × ND × Option ND)
  | none => .ok (sensors, data, meas)
  | some m => do
    let s ← (← sensors.index 1 0 m).reshapeCols 2
    let d ← data.index 3 1 m
    let e ← mapOpt (fun a => a.index 2 0 m) meas
    return (s, d, e)

/-- `sample_data` (`base.py:1844-1880`). -/
def sampleData (P : STP) (samplesMask timesMask sensorsMask : Option ND.Mask := none) :
    Py Sampled := do
  let data ← need P.data .attributeError
  let n ← P.nSamples
  let S ← P.nSensors
  let T ← P.nTs
  let subData ← data.reshape [n, S, T]
  let subMeas ← mapOpt (fun m => m.reshape [S, T]) P.measurements
  let times ← need P.times .attributeError
  let sensors ← need P.sensors .attributeError
  let lam ← need P.lam .attributeError
  let a ← maskSamples lam subData samplesMask
  let b ← maskTimes times a.2 subMeas timesMask
  let c ← maskSensors sensors b.2.1 b.2.2 sensorsMask
  let T' ← b.1.dim 0
  let S' ← c.1.dim 0
  let d ← c.2.1.reshapeCols (T' * S')
  let m ← mapOpt (fun m => m.reshape [T' * S']) c.2.2
  return ⟨a.1, b.1, c.1, d, m⟩

open Classical in
/-- `np.argmin` on real numbers: the first index of a smallest entry; `ValueError` if empty.
For `base.py:1716-1733`. -/
noncomputable def argminGo (bi : ℕ) (b : ℝ) (i : ℕ) : List ℝ → ℕ
  | [] => bi
  | v :: vs => if v < b then argminGo i v (i + 1) vs else argminGo bi b (i + 1) vs

/-- `np.argmin`. For `base.py:1716-1733`. -/
noncomputable def npArgmin : List ℝ → Py ℕ
  | [] => .error .valueError
  | v :: vs => .ok (argminGo 0 v 1 vs)

/-- `np.linalg.norm(data - row, axis=1)` for a 2-D `data` and `row` of shape `(k,)` or `(1, k)`
(broadcast). Other shapes are `unmodelled`. For `base.py:1716-1733`. -/
noncomputable def rowDists (data row : ND) : Py (List ℝ) :=
  match data.shape, row.shape with
  | [n, k], s =>
    match s with
    | [k'] | [1, k'] =>
      match Arr2.bdim k k' with
      | none => .error .valueError
      | some K => .ok ((List.range n).map fun i => Real.sqrt (∑ j : Fin K,
          (data.get [i, if k = 1 then 0 else (j : ℕ)] -
            row.data.getD (if k' = 1 then 0 else (j : ℕ)) 0) ^ 2))
    | _ => .error .unmodelled
  | _, _ => .error .unmodelled

/-- `lam[i, :].ravel()`. For `base.py:1716-1733`. -/
def lamRow (lam : ND) (i : ℕ) : Py (List ℝ) :=
  match lam.shape with
  | [n, p] => if i < n then .ok ((List.range p).map fun j => lam.get [i, j]) else .error .indexError
  | _ => .error .indexError

/-- `get_closest_to_measurements` (`base.py:1716-1733`). -/
noncomputable def closestToMeasurements (P : STP)
    (samplesMask timesMask sensorsMask : Option ND.Mask := none) : Py (List ℝ) := do
  let s ← P.sampleData samplesMask timesMask sensorsMask
  let m ← need s.meas .attributeError
  let d ← rowDists s.data m.T
  let i ← npArgmin d
  lamRow s.lam i

/-- `get_closest_to_true_vals` (`base.py:1735-1748`). -/
noncomputable def closestToTrueVals (P : STP) : Py (List ℝ) := do
  let t ← need P.trueVals .attributeError
  let data ← need P.data .typeError
  let d ← rowDists data t.T
  let i ← npArgmin d
  lamRow (← need P.lam .typeError) i

/-- `measurements_from_reference` (`base.py:1750-1765`). State: the object and the global random
generator. -/
def measurementsFromReference {σ : Type} (G : Rng σ) (ref : Option ND) (stdDev : Option ℝ)
    (seed : Option ℕ) : PyM (STP × σ) Unit := fun s =>
  let P := s.1
  let P := match ref with
    | some r => { P with trueVals := some r }
    | none => P
  let P := match stdDev with
    | some d => { P with stdDev := some d }
    | none => P
  match P.trueVals, P.stdDev with
  | some t, some d =>
    match addNoise G t.ravel d seed s.2 with
    | (.error e, st) => (.error e, (P, st))
    | (.ok noisy, st) =>
      match noisy.reshape t.shape with
      | .error e => (.error e, (P, st))
      | .ok m =>
        match setMeasurements m P with
        | (r, P') => (r, (P', st))
  | _, _ => (.error .attributeError, (P, s.2))

/-- `validate(check_meas, check_true)` (`base.py:1827-1842`); a `ValueError` carries the list of
attribute names in its message. `true_lam` is not an attribute of the class. -/
def validate (P : STP) (checkMeas : Bool := true) (checkTrue : Bool := false) :
    Except (Err × List String) Unit :=
  let base : List (String × Bool) :=
    [("domain", P.domain.isNone), ("lam", P.lam.isNone), ("data", P.data.isNone)]
  let attrs := if checkMeas then base ++ [("measurements", P.measurements.isNone)] else base
  if checkTrue then .error (.attributeError, [])
  else
    let missing := (attrs.filter fun a => a.2).map Prod.fst
    if missing.length > 0 then .error (.valueError, missing) else .ok ()

/-- External decompositions used by `mud_problem` (`preprocessing.py:95-104`, `163-172`): the rows
of `PCA.components_` and the third factor of `np.linalg.svd` for the standardised data. -/
structure Decomp where
  pcaComponents : Arr2 → ℕ → Py Arr2
  svdV : Arr2 → Py Arr2

/-- A sampled array handed to `DensityProblem`. For `base.py:1976-2030`. -/
def toNArr (A : ND) : NArr :=
  match A.shape with
  | [] => .scal (A.get [])
  | [n] => .vec n fun i => A.get [i]
  | _ => .mat A.toArr2

/-- `(sub_meas - sub_data) / std_dev` (`base.py:1994`). A vanishing `std_dev` produces `inf`/`nan`
and is `unmodelled`. -/
noncomputable def residuals (data meas : ND) (sd : ℝ) : Py Arr2 := do
  let D := data.toArr2
  let R ← (Arr2.row fun j : Fin (meas.shape.getD 0 0) => meas.get [j]).sub D
  raiseIf (sd = 0) .unmodelled
  return R.smul (1 / sd)

/-- The `data_weights` part (`base.py:1997-2004`); `k` is `n_sensors * n_ts` of the whole problem.
A zero weight vector is `unmodelled`. -/
noncomputable def weighResiduals (k : ℕ) (R : Arr2) : Option ND → Py Arr2
  | none => .ok R
  | some w => do
    raiseIf (w.data.length ≠ k) .valueError
    raiseIf (DP.norm2 w.data = 0) .unmodelled
    (Arr2.col fun i : Fin w.data.length => w.data.getD i 0 / DP.norm2 w.data).hmul R

/-- `v[0:num, :]`. For `base.py:2006-2025`. -/
def takeRowsN (A : Arr2) (num : ℕ) : Arr2 := A.takeRows num

/-- The quantity of interest (`base.py:2006-2025`); for an unknown method the `ValueError` is only
constructed, and the variable `qoi` is then unbound. `n` is the number of data rows. -/
noncomputable def qoiOf (ext : Decomp) (method : String) (numComponents n : ℕ) (R : Arr2) :
    Py NArr :=
  if method = "wme" then .ok (.vec R.r fun i => (∑ j, R.m i j) / Real.sqrt n)
  else if method = "pca" then do
    let C ← ext.pcaComponents R numComponents
    return .mat (← R.matmul C.T)
  else if method = "svd" then do
    let V ← ext.svdV R
    return .mat (← R.matmul (takeRowsN V numComponents).T)
  else .error .unboundLocalError

/-- `mud_problem` (`base.py:1976-2030`). -/
noncomputable def mudProblem (ext : Decomp) (P : STP) (method : String := "pca")
    (dataWeights : Option ND := none) (sampleWeights : Option NArr := none)
    (numComponents : ℕ := 2) (samplesMask timesMask sensorsMask : Option ND.Mask := none) :
    Py DP := do
  let s ← P.sampleData samplesMask timesMask sensorsMask
  let m ← need s.meas .typeError
  let sd ← need P.stdDev .typeError
  let R ← residuals s.data m sd
  let k ← P.nData
  let R' ← weighResiduals k R dataWeights
  let q ← qoiOf ext method numComponents R.r R'
  DP.new (toNArr s.lam) q (P.domain.map fun D => .mat D.toArr2) sampleWeights

/-- Values stored in a data set or passed as keyword arguments of `load`. For `base.py:1802-1806`. -/
inductive Val
  | none
  | str (s : String)
  | num (x : ℝ)
  | arr (a : ND)

/-- A number as an array. For `base.py:1802-1806`. -/
def num0 (x : ℝ) : ND := ⟨[], [x], rfl⟩

/-- `self.__setattr__(f, v)` for the attributes of the class. Simplifications: `sensors` and
`times` receive arrays or `None` and `std_dev` a number or `None` (anything else is `unmodelled`);
names that are not attributes modelled here are accepted and have no effect on the model. For `base.py:1802-1806`. -/
noncomputable def setAttr (f : String) (v : Val) : PyM STP Unit :=
  if f = "sample_dist" then
    match v with
    | .str s => setSampleDist s
    | _ => PyM.throw .valueError
  else if f = "domain" then
    match v with
    | .arr a => setDomain a
    | _ => PyM.throw .valueError
  else if f = "sensors" then
    match v with
    | .arr a => PyM.modify fun s => { s with sensors := some a }
    | .none => PyM.modify fun s => { s with sensors := none }
    | _ => PyM.throw .unmodelled
  else if f = "times" then
    match v with
    | .arr a => PyM.modify fun s => { s with times := some a }
    | .none => PyM.modify fun s => { s with times := none }
    | _ => PyM.throw .unmodelled
  else if f = "lam_ref" then
    match v with
    | .arr a => setLamRef a
    | .num x => setLamRef (num0 x)
    | _ => PyM.throw .typeError
  else if f = "std_dev" then
    match v with
    | .num x => PyM.modify fun s => { s with stdDev := some x }
    | .none => PyM.modify fun s => { s with stdDev := none }
    | _ => PyM.throw .unmodelled
  else if f = "true_vals" then
    match v with
    | .arr a => setTrueVals a
    | .num x => setTrueVals (num0 x)
    | _ => PyM.throw .unmodelled
  else if f = "measurements" then
    match v with
    | .arr a => setMeasurements a
    | .num x => setMeasurements (num0 x)
    | _ => PyM.throw .unmodelled
  else if f = "lam" then
    match v with
    | .arr a => setLam a
    | .num x => setLam (num0 x)
    | _ => PyM.throw .unmodelled
  else if f = "data" then
    match v with
    | .arr a => setData a
    | _ => PyM.throw .attributeError
  else pure ()

/-- A data set: what `ds.keys()` and `ds[...]` give. For `base.py:1802-1806`. -/
abbrev DataSet := List (String × Val)

/-- `ds[v]` for a dictionary: `KeyError` if `v` is not a key, `TypeError` if it is an (unhashable)
array. For `base.py:1802-1806`. -/
def dsGet (ds : DataSet) : Val → Py Val
  | .str k => need (ds.lookup k) .keyError
  | .arr _ => .error .typeError
  | _ => .error .keyError

/-- `get_set_val(f, v)` (`base.py:1802-1806`). -/
noncomputable def getSetVal (ds : DataSet) (f : String) (v : Val) : PyM STP Unit :=
  if (ds.lookup f).isSome then do
    let x ← PyM.lift (dsGet ds v)
    setAttr f x
  else
    match v with
    | .none => pure ()
    | .str _ => pure ()
    | v => setAttr f v

/-- `d.update(kwargs)` on an insertion-ordered dictionary, one entry. For `base.py:1802-1825`. -/
def dictSet (d : DataSet) (k : String) (v : Val) : DataSet :=
  if (d.lookup k).isSome then d.map fun e => if e.1 = k then (k, v) else e
  else d ++ [(k, v)]

/-- `field_names` (`base.py:1808-1817`). -/
def fieldNames : DataSet :=
  [("sample_dist", .str "sample_dist"), ("domain", .str "domain"), ("sensors", .str "sensors"),
   ("times", .str "times"), ("lam_ref", .str "lam_ref"), ("std_dev", .str "std_dev"),
   ("true_vals", .str "true_vals"), ("measurements", .str "measurements")]

/-- The loop `for f, v in field_names.items(): get_set_val(f, v)` (`base.py:1819-1820`). -/
noncomputable def setAll (ds : DataSet) : DataSet → PyM STP Unit
  | [] => pure ()
  | (f, v) :: rest => do
    getSetVal ds f v
    setAll ds rest

/-- `load(ds, lam, data, **kwargs)` for a data set already in memory (`base.py:1802-1825`). -/
noncomputable def loadDs (ds : DataSet) (lam data : Val) (kwargs : DataSet) : PyM STP Unit := do
  setAll ds (kwargs.foldl (fun d e => dictSet d e.1 e.2) fieldNames)
  getSetVal ds "lam" lam
  getSetVal ds "data" data

/-- Contents of a file. For `base.py:16-22`. -/
inductive Contents
  | pickle (ds : DataSet)
  | netcdf (ds : DataSet)

/-- The environment of `load`: is `xarray` importable, and the files. For `base.py:16-22`. -/
structure FileEnv where
  xarray : Bool
  file : String → Option Contents

/-- The name `xr_avail` read in `load`: the import block (`base.py:16-22`) defines `xr_avial` when
the import succeeds and `xr_avail` when it fails. -/
def FileEnv.xrAvail (E : FileEnv) : Py Bool :=
  if E.xarray then .error .nameError else .ok false

/-- `df.endswith("nc")` (`base.py:1791`). -/
def endsNc (path : String) : Bool := ['n', 'c'].isSuffixOf path.toList

/-- `df.endswith("nc") and xr_avail` (`base.py:1791`). -/
def FileEnv.useXr (E : FileEnv) (path : String) : Py Bool :=
  if endsNc path then E.xrAvail else .ok false

/-- Opening the file (`base.py:1790-1800`). Unpickling a netCDF file, or reading a pickle with
`xarray`, fails in library code (`unmodelled`). -/
def FileEnv.read (E : FileEnv) (path : String) : Py DataSet := do
  let useXr ← E.useXr path
  match E.file path with
  | none => .error .fileNotFoundError
  | some (.pickle ds) => if useXr then .error .unmodelled else .ok ds
  | some (.netcdf ds) => if useXr then .ok ds else .error .unmodelled

/-- `load(path, lam, data, **kwargs)` (`base.py:1767-1825`). -/
noncomputable def loadFile (E : FileEnv) (path : String) (lam : Val := .str "lam")
    (data : Val := .str "data") (kwargs : DataSet := []) : PyM STP Unit := do
  let ds ← PyM.lift (E.read path)
  loadDs ds lam data kwargs

end STP

end Verif
