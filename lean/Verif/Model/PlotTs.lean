import Verif.Model.SpatioTemporal

/-!
# Figures of `SpatioTemporalProblem`

Models `sensor_contour_plot`, `sensor_scatter_plot` and `plot_ts`
(`/repo/src/mud/base.py:1882-1974`).  A figure is what matplotlib is given: points with values, or
lines.  Colours, labels and the colour bar are left out.
-/

namespace Verif

namespace STP

open ND

/-- `sensors[:, 0]` and `sensors[:, 1]`: `IndexError` unless there are two axes and two columns.
For `base.py:1892`. -/
def pairs (sensors : ND) : Py (List (ℝ × ℝ)) :=
  match sensors.shape with
  | [S, k] =>
    if 2 ≤ k then .ok ((List.range S).map fun i => (sensors.get [i, 0], sensors.get [i, 1]))
    else .error .indexError
  | [] | [_] => .error .indexError
  | _ => .error .unmodelled

/-- `self.sensors[mask, :] if mask is not None else self.sensors`, as points
(`base.py:1892`, `1918`). -/
def sensorPoints (P : STP) (mask : Option Mask) : Py (List (ℝ × ℝ)) := do
  let s ← need P.sensors .typeError
  match mask with
  | none => pairs s
  | some m => do pairs (← s.index 2 0 m)

/-- `sensor_scatter_plot(mask)` (`base.py:1906-1926`): the points drawn. -/
def sensorScatter (P : STP) (mask : Option Mask := none) : Py (List (ℝ × ℝ)) := P.sensorPoints mask

/-- `c_vals if c_vals is not None else self.data[idx, :].ravel()` (`base.py:1893`). -/
def contourVals (P : STP) (idx : ℤ) (c_vals : Option (List ℝ)) : Py (List ℝ) :=
  match c_vals with
  | some v => .ok v
  | none => do
    let d ← need P.data .typeError
    let r ← d.index 2 0 (.int idx)
    return r.data

/-- `sensor_contour_plot(idx, c_vals, mask)` (`base.py:1882-1904`): points with values; `tri` is the
triangulation (external, raises or not). One value per point, or `ValueError`. -/
def sensorContour (tri : List (ℝ × ℝ) → Py Unit) (P : STP) (idx : ℤ := 0)
    (c_vals : Option (List ℝ) := none) (mask : Option Mask := none) : Py (List ((ℝ × ℝ) × ℝ)) := do
  let _ ← need P.sensors .typeError
  let v ← P.contourVals idx c_vals
  let p ← P.sensorPoints mask
  tri p
  raiseIf (v.length ≠ p.length) .valueError
  return p.zip v

/-- What `plot_ts` draws: the measured points and the simulated lines. For `base.py:1928-1974`. -/
structure TsFigure where
  measured : List (ℝ × ℝ)
  series : List (List (ℝ × ℝ))

/-- `plt.scatter(times, sub_meas)` (`base.py:1956`): `ValueError` for different sizes; `None` counts
as one value (with a single time the effect is not modelled). -/
def scatterTs (times : ND) : Option ND → Py (List (ℝ × ℝ))
  | none => if times.data.length = 1 then .error .unmodelled else .error .valueError
  | some m => do
    raiseIf (times.data.length ≠ m.data.length) .valueError
    return times.data.zip m.data

/-- `ax.plot(times, sub_data[i, :])` (`base.py:1963-1971`). -/
def lineTs (times data : ND) (i : ℕ) : Py (List (ℝ × ℝ)) := do
  let r ← data.index 2 0 (.int i)
  raiseIf (times.data.length ≠ r.data.length) .valueError
  return times.data.zip r.data

/-- `plot_ts(samples, times, sensor_idx, max_plot)` (`base.py:1928-1974`); `choice n k` is
`np.random.choice(n, k)`, which raises `ValueError` for negative `k`. The loop
`for i, idx in enumerate(...)` uses only `i`. -/
def plotTs (choice : ℕ → ℕ → List ℕ) (P : STP) (samples times : Option Mask := none)
    (sensor_idx : Option Mask := some (.int 0)) (max_plot : ℤ := 100) : Py TsFigure := do
  let s ← P.sampleData samples times sensor_idx
  let n ← s.data.dim 0
  let k := if max_plot > n then (n : ℤ) else max_plot
  let pts ← scatterTs s.times s.meas
  raiseIf (k < 0) .valueError
  let lines ← (choice n k.toNat).zipIdx.mapM fun p => lineTs s.times s.data p.2
  return ⟨pts, lines⟩

end STP

end Verif
