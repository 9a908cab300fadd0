import Verif.Model.ExamplesSimple
import Verif.Model.SpatioTemporal

/-!
# The exponential decay and temporal examples

Models `/repo/src/mud/examples/exp_decay.py` and `identity_1D_temporal_prob`
(`/repo/src/mud/examples/simple.py:151-194`).
-/

namespace Verif
namespace ExpDecay

open STP

variable {σ : Type}

/-- A 1-D array. For `exp_decay.py:22-69`. -/
def vecND (l : List ℝ) : ND := ⟨[l.length], l, by simp⟩

/-- `np.arange(a, b, h)`: `⌈(b - a) / h⌉` numbers from `a` in steps of `h`. For `exp_decay.py:28-31`. -/
noncomputable def npArange (a b h : ℝ) : List ℝ :=
  (List.range ⌈(b - a) / h⌉.toNat).map fun i : ℕ => a + i * h

/-- `u_0 * np.exp(-np.outer(l1, t))` (`exp_decay.py:22-23`): one row per entry of `l1`. -/
noncomputable def decayTable (u0 : ℝ) (l t : List ℝ) : ND :=
  ND.ofFn [l.length, t.length] fun idx =>
    u0 * Real.exp (-(l.getD (idx.getD 0 0) 0 * t.getD (idx.getD 1 0) 0))

/-- `A[0]` of a 2-D array. For `exp_decay.py:32-35`. -/
def rowZero (A : ND) : Py ND := A.index 2 0 (.int 0)

/-- The attributes set before sampling (`exp_decay.py:28-31`): `domain`, `times`, `sample_dist`. A
frequency 0 is a `ZeroDivisionError`. -/
noncomputable def before (domain : ND) (tStart tEnd freq : ℝ) (clip : List ℝ → List ℝ) : PyM STP Unit := do
  setDomain domain
  PyM.lift (raiseIf (freq = 0) .zeroDivisionError)
  PyM.modify fun P => { P with times := some (vecND (clip (npArange tStart tEnd (1 / freq)))) }
  setSampleDist "u"

/-- The attributes set from the samples (`exp_decay.py:32-35`): `lam`, `data`, `true_vals`, `std_dev`. -/
noncomputable def simulate (u0 lamTrue sd : ℝ) (draws : List ℝ) : PyM STP Unit := do
  setLam (vecND draws)
  let P ← PyM.get
  let lam ← PyM.lift (need P.lam .typeError)
  let times ← PyM.lift (need P.times .typeError)
  setData (decayTable u0 lam.data times.data)
  let tv ← PyM.lift (rowZero (decayTable u0 [lamTrue] times.data))
  setTrueVals tv
  PyM.modify fun P => { P with stdDev := some sd }

/-- `exp_decay_1D(u_0, time_range, domain, num_samples, lambda_true, t_start, sampling_freq, std_dev)`
(`exp_decay.py:12-37`) with `domain = [a, b]`. `time_range[0]` is not used. `ValueError` from `rvs` for a
negative scale. -/
noncomputable def expDecay1D (G : Gen σ) (u0 : ℝ := 0.75) (time_range : ℝ × ℝ := (0, 4)) (a : ℝ := 0)
    (b : ℝ := 1) (n : ℕ := 10000) (lamTrue : ℝ := 0.5) (tStart : ℝ := 0) (freq : ℝ := 100)
    (sd : ℝ := 0.05) : PyM σ STP := do
  let P ← PyM.lift (runObj (before (vecND [a, b]) tStart time_range.2 freq id) {})
  PyM.lift (raiseIf (b < a) .valueError)
  let l ← ((Frozen.uniform G a b).stream G).take n
  PyM.lift (runObj (simulate u0 lamTrue sd l) P)

/-- `(l1 * np.exp(-np.outer(t, l2))).T` (`exp_decay.py:50-51`) for columns `l1`, `l2` of one table. -/
noncomputable def decayTable2 (lam : ND) (t : List ℝ) : ND :=
  ND.ofFn [lam.shape.headD 0, t.length] fun idx =>
    lam.get [idx.getD 0 0, 0] * Real.exp (-(t.getD (idx.getD 1 0) 0 * lam.get [idx.getD 0 0, 1]))

/-- `lam[:, 0]`, `lam[:, 1]`: `IndexError` for fewer than two columns. For `exp_decay.py:63-69`. -/
def twoColumns (lam : ND) : Py Unit := raiseIf (lam.shape.getD 1 0 < 2) .indexError

/-- The attributes set from the samples in `exp_decay_2D` (`exp_decay.py:63-69`): `u_t_lambda_2` has the
parameters `t`, `l1`, `l2` and is called for `true_vals` with two positional arguments. -/
noncomputable def simulate2 (sd : ℝ) (lam : ND) : PyM STP Unit := do
  setLam lam
  let P ← PyM.get
  let lam ← PyM.lift (need P.lam .typeError)
  let times ← PyM.lift (need P.times .typeError)
  PyM.lift (twoColumns lam)
  setData (decayTable2 lam times.data)
  PyM.lift (bindCall ["t", "l1", "l2"] 3 2 [])
  PyM.modify fun P => { P with stdDev := some sd }

/-- `exp_decay_2D(...)` (`exp_decay.py:40-71`) for a domain of shape `(p, 2)`; `sample` is the result of
`initial.rvs(size=(num_samples, num_params))` (an array, or the exception for `p` limits that cannot be
broadcast). -/
noncomputable def expDecay2D (sample : PyM σ ND) (domain : ND) (N : ℕ) (tStart tEnd freq sd : ℝ) :
    PyM σ STP := do
  let P ← PyM.lift (runObj (before domain tStart tEnd freq (List.take N)) {})
  let lam ← sample
  PyM.lift (runObj (simulate2 sd lam) P)

/-- The data set of `identity_1D_temporal_prob` (`simple.py:178-188`); `y_true` is a number, which
`np.reshape` takes as a 0-d array. -/
noncomputable def temporalDs (out : Arr2 × Arr2 × List ℝ) (y noise : ℝ) (domain : Val) (num_obs : ℕ) :
    DataSet :=
  [("lam", .arr (ND.ofFn [out.1.r, out.1.c] fun idx => out.1.get (idx.getD 0 0) (idx.getD 1 0))),
   ("data", .arr (vecND out.2.2)), ("true_vals", .arr ⟨[], [y], rfl⟩), ("measurements", .none),
   ("std_dev", .num noise), ("sample_dist", .str "uniform"), ("domain", domain),
   ("lam_ref", .arr ⟨[], [y], rfl⟩), ("times", .arr (arange num_obs))]

/-- The calls on the density problem (`simple.py:192-193`). -/
noncomputable def temporalSetup (init : Dist) : PyM DP Unit := do
  DP.setInitial (some init)
  DP.setObserved (some stdNormal)

/-- `identity_1D_temporal_prob(...)` (`simple.py:151-194`). -/
noncomputable def temporalProb (ext : Decomp) (G : Gen σ) (init : Frozen σ) (n num_obs : ℕ)
    (y noise : ℝ) (domain : Val) : PyM σ DP := do
  let out ← polynomial1DData G init 1 n y noise num_obs
  let P ← PyM.lift (runObj (loadDs (temporalDs out y noise domain num_obs) (.str "lam") (.str "data") []) {})
  let D ← PyM.lift (P.mudProblem ext "wme")
  PyM.lift (runObj (temporalSetup init.dist) D)

end ExpDecay
end Verif
