import Verif.Model.Wme
import Verif.Model.Density
import Verif.Model.Util
import Verif.Model.SpatioTemporal

/-!
# `mud.funs`: `mud_problem`, `map_problem`, `data_prob`

Models `/repo/src/mud/funs.py:214-320`.
-/

namespace Verif

namespace Funs

/-- `x.reshape(-1, 1) if x.ndim == 1 else x`. For `funs.py:281-320`. -/
def asCol : NArr → NArr
  | .vec _ v => .mat (Arr2.col v)
  | a => a

/-- The 2-D array `qoi` after its reshape; `qoi.shape[1]` raises `IndexError` for a scalar. For `funs.py:281-320`. -/
def qoiTable (a : NArr) : Py Arr2 :=
  match asCol a with
  | .mat A => .ok A
  | _ => .error .indexError

/-- The number of observations to use (`funs.py:266-272`, `296-301`). -/
def checkNumObs (dim_output : ℕ) : Option ℤ → Py ℕ
  | none => .ok dim_output
  | some k => do
    raiseIf (k < 1) .valueError
    raiseIf (k > dim_output) .valueError
    return k.toNat

/-- `a + b` of 1-D arrays (broadcasting of length-1 arrays; `ValueError` otherwise). For `funs.py:311-316`. -/
def addB (a b : List ℝ) : Py (List ℝ) :=
  if a.length = b.length then .ok (List.zipWith (· + ·) a b)
  else match a, b with
    | [x], b => .ok (b.map fun y => x + y)
    | a, [y] => .ok (a.map fun x => x + y)
    | _, _ => .error .valueError

/-- A list as a 1-D array. For `funs.py:311-316`. -/
def vecOf (l : List ℝ) : NArr := .vec l.length fun i => l[i]

/-- `A[:, 0:k]` with `k ≤` number of columns. For `funs.py:305-318`. -/
def takeCols (A : Arr2) (k : ℕ) : Arr2 := ⟨A.r, k, .of fun i j => A.get i j⟩

/-- `A[:, idx]` for a list of column positions that exist. For `funs.py:311-316`. -/
def pickCols (A : Arr2) (idx : List ℕ) : Arr2 := ⟨A.r, idx.length, .of fun i j => A.get i idx[j]⟩

/-- Computed values as reals. Simplification: `inf`/`nan` (which arise only for `sd = 0`) are
`unmodelled`. For `funs.py:311-316`. -/
def finAll : List F → Py (List ℝ)
  | [] => .ok []
  | .fin x :: l => do return x :: (← finAll l)
  | _ :: _ => .error .unmodelled

/-- `np.vstack(q).T` for a list of 1-D arrays of length `n`: `ValueError` if there are none. For `funs.py:305-318`. -/
def stackT (n : ℕ) : List (List ℝ) → Py Arr2
  | [] => .error .valueError
  | q => .ok ⟨n, q.length, .of fun i j => (q[j]).getD i 0⟩

/-- One block of the split (`funs.py:311-316`): `qoi_indices[qoi_indices < num_obs]` selects columns
of `qoi`, entries of `qoi_true` and entries of the noise. -/
noncomputable def splitBlock (qoi : Arr2) (qoi_true noise : List ℝ) (sd : ℝ) (num_obs : ℕ)
    (qoi_indices : List ℤ) : Py (List ℝ) := do
  let q := qoi_indices.filter fun i : ℤ => decide (i < (num_obs : ℤ))
  let cols ← q.mapM (ND.normIdx qoi.c)
  let it ← q.mapM (ND.normIdx qoi_true.length)
  let inn ← q.mapM (ND.normIdx noise.length)
  let data ← addB (it.map fun i => qoi_true.getD i 0) (inn.map fun i => noise.getD i 0)
  let w ← wme (.mat (pickCols qoi cols)) (vecOf data) (some sd)
  finAll w

/-- The quantity of interest of `mud_problem` (`funs.py:305-318`). -/
noncomputable def mudQoi (qoi : Arr2) (qoi_true noise : List ℝ) (sd : ℝ) (num_obs : ℕ) :
    Option (List (List ℤ)) → Py NArr
  | none => do
    let data ← addB (qoi_true.take num_obs) noise
    let w ← wme (.mat (takeCols qoi num_obs)) (vecOf data) (some sd)
    let l ← finAll w
    return .mat (Arr2.col fun i : Fin l.length => l[i])
  | some split => do
    let q ← split.mapM (splitBlock qoi qoi_true noise sd num_obs)
    return .mat (← stackT qoi.r q)

/-- `mud_problem(lam, qoi, qoi_true, domain, sd, num_obs, split, weights)` (`funs.py:281-320`).
`qoi_true` is a 1-D array or list of numbers, the blocks of `split` are integer arrays. The state is
that of NumPy's global generator. -/
noncomputable def mudProblem {σ : Type} (G : Rng σ) (lam qoi : NArr) (qoi_true : List ℝ)
    (domain : Option NArr) (sd : ℝ) (num_obs : Option ℤ) (split : Option (List (List ℤ)))
    (weights : Option NArr) : PyM σ DP := do
  let qoi ← PyM.lift (qoiTable qoi)
  let k ← PyM.lift (checkNumObs qoi.c num_obs)
  let st ← PyM.get
  let out := G.randn k st
  PyM.modify fun _ => out.2
  let q ← PyM.lift (mudQoi qoi qoi_true (out.1.map (· * sd)) sd k split)
  PyM.lift (DP.new (asCol lam) q domain weights)

/-- `scipy.stats.norm(loc=m, scale=s).pdf(x)`: `nan` unless `s > 0`. For `funs.py:275`. -/
noncomputable def normPdf (m s x : ℝ) : F :=
  if 0 < s then .fin (Real.exp (-((x - m) / s) ^ 2 / 2) / (s * Real.sqrt (2 * Real.pi))) else .nan

/-- `scipy.stats.norm(loc=m, scale=s).logpdf(x)`. For `funs.py:275`. -/
noncomputable def normLogPdf (m s x : ℝ) : F :=
  if 0 < s then .fin (-((x - m) / s) ^ 2 / 2 - Real.log (s * Real.sqrt (2 * Real.pi))) else .nan

/-- `dists.norm(loc=data, scale=sd)` evaluated on a table with one column per entry of `data`
(`funs.py:275`). Simplification: other widths are `unmodelled`. -/
noncomputable def likelihoodOf (data : List ℝ) (sd : ℝ) : Dist where
  pdf A := if A.c = data.length then .ok (.tab (rowsOf (fun j x => normPdf (data.getD j 0) sd x) A))
    else .error .unmodelled
  logpdf A := if A.c = data.length then
      .ok (.tab (rowsOf (fun j x => normLogPdf (data.getD j 0) sd x) A))
    else .error .unmodelled

/-- `map_problem(lam, qoi, qoi_true, domain, sd, num_obs, log)` (`funs.py:258-278`). -/
noncomputable def mapProblem {σ : Type} (G : Rng σ) (lam qoi : NArr) (qoi_true : List ℝ)
    (domain : Option NArr) (sd : ℝ) (num_obs : Option ℤ) (log : Bool) : PyM σ BP := do
  let qoi ← PyM.lift (qoiTable qoi)
  let k ← PyM.lift (checkNumObs qoi.c num_obs)
  let st ← PyM.get
  let out := G.randn k st
  PyM.modify fun _ => out.2
  let data ← PyM.lift (addB (qoi_true.take k) (out.1.map (· * sd)))
  let b ← PyM.lift (BP.new (asCol lam) (.mat (takeCols qoi k)) domain)
  let run := BP.setLikelihood (likelihoodOf data sd) log b
  let _ ← PyM.lift run.1
  return run.2

/-- `data_prob(...)` (`funs.py:214-255`). `data` is the dictionary built from the arguments
(`funs.py:236-247`; `None` arguments are entries with value `None`). `estimate` is called for its
effect. -/
noncomputable def dataProb (ext : STP.Decomp) (env : Env)
    (lam qoi qoi_true measurements std_dev : STP.Val) (sample_dist : String)
    (domain lam_ref times sensors : STP.Val) (method : String) (init_dist : Dist) : Py DP := do
  let data : STP.DataSet := [("lam", lam), ("data", qoi), ("true_vals", qoi_true),
    ("measurements", measurements), ("std_dev", std_dev), ("sample_dist", .str sample_dist),
    ("domain", domain), ("lam_ref", lam_ref), ("times", times), ("sensors", sensors)]
  let run := STP.loadDs data (.str "lam") (.str "data") [] {}
  let _ ← run.1
  let D ← run.2.mudProblem ext method
  let solve : PyM DP (List ℝ) := do
    DP.setInitial (some init_dist)
    DP.setObserved (some stdNormal)
    DP.mudPoint env
  let res := solve D
  let _ ← res.1
  return res.2

end Funs

end Verif
