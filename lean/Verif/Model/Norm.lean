import Verif.Model.Linear
import Verif.Model.Wme

/-!
# `mud.norm`

Models `/repo/src/mud/norm.py`.
-/

open Matrix

namespace Verif

/-- A covariance argument: an `int`/`float` or a 2-D array. For `norm.py:41-42`. -/
inductive CovArg
  | num (c : ℝ)
  | mat (A : Arr2)

/-- An argument that should be an array: an `int`/`float` or an array. For `norm.py:47-51`. -/
inductive MeanArg
  | num (c : ℝ)
  | arr (A : NArr)

namespace NArr

/-- `x.T`: the identity unless the array is 2-D. For `norm.py:40-44`. -/
def T : NArr → NArr
  | scal x => scal x
  | vec n v => vec n v
  | mat A => mat A.T

/-- How an array takes part in broadcasting with a 2-D array: a 1-D array is a single row. For `norm.py:40-44`. -/
def asRow : NArr → Arr2
  | scal x => ⟨1, 1, .of fun _ _ => x⟩
  | vec _ v => Arr2.row v
  | mat A => A

end NArr

/-- `X.T` of an argument: numbers have no attribute `T`. For `norm.py:40-44`. -/
def MeanArg.T : MeanArg → Py NArr
  | num _ => .error .attributeError
  | arr A => .ok A.T

/-- `inner_product(X, mat)` (`norm.py:4-27`). For a 1-D `X` the result is a number. -/
noncomputable def innerProduct (X : NArr) (mat : Arr2) : Py NArr := do
  let i ← mat.inv
  match X with
  | .scal _ => .error .valueError
  | .vec n v =>
    let Y ← i.matmul (Arr2.col v)
    let h ← (Arr2.col v).hmul Y
    return .scal (∑ k : Fin n, h.get k 0)
  | .mat X =>
    let Y ← i.matmul X
    let h ← X.hmul Y
    return .vec h.c h.colSums

/-- `cov * np.eye(len(x))` if `cov` is a number (`norm.py:41-42`, `48-49`, `55-56`). -/
def CovArg.expand (x : NArr) : CovArg → Py Arr2
  | num c => do let n ← x.len; return (Arr2.eye n).smul c
  | mat A => .ok A

/-- `norm_input(inputs, initial_mean, initial_cov)` (`norm.py:40-44`), 2-D `inputs`. -/
noncomputable def normInput (inputs : Arr2) (initial_mean : NArr) (initial_cov : CovArg) :
    Py NArr := do
  let C ← initial_cov.expand initial_mean
  let X ← inputs.sub initial_mean.T.asRow
  innerProduct (.mat X.T) C

/-- `norm_data(operator, inputs, data, observed_mean, observed_cov)` (`norm.py:47-51`), 2-D
`operator` and `inputs`. -/
noncomputable def normData (operator inputs : Arr2) (data : NArr) (observed_mean : MeanArg)
    (observed_cov : CovArg) : Py NArr := do
  let C ← observed_cov.expand data
  let AX ← operator.matmul inputs.T
  let AXd ← AX.add data.asRow
  let mT ← observed_mean.T
  let X ← AXd.sub mT.asRow
  innerProduct (.mat X) C

/-- `norm_predicted(operator, inputs, initial_mean, initial_cov)` (`norm.py:54-60`). -/
noncomputable def normPredicted (operator inputs : Arr2) (initial_mean : NArr)
    (initial_cov : CovArg) : Py NArr := do
  let C ← initial_cov.expand initial_mean
  let AC ← operator.matmul C
  let predicted_cov ← AC.matmul operator.T
  let dX ← inputs.sub initial_mean.T.asRow
  let X ← operator.matmul dX.T
  innerProduct (.mat X) predicted_cov

/-- `full_functional` (`norm.py:30-37`). -/
noncomputable def fullFunctional (operator inputs : Arr2) (data initial_mean : NArr)
    (initial_cov : CovArg) (observed_mean : MeanArg := .num 0) (observed_cov : CovArg := .num 1) :
    Py NArr := do
  let a ← normInput inputs initial_mean initial_cov
  let b ← normData operator inputs data observed_mean observed_cov
  let ab ← a.zip1 (· + ·) b
  let c ← normPredicted operator inputs initial_mean initial_cov
  ab.zip1 (· - ·) c

end Verif
