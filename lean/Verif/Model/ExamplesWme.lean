import Verif.Model.ExamplesLinear

/-!
# Random weighted mean error problems

Models `random_linear_wme_problem` (`/repo/src/mud/examples/linear.py:23-95`) and
`run_wme_covariance` (`:599-709`) without the drawing.
-/

open Matrix

namespace Verif

/-- The `std_dev` argument: a Python integer or float, a sequence with one entry per quantity of
interest (`NoiseStd.num`: a Python number or a NumPy float; `NoiseStd.arr`: an array), or `None`.
For `linear.py:52-55`. -/
inductive WmeStd
  | int (s : ℤ)
  | float (s : ℝ)
  | seq (l : List NoiseStd)
  | pyNone

/-- `linear.py:52-55`: `np.array([std_dev]) * num_qoi` for a number has one entry, a NumPy float
(which is an instance of `float`) or a NumPy integer (which is not an instance of `int`: it is
treated as a 0-d array). -/
def WmeStd.items (q : ℕ) : WmeStd → Py (List NoiseStd)
  | .int s => .ok [.arr (.scal (s * q))]
  | .float s => .ok [.num (s * q)]
  | .seq l => do
    pyAssert (l.length = q)
    return l
  | .pyNone => .error .typeError

/-- The `num_observations` argument: a number or a sequence. Simplification: integers only. For `linear.py:57-60`. -/
inductive NumObs
  | one (n : ℕ)
  | seq (l : List ℕ)

/-- `linear.py:57-60`. -/
def NumObs.items (q : ℕ) : NumObs → Py (List ℕ)
  | .one n => .ok (List.replicate q n)
  | .seq l => do
    pyAssert (l.length = q)
    return l

/-- `M[0, :].reshape(1, dim_input)` if the row is repeated (`linear.py:75-76`). -/
def firstRow (repeated : Bool) (M : Arr2) : Py Arr2 :=
  if repeated then
    if M.r = 0 then .error .indexError else .ok (M.takeRows 1)
  else .ok M

/-- The generator of the operator (`linear.py:70-73`): anything but `"normal"` means uniform. -/
def mapRng {σ : Type} (G : Gen σ) (dist : String) : Rng σ :=
  if dist = "normal" then G.normal else G.uniform

/-- One turn of the loop (`linear.py:69-93`). Simplification: if `np.diag` raises, the noise has been
drawn in the model. -/
noncomputable def wmeDraw {σ : Type} (G : Gen σ) (ref : NArr) (dim q : ℕ) (dist : String)
    (repeated : Bool) (n : ℕ) (s : NoiseStd) : PyM σ (Arr2 × NArr) := do
  let a ← (mapRng G dist).take (q * dim)
  let M ← PyM.lift (firstRow repeated (matOf q dim a))
  let s ← PyM.lift (stdCheck n s)
  let ref_data ← PyM.lift (M.matmul ref.toCol)
  let z ← G.normal.take n
  let noise ← PyM.lift (diagMul s fun i : Fin n => z.getD i 0)
  let data ← PyM.lift ((squeezeRow ref_data).addB noise)
  return (M, data.flat)

/-- The loop (`linear.py:69-93`). -/
noncomputable def wmeLoop {σ : Type} (G : Gen σ) (ref : NArr) (dim q : ℕ) (dist : String)
    (repeated : Bool) : List (ℕ × NoiseStd) → PyM σ (List (Arr2 × NArr))
  | [] => pure []
  | (n, s) :: l => do
    let r ← wmeDraw G ref dim q dist repeated n s
    let rs ← wmeLoop G ref dim q dist repeated l
    return r :: rs

/-- What `random_linear_wme_problem` returns. For `linear.py:23-95`. -/
structure WmeProblem where
  operators : List Arr2
  data : List NArr
  std : List NoiseStd

/-- `random_linear_wme_problem(reference_point, std_dev, num_qoi, num_observations, dist, repeated)`
(`linear.py:23-95`). -/
noncomputable def randomLinearWme {σ : Type} (G : Gen σ) (ref : NArr) (std : WmeStd) (num_qoi : ℕ := 1)
    (num_obs : NumObs := .one 10) (dist : String := "normal") (repeated : Bool := false) :
    PyM σ WmeProblem := do
  let sd ← PyM.lift (std.items num_qoi)
  let ns ← PyM.lift (num_obs.items num_qoi)
  PyM.lift (pyAssert (sd.length = ns.length))
  let dim ← PyM.lift ref.len
  let rs ← wmeLoop G ref dim num_qoi dist repeated (ns.zip sd)
  return { operators := rs.map (·.1), data := rs.map (·.2), std := sd }

/-- Entry of a 1-D array. For `linear.py:668-669`. -/
def NArr.at1 : NArr → ℕ → ℝ
  | .vec n v, i => if h : i < n then v ⟨i, h⟩ else 0
  | _, _ => 0

/-- `np.array([y[0:N] for y in data_list]) + noise_draw[:, 0:N]` (`linear.py:668-669`) for data of
`m` entries each; `z` are the entries of `noise_draw / sigma`. -/
noncomputable def addDrawn (data : List NArr) (m N : ℕ) (sigma : ℝ) (z : List ℝ) :
    List ((N : ℕ) × (Fin N → ℝ)) :=
  data.mapIdx fun k y => ⟨N, fun i => y.at1 i + z.getD (k * m + i) 0 * sigma⟩

/-- One turn of the loop (`linear.py:665-675`): the problem and its updated covariance. -/
noncomputable def wmeCovStep (ops : List Arr2) (data : List NArr) (m : ℕ) (sigma : ℝ) (cov : Arr2)
    (z : List ℝ) (N : ℕ) : Py (LGP × Arr2) := do
  let P ← LWP.new ops (addDrawn data m N sigma z) (.num sigma) none none (some cov)
  let U ← P.updated_cov
  return (P, U)

/-- `max(Ns)`. For `linear.py:599-709`. -/
def listMax : List ℕ → Py ℕ
  | [] => .error .valueError
  | x :: xs => .ok (xs.foldl max x)

/-- The variable `linear_wme_prob` after the loop. For `linear.py:599-709`. -/
def lastProblem : List (LGP × Arr2) → Py LGP
  | [] => .error .unboundLocalError
  | [r] => .ok r.1
  | _ :: r :: l => lastProblem (r :: l)

/-- `run_wme_covariance(dim_input, dim_output, sigma, Ns, seed)` (`linear.py:599-709`): the problem
that is returned and the covariance matrices whose singular values are drawn, one per entry of `Ns`.
The drawing is not modelled. -/
noncomputable def runWmeCovariance {σ : Type} (G : Gen σ) (di dO : ℕ) (sigma : ℝ) (Ns : List ℕ)
    (seed : Option ℕ := none) : PyM σ (LGP × List Arr2) := do
  G.normal.reseed seed
  let u ← G.uniform.take di
  let l ← G.normal.take di
  let m ← PyM.lift (listMax Ns)
  let W ← randomLinearWme G (.mat (colOf di l)) (.seq (List.replicate dO (.num 0))) dO
    (.seq (List.replicate dO m)) "norm" true
  let z ← G.normal.take (dO * m)
  let rs ← PyM.lift (Ns.mapM (wmeCovStep W.operators W.data m sigma (diagSorted di u) z))
  let P ← PyM.lift (lastProblem rs)
  return (P, rs.map (·.2))

end Verif
