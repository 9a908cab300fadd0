import Verif.Model.Iterative
import Verif.Model.Wme
import Verif.Model.Util
import Verif.Model.Equipment

/-!
# Linear example problems

Models `/repo/src/mud/examples/linear.py:24-189` and the trial loop of `rotation_map_trials`
(`:192-256`).
-/

open Matrix

namespace Verif

/-- NumPy's legacy global generator with normal (`randn`) and uniform (`rand`) draws from one state.
The numbers drawn are arbitrary. For `linear.py:120-121`. -/
structure Gen (σ : Type) where
  normal : Rng σ
  unif : σ → ℝ × σ

/-- The generator's uniform draws as a stream. For `linear.py:120-121`. -/
def Gen.uniform {σ : Type} (G : Gen σ) : Rng σ := ⟨G.normal.seed, G.unif⟩

/-- `np.random.randn(...)` with `n` entries, in row-major order; advances the global state.
For `linear.py:120-121`. -/
def Rng.take {σ : Type} (G : Rng σ) (n : ℕ) : PyM σ (List ℝ) := fun s =>
  (.ok (G.randn n s).1, (G.randn n s).2)

/-- `l.reshape(r, c)` of a list of `r * c` numbers. For `linear.py:98-126`. -/
def matOf (r c : ℕ) (l : List ℝ) : Arr2 := ⟨r, c, .of fun i j => l.getD (i * c + j) 0⟩

/-- `l.reshape(-1, 1)` of a list of `n` numbers. For `linear.py:98-126`. -/
def colOf (n : ℕ) (l : List ℝ) : Arr2 := Arr2.col fun i : Fin n => l.getD i 0

/-- `np.diag(np.sort(u)[::-1] + 0.5)` (`linear.py:121`, `:591`). -/
noncomputable def diagSorted (n : ℕ) (u : List ℝ) : Arr2 :=
  ⟨n, n, diagonal fun i => ((u.insertionSort (· ≤ ·)).reverse.map (· + 1 / 2)).getD i 0⟩

/-- The initial covariance of `random_linear_problem` (`linear.py:120-121`). -/
noncomputable def defaultCov {σ : Type} (G : Gen σ) (n : ℕ) : Option Arr2 → PyM σ Arr2
  | some c => pure c
  | none => do
    let u ← G.uniform.take n
    return diagSorted n u

/-- The initial mean of `random_linear_problem` (`linear.py:116-117`). -/
def defaultMean (n : ℕ) : Option NArr → NArr
  | some m => m
  | none => .mat (Arr2.zeros n 1)

/-- `random_linear_problem(dim_input, dim_output, mean_i, cov_i, seed)` (`linear.py:98-126`): the
reference parameter and the problem. -/
noncomputable def randomLinearProblem {σ : Type} (G : Gen σ) (di dO : ℕ) (mean_i : Option NArr := none)
    (cov_i : Option Arr2 := none) (seed : Option ℕ := none) : PyM σ (Arr2 × LGP) := do
  G.normal.reseed seed
  let a ← G.normal.take (dO * di)
  let b ← G.normal.take dO
  let l ← G.normal.take di
  let Al ← PyM.lift ((matOf dO di a).matmul (colOf di l))
  let y ← PyM.lift (Al.add (colOf dO b))
  let cov ← defaultCov G di cov_i
  let P ← PyM.lift (LGP.new (.mat (matOf dO di a)) (some (.mat (colOf dO b))) (some (.mat y))
    (some (defaultMean di mean_i)) (some cov))
  return (colOf di l, P)

/-- A standard deviation argument: a Python number or an array. For `linear.py:151-156`. -/
inductive NoiseStd
  | num (s : ℝ)
  | arr (a : NArr)

/-- `x.ravel().size`. For `linear.py:151-156`. -/
def NArr.nEntries : NArr → ℕ
  | .scal _ => 1
  | .vec n _ => n
  | .mat A => A.r * A.c

/-- The broadcasting of a number, or the length check, for `n` data (`linear.py:151-156`, `:82-88`). -/
def stdCheck (n : ℕ) : NoiseStd → Py NArr
  | .num s => .ok (.vec n fun _ => s)
  | .arr a => do
    pyAssert (a.nEntries = n)
    return a

/-- `np.diag(s) @ z` for a column `z` of `n` numbers (`linear.py:160`). `np.diag` builds a diagonal
matrix from a 1-D array, takes the diagonal of a 2-D array (and `@` is then an inner product), and
rejects a 0-d array. -/
noncomputable def diagMul (s : NArr) {n : ℕ} (z : Fin n → ℝ) : Py NArr :=
  match s with
  | .scal _ => .error .valueError
  | .vec k v => do
    let r ← (Arr2.mk k k (diagonal v)).matmul (Arr2.col z)
    return .mat r
  | .mat A =>
    if min A.r A.c = n then .ok (.vec 1 fun _ => ∑ i : Fin n, A.get i i * z i) else .error .valueError

/-- `x + y` with NumPy broadcasting; a 1-D operand is a row. The result is 1-D if both are.
For `linear.py:129-165`. -/
def NArr.addB (x y : NArr) : Py NArr := do
  let z ← x.toRow2.add y.toRow2
  if ndimOpt (some x) ≤ 1 ∧ ndimOpt (some y) ≤ 1 then return z.ravel else return .mat z

/-- `float(ref_data)` or `ref_data.ravel()` if there is a single row, otherwise `ref_data`
(`linear.py:161-162`, `:91-92`); adding it broadcasts in the same way. -/
def squeezeRow (A : Arr2) : NArr := if A.r = 1 then A.ravel else .mat A

/-- `x.ravel()`. For `linear.py:129-165`. -/
def NArr.flat : NArr → NArr
  | .scal x => .vec 1 fun _ => x
  | .vec n v => .vec n v
  | .mat A => A.ravel

/-- `noisy_linear_data(M, reference_point, std, num_data)` (`linear.py:129-165`). -/
noncomputable def noisyLinearData {σ : Type} (G : Rng σ) (M : Arr2) (ref : NArr) (std : NoiseStd)
    (num_data : Option ℕ := none) : PyM σ NArr := do
  let dim ← PyM.lift ref.len
  let n := num_data.getD M.r
  PyM.lift (pyAssert (M.c = dim))
  PyM.lift (pyAssert (M.r = 1 ∨ M.r = n))
  let s ← PyM.lift (stdCheck n std)
  let ref_data ← PyM.lift (M.matmul ref.toCol)
  let z ← G.take n
  let noise ← PyM.lift (diagMul s fun i : Fin n => z.getD i 0)
  let data ← PyM.lift ((squeezeRow ref_data).addB noise)
  return data.flat

/-- The operator of `rotation_map` (`linear.py:176-178`): rows `(sin θ, cos θ)` for `qnum` angles from
`0` to `π`. -/
noncomputable def rotationOp (qnum : ℕ) : Matrix (Fin qnum) (Fin 2) ℝ :=
  .of fun i => ![Real.sin (linspaceAt 0 Real.pi qnum i), Real.cos (linspaceAt 0 Real.pi qnum i)]

/-- `A @ x`. For `linear.py:168-189`. -/
noncomputable def Arr2.matmulN (A : Arr2) : NArr → Py NArr
  | .scal _ => .error .valueError
  | .vec n v => if h : A.c = n then .ok (.vec A.r (A.m *ᵥ (v ∘ Fin.cast h))) else .error .valueError
  | .mat B => do
    let r ← A.matmul B
    return .mat r

/-- What `rotation_map` returns. For `linear.py:168-189`. -/
structure RotationMap where
  A : Arr2
  b : NArr
  y : NArr
  initial_mean : Arr2
  initial_cov : Arr2
  ref_param : NArr

/-- `rotation_map(qnum, tol, b, ref_param, seed)` (`linear.py:168-189`). Whatever the seed is, the
generator is seeded with 24. -/
noncomputable def rotationMap {σ : Type} (G : Rng σ) (qnum : ℕ := 10) (tol : ℝ := 1 / 10)
    (b ref_param : Option NArr := none) (seed : Option ℕ := none) : PyM σ RotationMap := do
  G.reseed (seed.map fun _ => 24)
  let A : Arr2 := ⟨qnum, 2, rotationOp qnum⟩
  let b := b.getD (.mat (Arr2.zeros qnum 1))
  let ref := ref_param.getD (.mat (Arr2.col ![1 / 2, 1 / 2]))
  let Ar ← PyM.lift (A.matmulN ref)
  let y ← PyM.lift (Ar.addB b)
  let z ← G.take 2
  return { A, b, y, initial_mean := colOf 2 z
           initial_cov := (Arr2.eye 2).smul (stdFromEquipment tol (95 / 100)), ref_param := ref }

/-- One trial of `rotation_map_trials` (`linear.py:215-250`) up to the construction of the iterative
problem, whose keyword `initial_mean` is not a parameter. `order` is the order chosen by the method
(not evaluated further). -/
noncomputable def rotationTrial {σ : Type} (G : Gen σ) (A : Arr2) (b y : NArr) (cov : Arr2)
    (order : List ℤ) : PyM σ Unit := do
  let m ← G.uniform.take 2
  PyM.lift (bindCall ILP.params 2 1 ["b", "y", "initial_mean", "cov", "idx_order"])
  let _ ← PyM.lift (ILP.solve 1 "mud" (ILP.new (.mat A) (some b) (some y) (some (.mat (colOf 2 m)))
    (some cov) none (some order))).1
  return ()

/-- `rotation_map_trials(numQoI, method, num_trials, model_eval_budget, seed)` (`linear.py:192-256`)
without the plotting. `shuffle t` is the order of trial `t`. `ZeroDivisionError` for `numQoI = 0`. -/
noncomputable def rotationMapTrials {σ : Type} (G : Gen σ) (numQoI num_trials : ℕ)
    (shuffle : ℕ → List ℤ) (seed : Option ℕ := none) : PyM σ Unit := do
  let R ← rotationMap G.normal numQoI (1 / 10) none none seed
  PyM.lift (raiseIf (numQoI = 0) .zeroDivisionError)
  (List.range num_trials).forM fun t => rotationTrial G R.A R.b R.y R.initial_cov (shuffle t)

end Verif
