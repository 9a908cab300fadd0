import Verif.Model.Float
import Verif.Model.Linear

/-!
# Weighted mean error maps

Models `funs.wme` (`/repo/src/mud/funs.py:23-47`), `util.transform_linear_map`,
`util.transform_linear_setup` (`/repo/src/mud/util.py:19-85`) and `LinearWMEProblem`
(`/repo/src/mud/base.py:1340-1420`).
-/

open Matrix

namespace Verif

/-- Population variance of `n` numbers. For `funs.py:23-47`. -/
noncomputable def popVar {n : ℕ} (v : Fin n → ℝ) : ℝ :=
  (∑ i, (v i - (∑ j, v j) / n) ^ 2) / n

/-- `np.std(data)` (no `ddof`): `nan` for empty input. For `funs.py:23-47`. -/
noncomputable def npStd : NArr → F
  | .scal _ => .fin 0
  | .vec n v => if n = 0 then .nan else .fin (Real.sqrt (popVar v))
  | .mat A => if A.r * A.c = 0 then .nan else
      .fin (Real.sqrt (popVar fun k : Fin (A.r * A.c) =>
        A.m (finProdFinEquiv.symm k).1 (finProdFinEquiv.symm k).2))

/-- `len(x)` of an array. For `funs.py:23-47`. -/
def NArr.len : NArr → Py ℕ
  | .scal _ => .error .typeError
  | .vec n _ => .ok n
  | .mat A => .ok A.r

/-- The 2-D array a 1-D or 2-D operand is broadcast as. For `funs.py:23-47`. -/
def NArr.bcast2 : NArr → Arr2
  | .scal x => ⟨1, 1, .of fun _ _ => x⟩
  | .vec _ v => Arr2.row v
  | .mat A => A

/-- `funs.wme(predictions, data, sd)` (`funs.py:23-47`); the returned 1-D array as a list. -/
noncomputable def wme (predictions data : NArr) (sd : Option ℝ := none) : Py (List F) := do
  let sd : F := match sd with | none => npStd data | some s => .fin s
  let predictions ← match predictions with
    | .scal _ => .error .indexError
    | .vec _ v => pure (Arr2.row v)
    | .mat A => pure A
  let N := predictions.c
  let n ← data.len
  raiseIf (N ≠ n) .valueError
  let diff ← predictions.sub data.bcast2
  let c : F := .fin 1 / (sd * .fin (Real.sqrt N))
  return List.ofFn fun i : Fin diff.r => ∑ j, c * .fin (diff.m i j)

/-- The `std` argument of `transform_linear_map`: a Python number, or a sequence
(list, tuple or 1-D array). For `util.py:19-72`. -/
inductive StdArg
  | num (s : ℝ)
  | seq (n : ℕ) (v : Fin n → ℝ)

/-- Does `np.round(s, 14)` equal 0? (round half to even). For `util.py:19-72`. -/
def roundsToZero (s : ℝ) : Prop := |s| ≤ 5 / 10 ^ 15

/-- `util.transform_linear_map(operator, data, std)` (`util.py:19-72`) and, with identical
body, `LinearWMEProblem._transform_linear_map` (`base.py:1369-1420`).  `data` is a list or an
array, `ravel`ed; `operator` is 2-D.  The first component has shape `(p,)` for stacked rows and
`(1, p)` for a repeated observation.
Simplification: for no data at all NumPy produces `nan`; this case is `unmodelled`. -/
noncomputable def transformLinearMap (operator : Arr2) (N : ℕ) (data : Fin N → ℝ) (std : StdArg) :
    Py (NArr × ℝ) := by
  classical exact
  if operator.r > 1 then do
    pyAssert (operator.r = N)
    let s : (n : ℕ) × (Fin n → ℝ) := match std with
      | .num s => ⟨N, fun _ => s⟩
      | .seq n v => ⟨n, v⟩
    pyAssert (s.1 = N)
    pyAssert (¬ ∃ i, roundsToZero (s.2 i))
    let σ : ℕ → ℝ := fun k => if h : k < s.1 then s.2 ⟨k, h⟩ else 0
    let A : Fin operator.c → ℝ := fun j =>
      ∑ i : Fin operator.r, 1 / (σ i * Real.sqrt N) * operator.m i j
    raiseIf (N = 0) .unmodelled
    return (.vec operator.c A, -1 / Real.sqrt N * ∑ i : Fin N, data i / σ i)
  else
    match std with
    | .seq _ _ => .error .valueError
    | .num s => do
      pyAssert (s > 1 / 10 ^ 14)
      raiseIf (N = 0) .unmodelled
      return (.mat (operator.smul (Real.sqrt N / s)), -1 / Real.sqrt N * ∑ i : Fin N, data i / s)

/-- `np.vstack` of a list of 1-D or 2-D arrays: `ValueError` on an empty list or on different
column counts. For `util.py:75-85`. -/
def vstackList : List Arr2 → Py Arr2
  | [] => .error .valueError
  | [a] => .ok a
  | a :: b :: l => do
    let r ← vstackList (b :: l)
    a.vstack r

/-- The sigma argument: one number, or one `std` per quantity of interest. For `base.py:1354`. -/
inductive SigmaArg
  | num (s : ℝ)
  | perQoi (l : List StdArg)

/-- `[sigma] * len(data)` (`base.py:1354`, `util.py:76`). -/
def SigmaArg.toList (n : ℕ) : SigmaArg → List StdArg
  | .num s => List.replicate n (.num s)
  | .perQoi l => l

/-- The comprehension over `zip(operators, data, sigma)` (`util.py:79-82`, `base.py:1357-1360`). -/
noncomputable def transformAll : List (Arr2 × ((N : ℕ) × (Fin N → ℝ)) × StdArg) →
    Py (List (NArr × ℝ))
  | [] => .ok []
  | (o, d, s) :: l => do
    let r ← transformLinearMap o d.1 d.2 s
    let rs ← transformAll l
    return r :: rs

/-- `util.transform_linear_setup(operator_list, data_list, std_list)` (`util.py:75-85`): the
stacked map and the column of offsets. `zip` stops at the shortest list. -/
noncomputable def transformLinearSetup (operators : List Arr2)
    (data : List ((N : ℕ) × (Fin N → ℝ))) (sigma : SigmaArg) : Py (Arr2 × Arr2) := do
  let results ← transformAll (operators.zip (data.zip (sigma.toList data.length)))
  let A ← vstackList (results.map fun r => r.1.bcast2)
  let B ← vstackList (results.map fun r => Arr2.col ![r.2])
  return (A, B)

/-- `LinearWMEProblem.__init__` (`base.py:1343-1367`). -/
noncomputable def LWP.new (operators : List Arr2) (data : List ((N : ℕ) × (Fin N → ℝ)))
    (sigma : SigmaArg) (y mean_i : Option NArr := none) (cov_i cov_o : Option Arr2 := none)
    (alpha : Option ℝ := some 1) : Py LGP := do
  let AB ← transformLinearSetup operators data sigma
  LGP.new (.mat AB.1) (some (.mat AB.2)) y mean_i cov_i cov_o alpha

end Verif
