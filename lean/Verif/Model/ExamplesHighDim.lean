import Verif.Model.ExamplesLinear
import Verif.Model.Svd
import Verif.Model.Chain

/-!
# `run_high_dim_linear` (`/repo/src/mud/examples/linear.py:713-875`)

The drawing (`:801-873`) is not modelled.
-/

open Matrix

namespace Verif

/-- `np.linalg.norm(x - lam_ref) / c` with `c = np.linalg.norm(lam_ref)` (`linear.py:757-760`); floating
point division. -/
noncomputable def relErr (lam x : Arr2) : Py F := do
  let D ← x.sub lam
  return .fin (ILPE.norm2 D) / .fin (ILPE.norm2 lam)

/-- `err(xs)` for the tuple returned by `solve("all")` (`linear.py:759-760`). -/
noncomputable def errList (lam : Arr2) : SolveRes → Py (List F)
  | .triple x y z => [x, y, z].mapM (relErr lam)
  | _ => .error .typeError

/-- The rank `k` problem (`linear.py:775-783`). -/
noncomputable def rankProblem (P : LGP) (lam : Arr2) {M N : ℕ} (Ak : Matrix (Fin M) (Fin N) ℝ)
    (alpha : ℝ) : Py LGP := do
  let Al ← (Arr2.mk M N Ak).matmul lam
  let y ← Al.add P.b
  LGP.new (.mat ⟨M, N, Ak⟩) (some (.mat P.b)) (some (.mat y)) (some (.mat P.mean_i)) (some P.cov_i)
    none (some alpha)

/-- `A_ranks[i]` for `i ≥ 0`. For `linear.py:769-789`. -/
def listAt {α : Type} (l : List α) (i : ℕ) : Py α :=
  match l[i]? with
  | some x => .ok x
  | none => .error .indexError

/-- One turn of the inner loop (`linear.py:769-789`): the errors of the problem made of the first
`dim` rows and of the rank `dim` problem. -/
noncomputable def highDimStep (lam : Arr2) {M N : ℕ} (ranks : List (Matrix (Fin M) (Fin N) ℝ))
    (alpha : ℝ) (dim : ℕ) : PyM LGP (List F × List F) := do
  let r ← LGP.solve "all" (some (dim : ℤ))
  let P ← PyM.get
  let Ak ← PyM.lift (listAt ranks (dim - 1))
  let Q ← PyM.lift (rankProblem P lam Ak alpha)
  let r' ← PyM.lift (LGP.solve "all" none Q).1
  let d ← PyM.lift (errList lam r)
  let e ← PyM.lift (errList lam r')
  return (d, e)

/-- The inner loop (`linear.py:769`). -/
noncomputable def highDimLoop (lam : Arr2) {M N : ℕ} (ranks : List (Matrix (Fin M) (Fin N) ℝ))
    (alpha : ℝ) : List ℕ → PyM LGP (List (List F × List F))
  | [] => pure []
  | dim :: dims => do
    let r ← highDimStep lam ranks alpha dim
    let rs ← highDimLoop lam ranks alpha dims
    return r :: rs

/-- The outer loop (`linear.py:765-792`); the attribute `alpha` of the problem is overwritten. -/
noncomputable def highDimAlphas (lam : Arr2) {M N : ℕ} (ranks : List (Matrix (Fin M) (Fin N) ℝ))
    (dO : ℕ) : List ℝ → PyM LGP (List (List (List F × List F)))
  | [] => pure []
  | alpha :: alphas => do
    PyM.modify fun P => { P with alpha := alpha }
    let r ← highDimLoop lam ranks alpha ((List.range dO).map (· + 1))
    let rs ← highDimAlphas lam ranks dO alphas
    return r :: rs

/-- `run_high_dim_linear(dim_input, dim_output, seed)`: what it returns, `(dim_errs, rank_errs)`.
`svd` is the decomposition NumPy computes. For `linear.py:713-875`. -/
noncomputable def runHighDim {σ : Type} (G : Gen σ) (svd : (A : Arr2) → SvdOut A.r A.c) (di dO : ℕ)
    (seed : Option ℕ := some 21) : PyM σ (List (List (List F)) × List (List (List F))) := do
  let r ← randomLinearProblem G di dO none none seed
  let ranks ← PyM.lift (rankDecomposition (svd r.2.A))
  let rows ← PyM.lift (highDimAlphas r.1 ranks dO [1, 1 / 10, 1 / 1000] r.2).1
  return (rows.map fun l => l.map (·.1), rows.map fun l => l.map (·.2))

end Verif
