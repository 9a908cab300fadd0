import Verif.Model.Linear

/-!
# `IterativeLinearProblem` and `iter_lin_solve`

Models `/repo/src/mud/base.py:1423-1477` and `/repo/src/mud/funs.py:159-185`, including the binding
of keyword arguments to parameters, because that is where these two entry points fail.
-/

namespace Verif

/-- Binding of a call with `npos` positional and the keyword arguments `kws` to a function with
parameters `params`, of which the first `required` have no default: `TypeError` for too many
positional arguments, an unknown or doubly given keyword, or a missing argument. For `base.py:1462-1474`. -/
def bindCall (params : List String) (required npos : ℕ) (kws : List String) : Py Unit :=
  if npos ≤ params.length ∧ (∀ k ∈ kws, k ∈ params.drop npos) ∧ kws.Nodup ∧
      (∀ q ∈ (params.take required).drop npos, q ∈ kws) then .ok ()
  else .error .typeError

/-- Parameters of `LinearGaussianProblem.__init__` after `self` (`base.py:1036-1045`); all have
defaults. -/
def LGP.params : List String := ["A", "b", "y", "mean_i", "cov_i", "cov_o", "alpha"]

/-- Parameters of `IterativeLinearProblem.__init__` after `self` (`base.py:1424-1426`); `A` and `b`
have no default. -/
def ILP.params : List String := ["A", "b", "y", "mu_i", "cov", "data_cov", "idx_order"]

/-- Attributes of an `IterativeLinearProblem` (`base.py:1428-1444`).  The lists `epochs` and
`errors` do not influence `solve` and are left out. -/
structure ILP where
  A : Arr2
  b : Arr2
  y : NArr
  mu_i : Arr2
  cov : Arr2
  data_cov : Arr2
  idx_order : List ℤ
  solution_chains : List (List Arr2)

/-- `IterativeLinearProblem.__init__` (`base.py:1424-1444`).  The default `y` is the 1-D array
`np.zeros(n_samples)`. -/
def ILP.new (A : NArr) (b y mu_i : Option NArr) (cov data_cov : Option Arr2 := none)
    (idx_order : Option (List ℤ) := none) : ILP :=
  let A := A.toRow2
  { A
    b := match b with | none => Arr2.zeros A.r 1 | some b => b.toCol
    y := match y with | none => .vec A.r 0 | some y => .mat y.toCol
    mu_i := match mu_i with | none => Arr2.zeros A.c 1 | some m => m.toCol
    cov := match cov with | none => Arr2.eye A.c | some c => c
    data_cov := match data_cov with | none => Arr2.eye A.r | some c => c
    idx_order := match idx_order with
      | none => (List.range A.r).map Int.ofNat
      | some l => l
    solution_chains := [] }

/-- Body of the inner loop (`base.py:1462-1474`) for index `i` and current point `m`: build the
one-row problem with the keywords `mean`, `cov`, `data_cov`, then solve it. -/
noncomputable def ILP.step (P : ILP) (method : String) (m : Arr2) (i : ℤ) : Py Arr2 := do
  let k ← pyIndex P.A.r i
  let bi ← (NArr.mat P.b).index i
  let yi ← P.y.index i
  bindCall LGP.params 0 3 ["mean", "cov", "data_cov"]
  let lp ← LGP.new (.vec P.A.c fun j => P.A.m k j) (some bi) (some yi) (some (.mat m))
    (some P.cov) (some P.data_cov)
  let r ← lp.solveArr method
  return r.1

/-- One epoch (`base.py:1459-1474`): the chain of solutions starting from `m`. -/
noncomputable def ILP.epoch (P : ILP) (method : String) : Arr2 → List ℤ → Py (List Arr2)
  | m, [] => .ok [m]
  | m, i :: is => do
    let x ← P.step method m i
    let rest ← P.epoch method x is
    return m :: rest

/-- The loop over epochs (`base.py:1458-1477`). -/
noncomputable def ILP.epochs (method : String) : ℕ → Arr2 → PyM ILP Unit
  | 0, _ => pure ()
  | n + 1, m => do
    let P ← PyM.get
    let chain ← PyM.lift (P.epoch method m P.idx_order)
    PyM.modify fun s => { s with solution_chains := s.solution_chains ++ [chain] }
    ILP.epochs method n (chain.getLastD m)

/-- `self.solution_chains[-1][-1]`: `IndexError` if there is no chain. For `base.py:1446-1479`. -/
def ILP.last (P : ILP) : Py Arr2 :=
  match P.solution_chains.getLast? with
  | none => .error .indexError
  | some c => match c.getLast? with
    | none => .error .indexError
    | some x => .ok x

/-- `IterativeLinearProblem.solve(num_epochs, method)` (`base.py:1446-1479`). -/
noncomputable def ILP.solve (num_epochs : ℤ := 1) (method : String := "mud") : PyM ILP Arr2 := do
  let P ← PyM.get
  let m ← PyM.lift (if P.solution_chains.length = 0 then .ok P.mu_i else P.last)
  ILP.epochs method num_epochs.toNat m
  let Q ← PyM.get
  PyM.lift Q.last

/-- `funs.iter_lin_solve` (`funs.py:159-185`): one positional argument and the keywords `b`, `y`,
`mean_i`, `cov_i`, `cov_o`, `alpha`, `idx_order`. -/
noncomputable def iterLinSolve (A : NArr) (b y mean : Option NArr) (cov data_cov : Option Arr2)
    (method : String) (num_epochs : ℤ) (idx_order : Option (List ℤ)) : Py Arr2 := do
  bindCall ILP.params 2 1 ["b", "y", "mean_i", "cov_i", "cov_o", "alpha", "idx_order"]
  (ILP.solve num_epochs method (ILP.new A b y mean cov data_cov idx_order)).1

end Verif
