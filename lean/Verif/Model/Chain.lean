import Verif.Model.Iterative
import Verif.Model.Norm

/-!
# Errors and figures of `IterativeLinearProblem`

Models `get_errors`, `plot_chain` and `plot_chain_error` (`/repo/src/mud/base.py:1482-1526`).  Points
have shape `(n, 1)`; the points of a chain are all of one shape.  Drawing is not modelled: a figure
of the chain error is the list of values drawn.
-/

namespace Verif

/-- An `IterativeLinearProblem` with the attribute `errors` (`base.py:1444`). -/
structure ILPE where
  core : ILP
  errors : List ℝ := []

namespace ILPE

/-- `np.concatenate([x[1:] for x in chains])` as the list of its entries (`base.py:1487`): `ValueError`
without a chain, if a chain without steps (a 1-D array) is joined with one with steps, or if shapes
differ. -/
def concat (chains : List (List Arr2)) : Py (List Arr2) :=
  let t := chains.map List.tail
  if chains = [] then .error .valueError
  else if ∀ x ∈ t, x = [] then .ok []
  else if ∃ x ∈ t, x = [] then .error .valueError
  else if ∀ x ∈ t, ∀ y ∈ t, ∀ a ∈ x, ∀ b ∈ y, a.r = b.r ∧ a.c = b.c then .ok t.flatten
  else .error .valueError

/-- `np.linalg.norm(D)` of a 2-D array: the Frobenius norm. For `base.py:1489`. -/
noncomputable def norm2 (D : Arr2) : ℝ := Real.sqrt (∑ i, ∑ j, D.m i j ^ 2)

/-- `np.linalg.norm(s - ref_param)` (`base.py:1489`), with broadcasting. -/
noncomputable def errorOf (ref : NArr) (s : Arr2) : Py ℝ := do
  let D ← s.sub ref.asRow
  return norm2 D

/-- The cache test and the recomputation (`base.py:1488-1489`). -/
noncomputable def refresh (ref : NArr) (sols : List Arr2) (errors : List ℝ) : Py (List ℝ) :=
  if sols.length ≠ errors.length then sols.mapM (errorOf ref) else .ok errors

/-- `get_errors(ref_param)` (`base.py:1482-1490`). -/
noncomputable def getErrors (ref : NArr) : PyM ILPE (List ℝ) := do
  let S ← PyM.get
  let sols ← PyM.lift (concat S.core.solution_chains)
  let e ← PyM.lift (refresh ref sols S.errors)
  PyM.modify fun S => { S with errors := e }
  return e

/-- `plot_chain_error(ref_param)` (`base.py:1513-1526`): the values drawn. -/
noncomputable def plotChainError (ref : NArr) : PyM ILPE (List ℝ) := do
  let _ ← getErrors ref
  let S ← PyM.get
  return S.errors

/-- Parameters of `plot_contours` after `self` (`base.py:1276-1287`); all have defaults. -/
def contourParams : List String :=
  ["ref", "subset", "ax", "annotate", "note_loc", "w", "label", "plot_opts", "annotate_opts"]

/-- The points drawn for one chain (`base.py:1498-1508`): `IndexError` for points with fewer than two
coordinates. -/
def drawChain (chain : List Arr2) : Py Unit :=
  if ∀ x ∈ chain, 2 ≤ x.r then .ok () else .error .indexError

/-- `plot_chain(ref_param, **kwargs)` (`base.py:1492-1511`): the chains, then the call of
`plot_contours` with one positional argument and the keywords `ax`, `subset`, `color`, `s` and
`kwargs`; `contours` is what `plot_contours` does if the arguments bind. -/
def plotChain (contours : Py Unit) (kwargs : List String) (S : ILPE) : Py Unit := do
  let _ ← S.core.solution_chains.mapM drawChain
  bindCall contourParams 0 1 (["ax", "subset", "color", "s"] ++ kwargs)
  contours

/-- `solve` on the object. For `base.py:1446-1479`. -/
noncomputable def solve (num_epochs : ℤ := 1) (method : String := "mud") : PyM ILPE Arr2 := fun S =>
  ((ILP.solve num_epochs method S.core).1, { S with core := (ILP.solve num_epochs method S.core).2 })

end ILPE

/-- Calls a user can make on an `IterativeLinearProblem`. For `base.py:1446-1526`. -/
inductive IOp
  | solve (num_epochs : ℤ) (method : String)
  | errors (ref : NArr)
  | plotError (ref : NArr)

/-- The call (result dropped, an exception caught). For `base.py:1446-1526`. -/
noncomputable def IOp.run : IOp → PyM ILPE Unit
  | .solve n m => do let _ ← ILPE.solve n m; pure ()
  | .errors r => do let _ ← ILPE.getErrors r; pure ()
  | .plotError r => do let _ ← ILPE.plotChainError r; pure ()

/-- The object after a sequence of calls. For `base.py:1446-1526`. -/
noncomputable def ILPE.after (S : ILPE) (ops : List IOp) : ILPE :=
  ops.foldl (fun S op => (op.run S).2) S

end Verif
