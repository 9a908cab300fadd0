import Verif.Model.Linear
import Verif.Model.Util

/-!
# What `plot_sol` and `plot_fun_contours` hand to matplotlib

Models `/repo/src/mud/base.py:1239-1274` and `1317-1337`. Only the numbers passed to `scatter`, `plot`
and `contour` are modelled, not the drawing.
-/

open Matrix

namespace Verif

/-- Row `i` of an array as a list; `IndexError` if there is no such row (`pt[i]`). For `base.py:1239-1274`. -/
def Arr2.rowList (A : Arr2) (i : ℕ) : Py (List ℝ) :=
  if i < A.r then .ok ((List.range A.c).map fun j => A.get i j) else .error .indexError

/-- `A.ravel()[i]`. For `base.py:1262-1268`. -/
def Arr2.flatAt (A : Arr2) (i : ℕ) : Py ℝ :=
  if i < A.r * A.c then .ok (A.get (i / A.c) (i % A.c)) else .error .indexError

/-- What `plot_sol` draws: the markers, and the line through two points if there is one. For `base.py:1239-1274`. -/
structure SolPlot where
  markers : List (ℝ × ℝ)
  line : Option ((ℝ × ℝ) × (ℝ × ℝ))

/-- `pt` (`base.py:1256`). A number, `None` or a bound method cannot be indexed (`TypeError`). The triple
of `'all'` is modelled as an error: `pt[0]`, `pt[1]` are then two whole solutions, and `pt.ravel()`
raises `AttributeError` (with `ln_opts=None` the scatter would go through; `unmodelled`). -/
def LGP.ptOf (withLine : Bool) : SolveRes → Py Arr2
  | .arr x => .ok x
  | .triple _ _ _ => .error (if withLine then .attributeError else .unmodelled)
  | _ => .error .typeError

/-- `self.mean_i if point == "initial" else self.solve(method=point)` (`base.py:1256`). -/
noncomputable def LGP.plotPt (point : String) (withLine : Bool) : PyM LGP Arr2 :=
  if point = "initial" then do
    let P ← PyM.get
    return P.mean_i
  else do
    let r ← LGP.solve point
    PyM.lift (LGP.ptOf withLine r)

/-- The line from the initial mean to the solution (`base.py:1262-1268`). -/
def LGP.plotLine (point : String) (withLine : Bool) (P : LGP) (pt : Arr2) :
    Py (Option ((ℝ × ℝ) × (ℝ × ℝ))) :=
  if withLine ∧ point ≠ "initial" then do
    let a ← P.mean_i.flatAt 0
    let b ← pt.flatAt 0
    let c ← P.mean_i.flatAt 1
    let d ← pt.flatAt 1
    return some ((a, c), (b, d))
  else .ok none

/-- `plot_sol(point, ln_opts)` (`base.py:1239-1274`) without a label. `withLine` is
`ln_opts is not None`. -/
noncomputable def LGP.plotSol (point : String := "mud") (withLine : Bool := true) :
    PyM LGP SolPlot := do
  let pt ← LGP.plotPt point withLine
  let xs ← PyM.lift (pt.rowList 0)
  let ys ← PyM.lift (pt.rowList 1)
  let P ← PyM.get
  let line ← PyM.lift (LGP.plotLine point withLine P pt)
  return ⟨List.zip xs ys, line⟩

/-- The entries of the table made of a list of points. For `base.py:1317-1337`. -/
def tabM (l : List (ℝ × ℝ)) : Matrix (Fin l.length) (Fin 2) ℝ :=
  .of fun i k => if k = 0 then l[i].1 else l[i].2

/-- A list of points as a table with two columns. For `base.py:1317-1337`. -/
def tableOf (l : List (ℝ × ℝ)) : Arr2 := ⟨l.length, 2, tabM l⟩

/-- `v.reshape(N, N)` of a 1-D array. For `base.py:1317-1337`. -/
def squareOf (N : ℕ) {n : ℕ} (v : Fin n → ℝ) : Py (Matrix (Fin N) (Fin N) ℝ) :=
  if h : n = N * N then .ok (.of fun r c => v ⟨r * N + c, by
    rw [h]
    calc (r : ℕ) * N + c < r * N + N := Nat.add_lt_add_left c.2 _
      _ = (r + 1) * N := by ring
      _ ≤ N * N := Nat.mul_le_mul_right N r.2⟩)
  else .error .valueError

/-- `mesh[:, k]`. For `base.py:1317-1337`. -/
def Arr2.colVec (A : Arr2) (k : ℕ) : Py (Fin A.r → ℝ) :=
  if k < A.c then .ok fun i => A.get i k else .error .indexError

/-- `term.reshape(N, N)`: the tuple returned for all terms has no `reshape`. For `base.py:1317-1337`. -/
def FunRes.square (N : ℕ) : FunRes → Py (Matrix (Fin N) (Fin N) ℝ)
  | .one (.vec _ v) => squareOf N v
  | .one _ => .error .unmodelled
  | .five _ _ _ _ _ => .error .attributeError

/-- The three arrays given to `contour` by `plot_fun_contours(mesh, terms, N, r)`
(`base.py:1317-1337`). -/
noncomputable def LGP.plotFunContours (P : LGP) (mesh : Option Arr2 := none) (terms : String := "dc")
    (N : ℕ := 250) (r : ℝ := 1) :
    Py (Matrix (Fin N) (Fin N) ℝ × Matrix (Fin N) (Fin N) ℝ × Matrix (Fin N) (Fin N) ℝ) := do
  let mesh : Arr2 := match mesh with
    | some M => M
    | none => tableOf (make2dUnitMesh N r).2.2
  let term ← P.compute_functionals mesh terms
  let x ← mesh.colVec 0
  let X ← squareOf N x
  let y ← mesh.colVec 1
  let Y ← squareOf N y
  let Z ← term.square N
  return (X, Y, Z)

end Verif
