import Verif.Model.Util

/-!
# `build_nd_mesh_grid` and `plot_dist`

Models `/repo/src/mud/plot.py:168-200` and the numbers plotted by `203-234`.
-/

namespace Verif

/-- Exchange of the first two entries: the axis order of `np.meshgrid` with its default `xy`
indexing. For `plot.py:168-200`. -/
def swap01 {α : Type} : List α → List α
  | a :: b :: l => b :: a :: l
  | l => l

/-- `np.meshgrid(*xs)` (default indexing `xy`): array `i` has at multi-index `idx` the entry of
`xs[i]` selected by the axis of coordinate `i`. For `plot.py:168-200`. -/
def meshgridN (xs : List (List ℝ)) : List ND :=
  (List.range xs.length).map fun i => ND.ofFn (swap01 (xs.map List.length)) fun idx =>
    (xs.getD i []).getD ((swap01 idx).getD i 0) 0

/-- `np.vstack` of 1-D arrays of the same length: `ValueError` if there are none. For `plot.py:168-200`. -/
def vstackRavel : List ND → Py ND
  | [] => .error .valueError
  | A :: As => .ok (ND.ofFn [As.length + 1, A.data.length] fun idx =>
      (((A :: As).map ND.data).getD (idx.getD 0 0) []).getD (idx.getD 1 0) 0)

/-- `build_nd_mesh_grid(domain, aff)` (`plot.py:168-200`). `np.linspace` raises `ValueError` for a
negative number of points. -/
noncomputable def buildNdMeshGrid (domain : List (ℝ × ℝ)) (aff : ℤ) : Py (List ND × ND) := do
  raiseIf (aff < 0) .valueError
  let mesh := meshgridN (domain.map fun d => (linspace d.1 d.2 aff.toNat).dropLast)
  let grid_points ← vstackRavel mesh
  return (mesh, grid_points)

namespace ND

/-- `A.T`: the axes in reverse order. For `plot.py:190-226`. -/
def transpose (A : ND) : ND := ofFn A.shape.reverse fun idx => A.get idx.reverse

/-- `scipy.stats.contingency.margins(A)[k].reshape(-1)`: the sums over all axes but `k`. For `plot.py:203-234`. -/
noncomputable def margin (A : ND) (k : ℕ) : List ℝ :=
  (List.range (A.shape.getD k 0)).map fun a =>
    (((indices A.shape).filter fun idx => decide (idx.getD k 0 = a)).map A.get).sum

end ND

/-- The distribution object handed to `plot_dist`: `call` is its value at a point (a kernel density
estimate is called on an array of points and evaluates each), `pdf j` is its density in column `j`
(`dist.pdf` of a SciPy distribution acts entry by entry, with parameters that may differ by column).
For `plot.py:216-226`. -/
structure DistObj where
  call : List ℝ → ℝ
  pdf : ℕ → ℝ → ℝ

/-- Column `k` of a 2-D array. For `plot.py:216-226`. -/
def ND.columnOf (A : ND) (k : ℕ) : List ℝ := (List.range (A.shape.getD 0 0)).map fun i => A.get [i, k]

/-- `dist(grid)` and `dist.pdf(grid.T).prod(axis=1)`: one value per grid point. For `plot.py:216-226`. -/
def evalOnGrid (f : List ℝ → ℝ) (grid : ND) : ND :=
  ND.ofFn [grid.shape.getD 1 0] fun idx => f (grid.columnOf (idx.getD 0 0))

/-- `dist.pdf(x).prod()` for one point. For `plot.py:216-226`. -/
def DistObj.pdfProd (dist : DistObj) (x : List ℝ) : ℝ :=
  ((List.range x.length).map fun j => dist.pdf j (x.getD j 0)).prod

/-- The table of values over the mesh whose margins are taken (`plot.py:216-226`); `ValueError` for an
unknown source. -/
noncomputable def plotDistTable (dist : DistObj) (source : String) (grid : ND) (shape : List ℕ) :
    Py ND :=
  if source = "pdf" then (evalOnGrid dist.pdfProd grid).reshape shape
  else if source = "kde" then do
    let V ← (evalOnGrid dist.call grid).reshape shape
    return V.transpose
  else .error .valueError

/-- The curve `(plot_x, plot_y)` drawn by `plot_dist(dist, domain, idx, source, aff)`
(`plot.py:203-234`), for an array `domain`. Simplification: the division by `total` is exact
(NumPy gives `nan`/`inf` for a zero total). -/
noncomputable def plotDist (dist : DistObj) (domain : List (ℝ × ℝ)) (idx : ℤ) (source : String)
    (aff : ℤ) : Py (List ℝ × List ℝ) := do
  let mg ← buildNdMeshGrid domain aff
  let k ← ND.normIdx domain.length idx
  let d := domain.getD k (0, 0)
  let plot_x := (linspace d.1 d.2 aff.toNat).take (aff.toNat - 1)
  let A ← plotDistTable dist source mg.2 ((mg.1.map ND.shape).getD k [])
  let plot_y := A.margin k
  raiseIf (plot_x.length < 2) .indexError
  let total := (plot_y.map fun y => y * |plot_x.getD 1 0 - plot_x.getD 0 0|).sum
  return (plot_x, plot_y.map fun y => y / total)

end Verif
