import Verif.Model.NDArray

/-!
# `mud.util`: meshes and noise

Models `/repo/src/mud/util.py:146-226`.  (`fit_domain`, `set_shape` are in `Model/Density.lean`,
`transform_linear_map`, `transform_linear_setup` in `Model/Wme.lean`; `null_space`,
`rank_decomposition`, `std_from_equipment` in `Model/Svd.lean`.)
-/

namespace Verif

/-- NumPy's legacy global generator: `np.random.seed(s)` replaces the state, `np.random.randn`
draws standard normal numbers one after the other. The numbers themselves are arbitrary. For `util.py:217-218`. -/
structure Rng (σ : Type) where
  seed : ℕ → σ
  draw : σ → ℝ × σ

/-- `np.random.randn(n)`: the numbers drawn and the new state. For `util.py:186-226`. -/
def Rng.randn {σ : Type} (G : Rng σ) : ℕ → σ → List ℝ × σ
  | 0, s => ([], s)
  | n + 1, s =>
    let x := G.draw s
    let rest := G.randn n x.2
    (x.1 :: rest.1, rest.2)

/-- `if seed is not None: np.random.seed(seed)` (`util.py:217-218`). Simplification: the integer is a seed NumPy
accepts, 0 to 2³² - 1; for others `np.random.seed` raises ValueError and changes nothing (the commands, where the
seed is typed by the user, have this: `seedOf` in `CliLinear`). -/
def Rng.reseed {σ : Type} (G : Rng σ) : Option ℕ → PyM σ Unit
  | none => pure ()
  | some k => PyM.modify fun _ => G.seed k

/-- `A + v` for an array `A` and a 1-D array `v` (NumPy broadcasting along the last axis). For `util.py:186-226`. -/
def ND.addVec (A : ND) (v : List ℝ) : Py ND :=
  match A.shape.getLast? with
  | none => .ok (.ofFn [v.length] fun idx => A.get [] + v.getD (idx.getD 0 0) 0)
  | some L =>
    match Arr2.bdim L v.length with
    | none => .error .valueError
    | some M => .ok (.ofFn (A.shape.dropLast ++ [M]) fun idx =>
        A.get (idx.dropLast ++ [if L = 1 then 0 else idx.getLastD 0]) +
          v.getD (if v.length = 1 then 0 else idx.getLastD 0) 0)

/-- `add_noise(signal, sd, seed)` (`util.py:186-226`). -/
def addNoise {σ : Type} (G : Rng σ) (signal : ND) (sd : ℝ) (seed : Option ℕ) : PyM σ ND := do
  G.reseed seed
  let st ← PyM.get
  let out := G.randn signal.data.length st
  PyM.modify fun _ => out.2
  PyM.lift (signal.addVec (out.1.map (· * sd)))

/-- `np.linspace(a, b, N)[k]`. For `util.py:146-183`. -/
noncomputable def linspaceAt (a b : ℝ) (N k : ℕ) : ℝ := a + k * ((b - a) / (N - 1 : ℕ))

/-- `np.linspace(a, b, N)`; `N = 1` gives `[a]`. For `util.py:146-183`. -/
noncomputable def linspace (a b : ℝ) (N : ℕ) : List ℝ := (List.range N).map (linspaceAt a b N)

/-- `np.meshgrid(X, Y)` (default indexing `xy`): two tables with one row per entry of `Y` and one
column per entry of `X`. For `util.py:146-183`. -/
def meshgrid (X Y : List ℝ) : ND × ND :=
  (.ofFn [Y.length, X.length] fun idx => X.getD (idx.getD 1 0) 0,
   .ofFn [Y.length, X.length] fun idx => Y.getD (idx.getD 0 0) 0)

/-- `np.vstack([a, b]).T` of two 1-D arrays of the same length: the list of pairs. For `util.py:146-183`. -/
def pairs (a b : ND) : List (ℝ × ℝ) := List.zip a.data b.data

/-- The grid over `[lo, hi]²` built by `make_2d_unit_mesh` and `make_2d_normal_mesh`: `(X, Y, XX)`;
the `(N², 2)` table `XX` as a list of pairs. For `util.py:146-183`. -/
noncomputable def make2dMesh (lo hi : ℝ) (N : ℕ) : ND × ND × List (ℝ × ℝ) :=
  let X := linspace lo hi N
  let Y := linspace lo hi N
  let XY := meshgrid X Y
  (XY.1, XY.2, pairs XY.1.ravel XY.2.ravel)

/-- `make_2d_unit_mesh(N, window)` (`util.py:146-183`, `plot.py:139-144`). -/
noncomputable def make2dUnitMesh (N : ℕ) (window : ℝ) : ND × ND × List (ℝ × ℝ) :=
  make2dMesh 0 window N

/-- `make_2d_normal_mesh(N, window)` (`plot.py:131-136`). -/
noncomputable def make2dNormalMesh (N : ℕ) (window : ℝ) : ND × ND × List (ℝ × ℝ) :=
  make2dMesh (-window) window N

end Verif
