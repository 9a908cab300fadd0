import Verif.Model.Numpy

/-!
# `mud.util`: functions built on the singular value decomposition, and `plot_contours`

Models `/repo/src/mud/util.py:88-143` (`null_space`), `229-240` (`rank_decomposition`) and the
coordinates computed by `plot_contours` (`/repo/src/mud/plot.py:113-128`,
`/repo/src/mud/base.py:1276-1315`; the two differ only in drawing options).

`np.linalg.svd` is external: a singular value decomposition is not unique, so the functions take the
one that was computed as an argument, and `IsSvd` says what NumPy guarantees about it (exact
arithmetic).
-/

open Matrix

namespace Verif

/-- What `np.linalg.svd(A)` (`full_matrices=True`) returns for an `(M, N)` array: `u`, `s`, `vh`.
For `util.py:88-143`. -/
structure SvdOut (M N : ℕ) where
  u : Matrix (Fin M) (Fin M) ℝ
  s : List ℝ
  vh : Matrix (Fin N) (Fin N) ℝ

/-- The `(M, N)` matrix with the list `s` on its diagonal. For `util.py:88-143`. -/
def diagOf (M N : ℕ) (s : List ℝ) : Matrix (Fin M) (Fin N) ℝ :=
  .of fun i j => if (i : ℕ) = j then s.getD i 0 else 0

/-- Specification of `np.linalg.svd`: orthogonal `u`, `vh`, singular values non-negative and in
descending order, and `A = u · diag(s) · vh`. For `util.py:88-143`. -/
structure IsSvd {M N : ℕ} (A : Matrix (Fin M) (Fin N) ℝ) (o : SvdOut M N) : Prop where
  u_orth : o.uᵀ * o.u = 1
  vh_orth : o.vh * o.vhᵀ = 1
  s_len : o.s.length = min M N
  s_nonneg : ∀ x ∈ o.s, 0 ≤ x
  s_desc : o.s.Pairwise (· ≥ ·)
  factor : A = o.u * diagOf M N o.s * o.vh

/-- `np.finfo(s.dtype).eps` of binary64. For `util.py:88-143`. -/
noncomputable def floatEps : ℝ := 1 / 2 ^ 52

/-- `np.amax(s)`; `ValueError` on an empty array. For `util.py:88-143`. -/
def npMax : List ℝ → Py ℝ
  | [] => .error .valueError
  | x :: xs => .ok (xs.foldl max x)

open Classical in
/-- `num = np.sum(s > tol, dtype=int)` (`util.py:141`). -/
noncomputable def numAbove (s : List ℝ) (tol : ℝ) : ℕ := s.countP fun x => tol < x

/-- `vh[num:, :].T` (`util.py:142`; `conj` is the identity on real arrays). -/
def dropRowsT {N : ℕ} (vh : Matrix (Fin N) (Fin N) ℝ) (num : ℕ) : Arr2 :=
  ⟨N, N - num, .of fun j k => vh ⟨num + k, by have := k.2; omega⟩ j⟩

/-- `null_space(A, rcond)` (`util.py:88-143`) on the computed decomposition of an `(M, N)` array. -/
noncomputable def nullSpace {M N : ℕ} (o : SvdOut M N) (rcond : Option ℝ := none) : Py Arr2 := do
  let rcond : ℝ := rcond.getD (floatEps * max M N)
  let m ← npMax o.s
  let tol := m * rcond
  return dropRowsT o.vh (numAbove o.s tol)

/-- `s[i] * u[:, i].reshape(-1, 1) @ v[:, i].reshape(1, -1)` (`util.py:235-237`): note that column
`i` of the third factor is used. `IndexError` if `s` or `u` has no such entry. -/
noncomputable def rankOneUpdate {M N : ℕ} (o : SvdOut M N) (i : ℕ) : Py (Matrix (Fin M) (Fin N) ℝ) := do
  raiseIf (o.s.length ≤ i) .indexError
  if hM : i < M then
    if hN : i < N then
      return .of fun r c => o.s.getD i 0 * o.u r ⟨i, hM⟩ * o.vh c ⟨i, hN⟩
    else .error .indexError
  else .error .indexError

/-- The loop of `rank_decomposition` (`util.py:236-238`): `acc` is the sum of the updates so far. -/
noncomputable def rankLoop {M N : ℕ} (o : SvdOut M N) :
    List ℕ → Matrix (Fin M) (Fin N) ℝ → Py (List (Matrix (Fin M) (Fin N) ℝ))
  | [], _ => .ok []
  | i :: is, acc => do
    let U ← rankOneUpdate o i
    let rest ← rankLoop o is (acc + U)
    return (acc + U) :: rest

/-- `rank_decomposition(A)` (`util.py:229-240`): the first entry is the first update alone, entry `i`
is `sum(rank_1_updates[0:i])`, and `rank_1_updates` does not contain the first update. -/
noncomputable def rankDecomposition {M N : ℕ} (o : SvdOut M N) :
    Py (List (Matrix (Fin M) (Fin N) ℝ)) := do
  let U ← rankOneUpdate o 0
  let rest ← rankLoop o ((List.range (N - 1)).map (· + 1)) 0
  return U :: rest

/-- The end points `((xloc[0], yloc[0]), (xloc[1], yloc[1]))` of the segment drawn for a row whose
null space is spanned by `a` (`plot.py:124-126`, `base.py:1307-1309`). -/
def contourSegment (ref a : Fin 2 → ℝ) (w : ℝ) : (ℝ × ℝ) × (ℝ × ℝ) :=
  ((ref 0 - w * a 0, ref 0 - w * a 1), (ref 1 + w * a 0, ref 1 + w * a 1))

/-- `np.hstack` of `(2, k_i)` arrays, transposed: the list of the columns. For `util.py:88-143`. -/
def stackCols : List Arr2 → List (Fin 2 → ℝ)
  | [] => []
  | Z :: Zs => (List.ofFn fun k : Fin Z.c => fun j : Fin 2 => Z.get j k) ++ stackCols Zs

/-- `plot_contours(A, ref, subset=None, w)`: the segments drawn, one per row of `A`
(`plot.py:119-126`, `base.py:1296-1309`). `o i` is the decomposition computed for row `i`. `ValueError`
if there are no rows; `IndexError` cannot occur for two columns. Simplification: only `A` with two
columns and the default `subset`. -/
noncomputable def plotContours {m : ℕ} (o : Fin m → SvdOut 1 2) (ref : Fin 2 → ℝ) (w : ℝ) :
    Py (List ((ℝ × ℝ) × (ℝ × ℝ))) := do
  raiseIf (m = 0) .valueError
  let Zs ← (List.ofFn o).mapM fun d => nullSpace d
  let AA := stackCols Zs
  raiseIf (AA.length < m) .indexError
  return (AA.take m).map fun a => contourSegment ref a w

end Verif
