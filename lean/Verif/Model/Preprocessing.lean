import Verif.Model.SpatioTemporal
import Verif.Model.Svd

/-!
# `mud.preprocessing`

Models `/repo/src/mud/preprocessing.py:95-104` (`pca`) and `163-172` (`svd`), with scikit-learn's
`StandardScaler` and `PCA` (exact solver) written out.  `np.linalg.svd` is external as in
`Model/Svd.lean`; the signs chosen by scikit-learn for the components are external.

Simplifications: exact arithmetic (scikit-learn treats a column of nearly vanishing variance as
constant, and uses a randomised solver for large data); the keyword arguments of `pca` are not
modelled; `n_components` is a natural number.
-/

open Matrix

namespace Verif

namespace Prep

variable {n d : ℕ}

/-- Mean of a column. For `preprocessing.py:20-104`. -/
noncomputable def colMean (X : Matrix (Fin n) (Fin d) ℝ) (j : Fin d) : ℝ := (∑ i, X i j) / n

/-- Variance of a column (divided by the number of rows). For `preprocessing.py:20-104`. -/
noncomputable def colVar (X : Matrix (Fin n) (Fin d) ℝ) (j : Fin d) : ℝ :=
  (∑ i, (X i j - colMean X j) ^ 2) / n

open Classical in
/-- `StandardScaler.scale_`: the standard deviation, 1 for a constant column. For `preprocessing.py:20-104`. -/
noncomputable def scale (X : Matrix (Fin n) (Fin d) ℝ) (j : Fin d) : ℝ :=
  if colVar X j = 0 then 1 else Real.sqrt (colVar X j)

/-- `StandardScaler().fit_transform(data)`. For `preprocessing.py:20-104`. -/
noncomputable def standardize (X : Matrix (Fin n) (Fin d) ℝ) : Matrix (Fin n) (Fin d) ℝ :=
  .of fun i j => (X i j - colMean X j) / scale X j

/-- The 2-D check (`preprocessing.py:95-97`, `163-165`) and scikit-learn's: at least one row and one
column. -/
def checkData (A : ND) : Py Arr2 := do
  raiseIf (A.shape.length ≠ 2) .valueError
  let X := A.toArr2
  raiseIf (X.r = 0 ∨ X.c = 0) .valueError
  return X

/-- External: the routine `np.linalg.svd`, the routine inside scikit-learn's `PCA` (which depends on
the version and the shape of the data) and the signs it chooses for the components. For `preprocessing.py:20-104`. -/
structure Ext where
  svd : {M N : ℕ} → Matrix (Fin M) (Fin N) ℝ → SvdOut M N
  pcaSvd : {M N : ℕ} → Matrix (Fin M) (Fin N) ℝ → SvdOut M N
  sign : {M N : ℕ} → SvdOut M N → ℕ → ℝ

/-- What is assumed of the external code. For `preprocessing.py:20-104`. -/
structure Ext.Correct (E : Ext) : Prop where
  svd : ∀ {M N : ℕ} (A : Matrix (Fin M) (Fin N) ℝ), IsSvd A (E.svd A)
  pcaSvd : ∀ {M N : ℕ} (A : Matrix (Fin M) (Fin N) ℝ), IsSvd A (E.pcaSvd A)
  sign : ∀ {M N : ℕ} (o : SvdOut M N) i, E.sign o i = 1 ∨ E.sign o i = -1

/-- The centred data (`PCA` subtracts the column means again). For `preprocessing.py:20-104`. -/
noncomputable def center (X : Matrix (Fin n) (Fin d) ℝ) : Matrix (Fin n) (Fin d) ℝ :=
  .of fun i j => X i j - colMean X j

/-- `PCA(n_components=k)` on a matrix with decomposition `o`: `components_` (the first `k` rows of the
third factor) and the transformed data (the first `k` columns of `u * s`), with signs.
For `preprocessing.py:20-104`. -/
def pcaArr (sg : ℕ → ℝ) (o : SvdOut n d) (k : ℕ) (hn : k ≤ n) (hd : k ≤ d) : Arr2 × Arr2 :=
  (⟨k, d, .of fun i j => sg i * o.vh (Fin.castLE hd i) j⟩,
    ⟨n, k, .of fun r i => sg i * (o.u r (Fin.castLE hn i) * o.s.getD i 0)⟩)

/-- `PCA(n_components=k).fit_transform`: `ValueError` unless `k ≤ min(n, d)`. For `preprocessing.py:20-104`. -/
noncomputable def skPca (E : Ext) (X : Arr2) (k : ℕ) : Py (Arr2 × Arr2) :=
  if h : k ≤ X.r ∧ k ≤ X.c then
    .ok (pcaArr (E.sign (E.pcaSvd (center X.m))) (E.pcaSvd (center X.m)) k h.1 h.2)
  else .error .valueError

/-- `pca(data, n_components)` (`preprocessing.py:20-104`): `pca.components_` and `X_train`. -/
noncomputable def pca (E : Ext) (A : ND) (n_components : ℕ := 2) : Py (Arr2 × Arr2) := do
  let X ← checkData A
  skPca E ⟨X.r, X.c, standardize X.m⟩ n_components

/-- `svd(data, **kwargs)` (`preprocessing.py:107-172`): `U`, `S`, `V`. The keyword arguments are
accepted and not used. -/
noncomputable def svd (E : Ext) (A : ND) (_kwargs : List String := []) :
    Py (Σ M N, SvdOut M N) := do
  let X ← checkData A
  return ⟨X.r, X.c, E.svd (standardize X.m)⟩

/-- The 2-D array of a table. For `base.py:2008-2022`. -/
def ofArr2 (X : Arr2) : ND := ND.ofFn [X.r, X.c] fun idx => X.get (idx.getD 0 0) (idx.getD 1 0)

/-- `pca` and `svd` as `SpatioTemporalProblem.mud_problem` uses them (`base.py:2008-2022`). -/
noncomputable def decomp (E : Ext) : STP.Decomp where
  pcaComponents R k := do
    let r ← pca E (ofArr2 R) k
    return r.1
  svdV R := do
    let ⟨_, N, o⟩ ← svd E (ofArr2 R)
    return ⟨N, N, o.vh⟩

end Prep

end Verif
