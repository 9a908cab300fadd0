import Verif.Model.Density
import Mathlib.LinearAlgebra.Matrix.PosDef
import Mathlib.LinearAlgebra.Matrix.NonsingularInverse
import Mathlib.Analysis.SpecialFunctions.Pow.Real

/-!
# `scipy.stats.gaussian_kde`

The kernel density estimate that `DensityProblem.set_predicted` uses by default
(`/repo/src/mud/base.py:302-303`, and the plots at `base.py:511-519`, `614-616`, `885`, `966`).  In
`Model/Density.lean` it is a parameter (`Env`); here is the estimate scipy documents, so that what
is assumed of the parameter elsewhere can be proved of the estimate the code really uses:
weights divided by their sum, bandwidth factor times the unbiased weighted covariance of the data,
a sum of normal densities.

Simplifications: exact arithmetic; the type of the exception where scipy versions differ (more
columns than rows is a `LinAlgError` here, `ValueError` in recent versions); a bandwidth method
yields a factor that depends on the effective number of samples and the dimension only.
-/

open Matrix

namespace Verif

/-- The real value of a finite float. For `base.py:295-301`. -/
def F.re : F → ℝ
  | .fin x => x
  | _ => 0

/-- `weights / sum(weights)`, as a function of the sample. For `base.py:295-301`. -/
noncomputable def kdeWeights (n : ℕ) (w : List F) (i : Fin n) : ℝ :=
  (w.getD i (.fin 0)).re / (w.map F.re).sum

/-- `neff = 1 / sum(weights**2)`. For `base.py:295-301`. -/
noncomputable def kdeNeff {n : ℕ} (v : Fin n → ℝ) : ℝ := 1 / ∑ i, v i ^ 2

/-- `np.cov(dataset, rowvar=1, bias=False, aweights=weights)` for weights that sum to 1: the
weighted covariance divided by `1 - sum(weights**2)`. For `base.py:295-301`. -/
noncomputable def kdeCov {n d : ℕ} (D : Matrix (Fin n) (Fin d) ℝ) (v : Fin n → ℝ) :
    Matrix (Fin d) (Fin d) ℝ :=
  .of fun j k => (1 / (1 - ∑ i, v i ^ 2)) *
    ∑ i, v i * ((D i j - ∑ l, v l * D l j) * (D i k - ∑ l, v l * D l k))

/-- The bandwidth factor: method 0 (`None`, Scott) `neff**(-1/(d+4))`, method 1 (`'silverman'`)
`(neff*(d+2)/4)**(-1/(d+4))`, the others user-defined. For `base.py:295-301`. -/
noncomputable def kdeFactor (user : ℕ → ℝ → ℕ → ℝ) (bw : ℕ) (neff : ℝ) (d : ℕ) : ℝ :=
  match bw with
  | 0 => neff ^ (-1 / (d + 4 : ℝ))
  | 1 => (neff * (d + 2) / 4) ^ (-1 / (d + 4 : ℝ))
  | m => user m neff d

/-- Density of the normal distribution with mean 0 and covariance `H`. For `base.py:295-301`. -/
noncomputable def normalPdf {d : ℕ} (H : Matrix (Fin d) (Fin d) ℝ) (z : Fin d → ℝ) : ℝ :=
  Real.exp (-(z ⬝ᵥ H⁻¹ *ᵥ z) / 2) / Real.sqrt ((2 * Real.pi) ^ d * H.det)

/-- The estimate at a point `x`: data `D`, normalised weights `v`, factor `h`. For `base.py:295-301`. -/
noncomputable def kdeAt {n d : ℕ} (D : Matrix (Fin n) (Fin d) ℝ) (v : Fin n → ℝ) (h : ℝ)
    (x : Fin d → ℝ) : ℝ :=
  ∑ i, v i * normalPdf (h ^ 2 • kdeCov D v) fun j => x j - D i j

open Classical in
/-- The checks made by the constructor of `gaussian_kde(D.T, weights=w)`. `ValueError`: fewer than
two numbers, wrong number of weights, weights that are not finite, sum to 0, or have different
signs, or only one sample of positive weight (the covariance is then `nan`). `LinAlgError`: the
covariance is not positive definite. For `base.py:295-301`. -/
noncomputable def kdeCheck (D : Arr2) (w : List F) : Py Unit := do
  raiseIf (D.r * D.c ≤ 1) .valueError
  raiseIf (w.length ≠ D.r) .valueError
  raiseIf (¬ ∀ x ∈ w, x.isFin) .valueError
  raiseIf ((w.map F.re).sum = 0) .valueError
  raiseIf (∃ i, kdeWeights D.r w i < 0) .valueError
  raiseIf (1 ≤ ∑ i, kdeWeights D.r w i ^ 2) .valueError
  raiseIf (¬ (kdeCov D.m (kdeWeights D.r w)).PosDef) .linAlgError

/-- `gaussian_kde(D.T, bw_method=bw, weights=w).pdf(D.T)`. For `base.py:295-301`. -/
noncomputable def gaussianKde (user : ℕ → ℝ → ℕ → ℝ) (D : Arr2) (bw : ℕ) (w : List F) :
    Py (List F) := do
  kdeCheck D w
  return List.ofFn fun i => .fin (kdeAt D.m (kdeWeights D.r w)
    (kdeFactor user bw (kdeNeff (kdeWeights D.r w)) D.c) (D.m i))

/-- The environment in which the code runs: scipy's kernel density estimate. For `base.py:295-301`. -/
noncomputable def scipyEnv (user : ℕ → ℝ → ℕ → ℝ) : Env := ⟨gaussianKde user⟩

end Verif
