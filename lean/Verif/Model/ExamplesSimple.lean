import Verif.Model.ExamplesLinear
import Verif.Model.Funs

/-!
# One-dimensional example problems

Models `/repo/src/mud/examples/simple.py:11-147`.
-/

open Matrix

namespace Verif

/-- A frozen one-dimensional scipy distribution: its density and its random variates (drawn from
the global generator). For `simple.py:11-95`. -/
structure Frozen (σ : Type) where
  dens : ℝ → F
  rvs : σ → ℝ × σ

/-- The distribution object handed to the problems: evaluates entry by entry. For `simple.py:98-129`. -/
def Frozen.dist {σ : Type} (D : Frozen σ) : Dist where
  pdf A := .ok (.tab (rowsOf (fun _ x => D.dens x) A))
  logpdf _ := .error .unmodelled

/-- The variates as a stream. For `simple.py:11-95`. -/
def Frozen.stream {σ : Type} (D : Frozen σ) (G : Gen σ) : Rng σ := ⟨G.normal.seed, D.rvs⟩

/-- `ds.uniform(loc=a, scale=b - a)`: variates are `a + (b - a) * u` for uniform draws `u`. For `simple.py:98-129`. -/
noncomputable def Frozen.uniform {σ : Type} (G : Gen σ) (a b : ℝ) : Frozen σ :=
  ⟨uniformPdf a b, fun s => (a + (b - a) * (G.unif s).1, (G.unif s).2)⟩

/-- The simulated data (`simple.py:90-93`): `[mu]` if `N == 1`, otherwise
`norm.rvs(loc=mu, scale=sigma**2, size=N)`. -/
noncomputable def polynomialObs {σ : Type} (G : Gen σ) (mu sigma : ℝ) (N : ℕ) : PyM σ (List ℝ) :=
  if N = 1 then pure [mu]
  else do
    let z ← G.normal.take N
    return z.map fun x => mu + sigma ^ 2 * x

/-- `polynomial_1D_data(p, num_samples, domain, init_dist, mu, sigma, N)` (`simple.py:11-95`): samples,
their images under `x ** p`, and data. `domain` is not used. Simplification: `p` is a natural
number. -/
noncomputable def polynomial1DData {σ : Type} (G : Gen σ) (init : Frozen σ) (p n : ℕ) (mu sigma : ℝ)
    (N : ℕ) : PyM σ (Arr2 × Arr2 × List ℝ) := do
  let l ← (init.stream G).take n
  let data ← polynomialObs G mu sigma N
  return (colOf n l, colOf n (l.map (· ^ p)), data)

/-- A method call on an object in a script: the object afterwards, or the exception. For `simple.py:98-129`. -/
def runObj {τ α : Type} (m : PyM τ α) (D : τ) : Py τ :=
  match m D with
  | (.ok _, D') => .ok D'
  | (.error e, _) => .error e

/-- `np.mean` of a 1-D array: `nan` for an empty one. For `simple.py:124-127`. -/
noncomputable def listMean (l : List ℝ) : F := .fin l.sum / .fin l.length

/-- `ds.norm(m, s)` for a location that may be `nan`. For `simple.py:124-127`. -/
noncomputable def normDist (m : F) (s : ℝ) : Dist where
  pdf A := .ok (.tab (rowsOf (fun _ x => match m with | .fin m => Funs.normPdf m s x | _ => .nan) A))
  logpdf _ := .error .unmodelled

/-- The calls on the problem (`simple.py:124-127`). -/
noncomputable def identitySetup (env : Env) (init : Dist) (data : List ℝ) (sigma : ℝ)
    (analytical : Bool) : PyM DP Unit := do
  DP.setInitial (some init)
  DP.setObserved (some (normDist (listMean data) sigma))
  PyM.when analytical (DP.setPredicted env (some init))

/-- `identity_1D_density_prob(...)` (`simple.py:98-129`) with domain `[a, b]`; `init = none` is
`"uniform"`. Scipy's `rvs` raises `ValueError` for a negative scale. -/
noncomputable def identity1DDensity {σ : Type} (env : Env) (G : Gen σ) (n N : ℕ) (mu sigma : ℝ)
    (weights : Option NArr) (init : Option (Frozen σ)) (normalize : Bool) (a b : ℝ)
    (analytical : Bool) : PyM σ DP := do
  PyM.lift (raiseIf (init.isNone ∧ b < a) .valueError)
  let I := init.getD (Frozen.uniform G a b)
  let out ← polynomial1DData G I 1 n mu sigma N
  let D ← PyM.lift (DP.new (.mat out.1) (.mat out.2.1) (some (.vec 2 ![a, b])) weights normalize)
  PyM.lift (runObj (identitySetup env I.dist out.2.2 sigma analytical) D)

/-- `ds.norm(loc=data, scale=sigma)` evaluated on a column: one column per datum.
Simplification: other widths are `unmodelled`. For `simple.py:132-151`. -/
noncomputable def normDists (data : List ℝ) (sigma : ℝ) : Dist where
  pdf A := if A.c = 1 then
      .ok (.tab (List.ofFn fun i : Fin A.r => data.map fun d => Funs.normPdf d sigma (A.get i 0)))
    else .error .unmodelled
  logpdf A := if A.c = 1 then
      .ok (.tab (List.ofFn fun i : Fin A.r => data.map fun d => Funs.normLogPdf d sigma (A.get i 0)))
    else .error .unmodelled

/-- `identity_1D_bayes_prob(...)` (`simple.py:132-151`). -/
noncomputable def identity1DBayes {σ : Type} (G : Gen σ) (n N : ℕ) (mu sigma : ℝ) (init : Frozen σ)
    (domain : Option NArr) : PyM σ BP := do
  let out ← polynomial1DData G init 1 n mu sigma N
  let B ← PyM.lift (BP.new (.mat out.1) (.mat out.2.1) domain)
  PyM.lift (runObj (BP.setLikelihood (normDists out.2.2 sigma) false) B)

end Verif
