import Verif.Model.Density
import Verif.SpecDensity

/-!
# Specification of `BayesProblem`: settings, not cached arrays
-/

namespace Verif

/-- What the user has set: the prior (`none`: uniform on the domain) and the likelihood, plain or
logarithmic. -/
structure BSettings where
  prior : Option Dist := none
  like : Option (Dist × Bool) := none

/-- Likelihood of each row: product of the densities over the columns, or sum of the log
densities. -/
noncomputable def likeAt (d : Dist) (log : Bool) (y : Arr2) : Py (List F) :=
  if log then do let out ← d.logpdf y; out.sumRows else densAt d y

namespace BSettings

/-- Prior density of the samples. -/
noncomputable def priorAt (D : DData) (s : BSettings) : Py (List F) :=
  densAt (s.prior.getD (uniformOn D.domain)) D.X

/-- Prior times likelihood, or log prior plus log likelihood. -/
noncomputable def combine (log : Bool) (pr ll : List F) : Py (List F) :=
  if log then bzip1 (· + ·) (pr.map F.log) ll else bzip1 (· * ·) pr ll

open Classical in
/-- The checks of `fit`: one value per sample, sum not 0. -/
noncomputable def checked (D : DData) (ps : List F) : Py (List F) := do
  pyAssert (ps.length = D.X.r)
  raiseIf (ps.sum = .fin 0) .valueError
  return ps

/-- The posterior of the samples; `TypeError` without a likelihood. -/
noncomputable def posterior (D : DData) (s : BSettings) : Py (List F) := do
  let pr ← s.priorAt D
  match s.like with
  | none => .error .typeError
  | some (d, log) => do
    let ll ← likeAt d log D.y
    let ps ← combine log pr ll
    checked D ps

/-- The (first) sample with the largest posterior. -/
noncomputable def best (D : DData) (s : BSettings) : Py (List ℝ) := do
  let u ← s.posterior D
  let m ← npArgmax u
  D.X.rowAt m

end BSettings

/-- The calls a user can make. -/
inductive BOp
  | setPrior (d : Option Dist)
  | setLikelihood (d : Dist) (log : Bool)
  | fit
  | estimate

/-- The call on the object (result dropped; an exception is caught by the user). -/
noncomputable def BOp.run : BOp → PyM BP Unit
  | .setPrior d => BP.setPrior d
  | .setLikelihood d log => BP.setLikelihood d log
  | .fit => BP.fit
  | .estimate => do let _ ← BP.mapPoint; pure ()

/-- The object after a sequence of calls. -/
noncomputable def BP.after (P : BP) (ops : List BOp) : BP := ops.foldl (fun P op => (op.run P).2) P

open Classical in
/-- The settings after a call: `set_prior` and `set_likelihood` take effect unless they raise. -/
noncomputable def BOp.track (D : DData) (s : BSettings) : BOp → BSettings
  | .setPrior d =>
    if ∃ v, densAt (d.getD (uniformOn D.domain)) D.X = .ok v then { s with prior := d } else s
  | .setLikelihood d log =>
    if ∃ v, likeAt d log D.y = .ok v then { s with like := some (d, log) } else s
  | .fit | .estimate => s

/-- The settings after a sequence of calls on a fresh object. -/
noncomputable def BSettings.after (D : DData) (ops : List BOp) : BSettings :=
  ops.foldl (BOp.track D) {}

/-- The data of a problem object. -/
def BP.data (P : BP) : DData := ⟨P.X, P.y, P.domain⟩

end Verif
