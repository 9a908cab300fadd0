import Mathlib.Analysis.SpecialFunctions.Gaussian.GaussianIntegral
import Mathlib.MeasureTheory.Integral.IntervalIntegral.Basic

/-!
# `mud.util.std_from_equipment`

Models `/repo/src/mud/util.py:8-16`. `scipy.special.erfinv` is external; it is modelled as an inverse
of the error function (that one exists on `(-1, 1)` is proved in `Verif.Props.Equipment`).
-/

namespace Verif

/-- The error function `erf x = 2/√π ∫₀ˣ e^(-t²) dt`. For `util.py:8-16`. -/
noncomputable def erf (x : ℝ) : ℝ := 2 / Real.sqrt Real.pi * ∫ t in (0 : ℝ)..x, Real.exp (-t ^ 2)

/-- `scipy.special.erfinv`: an inverse of `erf`. For `util.py:8-16`. -/
noncomputable def erfinv : ℝ → ℝ := Function.invFun erf

/-- `std_from_equipment(tolerance, probability)` (`util.py:8-16`), for arguments for which the divisor
is not zero. -/
noncomputable def stdFromEquipment (tolerance probability : ℝ) : ℝ :=
  tolerance / (erfinv probability * Real.sqrt 2)

end Verif
