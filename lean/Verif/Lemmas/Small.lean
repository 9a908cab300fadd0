import Verif.Lemmas.MudMath
import Mathlib.LinearAlgebra.Matrix.Notation
import Mathlib.Tactic.FinCases
import Mathlib.Tactic.Positivity
import Mathlib.Tactic.LinearCombination

/-! Small concrete matrices for the non-vacuity examples. -/

open Matrix

namespace Verif

theorem posDef_fin_two {a b c : ℝ} (ha : 0 < a) (hd : 0 < a * c - b * b) :
    (!![a, b; b, c] : Matrix (Fin 2) (Fin 2) ℝ).PosDef := by
  refine Matrix.PosDef.of_dotProduct_mulVec_pos ?_ fun x hx => ?_
  · ext i j; fin_cases i <;> fin_cases j <;> simp
  · have e : star x ⬝ᵥ (!![a, b; b, c] *ᵥ x) = a * x 0 ^ 2 + 2 * b * x 0 * x 1 + c * x 1 ^ 2 := by
      simp [dotProduct, mulVec, Fin.sum_univ_two]; ring
    rw [e]
    have key : a * (a * x 0 ^ 2 + 2 * b * x 0 * x 1 + c * x 1 ^ 2)
        = (a * x 0 + b * x 1) ^ 2 + (a * c - b * b) * x 1 ^ 2 := by ring
    have hpos : 0 < (a * x 0 + b * x 1) ^ 2 + (a * c - b * b) * x 1 ^ 2 := by
      by_cases h1 : x 1 = 0
      · have h0 : x 0 ≠ 0 := fun h0 => hx (by ext i; fin_cases i <;> simp [h0, h1])
        have : 0 < (a * x 0) ^ 2 := by positivity
        rw [h1]; simpa using this
      · have : 0 < (a * c - b * b) * x 1 ^ 2 := by positivity
        have := sq_nonneg (a * x 0 + b * x 1)
        linarith
    rw [← key] at hpos
    exact pos_of_mul_pos_right hpos ha.le

theorem posDef_fin_one {a : ℝ} (ha : 0 < a) : (!![a] : Matrix (Fin 1) (Fin 1) ℝ).PosDef := by
  refine Matrix.PosDef.of_dotProduct_mulVec_pos ?_ fun x hx => ?_
  · ext i j; fin_cases i; fin_cases j; simp
  · have h0 : x 0 ≠ 0 := fun h0 => hx (by ext i; fin_cases i; simp [h0])
    have : 0 < x 0 ^ 2 := by positivity
    have e : star x ⬝ᵥ (!![a] *ᵥ x) = a * x 0 ^ 2 := by
      simp [dotProduct, mulVec]; ring
    rw [e]; positivity

end Verif
