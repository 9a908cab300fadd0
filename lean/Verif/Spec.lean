import Verif.Model.Linear

/-!
# Specification vocabulary

Small definitions used in the statements of the property theorems.  Nothing here
refers to how the code computes its results: `Api.*` are the calls a user makes, the
rest is textbook mathematics.
-/

open Matrix

namespace Verif

variable {d p : ℕ}

/-- `LinearGaussianProblem(A, b, y, mean_i, cov_i, cov_o, alpha).solve(method)`:
what the call returns (or raises). -/
noncomputable def Api.solve (method : String) (A : Matrix (Fin d) (Fin p) ℝ) (b y : Fin d → ℝ)
    (m : Fin p → ℝ) (S : Matrix (Fin p) (Fin p) ℝ) (C : Matrix (Fin d) (Fin d) ℝ) (α : ℝ) :
    Py SolveRes := do
  let P ← LGP.new (.mat ⟨d, p, A⟩) (some (.vec d b)) (some (.vec d y)) (some (.vec p m))
    (some ⟨p, p, S⟩) (some ⟨d, d, C⟩) (some α)
  (LGP.solve method none P).1

/-- The returned object is the column vector `x`. -/
def Returns (r : Py SolveRes) (x : Fin p → ℝ) : Prop := r = .ok (.arr (Arr2.col x))

/-- `LinearGaussianProblem(...)` as an object. -/
noncomputable def Api.new (A : Matrix (Fin d) (Fin p) ℝ) (b y : Fin d → ℝ)
    (m : Fin p → ℝ) (S : Matrix (Fin p) (Fin p) ℝ) (C : Matrix (Fin d) (Fin d) ℝ) (α : ℝ) : Py LGP :=
  LGP.new (.mat ⟨d, p, A⟩) (some (.vec d b)) (some (.vec d y)) (some (.vec p m))
    (some ⟨p, p, S⟩) (some ⟨d, d, C⟩) (some α)

/-- Squared Euclidean distance. -/
def sqDist {n : ℕ} (u v : Fin n → ℝ) : ℝ := ∑ i, (u i - v i) ^ 2

/-- Squared Mahalanobis distance `(x-m)ᵀ S⁻¹ (x-m)`. -/
noncomputable def mahal {n : ℕ} (S : Matrix (Fin n) (Fin n) ℝ) (x m : Fin n → ℝ) : ℝ :=
  (x - m) ⬝ᵥ (S⁻¹ *ᵥ (x - m))

/-- `A` has full row rank: every right-hand side is attained. -/
def FullRowRank (A : Matrix (Fin d) (Fin p) ℝ) : Prop := ∀ y : Fin d → ℝ, ∃ x, A *ᵥ x = y

/-- `x` is the 1-D array `v` or the column of shape `(n, 1)` with entries `v`. -/
def IsVec {n : ℕ} (x : NArr) (v : Fin n → ℝ) : Prop := x = .vec n v ∨ x = .mat (Arr2.col v)

/-- The rows visited by an epoch: `idx=None` means every row in order, otherwise `idx` lists
row numbers, negative ones counting from the end. -/
def Visits (d : ℕ) (idx : Option (List ℤ)) (ks : List (Fin d)) : Prop :=
  match idx with
  | none => ks = List.finRange d
  | some l => List.Forall₂ (fun (i : ℤ) (k : Fin d) => i = (k : ℕ) ∨ i = (k : ℕ) - (d : ℤ)) l ks

end Verif
