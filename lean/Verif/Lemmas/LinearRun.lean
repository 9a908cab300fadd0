import Verif.Model.Linear

/-!
Evaluation of the model of `LinearGaussianProblem` on well-shaped input: closed
matrix formulas for every branch of `solve`.
-/

open Matrix

namespace Verif
namespace Arr2
variable {r c n : ℕ}

@[simp] theorem col_r (v : Fin n → ℝ) : (col v).r = n := rfl
@[simp] theorem col_c (v : Fin n → ℝ) : (col v).c = 1 := rfl

@[simp] theorem matmul_col (A : Matrix (Fin r) (Fin c) ℝ) (v : Fin c → ℝ) :
    matmul ⟨r, c, A⟩ (col v) = .ok (col (A *ᵥ v)) := by
  rw [col, matmul_mk, col]; congr 2

@[simp] theorem sub_col (u v : Fin n → ℝ) : sub (col u) (col v) = .ok (col (u - v)) := by
  rw [col, col, sub_mk, col]; congr 2

@[simp] theorem add_col (u v : Fin n → ℝ) : add (col u) (col v) = .ok (col (u + v)) := by
  rw [col, col, add_mk, col]; congr 2

@[simp] theorem takeRows_col (u : Fin n → ℝ) : takeRows (col u) n = col u :=
  takeRows_full _ le_rfl

theorem zeros_col (n : ℕ) : zeros n 1 = col (0 : Fin n → ℝ) := by
  rw [zeros, col]; congr 1

theorem vec_congr {a b : ℕ} (h : a = b) (v : Fin a → ℝ) (w : Fin b → ℝ)
    (hv : ∀ i, v i = w (Fin.cast h i)) : NArr.vec a v = NArr.vec b w := by
  subst h
  congr 1
  funext i
  simpa using hv i

@[simp] theorem ravel_col (v : Fin n → ℝ) : (col v).ravel = .vec n v := by
  rw [ravel]
  apply vec_congr (by simp)
  intro i
  simp only [col, of_apply]
  congr 1
  apply Fin.ext
  exact Nat.div_one (i : ℕ)

end Arr2

open Arr2

variable {d p : ℕ}

/-- The object built from typed data. -/
def LGP.typed (A : Matrix (Fin d) (Fin p) ℝ) (b y : Fin d → ℝ) (m : Fin p → ℝ)
    (S : Matrix (Fin p) (Fin p) ℝ) (C : Matrix (Fin d) (Fin d) ℝ) (α : ℝ) : LGP :=
  { A := ⟨d, p, A⟩, b := col b, y := col y, mean_i := col m, cov_i := ⟨p, p, S⟩,
    cov_o := ⟨d, d, C⟩, alpha := α }

@[simp] theorem toCol_vec {n : ℕ} (v : Fin n → ℝ) : (NArr.vec n v).toCol = col v := rfl
@[simp] theorem toRow2_mat (A : Arr2) : (NArr.mat A).toRow2 = A := rfl

theorem new_typed (A : Matrix (Fin d) (Fin p) ℝ) (b y : Fin d → ℝ) (m : Fin p → ℝ)
    (S : Matrix (Fin p) (Fin p) ℝ) (C : Matrix (Fin d) (Fin d) ℝ) (α : ℝ) :
    LGP.new (.mat ⟨d, p, A⟩) (some (.vec d b)) (some (.vec d y)) (some (.vec p m))
      (some ⟨p, p, S⟩) (some ⟨d, d, C⟩) (some α) = .ok (LGP.typed A b y m S C α) := by
  simp [LGP.new, LGP.typed]

/-- Locals on typed data, as a record. -/
def LGP.Locals.typed (A : Matrix (Fin d) (Fin p) ℝ) (b y : Fin d → ℝ)
    (C : Matrix (Fin d) (Fin d) ℝ) (z : Fin d → ℝ) (S : Matrix (Fin p) (Fin p) ℝ) : LGP.Locals :=
  { A := ⟨d, p, A⟩, b := col b, y := col y, cov_o := ⟨d, d, C⟩, mean_o := col (y - b),
    z := col z, a_cov_i := ⟨p, p, S⟩ }

theorem locals_typed (A : Matrix (Fin d) (Fin p) ℝ) (b y : Fin d → ℝ) (m : Fin p → ℝ)
    (S : Matrix (Fin p) (Fin p) ℝ) (C : Matrix (Fin d) (Fin d) ℝ) (α : ℝ) :
    (LGP.typed A b y m S C α).locals none =
      .ok (.typed A b y C (y - b - A *ᵥ m) (α • S)) := by
  simp [LGP.locals, LGP.typed, LGP.Locals.typed]

/-- MUD formula. -/
noncomputable def mudF (A : Matrix (Fin d) (Fin p) ℝ) (z : Fin d → ℝ) (m : Fin p → ℝ)
    (S : Matrix (Fin p) (Fin p) ℝ) : Fin p → ℝ :=
  m + (S * Aᵀ * mpinv (A * S * Aᵀ)) *ᵥ z

/-- Updated covariance formula. -/
noncomputable def upF (A : Matrix (Fin d) (Fin p) ℝ)
    (S : Matrix (Fin p) (Fin p) ℝ) (C : Matrix (Fin d) (Fin d) ℝ) : Matrix (Fin p) (Fin p) ℝ :=
  S - S * Aᵀ * mpinv (A * S * Aᵀ) * (A * S * Aᵀ - C) * (S * Aᵀ * mpinv (A * S * Aᵀ))ᵀ

theorem mudBranch_typed (P : LGP) (A : Matrix (Fin d) (Fin p) ℝ) (b y z : Fin d → ℝ) (m : Fin p → ℝ)
    (S : Matrix (Fin p) (Fin p) ℝ) (C : Matrix (Fin d) (Fin d) ℝ) (hm : P.mean_i = col m) :
    P.mudBranch (.typed A b y C z S) = .ok (col (mudF A z m S)) := by
  simp [LGP.mudBranch, LGP.Locals.typed, hm, mudF]

theorem updatedCovBody_typed (A : Matrix (Fin d) (Fin p) ℝ)
    (S : Matrix (Fin p) (Fin p) ℝ) (C : Matrix (Fin d) (Fin d) ℝ) :
    updatedCovBody ⟨d, p, A⟩ ⟨p, p, S⟩ ⟨d, d, C⟩ = .ok ⟨p, p, upF A S C⟩ := by
  simp [updatedCovBody, upF]

theorem updated_cov_typed (P : LGP) (A : Matrix (Fin d) (Fin p) ℝ)
    (S : Matrix (Fin p) (Fin p) ℝ) (C : Matrix (Fin d) (Fin d) ℝ) :
    P.updated_cov (some ⟨d, p, A⟩) (some ⟨p, p, S⟩) (some ⟨d, d, C⟩) = .ok ⟨p, p, upF A S C⟩ := by
  simp [LGP.updated_cov, updatedCovBody_typed]

theorem mudAltBranch_typed (P : LGP) (A : Matrix (Fin d) (Fin p) ℝ) (b y z : Fin d → ℝ)
    (m : Fin p → ℝ) (S : Matrix (Fin p) (Fin p) ℝ) (C : Matrix (Fin d) (Fin d) ℝ)
    (hm : P.mean_i = col m) :
    P.mudAltBranch (.typed A b y C z S) =
      if C.det = 0 then .error .linAlgError
      else .ok (col (m + (upF A S C * Aᵀ * C⁻¹) *ᵥ z), ⟨p, p, upF A S C⟩) := by
  by_cases hC : C.det = 0 <;>
    simp [LGP.mudAltBranch, LGP.Locals.typed, hm, updated_cov_typed, hC]

/-- The matrix inverted by the MAP branch. -/
noncomputable def mapH (A : Matrix (Fin d) (Fin p) ℝ)
    (S : Matrix (Fin p) (Fin p) ℝ) (C : Matrix (Fin d) (Fin d) ℝ) : Matrix (Fin p) (Fin p) ℝ :=
  Aᵀ * C⁻¹ * A + S⁻¹

theorem mapBranch_typed (P : LGP) (A : Matrix (Fin d) (Fin p) ℝ) (b y z : Fin d → ℝ)
    (m : Fin p → ℝ) (S : Matrix (Fin p) (Fin p) ℝ) (C : Matrix (Fin d) (Fin d) ℝ)
    (hm : P.mean_i = col m) :
    P.mapBranch (.typed A b y C z S) =
      if C.det = 0 ∨ S.det = 0 ∨ (mapH A S C).det = 0 then .error .linAlgError
      else .ok (col (m + ((mapH A S C)⁻¹ * Aᵀ * C⁻¹) *ᵥ z), ⟨p, p, (mapH A S C)⁻¹⟩) := by
  by_cases hC : C.det = 0
  · simp [LGP.mapBranch, LGP.Locals.typed, hC]
  by_cases hS : S.det = 0
  · simp [LGP.mapBranch, LGP.Locals.typed, hC, hS]
  by_cases hH : (mapH A S C).det = 0
  · have hH' := hH
    rw [mapH] at hH'
    simp [LGP.mapBranch, LGP.Locals.typed, hC, hS, hH']
    simp [hH]
  · have hH' := hH
    rw [mapH] at hH'
    simp [LGP.mapBranch, LGP.Locals.typed, hC, hS, hH', hm]
    simp [mapH, hH']

theorem lsBranch_typed (P : LGP) (A : Matrix (Fin d) (Fin p) ℝ) (b y z : Fin d → ℝ)
    (S : Matrix (Fin p) (Fin p) ℝ) (C : Matrix (Fin d) (Fin d) ℝ) :
    P.lsBranch (.typed A b y C z S) = .ok (col (mpinv A *ᵥ (y - b))) := by
  simp [LGP.lsBranch, LGP.Locals.typed]

/-! ### `solve` in terms of its branches -/

section solve
variable (P : LGP) (od : Option ℤ)

theorem solve_error {e : Err} (h : P.locals od = .error e) (method : String) :
    LGP.solve method od P = (.error e, P) := by
  simp [LGP.solve, h]

theorem solve_mud {w : LGP.Locals} (h : P.locals od = .ok w) :
    LGP.solve "mud" od P =
      match P.mudBranch w with
      | .ok x => (.ok (.arr x), { P with mud := some x })
      | .error e => (.error e, P) := by
  cases h' : P.mudBranch w <;>
    simp [LGP.solve, h, h', LGP.attr, ofAttr]

theorem solve_mud_alt {w : LGP.Locals} (h : P.locals od = .ok w) :
    LGP.solve "mud_alt" od P =
      match P.mudAltBranch w with
      | .ok x => (.ok (.arr x.1), { P with mud_alt := some x.1, up_cov := some x.2 })
      | .error e => (.error e, P) := by
  cases h' : P.mudAltBranch w <;>
    simp [LGP.solve, h, h', LGP.attr, ofAttr]

theorem solve_map {w : LGP.Locals} (h : P.locals od = .ok w) :
    LGP.solve "map" od P =
      match P.mapBranch w with
      | .ok x => (.ok (.arr x.1), { P with map := some x.1, cov_p := some x.2 })
      | .error e => (.error e, P) := by
  cases h' : P.mapBranch w <;>
    simp [LGP.solve, h, h', LGP.attr, ofAttr]

theorem solve_ls {w : LGP.Locals} (h : P.locals od = .ok w) :
    LGP.solve "ls" od P =
      match P.lsBranch w with
      | .ok x => (.ok (.arr x), { P with ls := some x })
      | .error e => (.error e, P) := by
  cases h' : P.lsBranch w <;>
    simp [LGP.solve, h, h', LGP.attr, ofAttr]

theorem solve_all {w : LGP.Locals} (h : P.locals od = .ok w) :
    LGP.solve "all" od P =
      match P.mudBranch w with
      | .error e => (.error e, P)
      | .ok x =>
        match P.mudAltBranch w with
        | .error e => (.error e, { P with mud := some x })
        | .ok xa =>
          match P.mapBranch w with
          | .error e => (.error e, { P with mud := some x, mud_alt := some xa.1, up_cov := some xa.2 })
          | .ok xm =>
            match P.lsBranch w with
            | .error e => (.error e, { P with mud := some x, mud_alt := some xa.1, up_cov := some xa.2, map := some xm.1, cov_p := some xm.2 })
            | .ok xl => (.ok (.triple x xm.1 xl), { P with mud := some x, mud_alt := some xa.1, up_cov := some xa.2, map := some xm.1, cov_p := some xm.2, ls := some xl }) := by
  cases h1 : P.mudBranch w <;> cases h2 : P.mudAltBranch w <;> cases h3 : P.mapBranch w <;>
    cases h4 : P.lsBranch w <;>
    simp [LGP.solve, h, h1, h2, h3, h4, LGP.allRes]

end solve

end Verif
