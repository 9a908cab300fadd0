import Verif.Props.Linear

/-!
# Properties C11–C14 and witnesses for C03, C04
-/

open Matrix

namespace Verif

variable {d p : ℕ}

/-! ## C11: solving does not change the problem -/

/-- Two objects describe the same problem (all attributes given at construction agree). -/
def SameProblem (P Q : LGP) : Prop :=
  P.A = Q.A ∧ P.b = Q.b ∧ P.y = Q.y ∧ P.mean_i = Q.mean_i ∧ P.cov_i = Q.cov_i ∧
    P.cov_o = Q.cov_o ∧ P.alpha = Q.alpha

/-- The object after a list of `solve(method, output_dim)` calls (exceptions are caught
by the caller; the object stays in use). -/
noncomputable def afterCalls (P : LGP) (calls : List (String × Option ℤ)) : LGP :=
  calls.foldl (fun Q c => (LGP.solve c.1 c.2 Q).2) P

section keeps
variable {α β : Type}

private def Keeps (x : PyM LGP α) : Prop := ∀ s, SameProblem (x s).2 s

theorem SameProblem.rfl' (s : LGP) : SameProblem s s := ⟨rfl, rfl, rfl, rfl, rfl, rfl, rfl⟩

theorem SameProblem.trans' {P Q R : LGP} (h : SameProblem P Q) (h' : SameProblem Q R) :
    SameProblem P R := by
  obtain ⟨a1, a2, a3, a4, a5, a6, a7⟩ := h
  obtain ⟨b1, b2, b3, b4, b5, b6, b7⟩ := h'
  exact ⟨a1.trans b1, a2.trans b2, a3.trans b3, a4.trans b4, a5.trans b5, a6.trans b6, a7.trans b7⟩

private theorem keeps_bind {x : PyM LGP α} {f : α → PyM LGP β} (hx : Keeps x)
    (hf : ∀ a, Keeps (f a)) : Keeps (x >>= f) := by
  intro s
  rw [PyM.bind_run]
  have h := hx s
  rcases hxs : x s with ⟨r, s'⟩
  rw [hxs] at h
  cases r with
  | ok a => exact (hf a s').trans' h
  | error e => exact h

private theorem keeps_lift (x : Py α) : Keeps (PyM.lift x) := fun s => SameProblem.rfl' s
private theorem keeps_get : Keeps PyM.get := fun s => SameProblem.rfl' s
private theorem keeps_pure (a : α) : Keeps (pure a) := fun s => SameProblem.rfl' s
private theorem keeps_ite {c : Prop} [Decidable c] {x y : PyM LGP α} (hx : Keeps x) (hy : Keeps y) :
    Keeps (if c then x else y) := by split <;> assumption

end keeps

/-- One call of `solve`, whatever the method name and whether or not it raises, leaves the
problem unchanged. -/
theorem C11_solve_keeps_problem (P : LGP) (method : String) (od : Option ℤ) :
    SameProblem (LGP.solve method od P).2 P := by
  have : Keeps (LGP.solve method od) := by
    unfold LGP.solve
    dsimp only
    repeat' first
      | exact keeps_lift _
      | apply keeps_ite
      | refine keeps_bind (keeps_lift _) fun _ => ?_
      | refine keeps_bind keeps_get fun _ => ?_
  exact this P

/-- The five solution methods. -/
def solveMethods : List String := ["mud", "mud_alt", "map", "ls", "all"]

theorem solve_congr {P Q : LGP} (h : SameProblem P Q) (method : String)
    (hm : method ∈ solveMethods) (od : Option ℤ) :
    (LGP.solve method od P).1 = (LGP.solve method od Q).1 := by
  obtain ⟨h1, h2, h3, h4, h5, h6, h7⟩ := h
  have hl : P.locals od = Q.locals od := by
    simp only [LGP.locals, h1, h2, h3, h4, h5, h6, h7]
  have hb1 : P.mudBranch = Q.mudBranch := by funext w; simp only [LGP.mudBranch, h4]
  have hb2 : P.mudAltBranch = Q.mudAltBranch := by
    funext w; simp only [LGP.mudAltBranch, LGP.updated_cov, h4]
  have hb3 : P.mapBranch = Q.mapBranch := by funext w; simp only [LGP.mapBranch, h4]
  have hb4 : P.lsBranch = Q.lsBranch := by funext w; simp only [LGP.lsBranch]
  cases hw : Q.locals od with
  | error e => rw [solve_error P od (hl.trans hw), solve_error Q od hw]
  | ok w =>
    have hw' := hl.trans hw
    simp only [solveMethods, List.mem_cons, List.not_mem_nil, or_false] at hm
    rcases hm with rfl | rfl | rfl | rfl | rfl
    · rw [solve_mud P od hw', solve_mud Q od hw, hb1]; cases Q.mudBranch w <;> rfl
    · rw [solve_mud_alt P od hw', solve_mud_alt Q od hw, hb2]; cases Q.mudAltBranch w <;> rfl
    · rw [solve_map P od hw', solve_map Q od hw, hb3]; cases Q.mapBranch w <;> rfl
    · rw [solve_ls P od hw', solve_ls Q od hw, hb4]; cases Q.lsBranch w <;> rfl
    · rw [solve_all P od hw', solve_all Q od hw, hb1, hb2, hb3, hb4]
      cases Q.mudBranch w <;> cases Q.mudAltBranch w <;> cases Q.mapBranch w <;>
        cases Q.lsBranch w <;> rfl

/-- After any history of `solve` calls, a further `solve` answers as on the fresh object. -/
theorem C11_history_independent (P : LGP) (calls : List (String × Option ℤ)) (method : String)
    (hm : method ∈ solveMethods) (od : Option ℤ) :
    (LGP.solve method od (afterCalls P calls)).1 = (LGP.solve method od P).1 := by
  have h : ∀ (calls : List (String × Option ℤ)) (P : LGP), SameProblem (afterCalls P calls) P := by
    intro calls
    induction calls with
    | nil => intro P; exact SameProblem.rfl' P
    | cons c cs ih =>
      intro P
      exact (ih _).trans' (C11_solve_keeps_problem P c.1 c.2)
  exact solve_congr (h calls P) method hm od

/-- `solve('all')` succeeds exactly when the four individual solves do, and then returns the
`('mud', 'map', 'ls')` solutions. -/
theorem C11_all (P : LGP) (od : Option ℤ) (x y z : Arr2) :
    (LGP.solve "all" od P).1 = .ok (.triple x y z) ↔
      (LGP.solve "mud" od P).1 = .ok (.arr x) ∧ (LGP.solve "map" od P).1 = .ok (.arr y) ∧
      (LGP.solve "ls" od P).1 = .ok (.arr z) ∧ ∃ u, (LGP.solve "mud_alt" od P).1 = .ok (.arr u) := by
  cases hw : P.locals od with
  | error e => simp [solve_error P od hw]
  | ok w =>
    rw [solve_mud P od hw, solve_map P od hw, solve_ls P od hw, solve_mud_alt P od hw,
      solve_all P od hw]
    cases P.mudBranch w <;> cases P.mudAltBranch w <;> cases P.mapBranch w <;>
      cases P.lsBranch w <;> simp

/-- Non-vacuity: a history with a failing call (`'nosuch'`) and a truncated one. -/
example (P : LGP) : (LGP.solve "mud" none (afterCalls P
    [("map", none), ("nosuch", some 1), ("all", some (-1))])).1 = (LGP.solve "mud" none P).1 :=
  C11_history_independent P _ "mud" (by simp [solveMethods]) none

/-! ## C12: `output_dim` solves the leading sub-problem -/

/-- `solve(method, output_dim=k)` is `solve(method)` on the problem made of the first `n` rows,
where `n` is `k` cut to the number of rows (counted from the end for negative `k`). -/
theorem C12_output_dim (A : Matrix (Fin d) (Fin p) ℝ) (b y : Fin d → ℝ) (m : Fin p → ℝ)
    (S : Matrix (Fin p) (Fin p) ℝ) (C : Matrix (Fin d) (Fin d) ℝ) (α : ℝ) (k : ℤ) (n : ℕ)
    (hk : (0 ≤ k ∧ (n : ℤ) = min k d) ∨ (k < 0 ∧ (n : ℤ) = max 0 (d + k))) (hn : n ≤ d)
    (method : String) (hm : method ∈ solveMethods) :
    ∃ P, Api.new A b y m S C α = .ok P ∧
      (LGP.solve method (some k) P).1 =
        Api.solve method (A.submatrix (Fin.castLE hn) id) (b ∘ Fin.castLE hn) (y ∘ Fin.castLE hn)
          m S (C.submatrix (Fin.castLE hn) (Fin.castLE hn)) α := by
  refine ⟨_, new_typed .., ?_⟩
  have hstop : Arr2.pyStop d k = n := by
    unfold Arr2.pyStop
    split <;> omega
  subst hstop
  set n := Arr2.pyStop d k
  set P' := LGP.typed (A.submatrix (Fin.castLE hn) id) (b ∘ Fin.castLE hn) (y ∘ Fin.castLE hn)
          m S (C.submatrix (Fin.castLE hn) (Fin.castLE hn)) α with hP'
  have hr : Api.solve method (A.submatrix (Fin.castLE hn) id) (b ∘ Fin.castLE hn)
      (y ∘ Fin.castLE hn) m S (C.submatrix (Fin.castLE hn) (Fin.castLE hn)) α
      = (LGP.solve method none P').1 := by
    rw [Api.solve, new_typed, Py.ok_bind]
  rw [hr]
  -- the sliced object has the same locals
  have hA : Arr2.takeRows ⟨d, p, A⟩ k = ⟨n, p, A.submatrix (Fin.castLE hn) id⟩ := rfl
  have hb : ∀ v : Fin d → ℝ, Arr2.takeRows (Arr2.col v) k = Arr2.col (v ∘ Fin.castLE hn) :=
    fun v => rfl
  have hC : Arr2.takeBlock ⟨d, d, C⟩ k = ⟨n, n, C.submatrix (Fin.castLE hn) (Fin.castLE hn)⟩ := rfl
  have hl : (LGP.typed A b y m S C α).locals (some k) = P'.locals none := by
    rw [hP', locals_typed]
    simp only [LGP.locals, LGP.typed, hA, hb, hC]
    simp [LGP.Locals.typed]
  have hb1 : (LGP.typed A b y m S C α).mudBranch = P'.mudBranch := rfl
  have hb2 : (LGP.typed A b y m S C α).mudAltBranch = P'.mudAltBranch := rfl
  have hb3 : (LGP.typed A b y m S C α).mapBranch = P'.mapBranch := rfl
  have hb4 : (LGP.typed A b y m S C α).lsBranch = P'.lsBranch := rfl
  cases hw : P'.locals none with
  | error e => rw [solve_error _ _ (hl.trans hw), solve_error _ _ hw]
  | ok w =>
    have hw' := hl.trans hw
    simp only [solveMethods, List.mem_cons, List.not_mem_nil, or_false] at hm
    rcases hm with rfl | rfl | rfl | rfl | rfl
    · rw [solve_mud _ _ hw', solve_mud _ _ hw, hb1]; cases P'.mudBranch w <;> rfl
    · rw [solve_mud_alt _ _ hw', solve_mud_alt _ _ hw, hb2]; cases P'.mudAltBranch w <;> rfl
    · rw [solve_map _ _ hw', solve_map _ _ hw, hb3]; cases P'.mapBranch w <;> rfl
    · rw [solve_ls _ _ hw', solve_ls _ _ hw, hb4]; cases P'.lsBranch w <;> rfl
    · rw [solve_all _ _ hw', solve_all _ _ hw, hb1, hb2, hb3, hb4]
      cases P'.mudBranch w <;> cases P'.mudAltBranch w <;> cases P'.mapBranch w <;>
        cases P'.lsBranch w <;> rfl

/-- Non-vacuity: three rows, `output_dim = 2`, and `output_dim = -1`. -/
example : ((0 : ℤ) ≤ 2 ∧ ((2 : ℕ) : ℤ) = min 2 ((3 : ℕ) : ℤ)) ∧
    ((-1 : ℤ) < 0 ∧ ((2 : ℕ) : ℤ) = max 0 (((3 : ℕ) : ℤ) + -1)) ∧ 2 ≤ 3 := by decide

/-! ## C13: constructor defaults and validation -/

/-- Number of entries of an input array. -/
def NArr.size : NArr → ℕ
  | .scal _ => 1
  | .vec n _ => n
  | .mat A => A.r * A.c

/-- Number of rows a user means by `A`: a 1-D (or scalar) `A` is a single row. -/
def NArr.rows : NArr → ℕ
  | .scal _ => 1
  | .vec _ _ => 1
  | .mat A => A.r

/-- Number of parameters described by `A`. -/
def NArr.cols : NArr → ℕ
  | .scal _ => 1
  | .vec n _ => n
  | .mat A => A.c

/-- Construction raises `ValueError` exactly when `y` is given with a number of entries
different from the number of rows of `A`, and raises nothing else. -/
theorem C13_validation (A : NArr) (b y m : Option NArr) (S C : Option Arr2) (α : Option ℝ) :
    (LGP.new A b y m S C α = .error .valueError ↔ ∃ y', y = some y' ∧ y'.size ≠ A.rows) ∧
    ∀ e, LGP.new A b y m S C α = .error e → e = .valueError := by
  have hr : A.toRow2.r = A.rows := by cases A <;> rfl
  have hs : ∀ y' : NArr, y'.toCol.r = y'.size := by intro y'; cases y' <;> rfl
  cases y with
  | none => simp [LGP.new, Arr2.zeros]
  | some y' =>
    by_cases h : y'.size = A.rows
    · have : ¬ (A.toRow2.r ≠ y'.toCol.r) := by rw [hr, hs, h]; simp
      simp [LGP.new, hr, hs, h]
    · have : A.toRow2.r ≠ y'.toCol.r := by rw [hr, hs]; exact fun e => h e.symm
      simp [LGP.new, this, h]

/-- Omitted arguments mean zeros, identities and weight one; `alpha=None` too. -/
theorem C13_defaults (A : NArr) (b y m : Option NArr) (S C : Option Arr2) (α : Option ℝ) :
    LGP.new A b y m S C α =
      LGP.new A
        (some (b.getD (.vec A.rows 0))) (some (y.getD (.vec A.rows 0)))
        (some (m.getD (.vec A.cols 0))) (some (S.getD ⟨A.cols, A.cols, 1⟩))
        (some (C.getD ⟨A.rows, A.rows, 1⟩)) (some (α.getD 1)) := by
  have hr : A.toRow2.r = A.rows := by cases A <;> rfl
  have hc : A.toRow2.c = A.cols := by cases A <;> rfl
  have hz : ∀ n, (NArr.vec n 0).toCol = Arr2.zeros n 1 := fun n => (Arr2.zeros_col n).symm
  unfold LGP.new
  dsimp only
  rw [hr, hc]
  cases b <;> cases y <;> cases m <;> cases S <;> cases C <;> cases α <;>
    simp [hz, Arr2.eye]

/-- A 1-D `A` is the 2-D array with that single row. -/
theorem C13_one_dimensional (n : ℕ) (a : Fin n → ℝ) (b y m : Option NArr) (S C : Option Arr2)
    (α : Option ℝ) :
    LGP.new (.vec n a) b y m S C α = LGP.new (.mat ⟨1, n, .of fun _ j => a j⟩) b y m S C α := rfl

/-- On success the object holds the arguments, vectors as columns, whatever their shape. -/
theorem C13_contents (A b y m : NArr) (S C : Arr2) (α : ℝ) (h : y.size = A.rows) :
    ∃ P, LGP.new A (some b) (some y) (some m) (some S) (some C) (some α) = .ok P ∧
      P.A = A.toRow2 ∧ P.b = b.toCol ∧ P.y = y.toCol ∧ P.mean_i = m.toCol ∧ P.cov_i = S ∧
      P.cov_o = C ∧ P.alpha = α := by
  have hr : A.toRow2.r = A.rows := by cases A <;> rfl
  have hs : ∀ y' : NArr, y'.toCol.r = y'.size := by intro y'; cases y' <;> rfl
  refine ⟨{ A := A.toRow2, b := b.toCol, y := y.toCol, mean_i := m.toCol, cov_i := S, cov_o := C,
            alpha := α }, ?_, rfl, rfl, rfl, rfl, rfl, rfl, rfl⟩
  simp [LGP.new, hr, hs, h]

/-- Entries of the column stored for each kind of input. -/
theorem C13_columns (n r c : ℕ) (x : ℝ) (v : Fin n → ℝ) (M : Matrix (Fin r) (Fin c) ℝ) :
    (NArr.scal x).toCol.get 0 0 = x ∧ (NArr.scal x).toCol.r = 1 ∧
    (NArr.vec n v).toCol = Arr2.col v ∧
    (NArr.mat ⟨r, c, M⟩).toCol.r = r * c ∧
    ∀ (i : Fin r) (j : Fin c), (NArr.mat ⟨r, c, M⟩).toCol.get (i * c + j) 0 = M i j := by
  refine ⟨by simp [NArr.toCol, Arr2.get], rfl, rfl, rfl, fun i j => ?_⟩
  have hlt : (i : ℕ) * c + j < r * c := by
    calc (i : ℕ) * c + j < i * c + c := by have := j.2; omega
      _ = (i + 1) * c := by ring
      _ ≤ r * c := Nat.mul_le_mul_right c i.2
  rw [NArr.toCol, Arr2.ravelCol, Arr2.get_mk' _ hlt one_pos]
  have e : (⟨(i : ℕ) * c + j, hlt⟩ : Fin (r * c)) = finProdFinEquiv (i, j) := by
    apply Fin.ext; simp [finProdFinEquiv]; ring
  simp only [of_apply]
  rw [e, Equiv.symm_apply_apply]

/-- Non-vacuity: a 2×2 `A` with a 1-D `y` of length 2 is accepted, of length 3 rejected. -/
example : (NArr.vec 2 ![1, 2]).size = (NArr.mat ⟨2, 2, !![1, 2; 3, 4]⟩).rows ∧
    (NArr.vec 3 ![1, 2, 3]).size ≠ (NArr.mat ⟨2, 2, !![1, 2; 3, 4]⟩).rows := by
  simp [NArr.size, NArr.rows]

/-! ## C14: equivariance -/

theorem C14_mud_param_change (A : Matrix (Fin d) (Fin p) ℝ) (b y : Fin d → ℝ) (m : Fin p → ℝ)
    (S : Matrix (Fin p) (Fin p) ℝ) (C : Matrix (Fin d) (Fin d) ℝ) (α : ℝ)
    (T : Matrix (Fin p) (Fin p) ℝ) (hT : IsUnit T.det) (x : Fin p → ℝ)
    (h : Returns (Api.solve "mud" A b y m S C α) x) :
    Returns (Api.solve "mud" (A * T⁻¹) b y (T *ᵥ m) (T * S * Tᵀ) C α) (T *ᵥ x) := by
  have hx := returns_unique h (api_mud A b y m S C α)
  have h' := api_mud (A * T⁻¹) b y (T *ᵥ m) (T * S * Tᵀ) C α
  have hTT : T⁻¹ * T = 1 := nonsing_inv_mul _ hT
  have hTT' : Tᵀ * (T⁻¹)ᵀ = 1 := by rw [← transpose_mul, hTT, transpose_one]
  have hsm : (A * T⁻¹) *ᵥ (T *ᵥ m) = A *ᵥ m := by
    rw [mulVec_mulVec, Matrix.mul_assoc, hTT, Matrix.mul_one]
  have hS : α • (T * S * Tᵀ) = T * (α • S) * Tᵀ := by
    rw [Matrix.mul_smul, Matrix.smul_mul]
  rw [hsm, hS] at h'
  set U := α • S
  have hP : A * T⁻¹ * (T * U * Tᵀ) * (A * T⁻¹)ᵀ = A * U * Aᵀ := by
    rw [transpose_mul]
    calc A * T⁻¹ * (T * U * Tᵀ) * ((T⁻¹)ᵀ * Aᵀ)
        = A * (T⁻¹ * T) * U * (Tᵀ * (T⁻¹)ᵀ) * Aᵀ := by simp only [Matrix.mul_assoc]
      _ = _ := by rw [hTT, hTT', Matrix.mul_one, Matrix.mul_one]
  have hK : T * U * Tᵀ * (A * T⁻¹)ᵀ = T * (U * Aᵀ) := by
    rw [transpose_mul]
    calc T * U * Tᵀ * ((T⁻¹)ᵀ * Aᵀ) = T * U * (Tᵀ * (T⁻¹)ᵀ) * Aᵀ := by simp only [Matrix.mul_assoc]
      _ = _ := by rw [hTT', Matrix.mul_one, Matrix.mul_assoc]
  rw [mudF, hP, hK] at h'
  rw [hx, mudF, mulVec_add, mulVec_mulVec, ← Matrix.mul_assoc]
  exact h'

theorem C14_map_param_change (A : Matrix (Fin d) (Fin p) ℝ) (b y : Fin d → ℝ) (m : Fin p → ℝ)
    (S : Matrix (Fin p) (Fin p) ℝ) (hS : S.PosDef) (C : Matrix (Fin d) (Fin d) ℝ) (hC : C.PosDef)
    (α : ℝ) (hα : 0 < α) (T : Matrix (Fin p) (Fin p) ℝ) (hT : IsUnit T.det) (x : Fin p → ℝ)
    (h : Returns (Api.solve "map" A b y m S C α) x) :
    Returns (Api.solve "map" (A * T⁻¹) b y (T *ᵥ m) (T * S * Tᵀ) C α) (T *ᵥ x) := by
  have hSα : (α • S).PosDef := hS.smul hα
  have hHp : (mapH A (α • S) C).PosDef := map_posDef hSα hC
  have hx := returns_unique h
    (api_map A b y m S C α (posDef_det_ne hC) (posDef_det_ne hSα) (posDef_det_ne hHp))
  have hTT : T⁻¹ * T = 1 := nonsing_inv_mul _ hT
  have hTu' : IsUnit (T⁻¹).det := by
    rw [det_nonsing_inv]; exact (IsUnit.ringInverse hT)
  have hS' : α • (T * S * Tᵀ) = T * (α • S) * Tᵀ := by rw [Matrix.mul_smul, Matrix.smul_mul]
  set U := α • S with hU
  have hUu := posDef_isUnit_det hSα
  have hinvT : (T * U * Tᵀ)⁻¹ = (T⁻¹)ᵀ * U⁻¹ * T⁻¹ := by
    rw [Matrix.mul_inv_rev, Matrix.mul_inv_rev, transpose_nonsing_inv, Matrix.mul_assoc]
  have hH : mapH (A * T⁻¹) (T * U * Tᵀ) C = (T⁻¹)ᵀ * mapH A U C * T⁻¹ := by
    rw [mapH, mapH, hinvT, transpose_mul, Matrix.mul_add, Matrix.add_mul]
    simp only [Matrix.mul_assoc]
  have hHinv : (mapH (A * T⁻¹) (T * U * Tᵀ) C)⁻¹ = T * (mapH A U C)⁻¹ * Tᵀ := by
    rw [hH, Matrix.mul_inv_rev, Matrix.mul_inv_rev, nonsing_inv_nonsing_inv _ hT,
      ← transpose_nonsing_inv, nonsing_inv_nonsing_inv _ hT, Matrix.mul_assoc]
  have d1 : (T * U * Tᵀ).det ≠ 0 := by
    rw [det_mul, det_mul, det_transpose]
    exact mul_ne_zero (mul_ne_zero hT.ne_zero hUu.ne_zero) hT.ne_zero
  have d2 : (mapH (A * T⁻¹) (T * U * Tᵀ) C).det ≠ 0 := by
    rw [hH, det_mul, det_mul, det_transpose]
    exact mul_ne_zero (mul_ne_zero hTu'.ne_zero (posDef_det_ne hHp)) hTu'.ne_zero
  have h' := api_map (A * T⁻¹) b y (T *ᵥ m) (T * S * Tᵀ) C α (posDef_det_ne hC)
    (by rw [hS']; exact d1) (by rw [hS']; exact d2)
  have hsm : (A * T⁻¹) *ᵥ (T *ᵥ m) = A *ᵥ m := by
    rw [mulVec_mulVec, Matrix.mul_assoc, hTT, Matrix.mul_one]
  have hTT' : Tᵀ * (T⁻¹)ᵀ = 1 := by rw [← transpose_mul, hTT, transpose_one]
  have hK : T * (mapH A U C)⁻¹ * Tᵀ * (A * T⁻¹)ᵀ * C⁻¹ = T * ((mapH A U C)⁻¹ * Aᵀ * C⁻¹) := by
    rw [transpose_mul]
    calc T * (mapH A U C)⁻¹ * Tᵀ * ((T⁻¹)ᵀ * Aᵀ) * C⁻¹
        = T * (mapH A U C)⁻¹ * (Tᵀ * (T⁻¹)ᵀ) * Aᵀ * C⁻¹ := by simp only [Matrix.mul_assoc]
      _ = _ := by rw [hTT', Matrix.mul_one]; simp only [Matrix.mul_assoc]
  rw [hsm, hS', hHinv, hK] at h'
  rw [hx, mulVec_add, mulVec_mulVec]
  exact h'

/-- Adding the same offset to `b` and `y` changes nothing, for every method. -/
theorem C14_offset (A : Matrix (Fin d) (Fin p) ℝ) (b y c : Fin d → ℝ) (m : Fin p → ℝ)
    (S : Matrix (Fin p) (Fin p) ℝ) (C : Matrix (Fin d) (Fin d) ℝ) (α : ℝ) (method : String)
    (hm : method ∈ solveMethods) :
    Api.solve method A (b + c) (y + c) m S C α = Api.solve method A b y m S C α := by
  rw [Api.solve, Api.solve, new_typed, new_typed, Py.ok_bind, Py.ok_bind]
  have e : y + c - (b + c) = y - b := by abel
  have h1 := locals_typed A (b + c) (y + c) m S C α
  have h2 := locals_typed A b y m S C α
  rw [e] at h1
  simp only [solveMethods, List.mem_cons, List.not_mem_nil, or_false] at hm
  have hl : LGP.lsBranch (LGP.typed A (b + c) (y + c) m S C α)
      (.typed A (b + c) (y + c) C (y - b - A *ᵥ m) (α • S)) =
      LGP.lsBranch (LGP.typed A b y m S C α) (.typed A b y C (y - b - A *ᵥ m) (α • S)) := by
    rw [lsBranch_typed, lsBranch_typed, e]
  have hmud : LGP.mudBranch (LGP.typed A (b + c) (y + c) m S C α)
      (.typed A (b + c) (y + c) C (y - b - A *ᵥ m) (α • S)) =
      LGP.mudBranch (LGP.typed A b y m S C α) (.typed A b y C (y - b - A *ᵥ m) (α • S)) := rfl
  have halt : LGP.mudAltBranch (LGP.typed A (b + c) (y + c) m S C α)
      (.typed A (b + c) (y + c) C (y - b - A *ᵥ m) (α • S)) =
      LGP.mudAltBranch (LGP.typed A b y m S C α) (.typed A b y C (y - b - A *ᵥ m) (α • S)) := rfl
  have hmap : LGP.mapBranch (LGP.typed A (b + c) (y + c) m S C α)
      (.typed A (b + c) (y + c) C (y - b - A *ᵥ m) (α • S)) =
      LGP.mapBranch (LGP.typed A b y m S C α) (.typed A b y C (y - b - A *ᵥ m) (α • S)) := rfl
  rcases hm with rfl | rfl | rfl | rfl | rfl
  · rw [solve_mud _ _ h1, solve_mud _ _ h2, hmud]
    cases LGP.mudBranch (LGP.typed A b y m S C α) (.typed A b y C (y - b - A *ᵥ m) (α • S)) <;> rfl
  · rw [solve_mud_alt _ _ h1, solve_mud_alt _ _ h2, halt]
    cases LGP.mudAltBranch (LGP.typed A b y m S C α) (.typed A b y C (y - b - A *ᵥ m) (α • S)) <;> rfl
  · rw [solve_map _ _ h1, solve_map _ _ h2, hmap]
    cases LGP.mapBranch (LGP.typed A b y m S C α) (.typed A b y C (y - b - A *ᵥ m) (α • S)) <;> rfl
  · rw [solve_ls _ _ h1, solve_ls _ _ h2, hl]
    cases LGP.lsBranch (LGP.typed A b y m S C α) (.typed A b y C (y - b - A *ᵥ m) (α • S)) <;> rfl
  · rw [solve_all _ _ h1, solve_all _ _ h2, hmud, halt, hmap, hl]
    cases LGP.mudBranch (LGP.typed A b y m S C α) (.typed A b y C (y - b - A *ᵥ m) (α • S)) <;>
    cases LGP.mudAltBranch (LGP.typed A b y m S C α) (.typed A b y C (y - b - A *ᵥ m) (α • S)) <;>
    cases LGP.mapBranch (LGP.typed A b y m S C α) (.typed A b y C (y - b - A *ᵥ m) (α • S)) <;>
    cases LGP.lsBranch (LGP.typed A b y m S C α) (.typed A b y C (y - b - A *ᵥ m) (α • S)) <;> rfl

/-- Re-scaling the observations by an invertible `D` leaves the MUD point unchanged. -/
theorem C14_mud_data_change (A : Matrix (Fin d) (Fin p) ℝ) (b y : Fin d → ℝ) (m : Fin p → ℝ)
    (S : Matrix (Fin p) (Fin p) ℝ) (C C' : Matrix (Fin d) (Fin d) ℝ) (α : ℝ) (hα : 0 < α)
    (D : Matrix (Fin d) (Fin d) ℝ) (hD : IsUnit D.det) (hP : IsUnit (A * S * Aᵀ).det)
    (x : Fin p → ℝ) (h : Returns (Api.solve "mud" A b y m S C α) x) :
    Returns (Api.solve "mud" (D * A) (D *ᵥ b) (D *ᵥ y) m S C' α) x := by
  have hx := returns_unique h (api_mud' A b y m S C α hα.ne')
  have h' := api_mud' (D * A) (D *ᵥ b) (D *ᵥ y) m S C' α hα.ne'
  have hz : D *ᵥ y - D *ᵥ b - (D * A) *ᵥ m = D *ᵥ (y - b - A *ᵥ m) := by
    rw [mulVec_sub, mulVec_sub, mulVec_mulVec]
  rw [hz] at h'
  set P := A * S * Aᵀ with hPd
  have hP' : D * A * S * (D * A)ᵀ = D * P * Dᵀ := by
    rw [transpose_mul, hPd]; simp only [Matrix.mul_assoc]
  have hu : IsUnit (D * P * Dᵀ).det := by
    rw [det_mul, det_mul, det_transpose]; exact (hD.mul hP).mul hD
  have hDt : IsUnit (Dᵀ).det := by rwa [det_transpose]
  have hK : S * (D * A)ᵀ * (D * P * Dᵀ)⁻¹ * D = S * Aᵀ * P⁻¹ := by
    rw [transpose_mul, Matrix.mul_inv_rev, Matrix.mul_inv_rev]
    calc S * (Aᵀ * Dᵀ) * ((Dᵀ)⁻¹ * (P⁻¹ * D⁻¹)) * D
        = S * Aᵀ * (Dᵀ * (Dᵀ)⁻¹) * P⁻¹ * (D⁻¹ * D) := by simp only [Matrix.mul_assoc]
      _ = _ := by rw [mul_nonsing_inv _ hDt, nonsing_inv_mul _ hD, Matrix.mul_one, Matrix.mul_one]
  rw [mudF, hP', mpinv_of_isUnit_det hu, mulVec_mulVec, hK] at h'
  rw [hx, mudF, ← hPd, mpinv_of_isUnit_det hP]
  exact h'

/-- Non-vacuity: invertible changes of variables. -/
example : IsUnit (!![2, 1; 0, 1] : Matrix (Fin 2) (Fin 2) ℝ).det := by
  rw [isUnit_iff_ne_zero]; simp [det_fin_two]

/-! ## Witnesses -/

/-- One-dimensional closed forms used by the witnesses below. -/
theorem map_one_dim (y α : ℝ) (hα : 0 < α) :
    Returns (Api.solve "map" (!![1] : Matrix (Fin 1) (Fin 1) ℝ) ![0] ![y] ![0] 1 1 α)
      ![y * α / (1 + α)] := by
  have hS : ((α • 1 : Matrix (Fin 1) (Fin 1) ℝ)).det = α := by simp
  have hH : mapH (!![1] : Matrix (Fin 1) (Fin 1) ℝ) (α • 1) 1 = !![1 + α⁻¹] := by
    ext i j; fin_cases i; fin_cases j
    simp [mapH, Ring.inverse_eq_inv', Matrix.mul_apply]
  have hne : (1 + α⁻¹) ≠ 0 := by positivity
  have h := api_map (!![1] : Matrix (Fin 1) (Fin 1) ℝ) ![0] ![y] ![0] 1 1 α (by simp)
    (by rw [hS]; exact hα.ne') (by rw [hH]; simpa using hne)
  rw [hH] at h
  convert h using 1
  ext i; fin_cases i
  simp [Ring.inverse_eq_inv', mulVec, dotProduct, Matrix.mul_apply]
  field_simp
  ring

/-- The MAP point, unlike the MUD point, does depend on `alpha`. -/
theorem C03_map_depends_on_alpha :
    Api.solve "map" (!![1] : Matrix (Fin 1) (Fin 1) ℝ) ![0] ![1] ![0] 1 1 1 ≠
    Api.solve "map" (!![1] : Matrix (Fin 1) (Fin 1) ℝ) ![0] ![1] ![0] 1 1 2 := by
  intro h
  have h1 := map_one_dim 1 1 one_pos
  have h2 := map_one_dim 1 2 two_pos
  rw [h] at h1
  have := congrFun (returns_unique h1 h2) 0
  norm_num at this

/-- Without an invertible predicted covariance the two MUD formulas may differ: two
inconsistent measurements of one parameter, `cov_o = diag(1, 2)`. -/
theorem C04_mud_ne_mud_alt_singular :
    ∃ x x' : Fin 1 → ℝ,
      Returns (Api.solve "mud" (!![1; 1] : Matrix (Fin 2) (Fin 1) ℝ) ![0, 0] ![0, 1] ![0] 1
        !![1, 0; 0, 2] 1) x ∧
      Returns (Api.solve "mud_alt" (!![1; 1] : Matrix (Fin 2) (Fin 1) ℝ) ![0, 0] ![0, 1] ![0] 1
        !![1, 0; 0, 2] 1) x' ∧ x ≠ x' := by
  have hP : (!![1; 1] : Matrix (Fin 2) (Fin 1) ℝ)
      * ((1 : ℝ) • (1 : Matrix (Fin 1) (Fin 1) ℝ)) * (!![1; 1] : Matrix (Fin 2) (Fin 1) ℝ)ᵀ
      = !![1, 1; 1, 1] := by
    ext i j; fin_cases i <;> fin_cases j <;> simp [Matrix.mul_apply]
  have hmp : mpinv (!![1, 1; 1, 1] : Matrix (Fin 2) (Fin 2) ℝ) = !![1/4, 1/4; 1/4, 1/4] := by
    apply mpinv_eq
    constructor <;> (ext i j; fin_cases i <;> fin_cases j <;> simp <;> norm_num)
  have hK : ((1 : ℝ) • (1 : Matrix (Fin 1) (Fin 1) ℝ)) * (!![1; 1] : Matrix (Fin 2) (Fin 1) ℝ)ᵀ
      * (!![1/4, 1/4; 1/4, 1/4] : Matrix (Fin 2) (Fin 2) ℝ) = !![1/2, 1/2] := by
    ext i j; fin_cases i; fin_cases j <;> simp [Matrix.mul_apply, Fin.sum_univ_two] <;> norm_num
  have hC : (!![1, 0; 0, 2] : Matrix (Fin 2) (Fin 2) ℝ).det ≠ 0 := by simp [det_fin_two]
  refine ⟨_, _, api_mud .., api_mud_alt _ _ _ _ _ _ _ hC, fun h => ?_⟩
  have hup : upF (!![1; 1] : Matrix (Fin 2) (Fin 1) ℝ)
      ((1 : ℝ) • (1 : Matrix (Fin 1) (Fin 1) ℝ)) !![1, 0; 0, 2] = !![3/4] := by
    rw [upF, hP, hmp, hK]
    ext i j; fin_cases i; fin_cases j
    simp [vecMul_transpose, vecHead, vecTail]; norm_num
  have hCi : (!![1, 0; 0, 2] : Matrix (Fin 2) (Fin 2) ℝ)⁻¹ = !![1, 0; 0, 1/2] := by
    apply inv_eq_right_inv
    ext i j; fin_cases i <;> fin_cases j <;> simp
  have hG : (!![3/4] : Matrix (Fin 1) (Fin 1) ℝ) * (!![1; 1] : Matrix (Fin 2) (Fin 1) ℝ)ᵀ
      * (!![1, 0; 0, 1/2] : Matrix (Fin 2) (Fin 2) ℝ) = !![3/4, 3/8] := by
    ext i j
    rw [Matrix.mul_apply, Fin.sum_univ_two]
    fin_cases i; fin_cases j <;> simp [Matrix.mul_apply]; norm_num
  have h0 := congrFun h 0
  rw [mudF, hP, hmp, hK, hup, hCi, hG] at h0
  simp at h0
  norm_num at h0

/-! ## Defaults and validation of `updated_cov` (C05–C07) -/

/-- `funs.updated_cov` with an omitted covariance uses the identity of the right size, and raises
`AssertionError` for a covariance whose number of columns does not fit. -/
theorem C07_defaults (X : Arr2) (S C : Option Arr2) :
    funsUpdatedCov X S C = funsUpdatedCov X (some (S.getD ⟨X.c, X.c, 1⟩)) (some (C.getD ⟨X.r, X.r, 1⟩)) ∧
    ((∃ T ∈ S, T.c ≠ X.c) ∨ (∃ D ∈ C, D.c ≠ X.r) → funsUpdatedCov X S C = .error .assertionError) := by
  constructor
  · cases S <;> cases C <;> simp [funsUpdatedCov, Arr2.eye, pyAssert]
  · rintro (⟨T, rfl, h⟩ | ⟨D, rfl, h⟩)
    · have : ¬ X.c = T.c := fun e => h e.symm
      simp [funsUpdatedCov, pyAssert, this]
    · have h' : ¬ X.r = D.c := fun e => h e.symm
      cases S with
      | none => simp [funsUpdatedCov, pyAssert, h']
      | some T =>
        by_cases hT : X.c = T.c
        · simp [funsUpdatedCov, pyAssert, h', hT]
        · simp [funsUpdatedCov, pyAssert, hT]

/-- The method `updated_cov` with omitted arguments uses the operator and the two covariances of the
object; given arguments replace them, with the same checks. -/
theorem C07_method_defaults (A : Matrix (Fin d) (Fin p) ℝ) (b y : Fin d → ℝ) (m : Fin p → ℝ)
    (S : Matrix (Fin p) (Fin p) ℝ) (C : Matrix (Fin d) (Fin d) ℝ) (α : ℝ) :
    ∃ P, Api.new A b y m S C α = .ok P ∧
      (∀ S' C', P.updated_cov none S' C' =
        funsUpdatedCov ⟨d, p, A⟩ (some (S'.getD ⟨p, p, S⟩)) (some (C'.getD ⟨d, d, C⟩))) ∧
      ∀ X S' C', P.updated_cov (some X) (some S') (some C') = funsUpdatedCov X (some S') (some C') := by
  refine ⟨_, new_typed .., fun S' C' => ?_, fun X S' C' => rfl⟩
  cases S' <;> cases C' <;>
    first
      | (simp [LGP.updated_cov, funsUpdatedCov, LGP.typed, pyAssert]; done)
      | (simp [LGP.updated_cov, funsUpdatedCov, LGP.typed, pyAssert]; rfl)

/-- Non-vacuity: a covariance that does not fit. -/
example : funsUpdatedCov ⟨1, 2, !![1, 1]⟩ (some ⟨3, 3, 1⟩) none = .error .assertionError :=
  (C07_defaults _ _ _).2 (Or.inl ⟨_, rfl, by decide⟩)

end Verif
