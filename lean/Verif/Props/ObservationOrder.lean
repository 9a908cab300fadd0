import Verif.Props.LinearApi
import Verif.Props.LinearWme
import Verif.Props.Wme

/-!
# C162: the order of the observations does not matter in linear problems
-/

open Matrix

namespace Verif

variable {d d' p : ℕ}

/-! ### Reindexing -/

section reindex
variable (e : Fin d' ≃ Fin d) (A : Matrix (Fin d) (Fin p) ℝ) (z : Fin d → ℝ) (m : Fin p → ℝ)
  (S : Matrix (Fin p) (Fin p) ℝ) (C : Matrix (Fin d) (Fin d) ℝ)

theorem mpinv_reindex {n n' : ℕ} (f : Fin n' ≃ Fin n) (M : Matrix (Fin d) (Fin n) ℝ) :
    mpinv (M.submatrix e f) = (mpinv M).submatrix f e := by
  obtain ⟨h1, h2, h3, h4⟩ := mpinv_spec M
  refine mpinv_eq ⟨?_, ?_, ?_, ?_⟩
  · rw [submatrix_mul_equiv, submatrix_mul_equiv, h1]
  · rw [submatrix_mul_equiv, submatrix_mul_equiv, h2]
  · rw [submatrix_mul_equiv, transpose_submatrix, h3]
  · rw [submatrix_mul_equiv, transpose_submatrix, h4]

theorem submatrix_mulVec_reindex {n n' : ℕ} (f : Fin n' ≃ Fin n) (M : Matrix (Fin d) (Fin n) ℝ)
    (v : Fin n → ℝ) : M.submatrix e f *ᵥ (v ∘ f) = (M *ᵥ v) ∘ e := by
  rw [submatrix_mulVec_equiv]
  simp [Function.comp_assoc]

theorem rows_mulVec (v : Fin p → ℝ) : A.submatrix e id *ᵥ v = (A *ᵥ v) ∘ e := rfl

theorem pred_reindex : A.submatrix e id * S * (A.submatrix e id)ᵀ = (A * S * Aᵀ).submatrix e e := rfl

theorem mul_cols (M : Matrix (Fin p) (Fin d) ℝ) (N : Matrix (Fin d) (Fin p) ℝ) :
    M.submatrix id e * N.submatrix e id = M * N := by
  rw [submatrix_mul_equiv]; rfl

theorem mul_cols_sq (M : Matrix (Fin p) (Fin d) ℝ) (N : Matrix (Fin d) (Fin d) ℝ) :
    M.submatrix id e * N.submatrix e e = (M * N).submatrix id e := submatrix_mul_equiv ..

theorem cols_mulVec (M : Matrix (Fin p) (Fin d) ℝ) : M.submatrix id e *ᵥ (z ∘ e) = M *ᵥ z := by
  rw [submatrix_mulVec_equiv]
  simp [Function.comp_assoc]

theorem mul_transpose_reindex : S * (A.submatrix e id)ᵀ = (S * Aᵀ).submatrix id e := rfl

theorem mudF_reindex : mudF (A.submatrix e id) (z ∘ e) m S = mudF A z m S := by
  rw [mudF, mudF, pred_reindex, mpinv_reindex, mul_transpose_reindex, mul_cols_sq, cols_mulVec]

theorem upF_reindex : upF (A.submatrix e id) S (C.submatrix e e) = upF A S C := by
  rw [upF, upF, pred_reindex, mpinv_reindex, mul_transpose_reindex, mul_cols_sq,
    show (A * S * Aᵀ).submatrix e e - C.submatrix e e = (A * S * Aᵀ - C).submatrix e e from rfl, mul_cols_sq,
    transpose_submatrix, mul_cols]

theorem gain_reindex : (A.submatrix e id)ᵀ * (C.submatrix e e)⁻¹ = (Aᵀ * C⁻¹).submatrix id e := by
  rw [inv_submatrix_equiv, transpose_submatrix, mul_cols_sq]

theorem mapH_reindex : mapH (A.submatrix e id) S (C.submatrix e e) = mapH A S C := by
  rw [mapH, gain_reindex, mul_cols, mapH]

theorem residual_reindex (b y : Fin d → ℝ) :
    y ∘ e - b ∘ e - A.submatrix e id *ᵥ m = (y - b - A *ᵥ m) ∘ e := rfl

variable (b y : Fin d → ℝ) (α : ℝ)

/-- The two problems. -/
theorem branches_reindex :
    let P := LGP.typed A b y m S C α
    let P' := LGP.typed (A.submatrix e id) (b ∘ e) (y ∘ e) m S (C.submatrix e e) α
    let w := LGP.Locals.typed A b y C (y - b - A *ᵥ m) (α • S)
    let w' := LGP.Locals.typed (A.submatrix e id) (b ∘ e) (y ∘ e) (C.submatrix e e)
      (y ∘ e - b ∘ e - A.submatrix e id *ᵥ m) (α • S)
    P'.mudBranch w' = P.mudBranch w ∧ P'.mudAltBranch w' = P.mudAltBranch w ∧
      P'.mapBranch w' = P.mapBranch w ∧ P'.lsBranch w' = P.lsBranch w := by
  dsimp only
  rw [mudBranch_typed _ _ _ _ _ m _ _ rfl, mudBranch_typed _ _ _ _ _ m _ _ rfl,
    mudAltBranch_typed _ _ _ _ _ m _ _ rfl, mudAltBranch_typed _ _ _ _ _ m _ _ rfl,
    mapBranch_typed _ _ _ _ _ m _ _ rfl, mapBranch_typed _ _ _ _ _ m _ _ rfl, lsBranch_typed, lsBranch_typed,
    residual_reindex, mudF_reindex, upF_reindex, mapH_reindex, det_submatrix_equiv_self]
  refine ⟨rfl, ?_, ?_, ?_⟩
  · rw [Matrix.mul_assoc, gain_reindex, Matrix.mul_assoc,
      show upF A (α • S) C * (Aᵀ * C⁻¹).submatrix id e = (upF A (α • S) C * (Aᵀ * C⁻¹)).submatrix id e from rfl,
      cols_mulVec]
  · rw [Matrix.mul_assoc, gain_reindex, Matrix.mul_assoc,
      show (mapH A (α • S) C)⁻¹ * (Aᵀ * C⁻¹).submatrix id e =
        ((mapH A (α • S) C)⁻¹ * (Aᵀ * C⁻¹)).submatrix id e from rfl, cols_mulVec]
  · rw [show y ∘ e - b ∘ e = (y - b) ∘ e from rfl, show (id : Fin p → Fin p) = Equiv.refl _ from rfl,
      mpinv_reindex]
    exact congrArg (fun v => Except.ok (Arr2.col v)) (cols_mulVec e (y - b) (mpinv A))

end reindex

/-! ### The problem -/

/-- What `solve` has stored in a problem. -/
structure Solved where
  mud : Option Arr2
  mud_alt : Option Arr2
  map : Option Arr2
  ls : Option Arr2
  up_cov : Option Arr2
  cov_p : Option Arr2

/-- The attributes `mud`, `mud_alt`, `map`, `ls`, `up_cov`, `cov_p` of a problem. -/
def LGP.solved (P : LGP) : Solved := ⟨P.mud, P.mud_alt, P.map, P.ls, P.up_cov, P.cov_p⟩

/-- The returned values of the calls `solve(method)`, one after the other, and the problem at the end. -/
noncomputable def LGP.solveRun : List String → LGP → List (Py SolveRes) × LGP
  | [], P => ([], P)
  | m :: ms, P =>
    let r := LGP.solveRun ms (LGP.solve m none P).2
    ((LGP.solve m none P).1 :: r.1, r.2)

/-- A problem with other stored results. -/
def LGP.withSolved (P : LGP) (s : Solved) : LGP :=
  { P with mud := s.mud, mud_alt := s.mud_alt, map := s.map, ls := s.ls, up_cov := s.up_cov, cov_p := s.cov_p }

section run
variable {P P' : LGP} {w w' : LGP.Locals}

theorem solve_pair (h : P.locals none = .ok w) (h' : P'.locals none = .ok w') (e1 : P'.mudBranch w' = P.mudBranch w)
    (e2 : P'.mudAltBranch w' = P.mudAltBranch w) (e3 : P'.mapBranch w' = P.mapBranch w)
    (e4 : P'.lsBranch w' = P.lsBranch w) {method : String} (hm : method ∈ solveMethods) (s : Solved) :
    ∃ s', (LGP.solve method none (P'.withSolved s)).1 = (LGP.solve method none (P.withSolved s)).1 ∧
      (LGP.solve method none (P.withSolved s)).2 = P.withSolved s' ∧
      (LGP.solve method none (P'.withSolved s)).2 = P'.withSolved s' := by
  have g : (P.withSolved s).locals none = .ok w := h
  have g' : (P'.withSolved s).locals none = .ok w' := h'
  have f1 : (P.withSolved s).mudBranch w = P.mudBranch w := rfl
  have f2 : (P.withSolved s).mudAltBranch w = P.mudAltBranch w := rfl
  have f3 : (P.withSolved s).mapBranch w = P.mapBranch w := rfl
  have f4 : (P.withSolved s).lsBranch w = P.lsBranch w := rfl
  have f1' : (P'.withSolved s).mudBranch w' = P.mudBranch w := e1
  have f2' : (P'.withSolved s).mudAltBranch w' = P.mudAltBranch w := e2
  have f3' : (P'.withSolved s).mapBranch w' = P.mapBranch w := e3
  have f4' : (P'.withSolved s).lsBranch w' = P.lsBranch w := e4
  simp only [solveMethods, List.mem_cons, List.not_mem_nil, or_false] at hm
  rcases hm with rfl | rfl | rfl | rfl | rfl
  · rw [solve_mud _ _ g, solve_mud _ _ g', f1, f1']
    cases P.mudBranch w with
    | error e => exact ⟨s, rfl, rfl, rfl⟩
    | ok x => exact ⟨{ s with mud := some x }, rfl, rfl, rfl⟩
  · rw [solve_mud_alt _ _ g, solve_mud_alt _ _ g', f2, f2']
    cases P.mudAltBranch w with
    | error e => exact ⟨s, rfl, rfl, rfl⟩
    | ok x => exact ⟨{ s with mud_alt := some x.1, up_cov := some x.2 }, rfl, rfl, rfl⟩
  · rw [solve_map _ _ g, solve_map _ _ g', f3, f3']
    cases P.mapBranch w with
    | error e => exact ⟨s, rfl, rfl, rfl⟩
    | ok x => exact ⟨{ s with map := some x.1, cov_p := some x.2 }, rfl, rfl, rfl⟩
  · rw [solve_ls _ _ g, solve_ls _ _ g', f4, f4']
    cases P.lsBranch w with
    | error e => exact ⟨s, rfl, rfl, rfl⟩
    | ok x => exact ⟨{ s with ls := some x }, rfl, rfl, rfl⟩
  · rw [solve_all _ _ g, solve_all _ _ g', f1, f1', f2, f2', f3, f3', f4, f4']
    cases P.mudBranch w with
    | error e => exact ⟨s, rfl, rfl, rfl⟩
    | ok x =>
      cases P.mudAltBranch w with
      | error e => exact ⟨{ s with mud := some x }, rfl, rfl, rfl⟩
      | ok xa =>
        cases P.mapBranch w with
        | error e => exact ⟨{ s with mud := some x, mud_alt := some xa.1, up_cov := some xa.2 }, rfl, rfl, rfl⟩
        | ok xm =>
          cases P.lsBranch w with
          | error e =>
            exact ⟨{ s with mud := some x, mud_alt := some xa.1, up_cov := some xa.2, map := some xm.1,
                            cov_p := some xm.2 }, rfl, rfl, rfl⟩
          | ok xl =>
            exact ⟨⟨some x, some xa.1, some xm.1, some xl, some xa.2, some xm.2⟩, rfl, rfl, rfl⟩

theorem solveRun_pair (h : P.locals none = .ok w) (h' : P'.locals none = .ok w')
    (e1 : P'.mudBranch w' = P.mudBranch w) (e2 : P'.mudAltBranch w' = P.mudAltBranch w)
    (e3 : P'.mapBranch w' = P.mapBranch w) (e4 : P'.lsBranch w' = P.lsBranch w) :
    ∀ (ms : List String) (_ : ∀ m ∈ ms, m ∈ solveMethods) (s : Solved),
      (LGP.solveRun ms (P'.withSolved s)).1 = (LGP.solveRun ms (P.withSolved s)).1 ∧
      (LGP.solveRun ms (P'.withSolved s)).2.solved = (LGP.solveRun ms (P.withSolved s)).2.solved
  | [], _, _ => ⟨rfl, rfl⟩
  | m :: ms, hms, s => by
    obtain ⟨s', h1, h2, h3⟩ := solve_pair h h' e1 e2 e3 e4 (hms m (by simp)) s
    obtain ⟨k1, k2⟩ := solveRun_pair h h' e1 e2 e3 e4 ms (fun m hm => hms m (by simp [hm])) s'
    rw [LGP.solveRun, LGP.solveRun, h1, h2, h3]
    exact ⟨by dsimp only; rw [k1], k2⟩

end run

theorem updated_cov_attrs (A : Matrix (Fin d) (Fin p) ℝ) (b y : Fin d → ℝ) (m : Fin p → ℝ)
    (S : Matrix (Fin p) (Fin p) ℝ) (C : Matrix (Fin d) (Fin d) ℝ) (α : ℝ) :
    (LGP.typed A b y m S C α).updated_cov = .ok ⟨p, p, upF A S C⟩ := by
  simp [LGP.updated_cov, LGP.typed, updatedCovBody_typed]

theorem typed_reindex_run (e : Fin d' ≃ Fin d) (A : Matrix (Fin d) (Fin p) ℝ) (b y : Fin d → ℝ)
    (m : Fin p → ℝ) (S : Matrix (Fin p) (Fin p) ℝ) (C : Matrix (Fin d) (Fin d) ℝ) (α : ℝ) (ms : List String)
    (hms : ∀ m ∈ ms, m ∈ solveMethods) :
    let P := LGP.typed A b y m S C α
    let P' := LGP.typed (A.submatrix e id) (b ∘ e) (y ∘ e) m S (C.submatrix e e) α
    (P'.solveRun ms).1 = (P.solveRun ms).1 ∧ (P'.solveRun ms).2.solved = (P.solveRun ms).2.solved := by
  obtain ⟨e1, e2, e3, e4⟩ := branches_reindex e A m S C b y α
  exact solveRun_pair (locals_typed ..) (locals_typed ..) e1 e2 e3 e4 ms hms ⟨none, none, none, none, none, none⟩

/-- **C162, linear problems.** Rows of the map, offsets, data and rows and columns of the data covariance in
another order: every sequence of calls of `solve` returns the same - or raises the same exceptions - and
stores the same, and the updated covariance is the same. -/
theorem C162_solve_order (σ : Equiv.Perm (Fin d)) (A : Matrix (Fin d) (Fin p) ℝ) (b y : Fin d → ℝ)
    (m : Fin p → ℝ) (S : Matrix (Fin p) (Fin p) ℝ) (C : Matrix (Fin d) (Fin d) ℝ) (α : ℝ) :
    ∃ P P', Api.new A b y m S C α = .ok P ∧
      Api.new (A.submatrix σ id) (b ∘ σ) (y ∘ σ) m S (C.submatrix σ σ) α = .ok P' ∧
      P'.updated_cov = P.updated_cov ∧ ∀ ms : List String, (∀ m ∈ ms, m ∈ solveMethods) →
        (P'.solveRun ms).1 = (P.solveRun ms).1 ∧ (P'.solveRun ms).2.solved = (P.solveRun ms).2.solved := by
  refine ⟨_, _, new_typed .., new_typed .., ?_, typed_reindex_run σ A b y m S C α⟩
  rw [updated_cov_attrs, updated_cov_attrs, upF_reindex]

/-! ### Linear problems for the weighted mean error -/

/-- The same observations of a quantity of interest in another order. -/
inductive QoI.Reordered : QoI p → QoI p → Prop
  | stacked (N : ℕ) (M : Matrix (Fin N) (Fin p) ℝ) (d s : Fin N → ℝ) (σ : Equiv.Perm (Fin N)) :
    Reordered (.stacked N M d s) (.stacked N (M.submatrix σ id) (d ∘ σ) (s ∘ σ))
  | repeated (N : ℕ) (a : Fin p → ℝ) (d : Fin N → ℝ) (s : ℝ) (σ : Equiv.Perm (Fin N)) :
    Reordered (.repeated N a d s) (.repeated N a (d ∘ σ) s)

theorem sum_perm {N : ℕ} (σ : Equiv.Perm (Fin N)) (f : Fin N → ℝ) : ∑ i, f (σ i) = ∑ i, f i :=
  Equiv.sum_comp σ f

/-- The rows with their data and deviations in another order, or the data of a repeated observation. -/
theorem C162_stacked {N : ℕ} (M : Matrix (Fin N) (Fin p) ℝ) (d s : Fin N → ℝ) (σ : Equiv.Perm (Fin N)) :
    transformLinearMap ⟨N, p, M.submatrix σ id⟩ N (d ∘ σ) (.seq N (s ∘ σ)) =
      transformLinearMap ⟨N, p, M⟩ N d (.seq N s) := by
  have hz : (∃ i, roundsToZero ((s ∘ σ) i)) ↔ ∃ i, roundsToZero (s i) :=
    ⟨fun ⟨i, hi⟩ => ⟨σ i, hi⟩, fun ⟨i, hi⟩ => ⟨σ.symm i, by simpa using hi⟩⟩
  have hA : (fun j => ∑ i : Fin N, 1 / ((if h : (i : ℕ) < N then (s ∘ σ) ⟨i, h⟩ else 0) * Real.sqrt N) *
      M.submatrix σ id i j) = fun j => ∑ i : Fin N, 1 / ((if h : (i : ℕ) < N then s ⟨i, h⟩ else 0) * Real.sqrt N) *
      M i j := by
    funext j
    simp only [Fin.is_lt, ↓reduceDIte, Fin.eta]
    exact sum_perm σ fun i => 1 / (s i * Real.sqrt N) * M i j
  have hB : ∑ i : Fin N, (d ∘ σ) i / (if h : (i : ℕ) < N then (s ∘ σ) ⟨i, h⟩ else 0) =
      ∑ i : Fin N, d i / (if h : (i : ℕ) < N then s ⟨i, h⟩ else 0) := by
    simp only [Fin.is_lt, ↓reduceDIte, Fin.eta]
    exact sum_perm σ fun i => d i / s i
  unfold transformLinearMap
  dsimp only
  rw [hA, hB]
  have hp : ∀ {P Q : Prop} {_ : Decidable P} {_ : Decidable Q}, (P ↔ Q) → pyAssert P = pyAssert Q := fun h => by
    simp only [pyAssert, h]
  congr 1
  refine congrArg (_ >>= ·) (funext fun _ => congrArg (_ >>= ·) (funext fun _ => ?_))
  exact congrArg (· >>= _) (hp (not_congr hz))

theorem C162_repeated {N : ℕ} (o : Arr2) (d : Fin N → ℝ) (s : ℝ) (σ : Equiv.Perm (Fin N)) (ho : o.r ≤ 1) :
    transformLinearMap o N (d ∘ σ) (.num s) = transformLinearMap o N d (.num s) := by
  have hB : ∑ i : Fin N, (d ∘ σ) i / s = ∑ i : Fin N, d i / s := sum_perm σ fun i => d i / s
  unfold transformLinearMap
  rw [if_neg (by omega), if_neg (by omega)]
  dsimp only
  rw [hB]

theorem QoI.Reordered.transform {q q' : QoI p} (h : q.Reordered q') :
    transformLinearMap q'.op q'.data.1 q'.data.2 q'.std = transformLinearMap q.op q.data.1 q.data.2 q.std := by
  cases h with
  | stacked N M d s σ => exact C162_stacked M d s σ
  | repeated N a d s σ => exact C162_repeated _ d s σ le_rfl

/-- **C162, observations.** The observations of each quantity of interest in another order: the same problem
(or the same exception). -/
theorem C162_observations {qs qs' : List (QoI p)} (h : List.Forall₂ QoI.Reordered qs qs') (m : Fin p → ℝ)
    (S : Matrix (Fin p) (Fin p) ℝ) (C : Option Arr2) (α : ℝ) : Api.lwp qs' m S C α = Api.lwp qs m S C α := by
  have e : transformAll ((qs'.map QoI.op).zip ((qs'.map QoI.data).zip (qs'.map QoI.std))) =
      transformAll ((qs.map QoI.op).zip ((qs.map QoI.data).zip (qs.map QoI.std))) := by
    induction h with
    | nil => rfl
    | cons h _ ih => simp only [List.map_cons, List.zip_cons_cons, transformAll, h.transform, ih]
  simp only [Api.lwp, LWP.new, transformLinearSetup, SigmaArg.toList, e]

/-- **C162, quantities of interest.** The quantities of interest - and rows and columns of a data covariance
that is given - in another order: the same results of all sequences of calls. -/
theorem C162_quantities {qs qs' : List (QoI p)} (hne : qs ≠ []) (hv : ∀ q ∈ qs, q.Valid)
    (e : Fin qs'.length ≃ Fin qs.length) (he : ∀ i, qs'[i] = qs[e i]) (m : Fin p → ℝ)
    (S : Matrix (Fin p) (Fin p) ℝ) (C : Option (Matrix (Fin qs.length) (Fin qs.length) ℝ)) (α : ℝ) :
    ∃ P P', Api.lwp qs m S (C.map fun C => ⟨_, _, C⟩) α = .ok P ∧
      Api.lwp qs' m S (C.map fun C => ⟨_, _, C.submatrix e e⟩) α = .ok P' ∧
      P'.updated_cov = P.updated_cov ∧ ∀ ms : List String, (∀ m ∈ ms, m ∈ solveMethods) →
        (P'.solveRun ms).1 = (P.solveRun ms).1 ∧ (P'.solveRun ms).2.solved = (P.solveRun ms).2.solved := by
  have hl : qs'.length = qs.length := by simpa using Fintype.card_congr e
  have hne' : qs' ≠ [] := fun h => hne (List.length_eq_zero_iff.1 (by rw [← hl, h]; rfl))
  have hv' : ∀ q ∈ qs', q.Valid := fun q hq => by
    obtain ⟨i, hi, rfl⟩ := List.mem_iff_getElem.1 hq
    have := he ⟨i, hi⟩
    simp only [Fin.getElem_fin] at this
    rw [this]
    exact hv _ (List.getElem_mem _)
  have h1 := lwp_typed qs hne hv m S C α
  have h2 := lwp_typed qs' hne' hv' m S (C.map fun C => C.submatrix e e) α
  rw [Option.map_map] at h2
  have hA : (.of fun i : Fin qs'.length => qs'[i].rowA : Matrix (Fin qs'.length) (Fin p) ℝ) =
      (.of fun i : Fin qs.length => qs[i].rowA : Matrix (Fin qs.length) (Fin p) ℝ).submatrix e id := by
    ext i j; simp only [of_apply, submatrix_apply, he i, id_eq]
  have hb : (fun i : Fin qs'.length => qs'[i].offB) = (fun i : Fin qs.length => qs[i].offB) ∘ e := by
    funext i; simp only [Function.comp_apply, he i]
  have hC : (C.map fun C => C.submatrix e e).getD 1 = (C.getD 1).submatrix e e := by
    cases C with
    | none => simp
    | some C => rfl
  rw [hA, hb, hC] at h2
  have hr := typed_reindex_run e (.of fun i : Fin qs.length => qs[i].rowA) (fun i => qs[i].offB) 0 m S (C.getD 1) α
  refine ⟨_, _, h1, h2, ?_, hr⟩
  rw [updated_cov_attrs, updated_cov_attrs, upF_reindex]

/-- The quantities of interest with the same standard deviation for all observations: numbers instead of
sequences. -/
theorem C162_same_std {N : ℕ} (M : Matrix (Fin N) (Fin p) ℝ) (d : Fin N → ℝ) (s : ℝ) (σ : Equiv.Perm (Fin N)) :
    transformLinearMap ⟨N, p, M.submatrix σ id⟩ N (d ∘ σ) (.num s) = transformLinearMap ⟨N, p, M⟩ N d (.num s) := by
  rcases le_or_gt N 1 with h | h
  · have : σ = 1 := by
      have : Subsingleton (Fin N) := Fin.subsingleton_iff_le_one.2 h
      exact Subsingleton.elim _ _
    subst this; rfl
  · rw [C23_scalar_std h, C23_scalar_std h]
    exact C162_stacked M d (fun _ => s) σ

/-! ### The weighted mean error -/

theorem popVar_perm {n : ℕ} (σ : Equiv.Perm (Fin n)) (v : Fin n → ℝ) : popVar (v ∘ σ) = popVar v := by
  have h1 : ∑ j, (v ∘ σ) j = ∑ j, v j := sum_perm σ v
  rw [popVar, h1]
  exact congrArg (· / _) (sum_perm σ fun i => (v i - (∑ j, v j) / n) ^ 2)

/-- **C162, weighted mean error.** The data and the columns of the predictions in another order. -/
theorem C162_wme {S n : ℕ} (P : Matrix (Fin S) (Fin n) ℝ) (d : Fin n → ℝ) (sd : Option ℝ)
    (σ : Equiv.Perm (Fin n)) :
    wme (.mat ⟨S, n, P.submatrix id σ⟩) (.vec n (d ∘ σ)) sd = wme (.mat ⟨S, n, P⟩) (.vec n d) sd := by
  have h : npStd (.vec n (d ∘ σ)) = npStd (.vec n d) := by simp only [npStd, popVar_perm]
  rw [wme_eval, wme_eval, h]
  congr 2
  funext i
  exact Equiv.sum_comp σ fun j => F.fin 1 / (sd.elim (npStd (.vec n d)) F.fin * .fin (Real.sqrt n)) *
    F.fin (P i j - d j)

/-! ### Concrete cases -/

/-- `C162_solve_order`: a transposition of two of three rows, and a correlated data covariance; the problem with the
rows exchanged is another one. -/
example : ∃ (σ : Equiv.Perm (Fin 3)) (A : Matrix (Fin 3) (Fin 2) ℝ) (C : Matrix (Fin 3) (Fin 3) ℝ),
    A.submatrix σ id ≠ A ∧ C.submatrix σ σ ≠ C ∧ Cᵀ = C := by
  refine ⟨Equiv.swap 0 1, !![1, 0; 2, 1; 0, 1], !![2, 1, 0; 1, 3, 0; 0, 0, 1], fun h => ?_, fun h => ?_, ?_⟩
  · have := congrFun (congrFun h 0) 0
    simp at this
  · have := congrFun (congrFun h 0) 0
    simp at this
  · ext i j; fin_cases i <;> fin_cases j <;> simp

/-- `C162_observations` and `C162_quantities`: two quantities of interest, exchanged, and the observations of the
first in another order. -/
example : let q : QoI 2 := .stacked 2 !![1, 2; 3, 4] ![1, 2] ![1/10, 1/5]
    let q' : QoI 2 := .stacked 2 !![3, 4; 1, 2] ![2, 1] ![1/5, 1/10]
    let r : QoI 2 := .repeated 3 ![1, 1] ![1, 2, 3] (1/2)
    q.Reordered q' ∧ q ≠ q' ∧ (∀ x ∈ [q, r], x.Valid) ∧
      ∃ e : Fin [r, q].length ≃ Fin [q, r].length, ∀ i, [r, q][i] = [q, r][e i] := by
  intro q q' r
  refine ⟨?_, fun h => ?_, fun x hx => ?_, Equiv.swap (0 : Fin 2) 1, fun i => ?_⟩
  · have h := QoI.Reordered.stacked 2 !![1, 2; 3, 4] ![1, 2] ![1/10, 1/5] (Equiv.swap 0 1)
    have e : q' = .stacked 2 ((!![1, 2; 3, 4] : Matrix (Fin 2) (Fin 2) ℝ).submatrix (Equiv.swap 0 1) id)
        (![1, 2] ∘ Equiv.swap (0 : Fin 2) 1) (![1/10, 1/5] ∘ Equiv.swap (0 : Fin 2) 1) := by
      simp only [q']
      congr 1
      · ext i j; fin_cases i <;> fin_cases j <;> simp
      · ext i; fin_cases i <;> simp
      · ext i; fin_cases i <;> simp
    rw [e]; exact h
  · simp only [q, q'] at h
    injection h with _ _ h _
    have := congrFun h 0
    simp at this
  · rw [List.mem_cons, List.mem_singleton] at hx
    have h1 : 1 < 2 ∧ ∀ i, 5 / 10 ^ 15 < |(![1/10, 1/5] : Fin 2 → ℝ) i| :=
      ⟨by norm_num, fun i => by fin_cases i <;> norm_num [abs_of_pos]⟩
    have h2 : 0 < 3 ∧ (1 : ℝ) / 10 ^ 14 < 1 / 2 := ⟨by norm_num, by norm_num⟩
    rcases hx with h | h
    · have : q.Valid := h1
      exact h ▸ this
    · have : r.Valid := h2
      exact h ▸ this
  · fin_cases i <;> simp

end Verif
