import Verif.Model.Contours
import Verif.Props.PlotLinear
import Verif.Props.Svd
import Verif.Props.LinearApi
import Verif.Lemmas.SvdExists

/-!
# Property C118: the contour figures of the linear example
-/

open Matrix

namespace Verif

namespace Contours

/-! ## Specification -/

/-- The functionals named in the figures at the parameter `x`, where `r` is the residual of `x`. -/
noncomputable def value (A : Matrix (Fin 1) (Fin 2) ℝ) (m : Fin 2 → ℝ) (S : Matrix (Fin 2) (Fin 2) ℝ)
    (C : Matrix (Fin 1) (Fin 1) ℝ) (α r : ℝ) (terms : String) (x : Fin 2 → ℝ) : ℝ :=
  let data := r ^ 2 / C 0 0
  let reg := α * mahal S x m
  let regM := α * mahal S x m - α * (A 0 0 * (x 0 - m 0) + A 0 1 * (x 1 - m 1)) ^ 2 / (A * S * Aᵀ) 0 0
  if terms = "data" then data
  else if terms = "reg" then reg
  else if terms = "reg_m" then regM
  else if terms = "bayes" then data + reg
  else data + regM

/-- Row `i`, column `c` of the grid of the unit square. -/
noncomputable def gridAt (i c : Fin 250) : Fin 2 → ℝ := ![(c : ℝ) / 249, (i : ℝ) / 249]

/-- The surface is the graph of the functional over the grid; `res` is the residual function. -/
def SurfaceOf (A : Matrix (Fin 1) (Fin 2) ℝ) (m : Fin 2 → ℝ) (S : Matrix (Fin 2) (Fin 2) ℝ)
    (C : Matrix (Fin 1) (Fin 1) ℝ) (α : ℝ) (res : (Fin 2 → ℝ) → ℝ) (terms : String) (s : Surface) : Prop :=
  s.terms = terms ∧ ∀ i c, s.X i c = gridAt i c 0 ∧ s.Y i c = gridAt i c 1 ∧
    s.Z i c = value A m S C α (res (gridAt i c)) terms (gridAt i c)

/-- What is drawn for the point `q.1`: the initial mean, or the solution and, if `q.2`, the line to it from
the initial mean. -/
def SolOf {d : ℕ} (A : Matrix (Fin d) (Fin 2) ℝ) (b y : Fin d → ℝ) (m : Fin 2 → ℝ)
    (S : Matrix (Fin 2) (Fin 2) ℝ) (C : Matrix (Fin d) (Fin d) ℝ) (α : ℝ) (q : String × Bool)
    (s : String × SolPlot) : Prop :=
  s.1 = q.1 ∧ (q.1 = "initial" → s.2 = ⟨[(m 0, m 1)], none⟩) ∧
  (q.1 ≠ "initial" → ∃ x : Fin 2 → ℝ, Returns (Api.solve q.1 A b y m S C α) x ∧
    s.2 = ⟨[(x 0, x 1)], if q.2 then some ((m 0, m 1), (x 0, x 1)) else none⟩)

/-- The point is data consistent. -/
def OnSolution (A : Matrix (Fin 1) (Fin 2) ℝ) (b y : Fin 1 → ℝ) (p : ℝ × ℝ) : Prop :=
  A 0 0 * p.1 + A 0 1 * p.2 + b 0 = y 0

/-- One figure: name, file, functionals, marked points (with line?), solution contour?, true point? -/
structure Sheet where
  name : String
  file : String
  terms : List String
  points : List (String × Bool)
  contour : Bool
  truth : Option (ℝ × ℝ)

/-- The six figures, in the order in which they are drawn. -/
noncomputable def sheets : List Sheet :=
  [ ⟨"data_mismatch", "data_mismatch_contour.png", ["data"], [], true, none⟩,
    ⟨"tikhonov", "tikhonov_contour.png", ["reg"], [("initial", true)], false, none⟩,
    ⟨"consistent", "consistent_contour.png", ["reg_m"], [("initial", true)], false, none⟩,
    ⟨"map", "classical_solution.png", ["bayes", "data"],
      [("initial", true), ("ls", true), ("map", false)], true, none⟩,
    ⟨"mud", "consistent_solution.png", ["dc", "data"],
      [("initial", true), ("ls", true), ("mud", true)], true, none⟩,
    ⟨"comparison", "map_compare_contour.png", ["bayes", "data"],
      [("initial", true), ("ls", true), ("map", false), ("mud", true)], true, some (0.7, 0.3)⟩ ]

/-- The figure shows what the sheet says, `line` being what is said about the solution contour. -/
structure FigureOf (A : Matrix (Fin 1) (Fin 2) ℝ) (b y : Fin 1 → ℝ) (m : Fin 2 → ℝ)
    (S : Matrix (Fin 2) (Fin 2) ℝ) (C : Matrix (Fin 1) (Fin 1) ℝ) (α : ℝ) (res : (Fin 2 → ℝ) → ℝ)
    (line : (ℝ × ℝ) × (ℝ × ℝ) → Prop) (sh : Sheet) (f : Figure) : Prop where
  file : f.file = sh.file
  surfaces : List.Forall₂ (SurfaceOf A m S C α res) sh.terms f.surfaces
  sols : List.Forall₂ (SolOf A b y m S C α) sh.points f.sols
  contour : sh.contour = true → ∃ l, f.lines = [l] ∧ line l
  no_contour : sh.contour = false → f.lines = []
  truth : f.truth = sh.truth

/-- The segment the code draws: `x` is the least squares solution and `a` a unit vector orthogonal to
the row of `A`. -/
def CodeLine (A : Matrix (Fin 1) (Fin 2) ℝ) (b y : Fin 1 → ℝ) (m : Fin 2 → ℝ)
    (S : Matrix (Fin 2) (Fin 2) ℝ) (C : Matrix (Fin 1) (Fin 1) ℝ) (α : ℝ) (l : (ℝ × ℝ) × (ℝ × ℝ)) : Prop :=
  ∃ x a : Fin 2 → ℝ, Returns (Api.solve "ls" A b y m S C α) x ∧ A 0 0 * a 0 + A 0 1 * a 1 = 0 ∧
    a 0 ^ 2 + a 1 ^ 2 = 1 ∧ l = ((x 0 - a 0, x 0 - a 1), (x 1 + a 0, x 1 + a 1))

/-- The arguments `A, b, y, mean_i, cov_i, cov_o, alpha`. -/
def args {d : ℕ} (A : Matrix (Fin d) (Fin 2) ℝ) (b y : Fin d → ℝ) (m : Fin 2 → ℝ)
    (S : Matrix (Fin 2) (Fin 2) ℝ) (C : Matrix (Fin d) (Fin d) ℝ) (α : ℝ) : Args :=
  { A := some (.mat ⟨d, 2, A⟩), b := some (.vec d b), y := some (.vec d y), mean_i := some (.vec 2 m)
    cov_i := some ⟨2, 2, S⟩, cov_o := some ⟨d, d, C⟩, alpha := some α }

/-! ## Evaluation -/

theorem step_bind {σ α β : Type} {x : PyM σ α} {f : α → PyM σ β} {s s' : σ} {a : α}
    (h : x s = (.ok a, s')) : (x >>= f) s = f a s' := by
  rw [PyM.bind_run, h]

theorem step_error {σ α β : Type} {x : PyM σ α} {f : α → PyM σ β} {s s' : σ} {e : Err}
    (h : x s = (.error e, s')) : (x >>= f) s = (.error e, s') := by
  rw [PyM.bind_run, h]

section
variable {d : ℕ} (A : Matrix (Fin d) (Fin 2) ℝ) (b y : Fin d → ℝ) (m : Fin 2 → ℝ)
  (S : Matrix (Fin 2) (Fin 2) ℝ) (C : Matrix (Fin d) (Fin d) ℝ) (α : ℝ)

/-- The problem after the three solves. -/
noncomputable def solved : LGP :=
  { LGP.typed A b y m S C α with
    mud := some (.col (mudF A (y - b - A *ᵥ m) m (α • S)))
    map := some (.col (m + ((mapH A (α • S) C)⁻¹ * Aᵀ * C⁻¹) *ᵥ (y - b - A *ᵥ m)))
    cov_p := some ⟨2, 2, (mapH A (α • S) C)⁻¹⟩
    ls := some (.col (mpinv A *ᵥ (y - b))) }

/-- The three solution points. -/
noncomputable def solPt (pt : String) : Fin 2 → ℝ :=
  if pt = "mud" then mudF A (y - b - A *ᵥ m) m (α • S)
  else if pt = "map" then m + ((mapH A (α • S) C)⁻¹ * Aᵀ * C⁻¹) *ᵥ (y - b - A *ᵥ m)
  else mpinv A *ᵥ (y - b)

theorem same_locals {Q : LGP} (hs : SameProblem Q (LGP.typed A b y m S C α)) :
    Q.locals none = .ok (.typed A b y C (y - b - A *ᵥ m) (α • S)) := by
  rw [← locals_typed]
  obtain ⟨h1, h2, h3, h4, h5, h6, h7⟩ := hs
  simp only [LGP.locals, h1, h2, h3, h4, h5, h6, h7]

theorem solved_same : SameProblem (solved A b y m S C α) (LGP.typed A b y m S C α) :=
  ⟨rfl, rfl, rfl, rfl, rfl, rfl, rfl⟩

variable (hC : C.det ≠ 0) (hS : (α • S).det ≠ 0) (hH : (mapH A (α • S) C).det ≠ 0)

theorem run_mud {Q : LGP} (hs : SameProblem Q (LGP.typed A b y m S C α)) :
    LGP.solve "mud" none Q = (.ok (.arr (.col (mudF A (y - b - A *ᵥ m) m (α • S)))),
      { Q with mud := some (.col (mudF A (y - b - A *ᵥ m) m (α • S))) }) := by
  rw [solve_mud _ _ (same_locals A b y m S C α hs), mudBranch_typed _ _ _ _ _ m _ _ hs.2.2.2.1]

include hC hS hH in
theorem run_map {Q : LGP} (hs : SameProblem Q (LGP.typed A b y m S C α)) :
    LGP.solve "map" none Q =
      (.ok (.arr (.col (m + ((mapH A (α • S) C)⁻¹ * Aᵀ * C⁻¹) *ᵥ (y - b - A *ᵥ m)))),
      { Q with
        map := some (.col (m + ((mapH A (α • S) C)⁻¹ * Aᵀ * C⁻¹) *ᵥ (y - b - A *ᵥ m)))
        cov_p := some ⟨2, 2, (mapH A (α • S) C)⁻¹⟩ }) := by
  rw [solve_map _ _ (same_locals A b y m S C α hs), mapBranch_typed _ _ _ _ _ m _ _ hs.2.2.2.1,
    if_neg (by rw [not_or, not_or]; exact ⟨hC, hS, hH⟩)]

theorem run_ls {Q : LGP} (hs : SameProblem Q (LGP.typed A b y m S C α)) :
    LGP.solve "ls" none Q = (.ok (.arr (.col (mpinv A *ᵥ (y - b)))),
      { Q with ls := some (.col (mpinv A *ᵥ (y - b))) }) := by
  rw [solve_ls _ _ (same_locals A b y m S C α hs), lsBranch_typed]

include hC hS hH in
/-- The three solves at the start. -/
theorem start_run {β : Type} (k : PyM LGP β) :
    (do
      let _ ← LGP.solve "mud"
      let _ ← LGP.solve "map"
      let _ ← LGP.solve "ls"
      k : PyM LGP β) (LGP.typed A b y m S C α) = k (solved A b y m S C α) := by
  refine (step_bind (run_mud A b y m S C α (SameProblem.rfl' _))).trans ?_
  refine (step_bind (run_map A b y m S C α hC hS hH ?_)).trans ?_
  · exact ⟨rfl, rfl, rfl, rfl, rfl, rfl, rfl⟩
  refine (step_bind (run_ls A b y m S C α ?_)).trans rfl
  exact ⟨rfl, rfl, rfl, rfl, rfl, rfl, rfl⟩

include hC hS hH in
/-- Later solves find and store the same points. -/
theorem solve_solved {pt : String} (hp : pt = "mud" ∨ pt = "map" ∨ pt = "ls") :
    LGP.solve pt none (solved A b y m S C α) =
      (.ok (.arr (.col (solPt A b y m S C α pt))), solved A b y m S C α) := by
  have l := same_locals A b y m S C α (solved_same A b y m S C α)
  rcases hp with rfl | rfl | rfl
  · rw [solve_mud _ _ l, mudBranch_typed _ _ _ _ _ m _ _ rfl]
    rfl
  · rw [solve_map _ _ l, mapBranch_typed _ _ _ _ _ m _ _ rfl,
      if_neg (by rw [not_or, not_or]; exact ⟨hC, hS, hH⟩)]
    rfl
  · rw [solve_ls _ _ l, lsBranch_typed]
    rfl

include hC hS hH in
theorem solPt_returns {pt : String} (hp : pt = "mud" ∨ pt = "map" ∨ pt = "ls") :
    Returns (Api.solve pt A b y m S C α) (solPt A b y m S C α pt) := by
  rcases hp with rfl | rfl | rfl
  · exact api_mud ..
  · exact api_map A b y m S C α hC hS hH
  · exact api_ls ..

/-- The line drawn to the marked point. -/
def lineTo (withLine : Bool) (x : Fin 2 → ℝ) : Option ((ℝ × ℝ) × (ℝ × ℝ)) :=
  if withLine then some ((m 0, m 1), (x 0, x 1)) else none

include hC hS hH in
theorem mark_solved {pt : String} (hp : pt = "mud" ∨ pt = "map" ∨ pt = "ls") (withLine : Bool) :
    mark pt withLine (solved A b y m S C α) =
      (.ok (pt, ⟨[(solPt A b y m S C α pt 0, solPt A b y m S C α pt 1)],
        lineTo m withLine (solPt A b y m S C α pt)⟩), solved A b y m S C α) := by
  have hi : pt ≠ "initial" := by rcases hp with rfl | rfl | rfl <;> decide
  set x := solPt A b y m S C α pt with hx
  have h1 : LGP.plotPt pt withLine (solved A b y m S C α) = (.ok (.col x), solved A b y m S C α) := by
    unfold LGP.plotPt
    rw [if_neg hi]
    exact step_bind (solve_solved A b y m S C α hC hS hH hp)
  have hl : LGP.plotLine pt withLine (solved A b y m S C α) (.col x) =
      .ok (lineTo m withLine x) := by
    have f0 := fun z : Fin 2 → ℝ => flatAt_col z 0
    have f1 := fun z : Fin 2 → ℝ => flatAt_col z 1
    have e : ∀ z : Fin 2 → ℝ, (Arr2.col z).flatAt 0 = .ok (z 0) := f0
    have e' : ∀ z : Fin 2 → ℝ, (Arr2.col z).flatAt 1 = .ok (z 1) := f1
    have hm : (solved A b y m S C α).mean_i = Arr2.col m := rfl
    cases withLine
    · simp [LGP.plotLine, lineTo]
    · simp [LGP.plotLine, hi, hm, e, e', lineTo]
  have r0 : (Arr2.col x).rowList 0 = .ok [x 0] := rowList_col x 0
  have r1 : (Arr2.col x).rowList 1 = .ok [x 1] := rowList_col x 1
  have h2 : LGP.plotSol pt withLine (solved A b y m S C α) =
      (.ok ⟨[(x 0, x 1)], lineTo m withLine x⟩, solved A b y m S C α) := by
    unfold LGP.plotSol
    rw [step_bind h1, r0, PyM.lift_ok_bind, r1, PyM.lift_ok_bind, PyM.get_bind_run, hl, PyM.lift_ok_bind]
    rfl
  unfold mark
  rw [step_bind h2]
  rfl

theorem mark_initial (withLine : Bool) :
    mark "initial" withLine (solved A b y m S C α) =
      (.ok ("initial", ⟨[(m 0, m 1)], none⟩), solved A b y m S C α) := by
  have r0 : (Arr2.col m).rowList 0 = .ok [m 0] := rowList_col m 0
  have r1 : (Arr2.col m).rowList 1 = .ok [m 1] := rowList_col m 1
  have hm : (solved A b y m S C α).mean_i = Arr2.col m := rfl
  have h2 : LGP.plotSol "initial" withLine (solved A b y m S C α) =
      (.ok ⟨[(m 0, m 1)], none⟩, solved A b y m S C α) := by
    simp [LGP.plotSol, LGP.plotPt, LGP.plotLine, PyM.bind_run, hm, r0, r1]
  unfold mark
  rw [step_bind h2]
  rfl

theorem plotFun_solved (terms : String) : (solved A b y m S C α).plotFunContours none terms 250 1 =
    Api.funContours A b y m S C α none terms 250 1 := by
  rw [Api.funContours, Api.new, new_typed, Py.ok_bind]
  rfl

end

/-! ## One observation -/

theorem mahal_one (C : Matrix (Fin 1) (Fin 1) ℝ) (u v : Fin 1 → ℝ) :
    mahal C u v = (u 0 - v 0) ^ 2 / C 0 0 := by
  rw [mahal, Matrix.inv_subsingleton]
  simp [dotProduct, mulVec, Matrix.diagonal]
  ring

section
variable {A : Matrix (Fin 1) (Fin 2) ℝ} (b y : Fin 1 → ℝ) (m : Fin 2 → ℝ)
  {S : Matrix (Fin 2) (Fin 2) ℝ} {C : Matrix (Fin 1) (Fin 1) ℝ} {α : ℝ}

/-- The residual the code uses: the offset enters twice. -/
def codeRes (A : Matrix (Fin 1) (Fin 2) ℝ) (b y : Fin 1 → ℝ) (x : Fin 2 → ℝ) : ℝ :=
  A 0 0 * x 0 + A 0 1 * x 1 + 2 * b 0 - y 0

/-- The documented residual. -/
def docRes (A : Matrix (Fin 1) (Fin 2) ℝ) (b y : Fin 1 → ℝ) (x : Fin 2 → ℝ) : ℝ :=
  A 0 0 * x 0 + A 0 1 * x 1 + b 0 - y 0

theorem fullRank_of_ne (hA : A ≠ 0) : FullRowRank A := by
  have h : A 0 0 ≠ 0 ∨ A 0 1 ≠ 0 := by
    by_contra hc
    rw [not_or, not_not, not_not] at hc
    apply hA
    ext i j
    fin_cases i
    fin_cases j
    · exact hc.1
    · exact hc.2
  intro v
  rcases h with h | h
  · refine ⟨![v 0 / A 0 0, 0], ?_⟩
    ext i
    fin_cases i
    simp [mulVec, dotProduct, Fin.sum_univ_two]
    field_simp
  · refine ⟨![0, v 0 / A 0 1], ?_⟩
    ext i
    fin_cases i
    simp [mulVec, dotProduct, Fin.sum_univ_two]
    field_simp

/-- The names of the functionals drawn. -/
def drawnTerms : List String := ["data", "reg", "reg_m", "bayes", "dc"]

theorem functional_value (hA : A ≠ 0) (hS : S.PosDef) (hC : C.PosDef) {t : String} (ht : t ∈ drawnTerms)
    (x : Fin 2 → ℝ) : Api.functionals A b y m S C α (oneSample x) t =
      .ok (.one (.vec 1 fun _ => value A m S C α (codeRes A b y x) t x)) := by
  have hP := posDef_conj hS A (fullRank_of_ne hA).inj
  rw [functionals_eval A b y m S C α (oneSample x) (.inl rfl) (posDef_det_ne hC) (posDef_det_ne hS)
    (posDef_det_ne hP) t]
  have hd : ∀ j, fData A b y C (oneSample x) j = codeRes A b y x ^ 2 / C 0 0 := by
    intro j
    rw [fData, mahal_one, obsFor_one]
    congr 2
    simp [codeRes, oneSample, mulVec, dotProduct, Fin.sum_univ_two]
    ring
  have hr : ∀ j, fReg m S α (oneSample x) j = α * mahal S x m := fun j => rfl
  have hk : ∀ j, fDc A m S α (oneSample x) j =
      α * (A 0 0 * (x 0 - m 0) + A 0 1 * (x 1 - m 1)) ^ 2 / (A * S * Aᵀ) 0 0 := by
    intro j
    rw [fDc, mahal_one, mul_div_assoc]
    congr 3
    simp [oneSample, mulVec, dotProduct, Fin.sum_univ_two]
    ring
  have h : t = "data" ∨ t = "reg" ∨ t = "reg_m" ∨ t = "bayes" ∨ t = "dc" := by
    simpa [drawnTerms] using ht
  congr 1
  rcases h with rfl | rfl | rfl | rfl | rfl
  · simp [value]
    funext j
    exact hd j
  · simp [value]
    funext j
    exact hr j
  · simp [value, hk, hr]
  · simp [value, hd, hr]
  · simp [value, hd, hr, hk]
    funext j
    ring

theorem one_vec_inj {v w : Fin 1 → ℝ}
    (h : (Except.ok (.one (.vec 1 v)) : Py FunRes) = .ok (.one (.vec 1 w))) : v = w := by
  injection h with h
  injection h with h
  injection h with _ h

theorem surface_solved (hA : A ≠ 0) (hS : S.PosDef) (hC : C.PosDef) {t : String} (ht : t ∈ drawnTerms) :
    ∃ s, surface t (solved A b y m S C α) = (.ok s, solved A b y m S C α) ∧
      SurfaceOf A m S C α (codeRes A b y) t s := by
  have ht' : t ∈ termNames := by
    have : t = "data" ∨ t = "reg" ∨ t = "reg_m" ∨ t = "bayes" ∨ t = "dc" := by
      simpa [drawnTerms] using ht
    rcases this with rfl | rfl | rfl | rfl | rfl <;> simp [termNames]
  obtain ⟨Z, hZ, hv⟩ := C77_contours_partial A (fullRank_of_ne hA) b y m S hS C hC α 1 250 t ht'
  refine ⟨⟨t, .of fun _ c => c * 1 / (250 - 1 : ℕ), .of fun i _ => i * 1 / (250 - 1 : ℕ), Z⟩, ?_, rfl,
    fun i c => ⟨?_, ?_, ?_⟩⟩
  · unfold surface
    rw [PyM.get_bind_run, plotFun_solved, hZ, PyM.lift_ok_bind]
    rfl
  · show (c : ℝ) * 1 / ((250 - 1 : ℕ) : ℝ) = _
    simp [gridAt]
  · show (i : ℝ) * 1 / ((250 - 1 : ℕ) : ℝ) = _
    simp [gridAt]
  · have h := hv i c
    have e : (![(c : ℝ) * 1 / ((250 - 1 : ℕ) : ℝ), (i : ℝ) * 1 / ((250 - 1 : ℕ) : ℝ)] : Fin 2 → ℝ) =
        gridAt i c := by
      simp [gridAt]
    rw [e, functional_value b y m hA hS hC ht] at h
    exact (congrFun (one_vec_inj h) 0).symm

theorem lines_solved (hA : A ≠ 0) (hC : C.det ≠ 0) (hS : (α • S).det ≠ 0)
    (hH : (mapH A (α • S) C).det ≠ 0) {svd1 : (Fin 2 → ℝ) → SvdOut 1 2}
    (hsvd : ∀ r, IsSvd (.of fun _ => r) (svd1 r)) :
    ∃ l, solContours svd1 1 (solved A b y m S C α) = (.ok [l], solved A b y m S C α) ∧
      CodeLine A b y m S C α l := by
  set x := solPt A b y m S C α "ls" with hx
  have hrow : ∀ i : Fin 1, A i ≠ 0 := by
    intro i h0
    apply hA
    ext k j
    rw [Subsingleton.elim k i, h0]
    rfl
  obtain ⟨a, ha, horth⟩ := plotContours_ok (A := A) (o := fun i => svd1 (A i)) x 1 one_ne_zero hrow
    (fun i => hsvd (A i))
  refine ⟨contourSegment x (a 0) 1, ?_, x, a 0,
    solPt_returns A b y m S C α hC hS hH (.inr (.inr rfl)), (horth 0).1, (horth 0).2, ?_⟩
  · unfold solContours
    rw [step_bind (solve_solved A b y m S C α hC hS hH (.inr (.inr rfl)))]
    change (do
      let P ← PyM.get
      PyM.lift (raiseIf (P.A.c ≠ 2) .unmodelled)
      PyM.lift (plotContours (m := P.A.r) (fun i => svd1 fun j => P.A.get i j)
        (fun j => (Arr2.col x).get j 0) 1) : PyM LGP _) (solved A b y m S C α) = _
    rw [PyM.get_bind_run]
    have hc : ¬ ((solved A b y m S C α).A.c ≠ 2) := by simp [solved, LGP.typed]
    rw [raiseIf_false hc, PyM.lift_ok_bind]
    have e1 : (fun i : Fin (solved A b y m S C α).A.r => svd1 fun j : Fin 2 =>
        (solved A b y m S C α).A.get i j) = fun i : Fin 1 => svd1 (A i) := by
      funext i
      congr 1
      funext j
      exact Arr2.get_mk A i j
    have e2 : (fun j : Fin 2 => (Arr2.col x).get j 0) = x := by
      funext j
      exact Arr2.get_mk _ j (0 : Fin 1)
    rw [PyM.lift_run, e2]
    have e3 : plotContours (m := (solved A b y m S C α).A.r) (fun i => svd1 fun j : Fin 2 =>
        (solved A b y m S C α).A.get i j) x 1 = .ok [contourSegment x (a 0) 1] := by
      rw [e1]
      refine ha.trans ?_
      simp
    rw [e3]
  · simp [contourSegment]

/-- The figures are drawn as the sheets say. -/
theorem calls_solved (hA : A ≠ 0) (hS : S.PosDef) (hC : C.PosDef) (hα : 0 < α)
    {svd1 : (Fin 2 → ℝ) → SvdOut 1 2} (hsvd : ∀ r, IsSvd (.of fun _ => r) (svd1 r)) :
    List.Forall₂ (fun (sh : Sheet) (x : PyM LGP Figure) => ∃ f,
      x (solved A b y m S C α) = (.ok f, solved A b y m S C α) ∧
        FigureOf A b y m S C α (codeRes A b y) (CodeLine A b y m S C α) sh f) sheets
      [callMismatch svd1, callTikhonov, callConsistent, callMap svd1, callMud svd1, callComparison svd1] := by
  have hSα : (α • S).PosDef := hS.smul hα
  have hC' := posDef_det_ne hC
  have hS' := posDef_det_ne hSα
  have hH' : (mapH A (α • S) C).det ≠ 0 := posDef_det_ne (map_posDef hSα hC)
  obtain ⟨d, hd, hd'⟩ := surface_solved (α := α) b y m hA hS hC (t := "data") (by simp [drawnTerms])
  obtain ⟨r, hr, hr'⟩ := surface_solved (α := α) b y m hA hS hC (t := "reg") (by simp [drawnTerms])
  obtain ⟨g, hg, hg'⟩ := surface_solved (α := α) b y m hA hS hC (t := "reg_m") (by simp [drawnTerms])
  obtain ⟨e, he, he'⟩ := surface_solved (α := α) b y m hA hS hC (t := "bayes") (by simp [drawnTerms])
  obtain ⟨c, hc, hc'⟩ := surface_solved (α := α) b y m hA hS hC (t := "dc") (by simp [drawnTerms])
  obtain ⟨l, hl, hl'⟩ := lines_solved b y m hA hC' hS' hH' hsvd
  have ss : ∀ (pt : String) (wl : Bool), (pt = "mud" ∨ pt = "map" ∨ pt = "ls") →
      ∃ q, mark pt wl (solved A b y m S C α) = (.ok q, solved A b y m S C α) ∧
        SolOf A b y m S C α (pt, wl) q := by
    intro pt wl h
    refine ⟨_, mark_solved A b y m S C α hC' hS' hH' h wl, rfl, fun hp => ?_,
      fun _ => ⟨_, solPt_returns A b y m S C α hC' hS' hH' h, rfl⟩⟩
    rcases h with rfl | rfl | rfl <;> simp at hp
  obtain ⟨qi, hi, si⟩ : ∃ q, mark "initial" true (solved A b y m S C α) = (.ok q, solved A b y m S C α) ∧
      SolOf A b y m S C α ("initial", true) q :=
    ⟨_, mark_initial A b y m S C α true, rfl, fun _ => rfl, fun h => absurd rfl h⟩
  obtain ⟨qs, hls, sls⟩ := ss "ls" true (.inr (.inr rfl))
  obtain ⟨qp, hmap, smap⟩ := ss "map" false (.inr (.inl rfl))
  obtain ⟨qu, hmud, smud⟩ := ss "mud" true (.inl rfl)
  refine .cons ⟨⟨"data_mismatch_contour.png", [d], [], [l], none⟩, ?_, ?_⟩ (.cons
    ⟨⟨"tikhonov_contour.png", [r], [qi], [], none⟩, ?_, ?_⟩ (.cons
    ⟨⟨"consistent_contour.png", [g], [qi], [], none⟩, ?_, ?_⟩ (.cons
    ⟨⟨"classical_solution.png", [e, d], [qi, qs, qp], [l], none⟩, ?_, ?_⟩ (.cons
    ⟨⟨"consistent_solution.png", [c, d], [qi, qs, qu], [l], none⟩, ?_, ?_⟩ (.cons
    ⟨⟨"map_compare_contour.png", [e, d], [qi, qs, qp, qu], [l], some (0.7, 0.3)⟩, ?_, ?_⟩ .nil)))))
  · unfold callMismatch
    rw [step_bind hd, step_bind hl]
    rfl
  · exact ⟨rfl, .cons hd' .nil, .nil, fun _ => ⟨l, rfl, hl'⟩, fun h => by simp at h, rfl⟩
  · unfold callTikhonov
    rw [step_bind hr, step_bind hi]
    rfl
  · exact ⟨rfl, .cons hr' .nil, .cons si .nil, fun h => by simp at h, fun _ => rfl, rfl⟩
  · unfold callConsistent
    rw [step_bind hg, step_bind hi]
    rfl
  · exact ⟨rfl, .cons hg' .nil, .cons si .nil, fun h => by simp at h, fun _ => rfl, rfl⟩
  · unfold callMap
    rw [step_bind he, step_bind hd, step_bind hi, step_bind hls, step_bind hmap, step_bind hl]
    rfl
  · exact ⟨rfl, .cons he' (.cons hd' .nil), .cons si (.cons sls
      (.cons smap .nil)), fun _ => ⟨l, rfl, hl'⟩, fun h => by simp at h, rfl⟩
  · unfold callMud
    rw [step_bind hc, step_bind hd, step_bind hi, step_bind hls, step_bind hmud, step_bind hl]
    rfl
  · exact ⟨rfl, .cons hc' (.cons hd' .nil), .cons si (.cons sls
      (.cons smud .nil)), fun _ => ⟨l, rfl, hl'⟩, fun h => by simp at h, rfl⟩
  · unfold callComparison
    rw [step_bind he, step_bind hd, step_bind hi, step_bind hls, step_bind hmap, step_bind hmud,
      step_bind hl]
    rfl
  · exact ⟨rfl, .cons he' (.cons hd' .nil), .cons si (.cons sls
      (.cons smap (.cons smud .nil))), fun _ => ⟨l, rfl, hl'⟩,
      fun h => by simp at h, rfl⟩

end

theorem figIf_run {x : PyM LGP Figure} {s : LGP} {f : Figure} (h : x s = (.ok f, s)) (w : Bool) :
    figIf w x s = (.ok (if w then [f] else []), s) := by
  cases w
  · rfl
  · exact step_bind h

theorem filter_forall₂ {R : Sheet → Figure → Prop} {sh : Sheet} {f : Figure} (h : R sh f) (w : Sheet → Bool) :
    List.Forall₂ R ([sh].filter w) (if w sh then [f] else []) := by
  cases hw : w sh
  · simp [hw]
  · simp [hw, h]

theorem forall₂_append {α β : Type} {R : α → β → Prop} {a c : List α} {b d : List β}
    (h : List.Forall₂ R a b) (h' : List.Forall₂ R c d) : List.Forall₂ R (a ++ c) (b ++ d) := by
  induction h with
  | nil => exact h'
  | cons h1 _ ih => exact .cons h1 ih

/-- **C118.** For every problem with one observation: `run_contours` returns the problem, solved by the three
methods, and draws exactly the requested figures, in order, each with the functionals, the points and the
solution contour its sheet lists; with a path, each is saved under its name. -/
theorem C118_figures (A : Matrix (Fin 1) (Fin 2) ℝ) (hA : A ≠ 0) (b y : Fin 1 → ℝ) (m : Fin 2 → ℝ)
    (S : Matrix (Fin 2) (Fin 2) ℝ) (hS : S.PosDef) (C : Matrix (Fin 1) (Fin 1) ℝ) (hC : C.PosDef)
    (α : ℝ) (hα : 0 < α) (svd1 : (Fin 2 → ℝ) → SvdOut 1 2) (hsvd : ∀ r, IsSvd (.of fun _ => r) (svd1 r))
    (plot_fig : Option PlotFig) (save : Bool) :
    ∃ out, runContours svd1 plot_fig save (args A b y m S C α) = .ok out ∧
      Api.new A b y m S C α = .ok { out.prob with mud := none, map := none, cov_p := none, ls := none } ∧
      (∃ u v w : Fin 2 → ℝ, Returns (Api.solve "mud" A b y m S C α) u ∧ out.prob.mud = some (.col u) ∧
        Returns (Api.solve "map" A b y m S C α) v ∧ out.prob.map = some (.col v) ∧
        Returns (Api.solve "ls" A b y m S C α) w ∧ out.prob.ls = some (.col w)) ∧
      List.Forall₂ (FigureOf A b y m S C α (codeRes A b y) (CodeLine A b y m S C α))
        (sheets.filter fun sh => wanted plot_fig sh.name) out.figs ∧
      out.saved = if save then (sheets.filter fun sh => wanted plot_fig sh.name).map (·.file) else [] := by
  have hSα : (α • S).PosDef := hS.smul hα
  have hC' := posDef_det_ne hC
  have hS' := posDef_det_ne hSα
  have hH' : (mapH A (α • S) C).det ≠ 0 := posDef_det_ne (map_posDef hSα hC)
  have hcalls := calls_solved b y m hA hS hC hα hsvd
  rcases hcalls with _ | ⟨⟨f1, e1, g1⟩, _ | ⟨⟨f2, e2, g2⟩, _ | ⟨⟨f3, e3, g3⟩, _ | ⟨⟨f4, e4, g4⟩,
    _ | ⟨⟨f5, e5, g5⟩, _ | ⟨⟨f6, e6, g6⟩, _⟩⟩⟩⟩⟩⟩
  set P := solved A b y m S C α with hP
  have hrun : figures svd1 plot_fig (LGP.typed A b y m S C α) =
      (.ok ((if wanted plot_fig "data_mismatch" then [f1] else []) ++
        (if wanted plot_fig "tikhonov" then [f2] else []) ++
        (if wanted plot_fig "consistent" then [f3] else []) ++
        (if wanted plot_fig "map" then [f4] else []) ++
        (if wanted plot_fig "mud" then [f5] else []) ++
        (if wanted plot_fig "comparison" then [f6] else [])), P) := by
    unfold figures
    rw [start_run A b y m S C α hC' hS' hH', step_bind (figIf_run e1 _), step_bind (figIf_run e2 _),
      step_bind (figIf_run e3 _), step_bind (figIf_run e4 _), step_bind (figIf_run e5 _),
      step_bind (figIf_run e6 _)]
    rfl
  have hF : List.Forall₂ (FigureOf A b y m S C α (codeRes A b y) (CodeLine A b y m S C α))
      (sheets.filter fun sh => wanted plot_fig sh.name)
      ((if wanted plot_fig "data_mismatch" then [f1] else []) ++
        (if wanted plot_fig "tikhonov" then [f2] else []) ++
        (if wanted plot_fig "consistent" then [f3] else []) ++
        (if wanted plot_fig "map" then [f4] else []) ++
        (if wanted plot_fig "mud" then [f5] else []) ++
        (if wanted plot_fig "comparison" then [f6] else [])) := by
    have hs : ∀ (a b c d e f : Sheet) (w : Sheet → Bool), [a, b, c, d, e, f].filter w =
        [a].filter w ++ [b].filter w ++ [c].filter w ++ [d].filter w ++ [e].filter w ++ [f].filter w := by
      intro a b c d e f w
      rw [← List.filter_append, ← List.filter_append, ← List.filter_append, ← List.filter_append,
        ← List.filter_append]
      rfl
    rw [sheets, hs]
    exact forall₂_append (forall₂_append (forall₂_append (forall₂_append (forall₂_append
      (filter_forall₂ g1 fun sh => wanted plot_fig sh.name) (filter_forall₂ g2 fun sh => wanted plot_fig sh.name))
      (filter_forall₂ g3 fun sh => wanted plot_fig sh.name))
      (filter_forall₂ g4 fun sh => wanted plot_fig sh.name))
      (filter_forall₂ g5 fun sh => wanted plot_fig sh.name))
      (filter_forall₂ g6 fun sh => wanted plot_fig sh.name)
  have hnew : newProblem (args A b y m S C α) = .ok (LGP.typed A b y m S C α) := new_typed A b y m S C α
  have hfile : ∀ {shs : List Sheet} {fs : List Figure},
      List.Forall₂ (FigureOf A b y m S C α (codeRes A b y) (CodeLine A b y m S C α)) shs fs →
      fs.map (·.file) = shs.map (·.file) := by
    intro shs fs h
    induction h with
    | nil => rfl
    | cons h1 _ ih => rw [List.map_cons, List.map_cons, ih, h1.file]
  refine ⟨⟨P, _, if save then (sheets.filter fun sh => wanted plot_fig sh.name).map (·.file) else []⟩, ?_, ?_,
    ?_, hF, ?_⟩
  · unfold runContours
    rw [hnew, Py.ok_bind, hrun]
    show Except.ok (Out.mk _ _ _) = _
    rw [hfile hF]
  · exact new_typed A b y m S C α
  · exact ⟨_, _, _, api_mud .., rfl, api_map A b y m S C α hC' hS' hH', rfl, api_ls .., rfl⟩
  · rfl

end Contours

end Verif
