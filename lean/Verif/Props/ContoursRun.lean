import Verif.Props.Contours
import Verif.Props.MoreData
import Verif.Lemmas.Small

/-!
# Property C118, continued: the points, the solution contour, defaults and errors
-/

open Matrix

namespace Verif

namespace Contours

section
variable {A : Matrix (Fin 1) (Fin 2) ℝ} {b y : Fin 1 → ℝ} {m : Fin 2 → ℝ}
  {S : Matrix (Fin 2) (Fin 2) ℝ} {C : Matrix (Fin 1) (Fin 1) ℝ} {α : ℝ}

/-- The variance of the prediction, `A S Aᵀ`. -/
noncomputable def predVar (A : Matrix (Fin 1) (Fin 2) ℝ) (S : Matrix (Fin 2) (Fin 2) ℝ) : ℝ :=
  A 0 0 * (S 0 0 * A 0 0 + S 0 1 * A 0 1) + A 0 1 * (S 1 0 * A 0 0 + S 1 1 * A 0 1)

/-- The misfit of the initial mean. -/
def gap (A : Matrix (Fin 1) (Fin 2) ℝ) (b y : Fin 1 → ℝ) (m : Fin 2 → ℝ) : ℝ :=
  y 0 - b 0 - (A 0 0 * m 0 + A 0 1 * m 1)

theorem predVar_eq : (A * S * Aᵀ) 0 0 = predVar A S := by
  simp [Matrix.mul_apply, Fin.sum_univ_two, predVar]
  ring

theorem predVar_pos (hA : A ≠ 0) (hS : S.PosDef) : 0 < predVar A S := by
  have h := (posDef_conj hS A (fullRank_of_ne hA).inj).det_pos
  rwa [Matrix.det_fin_one, predVar_eq] at h

theorem inv_one_apply (M : Matrix (Fin 1) (Fin 1) ℝ) : M⁻¹ 0 0 = (M 0 0)⁻¹ := by
  rw [Matrix.inv_subsingleton]
  simp [Matrix.diagonal]

theorem mud_one (hA : A ≠ 0) (hS : S.PosDef) (z : Fin 1 → ℝ) (j : Fin 2) :
    mudF A z m S j = m j + (S j 0 * A 0 0 + S j 1 * A 0 1) * z 0 / predVar A S := by
  have hP := posDef_conj hS A (fullRank_of_ne hA).inj
  rw [mudF, mpinv_of_isUnit_det (posDef_isUnit_det hP)]
  have : (S * Aᵀ * (A * S * Aᵀ)⁻¹) j 0 = (S j 0 * A 0 0 + S j 1 * A 0 1) / predVar A S := by
    rw [Matrix.mul_apply, Fin.sum_univ_one, inv_one_apply, predVar_eq]
    simp [Matrix.mul_apply, Fin.sum_univ_two]
    rw [div_eq_mul_inv]
  simp only [Pi.add_apply, mulVec, dotProduct, Fin.sum_univ_one, this]
  ring

theorem map_one (hA : A ≠ 0) (hS : S.PosDef) (hC : C.PosDef) (z : Fin 1 → ℝ) (j : Fin 2) :
    (m + ((mapH A S C)⁻¹ * Aᵀ * C⁻¹) *ᵥ z) j =
      m j + (S j 0 * A 0 0 + S j 1 * A 0 1) * z 0 / (predVar A S + C 0 0) := by
  have hH : (mapH A S C).PosDef := map_posDef hS hC
  have hq := predVar_pos hA hS
  have hc : 0 < C 0 0 := by have := hC.det_pos; rwa [Matrix.det_fin_one] at this
  set k : Fin 2 → ℝ := (z 0 / (predVar A S + C 0 0)) • (S *ᵥ (fun i => A 0 i)) with hk
  have hSk : S⁻¹ *ᵥ k = (z 0 / (predVar A S + C 0 0)) • (fun i => A 0 i) := by
    rw [hk, mulVec_smul, mulVec_mulVec, nonsing_inv_mul _ (posDef_isUnit_det hS), one_mulVec]
  have hAk : (A *ᵥ k) 0 = z 0 / (predVar A S + C 0 0) * predVar A S := by
    simp [hk, mulVec, dotProduct, Fin.sum_univ_two, predVar]
    ring
  have e : mapH A S C *ᵥ k = (Aᵀ * C⁻¹) *ᵥ z := by
    rw [mapH, add_mulVec, hSk, ← mulVec_mulVec, ← mulVec_mulVec]
    funext i
    have h1 : (C⁻¹ *ᵥ (A *ᵥ k)) = fun _ => (C 0 0)⁻¹ * (z 0 / (predVar A S + C 0 0) * predVar A S) := by
      funext u
      rw [Subsingleton.elim u 0]
      simp only [mulVec, dotProduct, Fin.sum_univ_one, inv_one_apply] at hAk ⊢
      rw [hAk]
    have h2 : (C⁻¹ *ᵥ z) = fun _ => (C 0 0)⁻¹ * z 0 := by
      funext u
      rw [Subsingleton.elim u 0]
      simp [mulVec, dotProduct]
    rw [← mulVec_mulVec, h1, h2]
    simp only [Pi.add_apply, Pi.smul_apply, mulVec, dotProduct, Fin.sum_univ_one, transpose_apply, smul_eq_mul]
    have : predVar A S + C 0 0 ≠ 0 := by positivity
    field_simp
  have e2 : ((mapH A S C)⁻¹ * Aᵀ * C⁻¹) *ᵥ z = k := by
    rw [Matrix.mul_assoc, ← mulVec_mulVec, ← e, mulVec_mulVec, nonsing_inv_mul _ (posDef_isUnit_det hH),
      one_mulVec]
  rw [e2, Pi.add_apply, hk]
  simp [mulVec, dotProduct, Fin.sum_univ_two]
  ring

/-- **C118, the marked points** for one observation, in closed form. -/
theorem C118_points (hA : A ≠ 0) (hS : S.PosDef) (hC : C.PosDef) (hα : 0 < α) (b y : Fin 1 → ℝ) (m : Fin 2 → ℝ) :
    Returns (Api.solve "mud" A b y m S C α)
      (fun j => m j + (S j 0 * A 0 0 + S j 1 * A 0 1) * gap A b y m / predVar A S) ∧
    Returns (Api.solve "map" A b y m S C α)
      (fun j => m j + α * (S j 0 * A 0 0 + S j 1 * A 0 1) * gap A b y m / (α * predVar A S + C 0 0)) ∧
    Returns (Api.solve "ls" A b y m S C α)
      (fun j => A 0 j * (y 0 - b 0) / (A 0 0 ^ 2 + A 0 1 ^ 2)) := by
  have hSα : (α • S).PosDef := hS.smul hα
  have hg : (y - b - A *ᵥ m) 0 = gap A b y m := by
    simp [gap, mulVec, dotProduct, Fin.sum_univ_two]
  have hp : predVar A (α • S) = α * predVar A S := by
    simp [predVar]
    ring
  refine ⟨?_, ?_, ?_⟩
  · have h := api_mud' A b y m S C α hα.ne'
    have e : mudF A (y - b - A *ᵥ m) m S =
        fun j => m j + (S j 0 * A 0 0 + S j 1 * A 0 1) * gap A b y m / predVar A S := by
      funext j
      rw [mud_one hA hS, hg]
    rwa [e] at h
  · have h := api_map A b y m S C α (posDef_det_ne hC) (posDef_det_ne hSα)
      (posDef_det_ne (map_posDef hSα hC))
    have e : m + ((mapH A (α • S) C)⁻¹ * Aᵀ * C⁻¹) *ᵥ (y - b - A *ᵥ m) =
        fun j => m j + α * (S j 0 * A 0 0 + S j 1 * A 0 1) * gap A b y m / (α * predVar A S + C 0 0) := by
      funext j
      rw [map_one hA hSα hC, hg, hp]
      simp only [Matrix.smul_apply, smul_eq_mul]
      ring
    rwa [e] at h
  · obtain ⟨x₀, h₀⟩ := fullRank_of_ne hA (y - b)
    obtain ⟨x, hx, hx'⟩ := ls_eq_mud A b y m S C α ⟨x₀, by rw [h₀]; abel⟩
    have h1 := returns_unique hx' (api_mud' A b y 0 1 1 1 one_ne_zero)
    have e : x = fun j => A 0 j * (y 0 - b 0) / (A 0 0 ^ 2 + A 0 1 ^ 2) := by
      rw [h1]
      funext j
      rw [mud_one hA PosDef.one]
      have : predVar A 1 = A 0 0 ^ 2 + A 0 1 ^ 2 := by
        simp [predVar]
        ring
      rw [this]
      revert j
      rw [Fin.forall_fin_two]
      constructor <;> simp
    rwa [e] at hx

/-- **C118, the solution contour.** Both ends of the segment drawn are data consistent exactly when the
data equal the offset or the two sensitivities are equal. -/
theorem C118_line_exact (hA : A ≠ 0) (hS : S.PosDef) (hC : C.PosDef) (hα : 0 < α)
    {l : (ℝ × ℝ) × (ℝ × ℝ)} (hl : CodeLine A b y m S C α l) :
    (OnSolution A b y l.1 ∧ OnSolution A b y l.2) ↔ (y 0 = b 0 ∨ A 0 0 = A 0 1) := by
  obtain ⟨x, a, hx, ho, -, rfl⟩ := hl
  have e := returns_unique hx (C118_points hA hS hC hα b y m).2.2
  have h0 : x 0 = A 0 0 * (y 0 - b 0) / (A 0 0 ^ 2 + A 0 1 ^ 2) := by rw [e]
  have h1 : x 1 = A 0 1 * (y 0 - b 0) / (A 0 0 ^ 2 + A 0 1 ^ 2) := by rw [e]
  have hn : 0 < A 0 0 ^ 2 + A 0 1 ^ 2 := by
    have := predVar_pos hA (PosDef.one (n := Fin 2) (R := ℝ))
    have h2 : predVar A 1 = A 0 0 ^ 2 + A 0 1 ^ 2 := by
      simp [predVar]
      ring
    rwa [h2] at this
  have hd : x 0 - x 1 = (A 0 0 - A 0 1) * (y 0 - b 0) / (A 0 0 ^ 2 + A 0 1 ^ 2) := by
    rw [h0, h1]
    ring
  have hx' : A 0 0 * x 0 + A 0 1 * x 1 = y 0 - b 0 := by
    rw [h0, h1]
    field_simp
  have key : x 0 = x 1 ↔ (y 0 = b 0 ∨ A 0 0 = A 0 1) := by
    rw [← sub_eq_zero, hd, div_eq_zero_iff, mul_eq_zero, sub_eq_zero, sub_eq_zero]
    constructor
    · rintro ((h | h) | h)
      · exact .inr h
      · exact .inl h
      · exact absurd h hn.ne'
    · rintro (h | h)
      · exact .inl (.inr h)
      · exact .inl (.inl h)
  rw [← key]
  unfold OnSolution
  constructor
  · rintro ⟨g1, g2⟩
    have k1 : A 0 1 * (x 0 - x 1) = 0 := by simp only at g1; linarith
    have k2 : A 0 0 * (x 0 - x 1) = 0 := by simp only at g2; linarith
    have : (A 0 0 ^ 2 + A 0 1 ^ 2) * (x 0 - x 1) = 0 := by
      have := congrArg (A 0 1 * ·) k1
      have := congrArg (A 0 0 * ·) k2
      simp only at *
      nlinarith
    rcases mul_eq_zero.1 this with h | h
    · exact absurd h hn.ne'
    · exact sub_eq_zero.1 h
  · intro h
    constructor
    · simp only
      rw [← h] at hx'
      linarith
    · simp only
      rw [h] at hx'
      linarith

end

/-! ## The documented claim -/

/-- The claim: the surfaces show the documented functionals (residual `A x + b - y`) and the line drawn
consists of data-consistent parameters, for every problem with one observation. -/
def C118_claim : Prop :=
  ∀ (A : Matrix (Fin 1) (Fin 2) ℝ) (_ : A ≠ 0) (b y : Fin 1 → ℝ) (m : Fin 2 → ℝ)
    (S : Matrix (Fin 2) (Fin 2) ℝ) (_ : S.PosDef) (C : Matrix (Fin 1) (Fin 1) ℝ) (_ : C.PosDef)
    (α : ℝ) (_ : 0 < α) (svd1 : (Fin 2 → ℝ) → SvdOut 1 2) (_ : ∀ r, IsSvd (.of fun _ => r) (svd1 r))
    (plot_fig : Option PlotFig) (save : Bool),
    ∃ out, runContours svd1 plot_fig save (args A b y m S C α) = .ok out ∧
      List.Forall₂ (FigureOf A b y m S C α (docRes A b y)
          fun l => OnSolution A b y l.1 ∧ OnSolution A b y l.2)
        (sheets.filter fun sh => wanted plot_fig sh.name) out.figs

theorem FigureOf.mono {A : Matrix (Fin 1) (Fin 2) ℝ} {b y : Fin 1 → ℝ} {m : Fin 2 → ℝ}
    {S : Matrix (Fin 2) (Fin 2) ℝ} {C : Matrix (Fin 1) (Fin 1) ℝ} {α : ℝ} {res res' : (Fin 2 → ℝ) → ℝ}
    {line line' : (ℝ × ℝ) × (ℝ × ℝ) → Prop} {sh : Sheet} {f : Figure}
    (h : FigureOf A b y m S C α res line sh f) (hr : res = res') (hl : ∀ l, line l → line' l) :
    FigureOf A b y m S C α res' line' sh f := by
  subst hr
  exact ⟨h.file, h.surfaces, h.sols, fun hc => (h.contour hc).imp fun l hl' => ⟨hl'.1, hl _ hl'.2⟩,
    h.no_contour, h.truth⟩

/-- **C118, the part that holds**: without an offset and with equal sensitivities the figures show what is
documented. (This is the case of the defaults whatever `y`, `mean_i`, `cov_i`, `cov_o` and `alpha` are.) -/
theorem C118_documented_partial (A : Matrix (Fin 1) (Fin 2) ℝ) (hA : A ≠ 0) (heq : A 0 0 = A 0 1)
    (y : Fin 1 → ℝ) (m : Fin 2 → ℝ) (S : Matrix (Fin 2) (Fin 2) ℝ) (hS : S.PosDef)
    (C : Matrix (Fin 1) (Fin 1) ℝ) (hC : C.PosDef) (α : ℝ) (hα : 0 < α)
    (svd1 : (Fin 2 → ℝ) → SvdOut 1 2) (hsvd : ∀ r, IsSvd (.of fun _ => r) (svd1 r))
    (plot_fig : Option PlotFig) (save : Bool) :
    ∃ out, runContours svd1 plot_fig save (args A 0 y m S C α) = .ok out ∧
      List.Forall₂ (FigureOf A 0 y m S C α (docRes A 0 y)
          fun l => OnSolution A 0 y l.1 ∧ OnSolution A 0 y l.2)
        (sheets.filter fun sh => wanted plot_fig sh.name) out.figs := by
  obtain ⟨out, h, -, -, hF, -⟩ := C118_figures A hA 0 y m S hS C hC α hα svd1 hsvd plot_fig save
  refine ⟨out, h, hF.imp fun sh f hf => hf.mono ?_ fun l hl =>
    (C118_line_exact hA hS hC hα hl).2 (.inr heq)⟩
  funext x
  simp [codeRes, docRes]

theorem svd1_exists : ∃ svd1 : (Fin 2 → ℝ) → SvdOut 1 2, ∀ r, IsSvd (.of fun _ => r) (svd1 r) :=
  Classical.axiom_of_choice fun r : Fin 2 → ℝ => exists_isSvd (.of fun _ : Fin 1 => r)

/-- **The claim is false of the code**: with `x₀ + 2 x₁ = 1` the line drawn is not the set of solutions. -/
theorem C118_claim_refuted : ¬ C118_claim := by
  intro h
  obtain ⟨svd1, hsvd⟩ := svd1_exists
  have hA : (!![1, 2] : Matrix (Fin 1) (Fin 2) ℝ) ≠ 0 := fun h0 => by
    have := congrFun (congrFun h0 0) 0
    simp at this
  obtain ⟨out, ho, hF⟩ := h !![1, 2] hA ![0] ![1] ![0, 0] 1 PosDef.one 1 PosDef.one 1 one_pos svd1 hsvd
    (some (.names ["data_mismatch"])) false
  obtain ⟨out', ho', -, -, hF', -⟩ := C118_figures !![1, 2] hA ![0] ![1] ![0, 0] 1 PosDef.one 1 PosDef.one 1
    one_pos svd1 hsvd (some (.names ["data_mismatch"])) false
  rw [ho] at ho'
  cases ho'
  have hs : (sheets.filter fun sh => wanted (some (.names ["data_mismatch"])) sh.name) =
      [⟨"data_mismatch", "data_mismatch_contour.png", ["data"], [], true, none⟩] := by
    simp [sheets, wanted, PlotFig.has]
  rw [hs] at hF hF'
  obtain ⟨f, fs, h1, -, e1⟩ := List.forall₂_cons_left_iff.1 hF
  obtain ⟨f', fs', h2, -, e2⟩ := List.forall₂_cons_left_iff.1 hF'
  rw [e1] at e2
  cases e2
  obtain ⟨l, hl, hd⟩ := h1.contour rfl
  obtain ⟨l', hl', hc⟩ := h2.contour rfl
  rw [hl] at hl'
  cases hl'
  rcases (C118_line_exact hA PosDef.one PosDef.one one_pos hc).1 hd with h | h
  · simp at h
  · simp at h

/-! ## Arguments -/

/-- Arguments that are not passed have their documented values. -/
theorem C118_defaults (svd1 : (Fin 2 → ℝ) → SvdOut 1 2) (plot_fig : Option PlotFig) (save : Bool) (kw : Args) :
    runContours svd1 plot_fig save kw = runContours svd1 plot_fig save
      { A := some (kw.A.getD (.mat ⟨1, 2, !![1, 1]⟩))
        b := some (kw.b.getD (.vec 1 ![0]))
        y := some (kw.y.getD (.vec 1 ![1]))
        mean_i := some (kw.mean_i.getD (.vec 2 ![0.25, 0.25]))
        cov_i := some (kw.cov_i.getD ⟨2, 2, !![1, -0.25; -0.25, 0.5]⟩)
        cov_o := some (kw.cov_o.getD ⟨1, 1, !![1]⟩)
        alpha := some (kw.alpha.getD 1) } ∧
    runContours svd1 none save kw = runContours svd1 (some (.names ["all"])) save kw := by
  refine ⟨?_, rfl⟩
  have hcol1 : ∀ a : ℝ, (NArr.mat ⟨1, 1, !![a]⟩).toCol = (NArr.vec 1 ![a]).toCol := by
    intro a
    refine congrArg (Arr2.mk 1 1) ?_
    ext i j
    fin_cases i
    fin_cases j
    simp
  have hcol2 : (NArr.mat ⟨2, 1, !![0.25; 0.25]⟩).toCol = (NArr.vec 2 ![0.25, 0.25]).toCol := by
    refine congrArg (Arr2.mk 2 1) ?_
    ext i j
    fin_cases j
    have hall : ∀ k : Fin 2, (Matrix.vecCons (0.25 : ℝ) (fun _ => 0.25) : Fin 2 → ℝ) k = 0.25 := by
      intro k
      fin_cases k <;> rfl
    fin_cases i <;> (simp; exact hall _)
  have hb : (kw.b.getD (.mat ⟨1, 1, !![0]⟩)).toCol = (kw.b.getD (.vec 1 ![0])).toCol := by
    cases kw.b
    · exact hcol1 0
    · rfl
  have hy : (kw.y.getD (.mat ⟨1, 1, !![1]⟩)).toCol = (kw.y.getD (.vec 1 ![1])).toCol := by
    cases kw.y
    · exact hcol1 1
    · rfl
  have hm : (kw.mean_i.getD (.mat ⟨2, 1, !![0.25; 0.25]⟩)).toCol =
      (kw.mean_i.getD (.vec 2 ![0.25, 0.25])).toCol := by
    cases kw.mean_i
    · exact hcol2
    · rfl
  unfold runContours newProblem
  simp only [Option.getD_some, LGP.new, hb, hy, hm]

/-- A text contains a word. -/
def Contains (s w : String) : Prop := ∃ u v : List Char, s.toList = u ++ w.toList ++ v

/-- Is a figure asked for? By default all are; with a list those listed, or all of them if "all" is listed; with a
text those whose names it contains, or all of them if it contains "all". -/
def Asked : Option PlotFig → String → Prop
  | none, _ => True
  | some (.names l), name => name ∈ l ∨ "all" ∈ l
  | some (.text s), name => Contains s name ∨ Contains s "all"

theorem has_text (s name : String) : (PlotFig.text s).has name = true ↔ Contains s name := by
  simp only [PlotFig.has, List.any_eq_true, List.mem_tails, List.isPrefixOf_iff_prefix, Contains]
  constructor
  · rintro ⟨t, ⟨u, hu⟩, ⟨v, hv⟩⟩
    exact ⟨u, v, by rw [← hu, ← hv, List.append_assoc]⟩
  · rintro ⟨u, v, h⟩
    exact ⟨name.toList ++ v, ⟨u, by rw [h, List.append_assoc]⟩, ⟨v, rfl⟩⟩

/-- The figures drawn are those asked for. -/
theorem C118_requested (plot_fig : Option PlotFig) (name : String) :
    wanted plot_fig name = true ↔ Asked plot_fig name := by
  unfold wanted
  rw [Bool.or_eq_true]
  match plot_fig with
  | none => simp [PlotFig.has, Asked]
  | some (.names l) => simp [PlotFig.has, Asked]
  | some (.text s) => exact or_congr (has_text s name) (has_text s "all")

example : wanted (some (.text "data_mismatch, map")) "map" = true :=
  (C118_requested _ _).2 (.inl ⟨"data_mismatch, ".toList, [], by decide⟩)

/-- The default problem: MUD (0.625, 0.375), MAP (0.4375, 0.3125), least squares (0.5, 0.5). -/
theorem C118_default_run (svd1 : (Fin 2 → ℝ) → SvdOut 1 2) (hsvd : ∀ r, IsSvd (.of fun _ => r) (svd1 r))
    (plot_fig : Option PlotFig) (save : Bool) :
    ∃ out, runContours svd1 plot_fig save {} = .ok out ∧ out.prob.mud = some (.col ![0.625, 0.375]) ∧
      out.prob.map = some (.col ![0.4375, 0.3125]) ∧ out.prob.ls = some (.col ![0.5, 0.5]) ∧
      out.figs.length = (sheets.filter fun sh => wanted plot_fig sh.name).length := by
  have hA : (!![1, 1] : Matrix (Fin 1) (Fin 2) ℝ) ≠ 0 := fun h0 => by
    have := congrFun (congrFun h0 0) 0
    simp at this
  have hS : (!![1, -0.25; -0.25, 0.5] : Matrix (Fin 2) (Fin 2) ℝ).PosDef :=
    posDef_fin_two one_pos (by norm_num)
  have hC : (!![1] : Matrix (Fin 1) (Fin 1) ℝ).PosDef := posDef_fin_one one_pos
  obtain ⟨out, h, -, ⟨u, v, w, hu, hu', hv, hv', hw, hw'⟩, hF, -⟩ :=
    C118_figures !![1, 1] hA ![0] ![1] ![0.25, 0.25] _ hS _ hC 1 one_pos svd1 hsvd plot_fig save
  obtain ⟨p1, p2, p3⟩ := C118_points hA hS hC one_pos ![0] ![1] ![0.25, 0.25]
  refine ⟨out, (C118_defaults svd1 plot_fig save {}).1.trans h, ?_, ?_, ?_, hF.length_eq.symm⟩
  · rw [hu', returns_unique hu p1]
    congr 2
    funext j
    fin_cases j <;> norm_num [gap, predVar]
  · rw [hv', returns_unique hv p2]
    congr 2
    funext j
    fin_cases j <;> norm_num [gap, predVar]
  · rw [hw', returns_unique hw p3]
    congr 2
    funext j
    fin_cases j <;> norm_num

/-- Several observations: any requested figure raises `ValueError` (the number of observations must also
differ from the 62500 points of the grid); with none requested the problem is solved and returned. -/
theorem C118_several {d : ℕ} (A : Matrix (Fin d) (Fin 2) ℝ) (b y : Fin d → ℝ) (m : Fin 2 → ℝ)
    (S : Matrix (Fin 2) (Fin 2) ℝ) (hS : S.PosDef) (C : Matrix (Fin d) (Fin d) ℝ) (hC : C.PosDef)
    (α : ℝ) (hα : 0 < α) (hd : d ≠ 1) (hd' : d ≠ 62500) (svd1 : (Fin 2 → ℝ) → SvdOut 1 2)
    (plot_fig : Option PlotFig) (save : Bool) :
    ((∃ sh ∈ sheets, wanted plot_fig sh.name = true) →
      runContours svd1 plot_fig save (args A b y m S C α) = .error .valueError) ∧
    ((∀ sh ∈ sheets, wanted plot_fig sh.name = false) →
      ∃ out, runContours svd1 plot_fig save (args A b y m S C α) = .ok out ∧ out.figs = [] ∧
        out.saved = []) := by
  have hSα : (α • S).PosDef := hS.smul hα
  have hC' := posDef_det_ne hC
  have hS' := posDef_det_ne hSα
  have hH' : (mapH A (α • S) C).det ≠ 0 := posDef_det_ne (map_posDef hSα hC)
  have hnew : newProblem (args A b y m S C α) = .ok (LGP.typed A b y m S C α) := new_typed A b y m S C α
  set P := solved A b y m S C α with hP
  have hsurf : ∀ t, surface t P = (.error .valueError, P) := by
    intro t
    unfold surface
    rw [PyM.get_bind_run, plotFun_solved,
      C77_several_observations A b y m S C α 1 250 t hd (by norm_num) (by omega)]
    rfl
  have h1 : callMismatch svd1 P = (.error .valueError, P) := step_error (hsurf _)
  have h2 : callTikhonov P = (.error .valueError, P) := step_error (hsurf _)
  have h3 : callConsistent P = (.error .valueError, P) := step_error (hsurf _)
  have h4 : callMap svd1 P = (.error .valueError, P) := step_error (hsurf _)
  have h5 : callMud svd1 P = (.error .valueError, P) := step_error (hsurf _)
  have h6 : callComparison svd1 P = (.error .valueError, P) := step_error (hsurf _)
  have hno : ∀ x : PyM LGP Figure, figIf false x P = (.ok [], P) := fun x => rfl
  have hyes : ∀ {x : PyM LGP Figure}, x P = (.error .valueError, P) →
      figIf true x P = (.error .valueError, P) := fun h => step_error h
  have hrun : figures svd1 plot_fig (LGP.typed A b y m S C α) = (do
      let f1 ← figIf (wanted plot_fig "data_mismatch") (callMismatch svd1)
      let f2 ← figIf (wanted plot_fig "tikhonov") callTikhonov
      let f3 ← figIf (wanted plot_fig "consistent") callConsistent
      let f4 ← figIf (wanted plot_fig "map") (callMap svd1)
      let f5 ← figIf (wanted plot_fig "mud") (callMud svd1)
      let f6 ← figIf (wanted plot_fig "comparison") (callComparison svd1)
      return f1 ++ f2 ++ f3 ++ f4 ++ f5 ++ f6 : PyM LGP (List Figure)) P := by
    unfold figures
    rw [start_run A b y m S C α hC' hS' hH']
  have key : (∃ sh ∈ sheets, wanted plot_fig sh.name = true) ∧
      figures svd1 plot_fig (LGP.typed A b y m S C α) = (.error .valueError, P) ∨
      figures svd1 plot_fig (LGP.typed A b y m S C α) = (.ok [], P) ∧
      ∀ sh ∈ sheets, wanted plot_fig sh.name = false := by
    rw [hrun]
    cases w1 : wanted plot_fig "data_mismatch"
    swap
    · exact .inl ⟨⟨_, List.mem_cons_self, w1⟩, step_error (hyes h1)⟩
    rw [step_bind (hno _)]
    cases w2 : wanted plot_fig "tikhonov"
    swap
    · exact .inl ⟨⟨_, List.mem_cons_of_mem _ List.mem_cons_self, w2⟩, step_error (hyes h2)⟩
    rw [step_bind (hno _)]
    cases w3 : wanted plot_fig "consistent"
    swap
    · exact .inl ⟨⟨_, List.mem_cons_of_mem _ (List.mem_cons_of_mem _ List.mem_cons_self), w3⟩,
        step_error (hyes h3)⟩
    rw [step_bind (hno _)]
    cases w4 : wanted plot_fig "map"
    swap
    · exact .inl ⟨⟨_, List.mem_cons_of_mem _ (List.mem_cons_of_mem _ (List.mem_cons_of_mem _
        List.mem_cons_self)), w4⟩, step_error (hyes h4)⟩
    rw [step_bind (hno _)]
    cases w5 : wanted plot_fig "mud"
    swap
    · exact .inl ⟨⟨_, List.mem_cons_of_mem _ (List.mem_cons_of_mem _ (List.mem_cons_of_mem _
        (List.mem_cons_of_mem _ List.mem_cons_self))), w5⟩, step_error (hyes h5)⟩
    rw [step_bind (hno _)]
    cases w6 : wanted plot_fig "comparison"
    swap
    · exact .inl ⟨⟨_, List.mem_cons_of_mem _ (List.mem_cons_of_mem _ (List.mem_cons_of_mem _
        (List.mem_cons_of_mem _ (List.mem_cons_of_mem _ List.mem_cons_self)))), w6⟩, step_error (hyes h6)⟩
    rw [step_bind (hno _)]
    refine .inr ⟨rfl, ?_⟩
    intro sh hsh
    simp only [sheets, List.mem_cons, List.not_mem_nil, or_false] at hsh
    rcases hsh with rfl | rfl | rfl | rfl | rfl | rfl
    · exact w1
    · exact w2
    · exact w3
    · exact w4
    · exact w5
    · exact w6
  constructor
  · rintro ⟨sh, hsh, hw⟩
    rcases key with ⟨-, e⟩ | ⟨-, h⟩
    · unfold runContours
      rw [hnew, Py.ok_bind, e]
      rfl
    · rw [h sh hsh] at hw
      cases hw
  · intro hn
    rcases key with ⟨⟨sh, hsh, hw⟩, -⟩ | ⟨e, -⟩
    · rw [hn sh hsh] at hw
      cases hw
    · refine ⟨⟨P, [], []⟩, ?_, rfl, rfl⟩
      unfold runContours
      rw [hnew, Py.ok_bind, e]
      cases save <;> rfl

/-- The two calls of `mud_paper`: a string asks for the figures whose name it contains. -/
example : (∀ sh ∈ sheets, wanted (some (.text "all")) sh.name = true) ∧
    ∀ sh ∈ sheets, wanted (some (.text "comparison")) sh.name = decide (sh.name = "comparison") := by
  constructor <;> intro sh hsh <;> simp only [sheets, List.mem_cons, List.not_mem_nil, or_false] at hsh <;>
    rcases hsh with rfl | rfl | rfl | rfl | rfl | rfl <;> rfl

/-- A concrete case: the problem of the fifth figure of the paper; the hypotheses of `C118_documented_partial`
hold. -/
example : ∃ svd1 : (Fin 2 → ℝ) → SvdOut 1 2, ∃ out,
    runContours svd1 (some (.text "comparison")) true
      (args !![1, 1] 0 ![1] ![0.25, 0.25] !![1, -0.5; -0.5, 0.5] !![0.5] 1) = .ok out ∧
    out.figs.length = 1 := by
  obtain ⟨svd1, hsvd⟩ := svd1_exists
  have hA : (!![1, 1] : Matrix (Fin 1) (Fin 2) ℝ) ≠ 0 := fun h0 => by
    have := congrFun (congrFun h0 0) 0
    simp at this
  obtain ⟨out, h, hF⟩ := C118_documented_partial !![1, 1] hA (by simp) ![1] ![0.25, 0.25]
    !![1, -0.5; -0.5, 0.5] (posDef_fin_two one_pos (by norm_num)) !![0.5] (posDef_fin_one (by norm_num)) 1
    one_pos svd1 hsvd (some (.text "comparison")) true
  exact ⟨svd1, out, h, hF.length_eq.symm⟩

/-- C118: the points of `x + y = 1` from the mean `(1/4, 1/4)`. -/
example : Returns (Api.solve "mud" (!![1, 1] : Matrix (Fin 1) (Fin 2) ℝ) ![0] ![1] ![1 / 4, 1 / 4]
    !![1, -1 / 4; -1 / 4, 1 / 2] !![1] 1) ![5 / 8, 3 / 8] := by
  have hA : (!![1, 1] : Matrix (Fin 1) (Fin 2) ℝ) ≠ 0 := fun h0 => by
    have := congrFun (congrFun h0 0) 0
    simp at this
  convert (Contours.C118_points hA (posDef_fin_two (a := 1) (b := -1 / 4) (c := 1 / 2) one_pos (by norm_num))
    (posDef_fin_one (a := 1) one_pos) one_pos ![0] ![1] ![1 / 4, 1 / 4]).1 using 1
  ext j
  fin_cases j <;> norm_num [Contours.gap, Contours.predVar]

/-- C118: two outputs. -/
example (svd1 : (Fin 2 → ℝ) → SvdOut 1 2) (save : Bool) : runContours svd1 (some (.text "all")) save
    (args (1 : Matrix (Fin 2) (Fin 2) ℝ) 0 1 0 1 1 1) = .error .valueError :=
  (C118_several (1 : Matrix (Fin 2) (Fin 2) ℝ) 0 1 0 1 PosDef.one 1 PosDef.one 1 one_pos (by norm_num) (by norm_num)
    svd1 (some (.text "all")) save).1 ⟨_, List.mem_cons_self, rfl⟩

end Contours

end Verif
