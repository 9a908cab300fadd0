import Verif.Props.NearestSample
import Verif.Props.LeastSquares

/-!
# C151: `mud_problem` and `map_problem` on the same samples, with growing data
-/

open MeasureTheory Filter Topology
open scoped Matrix

namespace Verif

open SpecST SpecFuns Funs

variable {σ : Type} {n p : ℕ} {user : ℕ → ℝ → ℕ → ℝ}

/-! ## Specification -/

/-- `n` samples `X` in `p` dimensions with weights `w`, the box `Dm`, the predictions `q i l` of sample `i` for measurement
`l`, true values `tr l`, and the standard deviation of the measurements. -/
structure Survey (n p : ℕ) where
  X : Matrix (Fin n) (Fin p) ℝ
  Dm : Matrix (Fin p) (Fin 2) ℝ
  w : Fin n → ℝ
  q : Fin n → ℕ → ℝ
  tr : ℕ → ℝ
  sd : ℝ

/-- `mud_problem(lam, qoi, qoi_true, domain, sd, weights=w).estimate()` with the first `N` measurements. -/
noncomputable def Survey.mud (V : Survey n p) (user : ℕ → ℝ → ℕ → ℝ) (G : Rng σ) (s : σ) (N : ℕ) : Py (List ℝ) := do
  let P ← (mudProblem G (.mat ⟨n, p, V.X⟩) (.mat ⟨n, N, .of fun i l => V.q i l⟩) ((List.range N).map V.tr)
    (some (.mat ⟨p, 2, V.Dm⟩)) V.sd none none (some (.vec n V.w)) s).1
  (DP.mudPoint (scipyEnv user) P).1

/-- `map_problem(lam, qoi, qoi_true, domain, sd).estimate()` with the first `N` measurements. -/
noncomputable def Survey.map (V : Survey n p) (G : Rng σ) (s : σ) (N : ℕ) : Py (List ℝ) := do
  let P ← (mapProblem G (.mat ⟨n, p, V.X⟩) (.mat ⟨n, N, .of fun i l => V.q i l⟩) ((List.range N).map V.tr)
    (some (.mat ⟨p, 2, V.Dm⟩)) V.sd none false s).1
  (BP.mapPoint P).1

/-- Measurement `l`: the true value plus `sd` times the `l`-th number drawn. -/
noncomputable def Survey.datum (V : Survey n p) (G : Rng σ) (s : σ) (l : ℕ) : ℝ := V.tr l + V.sd * nthDraw G s l

/-- The box. -/
def Survey.box (V : Survey n p) : Set (Fin p → ℝ) := Set.Icc (fun j => V.Dm j 0) (fun j => V.Dm j 1)

/-- Box, weights and standard deviation make sense. -/
structure Survey.Proper (V : Survey n p) : Prop where
  two : 2 ≤ n
  dom : ∀ j, V.Dm j 0 < V.Dm j 1
  weights : ∀ i, 0 < V.w i
  sd : 0 < V.sd

/-- The average of the first terms converges to `x`. -/
def MeanTo (f : ℕ → ℝ) (x : ℝ) : Prop := Tendsto (fun N : ℕ => (∑ l ∈ Finset.range N, f l) / N) atTop (𝓝 x)

/-! ## Lemmas -/

theorem range_sum (f : ℕ → ℝ) (N : ℕ) : ((List.range N).map f).sum = ∑ l ∈ Finset.range N, f l := by
  induction N with
  | zero => rfl
  | succ N ih => rw [Finset.sum_range_succ, List.range_succ, List.map_append, List.sum_append, ih]; simp

theorem Survey.mud_wme (V : Survey n p) (G : Rng σ) (s : σ) (hV : 0 < V.sd) {N : ℕ} (hN : 0 < N) {Y : Matrix (Fin n) (Fin 1) ℝ}
    (hY : WmeTable (fun i _ l => V.q i l) (fun _ => V.datum G s) (fun _ => V.sd) N Y) :
    V.mud user G s N = (do
      let P ← DP.new (.mat ⟨n, p, V.X⟩) (.mat ⟨n, 1, Y⟩) (some (.mat ⟨p, 2, V.Dm⟩)) (some (.vec n V.w))
      (DP.mudPoint (scipyEnv user) P).1) := by
  unfold Survey.mud
  rw [C67_mud G _ _ _ _ V.sd none _ s hV.ne' (k := N) rfl hN le_rfl (by simp)]
  have e : Arr2.col (fun i : Fin n => errorOver G s ⟨n, N, .of fun i l => V.q i l⟩ ((List.range N).map V.tr) V.sd (List.range N) i) =
      ⟨n, 1, Y⟩ := by
    unfold Arr2.col
    congr 1
    ext i j
    have h1 := hY j
    rw [C21_formula _ _ _ hV.ne' hN] at h1
    have h2 := F.fin.inj (congrFun (List.ofFn_injective (Except.ok.inj h1)) i)
    rw [Subsingleton.elim j 0] at h2 ⊢
    rw [← h2]
    show (((List.range N).map (misfit G s ⟨n, N, .of fun i l => V.q i l⟩ ((List.range N).map V.tr) V.sd i)).sum /
      (V.sd * Real.sqrt (List.range N).length)) = _
    rw [List.length_range, div_eq_mul_one_div, mul_comm, range_sum]
    congr 1
    rw [Finset.sum_range]
    refine Finset.sum_congr rfl fun l _ => ?_
    simp [misfit, Survey.datum, Arr2.get]
  rw [e]
  rfl

/-- The sums of squares of `map_problem`. -/
theorem Survey.squares_eq (V : Survey n p) (G : Rng σ) (s : σ) {N : ℕ} (i : Fin n) :
    squares G s ⟨n, N, .of fun i l => V.q i l⟩ ((List.range N).map V.tr) V.sd N i =
      ∑ l ∈ Finset.range N, (V.q i l - V.datum G s l) ^ 2 := by
  refine Finset.sum_congr rfl fun l hl => ?_
  have := Finset.mem_range.1 hl
  simp [misfit, Survey.datum, Arr2.get, this]

theorem Survey.map_squares (V : Survey n p) (G : Rng σ) (s : σ) (hV : V.Proper) (hin : ∃ i, V.X i ∈ V.box) {N : ℕ} (hN : 0 < N) :
    ∃ m, V.map G s N = .ok (List.ofFn (V.X m)) ∧ V.X m ∈ V.box ∧ ∀ i, V.X i ∈ V.box →
      ∑ l ∈ Finset.range N, (V.q m l - V.datum G s l) ^ 2 ≤ ∑ l ∈ Finset.range N, (V.q i l - V.datum G s l) ^ 2 := by
  obtain ⟨b, m, hb, hm, hmB, h⟩ := C150_least_squares (G := G) V.X (.of fun i (l : Fin N) => V.q i l) ((List.range N).map V.tr) V.Dm
    hV.dom hV.sd none s rfl hN le_rfl (by simp) hin
  refine ⟨m, ?_, hmB, fun i hi => ?_⟩
  · unfold Survey.map
    rw [hb, Py.ok_bind, hm]
  · rw [← V.squares_eq, ← V.squares_eq]
    exact (h i hi).1

theorem spread_one {c : Fin n → ℝ} {i j : Fin n} (h : c i ≠ c j) :
    ∀ u : Fin 1 → ℝ, (∃ x, ∀ i, u ⬝ᵥ (fun _ : Fin 1 => c i) = x) → u = 0 := by
  rintro u ⟨x, hx⟩
  have h1 := hx i
  have h2 := hx j
  simp [dotProduct] at h1 h2
  have h3 : u 0 * (c i - c j) = 0 := by linarith
  funext l
  rw [Subsingleton.elim l 0]
  exact (mul_eq_zero.1 h3).resolve_right (sub_ne_zero.2 h)

/-! ## C151 -/

/-- **C151**, `mud_problem`: the sample in the domain with the smallest difference of the means. -/
theorem C151_mud (V : Survey n p) (hV : V.Proper) (hin : ∃ i, V.X i ∈ V.box) (G : Rng σ) (s : σ) {qb : Fin n → ℝ}
    (hq : ∀ i, MeanTo (V.q i) (qb i)) (hne : ∃ i j, qb i ≠ qb j) {t : ℝ} (hd : MeanTo (V.datum G s) t) :
    ∀ᶠ N in atTop, ∃ m, V.mud user G s N = .ok (List.ofFn (V.X m)) ∧ V.X m ∈ V.box ∧
      ∀ i, V.X i ∈ V.box → |qb m - t| ≤ |qb i - t| := by
  obtain ⟨a, b, hab⟩ := hne
  have h := C148_nearest (user := user) (k := 1) hV.two one_pos V.X (fun i _ l => V.q i l) (fun i _ => qb i) (fun i _ => hq i)
    (spread_one hab) V.Dm hV.dom V.w hV.weights (fun _ => V.sd) (fun _ => hV.sd) (fun _ => V.datum G s) (fun _ => t) (fun _ => hd)
  filter_upwards [h, eventually_gt_atTop 0] with N hN hN0
  obtain ⟨Y, P, m, hY, hP, hm, hmin⟩ := hN
  obtain ⟨i0, hi0⟩ := hin
  refine ⟨m, ?_, (hmin i0 hi0).1, fun i hi => ?_⟩
  · rw [V.mud_wme G s hV.sd hN0 hY, hP, Py.ok_bind, hm]
  · have h1 := (hmin i hi).2
    simp only [misfitTo, Finset.univ_unique, Finset.sum_singleton, div_pow] at h1
    rw [div_le_div_iff_of_pos_right (pow_pos hV.sd 2)] at h1
    exact sq_le_sq.1 h1

/-- **C151**, `map_problem`: the sample in the domain with the smallest mean of the squared differences. -/
theorem C151_map (V : Survey n p) (hV : V.Proper) (hin : ∃ i, V.X i ∈ V.box) (G : Rng σ) (s : σ) {v : Fin n → ℝ}
    (hv : ∀ i, MeanTo (fun l => (V.q i l - V.datum G s l) ^ 2) (v i)) :
    ∀ᶠ N in atTop, ∃ m, V.map G s N = .ok (List.ofFn (V.X m)) ∧ V.X m ∈ V.box ∧ ∀ i, V.X i ∈ V.box → v m ≤ v i := by
  have key : ∀ᶠ N : ℕ in atTop, ∀ i m : Fin n, v i < v m →
      (∑ l ∈ Finset.range N, (V.q i l - V.datum G s l) ^ 2) / N < (∑ l ∈ Finset.range N, (V.q m l - V.datum G s l) ^ 2) / N := by
    rw [eventually_all]; intro i
    rw [eventually_all]; intro m
    by_cases him : v i < v m
    · filter_upwards [(hv i).eventually_lt (hv m) him] with N hN _ using hN
    · exact .of_forall fun N h => absurd h him
  filter_upwards [key, eventually_gt_atTop 0] with N hN hN0
  have hNr : (0 : ℝ) < N := by exact_mod_cast hN0
  obtain ⟨m, h1, h2, h3⟩ := V.map_squares G s hV hin hN0
  refine ⟨m, h1, h2, fun i hi => ?_⟩
  by_contra hlt
  have h4 := hN i m (not_le.1 hlt)
  rw [div_lt_div_iff_of_pos_right hNr] at h4
  exact absurd (h3 i hi) (not_le.2 h4)

/-- **C151**, the full claim: the two agree from some number of measurements on, when the means of predictions, data and
squared differences converge and one sample in the domain is nearest in the mean. -/
def C151_claim (user : ℕ → ℝ → ℕ → ℝ) : Prop :=
  ∀ (σ : Type) (n p : ℕ) (V : Survey n p) (_ : V.Proper) (G : Rng σ) (s : σ) (qb v : Fin n → ℝ) (t : ℝ) (m : Fin n),
    (∀ i, MeanTo (V.q i) (qb i)) → (∃ i j, qb i ≠ qb j) → MeanTo (V.datum G s) t →
    (∀ i, MeanTo (fun l => (V.q i l - V.datum G s l) ^ 2) (v i)) →
    V.X m ∈ V.box → (∀ i, i ≠ m → V.X i ∈ V.box → |qb m - t| < |qb i - t|) →
    ∀ᶠ N in atTop, V.mud user G s N = V.map G s N

/-- **C151.** True when each sample predicts the same value for all measurements (repeated measurements of one quantity): both
choose the sample in the domain that is nearest to the mean of the data. -/
theorem C151_partial (V : Survey n p) (hV : V.Proper) (G : Rng σ) (s : σ) {c : Fin n → ℝ} (hc : ∀ i l, V.q i l = c i)
    (hne : ∃ i j, c i ≠ c j) {t : ℝ} (hd : MeanTo (V.datum G s) t) {m : Fin n} (hm : V.X m ∈ V.box)
    (hnear : ∀ i, i ≠ m → V.X i ∈ V.box → |c m - t| < |c i - t|) :
    ∀ᶠ N in atTop, V.mud user G s N = .ok (List.ofFn (V.X m)) ∧ V.map G s N = .ok (List.ofFn (V.X m)) := by
  have hq : ∀ i, MeanTo (V.q i) (c i) := fun i => by
    rw [show V.q i = fun _ => c i from funext (hc i)]
    exact mean_const _
  have key : ∀ᶠ N : ℕ in atTop, ∀ i, |c m - t| < |c i - t| →
      (c m - (∑ l ∈ Finset.range N, V.datum G s l) / N) ^ 2 < (c i - (∑ l ∈ Finset.range N, V.datum G s l) / N) ^ 2 := by
    rw [eventually_all]; intro i
    by_cases him : |c m - t| < |c i - t|
    · have h1 := ((tendsto_const_nhds (x := c m)).sub hd).pow 2
      have h2 := ((tendsto_const_nhds (x := c i)).sub hd).pow 2
      filter_upwards [h1.eventually_lt h2 (sq_lt_sq.2 him)] with N hN _ using hN
    · exact .of_forall fun N h => absurd h him
  filter_upwards [C151_mud (user := user) V hV ⟨m, hm⟩ G s hq hne hd, key, eventually_gt_atTop 0] with N h1 h2 hN
  have hNr : (0 : ℝ) < N := by exact_mod_cast hN
  obtain ⟨a, ha, haB, hmin⟩ := h1
  have ham : a = m := by
    by_contra hne
    exact absurd (hmin m hm) (not_le.2 (hnear a hne haB))
  obtain ⟨b, hb, hbB, hbmin⟩ := V.map_squares G s hV ⟨m, hm⟩ hN
  have hbm : b = m := by
    by_contra hne
    have h3 := h2 b (hnear b hne hbB)
    have h4 := hbmin m hm
    have e : ∀ i, ∑ l ∈ Finset.range N, (V.q i l - V.datum G s l) ^ 2 =
        N * (c i - (∑ l ∈ Finset.range N, V.datum G s l) / N) ^ 2 +
          (∑ l ∈ Finset.range N, V.datum G s l ^ 2 - (∑ l ∈ Finset.range N, V.datum G s l) ^ 2 / N) := by
      intro i
      simp only [hc, sub_sq]
      rw [Finset.sum_add_distrib, Finset.sum_sub_distrib, ← Finset.mul_sum]
      simp only [Finset.sum_const, Finset.card_range, nsmul_eq_mul]
      field_simp
      ring
    rw [e, e] at h4
    nlinarith
  subst ham hbm
  exact ⟨ha, hb⟩

/-! ## The witness -/

/-- Draws that are always zero. -/
def zeroRng : Rng ℕ := ⟨id, fun n => (0, n)⟩

theorem zeroRng_draw (s l : ℕ) : nthDraw zeroRng s l = 0 := rfl

/-- The first sample predicts `1, -1, 1, -1, ...`, the second always `1/10`; the truth is zero. -/
noncomputable def swing : Survey 2 1 where
  X := !![0; 1]
  Dm := !![0, 1]
  w := ![1, 1]
  q := fun i l => if i = 0 then (-1) ^ l else 1 / 10
  tr := fun _ => 0
  sd := 1

theorem alternating_sum (N : ℕ) : |∑ l ∈ Finset.range N, (-1 : ℝ) ^ l| ≤ 1 := by
  rw [neg_one_geom_sum]
  split_ifs <;> simp

theorem alternating_mean : MeanTo (fun l => (-1) ^ l) 0 := by
  refine squeeze_zero_norm (fun N => ?_) tendsto_one_div_atTop_nhds_zero_nat
  rw [Real.norm_eq_abs, abs_div, Nat.abs_cast]
  exact div_le_div_of_nonneg_right (alternating_sum N) N.cast_nonneg

theorem swing_proper : swing.Proper := ⟨le_rfl, fun j => by fin_cases j; norm_num [swing], fun i => by fin_cases i <;> norm_num [swing],
  one_pos⟩

theorem swing_box (i : Fin 2) : swing.X i ∈ swing.box := by
  constructor <;> intro j <;> fin_cases i <;> fin_cases j <;> norm_num [swing]

theorem swing_datum (s : ℕ) : swing.datum zeroRng s = fun _ => 0 := by
  funext l
  simp [Survey.datum, swing, zeroRng_draw]

theorem swing_mean (i : Fin 2) : MeanTo (swing.q i) ((![0, 1 / 10] : Fin 2 → ℝ) i) := by
  fin_cases i
  · have : swing.q 0 = fun l => (-1) ^ l := by funext l; simp [swing]
    show MeanTo (swing.q 0) 0
    rw [this]
    exact alternating_mean
  · have : swing.q 1 = fun l => 1 / 10 := by funext l; simp [swing]
    show MeanTo (swing.q 1) (1 / 10)
    rw [this]
    exact mean_const _

theorem swing_squares (s : ℕ) (i : Fin 2) :
    MeanTo (fun l => (swing.q i l - swing.datum zeroRng s l) ^ 2) ((![1, 1 / 100] : Fin 2 → ℝ) i) := by
  have e : (fun l => (swing.q i l - swing.datum zeroRng s l) ^ 2) = fun _ => (![1, 1 / 100] : Fin 2 → ℝ) i := by
    funext l
    rw [swing_datum, sub_zero]
    fin_cases i
    · show swing.q 0 l ^ 2 = 1
      simp [swing, ← pow_mul, mul_comm l 2]
    · show swing.q 1 l ^ 2 = 1 / 100
      norm_num [swing]
  rw [e]
  exact mean_const _

/-- The full claim is false: the weighted mean error only sees the mean of the differences. -/
theorem C151_claim_refuted (user : ℕ → ℝ → ℕ → ℝ) : ¬ C151_claim user := by
  intro h
  have hd : MeanTo (swing.datum zeroRng 0) 0 := by
    rw [swing_datum]; exact mean_const _
  have h0 := h ℕ 2 1 swing swing_proper zeroRng 0 ![0, 1 / 10] ![1, 1 / 100] 0 0 swing_mean ⟨0, 1, by norm_num⟩ hd
    (swing_squares 0) (swing_box 0) (by
      intro i hi _
      fin_cases i
      · exact absurd rfl hi
      · norm_num)
  have h1 := C151_mud (user := user) swing swing_proper ⟨0, swing_box 0⟩ zeroRng 0 swing_mean ⟨0, 1, by norm_num⟩ hd
  have h2 := C151_map swing swing_proper ⟨0, swing_box 0⟩ zeroRng 0 (swing_squares 0)
  obtain ⟨N, e, ⟨a, ha, -, ha'⟩, ⟨b, hb, -, hb'⟩⟩ := (h0.and (h1.and h2)).exists
  have a0 : a = 0 := by
    by_contra hne
    obtain rfl : a = 1 := by omega
    have := ha' 0 (swing_box 0)
    norm_num at this
  have b1 : b = 1 := by
    by_contra hne
    obtain rfl : b = 0 := by omega
    have := hb' 1 (swing_box 1)
    norm_num at this
  subst a0 b1
  rw [ha, hb] at e
  have := List.ofFn_injective (Except.ok.inj e)
  have := congrFun this 0
  norm_num [swing] at this

/-- C151 for constant predictions: three samples, one outside the domain, which is nearest; draws `1, -1, 1, ...`. -/
def flipRng : Rng ℕ := ⟨id, fun n => ((-1) ^ n, n + 1)⟩

theorem flipRng_draw (l : ℕ) : nthDraw flipRng 0 l = (-1) ^ l := by
  have h : ∀ l, stateAfter flipRng 0 l = l := by
    intro l
    induction l with
    | zero => rfl
    | succ l ih => rw [stateAfter, ih]; rfl
  simp only [nthDraw, h]
  rfl

noncomputable def steady : Survey 3 1 where
  X := !![0; 1; 5]
  Dm := !![0, 2]
  w := ![1, 1, 7]
  q := fun i _ => (![3, 4, 5] : Fin 3 → ℝ) i
  tr := fun _ => 5
  sd := 2

example : ∀ᶠ N in atTop, steady.mud user flipRng 0 N = .ok [1] ∧ steady.map flipRng 0 N = .ok [1] := by
  have h := C151_partial (user := user) steady ⟨by norm_num, fun j => by fin_cases j; norm_num [steady],
    fun i => by fin_cases i <;> norm_num [steady], by norm_num [steady]⟩ flipRng 0 (c := ![3, 4, 5]) (fun i l => rfl)
    ⟨0, 1, by norm_num⟩ (t := 5) (by
      have e : steady.datum flipRng 0 = fun l => 5 + 2 * (-1) ^ l := by
        funext l
        simp [Survey.datum, steady, flipRng_draw]
      rw [e]
      have h := (mean_const 5).add (alternating_mean.const_mul 2)
      rw [mul_zero, add_zero] at h
      refine h.congr fun N => ?_
      rw [Finset.sum_add_distrib, ← Finset.mul_sum]
      ring) (m := 1)
    (by constructor <;> intro j <;> fin_cases j <;> norm_num [steady]) (by
      intro i hi hB
      fin_cases i
      · norm_num
      · exact absurd rfl hi
      · have : (5 : ℝ) ≤ 2 := hB.2 0
        norm_num at this)
  filter_upwards [h] with N hN
  simpa [steady] using hN

end Verif
