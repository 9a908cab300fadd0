import Verif.Props.Funs
import Verif.Props.BayesExact
import Verif.Props.DensityDefault

/-!
# C150: `map_problem` gives the least-squares sample
-/

open MeasureTheory Filter Topology

namespace Verif

open SpecST SpecFuns Funs

variable {σ : Type} (G : Rng σ)

/-! ## Specification -/

/-- Sum of the squared differences between the predictions of sample `i` and the first `k` noisy data. -/
noncomputable def SpecFuns.squares (s : σ) (qoi : Arr2) (t : List ℝ) (sd : ℝ) (k i : ℕ) : ℝ :=
  ∑ j ∈ Finset.range k, misfit G s qoi t sd i j ^ 2

/-- `m` is the first of the indices with `X m` in `B` for which `r` is smallest. -/
def FirstSmallest {S p : ℕ} (X : Fin S → Fin p → ℝ) (B : Set (Fin p → ℝ)) (r : ℕ → ℝ) (m : Fin S) : Prop :=
  X m ∈ B ∧ ∀ i, X i ∈ B → r m ≤ r i ∧ (i < m → r m < r i)

/-! ## Lemmas -/

open Classical in
/-- What `estimate` does when only the likelihood has been set. -/
theorem bdefault_estimate (Q : BP) {n : ℕ} (hX : Q.X.r = n) (a b : Fin n → F)
    (hpr : Q.pr = none) (hps : Q.ps = none) (hll : Q.ll = some (List.ofFn b))
    (ha : densAt (uniformOn Q.domain) Q.X = .ok (List.ofFn a)) :
    (BP.mapPoint Q).1 = if ∑ k, postVal Q.log (a k) (b k) = .fin 0 then .error .valueError
      else npArgmax (List.ofFn fun k => postVal Q.log (a k) (b k)) >>= Q.X.rowAt := by
  let d : Dist := ⟨fun _ => .ok (.tab (List.ofFn fun i => [b i])), fun _ => .ok (.tab (List.ofFn fun i => [b i]))⟩
  have hl : ∀ log, likeAt d log Q.y = .ok (List.ofFn b) := by
    intro log
    cases log
    · show densAt d Q.y = _
      unfold densAt
      simp [d, FOut.prodRows, List.map_ofFn, Function.comp_def]
    · show (do let out ← d.logpdf Q.y; out.sumRows : Py (List F)) = _
      simp [d, FOut.sumRows, List.map_ofFn, Function.comp_def]
  have hrel : BRel Q.data Q { like := some (d, Q.log) } := {
    X := rfl, y := rfl, dom := rfl
    pr0 := fun _ => rfl
    pr1 := fun w hw => by rw [hpr] at hw; cases hw
    ll0 := fun h => by rw [hll] at h; cases h
    ll1 := fun w hw => by rw [hll] at hw; cases hw; exact ⟨d, rfl, hl _⟩
    ps1 := fun w hw => by rw [hps] at hw; cases hw }
  rw [(brel_estimate hrel).2]
  unfold BSettings.best BSettings.posterior BSettings.priorAt
  change (do
    let u ← (do
      let pr ← densAt (uniformOn Q.domain) Q.X
      let ll ← likeAt d Q.log Q.y
      let ps ← BSettings.combine Q.log pr ll
      BSettings.checked Q.data ps)
    let m ← npArgmax u
    Q.X.rowAt m : Py (List ℝ)) = _
  rw [ha, Py.ok_bind, hl, Py.ok_bind, combine_ofFn, Py.ok_bind]
  unfold BSettings.checked
  rw [pyAssert_true (by rw [List.length_ofFn]; exact hX.symm), Py.ok_bind, List.sum_ofFn]
  split_ifs with h
  · rw [raiseIf_true h]; rfl
  · rw [raiseIf_false h]; rfl

theorem likelihood_squares (s : σ) (qoi : Arr2) (t : List ℝ) {sd : ℝ} (hsd : 0 < sd) (k i : ℕ) :
    likelihood G s qoi t sd k false i =
      (1 / (sd * Real.sqrt (2 * Real.pi))) ^ k * Real.exp (-(squares G s qoi t sd k i / (2 * sd ^ 2))) := by
  unfold likelihood squares
  simp only [Bool.false_eq_true, if_false, gauss, misfit]
  simp only [div_eq_mul_inv (Real.exp _)]
  rw [Finset.prod_mul_distrib, Finset.prod_const, Finset.card_range, ← Real.exp_sum, one_div, mul_comm]
  congr 2
  rw [Finset.sum_div, ← Finset.sum_neg_distrib]
  refine Finset.sum_congr rfl fun j _ => ?_
  rw [div_pow]
  field_simp

theorem likelihood_pos (s : σ) (qoi : Arr2) (t : List ℝ) {sd : ℝ} (hsd : 0 < sd) (k i : ℕ) :
    0 < likelihood G s qoi t sd k false i := by
  unfold likelihood
  simp only [Bool.false_eq_true, if_false]
  exact Finset.prod_pos fun j _ => gauss_pos hsd

theorem likelihood_le_iff (s : σ) (qoi : Arr2) (t : List ℝ) {sd : ℝ} (hsd : 0 < sd) (k i j : ℕ) :
    likelihood G s qoi t sd k false i ≤ likelihood G s qoi t sd k false j ↔ squares G s qoi t sd k j ≤ squares G s qoi t sd k i := by
  rw [likelihood_squares G s qoi t hsd, likelihood_squares G s qoi t hsd]
  have hc : 0 < (1 / (sd * Real.sqrt (2 * Real.pi))) ^ k := by positivity
  rw [mul_le_mul_iff_right₀ hc, Real.exp_le_exp, neg_le_neg_iff, div_le_div_iff_of_pos_right (by positivity)]

variable {G}

/-- The problem returned by `map_problem`, and its estimate. -/
theorem map_estimate {S d k p : ℕ} (X : Matrix (Fin S) (Fin p) ℝ) (A : Matrix (Fin S) (Fin d) ℝ) (t : List ℝ)
    (Dm : Matrix (Fin p) (Fin 2) ℝ) (hD : ∀ j, Dm j 0 < Dm j 1) {sd : ℝ} (hsd : 0 < sd) {m : Option ℤ} (log : Bool) (s : σ)
    (hm : Uses d m k) (h1 : 1 ≤ k) (hk : k ≤ d) (hkt : k ≤ t.length) (a : Fin S → ℝ)
    (ha : a = fun i => (Set.Icc (fun j => Dm j 0) fun j => Dm j 1).indicator
      (fun _ => 1 / (volume (Set.Icc (fun j => Dm j 0) fun j => Dm j 1)).toReal) (X i)) :
    ∃ b, (mapProblem G (.mat ⟨S, p, X⟩) (.mat ⟨S, d, A⟩) t (some (.mat ⟨p, 2, Dm⟩)) sd m log s).1 = .ok b ∧
      b.X = ⟨S, p, X⟩ ∧
      ((∑ i, postVal log (F.fin (a i)) (F.fin (likelihood G s ⟨S, d, A⟩ t sd k log i)) = .fin 0 →
          (BP.mapPoint b).1 = .error .valueError) ∧
        (∑ i, postVal log (F.fin (a i)) (F.fin (likelihood G s ⟨S, d, A⟩ t sd k log i)) ≠ .fin 0 →
          (BP.mapPoint b).1 = npArgmax (List.ofFn fun i : Fin S =>
            postVal log (F.fin (a i)) (F.fin (likelihood G s ⟨S, d, A⟩ t sd k log i))) >>= b.X.rowAt)) := by
  classical
  rw [C67_map G _ A t _ sd m log s hsd hm h1 hk hkt]
  have hnew : BP.new (asCol (.mat ⟨S, p, X⟩)) (.mat ⟨S, k, .of fun i j => (Arr2.mk S d A).get i j⟩) (some (.mat ⟨p, 2, Dm⟩)) =
      .ok { X := ⟨S, p, X⟩, y := ⟨S, k, .of fun i j => (Arr2.mk S d A).get i j⟩, domain := ⟨p, 2, Dm⟩ } := by
    unfold BP.new
    simp only [asCol, NArr.shapeRow]
    rw [pyAssert_true trivial]
    rfl
  refine ⟨_, by rw [hnew]; rfl, rfl, ?_⟩
  have he := bdefault_estimate (n := S)
    { X := ⟨S, p, X⟩
      y := ⟨S, k, .of fun i j => (Arr2.mk S d A).get i j⟩
      domain := ⟨p, 2, Dm⟩
      log := log
      ll := some (List.ofFn fun i : Fin S => F.fin (likelihood G s ⟨S, d, A⟩ t sd k log i)) } rfl (fun i => F.fin (a i)) _ rfl rfl rfl
    (by rw [ha]; exact C28_default_initial X Dm hD)
  constructor
  · intro h
    rw [he, if_pos h]
  · intro h
    rw [he, if_neg h]

theorem box_volume_pos {p : ℕ} {Dm : Matrix (Fin p) (Fin 2) ℝ} (hD : ∀ j, Dm j 0 < Dm j 1) :
    0 < (volume (Set.Icc (fun j => Dm j 0) fun j => Dm j 1)).toReal := by
  rw [Real.volume_Icc_pi_toReal fun j => (hD j).le]
  exact Finset.prod_pos fun j _ => by linarith [hD j]

/-- The maximiser of prior times likelihood. -/
theorem argmax_squares {S d k p : ℕ} (X : Matrix (Fin S) (Fin p) ℝ) (A : Matrix (Fin S) (Fin d) ℝ) (t : List ℝ)
    {B : Set (Fin p → ℝ)} {V : ℝ} (hV : 0 < V) {sd : ℝ} (hsd : 0 < sd) (s : σ) (hin : ∃ i, X i ∈ B) {mm : ℕ}
    (h : IsArgmax ((List.ofFn fun i : Fin S => B.indicator (fun _ => 1 / V) (X i) *
      likelihood G s ⟨S, d, A⟩ t sd k false i).map F.fin) mm) :
    ∃ hmm : mm < S, FirstSmallest X B (squares G s ⟨S, d, A⟩ t sd k) ⟨mm, hmm⟩ := by
  classical
  rw [isArgmax_fin] at h
  obtain ⟨hm0, h1, h2⟩ := h
  have hmm : mm < S := by simpa using hm0
  refine ⟨hmm, ?_⟩
  have hl := likelihood_pos G s ⟨S, d, A⟩ t hsd k
  have H2 : ∀ i : Fin S, B.indicator (fun _ => 1 / V) (X i) * likelihood G s ⟨S, d, A⟩ t sd k false i ≤
      B.indicator (fun _ => 1 / V) (X ⟨mm, hmm⟩) * likelihood G s ⟨S, d, A⟩ t sd k false mm := by
    intro i
    simpa using h2 i (by simp)
  have H1 : ∀ i : Fin S, (i : ℕ) < mm → B.indicator (fun _ => 1 / V) (X i) * likelihood G s ⟨S, d, A⟩ t sd k false i <
      B.indicator (fun _ => 1 / V) (X ⟨mm, hmm⟩) * likelihood G s ⟨S, d, A⟩ t sd k false mm := by
    intro i hi
    simpa using h1 i hi
  have hmB : X ⟨mm, hmm⟩ ∈ B := by
    obtain ⟨i, hi⟩ := hin
    by_contra hmB
    have := H2 i
    rw [Set.indicator_of_mem hi, Set.indicator_of_notMem hmB, zero_mul] at this
    exact absurd this (not_le.2 (mul_pos (one_div_pos.2 hV) (hl i)))
  refine ⟨hmB, fun i hi => ⟨?_, fun him => ?_⟩⟩
  · have := H2 i
    rw [Set.indicator_of_mem hi, Set.indicator_of_mem hmB, mul_le_mul_iff_right₀ (one_div_pos.2 hV),
      likelihood_le_iff G s _ t hsd] at this
    exact this
  · have := H1 i him
    rw [Set.indicator_of_mem hi, Set.indicator_of_mem hmB, mul_lt_mul_iff_right₀ (one_div_pos.2 hV), ← not_le,
      likelihood_le_iff G s _ t hsd, not_le] at this
    exact this

theorem rowAt_ofFn {S p : ℕ} (X : Matrix (Fin S) (Fin p) ℝ) (m : Fin S) :
    (Arr2.mk S p X).rowAt m = .ok (List.ofFn (X m)) := by
  unfold Arr2.rowAt
  rw [dif_pos (show (m : ℕ) < (Arr2.mk S p X).r from m.2)]

/-- **C150.** `map_problem(lam, qoi, qoi_true, domain, sd, num_obs)`: the MAP point is the sample in the domain with the
smallest sum of squared differences between its predictions and the first `num_obs` noisy data, the first one if there are
several. -/
theorem C150_least_squares {S d k p : ℕ} (X : Matrix (Fin S) (Fin p) ℝ) (A : Matrix (Fin S) (Fin d) ℝ) (t : List ℝ)
    (Dm : Matrix (Fin p) (Fin 2) ℝ) (hD : ∀ j, Dm j 0 < Dm j 1) {sd : ℝ} (hsd : 0 < sd) (m : Option ℤ) (s : σ)
    (hm : Uses d m k) (h1 : 1 ≤ k) (hk : k ≤ d) (hkt : k ≤ t.length)
    (hin : ∃ i, X i ∈ Set.Icc (fun j => Dm j 0) (fun j => Dm j 1)) :
    ∃ b mm, (mapProblem G (.mat ⟨S, p, X⟩) (.mat ⟨S, d, A⟩) t (some (.mat ⟨p, 2, Dm⟩)) sd m false s).1 = .ok b ∧
      (BP.mapPoint b).1 = .ok (List.ofFn (X mm)) ∧
      FirstSmallest X (Set.Icc (fun j => Dm j 0) (fun j => Dm j 1)) (squares G s ⟨S, d, A⟩ t sd k) mm := by
  classical
  have hV := box_volume_pos hD
  obtain ⟨b, hb, hbX, -, h⟩ := map_estimate (G := G) X A t Dm hD hsd (m := m) false s hm h1 hk hkt _ rfl
  have hl := likelihood_pos G s ⟨S, d, A⟩ t hsd k
  have hsum : 0 < ∑ i : Fin S, (Set.Icc (fun j => Dm j 0) fun j => Dm j 1).indicator
      (fun _ => 1 / (volume (Set.Icc (fun j => Dm j 0) fun j => Dm j 1)).toReal) (X i) *
      likelihood G s ⟨S, d, A⟩ t sd k false i := by
    obtain ⟨i, hi⟩ := hin
    refine Finset.sum_pos' (fun i _ => mul_nonneg (Set.indicator_nonneg (fun _ _ => (one_div_pos.2 hV).le) _) (hl i).le)
      ⟨i, Finset.mem_univ i, ?_⟩
    rw [Set.indicator_of_mem hi]
    exact mul_pos (one_div_pos.2 hV) (hl i)
  have h := h (by simpa [postVal] using hsum.ne')
  have hS : S ≠ 0 := by
    rintro rfl
    exact hin.choose.elim0
  have e : (List.ofFn fun i : Fin S => postVal false (F.fin ((Set.Icc (fun j => Dm j 0) fun j => Dm j 1).indicator
      (fun _ => 1 / (volume (Set.Icc (fun j => Dm j 0) fun j => Dm j 1)).toReal) (X i)))
      (F.fin (likelihood G s ⟨S, d, A⟩ t sd k false i))) = (List.ofFn fun i : Fin S =>
      (Set.Icc (fun j => Dm j 0) fun j => Dm j 1).indicator
      (fun _ => 1 / (volume (Set.Icc (fun j => Dm j 0) fun j => Dm j 1)).toReal) (X i) *
      likelihood G s ⟨S, d, A⟩ t sd k false i).map F.fin := by
    rw [List.map_ofFn]; rfl
  rw [e] at h
  obtain ⟨mm, hm1, hm2⟩ := npArgmax_spec (l := (List.ofFn fun i : Fin S =>
      (Set.Icc (fun j => Dm j 0) fun j => Dm j 1).indicator
      (fun _ => 1 / (volume (Set.Icc (fun j => Dm j 0) fun j => Dm j 1)).toReal) (X i) *
      likelihood G s ⟨S, d, A⟩ t sd k false i).map F.fin) (by
        intro h; rw [List.map_eq_nil_iff, List.ofFn_eq_nil_iff] at h; exact hS h)
  obtain ⟨hmm, hfs⟩ := argmax_squares (G := G) X A t hV hsd s hin hm2
  refine ⟨b, ⟨mm, hmm⟩, hb, ?_, hfs⟩
  rw [h, hm1, Py.ok_bind, hbX]
  exact rowAt_ofFn X ⟨mm, hmm⟩

/-- Values with `log=True`: the logarithms of those without. -/
theorem map_log_values {S d k : ℕ} (A : Matrix (Fin S) (Fin d) ℝ) (t : List ℝ) {sd : ℝ} (hsd : 0 < sd) (s : σ) {a : ℝ}
    (ha : 0 ≤ a) (i : ℕ) : postVal true (F.fin a) (F.fin (likelihood G s ⟨S, d, A⟩ t sd k true i)) =
      F.log (.fin (a * likelihood G s ⟨S, d, A⟩ t sd k false i)) := by
  have hl := likelihood_pos G s ⟨S, d, A⟩ t hsd k i
  have e : likelihood G s ⟨S, d, A⟩ t sd k true i = Real.log (likelihood G s ⟨S, d, A⟩ t sd k false i) := by
    simp [likelihood]
  rw [F.log_mul ha hl.le, e, F.log_fin_pos hl]
  rfl

/-- **C150**, `log=True`: the same, unless all samples are in the domain and the log posteriors happen to sum to 0, in which
case it raises `ValueError` (the finding of C43). -/
theorem C150_log {S d k p : ℕ} (X : Matrix (Fin S) (Fin p) ℝ) (A : Matrix (Fin S) (Fin d) ℝ) (t : List ℝ)
    (Dm : Matrix (Fin p) (Fin 2) ℝ) (hD : ∀ j, Dm j 0 < Dm j 1) {sd : ℝ} (hsd : 0 < sd) (m : Option ℤ) (s : σ)
    (hm : Uses d m k) (h1 : 1 ≤ k) (hk : k ≤ d) (hkt : k ≤ t.length)
    (hin : ∃ i, X i ∈ Set.Icc (fun j => Dm j 0) (fun j => Dm j 1)) :
    ∃ b mm, (mapProblem G (.mat ⟨S, p, X⟩) (.mat ⟨S, d, A⟩) t (some (.mat ⟨p, 2, Dm⟩)) sd m true s).1 = .ok b ∧
      FirstSmallest X (Set.Icc (fun j => Dm j 0) (fun j => Dm j 1)) (squares G s ⟨S, d, A⟩ t sd k) mm ∧
      ((BP.mapPoint b).1 = .ok (List.ofFn (X mm)) ∨ (BP.mapPoint b).1 = .error .valueError ∧
        (∀ i, X i ∈ Set.Icc (fun j => Dm j 0) (fun j => Dm j 1)) ∧
        ∑ i : Fin S, Real.log (likelihood G s ⟨S, d, A⟩ t sd k false i /
          (volume (Set.Icc (fun j => Dm j 0) fun j => Dm j 1)).toReal) = 0) := by
  classical
  set V := (volume (Set.Icc (fun j => Dm j 0) fun j => Dm j 1)).toReal with hVd
  have hV : 0 < V := box_volume_pos hD
  set B := Set.Icc (fun j => Dm j 0) (fun j => Dm j 1) with hB
  obtain ⟨b, hb, hbX, hz, h⟩ := map_estimate (G := G) X A t Dm hD hsd (m := m) true s hm h1 hk hkt _ rfl
  have hl := likelihood_pos G s ⟨S, d, A⟩ t hsd k
  have ha : ∀ i : Fin S, 0 ≤ B.indicator (fun _ => 1 / V) (X i) := fun i =>
    Set.indicator_nonneg (fun _ _ => (one_div_pos.2 hV).le) _
  simp only [← hB, ← hVd] at hz h
  simp only [map_log_values (G := G) A t hsd s (ha _)] at hz h
  have hS : S ≠ 0 := by
    rintro rfl
    exact hin.choose.elim0
  obtain ⟨mm, hm1, hm2⟩ := npArgmax_spec (l := List.ofFn fun i : Fin S =>
      F.log (.fin (B.indicator (fun _ => 1 / V) (X i) * likelihood G s ⟨S, d, A⟩ t sd k false i))) (by
        intro h; rw [List.ofFn_eq_nil_iff] at h; exact hS h)
  have hm3 := (isArgmax_log _ (fun i => mul_nonneg (ha i) (hl i).le) mm).1 hm2
  have e : (List.ofFn fun i : Fin S => F.fin (B.indicator (fun _ => 1 / V) (X i) * likelihood G s ⟨S, d, A⟩ t sd k false i)) =
      (List.ofFn fun i : Fin S => B.indicator (fun _ => 1 / V) (X i) *
        likelihood G s ⟨S, d, A⟩ t sd k false i).map F.fin := by
    rw [List.map_ofFn]; rfl
  rw [e] at hm3
  obtain ⟨hmm, hfs⟩ := argmax_squares (G := G) X A t hV hsd s hin hm3
  refine ⟨b, ⟨mm, hmm⟩, hb, hfs, ?_⟩
  by_cases hs0 : ∑ i : Fin S, F.log (.fin (B.indicator (fun _ => 1 / V) (X i) *
      likelihood G s ⟨S, d, A⟩ t sd k false i)) = .fin 0
  · right
    have hall : ∀ i, X i ∈ B := by
      have h0 : ∀ i : Fin S, 0 ≤ B.indicator (fun _ => 1 / V) (X i) * likelihood G s ⟨S, d, A⟩ t sd k false i :=
        fun i => mul_nonneg (ha i) (hl i).le
      rw [← F.log_prod _ (fun i : Fin S => B.indicator (fun _ => 1 / V) (X i) * likelihood G s ⟨S, d, A⟩ t sd k false i)
        fun i _ => h0 i, F.log_eq_zero (Finset.prod_nonneg fun i _ => h0 i)] at hs0
      intro i
      by_contra hi
      rw [Finset.prod_eq_zero (Finset.mem_univ i) (by rw [Set.indicator_of_notMem hi, zero_mul])] at hs0
      exact zero_ne_one hs0
    refine ⟨hz hs0, hall, ?_⟩
    have e2 : ∀ i : Fin S, F.log (.fin (B.indicator (fun _ => 1 / V) (X i) * likelihood G s ⟨S, d, A⟩ t sd k false i)) =
        .fin (Real.log (likelihood G s ⟨S, d, A⟩ t sd k false i / V)) := by
      intro i
      rw [Set.indicator_of_mem (hall i), one_div_mul_eq_div, F.log_fin_pos (div_pos (hl i) hV)]
    simp only [e2, F.sum_fin] at hs0
    exact F.fin.inj hs0
  · left
    rw [h hs0, hm1, Py.ok_bind, hbX]
    exact rowAt_ofFn X ⟨mm, hmm⟩

/-- **C150**, no sample in the domain: `ValueError` without logarithms; with logarithms the first sample is returned,
without any complaint. -/
theorem C150_outside {S d k p : ℕ} (X : Matrix (Fin S) (Fin p) ℝ) (A : Matrix (Fin S) (Fin d) ℝ) (t : List ℝ)
    (Dm : Matrix (Fin p) (Fin 2) ℝ) (hD : ∀ j, Dm j 0 < Dm j 1) {sd : ℝ} (hsd : 0 < sd) (m : Option ℤ) (s : σ)
    (hm : Uses d m k) (h1 : 1 ≤ k) (hk : k ≤ d) (hkt : k ≤ t.length) (hS : 0 < S)
    (hout : ∀ i, X i ∉ Set.Icc (fun j => Dm j 0) (fun j => Dm j 1)) :
    ∃ b b', (mapProblem G (.mat ⟨S, p, X⟩) (.mat ⟨S, d, A⟩) t (some (.mat ⟨p, 2, Dm⟩)) sd m false s).1 = .ok b ∧
      (BP.mapPoint b).1 = .error .valueError ∧
      (mapProblem G (.mat ⟨S, p, X⟩) (.mat ⟨S, d, A⟩) t (some (.mat ⟨p, 2, Dm⟩)) sd m true s).1 = .ok b' ∧
      (BP.mapPoint b').1 = .ok (List.ofFn (X ⟨0, hS⟩)) := by
  classical
  obtain ⟨b, hb, -, hz, -⟩ := map_estimate (G := G) X A t Dm hD hsd (m := m) false s hm h1 hk hkt _ rfl
  obtain ⟨b', hb', hbX, -, h'⟩ := map_estimate (G := G) X A t Dm hD hsd (m := m) true s hm h1 hk hkt _ rfl
  simp only [Set.indicator_of_notMem (hout _)] at hz h'
  simp only [map_log_values (G := G) A t hsd s le_rfl, zero_mul] at h'
  refine ⟨b, b', hb, hz ?_, hb', ?_⟩
  · have e : ∀ i : Fin S, postVal false (F.fin 0) (F.fin (likelihood G s ⟨S, d, A⟩ t sd k false i)) = .fin 0 := fun i => by
      simp [postVal]
    rw [Finset.sum_congr rfl fun i _ => e i, F.sum_fin]
    simp
  · have hne : ∑ _x : Fin S, F.log (.fin 0) ≠ .fin 0 := by
      rw [← F.log_prod _ (fun _ : Fin S => (0 : ℝ)) fun _ _ => le_rfl, ne_eq,
        F.log_eq_zero (Finset.prod_nonneg fun _ _ => le_rfl), Finset.prod_const, Finset.card_univ, Fintype.card_fin,
        zero_pow hS.ne']
      exact zero_ne_one
    rw [h' hne, npArgmax_eq (m := 0), Py.ok_bind, hbX]
    · exact rowAt_ofFn X ⟨0, hS⟩
    · refine ⟨by simpa using hS, ?_⟩
      have e0 : F.log (.fin 0) = .ninf := by simp [F.log]
      simp [e0, F.lt]

/-- Three samples, one of them outside the domain, two data: the best sample in the domain is the second, although the
one outside fits better. -/
example : ∃ b, (mapProblem countRng (.mat ⟨3, 1, !![0; 1; 5]⟩) (.mat ⟨3, 2, !![0, 0; 5, 7; 6, 8]⟩) [1, 2]
      (some (.mat ⟨1, 2, !![0, 2]⟩)) 1 none false 5).1 = .ok b ∧ (BP.mapPoint b).1 = .ok [1] := by
  obtain ⟨b, mm, hb, hm, h1, h2⟩ := C150_least_squares (G := countRng) (S := 3) (d := 2) (k := 2) (p := 1)
    !![0; 1; 5] !![0, 0; 5, 7; 6, 8] [1, 2] !![0, 2] (by intro j; fin_cases j; norm_num) (sd := 1) one_pos none 5
    rfl (by norm_num) le_rfl (by simp) ⟨0, by constructor <;> intro j <;> fin_cases j <;> simp⟩
  refine ⟨b, hb, ?_⟩
  have hd0 : nthDraw countRng 5 0 = 5 := by
    simp only [nthDraw, countRng_state]; norm_num [countRng]
  have hd1 : nthDraw countRng 5 1 = 6 := by
    simp only [nthDraw, countRng_state]; norm_num [countRng]
  have hmm : mm = 1 := by
    match mm, h1, h2 with
    | 0, h1, h2 =>
      have := (h2 1 (by constructor <;> intro j <;> fin_cases j <;> norm_num)).1
      norm_num [squares, misfit, Finset.sum_range_succ, Arr2.get, hd0, hd1] at this
    | 1, _, _ => rfl
    | 2, h1, _ =>
      have : (5 : ℝ) ≤ 2 := h1.2 0
      norm_num at this
  rw [hm, hmm]
  rfl

end Verif
