import Verif.Model.ExpDecay
import Verif.Props.ExamplesSimple
import Verif.Props.PoissonSol

/-!
# The exponential decay and temporal examples: C114, C115
-/

namespace Verif
namespace ExpDecay

open STP SpecST Poisson

variable {σ : Type}

/-! ## C114: `exp_decay_1D` -/

/-- Number of steps: `i` is below it iff the `i`-th number is below `b`. -/
theorem arange_count {a b h : ℝ} (hh : 0 < h) (i : ℕ) : i < ⌈(b - a) / h⌉.toNat ↔ a + i * h < b := by
  rw [Int.lt_toNat, Int.lt_ceil, lt_div_iff₀ hh]
  push_cast
  constructor <;> intro h <;> linarith

theorem uniform_draw (G : Gen σ) (a b : ℝ) (s : σ) (i : ℕ) :
    nthDraw ((Frozen.uniform G a b).stream G) s i = a + (b - a) * nthDraw G.uniform s i := by
  have h : ∀ i : ℕ, stateAfter ((Frozen.uniform G a b).stream G) s i = stateAfter G.uniform s i := by
    intro i
    induction i with
    | zero => rfl
    | succ i ih =>
      show (((Frozen.uniform G a b).stream G).draw _).2 = (G.uniform.draw _).2
      rw [ih]
      rfl
  unfold nthDraw
  rw [h i]
  rfl

/-- A problem `P` simulating `u(t; λ) = u0 exp(-λ t)` at the times `t_j = tStart + j / freq` below `tEnd`
for the samples `x`, with one sensor. -/
structure IsDecay (P : STP) (n T : ℕ) (u0 tStart tEnd freq : ℝ) (x : ℕ → ℝ) (lam data times : ND) : Prop where
  ready : Ready P n 1 1 T lam data zero1 times none
  count : ∀ i : ℕ, i < T ↔ tStart + i / freq < tEnd
  times_shape : times.shape = [T]
  times_eq : ∀ j < T, times.get [j] = tStart + j / freq
  lam_eq : ∀ i < n, lam.get [i, 0] = x i
  data_eq : ∀ i < n, ∀ j < T, data.get [i, j] = u0 * Real.exp (-(x i * (tStart + j / freq)))

theorem decayTable_get (u0 : ℝ) (l t : List ℝ) {i j : ℕ} (hi : i < l.length) (hj : j < t.length) :
    (decayTable u0 l t).get [i, j] = u0 * Real.exp (-(l.getD i 0 * t.getD j 0)) := by
  unfold decayTable
  rw [ND.get_ofFn]
  · rfl
  · simp [ND.InB, hi, hj]

/-- The domain as one row. -/
def rowND (a b : ℝ) : ND := ⟨[1, 2], [a, b], by simp⟩

theorem domain_ok (a b : ℝ) : setDomain (vecND [a, b]) {} = (.ok (), { domain := some (rowND a b) }) := by
  unfold setDomain
  have : (vecND [a, b]).reshapeCols 2 = .ok (rowND a b) := by
    unfold ND.reshapeCols
    have h2 : (vecND [a, b]).data.length / 2 = 1 := by simp [vecND]
    rw [if_neg two_ne_zero, h2, ND.reshape_ok (by simp [vecND])]
    rfl
  rw [this, PyM.lift_ok_bind, PyM.get_bind_run]
  rfl

theorem before_ok (a b tStart tEnd : ℝ) {freq : ℝ} (hf : freq ≠ 0) :
    runObj (before (vecND [a, b]) tStart tEnd freq id) {} = .ok
      { domain := some (rowND a b)
        times := some (vecND (npArange tStart tEnd (1 / freq)))
        sampleDist := some "u" } := by
  unfold runObj before
  rw [bind_of_ok (domain_ok a b), raiseIf_false hf]
  rfl

theorem simulate_ok {n : ℕ} {l : List ℝ} (hl : l.length = n) (D : ND) (hD : D.shape = [1, 2])
    (t : List ℝ) (u0 lamTrue sd : ℝ) : ∃ lam data v,
    runObj (simulate u0 lamTrue sd l)
      { domain := some D
        times := some (vecND t)
        sampleDist := some "u" } = .ok
      { domain := some D
        times := some (vecND t)
        sampleDist := some "u"
        lam := some lam
        data := some data
        sensors := some zero1
        trueVals := some v
        stdDev := some sd } ∧
    lam.shape = [n, 1] ∧ lam.data = l ∧ data = decayTable u0 l t ∧ v.shape = [t.length, 1] ∧
    ∀ j < t.length, v.get [j, 0] = u0 * Real.exp (-(lamTrue * t.getD j 0)) := by
  subst hl
  have e1 : setLam (vecND l)
      { domain := some D
        times := some (vecND t)
        sampleDist := some "u" } = (.ok (),
      { domain := some D
        times := some (vecND t)
        sampleDist := some "u"
        lam := some ⟨[l.length, 1], l, by simp⟩ }) := by
    unfold setLam
    rw [show asColumn (vecND l) = ⟨[l.length, 1], l, by simp⟩ from rfl, PyM.get_bind_run]
    have d1 : ND.dim (⟨[l.length, 1], l, by simp⟩ : ND) 1 = .ok 1 := rfl
    have d2 : D.dim 0 = .ok 1 := by simp [ND.dim, hD]
    simp only [lamDomain]
    rw [d1, d2]
    simp only [PyM.lift_ok_bind]
    rw [raiseIf_false (by simp)]
    rfl
  have e2 : setData (decayTable u0 l t)
      { domain := some D
        times := some (vecND t)
        sampleDist := some "u"
        lam := some ⟨[l.length, 1], l, by simp⟩ } = (.ok (),
      { domain := some D
        times := some (vecND t)
        sampleDist := some "u"
        lam := some ⟨[l.length, 1], l, by simp⟩
        data := some (decayTable u0 l t)
        sensors := some zero1 }) := by
    unfold setData
    rw [show dataTable (decayTable u0 l t) = .ok (decayTable u0 l t) from rfl, PyM.lift_ok_bind,
      STP.dataCols_ok (show (decayTable u0 l t).dim 1 = .ok t.length from rfl), PyM.lift_ok_bind, PyM.get_bind_run]
    have hly : layout t.length none (some (vecND t)) = .ok (zero1, vecND t) := by
      have d0 : (vecND t).dim 0 = .ok t.length := rfl
      have d1 : zero1.dim 0 = .ok 1 := rfl
      simp only [layout, Py.pure_eq, Py.ok_bind, d0, d1]
      rw [raiseIf_false (by simp)]
      simp only [Py.ok_bind]
      rw [raiseIf_false (by simp)]
      rfl
    simp only [hly]
    rw [PyM.lift_ok_bind]
    rfl
  obtain ⟨r, hr, hrs, hrd⟩ : ∃ r, rowZero (decayTable u0 [lamTrue] t) = .ok r ∧ r.data.length = t.length ∧
      ∀ j < t.length, r.data.getD j 0 = u0 * Real.exp (-(lamTrue * t.getD j 0)) := by
    obtain ⟨r, h1, h2⟩ := index_row (d := decayTable u0 [lamTrue] t) (n := 1) (k := t.length) rfl
      (i := 0) one_pos
    refine ⟨r, h1, by simp [h2], fun j hj => ?_⟩
    rw [h2, List.getD_eq_getElem _ _ (by simpa using hj), List.getElem_map, List.getElem_range,
      decayTable_get _ _ _ (by simp) hj]
    rfl
  have e3 : setTrueVals r
      { domain := some D
        times := some (vecND t)
        sampleDist := some "u"
        lam := some ⟨[l.length, 1], l, by simp⟩
        data := some (decayTable u0 l t)
        sensors := some zero1 } = (.ok (),
      { domain := some D
        times := some (vecND t)
        sampleDist := some "u"
        lam := some ⟨[l.length, 1], l, by simp⟩
        data := some (decayTable u0 l t)
        sensors := some zero1
        trueVals := some ⟨[t.length, 1], r.data, by simp [hrs]⟩ }) := by
    unfold setTrueVals
    have hk : STP.nData
        { domain := some D
          times := some (vecND t)
          sampleDist := some "u"
          lam := some ⟨[l.length, 1], l, by simp⟩
          data := some (decayTable u0 l t)
          sensors := some zero1 } = .ok t.length := by
      show Except.ok (1 * t.length) = _
      rw [one_mul]
    rw [PyM.get_bind_run, hk, PyM.lift_ok_bind, ND.reshape_ok (by rw [← r.size_eq, hrs]; simp)]
    rfl
  refine ⟨⟨[l.length, 1], l, by simp⟩, decayTable u0 l t, ⟨[t.length, 1], r.data, by simp [hrs]⟩, ?_, rfl,
    rfl, rfl, rfl, fun j hj => ?_⟩
  · unfold runObj simulate
    rw [bind_of_ok e1, PyM.get_bind_run]
    simp only [need]
    rw [PyM.lift_ok_bind, PyM.lift_ok_bind]
    dsimp only [vecND]
    dsimp only [vecND] at e2
    rw [bind_of_ok e2, hr, PyM.lift_ok_bind]
    dsimp only [vecND] at e3
    rw [bind_of_ok e3]
    rfl
  · rw [← hrd j hj]
    simp [ND.get, ND.offset]

/-- **C114.** `exp_decay_1D` with a positive sampling frequency and a domain `[a, b]`, `a ≤ b`, returns a
problem with one sensor, the times `t_start + j / freq` below `time_range[1]`, the samples
`a + (b - a) z_i` for the uniform draws `z`, the data `u_0 exp(-λ_i t_j)`, the true values
`u_0 exp(-λ_true t_j)` as a column, the deviation, the domain as one row, and no measurements. -/
theorem C114_exact_partial (G : Gen σ) (u0 : ℝ) (time_range : ℝ × ℝ) {a b : ℝ} (hab : a ≤ b) (n : ℕ)
    (lamTrue tStart : ℝ) {freq : ℝ} (hf : 0 < freq) (sd : ℝ) (s : σ) :
    ∃ P s' T lam data times v D, expDecay1D G u0 time_range a b n lamTrue tStart freq sd s = (.ok P, s') ∧
      IsDecay P n T u0 tStart time_range.2 freq (fun i => a + (b - a) * nthDraw G.uniform s i) lam data times ∧
      P.trueVals = some v ∧ v.shape = [T, 1] ∧
      (∀ j < T, v.get [j, 0] = u0 * Real.exp (-(lamTrue * (tStart + j / freq)))) ∧
      P.stdDev = some sd ∧ P.domain = some D ∧ D.shape = [1, 2] ∧ D.data = [a, b] ∧
      P.sampleDist = some "u" := by
  have hl : ((List.range n).map (nthDraw ((Frozen.uniform G a b).stream G) s)).length = n := by simp
  obtain ⟨lam, data, v, h1, h2, h3, h4, h5, h6⟩ := simulate_ok hl (rowND a b) rfl
    (npArange tStart time_range.2 (1 / freq)) u0 lamTrue sd
  have hT : (npArange tStart time_range.2 (1 / freq)).length =
      ⌈(time_range.2 - tStart) / (1 / freq)⌉.toNat := by simp [npArange]
  have hg : ∀ j < ⌈(time_range.2 - tStart) / (1 / freq)⌉.toNat,
      (npArange tStart time_range.2 (1 / freq)).getD j 0 = tStart + j / freq := by
    intro j hj
    rw [List.getD_eq_getElem _ _ (by rw [hT]; exact hj)]
    unfold npArange
    rw [List.getElem_map, List.getElem_range]
    ring
  have hrun : expDecay1D G u0 time_range a b n lamTrue tStart freq sd s = (.ok
      { domain := some (rowND a b)
        times := some (vecND (npArange tStart time_range.2 (1 / freq)))
        sampleDist := some "u"
        lam := some lam
        data := some data
        sensors := some zero1
        trueVals := some v
        stdDev := some sd }, stateAfter ((Frozen.uniform G a b).stream G) s n) := by
    unfold expDecay1D
    rw [before_ok a b tStart time_range.2 hf.ne', PyM.lift_ok_bind, raiseIf_false (not_lt.2 hab),
      PyM.lift_ok_bind, take_bind_run, h1]
    rfl
  have hlam : ∀ i < n, lam.get [i, 0] = a + (b - a) * nthDraw G.uniform s i := by
    intro i hi
    rw [← uniform_draw]
    simp only [ND.get, h2, h3]
    simp [ND.offset, hi]
  refine ⟨_, _, ⌈(time_range.2 - tStart) / (1 / freq)⌉.toNat, lam, data,
    vecND (npArange tStart time_range.2 (1 / freq)), v, rowND a b, hrun,
    ⟨⟨rfl, h2, rfl, ?_, rfl, rfl, rfl, ?_, rfl, by simp⟩, ?_, ?_, ?_, hlam, ?_⟩, rfl, by rw [h5, hT], ?_, rfl,
    rfl, rfl, rfl, rfl⟩
  · rw [h4]
    show [_, _] = _
    rw [hl, hT, one_mul]
  · show some _ = _
    rw [hT]
  · intro i
    rw [arange_count (by positivity)]
    rw [mul_one_div]
  · show [_] = _
    rw [hT]
  · intro j hj
    rw [← hg j hj]
    simp [ND.get, vecND, ND.offset]
  · intro i hi j hj
    rw [h4, decayTable_get _ _ _ (by rw [hl]; exact hi) (by rw [hT]; exact hj), hg j hj, ← uniform_draw,
      List.getD_eq_getElem _ _ (by rw [hl]; exact hi), List.getElem_map, List.getElem_range]
  · intro j hj
    rw [h6 j (by rw [hT]; exact hj), hg j hj]

/-- **C114**: a frequency 0 is rejected with `ZeroDivisionError`, limits in the wrong order with
`ValueError`. -/
theorem C114_rejects (G : Gen σ) (u0 : ℝ) (time_range : ℝ × ℝ) (a b : ℝ) (n : ℕ)
    (lamTrue tStart freq sd : ℝ) (s : σ) :
    (freq = 0 → expDecay1D G u0 time_range a b n lamTrue tStart freq sd s = (.error .zeroDivisionError, s)) ∧
    (freq ≠ 0 → b < a → expDecay1D G u0 time_range a b n lamTrue tStart freq sd s = (.error .valueError, s)) := by
  constructor
  · rintro rfl
    have : runObj (before (vecND [a, b]) tStart time_range.2 0 id) {} = .error .zeroDivisionError := by
      unfold runObj before
      rw [bind_of_ok (domain_ok a b), raiseIf_true rfl]
      rfl
    unfold expDecay1D
    rw [this]
    rfl
  · intro hf hba
    unfold expDecay1D
    rw [before_ok a b tStart time_range.2 hf, PyM.lift_ok_bind, raiseIf_true hba]
    rfl

/-- C114, as claimed: the times lie in `time_range`. -/
def C114_claim : Prop :=
  ∀ (σ : Type) (G : Gen σ) (u0 : ℝ) (time_range : ℝ × ℝ) (a b : ℝ) (n : ℕ) (lamTrue tStart freq sd : ℝ)
    (s s' : σ) (P : STP) (times : ND), a ≤ b → 0 < freq →
    expDecay1D G u0 time_range a b n lamTrue tStart freq sd s = (.ok P, s') → P.times = some times →
    ∀ t ∈ times.data, time_range.1 ≤ t ∧ t < time_range.2

/-- A generator whose numbers are the states `0, 1, 2, …` (normal) and `0, 1/2, 2/3, …` (uniform). -/
noncomputable def decayGen : Gen ℕ := ⟨⟨id, fun s => (s, s + 1)⟩, fun s => (s / (s + 1), s + 1)⟩

/-- `time_range=[1, 4]` gives the time 0. -/
theorem C114_claim_refuted : ¬ C114_claim := by
  intro hC
  obtain ⟨P, s', T, lam, data, times, v, D, hr, hd, -⟩ := C114_exact_partial decayGen 1 (1, 4) zero_le_one 3
    (1 / 2) 0 (freq := 1) one_pos 1 0
  have hT : 0 < T := (hd.count 0).2 (by norm_num)
  have h := hC ℕ decayGen 1 (1, 4) 0 1 3 (1 / 2) 0 1 1 0 s' P times zero_le_one one_pos hr hd.ready.times_eq
  have h0 := hd.times_eq 0 hT
  have hlen : times.data.length = T := by rw [times.size_eq, hd.times_shape]; simp
  have := (h (times.get [0]) (by
    have ho : ND.offset times.shape [0] = 0 := by rw [hd.times_shape]; simp [ND.offset]
    simp only [ND.get]
    rw [List.getD_eq_getElem _ _ (by rw [ho, hlen]; exact hT)]
    exact List.getElem_mem _)).1
  rw [h0] at this
  norm_num at this

/-- Longer decay: at a time `t ≥ 0` the larger rate has the smaller value, strictly if `t > 0`. -/
theorem decay_anti {l l' t : ℝ} (hl : l ≤ l') (ht : 0 ≤ t) : Real.exp (-(l' * t)) ≤ Real.exp (-(l * t)) :=
  Real.exp_le_exp.2 (neg_le_neg (mul_le_mul_of_nonneg_right hl ht))

theorem decay_lt {l l' t : ℝ} (hl : l < l') (ht : 0 < t) : Real.exp (-(l' * t)) < Real.exp (-(l * t)) :=
  Real.exp_lt_exp.2 (neg_lt_neg (mul_lt_mul_of_pos_right hl ht))

/-- **C114 (the closest sample).** If `u_0 ≠ 0`, the times are not negative and one is positive, then
`get_closest_to_true_vals` returns the sample next to `λ_true` from below or above: no sample lies strictly
between it and `λ_true`, and if `λ_true` is a sample it is returned. -/
theorem C114_closest {P : STP} {n T : ℕ} {u0 tStart tEnd freq lamTrue : ℝ} {x : ℕ → ℝ} {lam data times v : ND}
    (h : IsDecay P n T u0 tStart tEnd freq x lam data times) (hu : u0 ≠ 0) (ht : 0 ≤ tStart) (hf : 0 < freq)
    {j0 : ℕ} (hj0 : j0 < T) (hpos : 0 < tStart + j0 / freq) (hn : n ≠ 0)
    (hv : P.trueVals = some v) (hvs : v.shape = [T, 1])
    (hvd : ∀ j < T, v.get [j, 0] = u0 * Real.exp (-(lamTrue * (tStart + j / freq)))) :
    ∃ i < n, P.closestToTrueVals = .ok [x i] ∧
      ∀ k < n, ¬ (x i < x k ∧ x k ≤ lamTrue) ∧ ¬ (lamTrue ≤ x k ∧ x k < x i) := by
  obtain ⟨i, hi, hc, hm⟩ := C53_true_vals h.ready hv (by rw [hvs, one_mul]) hn
  refine ⟨i, hi, ?_, fun k hk => ?_⟩
  · rw [hc]
    simp [h.lam_eq i hi]
  have htj : ∀ j : ℕ, 0 ≤ tStart + j / freq := fun j => by positivity
  -- the distances
  have hle := hm.2.1 k hk
  unfold rowDist at hle
  have hnn : ∀ i', 0 ≤ ((List.range (1 * T)).map fun q => (data.get [i', q] - v.get [q, 0]) ^ 2).sum :=
    fun i' => List.sum_nonneg (by
      intro y hy
      obtain ⟨q, -, rfl⟩ := List.mem_map.1 hy
      positivity)
  have hle' := (Real.sqrt_le_sqrt_iff (hnn k)).1 hle
  -- a sample between gives a smaller distance
  have key : (∀ j < T, |Real.exp (-(x k * (tStart + j / freq))) - Real.exp (-(lamTrue * (tStart + j / freq)))| ≤
        |Real.exp (-(x i * (tStart + j / freq))) - Real.exp (-(lamTrue * (tStart + j / freq)))|) →
      (|Real.exp (-(x k * (tStart + j0 / freq))) - Real.exp (-(lamTrue * (tStart + j0 / freq)))| <
        |Real.exp (-(x i * (tStart + j0 / freq))) - Real.exp (-(lamTrue * (tStart + j0 / freq)))|) → False := by
    intro h1 h2
    refine absurd hle' (not_le.2 ?_)
    have e : ∀ i' < n, ((List.range (1 * T)).map fun q => (data.get [i', q] - v.get [q, 0]) ^ 2).sum =
        ∑ q ∈ Finset.range T, u0 ^ 2 * |Real.exp (-(x i' * (tStart + q / freq))) -
          Real.exp (-(lamTrue * (tStart + q / freq)))| ^ 2 := by
      intro i' hi'
      rw [one_mul]
      have hs : ∀ f : ℕ → ℝ, ((List.range T).map f).sum = ∑ q ∈ Finset.range T, f q := fun f => rfl
      rw [hs]
      refine Finset.sum_congr rfl fun q hq => ?_
      have hq := Finset.mem_range.1 hq
      rw [h.data_eq i' hi' q hq, hvd q hq, sq_abs]
      ring
    rw [e k hk, e i hi]
    refine Finset.sum_lt_sum (fun q hq => ?_) ⟨j0, Finset.mem_range.2 hj0, ?_⟩
    · have := h1 q (Finset.mem_range.1 hq)
      gcongr
    · have : 0 < u0 ^ 2 := by positivity
      gcongr
  constructor
  · rintro ⟨h1, h2⟩
    refine key (fun j hj => ?_) ?_
    · have a1 := decay_anti h1.le (htj j)
      have a2 := decay_anti h2 (htj j)
      rw [abs_of_nonneg (by linarith), abs_of_nonneg (by linarith)]
      linarith
    · have a1 := decay_lt h1 hpos
      have a2 := decay_anti h2 (htj j0)
      rw [abs_of_nonneg (by linarith), abs_of_nonneg (by linarith)]
      linarith
  · rintro ⟨h1, h2⟩
    refine key (fun j hj => ?_) ?_
    · have a1 := decay_anti h2.le (htj j)
      have a2 := decay_anti h1 (htj j)
      rw [abs_of_nonpos (by linarith), abs_of_nonpos (by linarith)]
      linarith
    · have a1 := decay_lt h2 hpos
      have a2 := decay_anti h1 (htj j0)
      rw [abs_of_nonpos (by linarith), abs_of_nonpos (by linarith)]
      linarith

/-- **C114 (the inverse problem).** After `measurements_from_reference(seed=seed)` the measurements are the true values
plus `std_dev` times normal draws, and `mud_problem("wme")` is a density problem over the samples whose quantity of
interest is a strictly increasing function of the decay rate: different rates are told apart, whatever the
noise. -/
theorem C114_inverse {P : STP} {n T : ℕ} {u0 tStart tEnd freq lamTrue sd : ℝ} {x : ℕ → ℝ}
    {lam data times v D : ND}
    (h : IsDecay P n T u0 tStart tEnd freq x lam data times) (hu : 0 < u0) (ht : 0 ≤ tStart) (hf : 0 < freq)
    {j0 : ℕ} (hj0 : j0 < T) (hpos : 0 < tStart + j0 / freq)
    (hv : P.trueVals = some v) (hvs : v.shape = [T, 1])
    (hvd : ∀ j < T, v.get [j, 0] = u0 * Real.exp (-(lamTrue * (tStart + j / freq))))
    (hsd : P.stdDev = some sd) (h0 : 0 < sd) (hD : P.domain = some D) (hDs : D.shape = [1, 2])
    (ext : Decomp) (G : Rng σ) (seed : Option ℕ) (s : σ) :
    ∃ P' s' M Q, measurementsFromReference G none none seed (P, s) = (.ok (), (P', s')) ∧
      P'.measurements = some M ∧ (∀ j < T, M.get [j, 0] = u0 * Real.exp (-(lamTrue * (tStart + j / freq))) +
        sd * nthDraw G (startState G seed s) j) ∧
      P'.mudProblem ext "wme" = .ok Q ∧ Q.X.r = n ∧ (∀ i < n, Q.X.get i 0 = x i) ∧
      ∀ i < n, ∀ k < n, (Q.y.get i 0 < Q.y.get k 0 ↔ x i < x k) := by
  have hlen : v.data.length = 1 * T := by rw [v.size_eq, hvs]; simp
  obtain ⟨M, hM, hMs, hMd⟩ := C74_measurements G P (S := 1) (T := T) (ref := v) h.ready.sensors_eq rfl
    h.ready.times_eq h.ready.times_shape hlen sd seed s
  have hr : Ready { P with trueVals := some v, stdDev := some sd, measurements := some M } n 1 1 T lam data
      zero1 times (some M) :=
    ⟨h.ready.lam_eq, h.ready.lam_shape, h.ready.data_eq, h.ready.data_shape, h.ready.sensors_eq,
      h.ready.sensors_shape, h.ready.times_eq, h.ready.times_shape, rfl, fun m hm => by cases hm; exact hMs⟩
  have htl : times.data.length = T := by rw [times.size_eq, h.times_shape]; simp
  have hT0 : List.range T ≠ [] := by
    intro h
    rw [List.range_eq_nil] at h
    omega
  have hQ := C54_exact ext hr (ms := none) (mt := none) (mx := none) (fun _ h => by cases h)
    (fun _ h => by cases h) (fun _ h => by cases h) (a := List.range n) (b := List.range T) (c := List.range 1)
    rfl rfl rfl hT0 (by simp) htl (fun h => absurd rfl h) (sd := sd) rfl h0.ne' hD hDs 2
  rw [C74_stored, hv, hsd]
  refine ⟨_, _, M, _, hM, rfl, fun j hj => ?_, hQ, by simp, fun i hi => ?_, ?_⟩
  · rw [hMd j (by rw [one_mul]; exact hj), ← hvd j hj]
    simp [ND.get, hvs, ND.offset]
  · rw [← h.lam_eq i hi]
    refine (Arr2.get_mk' _ (by simpa using hi) one_pos).trans ?_
    simp
  · have hy : ∀ i < n, Arr2.get (Arr2.col fun i : Fin (List.range n).length =>
        (∑ s : Fin (List.range 1).length, ∑ t : Fin (List.range T).length,
          (M.get [(List.range 1)[s] * T + (List.range T)[t], 0] -
            data.get [(List.range n)[i], (List.range 1)[s] * T + (List.range T)[t]]) / sd) /
              Real.sqrt (List.range n).length) i 0 =
        (∑ j ∈ Finset.range T, (M.get [j, 0] - u0 * Real.exp (-(x i * (tStart + j / freq)))) / sd) /
          Real.sqrt n := by
      intro i hi
      refine (Arr2.get_mk' _ (by simpa using hi) one_pos).trans ?_
      have hs : ∀ (l : List ℕ) (f : ℕ → ℝ), ∑ t : Fin l.length, f l[t] = (l.map f).sum :=
        fun l f => Fin.sum_univ_fun_getElem l f
      have e := hs (List.range 1) fun s => ∑ t : Fin (List.range T).length,
          (M.get [s * T + (List.range T)[t], 0] - data.get [i, s * T + (List.range T)[t]]) / sd
      have e2 := hs (List.range T) fun t => (M.get [0 * T + t, 0] - data.get [i, 0 * T + t]) / sd
      have e3 : (∑ s : Fin (List.range 1).length, ∑ t : Fin (List.range T).length,
          (M.get [(List.range 1)[s] * T + (List.range T)[t], 0] -
            data.get [i, (List.range 1)[s] * T + (List.range T)[t]]) / sd) =
          ∑ j ∈ Finset.range T, (M.get [j, 0] - u0 * Real.exp (-(x i * (tStart + j / freq)))) / sd := by
        refine e.trans ?_
        rw [show List.range 1 = [0] from rfl, List.map_singleton, List.sum_singleton]
        refine e2.trans ?_
        refine Finset.sum_congr (s₂ := Finset.range T) rfl fun j hj => ?_
        rw [zero_mul, zero_add, h.data_eq i hi j (Finset.mem_range.1 hj)]
      have hi' : ∀ hh, (List.range n)[(⟨i, hh⟩ : Fin (List.range n).length)] = i := fun hh => by simp
      rw [← e3, Matrix.of_apply]
      simp only [hi', List.length_range]
    intro i hi k hk
    dsimp only
    rw [hy i hi, hy k hk]
    have hn : 0 < Real.sqrt n := Real.sqrt_pos.2 (by exact_mod_cast (by omega : 0 < n))
    rw [div_lt_div_iff_of_pos_right hn]
    have htj : ∀ j : ℕ, 0 ≤ tStart + j / freq := fun j => by positivity
    have lt : ∀ i k, x i < x k →
        ∑ j ∈ Finset.range T, (M.get [j, 0] - u0 * Real.exp (-(x i * (tStart + j / freq)))) / sd <
        ∑ j ∈ Finset.range T, (M.get [j, 0] - u0 * Real.exp (-(x k * (tStart + j / freq)))) / sd := by
      intro i k hik
      refine Finset.sum_lt_sum (fun q hq => ?_) ⟨j0, Finset.mem_range.2 hj0, ?_⟩
      · have := decay_anti hik.le (htj q)
        gcongr
      · have := decay_lt hik hpos
        gcongr
    refine ⟨fun hlt => ?_, lt i k⟩
    by_contra hge
    rcases (not_lt.1 hge).lt_or_eq with h1 | h1
    · exact absurd hlt (lt k i h1).not_gt
    · rw [h1] at hlt
      exact absurd hlt (lt_irrefl _)

/-- The hypotheses of `C114_closest` and `C114_inverse` are met by what `exp_decay_1D` returns: samples
`0, 1/2, 2/3`, times `0, 1, 2, 3`. -/
example (ext : Decomp) : ∃ P : STP, (∃ i : ℕ, i < 3 ∧ P.closestToTrueVals = .ok [(i : ℝ) / (i + 1)]) ∧
    ∃ P' s' Q, measurementsFromReference decayGen.normal none none (some 0) (P, 3) = (.ok (), (P', s')) ∧
      P'.mudProblem ext "wme" = .ok Q ∧ Q.y.get 0 0 < Q.y.get 1 0 := by
  obtain ⟨P, s', T, lam, data, times, v, D, hr, hd, hv, hvs, hvd, hsd, hD, hDs, -⟩ :=
    C114_exact_partial decayGen 1 (0, 4) zero_le_one 3 (1 / 2) 0 (freq := 1) one_pos 1 0
  have hT : 1 < T := (hd.count 1).2 (by norm_num)
  have hst : ∀ i : ℕ, stateAfter decayGen.uniform 0 i = i := by
    intro i
    induction i with
    | zero => rfl
    | succ i ih =>
      show (decayGen.uniform.draw _).2 = _
      rw [ih]
      rfl
  have hx : ∀ i : ℕ, (0 : ℝ) + (1 - 0) * nthDraw decayGen.uniform 0 i = i / (i + 1) := by
    intro i
    unfold nthDraw
    rw [hst i]
    show (0 : ℝ) + (1 - 0) * ((i : ℝ) / (i + 1)) = _
    ring
  refine ⟨P, ?_, ?_⟩
  · obtain ⟨i, hi, h, -⟩ := C114_closest hd one_ne_zero le_rfl one_pos hT (by norm_num) (by norm_num) hv hvs hvd
    refine ⟨i, hi, ?_⟩
    rw [h, hx i]
  · obtain ⟨P', s'', M, Q, h1, -, -, h2, -, -, h3⟩ := C114_inverse hd one_pos le_rfl one_pos hT (by norm_num)
      hv hvs hvd hsd one_pos hD hDs ext decayGen.normal (some 0) 3
    refine ⟨P', s'', Q, h1, h2, (h3 0 (by norm_num) 1 (by norm_num)).2 ?_⟩
    rw [hx 0, hx 1]
    norm_num

/-! ## C115: the two examples that cannot be run -/

/-- C115, as claimed: `exp_decay_2D` returns a problem for a two-parameter domain, a positive frequency and
one row of two numbers for each sample. -/
def C115_decay_claim : Prop :=
  ∀ (σ : Type) (draw : PyM σ ND) (domain : ND) (n N : ℕ) (tStart tEnd freq sd : ℝ) (s : σ),
    domain.shape = [2, 2] → 0 < freq → (∀ s, ∃ lam s', draw s = (.ok lam, s') ∧ lam.shape = [n, 2]) →
    ∃ P s', expDecay2D draw domain N tStart tEnd freq sd s = (.ok P, s')

/-- C115, as claimed: `identity_1D_temporal_prob` returns a density problem for some settings. -/
def C115_temporal_claim : Prop :=
  ∃ (σ : Type) (ext : Decomp) (G : Gen σ) (init : Frozen σ) (n num_obs : ℕ) (y noise : ℝ) (domain : Val)
    (s s' : σ) (D : DP), temporalProb ext G init n num_obs y noise domain s = (.ok D, s')

theorem simulate2_fails (sd : ℝ) (lam : ND) (P : STP) : ∃ e, runObj (simulate2 sd lam) P = .error e := by
  have hc : (bindCall ["t", "l1", "l2"] 3 2 [] : Py Unit) = .error .typeError := by
    simp [bindCall]
  unfold runObj simulate2
  rcases h1 : setLam lam P with ⟨r, P1⟩
  cases r with
  | error e => exact ⟨e, by rw [bind_of_error h1]⟩
  | ok u =>
    rw [bind_of_ok h1, PyM.get_bind_run]
    cases hl : P1.lam with
    | none => exact ⟨.typeError, rfl⟩
    | some lam' =>
      cases ht : P1.times with
      | none => exact ⟨.typeError, rfl⟩
      | some times =>
        simp only [need, PyM.lift_ok_bind]
        rcases h2 : twoColumns lam' with e | u
        · exact ⟨e, rfl⟩
        rw [PyM.lift_ok_bind]
        rcases h3 : setData (decayTable2 lam' times.data) P1 with ⟨r, P2⟩
        cases r with
        | error e => exact ⟨e, by rw [bind_of_error h3]⟩
        | ok u => exact ⟨.typeError, by rw [bind_of_ok h3, hc]; rfl⟩

/-- **C115.** `exp_decay_2D` never returns: whatever the arguments and whatever the samples, an exception is
raised. -/
theorem C115_decay_never (draw : PyM σ ND) (domain : ND) (N : ℕ) (tStart tEnd freq sd : ℝ) (s : σ) :
    ∃ e s', expDecay2D draw domain N tStart tEnd freq sd s = (.error e, s') := by
  unfold expDecay2D
  rcases h0 : runObj (before domain tStart tEnd freq (List.take N)) {} with e | P
  · exact ⟨e, s, rfl⟩
  rw [PyM.lift_ok_bind]
  rcases h1 : draw s with ⟨r, s1⟩
  cases r with
  | error e => exact ⟨e, s1, by rw [bind_of_error h1]⟩
  | ok lam =>
    obtain ⟨e, he⟩ := simulate2_fails sd lam P
    exact ⟨e, s1, by rw [bind_of_ok h1, he]; rfl⟩

/-- **C115**: for a two-parameter domain, a non-zero frequency and samples with two columns it is the
`TypeError` of the call `u_t_lambda_2(times, lambda_true)` without the third argument. -/
theorem C115_decay_type_error {draw : PyM σ ND} {domain : ND} {n N : ℕ} {tStart tEnd freq : ℝ} (sd : ℝ)
    {s s' : σ} {lam : ND} (hD : domain.shape = [2, 2]) (hf : freq ≠ 0) (hd : draw s = (.ok lam, s'))
    (hl : lam.shape = [n, 2]) :
    expDecay2D draw domain N tStart tEnd freq sd s = (.error .typeError, s') := by
  have hc : (bindCall ["t", "l1", "l2"] 3 2 [] : Py Unit) = .error .typeError := by
    simp [bindCall]
  have hdl : domain.data.length = 4 := by rw [domain.size_eq, hD]; rfl
  obtain ⟨D, hD1, hD2⟩ : ∃ D, domain.reshapeCols 2 = .ok D ∧ D.shape = [2, 2] := by
    unfold ND.reshapeCols
    rw [if_neg two_ne_zero, hdl, ND.reshape_ok (by rw [hD])]
    exact ⟨_, rfl, rfl⟩
  have hdom : setDomain domain {} = (.ok (), { domain := some D }) := by
    unfold setDomain
    rw [hD1, PyM.lift_ok_bind, PyM.get_bind_run]
    rfl
  have e0 : runObj (before domain tStart tEnd freq (List.take N)) {} = .ok
      { domain := some D
        times := some (vecND (List.take N (npArange tStart tEnd (1 / freq))))
        sampleDist := some "u" } := by
    unfold runObj before
    rw [bind_of_ok hdom, raiseIf_false hf]
    rfl
  generalize List.take N (npArange tStart tEnd (1 / freq)) = t at e0
  have ha : asColumn lam = lam := by
    unfold asColumn
    split
    · rename_i h
      rw [hl] at h
      simp at h
    · rfl
  have e1 : setLam lam
      { domain := some D
        times := some (vecND t)
        sampleDist := some "u" } = (.ok (),
      { domain := some D
        times := some (vecND t)
        sampleDist := some "u"
        lam := some lam }) := by
    unfold setLam
    rw [ha, PyM.get_bind_run]
    have d1 : lam.dim 1 = .ok 2 := by simp [ND.dim, hl]
    have d2 : D.dim 0 = .ok 2 := by simp [ND.dim, hD2]
    simp only [lamDomain]
    rw [d1, d2]
    simp only [PyM.lift_ok_bind]
    rw [raiseIf_false (by simp)]
    rfl
  have hsh : (decayTable2 lam t).shape = [n, t.length] := by
    unfold decayTable2
    rw [hl]
    rfl
  have e2 : ∃ P2, setData (decayTable2 lam t)
      { domain := some D
        times := some (vecND t)
        sampleDist := some "u"
        lam := some lam } = (.ok (), P2) := by
    unfold setData
    have hdt : dataTable (decayTable2 lam t) = .ok (decayTable2 lam t) := by
      unfold dataTable
      simp [hsh]
    have hd1 : (decayTable2 lam t).dim 1 = .ok t.length := by simp [ND.dim, hsh]
    rw [hdt, PyM.lift_ok_bind, STP.dataCols_ok hd1, PyM.lift_ok_bind, PyM.get_bind_run]
    have hly : layout t.length none (some (vecND t)) = .ok (zero1, vecND t) := by
      have d0 : (vecND t).dim 0 = .ok t.length := rfl
      have d1 : zero1.dim 0 = .ok 1 := rfl
      simp only [layout, Py.pure_eq, Py.ok_bind, d0, d1]
      rw [raiseIf_false (by simp)]
      simp only [Py.ok_bind]
      rw [raiseIf_false (by simp)]
      rfl
    simp only [hly]
    rw [PyM.lift_ok_bind]
    exact ⟨_, rfl⟩
  obtain ⟨P2, e2⟩ := e2
  have hs : runObj (simulate2 sd lam)
      { domain := some D
        times := some (vecND t)
        sampleDist := some "u" } = .error .typeError := by
    unfold runObj simulate2
    rw [bind_of_ok e1, PyM.get_bind_run]
    simp only [need]
    rw [PyM.lift_ok_bind, PyM.lift_ok_bind]
    have h2 : twoColumns lam = .ok () := by
      unfold twoColumns
      rw [raiseIf_false (by rw [hl]; simp)]
    rw [h2, PyM.lift_ok_bind]
    dsimp only [vecND] at e2 ⊢
    rw [bind_of_ok e2, hc]
    rfl
  unfold expDecay2D
  rw [e0, PyM.lift_ok_bind, bind_of_ok hd, hs]
  rfl

theorem C115_decay_claim_refuted : ¬ C115_decay_claim := by
  intro h
  obtain ⟨P, s', h⟩ := h ℕ (pure (rowND 0 1)) ⟨[2, 2], [0, 1, 0, 1], by simp⟩ 1 1 0 1 1 1 0
    rfl one_pos (fun s => ⟨rowND 0 1, s, rfl, rfl⟩)
  have h2 := C115_decay_type_error (draw := (pure (rowND 0 1) : PyM ℕ ND)) (n := 1) (N := 1) (tStart := 0)
    (tEnd := 1) (domain := ⟨[2, 2], [0, 1, 0, 1], by simp⟩) (freq := 1) 1 rfl one_ne_zero (s := 0) (s' := 0) rfl rfl
  rw [h2] at h
  simp at h

/-- **C115.** `identity_1D_temporal_prob` raises `ValueError` whatever the arguments: it loads
`sample_dist="uniform"`, which the setter rejects. -/
theorem C115_temporal_exact (ext : Decomp) (G : Gen σ) (init : Frozen σ) (n num_obs : ℕ) (y noise : ℝ)
    (domain : Val) (s : σ) :
    ∃ s', temporalProb ext G init n num_obs y noise domain s = (.error .valueError, s') := by
  have hl : ∀ out : Arr2 × Arr2 × List ℝ, runObj (loadDs (temporalDs out y noise domain num_obs) (.str "lam")
      (.str "data") []) {} = .error .valueError := by
    intro out
    unfold runObj loadDs
    have : setAll (temporalDs out y noise domain num_obs)
        (([] : DataSet).foldl (fun d e => dictSet d e.1 e.2) fieldNames) {} =
        (.error .valueError, {}) := by
      show (setAll _ (("sample_dist", .str "sample_dist") :: _)) {} = _
      rw [setAll, getSet_own (x := .str "uniform") rfl]
      rfl
    rw [bind_of_error this]
  unfold temporalProb
  rcases hp : polynomial1DData G init 1 n y noise num_obs s with ⟨r, s1⟩
  have : ∃ out, r = .ok out := by
    unfold polynomial1DData at hp
    rw [take_bind_run] at hp
    unfold polynomialObs at hp
    split at hp
    · exact ⟨_, (Prod.ext_iff.1 hp).1.symm⟩
    · rw [pyM_bind_assoc, take_bind_run] at hp
      exact ⟨_, (Prod.ext_iff.1 hp).1.symm⟩
  obtain ⟨out, rfl⟩ := this
  rw [bind_of_ok hp, hl out]
  exact ⟨s1, rfl⟩

theorem C115_temporal_claim_refuted : ¬ C115_temporal_claim := by
  rintro ⟨σ, ext, G, init, n, N, y, noise, domain, s, s', D, h⟩
  obtain ⟨s1, h1⟩ := C115_temporal_exact ext G init n N y noise domain s
  rw [h1] at h
  simp at h

end ExpDecay
end Verif
