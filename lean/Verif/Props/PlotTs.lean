import Verif.Model.PlotTs
import Verif.Props.SampleData

/-!
# Figures of `SpatioTemporalProblem`: C98, C99
-/

namespace Verif

open ND STP SpecST

variable {P : STP} {n p S T : ℕ} {lam data sensors times : ND} {meas : Option ND}

/-- A row of a 2-D array. -/
theorem index_row {d : ND} {n k : ℕ} (hd : d.shape = [n, k]) {i : ℕ} (hi : i < n) :
    ∃ r, d.index 2 0 (.int i) = .ok r ∧ r.data = (List.range k).map fun j => d.get [i, j] := by
  have hr : (Mask.int (i : ℤ)).resolve (d.shape.getD 0 0) = .ok [i] := by
    simp only [Mask.resolve, hd, List.getD_cons_zero, normIdx]
    rw [if_pos ⟨by omega, by omega⟩]
    rfl
  refine ⟨_, index_int (by simp [hd]) hr rfl, ?_⟩
  simp only [ofFn, hd, indices, List.eraseIdx_cons_zero, List.map_cons, List.map_nil]
  induction List.range k with
  | nil => rfl
  | cons j l ih => simpa using ih

theorem data_1d {m : ND} {k : ℕ} (hm : m.shape = [k]) :
    m.data = (List.range k).map fun j => m.get [j] := by
  have hl : m.data.length = k := by rw [m.size_eq, hm]; simp
  apply List.ext_getElem
  · simp [hl]
  · intro i h1 h2
    simp [ND.get, hm, offset, List.getElem?_eq_getElem h1]

theorem lineTs_ok {t d : ND} {n k : ℕ} (hd : d.shape = [n, k]) (ht : t.data.length = k) {i : ℕ}
    (hi : i < n) : lineTs t d i = .ok (t.data.zip ((List.range k).map fun j => d.get [i, j])) := by
  obtain ⟨r, hr, hr'⟩ := index_row hd hi
  unfold lineTs
  rw [hr, Py.ok_bind, raiseIf_false (by simp [hr', ht]), Py.ok_bind, hr']
  rfl

/-- A loop over `enumerate(l)` that uses only the position. -/
theorem lines_ok {β : Type} {f : ℕ → Py β} {g : ℕ → β} {l : List ℕ}
    (h : ∀ i < l.length, f i = .ok (g i)) :
    (l.zipIdx.mapM fun p => f p.2) = .ok ((List.range l.length).map g) := by
  have key : ∀ (l : List ℕ) (s : ℕ), (∀ i, s ≤ i → i < s + l.length → f i = .ok (g i)) →
      ((l.zipIdx s).mapM fun p => f p.2) = .ok ((List.range' s l.length).map g) := by
    intro l
    induction l with
    | nil => intro s _; rfl
    | cons x l ih =>
      intro s hs
      rw [List.zipIdx_cons, List.mapM_cons, hs s le_rfl (by simp), Py.ok_bind,
        ih (s + 1) (fun i h1 h2 => hs i (by omega) (by simp; omega))]
      rfl
  rw [key l 0 fun i _ h2 => h i (by omega), List.range_eq_range']

/-- **C98**: for a problem that is ready, with two-coordinate sensors and measurements, selections
picking the samples `a`, the times `b` (not empty) and the sensor `c`, `plot_ts` draws the measured
values of the sensor at the selected times, and the simulated series of the first
`min(max_plot, number of selected samples)` selected samples, whatever `np.random.choice` returns. -/
theorem C98_exact (h : Ready P n p S T lam data sensors times meas) (choice : ℕ → ℕ → List ℕ)
    (hch : ∀ n k, (choice n k).length = k)
    {ms mt : Option Mask} (hms : ListLike ms) (hmt : ListLike mt) {a b : List ℕ} {c : ℕ} {k : ℤ}
    (ha : Picks n ms a) (hb : Picks T mt b) (hc : c < S) (hk : (c : ℤ) = k ∨ (c : ℤ) = k + S)
    (hb0 : b ≠ []) (htd : times.data.length = T) (hs2 : sensors.shape = [S, 2]) {m : ND}
    (hm : meas = some m) (mp : ℕ) :
    P.plotTs choice ms mt (some (.int k)) mp = .ok
      ⟨b.map fun t => (times.data.getD t 0, m.get [c * T + t, 0]),
        (a.take mp).map fun i => b.map fun t => (times.data.getD t 0, data.get [i, c * T + t])⟩ := by
  have hp : Picks S (some (.ints [k])) [c] := .cons ⟨hc, hk⟩ .nil
  obtain ⟨r, hr, -, -, h3, h4, h5, -, -, h8, h9⟩ := C48_masks h hms hmt (mx := some (.ints [k]))
    (fun _ h => by cases h) ha hb hp hb0 (by simp) htd (fun _ => hs2)
  rw [← C48_single_sensor h hms hmt htd hs2] at hr
  obtain ⟨m', hm'⟩ : ∃ m', r.meas = some m' := by
    rw [hm] at h8
    exact Option.isSome_iff_exists.1 h8
  obtain ⟨h9s, h9g⟩ := h9 m' hm' m hm
  have h3' : r.data.shape = [a.length, b.length] := by rw [h3]; simp
  have h9s' : m'.shape = [b.length] := by rw [h9s]; simp
  unfold plotTs
  rw [hr, Py.ok_bind, dim_of_head (by rw [h3']; rfl), Py.ok_bind]
  have htl : r.times.data.length = b.length := by rw [h5]; simp
  have hscat : scatterTs r.times r.meas =
      .ok (b.map fun t => (times.data.getD t 0, m.get [c * T + t, 0])) := by
    rw [hm']
    change (do
      raiseIf (r.times.data.length ≠ m'.data.length) .valueError
      return r.times.data.zip m'.data : Py (List (ℝ × ℝ))) = _
    have hml : m'.data.length = b.length := by rw [m'.size_eq, h9s']; simp
    rw [raiseIf_false (by rw [htl, hml]; simp), Py.ok_bind, data_1d h9s', h5]
    change Except.ok _ = _
    congr 1
    apply List.ext_getElem
    · simp
    · intro i h1 h2
      simp only [List.length_map] at h2
      have := h9g ⟨0, by simp⟩ ⟨i, h2⟩
      simp at this
      simp [this]
  rw [hscat, Py.ok_bind]
  have hK : (if (mp : ℤ) > a.length then (a.length : ℤ) else mp) = (min mp a.length : ℕ) := by
    split_ifs <;> omega
  rw [hK, raiseIf_false (by omega), Py.ok_bind, Int.toNat_natCast,
    lines_ok (g := fun i => b.map fun t => (times.data.getD t 0, data.get [a.getD i 0, c * T + t])),
    Py.ok_bind, hch]
  · change Except.ok _ = _
    congr 2
    apply List.ext_getElem
    · simp
    · intro i h1 h2
      have : i < a.length := by simp at h1; omega
      simp [List.getElem?_eq_getElem this]
  · intro i hi
    rw [hch] at hi
    have hi : i < a.length := by omega
    rw [lineTs_ok h3' htl hi, h5]
    congr 1
    apply List.ext_getElem
    · simp
    · intro j h1 h2
      simp only [List.length_map] at h2
      have := h4 ⟨i, hi⟩ ⟨0, by simp⟩ ⟨j, h2⟩
      simp at this
      simp [this, List.getElem?_eq_getElem hi]

/-- `np.random.choice(n, k)`: `k` positions below `n` (with `n > 0`). -/
def IsChoice (choice : ℕ → ℕ → List ℕ) : Prop :=
  (∀ n k, (choice n k).length = k) ∧ ∀ n k, 0 < n → ∀ i ∈ choice n k, i < n

/-- The full claim C98: the lines drawn are those of the samples chosen at random. -/
def C98_claim : Prop :=
  ∀ (P : STP) (n p S T : ℕ) (lam data sensors times m : ND),
    Ready P n p S T lam data sensors times (some m) → times.data.length = T → T ≠ 0 → n ≠ 0 →
    sensors.shape = [S, 2] → ∀ choice, IsChoice choice → ∀ c < S, ∀ mp ≤ n,
    ∃ fig, P.plotTs choice none none (some (.int c)) mp = .ok fig ∧
      fig.series = (choice n mp).map fun i =>
        (List.range T).map fun t => (times.data.getD t 0, data.get [i, c * T + t])

/-- **C98, true part**: if the generator happens to choose the first samples in order. -/
theorem C98_first_partial (h : Ready P n p S T lam data sensors times meas)
    (choice : ℕ → ℕ → List ℕ) (hch : ∀ n k, (choice n k).length = k)
    (htd : times.data.length = T) (hT : T ≠ 0)
    (hs2 : sensors.shape = [S, 2]) {m : ND} (hm : meas = some m) {c : ℕ} (hc : c < S) (mp : ℕ)
    (hmp : mp ≤ n) (hfirst : choice n mp = List.range mp) :
    ∃ fig, P.plotTs choice none none (some (.int c)) mp = .ok fig ∧
      fig.measured = ((List.range T).map fun t => (times.data.getD t 0, m.get [c * T + t, 0])) ∧
      fig.series = (choice n mp).map fun i =>
        (List.range T).map fun t => (times.data.getD t 0, data.get [i, c * T + t]) := by
  refine ⟨_, C98_exact h choice hch (ms := none) (mt := none) (fun _ h => by cases h)
    (fun _ h => by cases h) (a := List.range n) (b := List.range T) rfl rfl hc (.inl rfl)
    (by simpa using hT) htd hs2 hm mp, rfl, ?_⟩
  rw [hfirst, List.take_range, Nat.min_eq_left hmp]

/-- **C98 is false of the code**: one line of the concrete problem, the generator chooses the last
sample, the first is drawn. -/
theorem C98_claim_refuted : ¬ C98_claim := by
  intro h
  obtain ⟨fig, h1, h2⟩ := h demoST 3 2 2 3 _ _ _ _ _ demoST_ready rfl (by norm_num) (by norm_num) rfl
    (fun n k => List.replicate k (n - 1)) ⟨by simp, fun n k hn i hi => by
      have := List.eq_of_mem_replicate hi
      omega⟩ 0 (by norm_num) 1 (by norm_num)
  have := C98_exact demoST_ready (fun n k => List.replicate k (n - 1)) (by simp) (ms := none) (mt := none)
    (fun _ h => by cases h)
    (fun _ h => by cases h) (a := List.range 3) (b := List.range 3) rfl rfl (c := 0) (k := 0) (by norm_num)
    (.inl rfl) (by simp) rfl rfl rfl 1
  have e := h1.symm.trans this
  cases e
  simp [List.range_succ] at h2
  have := h2.2.1
  simp [ND.get, offset, ndOfNats] at this

/-- Without measurements nothing is drawn: `ValueError` (two or more selected times). -/
theorem C98_needs_measurements (h : Ready P n p S T lam data sensors times none)
    (choice : ℕ → ℕ → List ℕ) {ms mt : Option Mask} (hms : ListLike ms) (hmt : ListLike mt)
    {a b : List ℕ} {c : ℕ} {k : ℤ}
    (ha : Picks n ms a) (hb : Picks T mt b) (hc : c < S) (hk : (c : ℤ) = k ∨ (c : ℤ) = k + S)
    (hb0 : 2 ≤ b.length) (htd : times.data.length = T) (hs2 : sensors.shape = [S, 2]) (mp : ℤ) :
    P.plotTs choice ms mt (some (.int k)) mp = .error .valueError := by
  have hp : Picks S (some (.ints [k])) [c] := .cons ⟨hc, hk⟩ .nil
  obtain ⟨r, hr, -, -, h3, -, h5, -, -, h8, -⟩ := C48_masks h hms hmt (mx := some (.ints [k]))
    (fun _ h => by cases h) ha hb hp (by rintro rfl; simp at hb0) (by simp) htd (fun _ => hs2)
  rw [← C48_single_sensor h hms hmt htd hs2] at hr
  have hm : r.meas = none := by
    cases hm : r.meas with
    | none => rfl
    | some m => rw [hm] at h8; cases h8
  unfold plotTs
  rw [hr, Py.ok_bind, dim_of_head (by rw [h3]; rfl), Py.ok_bind, hm]
  unfold scatterTs
  dsimp only
  rw [if_neg (by rw [h5]; simp; omega)]
  rfl

/-- Sensors with one coordinate as a 1-D array (in particular the default layout that the `data`
setter fills in): every call of `plot_ts` with a sensor number raises. -/
theorem C98_one_coordinate (h : Ready P n p S T lam data sensors times meas)
    (choice : ℕ → ℕ → List ℕ) (hs1 : sensors.shape = [S]) (k : ℤ) (mp : ℤ) :
    ∃ e, P.plotTs choice none none (some (.int k)) mp = .error e ∧
      (e = .valueError ∨ e = .indexError) := by
  obtain ⟨M, h2, h3, h4, he⟩ := h.sampleData_eq
  have key : ∃ e, P.sampleData none none (some (.int k)) = .error e ∧
      (e = .valueError ∨ e = .indexError) := by
    rw [he]
    simp only [maskSamples, maskTimes, maskSensors, Py.ok_bind]
    cases hr : (Mask.int k).resolve S with
    | error e =>
      refine ⟨e, ?_, .inr ?_⟩
      · unfold index
        rw [raiseIf_false (by simp [hs1]), Py.ok_bind, hs1]
        simp only [List.getD_cons_zero, hr]
        rfl
      · simp only [Mask.resolve, normIdx] at hr
        split_ifs at hr <;> cases hr
        rfl
    | ok sel =>
      have hi := index_int (A := sensors) (nd := 1) (ax := 0) (m := .int k) (sel := sel)
        (by simp [hs1]) (by simpa [hs1] using hr) rfl
      refine ⟨.valueError, ?_, .inl rfl⟩
      rw [hi, Py.ok_bind]
      have : (ofFn (sensors.shape.eraseIdx 0) fun idx =>
          sensors.get (idx.insertIdx 0 (sel.getD 0 0))).reshapeCols 2 = .error .valueError := by
        unfold reshapeCols
        rw [if_neg (by norm_num)]
        unfold reshape
        rw [dif_neg]
        simp [ofFn, hs1, indices]
      rw [this]
      rfl
  obtain ⟨e, he, hh⟩ := key
  refine ⟨e, ?_, hh⟩
  unfold plotTs
  rw [he]
  rfl

/-! ## C99: sensors -/

/-- Location of sensor `i`. -/
def sensorAt (sensors : ND) (i : ℕ) : ℝ × ℝ := (sensors.get [i, 0], sensors.get [i, 1])

theorem sensorPoints_ok (hse : P.sensors = some sensors) (hs2 : sensors.shape = [S, 2])
    {m : Option Mask} (hm : ListLike m) {c : List ℕ} (hc : Picks S m c) :
    P.sensorPoints m = .ok (c.map (sensorAt sensors)) := by
  unfold sensorPoints
  rw [hse]
  cases m with
  | none =>
    cases hc
    change STP.pairs sensors = _
    unfold STP.pairs
    rw [hs2]
    rfl
  | some m =>
    have hr := resolve_ok.2 hc
    have hi := index_ok (A := sensors) (nd := 2) (ax := 0) (m := m) (sel := c) (by simp [hs2])
      (by simpa [hs2] using hr) hm.isInt
    change (do STP.pairs (← sensors.index 2 0 m)) = _
    rw [hi, Py.ok_bind]
    unfold STP.pairs
    have hsh : (ofFn (sensors.shape.set 0 c.length) fun idx =>
        sensors.get (idx.set 0 (c.getD (idx.getD 0 0) 0))).shape = [c.length, 2] := by
      simp [ofFn, hs2]
    rw [hsh]
    change Except.ok _ = _
    congr 1
    apply List.ext_getElem
    · simp
    · intro i h1 h2
      simp only [List.length_map] at h2
      have e : ∀ j < 2, (ofFn (sensors.shape.set 0 c.length) fun idx =>
          sensors.get (idx.set 0 (c.getD (idx.getD 0 0) 0))).get [i, j] = sensors.get [c[i], j] := by
        intro j hj
        rw [get_ofFn (by simp [hs2, InB, h2, hj])]
        simp [List.getElem?_eq_getElem h2]
      simp only [List.getElem_map, List.getElem_range, sensorAt]
      rw [e 0 (by norm_num), e 1 (by norm_num)]

/-- **C99**, first part: `sensor_scatter_plot` draws the selected sensors, in the order of the
selection, at their locations. -/
theorem C99_scatter (hse : P.sensors = some sensors) (hs2 : sensors.shape = [S, 2])
    {m : Option Mask} (hm : ListLike m) {c : List ℕ} (hc : Picks S m c) :
    P.sensorScatter m = .ok (c.map (sensorAt sensors)) :=
  sensorPoints_ok hse hs2 hm hc

/-- The full claim C99: `sensor_contour_plot` gives every selected sensor its own datum (data of one
time, a triangulation that works). -/
def C99_claim : Prop :=
  ∀ (P : STP) (n p S : ℕ) (lam data sensors times : ND) (meas : Option ND),
    Ready P n p S 1 lam data sensors times meas → sensors.shape = [S, 2] →
    ∀ (m : Option Mask) (c : List ℕ), ListLike m → Picks S m c → ∀ i < n,
    P.sensorContour (fun _ => .ok ()) i none m =
      .ok (c.map fun s => (sensorAt sensors s, data.get [i, s]))

/-- What `sensor_contour_plot` does on a ready problem, exactly: the values are those of *all* sensors
and times in order, whatever the selection; `ValueError` if their number is not that of the selected
sensors. -/
theorem C99_exact (h : Ready P n p S T lam data sensors times meas) (hs2 : sensors.shape = [S, 2])
    (tri : List (ℝ × ℝ) → Py Unit) {m : Option Mask} (hm : ListLike m) {c : List ℕ}
    (hc : Picks S m c) {i : ℕ} (hi : i < n) (htri : tri (c.map (sensorAt sensors)) = .ok ()) :
    P.sensorContour tri i none m =
      if c.length = S * T then
        .ok ((c.map (sensorAt sensors)).zip ((List.range (S * T)).map fun j => data.get [i, j]))
      else .error .valueError := by
  obtain ⟨r, hr, hr'⟩ := index_row h.data_shape hi
  unfold sensorContour contourVals
  rw [h.sensors_eq]
  simp only [need, Py.ok_bind, h.data_eq, hr]
  rw [sensorPoints_ok h.sensors_eq hs2 hm hc]
  simp only [Py.pure_eq, Py.ok_bind, htri, hr', List.length_map, List.length_range]
  split_ifs with hl
  · rw [raiseIf_false (by simp [hl])]; rfl
  · rw [raiseIf_true (show S * T ≠ c.length from fun h => hl h.symm)]; rfl

/-- **C99, true part**: without a selection and with data of one time. -/
theorem C99_all_partial (h : Ready P n p S 1 lam data sensors times meas)
    (hs2 : sensors.shape = [S, 2]) (tri : List (ℝ × ℝ) → Py Unit) {i : ℕ} (hi : i < n)
    (htri : tri ((List.range S).map (sensorAt sensors)) = .ok ()) :
    P.sensorContour tri i none none =
      .ok ((List.range S).map fun s => (sensorAt sensors s, data.get [i, s])) := by
  rw [C99_exact h hs2 tri (m := none) (fun _ h => by cases h) (c := List.range S) rfl hi htri,
    if_pos (by simp), Nat.mul_one]
  congr 1
  apply List.ext_getElem <;> simp

/-- Data of several times cannot be drawn without giving the values. -/
theorem C99_times (h : Ready P n p S T lam data sensors times meas) (hs2 : sensors.shape = [S, 2])
    (hS : S ≠ 0) (hT : T ≠ 1) (tri : List (ℝ × ℝ) → Py Unit) {i : ℕ} (hi : i < n)
    (htri : tri ((List.range S).map (sensorAt sensors)) = .ok ()) :
    P.sensorContour tri i none none = .error .valueError := by
  rw [C99_exact h hs2 tri (m := none) (fun _ h => by cases h) (c := List.range S) rfl hi htri, if_neg]
  rw [List.length_range]
  intro hh
  exact hT (Nat.eq_of_mul_eq_mul_left (Nat.pos_of_ne_zero hS) (by omega))

/-- Values given by the caller are paired with the selected sensors. -/
theorem C99_given (hse : P.sensors = some sensors) (hs2 : sensors.shape = [S, 2])
    (tri : List (ℝ × ℝ) → Py Unit) {m : Option Mask} (hm : ListLike m) {c : List ℕ}
    (hc : Picks S m c) (htri : tri (c.map (sensorAt sensors)) = .ok ()) (idx : ℤ) (v : List ℝ)
    (hv : v.length = c.length) :
    P.sensorContour tri idx (some v) m = .ok ((c.map (sensorAt sensors)).zip v) := by
  unfold sensorContour contourVals
  rw [hse, sensorPoints_ok hse hs2 hm hc]
  simp only [need, Py.ok_bind, htri]
  rw [raiseIf_false (by simp [hv])]
  rfl

/-- Two sensors, one time, one sample with data 5 and 7. -/
def twoSensors : STP where
  lam := some (ndOfNats [1, 1] [1] rfl)
  data := some (ndOfNats [1, 2] [5, 7] rfl)
  sensors := some (ndOfNats [2, 2] [0, 0, 1, 1] rfl)
  times := some (ndOfNats [1] [0] rfl)

theorem twoSensors_ready : Ready twoSensors 1 1 2 1 (ndOfNats [1, 1] [1] rfl) (ndOfNats [1, 2] [5, 7] rfl)
    (ndOfNats [2, 2] [0, 0, 1, 1] rfl) (ndOfNats [1] [0] rfl) none :=
  ⟨rfl, rfl, rfl, rfl, rfl, rfl, rfl, rfl, rfl, fun _ h => by cases h⟩

/-- **C99 is false of the code**: selecting the sensors 1, 0 draws sensor 1 with the datum of
sensor 0. -/
theorem C99_claim_refuted : ¬ C99_claim := by
  intro h
  have hc : Picks 2 (some (.ints [1, 0])) [1, 0] := resolve_ok.1 rfl
  have h1 := h twoSensors 1 1 2 _ _ _ _ none twoSensors_ready rfl (some (.ints [1, 0])) [1, 0]
    (fun _ h => by cases h) hc 0 one_pos
  have h2 := C99_exact twoSensors_ready rfl (fun _ => .ok ()) (m := some (.ints [1, 0]))
    (fun _ h => by cases h) hc one_pos rfl
  have e := h1.symm.trans h2
  rw [if_pos (show [1, 0].length = 2 * 1 from rfl)] at e
  simp [List.range_succ, ND.get, offset, ndOfNats] at e

/-- With a selection of one of the two sensors nothing is drawn. -/
example : twoSensors.sensorContour (fun _ => .ok ()) 0 none (some (.ints [1])) = .error .valueError := by
  have := C99_exact twoSensors_ready rfl (fun _ => .ok ()) (m := some (.ints [1]))
    (fun _ h => by cases h) (c := [1]) (resolve_ok.1 rfl) one_pos rfl
  exact this

/-! ### Further cases meeting the hypotheses -/

/-- C98: the first two samples at the second sensor. -/
example : ∃ fig, demoST.plotTs (fun _ k => List.range k) none none (some (.int (1 : ℕ))) 2 = .ok fig ∧
    fig.measured = [(0, 13), (1, 14), (2, 16)] ∧
    fig.series = [[(0, 3), (1, 4), (2, 5)], [(0, 13), (1, 14), (2, 15)]] := by
  obtain ⟨fig, h1, h2, h3⟩ := C98_first_partial demoST_ready (fun _ k => List.range k) (fun _ k => by simp) rfl
    (by norm_num) rfl rfl (c := 1) (by norm_num) 2 (by norm_num) rfl
  refine ⟨fig, h1, h2.trans ?_, h3.trans ?_⟩ <;> simp [ndOfNats, ND.get, ND.offset, List.range_succ]

/-- C98: without measurements. -/
example (choice : ℕ → ℕ → List ℕ) : ({ demoST with measurements := none } : STP).plotTs choice none none
    (some (.int (-1))) 2 = .error .valueError :=
  C98_needs_measurements (n := 3) (p := 2) (S := 2) (T := 3)
    ⟨rfl, rfl, rfl, rfl, rfl, rfl, rfl, rfl, rfl, fun _ h => by cases h⟩ choice
    (ms := none) (mt := none) (fun _ h => by cases h) (fun _ h => by cases h) (a := [0, 1, 2]) (b := [0, 1, 2]) (c := 1) rfl rfl (by norm_num)
    (.inr (by norm_num)) (by simp) rfl rfl 2

/-- C98: sensors with one coordinate. -/
example (choice : ℕ → ℕ → List ℕ) : ∃ e, ({ demoST with sensors := some (ndOfNats [2] [0, 1] rfl) } : STP).plotTs choice
    none none (some (.int 0)) 2 = .error e ∧ (e = .valueError ∨ e = .indexError) :=
  C98_one_coordinate (n := 3) (p := 2) (S := 2) (T := 3) (meas := some (ndOfNats [6, 1] [10, 11, 12, 13, 14, 16] rfl))
    ⟨rfl, rfl, rfl, rfl, rfl, rfl, rfl, rfl, rfl, fun _ h => by cases h; rfl⟩ choice rfl 0 2

/-- C99: the sensors 1, 0 of two; values given for them; all sensors with their data; two times. -/
example : twoSensors.sensorScatter (some (.ints [1, 0])) = .ok [(1, 1), (0, 0)] := by
  rw [C99_scatter (S := 2) (c := [1, 0]) rfl rfl (fun _ h => by cases h) (resolve_ok.1 rfl)]
  simp [sensorAt, ndOfNats, ND.get, ND.offset]

example : twoSensors.sensorContour (fun _ => .ok ()) 0 (some [8, 9]) (some (.ints [1, 0])) =
    .ok [((1, 1), 8), ((0, 0), 9)] := by
  rw [C99_given (S := 2) (c := [1, 0]) rfl rfl _ (fun _ h => by cases h) (resolve_ok.1 rfl) rfl _ _ rfl]
  simp [sensorAt, ndOfNats, ND.get, ND.offset]

example : twoSensors.sensorContour (fun _ => .ok ()) (0 : ℕ) none none = .ok [((0, 0), 5), ((1, 1), 7)] := by
  rw [C99_all_partial twoSensors_ready rfl _ one_pos rfl]
  simp [sensorAt, ndOfNats, ND.get, ND.offset, List.range_succ]

example : demoST.sensorContour (fun _ => .ok ()) (1 : ℕ) none none = .error .valueError :=
  C99_times demoST_ready rfl (by norm_num) (by norm_num) _ (by norm_num) rfl

end Verif
