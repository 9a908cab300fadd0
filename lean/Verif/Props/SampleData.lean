import Verif.Lemmas.NDArray

/-!
# C47-C49: `SpatioTemporalProblem.sample_data`
-/

namespace Verif

open ND SpecST STP

/-! ### The stages -/

/-- An index list, boolean mask or slice (not a single integer, which drops the axis). -/
def ListLike (m : Option Mask) : Prop := ∀ k, m ≠ some (.int k)

theorem ListLike.isInt {m : Mask} (h : ListLike (some m)) : m.isInt = false := by
  cases m with
  | int k => exact absurd rfl (h k)
  | _ => rfl

section stages
variable {n p S T : ℕ}

theorem reshape3_get {A : ND} (hA : A.shape = [n, S * T]) {i s t : ℕ}
    (h : A.shape.prod = [n, S, T].prod) :
    (ND.mk [n, S, T] A.data (A.size_eq.trans h)).get [i, s, t] = A.get [i, s * T + t] := by
  simp only [ND.get, hA, offset, List.prod_cons, List.prod_nil]
  congr 1; ring

/-- Without masks, or with list-like ones, selecting on the sample axis. -/
theorem maskSamples_ok {lam D : ND} (hl : lam.shape = [n, p]) (hD : D.shape = [n, S, T])
    {m : Option Mask} (hm : ListLike m) {a : List ℕ} (ha : Picks n m a) :
    ∃ l d, maskSamples lam D m = .ok (l, d) ∧ l.shape = [a.length, p] ∧
      d.shape = [a.length, S, T] ∧
      (∀ i j, i < a.length → j < p → l.get [i, j] = lam.get [a.getD i 0, j]) ∧
      ∀ i s t, i < a.length → s < S → t < T → d.get [i, s, t] = D.get [a.getD i 0, s, t] := by
  cases m with
  | none =>
    obtain rfl : a = List.range n := ha
    refine ⟨lam, D, rfl, by simpa using hl, by simpa using hD, ?_, ?_⟩
    · intro i j hi _; rw [range_getD (by simpa using hi)]
    · intro i s t hi _ _; rw [range_getD (by simpa using hi)]
  | some m =>
    have hr := resolve_ok.2 ha
    refine ⟨_, _, by
      simp only [maskSamples]
      rw [index_ok (sel := a) (by simp [hl]) (by simpa [hl] using hr) hm.isInt, Py.ok_bind,
        index_ok (sel := a) (by simp [hD]) (by simpa [hD] using hr) hm.isInt, Py.ok_bind]
      rfl, by simp [hl], by simp [hD], ?_, ?_⟩
    · intro i j hi hj
      rw [get_ofFn]
      · rfl
      · simp [hl, InB, hi, hj]
    · intro i s t hi hs ht
      rw [get_ofFn]
      · rfl
      · simp [hD, InB, hi, hs, ht]

/-- Selecting on the time axis. -/
theorem maskTimes_ok {times D : ND} {M : Option ND} (ht : times.shape.head? = some T)
    (htd : times.data.length = T)
    (hD : D.shape = [n, S, T]) (hM : ∀ e ∈ M, e.shape = [S, T])
    {m : Option Mask} (hm : ListLike m) {b : List ℕ} (hb : Picks T m b) :
    ∃ t d e, maskTimes times D M m = .ok (t, d, e) ∧ t.shape.head? = some b.length ∧
      t.data = b.map (fun k => times.data.getD k 0) ∧
      d.shape = [n, S, b.length] ∧ e.isSome = M.isSome ∧ (∀ x ∈ e, x.shape = [S, b.length]) ∧
      (∀ i s k, i < n → s < S → k < b.length → d.get [i, s, k] = D.get [i, s, b.getD k 0]) ∧
      ∀ x ∈ e, ∀ y ∈ M, ∀ s k, s < S → k < b.length → x.get [s, k] = y.get [s, b.getD k 0] := by
  cases m with
  | none =>
    obtain rfl : b = List.range T := hb
    refine ⟨times, D, M, rfl, by simpa using ht, ?_, by simpa using hD, rfl, by simpa using hM,
      ?_, ?_⟩
    · refine List.ext_getElem (by simpa using htd) fun k h1 h2 => ?_
      simp [List.getD_eq_getElem?_getD, List.getElem?_eq_getElem h1]
    · intro i s k _ _ hk; rw [range_getD (by simpa using hk)]
    · intro x hx y hy s k _ hk
      rw [range_getD (by simpa using hk)]
      have : x = y := Option.mem_unique hx hy
      rw [this]
  | some m =>
    have hr := resolve_ok.2 hb
    -- the trailing axes of `times` have product 1
    obtain ⟨rest, hts⟩ : ∃ rest, times.shape = T :: rest := by
      match h : times.shape with
      | [] => rw [h] at ht; cases ht
      | x :: r => rw [h] at ht; cases ht; exact ⟨r, rfl⟩
    have hT : times.index 1 0 m = .ok (ofFn (b.length :: rest) fun idx =>
        times.get (idx.set 0 (b.getD (idx.getD 0 0) 0))) := by
      rw [index_ok (sel := b) (by simp [hts]) (by simpa [hts] using hr) hm.isInt]
      simp [hts]
    have hprod : T ≠ 0 → rest.prod = 1 := by
      intro h0
      have := times.size_eq
      rw [htd, hts, List.prod_cons] at this
      exact Nat.eq_of_mul_eq_mul_left (Nat.pos_of_ne_zero h0) (by omega)
    have hb0 : T = 0 → b.length = 0 := by
      intro h0
      rw [List.length_eq_zero_iff]
      refine List.eq_nil_iff_forall_not_mem.2 fun x hx => ?_
      have := Picks.lt hb x hx
      omega
    have hlen : (b.length :: rest).prod = b.length := by
      rw [List.prod_cons]
      by_cases h0 : T = 0
      · rw [hb0 h0]; simp
      · rw [hprod h0]; simp
    have hdata : (indices (b.length :: rest)).map (fun idx =>
        times.get (idx.set 0 (b.getD (idx.getD 0 0) 0))) = b.map fun k => times.data.getD k 0 := by
      by_cases h0 : T = 0
      · have : b = [] := List.length_eq_zero_iff.1 (hb0 h0)
        subst this
        simp [indices]
      · obtain ⟨z, hz⟩ : ∃ z, indices rest = [z] := by
          rw [← List.length_eq_one_iff, length_indices, hprod h0]
        have hzin : InB rest z := mem_indices.1 (by rw [hz]; simp)
        have hzo : offset rest z = 0 := by
          have := offset_lt hzin; rw [hprod h0] at this; omega
        refine List.ext_getElem (by simp [length_indices, hprod h0]) fun k h1 h2 => ?_
        have hk : k < b.length := by simpa using h2
        have hmid : (indices (b.length :: rest))[k]? = some (k :: z) := by
          have := indices_getElem? (s := b.length :: rest) (idx := k :: z) ⟨hk, hzin⟩
          simpa [offset, hprod h0, hzo] using this
        have hk' : k < (indices (b.length :: rest)).length := by simpa using h1
        have hmid' : (indices (b.length :: rest))[k] = k :: z := by
          rw [List.getElem?_eq_getElem hk'] at hmid; exact Option.some.inj hmid
        rw [List.getElem_map, List.getElem_map, hmid']
        simp only [List.set_cons_zero, List.getD_cons_zero, ND.get, hts, offset, hprod h0, hzo,
          mul_one, add_zero]
        rw [List.getD_eq_getElem?_getD (l := b), List.getElem?_eq_getElem hk]
        rfl
    set tt : ND := ofFn (b.length :: rest) fun idx =>
        times.get (idx.set 0 (b.getD (idx.getD 0 0) 0)) with htt
    have htt' : tt.data.length = b.length := by rw [tt.size_eq]; exact hlen
    have hrs : tt.reshapeCols 1 = .ok ⟨[b.length, 1], tt.data, by rw [htt']; simp⟩ := by
      unfold reshapeCols
      rw [if_neg one_ne_zero, reshape_ok (by rw [← tt.size_eq]; simp)]
      simp only [htt', Nat.div_one]
    have hDi := index_ok (A := D) (nd := 3) (ax := 2) (m := m) (sel := b) (by simp [hD])
      (by simpa [hD] using hr) hm.isInt
    have hDg : ∀ i s k, i < n → s < S → k < b.length →
        (ofFn (D.shape.set 2 b.length) fun idx => D.get (idx.set 2 (b.getD (idx.getD 2 0) 0))).get
          [i, s, k] = D.get [i, s, b.getD k 0] := by
      intro i s k hi hs hk
      rw [get_ofFn]
      · rfl
      · simp [hD, InB, hi, hs, hk]
    cases M with
    | none =>
      refine ⟨_, _, none, by
        simp only [maskTimes]
        rw [hT, Py.ok_bind, hrs, Py.ok_bind, hDi, Py.ok_bind]
        rfl, rfl, hdata, by simp [hD], rfl, by simp, hDg, by simp⟩
    | some y =>
      have hy := hM y rfl
      have hYi := index_ok (A := y) (nd := 2) (ax := 1) (m := m) (sel := b) (by simp [hy])
        (by simpa [hy] using hr) hm.isInt
      refine ⟨_, _, some (ofFn (y.shape.set 1 b.length) fun idx =>
          y.get (idx.set 1 (b.getD (idx.getD 1 0) 0))), by
        simp only [maskTimes]
        rw [hT, Py.ok_bind, hrs, Py.ok_bind, hDi, Py.ok_bind]
        simp only [mapOpt]
        rw [hYi, Py.ok_bind]
        rfl, rfl, hdata, by simp [hD], rfl, ?_, hDg, ?_⟩
      · intro x hx
        cases hx
        simp [hy]
      · intro x hx y' hy' s k hs hk
        cases hx; cases hy'
        rw [get_ofFn]
        · rfl
        · simp [hy, InB, hs, hk]

/-- Selecting on the sensor axis, for sensors given by two coordinates each. -/
theorem maskSensors_ok {sensors D : ND} {M : Option ND} {T' : ℕ}
    (hD : D.shape = [n, S, T']) (hM : ∀ e ∈ M, e.shape = [S, T'])
    {m : Option Mask} (hm : ListLike m) {c : List ℕ} (hc : Picks S m c)
    (hs : sensors.shape.head? = some S) (hs2 : m ≠ none → sensors.shape = [S, 2]) :
    ∃ t d e, maskSensors sensors D M m = .ok (t, d, e) ∧ t.shape.head? = some c.length ∧
      (m = none → t = sensors) ∧
      (m ≠ none → t.shape = [c.length, 2] ∧
        ∀ i k, i < c.length → k < 2 → t.get [i, k] = sensors.get [c.getD i 0, k]) ∧
      d.shape = [n, c.length, T'] ∧ e.isSome = M.isSome ∧ (∀ x ∈ e, x.shape = [c.length, T']) ∧
      (∀ i s k, i < n → s < c.length → k < T' → d.get [i, s, k] = D.get [i, c.getD s 0, k]) ∧
      ∀ x ∈ e, ∀ y ∈ M, ∀ s k, s < c.length → k < T' → x.get [s, k] = y.get [c.getD s 0, k] := by
  cases m with
  | none =>
    obtain rfl : c = List.range S := hc
    refine ⟨sensors, D, M, rfl, by simpa using hs, fun _ => rfl, fun h => absurd rfl h,
      by simpa using hD, rfl, by simpa using hM, ?_, ?_⟩
    · intro i s k _ hs _; rw [range_getD (by simpa using hs)]
    · intro x hx y hy s k hs _
      rw [range_getD (by simpa using hs)]
      have : x = y := Option.mem_unique hx hy
      rw [this]
  | some m =>
    have hr := resolve_ok.2 hc
    have hs2 := hs2 (by simp)
    set tt : ND := ofFn [c.length, 2] fun idx =>
        sensors.get (idx.set 0 (c.getD (idx.getD 0 0) 0)) with htt
    have hT : sensors.index 1 0 m = .ok tt := by
      rw [index_ok (sel := c) (by simp [hs2]) (by simpa [hs2] using hr) hm.isInt]
      simp [hs2, htt]
    have hrs : tt.reshapeCols 2 = .ok tt := by
      unfold reshapeCols
      rw [if_neg two_ne_zero, reshape_self]
      rw [tt.size_eq]
      simp [htt]
    have hDi := index_ok (A := D) (nd := 3) (ax := 1) (m := m) (sel := c) (by simp [hD])
      (by simpa [hD] using hr) hm.isInt
    have hDg : ∀ i s k, i < n → s < c.length → k < T' →
        (ofFn (D.shape.set 1 c.length) fun idx => D.get (idx.set 1 (c.getD (idx.getD 1 0) 0))).get
          [i, s, k] = D.get [i, c.getD s 0, k] := by
      intro i s k hi hs hk
      rw [get_ofFn]
      · rfl
      · simp [hD, InB, hi, hs, hk]
    have hsg : ∀ i k, i < c.length → k < 2 → tt.get [i, k] = sensors.get [c.getD i 0, k] := by
      intro i k hi hk
      rw [htt, get_ofFn]
      · rfl
      · simp [InB, hi, hk]
    cases M with
    | none =>
      refine ⟨_, _, none, by
        simp only [maskSensors]
        rw [hT, Py.ok_bind, hrs, Py.ok_bind, hDi, Py.ok_bind]
        rfl, rfl, by simp, fun _ => ⟨rfl, hsg⟩, by simp [hD], rfl, by simp, hDg, by simp⟩
    | some y =>
      have hy := hM y rfl
      have hYi := index_ok (A := y) (nd := 2) (ax := 0) (m := m) (sel := c) (by simp [hy])
        (by simpa [hy] using hr) hm.isInt
      refine ⟨_, _, some (ofFn (y.shape.set 0 c.length) fun idx =>
          y.get (idx.set 0 (c.getD (idx.getD 0 0) 0))), by
        simp only [maskSensors]
        rw [hT, Py.ok_bind, hrs, Py.ok_bind, hDi, Py.ok_bind]
        simp only [mapOpt]
        rw [hYi, Py.ok_bind]
        rfl, rfl, by simp, fun _ => ⟨rfl, hsg⟩, by simp [hD], rfl, ?_, hDg, ?_⟩
      · intro x hx
        cases hx
        simp [hy]
      · intro x hx y' hy' s k hs hk
        cases hx; cases hy'
        rw [get_ofFn]
        · rfl
        · simp [hy, InB, hs, hk]

end stages

/-! ### Assembling -/

section main
variable {P : STP} {n p S T : ℕ} {lam data sensors times : ND} {meas : Option ND}

theorem SpecST.Ready.nSamples (h : Ready P n p S T lam data sensors times meas) : P.nSamples = .ok n := by
  simp only [STP.nSamples, h.lam_eq, need, Py.ok_bind]
  exact dim_of_head (by rw [h.lam_shape]; rfl)

theorem SpecST.Ready.nSensors (h : Ready P n p S T lam data sensors times meas) : P.nSensors = .ok S := by
  simp only [STP.nSensors, h.sensors_eq, need, Py.ok_bind]
  exact dim_of_head h.sensors_shape

theorem SpecST.Ready.nTs (h : Ready P n p S T lam data sensors times meas) : P.nTs = .ok T := by
  simp only [STP.nTs, h.times_eq, need, Py.ok_bind]
  exact dim_of_head h.times_shape

/-- The three-dimensional view of the data. -/
def SpecST.Ready.cube (h : Ready P n p S T lam data sensors times meas) : ND :=
  ⟨[n, S, T], data.data, by rw [data.size_eq, h.data_shape]; simp⟩

/-- The two-dimensional view of the measurements. -/
def measTable (S T : ℕ) (m : ND) (h : m.shape = [S * T, 1]) : ND :=
  ⟨[S, T], m.data, by rw [m.size_eq, h]; simp⟩

theorem SpecST.Ready.meas2 (h : Ready P n p S T lam data sensors times meas) :
    ∃ M : Option ND, mapOpt (fun m => m.reshape [S, T]) P.measurements = .ok M ∧
      M.isSome = meas.isSome ∧ (∀ e ∈ M, e.shape = [S, T]) ∧
      ∀ e ∈ M, ∀ m ∈ meas, e.data = m.data := by
  rw [h.meas_eq]
  cases meas with
  | none => exact ⟨none, rfl, rfl, by simp, by simp⟩
  | some m =>
    have hm := h.meas_shape m rfl
    refine ⟨some (measTable S T m hm), ?_, rfl, ?_, ?_⟩
    · simp only [mapOpt]
      rw [reshape_ok (by rw [hm]; simp)]
      rfl
    · intro e he; cases he; rfl
    · intro e he m' hm'; cases he; cases hm'; rfl

/-- Unfolding of `sample_data` on a ready problem. -/
theorem SpecST.Ready.sampleData_eq (h : Ready P n p S T lam data sensors times meas) : ∃ M : Option ND, M.isSome = meas.isSome ∧
      (∀ e ∈ M, e.shape = [S, T]) ∧ (∀ e ∈ M, ∀ m ∈ meas, e.data = m.data) ∧
      ∀ ms mt mx : Option Mask, P.sampleData ms mt mx = (do
        let a ← maskSamples lam h.cube ms
        let b ← maskTimes times a.2 M mt
        let c ← maskSensors sensors b.2.1 b.2.2 mx
        let T' ← b.1.dim 0
        let S' ← c.1.dim 0
        let d ← c.2.1.reshapeCols (T' * S')
        let m ← mapOpt (fun m => m.reshape [T' * S']) c.2.2
        return ⟨a.1, b.1, c.1, d, m⟩) := by
  obtain ⟨M, h1, h2, h3, h4⟩ := h.meas2
  refine ⟨M, h2, h3, h4, fun ms mt mx => ?_⟩
  unfold STP.sampleData
  simp only [h.data_eq, need, Py.ok_bind, h.nSamples, h.nSensors, h.nTs, h1, h.times_eq,
    h.sensors_eq, h.lam_eq]
  rw [reshape_ok (by rw [h.data_shape]; simp)]
  rfl

/-- **C47.** `sample_data()` of a ready problem with at least one datum returns the stored arrays
and the flattened measurements. -/
theorem C47_identity (h : Ready P n p S T lam data sensors times meas) (hk : S * T ≠ 0) :
    P.sampleData = .ok ⟨lam, times, sensors, data, meas.map ND.ravel⟩ := by
  obtain ⟨M, h2, h3, h4, he⟩ := h.sampleData_eq
  rw [he]
  simp only [maskSamples, maskTimes, maskSensors, Py.ok_bind, dim_of_head h.times_shape,
    dim_of_head h.sensors_shape]
  have hd : h.cube.reshapeCols (T * S) = .ok data := by
    unfold reshapeCols
    rw [if_neg (by rwa [Nat.mul_comm])]
    have hl : h.cube.data.length = n * (T * S) := by
      rw [h.cube.size_eq]; simp only [SpecST.Ready.cube, List.prod_cons, List.prod_nil]; ring
    rw [hl, Nat.mul_div_cancel _ (Nat.pos_of_ne_zero (by rwa [Nat.mul_comm])), reshape_ok]
    · congr 1
      ext1
      · show [n, T * S] = data.shape
        rw [h.data_shape, Nat.mul_comm T S]
      · rfl
    · simp only [SpecST.Ready.cube, List.prod_cons, List.prod_nil]; ring
  rw [hd, Py.ok_bind]
  cases M with
  | none =>
    cases meas with
    | none => rfl
    | some m => cases h2
  | some e =>
    cases meas with
    | none => cases h2
    | some m =>
      have hm := h4 e rfl m rfl
      have hs := h3 e rfl
      have hml : m.data.length = S * T := by rw [m.size_eq, h.meas_shape m rfl]; simp
      simp only [mapOpt]
      rw [reshape_ok (by rw [hs]; simp only [List.prod_cons, List.prod_nil]; ring)]
      simp only [Py.ok_bind, Py.pure_eq, Option.map_some, Except.ok.injEq, STP.Sampled.mk.injEq,
        true_and, Option.some.injEq]
      ext1
      · show [T * S] = [m.data.length]
        rw [hml, Nat.mul_comm]
      · exact hm

/-- The data setter never produces a layout without data columns unless the data have none; for
such a problem `sample_data()` raises `ValueError`. -/
theorem C47_empty (h : Ready P n p S T lam data sensors times meas) (hk : S * T = 0) :
    P.sampleData = .error .valueError := by
  obtain ⟨M, h2, h3, h4, he⟩ := h.sampleData_eq
  rw [he]
  simp only [maskSamples, maskTimes, maskSensors, Py.ok_bind, dim_of_head h.times_shape,
    dim_of_head h.sensors_shape]
  unfold reshapeCols
  rw [if_pos (by rwa [Nat.mul_comm])]
  rfl

theorem getD_eq (a : List ℕ) (i : Fin a.length) : a.getD i 0 = a[i] := by
  rw [List.getD_eq_getElem?_getD, List.getElem?_eq_getElem i.2]; rfl

/-- **C48.** With sample, time and sensor selections picking the (non-empty on the data axes)
position lists `a`, `b`, `c`, the returned table has one row per selected sample and its entry
`(i, s·|b| + t)` is `data[a_i, c_s·T + b_t]`; parameters, times and sensors are the selected ones,
and the measurements are selected in the same order as the data columns. -/
theorem C48_masks (h : Ready P n p S T lam data sensors times meas)
    {ms mt mx : Option Mask} (hms : ListLike ms) (hmt : ListLike mt) (hmx : ListLike mx)
    {a b c : List ℕ} (ha : Picks n ms a) (hb : Picks T mt b) (hc : Picks S mx c)
    (hb0 : b ≠ []) (hc0 : c ≠ [])
    (htd : times.data.length = T) (hs2 : mx ≠ none → sensors.shape = [S, 2]) :
    ∃ r, P.sampleData ms mt mx = .ok r ∧
      r.lam.shape = [a.length, p] ∧
      (∀ (i : Fin a.length) (j : Fin p), r.lam.get [i, j] = lam.get [a[i], j]) ∧
      r.data.shape = [a.length, c.length * b.length] ∧
      (∀ (i : Fin a.length) (s : Fin c.length) (t : Fin b.length),
        r.data.get [i, s * b.length + t] = data.get [a[i], c[s] * T + b[t]]) ∧
      r.times.data = b.map (fun k => times.data.getD k 0) ∧
      (mx = none → r.sensors = sensors) ∧
      (mx ≠ none → r.sensors.shape = [c.length, 2] ∧
        ∀ (s : Fin c.length) (k : Fin 2), r.sensors.get [s, k] = sensors.get [c[s], k]) ∧
      r.meas.isSome = meas.isSome ∧
      ∀ m' ∈ r.meas, ∀ m ∈ meas, m'.shape = [c.length * b.length] ∧
        ∀ (s : Fin c.length) (t : Fin b.length),
          m'.get [s * b.length + t] = m.get [c[s] * T + b[t], 0] := by
  obtain ⟨M, h2, h3, h4, he⟩ := h.sampleData_eq
  obtain ⟨l, d1, hA, hl, hd1, hlg, hd1g⟩ := maskSamples_ok (D := h.cube) h.lam_shape rfl hms ha
  obtain ⟨t, d2, e2, hB, ht, htd', hd2, he2, he2s, hd2g, he2g⟩ :=
    maskTimes_ok (M := M) h.times_shape htd hd1 h3 hmt hb
  obtain ⟨x, d3, e3, hC, hx, hx0, hx1, hd3, he3, he3s, hd3g, he3g⟩ :=
    maskSensors_ok (sensors := sensors) hd2 he2s hmx hc h.sensors_shape hs2
  have hbl : 0 < b.length := List.length_pos_iff.2 hb0
  have hcl : 0 < c.length := List.length_pos_iff.2 hc0
  have hpos : 0 < b.length * c.length := Nat.mul_pos hbl hcl
  have hd3l : d3.data.length = a.length * (b.length * c.length) := by
    rw [d3.size_eq, hd3]; simp only [List.prod_cons, List.prod_nil]; ring
  have hR : d3.reshapeCols (b.length * c.length) =
      .ok ⟨[a.length, b.length * c.length], d3.data, by rw [hd3l]; simp⟩ := by
    unfold reshapeCols
    rw [if_neg hpos.ne', reshape_ok]
    · simp only [hd3l, Nat.mul_div_cancel _ hpos]
    · rw [← d3.size_eq, hd3l, Nat.mul_div_cancel _ hpos]; simp
  have hdat : ∀ (i : Fin a.length) (s : Fin c.length) (k : Fin b.length),
      d3.data.getD (i * (b.length * c.length) + (s * b.length + k)) 0 =
        data.get [a[i], c[s] * T + b[k]] := by
    intro i s k
    have hck : c.getD s 0 < S := getD_lt (Picks.lt hc) s.2
    have hbk : b.getD k 0 < T := getD_lt (Picks.lt hb) k.2
    have e1 : d3.get [i, s, k] = data.get [a[i], c[s] * T + b[k]] := by
      rw [hd3g i s k i.2 s.2 k.2, hd2g i _ k i.2 hck k.2, hd1g i _ _ i.2 hck hbk, getD_eq, getD_eq,
        getD_eq]
      exact reshape3_get h.data_shape (by rw [h.data_shape]; simp)
    rw [← e1, ND.get, hd3]
    simp only [offset, List.prod_cons, List.prod_nil]
    congr 1; ring
  have hlam : ∀ (i : Fin a.length) (j : Fin p), l.get [i, j] = lam.get [a[i], j] := by
    intro i j; rw [hlg i j i.2 j.2, getD_eq]
  have hsen : mx ≠ none → x.shape = [c.length, 2] ∧
        ∀ (s : Fin c.length) (k : Fin 2), x.get [s, k] = sensors.get [c[s], k] := by
    intro hn
    refine ⟨(hx1 hn).1, fun s k => ?_⟩
    rw [(hx1 hn).2 s k s.2 k.2, getD_eq]
  cases e3 with
  | none =>
    have hno : meas.isSome = false := by rw [← h2, ← he2, ← he3]; rfl
    refine ⟨⟨l, t, x, ⟨[a.length, b.length * c.length], d3.data, by rw [hd3l]; simp⟩, none⟩, ?_,
      hl, hlam, by simp [Nat.mul_comm], ?_, htd', hx0, hsen, hno.symm, by simp⟩
    · rw [he, hA]
      simp only [Py.ok_bind, hB, hC, dim_of_head ht, dim_of_head hx, hR]
      rfl
    · intro i s k
      rw [get_mk]
      simp only [offset, List.prod_cons, List.prod_nil, mul_one, add_zero]
      exact hdat i s k
  | some y =>
    have hy := he3s y rfl
    have hyl : y.data.length = b.length * c.length := by rw [y.size_eq, hy]; simp only [List.prod_cons, List.prod_nil]; ring
    have hyR : y.reshape [b.length * c.length] =
        .ok ⟨[b.length * c.length], y.data, by rw [hyl]; simp⟩ :=
      reshape_ok (by rw [← y.size_eq, hyl]; simp)
    have hno : meas.isSome = true := by rw [← h2, ← he2, ← he3]; rfl
    refine ⟨⟨l, t, x, ⟨[a.length, b.length * c.length], d3.data, by rw [hd3l]; simp⟩,
        some ⟨[b.length * c.length], y.data, by rw [hyl]; simp⟩⟩, ?_,
      hl, hlam, by simp [Nat.mul_comm], ?_, htd', hx0, hsen, hno.symm, ?_⟩
    · rw [he, hA]
      simp only [Py.ok_bind, hB, hC, dim_of_head ht, dim_of_head hx, hR, mapOpt, hyR]
      rfl
    · intro i s k
      rw [get_mk]
      simp only [offset, List.prod_cons, List.prod_nil, mul_one, add_zero]
      exact hdat i s k
    · intro m' hm' m hm
      cases hm'
      refine ⟨by simp [Nat.mul_comm], fun s k => ?_⟩
      have hck : c.getD s 0 < S := getD_lt (Picks.lt hc) s.2
      obtain ⟨e, hee⟩ : ∃ e, e2 = some e := Option.isSome_iff_exists.1 (he3.symm.trans rfl)
      obtain ⟨f, hff⟩ : ∃ f, M = some f := Option.isSome_iff_exists.1 (by rw [← he2, hee]; rfl)
      have e1 : y.get [s, k] = f.get [c[s], b[k]] := by
        rw [he3g y rfl e hee s k s.2 k.2, he2g e hee f hff _ k hck k.2, getD_eq, getD_eq]
      have e2' : f.get [c[s], b[k]] = m.get [c[s] * T + b[k], 0] := by
        simp only [ND.get, h3 f hff, h.meas_shape m hm, offset, List.prod_cons, List.prod_nil,
          mul_one, add_zero, h4 f hff m hm]
      rw [← e2', ← e1, get_mk, ND.get, hy]
      simp [offset]

/-- An index list out of range, or a boolean mask of the wrong length, is rejected with
`IndexError`. -/
theorem C48_bad_index (h : Ready P n p S T lam data sensors times meas)
    {ms mt mx : Option Mask} (hms : ListLike ms) (hmt : ListLike mt)
    (htd : times.data.length = T)
    (hbad : (¬ ∃ a, Picks n ms a) ∨ (¬ ∃ b, Picks T mt b) ∨ ¬ ∃ c, Picks S mx c) :
    P.sampleData ms mt mx = .error .indexError := by
  obtain ⟨M, h2, h3, h4, he⟩ := h.sampleData_eq
  rw [he]
  by_cases hA : ∃ a, Picks n ms a
  · obtain ⟨a, ha⟩ := hA
    obtain ⟨l, d1, hA, hl, hd1, -, -⟩ := maskSamples_ok (D := h.cube) h.lam_shape rfl hms ha
    rw [hA, Py.ok_bind]
    by_cases hB : ∃ b, Picks T mt b
    · obtain ⟨b, hb⟩ := hB
      obtain ⟨t, d2, e2, hB, -, -, hd2, -, -, -, -⟩ :=
        maskTimes_ok (M := M) h.times_shape htd hd1 h3 hmt hb
      have hC : ¬ ∃ c, Picks S mx c := by
        rcases hbad with hx | hx | hx
        · exact absurd ⟨a, ha⟩ hx
        · exact absurd ⟨b, hb⟩ hx
        · exact hx
      dsimp only
      rw [hB, Py.ok_bind]
      cases mx with
      | none => exact absurd ⟨_, rfl⟩ hC
      | some m =>
        have hr := resolve_err_of hC
        obtain ⟨rest, hts⟩ : ∃ rest, sensors.shape = S :: rest := by
          have ht := h.sensors_shape
          match h : sensors.shape with
          | [] => rw [h] at ht; cases ht
          | x :: r => rw [h] at ht; cases ht; exact ⟨r, rfl⟩
        simp only [maskSensors]
        rw [index_err (by simp [hts]) (by simpa [hts] using hr)]
        rfl
    · dsimp only
      cases mt with
      | none => exact absurd ⟨_, rfl⟩ hB
      | some m =>
        have hr := resolve_err_of hB
        obtain ⟨rest, hts⟩ : ∃ rest, times.shape = T :: rest := by
          have ht := h.times_shape
          match h : times.shape with
          | [] => rw [h] at ht; cases ht
          | x :: r => rw [h] at ht; cases ht; exact ⟨r, rfl⟩
        simp only [maskTimes]
        rw [index_err (by simp [hts]) (by simpa [hts] using hr)]
        rfl
  · cases ms with
    | none => exact absurd ⟨_, rfl⟩ hA
    | some m =>
      have hr := resolve_err_of hA
      simp only [maskSamples]
      rw [index_err (by simp [h.lam_shape]) (by simpa [h.lam_shape] using hr)]
      rfl

theorem reshape_congr {A B : ND} (h : A.data = B.data) (s : List ℕ) :
    A.reshape s = B.reshape s := by
  have hp : A.shape.prod = B.shape.prod := by rw [← A.size_eq, ← B.size_eq, h]
  unfold reshape
  simp only [hp, h]

theorem reshapeCols_congr {A B : ND} (h : A.data = B.data) (k : ℕ) :
    A.reshapeCols k = B.reshapeCols k := by
  unfold reshapeCols
  rw [reshape_congr h, h]

theorem resolve_int {n : ℕ} {k : ℤ} :
    (Mask.int k).resolve n = (Mask.ints [k]).resolve n := by
  simp only [Mask.resolve, List.mapM_cons, List.mapM_nil]
  cases normIdx n k <;> rfl

/-- A single sensor index (as `plot_ts` passes) acts like the one-element list. -/
theorem C48_single_sensor (h : Ready P n p S T lam data sensors times meas)
    {ms mt : Option Mask} (hms : ListLike ms) (hmt : ListLike mt)
    (htd : times.data.length = T) (hs2 : sensors.shape = [S, 2]) (k : ℤ) :
    P.sampleData ms mt (some (.int k)) = P.sampleData ms mt (some (.ints [k])) := by
  by_cases hA : ∃ a, Picks n ms a
  case neg => rw [C48_bad_index h hms hmt htd (.inl hA), C48_bad_index h hms hmt htd (.inl hA)]
  by_cases hB : ∃ b, Picks T mt b
  case neg =>
    rw [C48_bad_index h hms hmt htd (.inr (.inl hB)), C48_bad_index h hms hmt htd (.inr (.inl hB))]
  by_cases hC : ∃ c, Picks S (some (.ints [k])) c
  case neg =>
    rw [C48_bad_index h hms hmt htd (.inr (.inr ?_)), C48_bad_index h hms hmt htd (.inr (.inr hC))]
    rintro ⟨c, hc⟩
    exact hC ⟨c, resolve_ok.1 (resolve_int ▸ resolve_ok.2 hc)⟩
  obtain ⟨a, ha⟩ := hA
  obtain ⟨b, hb⟩ := hB
  obtain ⟨c, hc⟩ := hC
  obtain ⟨M, -, h3, -, he⟩ := h.sampleData_eq
  have hr1 := resolve_ok.2 hc
  obtain ⟨i, rfl⟩ : ∃ i, c = [i] := by
    cases hc with
    | cons _ h2 => cases h2; exact ⟨_, rfl⟩
  have hr2 := resolve_int.trans hr1
  obtain ⟨l, d1, hA, hl, hd1, -, -⟩ := maskSamples_ok (D := h.cube) h.lam_shape rfl hms ha
  obtain ⟨t, d2, e2, hB, ht, -, hd2, -, he2s, -, -⟩ :=
    maskTimes_ok (M := M) h.times_shape htd hd1 h3 hmt hb
  rw [he, he, hA]
  simp only [Py.ok_bind, hB]
  simp only [maskSensors]
  have hss := index_ok (A := sensors) (nd := 1) (ax := 0) (m := .ints [k]) (sel := [i])
    (by simp [hs2]) (by simpa [hs2] using hr1) rfl
  have hss' := index_int (A := sensors) (nd := 1) (ax := 0) (m := .int k) (sel := [i])
    (by simp [hs2]) (by simpa [hs2] using hr2) rfl
  have hsd : (ofFn (sensors.shape.eraseIdx 0) fun idx =>
      sensors.get (idx.insertIdx 0 ([i].getD 0 0))).data =
      (ofFn (sensors.shape.set 0 [i].length) fun idx =>
      sensors.get (idx.set 0 ([i].getD (idx.getD 0 0) 0))).data := by
    simp [ofFn, hs2, indices]
  have hd := index_ok (A := d2) (nd := 3) (ax := 1) (m := .ints [k]) (sel := [i]) (by simp [hd2])
    (by simpa [hd2] using hr1) rfl
  have hd' := index_int (A := d2) (nd := 3) (ax := 1) (m := .int k) (sel := [i]) (by simp [hd2])
    (by simpa [hd2] using hr2) rfl
  have hdd : (ofFn (d2.shape.eraseIdx 1) fun idx =>
      d2.get (idx.insertIdx 1 ([i].getD 0 0))).data = (ofFn (d2.shape.set 1 [i].length) fun idx =>
      d2.get (idx.set 1 ([i].getD (idx.getD 1 0) 0))).data := by
    simp [ofFn, hd2, indices, List.map_flatMap]
  rw [hss, hss', hd, hd', Py.ok_bind, Py.ok_bind, reshapeCols_congr hsd]
  set tt := (ofFn (sensors.shape.set 0 [i].length) fun idx =>
      sensors.get (idx.set 0 ([i].getD (idx.getD 0 0) 0))).reshapeCols 2 with htt
  cases htt' : tt with
  | error e => rfl
  | ok tv =>
    simp only [Py.ok_bind]
    cases e2 with
    | none =>
      simp only [mapOpt, Py.ok_bind, Py.pure_eq]
      cases tv.dim 0 with
      | error e => rfl
      | ok s' => simp only [reshapeCols_congr hdd]
    | some y =>
      have hy := he2s y rfl
      have hyy := index_ok (A := y) (nd := 2) (ax := 0) (m := .ints [k]) (sel := [i]) (by simp [hy])
        (by simpa [hy] using hr1) rfl
      have hyy' := index_int (A := y) (nd := 2) (ax := 0) (m := .int k) (sel := [i]) (by simp [hy])
        (by simpa [hy] using hr2) rfl
      have hyd : (ofFn (y.shape.eraseIdx 0) fun idx =>
          y.get (idx.insertIdx 0 ([i].getD 0 0))).data = (ofFn (y.shape.set 0 [i].length) fun idx =>
          y.get (idx.set 0 ([i].getD (idx.getD 0 0) 0))).data := by
        simp [ofFn, hy, indices]
      simp only [mapOpt, hyy, hyy', Py.ok_bind, Py.pure_eq]
      cases tv.dim 0 with
      | error e => rfl
      | ok s' => simp only [reshapeCols_congr hdd, reshape_congr hyd]

/-! ### C49 -/

/-- **C49, full statement** (false of the code): every successful-by-index sensor selection on a
ready problem returns one data row per selected sample. -/
def C49_claim : Prop :=
  ∀ (P : STP) (n p S T : ℕ) (lam data sensors times : ND) (meas : Option ND),
    Ready P n p S T lam data sensors times meas → times.data.length = T → T ≠ 0 →
    ∀ (ms mx : Option Mask) (a c : List ℕ), ListLike ms → ListLike mx → Picks n ms a →
      Picks S mx c → c ≠ [] →
      ∃ r, P.sampleData ms none mx = .ok r ∧ r.data.shape.head? = some a.length

/-- **C49, the part that holds**: when every sensor has two coordinates (or no sensors are
selected). -/
theorem C49_rows_partial (h : Ready P n p S T lam data sensors times meas)
    {ms mt mx : Option Mask} (hms : ListLike ms) (hmt : ListLike mt) (hmx : ListLike mx)
    {a b c : List ℕ} (ha : Picks n ms a) (hb : Picks T mt b) (hc : Picks S mx c)
    (hb0 : b ≠ []) (hc0 : c ≠ [])
    (htd : times.data.length = T) (hs2 : mx ≠ none → sensors.shape = [S, 2]) :
    ∃ r, P.sampleData ms mt mx = .ok r ∧ r.data.shape.head? = some a.length := by
  obtain ⟨r, hr, -, -, h3, -⟩ := C48_masks h hms hmt hmx ha hb hc hb0 hc0 htd hs2
  exact ⟨r, hr, by rw [h3]; rfl⟩

/-- What happens for sensors with a single coordinate (a 1-D array, in particular the default
`[0]`): selecting an odd number of sensors raises `ValueError`; selecting an even number raises
`ValueError` if there are measurements and otherwise returns two data rows per sample. -/
theorem C49_one_coordinate (h : Ready P n p S T lam data sensors times meas)
    (hs1 : sensors.shape = [S]) (hT : T ≠ 0) {ms : Option Mask} {m : Mask} (hms : ListLike ms)
    (hmx : ListLike (some m)) {a c : List ℕ} (ha : Picks n ms a) (hc : Picks S (some m) c)
    (hc0 : c ≠ []) :
    (c.length % 2 = 1 → P.sampleData ms none (some m) = .error .valueError) ∧
    (c.length % 2 = 0 → meas ≠ none → P.sampleData ms none (some m) = .error .valueError) ∧
    (c.length % 2 = 0 → meas = none → ∃ r, P.sampleData ms none (some m) = .ok r ∧
      r.data.shape = [2 * a.length, T * (c.length / 2)]) := by
  obtain ⟨M, h2, h3, h4, he⟩ := h.sampleData_eq
  obtain ⟨l, d1, hA, hl, hd1, -, -⟩ := maskSamples_ok (D := h.cube) h.lam_shape rfl hms ha
  have hr := resolve_ok.2 hc
  have hcl : 0 < c.length := List.length_pos_iff.2 hc0
  have hss := index_ok (A := sensors) (nd := 1) (ax := 0) (m := m) (sel := c)
    (by simp [hs1]) (by simpa [hs1] using hr) hmx.isInt
  set tt : ND := ofFn (sensors.shape.set 0 c.length) fun idx =>
      sensors.get (idx.set 0 (c.getD (idx.getD 0 0) 0)) with htt
  have httl : tt.data.length = c.length := by rw [tt.size_eq]; simp [htt, hs1]
  have hd := index_ok (A := d1) (nd := 3) (ax := 1) (m := m) (sel := c) (by simp [hd1])
    (by simpa [hd1] using hr) hmx.isInt
  set dd : ND := ofFn (d1.shape.set 1 c.length) fun idx =>
      d1.get (idx.set 1 (c.getD (idx.getD 1 0) 0)) with hdd
  have hddl : dd.data.length = a.length * (c.length * T) := by rw [dd.size_eq]; simp [hdd, hd1]
  have heven : ∀ _h0 : c.length % 2 = 0, tt.reshapeCols 2 =
      .ok ⟨[c.length / 2, 2], tt.data, by rw [httl]; simp; omega⟩ := by
    intro h0
    unfold reshapeCols
    rw [if_neg two_ne_zero, reshape_ok]
    · simp only [httl]
    · rw [← tt.size_eq, httl]; simp; omega
  have hR : ∀ _h0 : c.length % 2 = 0, dd.reshapeCols (T * (c.length / 2)) =
      .ok ⟨[2 * a.length, T * (c.length / 2)], dd.data, by
        rw [hddl]; simp only [List.prod_cons, List.prod_nil]
        obtain ⟨q, hq⟩ : ∃ q, c.length = 2 * q := ⟨c.length / 2, by omega⟩
        rw [hq, Nat.mul_div_cancel_left _ two_pos]; ring⟩ := by
    intro h0
    obtain ⟨q, hq⟩ : ∃ q, c.length = 2 * q := ⟨c.length / 2, by omega⟩
    have hq0 : 0 < T * q := Nat.mul_pos (Nat.pos_of_ne_zero hT) (by omega)
    have e1 : dd.data.length = 2 * a.length * (T * q) := by rw [hddl, hq]; ring
    have e2 : c.length / 2 = q := by omega
    unfold reshapeCols
    simp only [e2]
    rw [if_neg hq0.ne', reshape_ok]
    · simp only [e1, Nat.mul_div_cancel _ hq0]
    · rw [← dd.size_eq, e1, Nat.mul_div_cancel _ hq0]; simp
  refine ⟨?_, ?_, ?_⟩
  · intro hodd
    rw [he, hA]
    simp only [Py.ok_bind, maskTimes, maskSensors, hss]
    have : tt.reshapeCols 2 = .error .valueError := by
      unfold reshapeCols
      rw [if_neg two_ne_zero, reshape_err]
      rw [← tt.size_eq, httl]; simp; omega
    rw [this]
    rfl
  · intro h0 hn
    obtain ⟨x, rfl⟩ := Option.ne_none_iff_exists'.1 hn
    obtain ⟨y, rfl⟩ := Option.isSome_iff_exists.1 (h2.trans rfl)
    have hy := h3 y rfl
    have hyy := index_ok (A := y) (nd := 2) (ax := 0) (m := m) (sel := c) (by simp [hy])
      (by simpa [hy] using hr) hmx.isInt
    rw [he, hA]
    simp only [Py.ok_bind, maskTimes, maskSensors, hss, heven h0, hd, mapOpt, hyy, Py.pure_eq,
      dim_of_head h.times_shape]
    rw [show (ND.mk [c.length / 2, 2] tt.data _).dim 0 = .ok (c.length / 2) from rfl]
    simp only [Py.ok_bind, hR h0]
    rw [reshape_err]
    · rfl
    · simp only [ofFn_shape, hy, List.set_cons_zero, List.prod_cons, List.prod_nil, mul_one]
      obtain ⟨q, hq⟩ : ∃ q, c.length = 2 * q := ⟨c.length / 2, by omega⟩
      have hq0 : 0 < q * T := Nat.mul_pos (by omega) (Nat.pos_of_ne_zero hT)
      rw [hq, Nat.mul_div_cancel_left _ two_pos]
      intro hh
      have : 2 * (q * T) = q * T := by rw [← Nat.mul_assoc, hh, Nat.mul_comm]
      omega
  · rintro h0 rfl
    obtain rfl : M = none := Option.not_isSome_iff_eq_none.1 (by rw [h2]; simp)
    obtain ⟨tv, htv, htv'⟩ : ∃ tv, tt.reshapeCols 2 = .ok tv ∧ tv.dim 0 = .ok (c.length / 2) :=
      ⟨_, heven h0, rfl⟩
    obtain ⟨dv, hdv, hdv'⟩ : ∃ dv, dd.reshapeCols (T * (c.length / 2)) = .ok dv ∧
        dv.shape = [2 * a.length, T * (c.length / 2)] := ⟨_, hR h0, rfl⟩
    refine ⟨⟨l, times, tv, dv, none⟩, ?_, hdv'⟩
    rw [he, hA]
    simp only [Py.ok_bind, maskTimes, maskSensors, hss, htv, hd, mapOpt, Py.pure_eq,
      dim_of_head h.times_shape, htv', hdv]

end main

/-! ### Concrete problems -/

/-- A table of natural numbers as an array (for examples). -/
def ndOfNats (shape : List ℕ) (d : List ℕ) (h : d.length = shape.prod) : ND :=
  ⟨shape, d.map (fun k : ℕ => (k : ℝ)), by rw [List.length_map, h]⟩

/-- Three samples of two parameters, two sensors in the plane, three times, with measurements. -/
def demoST : STP where
  domain := some (ndOfNats [2, 2] [0, 9, 0, 9] rfl)
  lam := some (ndOfNats [3, 2] [1, 2, 3, 4, 5, 6] rfl)
  data := some (ndOfNats [3, 6] [0, 1, 2, 3, 4, 5, 10, 11, 12, 13, 14, 15, 20, 21, 22, 23, 24, 25] rfl)
  sensors := some (ndOfNats [2, 2] [0, 0, 1, 1] rfl)
  times := some (ndOfNats [3] [0, 1, 2] rfl)
  measurements := some (ndOfNats [6, 1] [10, 11, 12, 13, 14, 16] rfl)
  stdDev := some 2

theorem demoST_ready : Ready demoST 3 2 2 3 (ndOfNats [3, 2] [1, 2, 3, 4, 5, 6] rfl)
    (ndOfNats [3, 6] [0, 1, 2, 3, 4, 5, 10, 11, 12, 13, 14, 15, 20, 21, 22, 23, 24, 25] rfl)
    (ndOfNats [2, 2] [0, 0, 1, 1] rfl) (ndOfNats [3] [0, 1, 2] rfl)
    (some (ndOfNats [6, 1] [10, 11, 12, 13, 14, 16] rfl)) :=
  ⟨rfl, rfl, rfl, rfl, rfl, rfl, rfl, rfl, rfl, fun _ h => by cases h; rfl⟩

/-- C48 on the concrete problem: samples `[-1, 0]`, times by a boolean mask, sensor `[1]`. -/
example : ∃ r, demoST.sampleData (some (.ints [-1, 0])) (some (.bools [true, false, true]))
    (some (.ints [1])) = .ok r ∧ r.data.shape = [2, 2] ∧ r.data.get [0, 1] = 25 := by
  have ha : Picks 3 (some (.ints [-1, 0])) [2, 0] := resolve_ok.1 rfl
  have hb : Picks 3 (some (.bools [true, false, true])) [0, 2] := resolve_ok.1 rfl
  have hc : Picks 2 (some (.ints [1])) [1] := resolve_ok.1 rfl
  obtain ⟨r, hr, -, -, h3, h4, -⟩ := C48_masks demoST_ready (fun _ h => by cases h)
    (fun _ h => by cases h) (fun _ h => by cases h) ha hb hc (by simp) (by simp) rfl (fun _ => rfl)
  refine ⟨r, hr, h3, ?_⟩
  have := h4 0 0 1
  simp only [Fin.val_zero, List.length_cons, List.length_nil] at this
  refine this.trans ?_
  simp [ND.get, offset, ndOfNats]

/-- C47 on the concrete problem. -/
example : ∃ r, demoST.sampleData = .ok r ∧ r.data.shape = [3, 6] :=
  ⟨_, C47_identity demoST_ready (by norm_num), rfl⟩

/-- An out-of-range index. -/
example : demoST.sampleData none (some (.ints [3])) none = .error .indexError :=
  C48_bad_index demoST_ready (fun _ h => by cases h) (fun _ h => by cases h) rfl
    (.inr (.inl fun ⟨b, hb⟩ => by cases hb with | cons h _ => omega))

/-- A problem whose sensor layout was filled in by the `data` setter. -/
def oneSensorST : STP where
  domain := some (ndOfNats [1, 2] [0, 9] rfl)
  lam := some (ndOfNats [2, 1] [1, 2] rfl)
  data := some (ndOfNats [2, 2] [0, 1, 2, 3] rfl)
  sensors := some STP.zero1
  times := some (STP.arange 2)

theorem oneSensorST_ready : Ready oneSensorST 2 1 1 2 (ndOfNats [2, 1] [1, 2] rfl)
    (ndOfNats [2, 2] [0, 1, 2, 3] rfl) STP.zero1 (STP.arange 2) none :=
  ⟨rfl, rfl, rfl, rfl, rfl, rfl, rfl, rfl, rfl, fun _ h => by cases h⟩

/-- **C49 is false of the code**: selecting the only sensor of a problem with the default layout
raises `ValueError`. -/
theorem C49_claim_refuted : ¬ C49_claim := by
  intro h
  have hc : Picks 1 (some (.ints [0])) [0] := resolve_ok.1 rfl
  obtain ⟨r, hr, -⟩ := h _ _ _ _ _ _ _ _ _ _ oneSensorST_ready rfl two_ne_zero none
    (some (.ints [0])) _ _ (fun _ h => by cases h) (fun _ h => by cases h) rfl hc (by simp)
  rw [(C49_one_coordinate oneSensorST_ready rfl two_ne_zero (ms := none) (fun _ h => by cases h)
    (fun _ h => by cases h) rfl hc (by simp)).1 rfl] at hr
  cases hr

/-! ### Further cases meeting the hypotheses -/

/-- A problem with no observation times. -/
def noTimesST : STP where
  domain := some (ndOfNats [1, 2] [0, 9] rfl)
  lam := some (ndOfNats [2, 1] [1, 2] rfl)
  data := some (ndOfNats [2, 0] [] rfl)
  sensors := some (ndOfNats [1, 2] [0, 0] rfl)
  times := some (ndOfNats [0] [] rfl)

example : noTimesST.sampleData = .error .valueError :=
  C47_empty (n := 2) (p := 1) (S := 1) (T := 0) (lam := ndOfNats [2, 1] [1, 2] rfl)
    (data := ndOfNats [2, 0] [] rfl) (sensors := ndOfNats [1, 2] [0, 0] rfl)
    (times := ndOfNats [0] [] rfl) (meas := none)
    ⟨rfl, rfl, rfl, rfl, rfl, rfl, rfl, rfl, rfl, fun _ h => by cases h⟩ rfl

/-- A single sensor index and the list holding it, on the concrete problem. -/
example : demoST.sampleData (some (.ints [2])) none (some (.int 1)) =
    demoST.sampleData (some (.ints [2])) none (some (.ints [1])) :=
  C48_single_sensor demoST_ready (fun _ h => by cases h) (fun _ h => by cases h) rfl rfl 1

/-- Two samples picked: two rows of data. -/
example : ∃ r, demoST.sampleData (some (.ints [-1, 0])) none (some (.ints [1])) = .ok r ∧
    r.data.shape.head? = some 2 :=
  C49_rows_partial demoST_ready (fun _ h => by cases h) (fun _ h => by cases h) (fun _ h => by cases h)
    (a := [2, 0]) (b := [0, 1, 2]) (c := [1]) (resolve_ok.1 rfl) rfl (resolve_ok.1 rfl)
    (by simp) (by simp) rfl (fun _ => rfl)

end Verif
