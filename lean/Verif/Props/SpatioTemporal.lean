import Verif.Props.SampleData

/-!
# C50-C53, C59: attributes of `SpatioTemporalProblem`, closest sample, `validate`
-/

namespace Verif

open ND SpecST STP

/-! ### C50: the data setter -/

theorem SpecST.HasLen.dim {a : ND} {n : ℕ} (h : HasLen a n) : a.dim 0 = .ok n := dim_of_head h

theorem SpecST.HasLen.unique {a : ND} {n m : ℕ} (h : HasLen a n) (h' : HasLen a m) : n = m := by
  unfold HasLen at h h'
  rw [h] at h'
  exact Option.some.inj h'

theorem layout_spec (k : ℕ) (s t : Option ND) (hs : ∀ a ∈ s, ∃ n, HasLen a n)
    (ht : ∀ a ∈ t, ∃ n, HasLen a n) :
    (Mismatch k s t → layout k s t = .error .valueError) ∧
    (¬ Mismatch k s t → ∃ s' t', layout k s t = .ok (s', t') ∧ Completed k s t s' t' ∧
      ∃ S T, HasLen s' S ∧ HasLen t' T ∧ S * T = k) := by
  have h1 : HasLen zero1 1 := rfl
  cases s with
  | none =>
    cases t with
    | none =>
      refine ⟨fun h => absurd h id, fun _ => ⟨zero1, arange k, ?_, ⟨rfl, rfl, rfl, rfl⟩,
        1, k, rfl, rfl, one_mul k⟩⟩
      simp only [layout, Py.pure_eq, Py.ok_bind]
      rw [show (arange k).dim 0 = .ok k from rfl, h1.dim]
      simp only [Py.ok_bind]
      rw [raiseIf_false (by simp)]; rfl
    | some t =>
      obtain ⟨T, hT⟩ := ht t rfl
      have e : layout k none (some t) = (do
          raiseIf (T ≠ k) .valueError
          raiseIf (T * 1 ≠ k) .valueError
          return (zero1, t)) := by
        simp only [layout, Py.pure_eq, Py.ok_bind, hT.dim, h1.dim]
      refine ⟨fun h => ?_, fun h => ?_⟩
      · rw [e, raiseIf_true (show T ≠ k from fun h' => h (h' ▸ hT))]; rfl
      · have hk : HasLen t k := not_not.1 h
        obtain rfl := hT.unique hk
        refine ⟨zero1, t, ?_, ⟨rfl, rfl, rfl⟩, 1, T, rfl, hT, one_mul T⟩
        rw [e, raiseIf_false (by simp), raiseIf_false (by simp)]; rfl
  | some s =>
    obtain ⟨S, hS⟩ := hs s rfl
    cases t with
    | none =>
      have e : layout k (some s) none = (do
          raiseIf (S ≠ k) .valueError
          raiseIf (1 * S ≠ k) .valueError
          return (s, zero1)) := by
        simp only [layout, Py.pure_eq, Py.ok_bind, hS.dim, h1.dim]
      refine ⟨fun h => ?_, fun h => ?_⟩
      · rw [e, raiseIf_true (show S ≠ k from fun h' => h (h' ▸ hS))]; rfl
      · have hk : HasLen s k := not_not.1 h
        obtain rfl := hS.unique hk
        refine ⟨s, zero1, ?_, ⟨rfl, rfl, rfl⟩, S, 1, hS, rfl, mul_one S⟩
        rw [e, raiseIf_false (by simp), raiseIf_false (by simp)]; rfl
    | some t =>
      obtain ⟨T, hT⟩ := ht t rfl
      have e : layout k (some s) (some t) = (do
          raiseIf (T * S ≠ k) .valueError
          return (s, t)) := by
        simp only [layout, Py.pure_eq, Py.ok_bind, hS.dim, hT.dim]
      refine ⟨fun h => ?_, fun h => ?_⟩
      · rw [e, raiseIf_true (show T * S ≠ k from
          fun h' => h ⟨S, T, hS, hT, by rw [Nat.mul_comm]; exact h'⟩)]; rfl
      · obtain ⟨S', T', hS', hT', hk⟩ := not_not.1 h
        obtain rfl := hS.unique hS'
        obtain rfl := hT.unique hT'
        refine ⟨s, t, ?_, ⟨rfl, rfl⟩, S, T, hS, hT, hk⟩
        rw [e, raiseIf_false (by rw [Nat.mul_comm, hk]; simp)]; rfl

theorem asColumn_spec {a : ND} {n : ℕ} (h : a.shape = [n]) :
    (asColumn a).shape = [n, 1] ∧ (asColumn a).data = a.data := by
  unfold asColumn
  split
  · next m hm => rw [h] at hm; cases hm; exact ⟨rfl, rfl⟩
  · next hm => exact absurd h (hm n)

theorem asColumn_of_ne {a : ND} (h : ∀ n, a.shape ≠ [n]) : asColumn a = a := by
  unfold asColumn
  split
  · next m hm => exact absurd hm (h m)
  · rfl

theorem dataTable_spec {a : ND} {n k : ℕ}
    (h : a.shape = [n, k] ∨ (a.shape = [n] ∧ k = 1) ∨ ∃ s t, a.shape = [n, s, t] ∧ k = s * t ∧ n ≠ 0) :
    ∃ D, dataTable a = .ok D ∧ TableOf a D n k := by
  rcases h with h | ⟨h, rfl⟩ | ⟨s, t, h, rfl, hn⟩
  · exact ⟨a, by simp [dataTable, h], h, .inl ⟨h, rfl⟩⟩
  · obtain ⟨h1, h2⟩ := asColumn_spec h
    refine ⟨asColumn a, by simp [dataTable, h], h1, .inr (.inl ⟨h, rfl, fun i hi => ?_⟩)⟩
    simp [ND.get, h1, h2, h, offset]
  · have hl : a.data.length = n * (s * t) := by rw [a.size_eq, h]; simp
    have hd : a.data.length / n = s * t := by
      rw [hl, Nat.mul_div_cancel_left _ (Nat.pos_of_ne_zero hn)]
    refine ⟨⟨[n, s * t], a.data, by rw [hl]; simp⟩, ?_, rfl, .inr (.inr ⟨s, t, h, rfl, ?_⟩)⟩
    · simp only [dataTable, h, reshapeRows, hn, if_false]
      rw [reshape_ok (by rw [← a.size_eq, hl, Nat.mul_div_cancel_left _ (Nat.pos_of_ne_zero hn)]; simp)]
      simp only [hd]
    · intro i hi x hx y hy
      simp only [ND.get, h, offset, List.prod_cons, List.prod_nil]
      congr 1; ring

/-- **C50.** Assigning data of shape `(n, k)`, `(n,)` (then `k = 1`) or `(n, s, t)` (then
`k = s·t`, `n ≥ 1`): `ValueError` exactly when `k` contradicts the sensors/times set before, and
then nothing changes; otherwise the `(n, k)` table is stored, missing sensors/times are filled in,
everything else is unchanged and the column count is `n_sensors · n_ts`. -/
theorem C50_data (P : STP) (a : ND) (n k : ℕ)
    (ha : a.shape = [n, k] ∨ (a.shape = [n] ∧ k = 1) ∨
      ∃ s t, a.shape = [n, s, t] ∧ k = s * t ∧ n ≠ 0)
    (hs : ∀ s ∈ P.sensors, ∃ m, HasLen s m) (ht : ∀ t ∈ P.times, ∃ m, HasLen t m) :
    (Mismatch k P.sensors P.times → STP.setData a P = (.error .valueError, P)) ∧
    (¬ Mismatch k P.sensors P.times → ∃ D s t,
      STP.setData a P = (.ok (), { P with data := some D, sensors := some s, times := some t }) ∧
      TableOf a D n k ∧ Completed k P.sensors P.times s t ∧
      ∃ S T, HasLen s S ∧ HasLen t T ∧ S * T = k) := by
  obtain ⟨D, hD, hT⟩ := dataTable_spec ha
  have hdim : D.dim 1 = .ok k := by simp [ND.dim, hT.1]
  obtain ⟨h1, h2⟩ := layout_spec k P.sensors P.times hs ht
  have e : STP.setData a P = (PyM.lift (layout k P.sensors P.times) >>= fun st =>
      PyM.modify fun s => { s with sensors := some st.1, times := some st.2, data := some D }) P := by
    unfold STP.setData
    rw [hD, PyM.lift_ok_bind, STP.dataCols_ok hdim, PyM.lift_ok_bind, PyM.get_bind_run]
  refine ⟨fun h => ?_, fun h => ?_⟩
  · rw [e, h1 h]; rfl
  · obtain ⟨s, t, h3, h4, h5⟩ := h2 h
    refine ⟨D, s, t, ?_, hT, h4, h5⟩
    rw [e, h3]; rfl

/-- C50 on a concrete 3-D array, and on a mismatch. -/
example : ∃ D s t, STP.setData (ndOfNats [2, 2, 3] [0, 1, 2, 3, 4, 5, 6, 7, 8, 9, 10, 11] rfl)
    { sensors := some (ndOfNats [2, 2] [0, 0, 1, 1] rfl) , times := some (arange 3) } =
      (.ok (), { data := some D, sensors := some s, times := some t }) ∧ D.get [1, 4] = 10 := by
  obtain ⟨D, s, t, h1, h2, -⟩ := (C50_data
    { sensors := some (ndOfNats [2, 2] [0, 0, 1, 1] rfl), times := some (arange 3) }
    (ndOfNats [2, 2, 3] [0, 1, 2, 3, 4, 5, 6, 7, 8, 9, 10, 11] rfl) 2 6
    (.inr (.inr ⟨2, 3, rfl, rfl, by norm_num⟩)) (fun _ h => by cases h; exact ⟨2, rfl⟩)
    (fun _ h => by cases h; exact ⟨3, rfl⟩)).2 (not_not.2 ⟨2, 3, rfl, rfl, rfl⟩)
  refine ⟨D, s, t, h1, ?_⟩
  rcases h2.2 with ⟨h, -⟩ | ⟨h, -⟩ | ⟨s', t', h, h3, h4⟩
  · exact absurd h (by simp [ndOfNats])
  · exact absurd h (by simp [ndOfNats])
  · obtain ⟨rfl, rfl⟩ : 2 = s' ∧ 3 = t' := by simpa [ndOfNats] using h
    rw [show [1, 4] = [1, 1 * 3 + 1] from rfl, h4 1 (by norm_num) 1 (by norm_num) 1 (by norm_num)]
    simp [ND.get, offset, ndOfNats]
example : STP.setData (ndOfNats [1, 2] [5, 6] rfl) { times := some (arange 3) } =
    (.error .valueError, { times := some (arange 3) }) :=
  (C50_data { times := some (arange 3) } _ 1 2 (.inl rfl) (fun _ h => by cases h)
    (fun _ h => by cases h; exact ⟨3, rfl⟩)).1 (fun h => by cases h)

/-! ### C52: `lam_ref` -/

theorem checkRef_spec (D : ND) : ∀ (l : List ℝ) (i : ℕ),
    (checkRef D i l = .ok () ↔ ∀ j (hj : j < l.length), i + j < D.shape.getD 0 0 ∧
      D.get [i + j, 0] ≤ l[j] ∧ l[j] ≤ D.get [i + j, 1])
  | [], i => by simp [checkRef]
  | x :: xs, i => by
    have ih := checkRef_spec D xs (i + 1)
    simp only [checkRef]
    constructor
    · intro h
      obtain ⟨_, h1, h⟩ := Py.bind_eq_ok.1 h
      obtain ⟨_, h2, h⟩ := Py.bind_eq_ok.1 h
      have ih := ih.1 h
      have g1 : ¬ D.shape.getD 0 0 ≤ i := by
        intro hh; rw [raiseIf_true hh] at h1; cases h1
      have g2 : ¬ (x < D.get [i, 0] ∨ x > D.get [i, 1]) := by
        intro hh; rw [raiseIf_true hh] at h2; cases h2
      push Not at g2
      intro j hj
      cases j with
      | zero => exact ⟨by simpa using g1, by simpa using g2.1, by simpa using g2.2⟩
      | succ j =>
        have := ih j (by simpa using hj)
        simpa [Nat.add_assoc, Nat.add_comm 1 j] using this
    · intro h
      have h0 := h 0 (by simp)
      simp only [Nat.add_zero, List.getElem_cons_zero] at h0
      rw [raiseIf_false (by omega), Py.ok_bind,
        raiseIf_false (by push Not; exact h0.2), Py.ok_bind, ih]
      intro j hj
      have := h (j + 1) (by simpa using hj)
      simpa [Nat.add_assoc, Nat.add_comm 1 j] using this

/-- **C52.** Assigning `lam_ref` succeeds exactly if a domain is set, it has a row for every
component and every component lies in the range given by its row; the flattened value is then
stored and nothing else changes. An assignment that raises leaves the object as it was. -/
theorem C52_lam_ref (P : STP) (ref : ND) :
    ((∃ D ∈ P.domain, ∀ j (hj : j < ref.data.length), j < D.shape.getD 0 0 ∧
        D.get [j, 0] ≤ ref.data[j] ∧ ref.data[j] ≤ D.get [j, 1]) ∧
      STP.setLamRef ref P = (.ok (), { P with lamRef := some ref.ravel })) ∨
    (¬ (∃ D ∈ P.domain, ∀ j (hj : j < ref.data.length), j < D.shape.getD 0 0 ∧
        D.get [j, 0] ≤ ref.data[j] ∧ ref.data[j] ≤ D.get [j, 1]) ∧
      ∃ e, STP.setLamRef ref P = (.error e, P)) := by
  unfold STP.setLamRef
  rw [PyM.get_bind_run]
  cases hP : P.domain with
  | none =>
    refine .inr ⟨fun ⟨D, h, _⟩ => (by cases h), .attributeError, rfl⟩
  | some D =>
    simp only [need, PyM.lift_ok_bind]
    have hc := checkRef_spec D ref.data 0
    simp only [Nat.zero_add] at hc
    cases h : checkRef D 0 ref.data with
    | ok u => exact .inl ⟨⟨D, rfl, hc.1 h⟩, by rw [← hP]; rfl⟩
    | error e =>
      refine .inr ⟨?_, e, rfl⟩
      rintro ⟨D', hD', h'⟩
      cases hD'
      rw [hc.2 h'] at h
      cases h

example : STP.setLamRef (ndOfNats [2] [3, 4] rfl) demoST =
    (.ok (), { demoST with lamRef := some (ndOfNats [2] [3, 4] rfl).ravel }) := by
  rcases C52_lam_ref demoST (ndOfNats [2] [3, 4] rfl) with ⟨-, h⟩ | ⟨h, -⟩
  · exact h
  · refine absurd ⟨_, rfl, ?_⟩ h
    intro j hj
    have : j = 0 ∨ j = 1 := by simp [ndOfNats] at hj; omega
    rcases this with rfl | rfl <;> simp [ndOfNats, ND.get, offset] <;> norm_num

/-! ### C53: closest sample -/

theorem argminGo_spec : ∀ (vs : List ℝ) (pre : List ℝ) (bi : ℕ) (b : ℝ),
    bi < pre.length → pre.getD bi 0 = b → (∀ j < pre.length, b ≤ pre.getD j 0) →
    (∀ j < bi, b < pre.getD j 0) →
    FirstMin (pre ++ vs).length (fun j => (pre ++ vs).getD j 0) (argminGo bi b pre.length vs)
  | [], pre, bi, b, h1, h2, h3, h4 => by
    simp only [List.append_nil, argminGo]
    exact ⟨h1, fun j hj => by dsimp only; rw [h2]; exact h3 j hj,
      fun j hj => by dsimp only; rw [h2]; exact h4 j hj⟩
  | v :: vs, pre, bi, b, h1, h2, h3, h4 => by
    have hg : ∀ j < pre.length, (pre ++ [v]).getD j 0 = pre.getD j 0 := fun j hj => by
      simp [List.getD_eq_getElem?_getD, List.getElem?_append_left hj]
    have hl : (pre ++ [v]).getD pre.length 0 = v := by simp [List.getD_eq_getElem?_getD]
    have hL : (pre ++ [v]).length = pre.length + 1 := by simp
    simp only [argminGo]
    split_ifs with hv
    · have := argminGo_spec vs (pre ++ [v]) pre.length v (by rw [hL]; omega) hl (fun j hj => by
        rw [hL] at hj
        rcases Nat.lt_or_ge j pre.length with h | h
        · rw [hg j h]; exact hv.le.trans (h3 j h)
        · obtain rfl : j = pre.length := by omega
          rw [hl]) (fun j hj => by rw [hg j hj]; exact lt_of_lt_of_le hv (h3 j hj))
      rw [hL] at this
      simpa using this
    · have := argminGo_spec vs (pre ++ [v]) bi b (by rw [hL]; omega) (by rw [hg bi h1, h2])
        (fun j hj => by
          rw [hL] at hj
          rcases Nat.lt_or_ge j pre.length with h | h
          · rw [hg j h]; exact h3 j h
          · obtain rfl : j = pre.length := by omega
            rw [hl]; exact not_lt.1 hv) (fun j hj => by rw [hg j (hj.trans h1)]; exact h4 j hj)
      rw [hL] at this
      simpa using this

theorem npArgmin_range {n : ℕ} (hn : n ≠ 0) (f : ℕ → ℝ) :
    ∃ i, npArgmin ((List.range n).map f) = .ok i ∧ FirstMin n f i := by
  obtain ⟨m, rfl⟩ : ∃ m, n = m + 1 := ⟨n - 1, by omega⟩
  rw [List.range_succ_eq_map, List.map_cons]
  refine ⟨_, rfl, ?_⟩
  have h := argminGo_spec (List.map f (List.map Nat.succ (List.range m))) [f 0] 0 (f 0)
    (by simp) rfl (fun j hj => by
      obtain rfl : j = 0 := by simpa using hj
      exact le_rfl) (fun j hj => by omega)
  have e : [f 0] ++ List.map f (List.map Nat.succ (List.range m)) = (List.range (m + 1)).map f := by
    rw [List.range_succ_eq_map]; rfl
  rw [e] at h
  have hg : ∀ j < m + 1, ((List.range (m + 1)).map f).getD j 0 = f j := fun j hj => by
    simp [List.getD_eq_getElem?_getD, hj]
  have hlen : ((List.range (m + 1)).map f).length = m + 1 := by simp
  obtain ⟨a1, a2, a3⟩ := h
  rw [hlen] at a1 a2
  have a1' : argminGo 0 (f 0) 1 (List.map f (List.map Nat.succ (List.range m))) < m + 1 := a1
  refine ⟨a1', fun j hj => ?_, fun j hj => ?_⟩
  · have := a2 j hj
    simp only at this
    rw [hg _ a1, hg _ hj] at this
    exact this
  · have := a3 j hj
    simp only at this
    rw [hg _ a1, hg _ (by omega)] at this
    exact this

/-- The columns of the data selected by sensor positions `c` and time positions `b`, in result
order. -/
def selCols (T : ℕ) (c b : List ℕ) : List ℕ := c.flatMap fun s => b.map fun t => s * T + t

theorem selCols_length (T : ℕ) (c b : List ℕ) : (selCols T c b).length = c.length * b.length := by
  simp [selCols, List.length_flatMap]

theorem selCols_get (T : ℕ) (c b : List ℕ) (s : Fin c.length) (t : Fin b.length) :
    (selCols T c b)[(s * b.length + t : ℕ)]? = some (c[s] * T + b[t]) := by
  have h := getElem?_flatMap_range (fun i => b.map fun t => c.getD i 0 * T + t) b.length c.length
    (fun i => by simp) s t s.2 t.2
  have e : selCols T c b = (List.range c.length).flatMap (fun i => b.map fun t => c.getD i 0 * T + t) := by
    unfold selCols
    conv_lhs => rw [show c = (List.range c.length).map fun i => c.getD i 0 from by
      refine List.ext_getElem (by simp) fun k h1 h2 => ?_
      simp [List.getD_eq_getElem?_getD, List.getElem?_eq_getElem h1]]
    rw [List.flatMap_map]
  rw [e, h, getD_eq, List.getElem?_map, List.getElem?_eq_getElem t.2]
  rfl

theorem sum_div_mod (q r : ℕ) (hr : 0 < r) (j : Fin (q * r)) :
    ∃ (s : Fin q) (t : Fin r), (j : ℕ) = s * r + t := by
  refine ⟨⟨j / r, (Nat.div_lt_iff_lt_mul hr).2 j.2⟩, ⟨j % r, Nat.mod_lt _ hr⟩, ?_⟩
  simp only
  have := Nat.div_add_mod (j : ℕ) r
  rw [Nat.mul_comm] at this
  exact this.symm

section closest
variable {P : STP} {n p S T : ℕ} {lam data sensors times m : ND}

/-- **C53 (measurements).** With the selections of C48, `get_closest_to_measurements` returns the
parameters of the first selected sample whose selected data are nearest to the selected
measurements in Euclidean norm; `ValueError` if no sample is selected. -/
theorem C53_measurements (h : Ready P n p S T lam data sensors times (some m))
    {ms mt mx : Option Mask} (hms : ListLike ms) (hmt : ListLike mt) (hmx : ListLike mx)
    {a b c : List ℕ} (ha : Picks n ms a) (hb : Picks T mt b) (hc : Picks S mx c)
    (ha0 : a ≠ []) (hb0 : b ≠ []) (hc0 : c ≠ [])
    (htd : times.data.length = T) (hs2 : mx ≠ none → sensors.shape = [S, 2]) :
    ∃ i : Fin a.length,
      P.closestToMeasurements ms mt mx = .ok ((List.range p).map fun j => lam.get [a[i], j]) ∧
      FirstMin a.length
        (fun k => rowDist data (fun col => m.get [col, 0]) (selCols T c b) (a.getD k 0)) i := by
  obtain ⟨r, hr, hl, hlg, hd, hdg, -, -, -, hm1, hm2⟩ :=
    C48_masks h hms hmt hmx ha hb hc hb0 hc0 htd hs2
  obtain ⟨m', hm'⟩ : ∃ m', r.meas = some m' := Option.isSome_iff_exists.1 hm1
  obtain ⟨hms', hmg⟩ := hm2 m' hm' m rfl
  have hbl : 0 < b.length := List.length_pos_iff.2 hb0
  have hT' : m'.T = m' := by simp [ND.T, hms']
  have hdist : rowDists r.data m' = .ok ((List.range a.length).map fun k =>
      rowDist data (fun col => m.get [col, 0]) (selCols T c b) (a.getD k 0)) := by
    unfold rowDists
    rw [hd, hms']
    simp only [Arr2.bdim_self]
    congr 1
    refine List.map_congr_left fun k hk => ?_
    have hk : k < a.length := List.mem_range.1 hk
    unfold rowDist
    congr 1
    rw [← List.sum_ofFn]
    congr 1
    refine List.ext_getElem (by simp [selCols_length]) fun j h1 h2 => ?_
    have hj : j < c.length * b.length := by simpa using h1
    obtain ⟨s, t, hst⟩ := sum_div_mod c.length b.length hbl ⟨j, hj⟩
    simp only at hst
    simp only [List.getElem_ofFn, List.getElem_map]
    have hcol : (selCols T c b)[j]'(by rw [selCols_length]; exact hj) = c[s] * T + b[t] := by
      have := selCols_get T c b s t
      rw [← hst, List.getElem?_eq_getElem (by rw [selCols_length]; exact hj)] at this
      exact Option.some.inj this
    rw [hcol]
    have e1 : (if c.length * b.length = 1 then 0 else j) = j := by split_ifs <;> omega
    rw [e1]
    have e2 : r.data.get [k, j] = data.get [a.getD k 0, c[s] * T + b[t]] := by
      have := hdg ⟨k, hk⟩ s t
      rw [← hst] at this
      rw [this, getD_eq a ⟨k, hk⟩]
    have e3 : m'.data.getD j 0 = m.get [c[s] * T + b[t], 0] := by
      have := hmg s t
      rw [← hst] at this
      rw [← this, ND.get, hms']
      simp [offset]
    rw [e2, e3]
  obtain ⟨i, hi, hmin⟩ := npArgmin_range (n := a.length)
    (by rwa [Ne, List.length_eq_zero_iff]) fun k =>
      rowDist data (fun col => m.get [col, 0]) (selCols T c b) (a.getD k 0)
  refine ⟨⟨i, hmin.1⟩, ?_, hmin⟩
  unfold STP.closestToMeasurements
  rw [hr, Py.ok_bind, hm']
  simp only [need, Py.ok_bind, hT', hdist, hi]
  simp only [lamRow, hl, hmin.1, if_true]
  congr 1
  refine List.map_congr_left fun j hj => ?_
  exact hlg ⟨i, hmin.1⟩ ⟨j, List.mem_range.1 hj⟩

/-- Without selected samples there is no closest one: `ValueError`. -/
theorem C53_no_samples (h : Ready P n p S T lam data sensors times (some m))
    {ms mt mx : Option Mask} (hms : ListLike ms) (hmt : ListLike mt) (hmx : ListLike mx)
    {b c : List ℕ} (ha : Picks n ms []) (hb : Picks T mt b) (hc : Picks S mx c)
    (hb0 : b ≠ []) (hc0 : c ≠ [])
    (htd : times.data.length = T) (hs2 : mx ≠ none → sensors.shape = [S, 2]) :
    P.closestToMeasurements ms mt mx = .error .valueError := by
  obtain ⟨r, hr, hl, hlg, hd, hdg, -, -, -, hm1, hm2⟩ :=
    C48_masks h hms hmt hmx ha hb hc hb0 hc0 htd hs2
  obtain ⟨m', hm'⟩ : ∃ m', r.meas = some m' := Option.isSome_iff_exists.1 hm1
  obtain ⟨hms', hmg⟩ := hm2 m' hm' m rfl
  have hT' : m'.T = m' := by simp [ND.T, hms']
  unfold STP.closestToMeasurements
  rw [hr, Py.ok_bind, hm']
  simp only [need, Py.ok_bind, hT']
  unfold rowDists
  rw [hd, hms']
  simp [npArgmin]

/-- **C53 (true values).** The same for `get_closest_to_true_vals`, with all data. -/
theorem C53_true_vals {meas : Option ND} (h : Ready P n p S T lam data sensors times meas)
    {v : ND} (hv : P.trueVals = some v) (hvs : v.shape = [S * T, 1]) (hn : n ≠ 0) :
    ∃ i < n, P.closestToTrueVals = .ok ((List.range p).map fun j => lam.get [i, j]) ∧
      FirstMin n (rowDist data (fun col => v.get [col, 0]) (List.range (S * T))) i := by
  have hT : v.T = ofFn [1, S * T] fun idx => v.get idx.reverse := by simp [ND.T, hvs]
  have hTd : ∀ k < S * T, v.T.data.getD k 0 = v.get [k, 0] := by
    intro k hk
    have : v.T.get [0, k] = v.get [k, 0] := by
      rw [hT, get_ofFn]
      · rfl
      · simp [InB, hk]
    rw [← this, ND.get, hT]
    simp [offset]
  have hdist : rowDists data v.T = .ok ((List.range n).map
      (rowDist data (fun col => v.get [col, 0]) (List.range (S * T)))) := by
    unfold rowDists
    rw [h.data_shape, show v.T.shape = [1, S * T] from by rw [hT]; rfl]
    simp only [Arr2.bdim_self]
    congr 1
    refine List.map_congr_left fun i hi => ?_
    unfold rowDist
    congr 1
    rw [← List.sum_ofFn]
    congr 1
    refine List.ext_getElem (by simp) fun j h1 h2 => ?_
    have hj : j < S * T := by simpa using h1
    have e1 : (if S * T = 1 then 0 else j) = j := by split_ifs <;> omega
    simp only [List.getElem_ofFn, List.getElem_map, List.getElem_range, e1]
    rw [hTd j hj]
  obtain ⟨i, hi, hmin⟩ := npArgmin_range hn
    (rowDist data (fun col => v.get [col, 0]) (List.range (S * T)))
  refine ⟨i, hmin.1, ?_, hmin⟩
  unfold STP.closestToTrueVals
  rw [hv, h.data_eq]
  simp only [need, Py.ok_bind, hdist, hi, h.lam_eq]
  simp only [lamRow, h.lam_shape, hmin.1, if_true]

/-- Without true values: `AttributeError`. -/
theorem C53_true_vals_unset (hv : P.trueVals = none) :
    P.closestToTrueVals = .error .attributeError := by
  unfold STP.closestToTrueVals; rw [hv]; rfl

end closest

/-- On the concrete problem the middle sample is closest. -/
example : demoST.closestToMeasurements = .ok [3, 4] := by
  obtain ⟨⟨i, hi⟩, h1, h2⟩ := C53_measurements demoST_ready (ms := none) (mt := none) (mx := none)
    (fun _ h => by cases h) (fun _ h => by cases h) (fun _ h => by cases h) rfl rfl rfl
    (by simp) (by simp) (by simp) rfl (fun h => absurd rfl h)
  have h3 := h2.2.1 1 (by simp)
  unfold rowDist at h3
  have h4 := (Real.sqrt_le_sqrt_iff (List.sum_nonneg (by
      intro x hx
      obtain ⟨k, -, rfl⟩ := List.mem_map.1 hx
      positivity))).1 h3
  have hi3 : i = 0 ∨ i = 1 ∨ i = 2 := by simp at hi; omega
  rcases hi3 with rfl | rfl | rfl
  · simp [selCols, ND.get, offset, ndOfNats, List.range_succ] at h4
    norm_num at h4
  · rw [h1]
    simp [ND.get, offset, ndOfNats, List.range_succ]
  · simp [selCols, ND.get, offset, ndOfNats, List.range_succ] at h4
    norm_num at h4

/-! ### C59: `validate` -/

/-- The required attributes that are unset, in the documented order. -/
def missingAttrs (P : STP) (checkMeas : Bool) : List String :=
  (if P.domain = none then ["domain"] else []) ++ (if P.lam = none then ["lam"] else []) ++
    (if P.data = none then ["data"] else []) ++
    (if checkMeas = true ∧ P.measurements = none then ["measurements"] else [])

/-- **C59, full statement** (false of the code): `validate` passes or raises a `ValueError` naming
the missing attributes, also when `check_true` is requested. -/
def C59_claim : Prop :=
  ∀ (P : STP) (cm ct : Bool), P.validate cm ct = .ok () ∨
    ∃ names, P.validate cm ct = .error (.valueError, names)

/-- **C59 without `check_true`.** `validate(check_meas)` passes iff nothing required is missing,
and otherwise raises a `ValueError` naming exactly the missing attributes. -/
theorem C59_validate_partial (P : STP) (cm : Bool) :
    P.validate cm false = if missingAttrs P cm = [] then .ok ()
      else .error (.valueError, missingAttrs P cm) := by
  rcases hd : P.domain with _ | d <;> rcases hl : P.lam with _ | l <;>
    rcases hD : P.data with _ | D <;> rcases hm : P.measurements with _ | m <;> cases cm <;>
    simp [STP.validate, missingAttrs, hd, hl, hD, hm]

/-- With `check_true=True` the call always raises `AttributeError`: the checked attribute
`true_lam` does not exist. -/
theorem C59_check_true (P : STP) (cm : Bool) :
    P.validate cm true = .error (.attributeError, []) := by
  simp [STP.validate]

theorem C59_claim_refuted : ¬ C59_claim := by
  intro h
  rcases h demoST true true with h | ⟨_, h⟩
  · rw [C59_check_true] at h; cases h
  · rw [C59_check_true] at h; cases h

example : demoST.validate = .ok () := by rw [C59_validate_partial]; rfl
example : ({} : STP).validate = .error (.valueError, ["domain", "lam", "data", "measurements"]) := by
  rw [C59_validate_partial]; rfl

/-! ### Further cases meeting the hypotheses -/

example : demoST.closestToMeasurements (some (.ints [])) none (some (.ints [1])) = .error .valueError :=
  C53_no_samples demoST_ready (fun _ h => by cases h) (fun _ h => by cases h) (fun _ h => by cases h)
    (b := [0, 1, 2]) (c := [1]) (resolve_ok.1 rfl) rfl (resolve_ok.1 rfl)
    (by simp) (by simp) rfl (fun _ => rfl)

example : demoST.closestToTrueVals = .error .attributeError := C53_true_vals_unset rfl

/-- The concrete problem with true values equal to the first sample's data. -/
example : ∃ i < 3, ({ demoST with trueVals := some (ndOfNats [6, 1] [0, 1, 2, 3, 4, 5] rfl) } : STP).closestToTrueVals =
    .ok ((List.range 2).map fun j => (ndOfNats [3, 2] [1, 2, 3, 4, 5, 6] rfl).get [i, j]) := by
  obtain ⟨i, hi, h, -⟩ := C53_true_vals
    (P := { demoST with trueVals := some (ndOfNats [6, 1] [0, 1, 2, 3, 4, 5] rfl) })
    (n := 3) (p := 2) (S := 2) (T := 3) (lam := ndOfNats [3, 2] [1, 2, 3, 4, 5, 6] rfl)
    ⟨rfl, rfl, rfl, rfl, rfl, rfl, rfl, rfl, rfl, fun _ h => by cases h; rfl⟩ rfl rfl (by norm_num)
  exact ⟨i, hi, h⟩

end Verif
