import Verif.Props.SpatioTemporal

/-!
# C62, C66, C74: meshes, noise, synthetic measurements
-/

namespace Verif

open ND SpecST STP

/-! ### C62 -/

theorem linspaceAt_mem {a b : ℝ} (hab : a ≤ b) {N k : ℕ} (hk : k < N) :
    a ≤ linspaceAt a b N k ∧ linspaceAt a b N k ≤ b := by
  unfold linspaceAt
  rcases Nat.eq_or_lt_of_le (Nat.one_le_of_lt hk) with h | h
  · subst h
    obtain rfl : k = 0 := by omega
    simp [hab]
  · have h1 : (0 : ℝ) < (N - 1 : ℕ) := by exact_mod_cast (by omega : 0 < N - 1)
    have h2 : (k : ℝ) ≤ (N - 1 : ℕ) := by exact_mod_cast (by omega : k ≤ N - 1)
    have h3 : 0 ≤ (b - a) / (N - 1 : ℕ) := div_nonneg (by linarith) h1.le
    constructor
    · have := mul_nonneg (Nat.cast_nonneg (α := ℝ) k) h3; linarith
    · have := mul_le_mul_of_nonneg_right h2 h3
      rw [mul_div_cancel₀ _ h1.ne'] at this
      linarith

theorem linspaceAt_inj {a b : ℝ} (hab : a ≠ b) {N k l : ℕ} (hk : k < N) (hl : l < N)
    (h : linspaceAt a b N k = linspaceAt a b N l) : k = l := by
  unfold linspaceAt at h
  rcases Nat.eq_or_lt_of_le (Nat.one_le_of_lt hk) with h' | h'
  · omega
  · have h1 : ((N - 1 : ℕ) : ℝ) ≠ 0 := by exact_mod_cast (by omega : N - 1 ≠ 0)
    have h2 : (b - a) / (N - 1 : ℕ) ≠ 0 := div_ne_zero (sub_ne_zero.2 hab.symm) h1
    have := mul_right_cancel₀ h2 (add_left_cancel h)
    exact_mod_cast this

theorem linspace_getD {a b : ℝ} {N k : ℕ} (hk : k < N) :
    (linspace a b N).getD k 0 = linspaceAt a b N k := by
  simp [linspace, List.getD_eq_getElem?_getD, hk]

theorem mesh_getElem? (a b : ℝ) {N r c : ℕ} (hr : r < N) (hc : c < N) :
    (make2dMesh a b N).2.2[r * N + c]? = some (linspaceAt a b N c, linspaceAt a b N r) := by
  have hN : (linspace a b N).length = N := by simp [linspace]
  have hi : InB [N, N] [r, c] := ⟨hr, hc, trivial⟩
  have ho : offset [N, N] [r, c] = r * N + c := by simp [offset]
  have := indices_getElem? hi
  rw [ho] at this
  simp only [make2dMesh, pairs, meshgrid, ND.ravel, ofFn, hN]
  rw [List.getElem?_zip_eq_some]
  constructor
  · rw [List.getElem?_map, this]
    exact congrArg some (linspace_getD hc)
  · rw [List.getElem?_map, this]
    exact congrArg some (linspace_getD hr)

theorem mesh_length (a b : ℝ) (N : ℕ) : (make2dMesh a b N).2.2.length = N * N := by
  have hN : (linspace a b N).length = N := by simp [linspace]
  simp only [make2dMesh, pairs, meshgrid, ND.ravel, ofFn, hN, List.length_zip, List.length_map,
    length_indices]
  simp

/-- Every position of a list of `N²` entries is `r * N + c` for exactly one `r, c < N`. -/
theorem pos_split {N k : ℕ} (hk : k < N * N) : k / N < N ∧ k % N < N ∧ k / N * N + k % N = k := by
  have hN : 0 < N := Nat.pos_of_ne_zero (by rintro rfl; simp at hk)
  exact ⟨(Nat.div_lt_iff_lt_mul hN).2 hk, Nat.mod_lt _ hN, by
    rw [Nat.mul_comm]; exact Nat.div_add_mod k N⟩

theorem mesh_all {a b : ℝ} {N : ℕ} : (make2dMesh a b N).2.2.length = N * N ∧
    (∀ r < N, ∀ c < N,
      (make2dMesh a b N).2.2[r * N + c]? = some (linspaceAt a b N c, linspaceAt a b N r)) ∧
    (∀ z ∈ (make2dMesh a b N).2.2, ∃ r < N, ∃ c < N, z = (linspaceAt a b N c, linspaceAt a b N r)) ∧
    (a ≠ b → (make2dMesh a b N).2.2.Nodup) := by
  refine ⟨mesh_length a b N, fun r hr c hc => mesh_getElem? a b hr hc, fun z hz => ?_, fun hab => ?_⟩
  · obtain ⟨k, hk, rfl⟩ := List.getElem_of_mem hz
    rw [mesh_length] at hk
    obtain ⟨h1, h2, h3⟩ := pos_split hk
    refine ⟨k / N, h1, k % N, h2, ?_⟩
    have := mesh_getElem? a b h1 h2
    rw [h3] at this
    exact (List.getElem?_eq_some_iff.1 this).2
  · rw [List.nodup_iff_injective_get]
    intro i j hij
    have hi : (i : ℕ) < N * N := lt_of_lt_of_eq i.2 (mesh_length a b N)
    have hj : (j : ℕ) < N * N := lt_of_lt_of_eq j.2 (mesh_length a b N)
    obtain ⟨h1, h2, h3⟩ := pos_split hi
    obtain ⟨g1, g2, g3⟩ := pos_split hj
    have e1 := mesh_getElem? a b h1 h2
    have e2 := mesh_getElem? a b g1 g2
    rw [h3] at e1
    rw [g3] at e2
    have e1' := (List.getElem?_eq_some_iff.1 e1).2
    have e2' := (List.getElem?_eq_some_iff.1 e2).2
    have : (linspaceAt a b N (i % N), linspaceAt a b N (i / N)) =
        (linspaceAt a b N (j % N), linspaceAt a b N (j / N)) := by
      rw [← e1', ← e2']; exact hij
    obtain ⟨q1, q2⟩ := Prod.mk.inj this
    have r1 := linspaceAt_inj hab h2 g2 q1
    have r2 := linspaceAt_inj hab h1 g1 q2
    ext
    rw [← h3, ← g3, r1, r2]

/-- **C62.** `make_2d_unit_mesh(N, w)` lists `N²` points; the entry at position `r*N + c` is
`(c*w/(N-1), r*w/(N-1))`; every listed point is one of these and lies in the square `[0, w]²`; no
point is listed twice. -/
theorem C62_unit_mesh (N : ℕ) (w : ℝ) (hw : 0 < w) :
    (make2dUnitMesh N w).2.2.length = N * N ∧
    (∀ r < N, ∀ c < N, (make2dUnitMesh N w).2.2[r * N + c]? =
      some (c * w / (N - 1 : ℕ), r * w / (N - 1 : ℕ))) ∧
    (∀ z ∈ (make2dUnitMesh N w).2.2, 0 ≤ z.1 ∧ z.1 ≤ w ∧ 0 ≤ z.2 ∧ z.2 ≤ w) ∧
    (make2dUnitMesh N w).2.2.Nodup := by
  obtain ⟨h1, h2, h3, h4⟩ := mesh_all (a := 0) (b := w) (N := N)
  refine ⟨h1, fun r hr c hc => ?_, fun z hz => ?_, h4 hw.ne⟩
  · rw [make2dUnitMesh, h2 r hr c hc]
    simp only [linspaceAt]
    congr 2 <;> ring
  · obtain ⟨r, hr, c, hc, rfl⟩ := h3 z hz
    exact ⟨(linspaceAt_mem hw.le hc).1, (linspaceAt_mem hw.le hc).2, (linspaceAt_mem hw.le hr).1,
      (linspaceAt_mem hw.le hr).2⟩

/-- The grid arrays `X`, `Y` that are returned with the list have shape `(N, N)` and hold the two
coordinates of the listed points: `X[r, c] = c*w/(N-1)`, `Y[r, c] = r*w/(N-1)`. -/
theorem C62_tables (N : ℕ) (w : ℝ) :
    (make2dUnitMesh N w).1.shape = [N, N] ∧ (make2dUnitMesh N w).2.1.shape = [N, N] ∧
    ∀ r < N, ∀ c < N, (make2dUnitMesh N w).1.get [r, c] = c * w / (N - 1 : ℕ) ∧
      (make2dUnitMesh N w).2.1.get [r, c] = r * w / (N - 1 : ℕ) := by
  have hN : (linspace 0 w N).length = N := by simp [linspace]
  simp only [make2dUnitMesh, make2dMesh, meshgrid, hN]
  refine ⟨rfl, rfl, fun r hr c hc => ?_⟩
  have hi : InB [N, N] [r, c] := ⟨hr, hc, trivial⟩
  rw [get_ofFn hi, get_ofFn hi]
  simp only [List.getD_cons_succ, List.getD_cons_zero, linspace_getD hr, linspace_getD hc,
    linspaceAt]
  constructor <;> ring

/-- The same for `make_2d_normal_mesh`, on the square `[-w, w]²`. -/
theorem C62_normal_mesh (N : ℕ) (w : ℝ) (hw : 0 < w) :
    (make2dNormalMesh N w).2.2.length = N * N ∧
    (∀ r < N, ∀ c < N, (make2dNormalMesh N w).2.2[r * N + c]? =
      some (-w + 2 * c * w / (N - 1 : ℕ), -w + 2 * r * w / (N - 1 : ℕ))) ∧
    (∀ z ∈ (make2dNormalMesh N w).2.2, |z.1| ≤ w ∧ |z.2| ≤ w) ∧
    (make2dNormalMesh N w).2.2.Nodup := by
  obtain ⟨h1, h2, h3, h4⟩ := mesh_all (a := -w) (b := w) (N := N)
  refine ⟨h1, fun r hr c hc => ?_, fun z hz => ?_, h4 (by linarith)⟩
  · rw [make2dNormalMesh, h2 r hr c hc]
    simp only [linspaceAt]
    congr 2 <;> ring
  · obtain ⟨r, hr, c, hc, rfl⟩ := h3 z hz
    exact ⟨abs_le.2 (linspaceAt_mem (by linarith) hc), abs_le.2 (linspaceAt_mem (by linarith) hr)⟩

example : (make2dUnitMesh 3 2).2.2[1 * 3 + 2]? = some (2, 1) := by
  rw [(C62_unit_mesh 3 2 two_pos).2.1 1 (by norm_num) 2 (by norm_num)]
  norm_num

/-! ### C66 -/

namespace SpecST

variable {σ : Type}

/-- The generator state after `i` draws. -/
def stateAfter (G : Rng σ) (s : σ) : ℕ → σ
  | 0 => s
  | i + 1 => (G.draw (stateAfter G s i)).2

/-- The `i`-th standard normal number drawn from state `s`. -/
def nthDraw (G : Rng σ) (s : σ) (i : ℕ) : ℝ := (G.draw (stateAfter G s i)).1

/-- The state from which the noise is drawn: that of the seed if one is given. -/
def startState (G : Rng σ) (seed : Option ℕ) (s : σ) : σ := (seed.map G.seed).getD s

end SpecST

variable {σ : Type} (G : Rng σ)

theorem stateAfter_succ' (s : σ) : ∀ i, stateAfter G s (i + 1) = stateAfter G (G.draw s).2 i
  | 0 => rfl
  | i + 1 => by rw [stateAfter, stateAfter_succ' s i]; rfl

theorem randn_spec (n : ℕ) : ∀ s : σ,
    G.randn n s = ((List.range n).map (nthDraw G s), stateAfter G s n) := by
  induction n with
  | zero => intro s; rfl
  | succ n ih =>
    intro s
    simp only [Rng.randn, ih]
    rw [List.range_succ_eq_map, List.map_cons, List.map_map, stateAfter_succ']
    congr 2
    refine List.map_congr_left fun i _ => ?_
    simp only [Function.comp, nthDraw, stateAfter_succ']

theorem addNoise_run (signal : ND) (sd : ℝ) (seed : Option ℕ) (s : σ) :
    addNoise G signal sd seed s =
      (signal.addVec ((List.range signal.data.length).map fun i =>
        nthDraw G (startState G seed s) i * sd),
        stateAfter G (startState G seed s) signal.data.length) := by
  cases seed with
  | none =>
    show (signal.addVec ((G.randn signal.data.length s).1.map (· * sd)),
      (G.randn signal.data.length s).2) = _
    rw [randn_spec, List.map_map]; rfl
  | some k =>
    show (signal.addVec ((G.randn signal.data.length (G.seed k)).1.map (· * sd)),
      (G.randn signal.data.length (G.seed k)).2) = _
    rw [randn_spec, List.map_map]; rfl

/-- C66 as stated. -/
def C66_claim : Prop :=
  ∀ (σ : Type) (G : Rng σ) (signal : ND) (sd : ℝ) (seed : Option ℕ) (s : σ),
    ∃ r s', addNoise G signal sd seed s = (.ok r, s') ∧ r.shape = signal.shape ∧
      ∀ k < signal.data.length,
        r.data.getD k 0 = signal.data.getD k 0 + sd * nthDraw G (startState G seed s) k

theorem addVec_vector {A : ND} {n : ℕ} (hA : A.shape = [n]) {v : List ℝ} (hv : v.length = n) :
    ∃ r, A.addVec v = .ok r ∧ r.shape = [n] ∧
      ∀ k < n, r.data.getD k 0 = A.data.getD k 0 + v.getD k 0 := by
  unfold ND.addVec
  rw [hA]
  simp only [List.getLast?_singleton, hv, Arr2.bdim_self, List.dropLast_singleton,
    List.nil_append]
  refine ⟨_, rfl, rfl, fun k hk => ?_⟩
  have hi : InB [n] [k] := ⟨hk, trivial⟩
  have ho : offset [n] [k] = k := by simp [offset]
  refine (show _ = _ from ?_).trans (get_ofFn (f := fun idx =>
    A.get (idx.dropLast ++ [if n = 1 then 0 else idx.getLastD 0]) +
      v.getD (if n = 1 then 0 else idx.getLastD 0) 0) hi) |>.trans ?_
  · rw [ND.get, ofFn_shape, ho]
  have h1 : (if n = 1 then 0 else k) = k := by split <;> omega
  simp [hA, offset, h1, ND.get]

/-- **C66 for 1-D signals.** The result has the signal's shape and adds `sd` times the standard
normal draws, which start from the seeded state if a seed is given; the generator advances by one
draw per entry. -/
theorem C66_vector_partial (signal : ND) {n : ℕ} (hs : signal.shape = [n]) (sd : ℝ)
    (seed : Option ℕ) (s : σ) :
    ∃ r, addNoise G signal sd seed s = (.ok r, stateAfter G (startState G seed s) n) ∧
      r.shape = [n] ∧ ∀ k < n,
        r.data.getD k 0 = signal.data.getD k 0 + sd * nthDraw G (startState G seed s) k := by
  have hl : signal.data.length = n := by rw [signal.size_eq, hs]; simp
  rw [addNoise_run, hl]
  obtain ⟨r, h1, h2, h3⟩ := addVec_vector hs
    (v := (List.range n).map fun i => nthDraw G (startState G seed s) i * sd) (by simp)
  refine ⟨r, by rw [h1], h2, fun k hk => ?_⟩
  rw [h3 k hk]
  simp [List.getD_eq_getElem?_getD, hk, mul_comm]

/-- **C66, reproducibility**: with a seed neither the result nor the final generator state depends
on the state before the call; this holds for signals of every shape. -/
theorem C66_seeded (signal : ND) (sd : ℝ) (seed : ℕ) (s s' : σ) :
    addNoise G signal sd (some seed) s = addNoise G signal sd (some seed) s' := rfl

/-- A table with more than one row and more than one column raises `ValueError`. -/
theorem C66_table (signal : ND) {n m : ℕ} (hs : signal.shape = [n, m]) (hn : 1 < n) (hm : 1 < m)
    (sd : ℝ) (seed : Option ℕ) (s : σ) :
    (addNoise G signal sd seed s).1 = .error .valueError := by
  have hl : signal.data.length = n * m := by rw [signal.size_eq, hs]; simp
  rw [addNoise_run, hl]
  simp only [ND.addVec, hs]
  have h1 : m < n * m := by
    calc m = 1 * m := (one_mul m).symm
      _ < n * m := Nat.mul_lt_mul_of_pos_right hn (by omega)
  have : Arr2.bdim m (n * m) = none := by
    unfold Arr2.bdim
    rw [if_neg (by omega), if_neg (by omega), if_neg (by omega)]
  simp [this]

/-- A column `(n, 1)` becomes an `(n, n)` table: entry `(i, j)` is `signal[i]` plus the `j`-th
noise. -/
theorem C66_column (signal : ND) {n : ℕ} (hs : signal.shape = [n, 1]) (hn : 1 < n)
    (sd : ℝ) (seed : Option ℕ) (s : σ) :
    ∃ r, (addNoise G signal sd seed s).1 = .ok r ∧ r.shape = [n, n] ∧ ∀ i < n, ∀ j < n,
      r.get [i, j] = signal.get [i, 0] + sd * nthDraw G (startState G seed s) j := by
  have hl : signal.data.length = n := by rw [signal.size_eq, hs]; simp
  rw [addNoise_run, hl]
  simp only [ND.addVec, hs]
  have : Arr2.bdim 1 n = some n := by
    unfold Arr2.bdim
    rw [if_neg (by omega), if_pos rfl]
  simp only [List.getLast?_cons_cons, List.getLast?_singleton, List.length_map, List.length_range,
    this]
  refine ⟨_, rfl, rfl, fun i hi j hj => ?_⟩
  have hb : InB [n, n] [i, j] := ⟨hi, hj, trivial⟩
  refine (get_ofFn hb).trans ?_
  have h1 : n ≠ 1 := by omega
  simp [h1, List.getD_eq_getElem?_getD, hj, mul_comm]

/-- **C66 is false of the code** for signals that are not 1-D. -/
theorem C66_claim_refuted : ¬ C66_claim := by
  intro h
  obtain ⟨r, s', h1, -⟩ := h Unit ⟨fun _ => (), fun _ => (0, ())⟩ (ndOfNats [2, 2] [1, 2, 3, 4] rfl)
    1 none ()
  have := C66_table (G := (⟨fun _ => (), fun _ => (0, ())⟩ : Rng Unit))
    (ndOfNats [2, 2] [1, 2, 3, 4] rfl) rfl (by norm_num) (by norm_num) 1 none ()
  rw [h1] at this
  cases this

/-! ### C74 -/

theorem reshape_back {A : ND} {n : ℕ} {s : List ℕ} (hA : A.shape = [n]) (hs : s.prod = n) :
    ∃ B, A.reshape s = .ok B ∧ B.shape = s ∧ B.data = A.data :=
  ⟨_, reshape_ok (by rw [hA, hs]; simp), rfl, rfl⟩

/-- **C74.** `measurements_from_reference(ref, std_dev, seed)` on a problem with a sensor/time
layout of `k` observations and a reference with `k` entries (of any shape) stores
`ref_j + std_dev * z_j` as measurement `j`, where `z` are the generator's next standard normal
draws (from the seeded state if a seed is given), remembers `ref` and `std_dev`, and changes
nothing else. -/
theorem C74_measurements (P : STP) {S T : ℕ} {sensors times ref : ND}
    (hS : P.sensors = some sensors) (hS' : HasLen sensors S)
    (hT : P.times = some times) (hT' : HasLen times T) (hr : ref.data.length = S * T)
    (sd : ℝ) (seed : Option ℕ) (s : σ) :
    ∃ M, measurementsFromReference G (some ref) (some sd) seed (P, s) =
        (.ok (), ({ P with trueVals := some ref, stdDev := some sd, measurements := some M },
          stateAfter G (startState G seed s) (S * T))) ∧
      M.shape = [S * T, 1] ∧ ∀ j < S * T,
        M.get [j, 0] = ref.data.getD j 0 + sd * nthDraw G (startState G seed s) j := by
  obtain ⟨r, h1, h2, h3⟩ := C66_vector_partial G ref.ravel (n := S * T) (by simp [ND.ravel, hr]) sd
    seed s
  obtain ⟨B, hB, hBs, hBd⟩ := reshape_back h2 (s := ref.shape) (by rw [← ref.size_eq, hr])
  obtain ⟨M, hM, hMs, hMd⟩ : ∃ M, B.reshape [S * T, 1] = .ok M ∧ M.shape = [S * T, 1] ∧
      M.data = B.data :=
    ⟨_, reshape_ok (by rw [hBs, ← ref.size_eq, hr]; simp), rfl, rfl⟩
  refine ⟨M, ?_, hMs, fun j hj => ?_⟩
  · unfold measurementsFromReference
    dsimp only
    rw [h1]
    dsimp only
    rw [hB]
    dsimp only
    have : setMeasurements B { P with trueVals := some ref, stdDev := some sd } =
        (.ok (), { P with trueVals := some ref, stdDev := some sd, measurements := some M }) := by
      unfold setMeasurements
      rw [PyM.get_bind_run]
      have hk : STP.nData { P with trueVals := some ref, stdDev := some sd } = .ok (S * T) := by
        unfold STP.nData STP.nSensors STP.nTs
        simp only [hS, hT, need, Py.ok_bind, hS'.dim, hT'.dim]
        rfl
      rw [hk, PyM.lift_ok_bind, hM, PyM.lift_ok_bind]
      rfl
    rw [this]
  · rw [ND.get, hMs, hMd, hBd]
    simp only [offset, List.prod_cons, List.prod_nil, mul_one, add_zero]
    rw [h3 j hj]
    rfl

/-- Without arguments the stored reference and standard deviation are used; if one of them is
missing, `AttributeError` is raised and the object is unchanged. -/
theorem C74_stored (P : STP) (seed : Option ℕ) (s : σ) :
    measurementsFromReference G none none seed (P, s) =
      match P.trueVals, P.stdDev with
      | some t, some d => measurementsFromReference G (some t) (some d) seed (P, s)
      | _, _ => (.error .attributeError, (P, s)) := by
  rcases ht : P.trueVals with _ | t <;> rcases hd : P.stdDev with _ | d
  · simp [measurementsFromReference, ht, hd]
  · simp [measurementsFromReference, ht, hd]
  · simp [measurementsFromReference, ht, hd]
  · simp only [measurementsFromReference, ht, hd]
    have : ({ P with trueVals := some t, stdDev := some d } : STP) = P := by
      rw [← ht, ← hd]
    rw [this]

/-- C74 on a concrete problem. -/
example : ∃ M, measurementsFromReference (⟨fun k => k, fun s => (s, s + 1)⟩ : Rng ℕ)
    (some (ndOfNats [6] [1, 2, 3, 4, 5, 6] rfl)) (some 2) (some 7) (demoST, 3) =
      (.ok (), ({ demoST with
        trueVals := some (ndOfNats [6] [1, 2, 3, 4, 5, 6] rfl)
        measurements := some M }, 13)) ∧ M.get [1, 0] = 2 + 2 * 8 := by
  obtain ⟨M, h1, -, h3⟩ := C74_measurements (⟨fun k => k, fun s => (s, s + 1)⟩ : Rng ℕ) demoST
    (S := 2) (T := 3) (ref := ndOfNats [6] [1, 2, 3, 4, 5, 6] rfl) rfl rfl rfl rfl rfl 2 (some 7) 3
  refine ⟨M, h1, (h3 1 (by norm_num)).trans ?_⟩
  simp [ndOfNats, nthDraw, stateAfter, startState]

/-! ### Further cases meeting the hypotheses -/

/-- C62: the middle point of a `3 × 3` mesh of `[-2, 2]²`, and its corner. -/
example : (make2dNormalMesh 3 2).2.2[1 * 3 + 1]? = some (0, 0) ∧
    (make2dNormalMesh 3 2).2.2[0 * 3 + 2]? = some ((2 : ℝ), (-2 : ℝ)) := by
  have h := (C62_normal_mesh 3 2 two_pos).2.1
  rw [h 1 (by norm_num) 1 (by norm_num), h 0 (by norm_num) 2 (by norm_num)]
  norm_num

/-- C66: noise of deviation `2` from a generator that counts, seeded with `7`, on three numbers. -/
example : ∃ r, addNoise (⟨fun k => k, fun s => (s, s + 1)⟩ : Rng ℕ) (ndOfNats [3] [1, 2, 3] rfl) 2 (some 7) 4 =
    (.ok r, 10) ∧ r.data.getD 2 0 = 3 + 2 * 9 := by
  obtain ⟨r, h1, -, h3⟩ := C66_vector_partial (⟨fun k => k, fun s => (s, s + 1)⟩ : Rng ℕ)
    (ndOfNats [3] [1, 2, 3] rfl) (n := 3) rfl 2 (some 7) 4
  exact ⟨r, h1, by rw [h3 2 (by norm_num)]; simp [ndOfNats, SpecST.nthDraw, SpecST.stateAfter, SpecST.startState]⟩

/-- C66: a column of two becomes a `2 × 2` table. -/
example : ∃ r, (addNoise (⟨fun k => k, fun s => (s, s + 1)⟩ : Rng ℕ) (ndOfNats [2, 1] [1, 2] rfl) 2 (some 7) 4).1 =
    .ok r ∧ r.shape = [2, 2] ∧ r.get [0, 1] = 1 + 2 * 8 := by
  obtain ⟨r, h1, h2, h3⟩ := C66_column (⟨fun k => k, fun s => (s, s + 1)⟩ : Rng ℕ)
    (ndOfNats [2, 1] [1, 2] rfl) (n := 2) rfl (by norm_num) 2 (some 7) 4
  exact ⟨r, h1, h2, by
    rw [h3 0 (by norm_num) 1 (by norm_num)]
    simp [ndOfNats, ND.get, ND.offset, SpecST.nthDraw, SpecST.stateAfter, SpecST.startState]⟩

end Verif
