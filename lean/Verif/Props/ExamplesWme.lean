import Verif.Model.ExamplesWme
import Verif.Props.ExamplesLinear
import Verif.Props.LinearWme

/-!
# C104, C105: random weighted mean error problems
-/

open Matrix

namespace Verif

open SpecST

variable {σ : Type}

/-! ## C104 -/

/-- The state of the generator before each quantity of interest, if `k` numbers are drawn by `R` for
the operator and then `n` normal numbers for the noise. -/
def wmeStates (G R : Rng σ) (k : ℕ) : List ℕ → σ → List σ
  | [], _ => []
  | n :: ns, s => s :: wmeStates G R k ns (stateAfter G (stateAfter R s k) n)

/-- Number of rows of the operators: the first row only if it is repeated. -/
def wmeRows (repeated : Bool) (q : ℕ) : ℕ := if repeated then 1 else q

/-- The row of the operator that belongs to datum `i`. -/
def wmeRow (r i : ℕ) : ℕ := if r = 1 then 0 else i

/-- The drawn data: the value of the row at the reference plus deviation times normal draw. -/
noncomputable def wmeData (G R : Rng σ) (k r : ℕ) {p : ℕ} (v : Fin p → ℝ) (s : σ) (n : ℕ)
    (sd : Fin n → ℝ) : NArr :=
  .vec n fun i => ∑ j : Fin p, nthDraw R s (wmeRow r i * p + j) * v j +
    sd i * nthDraw G (stateAfter R s k) i

theorem firstRow_draws (R : Rng σ) (s : σ) {q p : ℕ} (hq : 0 < q) (rep : Bool) :
    firstRow rep ⟨q, p, drawMat R s 0 q p⟩ = .ok ⟨wmeRows rep q, p, drawMat R s 0 (wmeRows rep q) p⟩ := by
  cases rep with
  | false => rfl
  | true =>
    unfold firstRow
    rw [if_pos rfl, if_neg (show ¬ (Arr2.mk q p (drawMat R s 0 q p)).r = 0 from hq.ne')]
    refine congrArg Except.ok ?_
    have e : Arr2.pyStop q 1 = 1 := by unfold Arr2.pyStop; rw [if_neg (by omega)]; simp; omega
    refine Arr2.ext_get e rfl fun i j hi hj => ?_
    have hi' : i < 1 := by
      have : i < Arr2.pyStop q 1 := hi
      omega
    have hj' : j < p := hj
    refine (Arr2.get_mk' _ hi hj).trans (Eq.trans ?_ (Arr2.get_mk' _ hi' hj).symm)
    rfl

theorem stdCheck_ok {n : ℕ} {std : NoiseStd} {sd : Fin n → ℝ} (hs : StdIs std sd) :
    stdCheck n std = .ok (.vec n sd) := by
  rcases hs with ⟨c, rfl, rfl⟩ | rfl
  · rfl
  · simp [stdCheck, NArr.nEntries]

theorem diagMul_ok (G : Rng σ) (s : σ) {n : ℕ} (sd : Fin n → ℝ) :
    diagMul (.vec n sd) (fun i : Fin n => ((List.range n).map (nthDraw G s)).getD i 0) =
      .ok (.mat (Arr2.col fun i => sd i * nthDraw G s i)) := by
  show ((Arr2.mk n n (diagonal sd)).matmul (Arr2.col _) >>= _) = _
  rw [Arr2.matmul_col, Py.ok_bind]
  show Except.ok _ = Except.ok _
  congr 3
  funext i
  rw [mulVec_diagonal, getD_draws G s i.2]

theorem isVec_toCol {p : ℕ} {ref : NArr} {v : Fin p → ℝ} (hv : IsVec ref v) :
    ref.toCol = Arr2.col v ∧ ref.len = .ok p := by
  rcases hv with rfl | rfl
  · exact ⟨rfl, rfl⟩
  · exact ⟨Arr2.ravelCol_col v, rfl⟩

theorem wmeDraw_run (G : Gen σ) {p q n : ℕ} {ref : NArr} {v : Fin p → ℝ} (hv : IsVec ref v)
    (hq : 0 < q) (dist : String) (rep : Bool) (hr : wmeRows rep q = 1 ∨ wmeRows rep q = n)
    {std : NoiseStd} {sd : Fin n → ℝ} (hs : StdIs std sd) (s : σ) :
    wmeDraw G ref p q dist rep n std s =
      (.ok (⟨wmeRows rep q, p, drawMat (mapRng G dist) s 0 (wmeRows rep q) p⟩,
        wmeData G.normal (mapRng G dist) (q * p) (wmeRows rep q) v s n sd),
        stateAfter G.normal (stateAfter (mapRng G dist) s (q * p)) n) := by
  set r := wmeRows rep q with hrdef
  have hrpos : 0 < r := by
    rw [hrdef]; unfold wmeRows; split <;> omega
  unfold wmeDraw
  rw [take_bind_run, matOf_draws, firstRow_draws _ _ hq, PyM.lift_ok_bind, stdCheck_ok hs,
    PyM.lift_ok_bind, (isVec_toCol hv).1, Arr2.matmul_col, PyM.lift_ok_bind, take_bind_run,
    diagMul_ok, PyM.lift_ok_bind]
  have hlt : ∀ i : Fin n, wmeRow r i < r := by
    intro i
    unfold wmeRow
    split
    · exact hrpos
    · next h => have := hr.resolve_left h; have := i.2; omega
  rw [squeeze_addB (r := r) _ _ (fun i => ⟨wmeRow r i, hlt i⟩) ?_ hr, PyM.lift_ok_bind]
  · show (Except.ok (_, (Arr2.col _).ravel), _) = _
    rw [Arr2.ravel_col]
    simp only [wmeData, mulVec, dotProduct, drawMat, of_apply, Nat.zero_add]
    rfl
  · by_cases h : r = 1
    · exact Or.inl h
    · refine Or.inr fun i => ?_
      show wmeRow r i = i
      unfold wmeRow; rw [if_neg h]

/-- The data of one quantity of interest: number of data, `std_dev` entry, the deviations it means. -/
structure WmeItem where
  n : ℕ
  std : NoiseStd
  sd : Fin n → ℝ
  is : StdIs std sd

theorem wmeLoop_run (G : Gen σ) {p q : ℕ} {ref : NArr} {v : Fin p → ℝ} (hv : IsVec ref v)
    (hq : 0 < q) (dist : String) (rep : Bool) (l : List WmeItem)
    (hr : ∀ x ∈ l, wmeRows rep q = 1 ∨ wmeRows rep q = x.n) (s : σ) :
    ∃ s', wmeLoop G ref p q dist rep (l.map fun x => (x.n, x.std)) s =
      (.ok (List.zipWith (fun s x =>
        ((⟨wmeRows rep q, p, drawMat (mapRng G dist) s 0 (wmeRows rep q) p⟩ : Arr2),
          wmeData G.normal (mapRng G dist) (q * p) (wmeRows rep q) v s x.n x.sd))
        (wmeStates G.normal (mapRng G dist) (q * p) (l.map (·.n)) s) l), s') := by
  induction l generalizing s with
  | nil => exact ⟨s, rfl⟩
  | cons x l ih =>
    obtain ⟨s', hs'⟩ := ih (fun y hy => hr y (List.mem_cons_of_mem _ hy))
      (stateAfter G.normal (stateAfter (mapRng G dist) s (q * p)) x.n)
    refine ⟨s', ?_⟩
    show (wmeDraw G ref p q dist rep x.n x.std >>= _) s = _
    rw [PyM.bind_run, wmeDraw_run G hv hq dist rep (hr x List.mem_cons_self) x.is]
    simp only
    rw [PyM.bind_run, hs']
    rfl

theorem length_wmeStates (G R : Rng σ) (k : ℕ) (ns : List ℕ) (s : σ) :
    (wmeStates G R k ns s).length = ns.length := by
  induction ns generalizing s with
  | nil => rfl
  | cons n ns ih => simp [wmeStates, ih]

theorem numObs_seq {q : ℕ} {l : List ℕ} (h : l.length = q) : (NumObs.seq l).items q = .ok l := by
  show (do pyAssert (l.length = q); return l) = _
  rw [pyAssert_true h]; rfl

theorem wmeStd_seq {q : ℕ} {l : List NoiseStd} (h : l.length = q) : (WmeStd.seq l).items q = .ok l := by
  show (do pyAssert (l.length = q); return l) = _
  rw [pyAssert_true h]; rfl

/-- The number-of-observations argument means the list `ns`. -/
def ObsIs (q : ℕ) (a : NumObs) (ns : List ℕ) : Prop :=
  a = .seq ns ∨ ∃ n, a = .one n ∧ ns = List.replicate q n

theorem wme_problem (G : Gen σ) {p : ℕ} {ref : NArr} {v : Fin p → ℝ} (hv : IsVec ref v)
    (dist : String) (rep : Bool) (l : List WmeItem) (hl : l ≠ []) {a : NumObs}
    (ha : ObsIs l.length a (l.map (·.n)))
    (hr : rep = true ∨ l.length = 1 ∨ ∀ x ∈ l, x.n = l.length) (s : σ) :
    ∃ s', randomLinearWme G ref (.seq (l.map (·.std))) l.length a dist rep s =
      (.ok
        { operators := (wmeStates G.normal (mapRng G dist) (l.length * p) (l.map (·.n)) s).map fun s =>
            ⟨wmeRows rep l.length, p, drawMat (mapRng G dist) s 0 (wmeRows rep l.length) p⟩
          data := List.zipWith (fun s x =>
            wmeData G.normal (mapRng G dist) (l.length * p) (wmeRows rep l.length) v s x.n x.sd)
            (wmeStates G.normal (mapRng G dist) (l.length * p) (l.map (·.n)) s) l
          std := l.map (·.std) }, s') := by
  have hq : 0 < l.length := List.length_pos_of_ne_nil hl
  have hr' : ∀ x ∈ l, wmeRows rep l.length = 1 ∨ wmeRows rep l.length = x.n := by
    intro x hx
    unfold wmeRows
    rcases hr with h | h | h
    · simp [h]
    · left; split <;> omega
    · cases rep
      · right; exact (h x hx).symm
      · left; rfl
  obtain ⟨s', hs'⟩ := wmeLoop_run G hv hq dist rep l hr' s
  refine ⟨s', ?_⟩
  have hns : a.items l.length = .ok (l.map (·.n)) := by
    rcases ha with rfl | ⟨n, rfl, h⟩
    · exact numObs_seq (by simp)
    · rw [h]; rfl
  unfold randomLinearWme
  have hstd : (WmeStd.seq (l.map (·.std))).items l.length = .ok (l.map (·.std)) := by
    exact wmeStd_seq (by simp)
  rw [hstd, PyM.lift_ok_bind, hns, PyM.lift_ok_bind, pyAssert_true (by simp), PyM.lift_ok_bind,
    (isVec_toCol hv).2, PyM.lift_ok_bind, PyM.bind_run]
  have hz : (l.map (·.n)).zip (l.map (·.std)) = l.map fun x => (x.n, x.std) := by
    clear hs' hr hr' hq hl ha hns hstd
    induction l with
    | nil => rfl
    | cons x l ih => simp [ih]
  rw [hz, hs']
  simp only
  show (Except.ok _, s') = _
  congr 3
  · rw [List.map_zipWith]
    refine List.ext_getElem (by simp [length_wmeStates]) fun i h1 h2 => ?_
    simp
  · rw [List.map_zipWith]

/-- `dist` names the generator `R`: the normal one for `"normal"`, the uniform one otherwise (the documentation names
`"normal"` and `"uniform"`). -/
def DrawsFrom (G : Gen σ) (dist : String) (R : Rng σ) : Prop :=
  dist = "normal" ∧ R = G.normal ∨ dist ≠ "normal" ∧ R = G.uniform

/-- **C104**, what works: one deviation (or 1-D array of deviations) per quantity of interest, the row
repeated or as many data as quantities of interest. Operator `k` consists of the next draws (normal
or uniform), datum `i` of quantity `k` is the value of the row at the reference plus the deviation
times the next normal draw. -/
theorem C104_problem_partial (G : Gen σ) {p : ℕ} {ref : NArr} {v : Fin p → ℝ} (hv : IsVec ref v)
    {dist : String} {R : Rng σ} (hR : DrawsFrom G dist R) (rep : Bool) (l : List WmeItem) (hl : l ≠ []) {a : NumObs}
    (ha : ObsIs l.length a (l.map (·.n)))
    (hr : rep = true ∨ l.length = 1 ∨ ∀ x ∈ l, x.n = l.length) (s : σ) :
    ∃ s', randomLinearWme G ref (.seq (l.map (·.std))) l.length a dist rep s =
      (.ok
        { operators := (wmeStates G.normal R (l.length * p) (l.map (·.n)) s).map fun s =>
            ⟨wmeRows rep l.length, p, drawMat R s 0 (wmeRows rep l.length) p⟩
          data := List.zipWith (fun s x =>
            wmeData G.normal R (l.length * p) (wmeRows rep l.length) v s x.n x.sd)
            (wmeStates G.normal R (l.length * p) (l.map (·.n)) s) l
          std := l.map (·.std) }, s') := by
  have e : mapRng G dist = R := by
    rcases hR with ⟨h1, h2⟩ | ⟨h1, h2⟩
    · exact (if_pos h1).trans h2.symm
    · exact (if_neg h1).trans h2.symm
  have h := wme_problem G hv dist rep l hl ha hr s
  rwa [e] at h


/-- A single number is not spread over several quantities of interest: `AssertionError`. -/
theorem C104_number_raises (G : Gen σ) (ref : NArr) (std : WmeStd) (hstd : (∃ c, std = .float c) ∨ ∃ c, std = .int c)
    {q : ℕ} (hq : q ≠ 1) (n : ℕ) (dist : String) (rep : Bool) (s : σ) :
    randomLinearWme G ref std q (.one n) dist rep s = (.error .assertionError, s) := by
  have : ∃ x, std.items q = .ok [x] := by
    rcases hstd with ⟨c, rfl⟩ | ⟨c, rfl⟩ <;> exact ⟨_, rfl⟩
  obtain ⟨x, hx⟩ := this
  unfold randomLinearWme
  rw [hx, PyM.lift_ok_bind, show (NumObs.one n).items q = .ok (List.replicate q n) from rfl,
    PyM.lift_ok_bind, pyAssert_false (by simpa using hq.symm)]
  rfl

/-- For one quantity of interest an integer is rejected as well: `AssertionError`, or `ValueError` for
a single datum. -/
theorem C104_integer_raises (G : Gen σ) {p : ℕ} {ref : NArr} {v : Fin p → ℝ} (hv : IsVec ref v) (c : ℤ)
    (n : ℕ) (dist : String) (rep : Bool) (s : σ) :
    ∃ s', randomLinearWme G ref (.int c) 1 (.one n) dist rep s =
      (.error (if n = 1 then .valueError else .assertionError), s') := by
  unfold randomLinearWme
  rw [show (WmeStd.int c).items 1 = .ok [.arr (.scal (c * (1 : ℕ)))] from rfl, PyM.lift_ok_bind,
    show (NumObs.one n).items 1 = .ok [n] from rfl, PyM.lift_ok_bind, pyAssert_true (by simp),
    PyM.lift_ok_bind, (isVec_toCol hv).2, PyM.lift_ok_bind, PyM.bind_run]
  rw [show [n].zip [NoiseStd.arr (.scal (c * (1 : ℕ)))] = [(n, .arr (.scal (c * (1 : ℕ))))] from rfl]
  unfold wmeLoop
  rw [PyM.bind_run]
  have key : ∃ s', wmeDraw G ref p 1 dist rep n (.arr (.scal (c * (1 : ℕ)))) s =
      (.error (if n = 1 then .valueError else .assertionError), s') := by
    unfold wmeDraw
    rw [take_bind_run, matOf_draws, firstRow_draws _ _ one_pos, PyM.lift_ok_bind]
    by_cases hn : n = 1
    · subst hn
      rw [show stdCheck 1 (.arr (.scal (c * (1 : ℕ)))) = .ok (.scal (c * (1 : ℕ))) by
        simp [stdCheck, NArr.nEntries], PyM.lift_ok_bind, (isVec_toCol hv).1, Arr2.matmul_col,
        PyM.lift_ok_bind, take_bind_run]
      exact ⟨_, rfl⟩
    · have : stdCheck n (.arr (.scal (c * (1 : ℕ)))) = .error .assertionError := by
        show (do pyAssert (NArr.nEntries (.scal (c * (1 : ℕ))) = n); return _) = _
        rw [pyAssert_false (by simpa [NArr.nEntries] using Ne.symm hn)]
        rfl
      rw [this, if_neg hn]
      exact ⟨_, rfl⟩
  obtain ⟨s', h⟩ := key
  rw [h]
  exact ⟨s', rfl⟩

/-- Without repetition, several quantities of interest and a different number (not one) of data:
`ValueError`, because every operator has one row per quantity of interest. -/
theorem C104_shape_raises (G : Gen σ) {p : ℕ} {ref : NArr} {v : Fin p → ℝ} (hv : IsVec ref v)
    (dist : String) (x : WmeItem) (l : List WmeItem) {a : NumObs}
    (ha : ObsIs (l.length + 1) a ((x :: l).map (·.n))) (hl : l ≠ []) (h1 : x.n ≠ 1)
    (hx : x.n ≠ l.length + 1) (s : σ) :
    ∃ s', randomLinearWme G ref (.seq ((x :: l).map (·.std))) (l.length + 1) a dist false s =
      (.error .valueError, s') := by
  have hq : 0 < l.length := List.length_pos_of_ne_nil hl
  have hns : a.items (l.length + 1) = .ok ((x :: l).map (·.n)) := by
    rcases ha with rfl | ⟨n, rfl, h⟩
    · exact numObs_seq (by simp)
    · rw [h]; rfl
  unfold randomLinearWme
  have hstd : (WmeStd.seq ((x :: l).map (·.std))).items (l.length + 1) = .ok ((x :: l).map (·.std)) := by
    exact wmeStd_seq (by simp)
  rw [hstd, PyM.lift_ok_bind, hns, PyM.lift_ok_bind, pyAssert_true (by simp), PyM.lift_ok_bind,
    (isVec_toCol hv).2, PyM.lift_ok_bind, PyM.bind_run]
  simp only [List.map_cons, List.zip_cons_cons]
  unfold wmeLoop
  rw [PyM.bind_run]
  have key : ∃ s', wmeDraw G ref p (l.length + 1) dist false x.n x.std s = (.error .valueError, s') := by
    unfold wmeDraw
    rw [take_bind_run, matOf_draws, firstRow_draws _ _ (Nat.succ_pos _), PyM.lift_ok_bind,
      stdCheck_ok x.is, PyM.lift_ok_bind, (isVec_toCol hv).1, Arr2.matmul_col, PyM.lift_ok_bind,
      take_bind_run, diagMul_ok, PyM.lift_ok_bind]
    set w := (drawMat (mapRng G dist) s 0 (wmeRows false (l.length + 1)) p) *ᵥ v
    have e : squeezeRow (Arr2.col w) = .mat (Arr2.col w) := by
      unfold squeezeRow; rw [if_neg (show ¬ (Arr2.col w).r = 1 from show ¬ l.length + 1 = 1 by omega)]
    rw [e]
    have e2 : (NArr.mat (Arr2.col w)).addB (.mat (Arr2.col fun i : Fin x.n =>
        x.sd i * nthDraw G.normal (stateAfter (mapRng G dist) s ((l.length + 1) * p)) i)) =
        .error .valueError := by
      unfold NArr.addB
      show (Arr2.zipB _ (Arr2.col w) (Arr2.col _) >>= _) = _
      unfold Arr2.zipB
      have a1 : Arr2.bdim (l.length + 1) x.n = none := by
        unfold Arr2.bdim
        rw [if_neg (by omega), if_neg (by omega), if_neg (by omega)]
      have a1' : Arr2.bdim (Arr2.col w).r (Arr2.col fun i : Fin x.n =>
        x.sd i * nthDraw G.normal (stateAfter (mapRng G dist) s ((l.length + 1) * p)) i).r = none := a1
      rw [a1']
      rfl
    rw [e2]
    exact ⟨_, rfl⟩
  obtain ⟨s', h⟩ := key
  rw [h]
  exact ⟨s', rfl⟩

/-- C104 as documented: a standard deviation, `q` quantities of interest and `n` data each give `q`
operators and `q` arrays of `n` data. -/
def C104_claim : Prop :=
  ∀ (σ : Type) (G : Gen σ) (p q n : ℕ) (v : Fin p → ℝ) (c : ℝ) (s : σ), 0 < q → 0 < n → 0 ≤ c →
    ∃ W s', randomLinearWme G (.vec p v) (.float c) q (.one n) "normal" false s = (.ok W, s') ∧
      W.operators.length = q ∧ W.data.length = q ∧ ∀ y ∈ W.data, ∃ w, y = .vec n w

theorem C104_claim_refuted : ¬ C104_claim := by
  intro h
  obtain ⟨W, s', h1, -⟩ := h Unit ⟨⟨fun _ => (), fun _ => (0, ())⟩, fun _ => (0, ())⟩ 1 2 1 ![1] 1 ()
    two_pos one_pos zero_le_one
  rw [C104_number_raises _ _ _ (Or.inl ⟨_, rfl⟩) (by norm_num)] at h1
  cases h1

/-- Two quantities of interest with three and two data, the first with deviation 1/10, the second
with a deviation per datum. -/
example (G : Gen σ) (s : σ) : ∃ W s', randomLinearWme G (.vec 2 ![1, 2])
    (.seq [.num (1 / 10), .arr (.vec 2 ![1, 1 / 2])]) 2 (.seq [3, 2]) "normal" true s = (.ok W, s') ∧
    W.operators.length = 2 := by
  obtain ⟨s', h⟩ := C104_problem_partial G (ref := .vec 2 ![1, 2]) (Or.inl rfl) (dist := "normal")
    (.inl ⟨rfl, rfl⟩) true
    [⟨3, .num (1 / 10), fun _ => 1 / 10, Or.inl ⟨_, rfl, rfl⟩⟩,
      ⟨2, .arr (.vec 2 ![1, 1 / 2]), ![1, 1 / 2], Or.inr rfl⟩] (by simp) (Or.inl rfl) (Or.inl rfl) s
  refine ⟨_, s', h, ?_⟩
  simp [length_wmeStates]

/-! ## C105: `run_wme_covariance` -/

theorem setup_repeated {d p N : ℕ} (hd : 0 < d) (hN : 0 < N) {c : ℝ} (hc : 1 / 10 ^ 14 < c)
    (M : Matrix (Fin d) (Fin p) ℝ) (D : Fin d → Fin N → ℝ) :
    transformLinearSetup (List.ofFn fun k => Arr2.row (M k)) (List.ofFn fun k => ⟨N, D k⟩) (.num c) =
      .ok (⟨d, p, (Real.sqrt N / c) • M⟩,
        Arr2.col fun k => -1 / Real.sqrt N * ∑ i, D k i / c) := by
  set qs : List (QoI p) := List.ofFn fun k => QoI.repeated N (M k) (D k) c with hqs
  have hlen : qs.length = d := by simp [hqs]
  have hne : qs ≠ [] := by
    intro e; rw [e] at hlen; simp at hlen; omega
  have hv : ∀ q ∈ qs, q.Valid := by
    intro q hq
    rw [hqs, List.mem_ofFn] at hq
    obtain ⟨k, rfl⟩ := hq
    exact ⟨hN, hc⟩
  obtain ⟨rs, h1, h2, h3⟩ := transformAll_qois qs hv
  have e2 := vstackList_rows (qs.map QoI.rowA) (by simpa using hne)
  have e3 := vstackList_rows (qs.map fun q => ![q.offB]) (by simpa using hne)
  rw [List.map_map] at e2 e3
  have o1 : qs.map QoI.op = List.ofFn fun k => Arr2.row (M k) := by
    rw [hqs, List.map_ofFn]; rfl
  have o2 : qs.map QoI.data = List.ofFn fun k => ⟨N, D k⟩ := by
    rw [hqs, List.map_ofFn]; rfl
  have o3 : qs.map QoI.std = List.replicate (List.ofFn fun k => (⟨N, D k⟩ : (N : ℕ) × (Fin N → ℝ))).length
      (.num c) := by
    rw [hqs, List.map_ofFn, List.length_ofFn]
    exact List.ofFn_const d (StdArg.num c)
  unfold transformLinearSetup
  rw [o1, o2, o3] at h1
  show (transformAll _ >>= _) = _
  rw [show SigmaArg.toList _ (.num c) = List.replicate _ (StdArg.num c) from rfl, h1, Py.ok_bind, h2, h3]
  erw [e2]
  rw [Py.ok_bind]
  erw [e3]
  rw [Py.ok_bind]
  show Except.ok _ = Except.ok _
  congr 2
  · refine Arr2.ext_get (by simp [hlen]) rfl fun i j hi hj => ?_
    have hi' : i < d := by simpa [hlen] using hi
    refine (Arr2.get_mk' _ hi hj).trans (Eq.trans ?_ (Arr2.get_mk' _ hi' hj).symm)
    simp [hqs, QoI.rowA]
  · refine Arr2.ext_get (by simp [hlen, Arr2.col]) rfl fun i j hi hj => ?_
    have hi' : i < d := by simpa [hlen] using hi
    have hj' : j = 0 := by
      have : j < 1 := hj
      omega
    subst hj'
    refine (Arr2.get_mk' _ hi hj).trans (Eq.trans ?_ (Arr2.get_mk' _ hi' one_pos).symm)
    simp [hqs, QoI.offB]
    rfl

theorem upF_smul {d p : ℕ} {c : ℝ} (hc : c ≠ 0) (M : Matrix (Fin d) (Fin p) ℝ)
    (S : Matrix (Fin p) (Fin p) ℝ) (C : Matrix (Fin d) (Fin d) ℝ) :
    upF (c • M) S C = upF M S ((c ^ 2)⁻¹ • C) := by
  have hP : c • M * S * (c • M)ᵀ = (c ^ 2) • (M * S * Mᵀ) := by
    rw [transpose_smul, Matrix.smul_mul, Matrix.smul_mul, Matrix.mul_smul, smul_smul, sq]
  have hK : S * (c • M)ᵀ * mpinv ((c ^ 2) • (M * S * Mᵀ)) = c⁻¹ • (S * Mᵀ * mpinv (M * S * Mᵀ)) := by
    rw [mpinv_smul _ (pow_ne_zero 2 hc), transpose_smul, Matrix.mul_smul, Matrix.mul_smul,
      Matrix.smul_mul, smul_smul]
    congr 1
    field_simp
  unfold upF
  rw [hP, hK]
  congr 1
  set K := S * Mᵀ * mpinv (M * S * Mᵀ)
  have : (c ^ 2) • (M * S * Mᵀ) - C = (c ^ 2) • (M * S * Mᵀ - (c ^ 2)⁻¹ • C) := by
    rw [smul_sub, smul_smul, mul_inv_cancel₀ (pow_ne_zero 2 hc), one_smul]
  rw [this, transpose_smul, Matrix.smul_mul, Matrix.smul_mul, Matrix.mul_smul, Matrix.mul_smul,
    Matrix.smul_mul, smul_smul, smul_smul]
  rw [show c⁻¹ * c⁻¹ * c ^ 2 = 1 by field_simp, one_smul]

/-- One turn of the loop. -/
theorem wmeCovStep_ok {d p N m : ℕ} (hd : 0 < d) (hN : 0 < N) (hNm : N ≤ m) {c : ℝ} (hc : 1 / 10 ^ 14 < c)
    (M : Matrix (Fin d) (Fin p) ℝ) (y : Fin d → ℝ) (S : Matrix (Fin p) (Fin p) ℝ)
    (Z : Matrix (Fin d) (Fin m) ℝ) (z : List ℝ)
    (hz : ∀ (k : Fin d) (i : Fin m), z.getD (k * m + i) 0 = Z k i) :
    wmeCovStep (List.ofFn fun k => Arr2.row (M k)) (List.ofFn fun k => .vec m fun _ => y k) m c
        ⟨p, p, S⟩ z N =
      .ok (LGP.typed ((Real.sqrt N / c) • M) (fun k => -(Real.sqrt N / c) *
        ((∑ i : Fin N, (y k + Z k (Fin.castLE hNm i) * c)) / N)) 0 0 S 1 1,
        ⟨p, p, upF M S ((c ^ 2 / N) • 1)⟩) := by
  have hc0 : 0 < c := lt_trans (by norm_num) hc
  have hN' : (0 : ℝ) < N := by exact_mod_cast hN
  have hq : 0 < Real.sqrt N := Real.sqrt_pos.2 hN'
  have hsq : Real.sqrt N * Real.sqrt N = N := Real.mul_self_sqrt hN'.le
  have hD : addDrawn (List.ofFn fun k : Fin d => NArr.vec m fun _ => y k) m N c z =
      List.ofFn fun k : Fin d => ⟨N, fun i => y k + Z k (Fin.castLE hNm i) * c⟩ := by
    unfold addDrawn
    refine List.ext_getElem (by simp) fun k h1 h2 => ?_
    have hk : k < d := by simpa using h2
    rw [List.getElem_mapIdx, List.getElem_ofFn, List.getElem_ofFn]
    congr 1
    funext i
    have := hz ⟨k, hk⟩ (Fin.castLE hNm i)
    simp only [Fin.val_castLE] at this
    rw [this]
    simp [NArr.at1, lt_of_lt_of_le i.2 hNm]
  have hP : LWP.new (List.ofFn fun k => Arr2.row (M k)) (addDrawn (List.ofFn fun k : Fin d =>
      NArr.vec m fun _ => y k) m N c z) (.num c) none none (some ⟨p, p, S⟩) =
      .ok (LGP.typed ((Real.sqrt N / c) • M) (fun k => -(Real.sqrt N / c) *
        ((∑ i : Fin N, (y k + Z k (Fin.castLE hNm i) * c)) / N)) 0 0 S 1 1) := by
    unfold LWP.new
    rw [hD, setup_repeated hd hN hc, Py.ok_bind]
    have hb : (fun k : Fin d => -1 / Real.sqrt N * ∑ i : Fin N, (y k + Z k (Fin.castLE hNm i) * c) / c) =
        fun k => -(Real.sqrt N / c) * ((∑ i : Fin N, (y k + Z k (Fin.castLE hNm i) * c)) / N) := by
      funext k
      rw [← Finset.sum_div]
      have e : 1 / Real.sqrt N = Real.sqrt N / N := by
        rw [div_eq_div_iff hq.ne' hN'.ne']; linarith
      rw [neg_div, e]; ring
    rw [hb]
    simp only [LGP.new, LGP.typed, toRow2_mat, NArr.toCol, Arr2.ravelCol_col, Arr2.zeros_col, Arr2.eye]
    simp
    rfl
  unfold wmeCovStep
  rw [hP, Py.ok_bind]
  have hU : (LGP.typed ((Real.sqrt N / c) • M) (fun k => -(Real.sqrt N / c) *
        ((∑ i : Fin N, (y k + Z k (Fin.castLE hNm i) * c)) / N)) 0 0 S 1 1).updated_cov =
      .ok ⟨p, p, upF M S ((c ^ 2 / N) • 1)⟩ := by
    have h0 : Real.sqrt N / c ≠ 0 := (div_pos hq hc0).ne'
    have h1 : ((Real.sqrt N / c) ^ 2)⁻¹ = c ^ 2 / N := by
      rw [div_pow, Real.sq_sqrt hN'.le, inv_div]
    rw [← h1, ← upF_smul h0, ← updatedCovBody_typed]
    rfl
  rw [hU]
  rfl

/-- The facts about the covariance `upF M S (w • 1)` used below. -/
theorem upF_weight {d p : ℕ} (M : Matrix (Fin d) (Fin p) ℝ) (S : Matrix (Fin p) (Fin p) ℝ)
    (hS : S.PosDef) (w : ℝ) :
    (∀ x, M *ᵥ (S *ᵥ x) = 0 → upF M S (w • 1) *ᵥ x = S *ᵥ x) ∧
    (LinearIndependent ℝ M → M * upF M S (w • 1) * Mᵀ = w • 1) ∧
    (∀ w' : ℝ, w ≤ w' → ∀ x, x ⬝ᵥ (upF M S (w • 1) *ᵥ x) ≤ x ⬝ᵥ (upF M S (w' • 1) *ᵥ x)) := by
  have hSt : Sᵀ = S := by simpa using hS.isHermitian.eq
  set K := S * Mᵀ * mpinv (M * S * Mᵀ) with hK
  have hKt : Kᵀ = (mpinv (M * S * Mᵀ))ᵀ * (M * S) := by
    rw [hK, transpose_mul, transpose_mul, transpose_transpose, hSt]
  have hform : ∀ w : ℝ, upF M S (w • 1) = S - K * (M * S * Mᵀ) * Kᵀ + w • (K * Kᵀ) := by
    intro w
    unfold upF
    rw [← hK, Matrix.mul_sub, Matrix.sub_mul, Matrix.mul_smul, Matrix.mul_one, Matrix.smul_mul]
    abel
  refine ⟨fun x hx => ?_, fun hM => ?_, fun w' hw x => ?_⟩
  · have hz : Kᵀ *ᵥ x = 0 := by
      rw [hKt, ← mulVec_mulVec, ← mulVec_mulVec, hx, mulVec_zero]
    unfold upF
    rw [← hK, sub_mulVec, ← mulVec_mulVec, hz, mulVec_zero, sub_zero]
  · have hPD : (M * S * Mᵀ).PosDef := by
      have : Function.Injective (Mᵀ).mulVec := by
        intro a b hab
        have h0 : (a - b) ᵥ* M = 0 := by
          rw [← mulVec_transpose, mulVec_sub, sub_eq_zero]; exact hab
        have h1 := Fintype.linearIndependent_iff.1 hM (a - b) (by
          rw [← h0]; funext j; simp [vecMul, dotProduct, Finset.sum_apply])
        funext i
        exact sub_eq_zero.1 (h1 i)
      have h := hS.conjTranspose_mul_mul_same (B := Mᵀ) this
      simpa using h
    obtain ⟨U, -, h2, h3⟩ := C05_pushforward M S (w • 1) hPD.det_pos.ne'
      (LGP.typed M 0 0 0 S 1 1)
    rw [updated_cov_typed] at h2
    have : upF M S (w • 1) = U := Arr2.mk_inj.1 (Except.ok.inj h2)
    rw [this, h3]
  · rw [hform, hform, add_mulVec, add_mulVec, dotProduct_add, dotProduct_add, smul_mulVec,
      smul_mulVec, dotProduct_smul, dotProduct_smul, smul_eq_mul, smul_eq_mul]
    have : x ⬝ᵥ ((K * Kᵀ) *ᵥ x) = (Kᵀ *ᵥ x) ⬝ᵥ (Kᵀ *ᵥ x) := by
      rw [← mulVec_mulVec, dotProduct_mulVec, ← mulVec_transpose]
    have hnn : 0 ≤ x ⬝ᵥ ((K * Kᵀ) *ᵥ x) := by
      rw [this]
      exact Finset.sum_nonneg fun i _ => mul_self_nonneg _
    nlinarith

theorem foldl_max_ge (l : List ℕ) (a : ℕ) : a ≤ l.foldl max a ∧ ∀ x ∈ l, x ≤ l.foldl max a := by
  induction l generalizing a with
  | nil => simp
  | cons b l ih =>
    obtain ⟨h1, h2⟩ := ih (max a b)
    refine ⟨(le_max_left a b).trans h1, fun x hx => ?_⟩
    rcases List.mem_cons.1 hx with rfl | hx
    · exact (le_max_right a x).trans h1
    · exact h2 x hx

theorem listMax_ok {l : List ℕ} (h : l ≠ []) : ∃ m, listMax l = .ok m ∧ ∀ x ∈ l, x ≤ m := by
  cases l with
  | nil => exact absurd rfl h
  | cons a l =>
    obtain ⟨h1, h2⟩ := foldl_max_ge l a
    exact ⟨_, rfl, fun x hx => by rcases List.mem_cons.1 hx with rfl | hx <;> [exact h1; exact h2 x hx]⟩

theorem lastProblem_ok (l : List (LGP × Arr2)) (h : l ≠ []) :
    lastProblem l = .ok (l.getLast h).1 := by
  induction l with
  | nil => exact absurd rfl h
  | cons a l ih =>
    cases l with
    | nil => rfl
    | cons b l => rw [lastProblem, ih (by simp)]; simp

/-- **C105** (`run_wme_covariance`): for every generator whose uniform draws are not negative, with
`M` the drawn `dim_output × dim_input` operator and `S` the drawn initial covariance, the covariance
drawn for `N` data per quantity of interest has covariance `sigma² / N · I` in the observed
directions, is that of the initial one in the directions which are not observed, and decreases as `N`
grows. The problem returned is that of the last entry of `Ns`, with the weighted mean error map of
`N` noisy data. -/
theorem C105_covariances (G : Gen σ) (hU : ∀ s, 0 ≤ (G.unif s).1) (di dO : ℕ) (hd : 0 < dO) {c : ℝ}
    (hc : 1 / 10 ^ 14 < c) (Ns : List ℕ) (hNs : Ns ≠ []) (hpos : ∀ N ∈ Ns, 0 < N) (seed : Option ℕ)
    (s : σ) :
    ∃ (M : Matrix (Fin dO) (Fin di) ℝ) (v : Fin di → ℝ) (U : ℕ → Matrix (Fin di) (Fin di) ℝ)
      (P : LGP) (noise : Fin dO → ℕ → ℝ) (t s' : σ),
      runWmeCovariance G di dO c Ns seed s = (.ok (P, Ns.map fun N => ⟨di, di, U N⟩), s') ∧
      (∀ k j, ∃ (t : σ) (i : ℕ), M k j = nthDraw G.uniform t i) ∧
      (∀ i, 1 / 2 ≤ v i) ∧ Antitone v ∧
      (∀ N ∈ Ns, ∀ x, M *ᵥ (diagonal v *ᵥ x) = 0 → U N *ᵥ x = diagonal v *ᵥ x) ∧
      (LinearIndependent ℝ M → ∀ N ∈ Ns, M * U N * Mᵀ = (c ^ 2 / N) • 1) ∧
      (∀ N ∈ Ns, ∀ N' ∈ Ns, N ≤ N' → ∀ x, x ⬝ᵥ (U N' *ᵥ x) ≤ x ⬝ᵥ (U N *ᵥ x)) ∧
      (∀ k, ∃ K, ∀ i, noise k i = nthDraw G.normal t (K + i)) ∧
      ∀ lam, lam = drawVec G.normal (stateAfter G.uniform (startState G.normal seed s) di) 0 di →
        P = LGP.typed ((Real.sqrt (Ns.getLast hNs) / c) • M) (fun k =>
          -(Real.sqrt (Ns.getLast hNs) / c) *
            ((∑ i : Fin (Ns.getLast hNs), ((M *ᵥ lam) k + noise k i * c)) / (Ns.getLast hNs : ℕ)))
          0 0 (diagonal v) 1 1 := by
  obtain ⟨m, hm, hle⟩ := listMax_ok hNs
  set s0 := startState G.normal seed s with hs0
  set u := (List.range di).map (nthDraw G.uniform s0) with hu
  set s1 := stateAfter G.uniform s0 di with hs1
  set lam := drawVec G.normal s1 0 di with hlam
  set s2 := stateAfter G.normal s1 di with hs2
  obtain ⟨v, hv1, hv2, hv3, -⟩ := diagSorted_spec di u (by simp [hu]) (by
    intro x hx
    rw [hu, List.mem_map] at hx
    obtain ⟨i, -, rfl⟩ := hx
    exact hU _)
  -- the random problem
  set l : List WmeItem := List.replicate dO ⟨m, .num 0, fun _ => 0, Or.inl ⟨0, rfl, rfl⟩⟩ with hl
  have hll : l.length = dO := by simp [hl]
  obtain ⟨s3, h3⟩ := C104_problem_partial G (ref := .mat (Arr2.col lam)) (v := lam) (Or.inr rfl) (dist := "norm")
    (Or.inr ⟨by decide, rfl⟩)
    true l (by intro e; rw [e] at hll; simp at hll; omega) (a := .seq (List.replicate dO m))
    (Or.inl (by simp [hl])) (Or.inl rfl) s2
  rw [hll] at h3
  have hlstd : l.map (·.std) = List.replicate dO (.num 0) := by simp [hl]
  have hln : l.map (·.n) = List.replicate dO m := by simp [hl]
  rw [hlstd, hln] at h3
  set ss := wmeStates G.normal G.uniform (dO * di) (List.replicate dO m) s2 with hss
  have hssl : ss.length = dO := by rw [hss, length_wmeStates]; simp
  set M : Matrix (Fin dO) (Fin di) ℝ := .of fun k j => nthDraw G.uniform (ss[k]'(by rw [hssl]; exact k.2)) j
    with hM
  have hops : (ss.map fun s => (⟨wmeRows true dO, di, drawMat G.uniform s 0 (wmeRows true dO) di⟩ : Arr2)) =
      List.ofFn fun k => Arr2.row (M k) := by
    refine List.ext_getElem (by simp [hssl]) fun k h1 h2 => ?_
    rw [List.getElem_map, List.getElem_ofFn]
    refine Arr2.mk_inj.2 ?_
    ext i j
    have : (i : ℕ) = 0 := by have := i.2; unfold wmeRows at this; simp at this; omega
    simp [drawMat, hM, this]
    rfl
  have hdata : List.zipWith (fun s (x : WmeItem) =>
      wmeData G.normal G.uniform (dO * di) (wmeRows true dO) lam s x.n x.sd) ss l =
      List.ofFn fun k : Fin dO => NArr.vec m fun _ => (M *ᵥ lam) k := by
    refine List.ext_getElem (by simp [hssl, hll]) fun k h1 h2 => ?_
    rw [List.getElem_zipWith, List.getElem_ofFn]
    have hlk : l[k]'(by simpa [hssl, hll] using h2) = ⟨m, .num 0, fun _ => 0, Or.inl ⟨0, rfl, rfl⟩⟩ := by
      simp [hl]
    rw [hlk]
    unfold wmeData
    congr 1
    funext i
    simp [wmeRow, wmeRows, mulVec, dotProduct, hM]
  rw [hops, hdata] at h3
  -- the noise
  set z := (List.range (dO * m)).map (nthDraw G.normal s3) with hz
  set Z : Matrix (Fin dO) (Fin m) ℝ := .of fun k i => nthDraw G.normal s3 (k * m + i) with hZ
  have hzZ : ∀ (k : Fin dO) (i : Fin m), z.getD (k * m + i) 0 = Z k i := by
    intro k i
    have : (k : ℕ) * m + i < dO * m := by
      calc (k : ℕ) * m + i < k * m + m := by omega
        _ = (k + 1) * m := by ring
        _ ≤ dO * m := Nat.mul_le_mul_right _ k.2
    rw [hz, getD_draws _ _ this]
    rfl
  set S : Matrix (Fin di) (Fin di) ℝ := diagonal v with hS
  have hSpd : S.PosDef := by
    rw [hS]
    exact PosDef.diagonal fun i => lt_of_lt_of_le (by norm_num) (hv2 i)
  set U : ℕ → Matrix (Fin di) (Fin di) ℝ := fun N => upF M S ((c ^ 2 / N) • 1) with hUdef
  -- the loop
  set prob : ℕ → LGP := fun N => LGP.typed ((Real.sqrt N / c) • M) (fun k => -(Real.sqrt N / c) *
    ((∑ i : Fin N, ((M *ᵥ lam) k + nthDraw G.normal s3 (k * m + i) * c)) / N)) 0 0 S 1 1 with hprob
  have hstep : ∀ N ∈ Ns, wmeCovStep (List.ofFn fun k => Arr2.row (M k))
      (List.ofFn fun k : Fin dO => NArr.vec m fun _ => (M *ᵥ lam) k) m c ⟨di, di, S⟩ z N =
      .ok (prob N, ⟨di, di, U N⟩) := by
    intro N hN
    rw [wmeCovStep_ok hd (hpos N hN) (hle N hN) hc M (M *ᵥ lam) S Z z hzZ]
    rfl
  have hloop : ∀ L : List ℕ, (∀ N ∈ L, N ∈ Ns) →
      L.mapM (wmeCovStep (List.ofFn fun k => Arr2.row (M k))
      (List.ofFn fun k : Fin dO => NArr.vec m fun _ => (M *ᵥ lam) k) m c ⟨di, di, S⟩ z) =
      .ok (L.map fun N => (prob N, ⟨di, di, U N⟩)) := by
    intro L hL
    induction L with
    | nil => rfl
    | cons N L ih =>
      rw [List.mapM_cons, hstep N (hL N List.mem_cons_self), Py.ok_bind,
        ih fun N hN => hL N (List.mem_cons_of_mem _ hN), Py.ok_bind]
      rfl
  have hlast : lastProblem (Ns.map fun N => (prob N, (⟨di, di, U N⟩ : Arr2))) =
      .ok (prob (Ns.getLast hNs)) := by
    rw [lastProblem_ok _ (by simpa using hNs), List.getLast_map]
  have hU' := upF_weight M S hSpd
  refine ⟨M, v, U, prob (Ns.getLast hNs), fun k i => nthDraw G.normal s3 (k * m + i), s3,
    stateAfter G.normal s3 (dO * m), ?_, fun k j => ⟨_, _, rfl⟩, hv2, hv3, ?_, ?_, ?_,
    fun k => ⟨k * m, fun i => rfl⟩, fun lam' h => by rw [h]⟩
  · unfold runWmeCovariance
    rw [reseed_bind_run, take_bind_run, take_bind_run, hm, PyM.lift_ok_bind, colOf_draws, PyM.bind_run, h3]
    simp only
    rw [take_bind_run, ← hu, hv1, hloop Ns fun _ h => h, PyM.lift_ok_bind, hlast, PyM.lift_ok_bind]
    show (Except.ok _, _) = _
    rw [List.map_map]
    rfl
  · intro N _ x hx
    exact (hU' _).1 x hx
  · intro hi N _
    exact (hU' _).2.1 hi
  · intro N hN N' _ hNN x
    refine (hU' _).2.2 _ ?_ x
    have h1 : (0 : ℝ) < N := by exact_mod_cast hpos N hN
    have h2 : (N : ℝ) ≤ N' := by exact_mod_cast hNN
    exact div_le_div_of_nonneg_left (sq_nonneg c) h1 h2

/-- No numbers of data: `ValueError`. -/
theorem C105_empty (G : Gen σ) (di dO : ℕ) (c : ℝ) (seed : Option ℕ) (s : σ) :
    ∃ s', runWmeCovariance G di dO c [] seed s = (.error .valueError, s') := by
  unfold runWmeCovariance
  rw [reseed_bind_run, take_bind_run, take_bind_run]
  exact ⟨_, rfl⟩

/-- With a seed the result does not depend on the state of the generator. -/
theorem C105_seeded (G : Gen σ) (di dO : ℕ) (c : ℝ) (Ns : List ℕ) (k : ℕ) (s t : σ) :
    runWmeCovariance G di dO c Ns (some k) s = runWmeCovariance G di dO c Ns (some k) t := rfl

/-- The generator of the concrete case draws `1, 2, 3, …`: two inputs, one output. -/
example : ∃ P Us s', runWmeCovariance (σ := ℕ) ⟨⟨id, fun n => (n + 1, n + 1)⟩, fun n => (n + 1, n + 1)⟩ 2 1
    (1 / 10) [10, 100] (some 0) 5 = (.ok (P, Us), s') ∧ Us.length = 2 := by
  obtain ⟨_, _, _, P, _, _, s', h, -⟩ := C105_covariances (σ := ℕ)
    ⟨⟨id, fun n => (n + 1, n + 1)⟩, fun n => (n + 1, n + 1)⟩ (fun s => by positivity) 2 1 one_pos
    (c := 1 / 10) (by norm_num) [10, 100] (by simp) (by simp) (some 0) 5
  exact ⟨_, _, _, h, by simp⟩

/-! ### Further cases meeting the hypotheses -/

/-- C104: an integer deviation for one or for five observations. -/
example (G : Gen σ) (s : σ) : (∃ s', randomLinearWme G (.vec 2 ![1, 2]) (.int 3) 1 (.one 1) "normal" false s =
      (.error .valueError, s')) ∧
    ∃ s', randomLinearWme G (.vec 2 ![1, 2]) (.int 3) 1 (.one 5) "normal" false s = (.error .assertionError, s') :=
  ⟨C104_integer_raises G (ref := .vec 2 ![1, 2]) (.inl rfl) 3 1 "normal" false s,
    C104_integer_raises G (ref := .vec 2 ![1, 2]) (.inl rfl) 3 5 "normal" false s⟩

/-- C104: two quantities of three observations each. -/
example (G : Gen σ) (s : σ) : ∃ s', randomLinearWme G (.vec 2 ![1, 2]) (.seq [.num 1, .num 2]) 2 (.one 3) "normal"
    false s = (.error .valueError, s') :=
  C104_shape_raises G (ref := .vec 2 ![1, 2]) (.inl rfl) "normal" ⟨3, .num 1, fun _ => 1, .inl ⟨_, rfl, rfl⟩⟩
    [⟨3, .num 2, fun _ => 2, .inl ⟨_, rfl, rfl⟩⟩] (.inr ⟨3, rfl, rfl⟩) (by simp) (by simp) (by simp) s

end Verif
