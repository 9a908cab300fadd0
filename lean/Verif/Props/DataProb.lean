import Verif.Model.Funs
import Verif.Props.STLoad2
import Verif.Props.Density

/-!
# `data_prob`: C58
-/

namespace Verif

open ND SpecST STP Funs

/-- C58 as stated: with the default `sample_dist`, `data_prob` returns a solved problem. -/
def C58_claim : Prop :=
  ∀ (ext : Decomp) (env : Env) (lam qoi tv meas sd dom ref times sensors : Val) (method : String)
    (d : Dist), ∃ Q, dataProb ext env lam qoi tv meas sd "uniform" dom ref times sensors method d
      = .ok Q ∧ Q.up.isSome

/-- What the code does: any `sample_dist` other than `"u"` and `"n"`, in particular the default
`"uniform"`, is refused, whatever the other arguments are. -/
theorem C58_always_raises (ext : Decomp) (env : Env)
    (lam qoi tv meas sd dom ref times sensors : Val) (sample_dist method : String)
    (d : Dist) (hu : sample_dist ≠ "u") (hn : sample_dist ≠ "n") :
    dataProb ext env lam qoi tv meas sd sample_dist dom ref times sensors method d =
      .error .valueError := by
  unfold dataProb
  dsimp only
  rw [C57_defaults, loadSpec_defaults]
  have h : ([("lam", lam), ("data", qoi), ("true_vals", tv), ("measurements", meas),
      ("std_dev", sd), ("sample_dist", Val.str sample_dist), ("domain", dom), ("lam_ref", ref),
      ("times", times), ("sensors", sensors)] : DataSet).lookup "sample_dist" =
      some (.str sample_dist) := rfl
  rw [assignWanted_some h]
  have e : setAttr "sample_dist" (.str sample_dist) {} = (.error .valueError, {}) := by
    show setSampleDist sample_dist {} = _
    unfold setSampleDist
    rw [raiseIf_true ⟨hu, hn⟩]
    rfl
  rw [bind_of_error e]
  rfl

theorem C58_claim_refuted : ¬ C58_claim := by
  intro h
  obtain ⟨Q, hQ, -⟩ := h ⟨fun _ _ => .error .valueError, fun _ => .error .valueError⟩
    ⟨fun _ _ _ => .error .valueError⟩ .none .none .none .none .none .none .none .none .none "wme"
    stdNormal
  rw [C58_always_raises _ _ _ _ _ _ _ _ _ _ _ _ _ _ (by decide) (by decide)] at hQ
  cases hQ

/-! ## Complete arguments -/

theorem checkRef_ok (D : ND) {p : ℕ} (hD : D.shape = [p, 2]) : ∀ (i : ℕ) (l : List ℝ),
    i + l.length ≤ p →
    (∀ j < l.length, D.get [i + j, 0] ≤ l.getD j 0 ∧ l.getD j 0 ≤ D.get [i + j, 1]) →
    checkRef D i l = .ok ()
  | _, [], _, _ => rfl
  | i, x :: xs, h, hx => by
    have h0 := hx 0 (by simp)
    simp only [Nat.add_zero, List.getD_cons_zero] at h0
    unfold checkRef
    rw [raiseIf_false (by rw [hD]; simp at h ⊢; omega),
      raiseIf_false (by push Not; exact h0)]
    exact checkRef_ok D hD (i + 1) xs (by simp at h ⊢; omega) fun j hj => by
      have := hx (j + 1) (by simpa using hj)
      simpa [Nat.add_assoc, Nat.add_comm 1 j] using this

/-- A table with one row `[lo, hi]` per parameter from a flat list of bounds. -/
def flatGet (dom : ND) (j k : ℕ) : ℝ := dom.data.getD (2 * j + k) 0

/-- **C75**, every entry given: loading into a fresh object a data set with all ten entries (a sample
distribution `"u"` or `"n"`, reference parameters inside the domain, `S·T` true values and measurements)
stores every one of them: the distribution, the domain as a `(p, 2)` table, sensors, times, the reference
parameters as a 1-D array, the deviation, true values and measurements as columns, samples and data. -/
theorem C75_load_complete (ds : DataSet) {n p S T : ℕ} {dom sensors times ref tv meas lam data : ND}
    {sd : ℝ} {dist : String}
    (h1 : ds.lookup "sample_dist" = some (.str dist)) (h2 : ds.lookup "domain" = some (.arr dom))
    (h3 : ds.lookup "sensors" = some (.arr sensors)) (h4 : ds.lookup "times" = some (.arr times))
    (h5 : ds.lookup "lam_ref" = some (.arr ref)) (h6 : ds.lookup "std_dev" = some (.num sd))
    (h7 : ds.lookup "true_vals" = some (.arr tv)) (h8 : ds.lookup "measurements" = some (.arr meas))
    (h9 : ds.lookup "lam" = some (.arr lam)) (h10 : ds.lookup "data" = some (.arr data))
    (hdist : dist = "u" ∨ dist = "n")
    (hdom : dom.data.length = 2 * p) (hS : HasLen sensors S) (hT : HasLen times T)
    (href : ref.data.length ≤ p)
    (hin : ∀ j < ref.data.length, flatGet dom j 0 ≤ ref.data.getD j 0 ∧
      ref.data.getD j 0 ≤ flatGet dom j 1)
    (htv : tv.data.length = S * T)
    (hmeas : meas.data.length = S * T) (hlam : lam.shape = [n, p])
    (hdata : data.shape = [n, S * T]) :
    ∃ P D M, loadDs ds (.str "lam") (.str "data") [] {} = (.ok (), P) ∧
      Ready P n p S T lam data sensors times (some M) ∧ M.data = meas.data ∧
      P.stdDev = some sd ∧ P.domain = some D ∧ D.shape = [p, 2] ∧ D.data = dom.data ∧
      P.sampleDist = some dist ∧
      (∃ R, P.lamRef = some R ∧ R.shape = [ref.data.length] ∧ R.data = ref.data) ∧
      ∃ TV, P.trueVals = some TV ∧ TV.shape = [S * T, 1] ∧ TV.data = tv.data := by
  rw [C57_defaults, loadSpec_defaults]
  rw [assignWanted_some h1, assignWanted_some h2, assignWanted_some h3, assignWanted_some h4,
    assignWanted_some h5, assignWanted_some h6, assignWanted_some h7, assignWanted_some h8,
    assignWanted_some h9, assignWanted_some h10]
  obtain ⟨D, hD, hDs, hDd⟩ : ∃ D, dom.reshapeCols 2 = .ok D ∧ D.shape = [p, 2] ∧
      D.data = dom.data := by
    refine ⟨⟨[p, 2], dom.data, by simp [hdom, mul_comm]⟩, ?_, rfl, rfl⟩
    unfold reshapeCols
    have : dom.data.length / 2 = p := by omega
    rw [if_neg two_ne_zero, this, reshape_ok (by rw [← dom.size_eq, hdom]; simp [mul_comm])]
  have e1 : setAttr "sample_dist" (.str dist) {} = (.ok (), { sampleDist := some dist }) := by
    show setSampleDist dist {} = _
    unfold setSampleDist
    rw [raiseIf_false (by rcases hdist with rfl | rfl <;> simp)]
    rfl
  rw [bind_of_ok e1]
  have e2 : setAttr "domain" (.arr dom) { sampleDist := some dist } =
      (.ok (), { sampleDist := some dist, domain := some D }) := by
    show setDomain dom _ = _
    unfold setDomain
    rw [hD, PyM.lift_ok_bind, PyM.get_bind_run]
    rfl
  rw [bind_of_ok e2]
  rw [bind_of_ok (x := setAttr "sensors" (.arr sensors)) (a := ()) rfl]
  rw [bind_of_ok (x := setAttr "times" (.arr times)) (a := ()) rfl]
  dsimp only
  have hget : ∀ j k, k < 2 → j < p → D.get [j, k] = flatGet dom j k := by
    intro j k hk hj
    simp only [ND.get, flatGet, hDs, hDd, offset]
    congr 1
    simp
    ring
  have hck : checkRef D 0 ref.data = .ok () := by
    refine checkRef_ok D hDs 0 _ (by omega) fun j hj => ?_
    rw [Nat.zero_add, hget j 0 (by omega) (by omega), hget j 1 (by omega) (by omega)]
    exact hin j hj
  have e5 : setAttr "lam_ref" (.arr ref)
      { sampleDist := some dist
        domain := some D
        sensors := some sensors
        times := some times } = (.ok (),
      { sampleDist := some dist
        domain := some D
        sensors := some sensors
        times := some times
        lamRef := some ref.ravel }) := by
    show setLamRef ref _ = _
    unfold setLamRef
    rw [PyM.get_bind_run]
    dsimp only [need]
    rw [PyM.lift_ok_bind, hck, PyM.lift_ok_bind]
    rfl
  rw [bind_of_ok e5, bind_of_ok (x := setAttr "std_dev" (.num sd)) (a := ()) rfl]
  dsimp only
  obtain ⟨TV, hTV, hTVs, hTVd⟩ : ∃ TV, setAttr "true_vals" (.arr tv)
      { sampleDist := some dist
        domain := some D
        sensors := some sensors
        times := some times
        lamRef := some ref.ravel
        stdDev := some sd } = (.ok (),
      { sampleDist := some dist
        domain := some D
        sensors := some sensors
        times := some times
        lamRef := some ref.ravel
        stdDev := some sd
        trueVals := some TV }) ∧ TV.shape = [S * T, 1] ∧ TV.data = tv.data := by
    refine ⟨⟨[S * T, 1], tv.data, by simp [htv]⟩, ?_, rfl, rfl⟩
    show setTrueVals tv _ = _
    unfold setTrueVals
    have hk : STP.nData
        { sampleDist := some dist
          domain := some D
          sensors := some sensors
          times := some times
          lamRef := some ref.ravel
          stdDev := some sd } = .ok (S * T) := by
      unfold STP.nData STP.nSensors STP.nTs
      simp only [need, Py.ok_bind, hS.dim, hT.dim]
      rfl
    rw [PyM.get_bind_run, hk, PyM.lift_ok_bind, reshape_ok (by rw [← tv.size_eq, htv]; simp)]
    rfl
  rw [bind_of_ok hTV]
  obtain ⟨M, hM, hMs, hMd⟩ := setMeasurements_ok
    (P := { sampleDist := some dist
            domain := some D
            sensors := some sensors
            times := some times
            lamRef := some ref.ravel
            stdDev := some sd
            trueVals := some TV }) rfl hS rfl hT hmeas
  rw [bind_of_ok (x := setAttr "measurements" (.arr meas)) (a := ()) hM]
  have hl : asColumn lam = lam := asColumn_of_ne fun k hk => by rw [hlam] at hk; cases hk
  have e9 : setAttr "lam" (.arr lam)
      { sampleDist := some dist
        domain := some D
        sensors := some sensors
        times := some times
        lamRef := some ref.ravel
        stdDev := some sd
        trueVals := some TV
        measurements := some M } = (.ok (),
      { sampleDist := some dist
        domain := some D
        sensors := some sensors
        times := some times
        lamRef := some ref.ravel
        stdDev := some sd
        trueVals := some TV
        measurements := some M
        lam := some lam }) := by
    show setLam lam _ = _
    unfold setLam
    rw [hl, PyM.get_bind_run]
    have d1 : lam.dim 1 = .ok p := by simp [ND.dim, hlam]
    have d2 : D.dim 0 = .ok p := by simp [ND.dim, hDs]
    simp only [lamDomain]
    rw [d1, d2]
    simp only [PyM.lift_ok_bind]
    rw [raiseIf_false (by simp)]
    rfl
  rw [bind_of_ok e9]
  have ht : dataTable data = .ok data := by
    unfold dataTable
    rw [hdata]
  have hd1 : data.dim 1 = .ok (S * T) := by simp [ND.dim, hdata]
  have hly : layout (S * T) (some sensors) (some times) = .ok (sensors, times) := by
    simp only [layout, Py.pure_eq, Py.ok_bind, hT.dim, hS.dim]
    rw [raiseIf_false (by simp [mul_comm])]
    rfl
  have e10 : setAttr "data" (.arr data)
      { sampleDist := some dist
        domain := some D
        sensors := some sensors
        times := some times
        lamRef := some ref.ravel
        stdDev := some sd
        trueVals := some TV
        measurements := some M
        lam := some lam } = (.ok (),
      { sampleDist := some dist
        domain := some D
        sensors := some sensors
        times := some times
        lamRef := some ref.ravel
        stdDev := some sd
        trueVals := some TV
        measurements := some M
        lam := some lam
        data := some data }) := by
    show setData data _ = _
    unfold setData
    rw [ht, PyM.lift_ok_bind, STP.dataCols_ok hd1, PyM.lift_ok_bind, PyM.get_bind_run, hly, PyM.lift_ok_bind]
    rfl
  refine ⟨_, _, M, e10, ⟨rfl, hlam, rfl, hdata, rfl, hS, rfl, hT, rfl, ?_⟩, hMd, rfl, rfl, hDs, hDd, rfl,
    ⟨ref.ravel, rfl, rfl, rfl⟩, TV, rfl, hTVs, hTVd⟩
  intro m hm
  cases hm
  exact hMs

/-- The hypotheses of C75 on a data set with two samples of one parameter, two sensors and one time. -/
example := C75_load_complete
  [("lam", .arr ⟨[2, 1], [0, 1], rfl⟩), ("data", .arr ⟨[2, 2], [0, 1, 2, 3], rfl⟩),
   ("true_vals", .arr ⟨[2], [1, 2], rfl⟩), ("measurements", .arr ⟨[2], [3, 4], rfl⟩), ("std_dev", .num 2),
   ("sample_dist", .str "n"), ("domain", .arr ⟨[1, 2], [0, 1], rfl⟩), ("lam_ref", .arr ⟨[1], [1], rfl⟩),
   ("times", .arr ⟨[1], [0], rfl⟩), ("sensors", .arr ⟨[2], [5, 6], rfl⟩)]
  rfl rfl rfl rfl rfl rfl rfl rfl rfl rfl (n := 2) (p := 1) (S := 2) (T := 1) (.inr rfl) rfl rfl rfl le_rfl
  (by
    intro j hj
    obtain rfl : j = 0 := by simpa using hj
    simp [flatGet]) rfl rfl rfl rfl

/-- The last steps of `data_prob` on a fresh problem. -/
theorem solve_run (env : Env) (Q : DP) (d o : Dist) {n : ℕ} (hn : 0 < n) (hX : Q.X.r = n)
    {a w b c : Fin n → F} (hw : Q.weights = List.ofFn w)
    (ha : densAt d Q.X = .ok (List.ofFn a)) (hb : densAt o Q.y = .ok (List.ofFn b))
    (hc : env.kde Q.y 0 Q.weights = .ok (List.ofFn c)) :
    ∃ x, (do
      DP.setInitial (some d)
      DP.setObserved (some o)
      DP.mudPoint env : PyM DP (List ℝ)) Q = (.ok x, { Q with
        init := some (List.ofFn a)
        ob := some (List.ofFn b)
        pr := some (List.ofFn c)
        r := some (List.ofFn fun k => b k / c k)
        up := some (List.ofFn fun k => a k * w k * (b k / c k)) }) := by
  have e1 : DP.setInitial (some d) Q = (.ok (),
      { Q with init := some (List.ofFn a), up := none, pr := none }) := by
    unfold DP.setInitial
    rw [PyM.get_bind_run, Option.getD_some]
    obtain ⟨out, h1, h2⟩ := Py.bind_eq_ok.1 ha
    rw [h1, PyM.lift_ok_bind, h2, PyM.lift_ok_bind]
    rfl
  rw [bind_of_ok e1]
  have e2 : DP.setObserved (some o) { Q with init := some (List.ofFn a), up := none, pr := none } =
      (.ok (), { Q with
        init := some (List.ofFn a)
        up := none
        pr := none
        ob := some (List.ofFn b) }) := by
    unfold DP.setObserved
    rw [PyM.get_bind_run, Option.getD_some]
    obtain ⟨out, h1, h2⟩ := Py.bind_eq_ok.1 hb
    dsimp only
    rw [h1, PyM.lift_ok_bind, h2, PyM.lift_ok_bind]
    rfl
  rw [bind_of_ok e2]
  have e3 : DP.fit env none 0 none { Q with
        init := some (List.ofFn a)
        up := none
        pr := none
        ob := some (List.ofFn b) } = (.ok (), { Q with
        init := some (List.ofFn a)
        ob := some (List.ofFn b)
        pr := some (List.ofFn c)
        r := some (List.ofFn fun k => b k / c k)
        up := some (List.ofFn fun k => a k * w k * (b k / c k)) }) := by
    unfold DP.fit
    simp only [PyM.get_bind_run, Option.isNone_some, PyM.when_false, PyM.pure_bind']
    have e4 : DP.setPredicted env none 0 none { Q with
        init := some (List.ofFn a)
        up := none
        pr := none
        ob := some (List.ofFn b) } = (.ok (), { Q with
        init := some (List.ofFn a)
        up := none
        pr := some (List.ofFn c)
        ob := some (List.ofFn b) }) := by
      unfold DP.setPredicted DP.setWeightsIf DP.predVals
      simp only [PyM.pure_bind', PyM.get_bind_run, hc, PyM.lift_ok_bind]
      rfl
    simp only [Option.isNone_none, PyM.when_true]
    rw [bind_of_ok e4]
    simp only [PyM.get_bind_run, Option.isNone_some, PyM.when_false, PyM.pure_bind', DP.theAttr,
      PyM.lift_ok_bind, hw, bzip1_ofFn, PyM.modify_bind_run, PyM.modify_run]
  obtain ⟨m, hm⟩ : ∃ m : Fin n, npArgmax (List.ofFn fun k => a k * w k * (b k / c k)) = .ok m.1 := by
    obtain ⟨m, hm, h, -⟩ := npArgmax_spec (l := List.ofFn fun k => a k * w k * (b k / c k))
      (by intro h; rw [List.ofFn_eq_nil_iff] at h; omega)
    exact ⟨⟨m, by simpa using h⟩, hm⟩
  unfold DP.mudPoint
  rw [PyM.get_bind_run]
  simp only [Option.isNone_none, PyM.when_true]
  rw [bind_of_ok e3]
  simp only [PyM.get_bind_run, DP.theAttr, PyM.lift_ok_bind, hm, PyM.lift_run]
  unfold Arr2.rowAt
  rw [dif_pos (by rw [hX]; exact m.2)]
  exact ⟨_, rfl⟩

/-- The quantity of interest of sample `i` computed by `data_prob`: the sum over all observations of
`(measurement - datum) / std_dev`, divided by the square root of the number of samples (see C54). -/
noncomputable def dataProbQoi (n k : ℕ) (data meas : ND) (sd : ℝ) (i : ℕ) : ℝ :=
  (∑ j : Fin k, (meas.data.getD j 0 - data.get [i, j]) / sd) / Real.sqrt n

/-- **C58, the part that holds.** With `sample_dist` `"u"` or `"n"` and all arguments given, of
consistent sizes, the reference parameter inside the domain and `std_dev ≠ 0`, `data_prob(...,
method="wme")` returns the solved density problem: samples `lam`, quantity of interest
`dataProbQoi`, the given initial distribution, standard normal observed distribution, kernel density
estimate as predicted distribution, and the updated density `initial * observed / predicted` of each
sample. -/
theorem C58_complete_partial (ext : Decomp) (env : Env) {n p S T : ℕ}
    {dom sensors times ref tv meas lam data : ND} {sd : ℝ} {dist : String} (d : Dist)
    (hdist : dist = "u" ∨ dist = "n")
    (hn : 0 < n) (hST : S * T ≠ 0)
    (hdom : dom.data.length = 2 * p) (hS : HasLen sensors S) (hT : HasLen times T)
    (href : ref.data.length ≤ p)
    (hin : ∀ j < ref.data.length, flatGet dom j 0 ≤ ref.data.getD j 0 ∧
      ref.data.getD j 0 ≤ flatGet dom j 1)
    (htv : tv.data.length = S * T) (hmeas : meas.data.length = S * T) (hlam : lam.shape = [n, p])
    (hdata : data.shape = [n, S * T]) (hsd : sd ≠ 0) {a c : Fin n → F}
    (ha : densAt d ⟨n, p, .of fun i j => lam.get [i, j]⟩ = .ok (List.ofFn a))
    (hc : env.kde (Arr2.col fun i : Fin n => dataProbQoi n (S * T) data meas sd i) 0
      (List.replicate n (.fin 1)) = .ok (List.ofFn c)) :
    let b : Fin n → F := fun i => .fin (stdNormalPdf (dataProbQoi n (S * T) data meas sd i))
    dataProb ext env (.arr lam) (.arr data) (.arr tv) (.arr meas) (.num sd) dist (.arr dom)
      (.arr ref) (.arr times) (.arr sensors) "wme" d = .ok
      { X := ⟨n, p, .of fun i j => lam.get [i, j]⟩
        y := Arr2.col fun i : Fin n => dataProbQoi n (S * T) data meas sd i
        domain := ⟨p, 2, .of fun i j => flatGet dom i j⟩
        domInt := false
        weights := List.replicate n (.fin 1)
        init := some (List.ofFn a)
        ob := some (List.ofFn b)
        pr := some (List.ofFn c)
        r := some (List.ofFn fun k => b k / c k)
        up := some (List.ofFn fun k => a k * .fin 1 * (b k / c k)) } := by
  intro b
  obtain ⟨P, D, M, h1, h2, h3, h4, h5, h6, h7, -⟩ := C75_load_complete
    [("lam", .arr lam), ("data", .arr data), ("true_vals", .arr tv), ("measurements", .arr meas),
      ("std_dev", .num sd), ("sample_dist", Val.str dist), ("domain", .arr dom),
      ("lam_ref", .arr ref), ("times", .arr times), ("sensors", .arr sensors)]
    rfl rfl rfl rfl rfl rfl rfl rfl rfl rfl hdist hdom hS hT href hin htv hmeas hlam hdata
  unfold dataProb
  dsimp only
  rw [h1]
  dsimp only
  rw [Py.ok_bind, mudProblem_whole ext h2 hST h4 hsd]
  simp only [weighResiduals, Py.ok_bind, qoiOf, if_true, h5, Option.map_some, resTab]
  rw [dpNew_eq hlam h6, Py.ok_bind]
  have hM : ∀ j, M.get [j, 0] = meas.data.getD j 0 := by
    intro j
    simp only [ND.get, h2.meas_shape M rfl, h3, offset]
    simp
  have hy : (NArr.vec n fun i => (∑ j, (Matrix.of fun (i : Fin n) (j : Fin (S * T)) =>
      (M.get [(j : ℕ), 0] - data.get [(i : ℕ), (j : ℕ)]) / sd) i j) / Real.sqrt n).shapeCol =
      Arr2.col fun i : Fin n => dataProbQoi n (S * T) data meas sd i := by
    show Arr2.col _ = _
    congr 1
    funext i
    simp only [Matrix.of_apply, dataProbQoi, hM]
  have hDg : (Matrix.of fun (i : Fin p) (j : Fin 2) => D.get [(i : ℕ), (j : ℕ)]) =
      .of fun i j => flatGet dom i j := by
    ext i j
    simp only [Matrix.of_apply, ND.get, flatGet, h6, h7, offset]
    congr 1
    simp
    ring
  set Q : DP :=
    { X := ⟨n, p, .of fun i j => lam.get [i, j]⟩
      y := Arr2.col fun i : Fin n => dataProbQoi n (S * T) data meas sd i
      domain := ⟨p, 2, .of fun i j => flatGet dom i j⟩
      domInt := false
      weights := List.replicate n (.fin 1) } with hQ
  have hQ' : ({ X := ⟨n, p, .of fun i j => lam.get [i, j]⟩
                y := (NArr.vec n fun i => (∑ j, (Matrix.of fun (i : Fin n) (j : Fin (S * T)) =>
                  (M.get [(j : ℕ), 0] - data.get [(i : ℕ), (j : ℕ)]) / sd) i j) /
                    Real.sqrt n).shapeCol
                domain := ⟨p, 2, .of fun i j => D.get [i, j]⟩
                domInt := false
                weights := List.replicate n (.fin 1) } : DP) = Q := by
    rw [hQ, ← hy, ← hDg]
  obtain ⟨x, hx⟩ := solve_run env Q d stdNormal hn rfl (w := fun _ => .fin 1) (b := b)
    (by rw [hQ]; simp [List.ofFn_const]) ha
    (by
      show Except.ok (List.map List.prod (List.ofFn _)) = _
      rw [List.map_ofFn]
      congr 2
      funext i
      show List.prod (List.ofFn fun j : Fin 1 => F.fin (stdNormalPdf
        (dataProbQoi n (S * T) data meas sd i))) = _
      simp [b]) hc
  refine Eq.trans ?_ (congrArg (fun r : Py (List ℝ) × DP => r.1 >>= fun _ => Except.ok r.2) hx)
  rw [← hQ']
  rfl

/-- The hypotheses are met: two samples of one parameter, one sensor, two times; an estimate that
puts density 1 everywhere stands in for the kernel density estimate. -/
example (ext : Decomp) : ∃ Q, dataProb ext ⟨fun y _ _ => .ok (List.ofFn fun _ : Fin y.r => .fin 1)⟩
    (.arr (ndOfNats [2, 1] [1, 2] rfl)) (.arr (ndOfNats [2, 2] [1, 1, 4, 4] rfl))
    (.arr (ndOfNats [2] [1, 1] rfl)) (.arr (ndOfNats [2] [1, 2] rfl)) (.num 1) "u"
    (.arr (ndOfNats [2] [0, 3] rfl)) (.arr (ndOfNats [1] [1] rfl))
    (.arr (ndOfNats [2] [0, 1] rfl)) (.arr (ndOfNats [1, 2] [0, 0] rfl)) "wme" stdNormal = .ok Q ∧
    Q.up.isSome := by
  have hd : ∀ M : Matrix (Fin 2) (Fin 1) ℝ, densAt stdNormal ⟨2, 1, M⟩ =
      .ok (List.ofFn fun i : Fin 2 => (List.ofFn fun j : Fin 1 => F.fin (stdNormalPdf (M i j))).prod) := by
    intro M
    show Except.ok (List.map List.prod (List.ofFn _)) = _
    rw [List.map_ofFn]
    rfl
  have := C58_complete_partial ext
    ⟨fun y _ _ => .ok (List.ofFn fun _ : Fin y.r => .fin 1)⟩ (n := 2) (p := 1) (S := 1) (T := 2)
    (lam := ndOfNats [2, 1] [1, 2] rfl) (data := ndOfNats [2, 2] [1, 1, 4, 4] rfl)
    (tv := ndOfNats [2] [1, 1] rfl) (meas := ndOfNats [2] [1, 2] rfl) (sd := 1)
    (dom := ndOfNats [2] [0, 3] rfl) (ref := ndOfNats [1] [1] rfl)
    (times := ndOfNats [2] [0, 1] rfl) (sensors := ndOfNats [1, 2] [0, 0] rfl)
    stdNormal (Or.inl rfl) (by norm_num) (by norm_num) (by simp [ndOfNats]) rfl rfl
    (by simp [ndOfNats])
    (by
      intro j hj
      have : j = 0 := by simpa [ndOfNats] using hj
      subst this
      simp [flatGet, ndOfNats])
    rfl rfl rfl rfl one_ne_zero (hd _) rfl
  exact ⟨_, this, rfl⟩

end Verif
