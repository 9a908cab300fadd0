import Verif.Model.Poisson
import Verif.Props.STLoad2
import Verif.Props.Util

/-!
# C110: loading the Poisson and ADCIRC data sets
-/

namespace Verif

open ND SpecST STP Poisson

variable {σ : Type} {G : Rng σ}

theorem getSet_own {ds : DataSet} {f : String} {x : Val} (h : ds.lookup f = some x) :
    getSetVal ds f (.str f) = setAttr f x := by
  rw [getSetVal_handled (v := .str f) rfl, assignWanted_some h]

theorem getSet_skip {ds : DataSet} {f k : String} (h : ds.lookup f = none) :
    getSetVal ds f (.str k) = pure () := C57_renamed_skipped h

theorem getSet_none {ds : DataSet} {f : String} (h : ds.lookup f = none) :
    getSetVal ds f .none = pure () := by
  unfold getSetVal; rw [h]; rfl

theorem getSet_num {ds : DataSet} {f : String} (h : ds.lookup f = none) (x : ℝ) :
    getSetVal ds f (.num x) = setAttr f (.num x) := by
  unfold getSetVal; rw [h]; rfl

theorem getSet_arr {ds : DataSet} {f : String} (h : ds.lookup f = none) (a : ND) :
    getSetVal ds f (.arr a) = setAttr f (.arr a) := by
  unfold getSetVal; rw [h]; rfl

theorem loadDs_poisson (ds : DataSet) : loadDs ds (.str "lam") (.str "data")
    [("true_vals", .str "true_vals"), ("measurements", .none), ("std_dev", .num 0.05),
     ("sample_dist", .str "uniform"), ("domain", .str "domain"), ("lam_ref", .none),
     ("sensors", .str "sensors"), ("times", .arr STP.zero1)] = (do
      setAll ds [("sample_dist", .str "uniform"), ("domain", .str "domain"), ("sensors", .str "sensors"),
        ("times", .arr STP.zero1), ("lam_ref", .none), ("std_dev", .num 0.05), ("true_vals", .str "true_vals"),
        ("measurements", .none)]
      getSetVal ds "lam" (.str "lam")
      getSetVal ds "data" (.str "data")) := by
  rfl

theorem loadDs_adcirc (ds : DataSet) (sensors : ND) : loadDs ds (.str "lam") (.str "data")
    [("true_vals", .str "true_vals"), ("measurements", .none), ("std_dev", .num 0.05),
     ("sample_dist", .str "uniform"), ("domain", .str "domain"), ("lam_ref", .str "lam_ref"),
     ("sensors", .arr sensors), ("times", .str "times")] = (do
      setAll ds [("sample_dist", .str "uniform"), ("domain", .str "domain"), ("sensors", .arr sensors),
        ("times", .str "times"), ("lam_ref", .str "lam_ref"), ("std_dev", .num 0.05), ("true_vals", .str "true_vals"),
        ("measurements", .none)]
      getSetVal ds "lam" (.str "lam")
      getSetVal ds "data" (.str "data")) := by
  rfl

/-- The assignments from the domain on, one after the other. -/
theorem assign_chain {n p S T : ℕ} {dom sensors times tv lam data : ND} {ref : Option ND}
    (hdom : dom.data.length = 2 * p) (hS : HasLen sensors S) (hT : HasLen times T)
    (htv : tv.data.length = S * T) (hlam : lam.shape = [n, p]) (hdata : data.shape = [n, S * T])
    (href : ∀ r ∈ ref, ∀ j (hj : j < r.data.length), j < p ∧ dom.data.getD (2 * j) 0 ≤ r.data[j] ∧
      r.data[j] ≤ dom.data.getD (2 * j + 1) 0)
    {setRef : PyM STP Unit} (hsetRef : setRef = match ref with
      | some r => setAttr "lam_ref" (.arr r)
      | none => pure ()) :
    ∃ D V, (do
        setAttr "domain" (.arr dom)
        setAttr "sensors" (.arr sensors)
        setAttr "times" (.arr times)
        setRef
        setAttr "std_dev" (.num 0.05)
        setAttr "true_vals" (.arr tv)
        setAttr "lam" (.arr lam)
        setAttr "data" (.arr data) : PyM STP Unit) {} = (.ok (),
          { domain := some D
            sensors := some sensors
            times := some times
            lamRef := ref.map ND.ravel
            stdDev := some 0.05
            trueVals := some V
            lam := some lam
            sampleDist := some "u"
            data := some data }) ∧
      D.shape = [p, 2] ∧ D.data = dom.data ∧ V.shape = [S * T, 1] ∧ V.data = tv.data := by
  obtain ⟨D, hD, hDs, hDd⟩ : ∃ D, dom.reshapeCols 2 = .ok D ∧ D.shape = [p, 2] ∧
      D.data = dom.data := by
    refine ⟨⟨[p, 2], dom.data, by simp [hdom, mul_comm]⟩, ?_, rfl, rfl⟩
    unfold reshapeCols
    have : dom.data.length / 2 = p := by omega
    rw [if_neg two_ne_zero, this, reshape_ok (by rw [← dom.size_eq, hdom]; simp [mul_comm])]
  have e2 : setAttr "domain" (.arr dom) {} = (.ok (), { domain := some D }) := by
    show setDomain dom {} = _
    unfold setDomain
    rw [hD, PyM.lift_ok_bind, PyM.get_bind_run]
    rfl
  have e3 : setRef { domain := some D, sensors := some sensors, times := some times } = (.ok (),
      { domain := some D
        sensors := some sensors
        times := some times
        lamRef := ref.map ND.ravel }) := by
    subst hsetRef
    cases ref with
    | none => rfl
    | some r =>
      show setLamRef r _ = _
      rcases C52_lam_ref { domain := some D, sensors := some sensors, times := some times } r with h | h
      · exact h.2
      · refine absurd ⟨D, rfl, fun j hj => ?_⟩ h.1
        obtain ⟨h1, h2, h3⟩ := href r rfl j hj
        refine ⟨by simpa [hDs] using h1, ?_, ?_⟩
        · rw [ND.get, hDs, hDd]
          simpa [offset, mul_comm] using h2
        · rw [ND.get, hDs, hDd]
          simpa [offset, mul_comm] using h3
  have hk : ∀ P : STP, P.sensors = some sensors → P.times = some times → STP.nData P = .ok (S * T) := by
    intro P h1 h2
    unfold STP.nData STP.nSensors STP.nTs
    simp only [h1, h2, need, Py.ok_bind, hS.dim, hT.dim]
    rfl
  refine ⟨D, ⟨[S * T, 1], tv.data, by simp [htv]⟩, ?_, hDs, hDd, rfl, rfl⟩
  rw [bind_of_ok e2]
  rw [bind_of_ok (x := setAttr "sensors" (.arr sensors)) (a := ()) rfl]
  rw [bind_of_ok (x := setAttr "times" (.arr times)) (a := ()) rfl]
  dsimp only
  rw [bind_of_ok e3]
  rw [bind_of_ok (x := setAttr "std_dev" (.num 0.05)) (a := ()) rfl]
  dsimp only
  have e6 : setAttr "true_vals" (.arr tv)
      { domain := some D
        sensors := some sensors
        times := some times
        lamRef := ref.map ND.ravel
        stdDev := some 0.05 } = (.ok (),
      { domain := some D
        sensors := some sensors
        times := some times
        lamRef := ref.map ND.ravel
        stdDev := some 0.05
        trueVals := some ⟨[S * T, 1], tv.data, by simp [htv]⟩ }) := by
    show setTrueVals tv _ = _
    unfold setTrueVals
    rw [PyM.get_bind_run, hk _ rfl rfl, PyM.lift_ok_bind, reshape_ok (by rw [← tv.size_eq, htv]; simp)]
    rfl
  rw [bind_of_ok e6]
  have hl : asColumn lam = lam := asColumn_of_ne fun k hk => by rw [hlam] at hk; cases hk
  have e9 : setAttr "lam" (.arr lam)
      { domain := some D
        sensors := some sensors
        times := some times
        lamRef := ref.map ND.ravel
        stdDev := some 0.05
        trueVals := some ⟨[S * T, 1], tv.data, by simp [htv]⟩ } = (.ok (),
      { domain := some D
        sensors := some sensors
        times := some times
        lamRef := ref.map ND.ravel
        stdDev := some 0.05
        trueVals := some ⟨[S * T, 1], tv.data, by simp [htv]⟩
        lam := some lam
        sampleDist := some "u" }) := by
    show setLam lam _ = _
    unfold setLam
    rw [hl, PyM.get_bind_run]
    have d1 : lam.dim 1 = .ok p := by simp [ND.dim, hlam]
    have d2 : D.dim 0 = .ok p := by simp [ND.dim, hDs]
    simp only [lamDomain]
    rw [d1, d2]
    simp only [PyM.lift_ok_bind]
    rw [raiseIf_false (by simp)]
    rfl
  rw [bind_of_ok e9]
  have ht : dataTable data = .ok data := by
    unfold dataTable
    rw [hdata]
  have hd1 : data.dim 1 = .ok (S * T) := by simp [ND.dim, hdata]
  have hly : layout (S * T) (some sensors) (some times) = .ok (sensors, times) := by
    simp only [layout, Py.pure_eq, Py.ok_bind, hT.dim, hS.dim]
    rw [raiseIf_false (by simp [mul_comm])]
    rfl
  show setData data _ = _
  unfold setData
  rw [ht, PyM.lift_ok_bind, STP.dataCols_ok hd1, PyM.lift_ok_bind, PyM.get_bind_run, hly, PyM.lift_ok_bind]
  rfl

theorem pyM_bind_assoc {τ α β γ : Type} (x : PyM τ α) (f : α → PyM τ β) (g : β → PyM τ γ) :
    ((x >>= f) >>= g) = (x >>= fun a => f a >>= g) := by
  funext s
  rcases h : x s with ⟨r, s'⟩
  cases r with
  | error e => rw [bind_of_error (bind_of_error h), bind_of_error h]
  | ok a =>
    rw [bind_of_ok h]
    rcases h' : f a s' with ⟨r, s''⟩
    have h2 : (x >>= f) s = (r, s'') := by rw [bind_of_ok h, h']
    cases r with
    | error e => rw [bind_of_error h2, bind_of_error h']
    | ok b => rw [bind_of_ok h2, bind_of_ok h']

/-- With a stored reference, `ref=None` means that one. -/
theorem meas_stored {P : STP} {t : ND} (ht : P.trueVals = some t) (d : ℝ) (seed : Option ℕ) (s : σ) :
    measurementsFromReference G none (some d) seed (P, s) =
      measurementsFromReference G (some t) (some d) seed (P, s) := by
  obtain ⟨a1, a2, a3, a4, a5, a6, a7, a8, a9⟩ := P
  cases ht
  rfl

/-- From the loaded object on: the noise is added and the object returned. -/
theorem loadThen_run {E : FileEnv} {path : String} {kwargs : DataSet} {ds : DataSet} {n p S T : ℕ}
    {sensors times tv lam data D V : ND} {ref : Option ND}
    (hread : E.read path = .ok ds)
    (hS : HasLen sensors S) (hT : HasLen times T)
    (htv : tv.data.length = S * T) (hlam : lam.shape = [n, p]) (hdata : data.shape = [n, S * T])
    (hVd : V.data = tv.data)
    (hload : loadDs ds (.str "lam") (.str "data") kwargs {} = (.ok (),
          { domain := some D
            sensors := some sensors
            times := some times
            lamRef := ref.map ND.ravel
            stdDev := some 0.05
            trueVals := some V
            lam := some lam
            sampleDist := some "u"
            data := some data })) (seed : Option ℕ) (s : σ) :
    ∃ P M, loadThen E G path kwargs seed s =
        (.ok (ds, P), stateAfter G (startState G seed s) (S * T)) ∧
      Ready P n p S T lam data sensors times (some M) ∧ P.domain = some D ∧
      P.lamRef = ref.map ND.ravel ∧ P.stdDev = some 0.05 ∧ P.sampleDist = some "u" ∧
      ∀ j < S * T, M.get [j, 0] = tv.data.getD j 0 + 0.05 * nthDraw G (startState G seed s) j := by
  obtain ⟨M, hM, hMs, hMv⟩ := C74_measurements G
    { domain := some D
      sensors := some sensors
      times := some times
      lamRef := ref.map ND.ravel
      stdDev := some 0.05
      trueVals := some V
      lam := some lam
      sampleDist := some "u"
      data := some data } (ref := V) rfl hS rfl hT (by rw [hVd, htv]) 0.05 seed s
  rw [← meas_stored rfl] at hM
  have e : loadThen E G path kwargs seed s = (.ok (ds,
      { domain := some D
        sensors := some sensors
        times := some times
        lamRef := ref.map ND.ravel
        stdDev := some 0.05
        trueVals := some V
        lam := some lam
        sampleDist := some "u"
        data := some data
        measurements := some M }), stateAfter G (startState G seed s) (S * T)) := by
    unfold loadThen
    rw [hread, PyM.lift_ok_bind]
    unfold runObj
    rw [hload]
    dsimp only
    rw [PyM.lift_ok_bind]
    unfold Poisson.addNoise
    rw [hM]
  refine ⟨_, M, e, ⟨rfl, hlam, rfl, hdata, rfl, hS, rfl, hT, rfl, ?_⟩, rfl, rfl, rfl, rfl, ?_⟩
  · intro m hm
    cases hm
    exact hMs
  · intro j hj
    rw [hMv j hj, hVd]

/-- **C110 (Poisson).** `load_poisson_prob(path, std_dev, seed)`, for a file with the five fields
`domain` (`p` ranges), `sensors` (`S` rows), `true_vals` (`S` numbers), `lam` (`n × p`) and `data`
(`n × S`), returns the file's contents and a complete problem with the file's samples, data and sensors at
the single time `0`, whose `j`-th measurement is the `j`-th true value plus `0.05` times the `j`-th draw of
the generator (seeded if `seed` is given): whatever the argument `std_dev`. -/
theorem C110_poisson_partial {E : FileEnv} {path : String} {ds : DataSet} {n p S : ℕ}
    {dom sensors tv lam data : ND} (hread : E.read path = .ok ds)
    (h1 : ds.lookup "sample_dist" = none) (h2 : ds.lookup "domain" = some (.arr dom))
    (h3 : ds.lookup "sensors" = some (.arr sensors)) (h4 : ds.lookup "times" = none)
    (h5 : ds.lookup "lam_ref" = none) (h6 : ds.lookup "std_dev" = none)
    (h7 : ds.lookup "true_vals" = some (.arr tv)) (h8 : ds.lookup "measurements" = none)
    (h9 : ds.lookup "lam" = some (.arr lam)) (h10 : ds.lookup "data" = some (.arr data))
    (hdom : dom.data.length = 2 * p) (hS : HasLen sensors S) (htv : tv.data.length = S)
    (hlam : lam.shape = [n, p]) (hdata : data.shape = [n, S]) (std_dev : ℝ) (seed : Option ℕ) (s : σ) :
    ∃ P M D, loadPoisson E G path std_dev seed s =
        (.ok (ds, P), stateAfter G (startState G seed s) S) ∧
      Ready P n p S 1 lam data sensors ⟨[1], [0], rfl⟩ (some M) ∧
      P.domain = some D ∧ D.shape = [p, 2] ∧ D.data = dom.data ∧
      P.lamRef = none ∧ P.stdDev = some 0.05 ∧ P.sampleDist = some "u" ∧
      ∀ j < S, M.get [j, 0] = tv.data.getD j 0 + 0.05 * nthDraw G (startState G seed s) j := by
  have hdata' : data.shape = [n, S * 1] := by rw [mul_one]; exact hdata
  obtain ⟨D, V, hc, hDs, hDd, -, hVd⟩ := assign_chain (T := 1) (times := zero1) (ref := none) hdom hS rfl
    (by rw [mul_one]; exact htv) hlam hdata' (by simp) (setRef := pure ()) rfl
  obtain ⟨P, M, e, r, q1, q2, q3, q4, q5⟩ := loadThen_run (G := G) (ref := none) hread hS (T := 1)
    (times := zero1) rfl (by rw [mul_one]; exact htv) hlam hdata' hVd (kwargs :=
    [("true_vals", .str "true_vals"), ("measurements", .none), ("std_dev", .num 0.05),
     ("sample_dist", .str "uniform"), ("domain", .str "domain"), ("lam_ref", .none),
     ("sensors", .str "sensors"), ("times", .arr STP.zero1)]) (by
      rw [loadDs_poisson]
      simp only [setAll]
      rw [getSet_skip h1, getSet_own h2, getSet_own h3, getSet_arr h4, getSet_none h5, getSet_num h6,
        getSet_own h7, getSet_none h8, getSet_own h9, getSet_own h10]
      simp only [pyM_bind_assoc, PyM.pure_bind'] at hc ⊢
      exact hc) seed s
  rw [mul_one] at e q5
  exact ⟨P, M, D, e, r, q1, hDs, hDd, q2, q3, q4, q5⟩

/-- **C110 (ADCIRC).** `load_adcirc_prob(path, std_dev, seed, sensors)`: as for the Poisson data set, with
the sensors of the call, the times of the file, and the file's reference parameter if it has one. -/
theorem C110_adcirc_partial {E : FileEnv} {path : String} {ds : DataSet} {n p S T : ℕ}
    {dom sensors times tv lam data : ND} {ref : Option ND} (hread : E.read path = .ok ds)
    (h1 : ds.lookup "sample_dist" = none) (h2 : ds.lookup "domain" = some (.arr dom))
    (h3 : ds.lookup "sensors" = none) (h4 : ds.lookup "times" = some (.arr times))
    (h5 : ds.lookup "lam_ref" = ref.map .arr) (h6 : ds.lookup "std_dev" = none)
    (h7 : ds.lookup "true_vals" = some (.arr tv)) (h8 : ds.lookup "measurements" = none)
    (h9 : ds.lookup "lam" = some (.arr lam)) (h10 : ds.lookup "data" = some (.arr data))
    (hdom : dom.data.length = 2 * p) (hS : HasLen sensors S) (hT : HasLen times T)
    (htv : tv.data.length = S * T) (hlam : lam.shape = [n, p]) (hdata : data.shape = [n, S * T])
    (href : ∀ r ∈ ref, ∀ j (hj : j < r.data.length), j < p ∧ dom.data.getD (2 * j) 0 ≤ r.data[j] ∧
      r.data[j] ≤ dom.data.getD (2 * j + 1) 0) (std_dev : ℝ) (seed : Option ℕ) (s : σ) :
    ∃ P M D, loadAdcirc E G path sensors std_dev seed s =
        (.ok (ds, P), stateAfter G (startState G seed s) (S * T)) ∧
      Ready P n p S T lam data sensors times (some M) ∧
      P.domain = some D ∧ D.shape = [p, 2] ∧ D.data = dom.data ∧
      P.lamRef = ref.map ND.ravel ∧ P.stdDev = some 0.05 ∧ P.sampleDist = some "u" ∧
      ∀ j < S * T, M.get [j, 0] = tv.data.getD j 0 + 0.05 * nthDraw G (startState G seed s) j := by
  obtain ⟨D, V, hc, hDs, hDd, -, hVd⟩ := assign_chain (ref := ref) hdom hS hT htv hlam hdata href
    (setRef := getSetVal ds "lam_ref" (.str "lam_ref")) (by
      cases ref with
      | none => exact getSet_skip h5
      | some r => exact getSet_own h5)
  obtain ⟨P, M, e, r, q1, q2, q3, q4, q5⟩ := loadThen_run (G := G) (ref := ref) hread hS hT htv hlam hdata hVd
    (kwargs :=
    [("true_vals", .str "true_vals"), ("measurements", .none), ("std_dev", .num 0.05),
     ("sample_dist", .str "uniform"), ("domain", .str "domain"), ("lam_ref", .str "lam_ref"),
     ("sensors", .arr sensors), ("times", .str "times")]) (by
      rw [loadDs_adcirc]
      simp only [setAll]
      rw [getSet_skip h1, getSet_own h2, getSet_arr h3, getSet_own h4, getSet_num h6,
        getSet_own h7, getSet_none h8, getSet_own h9, getSet_own h10]
      simp only [pyM_bind_assoc, PyM.pure_bind'] at hc ⊢
      exact hc) seed s
  exact ⟨P, M, D, e, r, q1, hDs, hDd, q2, q3, q4, q5⟩

/-- A field given directly although the data set has it: the loop over the fields raises. -/
theorem setAll_direct {ds : DataSet} {f : String} {v : Val} (hf : (ds.lookup f).isSome)
    (hv : ∀ k, v ≠ .str k) : ∀ {l : DataSet}, (f, v) ∈ l → ∀ P : STP, ∃ e Q, setAll ds l P = (.error e, Q)
  | [], h, _ => by cases h
  | (g, w) :: l, h, P => by
    rw [setAll]
    rcases hg : getSetVal ds g w P with ⟨r, Q⟩
    cases r with
    | error e => exact ⟨e, Q, bind_of_error hg⟩
    | ok u =>
      rcases List.mem_cons.1 h with h | h
      · cases h
        rcases C57_direct_error hf hv P with h' | h' <;> rw [h'] at hg <;> cases hg
      · obtain ⟨e, Q', h'⟩ := setAll_direct hf hv h Q
        exact ⟨e, Q', by rw [bind_of_ok hg, h']⟩

theorem loadThen_error {E : FileEnv} {path : String} {kwargs : DataSet} {ds : DataSet}
    (hread : E.read path = .ok ds)
    (h : ∃ e Q, loadDs ds (.str "lam") (.str "data") kwargs {} = (.error e, Q)) (seed : Option ℕ) (s : σ) :
    ∃ e, loadThen E G path kwargs seed s = (.error e, s) := by
  obtain ⟨e, Q, h⟩ := h
  refine ⟨e, ?_⟩
  unfold loadThen
  rw [hread, PyM.lift_ok_bind]
  unfold runObj
  rw [h]
  rfl

/-- **C110 (a data set with more fields).** If the file also stores `std_dev`, `measurements`, `lam_ref` or
`times` (the fields `load_poisson_prob` passes by value), the call raises, drawing nothing. -/
theorem C110_poisson_raises {E : FileEnv} {path : String} {ds : DataSet} (hread : E.read path = .ok ds)
    {f : String} (hf : f ∈ ["std_dev", "measurements", "lam_ref", "times"]) (hp : (ds.lookup f).isSome)
    (std_dev : ℝ) (seed : Option ℕ) (s : σ) :
    ∃ e, loadPoisson E G path std_dev seed s = (.error e, s) := by
  refine loadThen_error hread ?_ seed s
  rw [loadDs_poisson]
  obtain ⟨v, hv, hm⟩ : ∃ v : Val, (∀ k, v ≠ .str k) ∧ (f, v) ∈ ([("sample_dist", .str "uniform"),
        ("domain", .str "domain"), ("sensors", .str "sensors"),
        ("times", .arr STP.zero1), ("lam_ref", .none), ("std_dev", .num 0.05),
        ("true_vals", .str "true_vals"), ("measurements", .none)] : DataSet) := by
    simp only [List.mem_cons, List.not_mem_nil, or_false] at hf
    rcases hf with rfl | rfl | rfl | rfl
    · exact ⟨.num 0.05, by simp, by simp⟩
    · exact ⟨.none, by simp, by simp⟩
    · exact ⟨.none, by simp, by simp⟩
    · exact ⟨.arr STP.zero1, by simp, by simp⟩
  obtain ⟨e, Q, h⟩ := setAll_direct hp hv hm {}
  exact ⟨e, Q, bind_of_error h⟩

/-- **C110 (a data set with more fields).** The same for `load_adcirc_prob` and the fields `std_dev`,
`measurements` and `sensors`. -/
theorem C110_adcirc_raises {E : FileEnv} {path : String} {ds : DataSet} (hread : E.read path = .ok ds)
    {f : String} (hf : f ∈ ["std_dev", "measurements", "sensors"]) (hp : (ds.lookup f).isSome)
    (sensors : ND) (std_dev : ℝ) (seed : Option ℕ) (s : σ) :
    ∃ e, loadAdcirc E G path sensors std_dev seed s = (.error e, s) := by
  refine loadThen_error hread ?_ seed s
  rw [loadDs_adcirc]
  obtain ⟨v, hv, hm⟩ : ∃ v : Val, (∀ k, v ≠ .str k) ∧ (f, v) ∈ ([("sample_dist", .str "uniform"),
        ("domain", .str "domain"), ("sensors", .arr sensors),
        ("times", .str "times"), ("lam_ref", .str "lam_ref"), ("std_dev", .num 0.05),
        ("true_vals", .str "true_vals"), ("measurements", .none)] : DataSet) := by
    simp only [List.mem_cons, List.not_mem_nil, or_false] at hf
    rcases hf with rfl | rfl | rfl
    · exact ⟨.num 0.05, by simp, by simp⟩
    · exact ⟨.none, by simp, by simp⟩
    · exact ⟨.arr sensors, by simp, by simp⟩
  obtain ⟨e, Q, h⟩ := setAll_direct hp hv hm {}
  exact ⟨e, Q, bind_of_error h⟩

/-- What the documentation of `load_poisson_prob` says: `std_dev` is the standard deviation of the noise
added to the true values, and of the problem returned. -/
def C110_claim : Prop :=
  ∀ (σ : Type) (E : FileEnv) (G : Rng σ) (path : String) (std_dev : ℝ) (seed : Option ℕ) (s s' : σ)
    (ds : DataSet) (P : STP) (tv M : ND), ds.lookup "true_vals" = some (.arr tv) →
    P.measurements = some M → loadPoisson E G path std_dev seed s = (.ok (ds, P), s') →
    P.stdDev = some std_dev ∧ ∀ j < tv.data.length,
      M.get [j, 0] = tv.data.getD j 0 + std_dev * nthDraw G (startState G seed s) j

/-- A data set with one sample, one parameter and two sensors. -/
noncomputable def poissonDs : DataSet :=
  [("domain", .arr ⟨[1, 2], [0, 1], rfl⟩), ("sensors", .arr ⟨[2], [0, 1], rfl⟩),
   ("true_vals", .arr ⟨[2], [3, 4], rfl⟩), ("lam", .arr ⟨[1, 1], [0], rfl⟩),
   ("data", .arr ⟨[1, 2], [5, 6], rfl⟩)]

/-- The file system with this data set at `p.pkl`. -/
noncomputable def poissonFiles : FileEnv := ⟨false, fun _ => some (.pickle poissonDs)⟩

/-- The hypotheses of C110 hold for it. -/
theorem poisson_demo (std_dev : ℝ) : ∃ P M,
    loadPoisson poissonFiles (⟨fun k => k, fun s => (s, s + 1)⟩ : Rng ℕ) "p.pkl" std_dev (some 21) 0 =
      (.ok (poissonDs, P), 23) ∧ P.measurements = some M ∧ P.stdDev = some 0.05 ∧
      M.get [0, 0] = 3 + 0.05 * 21 ∧ M.get [1, 0] = 4 + 0.05 * 22 := by
  obtain ⟨P, M, D, e, r, -, -, -, -, q1, -, q2⟩ := C110_poisson_partial
    (G := (⟨fun k => k, fun s => (s, s + 1)⟩ : Rng ℕ)) (E := poissonFiles) (path := "p.pkl")
    (ds := poissonDs) (n := 1) (p := 1) (S := 2) (dom := ⟨[1, 2], [0, 1], rfl⟩)
    (sensors := ⟨[2], [0, 1], rfl⟩) (tv := ⟨[2], [3, 4], rfl⟩) (lam := ⟨[1, 1], [0], rfl⟩)
    (data := ⟨[1, 2], [5, 6], rfl⟩) rfl rfl rfl rfl rfl rfl rfl rfl rfl rfl rfl rfl rfl rfl rfl rfl
    std_dev (some 21) 0
  refine ⟨P, M, ?_, r.meas_eq, q1, (q2 0 (by norm_num)).trans ?_, (q2 1 (by norm_num)).trans ?_⟩
  · rw [e]
    simp [stateAfter, startState]
  · simp [nthDraw, stateAfter, startState]
  · simp [nthDraw, stateAfter, startState]

/-- **C110's claim is false of the code**: asked for the deviation `1`, the loader adds noise of deviation
`0.05`. -/
theorem C110_claim_refuted : ¬ C110_claim := by
  intro h
  obtain ⟨P, M, e, hM, hs, -, -⟩ := poisson_demo 1
  have h1 := (h ℕ poissonFiles _ "p.pkl" 1 (some 21) 0 23 poissonDs P ⟨[2], [3, 4], rfl⟩ M rfl hM e).1
  rw [hs] at h1
  have h2 : (0.05 : ℝ) = 1 := Option.some.inj h1
  norm_num at h2

/-- A file that also stores the deviation cannot be loaded. -/
example : ∃ e, loadPoisson ⟨false, fun _ => some (.pickle (("std_dev", .num 1) :: poissonDs))⟩
    (⟨fun k => k, fun s => (s, s + 1)⟩ : Rng ℕ) "p.pkl" 1 none 0 = (.error e, 0) :=
  C110_poisson_raises (f := "std_dev") rfl (by simp) rfl 1 none 0

/-- C110: a file that also stores the sensors cannot be loaded by `load_adcirc_prob`. -/
example (sensors : ND) : ∃ e, loadAdcirc ⟨false, fun _ => some (.pickle poissonDs)⟩
    (⟨fun k => k, fun s => (s, s + 1)⟩ : Rng ℕ) "p.pkl" sensors 1 none 0 = (.error e, 0) :=
  C110_adcirc_raises (f := "sensors") rfl (by simp) rfl sensors 1 none 0

end Verif
