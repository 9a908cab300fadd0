import Verif.Props.STLoad
import Verif.Props.STMud
import Verif.Props.STDomain

/-!
# C75: loading a complete data set gives a problem that is ready for inversion
-/

namespace Verif

open ND SpecST STP

theorem assignWanted_some {ds : DataSet} {f k : String} {x : Val} (h : ds.lookup k = some x) :
    assignWanted ds f (.str k) = setAttr f x := by
  simp [assignWanted, Wanted, h]

theorem assignWanted_none {ds : DataSet} {f k : String} (h : ds.lookup k = none) :
    assignWanted ds f (.str k) = pure () := by
  simp [assignWanted, Wanted, h]

theorem bind_of_ok {α β σ : Type} {x : PyM σ α} {f : α → PyM σ β} {s s' : σ} {a : α}
    (h : x s = (.ok a, s')) : (x >>= f) s = f a s' := by
  rw [PyM.bind_run, h]

theorem bind_of_error {α β σ : Type} {x : PyM σ α} {f : α → PyM σ β} {s s' : σ} {e : Err}
    (h : x s = (.error e, s')) : (x >>= f) s = (.error e, s') := by
  rw [PyM.bind_run, h]

theorem setMeasurements_ok {P : STP} {S T : ℕ} {sensors times m : ND}
    (hS : P.sensors = some sensors) (hS' : HasLen sensors S)
    (hT : P.times = some times) (hT' : HasLen times T) (hm : m.data.length = S * T) :
    ∃ M, setMeasurements m P = (.ok (), { P with measurements := some M }) ∧
      M.shape = [S * T, 1] ∧ M.data = m.data := by
  have hk : STP.nData P = .ok (S * T) := by
    unfold STP.nData STP.nSensors STP.nTs
    simp only [hS, hT, need, Py.ok_bind, hS'.dim, hT'.dim]
    rfl
  refine ⟨⟨[S * T, 1], m.data, by simp [hm]⟩, ?_, rfl, rfl⟩
  unfold setMeasurements
  rw [PyM.get_bind_run, hk, PyM.lift_ok_bind, reshape_ok (by rw [← m.size_eq, hm]; simp)]
  rfl

theorem loadSpec_defaults (ds : DataSet) :
    loadSpec ds (.str "lam") (.str "data") [] =
      (assignWanted ds "sample_dist" (.str "sample_dist") >>= fun _ =>
       assignWanted ds "domain" (.str "domain") >>= fun _ =>
       assignWanted ds "sensors" (.str "sensors") >>= fun _ =>
       assignWanted ds "times" (.str "times") >>= fun _ =>
       assignWanted ds "lam_ref" (.str "lam_ref") >>= fun _ =>
       assignWanted ds "std_dev" (.str "std_dev") >>= fun _ =>
       assignWanted ds "true_vals" (.str "true_vals") >>= fun _ =>
       assignWanted ds "measurements" (.str "measurements") >>= fun _ =>
       assignWanted ds "lam" (.str "lam") >>= fun _ =>
       assignWanted ds "data" (.str "data")) := by
  funext s
  unfold loadSpec mapping optionalFields
  simp only [List.map_cons, List.map_nil, List.lookup_nil, Option.getD_none, List.filter_nil,
    List.append_nil]
  show PyM.bind _ _ s = PyM.bind _ _ s
  simp only [List.forM, PyM.bind, bind, pure, PyM.pure]
  repeat' split <;> try rfl
  all_goals simp_all

/-- **C75.** Loading, into a fresh object, a data set with the entries `domain` (`2p` numbers),
`sensors` (`S` rows), `times` (`T` rows), `std_dev`, `measurements` (`S·T` numbers), `lam` `(n, p)`
and `data` `(n, S·T)` (and without the other optional entries) succeeds and gives a problem that is
ready for inversion with exactly these arrays, `std_dev`, and the given domain as a `(p, 2)`
table. -/
theorem C75_load_ready (ds : DataSet) {n p S T : ℕ} {dom sensors times meas lam data : ND} {sd : ℝ}
    (h1 : ds.lookup "sample_dist" = none) (h2 : ds.lookup "domain" = some (.arr dom))
    (h3 : ds.lookup "sensors" = some (.arr sensors)) (h4 : ds.lookup "times" = some (.arr times))
    (h5 : ds.lookup "lam_ref" = none) (h6 : ds.lookup "std_dev" = some (.num sd))
    (h7 : ds.lookup "true_vals" = none) (h8 : ds.lookup "measurements" = some (.arr meas))
    (h9 : ds.lookup "lam" = some (.arr lam)) (h10 : ds.lookup "data" = some (.arr data))
    (hdom : dom.data.length = 2 * p) (hS : HasLen sensors S) (hT : HasLen times T)
    (hmeas : meas.data.length = S * T) (hlam : lam.shape = [n, p])
    (hdata : data.shape = [n, S * T]) :
    ∃ P D M, loadDs ds (.str "lam") (.str "data") [] {} = (.ok (), P) ∧
      Ready P n p S T lam data sensors times (some M) ∧ M.data = meas.data ∧
      P.stdDev = some sd ∧ P.domain = some D ∧ D.shape = [p, 2] ∧ D.data = dom.data ∧
      P.sampleDist = some "u" := by
  rw [C57_defaults, loadSpec_defaults]
  rw [assignWanted_none h1, assignWanted_some h2, assignWanted_some h3, assignWanted_some h4,
    assignWanted_none h5, assignWanted_some h6, assignWanted_none h7, assignWanted_some h8,
    assignWanted_some h9, assignWanted_some h10]
  rw [PyM.pure_bind']
  obtain ⟨D, hD, hDs, hDd⟩ : ∃ D, dom.reshapeCols 2 = .ok D ∧ D.shape = [p, 2] ∧
      D.data = dom.data := by
    refine ⟨⟨[p, 2], dom.data, by simp [hdom, mul_comm]⟩, ?_, rfl, rfl⟩
    unfold reshapeCols
    have : dom.data.length / 2 = p := by omega
    rw [if_neg two_ne_zero, this, reshape_ok (by rw [← dom.size_eq, hdom]; simp [mul_comm])]
  have e2 : setAttr "domain" (.arr dom) {} = (.ok (), { domain := some D }) := by
    show setDomain dom {} = _
    unfold setDomain
    rw [hD, PyM.lift_ok_bind, PyM.get_bind_run]
    rfl
  rw [bind_of_ok e2]
  rw [bind_of_ok (x := setAttr "sensors" (.arr sensors)) (a := ()) rfl]
  rw [bind_of_ok (x := setAttr "times" (.arr times)) (a := ()) rfl]
  rw [PyM.pure_bind', bind_of_ok (x := setAttr "std_dev" (.num sd)) (a := ()) rfl, PyM.pure_bind']
  dsimp only
  obtain ⟨M, hM, hMs, hMd⟩ := setMeasurements_ok
    (P := { domain := some D
            sensors := some sensors
            times := some times
            stdDev := some sd }) rfl hS rfl hT hmeas
  rw [bind_of_ok (x := setAttr "measurements" (.arr meas)) (a := ()) hM]
  have hl : asColumn lam = lam := asColumn_of_ne fun k hk => by rw [hlam] at hk; cases hk
  have e9 : setAttr "lam" (.arr lam)
      { domain := some D
        sensors := some sensors
        times := some times
        stdDev := some sd
        measurements := some M } = (.ok (),
      { domain := some D
        sensors := some sensors
        times := some times
        stdDev := some sd
        measurements := some M
        lam := some lam
        sampleDist := some "u" }) := by
    show setLam lam _ = _
    unfold setLam
    rw [hl, PyM.get_bind_run]
    have d1 : lam.dim 1 = .ok p := by simp [ND.dim, hlam]
    have d2 : D.dim 0 = .ok p := by simp [ND.dim, hDs]
    simp only [lamDomain]
    rw [d1, d2]
    simp only [PyM.lift_ok_bind]
    rw [raiseIf_false (by simp)]
    rfl
  rw [bind_of_ok e9]
  have ht : dataTable data = .ok data := by
    unfold dataTable
    rw [hdata]
  have hd1 : data.dim 1 = .ok (S * T) := by simp [ND.dim, hdata]
  have hly : layout (S * T) (some sensors) (some times) = .ok (sensors, times) := by
    simp only [layout, Py.pure_eq, Py.ok_bind, hT.dim, hS.dim]
    rw [raiseIf_false (by simp [mul_comm])]
    rfl
  have e10 : setAttr "data" (.arr data)
      { domain := some D
        sensors := some sensors
        times := some times
        stdDev := some sd
        measurements := some M
        lam := some lam
        sampleDist := some "u" } = (.ok (),
      { domain := some D
        sensors := some sensors
        times := some times
        stdDev := some sd
        measurements := some M
        lam := some lam
        sampleDist := some "u"
        data := some data }) := by
    show setData data _ = _
    unfold setData
    rw [ht, PyM.lift_ok_bind, STP.dataCols_ok hd1, PyM.lift_ok_bind, PyM.get_bind_run, hly, PyM.lift_ok_bind]
    rfl
  refine ⟨_, _, M, e10, ⟨rfl, hlam, rfl, hdata, rfl, hS, rfl, hT, rfl, ?_⟩, hMd, rfl, rfl, hDs, hDd,
    rfl⟩
  intro m hm
  cases hm
  exact hMs

/-- The order of the assignments matters: a data set with measurements but without a sensor/time
layout cannot be loaded into a fresh object (`AttributeError`), although the `data` setter would
have filled in the layout. (`domain`, `std_dev` are absent here.) -/
theorem C75_no_layout (ds : DataSet) {meas : ND}
    (h1 : ds.lookup "sample_dist" = none) (h2 : ds.lookup "domain" = none)
    (h3 : ds.lookup "sensors" = none) (h4 : ds.lookup "times" = none)
    (h5 : ds.lookup "lam_ref" = none) (h6 : ds.lookup "std_dev" = none)
    (h7 : ds.lookup "true_vals" = none) (h8 : ds.lookup "measurements" = some (.arr meas)) :
    loadDs ds (.str "lam") (.str "data") [] {} = (.error .attributeError, {}) := by
  rw [C57_defaults, loadSpec_defaults]
  rw [assignWanted_none h1, assignWanted_none h2, assignWanted_none h3, assignWanted_none h4,
    assignWanted_none h5, assignWanted_none h6, assignWanted_none h7, assignWanted_some h8]
  simp only [PyM.pure_bind']
  rw [bind_of_error (x := setAttr "measurements" (.arr meas)) rfl]

/-- A concrete data set, loaded and turned into a density problem. -/
example (ext : Decomp) : ∃ P Q, loadDs
    [("domain", .arr (ndOfNats [2, 2] [0, 9, 0, 9] rfl)),
     ("sensors", .arr (ndOfNats [2, 2] [0, 0, 1, 1] rfl)),
     ("times", .arr (ndOfNats [3] [0, 1, 2] rfl)), ("std_dev", .num 2),
     ("measurements", .arr (ndOfNats [2, 3] [10, 11, 12, 13, 14, 16] rfl)),
     ("lam", .arr (ndOfNats [1, 2] [1, 2] rfl)),
     ("data", .arr (ndOfNats [1, 6] [0, 1, 2, 3, 4, 5] rfl))] (.str "lam") (.str "data") [] {} =
      (.ok (), P) ∧ P.mudProblem ext "wme" = .ok Q := by
  obtain ⟨P, D, M, h1, h2, -, h4, h5, h6, -, -⟩ := C75_load_ready
    [("domain", .arr (ndOfNats [2, 2] [0, 9, 0, 9] rfl)),
     ("sensors", .arr (ndOfNats [2, 2] [0, 0, 1, 1] rfl)),
     ("times", .arr (ndOfNats [3] [0, 1, 2] rfl)), ("std_dev", .num 2),
     ("measurements", .arr (ndOfNats [2, 3] [10, 11, 12, 13, 14, 16] rfl)),
     ("lam", .arr (ndOfNats [1, 2] [1, 2] rfl)),
     ("data", .arr (ndOfNats [1, 6] [0, 1, 2, 3, 4, 5] rfl))] (n := 1) (p := 2) (S := 2) (T := 3)
    rfl rfl rfl rfl rfl rfl rfl rfl rfl rfl rfl rfl rfl rfl rfl rfl
  obtain ⟨Q, ws, hQ, -⟩ := C54_rescaled ext h2 (by norm_num) h4 two_ne_zero h5 h6 2
  exact ⟨P, Q, h1, hQ⟩

/-! ### C76: learned quantities of interest -/

/-- **C76.** `mud_problem("svd", num_components=c)`: if the SVD of the residuals returns the right
singular vectors as the rows of a `k × k` matrix `V`, the quantity of interest of sample `i` has
`min c k` components, component `a` being the projection `Σ_j R_ij V_aj` of the scaled residuals
onto the `a`-th singular vector. -/
theorem C76_svd {P : STP} {n p S T : ℕ} {lam data sensors times D meas : ND} (ext : Decomp)
    (h : Ready P n p S T lam data sensors times (some meas))
    (hk : S * T ≠ 0) {sd : ℝ} (hsd : P.stdDev = some sd) (h0 : sd ≠ 0)
    (hD : P.domain = some D) (hDs : D.shape = [p, 2]) (c : ℕ)
    {V : Matrix (Fin (S * T)) (Fin (S * T)) ℝ}
    (hV : ext.svdV (resTab n (S * T) data (fun j => meas.get [j, 0]) sd) = .ok ⟨S * T, S * T, V⟩) :
    ∃ Q, P.mudProblem ext "svd" none none c = .ok Q ∧ Q.X.r = n ∧ Q.y.r = n ∧
      Q.y.c = min c (S * T) ∧ ∀ i < n, ∀ (a : Fin (S * T)), (a : ℕ) < c →
        Q.y.get i a = ∑ j : Fin (S * T),
          (meas.get [(j : ℕ), 0] - data.get [i, (j : ℕ)]) / sd * V a j := by
  have e := mudProblem_whole ext h hk hsd h0 "svd" none none c
  have ht : (takeRowsN ⟨S * T, S * T, V⟩ c).T = ⟨S * T, Arr2.pyStop (S * T) c,
      (V.submatrix (Fin.castLE (Arr2.pyStop_le _ _)) id).transpose⟩ := rfl
  simp only [weighResiduals, Py.ok_bind, qoiOf, hD, Option.map_some, hV, ht] at e
  simp only [resTab, Arr2.matmul_mk, Py.ok_bind, Py.pure_eq] at e
  rw [if_neg (by decide), if_neg (by decide), if_pos trivial, Py.ok_bind,
    dpNew_eq h.lam_shape hDs] at e
  have hst : Arr2.pyStop (S * T) (c : ℤ) = min c (S * T) := by
    unfold Arr2.pyStop
    rw [if_neg (by omega)]; simp
  refine ⟨_, e, rfl, rfl, hst, fun i hi a ha => ?_⟩
  simp only [NArr.shapeCol]
  rw [Arr2.get_mk' _ hi (by rw [hst]; have := a.2; omega)]
  simp only [Matrix.mul_apply, Matrix.of_apply, Matrix.transpose_apply, Matrix.submatrix_apply, id]
  rfl

/-- **C76.** `mud_problem("pca", num_components=c)`: the same projection onto the principal
components, the rows of a `c × k` matrix. -/
theorem C76_pca {P : STP} {n p S T : ℕ} {lam data sensors times D meas : ND} (ext : Decomp)
    (h : Ready P n p S T lam data sensors times (some meas))
    (hk : S * T ≠ 0) {sd : ℝ} (hsd : P.stdDev = some sd) (h0 : sd ≠ 0)
    (hD : P.domain = some D) (hDs : D.shape = [p, 2]) (c : ℕ)
    {V : Matrix (Fin c) (Fin (S * T)) ℝ}
    (hV : ext.pcaComponents (resTab n (S * T) data (fun j => meas.get [j, 0]) sd) c =
      .ok ⟨c, S * T, V⟩) :
    ∃ Q, P.mudProblem ext "pca" none none c = .ok Q ∧ Q.X.r = n ∧ Q.y.r = n ∧ Q.y.c = c ∧
      ∀ i < n, ∀ (a : Fin c), Q.y.get i a = ∑ j : Fin (S * T),
        (meas.get [(j : ℕ), 0] - data.get [i, (j : ℕ)]) / sd * V a j := by
  have e := mudProblem_whole ext h hk hsd h0 "pca" none none c
  simp only [weighResiduals, Py.ok_bind, qoiOf, hD, Option.map_some, hV, Arr2.T_mk] at e
  simp only [resTab, Arr2.matmul_mk, Py.ok_bind, Py.pure_eq] at e
  rw [if_neg (by decide), if_pos trivial, Py.ok_bind, dpNew_eq h.lam_shape hDs] at e
  refine ⟨_, e, rfl, rfl, rfl, fun i hi a => ?_⟩
  simp only [NArr.shapeCol]
  rw [Arr2.get_mk' _ hi a.2]
  simp only [Matrix.mul_apply, Matrix.of_apply, Matrix.transpose_apply]

/-- Consequently, when `V` is orthogonal and all components are kept, the quantity of interest of a
sample has the same Euclidean length as its residual vector. -/
theorem C76_svd_isometry {P : STP} {n p S T : ℕ} {lam data sensors times D meas : ND}
    (ext : Decomp) (h : Ready P n p S T lam data sensors times (some meas))
    (hk : S * T ≠ 0) {sd : ℝ} (hsd : P.stdDev = some sd) (h0 : sd ≠ 0)
    (hD : P.domain = some D) (hDs : D.shape = [p, 2]) (c : ℕ) (hc : S * T ≤ c)
    {V : Matrix (Fin (S * T)) (Fin (S * T)) ℝ} (hVo : V.transpose * V = 1)
    (hV : ext.svdV (resTab n (S * T) data (fun j => meas.get [j, 0]) sd) = .ok ⟨S * T, S * T, V⟩) :
    ∃ Q, P.mudProblem ext "svd" none none c = .ok Q ∧ ∀ i < n,
      ∑ a : Fin (S * T), Q.y.get i a ^ 2 =
        ∑ j : Fin (S * T), ((meas.get [(j : ℕ), 0] - data.get [i, (j : ℕ)]) / sd) ^ 2 := by
  obtain ⟨Q, h1, -, -, -, h2⟩ := C76_svd ext h hk hsd h0 hD hDs c hV
  refine ⟨Q, h1, fun i hi => ?_⟩
  let r : Fin (S * T) → ℝ := fun j => (meas.get [(j : ℕ), 0] - data.get [i, (j : ℕ)]) / sd
  have e1 : ∀ a : Fin (S * T), Q.y.get i a = V.mulVec r a := fun a => by
    rw [h2 i hi a (lt_of_lt_of_le a.2 hc)]
    exact Finset.sum_congr rfl fun j _ => mul_comm _ _
  have e2 : ∑ a : Fin (S * T), Q.y.get i a ^ 2 = V.mulVec r ⬝ᵥ V.mulVec r := by
    simp only [dotProduct, e1, sq]
  have e3 : V.mulVec r ⬝ᵥ V.mulVec r = r ⬝ᵥ (V.transpose * V).mulVec r := by
    rw [← Matrix.mulVec_mulVec, Matrix.dotProduct_mulVec r, Matrix.vecMul_transpose]
  rw [e2, e3, hVo, Matrix.one_mulVec]
  simp only [dotProduct, sq, r]

/-- Concrete cases of C76: decompositions that return the coordinate directions. -/
example : ∃ Q, demoST.mudProblem ⟨fun _ c => .ok ⟨c, 6, .of fun i j => if (i : ℕ) = j then 1 else 0⟩,
    fun _ => .ok ⟨6, 6, 1⟩⟩ "svd" = .ok Q ∧ Q.y.c = 2 ∧ Q.y.get 0 1 = 5 := by
  obtain ⟨Q, h1, -, -, h4, h5⟩ := C76_svd
    ⟨fun _ c => .ok ⟨c, 6, .of fun i j => if (i : ℕ) = j then 1 else 0⟩, fun _ => .ok ⟨6, 6, 1⟩⟩
    demoST_ready (by norm_num) (sd := 2) rfl two_ne_zero (D := ndOfNats [2, 2] [0, 9, 0, 9] rfl)
    rfl rfl 2 (V := 1) rfl
  refine ⟨Q, h1, h4, (h5 0 (by norm_num) 1 (by decide)).trans ?_⟩
  simp only [Matrix.one_apply, mul_ite, mul_one, mul_zero, Finset.sum_ite_eq, Finset.mem_univ,
    if_true]
  show (ND.get _ [1, 0] - ND.get _ [0, 1]) / 2 = (5 : ℝ)
  simp [ND.get, offset, ndOfNats]
  norm_num

/-! ### Further cases meeting the hypotheses -/

/-- A data set with measurements only. -/
example : loadDs [("measurements", .arr (ndOfNats [2] [1, 2] rfl))] (.str "lam") (.str "data") [] {} =
    (.error .attributeError, {}) :=
  C75_no_layout _ rfl rfl rfl rfl rfl rfl rfl rfl

example : ∃ Q, demoST.mudProblem ⟨fun _ c => .ok ⟨c, 6, .of fun i j => if (i : ℕ) = j then 1 else 0⟩,
    fun _ => .ok ⟨6, 6, 1⟩⟩ "pca" none none 3 = .ok Q ∧ Q.y.c = 3 := by
  obtain ⟨Q, h1, -, -, h4, -⟩ := C76_pca
    ⟨fun _ c => .ok ⟨c, 6, .of fun i j => if (i : ℕ) = j then 1 else 0⟩, fun _ => .ok ⟨6, 6, 1⟩⟩
    demoST_ready (by norm_num) (sd := 2) rfl two_ne_zero (D := ndOfNats [2, 2] [0, 9, 0, 9] rfl)
    rfl rfl 3 (V := .of fun i j => if (i : ℕ) = j then 1 else 0) rfl
  exact ⟨Q, h1, h4⟩

example : ∃ Q, demoST.mudProblem ⟨fun _ c => .ok ⟨c, 6, .of fun i j => if (i : ℕ) = j then 1 else 0⟩,
    fun _ => .ok ⟨6, 6, 1⟩⟩ "svd" none none 8 = .ok Q := by
  obtain ⟨Q, h1, -⟩ := C76_svd_isometry
    ⟨fun _ c => .ok ⟨c, 6, .of fun i j => if (i : ℕ) = j then 1 else 0⟩, fun _ => .ok ⟨6, 6, 1⟩⟩
    demoST_ready (by norm_num) (sd := 2) rfl two_ne_zero (D := ndOfNats [2, 2] [0, 9, 0, 9] rfl)
    rfl rfl 8 (by norm_num) (V := 1) (by simp) rfl
  exact ⟨Q, h1⟩

end Verif
