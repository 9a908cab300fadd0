import Verif.Props.Adcirc

/-!
# C116 (it returns), C117: `adcirc_solve`

`/repo/src/mud/examples/adcirc.py:53-324`, `/repo/src/mud/examples/examples.py:770-853`.
-/

namespace Verif

namespace Adcirc

open ND SpecST STP Prep Poisson

variable {env : Env} {pe : PlotEnv}

section
variable {P : STP} {n p S T : ℕ} {lam data sensors times D M : ND}

theorem pick_length {S : DPD} {pt : List ℝ} (h : (DPD.pick S.core).1 = .ok pt) :
    pt.length = S.core.X.c := by
  unfold DPD.pick at h
  rw [PyM.get_bind_run] at h
  cases hu : DP.theAttr S.core.up with
  | error e => rw [hu] at h; cases h
  | ok u =>
    rw [hu, PyM.lift_ok_bind] at h
    cases hm : npArgmax u with
    | error e => rw [hm] at h; cases h
    | ok m =>
      rw [hm, PyM.lift_ok_bind] at h
      change S.core.X.rowAt m = _ at h
      unfold Arr2.rowAt at h
      split at h
      · cases h; simp
      · cases h

/-- A fresh problem with two or more parameters, a proper domain and a kernel density estimate: the
estimate exists, with everything the figures need. -/
theorem fresh_exists {n p q : ℕ} (hn : 0 < n) (hp : 2 ≤ p) {X : Matrix (Fin n) (Fin p) ℝ}
    {Y : Matrix (Fin n) (Fin q) ℝ} {Dm : Matrix (Fin p) (Fin 2) ℝ} (hD : ∀ j, Dm j 0 < Dm j 1)
    (hkde : ∃ c : Fin n → F, env.kde ⟨n, q, Y⟩ 0 (List.replicate n (.fin 1)) = .ok (List.ofFn c)) {Q : DP}
    (hQ : DP.new (.mat ⟨n, p, X⟩) (.mat ⟨n, q, Y⟩) (some (.mat ⟨p, 2, Dm⟩)) none = .ok Q) :
    ∃ pt r u e S1, DPD.mudPoint env { core := Q } = (.ok pt, S1) ∧ Fitted Q pt r S1 ∧
      bzip1 (· * ·) r Q.weights = .ok u ∧ DP.npAverage r Q.weights = .ok e ∧ pt.length = p ∧
      S1.core.domain.c = 2 ∧ S1.core.n_params = p ∧ Q.n_params = p ∧ Q.n_features = q := by
  obtain ⟨x, S', hfig⟩ := figs_ok (env := env) (pe := ⟨fun _ _ _ _ _ => .ok (), fun _ => false⟩) hn hp X Y
    Dm hD (fun _ _ _ _ _ => rfl) hkde (closest := [0, 0]) (by simp) ⟨0, 0, 0⟩ true false hQ
  obtain ⟨pt, r, hpt1, -, hr1, -, ⟨u, hu, hp0, -, -, hav, -⟩, -, -, -⟩ := figs_spec hQ hfig
  unfold trialFigs at hfig
  rw [PyM.bind_run] at hfig
  rcases he : DPD.mudPoint env { core := Q } with ⟨re, S1⟩
  rw [he] at hfig
  cases re with
  | error e => cases hfig
  | ok pt' =>
    obtain ⟨r', hr', hF, hmp⟩ := fresh_fitted hQ he
    obtain rfl : pt' = pt := Except.ok.inj (hmp.symm.trans hpt1)
    obtain rfl : r' = r := Except.ok.inj (hr'.symm.trans hr1)
    obtain ⟨e, hav, -⟩ := hav rfl
    obtain ⟨hXc, hyc, -⟩ := new_fields hQ
    have hX : Q.X.c = p := by rw [hXc]; rfl
    refine ⟨pt', r', u, e, S1, rfl, hF, hu, hav, ?_, ?_, ?_, hX, by unfold DP.n_features; rw [hyc]; rfl⟩
    · rw [pick_length hF.pick, hF.X, hX]
    · obtain ⟨-, -, -, -, -, -, -, -, h6, -⟩ := fresh_estimate hQ he
      rw [h6]
      obtain ⟨_, _, hQ2⟩ := Py.bind_eq_ok.1 hQ
      cases hQ2
      rfl
    · unfold DP.n_params
      rw [hF.X, hX]

/-- **C116 (it returns).** For a complete problem of one sensor with a reference value, two or more
parameters and a proper domain, `adcirc_time_window` with one or two components and at least as many times
strictly inside the window returns, for any figures, title, number of lines and history, provided drawing
does not raise, limits are given for every parameter or for none, and the kernel density estimate of the
components exists. -/
theorem C116_returns (X : Ext) (choice : ℕ → ℕ → List ℕ) (hch : ∀ n k, (choice n k).length = k)
    (h : Ready P n p 1 T lam data sensors times (some M)) (hs : times.shape = [T])
    (hs2 : sensors.shape = [1, 2]) {sd : ℝ} (hsd : P.stdDev = some sd) (h0 : sd ≠ 0)
    (hD : P.domain = some D) (hDs : D.shape = [p, 2]) (hord : ∀ j < p, D.get [j, 0] < D.get [j, 1])
    (hp : 2 ≤ p) {ref : ND} (href : P.lamRef = some ref) (hrl : p ≤ ref.data.length)
    {w : ℝ × ℝ} {k : ℕ} (hk0 : 0 < k) (hk : k ≤ 2) (hkn : k ≤ n) (hkb : k ≤ (inside times T w).length)
    (hdraw : ∀ a c R i n, pe.draw a c R i n = .ok ())
    (hkde : ∀ Q, P.mudProblem (decomp X) "pca" none none k none
      (some (.ints ((inside times T w).map fun t : ℕ => (t : ℤ)))) none = .ok Q →
      Q.y.r = n → ∃ c, env.kde Q.y 0 Q.weights = .ok c ∧ c.length = n)
    (pca0 : Option Arr2) (mp : ℕ) {yl : Option ℕ} (hyl : ∀ m ∈ yl, p ≤ m) (title save : Bool)
    (figs : List String) :
    ∃ out, timeWindow (decomp X) env pe choice P pca0 w "pca" k mp yl title save figs = .ok out := by
  obtain ⟨mask, hmask, hpk, hnd⟩ := windowMask_eq h.times_eq hs w
  have hl : times.data.length = T := by rw [times.size_eq, hs]; simp
  have hb : ∀ t ∈ inside times T w, t < T := fun t ht => (mem_inside.1 ht).1
  set b := inside times T w with hbdef
  have hb0 : b ≠ [] := by rintro e; rw [e] at hkb; simp at hkb; omega
  have hm := fun {mt : Option Mask} (h1 : ListLike mt) (h2 : Picks T mt b) =>
    mudProblem_masked (decomp X) h (ms := none) (mx := none) listLike_none h1
      listLike_none (a := List.range n) rfl h2 (c := List.range 1) rfl hb0 (by simp) hl
      (fun h => absurd rfl h) hsd h0 hD "pca" none k
  have hq := qoi_pca X (k := k) (selResid T (List.range n) b (List.range 1) data M sd) (by simp; omega)
    (by simp; omega) (by simp; omega) (by simp; omega)
  have hdec := decomp_pca X (k := k) (selResid T (List.range n) b (List.range 1) data M sd) (by simp; omega)
    (by simp; omega) (by simp; omega) (by simp; omega)
  have hmI := hm (listLike_ints _) (ints_picks hb)
  have hmB := hm (listLike_bools mask) hpk
  rw [hq, Py.ok_bind, toArr2_two hDs] at hmI hmB
  obtain ⟨Q, hQ⟩ := new_exists (.of fun i j => lam.get [(List.range n)[i], j]) _
    (.of fun i j => D.get [i, j])
  rw [hQ] at hmI hmB
  obtain ⟨-, hy, hw⟩ := new_fields hQ
  obtain ⟨c, hk', hcl⟩ := hkde Q hmI (by rw [hy]; exact List.length_range)
  have hw' : Q.weights = List.replicate (List.range n).length (.fin 1) := (Except.ok.inj hw).symm
  obtain ⟨pt, r, u, e, S1, he, hF, hu, hav, hpl, hdc, hnp, hQp, hQf⟩ := fresh_exists (env := env)
    (by simp; omega) hp (fun j => hord j j.2) ⟨fun i => c[i]'(by have := i.2; simp at this; omega), by
      rw [← hw']
      refine Eq.trans (congrArg (fun y => env.kde y 0 Q.weights) hy.symm) (hk'.trans (congrArg _ ?_))
      apply List.ext_getElem
      · simp [hcl]
      · intro i _ _
        simp⟩ hQ
  have hrun : runObj (DPD.mudPoint env) { core := Q } = .ok S1 := by
    unfold runObj
    rw [he]
  have hvec : ∃ V, vecsAfter (decomp X) P "pca" k mask pca0 = .ok (some V) ∧ V.r = k ∧ V.c = b.length := by
    unfold vecsAfter
    rw [if_pos rfl, pcaVecs_eq (decomp X) h hs one_pos hsd h0 hpk hb0, hdec]
    exact ⟨_, rfl, rfl, by simp⟩
  obtain ⟨V, hvecs, hVr, hVc⟩ := hvec
  have hr : ∃ ro, ratioIf env title S1 = .ok (ro, S1) := by
    unfold ratioIf
    cases title with
    | false => exact ⟨_, rfl⟩
    | true =>
      have : runVal (DPD.expectedRatio env) S1 = .ok (e, S1) := by
        unfold runVal
        rw [expectedRatio_cached hF.up, average_eq hF.r hF.w, hav]
      rw [if_pos rfl, this]
      exact ⟨_, rfl⟩
  obtain ⟨ro, hro⟩ := hr
  have hpf : ∃ f, pcaVectorPlot choice P mask mp (some V) = .ok f := by
    unfold pcaVectorPlot
    rw [C98_exact h choice hch (ms := none) (mt := some (.bools mask)) listLike_none
        (listLike_bools mask) (a := List.range n) (b := b) (c := 0) (k := 0) rfl hpk one_pos (.inl rfl) hb0 hl
        hs2 rfl mp, Py.ok_bind, h.times_eq]
    obtain ⟨t, ht, htd⟩ := times_masked hs hpk
    simp only [need, Py.ok_bind, ht]
    obtain ⟨l, hl⟩ := mapM_exists (f := vecLine t.data V) (l := List.range V.r) (by
      intro i hi
      have : i < V.r := List.mem_range.1 hi
      unfold vecLine
      rw [raiseIf_false (by omega), Py.ok_bind, raiseIf_false (by rw [htd, hVc]; simp), Py.ok_bind]
      exact ⟨_, rfl⟩)
    rw [hl]
    exact ⟨_, rfl⟩
  obtain ⟨po, hpo⟩ := onDemand_exists (wants figs "ts-pca") hpf
  have hdist : ∃ d, distIf env pe P yl (wants figs "updated_dist") S1 = .ok d ∧ Fitted Q pt r d.2 := by
    unfold distIf
    cases wants figs "updated_dist" with
    | false => exact ⟨_, rfl, hF⟩
    | true =>
      obtain ⟨o, S2, hax⟩ := dist_axes_ok (env := env) (ref := ref.data) (yl := yl) hdraw hu
        (ks := List.range S1.core.n_params) hF hdc (by
          intro j hj
          rw [hnp] at hj
          have hj : j < p := List.mem_range.1 hj
          refine ⟨by omega, by omega, ?_⟩
          cases yl with
          | none => rfl
          | some m =>
            have := hyl m rfl
            change raiseIf (m ≤ j) .indexError = _
            rw [raiseIf_false (by omega)])
      have : runVal (distAxes env pe ref.data yl (List.range S1.core.n_params)) S1 = .ok (o, S2) := by
        unfold runVal
        rw [hax]
      rw [if_pos rfl, href]
      simp only [need, Py.ok_bind, this]
      exact ⟨_, rfl, (dist_axes hF hax).2⟩
  obtain ⟨d, hd, hF2⟩ := hdist
  have hqf : ∃ q, learnedQoi d.2.core k = .ok q := by
    refine mapM_exists fun i hi => ?_
    have hi2 : i < k := List.mem_range.1 hi
    unfold qoiAxis
    rw [raiseIf_false (by omega), Py.ok_bind, plotParams_core hF2.X hF2.y]
    unfold DP.plotParams2d
    rw [hQp, hQf, raiseIf_false (by omega), raiseIf_false (by omega), raiseIf_false (by omega)]
    simp only [Py.ok_bind]
    rw [raiseIf_false (by rw [if_neg (by omega)]; omega)]
    exact ⟨_, rfl⟩
  obtain ⟨qo, hqo⟩ := onDemand_exists (wants figs "learned_qoi") hqf
  unfold timeWindow
  rw [hmask, Py.ok_bind, hmB, Py.ok_bind, hvecs, Py.ok_bind, hrun, Py.ok_bind, hro, Py.ok_bind, hpo,
    Py.ok_bind, hd, Py.ok_bind, hqo]
  exact ⟨_, rfl⟩

end

/-! ## All windows -/

theorem row_ok {S S' : DPD} {a : List ℝ} {b : F} (hup : S.core.up.isSome)
    (h : runVal (rowOf env) S = .ok ((a, b), S')) :
    (DPD.mudPoint env S).1 = .ok a ∧ (DPD.expectedRatio env S).1 = .ok b := by
  unfold runVal rowOf at h
  rw [PyM.bind_run, mudPoint_cached hup] at h
  rw [mudPoint_cached hup]
  cases hp : (DPD.pick S.core).1 with
  | error e => rw [hp] at h; cases h
  | ok x =>
    rw [hp] at h
    simp only at h
    rw [PyM.bind_run, expectedRatio_cached hup] at h
    rw [expectedRatio_cached hup]
    cases hq : (DPD.average S.core).1 with
    | error e => rw [hq] at h; cases h
    | ok y =>
      rw [hq] at h
      cases h
      exact ⟨rfl, rfl⟩

/-- With the method "pca" the vectors left by earlier calls are not used. -/
theorem C116_history (ext : Decomp) (choice : ℕ → ℕ → List ℕ) (P : STP) (pca0 pca1 : Option Arr2)
    (w : ℝ × ℝ) (k : ℕ) (mp : ℤ) (yl : Option ℕ) (title save : Bool) (figs : List String) :
    timeWindow ext env pe choice P pca0 w "pca" k mp yl title save figs =
      timeWindow ext env pe choice P pca1 w "pca" k mp yl title save figs := rfl

theorem windows_spec (ext : Decomp) (choice : ℕ → ℕ → List ℕ) (P : STP) (k : ℕ) (yl : Option ℕ)
    (save : Bool) (figs : List String) : ∀ {ws : List (ℝ × ℝ)} {pca0 : Option Arr2}
    {l : List (WindowResult × Row)},
    windowsLoop ext env pe choice P k yl save figs ws pca0 = .ok l →
    List.Forall₂ (fun w x => timeWindow ext env pe choice P none w "pca" k 50 yl true save figs = .ok x.1 ∧
      x.2.window = w ∧ ∃ S', runVal (rowOf env) x.1.prob = .ok ((x.2.mud, x.2.ratio), S')) ws l := by
  intro ws
  induction ws with
  | nil => intro pca0 l h; cases h; exact .nil
  | cons w ws ih =>
    intro pca0 l h
    unfold windowsLoop at h
    obtain ⟨res, hres, h⟩ := Py.bind_eq_ok.1 h
    obtain ⟨r, hr, h⟩ := Py.bind_eq_ok.1 h
    obtain ⟨rest, hrest, h⟩ := Py.bind_eq_ok.1 h
    cases h
    exact .cons ⟨hres, rfl, r.2, hr⟩ (ih hrest)

theorem windows_exist (ext : Decomp) (choice : ℕ → ℕ → List ℕ) (P : STP) (k : ℕ) (yl : Option ℕ)
    (save : Bool) (figs : List String) : ∀ {ws : List (ℝ × ℝ)} {pca0 : Option Arr2},
    (∀ w ∈ ws, ∃ x r, timeWindow ext env pe choice P none w "pca" k 50 yl true save figs = .ok x ∧
      runVal (rowOf env) x.prob = .ok r) →
    ∃ l, windowsLoop ext env pe choice P k yl save figs ws pca0 = .ok l := by
  intro ws
  induction ws with
  | nil => intro pca0 _; exact ⟨_, rfl⟩
  | cons w ws ih =>
    intro pca0 h
    obtain ⟨x, r, hx, hr⟩ := h w (by simp)
    obtain ⟨l, hl⟩ := ih (pca0 := x.vecs) fun w' hw' => h w' (by simp [hw'])
    unfold windowsLoop
    rw [C116_history ext choice P pca0 none, hx, Py.ok_bind, hr, Py.ok_bind, hl]
    exact ⟨_, rfl⟩

/-- A file of the ADCIRC example: `n` samples of `p` parameters with water levels at `T` times. -/
structure AdcircFile (ds : DataSet) (n p T : ℕ) (dom times tv lam data ref : ND) : Prop where
  no_dist : ds.lookup "sample_dist" = none
  has_domain : ds.lookup "domain" = some (.arr dom)
  no_sensors : ds.lookup "sensors" = none
  has_times : ds.lookup "times" = some (.arr times)
  has_ref : ds.lookup "lam_ref" = some (.arr ref)
  no_sd : ds.lookup "std_dev" = none
  has_tv : ds.lookup "true_vals" = some (.arr tv)
  no_meas : ds.lookup "measurements" = none
  has_lam : ds.lookup "lam" = some (.arr lam)
  has_data : ds.lookup "data" = some (.arr data)
  dom_len : dom.data.length = 2 * p
  times_shape : times.shape = [T]
  tv_len : tv.data.length = T
  lam_shape : lam.shape = [n, p]
  data_shape : data.shape = [n, T]
  ref_len : ref.data.length = p
  ref_in : ∀ j (hj : j < ref.data.length), dom.data.getD (2 * j) 0 ≤ ref.data[j] ∧
    ref.data[j] ≤ dom.data.getD (2 * j + 1) 0

variable {σ : Type} {E : FileEnv} {G : Rng σ} {path : String} {ds : DataSet} {n p T : ℕ}
  {dom times tv lam data ref : ND}

/-- Load, then the figures and windows. -/
theorem solve_eq (hread : E.read path = .ok ds) (hf : AdcircFile ds n p T dom times tv lam data ref)
    (ext : Decomp) (choice : ℕ → ℕ → List ℕ) (grid : Grid) (k : ℕ) (t1 t2 p1 p2 : List ℝ) (sigma : ℝ)
    (mv : String) (cutoff : ℝ) (save : Bool) (figs : List String) (seed : Option ℕ) (s : σ) :
    ∃ P M D, Ready P n p 1 T lam data ⟨[1, 2], [0, 0], rfl⟩ times (some M) ∧
      P.domain = some D ∧ D.shape = [p, 2] ∧ D.data = dom.data ∧ P.stdDev = some 0.05 ∧
      P.lamRef = some ref.ravel ∧
      (∀ j < T, M.get [j, 0] = tv.data.getD j 0 + 0.05 * nthDraw G (startState G seed s) j) ∧
      adcircSolve E G ext env pe choice grid path k t1 t2 p1 p2 sigma mv cutoff save figs seed s =
        (solveWith ext env pe choice grid P k t1 t2 p1 p2 mv cutoff save figs,
          stateAfter G (startState G seed s) T) := by
  obtain ⟨P, M, D, e, hr, hD, hDs, hDd, href, hsd, -, hM⟩ := C110_adcirc_partial (G := G) (S := 1)
    (sensors := ⟨[1, 2], [0, 0], rfl⟩) (ref := some ref) hread hf.no_dist
    hf.has_domain hf.no_sensors hf.has_times hf.has_ref hf.no_sd hf.has_tv hf.no_meas hf.has_lam hf.has_data
    hf.dom_len (by unfold HasLen; rfl) (by unfold HasLen; rw [hf.times_shape]; rfl)
    (by rw [hf.tv_len, one_mul]) hf.lam_shape (by rw [hf.data_shape, one_mul]) (by
      intro r hr j hj
      obtain rfl : ref = r := by simpa using hr
      exact ⟨hf.ref_len ▸ hj, hf.ref_in j hj⟩) sigma seed s
  rw [one_mul] at e hM
  refine ⟨P, M, D, hr, hD, hDs, hDd, hsd, href, hM, ?_⟩
  unfold adcircSolve
  rw [bind_of_ok e]
  rfl

/-- **C117.** If `adcirc_solve` on a file of the example returns: the measurements are the true values plus
noise of standard deviation 0.05; there is one window per pair of start and end times, in order; the result
of each window is that of the times strictly inside it (`WindowOf`), whatever the other windows; and its
row of the table shows the window, the estimate and the expected ratio of that problem. -/
theorem C117_windows (hread : E.read path = .ok ds)
    (hf : AdcircFile ds n p T dom times tv lam data ref) (ext : Decomp) (choice : ℕ → ℕ → List ℕ)
    (hch : ∀ n k, (choice n k).length = k) {grid : Grid} {k : ℕ} {t1 t2 p1 p2 : List ℝ} {sigma : ℝ}
    {mv : String} {cutoff : ℝ} {save : Bool} {figs : List String} {seed : Option ℕ} {s s' : σ}
    {out : SolveResult}
    (h : adcircSolve E G ext env pe choice grid path k t1 t2 p1 p2 sigma mv cutoff save figs seed s =
      (.ok out, s')) :
    ∃ M, Ready out.prob n p 1 T lam data ⟨[1, 2], [0, 0], rfl⟩ times (some M) ∧
      (∀ j < T, M.get [j, 0] = tv.data.getD j 0 + 0.05 * nthDraw G (startState G seed s) j) ∧
      List.Forall₂ (fun w x =>
        WindowOf ext env out.prob none n 1 T data times M 0.05 (inside times T w) "pca" k 50 true save figs
          x.1 ∧
        x.2.window = w ∧ (DPD.mudPoint env x.1.prob).1 = .ok x.2.mud ∧
        (DPD.expectedRatio env x.1.prob).1 = .ok x.2.ratio) (t1.zip t2) out.windows := by
  obtain ⟨P, M, D, hr, hD, -, -, hsd, -, hM, e⟩ := solve_eq (G := G) (env := env) (pe := pe) hread hf ext
    choice grid k t1 t2 p1 p2 sigma mv cutoff save figs seed s
  rw [e] at h
  have h1 := (Prod.mk.inj h).1
  unfold solveWith at h1
  obtain ⟨f, -, h1⟩ := Py.bind_eq_ok.1 h1
  obtain ⟨m, -, h1⟩ := Py.bind_eq_ok.1 h1
  obtain ⟨l, hl, h1⟩ := Py.bind_eq_ok.1 h1
  cases h1
  refine ⟨M, hr, hM, (windows_spec ext choice P k _ save figs hl).imp ?_⟩
  rintro w x ⟨a, b, S', c⟩
  have hw := C116_window (mp := 50) ext choice hch hr hf.times_shape rfl one_pos hsd (by norm_num) hD a
  obtain ⟨r1, r2⟩ := row_ok hw.fitted c
  exact ⟨hw, b, r1, r2⟩

/-- **C117 (it returns).** On a file of the example with two or more parameters and a proper domain, at most
three windows, one or two components and at least as many times in each window, `adcirc_solve` returns,
provided drawing does not raise, the requested mesh value can be drawn and the kernel density estimates
exist. -/
theorem C117_returns (hread : E.read path = .ok ds)
    (hf : AdcircFile ds n p T dom times tv lam data ref) (X : Ext) (choice : ℕ → ℕ → List ℕ)
    (hch : ∀ n k, (choice n k).length = k) {grid : Grid} {k : ℕ} {t1 t2 : List ℝ} (p1 p2 : List ℝ)
    (sigma : ℝ) {mv : String} {cutoff : ℝ} (save : Bool) (figs : List String) (seed : Option ℕ) (s : σ)
    (hdom : ∀ j < p, dom.data.getD (2 * j) 0 < dom.data.getD (2 * j + 1) 0) (hT : 0 < T)
    (hp : p = 2) (hk0 : 0 < k) (hk : k ≤ 2) (hkn : k ≤ n)
    (hw : ∀ w ∈ t1.zip t2, k ≤ (inside times T w).length) (hnw : (t1.zip t2).length ≤ 3)
    (hdraw : ∀ a c R i n, pe.draw a c R i n = .ok ()) (hmesh : ∃ v, meshValues grid mv cutoff = .ok v)
    (hkde : ∀ (P : STP) (M D : ND) (w : ℝ × ℝ) (Q : DP), w ∈ t1.zip t2 →
      Ready P n p 1 T lam data ⟨[1, 2], [0, 0], rfl⟩ times (some M) → P.stdDev = some 0.05 →
      P.domain = some D → D.shape = [p, 2] → P.mudProblem (decomp X) "pca" none none k none
        (some (.ints ((inside times T w).map fun t : ℕ => (t : ℤ)))) none = .ok Q → Q.y.r = n →
      ∃ c, env.kde Q.y 0 Q.weights = .ok c ∧ c.length = n) :
    ∃ out s', adcircSolve E G (decomp X) env pe choice grid path k t1 t2 p1 p2 sigma mv cutoff save figs
      seed s = (.ok out, s') := by
  obtain ⟨P, M, D, hr, hD, hDs, hDd, hsd, href, hM, e⟩ := solve_eq (G := G) (env := env) (pe := pe) hread hf
    (decomp X) choice grid k t1 t2 p1 p2 sigma mv cutoff save figs seed s
  have hord := domain_order hDs hDd hdom
  have hl : times.data.length = T := by rw [times.size_eq, hf.times_shape]; simp
  obtain ⟨f, hff⟩ := onDemand_exists (wants figs "full_ts") (x := tsPlot choice P (t1.zip t2)) (by
    unfold tsPlot
    have := C98_exact hr choice hch (ms := none) (mt := none) listLike_none listLike_none
      (a := List.range n) (b := List.range T) (c := 0) (k := 0) rfl rfl one_pos (.inl rfl)
      (by simp; omega) hl rfl rfl 50
    have this' : P.plotTs choice none none (some (.int 0)) 50 = _ := this
    rw [this', Py.ok_bind, raiseIf_false (by omega)]
    exact ⟨_, rfl⟩)
  obtain ⟨m, hm⟩ := onDemand_exists (wants figs "mesh") hmesh
  obtain ⟨l, hl⟩ := windows_exist (env := env) (pe := pe) (decomp X) choice P k
    (ylimsFor p1 p2 (t1.zip t2).length) save figs (ws := t1.zip t2) (pca0 := none) (by
      intro w hw'
      obtain ⟨x, hx⟩ := C116_returns (mp := 50) X choice hch hr hf.times_shape rfl hsd (by norm_num) hD hDs
        hord (by omega) href (by simp [ND.ravel, hf.ref_len]) hk0 hk hkn (hw w hw') hdraw
        (fun Q hQ hy => hkde P M D w Q hw' hr hsd hD hDs hQ hy) none (yl := ylimsFor p1 p2 (t1.zip t2).length) (by
          unfold ylimsFor
          intro m hm
          split_ifs at hm
          · have : 2 = m := by simpa using hm
            omega
          · simp at hm) true save figs
      have hW := C116_window (mp := 50) (decomp X) choice hch hr hf.times_shape rfl one_pos hsd
        (by norm_num) hD hx
      obtain ⟨Q, pt, r, -, -, -, h1, h2, -, -, h3, -⟩ := hW.mud
      rw [if_pos rfl] at h3
      obtain ⟨ev, he, -⟩ := h3
      refine ⟨x, ((pt, ev), x.prob), hx, ?_⟩
      unfold runVal rowOf
      rw [mudPoint_cached hW.fitted] at h1
      rw [expectedRatio_cached hW.fitted] at h2
      rw [bind_of_ok (by rw [mudPoint_cached hW.fitted, h1] : DPD.mudPoint env x.prob = (.ok pt, x.prob)),
        bind_of_ok (by rw [expectedRatio_cached hW.fitted, h2, he] :
          DPD.expectedRatio env x.prob = (.ok ev, x.prob))]
      rfl)
  rw [e]
  unfold solveWith
  rw [hff, Py.ok_bind, hm, Py.ok_bind, hl]
  exact ⟨_, _, rfl⟩

/-- More than three windows cannot be shown: with the figure of the full time series (in particular by
default) `adcirc_solve` raises `IndexError`. -/
theorem C117_four_windows (hread : E.read path = .ok ds)
    (hf : AdcircFile ds n p T dom times tv lam data ref) (ext : Decomp) (choice : ℕ → ℕ → List ℕ)
    (hch : ∀ n k, (choice n k).length = k) (grid : Grid) (k : ℕ) {t1 t2 : List ℝ} (p1 p2 : List ℝ)
    (sigma : ℝ) (mv : String) (cutoff : ℝ) (save : Bool) {figs : List String} (seed : Option ℕ) (s : σ)
    (hT : 0 < T) (hfig : "full_ts" ∈ figs ∨ "all" ∈ figs) (hnw : 3 < (t1.zip t2).length) :
    (adcircSolve E G ext env pe choice grid path k t1 t2 p1 p2 sigma mv cutoff save figs seed s).1 =
      .error .indexError := by
  obtain ⟨P, M, D, hr, hD, hDs, hDd, hsd, href, hM, e⟩ := solve_eq (G := G) (env := env) (pe := pe) hread hf
    ext choice grid k t1 t2 p1 p2 sigma mv cutoff save figs seed s
  have hl : times.data.length = T := by rw [times.size_eq, hf.times_shape]; simp
  have := C98_exact hr choice hch (ms := none) (mt := none) listLike_none listLike_none
    (a := List.range n) (b := List.range T) (c := 0) (k := 0) rfl rfl one_pos (.inl rfl)
    (by simp; omega) hl rfl rfl 50
  have this' : P.plotTs choice none none (some (.int 0)) 50 = _ := this
  have ht : tsPlot choice P (t1.zip t2) = .error .indexError := by
    unfold tsPlot
    rw [this', Py.ok_bind, raiseIf_true hnw]
    rfl
  rw [e]
  unfold solveWith onDemand wants
  rw [if_pos (decide_eq_true hfig), ht]
  rfl

/-! ## Files -/

/-- The full claim: every figure that `adcirc_solve` saves is kept (no file name is used twice). -/
def C117_files_claim : Prop :=
  ∀ (σ : Type) (E : FileEnv) (G : Rng σ) (ext : Decomp) (env : Env) (pe : PlotEnv)
    (choice : ℕ → ℕ → List ℕ) (grid : Grid) (path : String) (k : ℕ) (t1 t2 : List ℝ) (seed : Option ℕ)
    (s s' : σ) (out : SolveResult), (t1.zip t2).Nodup →
    adcircSolve E G ext env pe choice grid path k t1 t2 [] [] 0.05 "wind_speed_mult_0" (-10) true ["all"]
      seed s = (.ok out, s') →
    (out.windows.flatMap fun x => x.1.saved).Nodup

/-- Two or more windows whose learned quantities are saved: one file is written for all of them. -/
theorem C117_overwritten (hread : E.read path = .ok ds)
    (hf : AdcircFile ds n p T dom times tv lam data ref) (ext : Decomp) (choice : ℕ → ℕ → List ℕ)
    (hch : ∀ n k, (choice n k).length = k) {grid : Grid} {k : ℕ} {t1 t2 p1 p2 : List ℝ} {sigma : ℝ}
    {mv : String} {cutoff : ℝ} {figs : List String} {seed : Option ℕ} {s s' : σ}
    {out : SolveResult}
    (h : adcircSolve E G ext env pe choice grid path k t1 t2 p1 p2 sigma mv cutoff true figs seed s =
      (.ok out, s')) (hfig : "learned_qoi" ∈ figs ∨ "all" ∈ figs) :
    ∀ x ∈ out.windows, "qoi_{num_components}_{ndata}" ∈ x.1.saved := by
  obtain ⟨M, -, -, hF⟩ := C117_windows hread hf ext choice hch h
  have key : ∀ {l : List (WindowResult × Row)} {ws : List (ℝ × ℝ)},
      List.Forall₂ (fun w x =>
        WindowOf ext env out.prob none n 1 T data times M 0.05 (inside times T w) "pca" k 50 true true figs
          x.1 ∧ x.2.window = w ∧ (DPD.mudPoint env x.1.prob).1 = .ok x.2.mud ∧
        (DPD.expectedRatio env x.1.prob).1 = .ok x.2.ratio) ws l →
      ∀ x ∈ l, "qoi_{num_components}_{ndata}" ∈ x.1.saved := by
    intro l ws hF
    induction hF with
    | nil => intro x hx; cases hx
    | cons hd _ ih =>
      intro x hx
      rcases List.mem_cons.1 hx with rfl | hx
      · rw [hd.1.saved, if_pos (c := ("learned_qoi" ∈ figs ∨ "all" ∈ figs) ∧ true = true) ⟨hfig, rfl⟩]
        simp
      · exact ih x hx
  exact key hF

/-- Two samples of two parameters, four times. -/
def tideDs : DataSet :=
  [("domain", .arr (ndOfNats [2, 2] [0, 2, 0, 2] rfl)), ("times", .arr (ndOfNats [4] [1, 2, 3, 4] rfl)),
   ("lam_ref", .arr (ndOfNats [2] [1, 1] rfl)), ("true_vals", .arr (ndOfNats [4] [3, 4, 5, 6] rfl)),
   ("lam", .arr (ndOfNats [2, 2] [0, 0, 1, 1] rfl)),
   ("data", .arr (ndOfNats [2, 4] [5, 6, 7, 8, 6, 8, 9, 9] rfl))]

/-- The file system with this data set. -/
def tideFiles : FileEnv := ⟨false, fun _ => some (.pickle tideDs)⟩

theorem tideDs_file : AdcircFile tideDs 2 2 4 (ndOfNats [2, 2] [0, 2, 0, 2] rfl)
    (ndOfNats [4] [1, 2, 3, 4] rfl) (ndOfNats [4] [3, 4, 5, 6] rfl) (ndOfNats [2, 2] [0, 0, 1, 1] rfl)
    (ndOfNats [2, 4] [5, 6, 7, 8, 6, 8, 9, 9] rfl) (ndOfNats [2] [1, 1] rfl) where
  no_dist := rfl
  has_domain := rfl
  no_sensors := rfl
  has_times := rfl
  has_ref := rfl
  no_sd := rfl
  has_tv := rfl
  no_meas := rfl
  has_lam := rfl
  has_data := rfl
  dom_len := rfl
  times_shape := rfl
  tv_len := rfl
  lam_shape := rfl
  data_shape := rfl
  ref_len := rfl
  ref_in := by
    intro j hj
    have : j < 2 := hj
    interval_cases j <;> simp [ndOfNats]

/-- The times of the example inside a window. -/
theorem tide_inside (a b : ℝ) {l : List ℕ} (h : ∀ t, t ∈ l ↔ t < 4 ∧ a < (t : ℝ) + 1 ∧ (t : ℝ) + 1 < b)
    (hl : l.Pairwise (· < ·)) : inside (ndOfNats [4] [1, 2, 3, 4] rfl) 4 (a, b) = l := by
  refine pairwise_ext (List.pairwise_lt_range.filter _) hl fun t => ?_
  rw [h t]
  refine mem_inside.trans ?_
  refine and_congr_right fun ht => ?_
  interval_cases t <;> simp [ndOfNats] <;> norm_num

/-- The windows of the example: times 1 and 2, then times 3 and 4. -/
theorem tide_windows : ∀ w ∈ ([0, 2.5] : List ℝ).zip ([2.5, 5] : List ℝ),
    1 ≤ (inside (ndOfNats [4] [1, 2, 3, 4] rfl) 4 w).length := by
  intro w hw
  have h : w = (0, 2.5) ∨ w = (2.5, 5) := by simpa using hw
  rcases h with rfl | rfl
  · rw [tide_inside (l := [0, 1]) 0 2.5 _ (by simp)]
    · simp
    · intro t
      constructor
      · intro h
        have : t = 0 ∨ t = 1 := by simpa using h
        rcases this with rfl | rfl <;> norm_num
      · rintro ⟨h1, h2, h3⟩
        interval_cases t <;> first | (norm_num at h3; done) | norm_num
  · rw [tide_inside (l := [2, 3]) 2.5 5 _ (by simp)]
    · simp
    · intro t
      constructor
      · intro h
        have : t = 2 ∨ t = 3 := by simpa using h
        rcases this with rfl | rfl <;> norm_num
      · rintro ⟨h1, h2, h3⟩
        interval_cases t <;> first | (norm_num at h2; done) | norm_num

theorem tide_returns (X : Ext) (save : Bool) : ∃ out s', adcircSolve tideFiles solG (decomp X) solEnv solPe
    (fun _ k => List.replicate k 0) [("wind_speed_mult_0", [1])] "a.pkl" 1 [0, 2.5] [2.5, 5] [] [] 0.05
    "wind_speed_mult_0" (-10) save ["all"] none 0 = (.ok out, s') :=
  C117_returns (n := 2) (T := 4) (by rfl) tideDs_file X _ (by simp) [] [] 0.05 save ["all"] none 0
    (by
      intro j hj
      interval_cases j <;> simp [ndOfNats])
    (by norm_num) rfl one_pos (by norm_num) (by norm_num) tide_windows (by simp)
    (fun _ _ _ _ _ => rfl) ⟨[1], rfl⟩ (fun P M D w Q _ _ _ _ _ _ hy => ⟨_, rfl, by simpa using hy⟩)

/-- **The claim is false of the code**: the name of the third figure is not formatted, so that the figures
of all windows have the same name. -/
theorem C117_files_claim_refuted : ¬ C117_files_claim := by
  intro hC
  obtain ⟨X, -⟩ := ext_exists
  obtain ⟨out, s', h⟩ := tide_returns X true
  have hn := hC ℕ tideFiles solG (decomp X) solEnv solPe (fun _ k => List.replicate k 0)
    [("wind_speed_mult_0", [1])] "a.pkl" 1 [0, 2.5] [2.5, 5] none 0 s' out (by norm_num) h
  have hq := C117_overwritten (n := 2) (T := 4) (by rfl) tideDs_file (decomp X) _ (by simp) h (by simp)
  obtain ⟨M, -, -, hF⟩ := C117_windows (n := 2) (T := 4) (by rfl) tideDs_file (decomp X) _ (by simp) h
  have hl : out.windows.length = 2 := by rw [← hF.length_eq]; simp
  obtain ⟨x, y, hxy⟩ := List.length_eq_two.1 hl
  rw [hxy] at hn hq
  simp only [List.flatMap_cons, List.flatMap_nil, List.append_nil] at hn
  exact (List.nodup_append.1 hn).2.2 _ (hq x (by simp)) _ (hq y (by simp)) rfl

/-! ## The mesh -/

/-- The full claim: the mesh figure shows the requested values. -/
def C117_mesh_claim : Prop :=
  ∀ (grid : Grid) (value : String) (v : List ℝ), value ≠ "DP" → grid.lookup value = some v →
    ∀ cutoff out, meshValues grid value cutoff = .ok out → out = v

/-- What the mesh figure shows: for "DP" the negated depths, cut off below; for any other name in the data
set the values of "wind_speed_mult_0"; `ValueError` for a name that is not there. -/
theorem C117_mesh_exact (grid : Grid) (value : String) (cutoff : ℝ) :
    (∀ d, value = "DP" → grid.lookup "DP" = some d →
      meshValues grid value cutoff = .ok (d.map fun x => if -x < cutoff then cutoff else -x)) ∧
    (∀ v u, value ≠ "DP" → grid.lookup value = some v → grid.lookup "wind_speed_mult_0" = some u →
      meshValues grid value cutoff = .ok u) ∧
    (value ≠ "DP" → grid.lookup value = none → meshValues grid value cutoff = .error .valueError) := by
  refine ⟨?_, ?_, ?_⟩
  · rintro d rfl h
    unfold meshValues
    rw [if_pos rfl, h]
    change Except.ok _ = _
    congr 2
    funext x
    split_ifs with hx
    · exact max_eq_right hx.le
    · exact max_eq_left (not_lt.1 hx)
  · intro v u h1 h2 h3
    unfold meshValues
    rw [if_neg h1, h2, h3]
    rfl
  · intro h1 h2
    unfold meshValues
    rw [if_neg h1, h2]
    rfl

/-- **C117 (mesh), true part**: the wind speed multiplier. -/
theorem C117_mesh_partial {grid : Grid} {v : List ℝ} (h : grid.lookup "wind_speed_mult_0" = some v)
    (cutoff : ℝ) : meshValues grid "wind_speed_mult_0" cutoff = .ok v :=
  (C117_mesh_exact grid "wind_speed_mult_0" cutoff).2.1 v v (by decide) h h

/-- **The claim is false of the code**: asking for the pressure draws the wind speed multiplier. -/
theorem C117_mesh_claim_refuted : ¬ C117_mesh_claim := by
  intro h
  have := h [("wind_speed_mult_0", [1]), ("pressure", [2])] "pressure" [2] (by decide) rfl 0 [1]
    ((C117_mesh_exact _ _ _).2.1 [2] [1] (by decide) rfl rfl)
  simp at this

/-! ## Seeds and `sigma` -/

theorem load_seeded_adcirc (E : FileEnv) (G : Rng σ) (path : String) (sensors : ND) (sigma : ℝ) (k : ℕ)
    (s s' : σ) : (loadAdcirc E G path sensors sigma (some k) s).1 =
      (loadAdcirc E G path sensors sigma (some k) s').1 := by
  unfold loadAdcirc loadThen
  cases E.read path with
  | error e => rfl
  | ok ds =>
    rw [PyM.lift_ok_bind]
    cases runObj (loadDs ds (.str "lam") (.str "data")
        [("true_vals", .str "true_vals"), ("measurements", .none), ("std_dev", .num 0.05),
         ("sample_dist", .str "uniform"), ("domain", .str "domain"), ("lam_ref", .str "lam_ref"),
         ("sensors", .arr sensors), ("times", .str "times")]) {} with
    | error e => rfl
    | ok P =>
      rw [PyM.lift_ok_bind]
      unfold Poisson.addNoise
      obtain ⟨h1, h2⟩ := meas_seeded G P 0.05 k s s'
      rcases hm : measurementsFromReference G none (some 0.05) (some k) (P, s) with ⟨r, P1, t⟩
      rcases hm' : measurementsFromReference G none (some 0.05) (some k) (P, s') with ⟨r', P1', t'⟩
      rw [hm, hm'] at h1 h2
      obtain rfl : r = r' := h1
      obtain rfl : P1 = P1' := h2
      cases r <;> rfl

/-- **C117 (seed).** With a seed, what `adcirc_solve` shows (or raises) does not depend on the state of the
generator; and it never depends on `sigma`. -/
theorem C117_seeded (E : FileEnv) (G : Rng σ) (ext : Decomp) (env : Env) (pe : PlotEnv)
    (choice : ℕ → ℕ → List ℕ) (grid : Grid) (path : String) (k : ℕ) (t1 t2 p1 p2 : List ℝ)
    (sigma sigma' : ℝ) (mv : String) (cutoff : ℝ) (save : Bool) (figs : List String) (seed : ℕ) (s s' : σ) :
    (adcircSolve E G ext env pe choice grid path k t1 t2 p1 p2 sigma mv cutoff save figs (some seed) s).1 =
      (adcircSolve E G ext env pe choice grid path k t1 t2 p1 p2 sigma' mv cutoff save figs (some seed)
        s').1 := by
  unfold adcircSolve
  have h : (loadAdcirc E G path ⟨[1, 2], [0, 0], rfl⟩ sigma (some seed) s).1 =
      (loadAdcirc E G path ⟨[1, 2], [0, 0], rfl⟩ sigma' (some seed) s').1 :=
    load_seeded_adcirc E G path _ sigma seed s s'
  rw [PyM.bind_run, PyM.bind_run]
  rcases h1 : loadAdcirc E G path ⟨[1, 2], [0, 0], rfl⟩ sigma (some seed) s with ⟨a, u⟩
  rcases h2 : loadAdcirc E G path ⟨[1, 2], [0, 0], rfl⟩ sigma' (some seed) s' with ⟨a', u'⟩
  rw [h1, h2] at h
  obtain rfl : a = a' := h
  cases a with
  | error e => rfl
  | ok l => rfl

/-- The hypotheses of C116 and C117 hold for the example: two windows, every figure. -/
example (X : Ext) : ∃ out s', adcircSolve tideFiles solG (decomp X) solEnv solPe
    (fun _ k => List.replicate k 0) [("wind_speed_mult_0", [1])] "a.pkl" 1 [0, 2.5] [2.5, 5] [] [] 0.05
    "wind_speed_mult_0" (-10) false ["all"] none 0 = (.ok out, s') ∧ out.windows.length = 2 := by
  obtain ⟨out, s', h⟩ := tide_returns X false
  obtain ⟨M, -, -, hF⟩ := C117_windows (n := 2) (T := 4) (by rfl) tideDs_file (decomp X) _ (by simp) h
  exact ⟨out, s', h, by rw [← hF.length_eq]; simp⟩

/-! ### Further cases meeting the hypotheses -/

/-- C116: the windows `(0.5, 1.5)` and `(0.25, 1.75)` contain the same of the times `0, 1, 2`, and `(5, 9)` none. -/
example (ext : Decomp) (choice : ℕ → ℕ → List ℕ) (env : Env) (pe : PlotEnv) :
    timeWindow ext env pe choice demoST none (0.5, 1.5) "pca" 1 2 none true true ["all"] =
      timeWindow ext env pe choice demoST none (0.25, 1.75) "pca" 1 2 none true true ["all"] ∧
    timeWindow ext env pe choice demoST none (5, 9) "pca" 1 2 none true true ["all"] = .error .valueError :=
  ⟨C116_same_times ext choice demoST rfl _ _ (by
      intro x hx
      simp [ndOfNats] at hx
      rcases hx with rfl | rfl | rfl <;> norm_num) _ _ _ _ _ _ _ _,
    C116_empty ext choice demoST_ready rfl (by
      intro x hx
      simp [ndOfNats] at hx
      rcases hx with rfl | rfl | rfl <;> norm_num) _ _ _ _ _ _ _ _⟩

/-- C117: four windows on a file of four times. -/
example (X : Ext) (s : ℕ) : (adcircSolve tideFiles solG (decomp X) solEnv solPe
    (fun _ k => List.replicate k 0) [("wind_speed_mult_0", [1])] "a.pkl" 1 [0, 1, 2, 3] [2, 3, 4, 5] [] [] 0.05
    "wind_speed_mult_0" (-10) false ["all"] none s).1 = .error .indexError :=
  C117_four_windows (n := 2) (T := 4) (by rfl) tideDs_file (decomp X) _ (by simp) _ 1 [] [] 0.05 _ _ false none s
    (by norm_num) (.inr (by simp)) (by simp)

example : meshValues [("depth", [4]), ("wind_speed_mult_0", [1, 2])] "wind_speed_mult_0" (-10) = .ok [1, 2] :=
  C117_mesh_partial rfl (-10)

end Adcirc

end Verif
