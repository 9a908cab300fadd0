import Verif.Props.Paper
import Verif.Props.AdcircScipy
import Verif.Props.Comparison
import Verif.Props.ExamplesWme
import Verif.Props.ExamplesHighDim

/-!
# C123: `mud_paper` returns, and what its figures overwrite

`/repo/src/mud/examples/examples.py:850-1060`.
-/

open Matrix

namespace Verif

namespace Paper

open ND SpecST STP Prep Poisson Adcirc Cli

variable {σ ρ : Type} {user : ℕ → ℝ → ℕ → ℝ}

theorem ok_of_fst {τ α : Type} {x : PyM τ α} {s : τ} {a : α} (h : (x s).1 = .ok a) : ∃ t, x s = (.ok a, t) :=
  ⟨_, Prod.ext h rfl⟩

theorem run_setSeed (G : Gen σ) (seed : Option ℕ) (s : σ) :
    setSeed G seed s = (.ok (), startState G.normal seed s) := by
  cases seed <;> rfl

theorem run_setSeed_np (G : Gen σ) (seed : Option ℕ) (s : σ × ρ) :
    onNp (setSeed G seed) s = (.ok (), (startState G.normal seed s.1, s.2)) := by
  cases seed <;> rfl

theorem run_onNp {α : Type} {x : PyM σ α} {s t : σ} {r : ρ} {a : α} (h : x s = (.ok a, t)) :
    onNp x (s, r) = (.ok a, (t, r)) := by
  unfold onNp
  rw [h]

theorem ones_ne : (!![1, 1] : Matrix (Fin 1) (Fin 2) ℝ) ≠ 0 := fun h0 => by
  have := congrFun (congrFun h0 0) 0
  simp at this

/-- The runs of figures 3 and 5. -/
theorem contours_run (svd1 : (Fin 2 → ℝ) → SvdOut 1 2) (hsvd : ∀ r, IsSvd (.of fun _ => r) (svd1 r))
    (plot_fig : Option Contours.PlotFig) (save : Bool) {c v α : ℝ} (hα : 0 < α)
    (hS : (!![1, c; c, 0.5] : Matrix (Fin 2) (Fin 2) ℝ).PosDef) (hv : 0 < v) :
    ∃ out, Contours.runContours svd1 plot_fig save
        { cov_i := some ⟨2, 2, !![1, c; c, 0.5]⟩, cov_o := some ⟨1, 1, !![v]⟩, alpha := some α } = .ok out ∧
      (∃ mu mp ls : Fin 2 → ℝ, out.prob.mud = some (.col mu) ∧ out.prob.map = some (.col mp) ∧
        out.prob.ls = some (.col ls) ∧
        (∀ j, mu j = 0.25 + (![1 + c, c + 0.5] j) * 0.5 / (1.5 + 2 * c)) ∧
        (∀ j, mp j = 0.25 + α * (![1 + c, c + 0.5] j) * 0.5 / (α * (1.5 + 2 * c) + v)) ∧
        ∀ j, ls j = 0.5) ∧
      out.saved = if save then (Contours.sheets.filter fun sh => Contours.wanted plot_fig sh.name).map (·.file)
        else [] := by
  have hC : (!![v] : Matrix (Fin 1) (Fin 1) ℝ).PosDef := posDef_fin_one hv
  obtain ⟨out, h, -, ⟨u, v', w, hu, hu', hv, hv', hw, hw'⟩, -, hsv⟩ :=
    Contours.C118_figures !![1, 1] ones_ne ![0] ![1] ![0.25, 0.25] _ hS _ hC α hα svd1 hsvd plot_fig save
  obtain ⟨p1, p2, p3⟩ := Contours.C118_points ones_ne hS hC hα ![0] ![1] ![0.25, 0.25]
  refine ⟨out, (Contours.C118_defaults svd1 plot_fig save _).1.trans h, ⟨u, v', w, hu', hv', hw', ?_, ?_, ?_⟩, hsv⟩
  · rw [returns_unique hu p1, Fin.forall_fin_two]
    constructor <;> norm_num [Contours.gap, Contours.predVar] <;> ring
  · rw [returns_unique hv p2, Fin.forall_fin_two]
    constructor <;> norm_num [Contours.gap, Contours.predVar] <;> ring
  · rw [returns_unique hw p3, Fin.forall_fin_two]
    constructor <;> norm_num

/-- What figure 3 shows and saves. -/
theorem fig3_run (svd1 : (Fin 2 → ℝ) → SvdOut 1 2) (hsvd : ∀ r, IsSvd (.of fun _ => r) (svd1 r)) :
    ∃ out, Contours.runContours svd1 (some (.text "all")) true {} = .ok out ∧
      out.prob.mud = some (.col ![0.625, 0.375]) ∧
      out.saved = ["data_mismatch_contour.png", "tikhonov_contour.png", "consistent_contour.png",
        "classical_solution.png", "consistent_solution.png", "map_compare_contour.png"] := by
  obtain ⟨out, h, ⟨mu, mp, ls, h1, h2, h3, e1, e2, e3⟩, hs⟩ := contours_run svd1 hsvd (some (.text "all")) true
    (c := -0.25) (v := 1) one_pos (posDef_fin_two one_pos (by norm_num)) one_pos
  refine ⟨out, h, ?_, ?_⟩
  · rw [h1]
    congr 2
    funext j
    rw [e1]
    revert j
    rw [Fin.forall_fin_two]
    constructor <;> norm_num
  · rw [hs, if_pos rfl]
    rfl

/-- What figure 5 shows and saves. -/
theorem fig5_run (svd1 : (Fin 2 → ℝ) → SvdOut 1 2) (hsvd : ∀ r, IsSvd (.of fun _ => r) (svd1 r)) :
    ∃ out, Contours.runContours svd1 (some (.text "comparison")) true lin_prob = .ok out ∧
      out.prob.mud = some (.col ![0.75, 0.25]) ∧ out.prob.map = some (.col ![0.5, 0.25]) ∧
      out.saved = ["map_compare_contour.png"] := by
  obtain ⟨out, h, ⟨mu, mp, ls, h1, h2, h3, e1, e2, e3⟩, hs⟩ := contours_run svd1 hsvd
    (some (.text "comparison")) true (c := -0.5) (v := 0.5) (α := 1.0) (by norm_num)
    (posDef_fin_two one_pos (by norm_num)) (by norm_num)
  refine ⟨out, ?_, ?_, ?_, ?_⟩
  · rw [← h]
    have : (1.0 : ℝ) = 1 := by norm_num
    unfold lin_prob
    rw [this]
    rfl
  · rw [h1]
    congr 2
    funext j
    rw [e1]
    revert j
    rw [Fin.forall_fin_two]
    constructor <;> norm_num
  · rw [h2]
    congr 2
    funext j
    rw [e2]
    revert j
    rw [Fin.forall_fin_two]
    constructor <;> norm_num
  · rw [hs, if_pos rfl]
    rfl

/-- What the figures need of the world: NumPy's uniform numbers lie between 0 and 1 and are not all equal
among 1000, the normal numbers drawn after seeding with 21 are not all zero, drawing does not raise, and
`numpy.linalg.svd`, `scipy.stats.gaussian_kde` and scikit-learn do what they document. -/
structure WorldOk (W : World σ ρ) (X : Ext) (user : ℕ → ℝ → ℕ → ℝ) : Prop where
  unif : ∀ t, 0 ≤ (W.G.unif t).1 ∧ (W.G.unif t).1 ≤ 1
  differ : ∀ s, ∃ i j, compLam W.G 1000 s i ≠ compLam W.G 1000 s j
  ref : ∀ s, hdRef W.G 100 100 (some 21) s ≠ 0
  below : ∀ n s, 0 < n → (W.R.below n s).1 < n
  ext : W.ext = decomp X
  correct : X.Correct
  env : W.env = scipyEnv user
  draw : ∀ a c R i n, W.pe.draw a c R i n = .ok ()
  closest : 2 ≤ W.closest.length
  svd1 : ∀ r, IsSvd (.of fun _ => r) (W.svd1 r)
  svd : ∀ A : Arr2, IsSvd A.m (W.svd A)
  choice : ∀ n k, (W.choice n k).length = k
  wind : ∃ v, W.grid.lookup "wind_speed_mult_0" = some v
  depth : ∃ v, W.grid.lookup "DP" = some v

/-- Figures 1 to 6 are drawn. -/
theorem linearFigs_returns {W : World σ ρ} {X : Ext} (h : WorldOk W X user) (seed : Option ℕ) (s : σ) :
    ∃ f t, linearFigs W seed s = (.ok f, t) := by
  have hcmp : ∀ (Ns : List ℕ) (s : σ), (∀ N ∈ Ns, 1 ≤ N) → ∃ os t,
      runComparison W.env W.pe W.G 5 1000 0.25 0.1 (-1) 1 true Ns s = (.ok os, t) := by
    intro Ns s hNs
    obtain ⟨os, ho, -⟩ := C108_unit_partial (user := user) h.draw W.G h.unif (p := 5) (n := 1000) (by norm_num)
      h.differ 0.25 (sigma := 0.1) (by norm_num) (a := -1) (b := 1) (by norm_num) le_rfl true Ns hNs s
    rw [← h.env] at ho
    obtain ⟨t, ht⟩ := ok_of_fst ho
    exact ⟨os, t, ht⟩
  obtain ⟨f1, s1, h1⟩ := hcmp [1] (startState W.G.normal seed s) (by simp)
  obtain ⟨f2, s2, h2⟩ := hcmp [5, 10, 20] (startState W.G.normal seed s1) (by simp)
  obtain ⟨f3, h3, -⟩ := fig3_run W.svd1 h.svd1
  obtain ⟨_, _, _, P, _, _, s4, h4, -⟩ := C105_covariances W.G (fun t => (h.unif t).1) 20 5 (by norm_num)
    (c := 0.1) (by norm_num) [10, 100, 1000, 10000] (by simp) (by simp) none
    (startState W.G.normal seed (startState W.G.normal seed s2))
  obtain ⟨f5, h5, -⟩ := fig5_run W.svd1 h.svd1
  obtain ⟨_, D, R, -, -, h6, -⟩ := C107_exact (fun t => (h.unif t).1) h.svd (n := 100) (by norm_num) (some 21)
    (startState W.G.normal seed (startState W.G.normal seed s4)) (h.ref _)
  obtain ⟨s6, h6⟩ := ok_of_fst h6
  unfold linearFigs
  rw [bind_of_ok (run_setSeed W.G seed s), bind_of_ok h1, bind_of_ok (run_setSeed W.G seed s1), bind_of_ok h2,
    bind_of_ok (run_setSeed W.G seed s2), h3, PyM.lift_ok_bind, bind_of_ok (run_setSeed W.G seed _),
    bind_of_ok h4, bind_of_ok (run_setSeed W.G seed s4), h5, PyM.lift_ok_bind,
    bind_of_ok (run_setSeed W.G seed _), bind_of_ok h6]
  exact ⟨_, _, rfl⟩

theorem isSome_of_read {E : FileEnv} {path : String} {ds : DataSet} (h : E.read path = .ok ds) :
    (E.file path).isSome = true := by
  unfold FileEnv.read at h
  obtain ⟨b, -, h⟩ := Py.bind_eq_ok.1 h
  cases hf : E.file path with
  | none => rw [hf] at h; cases h
  | some _ => rfl

/-- Figure 9 and its table. -/
theorem trials_returns {W : World σ ρ} {X : Ext} (h : WorldOk W X user) {E : FileEnv} {path : String}
    {ds : DataSet} {n p S : ℕ} {dom sensors tv lam data : ND} (hread : E.read path = .ok ds)
    (hf : PoissonFile ds n p S dom sensors tv lam data)
    (hdom : ∀ j < p, dom.data.getD (2 * j) 0 < dom.data.getD (2 * j + 1) 0)
    (hn : 2 ≤ n) (hp : 2 ≤ p) (hS : 2 ≤ S) (hind : Independent n S data) (seed : Option ℕ) (s : σ × ρ) :
    ∃ r s', trialsTable W E path seed s = (.ok r, s') := by
  obtain ⟨⟨P, ts⟩, s1, hr⟩ := C112_returns_scipy (user := user) (pe := W.pe) (G := W.G.normal) hread hf h.below X
    h.correct hdom hn hp hS h.closest h.draw hind W.x_range (Ns := [5, 50, 500]) (by simp) "random" true true
    0.05 seed s
  have hrows : ∃ rows, ts.zipIdx.mapM (trialRow (scipyEnv user) [5, 50, 500]) = .ok rows := by
    obtain ⟨P', M, D, idx, s'', -, -, -, -, -, -, -, er⟩ := runTrials_eq (G := W.G.normal) (env := scipyEnv user)
      (pe := W.pe) hread hf h.below (decomp X) W.closest W.x_range ([5, 50, 500].map fun N : ℕ => (N : ℤ))
      "random" true true 0.05 seed s
    rw [er] at hr
    obtain ⟨ts', hts, h2⟩ := Py.bind_eq_ok.1 (Prod.mk.inj hr).1
    cases h2
    exact rows_exist (mapM_forall₂ hts)
  obtain ⟨rows, hrows⟩ := hrows
  unfold trialsTable
  rw [h.ext, h.env]
  have hr' : runTrials E W.G.normal W.R (decomp X) (scipyEnv user) W.pe W.closest W.x_range path [5, 50, 500]
    "random" true true 0.05 seed s = (.ok (P, ts), s1) := hr
  rw [bind_of_ok hr']
  dsimp only
  rw [hrows, PyM.lift_ok_bind]
  exact ⟨_, _, rfl⟩

/-- Figures 10 to 13. -/
theorem tides_returns {W : World σ ρ} {X : Ext} (h : WorldOk W X user) {E : FileEnv} {path : String}
    {ds : DataSet} {n T : ℕ} {dom times tv lam data ref : ND} (hread : E.read path = .ok ds)
    (hf : AdcircFile ds n 2 T dom times tv lam data ref)
    (hdom : ∀ j < 2, dom.data.getD (2 * j) 0 < dom.data.getD (2 * j + 1) 0) (hT : 0 < T) (hn : 2 ≤ n)
    (hw : ∀ w ∈ [W.t1, W.t2, W.t3], 2 ≤ (inside times T w).length ∧ WindowIndep n T data times w) (s : σ) :
    ∃ l s', loadAdcirc E W.G.normal path ⟨[1, 2], [0, 0], rfl⟩ 0.05 (some 21) s = (.ok l, s') ∧
      ∃ t, tides W l.2 = .ok t := by
  obtain ⟨P, M, D, e, hr, hD, hDs, hDd, href, hsd, -, hM⟩ := C110_adcirc_partial (G := W.G.normal) (S := 1)
    (sensors := ⟨[1, 2], [0, 0], rfl⟩) (ref := some ref) hread hf.no_dist
    hf.has_domain hf.no_sensors hf.has_times hf.has_ref hf.no_sd hf.has_tv hf.no_meas hf.has_lam hf.has_data
    hf.dom_len (by unfold HasLen; rfl) (by unfold HasLen; rw [hf.times_shape]; rfl)
    (by rw [hf.tv_len, one_mul]) hf.lam_shape (by rw [hf.data_shape, one_mul]) (by
      intro r hr j hj
      obtain rfl : ref = r := by simpa using hr
      exact ⟨hf.ref_len ▸ hj, hf.ref_in j hj⟩) 0.05 (some 21) s
  refine ⟨_, _, e, ?_⟩
  have hl : times.data.length = T := by rw [times.size_eq, hf.times_shape]; simp
  have hord := domain_order hDs hDd hdom
  obtain ⟨v, hv⟩ := h.wind
  obtain ⟨d, hd⟩ := h.depth
  have m1 : meshValues W.grid "wind_speed_mult_0" (-10) = .ok v := by
    unfold meshValues
    rw [if_neg (by decide), hv]
    rfl
  have m2 : ∃ d', meshValues W.grid "DP" (-10) = .ok d' := by
    unfold meshValues
    rw [if_pos rfl, hd]
    exact ⟨_, rfl⟩
  obtain ⟨d', m2⟩ := m2
  have hfull : ∃ f, tsPlot W.choice P [W.t1, W.t2, W.t3] = .ok f := by
    unfold tsPlot
    have := C98_exact hr W.choice h.choice (ms := none) (mt := none) listLike_none listLike_none
      (a := List.range n) (b := List.range T) (c := 0) (k := 0) rfl rfl one_pos (.inl rfl)
      (by simp; omega) hl rfl rfl 50
    have this' : P.plotTs W.choice none none (some (.int 0)) 50 = _ := this
    rw [this', Py.ok_bind, raiseIf_false (by simp)]
    exact ⟨_, rfl⟩
  obtain ⟨f, hfull⟩ := hfull
  have hwin : ∀ w ∈ [W.t1, W.t2, W.t3], ∀ k, 0 < k → k ≤ 2 → ∀ yl : Option ℕ, (∀ m ∈ yl, 2 ≤ m) →
      ∃ o, paperWindow W P w k yl = .ok o := by
    intro w hw' k hk0 hk yl hyl
    unfold paperWindow
    rw [h.ext, h.env]
    exact C116_returns_scipy X h.correct W.choice h.choice hr hf.times_shape rfl hsd (by norm_num) hD hDs hord hn
      le_rfl href (by simp [ND.ravel, hf.ref_len]) hk0 hk (le_trans hk (hw w hw').1) h.draw (hw w hw').2 none 50
      hyl true true ["updated_dist"]
  obtain ⟨a1, e1⟩ := hwin W.t1 (by simp) 1 one_pos (by norm_num) (some 2) (by simp)
  obtain ⟨a2, e2⟩ := hwin W.t1 (by simp) 2 two_pos le_rfl none (by simp)
  obtain ⟨b1, e3⟩ := hwin W.t2 (by simp) 1 one_pos (by norm_num) (some 2) (by simp)
  obtain ⟨b2, e4⟩ := hwin W.t2 (by simp) 2 two_pos le_rfl (some 2) (by simp)
  obtain ⟨c1, e5⟩ := hwin W.t3 (by simp) 1 one_pos (by norm_num) (some 2) (by simp)
  obtain ⟨c2, e6⟩ := hwin W.t3 (by simp) 2 two_pos le_rfl (some 2) (by simp)
  unfold tides
  dsimp only
  rw [m1, Py.ok_bind, m2, Py.ok_bind, hfull, Py.ok_bind, e1, Py.ok_bind, e2, Py.ok_bind, e3, Py.ok_bind, e4,
    Py.ok_bind, e5, Py.ok_bind, e6, Py.ok_bind]
  exact ⟨_, rfl⟩

/-- **C123 (it returns).** With the two data files in place, of the expected form, with proper domains and
without affine relations, and at least two instants in each window, `mud_paper` returns, from any states of
the generators and for any seed. -/
theorem C123_returns {W : World σ ρ} {X : Ext} (h : WorldOk W X user) {sp : String} {ds ds' : DataSet}
    {n p S n' T : ℕ} {dom sensors tv lam data dom' times' tv' lam' data' ref' : ND}
    (hread : W.disk.toFileEnv.read (join (join sp "data") "poisson_data.pkl") = .ok ds)
    (hf : PoissonFile ds n p S dom sensors tv lam data)
    (hdom : ∀ j < p, dom.data.getD (2 * j) 0 < dom.data.getD (2 * j + 1) 0)
    (hn : 2 ≤ n) (hp : 2 ≤ p) (hS : 2 ≤ S) (hind : Independent n S data)
    (hread' : W.disk.toFileEnv.read (join (join sp "data") "adcirc-si.pkl") = .ok ds')
    (hf' : AdcircFile ds' n' 2 T dom' times' tv' lam' data' ref')
    (hdom' : ∀ j < 2, dom'.data.getD (2 * j) 0 < dom'.data.getD (2 * j + 1) 0) (hT : 0 < T) (hn' : 2 ≤ n')
    (hw : ∀ w ∈ [W.t1, W.t2, W.t3], 2 ≤ (inside times' T w).length ∧ WindowIndep n' T data' times' w)
    (seed : Option ℕ) (s : σ × ρ) : ∃ o s', mudPaper W sp seed s = (.ok o, s') := by
  obtain ⟨f, t, h1⟩ := linearFigs_returns h seed (startState W.G.normal seed s.1)
  have h2 : poissonData W (join (join sp "data") "poisson_data.pkl") seed t = (.ok W.disk, t) := by
    unfold poissonData
    rw [if_pos (isSome_of_read hread)]
    rfl
  obtain ⟨sol, s3, h3⟩ := C113_returns_scipy (user := user) (pe := W.pe) (G := W.G.normal) hread hf h.below X
    h.correct W.closest hdom hn hp hS h.draw hind 0.05 seed ["response", "qoi"] "random"
    (gs := [(0, 5), (5, 50), (50, -1)]) (styles := 3) (by simp) (startState W.G.normal seed t, s.2)
  rw [← h.ext, ← h.env] at h3
  obtain ⟨r, s4, h4⟩ := trials_returns h hread hf hdom hn hp hS hind seed s3
  have h5 : adcircData W W.disk (join (join sp "data") "adcirc-si.pkl") = .ok W.disk := by
    unfold adcircData
    rw [if_pos (isSome_of_read hread')]
    rfl
  obtain ⟨l, s6, h6, td, h7⟩ := tides_returns h hread' hf' hdom' hT hn' hw s4.1
  unfold mudPaper
  rw [bind_of_ok (run_setSeed_np W.G seed s), bind_of_ok (run_onNp h1), bind_of_ok (run_onNp h2),
    bind_of_ok (run_setSeed_np W.G seed _), bind_of_ok h3, bind_of_ok h4]
  rw [h5, PyM.lift_ok_bind, bind_of_ok (run_onNp (r := s4.2) h6), h7, PyM.lift_ok_bind]
  exact ⟨_, _, rfl⟩

/-! ## What is shown -/

/-- **C123 (table).** With the Poisson data in place: the table has the rows 5, 50 and 500; the row for `N`
shows the MUD estimate from the first `N` sensors, in one order in which each sensor appears once, and the
mean of its ratio. -/
theorem C123_table {W : World σ ρ} {sp : String} {ds : DataSet} {n p S : ℕ} {dom sensors tv lam data : ND}
    (hread : W.disk.toFileEnv.read (join (join sp "data") "poisson_data.pkl") = .ok ds)
    (hf : PoissonFile ds n p S dom sensors tv lam data) (hR : ∀ n s, 0 < n → (W.R.below n s).1 < n)
    {seed : Option ℕ} {s s' : σ × ρ} {o : Out} (h : mudPaper W sp seed s = (.ok o, s')) :
    ∃ M idx, Ready o.trials.1 n p S 1 lam data sensors ⟨[1], [0], rfl⟩ (some M) ∧ idx.Perm (List.range S) ∧
      List.Forall₂ (RowOf W.ext W.env o.trials.1 idx) [5, 50, 500] o.table := by
  obtain ⟨u, K, ⟨v, -, h2⟩, s1, s2, s3, -, h4, -⟩ := stages h
  unfold poissonData at h2
  rw [if_pos (isSome_of_read hread)] at h2
  cases h2
  unfold trialsTable at h4
  obtain ⟨⟨P, ts⟩, s4, h5, h4⟩ := bind_returns h4
  obtain ⟨rows, s5, h6, h4⟩ := bind_returns h4
  obtain ⟨h6, -⟩ := lift_returns h6
  have h7 : ((P, ts), rows) = (o.trials, o.table) := Except.ok.inj (Prod.mk.inj h4).1
  obtain ⟨e1, e2⟩ := Prod.mk.inj h7
  obtain ⟨P', M, D, idx, s'', hr, -, -, -, -, hM, ho, er⟩ := runTrials_eq (G := W.G.normal) (env := W.env)
    (pe := W.pe) hread hf hR W.ext W.closest W.x_range ([5, 50, 500].map fun N : ℕ => (N : ℤ)) "random" true
    true 0.05 seed s1
  have h5' := h5.symm.trans er
  obtain ⟨ts', hts, h8⟩ := Py.bind_eq_ok.1 (Prod.mk.inj h5').1.symm
  cases h8
  rw [← e1, ← e2]
  refine ⟨M, idx, hr, ho.1, ?_⟩
  have hF := mapM_forall₂ hts
  rw [List.forall₂_map_left_iff] at hF
  refine rows_spec (k := 0) (all := [5, 50, 500]) ?_ hF h6
  intro j hj
  have : j < 3 := hj
  interval_cases j <;> rfl

/-- **C123 (windows).** If the ADCIRC file has the expected form: figures 11 to 13 show, for each of the three
windows with one and with two components, the result for the instants strictly inside the window
(`WindowOf`), with measurements that are the true values plus the noise seeded with 21. -/
theorem C123_windows {W : World σ ρ} {sp : String} {seed : Option ℕ} {s s' : σ × ρ} {o : Out}
    (h : mudPaper W sp seed s = (.ok o, s')) (hch : ∀ n k, (W.choice n k).length = k)
    {ds : DataSet} {n p T : ℕ} {dom times tv lam data ref : ND}
    (hread : o.disk.toFileEnv.read (join (join sp "data") "adcirc-si.pkl") = .ok ds)
    (hf : AdcircFile ds n p T dom times tv lam data ref) :
    ∃ M, Ready o.tides.prob n p 1 T lam data ⟨[1, 2], [0, 0], rfl⟩ times (some M) ∧
      (∀ j < T, M.get [j, 0] = tv.data.getD j 0 + 0.05 * nthDraw W.G.normal (W.G.normal.seed 21) j) ∧
      List.Forall₂ (fun (w : (ℝ × ℝ) × ℕ) x =>
        WindowOf W.ext W.env o.tides.prob none n 1 T data times M 0.05 (inside times T w.1) "pca" w.2 50 true true
          ["updated_dist"] x)
        [(W.t1, 1), (W.t1, 2), (W.t2, 1), (W.t2, 2), (W.t3, 1), (W.t3, 2)] o.tides.windows := by
  obtain ⟨u, K, -, s1, s2, s3, -, -, -, l, h6, h7⟩ := stages h
  obtain ⟨P, M, D, e, hr, hD, hDs, hDd, href, hsd, -, hM⟩ := C110_adcirc_partial (G := W.G.normal) (S := 1)
    (sensors := ⟨[1, 2], [0, 0], rfl⟩) (ref := some ref) hread hf.no_dist
    hf.has_domain hf.no_sensors hf.has_times hf.has_ref hf.no_sd hf.has_tv hf.no_meas hf.has_lam hf.has_data
    hf.dom_len (by unfold HasLen; rfl) (by unfold HasLen; rw [hf.times_shape]; rfl)
    (by rw [hf.tv_len, one_mul]) hf.lam_shape (by rw [hf.data_shape, one_mul]) (by
      intro r hr j hj
      obtain rfl : ref = r := by simpa using hr
      exact ⟨hf.ref_len ▸ hj, hf.ref_in j hj⟩) 0.05 (some 21) s2.1
  rw [e] at h6
  obtain rfl : _ = l := Except.ok.inj (Prod.mk.inj h6).1
  rw [one_mul] at hM
  unfold tides at h7
  obtain ⟨m1, -, h7⟩ := Py.bind_eq_ok.1 h7
  obtain ⟨m2, -, h7⟩ := Py.bind_eq_ok.1 h7
  obtain ⟨full, -, h7⟩ := Py.bind_eq_ok.1 h7
  obtain ⟨a1, e1, h7⟩ := Py.bind_eq_ok.1 h7
  obtain ⟨a2, e2, h7⟩ := Py.bind_eq_ok.1 h7
  obtain ⟨b1, e3, h7⟩ := Py.bind_eq_ok.1 h7
  obtain ⟨b2, e4, h7⟩ := Py.bind_eq_ok.1 h7
  obtain ⟨c1, e5, h7⟩ := Py.bind_eq_ok.1 h7
  obtain ⟨c2, e6, h7⟩ := Py.bind_eq_ok.1 h7
  have h8 := Except.ok.inj h7
  rw [← h8]
  have key : ∀ {w k yl x}, paperWindow W P w k yl = .ok x →
      WindowOf W.ext W.env P none n 1 T data times M 0.05 (inside times T w) "pca" k 50 true true
        ["updated_dist"] x :=
    fun hx => C116_window (mp := 50) W.ext W.choice hch hr hf.times_shape rfl one_pos hsd (by norm_num) hD hx
  exact ⟨M, hr, hM, .cons (key e1) (.cons (key e2) (.cons (key e3) (.cons (key e4) (.cons (key e5)
    (.cons (key e6) .nil)))))⟩

/-- The full claim: no figure of the paper is overwritten by another. -/
def C123_files_claim : Prop :=
  ∀ (σ ρ : Type) (W : World σ ρ) (sp : String) (seed : Option ℕ) (s s' : σ × ρ) (o : Out),
    mudPaper W sp seed s = (.ok o, s') → (saved sp o).Nodup

/-- **C123 (overwritten).** Every run overwrites the comparison of figure 3 (MUD estimate (0.625, 0.375)) with
that of figure 5 (MUD estimate (0.75, 0.25)). -/
theorem C123_overwritten {W : World σ ρ} (hsvd : ∀ r, IsSvd (.of fun _ => r) (W.svd1 r)) {sp : String}
    {seed : Option ℕ} {s s' : σ × ρ} {o : Out} (h : mudPaper W sp seed s = (.ok o, s')) :
    o.figs.fig3.prob.mud = some (.col ![0.625, 0.375]) ∧ o.figs.fig5.prob.mud = some (.col ![0.75, 0.25]) ∧
      o.figs.fig3.saved = ["data_mismatch_contour.png", "tikhonov_contour.png", "consistent_contour.png",
        "classical_solution.png", "consistent_solution.png", "map_compare_contour.png"] ∧
      o.figs.fig5.saved = ["map_compare_contour.png"] ∧ ¬ (saved sp o).Nodup := by
  obtain ⟨u, K, ⟨v, h1, -⟩, -⟩ := stages h
  unfold linearFigs at h1
  obtain ⟨_, _, -, h1⟩ := bind_returns h1
  obtain ⟨f1, _, -, h1⟩ := bind_returns h1
  obtain ⟨_, _, -, h1⟩ := bind_returns h1
  obtain ⟨f2, _, -, h1⟩ := bind_returns h1
  obtain ⟨_, _, -, h1⟩ := bind_returns h1
  obtain ⟨f3, _, e3, h1⟩ := bind_returns h1
  obtain ⟨_, _, -, h1⟩ := bind_returns h1
  obtain ⟨f4, _, -, h1⟩ := bind_returns h1
  obtain ⟨_, _, -, h1⟩ := bind_returns h1
  obtain ⟨f5, _, e5, h1⟩ := bind_returns h1
  obtain ⟨_, _, -, h1⟩ := bind_returns h1
  obtain ⟨f6, _, -, h1⟩ := bind_returns h1
  have h1 := Except.ok.inj (Prod.mk.inj h1).1
  obtain ⟨e3, -⟩ := lift_returns e3
  obtain ⟨e5, -⟩ := lift_returns e5
  obtain ⟨g3, r3, p3, q3⟩ := fig3_run W.svd1 hsvd
  obtain ⟨g5, r5, p5, -, q5⟩ := fig5_run W.svd1 hsvd
  obtain rfl := Except.ok.inj (e3.symm.trans r3)
  obtain rfl := Except.ok.inj (e5.symm.trans r5)
  have hd : ¬ (saved sp o).Nodup := by
    intro hn
    unfold saved at hn
    rw [← h1] at hn
    simp only [q3, q5] at hn
    have h2 := (List.nodup_append.1 (List.nodup_append.1 hn).1).1
    simp only [List.map_append, List.map_cons] at h2
    have h3 := (List.nodup_append.1 (List.nodup_append.1 h2).1).2.2
    exact h3 _ (by simp) _ (List.mem_singleton.2 rfl) rfl
  rw [← h1]
  exact ⟨p3, p5, q3, q5, hd⟩

/-! ## A concrete world -/

/-- Seven samples at six sensors. -/
def sevenData : ND := ndOfNats [7, 6] [0, 0, 0, 0, 0, 0, 1, 0, 0, 0, 0, 0, 0, 1, 0, 0, 0, 0, 0, 0, 1, 0, 0, 0,
  0, 0, 0, 1, 0, 0, 0, 0, 0, 0, 1, 0, 0, 0, 0, 0, 0, 1] rfl

/-- Six sensors on a line. -/
def sixSensors : ND := ndOfNats [6, 2] [0, 0, 1, 0, 2, 0, 3, 0, 4, 0, 5, 0] rfl

/-- A file with seven samples of two parameters at six sensors. -/
def sevenDs : DataSet :=
  [("domain", .arr (ndOfNats [2, 2] [0, 1, 0, 1] rfl)), ("sensors", .arr sixSensors),
   ("true_vals", .arr (ndOfNats [6] [1, 1, 1, 1, 1, 1] rfl)),
   ("lam", .arr (ndOfNats [7, 2] [0, 0, 0, 1, 1, 0, 1, 1, 0, 0, 1, 1, 0, 1] rfl)), ("data", .arr sevenData)]

theorem sevenDs_file : PoissonFile sevenDs 7 2 6 (ndOfNats [2, 2] [0, 1, 0, 1] rfl) sixSensors
    (ndOfNats [6] [1, 1, 1, 1, 1, 1] rfl)
    (ndOfNats [7, 2] [0, 0, 0, 1, 1, 0, 1, 1, 0, 0, 1, 1, 0, 1] rfl) sevenData :=
  ⟨rfl, rfl, rfl, rfl, rfl, rfl, rfl, rfl, rfl, rfl, rfl, rfl, rfl, rfl, rfl⟩

theorem seven_indep : Independent 7 6 sevenData := by
  rintro u ⟨c, hc⟩
  have h0 := hc 0 (by norm_num)
  have h1 := hc 1 (by norm_num)
  have h2 := hc 2 (by norm_num)
  have h3 := hc 3 (by norm_num)
  have h4 := hc 4 (by norm_num)
  have h5 := hc 5 (by norm_num)
  have h6 := hc 6 (by norm_num)
  simp [Fin.sum_univ_six, sevenData, ND.get, offset, ndOfNats] at h0 h1 h2 h3 h4 h5 h6
  subst h0
  ext j
  fin_cases j
  · exact h1
  · exact h2
  · exact h3
  · exact h4
  · exact h5
  · exact h6

/-- The disk: ADCIRC data at one path, Poisson data elsewhere. -/
def paperDisk : Fenics.Disk :=
  ⟨⟨false, fun q => if q = "out/data/adcirc-si.pkl" then some (.pickle gulfDs) else some (.pickle sevenDs)⟩,
    fun _ => true⟩

/-- The world, for given decompositions. -/
noncomputable def paperWorld (X : Ext) (svd1 : (Fin 2 → ℝ) → SvdOut 1 2) (svd : (A : Arr2) → SvdOut A.r A.c) :
    World ℕ ℕ where
  G := compGen
  R := solR
  ext := decomp X
  env := scipyEnv fun _ _ _ => 0
  pe := solPe
  closest := [0, 0]
  svd1 := svd1
  svd := svd
  choice := fun _ k => List.replicate k 0
  dolfin := ⟨false, fun _ => .error .valueError⟩
  remote := fun _ => .error .fileNotFoundError
  disk := paperDisk
  grid := [("wind_speed_mult_0", [1]), ("DP", [2])]
  x_range := ⟨2, 2, !![0, 1; 0, 1]⟩
  t1 := (0, 2.5)
  t2 := (2.5, 5)
  t3 := (1.5, 3.5)

theorem paper_ok {X : Ext} (hX : X.Correct) {svd1 : (Fin 2 → ℝ) → SvdOut 1 2} {svd : (A : Arr2) → SvdOut A.r A.c}
    (h1 : ∀ r, IsSvd (.of fun _ => r) (svd1 r)) (h2 : ∀ A : Arr2, IsSvd A.m (svd A)) :
    WorldOk (paperWorld X svd1 svd) X (fun _ _ _ => 0) where
  unif := compGen_unif
  differ := by
    intro s
    refine ⟨0, 1, ?_⟩
    show 0 + (1 - 0) * (1 / ((s : ℝ) + 1)) ≠ 0 + (1 - 0) * (1 / (((s + 1 : ℕ) : ℝ) + 1))
    have : (0 : ℝ) ≤ s := Nat.cast_nonneg s
    push_cast
    intro h
    have h1 : (s : ℝ) + 1 ≠ 0 := by linarith
    have h2 : (s : ℝ) + 1 + 1 ≠ 0 := by linarith
    field_simp at h
    linarith
  ref := by
    intro s e
    have h1 := congrFun e 0
    have h2 : hdRef compGen 100 100 (some 21) s 0 = 1 := rfl
    have h3 : hdRef compGen 100 100 (some 21) s 0 = 0 := h1
    rw [h2] at h3
    exact one_ne_zero h3
  below := solR_lt
  ext := rfl
  correct := hX
  env := rfl
  draw := fun _ _ _ _ _ => rfl
  closest := le_rfl
  svd1 := h1
  svd := h2
  choice := by intro n k; exact List.length_replicate
  wind := ⟨_, rfl⟩
  depth := ⟨_, rfl⟩

theorem paper_read : paperDisk.toFileEnv.read (join (join "out" "data") "poisson_data.pkl") = .ok sevenDs := by
  rfl

theorem paper_read' : paperDisk.toFileEnv.read (join (join "out" "data") "adcirc-si.pkl") = .ok gulfDs := by
  rfl

/-- `mud_paper` returns in this world. -/
theorem paper_returns {X : Ext} (hX : X.Correct) {svd1 : (Fin 2 → ℝ) → SvdOut 1 2}
    {svd : (A : Arr2) → SvdOut A.r A.c} (h1 : ∀ r, IsSvd (.of fun _ => r) (svd1 r))
    (h2 : ∀ A : Arr2, IsSvd A.m (svd A)) (seed : Option ℕ) (s : ℕ × ℕ) :
    ∃ o s', mudPaper (paperWorld X svd1 svd) "out" seed s = (.ok o, s') :=
  C123_returns (W := paperWorld X svd1 svd) (paper_ok hX h1 h2) paper_read sevenDs_file
    (by
      intro j hj
      interval_cases j <;> simp [ndOfNats]) (by norm_num) le_rfl (by norm_num) seven_indep paper_read' gulfDs_file
    (by
      intro j hj
      interval_cases j <;> simp [ndOfNats]) (by norm_num) (by norm_num) gulf_windows seed s

theorem svds_exist : ∃ (svd1 : (Fin 2 → ℝ) → SvdOut 1 2) (svd : (A : Arr2) → SvdOut A.r A.c),
    (∀ r, IsSvd (.of fun _ => r) (svd1 r)) ∧ ∀ A : Arr2, IsSvd A.m (svd A) := by
  obtain ⟨svd1, h1⟩ := Contours.svd1_exists
  obtain ⟨svd, h2⟩ := Classical.axiom_of_choice fun A : Arr2 => exists_isSvd A.m
  exact ⟨svd1, svd, h1, h2⟩

/-- **The claim is false of the code**: figure 5 overwrites a part of figure 3, in every run. -/
theorem C123_files_claim_refuted : ¬ C123_files_claim := by
  intro hC
  obtain ⟨X, hX⟩ := ext_exists
  obtain ⟨svd1, svd, h1, h2⟩ := svds_exist
  obtain ⟨o, s', h⟩ := paper_returns hX h1 h2 none (0, 0)
  exact (C123_overwritten (W := paperWorld X svd1 svd) h1 h).2.2.2.2 (hC _ _ _ _ _ _ _ _ h)

/-- The full claim: with `--seed`, two runs of `mud_paper` show the same sensors in each group of figure 7. -/
def C123_seed_claim : Prop :=
  ∀ (σ ρ : Type) (W : World σ ρ) (sp : String) (k : ℕ) (s s' s1 s1' : σ × ρ) (o o' : Out) (f f' : ResponseFig),
    mudPaper W sp (some k) s = (.ok o, s1) → mudPaper W sp (some k) s' = (.ok o', s1') →
    o.sol.response = some f → o'.sol.response = some f' → List.Forall₂ List.Perm f.groups f'.groups

/-- Figure 7 shows the sensors in the order given by the state of Python's generator. -/
theorem paper_groups {X : Ext} {svd1 : (Fin 2 → ℝ) → SvdOut 1 2} {svd : (A : Arr2) → SvdOut A.r A.c}
    {seed : Option ℕ} {s s' : ℕ × ℕ} {o : Out} (h : mudPaper (paperWorld X svd1 svd) "out" seed s = (.ok o, s')) :
    ∃ f, o.sol.response = some f ∧ f.groups = [(0, 5), (5, 50), (50, -1)].map fun g : ℤ × ℤ =>
      (slice (samplePool solR 6 (List.range 6) s.2).1 g.1 g.2).map (sensorAt sixSensors) := by
  obtain ⟨u, K, ⟨v, -, h2⟩, s1, s2, s3, h3, -⟩ := stages h
  obtain ⟨c, hc⟩ := Option.isSome_iff_exists.1 (isSome_of_read paper_read)
  rw [(C123_data (W := paperWorld X svd1 svd) (seed := seed) v).1 c hc] at h2
  cases h2
  obtain ⟨P, M, D, idx, t', -, hr, -, -, -, -, -, hidx, ho, e⟩ := runSol_eq (G := compGen.normal)
    (env := (paperWorld X svd1 svd).env) (pe := solPe) paper_read sevenDs_file solR_lt (decomp X) [0, 0] 0.05 seed
    ["response", "qoi"] "random" [(0, 5), (5, 50), (50, -1)] 3 (startState compGen.normal seed u, s.2)
  have hn : P.nSensors = .ok 6 := by
    unfold nSensors
    rw [hr.sensors_eq]
    rfl
  have hidx' : (samplePool solR 6 (List.range 6) s.2).1 = idx := by
    unfold sensorOrder at hidx
    rw [if_pos rfl, hn, PyM.lift_ok_bind] at hidx
    exact Except.ok.inj (Prod.mk.inj hidx).1
  have e' := e.symm.trans h3
  have hs := sol_spec hr.lam_eq hr.lam_shape hr.sensors_eq rfl ho.1 (Prod.mk.inj e').1
  have hresp := hs.response
  rw [if_pos (by simp)] at hresp
  obtain ⟨fig, hf1, hf2, -⟩ := hresp
  simp only [← slice_group] at hf2
  rw [hidx']
  exact ⟨fig, hf1, hf2⟩

/-- **The claim is false of the code**: Python's generator is not seeded for figure 7. -/
theorem C123_seed_claim_refuted : ¬ C123_seed_claim := by
  intro hC
  obtain ⟨X, hX⟩ := ext_exists
  obtain ⟨svd1, svd, h1, h2⟩ := svds_exist
  obtain ⟨o, s1, h⟩ := paper_returns hX h1 h2 (some 21) (0, 0)
  obtain ⟨o', s1', h'⟩ := paper_returns hX h1 h2 (some 21) (0, 1)
  obtain ⟨f, hf, hg⟩ := paper_groups h
  obtain ⟨f', hf', hg'⟩ := paper_groups h'
  have hp := hC _ _ _ _ _ _ _ _ _ _ _ _ _ h h' hf hf'
  rw [hg, hg'] at hp
  have e0 : (samplePool solR 6 (List.range 6) 0).1 = [0, 5, 4, 3, 2, 1] := rfl
  have e1 : (samplePool solR 6 (List.range 6) 1).1 = [1, 5, 4, 3, 2, 0] := rfl
  rw [e0, e1] at hp
  have hq := (List.forall₂_cons.1 hp).1
  have hm : sensorAt sixSensors 0 ∈ (slice [0, 5, 4, 3, 2, 1] 0 5).map (sensorAt sixSensors) := by
    simp [slice]
  have hm' := hq.mem_iff.1 hm
  simp [slice, sensorAt, sixSensors, ND.get, offset, ndOfNats] at hm'

/-! ### Cases meeting the hypotheses -/

/-- C123: the run on the example data, and what two runs with a seed share. -/
example : ∃ (X : Ext) (svd1 : (Fin 2 → ℝ) → SvdOut 1 2) (svd : (A : Arr2) → SvdOut A.r A.c) (o o' : Out)
    (s1 s1' : ℕ × ℕ), mudPaper (paperWorld X svd1 svd) "out" (some 21) (0, 0) = (.ok o, s1) ∧
      mudPaper (paperWorld X svd1 svd) "out" (some 21) (0, 1) = (.ok o', s1') ∧
      o.table = o'.table ∧ o.tides = o'.tides ∧ o.table.length = 3 := by
  obtain ⟨X, hX⟩ := ext_exists
  obtain ⟨svd1, svd, h1, h2⟩ := svds_exist
  obtain ⟨o, s1, h⟩ := paper_returns hX h1 h2 (some 21) (0, 0)
  obtain ⟨o', s1', h'⟩ := paper_returns hX h1 h2 (some 21) (0, 1)
  obtain ⟨-, -, -, e1, -, e3⟩ := C123_seeded_partial h h'
  obtain ⟨M, idx, -, -, hF⟩ := C123_table (W := paperWorld X svd1 svd) paper_read sevenDs_file solR_lt h
  exact ⟨X, svd1, svd, o, o', s1, s1', h, h', e1, C123_tides_fixed h h' e3, hF.length_eq.symm⟩

end Paper

end Verif
