import Verif.Props.PoissonRun

/-!
# C112: `run_2d_poisson_trials`

`/repo/src/mud/examples/poisson.py:330-469`.
-/

namespace Verif

namespace Poisson

open ND SpecST STP Prep

variable {σ ρ : Type} {env : Env} {pe : PlotEnv} {user : ℕ → ℝ → ℕ → ℝ}

theorem slice_nat {α : Type} (l : List α) (N : ℕ) : slice l 0 N = l.take N := by
  unfold slice
  rw [if_neg (by omega), if_neg (by omega)]
  simp

theorem mudProblem_new {P : STP} {ext : Decomp} {method : String} {dw : Option ND} {sw : Option NArr}
    {nc : ℕ} {ms mt mx : Option Mask} {Q : DP} (h : P.mudProblem ext method dw sw nc ms mt mx = .ok Q) :
    ∃ X y dom, DP.new X y dom sw = .ok Q := by
  unfold mudProblem at h
  obtain ⟨_, _, h⟩ := Py.bind_eq_ok.1 h
  obtain ⟨_, _, h⟩ := Py.bind_eq_ok.1 h
  obtain ⟨_, _, h⟩ := Py.bind_eq_ok.1 h
  obtain ⟨_, _, h⟩ := Py.bind_eq_ok.1 h
  obtain ⟨_, _, h⟩ := Py.bind_eq_ok.1 h
  obtain ⟨_, _, h⟩ := Py.bind_eq_ok.1 h
  obtain ⟨_, _, h⟩ := Py.bind_eq_ok.1 h
  exact ⟨_, _, _, h⟩

/-- What a trial with the sensors `sel` must be: the MUD problem of the two leading components of these
sensors' data, estimated; each axis shows the densities and lines of that estimate; and the object returned
still holds the problem and its estimate. -/
def TrialOf (ext : Decomp) (env : Env) (closest : List ℝ) (ann1 ann2 : Bool) (P : STP) (sel : List ℕ)
    (t : Trial) : Prop :=
  ∃ Q pt r, P.mudProblem ext "pca" none none 2 none none (some (.ints (sel.map fun k : ℕ => (k : ℤ)))) =
      .ok Q ∧
    (DP.mudPoint env Q).1 = .ok pt ∧ (defaults Q).ratio env Q.data = .ok r ∧
    (DP.expectedRatio env (Q.after env [.estimate])).1 = DP.npAverage r Q.weights ∧
    AxisOf Q pt r closest ann1 0 t.1.1 ∧ AxisOf Q pt r closest ann2 1 t.1.2 ∧
    t.2.core.X = Q.X ∧ t.2.core.y = Q.y ∧ (DPD.mudPoint env t.2).1 = .ok pt

theorem trial_spec {ext : Decomp} {R : Arr2} {closest : List ℝ} {ann1 ann2 : Bool} {P : STP}
    {idx : List ℕ} {N : ℕ} {t : Trial}
    (h : trial ext env pe R closest ann1 ann2 P idx N = .ok t) :
    TrialOf ext env closest ann1 ann2 P (idx.take N) t := by
  unfold trial at h
  rw [slice_nat] at h
  obtain ⟨Q, hQ, h⟩ := Py.bind_eq_ok.1 h
  unfold runVal at h
  rcases hf : trialFigs env pe R closest ann1 ann2 { core := Q } with ⟨res, S'⟩
  rw [hf] at h
  cases res with
  | error e => cases h
  | ok x =>
    cases h
    obtain ⟨X, y, dom, hnew⟩ := mudProblem_new hQ
    obtain ⟨pt, r, h1, h2, h3, h4, h5, h6, h7, -⟩ := figs_spec hnew hf
    refine ⟨Q, pt, r, hQ, h1, h3, h4, h5, h6, h7.X, h7.y, ?_⟩
    rw [mudPoint_cached h7.up]
    exact h7.pick

theorem mapM_forall₂ {α β : Type} {f : α → Py β} : ∀ {l : List α} {out : List β},
    l.mapM f = .ok out → List.Forall₂ (fun a b => f a = .ok b) l out := by
  intro l
  induction l with
  | nil => intro out h; cases h; exact .nil
  | cons a l ih =>
    intro out h
    rw [List.mapM_cons] at h
    obtain ⟨b, hb, h⟩ := Py.bind_eq_ok.1 h
    obtain ⟨bs, hbs, h⟩ := Py.bind_eq_ok.1 h
    cases h
    exact .cons hb (ih hbs)

theorem mapM_exists {α β : Type} {f : α → Py β} : ∀ {l : List α},
    (∀ a ∈ l, ∃ b, f a = .ok b) → ∃ out, l.mapM f = .ok out := by
  intro l
  induction l with
  | nil => intro _; exact ⟨[], rfl⟩
  | cons a l ih =>
    intro h
    obtain ⟨b, hb⟩ := h a (by simp)
    obtain ⟨bs, hbs⟩ := ih fun a ha => h a (by simp [ha])
    rw [List.mapM_cons, hb, Py.ok_bind, hbs]
    exact ⟨_, rfl⟩

/-- The order of the sensors, for any value of `sensor_order`. -/
def OrderOf (order : String) (sensors : ND) (S : ℕ) (idx : List ℕ) : Prop :=
  idx.Perm (List.range S) ∧
  (order = "sorted" → idx.Pairwise fun i j =>
    LexLt (sensorAt sensors i) (sensorAt sensors j) ∨ sensorAt sensors i = sensorAt sensors j ∧ i < j) ∧
  (order ≠ "random" → order ≠ "sorted" → idx = List.range S)

/-- **C112 (order).** Whatever `sensor_order`, each sensor is used exactly once: in a random order,
sorted by first then second coordinate (equal points in their original order), or in the original order. -/
theorem C112_order {R : PyRandom ρ} (hR : ∀ n s, 0 < n → (R.below n s).1 < n) {P : STP} {S : ℕ}
    {sensors : ND} (hP : P.sensors = some sensors) (hs : sensors.shape = [S, 2]) (order : String) (s : ρ) :
    ∃ idx s', sensorOrder R order P s = (.ok idx, s') ∧ OrderOf order sensors S idx ∧
      (order ≠ "random" → s' = s) := by
  have hn : P.nSensors = .ok S := by
    unfold nSensors
    rw [hP]
    change sensors.dim 0 = _
    unfold ND.dim
    rw [hs]
    rfl
  unfold sensorOrder
  by_cases h1 : order = "random"
  · rw [if_pos h1, hn, PyM.lift_ok_bind]
    refine ⟨_, _, rfl, ⟨samplePool_perm hR S _ s (by simp), ?_, ?_⟩, fun h => absurd h1 h⟩
    · rw [h1]; intro h; exact absurd h (by decide)
    · exact fun h => absurd h1 h
  · rw [if_neg h1]
    by_cases h2 : order = "sorted"
    · have hp : STP.pairs sensors = .ok ((List.range S).map (sensorAt sensors)) := by
        unfold STP.pairs
        rw [hs]
        rfl
      rw [if_pos h2, hP]
      simp only [need, PyM.lift_ok_bind, hp]
      refine ⟨_, _, rfl, ⟨?_, fun _ => ?_, fun _ h => absurd h2 h⟩, fun _ => rfl⟩
      · simpa using lexOrder_perm ((List.range S).map (sensorAt sensors))
      · have hs := lexOrder_sorted ((List.range S).map (sensorAt sensors))
        have hm : ∀ i ∈ lexOrder ((List.range S).map (sensorAt sensors)), i < S := by
          intro i hi
          have := (lexOrder_perm _).mem_iff.1 hi
          simpa using this
        have hg : ∀ i < S, ((List.range S).map (sensorAt sensors)).getD i (0, 0) = sensorAt sensors i := by
          intro i hi
          rw [List.getD_eq_getElem _ _ (by simpa using hi)]
          simp
        refine hs.imp_of_mem fun {i j} hi hj h => ?_
        rwa [hg i (hm i hi), hg j (hm j hj)] at h
    · rw [if_neg h2, hn, PyM.lift_ok_bind]
      exact ⟨_, _, rfl, ⟨.refl _, fun h => absurd h h2, fun _ _ => rfl⟩, fun _ => rfl⟩

/-! ## Seeds -/

theorem utilNoise_seeded (G : Rng σ) (t : ND) (d : ℝ) (k : ℕ) (s s' : σ) :
    Verif.addNoise G t d (some k) s = Verif.addNoise G t d (some k) s' := rfl

theorem meas_seeded (G : Rng σ) (P : STP) (d : ℝ) (k : ℕ) (s s' : σ) :
    (measurementsFromReference G none (some d) (some k) (P, s)).1 =
      (measurementsFromReference G none (some d) (some k) (P, s')).1 ∧
    (measurementsFromReference G none (some d) (some k) (P, s)).2.1 =
      (measurementsFromReference G none (some d) (some k) (P, s')).2.1 := by
  obtain ⟨a1, a2, a3, a4, a5, a6, a7, a8, a9⟩ := P
  unfold measurementsFromReference
  dsimp only
  split
  · rw [utilNoise_seeded G _ _ k s s']
    exact ⟨rfl, rfl⟩
  · exact ⟨rfl, rfl⟩

theorem load_seeded (E : FileEnv) (G : Rng σ) (path : String) (sigma : ℝ) (k : ℕ) (s s' : σ) :
    (loadPoisson E G path sigma (some k) s).1 = (loadPoisson E G path sigma (some k) s').1 := by
  unfold loadPoisson loadThen
  cases E.read path with
  | error e => rfl
  | ok ds =>
    rw [PyM.lift_ok_bind]
    cases runObj (loadDs ds (.str "lam") (.str "data")
        [("true_vals", .str "true_vals"), ("measurements", .none), ("std_dev", .num 0.05),
         ("sample_dist", .str "uniform"), ("domain", .str "domain"), ("lam_ref", .none),
         ("sensors", .str "sensors"), ("times", .arr STP.zero1)]) {} with
    | error e => rfl
    | ok P =>
      rw [PyM.lift_ok_bind]
      unfold Poisson.addNoise
      obtain ⟨h1, h2⟩ := meas_seeded G P 0.05 k s s'
      rcases hm : measurementsFromReference G none (some 0.05) (some k) (P, s) with ⟨r, P1, t⟩
      rcases hm' : measurementsFromReference G none (some 0.05) (some k) (P, s') with ⟨r', P1', t'⟩
      rw [hm, hm'] at h1 h2
      obtain rfl : r = r' := h1
      obtain rfl : P1 = P1' := h2
      cases r <;> rfl

theorem onNp_bind_fst {α β : Type} {x x' : PyM σ α} {f : α → PyM (σ × ρ) β} {s s' : σ} {t : ρ}
    (h : (x s).1 = (x' s').1) (hf : ∀ a u u', (f a (u, t)).1 = (f a (u', t)).1) :
    ((onNp x >>= f) (s, t)).1 = ((onNp x' >>= f) (s', t)).1 := by
  rw [PyM.bind_run, PyM.bind_run]
  unfold onNp
  simp only [← h]
  cases hx : (x s).1 with
  | error e => rfl
  | ok a => exact hf a _ _

theorem onPy_bind_fst {α β : Type} {x : PyM ρ α} {f : α → PyM (σ × ρ) β} {s s' : σ} {t : ρ}
    (hf : ∀ a v, (f a (s, v)).1 = (f a (s', v)).1) :
    ((onPy x >>= f) (s, t)).1 = ((onPy x >>= f) (s', t)).1 := by
  rw [PyM.bind_run, PyM.bind_run]
  unfold onPy
  simp only
  cases hx : (x t).1 with
  | error e => rfl
  | ok a => exact hf a _

/-- **C112 (seed).** With a seed, what `run_2d_poisson_trials` returns (or raises) does not depend on the
state of NumPy's generator nor on that of Python's, for any file, order and numbers of sensors. -/
theorem C112_seeded (E : FileEnv) (G : Rng σ) (R : PyRandom ρ) (ext : Decomp) (env : Env) (pe : PlotEnv)
    (closest : List ℝ) (x_range : Arr2) (path : String) (N_vals : List ℤ) (order : String)
    (ann1 ann2 : Bool) (sigma : ℝ) (seed : ℕ) (s s' : σ × ρ) :
    (runTrials E G R ext env pe closest x_range path N_vals order ann1 ann2 sigma (some seed) s).1 =
      (runTrials E G R ext env pe closest x_range path N_vals order ann1 ann2 sigma (some seed) s').1 := by
  obtain ⟨s, t⟩ := s
  obtain ⟨s', t'⟩ := s'
  unfold runTrials
  refine onNp_bind_fst (t := R.seed seed) (load_seeded E G path sigma seed s s') fun l u u' => ?_
  refine onPy_bind_fst fun idx v => ?_
  cases N_vals.mapM (trial ext env pe x_range closest ann1 ann2 l.2 idx) <;> rfl

/-! ## The trials -/

theorem take_picks {S : ℕ} {idx : List ℕ} (h : idx.Perm (List.range S)) (N : ℕ) :
    Picks S (some (asMask (idx.take N))) (idx.take N) := by
  change List.Forall₂ _ (List.map (fun k : ℕ => (k : ℤ)) (idx.take N)) (idx.take N)
  rw [List.forall₂_map_left_iff, List.forall₂_same]
  intro i hi
  exact ⟨List.mem_range.1 (h.mem_iff.1 (List.mem_of_mem_take hi)), .inl rfl⟩

theorem noInt {m : Option Mask} (h : m = none ∨ ∃ l, m = some (asMask l)) : ListLike m := by
  rcases h with rfl | ⟨l, rfl⟩ <;> intro k h <;> cases h

theorem new_exists {n p q : ℕ} (X : Matrix (Fin n) (Fin p) ℝ) (Y : Matrix (Fin n) (Fin q) ℝ)
    (D : Matrix (Fin p) (Fin 2) ℝ) :
    ∃ Q, DP.new (.mat ⟨n, p, X⟩) (.mat ⟨n, q, Y⟩) (some (.mat ⟨p, 2, D⟩)) none = .ok Q :=
  ⟨_, Py.bind_eq_ok.2 ⟨(), pyAssert_true rfl, rfl⟩⟩

/-- **C112 (a trial returns).** On a complete problem with `n ≥ 2` samples of `p ≥ 2` parameters and a
proper domain, the trial with the first `N ≥ 2` of at least two sensors returns whenever the kernel density
estimate of its quantities of interest exists. -/
theorem C112_trial_returns (E : Ext) {P : STP} {n p S : ℕ} {lam data sensors M D : ND}
    (h : Ready P n p S 1 lam data sensors ⟨[1], [0], rfl⟩ (some M)) (hs2 : sensors.shape = [S, 2])
    {sd : ℝ} (hsd : P.stdDev = some sd) (h0 : sd ≠ 0) (hD : P.domain = some D) (hDs : D.shape = [p, 2])
    (hord : ∀ j < p, D.get [j, 0] < D.get [j, 1]) (hn : 2 ≤ n) (hp : 2 ≤ p) (hS : 2 ≤ S)
    {idx : List ℕ} (hidx : idx.Perm (List.range S)) {N : ℕ} (hN : 2 ≤ N)
    (hdraw : ∀ a c R i n, pe.draw a c R i n = .ok ())
    (hkde : ∀ Q, P.mudProblem (decomp E) "pca" none none 2 none none
      (some (asMask (idx.take N))) = .ok Q → ∃ c, env.kde Q.y 0 Q.weights = .ok c ∧ c.length = n)
    {closest : List ℝ} (hc : 2 ≤ closest.length) (R : Arr2) (ann1 ann2 : Bool) :
    ∃ t, trial (decomp E) env pe R closest ann1 ann2 P idx N = .ok t := by
  have hl : idx.length = S := by simpa using hidx.length_eq
  have hm := mudProblem_masked (decomp E) h (ms := none) (mt := none)
    (mx := some (asMask (idx.take N))) (noInt (.inl rfl)) (noInt (.inl rfl)) (noInt (.inr ⟨_, rfl⟩))
    (a := List.range n) (b := List.range 1) rfl rfl (take_picks hidx N) (by simp)
    (by
      intro h'
      have := congrArg List.length h'
      simp [hl] at this
      omega) rfl (fun _ => hs2) hsd h0 hD "pca" none 2
  rw [qoi_pca E _ (by simp; omega) (by simp [hl]; omega) (by simp; omega) (by simp [hl]; omega),
    Py.ok_bind, toArr2_two hDs] at hm
  obtain ⟨Q, hQ⟩ := new_exists (.of fun i j => lam.get [(List.range n)[i], j]) _
    (.of fun i j => D.get [i, j])
  have hmQ := hm.trans hQ
  obtain ⟨c, hk, hcl⟩ := hkde Q hmQ
  obtain ⟨-, hy, hw⟩ := new_fields hQ
  have hw' : Q.weights = List.replicate (List.range n).length (.fin 1) := (Except.ok.inj hw).symm
  obtain ⟨x, S', hf⟩ := figs_ok (env := env) (pe := pe) (by simp; omega) hp _ _ _
    (fun j => hord j j.2) hdraw ⟨fun i => c[i]'(by have := i.2; simp at this; omega), by
      rw [← hw']
      refine Eq.trans (congrArg (fun y => env.kde y 0 Q.weights) hy.symm) (hk.trans (congrArg _ ?_))
      apply List.ext_getElem
      · simp [hcl]
      · intro i _ _
        simp⟩ hc R ann1 ann2 hQ
  unfold trial
  rw [slice_nat, hmQ, Py.ok_bind]
  unfold runVal
  rw [hf]
  exact ⟨_, rfl⟩

theorem trial_rows (E : Ext) {P : STP} {n p S : ℕ} {lam data sensors M D : ND}
    (h : Ready P n p S 1 lam data sensors ⟨[1], [0], rfl⟩ (some M)) (hs2 : sensors.shape = [S, 2])
    {sd : ℝ} (hsd : P.stdDev = some sd) (h0 : sd ≠ 0) (hD : P.domain = some D) (hDs : D.shape = [p, 2])
    (hn : 2 ≤ n) (hS : 2 ≤ S)
    {idx : List ℕ} (hidx : idx.Perm (List.range S)) {N : ℕ} (hN : 2 ≤ N) {Q : DP}
    (hQ : P.mudProblem (decomp E) "pca" none none 2 none none (some (asMask (idx.take N))) = .ok Q) :
    Q.y.r = n := by
  have hl : idx.length = S := by simpa using hidx.length_eq
  have hm := mudProblem_masked (decomp E) h (ms := none) (mt := none)
    (mx := some (asMask (idx.take N))) (noInt (.inl rfl)) (noInt (.inl rfl)) (noInt (.inr ⟨_, rfl⟩))
    (a := List.range n) (b := List.range 1) rfl rfl (take_picks hidx N) (by simp)
    (by
      intro h'
      have := congrArg List.length h'
      simp [hl] at this
      omega) rfl (fun _ => hs2) hsd h0 hD "pca" none 2
  rw [qoi_pca E _ (by simp; omega) (by simp [hl]; omega) (by simp; omega) (by simp [hl]; omega),
    Py.ok_bind, toArr2_two hDs, hQ] at hm
  rw [(new_fields hm.symm).2.1]
  exact List.length_range

theorem domain_order {D dom : ND} {p : ℕ} (hDs : D.shape = [p, 2]) (hDd : D.data = dom.data)
    (hdom : ∀ j < p, dom.data.getD (2 * j) 0 < dom.data.getD (2 * j + 1) 0) (j : ℕ) (hj : j < p) :
    D.get [j, 0] < D.get [j, 1] := by
  have hg : ∀ k < 2, D.get [j, k] = dom.data.getD (2 * j + k) 0 := by
    intro k hk
    rw [← hDd]
    unfold ND.get
    rw [hDs]
    congr 1
    simp [offset]
    omega
  rw [hg 0 (by omega), hg 1 (by omega)]
  exact hdom j hj

/-- A file of the Poisson example: `n` samples of `p` parameters with data of `S` sensors in the plane. -/
structure PoissonFile (ds : DataSet) (n p S : ℕ) (dom sensors tv lam data : ND) : Prop where
  no_dist : ds.lookup "sample_dist" = none
  has_domain : ds.lookup "domain" = some (.arr dom)
  has_sensors : ds.lookup "sensors" = some (.arr sensors)
  no_times : ds.lookup "times" = none
  no_ref : ds.lookup "lam_ref" = none
  no_sd : ds.lookup "std_dev" = none
  has_tv : ds.lookup "true_vals" = some (.arr tv)
  no_meas : ds.lookup "measurements" = none
  has_lam : ds.lookup "lam" = some (.arr lam)
  has_data : ds.lookup "data" = some (.arr data)
  dom_len : dom.data.length = 2 * p
  sensors_shape : sensors.shape = [S, 2]
  tv_len : tv.data.length = S
  lam_shape : lam.shape = [n, p]
  data_shape : data.shape = [n, S]

section
variable {E : FileEnv} {G : Rng σ} {R : PyRandom ρ} {path : String} {ds : DataSet} {n p S : ℕ}
  {dom sensors tv lam data : ND}

/-- Load and order, then the trials. -/
theorem runTrials_eq (hread : E.read path = .ok ds) (hf : PoissonFile ds n p S dom sensors tv lam data)
    (hR : ∀ n s, 0 < n → (R.below n s).1 < n) (ext : Decomp) (closest : List ℝ)
    (x_range : Arr2) (Ns : List ℤ) (order : String) (ann1 ann2 : Bool) (sigma : ℝ) (seed : Option ℕ)
    (s : σ × ρ) :
    ∃ P M D idx s', Ready P n p S 1 lam data sensors ⟨[1], [0], rfl⟩ (some M) ∧
      P.domain = some D ∧ D.shape = [p, 2] ∧ D.data = dom.data ∧ P.stdDev = some 0.05 ∧
      (∀ j < S, M.get [j, 0] = tv.data.getD j 0 + 0.05 * nthDraw G (startState G seed s.1) j) ∧
      OrderOf order sensors S idx ∧
      runTrials E G R ext env pe closest x_range path Ns order ann1 ann2 sigma seed s =
        (Ns.mapM (trial ext env pe x_range closest ann1 ann2 P idx) >>= fun ts => .ok (P, ts), s') := by
  obtain ⟨P, M, D, e, hready, hD, hDs, hDd, -, hsd, -, hM⟩ := C110_poisson_partial (G := G) hread hf.no_dist
    hf.has_domain hf.has_sensors hf.no_times hf.no_ref hf.no_sd hf.has_tv hf.no_meas hf.has_lam hf.has_data
    hf.dom_len
    (by unfold HasLen; rw [hf.sensors_shape]; rfl) hf.tv_len hf.lam_shape hf.data_shape sigma seed s.1
  obtain ⟨s1, t⟩ := s
  obtain ⟨idx, t', ho, hord, -⟩ := C112_order hR hready.sensors_eq hf.sensors_shape order
    ((seedPy R seed t).2)
  refine ⟨P, M, D, idx, (stateAfter G (startState G seed s1) S, t'), hready, hD, hDs, hDd, hsd, hM, hord, ?_⟩
  unfold runTrials
  have h1 : onPy (seedPy R seed) (s1, t) = (.ok (), (s1, (seedPy R seed t).2)) := rfl
  have h2 : onNp (ρ := ρ) (loadPoisson E G path sigma seed) (s1, (seedPy R seed t).2) =
      (.ok (ds, P), (stateAfter G (startState G seed s1) S, (seedPy R seed t).2)) := by
    unfold onNp
    rw [e]
  have h3 : ∀ u : σ, onPy (sensorOrder R order P) (u, (seedPy R seed t).2) = (.ok idx, (u, t')) := by
    intro u
    unfold onPy
    simp only [ho]
  rw [bind_of_ok h1, bind_of_ok h2, bind_of_ok (h3 _)]
  cases Ns.mapM (trial ext env pe x_range closest ann1 ann2 P idx) <;> rfl

/-- **C112 (trials).** If `run_2d_poisson_trials` on a file of the example returns, then with one order of
the sensors, in which each sensor appears once (`OrderOf`), the trial for `N` is the estimate from the first
`N` sensors of that order (`TrialOf`): trials with more sensors extend those with fewer. -/
theorem C112_trials (hread : E.read path = .ok ds) (hf : PoissonFile ds n p S dom sensors tv lam data)
    (hR : ∀ n s, 0 < n → (R.below n s).1 < n) {ext : Decomp} {closest : List ℝ}
    {x_range : Arr2} {Ns : List ℕ} {order : String} {ann1 ann2 : Bool} {sigma : ℝ} {seed : Option ℕ}
    {s s' : σ × ρ} {P : STP} {ts : List Trial}
    (h : runTrials E G R ext env pe closest x_range path (Ns.map fun N : ℕ => (N : ℤ)) order ann1 ann2
      sigma seed s = (.ok (P, ts), s')) :
    ∃ M idx, Ready P n p S 1 lam data sensors ⟨[1], [0], rfl⟩ (some M) ∧
      (∀ j < S, M.get [j, 0] = tv.data.getD j 0 + 0.05 * nthDraw G (startState G seed s.1) j) ∧
      OrderOf order sensors S idx ∧
      List.Forall₂ (fun N t => TrialOf ext env closest ann1 ann2 P (idx.take N) t) Ns ts := by
  obtain ⟨P', M, D, idx, s'', hr, -, -, -, -, hM, ho, e⟩ := runTrials_eq (G := G) (env := env) (pe := pe)
    hread hf hR ext closest x_range (Ns.map fun N : ℕ => (N : ℤ)) order ann1 ann2 sigma seed s
  rw [e] at h
  obtain ⟨ts', h1, h2⟩ := Py.bind_eq_ok.1 (Prod.mk.inj h).1
  cases h2
  refine ⟨M, idx, hr, hM, ho, ?_⟩
  have := mapM_forall₂ h1
  rw [List.forall₂_map_left_iff] at this
  exact this.imp fun N t h => trial_spec h

/-- **C112 (it returns).** On a file of the example with at least two samples, parameters and sensors and
a proper domain, `run_2d_poisson_trials` returns for any numbers `N ≥ 2`, provided drawing does not raise
and the kernel density estimates of the two components exist. -/
theorem C112_returns (hread : E.read path = .ok ds) (hf : PoissonFile ds n p S dom sensors tv lam data)
    (hR : ∀ n s, 0 < n → (R.below n s).1 < n) (X : Ext) {closest : List ℝ}
    (hdom : ∀ j < p, dom.data.getD (2 * j) 0 < dom.data.getD (2 * j + 1) 0)
    (hn : 2 ≤ n) (hp : 2 ≤ p) (hS : 2 ≤ S) (hc : 2 ≤ closest.length)
    (hdraw : ∀ a c R i n, pe.draw a c R i n = .ok ())
    (hkde : ∀ (P : STP) (sel : List ℕ) (Q : DP), P.mudProblem (decomp X) "pca" none none 2 none none
      (some (asMask sel)) = .ok Q → Q.y.r = n → ∃ c, env.kde Q.y 0 Q.weights = .ok c ∧ c.length = n)
    (x_range : Arr2) {Ns : List ℕ} (hNs : ∀ N ∈ Ns, 2 ≤ N) (order : String) (ann1 ann2 : Bool)
    (sigma : ℝ) (seed : Option ℕ) (s : σ × ρ) :
    ∃ r s', runTrials E G R (decomp X) env pe closest x_range path (Ns.map fun N : ℕ => (N : ℤ)) order
      ann1 ann2 sigma seed s = (.ok r, s') := by
  obtain ⟨P, M, D, idx, s', hr, hD, hDs, hDd, hsd, hM, ho, e⟩ := runTrials_eq (G := G) (env := env)
    (pe := pe) hread hf hR (decomp X) closest x_range (Ns.map fun N : ℕ => (N : ℤ)) order ann1 ann2 sigma
    seed s
  have hord := domain_order hDs hDd hdom
  obtain ⟨ts, hts⟩ := mapM_exists (f := trial (decomp X) env pe x_range closest ann1 ann2 P idx)
    (l := Ns.map fun N : ℕ => (N : ℤ)) (by
      intro a ha
      obtain ⟨N, hN, rfl⟩ := List.mem_map.1 ha
      exact C112_trial_returns X hr hf.sensors_shape hsd (by norm_num) hD hDs hord hn hp hS ho.1
        (hNs N hN) hdraw (fun Q hQ => hkde P _ Q hQ (by
          have hm := trial_rows X hr hf.sensors_shape hsd (by norm_num) hD hDs hn hS ho.1 (hNs N hN) hQ
          exact hm)) hc x_range ann1 ann2)
  rw [e, hts]
  exact ⟨_, _, rfl⟩

end

/-- **C112 (all sensors).** Once every sensor is used, the order does not matter: two trials with at least
`S` sensors, in any two orders, have the same estimate and the same expected ratio (two leading singular
values distinct from the others, `scipy`'s kernel density estimate). -/
theorem C112_all_sensors (E : Ext) (hE : E.Correct) {P : STP} {n p S : ℕ} {lam data sensors M D : ND}
    (h : Ready P n p S 1 lam data sensors ⟨[1], [0], rfl⟩ (some M)) (hs2 : sensors.shape = [S, 2])
    {sd : ℝ} (hsd : P.stdDev = some sd) (h0 : sd ≠ 0) (hD : P.domain = some D) (hDs : D.shape = [p, 2])
    (hn : 2 ≤ n) (hS : 2 ≤ S)
    {o : SvdOut (List.range n).length ((List.range S).length * (List.range 1).length)}
    (ho : IsSvd (standardize (selResid 1 (List.range n) (List.range 1) (List.range S) data M sd)) o)
    (hs : ∀ i < 2, ∀ j < S, j ≠ i → o.s.getD j 0 ≠ o.s.getD i 0)
    {idx idx' : List ℕ} (hidx : idx.Perm (List.range S)) (hidx' : idx'.Perm (List.range S))
    {N N' : ℕ} (hN : S ≤ N) (hN' : S ≤ N') {R : Arr2} {closest : List ℝ} {ann2 : Bool} {t t' : Trial}
    (ht : trial (decomp E) (scipyEnv user) pe R closest true ann2 P idx N = .ok t)
    (ht' : trial (decomp E) (scipyEnv user) pe R closest true ann2 P idx' N' = .ok t') :
    (DPD.mudPoint (scipyEnv user) t.2).1 = (DPD.mudPoint (scipyEnv user) t'.2).1 ∧
      t.1.1.2 = t'.1.1.2 := by
  have key : ∀ {idx : List ℕ} {N : ℕ} {t : Trial}, idx.Perm (List.range S) → S ≤ N →
      trial (decomp E) (scipyEnv user) pe R closest true ann2 P idx N = .ok t →
      ∃ Q0, P.mudProblem (decomp E) "pca" none none 2 none none none = .ok Q0 ∧
        (DPD.mudPoint (scipyEnv user) t.2).1 = (DP.mudPoint (scipyEnv user) Q0).1 ∧
        ∃ e, (DP.expectedRatio (scipyEnv user) (Q0.after (scipyEnv user) [.estimate])).1 = .ok e ∧
          t.1.1.2 = [e] := by
    intro idx N t hidx hN ht
    have hl : idx.length = S := by simpa using hidx.length_eq
    obtain ⟨Q, pt, r, hQ, h1, h2, h3, h4, h5, h6, h7, h8⟩ := trial_spec ht
    rw [List.take_of_length_le (by omega)] at hQ
    have hc := take_picks hidx S
    rw [List.take_of_length_le (by omega)] at hc
    obtain ⟨Nm, ε, Q0, Q', e1, e2, -, -, -, e3⟩ := C111_reduced (user := user) E hE h
      (ms := none) (mt := none) (mx := none) (mt' := none) (mx' := some (asMask idx))
      (noInt (.inl rfl)) (noInt (.inl rfl)) (noInt (.inl rfl)) (noInt (.inl rfl))
      (noInt (.inr ⟨_, rfl⟩)) (a := List.range n) (b := List.range 1) (c := List.range S)
      (b' := List.range 1) (c' := idx) rfl rfl rfl rfl hc (.refl _) hidx.symm
      (by intro h'; have := congrArg List.length h'; simp at this; omega) (by simp)
      (by intro h'; have := congrArg List.length h'; simp at this; omega) rfl hs2 hsd h0 hD hDs
      (method := "pca") (k := 2) (.inl ⟨rfl, by simp; omega⟩) (by simp; omega) ho
      (fun i hi j hj hji => hs i hi j (by simpa using hj) hji)
    obtain rfl : Q = Q' := Except.ok.inj (hQ.symm.trans e2)
    refine ⟨Q0, e1, ?_, ?_⟩
    · rw [h8, ← h1]
      exact (e3 [] (by simp)).1
    · obtain ⟨u, hu, hp, hcl, hx, ha, -⟩ := h4
      obtain ⟨e, he, hx2⟩ := ha rfl
      refine ⟨e, ?_, hx2⟩
      rw [← he, ← h3]
      exact ((e3 [.estimate] (by intro op hop; simp at hop; subst hop; trivial)).2).symm
  obtain ⟨Q0, a1, a2, e, a3, a4⟩ := key hidx hN ht
  obtain ⟨Q1, b1, b2, e', b3, b4⟩ := key hidx' hN' ht'
  obtain rfl := Except.ok.inj (a1.symm.trans b1)
  refine ⟨a2.trans b2.symm, ?_⟩
  rw [a4, b4, Except.ok.inj (a3.symm.trans b3)]

end Poisson

end Verif
