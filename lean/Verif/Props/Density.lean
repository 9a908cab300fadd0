import Verif.Lemmas.DensityFit

/-!
# `DensityProblem`: C28 and C29
-/

namespace Verif

variable {env : Env}

/-! ## C28: the MUD point is a sample of maximal updated density -/

/-- A fresh object has the settings it was constructed with. -/
theorem new_rel {X y : NArr} {dom w : Option NArr} {nrm : Bool} {pad : ℝ} {xi di : Bool} {P : DP}
    (h : DP.new X y dom w nrm pad xi di = .ok P) : DRel env P.data P P.start := by
  have e : P.r = none ∧ P.up = none ∧ P.init = none ∧ P.pr = none ∧ P.ob = none := by
    unfold DP.new at h
    dsimp only at h
    cases dom with
    | none =>
      obtain ⟨dm, -, h⟩ := Py.bind_eq_ok.1 h
      obtain ⟨_, -, h⟩ := Py.bind_eq_ok.1 h
      obtain ⟨v, -, h⟩ := Py.bind_eq_ok.1 h
      cases h
      exact ⟨rfl, rfl, rfl, rfl, rfl⟩
    | some d =>
      obtain ⟨dm, -, h⟩ := Py.bind_eq_ok.1 h
      obtain ⟨_, -, h⟩ := Py.bind_eq_ok.1 h
      obtain ⟨v, -, h⟩ := Py.bind_eq_ok.1 h
      cases h
      exact ⟨rfl, rfl, rfl, rfl, rfl⟩
  obtain ⟨h1, h2, h3, h4, h5⟩ := e
  exact {
    X := rfl, y := rfl, dom := rfl, w := rfl
    init0 := fun _ => rfl, init1 := fun v h => by rw [h3] at h; cases h
    pr0 := fun _ => rfl, pr1 := fun v h => by rw [h4] at h; cases h
    ob0 := fun _ => rfl, ob1 := fun v h => by rw [h5] at h; cases h
    r0 := fun _ => rfl, r1 := fun v h => by rw [h1] at h; cases h
    upr := fun h => by rw [h2] at h; cases h
    up0 := fun _ => rfl, up1 := fun v h => by rw [h2] at h; cases h }

/-- `fit` once everything is set. -/
theorem DP.fit_set {n : ℕ} (d : Option Dist) (bw : ℕ) (v : Option NArr) (S : DP)
    (a w b c : Fin n → F) (hw : S.weights = List.ofFn w) (ha : S.init = some (List.ofFn a))
    (hb : S.ob = some (List.ofFn b)) (hc : S.pr = some (List.ofFn c)) :
    DP.fit env d bw v S = (.ok (), { S with
      r := some (List.ofFn fun k => b k / c k)
      up := some (List.ofFn fun k => a k * w k * (b k / c k)) }) := by
  unfold DP.fit
  simp only [PyM.get_bind_run, ha, hb, hc, hw, Option.isNone_some, PyM.when_false, PyM.pure_bind',
    DP.theAttr, PyM.lift_ok_bind, bzip1_ofFn, PyM.modify_bind_run, PyM.modify_run]

/-- **C28.** Whatever state the object `Q` is in, once the three distributions are set the MUD
point is the sample `X[m]`, `m` being the (first) index maximising
`initial(X_k) * weight_k * (observed(y_k) / predicted(y_k))`.

`a`, `b`, `c` are the values the three distribution objects return on the samples. -/
theorem C28_mud_point (Q : DP) (di do_ dp : Dist) {n : ℕ} (hn : 0 < n) (hX : Q.X.r = n)
    (a w b c : Fin n → F) (hw : Q.weights = List.ofFn w)
    (ha : densAt di Q.X = .ok (List.ofFn a)) (hb : densAt do_ Q.y = .ok (List.ofFn b))
    (hc : ∃ out, dp.pdf Q.y = .ok out ∧ out.ravel = List.ofFn c) :
    ∃ m : Fin n, IsArgmax (List.ofFn fun k => a k * w k * (b k / c k)) m ∧
      (DP.mudPoint env (Q.after env [.setInitial (some di), .setObserved (some do_),
        .setPredicted (some dp) 0 none])).1 =
        .ok (List.ofFn fun j : Fin Q.X.c => Q.X.get m j) := by
  obtain ⟨out, hout, hc⟩ := hc
  obtain ⟨o1, ho1, ho1'⟩ := Py.bind_eq_ok.1 ha
  obtain ⟨o2, ho2, ho2'⟩ := Py.bind_eq_ok.1 hb
  have e : Q.after env [.setInitial (some di), .setObserved (some do_),
      .setPredicted (some dp) 0 none] =
      { Q with
        init := some (List.ofFn a), ob := some (List.ofFn b), pr := some (List.ofFn c)
        up := none } := by
    simp only [DP.after, List.foldl_cons, List.foldl_nil, DOp.run, DP.setInitial, DP.setObserved,
      DP.setPredicted, DP.setWeightsIf, DP.predVals, PyM.get_bind_run, Option.getD_some, ho1, ho2,
      hout, PyM.lift_ok_bind, ho1', ho2', PyM.modify_run, PyM.pure_bind', Py.ok_bind, Py.pure_eq,
      hc]
  rw [e]
  obtain ⟨m, hm, hm'⟩ := npArgmax_spec (l := List.ofFn fun k => a k * w k * (b k / c k))
    (by intro h; rw [List.ofFn_eq_nil_iff] at h; omega)
  have hmn : m < n := by obtain ⟨h, -⟩ := hm'; simpa using h
  refine ⟨⟨m, hmn⟩, hm', ?_⟩
  have e2 : Q.X.rowAt m = .ok (List.ofFn fun j : Fin Q.X.c => Q.X.get m j) := by
    unfold Arr2.rowAt
    rw [dif_pos (by omega)]
    congr 2
    funext j
    rw [Arr2.get, dif_pos ⟨by omega, j.2⟩]
  have hfit := DP.fit_set (env := env) none 0 none
    { Q with
      init := some (List.ofFn a), ob := some (List.ofFn b), pr := some (List.ofFn c), up := none }
    a w b c hw rfl rfl rfl
  unfold DP.mudPoint
  rw [PyM.get_bind_run, Option.isNone_none, PyM.when_true, PyM.bind_run, hfit]
  simp only [PyM.get_bind_run, DP.theAttr, PyM.lift_ok_bind, hm, PyM.lift_run, e2]

/-- **C28**, no samples: `estimate` raises `ValueError` (there is no maximum). -/
theorem C28_no_samples (Q : DP) (di do_ dp : Dist) (hw : Q.weights = [])
    (ha : densAt di Q.X = .ok []) (hb : densAt do_ Q.y = .ok [])
    (hc : ∃ out, dp.pdf Q.y = .ok out ∧ out.ravel = []) :
    (DP.mudPoint env (Q.after env [.setInitial (some di), .setObserved (some do_),
      .setPredicted (some dp) 0 none])).1 = .error .valueError := by
  obtain ⟨out, hout, hc⟩ := hc
  obtain ⟨o1, ho1, ho1'⟩ := Py.bind_eq_ok.1 ha
  obtain ⟨o2, ho2, ho2'⟩ := Py.bind_eq_ok.1 hb
  have e : Q.after env [.setInitial (some di), .setObserved (some do_),
      .setPredicted (some dp) 0 none] = { Q with init := some [], ob := some [], pr := some [], up := none } := by
    simp only [DP.after, List.foldl_cons, List.foldl_nil, DOp.run, DP.setInitial, DP.setObserved,
      DP.setPredicted, DP.setWeightsIf, DP.predVals, PyM.get_bind_run, Option.getD_some, ho1, ho2,
      hout, PyM.lift_ok_bind, ho1', ho2', PyM.modify_run, PyM.pure_bind', Py.ok_bind, Py.pure_eq,
      hc]
  rw [e]
  have hfit := DP.fit_set (env := env) (n := 0) none 0 none
    { Q with init := some [], ob := some [], pr := some [], up := none }
    Fin.elim0 Fin.elim0 Fin.elim0 Fin.elim0 hw rfl rfl rfl
  simp only [List.ofFn_zero] at hfit
  unfold DP.mudPoint
  rw [PyM.get_bind_run, Option.isNone_none, PyM.when_true, PyM.bind_run, hfit]
  simp only [PyM.get_bind_run, DP.theAttr, PyM.lift_ok_bind]
  rfl

/-- **C28**, finite densities: `X[m]` with the largest updated density, the first one if there are
several. -/
theorem C28_mud_point_finite (Q : DP) (di do_ dp : Dist) {n : ℕ} (hn : 0 < n) (hX : Q.X.r = n)
    (a w b c : Fin n → ℝ) (hw : Q.weights = List.ofFn fun k => F.fin (w k))
    (ha : densAt di Q.X = .ok (List.ofFn fun k => F.fin (a k)))
    (hb : densAt do_ Q.y = .ok (List.ofFn fun k => F.fin (b k)))
    (hc : ∃ out, dp.pdf Q.y = .ok out ∧ out.ravel = List.ofFn fun k => F.fin (c k))
    (hc0 : ∀ k, c k ≠ 0) :
    ∃ m : Fin n, (∀ k, a k * w k * (b k / c k) ≤ a m * w m * (b m / c m)) ∧
      (∀ k, k < m → a k * w k * (b k / c k) < a m * w m * (b m / c m)) ∧
      (DP.mudPoint env (Q.after env [.setInitial (some di), .setObserved (some do_),
        .setPredicted (some dp) 0 none])).1 =
        .ok (List.ofFn fun j : Fin Q.X.c => Q.X.get m j) := by
  obtain ⟨m, hm, h⟩ := C28_mud_point (env := env) Q di do_ dp hn hX _ _ _ _ hw ha hb hc
  have e : (List.ofFn fun k => F.fin (a k) * F.fin (w k) * (F.fin (b k) / F.fin (c k))) =
      (List.ofFn fun k => a k * w k * (b k / c k)).map F.fin := by
    rw [List.map_ofFn]
    congr 1; funext k
    rw [F.fin_div_of_ne _ (hc0 k)]; rfl
  rw [e, isArgmax_fin] at hm
  obtain ⟨hm0, h1, h2⟩ := hm
  refine ⟨m, fun k => ?_, fun k hk => ?_, h⟩
  · have := h2 k (by simp)
    simpa using this
  · have := h1 k hk
    simpa using this

/-- **C28**, nothing set by the user: the estimate of a freshly constructed problem maximises
uniform-on-the-domain initial × weight × standard normal of the data / kernel density estimate. -/
theorem C28_defaults {X y : NArr} {dom w : Option NArr} {nrm : Bool} {pad : ℝ} {xi di : Bool}
    {P : DP} (h : DP.new X y dom w nrm pad xi di = .ok P) {n : ℕ} (hn : 0 < n) (hX : P.X.r = n)
    (a v b c : Fin n → F) (hw : P.weights = List.ofFn v)
    (ha : densAt (uniformOn P.domain) P.X = .ok (List.ofFn a))
    (hb : densAt stdNormal P.y = .ok (List.ofFn b))
    (hc : env.kde P.y 0 P.weights = .ok (List.ofFn c)) :
    ∃ m : Fin n, IsArgmax (List.ofFn fun k => a k * v k * (b k / c k)) m ∧
      (DP.mudPoint env P).1 = .ok (List.ofFn fun j : Fin P.X.c => P.X.get m j) := by
  have hrel := new_rel (env := env) h
  rw [(sim_estimate P P.start hrel).1, (specEstimate_fresh _ hrel.inv (Or.inl rfl)).1]
  have hu := Settings.updated_ofFn (env := env) (D := P.data) (s := P.start.cur.complete)
    (a := a) (b := b) (c := c) (w := v) hw ha hb hc
  obtain ⟨m, hm, hm'⟩ := npArgmax_spec (l := List.ofFn fun k => a k * v k * (b k / c k))
    (by intro h; rw [List.ofFn_eq_nil_iff] at h; omega)
  have hmn : m < n := by obtain ⟨h, -⟩ := hm'; simpa using h
  refine ⟨⟨m, hmn⟩, hm', ?_⟩
  simp only [Settings.best, hu, Py.ok_bind, hm]
  unfold Arr2.rowAt
  rw [dif_pos (by change m < P.X.r; omega)]
  congr 2
  funext j
  rw [Arr2.get, dif_pos ⟨by omega, j.2⟩]
  rfl

/-- Whatever the history, an estimate that is returned is one of the samples. -/
theorem C28_is_sample {X y : NArr} {dom w : Option NArr} {nrm : Bool} {pad : ℝ} {xi di : Bool}
    {P : DP} (h : DP.new X y dom w nrm pad xi di = .ok P) (ops : List DOp) {x : List ℝ}
    (hx : (DP.mudPoint env (P.after env ops)).1 = .ok x) :
    ∃ i : Fin P.X.r, x = List.ofFn fun j => P.X.m i j := by
  have hrel := sim_after ops _ _ (new_rel (env := env) h)
  rw [(sim_estimate _ _ hrel).1] at hx
  unfold SpecState.estimate at hx
  rw [PyM.get_bind_run, PyM.bind_run] at hx
  rcases hy : PyM.when (P.start.after env P.data ops).fitted.isNone
    (SpecState.fit env P.data none 0 none) (P.start.after env P.data ops) with ⟨r, σ⟩
  rw [hy] at hx
  cases r with
  | error e => cases hx
  | ok _ =>
    simp only [PyM.get_bind_run, PyM.lift_run, Settings.best] at hx
    obtain ⟨u, -, hx⟩ := Py.bind_eq_ok.1 hx
    obtain ⟨m, -, hx⟩ := Py.bind_eq_ok.1 hx
    unfold Arr2.rowAt at hx
    split_ifs at hx with hm
    cases hx
    exact ⟨⟨m, hm⟩, rfl⟩

/-! ### A concrete problem -/

/-- A distribution object that evaluates entrywise. -/
noncomputable def distOf (f : ℝ → ℝ) : Dist where
  pdf A := .ok (.tab (rowsOf (fun _ x => .fin (f x)) A))
  logpdf A := .ok (.tab (rowsOf (fun _ x => F.log (.fin (f x))) A))

/-- Two samples 0 and 1 of one parameter. -/
def demoX : NArr := .mat ⟨2, 1, !![(0 : ℝ); 1]⟩

/-- Unit square domain. -/
def demoDom : NArr := .mat ⟨1, 2, !![(0 : ℝ), 1]⟩

/-- The problem with samples 0, 1, the identity as data map, and unit weights. -/
def demoP : DP where
  X := ⟨2, 1, !![(0 : ℝ); 1]⟩
  y := ⟨2, 1, !![(0 : ℝ); 1]⟩
  domain := ⟨1, 2, !![(0 : ℝ), 1]⟩
  domInt := false
  weights := [.fin 1, .fin 1]

theorem demo_new : DP.new demoX demoX (some demoDom) = .ok demoP := rfl

theorem demo_densAt (f : ℝ → ℝ) :
    densAt (distOf f) demoP.X = .ok (List.ofFn ![F.fin (f 0), F.fin (f 1)]) := by
  simp [densAt, distOf, FOut.prodRows, rowsOf, demoP]

theorem demo_ravel (f : ℝ → ℝ) :
    ∃ out, (distOf f).pdf demoP.y = .ok out ∧ out.ravel = List.ofFn ![F.fin (f 0), F.fin (f 1)] := by
  refine ⟨_, rfl, ?_⟩
  simp [FOut.ravel, rowsOf, demoP]

/-- The hypotheses of `C28_no_samples` are met by an object made from an empty table. -/
example : ∃ P, DP.new (.mat ⟨0, 2, .of fun i _ => i.elim0⟩) (.mat ⟨0, 1, .of fun i _ => i.elim0⟩)
      (some (.mat ⟨2, 2, !![0, 1; 0, 1]⟩)) none = .ok P ∧
    (DP.mudPoint env (P.after env [.setInitial (some (distOf fun _ => 1)), .setObserved (some (distOf fun _ => 1)),
      .setPredicted (some (distOf fun _ => 1)) 0 none])).1 = .error .valueError := by
  refine ⟨_, rfl, C28_no_samples _ _ _ _ ?_ ?_ ?_ ⟨_, rfl, ?_⟩⟩ <;> rfl

/-- The hypotheses of `C28_mud_point` are met by the concrete problem: with observed density `2-x`
and constant initial and predicted densities the MUD point is the sample 0. -/
example : (DP.mudPoint env (demoP.after env [.setInitial (some (distOf fun _ => 1)),
    .setObserved (some (distOf fun x => 2 - x)),
    .setPredicted (some (distOf fun _ => 1)) 0 none])).1 = .ok [0] := by
  obtain ⟨m, hm, h⟩ := C28_mud_point (env := env) demoP (distOf fun _ => 1)
    (distOf fun x => 2 - x) (distOf fun _ => 1) (n := 2) (by norm_num) rfl
    ![.fin 1, .fin 1] ![.fin 1, .fin 1] ![.fin (2 - 0), .fin (2 - 1)] ![.fin 1, .fin 1]
    (by simp [demoP]) (demo_densAt _) (demo_densAt _) (demo_ravel _)
  rw [h]
  have : m = 0 := by
    have e : (List.ofFn fun k => (![F.fin 1, F.fin 1] : Fin 2 → F) k * (![F.fin 1, F.fin 1] : Fin 2 → F) k *
        ((![F.fin (2 - 0), F.fin (2 - 1)] : Fin 2 → F) k / (![F.fin 1, F.fin 1] : Fin 2 → F) k)) =
        [2, 1].map F.fin := by
      simp [F.fin_div]; norm_num
    rw [e, isArgmax_fin] at hm
    obtain ⟨_, h1, _⟩ := hm
    by_contra hne
    have : m = 1 := by omega
    subst this
    have := h1 0 (by simp)
    norm_num at this
  subst this
  simp [demoP, Arr2.get]

/-! ## C29: estimates reflect the current settings -/

/-- **C29**, exactly what the code computes: after any history the estimate and the expected ratio
are those of the bookkeeping in `SpecDensity.lean`, i.e. the best sample for the settings of the
last fit that was not invalidated. -/
theorem C29_exact {X y : NArr} {dom w : Option NArr} {nrm : Bool} {pad : ℝ} {xi di : Bool} {P : DP}
    (h : DP.new X y dom w nrm pad xi di = .ok P) (ops : List DOp) :
    (DP.mudPoint env (P.after env ops)).1 =
      (SpecState.estimate env P.data (P.start.after env P.data ops)).1 ∧
    (DP.expectedRatio env (P.after env ops)).1 =
      (SpecState.expectedRatio env P.data (P.start.after env P.data ops)).1 :=
  have hrel := sim_after ops _ _ (new_rel (env := env) h)
  ⟨(sim_estimate _ _ hrel).1, (sim_expectedRatio _ _ hrel).1⟩

/-- **C29**, the full claim: the next estimate is the one for the current settings. -/
def C29_claim : Prop :=
  ∀ (env : Env) (X y : NArr) (dom w : Option NArr) (nrm : Bool) (pad : ℝ) (xi di : Bool) (P : DP),
    DP.new X y dom w nrm pad xi di = .ok P → ∀ ops : List DOp,
    (DP.mudPoint env (P.after env ops)).1 = (P.settings env ops).best env P.data

/-- **C29**, part: the claim holds for every history in which `set_observed` is not called after
the first `fit` / `estimate` / `expected_ratio`; likewise for `expected_ratio`. -/
theorem C29_current_partial {X y : NArr} {dom w : Option NArr} {nrm : Bool} {pad : ℝ} {xi di : Bool}
    {P : DP} (h : DP.new X y dom w nrm pad xi di = .ok P) (pre post : List DOp)
    (hpre : ∀ op ∈ pre, (∀ d bw w, op ≠ .fit d bw w) ∧ op ≠ .estimate ∧ op ≠ .expectedRatio)
    (hpost : ∀ op ∈ post, ∀ d, op ≠ .setObserved d) :
    (DP.mudPoint env (P.after env (pre ++ post))).1 =
      (P.settings env (pre ++ post)).best env P.data ∧
    (DP.expectedRatio env (P.after env (pre ++ post))).1 = (do
      let _ ← (P.settings env (pre ++ post)).updated env P.data
      let r ← (P.settings env (pre ++ post)).ratio env P.data
      DP.npAverage r (P.settings env (pre ++ post)).weights) := by
  have hrel := sim_after (pre ++ post) _ _ (new_rel (env := env) h)
  have h1 := spec_after_unfitted (env := env) (D := P.data) pre P.start rfl hpre
  have h2 := spec_after_fresh (env := env) (D := P.data) post _ (Or.inl h1) hpost
  rw [← SpecState.after_append] at h2
  have h3 := specEstimate_fresh _ hrel.inv h2
  rw [(C29_exact h _).1, (C29_exact h _).2, h3.1, h3.2]
  unfold DP.settings
  rw [Settings.complete_weights]
  exact ⟨rfl, rfl⟩

/-- **C29**, part: after any history, a successful explicit `fit()` makes the next estimate the one
for the current settings. -/
theorem C29_after_fit_partial {X y : NArr} {dom w : Option NArr} {nrm : Bool} {pad : ℝ}
    {xi di : Bool} {P : DP} (h : DP.new X y dom w nrm pad xi di = .ok P) (ops : List DOp)
    (d : Option Dist) (bw : ℕ) (v : Option NArr)
    (hok : (DP.fit env d bw v (P.after env ops)).1 = .ok ()) :
    (DP.mudPoint env (P.after env (ops ++ [.fit d bw v]))).1 =
      (P.settings env (ops ++ [.fit d bw v])).best env P.data := by
  have hrel0 := sim_after ops _ _ (new_rel (env := env) h)
  have hrel := sim_after (ops ++ [.fit d bw v]) _ _ (new_rel (env := env) h)
  rw [(sim_fit d bw v _ _ hrel0).1] at hok
  have h2 := specFit_fresh d bw v _ (Or.inr hok)
  have e : P.start.after env P.data (ops ++ [.fit d bw v]) =
      (SpecState.fit env P.data d bw v (P.start.after env P.data ops)).2 := by
    rw [SpecState.after_append]; rfl
  rw [← e] at h2
  rw [(C29_exact h _).1, (specEstimate_fresh _ hrel.inv h2).1]
  rfl

/-- Settings of the concrete problem: constant initial and predicted densities. -/
noncomputable def demoS (f : ℝ → ℝ) : Settings where
  weights := [.fin 1, .fin 1]
  initial := some (some (distOf fun _ => 1))
  predicted := some (some (distOf fun _ => 1), 0)
  observed := some (distOf f)

theorem demo_ini (f : ℝ → ℝ) : (demoS f).ini demoP.data = .ok (List.ofFn ![F.fin 1, F.fin 1]) :=
  demo_densAt _

theorem demo_obs (f : ℝ → ℝ) :
    (demoS f).obs demoP.data = .ok (List.ofFn ![F.fin (f 0), F.fin (f 1)]) := demo_densAt _

theorem demo_pred (f : ℝ → ℝ) :
    (demoS f).pred env demoP.data = .ok (List.ofFn ![F.fin 1, F.fin 1]) := by
  obtain ⟨out, h1, h2⟩ := demo_ravel fun _ => 1
  change (do let out ← (distOf fun _ => 1).pdf demoP.y; return out.ravel : Py (List F)) = _
  rw [h1, Py.ok_bind, h2]; rfl

theorem demo_updated (f : ℝ → ℝ) :
    (demoS f).updated env demoP.data = .ok ([f 0, f 1].map F.fin) := by
  rw [Settings.updated_ofFn (w := ![F.fin 1, F.fin 1]) (by simp [demoS]) (demo_ini f) (demo_obs f)
    (demo_pred f)]
  simp [F.fin_div]

theorem demo_ratio (f : ℝ → ℝ) :
    (demoS f).ratio env demoP.data = .ok ([f 0, f 1].map F.fin) := by
  rw [Settings.ratio_ofFn (demo_obs f) (demo_pred f)]
  simp [F.fin_div]

theorem demo_best (f : ℝ → ℝ) (h : f 0 < f 1) : (demoS f).best env demoP.data = .ok [1] := by
  have : IsArgmax ([f 0, f 1].map F.fin) 1 := by
    rw [isArgmax_fin]
    refine ⟨by simp, fun k hk => ?_, fun k hk => ?_⟩
    · obtain rfl : k = 0 := by omega
      simpa using h
    · have : k = 0 ∨ k = 1 := by simp at hk; omega
      rcases this with rfl | rfl <;> simp [h.le]
  simp only [Settings.best, demo_updated, Py.ok_bind, npArgmax_eq this]
  rfl

theorem demo_best' (f : ℝ → ℝ) (h : f 1 < f 0) : (demoS f).best env demoP.data = .ok [0] := by
  have : IsArgmax ([f 0, f 1].map F.fin) 0 := by
    rw [isArgmax_fin]
    refine ⟨by simp, fun k hk => by omega, fun k hk => ?_⟩
    have : k = 0 ∨ k = 1 := by simp at hk; omega
    rcases this with rfl | rfl <;> simp [h.le]
  simp only [Settings.best, demo_updated, Py.ok_bind, npArgmax_eq this]
  rfl

/-- Setting the three distributions of the concrete problem. -/
noncomputable def demoOps (f : ℝ → ℝ) : List DOp :=
  [.setInitial (some (distOf fun _ => 1)), .setObserved (some (distOf f)),
    .setPredicted (some (distOf fun _ => 1)) 0 none]

theorem demo_after (f : ℝ → ℝ) :
    demoP.start.after env demoP.data (demoOps f) = ⟨demoS f, none, none⟩ := by
  have hD : ∀ f, densAt (distOf f) demoP.data.X = .ok (List.ofFn ![F.fin (f 0), F.fin (f 1)]) :=
    demo_densAt
  have hD' : ∀ f, densAt (distOf f) demoP.data.y = .ok (List.ofFn ![F.fin (f 0), F.fin (f 1)]) :=
    demo_densAt
  obtain ⟨out, h1, -⟩ := demo_ravel fun _ => 1
  have h1 : (distOf fun _ => 1).pdf demoP.data.y = .ok out := h1
  simp only [SpecState.after, demoOps, List.foldl_cons, List.foldl_nil, DOp.spec,
    SpecState.setInitial, SpecState.setObserved, SpecState.setPredicted, SpecState.setWeightsIf,
    PyM.pure_bind', PyM.get_bind_run, Settings.ini, Settings.obs, Settings.pred,
    Option.getD_some, hD, hD', h1, Py.ok_bind, Py.pure_eq, PyM.lift_ok_bind, PyM.modify_run,
    DP.start]
  rfl

/-- **C29** is false of the code: `set_observed` does not invalidate an earlier fit, so the old
estimate is returned. Samples 0 and 1; first observed density larger at 0, then larger at 1. -/
theorem C29_claim_refuted : ¬ C29_claim := by
  intro hC
  let env : Env := ⟨fun _ _ _ => .error .valueError⟩
  let ops : List DOp := demoOps (fun x => 2 - x) ++
    [.estimate, .setObserved (some (distOf fun x => 1 + x))]
  have h := hC env demoX demoX (some demoDom) none false (1/10) false false demoP demo_new ops
  have hσ : ∃ s, demoP.start.after env demoP.data ops =
      ⟨demoS fun x => 1 + x, some (demoS fun x => 2 - x), s⟩ := by
    simp only [ops, SpecState.after_append, demo_after]
    have hinv : SpecInv env demoP.data ⟨demoS fun x => 2 - x, none, none⟩ :=
      ⟨fun _ => ⟨_, demo_ini _⟩, fun _ => ⟨_, demo_pred _⟩⟩
    have h1 := specFit_default _ hinv
    have hc : ∀ f, (demoS f).complete = demoS f := fun f => Settings.complete_set rfl rfl
    simp only [hc, demo_updated, Py.ok_bind, Py.pure_eq] at h1
    have h2 := h1.2 h1.1
    refine ⟨some (demoS fun x => 2 - x), ?_⟩
    · simp only [SpecState.after, List.foldl_cons, List.foldl_nil, DOp.spec, PyM.get_bind_run,
        Option.isNone_none, PyM.when_true, h2, SpecState.setObserved]
      have : ({ demoS fun x => 2 - x with observed := some (distOf fun x => 1 + x) } : Settings) =
          demoS fun x => 1 + x := rfl
      rw [this, demo_obs, PyM.lift_ok_bind, PyM.modify_run]
      rfl
  obtain ⟨s, hσ⟩ := hσ
  have hnew : (demoP.settings env ops).best env demoP.data = .ok [1] := by
    rw [DP.settings, hσ, Settings.complete_set rfl rfl]
    exact demo_best _ (by norm_num)
  have hold : (DP.mudPoint env (demoP.after env ops)).1 = .ok [0] := by
    rw [(C29_exact demo_new ops).1, hσ]
    simp only [SpecState.estimate, PyM.get_bind_run, Option.isNone_some, PyM.when_false,
      PyM.pure_bind', PyM.lift_run, Option.getD_some]
    exact demo_best' _ (by norm_num)
  rw [hnew, hold] at h
  norm_num at h

/-- The hypotheses of the partial theorems are met: a history that sets everything, estimates, and
changes the weights. -/
example := C29_current_partial (env := env) demo_new (demoOps fun x => 2 - x)
  [.estimate, .setWeights (some (.vec 2 ![0, 1])) false, .expectedRatio]
  (by simp [demoOps]) (by simp)

/-! ### Further cases meeting the hypotheses -/

/-- C28 with finite values: the weights `1, 3` and the observed densities `2, 1` select the second sample. -/
example {env : Env} : (DP.mudPoint env (({ demoP with weights := [.fin 1, .fin 3] } : DP).after env
    [.setInitial (some (distOf fun _ => 1)), .setObserved (some (distOf fun x => 2 - x)),
     .setPredicted (some (distOf fun _ => 1)) 0 none])).1 = .ok [1] := by
  obtain ⟨m, h1, -, h⟩ := C28_mud_point_finite (env := env) { demoP with weights := [.fin 1, .fin 3] }
    (distOf fun _ => 1) (distOf fun x => 2 - x) (distOf fun _ => 1) (n := 2) (by norm_num) rfl
    ![1, 1] ![1, 3] ![2 - 0, 2 - 1] ![1, 1] (by simp) ((demo_densAt _).trans (by simp))
    ((demo_densAt _).trans (by simp))
    (by obtain ⟨o, h1, h2⟩ := demo_ravel (fun _ => 1); exact ⟨o, h1, h2.trans (by simp)⟩)
    (by intro k; fin_cases k <;> norm_num)
  rw [h]
  have : m = 1 := by
    by_contra hne
    have : m = 0 := by omega
    subst this
    have := h1 1
    norm_num at this
  subst this
  simp [demoP, Arr2.get]

/-- After any history the estimate is a sample: here after the history of the example above. -/
example {env : Env} {x : List ℝ} (hx : (DP.mudPoint env (demoP.after env (demoOps fun x => 2 - x))).1 = .ok x) :=
  C28_is_sample demo_new _ hx

end Verif
