import Verif.Props.PoissonTrials
import Verif.Props.Poisson

/-!
# C113: `run_2d_poisson_sol`

`/repo/src/mud/examples/poisson.py:145-327`.
-/

namespace Verif

namespace Poisson

open ND SpecST STP Prep

variable {σ ρ : Type} {env : Env} {pe : PlotEnv} {user : ℕ → ℝ → ℕ → ℝ}

theorem runObj_ok {τ α : Type} {m : PyM τ α} {D D' : τ} (h : runObj m D = .ok D') :
    ∃ a, m D = (.ok a, D') := by
  unfold runObj at h
  rcases hm : m D with ⟨r, D1⟩
  rw [hm] at h
  cases r with
  | error e => cases h
  | ok a => cases h; exact ⟨a, rfl⟩

/-- The sensors of a group `[a, b]`, as `l[a:b]`: positions `a` to `b - 1` of the order, a negative number
counting from the end. -/
def inGroup (S : ℕ) (g : ℤ × ℤ) (k : ℕ) : Prop :=
  (if g.1 < 0 then g.1 + S else g.1) ≤ k ∧ (k : ℤ) < if g.2 < 0 then g.2 + S else g.2

open Classical in
/-- The sensors of a group, in the order `idx`. -/
noncomputable def groupOf (idx : List ℕ) (g : ℤ × ℤ) : List ℕ :=
  ((List.range idx.length).filter fun k => decide (inGroup idx.length g k)).map fun k => idx.getD k 0

/-- The line through `0` at both ends and the values `l` at equally spaced points of `[0, 1]`. -/
noncomputable def knotLine (l : List ℝ) : List ℝ × List ℝ :=
  ((List.range (l.length + 2)).map fun i : ℕ => (i : ℝ) / (l.length + 1 : ℕ), [0] ++ l ++ [0])

/-- The graph of the true boundary function `197.65032 x² (x - 1)⁵` at `1000` points of `[0, 1]`. -/
noncomputable def trueLine : List ℝ × List ℝ :=
  ((List.range 1000).map fun i : ℕ => (i : ℝ) / 999,
    (List.range 1000).map fun i : ℕ => 197.65032 * ((i : ℝ) / 999) ^ 2 * ((i : ℝ) / 999 - 1) ^ 5)

theorem slice_group (idx : List ℕ) (g : ℤ × ℤ) : slice idx g.1 g.2 = groupOf idx g := by
  classical
  unfold slice groupOf inGroup
  generalize hb : (if g.2 < 0 then g.2 + (idx.length : ℤ) else g.2) = b
  generalize ha : (if g.1 < 0 then g.1 + (idx.length : ℤ) else g.1) = a
  have hf : ((List.range idx.length).filter fun k : ℕ => decide (a ≤ (k : ℤ) ∧ (k : ℤ) < b)) =
      ((List.range idx.length).take b.toNat).drop a.toNat := by
    rw [List.take_range, List.range_eq_range', List.range_eq_range', List.drop_range']
    refine List.Perm.eq_of_pairwise (le := (· < ·)) (fun x y _ _ h1 h2 => absurd h1 (not_lt.2 h2.le))
      (List.Pairwise.filter _ List.pairwise_lt_range') List.pairwise_lt_range' ?_
    rw [List.perm_ext_iff_of_nodup ((List.nodup_range' ..).filter _) List.nodup_range']
    intro k
    simp only [List.mem_filter, List.mem_range'_1, decide_eq_true_eq]
    omega
  have hf' : ((List.range idx.length).filter fun k : ℕ => @decide (a ≤ (k : ℤ) ∧ (k : ℤ) < b)
      (Classical.propDecidable _)) = ((List.range idx.length).take b.toNat).drop a.toNat := by
    rw [← hf]
    congr 1
    funext k
    congr
  rw [hf', List.map_drop, List.map_take]
  congr 2
  refine List.ext_getElem (by simp) fun i h1 h2 => ?_
  rw [List.getElem_map, List.getElem_range, List.getD_eq_getElem _ _ h1]

theorem spline_curves (l : List ℝ) : solutionSpline l 1000 true = [trueLine, knotLine l] ∧
    solutionSpline l 1000 false = [knotLine l] := by
  obtain ⟨h1, h2⟩ := C109_line l 1000 true
  obtain ⟨h3, -⟩ := C109_line l 1000 false
  obtain ⟨-, h2⟩ := h2 rfl
  have e2 : ∀ b, solutionSpline l 1000 b = (if b then [(linspace 0 1 1000, (linspace 0 1 1000).map gTrue)] else []) ++
    [([0] ++ ((linspace 0 1 (2 + l.length)).drop 1).dropLast ++ [1], [0] ++ l ++ [0])] := fun _ => rfl
  rw [e2] at h1 h2 h3 ⊢
  rw [e2]
  simp only [if_true, List.cons_append, List.nil_append, List.getLast?_cons_cons, List.getLast?_singleton,
    List.head?_cons, Option.some.injEq, Bool.false_eq_true, if_false] at h1 h2 h3 ⊢
  rw [h1, h2]
  have : ((List.range 1000).map (gridPt 1000), (List.range 1000).map fun i => gTrue (gridPt 1000 i)) = trueLine := by
    unfold trueLine gTrue gridPt
    norm_num
  rw [this]
  exact ⟨rfl, rfl⟩

/-- The response figure: the true boundary function, the line through `closest` and the lines through the
first `50` samples. -/
theorem response_splines {P : STP} {n p : ℕ} {lam : ND} (hl : P.lam = some lam) (hls : lam.shape = [n, p])
    {idx : List ℕ} {closest : List ℝ} {gs : List (ℤ × ℤ)} {styles : ℕ} {fig : ResponseFig}
    (h : responseFig P idx closest gs styles = .ok fig) :
    fig.splines = [trueLine, knotLine closest] :: (List.range (min 50 n)).map fun i =>
      [knotLine ((List.range p).map fun j => lam.get [i, j])] := by
  unfold responseFig at h
  obtain ⟨groups, hg, h⟩ := Py.bind_eq_ok.1 h
  rw [hl] at h
  cases h
  simp only [spline_curves, firstRows, hls, List.map_map]
  rfl

/-- The response figure: the groups of sensors, each sensor at its place. -/
theorem response_groups {P : STP} {S : ℕ} {sensors : ND} (hse : P.sensors = some sensors)
    (hs2 : sensors.shape = [S, 2]) {idx : List ℕ} (hidx : idx.Perm (List.range S)) {closest : List ℝ}
    {gs : List (ℤ × ℤ)} {styles : ℕ} {fig : ResponseFig}
    (h : responseFig P idx closest gs styles = .ok fig) :
    fig.groups = gs.map fun g => (groupOf idx g).map (sensorAt sensors) := by
  simp only [← slice_group]
  unfold responseFig at h
  obtain ⟨groups, hg, h⟩ := Py.bind_eq_ok.1 h
  obtain ⟨lam, hl, h⟩ := Py.bind_eq_ok.1 h
  cases h
  have hF := mapM_forall₂ hg
  have hlen := hF.length_eq
  rw [List.length_zipIdx] at hlen
  refine List.ext_getElem (by simpa using hlen.symm) ?_
  intro i h1 h2
  have hi : i < gs.length := by simpa using h2
  have h3 := List.forall₂_iff_get.1 hF
  have h4 := h3.2 i (by simpa using hi) h1
  simp only [List.get_eq_getElem, List.getElem_zipIdx] at h4
  unfold groupPoints at h4
  obtain ⟨-, -, h4⟩ := Py.bind_eq_ok.1 h4
  have hpk : Picks S (some (asMask (slice idx gs[i].1 gs[i].2))) (slice idx gs[i].1 gs[i].2) := by
    change List.Forall₂ _ (List.map (fun k : ℕ => (k : ℤ)) _) _
    rw [List.forall₂_map_left_iff, List.forall₂_same]
    intro k hk
    exact ⟨List.mem_range.1 (hidx.mem_iff.1 (List.mem_of_mem_take (List.mem_of_mem_drop hk))), .inl rfl⟩
  rw [C99_scatter hse hs2 (noInt (.inr ⟨_, rfl⟩)) hpk] at h4
  rw [List.getElem_map]
  exact (Except.ok.inj h4).symm

/-- The default groups. -/
theorem default_groups (idx : List ℕ) :
    (slice idx 0 5 ++ slice idx 5 50 ++ slice idx 50 (-1)) =
      if 50 < idx.length then idx.dropLast else idx := by
  have h1 : slice idx 0 5 = idx.take 5 := slice_nat idx 5
  have h2 : slice idx 5 50 = (idx.take 50).drop 5 := rfl
  have h3 : slice idx 50 (-1) = (idx.take (idx.length - 1)).drop 50 := by
    have e : ((-1 : ℤ) + (idx.length : ℤ)).toNat = idx.length - 1 := by omega
    change (idx.take ((-1 : ℤ) + (idx.length : ℤ)).toNat).drop 50 = _
    rw [e]
  have h4 : idx.take 5 = (idx.take 50).take 5 := by rw [List.take_take]; rfl
  rw [h1, h2, h3, h4, List.take_append_drop]
  by_cases h : 50 < idx.length
  · rw [if_pos h, List.dropLast_eq_take]
    have : idx.take 50 = (idx.take (idx.length - 1)).take 50 := by
      rw [List.take_take]
      congr 1
      omega
    rw [this, List.take_append_drop]
  · rw [if_neg h, List.take_of_length_le (by omega), List.drop_eq_nil_of_le (by simp; omega), List.append_nil]

/-- `plot_param_space(param_idx=k)` on a fitted object. -/
theorem plot_default {Q : DP} {pt : List ℝ} {r : List F} {S S' : DPD} {k : ℕ} {items : List Item}
    (hS : Fitted Q pt r S) (h : DPD.plotParamSpace env pe k none none (5 / 100) 100 true true false true true S =
      (.ok items, S')) :
    (∃ u, bzip1 (· * ·) r Q.weights = .ok u ∧ ∃ hp : k < pt.length,
      items = [.curve "initial" (.ofDist (uniformOn Q.domain)), .curve "update" (.ofKde Q.X 0 (some u)),
        .vert "mud" pt[k]]) ∧ Fitted Q pt r S' := by
  unfold DPD.plotParamSpace at h
  rw [PyM.bind_run] at h
  unfold DPD.paramRange at h
  simp only [PyM.get_bind_run] at h
  cases hD : fitDomain none (some S.core.domain) (5 / 100) S.core.domInt with
  | error e =>
    rw [hD] at h
    cases h
  | ok D =>
    rw [hD] at h
    simp only [PyM.lift_ok_bind, PyM.modify_bind_run] at h
    have hF : Fitted Q pt r { S with core := { S.core with domain := D } } :=
      ⟨hS.r, hS.up, hS.inDist, hS.X, hS.y, hS.w, by
        rw [← hS.pick]
        exact pick_domain S.core D⟩
    change ((do
      let d ← PyM.lift (DPD.theDist S.inDist)
      let a ← PyM.lift (drawIf pe true "initial" "pdf" (.ofDist d) D k 100)
      let b ← PyM.lift (DPD.updateCurve pe true { S.core with domain := D } D k 100)
      let m ← DPD.mudLine env true k
      return a ++ b ++ [] ++ m ++ [] : PyM DPD (List Item))
        { S with core := { S.core with domain := D } }) = _ at h
    have hd : DPD.theDist S.inDist = .ok (uniformOn Q.domain) := by rw [hS.inDist]; rfl
    rw [hd, PyM.lift_ok_bind] at h
    cases ha : drawIf pe true "initial" "pdf" (.ofDist (uniformOn Q.domain)) D k 100 with
    | error e => rw [ha] at h; cases h
    | ok a =>
      rw [ha, PyM.lift_ok_bind] at h
      cases hb : DPD.updateCurve pe true { S.core with domain := D } D k 100 with
      | error e => rw [hb] at h; cases h
      | ok b =>
        rw [hb, PyM.lift_ok_bind] at h
        unfold DPD.mudLine at h
        have hmp := mudPoint_cached (env := env) (S := { S with core := { S.core with domain := D } }) hF.up
        rw [if_pos rfl, PyM.bind_run, PyM.bind_run, hmp] at h
        have e3 := hF.pick
        simp only [e3] at h
        cases hv : vertAt "mud" pt k with
        | error e => rw [hv] at h; cases h
        | ok m =>
          rw [hv] at h
          obtain ⟨h1, h2⟩ := Prod.mk.inj (show (Except.ok (a ++ b ++ [] ++ m ++ []), _) = _ from h)
          cases h2
          cases h1
          refine ⟨?_, hF⟩
          unfold vertAt at hv
          obtain ⟨i, hi, hv⟩ := Py.bind_eq_ok.1 hv
          cases hv
          obtain ⟨rfl, hi⟩ := normIdx_nat hi
          have ha := drawIf_ok ha
          unfold DPD.updateCurve DPD.ratioWeights at hb
          rw [if_pos rfl, show ({ S.core with domain := D } : DP).r = some r from hS.r] at hb
          obtain ⟨uw, hu, hb⟩ := Py.bind_eq_ok.1 hb
          obtain ⟨u, hu', hu⟩ := Py.bind_eq_ok.1 hu
          cases hu
          have hb := drawIf_ok hb
          refine ⟨u, hS.w ▸ hu', hi, ?_⟩
          rw [ha, hb, List.getD_eq_getElem _ _ hi, ← hS.X]
          rfl

section
variable {E : FileEnv} {G : Rng σ} {R : PyRandom ρ} {path : String} {ds : DataSet} {n p S : ℕ}
  {dom sensors tv lam data : ND}

theorem runSol_eq (hread : E.read path = .ok ds) (hf : PoissonFile ds n p S dom sensors tv lam data)
    (hR : ∀ n s, 0 < n → (R.below n s).1 < n) (ext : Decomp) (closest : List ℝ) (sigma : ℝ)
    (seed : Option ℕ) (plot_fig : List String) (order : String) (gs : List (ℤ × ℤ)) (styles : ℕ)
    (s : σ × ρ) :
    ∃ P M D idx s', loadPoisson E G path sigma seed s.1 =
        (.ok (ds, P), stateAfter G (startState G seed s.1) S) ∧
      Ready P n p S 1 lam data sensors ⟨[1], [0], rfl⟩ (some M) ∧
      P.domain = some D ∧ D.shape = [p, 2] ∧ D.data = dom.data ∧ P.stdDev = some 0.05 ∧
      (∀ j < S, M.get [j, 0] = tv.data.getD j 0 + 0.05 * nthDraw G (startState G seed s.1) j) ∧
      sensorOrder R order P s.2 = (.ok idx, s'.2) ∧ OrderOf order sensors S idx ∧
      runSol E G R ext env pe closest path sigma seed plot_fig order gs styles s =
        (solWith ext env pe closest plot_fig gs styles P idx, s') := by
  obtain ⟨P, M, D, e, hready, hD, hDs, hDd, -, hsd, -, hM⟩ := C110_poisson_partial (G := G) hread hf.no_dist
    hf.has_domain hf.has_sensors hf.no_times hf.no_ref hf.no_sd hf.has_tv hf.no_meas hf.has_lam hf.has_data
    hf.dom_len (by unfold HasLen; rw [hf.sensors_shape]; rfl) hf.tv_len hf.lam_shape hf.data_shape sigma
    seed s.1
  obtain ⟨s1, t⟩ := s
  obtain ⟨idx, t', ho, hord, -⟩ := C112_order hR hready.sensors_eq hf.sensors_shape order t
  refine ⟨P, M, D, idx, (stateAfter G (startState G seed s1) S, t'), e, hready, hD, hDs, hDd, hsd, hM, ho,
    hord, ?_⟩
  unfold runSol
  have h2 : onNp (ρ := ρ) (loadPoisson E G path sigma seed) (s1, t) =
      (.ok (ds, P), (stateAfter G (startState G seed s1) S, t)) := by
    unfold onNp
    rw [e]
  have h3 : ∀ u : σ, onPy (sensorOrder R order P) (u, t) = (.ok idx, (u, t')) := by
    intro u
    unfold onPy
    simp only [ho]
  rw [bind_of_ok h2, bind_of_ok (h3 _)]
  rfl

/-- The figure of parameter `k`. -/
def DensOf (Q : DP) (pt : List ℝ) (r : List F) (k : ℕ) (items : List Item) : Prop :=
  ∃ u, bzip1 (· * ·) r Q.weights = .ok u ∧ ∃ hp : k < pt.length,
    items = [.curve "initial" (.ofDist (uniformOn Q.domain)), .curve "update" (.ofKde Q.X 0 (some u)),
      .vert "mud" pt[k]]

/-- What `run_2d_poisson_sol` must return for the order `idx`: the loaded problem; the MUD problem of the
two leading components of all sensors' data, estimated; and each figure exactly if it is asked for: the
groups of sensors at their places with the true boundary function, the line through `closest` and those
through the first `50` samples, the two learned quantities over the first two parameters, the
densities of the first two parameters. -/
structure SolOf (ext : Decomp) (env : Env) (plot_fig : List String) (closest : List ℝ)
    (gs : List (ℤ × ℤ)) (n p : ℕ) (lam sensors : ND) (P : STP) (idx : List ℕ) (out : SolResult) : Prop where
  prob : out.prob = P
  mud : ∃ Q pt r, P.mudProblem ext "pca" none none 2 none none (some (asMask idx)) = .ok Q ∧
    (DP.mudPoint env Q).1 = .ok pt ∧ (defaults Q).ratio env Q.data = .ok r ∧
    (DPD.mudPoint env out.mud).1 = .ok pt ∧ out.mud.core.X = Q.X ∧ out.mud.core.y = Q.y ∧
    (if "qoi" ∈ plot_fig ∨ "all" ∈ plot_fig then ∃ a b, out.qoi = some [a, b] ∧
      Q.plotParams2d 0 1 0 = .ok a ∧ Q.plotParams2d 0 1 1 = .ok b else out.qoi = none) ∧
    (if "densities" ∈ plot_fig ∨ "all" ∈ plot_fig then ∃ a b, out.densities = some (a, b) ∧
      DensOf Q pt r 0 a ∧ DensOf Q pt r 1 b else out.densities = none)
  response : if "response" ∈ plot_fig ∨ "all" ∈ plot_fig then ∃ fig, out.response = some fig ∧
    (fig.groups = gs.map fun g => (groupOf idx g).map (sensorAt sensors)) ∧
    (fig.splines = [trueLine, knotLine closest] :: (List.range (min 50 n)).map fun i =>
      [knotLine ((List.range p).map fun j => lam.get [i, j])]) else out.response = none

theorem fresh_fitted {X y : NArr} {dom w : Option NArr} {nrm : Bool} {pad : ℝ} {xi di : Bool} {Q : DP}
    (hQ : DP.new X y dom w nrm pad xi di = .ok Q) {pt : List ℝ} {S1 : DPD}
    (he : DPD.mudPoint env { core := Q } = (.ok pt, S1)) :
    ∃ r, (defaults Q).ratio env Q.data = .ok r ∧ Fitted Q pt r S1 ∧ (DP.mudPoint env Q).1 = .ok pt := by
  obtain ⟨r, hr, hb, h1, h2, h3, h4, h5, h6, h7⟩ := fresh_estimate hQ he
  have hpick : (DPD.pick S1.core).1 = .ok pt := by
    have hm := he
    unfold DPD.mudPoint at hm
    rw [PyM.get_bind_run, PyM.bind_run] at hm
    rcases hf : PyM.when (DPD.core { core := Q }).up.isNone (DPD.fit env) { core := Q } with ⟨f, S2⟩
    rw [hf] at hm
    cases f with
    | error e => cases hm
    | ok a =>
      obtain ⟨e1, e2⟩ := Prod.mk.inj (show ((DPD.pick S2.core).1,
        { S2 with core := (DPD.pick S2.core).2 }) = _ from hm)
      rw [DPD.pick_state] at e2
      rw [← e2]
      exact e1
  have hp := DPD.proj_mudPoint (env := env) { core := Q }
  rw [he] at hp
  exact ⟨r, hr, ⟨h1, h2, h3, h4, h5, h7, hpick⟩, hp.1.symm⟩

theorem onDemand_ok {α : Type} {b : Bool} {x : Py α} {o : Option α} (h : onDemand b x = .ok o) :
    (b = true → ∃ a, x = .ok a ∧ o = some a) ∧ (b = false → o = none) := by
  unfold onDemand at h
  cases b with
  | true =>
    obtain ⟨a, ha, h⟩ := Py.bind_eq_ok.1 (show (x >>= fun a => .ok (some a)) = _ from h)
    cases h
    exact ⟨fun _ => ⟨a, ha, rfl⟩, nofun⟩
  | false => cases h; exact ⟨nofun, fun _ => rfl⟩

theorem plotParams_core {Q Q' : DP} (hX : Q'.X = Q.X) (hy : Q'.y = Q.y) (a b c : ℤ) :
    Q'.plotParams2d a b c = Q.plotParams2d a b c := by
  unfold DP.plotParams2d DP.n_params DP.n_features
  rw [hX, hy]

theorem sol_spec {ext : Decomp} {closest : List ℝ} {plot_fig : List String} {gs : List (ℤ × ℤ)}
    {styles : ℕ} {P : STP} {n p S : ℕ} {lam sensors : ND} (hl : P.lam = some lam) (hls : lam.shape = [n, p])
    (hse : P.sensors = some sensors)
    (hs2 : sensors.shape = [S, 2]) {idx : List ℕ} (hidx : idx.Perm (List.range S)) {out : SolResult}
    (h : solWith ext env pe closest plot_fig gs styles P idx = .ok out) :
    SolOf ext env plot_fig closest gs n p lam sensors P idx out := by
  unfold solWith at h
  obtain ⟨Q, hQ, h⟩ := Py.bind_eq_ok.1 h
  obtain ⟨S1, hS1, h⟩ := Py.bind_eq_ok.1 h
  obtain ⟨ro, hro, h⟩ := Py.bind_eq_ok.1 h
  obtain ⟨qo, hqo, h⟩ := Py.bind_eq_ok.1 h
  obtain ⟨d, hd, h⟩ := Py.bind_eq_ok.1 h
  cases h
  obtain ⟨pt, hpt⟩ := runObj_ok hS1
  obtain ⟨X, y, dom, hnew⟩ := mudProblem_new hQ
  obtain ⟨r, hr, hF, hmp⟩ := fresh_fitted hnew hpt
  obtain ⟨r1, r2⟩ := onDemand_ok hro
  obtain ⟨q1, q2⟩ := onDemand_ok hqo
  have hdens : Fitted Q pt r d.2 ∧ (if "densities" ∈ plot_fig ∨ "all" ∈ plot_fig then
      ∃ a b, d.1 = some (a, b) ∧ DensOf Q pt r 0 a ∧ DensOf Q pt r 1 b else d.1 = none) := by
    unfold densitiesIf at hd
    by_cases hb : "densities" ∈ plot_fig ∨ "all" ∈ plot_fig
    · rw [if_pos (decide_eq_true hb)] at hd
      obtain ⟨x, hx, hd⟩ := Py.bind_eq_ok.1 hd
      cases hd
      unfold runVal densityFigs at hx
      rw [PyM.bind_run] at hx
      rcases ha : DPD.plotParamSpace env pe 0 none none (5 / 100) 100 true true false true true S1 with
        ⟨ra, S2⟩
      rw [ha] at hx
      cases ra with
      | error e => cases hx
      | ok a =>
        simp only at hx
        rw [PyM.bind_run] at hx
        rcases hb' : DPD.plotParamSpace env pe 1 none none (5 / 100) 100 true true false true true S2 with
          ⟨rb, S3⟩
        rw [hb'] at hx
        cases rb with
        | error e => cases hx
        | ok b =>
          cases hx
          obtain ⟨a1, a2⟩ := plot_default (k := 0) hF ha
          obtain ⟨b1, b2⟩ := plot_default (k := 1) a2 hb'
          rw [if_pos hb]
          exact ⟨b2, a, b, rfl, a1, b1⟩
    · rw [if_neg (by simpa using hb)] at hd
      cases hd
      rw [if_neg hb]
      exact ⟨hF, rfl⟩
  refine ⟨rfl, ⟨Q, pt, r, hQ, hmp, hr, ?_, hdens.1.X, hdens.1.y, ?_, hdens.2⟩, ?_⟩
  · rw [mudPoint_cached hdens.1.up]
    exact hdens.1.pick
  · by_cases hb : "qoi" ∈ plot_fig ∨ "all" ∈ plot_fig
    · rw [if_pos hb]
      obtain ⟨l, hl, rfl⟩ := q1 (decide_eq_true hb)
      unfold qoiFig at hl
      have hF2 := mapM_forall₂ hl
      change List.Forall₂ _ [0, 1] l at hF2
      obtain ⟨a, l1, ha, h1, e1⟩ := List.forall₂_cons_left_iff.1 hF2
      obtain ⟨b, l2, hb', h2, e2⟩ := List.forall₂_cons_left_iff.1 h1
      rw [List.forall₂_nil_left_iff] at h2
      rw [plotParams_core hF.X hF.y] at ha hb'
      exact ⟨a, b, by rw [e1, e2, h2], ha, hb'⟩
    · rw [if_neg hb]
      exact q2 (decide_eq_false hb)
  · by_cases hb : "response" ∈ plot_fig ∨ "all" ∈ plot_fig
    · rw [if_pos hb]
      obtain ⟨fig, hfig, rfl⟩ := r1 (decide_eq_true hb)
      exact ⟨fig, rfl, response_groups hse hs2 hidx hfig, response_splines hl hls hfig⟩
    · rw [if_neg hb]
      exact r2 (decide_eq_false hb)

/-- **C113.** If `run_2d_poisson_sol` on a file of the example returns, the result is that of `SolOf` for
an order in which every sensor appears once. -/
theorem C113_sol (hread : E.read path = .ok ds) (hf : PoissonFile ds n p S dom sensors tv lam data)
    (hR : ∀ n s, 0 < n → (R.below n s).1 < n) {ext : Decomp} {closest : List ℝ} {sigma : ℝ}
    {seed : Option ℕ} {plot_fig : List String} {order : String} {gs : List (ℤ × ℤ)} {styles : ℕ}
    {s s' : σ × ρ} {out : SolResult}
    (h : runSol E G R ext env pe closest path sigma seed plot_fig order gs styles s = (.ok out, s')) :
    ∃ M idx, Ready out.prob n p S 1 lam data sensors ⟨[1], [0], rfl⟩ (some M) ∧
      (∀ j < S, M.get [j, 0] = tv.data.getD j 0 + 0.05 * nthDraw G (startState G seed s.1) j) ∧
      OrderOf order sensors S idx ∧
      SolOf ext env plot_fig closest gs n p lam sensors out.prob idx out := by
  obtain ⟨P, M, D, idx, s1, -, hr, -, -, -, -, hM, -, ho, e⟩ := runSol_eq (G := G) (env := env) (pe := pe)
    hread hf hR ext closest sigma seed plot_fig order gs styles s
  rw [e] at h
  have hsol := sol_spec hr.lam_eq hr.lam_shape hr.sensors_eq hf.sensors_shape ho.1 (Prod.mk.inj h).1
  have hp := hsol.prob
  rw [← hp] at hr hsol
  exact ⟨M, idx, hr, hM, ho, hsol⟩

theorem sol_too_many {ext : Decomp} {closest : List ℝ} {plot_fig : List String}
    {gs : List (ℤ × ℤ)} {styles : ℕ} {P : STP} {idx : List ℕ} (hfig : "response" ∈ plot_fig ∨ "all" ∈ plot_fig)
    (hgs : styles < gs.length) :
    ∀ out, solWith ext env pe closest plot_fig gs styles P idx ≠ .ok out := by
  intro out h
  unfold solWith at h
  obtain ⟨Q, hQ, h⟩ := Py.bind_eq_ok.1 h
  obtain ⟨S1, hS1, h⟩ := Py.bind_eq_ok.1 h
  obtain ⟨ro, hro, h⟩ := Py.bind_eq_ok.1 h
  obtain ⟨r1, -⟩ := onDemand_ok hro
  obtain ⟨fig, hf, -⟩ := r1 (decide_eq_true hfig)
  unfold responseFig at hf
  obtain ⟨groups, hg, -⟩ := Py.bind_eq_ok.1 hf
  have h3 := List.forall₂_iff_get.1 (mapM_forall₂ hg)
  have hlen := h3.1
  have h4 := h3.2 styles (by simpa using hgs) (by rw [← hlen]; simpa using hgs)
  simp only [List.get_eq_getElem, List.getElem_zipIdx] at h4
  unfold groupPoints at h4
  rw [show raiseIf (styles ≤ 0 + styles) .indexError = .error .indexError from if_pos (by omega)] at h4
  cases h4

/-- **C113 (too many groups).** The response figure has `styles = 3` colours: with more groups than that a
run that shows it never returns, whatever the file. -/
theorem C113_too_many_groups {ext : Decomp} {closest : List ℝ} {sigma : ℝ} {seed : Option ℕ}
    {plot_fig : List String} {order : String} {gs : List (ℤ × ℤ)} {styles : ℕ}
    (hfig : "response" ∈ plot_fig ∨ "all" ∈ plot_fig) (hgs : styles < gs.length) (s s' : σ × ρ)
    (out : SolResult) :
    runSol E G R ext env pe closest path sigma seed plot_fig order gs styles s ≠ (.ok out, s') := by
  intro h
  unfold runSol at h
  rw [PyM.bind_run] at h
  rcases h1 : onNp (loadPoisson E G path sigma seed) s with ⟨r1, s1⟩
  rw [h1] at h
  cases r1 with
  | error e => cases h
  | ok l =>
    simp only at h
    rw [PyM.bind_run] at h
    rcases h2 : onPy (sensorOrder R order l.2) s1 with ⟨r2, s2⟩
    rw [h2] at h
    cases r2 with
    | error e => cases h
    | ok idx => exact sol_too_many hfig hgs out (Prod.mk.inj h).1

/-- Four groups with three colours. -/
example {ext : Decomp} (s s' : σ × ρ) (out : SolResult) :
    runSol E G R ext env pe [0, 0] path 0.05 none ["all"] "random" [(0, 1), (1, 2), (2, 3), (3, 4)] 3 s ≠
      (.ok out, s') :=
  C113_too_many_groups (.inr (by simp)) (by norm_num) s s' out

/-- **C113 (default groups).** With the default `group_idxs`, the response figure shows every sensor once
if there are at most `50`; with more, the last sensor of the order is missing. -/
theorem C113_default_groups {fig : ResponseFig} {idx : List ℕ} (hidx : idx.Perm (List.range S))
    (h : fig.groups = [((0 : ℤ), (5 : ℤ)), (5, 50), (50, -1)].map fun g =>
      (groupOf idx g).map (sensorAt sensors)) :
    fig.groups.flatten = (if S ≤ 50 then idx else idx.dropLast).map (sensorAt sensors) := by
  have hl : idx.length = S := by simpa using hidx.length_eq
  have hd := default_groups idx
  simp only [← slice_group] at h
  rw [h]
  simp only [List.map_cons, List.map_nil, List.flatten_cons, List.flatten_nil, List.append_nil]
  rw [← List.append_assoc, ← List.map_append, ← List.map_append, hd, hl]
  by_cases h50 : S ≤ 50
  · rw [if_pos h50, if_neg (by omega)]
  · rw [if_neg h50, if_pos (by omega)]

end

/-! ## It returns -/

theorem plot_default_ok {Q : DP} {pt : List ℝ} {r u : List F} {S : DPD} {k : ℕ} (hS : Fitted Q pt r S)
    (hdraw : ∀ a c R i n, pe.draw a c R i n = .ok ()) (hu : bzip1 (· * ·) r Q.weights = .ok u)
    (hp : k < pt.length) (hD : S.core.domain.c = 2) :
    ∃ x S', DPD.plotParamSpace env pe k none none (5 / 100) 100 true true false true true S =
      (.ok x, S') ∧ S'.core.domain.c = 2 := by
  have hn : normIdx pt.length k = .ok k := by
    unfold normIdx
    rw [if_pos ⟨by omega, by omega⟩]
    rfl
  obtain ⟨D, hfd, hDc⟩ : ∃ D, fitDomain none (some S.core.domain) (5 / 100) S.core.domInt = .ok D ∧
      D.c = 2 := by
    unfold fitDomain padBounds
    simp only [hD, lt_irrefl, if_false]
    exact ⟨_, rfl, hD⟩
  unfold DPD.plotParamSpace DPD.paramRange
  rw [PyM.bind_run]
  simp only [PyM.get_bind_run]
  rw [hfd]
  simp only [PyM.lift_ok_bind, PyM.modify_bind_run]
  have hF : Fitted Q pt r { S with core := { S.core with domain := D } } :=
    ⟨hS.r, hS.up, hS.inDist, hS.X, hS.y, hS.w, by
      rw [← hS.pick]
      exact pick_domain S.core D⟩
  have e : ((do
      let d ← PyM.lift (DPD.theDist S.inDist)
      let a ← PyM.lift (drawIf pe true "initial" "pdf" (.ofDist d) D k 100)
      let b ← PyM.lift (DPD.updateCurve pe true { S.core with domain := D } D k 100)
      let m ← DPD.mudLine env true k
      return a ++ b ++ [] ++ m ++ [] : PyM DPD (List Item))
        { S with core := { S.core with domain := D } }) =
      (.ok [.curve "initial" (.ofDist (uniformOn Q.domain)), .curve "update" (.ofKde Q.X 0 (some u)),
        .vert "mud" (pt.getD k 0)], { S with core := { S.core with domain := D } }) := by
    have hd : DPD.theDist S.inDist = .ok (uniformOn Q.domain) := by rw [hS.inDist]; rfl
    have hb : DPD.updateCurve pe true { S.core with domain := D } D k 100 =
        .ok [.curve "update" (.ofKde Q.X 0 (some u))] := by
      unfold DPD.updateCurve DPD.ratioWeights drawIf
      have e1 : ({ S.core with domain := D } : DP).r = some r := hS.r
      have e2 : ({ S.core with domain := D } : DP).weights = Q.weights := hS.w
      have e3 : ({ S.core with domain := D } : DP).X = Q.X := hS.X
      rw [e1, e2, e3]
      simp only [if_true, hu, Py.ok_bind, hdraw]
      rfl
    have ha : drawIf pe true "initial" "pdf" (.ofDist (uniformOn Q.domain)) D k 100 =
        .ok [.curve "initial" (.ofDist (uniformOn Q.domain))] := by
      unfold drawIf
      rw [if_pos rfl, hdraw]
      rfl
    have hmp := mudPoint_cached (env := env) (S := { S with core := { S.core with domain := D } }) hF.up
    rw [hd, PyM.lift_ok_bind, ha, PyM.lift_ok_bind, hb, PyM.lift_ok_bind]
    unfold DPD.mudLine
    rw [if_pos rfl, PyM.bind_run, PyM.bind_run, hmp]
    have e3 := hF.pick
    simp only [e3]
    unfold PyM.lift vertAt
    rw [hn]
    rfl
  exact ⟨_, _, e, hDc⟩

theorem onDemand_exists {α : Type} (b : Bool) {x : Py α} (h : ∃ a, x = .ok a) :
    ∃ o, onDemand b x = .ok o := by
  obtain ⟨a, rfl⟩ := h
  cases b
  · exact ⟨_, rfl⟩
  · exact ⟨_, rfl⟩

/-- **C113 (it returns).** For a complete problem with at least two samples, parameters and sensors and a
proper domain, and any order of the sensors, the rest of `run_2d_poisson_sol` returns, provided drawing does
not raise, there are as many styles as groups, and the kernel density estimate of the two components
exists. -/
theorem C113_returns (X : Ext) {P : STP} {n p S : ℕ} {lam data sensors M D : ND}
    (h : Ready P n p S 1 lam data sensors ⟨[1], [0], rfl⟩ (some M)) (hs2 : sensors.shape = [S, 2])
    {sd : ℝ} (hsd : P.stdDev = some sd) (h0 : sd ≠ 0) (hD : P.domain = some D) (hDs : D.shape = [p, 2])
    (hord : ∀ j < p, D.get [j, 0] < D.get [j, 1]) (hn : 2 ≤ n) (hp : 2 ≤ p) (hS : 2 ≤ S)
    {idx : List ℕ} (hidx : idx.Perm (List.range S)) (hdraw : ∀ a c R i n, pe.draw a c R i n = .ok ())
    (hkde : ∀ Q, P.mudProblem (decomp X) "pca" none none 2 none none
      (some (asMask idx)) = .ok Q → ∃ c, env.kde Q.y 0 Q.weights = .ok c ∧ c.length = n)
    (closest : List ℝ) (plot_fig : List String) {gs : List (ℤ × ℤ)} {styles : ℕ}
    (hgs : gs.length ≤ styles) :
    ∃ out, solWith (decomp X) env pe closest plot_fig gs styles P idx = .ok out := by
  have hl : idx.length = S := by simpa using hidx.length_eq
  have hm := mudProblem_masked (decomp X) h (ms := none) (mt := none)
    (mx := some (asMask idx)) (noInt (.inl rfl)) (noInt (.inl rfl)) (noInt (.inr ⟨_, rfl⟩))
    (a := List.range n) (b := List.range 1) (c := idx) rfl rfl (by
      have := take_picks hidx S
      rwa [List.take_of_length_le (by omega)] at this) (by simp)
    (by
      intro h'
      have := congrArg List.length h'
      simp [hl] at this
      omega) rfl (fun _ => hs2) hsd h0 hD "pca" none 2
  rw [qoi_pca X _ (by simp; omega) (by simp [hl]; omega) (by simp; omega) (by simp [hl]; omega),
    Py.ok_bind, toArr2_two hDs] at hm
  obtain ⟨Q, hQ⟩ := new_exists (.of fun i j => lam.get [(List.range n)[i], j]) _
    (.of fun i j => D.get [i, j])
  have hmQ := hm.trans hQ
  have ht := C112_trial_returns X h hs2 hsd h0 hD hDs hord hn hp hS hidx (N := S) hS hdraw
    (by rw [List.take_of_length_le (by omega)]; exact hkde) (closest := [0, 0]) (by simp) ⟨0, 0, 0⟩ false false
  obtain ⟨t, ht⟩ := ht
  unfold trial at ht
  rw [slice_nat, List.take_of_length_le (by omega), hmQ, Py.ok_bind] at ht
  unfold runVal at ht
  rcases hfig : trialFigs env pe ⟨0, 0, 0⟩ [0, 0] false false { core := Q } with ⟨res, S'⟩
  rw [hfig] at ht
  cases res with
  | error e => cases ht
  | ok x =>
    obtain ⟨pt, r, hpt1, -, hr1, -, ⟨u, hu, hp0, -, -⟩, ⟨-, -, hp1, -, -⟩, -, -⟩ := figs_spec hQ hfig
    unfold trialFigs at hfig
    rw [PyM.bind_run] at hfig
    rcases he : DPD.mudPoint env { core := Q } with ⟨re, S1⟩
    rw [he] at hfig
    cases re with
    | error e => cases hfig
    | ok pt' =>
      clear hfig ht
      obtain ⟨r', hr', hF, hmp⟩ := fresh_fitted hQ he
      obtain rfl : pt' = pt := Except.ok.inj (hmp.symm.trans hpt1)
      obtain rfl : r' = r := Except.ok.inj (hr'.symm.trans hr1)
      have hdom : S1.core.domain.c = 2 := by
        obtain ⟨-, -, -, -, -, -, -, -, h6, -⟩ := fresh_estimate hQ he
        rw [h6]
        obtain ⟨_, _, hQ2⟩ := Py.bind_eq_ok.1 hQ
        cases hQ2
        rfl
      obtain ⟨hXc, hyc, -⟩ := new_fields hQ
      have hq : ∃ q, qoiFig S1.core 2 = .ok q := by
        refine mapM_exists fun i hi => ?_
        rw [plotParams_core hF.X hF.y]
        have hi2 : i < 2 := List.mem_range.1 hi
        have e1 : Q.n_params = p := by unfold DP.n_params; rw [hXc]; rfl
        have e2 : Q.n_features = 2 := by unfold DP.n_features; rw [hyc]; rfl
        unfold DP.plotParams2d
        rw [e1, e2, raiseIf_false (by omega), raiseIf_false (by omega), raiseIf_false (by omega)]
        simp only [Py.ok_bind]
        rw [raiseIf_false (by rw [if_neg (by omega)]; omega)]
        exact ⟨_, rfl⟩
      have hres : ∃ fig, responseFig P idx closest gs styles = .ok fig := by
        unfold responseFig
        obtain ⟨l, hl⟩ := mapM_exists (f := groupPoints P idx styles) (l := gs.zipIdx) (by
          intro g hg
          have hg2 : g.2 < gs.length := by
            obtain ⟨-, hg, -⟩ := List.mem_zipIdx hg
            simpa using hg
          unfold groupPoints
          rw [raiseIf_false (by omega), Py.ok_bind]
          refine ⟨_, C99_scatter h.sensors_eq hs2 (noInt (.inr ⟨_, rfl⟩)) (c := slice idx g.1.1 g.1.2) ?_⟩
          change List.Forall₂ _ (List.map (fun k : ℕ => (k : ℤ)) _) _
          rw [List.forall₂_map_left_iff, List.forall₂_same]
          intro k hk
          exact ⟨List.mem_range.1 (hidx.mem_iff.1 (List.mem_of_mem_take (List.mem_of_mem_drop hk))),
            .inl rfl⟩)
        rw [hl, Py.ok_bind, h.lam_eq]
        exact ⟨_, rfl⟩
      have hdens : ∀ b, ∃ d, densitiesIf env pe b S1 = .ok d := by
        intro b
        cases b with
        | false => exact ⟨_, rfl⟩
        | true =>
          obtain ⟨x0, S2, hx0, hd2⟩ := plot_default_ok (env := env) (k := 0) hF hdraw hu hp0 hdom
          obtain ⟨-, hF2⟩ := plot_default hF hx0
          obtain ⟨x1, S3, hx1, -⟩ := plot_default_ok (env := env) (k := 1) hF2 hdraw hu hp1 hd2
          have hx0' : DPD.plotParamSpace env pe 0 none none (5 / 100) 100 true true false true true S1 =
            (.ok x0, S2) := hx0
          have hx1' : DPD.plotParamSpace env pe 1 none none (5 / 100) 100 true true false true true S2 =
            (.ok x1, S3) := hx1
          have hd : runVal (densityFigs env pe) S1 = .ok ((x0, x1), S3) := by
            unfold runVal densityFigs
            rw [bind_of_ok hx0', bind_of_ok hx1']
            rfl
          unfold densitiesIf
          rw [if_pos rfl, hd]
          exact ⟨_, rfl⟩
      obtain ⟨a, ha⟩ := onDemand_exists (decide ("response" ∈ plot_fig ∨ "all" ∈ plot_fig)) hres
      obtain ⟨b, hb⟩ := onDemand_exists (decide ("qoi" ∈ plot_fig ∨ "all" ∈ plot_fig)) hq
      obtain ⟨d, hd⟩ := hdens (decide ("densities" ∈ plot_fig ∨ "all" ∈ plot_fig))
      have hrun : runObj (DPD.mudPoint env) { core := Q } = .ok S1 := by
        unfold runObj
        rw [he]
      unfold solWith
      rw [hmQ, Py.ok_bind, hrun, Py.ok_bind, ha, Py.ok_bind, hb, Py.ok_bind, hd]
      exact ⟨_, rfl⟩

/-! ## Seeds -/

theorem order_fst {R : PyRandom ρ} {order : String} (h : order ≠ "random") (P : STP) (t t' : ρ) :
    (sensorOrder R order P t).1 = (sensorOrder R order P t').1 := by
  unfold sensorOrder
  rw [if_neg h]
  by_cases h2 : order = "sorted"
  · rw [if_pos h2]
    cases need P.sensors .typeError with
    | error e => rfl
    | ok s =>
      rw [PyM.lift_ok_bind]
      cases STP.pairs s <;> rfl
  · rw [if_neg h2]
    cases P.nSensors <;> rfl

theorem onNp_run {α β : Type} (x : PyM σ α) (f : α → PyM (σ × ρ) β) (s : σ) (t : ρ) :
    ((onNp x >>= f) (s, t)).1 = (x s).1 >>= fun a => (f a ((x s).2, t)).1 := by
  rw [PyM.bind_run]
  unfold onNp
  simp only
  cases (x s).1 <;> rfl

theorem onPy_run {α β : Type} (x : PyM ρ α) (f : α → PyM (σ × ρ) β) (s : σ) (t : ρ) :
    ((onPy x >>= f) (s, t)).1 = (x t).1 >>= fun a => (f a (s, (x t).2)).1 := by
  rw [PyM.bind_run]
  unfold onPy
  simp only
  cases (x t).1 <;> rfl

/-- The full claim: with a seed, what `run_2d_poisson_sol` returns does not depend on the state of the
generators. -/
def C113_seed_claim : Prop :=
  ∀ (σ ρ : Type) (E : FileEnv) (G : Rng σ) (R : PyRandom ρ) (ext : Decomp) (env : Env) (pe : PlotEnv)
    (closest : List ℝ) (path : String) (sigma : ℝ) (seed : ℕ) (plot_fig : List String) (order : String)
    (gs : List (ℤ × ℤ)) (styles : ℕ) (s s' : σ × ρ),
    (∀ n s, 0 < n → (R.below n s).1 < n) →
    (runSol E G R ext env pe closest path sigma (some seed) plot_fig order gs styles s).1 =
      (runSol E G R ext env pe closest path sigma (some seed) plot_fig order gs styles s').1

/-- **C113 (seed).** Proved part: with an order that is not `"random"`. -/
theorem C113_seeded_partial (E : FileEnv) (G : Rng σ) (R : PyRandom ρ) (ext : Decomp)
    (closest : List ℝ) (path : String) (sigma : ℝ) (seed : ℕ) (plot_fig : List String) {order : String}
    (ho : order ≠ "random") (gs : List (ℤ × ℤ)) (styles : ℕ) (s s' : σ × ρ) :
    (runSol E G R ext env pe closest path sigma (some seed) plot_fig order gs styles s).1 =
      (runSol E G R ext env pe closest path sigma (some seed) plot_fig order gs styles s').1 := by
  obtain ⟨s, t⟩ := s
  obtain ⟨s', t'⟩ := s'
  have key : ∀ (s : σ) (t : ρ),
      (runSol E G R ext env pe closest path sigma (some seed) plot_fig order gs styles (s, t)).1 =
        (loadPoisson E G path sigma (some seed) s).1 >>= fun l => (sensorOrder R order l.2 t).1 >>=
          fun idx => solWith ext env pe closest plot_fig gs styles l.2 idx := by
    intro s t
    unfold runSol
    rw [onNp_run]
    congr 1
    funext l
    rw [onPy_run]
    congr 1
  rw [key, key, load_seeded E G path sigma seed s s']
  congr 1
  funext l
  rw [order_fst ho l.2 t t']

section
variable {E : FileEnv} {G : Rng σ} {R : PyRandom ρ} {path : String} {ds : DataSet} {n p S : ℕ}
  {dom sensors tv lam data : ND}

/-- **C113 (seed), proved part**: for any order, the estimate is reproduced (two leading singular values
distinct from the others; `scipy`'s kernel density estimate). -/
theorem C113_seeded_estimate_partial (hread : E.read path = .ok ds)
    (hf : PoissonFile ds n p S dom sensors tv lam data)
    (hR : ∀ n s, 0 < n → (R.below n s).1 < n) (X : Ext) (hX : X.Correct) (hn : 2 ≤ n) (hS : 2 ≤ S)
    {closest : List ℝ} {sigma : ℝ} {seed : ℕ} {plot_fig : List String} {order : String}
    {gs : List (ℤ × ℤ)} {styles : ℕ} {s s' s1 s1' : σ × ρ} {out out' : SolResult}
    (h : runSol E G R (decomp X) (scipyEnv user) pe closest path sigma (some seed) plot_fig order gs styles
      s = (.ok out, s1))
    (h' : runSol E G R (decomp X) (scipyEnv user) pe closest path sigma (some seed) plot_fig order gs styles
      s' = (.ok out', s1'))
    {M : ND} (hM : out.prob.measurements = some M)
    {o : SvdOut (List.range n).length ((List.range S).length * (List.range 1).length)}
    (ho : IsSvd (standardize (selResid 1 (List.range n) (List.range 1) (List.range S) data M 0.05)) o)
    (hs : ∀ i < 2, ∀ j < S, j ≠ i → o.s.getD j 0 ≠ o.s.getD i 0) :
    (DPD.mudPoint (scipyEnv user) out.mud).1 = (DPD.mudPoint (scipyEnv user) out'.mud).1 := by
  obtain ⟨P, M1, D, idx, t1, hl, hr, hD, hDs, -, hsd, -, -, hord, e⟩ := runSol_eq (G := G)
    (env := scipyEnv user) (pe := pe) hread hf hR (decomp X) closest sigma (some seed) plot_fig order gs
    styles s
  obtain ⟨P', M1', D', idx', t1', hl', hr', -, -, -, -, -, -, hord', e'⟩ := runSol_eq (G := G)
    (env := scipyEnv user) (pe := pe) hread hf hR (decomp X) closest sigma (some seed) plot_fig order gs
    styles s'
  have hPP : P = P' := by
    have := load_seeded E G path sigma seed s.1 s'.1
    rw [hl, hl'] at this
    exact (Prod.mk.inj (Except.ok.inj this)).2
  rw [e] at h
  rw [e'] at h'
  have h1 := sol_spec hr.lam_eq hr.lam_shape hr.sensors_eq hf.sensors_shape hord.1 (Prod.mk.inj h).1
  have h2 := sol_spec hr'.lam_eq hr'.lam_shape hr'.sensors_eq hf.sensors_shape hord'.1 (Prod.mk.inj h').1
  rw [← hPP] at h2
  rw [h1.prob, hr.meas_eq] at hM
  obtain rfl := Option.some.inj hM
  have key : ∀ {idx : List ℕ} {out : SolResult}, idx.Perm (List.range S) →
      SolOf (decomp X) (scipyEnv user) plot_fig closest gs n p lam sensors P idx out →
      ∃ Q0, P.mudProblem (decomp X) "pca" none none 2 none none none = .ok Q0 ∧
        (DPD.mudPoint (scipyEnv user) out.mud).1 = (DP.mudPoint (scipyEnv user) Q0).1 := by
    intro idx out hidx hso
    have hlen : idx.length = S := by simpa using hidx.length_eq
    obtain ⟨Q, pt, r, hQ, q1, -, q2, -, -, -, -⟩ := hso.mud
    have hc := take_picks hidx S
    rw [List.take_of_length_le (by omega)] at hc
    obtain ⟨Nm, ε, Q0, Q', e1, e2, -, -, -, e3⟩ := C111_reduced (user := user) X hX hr
      (ms := none) (mt := none) (mx := none) (mt' := none) (mx' := some (asMask idx))
      (noInt (.inl rfl)) (noInt (.inl rfl)) (noInt (.inl rfl)) (noInt (.inl rfl))
      (noInt (.inr ⟨_, rfl⟩)) (a := List.range n) (b := List.range 1) (c := List.range S)
      (b' := List.range 1) (c' := idx) rfl rfl rfl rfl hc (.refl _) hidx.symm
      (by intro h'; have := congrArg List.length h'; simp at this; omega) (by simp)
      (by intro h'; have := congrArg List.length h'; simp at this; omega) rfl hf.sensors_shape hsd
      (by norm_num) hD hDs
      (method := "pca") (k := 2) (.inl ⟨rfl, by simp; omega⟩) (by simp; omega) ho
      (fun i hi j hj hji => hs i hi j (by simpa using hj) hji)
    obtain rfl : Q = Q' := Except.ok.inj (hQ.symm.trans e2)
    refine ⟨Q0, e1, ?_⟩
    rw [q2, ← q1]
    exact (e3 [] (by simp)).1
  obtain ⟨Q0, a1, a2⟩ := key hord.1 h1
  obtain ⟨Q1, b1, b2⟩ := key hord'.1 h2
  obtain rfl := Except.ok.inj (a1.symm.trans b1)
  exact a2.trans b2.symm

end

/-! ## A concrete file -/

/-- Two samples of two parameters, two sensors. -/
def solDs : DataSet :=
  [("domain", .arr (ndOfNats [2, 2] [0, 1, 0, 1] rfl)), ("sensors", .arr (ndOfNats [2, 2] [0, 0, 1, 1] rfl)),
   ("true_vals", .arr (ndOfNats [2] [3, 4] rfl)), ("lam", .arr (ndOfNats [2, 2] [0, 0, 1, 1] rfl)),
   ("data", .arr (ndOfNats [2, 2] [5, 6, 7, 8] rfl))]

/-- The file system with this data set. -/
def solFiles : FileEnv := ⟨false, fun _ => some (.pickle solDs)⟩

theorem solDs_file : PoissonFile solDs 2 2 2 (ndOfNats [2, 2] [0, 1, 0, 1] rfl)
    (ndOfNats [2, 2] [0, 0, 1, 1] rfl) (ndOfNats [2] [3, 4] rfl) (ndOfNats [2, 2] [0, 0, 1, 1] rfl)
    (ndOfNats [2, 2] [5, 6, 7, 8] rfl) :=
  ⟨rfl, rfl, rfl, rfl, rfl, rfl, rfl, rfl, rfl, rfl, rfl, rfl, rfl, rfl, rfl⟩

/-- A generator with constant state. -/
def solR : PyRandom ℕ := ⟨fun k => k, fun n s => (s % n, s)⟩

theorem solR_lt (n s : ℕ) (h : 0 < n) : (solR.below n s).1 < n := Nat.mod_lt _ h

/-- Normal draws that are all `0`. -/
def solG : Rng ℕ := ⟨fun k => k, fun s => (0, s)⟩

/-- A density estimate that always exists. -/
def solEnv : Env := ⟨fun y _ _ => .ok (List.replicate y.r (.fin 1))⟩

/-- Drawing always succeeds. -/
def solPe : PlotEnv := ⟨fun _ _ _ _ _ => .ok (), fun _ => true⟩

theorem sol_groups (X : Ext) (t : ℕ) {i j : ℕ} (ht : (samplePool solR 2 [0, 1] t).1 = [i, j]) :
    ∃ out s' fig, runSol solFiles solG solR (decomp X) solEnv solPe [0, 0] "p.pkl" 0.05 (some 21)
        ["response"] "random" [(0, 1)] 1 (0, t) = (.ok out, s') ∧
      out.response = some fig ∧ fig.groups = [[sensorAt (ndOfNats [2, 2] [0, 0, 1, 1] rfl) i]] := by
  obtain ⟨P, M, D, idx, s', -, hr, hD, hDs, hDd, hsd, -, hidx, ho, e⟩ := runSol_eq (E := solFiles)
    (G := solG) (env := solEnv) (pe := solPe) (path := "p.pkl") rfl solDs_file solR_lt (decomp X) [0, 0]
    0.05 (some 21) ["response"] "random" [(0, 1)] 1 (0, t)
  have hn : P.nSensors = .ok 2 := by
    unfold nSensors
    rw [hr.sensors_eq]
    rfl
  obtain rfl : [i, j] = idx := by
    unfold sensorOrder at hidx
    rw [if_pos rfl, hn, PyM.lift_ok_bind] at hidx
    have h1 := Except.ok.inj (Prod.mk.inj hidx).1
    rw [← h1]
    exact ht.symm
  have hg : ∀ a < 2, ∀ b < 2, D.get [a, b] = ([0, 1, 0, 1] : List ℝ).getD (2 * a + b) 0 := by
    intro a ha b hb
    unfold ND.get
    rw [hDs, hDd]
    simp [offset, ndOfNats]
    congr 2
    omega
  obtain ⟨out, hout⟩ := C113_returns (env := solEnv) (pe := solPe) X hr rfl hsd (by norm_num) hD hDs
    (by
      intro a ha
      rw [hg a ha 0 (by omega), hg a ha 1 (by omega)]
      interval_cases a <;> simp) le_rfl le_rfl le_rfl ho.1 (fun _ _ _ _ _ => rfl)
    (fun Q hQ => ⟨_, rfl, by
      have := trial_rows X hr rfl hsd (by norm_num) hD hDs le_rfl le_rfl ho.1 (N := 2) le_rfl hQ
      simpa using this⟩) [0, 0] ["response"] (gs := [(0, 1)]) (styles := 1) le_rfl
  rw [hout] at e
  have hs := sol_spec hr.lam_eq hr.lam_shape hr.sensors_eq rfl ho.1 hout
  have hresp := hs.response
  rw [if_pos (by simp)] at hresp
  obtain ⟨fig, hf1, hf2, -⟩ := hresp
  simp only [← slice_group] at hf2
  exact ⟨out, s', fig, e, hf1, hf2⟩

/-- **The claim is false of the code**: `random.seed` is not called, so the groups of sensors in the response
figure depend on the state of Python's generator. -/
theorem C113_seed_claim_refuted : ¬ C113_seed_claim := by
  intro hC
  obtain ⟨X, hX⟩ := ext_exists
  obtain ⟨out, s1, fig, h1, h2, h3⟩ := sol_groups X 0 (i := 0) (j := 1) rfl
  obtain ⟨out', s1', fig', h1', h2', h3'⟩ := sol_groups X 1 (i := 1) (j := 0) rfl
  have h := hC ℕ ℕ solFiles solG solR (decomp X) solEnv solPe [0, 0] "p.pkl" 0.05 21 ["response"] "random"
    [(0, 1)] 1 (0, 0) (0, 1) solR_lt
  rw [h1, h1'] at h
  obtain rfl := Except.ok.inj h
  rw [h2] at h2'
  obtain rfl := Option.some.inj h2'
  rw [h3] at h3'
  simp [sensorAt, ND.get, offset, ndOfNats] at h3'

end Poisson

end Verif
