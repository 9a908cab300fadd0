import Verif.Model.Cli
import Verif.Props.AdcircRun
import Verif.Props.PoissonScipy

/-!
# C122: the commands `poisson_solve` and `poisson_trials`

`/repo/src/mud/examples/examples.py:110-120, 357-532`.
-/

namespace Verif

namespace Cli

open ND SpecST STP Prep Poisson Adcirc

variable {σ ρ : Type} {env : Env} {pe : PlotEnv} {user : ℕ → ℝ → ℕ → ℝ}

section
variable {E : FileEnv} {G : Rng σ} {R : PyRandom ρ} {path : String} {ds : DataSet} {n p S : ℕ}
  {dom sensors tv lam data : ND}

/-- The group's callback, then the command. -/
theorem seedNp_run {β : Type} (G : Rng σ) (seed : Option ℕ) (f : Unit → PyM (σ × ρ) β) (s : σ × ρ) :
    (onNp (seedNp G seed) >>= f) s = f () (startState G seed s.1, s.2) := by
  cases seed <;> rfl

theorem startState_twice (G : Rng σ) (seed : Option ℕ) (s : σ) :
    startState G seed (startState G seed s) = startState G seed s := by
  cases seed <;> rfl

/-- The names given on the command line never reach `run_2d_poisson_sol`. -/
theorem figNames_tuple (l : List String) : figNames (.tuple l) = [] := rfl

/-- A list passed from Python does. -/
theorem figNames_list (l : List String) : figNames (.list l) = l := by
  unfold figNames figItems
  rw [List.filterMap_map]
  exact List.filterMap_some

/-- **C122 (estimate).** If `poisson_solve` on a file of the example returns, then it prints the MUD
estimate from the two leading components of the data of all sensors, in an order in which each appears once
(`SolOf`); and it draws nothing, whatever figures are asked for. -/
theorem C122_solve (hread : E.read path = .ok ds) (hf : PoissonFile ds n p S dom sensors tv lam data)
    (hR : ∀ n s, 0 < n → (R.below n s).1 < n) {ext : Decomp} {closest : List ℝ} {sigma : ℝ}
    {seed : Option ℕ} {plot_fig : List String} {s s' : σ × ρ} {out : SolveOut}
    (h : poissonSolve E G R ext env pe closest path sigma seed plot_fig s = (.ok out, s')) :
    ∃ M idx Q, Ready out.res.prob n p S 1 lam data sensors ⟨[1], [0], rfl⟩ (some M) ∧
      (∀ j < S, M.get [j, 0] = tv.data.getD j 0 + 0.05 * nthDraw G (startState G seed s.1) j) ∧
      idx.Perm (List.range S) ∧
      out.res.prob.mudProblem ext "pca" none none 2 none none (some (asMask idx)) = .ok Q ∧
      (DP.mudPoint env Q).1 = .ok out.printed ∧
      out.res.response = none ∧ out.res.qoi = none ∧ out.res.densities = none := by
  unfold poissonSolve at h
  rw [seedNp_run, PyM.bind_run, figNames_tuple] at h
  rcases hr : runSol E G R ext env pe closest path sigma seed [] "random" [(0, 5), (5, 50), (50, -1)] 3
    (startState G seed s.1, s.2) with ⟨r, s1⟩
  rw [hr] at h
  cases r with
  | error e => cases h
  | ok o =>
    dsimp only at h
    obtain ⟨M, idx, hready, hM, hord, hsol⟩ := C113_sol hread hf hR hr
    rcases hm : runVal (DPD.mudPoint env) o.mud with e | pt
    · rw [hm] at h; cases h
    · rw [hm, PyM.lift_ok_bind] at h
      cases h
      obtain ⟨Q, p', r', hQ, hpt, -, hmp, -, -, hq, hd⟩ := hsol.mud
      have hresp := hsol.response
      simp only [List.not_mem_nil, or_self, if_false] at hq hd hresp
      rw [startState_twice] at hM
      refine ⟨M, idx, Q, hready, hM, hord.1, hQ, ?_, hresp, hq, hd⟩
      rw [hpt]
      unfold runVal at hm
      rcases hx : DPD.mudPoint env o.mud with ⟨a, D'⟩
      rw [hx] at hm hmp
      obtain rfl : a = .ok p' := hmp
      cases hm
      rfl

/-- **C122 (estimate), it returns**: with `scipy`, on a file with at least two samples, parameters and
sensors, a proper domain and independent data. -/
theorem C122_solve_returns (hread : E.read path = .ok ds)
    (hf : PoissonFile ds n p S dom sensors tv lam data)
    (hR : ∀ n s, 0 < n → (R.below n s).1 < n) (X : Ext) (hX : X.Correct) (closest : List ℝ)
    (hdom : ∀ j < p, dom.data.getD (2 * j) 0 < dom.data.getD (2 * j + 1) 0)
    (hn : 2 ≤ n) (hp : 2 ≤ p) (hS : 2 ≤ S)
    (hdraw : ∀ a c R i n, pe.draw a c R i n = .ok ()) (hind : Independent n S data)
    (sigma : ℝ) (seed : Option ℕ) (plot_fig : List String) (s : σ × ρ) :
    ∃ out s', poissonSolve E G R (decomp X) (scipyEnv user) pe closest path sigma seed plot_fig s =
      (.ok out, s') := by
  obtain ⟨o, s1, hr⟩ := C113_returns_scipy (user := user) (pe := pe) (G := G) hread hf hR X hX closest hdom hn
    hp hS hdraw hind sigma seed [] "random" (gs := [(0, 5), (5, 50), (50, -1)]) (styles := 3) (by simp)
    (startState G seed s.1, s.2)
  obtain ⟨M, idx, -, -, -, hsol⟩ := C113_sol hread hf hR hr
  obtain ⟨Q, p', r', -, -, -, hmp, -⟩ := hsol.mud
  have hm : ∃ D', runVal (DPD.mudPoint (scipyEnv user)) o.mud = .ok (p', D') := by
    unfold runVal
    rcases hx : DPD.mudPoint (scipyEnv user) o.mud with ⟨a, D'⟩
    rw [hx] at hmp
    obtain rfl : a = .ok p' := hmp
    exact ⟨D', rfl⟩
  obtain ⟨D', hm⟩ := hm
  refine ⟨⟨{ o with mud := D' }, p'⟩, s1, ?_⟩
  unfold poissonSolve
  rw [seedNp_run, PyM.bind_run, figNames_tuple, hr]
  dsimp only
  rw [hm, PyM.lift_ok_bind]
  rfl

/-! ## The table of trials -/

/-- What the loop over the results leaves for a problem that has been estimated. -/
theorem trial_row {ext : Decomp} {x_range : Arr2} {closest : List ℝ} {ann1 ann2 : Bool} {P : STP}
    {idx : List ℕ} {N : ℕ} {t : Trial} {Ns : List ℤ} {i : ℕ} {row : TrialRow}
    (h : trial ext env pe x_range closest ann1 ann2 P idx N = .ok t)
    (hrow : trialRow env Ns (t, i) = .ok row) :
    Ns[i]? = some row.N ∧ ∃ Q r, P.mudProblem ext "pca" none none 2 none none
      (some (asMask (idx.take N))) = .ok Q ∧ (DP.mudPoint env Q).1 = .ok row.mud ∧
      (defaults Q).ratio env Q.data = .ok r ∧ DP.npAverage r Q.weights = .ok row.ratio := by
  unfold trial at h
  rw [slice_nat] at h
  obtain ⟨Q, hQ, h⟩ := Py.bind_eq_ok.1 h
  unfold runVal at h
  rcases hf : trialFigs env pe x_range closest ann1 ann2 { core := Q } with ⟨res, S'⟩
  rw [hf] at h
  cases res with
  | error e => cases h
  | ok x =>
    cases h
    obtain ⟨X, y, dom, hnew⟩ := mudProblem_new hQ
    obtain ⟨pt, r, h1, -, h3, -, -, -, h7, -⟩ := figs_spec hnew hf
    unfold trialRow at hrow
    obtain ⟨N', hN, hrow⟩ := Py.bind_eq_ok.1 hrow
    obtain ⟨v, hv, hrow⟩ := Py.bind_eq_ok.1 hrow
    cases hrow
    obtain ⟨⟨a, b⟩, S2⟩ := v
    obtain ⟨ha, hb⟩ := row_ok h7.up hv
    rw [mudPoint_cached h7.up, h7.pick] at ha
    cases ha
    rw [expectedRatio_cached h7.up, average_eq h7.r h7.w] at hb
    refine ⟨?_, Q, r, hQ, h1, h3, hb⟩
    change STP.need Ns[i]? .indexError = _ at hN
    cases hx : Ns[i]? with
    | none => rw [hx] at hN; cases hN
    | some z => rw [hx] at hN; cases hN; rfl

/-- What a row of the table must say: the number of sensors, the MUD estimate from the two leading
components of the data of the first `N` sensors of the order, and the mean of the ratio of that problem. -/
def RowOf (ext : Decomp) (env : Env) (P : STP) (idx : List ℕ) (N : ℕ) (row : TrialRow) : Prop :=
  row.N = N ∧ ∃ Q r, P.mudProblem ext "pca" none none 2 none none (some (asMask (idx.take N))) = .ok Q ∧
    (DP.mudPoint env Q).1 = .ok row.mud ∧
    (defaults Q).ratio env Q.data = .ok r ∧ DP.npAverage r Q.weights = .ok row.ratio

theorem rows_spec {ext : Decomp} {x_range : Arr2} {closest : List ℝ} {ann1 ann2 : Bool} {P : STP}
    {idx : List ℕ} : ∀ {Ns : List ℕ} {ts : List Trial} {all : List ℤ} {k : ℕ} {rows : List TrialRow},
    (∀ j (hj : j < Ns.length), all[k + j]? = some ((Ns[j] : ℕ) : ℤ)) →
    List.Forall₂ (fun (N : ℕ) t => trial ext env pe x_range closest ann1 ann2 P idx N = .ok t) Ns ts →
    (ts.zipIdx k).mapM (trialRow env all) = .ok rows →
    List.Forall₂ (RowOf ext env P idx) Ns rows := by
  intro Ns
  induction Ns with
  | nil =>
    intro ts all k rows _ h1 h2
    cases h1
    cases h2
    exact .nil
  | cons N Ns ih =>
    intro ts all k rows hall h1 h2
    obtain ⟨t, ts', ht, hts, rfl⟩ := List.forall₂_cons_left_iff.1 h1
    rw [List.zipIdx_cons, List.mapM_cons] at h2
    obtain ⟨row, hrow, h2⟩ := Py.bind_eq_ok.1 h2
    obtain ⟨rest, hrest, h2⟩ := Py.bind_eq_ok.1 h2
    cases h2
    obtain ⟨e, Q, r, h⟩ := trial_row ht hrow
    have h0 := hall 0 (by simp)
    rw [Nat.add_zero, e] at h0
    refine .cons ⟨by simpa using h0, Q, r, h⟩ (ih ?_ hts hrest)
    intro j hj
    have := hall (j + 1) (by simpa using hj)
    rw [show k + 1 + j = k + (j + 1) by omega]
    simpa using this

theorem sortVals_perm (l : List ℤ) : (sortVals l).Perm l := List.mergeSort_perm _ _

theorem sortVals_sorted (l : List ℤ) : (sortVals l).Pairwise (· ≤ ·) := by
  have := List.pairwise_mergeSort (le := fun a b : ℤ => decide (a ≤ b))
    (fun a b c h1 h2 => by simp at *; omega) (fun a b => by simp; omega) l
  exact this.imp fun h => by simpa using h

/-- Numbers given on the command line that are not negative stay so. -/
theorem sortVals_nat (Ns : List ℕ) :
    ∃ Ms : List ℕ, Ms.Perm Ns ∧ Ms.Pairwise (· ≤ ·) ∧
      sortVals (Ns.map fun N : ℕ => (N : ℤ)) = Ms.map fun N : ℕ => (N : ℤ) := by
  have hs := sortVals_sorted (Ns.map fun N : ℕ => (N : ℤ))
  refine ⟨Ns.mergeSort (fun a b => decide (a ≤ b)), List.mergeSort_perm _ _, ?_, ?_⟩
  · have := List.pairwise_mergeSort (le := fun a b : ℕ => decide (a ≤ b))
      (fun a b c h1 h2 => by simp at *; omega) (fun a b => by simp; omega) Ns
    exact this.imp fun h => by simpa using h
  · have hn : ((Ns.mergeSort (fun a b => decide (a ≤ b))).map fun N : ℕ => (N : ℤ)).Pairwise (· ≤ ·) := by
      have := List.pairwise_mergeSort (le := fun a b : ℕ => decide (a ≤ b))
        (fun a b c h1 h2 => by simp at *; omega) (fun a b => by simp; omega) Ns
      rw [List.pairwise_map]
      exact this.imp fun h => by simpa using h
    refine List.Perm.eq_of_pairwise (fun a b _ _ h1 h2 => le_antisymm h1 h2) hs hn ?_
    exact (sortVals_perm _).trans ((List.mergeSort_perm Ns _).map _).symm

/-- **C122 (table).** If `poisson_trials` on a file of the example returns, then the table has one row per
number given, in increasing order; with one order of the sensors in which each appears once, the row for `N`
shows `N`, the MUD estimate from the first `N` sensors and the mean of its ratio (`RowOf`). -/
theorem C122_trials (hread : E.read path = .ok ds) (hf : PoissonFile ds n p S dom sensors tv lam data)
    (hR : ∀ n s, 0 < n → (R.below n s).1 < n) {ext : Decomp} {closest : List ℝ}
    {x_range : Arr2} {Ns : List ℕ} {sigma : ℝ} {seed : Option ℕ} {plot_fig : List String}
    {s s' : σ × ρ} {P : STP} {ts : List Trial} {rows : List TrialRow}
    (h : poissonTrials E G R ext env pe closest x_range path (Ns.map fun N : ℕ => (N : ℤ)) sigma seed
      plot_fig s = (.ok ((P, ts), rows), s')) :
    ∃ M idx Ms, Ready P n p S 1 lam data sensors ⟨[1], [0], rfl⟩ (some M) ∧
      (∀ j < S, M.get [j, 0] = tv.data.getD j 0 + 0.05 * nthDraw G (startState G seed s.1) j) ∧
      idx.Perm (List.range S) ∧ Ms.Perm Ns ∧ Ms.Pairwise (· ≤ ·) ∧
      List.Forall₂ (RowOf ext env P idx) Ms rows := by
  obtain ⟨Ms, hp, hs, e⟩ := sortVals_nat Ns
  unfold poissonTrials at h
  rw [seedNp_run, PyM.bind_run, e] at h
  obtain ⟨P', M, D, idx, s'', hr, -, -, -, -, hM, ho, er⟩ := runTrials_eq (G := G) (env := env) (pe := pe)
    hread hf hR ext closest x_range (Ms.map fun N : ℕ => (N : ℤ)) "random" true true sigma seed
    (startState G seed s.1, s.2)
  rw [er] at h
  cases hts : List.mapM (trial ext env pe x_range closest true true P' idx)
      (Ms.map fun N : ℕ => (N : ℤ)) with
  | error x => rw [hts] at h; cases h
  | ok ts' =>
    rw [hts] at h
    change (PyM.lift (ts'.zipIdx.mapM (trialRow env (Ms.map fun N : ℕ => (N : ℤ)))) >>= fun rows =>
      pure ((P', ts'), rows)) s'' = _ at h
    cases hrows : ts'.zipIdx.mapM (trialRow env (Ms.map fun N : ℕ => (N : ℤ))) with
    | error x => rw [hrows] at h; cases h
    | ok rows' =>
      rw [hrows, PyM.lift_ok_bind] at h
      cases h
      rw [startState_twice] at hM
      refine ⟨M, idx, Ms, hr, hM, ho.1, hp, hs, ?_⟩
      have hF := mapM_forall₂ hts
      rw [List.forall₂_map_left_iff] at hF
      refine rows_spec (k := 0) ?_ hF hrows
      intro j hj
      rw [Nat.zero_add, List.getElem?_map, List.getElem?_eq_getElem hj]
      rfl

/-- The row of a trial exists: the annotation of the figure already shows its mean ratio. -/
theorem trial_row_exists {ext : Decomp} {x_range : Arr2} {closest : List ℝ} {ann2 : Bool} {P : STP}
    {idx : List ℕ} {N : ℤ} {t : Trial} {Ns : List ℤ} {i : ℕ} (hi : i < Ns.length)
    (h : trial ext env pe x_range closest true ann2 P idx N = .ok t) :
    ∃ row, trialRow env Ns (t, i) = .ok row := by
  unfold trial at h
  obtain ⟨Q, hQ, h⟩ := Py.bind_eq_ok.1 h
  unfold runVal at h
  rcases hf : trialFigs env pe x_range closest true ann2 { core := Q } with ⟨res, S'⟩
  rw [hf] at h
  cases res with
  | error e => cases h
  | ok x =>
    cases h
    obtain ⟨X, y, dom, hnew⟩ := mudProblem_new hQ
    obtain ⟨pt, r, h1, -, h3, -, ⟨u, -, -, -, -, hav, -⟩, -, h7, -⟩ := figs_spec hnew hf
    obtain ⟨e, he, -⟩ := hav rfl
    have hrow : runVal (rowOf env) S' = .ok ((pt, e), S') := by
      unfold runVal rowOf
      rw [PyM.bind_run, mudPoint_cached h7.up, h7.pick]
      dsimp only
      rw [PyM.bind_run, expectedRatio_cached h7.up, average_eq h7.r h7.w, he]
      rfl
    unfold trialRow
    dsimp only
    rw [List.getElem?_eq_getElem hi]
    simp only [STP.need, Py.ok_bind, hrow]
    exact ⟨_, rfl⟩

theorem rows_exist {ext : Decomp} {x_range : Arr2} {closest : List ℝ} {ann2 : Bool} {P : STP}
    {idx : List ℕ} {Ns : List ℤ} {ts : List Trial}
    (h : List.Forall₂ (fun (N : ℤ) t => trial ext env pe x_range closest true ann2 P idx N = .ok t) Ns ts) :
    ∃ rows, ts.zipIdx.mapM (trialRow env Ns) = .ok rows := by
  refine mapM_exists fun x hx => ?_
  obtain ⟨t, i⟩ := x
  obtain ⟨hi, ht⟩ := List.mem_zipIdx' hx
  obtain ⟨hl, hall⟩ := List.forall₂_iff_get.1 h
  have := hall i (by omega) hi
  have ht' : ts.get ⟨i, hi⟩ = t := ht.symm
  rw [ht'] at this
  exact trial_row_exists (by omega) this

/-- **C122 (table), it returns**: with `scipy`, on a file with at least two samples, parameters and sensors,
a proper domain and independent data, for any numbers from two on. -/
theorem C122_trials_returns (hread : E.read path = .ok ds)
    (hf : PoissonFile ds n p S dom sensors tv lam data)
    (hR : ∀ n s, 0 < n → (R.below n s).1 < n) (X : Ext) (hX : X.Correct) {closest : List ℝ}
    (hdom : ∀ j < p, dom.data.getD (2 * j) 0 < dom.data.getD (2 * j + 1) 0)
    (hn : 2 ≤ n) (hp : 2 ≤ p) (hS : 2 ≤ S) (hc : 2 ≤ closest.length)
    (hdraw : ∀ a c R i n, pe.draw a c R i n = .ok ()) (hind : Independent n S data)
    (x_range : Arr2) {Ns : List ℕ} (hNs : ∀ N ∈ Ns, 2 ≤ N)
    (sigma : ℝ) (seed : Option ℕ) (figs : List String) (s : σ × ρ) :
    ∃ out s', poissonTrials E G R (decomp X) (scipyEnv user) pe closest x_range path
      (Ns.map fun N : ℕ => (N : ℤ)) sigma seed figs s = (.ok out, s') := by
  obtain ⟨Ms, hperm, -, e⟩ := sortVals_nat Ns
  obtain ⟨⟨P, ts⟩, s1, hr⟩ := C112_returns_scipy (user := user) (pe := pe) (G := G) hread hf hR X hX hdom hn hp
    hS hc hdraw hind x_range (Ns := Ms) (fun N hN => hNs N (hperm.mem_iff.1 hN)) "random" true true sigma
    seed (startState G seed s.1, s.2)
  have hrows : ∃ rows, ts.zipIdx.mapM (trialRow (scipyEnv user) (Ms.map fun N : ℕ => (N : ℤ))) =
      .ok rows := by
    obtain ⟨P', M, D, idx, s'', -, -, -, -, -, -, -, er⟩ := runTrials_eq (G := G) (env := scipyEnv user)
      (pe := pe) hread hf hR (decomp X) closest x_range (Ms.map fun N : ℕ => (N : ℤ)) "random" true true
      sigma seed (startState G seed s.1, s.2)
    rw [er] at hr
    obtain ⟨ts', hts, h2⟩ := Py.bind_eq_ok.1 (Prod.mk.inj hr).1
    cases h2
    exact rows_exist (mapM_forall₂ hts)
  obtain ⟨rows, hrows⟩ := hrows
  refine ⟨((P, ts), rows), s1, ?_⟩
  unfold poissonTrials
  rw [seedNp_run, PyM.bind_run, e, hr]
  dsimp only
  rw [hrows, PyM.lift_ok_bind]
  rfl

/-- **C122 (order of the options).** The order in which the numbers are given does not matter. -/
theorem C122_any_order (E : FileEnv) (G : Rng σ) (R : PyRandom ρ) (ext : Decomp) (env : Env) (pe : PlotEnv)
    (closest : List ℝ) (x_range : Arr2) (path : String) {n_vals n_vals' : List ℤ}
    (h : n_vals.Perm n_vals') (sigma : ℝ) (seed : Option ℕ) (figs figs' : List String) :
    poissonTrials E G R ext env pe closest x_range path n_vals sigma seed figs =
      poissonTrials E G R ext env pe closest x_range path n_vals' sigma seed figs' := by
  have e : sortVals n_vals = sortVals n_vals' :=
    List.Perm.eq_of_pairwise (fun a b _ _ h1 h2 => le_antisymm h1 h2) (sortVals_sorted _)
      (sortVals_sorted _) ((sortVals_perm _).trans (h.trans (sortVals_perm _).symm))
  unfold poissonTrials
  rw [e]

/-- **C122 (seed).** With `--seed`, the table (or the error) does not depend on the states of the generators. -/
theorem C122_seeded (E : FileEnv) (G : Rng σ) (R : PyRandom ρ) (ext : Decomp) (env : Env) (pe : PlotEnv)
    (closest : List ℝ) (x_range : Arr2) (path : String) (n_vals : List ℤ) (sigma : ℝ) (seed : ℕ)
    (figs : List String) (s s' : σ × ρ) :
    (poissonTrials E G R ext env pe closest x_range path n_vals sigma (some seed) figs s).1 =
      (poissonTrials E G R ext env pe closest x_range path n_vals sigma (some seed) figs s').1 := by
  unfold poissonTrials
  rw [seedNp_run, seedNp_run, PyM.bind_run, PyM.bind_run]
  have h := C112_seeded E G R ext env pe closest x_range path (sortVals n_vals) "random" true true sigma seed
    (startState G (some seed) s.1, s.2) (startState G (some seed) s'.1, s'.2)
  rcases h1 : runTrials E G R ext env pe closest x_range path (sortVals n_vals) "random" true true sigma
    (some seed) (startState G (some seed) s.1, s.2) with ⟨a, u⟩
  rcases h2 : runTrials E G R ext env pe closest x_range path (sortVals n_vals) "random" true true sigma
    (some seed) (startState G (some seed) s'.1, s'.2) with ⟨a', u'⟩
  rw [h1, h2] at h
  obtain rfl : a = a' := h
  cases a with
  | error e => rfl
  | ok l =>
    dsimp only
    rw [PyM.bind_run, PyM.bind_run]
    cases l.2.zipIdx.mapM (trialRow env (sortVals n_vals)) <;> rfl

end

/-! ## The figures of `poisson_solve` -/

/-- The full claim: `poisson_solve -p NAME` draws the figure `NAME`. -/
def C122_figures_claim : Prop :=
  ∀ (σ ρ : Type) (E : FileEnv) (G : Rng σ) (R : PyRandom ρ) (ext : Decomp) (env : Env) (pe : PlotEnv)
    (closest : List ℝ) (path : String) (sigma : ℝ) (seed : Option ℕ) (s s' : σ × ρ) (out : SolveOut),
    poissonSolve E G R ext env pe closest path sigma seed ["qoi"] s = (.ok out, s') →
    out.res.qoi.isSome

/-- **C122 (figures), from Python**: a list of names reaches the figures (C113). -/
theorem C122_python_partial {E : FileEnv} {G : Rng σ} {R : PyRandom ρ} {path : String} {ds : DataSet}
    {n p S : ℕ} {dom sensors tv lam data : ND} (hread : E.read path = .ok ds)
    (hf : PoissonFile ds n p S dom sensors tv lam data)
    (hR : ∀ n s, 0 < n → (R.below n s).1 < n) {ext : Decomp} {closest : List ℝ} {sigma : ℝ}
    {seed : Option ℕ} {figs : List String} {s s' : σ × ρ} {out : SolResult}
    (h : runSol E G R ext env pe closest path sigma seed (figNames (.list figs)) "random"
      [(0, 5), (5, 50), (50, -1)] 3 s = (.ok out, s')) :
    (out.qoi.isSome ↔ "qoi" ∈ figs ∨ "all" ∈ figs) ∧
    (out.response.isSome ↔ "response" ∈ figs ∨ "all" ∈ figs) ∧
    (out.densities.isSome ↔ "densities" ∈ figs ∨ "all" ∈ figs) := by
  rw [figNames_list] at h
  obtain ⟨M, idx, -, -, -, hsol⟩ := C113_sol hread hf hR h
  obtain ⟨Q, p', r', -, -, -, -, -, -, hq, hd⟩ := hsol.mud
  have hr := hsol.response
  refine ⟨?_, ?_, ?_⟩
  · split_ifs at hq with hc
    · obtain ⟨a, b, e, -⟩ := hq; simp [e, hc]
    · simp [hq, hc]
  · split_ifs at hr with hc
    · obtain ⟨a, e, -⟩ := hr; simp [e, hc]
    · simp [hr, hc]
  · split_ifs at hd with hc
    · obtain ⟨a, b, e, -⟩ := hd; simp [e, hc]
    · simp [hd, hc]

/-- The command returns on the example with six samples. -/
theorem six_solve (X : Ext) (hX : X.Correct) (figs : List String) : ∃ out s',
    poissonSolve sixFiles solG solR (decomp X) (scipyEnv fun _ _ _ => 0) solPe [0, 0] "p.pkl" 0.05 (some 3)
      figs (0, 0) = (.ok out, s') :=
  C122_solve_returns (n := 6) (p := 2) (S := 2) (by rfl) sixDs_file solR_lt X hX [0, 0]
    (by intro j hj; interval_cases j <;> simp [ndOfNats]) (by norm_num) (by norm_num) (by norm_num)
    (fun _ _ _ _ _ => rfl) six_indep 0.05 (some 3) figs (0, 0)

/-- The hypotheses of C122 hold for this example: a table with three rows. -/
example (X : Ext) (hX : X.Correct) : ∃ P ts rows s',
    poissonTrials sixFiles solG solR (decomp X) (scipyEnv fun _ _ _ => 0) solPe [0, 0] ⟨0, 0, 0⟩ "p.pkl"
      ([5, 2, 50].map fun N : ℕ => (N : ℤ)) 0.05 (some 3) [] (0, 0) = (.ok ((P, ts), rows), s') ∧
    rows.map TrialRow.N = [2, 5, 50] := by
  obtain ⟨⟨⟨P, ts⟩, rows⟩, s', h⟩ := C122_trials_returns (user := fun _ _ _ => 0) (pe := solPe) (G := solG)
    (n := 6) (p := 2) (S := 2) (E := sixFiles) (path := "p.pkl") (by rfl) sixDs_file solR_lt X hX
    (closest := [0, 0])
    (by intro j hj; interval_cases j <;> simp [ndOfNats]) (by norm_num) (by norm_num) (by norm_num)
    (by norm_num) (fun _ _ _ _ _ => rfl) six_indep ⟨0, 0, 0⟩ (Ns := [5, 2, 50]) (by simp) 0.05 (some 3) []
    (0, 0)
  refine ⟨P, ts, rows, s', h, ?_⟩
  obtain ⟨M, idx, Ms, -, -, -, hp, hs, hF⟩ := C122_trials (n := 6) (p := 2) (S := 2) (by rfl) sixDs_file
    solR_lt h
  obtain rfl : Ms = [2, 5, 50] :=
    List.Perm.eq_of_pairwise (fun a b _ _ h1 h2 => le_antisymm h1 h2) hs (by simp)
      (hp.trans (by decide))
  obtain ⟨r1, l1, h1, hF1, rfl⟩ := List.forall₂_cons_left_iff.1 hF
  obtain ⟨r2, l2, h2, hF2, rfl⟩ := List.forall₂_cons_left_iff.1 hF1
  obtain ⟨r3, l3, h3, hF3, rfl⟩ := List.forall₂_cons_left_iff.1 hF2
  cases hF3
  simp [h1.1, h2.1, h3.1]

/-- **The claim is false of the code**: the tuple of names is wrapped in a list. -/
theorem C122_figures_claim_refuted : ¬ C122_figures_claim := by
  intro hC
  obtain ⟨X, hX⟩ := ext_exists
  obtain ⟨out, s', h⟩ := six_solve X hX ["qoi"]
  obtain ⟨-, -, -, -, -, -, -, -, -, hq, -⟩ := C122_solve (n := 6) (p := 2) (S := 2) (by rfl) sixDs_file
    solR_lt h
  have := hC _ _ _ _ _ _ _ _ _ _ _ _ _ _ _ h
  rw [hq] at this
  cases this

/-- C122: the order of the numbers of sensors does not matter. -/
example (X : Ext) (s : ℕ × ℕ) : poissonTrials sixFiles solG solR (decomp X) (scipyEnv fun _ _ _ => 0) solPe [0, 0] ⟨0, 0, 0⟩
      "p.pkl" [5, 2, 50] 0.05 (some 3) [] s =
    poissonTrials sixFiles solG solR (decomp X) (scipyEnv fun _ _ _ => 0) solPe [0, 0] ⟨0, 0, 0⟩
      "p.pkl" [50, 2, 5] 0.05 (some 3) ["all"] s :=
  congrFun (C122_any_order _ _ _ _ _ _ _ _ _ (by decide) _ _ _ _) s

/-- C122: `poisson_solve` on the file of six samples. -/
example (X : Ext) (hX : X.Correct) : ∃ out s', poissonSolve sixFiles solG solR (decomp X) (scipyEnv fun _ _ _ => 0) solPe
    [0, 0] "p.pkl" 0.05 none ["qoi"] (0, 0) = (.ok out, s') :=
  C122_solve_returns (user := fun _ _ _ => 0) (pe := solPe) (G := solG) (n := 6) (p := 2) (S := 2) (E := sixFiles)
    (path := "p.pkl") (by rfl) sixDs_file solR_lt X hX [0, 0]
    (by intro j hj; interval_cases j <;> simp [ndOfNats]) (by norm_num) (by norm_num) (by norm_num)
    (fun _ _ _ _ _ => rfl) six_indep 0.05 none ["qoi"] (0, 0)

end Cli

end Verif
