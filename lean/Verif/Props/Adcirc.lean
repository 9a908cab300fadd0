import Verif.Model.Adcirc
import Verif.Props.PoissonSol

/-!
# C116: a time window of the ADCIRC example

`/repo/src/mud/examples/adcirc.py:178-324`.
-/

namespace Verif

namespace Adcirc

open ND SpecST STP Prep Poisson

variable {env : Env} {pe : PlotEnv}

open Classical in
/-- The numbers of the times strictly inside the window. -/
noncomputable def inside (times : ND) (T : ℕ) (w : ℝ × ℝ) : List ℕ :=
  (List.range T).filter fun i => decide (w.1 < times.data.getD i 0 ∧ times.data.getD i 0 < w.2)

theorem windowMask_eq {P : STP} {times : ND} {T : ℕ} (ht : P.times = some times)
    (hs : times.shape = [T]) (w : ℝ × ℝ) :
    ∃ mask, windowMask P w = .ok mask ∧ Picks T (some (.bools mask)) (inside times T w) ∧
      nData mask = (inside times T w).length := by
  classical
  have hl : times.data.length = T := by rw [times.size_eq, hs]; simp
  refine ⟨times.data.map fun x => decide (w.1 < x ∧ x < w.2), ?_, ⟨by simpa using hl, ?_, ?_⟩, ?_⟩
  · unfold windowMask
    rw [ht]
    simp only [need, Py.ok_bind]
    rw [raiseIf_false (by simp [hs]), Py.ok_bind]
    simp only [Py.pure_eq]
  · exact List.pairwise_lt_range.filter _
  · intro i
    unfold inside
    rw [List.mem_filter, List.mem_range]
    by_cases h : i < T
    · simp [h, hl]
    · simp [h, List.getElem?_eq_none (show times.data.length ≤ i by omega)]
  · unfold nData inside
    rw [List.countP_map, ← List.countP_eq_length_filter]
    have : times.data = (List.range T).map fun i => times.data.getD i 0 := by
      apply List.ext_getElem
      · simp [hl]
      · intro i h1 h2
        simp [List.getElem?_eq_getElem h1]
    conv_lhs => rw [this]
    rw [List.countP_map]
    apply List.countP_congr
    intro i _
    simp

/-- **C116 (same times).** Two windows with the same times strictly inside give the same result, whatever
the method, the number of components, the figures and the history. -/
theorem C116_same_times (ext : Decomp) (choice : ℕ → ℕ → List ℕ) (P : STP) {times : ND}
    (ht : P.times = some times) (w w' : ℝ × ℝ)
    (h : ∀ x ∈ times.data, (w.1 < x ∧ x < w.2) ↔ (w'.1 < x ∧ x < w'.2))
    (pca0 : Option Arr2) (method : String) (k : ℕ) (mp : ℤ) (yl : Option ℕ) (title save : Bool)
    (figs : List String) :
    timeWindow ext env pe choice P pca0 w method k mp yl title save figs =
      timeWindow ext env pe choice P pca0 w' method k mp yl title save figs := by
  have e : windowMask P w = windowMask P w' := by
    classical
    unfold windowMask
    rw [ht]
    simp only [need, Py.ok_bind]
    congr 1
    funext _
    simp only [Py.pure_eq, Except.ok.injEq]
    refine List.map_congr_left fun x hx => ?_
    simp only [h x hx]
  unfold timeWindow
  rw [e]

theorem listLike_bools (mask : List Bool) : ListLike (some (.bools mask)) := fun _ h => by cases h

theorem listLike_none : ListLike none := fun _ h => by cases h

section
variable {P : STP} {n p S T : ℕ} {lam data sensors times D M : ND}

/-- **C116 (empty window).** A window without a time strictly inside raises `ValueError`. -/
theorem C116_empty (ext : Decomp) (choice : ℕ → ℕ → List ℕ) {meas : Option ND}
    (h : Ready P n p S T lam data sensors times meas) (hs : times.shape = [T]) {w : ℝ × ℝ}
    (hw : ∀ x ∈ times.data, ¬ (w.1 < x ∧ x < w.2))
    (pca0 : Option Arr2) (method : String) (k : ℕ) (mp : ℤ) (yl : Option ℕ) (title save : Bool)
    (figs : List String) :
    timeWindow ext env pe choice P pca0 w method k mp yl title save figs = .error .valueError := by
  obtain ⟨mask, hm, hp, -⟩ := windowMask_eq h.times_eq hs w
  have hb : inside times T w = [] := by
    unfold inside
    rw [List.filter_eq_nil_iff]
    intro i hi
    have hl : times.data.length = T := by rw [times.size_eq, hs]; simp
    have hi' : i < times.data.length := by rw [hl]; exact List.mem_range.1 hi
    rw [List.getD_eq_getElem _ _ hi']
    simpa using hw _ (List.getElem_mem hi')
  rw [hb] at hp
  have hl : times.data.length = T := by rw [times.size_eq, hs]; simp
  have hsd : P.sampleData none (some (.bools mask)) none = .error .valueError := by
    obtain ⟨M', h2, h3, h4, he⟩ := h.sampleData_eq
    obtain ⟨t, d2, e2, hB, ht, -⟩ :=
      maskTimes_ok (M := M') h.times_shape hl (show h.cube.shape = [n, S, T] from rfl) h3
        (listLike_bools mask) hp
    rw [he]
    simp only [maskSamples, Py.ok_bind, hB, maskSensors]
    rw [dim_of_head (n := 0) (by rw [ht]; rfl), Py.ok_bind, dim_of_head h.sensors_shape, Py.ok_bind]
    unfold reshapeCols
    rw [if_pos (by simp)]
    rfl
  unfold timeWindow
  rw [hm, Py.ok_bind]
  unfold mudProblem
  rw [hsd]
  rfl

/-! ## Figures of the parameters -/

/-- A reference value adds a line. -/
theorem plot_true (S : DPD) (k : ℤ) (c : List ℝ) :
    DPD.plotParamSpace env pe k (some c) none (5 / 100) 100 true true false true true S =
      match DPD.plotParamSpace env pe k none none (5 / 100) 100 true true false true true S with
      | (.ok items, S') => (vertAt "true" c k >>= fun t => .ok (items ++ t), S')
      | (.error e, S') => (.error e, S') := by
  unfold DPD.plotParamSpace
  rw [PyM.bind_run, PyM.bind_run]
  rcases DPD.paramRange none (5 / 100) S with ⟨r, S1⟩
  cases r with
  | error e => rfl
  | ok R =>
    simp only [PyM.get_bind_run]
    cases DPD.theDist S1.inDist with
    | error e => rfl
    | ok d =>
      simp only [PyM.lift_ok_bind]
      cases drawIf pe true "initial" "pdf" (.ofDist d) R k 100 with
      | error e => rfl
      | ok a =>
        simp only [PyM.lift_ok_bind]
        cases DPD.updateCurve pe true S1.core R k 100 with
        | error e => rfl
        | ok b =>
          simp only [PyM.lift_ok_bind]
          have hw : drawIf pe false "weighted initial" "kde"
            (.ofKde S1.core.X 0 (some S1.core.weights)) R k 100 = .ok [] := rfl
          rw [hw]
          simp only [PyM.lift_ok_bind]
          rw [PyM.bind_run, PyM.bind_run]
          rcases DPD.mudLine env true k S1 with ⟨m, S2⟩
          cases m with
          | error e => rfl
          | ok m =>
            have h1 : vertTrue true none k = .ok [] := rfl
            have h2 : vertTrue true (some c) k = vertAt "true" c k := rfl
            simp only [h1, h2, PyM.lift_ok_bind]
            cases vertAt "true" c k with
            | error e => rfl
            | ok t =>
              rw [PyM.lift_ok_bind]
              change (Except.ok _, S2) = (Except.ok _, S2)
              simp

/-- What the axis of parameter `k` shows: the uniform density on the domain, the kernel density estimate
of the samples with weights "ratio times weights", lines at coordinate `k` of the estimate and of the
reference. -/
def DistOf (Q : DP) (pt : List ℝ) (r : List F) (ref : List ℝ) (k : ℕ) (items : List Item) : Prop :=
  ∃ u, bzip1 (· * ·) r Q.weights = .ok u ∧ ∃ (hp : k < pt.length) (hc : k < ref.length),
    items = [.curve "initial" (.ofDist (uniformOn Q.domain)), .curve "update" (.ofKde Q.X 0 (some u)),
      .vert "mud" pt[k], .vert "true" ref[k]]

theorem plot_full {Q : DP} {pt : List ℝ} {r : List F} {S S' : DPD} {k : ℕ} {ref : List ℝ}
    {items : List Item} (hS : Fitted Q pt r S)
    (h : DPD.plotParamSpace env pe k (some ref) none (5 / 100) 100 true true false true true S =
      (.ok items, S')) : DistOf Q pt r ref k items ∧ Fitted Q pt r S' := by
  rw [plot_true] at h
  rcases h0 : DPD.plotParamSpace env pe k none none (5 / 100) 100 true true false true true S with ⟨x, S1⟩
  rw [h0] at h
  cases x with
  | error e => cases h
  | ok l =>
    obtain ⟨⟨u, hu, hp, rfl⟩, hF⟩ := plot_default hS h0
    obtain ⟨h1, h2⟩ := Prod.mk.inj h
    cases h2
    obtain ⟨t, ht, h1⟩ := Py.bind_eq_ok.1 h1
    cases h1
    unfold vertAt at ht
    obtain ⟨i, hi, ht⟩ := Py.bind_eq_ok.1 ht
    cases ht
    obtain ⟨rfl, hi⟩ := normIdx_nat hi
    exact ⟨⟨u, hu, hp, hi, by rw [List.getD_eq_getElem _ _ hi]; rfl⟩, hF⟩

theorem plot_full_ok {Q : DP} {pt : List ℝ} {r u : List F} {S : DPD} {k : ℕ} {ref : List ℝ}
    (hS : Fitted Q pt r S) (hdraw : ∀ a c R i n, pe.draw a c R i n = .ok ())
    (hu : bzip1 (· * ·) r Q.weights = .ok u) (hp : k < pt.length) (hc : k < ref.length)
    (hD : S.core.domain.c = 2) :
    ∃ x S', DPD.plotParamSpace env pe k (some ref) none (5 / 100) 100 true true false true true S =
      (.ok x, S') ∧ S'.core.domain.c = 2 := by
  obtain ⟨x, S', h, hd⟩ := plot_default_ok (env := env) hS hdraw hu hp hD
  rw [plot_true, h]
  have hn : normIdx ref.length (k : ℤ) = .ok k := by
    unfold normIdx
    rw [if_pos ⟨by omega, by omega⟩]
    rfl
  simp only [vertAt, hn, Py.ok_bind, Py.pure_eq]
  exact ⟨_, _, rfl, hd⟩

theorem dist_axes {Q : DP} {pt : List ℝ} {r : List F} {ref : List ℝ} {yl : Option ℕ} :
    ∀ {ks : List ℕ} {S S' : DPD} {out : List (List Item)}, Fitted Q pt r S →
      distAxes env pe ref yl ks S = (.ok out, S') →
      List.Forall₂ (fun k items => DistOf Q pt r ref k items) ks out ∧ Fitted Q pt r S' := by
  intro ks
  induction ks with
  | nil => intro S S' out hS h; cases h; exact ⟨.nil, hS⟩
  | cons k ks ih =>
    intro S S' out hS h
    change (do
      PyM.lift (ylimAt yl k)
      let a ← DPD.plotParamSpace env pe (k : ℤ) (some ref) none (5 / 100) 100 true true false true true
      let r ← distAxes env pe ref yl ks
      return a :: r : PyM DPD _) S = _ at h
    cases hy : ylimAt yl k with
    | error e => rw [hy] at h; cases h
    | ok y =>
      rw [hy, PyM.lift_ok_bind, PyM.bind_run] at h
      rcases hp : DPD.plotParamSpace env pe (k : ℤ) (some ref) none (5 / 100) 100 true true false true true S
        with ⟨a, S1⟩
      rw [hp] at h
      cases a with
      | error e => cases h
      | ok a =>
        simp only at h
        rw [PyM.bind_run] at h
        obtain ⟨h1, hF⟩ := plot_full hS hp
        rcases hr : distAxes env pe ref yl ks S1 with ⟨b, S2⟩
        rw [hr] at h
        cases b with
        | error e => cases h
        | ok b =>
          obtain ⟨e1, e2⟩ := Prod.mk.inj (show (Except.ok (a :: b), S2) = _ from h)
          cases e1
          cases e2
          obtain ⟨h2, hF2⟩ := ih hF hr
          exact ⟨.cons h1 h2, hF2⟩

theorem dist_axes_ok {Q : DP} {pt : List ℝ} {r u : List F} {ref : List ℝ} {yl : Option ℕ}
    (hdraw : ∀ a c R i n, pe.draw a c R i n = .ok ()) (hu : bzip1 (· * ·) r Q.weights = .ok u) :
    ∀ {ks : List ℕ} {S : DPD}, Fitted Q pt r S → S.core.domain.c = 2 →
      (∀ k ∈ ks, k < pt.length ∧ k < ref.length ∧ ylimAt yl k = .ok ()) →
      ∃ out S', distAxes env pe ref yl ks S = (.ok out, S') := by
  intro ks
  induction ks with
  | nil => intro S _ _ _; exact ⟨_, _, rfl⟩
  | cons k ks ih =>
    intro S hS hD hk
    obtain ⟨h1, h2, h3⟩ := hk k (by simp)
    obtain ⟨x, S1, hp, hd⟩ := plot_full_ok (env := env) hS hdraw hu h1 h2 hD
    obtain ⟨-, hF⟩ := plot_full hS hp
    obtain ⟨out, S2, hr⟩ := ih hF hd fun k hk' => hk k (by simp [hk'])
    refine ⟨x :: out, S2, ?_⟩
    change (do
      PyM.lift (ylimAt yl k)
      let a ← DPD.plotParamSpace env pe (k : ℤ) (some ref) none (5 / 100) 100 true true false true true
      let r ← distAxes env pe ref yl ks
      return a :: r : PyM DPD _) S = _
    rw [h3, PyM.lift_ok_bind, bind_of_ok hp, bind_of_ok hr]
    rfl

/-! ## The window -/

/-- What `adcirc_time_window` must return and show for the times `b`: the MUD problem that `mud_problem`
builds from exactly these times, estimated; in the title its expected ratio; and each figure exactly if it
is asked for: the measured and the simulated values at these times with the principal vectors, the
densities of all parameters, the learned quantities over the first two parameters. -/
structure WindowOf (ext : Decomp) (env : Env) (P : STP) (pca0 : Option Arr2) (n S T : ℕ)
    (data times M : ND) (sd : ℝ) (b : List ℕ) (method : String) (k mp : ℕ) (title save : Bool)
    (figs : List String) (out : WindowResult) : Prop where
  ndata : out.ndata = b.length
  fitted : out.prob.core.up.isSome
  mud : ∃ Q pt r,
    P.mudProblem ext method none none k none (some (.ints (b.map fun t : ℕ => (t : ℤ)))) none = .ok Q ∧
    (DP.mudPoint env Q).1 = .ok pt ∧ (defaults Q).ratio env Q.data = .ok r ∧
    (DPD.mudPoint env out.prob).1 = .ok pt ∧
    (DPD.expectedRatio env out.prob).1 = DP.npAverage r Q.weights ∧
    out.prob.core.X = Q.X ∧ out.prob.core.y = Q.y ∧
    (if title then ∃ e, DP.npAverage r Q.weights = .ok e ∧ out.ratio = some e else out.ratio = none) ∧
    (if "updated_dist" ∈ figs ∨ "all" ∈ figs then ∃ ref fig, P.lamRef = some ref ∧ out.dist = some fig ∧
      List.Forall₂ (fun j items => DistOf Q pt r ref.data j items) (List.range Q.X.c) fig
      else out.dist = none) ∧
    (if "learned_qoi" ∈ figs ∨ "all" ∈ figs then k ≤ 2 ∧ ∃ fig, out.qoi = some fig ∧
      List.Forall₂ (fun (i : ℕ) x => Q.plotParams2d 0 1 (i : ℤ) = .ok x) (List.range k) fig
      else out.qoi = none)
  pca : if "ts-pca" ∈ figs ∨ "all" ∈ figs then ∃ fig V, out.pca = some fig ∧
      fig.series.measured = b.map (fun t => (times.data.getD t 0, M.get [t, 0])) ∧
      fig.series.series = ((List.range n).take mp).map (fun i =>
        b.map fun t => (times.data.getD t 0, data.get [i, t])) ∧
      (method = "pca" → ext.pcaComponents ⟨(List.range n).length, (List.range S).length * b.length,
        selResid T (List.range n) b (List.range S) data M sd⟩ k = .ok V) ∧
      (method ≠ "pca" → pca0 = some V) ∧ V.r ≤ 3 ∧ (0 < V.r → V.c = b.length) ∧
      fig.vecs = (List.range V.r).map (fun i => (List.range b.length).map fun j =>
        (times.data.getD (b.getD j 0) 0, V.get i j))
    else out.pca = none
  saved : out.saved =
    (if ("ts-pca" ∈ figs ∨ "all" ∈ figs) ∧ save = true then [s!"pca_vecs_{k}_{b.length}"] else []) ++
    (if ("updated_dist" ∈ figs ∨ "all" ∈ figs) ∧ save = true then [s!"updated_dist_{k}_{b.length}"]
      else []) ++
    (if ("learned_qoi" ∈ figs ∨ "all" ∈ figs) ∧ save = true then ["qoi_{num_components}_{ndata}"] else [])

theorem ints_picks {T : ℕ} {b : List ℕ} (hb : ∀ t ∈ b, t < T) :
    Picks T (some (.ints (b.map fun t : ℕ => (t : ℤ)))) b := by
  change List.Forall₂ _ (List.map (fun k : ℕ => (k : ℤ)) b) b
  rw [List.forall₂_map_left_iff, List.forall₂_same]
  exact fun i hi => ⟨hb i hi, .inl rfl⟩

theorem listLike_ints (l : List ℤ) : ListLike (some (.ints l)) := fun _ h => by cases h

theorem mem_inside {times : ND} {T : ℕ} {w : ℝ × ℝ} {t : ℕ} : t ∈ inside times T w ↔
    t < T ∧ w.1 < times.data.getD t 0 ∧ times.data.getD t 0 < w.2 := by
  unfold inside
  rw [List.mem_filter, List.mem_range, decide_eq_true_eq]

theorem savedIf_eq (figs : List String) (x : String) (save : Bool) (name : String) :
    savedIf (wants figs x) save name =
      if (x ∈ figs ∨ "all" ∈ figs) ∧ save = true then [name] else [] := by
  unfold savedIf wants
  simp

theorem pcaVecs_eq (ext : Decomp) (h : Ready P n p S T lam data sensors times (some M))
    (hs : times.shape = [T]) (hS : 0 < S) {sd : ℝ} (hsd : P.stdDev = some sd) (h0 : sd ≠ 0)
    {mask : List Bool} {b : List ℕ} (hp : Picks T (some (.bools mask)) b) (hb0 : b ≠ []) (k : ℕ) :
    pcaVecs ext P k mask = ext.pcaComponents ⟨(List.range n).length, (List.range S).length * b.length,
      selResid T (List.range n) b (List.range S) data M sd⟩ k := by
  have hl : times.data.length = T := by rw [times.size_eq, hs]; simp
  obtain ⟨r, hr, -, -, hd, hdg, -, -, -, hm1, hm2⟩ := C48_masks h (ms := none) (mx := none)
    listLike_none (listLike_bools mask) listLike_none (a := List.range n) rfl hp (c := List.range S) rfl hb0
    (by simp; omega) hl (fun h => absurd rfl h)
  obtain ⟨m', hm'⟩ : ∃ m', r.meas = some m' := Option.isSome_iff_exists.1 (by rw [hm1]; rfl)
  obtain ⟨hms', hmg⟩ := hm2 m' hm' M rfl
  unfold pcaVecs
  rw [hr, Py.ok_bind, hm', hsd]
  simp only [need, Py.ok_bind]
  rw [residuals_eq hd hms' h0, Py.ok_bind]
  congr 1
  unfold resTab selResid
  congr 1
  ext i j
  obtain ⟨⟨s, t⟩, rfl⟩ := finProdFinEquiv.surjective j
  have hst : ((finProdFinEquiv (s, t) : Fin ((List.range S).length * b.length)) : ℕ) =
      s * b.length + t := by
    simp [finProdFinEquiv, Nat.add_comm, Nat.mul_comm]
  simp only [Matrix.of_apply, Equiv.symm_apply_apply]
  rw [hst, hmg, hdg]

theorem vecLine_ok {times : List ℝ} {V : Arr2} {i : ℕ} {l : List (ℝ × ℝ)}
    (h : vecLine times V i = .ok l) : i < 3 ∧ times.length = V.c ∧
      l = times.zip ((List.range V.c).map fun j => V.get i j) := by
  unfold vecLine at h
  by_cases h1 : 3 ≤ i
  · rw [raiseIf_true h1] at h; cases h
  · rw [raiseIf_false h1, Py.ok_bind] at h
    by_cases h2 : times.length = V.c
    · rw [raiseIf_false (by simpa using h2), Py.ok_bind] at h
      cases h
      exact ⟨by omega, h2, rfl⟩
    · rw [raiseIf_true h2] at h; cases h

theorem times_masked (hs : times.shape = [T]) {mask : List Bool} {b : List ℕ}
    (hp : Picks T (some (.bools mask)) b) :
    ∃ t, times.index 1 0 (.bools mask) = .ok t ∧ t.data = b.map fun i => times.data.getD i 0 := by
  have hi := index_ok (A := times) (nd := 1) (ax := 0) (m := .bools mask) (sel := b) (by simp [hs])
    (by simpa [hs] using resolve_ok.2 hp) rfl
  refine ⟨_, hi, ?_⟩
  rw [data_1d (k := b.length) (by simp [ofFn, hs])]
  apply List.ext_getElem
  · simp
  · intro i h1 h2
    simp only [List.length_map] at h2
    simp only [List.getElem_map, List.getElem_range]
    rw [get_ofFn (by simp [hs, InB, h2])]
    simp [ND.get, hs, offset, List.getElem?_eq_getElem h2]

/-- **C116.** If `adcirc_time_window` on a ready problem (one sensor or more, one-dimensional times, `k`
components) returns, the result is that of the times strictly inside the window (`WindowOf`), whatever was
done with the problem before. -/
theorem C116_window (ext : Decomp) (choice : ℕ → ℕ → List ℕ) (hch : ∀ n k, (choice n k).length = k)
    (h : Ready P n p S T lam data sensors times (some M)) (hs : times.shape = [T])
    (hs2 : sensors.shape = [S, 2]) (hS : 0 < S) {sd : ℝ} (hsd : P.stdDev = some sd) (h0 : sd ≠ 0)
    (hD : P.domain = some D) {pca0 : Option Arr2} {w : ℝ × ℝ} {method : String} {k mp : ℕ}
    {yl : Option ℕ} {title save : Bool} {figs : List String} {out : WindowResult}
    (hout : timeWindow ext env pe choice P pca0 w method k mp yl title save figs = .ok out) :
    WindowOf ext env P pca0 n S T data times M sd (inside times T w) method k mp title save figs out := by
  obtain ⟨mask, hmask, hp, hnd⟩ := windowMask_eq h.times_eq hs w
  have hl : times.data.length = T := by rw [times.size_eq, hs]; simp
  have hb0 : inside times T w ≠ [] := by
    intro hb
    have : timeWindow ext env pe choice P pca0 w method k mp yl title save figs = .error .valueError :=
      C116_empty ext choice h hs (fun x hx hh => by
        obtain ⟨i, hi, rfl⟩ := List.mem_iff_getElem.1 hx
        have : i ∈ inside times T w := mem_inside.2 ⟨by omega, by
          rw [List.getD_eq_getElem _ _ hi]; exact hh⟩
        rw [hb] at this
        cases this) _ _ _ _ _ _ _ _
    rw [this] at hout
    cases hout
  have hb : ∀ t ∈ inside times T w, t < T := fun t ht => (mem_inside.1 ht).1
  set b := inside times T w with hbdef
  have hmud : P.mudProblem ext method none none k none (some (.bools mask)) none =
      P.mudProblem ext method none none k none (some (.ints (b.map fun t : ℕ => (t : ℤ)))) none := by
    rw [mudProblem_masked ext h listLike_none (listLike_bools mask) listLike_none (a := List.range n) rfl hp
        (c := List.range S) rfl hb0 (by simp; omega) hl (fun h => absurd rfl h) hsd h0 hD,
      mudProblem_masked ext h listLike_none (listLike_ints _) listLike_none (a := List.range n) rfl
        (ints_picks hb) (c := List.range S) rfl hb0 (by simp; omega) hl (fun h => absurd rfl h) hsd h0 hD]
  unfold timeWindow at hout
  rw [hmask, Py.ok_bind, hmud] at hout
  obtain ⟨Q, hQ, hout⟩ := Py.bind_eq_ok.1 hout
  obtain ⟨vecs, hvecs, hout⟩ := Py.bind_eq_ok.1 hout
  obtain ⟨S1, hS1, hout⟩ := Py.bind_eq_ok.1 hout
  obtain ⟨ro, hro, hout⟩ := Py.bind_eq_ok.1 hout
  obtain ⟨po, hpo, hout⟩ := Py.bind_eq_ok.1 hout
  obtain ⟨d, hd, hout⟩ := Py.bind_eq_ok.1 hout
  obtain ⟨qo, hqo, hout⟩ := Py.bind_eq_ok.1 hout
  cases hout
  obtain ⟨pt, hpt⟩ := runObj_ok hS1
  obtain ⟨X, y, dom, hnew⟩ := mudProblem_new hQ
  obtain ⟨r, hr, hF, hmp⟩ := fresh_fitted hnew hpt
  have hratio : Fitted Q pt r ro.2 ∧ (if title then ∃ e, DP.npAverage r Q.weights = .ok e ∧
      ro.1 = some e else ro.1 = none) := by
    unfold ratioIf at hro
    cases title with
    | false => cases hro; exact ⟨hF, rfl⟩
    | true =>
      rw [if_pos rfl] at hro
      obtain ⟨x, hx, hro⟩ := Py.bind_eq_ok.1 hro
      cases hro
      unfold runVal at hx
      rw [expectedRatio_cached hF.up, average_eq hF.r hF.w] at hx
      cases he : DP.npAverage r Q.weights with
      | error e => rw [he] at hx; cases hx
      | ok e =>
        rw [he] at hx
        cases hx
        exact ⟨hF, e, rfl, rfl⟩
  have hdist : Fitted Q pt r d.2 ∧ (if "updated_dist" ∈ figs ∨ "all" ∈ figs then
      ∃ ref fig, P.lamRef = some ref ∧ d.1 = some fig ∧
        List.Forall₂ (fun j items => DistOf Q pt r ref.data j items) (List.range Q.X.c) fig
      else d.1 = none) := by
    unfold distIf wants at hd
    by_cases hb : "updated_dist" ∈ figs ∨ "all" ∈ figs
    · rw [if_pos (decide_eq_true hb)] at hd
      obtain ⟨ref, hre, hd⟩ := Py.bind_eq_ok.1 hd
      obtain ⟨x, hx, hd⟩ := Py.bind_eq_ok.1 hd
      cases hd
      unfold runVal at hx
      rcases ha : distAxes env pe ref.data yl (List.range ro.2.core.n_params) ro.2 with ⟨o, S2⟩
      rw [ha] at hx
      cases o with
      | error e => cases hx
      | ok o =>
        cases hx
        obtain ⟨h1, h2⟩ := dist_axes hratio.1 ha
        rw [if_pos hb]
        have hc : ro.2.core.n_params = Q.X.c := by
          unfold DP.n_params
          rw [hratio.1.X]
        rw [hc] at h1
        refine ⟨h2, ref, o, ?_, rfl, h1⟩
        cases hlr : P.lamRef with
        | none => rw [hlr] at hre; cases hre
        | some v => rw [hlr] at hre; cases hre; rfl
    · rw [if_neg (by simpa using hb)] at hd
      cases hd
      rw [if_neg hb]
      exact ⟨hratio.1, rfl⟩
  obtain ⟨p1, p2⟩ := onDemand_ok hpo
  obtain ⟨q1, q2⟩ := onDemand_ok hqo
  refine ⟨hnd, hdist.1.up, ⟨Q, pt, r, hQ, hmp, hr, ?_, ?_, hdist.1.X, hdist.1.y, hratio.2, hdist.2, ?_⟩, ?_, ?_⟩
  · rw [mudPoint_cached hdist.1.up]
    exact hdist.1.pick
  · rw [expectedRatio_cached hdist.1.up]
    exact average_eq hdist.1.r hdist.1.w
  · by_cases hb : "learned_qoi" ∈ figs ∨ "all" ∈ figs
    · rw [if_pos hb]
      obtain ⟨l, hl, rfl⟩ := q1 (decide_eq_true hb)
      have hF2 := mapM_forall₂ hl
      have key : ∀ i x, qoiAxis d.2.core i = .ok x → i < 2 ∧ Q.plotParams2d 0 1 (i : ℤ) = .ok x := by
        intro i x hx
        unfold qoiAxis at hx
        by_cases h2 : 2 ≤ i
        · rw [raiseIf_true h2] at hx; cases hx
        · rw [raiseIf_false h2, Py.ok_bind, plotParams_core hdist.1.X hdist.1.y] at hx
          exact ⟨by omega, hx⟩
      refine ⟨?_, l, rfl, hF2.imp fun i x hx => (key i x hx).2⟩
      by_contra hk
      have h3 := List.forall₂_iff_get.1 hF2
      have h4 := h3.2 2 (by simp; omega) (by rw [← h3.1]; simp; omega)
      have := (key _ _ h4).1
      simp at this
    · rw [if_neg hb]
      exact q2 (decide_eq_false hb)
  · by_cases hb' : "ts-pca" ∈ figs ∨ "all" ∈ figs
    · rw [if_pos hb']
      obtain ⟨fig, hfig, rfl⟩ := p1 (decide_eq_true hb')
      unfold pcaVectorPlot at hfig
      have h98 := C98_exact h choice hch (ms := none) (mt := some (.bools mask)) listLike_none
        (listLike_bools mask) (a := List.range n) (b := b) (c := 0) (k := 0) rfl hp hS (.inl rfl) hb0 hl hs2
        rfl mp
      rw [h98, Py.ok_bind] at hfig
      obtain ⟨V, hV, hfig⟩ := Py.bind_eq_ok.1 hfig
      rw [h.times_eq] at hfig
      simp only [need, Py.ok_bind] at hfig
      obtain ⟨t, ht, htd⟩ := times_masked hs hp
      rw [ht, Py.ok_bind] at hfig
      obtain ⟨l, hlv, hfig⟩ := Py.bind_eq_ok.1 hfig
      cases hfig
      have hvec : vecs = some V := by
        cases hv : vecs with
        | none => rw [hv] at hV; cases hV
        | some v => rw [hv] at hV; cases hV; rfl
      have hF2 := List.forall₂_iff_get.1 (mapM_forall₂ hlv)
      have htl : t.data.length = b.length := by rw [htd]; simp
      have key : ∀ i (hi : i < V.r) (hi' : i < l.length), i < 3 ∧ b.length = V.c ∧
          l[i] = t.data.zip ((List.range V.c).map fun j => V.get i j) := by
        intro i hi hi'
        have h4 := hF2.2 i (by simpa using hi) hi'
        have := vecLine_ok h4
        rw [htl] at this
        simpa using this
      have hll : l.length = V.r := by rw [← hF2.1]; simp
      refine ⟨_, V, rfl, ?_, ?_, ?_, ?_, ?_, ?_, ?_⟩
      · simp
      · simp
      · intro hm
        unfold vecsAfter at hvecs
        rw [if_pos hm] at hvecs
        obtain ⟨v, hv, hvecs⟩ := Py.bind_eq_ok.1 hvecs
        rw [← pcaVecs_eq ext h hs hS hsd h0 hp hb0, hv]
        have : some v = vecs := Except.ok.inj hvecs
        rw [hvec] at this
        rw [Option.some.inj this]
      · intro hm
        unfold vecsAfter at hvecs
        rw [if_neg hm] at hvecs
        rw [← hvec]
        exact Except.ok.inj hvecs
      · by_contra h3
        have := (key 3 (by omega) (by omega)).1
        omega
      · intro h3
        exact (key 0 h3 (by omega)).2.1.symm
      · refine List.ext_getElem (by simp [hll]) ?_
        intro i h1 h2
        have hi : i < V.r := by simpa using h2
        obtain ⟨-, e1, e2⟩ := key i hi h1
        rw [List.getElem_map, e2, htd, ← e1]
        apply List.ext_getElem
        · simp
        · intro j h3 h4
          have hj : j < b.length := by simpa using h4
          simp [List.getElem?_eq_getElem hj]
    · rw [if_neg hb']
      exact p2 (decide_eq_false hb')
  · simp only [savedIf_eq, hnd]

end

end Adcirc

end Verif
