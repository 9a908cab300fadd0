import Verif.Lemmas.PlotSim
import Verif.Props.Density

/-!
# Figures of a `DensityProblem`: C92, C93
-/

namespace Verif

open DPD

variable {env : Env} {pe : PlotEnv} {D : DData}

/-! ## The weights of the updated curves -/

/-- Weights of the kernel density estimates drawn for the updated density, in terms of settings:
the last computed ratio times the current weights, and no weights if no ratio was computed yet. -/
noncomputable def updateWeights (env : Env) (D : DData) (σ : SpecState) : Py (Option (List F)) :=
  match σ.ratioOf with
  | none => .ok none
  | some s => do
    let r ← s.ratio env D
    let v ← bzip1 (· * ·) r σ.cur.weights
    return some v

theorem ratioWeights_spec {P : DP} {σ : SpecState} (h : DRel env D P σ) :
    ratioWeights P = updateWeights env D σ := by
  unfold ratioWeights updateWeights
  cases hr : P.r with
  | none => rw [h.r0 hr]; rfl
  | some r =>
    obtain ⟨s, hs, hs'⟩ := h.r1 r hr
    rw [hs]
    simp only [hs', Py.ok_bind, h.w]

/-- A fresh object. -/
theorem new_arel {X y : NArr} {dom w : Option NArr} {nrm : Bool} {pad : ℝ} {xi di : Bool} {P : DP}
    (h : DP.new X y dom w nrm pad xi di = .ok P) : ARel env P.data { core := P } P.start where
  core := new_rel h
  inn := rfl
  prd := rfl
  ob0 := fun hh => by
    have : P.ob = none := by
      unfold DP.new at h
      dsimp only at h
      cases dom with
      | none =>
        obtain ⟨dm, -, h⟩ := Py.bind_eq_ok.1 h
        obtain ⟨_, -, h⟩ := Py.bind_eq_ok.1 h
        obtain ⟨_, -, h⟩ := Py.bind_eq_ok.1 h
        cases h
        rfl
      | some d =>
        obtain ⟨dm, -, h⟩ := Py.bind_eq_ok.1 h
        obtain ⟨_, -, h⟩ := Py.bind_eq_ok.1 h
        obtain ⟨_, -, h⟩ := Py.bind_eq_ok.1 h
        cases h
        rfl
    simp [this] at hh

/-! ## C92: the parameter space -/

/-- Draw on demand. -/
def orSkip (b : Bool) (x : Py (List Item)) : Py (List Item) := if b then x else .ok []

theorem plotParam_run (S : DPD) (σ : SpecState) (h : ARel env D S σ) (idx : ℤ)
    (tv : Option (List ℝ)) (R : Arr2) (pad : ℝ) (aff : ℤ) (i u wi m t : Bool) :
    (plotParamSpace env pe idx tv (some R) pad aff i u wi m t S).1 = (do
      let d ← theDist (σ.cur.initial.map fun d => d.getD (uniformOn D.domain))
      let a ← drawIf pe i "initial" "pdf" (.ofDist d) R idx aff
      let b ← orSkip u (do
        let w ← updateWeights env D σ
        drawIf pe true "update" "kde" (.ofKde D.X 0 w) R idx aff)
      let c ← drawIf pe wi "weighted initial" "kde" (.ofKde D.X 0 (some σ.cur.weights)) R idx aff
      let e ← orSkip m (do
        let pt ← (SpecState.estimate env D σ).1
        vertAt "mud" pt idx)
      let f ← vertTrue t tv idx
      return a ++ b ++ c ++ e ++ f) := by
  have hm : (mudLine env m idx S).1 = orSkip m (do
      let pt ← (SpecState.estimate env D σ).1
      vertAt "mud" pt idx) := by
    unfold mudLine orSkip
    cases m with
    | false => rfl
    | true =>
      rw [if_pos rfl, if_pos rfl, PyM.bind_run, ← asim_mudPoint S σ h]
      rcases mudPoint env S with ⟨r, S1⟩
      cases r <;> rfl
  have hu : updateCurve pe u S.core R idx aff = orSkip u (do
      let w ← updateWeights env D σ
      drawIf pe true "update" "kde" (.ofKde D.X 0 w) R idx aff) := by
    unfold updateCurve
    rw [ratioWeights_spec h.core, h.core.X]
    rfl
  change ((do
    let d ← PyM.lift (theDist S.inDist)
    let a ← PyM.lift (drawIf pe i "initial" "pdf" (.ofDist d) R idx aff)
    let b ← PyM.lift (updateCurve pe u S.core R idx aff)
    let c ← PyM.lift (drawIf pe wi "weighted initial" "kde"
      (.ofKde S.core.X 0 (some S.core.weights)) R idx aff)
    let m ← mudLine env m idx
    let t ← PyM.lift (vertTrue t tv idx)
    return a ++ b ++ c ++ m ++ t : PyM DPD (List Item)) S).1 = _
  rw [h.inn, hu, h.core.X, h.core.w]
  cases theDist (σ.cur.initial.map fun d => d.getD (uniformOn D.domain)) with
  | error e => rfl
  | ok d =>
    rw [PyM.lift_ok_bind, Py.ok_bind]
    cases drawIf pe i "initial" "pdf" (.ofDist d) R idx aff with
    | error e => rfl
    | ok a =>
      rw [PyM.lift_ok_bind, Py.ok_bind]
      generalize orSkip u (do
        let w ← updateWeights env D σ
        drawIf pe true "update" "kde" (.ofKde D.X 0 w) R idx aff) = B
      cases B with
      | error e => rfl
      | ok b =>
        rw [PyM.lift_ok_bind, Py.ok_bind]
        cases drawIf pe wi "weighted initial" "kde" (.ofKde D.X 0 (some σ.cur.weights)) R idx aff with
        | error e => rfl
        | ok c =>
          rw [PyM.lift_ok_bind, Py.ok_bind, ← hm, PyM.bind_run]
          rcases mudLine env m idx S with ⟨r, S1⟩
          cases r with
          | error e => rfl
          | ok l =>
            change ((PyM.lift (vertTrue t tv idx) >>= fun t => pure (a ++ b ++ c ++ l ++ t) :
              PyM DPD (List Item)) S1).1 = _
            cases vertTrue t tv idx <;> rfl

/-- **C92**, exactly what is drawn over the parameter space after any history of calls (for a given
range): the density of the current initial distribution, which must have been set; the kernel
density estimate of the samples with the weights `updateWeights` (ratio of the last fit times the
current weights, none before the first fit); on demand the estimate with the current weights; a line
at the estimate; a line at the true value. -/
theorem C92_exact {X y : NArr} {dom w : Option NArr} {nrm : Bool} {pad : ℝ} {xi di : Bool} {P : DP}
    (h : DP.new X y dom w nrm pad xi di = .ok P) (ops : List DOp) (idx : ℤ)
    (tv : Option (List ℝ)) (R : Arr2) (pr : ℝ) (aff : ℤ) (i u wi m t : Bool) :
    (plotParamSpace env pe idx tv (some R) pr aff i u wi m t (DPD.after env { core := P } ops)).1 =
      (do
      let d ← theDist ((P.start.after env P.data ops).cur.initial.map
        fun d => d.getD (uniformOn P.domain))
      let a ← drawIf pe i "initial" "pdf" (.ofDist d) R idx aff
      let b ← orSkip u (do
        let w ← updateWeights env P.data (P.start.after env P.data ops)
        drawIf pe true "update" "kde" (.ofKde P.X 0 w) R idx aff)
      let c ← drawIf pe wi "weighted initial" "kde"
        (.ofKde P.X 0 (some (P.start.after env P.data ops).cur.weights)) R idx aff
      let e ← orSkip m (do
        let pt ← (DP.mudPoint env (P.after env ops)).1
        vertAt "mud" pt idx)
      let f ← vertTrue t tv idx
      return a ++ b ++ c ++ e ++ f) := by
  rw [(C29_exact h ops).1]
  exact plotParam_run _ _ (asim_after ops _ _ (new_arel h)) idx tv R pr aff i u wi m t

/-- The full claim C92: the updated density is drawn with the ratio and the weights of the current
settings. -/
def C92_claim : Prop :=
  ∀ (env : Env) (pe : PlotEnv) (X y : NArr) (dom w : Option NArr) (nrm : Bool) (pad : ℝ)
    (xi di : Bool) (P : DP), DP.new X y dom w nrm pad xi di = .ok P → ∀ (ops : List DOp) (R : Arr2)
    (items : List Item),
    (plotParamSpace env pe 0 none (some R) (5 / 100) 100 true true false true true
      (DPD.after env { core := P } ops)).1 = .ok items →
    ∃ r v, (P.settings env ops).ratio env P.data = .ok r ∧
      bzip1 (· * ·) r (P.settings env ops).weights = .ok v ∧
      .curve "update" (.ofKde P.X 0 (some v)) ∈ items

theorem drawIf_ok {b : Bool} {role source : String} {c : Curve} {R : Arr2} {idx aff : ℤ}
    {l : List Item} (h : drawIf pe b role source c R idx aff = .ok l) :
    l = if b then [.curve role c] else [] := by
  unfold drawIf at h
  cases b with
  | false => cases h; rfl
  | true =>
    obtain ⟨_, -, h⟩ := Py.bind_eq_ok.1 (show (do
      pe.draw source c R idx aff
      return [Item.curve role c]) = Except.ok l from h)
    cases h
    rfl

/-- The figure with default options, in terms of the bookkeeping. -/
theorem figure_param {S : DPD} {σ : SpecState} (h : ARel env D S σ) {idx : ℤ} {R : Arr2} {pr : ℝ}
    {aff : ℤ} {items : List Item}
    (hp : (plotParamSpace env pe idx none (some R) pr aff true true false true true S).1 =
      .ok items) :
    ∃ d uw pt k, σ.cur.initial = some d ∧ updateWeights env D σ = .ok uw ∧
      (SpecState.estimate env D σ).1 = .ok pt ∧ ND.normIdx pt.length idx = .ok k ∧
      items = [.curve "initial" (.ofDist (d.getD (uniformOn D.domain))),
        .curve "update" (.ofKde D.X 0 uw), .vert "mud" (pt.getD k 0)] := by
  rw [plotParam_run S σ h] at hp
  obtain ⟨d, hd, hp⟩ := Py.bind_eq_ok.1 hp
  obtain ⟨a, ha, hp⟩ := Py.bind_eq_ok.1 hp
  obtain ⟨b, hb, hp⟩ := Py.bind_eq_ok.1 hp
  obtain ⟨c, hc, hp⟩ := Py.bind_eq_ok.1 hp
  obtain ⟨e, he, hp⟩ := Py.bind_eq_ok.1 hp
  obtain ⟨f, hf, hp⟩ := Py.bind_eq_ok.1 hp
  unfold orSkip at hb he
  rw [if_pos rfl] at hb he
  obtain ⟨uw, hu, hb⟩ := Py.bind_eq_ok.1 hb
  obtain ⟨pt, hpt, he⟩ := Py.bind_eq_ok.1 he
  obtain ⟨k, hk, he⟩ := Py.bind_eq_ok.1 he
  cases he
  cases hf
  cases hp
  have ha := drawIf_ok ha
  have hb := drawIf_ok hb
  have hc := drawIf_ok hc
  cases hi : σ.cur.initial with
  | none => rw [hi] at hd; cases hd
  | some d' =>
    rw [hi] at hd
    cases hd
    refine ⟨d', uw, pt, k, rfl, hu, hpt, hk, ?_⟩
    rw [ha, hb, hc]
    rfl

/-- **C92**, part: right after a successful `fit`, whatever the history before, the figure is: the
density of the initial distribution, the kernel density estimate of the samples weighted with
ratio times weights of the current settings, and the MUD point of the current settings. -/
theorem C92_after_fit_partial {X y : NArr} {dom w : Option NArr} {nrm : Bool} {pad : ℝ}
    {xi di : Bool} {P : DP} (h : DP.new X y dom w nrm pad xi di = .ok P) (ops : List DOp)
    (d : Option Dist) (bw : ℕ) (v : Option NArr)
    (hok : (DP.fit env d bw v (P.after env ops)).1 = .ok ()) (idx : ℤ) (R : Arr2) (pr : ℝ) (aff : ℤ)
    (items : List Item)
    (hp : (plotParamSpace env pe idx none (some R) pr aff true true false true true
      (DPD.after env { core := P } (ops ++ [.fit d bw v]))).1 = .ok items) :
    ∃ d' r u pt k, (P.settings env (ops ++ [.fit d bw v])).initial = some d' ∧
      (P.settings env (ops ++ [.fit d bw v])).ratio env P.data = .ok r ∧
      bzip1 (· * ·) r (P.settings env (ops ++ [.fit d bw v])).weights = .ok u ∧
      (P.settings env (ops ++ [.fit d bw v])).best env P.data = .ok pt ∧
      ND.normIdx pt.length idx = .ok k ∧
      items = [.curve "initial" (.ofDist (d'.getD (uniformOn P.domain))),
        .curve "update" (.ofKde P.X 0 (some u)), .vert "mud" (pt.getD k 0)] := by
  have hrel := asim_after (ops ++ [.fit d bw v]) _ _ (new_arel (env := env) h)
  have hrel0 := sim_after ops _ _ (new_rel (env := env) h)
  have hok' := hok
  rw [(sim_fit d bw v _ _ hrel0).1] at hok'
  have h2 := specFit_fresh d bw v _ (Or.inr hok')
  have hpost := specFit_post d bw v _ hok'
  have e : P.start.after env P.data (ops ++ [.fit d bw v]) =
      (SpecState.fit env P.data d bw v (P.start.after env P.data ops)).2 := by
    rw [SpecState.after_append]; rfl
  rw [← e] at h2 hpost
  obtain ⟨d', uw, pt, k, h3, h4, h5, h6, h7⟩ := figure_param hrel hp
  have hest := C29_after_fit_partial h ops d bw v hok
  rw [(C29_exact h _).1, h5] at hest
  rcases h2 with h2 | ⟨-, hr, hc, u, hu⟩
  · rw [h2] at hpost; cases hpost
  unfold DP.settings at hest ⊢
  rw [hc] at hest ⊢
  unfold updateWeights at h4
  rw [hr] at h4
  obtain ⟨r, hr', h4⟩ := Py.bind_eq_ok.1 h4
  obtain ⟨z, hz, h4⟩ := Py.bind_eq_ok.1 h4
  cases h4
  exact ⟨d', r, z, pt, k, h3, hr', hz, hest.symm, h6, h7⟩

/-- Calls that only set keep the ratio unset. -/
theorem spec_ratio_unset (op : DOp) (hop : (∀ d bw w, op ≠ .fit d bw w) ∧ op ≠ .estimate ∧
    op ≠ .expectedRatio) (σ : SpecState) : (op.spec env D σ).2.ratioOf = σ.ratioOf := by
  cases op with
  | fit d bw w => exact absurd rfl (hop.1 d bw w)
  | estimate => exact absurd rfl hop.2.1
  | expectedRatio => exact absurd rfl hop.2.2
  | setWeights w n =>
    change (SpecState.setWeights D w n σ).2.ratioOf = _
    unfold SpecState.setWeights
    cases DP.weightsOf D.X.r D.y.r w n <;> rfl
  | setObserved d =>
    change (SpecState.setObserved D d σ).2.ratioOf = _
    unfold SpecState.setObserved
    rw [PyM.get_bind_run]
    cases ({ σ.cur with observed := d } : Settings).obs D <;> rfl
  | setInitial d =>
    change (SpecState.setInitial D d σ).2.ratioOf = _
    unfold SpecState.setInitial
    rw [PyM.get_bind_run]
    cases ({ σ.cur with initial := some d } : Settings).ini D <;> rfl
  | setPredicted d bw w =>
    have key : ∀ σ : SpecState, (SpecState.setPredicted env D d bw none σ).2.ratioOf =
        σ.ratioOf := by
      intro σ
      change ((PyM.get >>= fun σ : SpecState =>
        PyM.lift (({ σ.cur with predicted := some (d, bw) } : Settings).pred env D) >>= fun _ =>
        PyM.modify fun σ => ⟨{ σ.cur with predicted := some (d, bw) }, none, σ.ratioOf⟩ :
        PyM SpecState Unit) σ).2.ratioOf = _
      rw [PyM.get_bind_run]
      cases ({ σ.cur with predicted := some (d, bw) } : Settings).pred env D <;> rfl
    cases w with
    | none => exact key σ
    | some w =>
      change ((SpecState.setWeights D (some w) false >>= fun _ =>
        SpecState.setPredicted env D d bw none) σ).2.ratioOf = _
      rw [PyM.bind_run]
      unfold SpecState.setWeights
      cases DP.weightsOf D.X.r D.y.r (some w) false with
      | error e => rfl
      | ok v => exact key _

theorem after_ratio_unset (ops : List DOp) : ∀ σ : SpecState,
    (∀ op ∈ ops, (∀ d bw w, op ≠ .fit d bw w) ∧ op ≠ .estimate ∧ op ≠ .expectedRatio) →
    (σ.after env D ops).ratioOf = σ.ratioOf := by
  induction ops with
  | nil => intro σ _; rfl
  | cons op ops ih =>
    intro σ hops
    exact (ih _ fun o ho => hops o (by simp [ho])).trans (spec_ratio_unset op (hops op (by simp)) σ)

/-- **C92** is false before the first fit: whatever was set, if neither `fit` nor `estimate` nor
`expected_ratio` was called, the curve drawn as the update is the unweighted kernel density estimate
of the samples, although the line drawn beside it is the MUD point of the settings. -/
theorem C92_unfitted {X y : NArr} {dom w : Option NArr} {nrm : Bool} {pad : ℝ} {xi di : Bool}
    {P : DP} (h : DP.new X y dom w nrm pad xi di = .ok P) (ops : List DOp)
    (hops : ∀ op ∈ ops, (∀ d bw w, op ≠ .fit d bw w) ∧ op ≠ .estimate ∧ op ≠ .expectedRatio)
    (idx : ℤ) (R : Arr2) (pr : ℝ) (aff : ℤ) (items : List Item)
    (hp : (plotParamSpace env pe idx none (some R) pr aff true true false true true
      (DPD.after env { core := P } ops)).1 = .ok items) :
    ∃ (d : Option Dist) (pt : List ℝ) (k : ℕ), (P.settings env ops).best env P.data = .ok pt ∧ ND.normIdx pt.length idx = .ok k ∧
      items = [.curve "initial" (.ofDist (d.getD (uniformOn P.domain))),
        .curve "update" (.ofKde P.X 0 none), .vert "mud" (pt.getD k 0)] := by
  have hrel := asim_after ops _ _ (new_arel (env := env) h)
  obtain ⟨d', uw, pt, k, -, h4, h5, h6, h7⟩ := figure_param hrel hp
  have hr := after_ratio_unset (env := env) (D := P.data) ops P.start hops
  unfold updateWeights at h4
  rw [hr] at h4
  cases h4
  have hest := (C29_current_partial (env := env) h ops [] hops (by simp)).1
  rw [List.append_nil, (C29_exact h _).1, h5] at hest
  exact ⟨d', pt, k, hest.symm, h6, h7⟩

/-- Without an initial distribution `plot_param_space` raises an `AssertionError`, whatever else was
set. -/
theorem C92_needs_initial {X y : NArr} {dom w : Option NArr} {nrm : Bool} {pad : ℝ} {xi di : Bool}
    {P : DP} (h : DP.new X y dom w nrm pad xi di = .ok P) (ops : List DOp)
    (hi : (P.start.after env P.data ops).cur.initial = none) (idx : ℤ) (tv : Option (List ℝ))
    (R : Arr2) (pr : ℝ) (aff : ℤ) (i u wi m t : Bool) :
    (plotParamSpace env pe idx tv (some R) pr aff i u wi m t (DPD.after env { core := P } ops)).1 =
      .error .assertionError := by
  rw [C92_exact h, hi]
  rfl

/-- Drawing always succeeds. -/
def demoPe : PlotEnv where
  draw _ _ _ _ _ := .ok ()
  isFrozen _ := true

theorem demo_product (f : ℝ → ℝ) : bzip1 (· * ·) [F.fin (f 0), F.fin (f 1)] (demoS f).weights =
    .ok [.fin (f 0), .fin (f 1)] := by
  simp [bzip1, demoS, F.fin_mul]

theorem demo_ratio' (f : ℝ → ℝ) : (demoS f).ratio env demoP.data = .ok [.fin (f 0), .fin (f 1)] := by
  rw [demo_ratio]
  rfl

/-- The object of the example, fitted. -/
theorem demo_fitted (f : ℝ → ℝ) (d : Option Dist) (bw : ℕ) (w : Option NArr) :
    SpecState.fit env demoP.data d bw w ⟨demoS f, none, none⟩ =
      (.ok (), ⟨demoS f, some (demoS f), some (demoS f)⟩) := by
  rw [specFit_eq, PyM.bind_run]
  have e : specHead env demoP.data d bw w ⟨demoS f, none, none⟩ = (.ok (), ⟨demoS f, none, none⟩) :=
    rfl
  rw [e]
  change specRest env demoP.data _ = _
  unfold specRest
  rw [PyM.get_bind_run]
  simp only [demo_ratio, demo_updated, PyM.lift_ok_bind, PyM.modify_bind_run, PyM.modify_run]

/-- **C92** is false of the code: samples 0 and 1, everything set, not yet fitted. -/
theorem C92_claim_refuted : ¬ C92_claim := by
  intro hC
  let env : Env := ⟨fun _ _ _ => .error .valueError⟩
  let f : ℝ → ℝ := fun x => 2 - x
  have hrun : ∃ items, (plotParamSpace env demoPe 0 none (some ⟨1, 2, !![(0 : ℝ), 1]⟩) (5 / 100) 100
      true true false true true (DPD.after env { core := demoP } (demoOps f))).1 = .ok items := by
    have hcur := (C29_current_partial (env := env) demo_new (demoOps f) []
      (by simp [demoOps]) (by simp)).1
    rw [List.append_nil] at hcur
    rw [C92_exact demo_new, hcur, demo_after]
    have hb : (demoP.settings env (demoOps f)).best env demoP.data = .ok [0] := by
      rw [DP.settings, demo_after, Settings.complete_set rfl rfl]
      exact demo_best' _ (by norm_num [f])
    rw [hb]
    exact ⟨_, rfl⟩
  obtain ⟨items, hi⟩ := hrun
  obtain ⟨r, v, -, -, hm⟩ := hC env demoPe demoX demoX (some demoDom) none false (1 / 10) false false
    demoP demo_new (demoOps f) _ items hi
  obtain ⟨d, pt, k, -, -, hl⟩ := C92_unfitted demo_new (demoOps f) (by simp [demoOps]) _ _ _ _ _ hi
  rw [hl] at hm
  simp at hm

/-- **C92** is also false after `set_observed` on a fitted problem: the old ratio is used. Samples 0
and 1, observed density first `2 - x`, then `1 + x`; the weights drawn are 2, 1 and not 1, 2. -/
theorem C92_stale_refuted : ∃ items,
    (plotParamSpace env demoPe 0 none (some ⟨1, 2, !![(0 : ℝ), 1]⟩) (5 / 100) 100
      true true false true true (DPD.after env { core := demoP } (demoOps (fun x => 2 - x) ++
        [.fit none 0 none, .setObserved (some (distOf fun x => 1 + x))]))).1 = .ok items ∧
    .curve "update" (.ofKde demoP.X 0 (some [.fin 2, .fin 1])) ∈ items ∧
    (demoP.settings env (demoOps (fun x => 2 - x) ++
        [.fit none 0 none, .setObserved (some (distOf fun x => 1 + x))])).ratio env demoP.data =
      .ok [.fin 1, .fin 2] := by
  have hσ : demoP.start.after env demoP.data (demoOps (fun x => 2 - x) ++
        [.fit none 0 none, .setObserved (some (distOf fun x => 1 + x))]) =
      ⟨demoS fun x => 1 + x, some (demoS fun x => 2 - x), some (demoS fun x => 2 - x)⟩ := by
    rw [SpecState.after_append, demo_after]
    simp only [SpecState.after, List.foldl_cons, List.foldl_nil, DOp.spec, demo_fitted,
      SpecState.setObserved, PyM.get_bind_run]
    have : ({ demoS fun x => 2 - x with observed := some (distOf fun x => 1 + x) } : Settings) =
        demoS fun x => 1 + x := rfl
    rw [this, demo_obs, PyM.lift_ok_bind, PyM.modify_run]
    rfl
  have hest : (DP.mudPoint env (demoP.after env (demoOps (fun x => 2 - x) ++
        [.fit none 0 none, .setObserved (some (distOf fun x => 1 + x))]))).1 = .ok [0] := by
    rw [(C29_exact demo_new _).1, hσ]
    simp only [SpecState.estimate, PyM.get_bind_run, Option.isNone_some, PyM.when_false,
      PyM.pure_bind', PyM.lift_run, Option.getD_some]
    exact demo_best' _ (by norm_num)
  have hw : updateWeights env demoP.data ⟨demoS fun x => 1 + x, some (demoS fun x => 2 - x),
      some (demoS fun x => 2 - x)⟩ = .ok (some [.fin 2, .fin 1]) := by
    simp only [updateWeights, demo_ratio', Py.ok_bind]
    rw [show (demoS fun x => 1 + x).weights = (demoS fun x => 2 - x).weights from rfl, demo_product]
    norm_num
  rw [C92_exact demo_new, hest, hσ, hw]
  refine ⟨_, rfl, ?_, ?_⟩
  · simp
  · rw [DP.settings, hσ, Settings.complete_set rfl rfl, demo_ratio']
    norm_num

/-- The hypotheses of `C92_after_fit_partial` are met: the fitted example draws a figure. -/
example : ∃ items, (plotParamSpace env demoPe 0 none (some ⟨1, 2, !![(0 : ℝ), 1]⟩) (5 / 100) 100
      true true false true true (DPD.after env { core := demoP } (demoOps (fun x => 2 - x) ++
        [.fit none 0 none]))).1 = .ok items ∧
    items = [.curve "initial" (.ofDist (distOf fun _ => 1)),
        .curve "update" (.ofKde demoP.X 0 (some [.fin 2, .fin 1])), .vert "mud" 0] := by
  have hσ : demoP.start.after env demoP.data (demoOps (fun x => 2 - x) ++ [.fit none 0 none]) =
      ⟨demoS fun x => 2 - x, some (demoS fun x => 2 - x), some (demoS fun x => 2 - x)⟩ := by
    rw [SpecState.after_append, demo_after]
    simp only [SpecState.after, List.foldl_cons, List.foldl_nil, DOp.spec, demo_fitted]
  have hest : (DP.mudPoint env (demoP.after env (demoOps (fun x => 2 - x) ++
        [.fit none 0 none]))).1 = .ok [0] := by
    rw [(C29_exact demo_new _).1, hσ]
    simp only [SpecState.estimate, PyM.get_bind_run, Option.isNone_some, PyM.when_false,
      PyM.pure_bind', PyM.lift_run, Option.getD_some]
    exact demo_best' _ (by norm_num)
  have hw : updateWeights env demoP.data ⟨demoS fun x => 2 - x, some (demoS fun x => 2 - x),
      some (demoS fun x => 2 - x)⟩ = .ok (some [.fin 2, .fin 1]) := by
    simp only [updateWeights, demo_ratio', Py.ok_bind]
    rw [demo_product]
    norm_num
  rw [C92_exact demo_new, hest, hσ, hw]
  exact ⟨_, rfl, rfl⟩

/-! ## C93: the observable space -/

/-- The stored observed distribution is the one whose density is used. -/
def ORel (S : DPD) (σ : SpecState) : Prop :=
  S.obDist = S.core.ob.map fun _ => σ.cur.observed.getD stdNormal

/-- The method changes neither the observed distribution nor its values. -/
def KeepsOb (x : PyM DPD Unit) : Prop :=
  ∀ S, (x S).2.obDist = S.obDist ∧ (x S).2.core.ob = S.core.ob

theorem KeepsOb.bind {x : PyM DPD Unit} {f : Unit → PyM DPD Unit} (h : KeepsOb x)
    (hf : ∀ a, KeepsOb (f a)) : KeepsOb (x >>= f) := by
  intro S
  have hS := h S
  rw [PyM.bind_run]
  rcases hx : x S with ⟨r, S1⟩
  rw [hx] at hS
  cases r with
  | error e => exact hS
  | ok a => exact ⟨((hf a S1).1).trans hS.1, ((hf a S1).2).trans hS.2⟩

theorem KeepsOb.when {x : PyM DPD Unit} (h : KeepsOb x) (b : Bool) : KeepsOb (PyM.when b x) := by
  cases b with
  | true => exact h
  | false => exact fun _ => ⟨rfl, rfl⟩

/-- The observed distribution among the settings is not changed. -/
def KeepsSpec (z : PyM SpecState Unit) : Prop := ∀ σ, (z σ).2.cur.observed = σ.cur.observed

theorem KeepsSpec.bind {z : PyM SpecState Unit} {f : Unit → PyM SpecState Unit} (h : KeepsSpec z)
    (hf : ∀ a, KeepsSpec (f a)) : KeepsSpec (z >>= f) := by
  intro σ
  have hS := h σ
  rw [PyM.bind_run]
  rcases hx : z σ with ⟨r, σ1⟩
  rw [hx] at hS
  cases r with
  | error e => exact hS
  | ok a => exact (hf a σ1).trans hS

theorem KeepsSpec.when {z : PyM SpecState Unit} (h : KeepsSpec z) (b : Bool) :
    KeepsSpec (PyM.when b z) := by
  cases b with
  | true => exact h
  | false => exact fun _ => rfl

theorem keeps_setWeights (w : Option NArr) (n : Bool) : KeepsOb (DPD.setWeights w n) := by
  intro S
  have h := (proj_setWeights w n S).2
  refine ⟨?_, by rw [h]; exact setWeights_ob w n _⟩
  unfold DPD.setWeights
  rw [emb_bind_run]
  rcases DP.setWeights w n S.core with ⟨r, P⟩
  cases r <;> rfl

theorem keeps_setInitial (d : Option Dist) : KeepsOb (DPD.setInitial d) := by
  intro S
  have h := (proj_setInitial d S).2
  refine ⟨?_, by rw [h]; exact setInitial_ob d _⟩
  unfold DPD.setInitial
  rw [PyM.get_bind_run, emb_bind_run]
  rcases DP.setInitial d S.core with ⟨r, P⟩
  cases r <;> rfl

theorem keeps_setPredicted (d : Option Dist) (bw : ℕ) (w : Option NArr) :
    KeepsOb (DPD.setPredicted env d bw w) := by
  refine KeepsOb.bind ?_ fun _ S => ?_
  · cases w with
    | none => exact fun _ => ⟨rfl, rfl⟩
    | some w => exact keeps_setWeights _ _
  have hob := setPredicted_ob (env := env) d bw S.core
  rw [PyM.get_bind_run, emb_bind_run]
  rcases hx : DP.setPredicted env d bw none S.core with ⟨r, P⟩
  rw [hx] at hob
  cases r <;> exact ⟨rfl, hob⟩

theorem keepsSpec_setWeights (w : Option NArr) (n : Bool) :
    KeepsSpec (SpecState.setWeights D w n) := by
  intro σ
  unfold SpecState.setWeights
  cases DP.weightsOf D.X.r D.y.r w n <;> rfl

theorem keepsSpec_setInitial (d : Option Dist) : KeepsSpec (SpecState.setInitial D d) := by
  intro σ
  unfold SpecState.setInitial
  rw [PyM.get_bind_run]
  cases ({ σ.cur with initial := some d } : Settings).ini D <;> rfl

theorem keepsSpec_setPredicted (d : Option Dist) (bw : ℕ) (w : Option NArr) :
    KeepsSpec (SpecState.setPredicted env D d bw w) := by
  refine KeepsSpec.bind ?_ fun _ σ => ?_
  · cases w with
    | none => exact fun _ => rfl
    | some w => exact keepsSpec_setWeights _ _
  rw [PyM.get_bind_run]
  cases ({ σ.cur with predicted := some (d, bw) } : Settings).pred env D <;> rfl

theorem keeps_head (d : Option Dist) (bw : ℕ) (w : Option NArr) : KeepsOb (fitHead env d bw w) := by
  intro S
  exact ((keeps_setInitial none).when _).bind
    (fun _ S => (keeps_setPredicted d bw w).when _ S) S

theorem keepsSpec_head (d : Option Dist) (bw : ℕ) (w : Option NArr) :
    KeepsSpec (specHead env D d bw w) := by
  intro σ
  exact ((keepsSpec_setInitial none).when _).bind
    (fun _ σ => (keepsSpec_setPredicted d bw w).when _ σ) σ

theorem ORel.of_eq {S S' : DPD} {σ σ' : SpecState} (h : ORel S σ) (h1 : S'.obDist = S.obDist)
    (h2 : S'.core.ob = S.core.ob) (h3 : σ'.cur.observed = σ.cur.observed) : ORel S' σ' := by
  unfold ORel at h ⊢
  rw [h1, h2, h3, h]

theorem orel_fit (d : Option Dist) (bw : ℕ) (w : Option NArr) (S : DPD) (σ : SpecState)
    (ha : ARel env D S σ) (h : ORel S σ) :
    ORel (DPD.fit env d bw w S).2 (SpecState.fit env D d bw w σ).2 := by
  have hh := asim_head (env := env) d bw w S σ ha
  have hk := keeps_head (env := env) d bw w S
  have hks := keepsSpec_head (env := env) (D := D) d bw w σ
  rw [fit_eq, specFit_eq, PyM.bind_run, PyM.bind_run]
  rcases hx : fitHead env d bw w S with ⟨r, S1⟩
  rcases hz : specHead env D d bw w σ with ⟨r', σ1⟩
  rw [hx, hz] at hh
  rw [hx] at hk
  rw [hz] at hks
  obtain ⟨h1, h2⟩ := hh
  simp only at h1 h2 hk hks
  subst h1
  have ho1 : ORel S1 σ1 := h.of_eq hk.1 hk.2 hks
  cases r with
  | error e => exact ho1
  | ok a =>
    change ORel (fitRest S1).2 (specRest env D σ1).2
    obtain ⟨-, -, a3, a4, a5⟩ := fitRest_attrs S1
    unfold ORel at ho1 ⊢
    rw [a3, specRest_cur]
    cases hob : S1.core.ob with
    | none =>
      obtain ⟨v, hv⟩ := Option.isSome_iff_exists.1 a4
      rw [hv, h2.core.ob0 hob]
      rfl
    | some v =>
      rw [a5 v hob, ho1, hob]
      rfl

theorem orel_cached {α : Type} (x : PyM DP α) (hx : ∀ P, (x P).2 = P) (S : DPD) (σ : SpecState)
    (ha : ARel env D S σ) (h : ORel S σ) :
    ORel ((PyM.get >>= fun S : DPD => PyM.when S.core.up.isNone (DPD.fit env) >>= fun _ =>
      emb x : PyM DPD α) S).2
      ((PyM.get >>= fun σ : SpecState =>
        PyM.when σ.fitted.isNone (SpecState.fit env D none 0 none)) σ).2 := by
  rw [PyM.get_bind_run, PyM.get_bind_run, ha.core.up_isNone, PyM.bind_run]
  have h1 : ORel (PyM.when σ.fitted.isNone (DPD.fit env) S).2
      (PyM.when σ.fitted.isNone (SpecState.fit env D none 0 none) σ).2 := by
    cases σ.fitted.isNone with
    | true => exact orel_fit none 0 none S σ ha h
    | false => exact h
  rcases hx' : PyM.when σ.fitted.isNone (DPD.fit env) S with ⟨r, S1⟩
  rw [hx'] at h1
  cases r with
  | error e => exact h1
  | ok a =>
    have : (emb x S1).2 = S1 := by unfold emb; simp [hx]
    change ORel (emb x S1).2 _
    rw [this]
    exact h1

/-- A call of `set_observed` that raises. -/
def ObsRaises (D : DData) : DOp → Prop
  | .setObserved d => ∀ v, densAt (d.getD stdNormal) D.y ≠ .ok v
  | _ => False

theorem orel_run (op : DOp) (hop : ¬ ObsRaises D op) (S : DPD) (σ : SpecState)
    (ha : ARel env D S σ) (h : ORel S σ) : ORel (DPD.run env op S).2 (op.spec env D σ).2 := by
  cases op with
  | setWeights w n =>
    exact h.of_eq (keeps_setWeights w n S).1 (keeps_setWeights w n S).2 (keepsSpec_setWeights w n σ)
  | setInitial d =>
    exact h.of_eq (keeps_setInitial d S).1 (keeps_setInitial d S).2 (keepsSpec_setInitial d σ)
  | setPredicted d bw w =>
    exact h.of_eq (keeps_setPredicted d bw w S).1 (keeps_setPredicted d bw w S).2
      (keepsSpec_setPredicted d bw w σ)
  | setObserved d =>
    have hv : ∃ v, densAt (d.getD stdNormal) D.y = .ok v := by
      by_contra hc
      exact hop fun v hv => hc ⟨v, hv⟩
    obtain ⟨v, hv⟩ := hv
    have e1 : (SpecState.setObserved D d σ).2 = ⟨{ σ.cur with observed := d }, σ.fitted, σ.ratioOf⟩ := by
      unfold SpecState.setObserved
      rw [PyM.get_bind_run]
      have : ({ σ.cur with observed := d } : Settings).obs D = .ok v := hv
      rw [this]
      rfl
    have e2 : (DP.setObserved d S.core).2 = { S.core with ob := some v } := by
      unfold DP.setObserved
      rw [PyM.get_bind_run]
      unfold densAt at hv
      rw [← ha.core.y] at hv
      obtain ⟨o, ho, hv⟩ := Py.bind_eq_ok.1 hv
      rw [ho, PyM.lift_ok_bind, hv]
      rfl
    change ORel (DPD.setObserved d S).2 (SpecState.setObserved D d σ).2
    unfold ORel
    rw [e1, (proj_setObserved d S).2, e2]
    rfl
  | fit d bw w => exact orel_fit d bw w S σ ha h
  | estimate =>
    have := orel_cached pick pick_state S σ ha h
    change ORel ((DPD.mudPoint env >>= fun _ => pure ()) S).2 _
    rw [PyM.bind_run]
    change ORel (DPD.mudPoint env S).2 _ at this
    rcases hx : DPD.mudPoint env S with ⟨r, S1⟩
    rw [hx] at this
    cases r <;> exact this
  | expectedRatio =>
    have := orel_cached average average_state S σ ha h
    change ORel ((DPD.expectedRatio env >>= fun _ => pure ()) S).2 _
    rw [PyM.bind_run]
    change ORel (DPD.expectedRatio env S).2 _ at this
    rcases hx : DPD.expectedRatio env S with ⟨r, S1⟩
    rw [hx] at this
    cases r <;> exact this

theorem orel_after (ops : List DOp) : ∀ (S : DPD) (σ : SpecState),
    (∀ op ∈ ops, ¬ ObsRaises D op) → ARel env D S σ → ORel S σ →
    ORel (S.after env ops) (σ.after env D ops) := by
  induction ops with
  | nil => intro S σ _ _ h; exact h
  | cons op ops ih =>
    intro S σ hops ha h
    exact ih _ _ (fun o ho => hops o (by simp [ho])) (asim_run op S σ ha)
      (orel_run op (hops op (by simp)) S σ ha h)

theorem new_orel {X y : NArr} {dom w : Option NArr} {nrm : Bool} {pad : ℝ} {xi di : Bool} {P : DP}
    (h : DP.new X y dom w nrm pad xi di = .ok P) : ORel { core := P } P.start := by
  have := (new_arel (env := ⟨fun _ _ _ => .error .valueError⟩) h).ob0
  unfold ORel
  cases ho : P.ob with
  | none => rfl
  | some v => rw [ho] at this; exact absurd (this rfl) (by simp)

/-- The figure over the observable space, in terms of the bookkeeping. -/
theorem figure_obs {S : DPD} {σ : SpecState} (h : ARel env D S σ) {idx : ℤ} {R : Option Arr2}
    {aff : ℤ} {yi : Bool} {items : List Item}
    (hp : plotObsSpace pe S idx R aff true true true yi = .ok items) :
    ∃ d p uw, S.obDist = some d ∧ σ.cur.predicted = some p ∧ updateWeights env D σ = .ok uw ∧
      (∀ R', R = some R' → R'.r = D.y.c) ∧
      items = [.curve "observed" (.ofDist d),
        .curve "predicted" (predCurve D.y σ.cur.weights p),
        .curve "push-forward" (.ofKde D.y 0 uw)] := by
  unfold plotObsSpace at hp
  obtain ⟨rng, hr, hp⟩ := Py.bind_eq_ok.1 hp
  obtain ⟨_, hg, hp⟩ := Py.bind_eq_ok.1 hp
  obtain ⟨d, hd, hp⟩ := Py.bind_eq_ok.1 hp
  obtain ⟨a, ha, hp⟩ := Py.bind_eq_ok.1 hp
  obtain ⟨b, hb, hp⟩ := Py.bind_eq_ok.1 hp
  obtain ⟨c, hc, hp⟩ := Py.bind_eq_ok.1 hp
  cases hp
  have hd' : S.obDist = some d := by
    cases ho : S.obDist with
    | none => rw [ho] at hd; cases hd
    | some d' => rw [ho] at hd; cases hd; rfl
  have hc : ∃ uw, updateWeights env D σ = .ok uw ∧ c = [.curve "push-forward" (.ofKde D.y 0 uw)] := by
    unfold pushforwardCurve at hc
    rw [if_pos rfl, ratioWeights_spec h.core, h.core.y] at hc
    obtain ⟨uw, hu, hc⟩ := Py.bind_eq_ok.1 hc
    exact ⟨uw, hu, drawIf_ok hc⟩
  obtain ⟨uw, hu, hc⟩ := hc
  have hb : ∃ p, σ.cur.predicted = some p ∧
      b = [.curve "predicted" (predCurve D.y σ.cur.weights p)] := by
    unfold predictedCurve at hb
    rw [if_pos rfl, h.prd] at hb
    cases hp : σ.cur.predicted with
    | none => rw [hp] at hb; cases hb
    | some p =>
      rw [hp] at hb
      refine ⟨p, rfl, ?_⟩
      obtain ⟨q, bw⟩ := p
      cases q with
      | none => exact drawIf_ok hb
      | some q => exact drawIf_ok hb
  obtain ⟨p, hp, hb⟩ := hb
  refine ⟨d, p, uw, hd', hp, hu, ?_, ?_⟩
  · rintro R' rfl
    cases hr
    by_contra hne
    have hne : rng.r ≠ S.core.n_features := by
      unfold DP.n_features
      rw [h.core.y]
      exact hne
    rw [raiseIf_true hne] at hg
    cases hg
  · rw [hc, hb, drawIf_ok ha]
    rfl

/-- What the figure shows as predicted density: the distribution that was set, or the kernel estimate of the data with
the weights. -/
def predictedCurve (y : Arr2) (w : List F) : Option Dist × ℕ → Curve
  | (some d, _) => .ofDist d
  | (none, bw) => .ofKde y bw (some w)

theorem predCurve_eq (y : Arr2) (w : List F) (p : Option Dist × ℕ) : predCurve y w p = predictedCurve y w p := by
  rcases p with ⟨d, bw⟩
  cases d <;> rfl

/-- The full claim C93: the three curves over the observable space are the density of the observed
distribution, the predicted density, and the kernel density estimate of the data weighted with the
ratio and the weights, all of the current settings. -/
def C93_claim : Prop :=
  ∀ (env : Env) (pe : PlotEnv) (X y : NArr) (dom w : Option NArr) (nrm : Bool) (pad : ℝ)
    (xi di : Bool) (P : DP), DP.new X y dom w nrm pad xi di = .ok P → ∀ (ops : List DOp)
    (R : Option Arr2) (yi : Bool) (items : List Item),
    plotObsSpace pe (DPD.after env { core := P } ops) 0 R 100 true true true yi = .ok items →
    ∃ p r v, (P.settings env ops).predicted = some p ∧
      (P.settings env ops).ratio env P.data = .ok r ∧
      bzip1 (· * ·) r (P.settings env ops).weights = .ok v ∧
      items = [.curve "observed" (.ofDist ((P.settings env ops).observed.getD stdNormal)),
        .curve "predicted" (predictedCurve P.y (P.settings env ops).weights p),
        .curve "push-forward" (.ofKde P.y 0 (some v))]

/-- **C93**, part: the claim holds right after a successful `fit`, if no call of `set_observed` in
the history raised. -/
theorem C93_after_fit_partial {X y : NArr} {dom w : Option NArr} {nrm : Bool} {pad : ℝ}
    {xi di : Bool} {P : DP} (h : DP.new X y dom w nrm pad xi di = .ok P) (ops : List DOp)
    (d : Option Dist) (bw : ℕ) (v : Option NArr) (hops : ∀ op ∈ ops, ¬ ObsRaises P.data op)
    (hok : (DP.fit env d bw v (P.after env ops)).1 = .ok ()) (idx : ℤ) (R : Option Arr2) (aff : ℤ)
    (yi : Bool) (items : List Item)
    (hp : plotObsSpace pe (DPD.after env { core := P } (ops ++ [.fit d bw v])) idx R aff true true
      true yi = .ok items) :
    ∃ p r u, (P.settings env (ops ++ [.fit d bw v])).predicted = some p ∧
      (P.settings env (ops ++ [.fit d bw v])).ratio env P.data = .ok r ∧
      bzip1 (· * ·) r (P.settings env (ops ++ [.fit d bw v])).weights = .ok u ∧
      items = [.curve "observed" (.ofDist
          ((P.settings env (ops ++ [.fit d bw v])).observed.getD stdNormal)),
        .curve "predicted" (predictedCurve P.y (P.settings env (ops ++ [.fit d bw v])).weights p),
        .curve "push-forward" (.ofKde P.y 0 (some u))] := by
  have hrel := asim_after (ops ++ [.fit d bw v]) _ _ (new_arel (env := env) h)
  have hor := orel_after (ops ++ [.fit d bw v]) _ _ (by
    intro op ho
    rw [List.mem_append] at ho
    rcases ho with ho | ho
    · exact hops op ho
    · rw [List.mem_singleton] at ho
      subst ho
      exact id) (new_arel (env := env) h) (new_orel h)
  have hrel0 := sim_after ops _ _ (new_rel (env := env) h)
  have hok' := hok
  rw [(sim_fit d bw v _ _ hrel0).1] at hok'
  have h2 := specFit_fresh d bw v _ (Or.inr hok')
  have hpost := specFit_post d bw v _ hok'
  have e : P.start.after env P.data (ops ++ [.fit d bw v]) =
      (SpecState.fit env P.data d bw v (P.start.after env P.data ops)).2 := by
    rw [SpecState.after_append]; rfl
  rw [← e] at h2 hpost
  obtain ⟨d', p, uw, h3, h4, h5, -, h7⟩ := figure_obs hrel hp
  rcases h2 with h2 | ⟨-, hr, hc, u, hu⟩
  · rw [h2] at hpost; cases hpost
  unfold DP.settings
  rw [hc]
  unfold updateWeights at h5
  rw [hr] at h5
  obtain ⟨r, hr', h5⟩ := Py.bind_eq_ok.1 h5
  obtain ⟨z, hz, h5⟩ := Py.bind_eq_ok.1 h5
  cases h5
  have hd : d' = (P.start.after env P.data (ops ++ [.fit d bw v])).cur.observed.getD stdNormal := by
    unfold ORel at hor
    rw [h3] at hor
    cases ho : (DPD.after env { core := P } (ops ++ [.fit d bw v])).core.ob with
    | none => rw [ho] at hor; cases hor
    | some v' => rw [ho] at hor; cases hor; rfl
  rw [hd] at h7
  rw [predCurve_eq] at h7
  exact ⟨p, r, z, h4, hr', hz, h7⟩

/-- **C93**, part: with only setting calls in the history the curve drawn as the push-forward of
the update is the unweighted estimate of the predicted data. -/
theorem C93_unfitted {X y : NArr} {dom w : Option NArr} {nrm : Bool} {pad : ℝ} {xi di : Bool}
    {P : DP} (h : DP.new X y dom w nrm pad xi di = .ok P) (ops : List DOp)
    (hops : ∀ op ∈ ops, (∀ d bw w, op ≠ .fit d bw w) ∧ op ≠ .estimate ∧ op ≠ .expectedRatio)
    (idx : ℤ) (R : Option Arr2) (aff : ℤ) (yi : Bool) (items : List Item)
    (hp : plotObsSpace pe (DPD.after env { core := P } ops) idx R aff true true true yi =
      .ok items) :
    .curve "push-forward" (.ofKde P.y 0 none) ∈ items ∧
    ∀ v, .curve "push-forward" (.ofKde P.y 0 (some v)) ∉ items := by
  have hrel := asim_after ops _ _ (new_arel (env := env) h)
  obtain ⟨d', p, uw, -, -, h4, -, h7⟩ := figure_obs hrel hp
  have hr := after_ratio_unset (env := env) (D := P.data) ops P.start hops
  unfold updateWeights at h4
  rw [hr] at h4
  cases h4
  rw [h7]
  exact ⟨by simp [DP.data], fun v hv => by simp at hv⟩

/-- No figure over the observable space is drawn (with default options) right after `set_weights` or
`set_initial`: both reset the predicted distribution. -/
theorem C93_reset {X y : NArr} {dom w : Option NArr} {nrm : Bool} {pad : ℝ} {xi di : Bool}
    {P : DP} (h : DP.new X y dom w nrm pad xi di = .ok P) (ops : List DOp)
    (hpred : (P.start.after env P.data ops).cur.predicted = none)
    (idx : ℤ) (R : Option Arr2) (aff : ℤ) (yi : Bool) (items : List Item) :
    plotObsSpace pe (DPD.after env { core := P } ops) idx R aff true true true yi ≠ .ok items := by
  intro hp
  have hrel := asim_after ops _ _ (new_arel (env := env) h)
  obtain ⟨d', p, uw, -, h3, -⟩ := figure_obs hrel hp
  rw [hpred] at h3
  cases h3

/-- A range with the wrong number of rows raises a `ValueError`, whatever was set. -/
theorem C93_range (S : DPD) (R : Arr2) (hR : R.r ≠ S.core.y.c) (idx aff : ℤ) (o p f yi : Bool) :
    plotObsSpace pe S idx (some R) aff o p f yi = .error .valueError := by
  unfold plotObsSpace obsRange
  rw [Py.ok_bind, raiseIf_true (show R.r ≠ S.core.n_features from hR)]
  rfl

/-- **C93** is false of the code: samples 0 and 1, everything set, not yet fitted. -/
theorem C93_claim_refuted : ¬ C93_claim := by
  intro hC
  let env : Env := ⟨fun _ _ _ => .error .valueError⟩
  let f : ℝ → ℝ := fun x => 2 - x
  have hrun : ∃ items, plotObsSpace demoPe (DPD.after env { core := demoP } (demoOps f)) 0
      (some ⟨1, 2, !![(0 : ℝ), 1]⟩) 100 true true true false = .ok items := ⟨_, rfl⟩
  obtain ⟨items, hi⟩ := hrun
  obtain ⟨p, r, v, -, -, -, hl⟩ := hC env demoPe demoX demoX (some demoDom) none false (1 / 10)
    false false demoP demo_new (demoOps f) _ false items hi
  have := (C93_unfitted demo_new (demoOps f) (by simp [demoOps]) _ _ _ _ _ hi).2 v
  rw [hl] at this
  simp [demoP] at this

/-- A call of `set_observed` that raises leaves the distribution attribute changed and the density
values not: from then on `plot_obs_space` draws a distribution that is not the one the update is
computed with. -/
theorem C93_failed_observed (d : Option Dist) (S : DPD) (e : Err)
    (he : (DPD.setObserved d S).1 = .error e) :
    (DPD.setObserved d S).2.obDist = some (d.getD stdNormal) ∧
    (DPD.setObserved d S).2.core.ob = S.core.ob := by
  refine ⟨rfl, ?_⟩
  have hp := proj_setObserved d S
  rw [hp.2]
  rw [hp.1] at he
  unfold DP.setObserved at he ⊢
  rw [PyM.get_bind_run] at he ⊢
  cases h1 : (d.getD stdNormal).pdf S.core.y with
  | error e => rfl
  | ok o =>
    rw [h1, PyM.lift_ok_bind] at he
    rw [PyM.lift_ok_bind]
    cases h2 : o.prodRows with
    | error e => rfl
    | ok v => rw [h2] at he; cases he

/-- The hypotheses of `C93_after_fit_partial` are met: the fitted example draws a figure. -/
example : ∃ items, plotObsSpace demoPe (DPD.after env { core := demoP } (demoOps (fun x => 2 - x) ++
      [.fit none 0 none])) 0 (some ⟨1, 2, !![(0 : ℝ), 1]⟩) 100 true true true false = .ok items ∧
    ∃ p r u, (demoP.settings env (demoOps (fun x => 2 - x) ++ [.fit none 0 none])).predicted = some p ∧
      (demoP.settings env (demoOps (fun x => 2 - x) ++ [.fit none 0 none])).ratio env demoP.data =
        .ok r ∧ bzip1 (· * ·) r
        (demoP.settings env (demoOps (fun x => 2 - x) ++ [.fit none 0 none])).weights = .ok u ∧
      items = [.curve "observed" (.ofDist
          ((demoP.settings env (demoOps (fun x => 2 - x) ++ [.fit none 0 none])).observed.getD
            stdNormal)),
        .curve "predicted" (predictedCurve demoP.y
          (demoP.settings env (demoOps (fun x => 2 - x) ++ [.fit none 0 none])).weights p),
        .curve "push-forward" (.ofKde demoP.y 0 (some u))] := by
  have hrel0 := sim_after (demoOps fun x => 2 - x) _ _ (new_rel (env := env) demo_new)
  have hok : (DP.fit env none 0 none (demoP.after env (demoOps fun x => 2 - x))).1 = .ok () := by
    rw [(sim_fit none 0 none _ _ hrel0).1, demo_after, demo_fitted]
  have hσ : demoP.start.after env demoP.data (demoOps (fun x => 2 - x) ++ [.fit none 0 none]) =
      ⟨demoS fun x => 2 - x, some (demoS fun x => 2 - x), some (demoS fun x => 2 - x)⟩ := by
    rw [SpecState.after_append, demo_after]
    simp only [SpecState.after, List.foldl_cons, List.foldl_nil, DOp.spec, demo_fitted]
  have hnr : ∀ op ∈ demoOps (fun x => 2 - x), ¬ ObsRaises demoP.data op := by
    have hd : ∀ v, densAt (distOf fun x => 2 - x) demoP.y = .ok v →
      ¬ ∀ v, densAt (distOf fun x => 2 - x) demoP.y ≠ .ok v := fun v hv hc => hc v hv
    simp only [demoOps, List.mem_cons, List.not_mem_nil, or_false, forall_eq_or_imp, forall_eq]
    exact ⟨id, hd _ (demo_densAt _), id⟩
  have hrun : ∃ items, plotObsSpace demoPe (DPD.after env { core := demoP }
      (demoOps (fun x => 2 - x) ++ [.fit none 0 none])) 0 (some ⟨1, 2, !![(0 : ℝ), 1]⟩) 100 true true
      true false = .ok items := by
    have ha := asim_after (demoOps (fun x => 2 - x) ++ [.fit none 0 none]) _ _
      (new_arel (env := env) demo_new)
    have hw : updateWeights env demoP.data ⟨demoS fun x => 2 - x, some (demoS fun x => 2 - x),
        some (demoS fun x => 2 - x)⟩ = .ok (some [.fin 2, .fin 1]) := by
      simp only [updateWeights, demo_ratio', Py.ok_bind]
      rw [demo_product]
      norm_num
    rw [hσ] at ha
    have hor := orel_after (demoOps (fun x => 2 - x) ++ [.fit none 0 none]) _ _ (by
      intro op ho
      rw [List.mem_append] at ho
      rcases ho with ho | ho
      · exact hnr op ho
      · rw [List.mem_singleton] at ho
        subst ho
        exact id) (new_arel (env := env) demo_new) (new_orel demo_new)
    generalize DPD.after env { core := demoP } (demoOps (fun x => 2 - x) ++ [.fit none 0 none]) = S
      at ha hor
    have hob : ∃ d, S.obDist = some d := by
      have hs : S.core.ob.isSome := by
        cases ho : S.core.ob with
        | some v => rfl
        | none => exact absurd (ha.core.ob0 ho) (by simp [demoS])
      exact Option.isSome_iff_exists.1 (ha.ob0 hs)
    obtain ⟨d, hd⟩ := hob
    unfold plotObsSpace obsRange
    rw [Py.ok_bind, hd, ha.prd]
    unfold pushforwardCurve
    rw [ratioWeights_spec ha.core, hw, raiseIf_false (by simp [DP.n_features, ha.core.y]; rfl)]
    exact ⟨_, rfl⟩
  obtain ⟨items, hi⟩ := hrun
  exact ⟨items, hi, C93_after_fit_partial demo_new (demoOps fun x => 2 - x) none 0 none hnr hok 0 _ _
    _ items hi⟩

/-! ### Further cases meeting the hypotheses -/

/-- C92: a fresh problem, and one with only an observed distribution, has nothing to plot. -/
example (idx aff : ℤ) : (DPD.plotParamSpace env pe idx none (some ⟨1, 2, !![(0 : ℝ), 1]⟩) (5 / 100) aff true true false
      true true (DPD.after env { core := demoP } [])).1 = .error .assertionError :=
  C92_needs_initial demo_new [] rfl _ _ _ _ _ _ _ _ _ _

/-- C93: a fresh problem has no predicted distribution. -/
example (idx aff : ℤ) (yi : Bool) (items : List Item) :
    DPD.plotObsSpace pe (DPD.after env { core := demoP } []) idx none aff true true true yi ≠ .ok items :=
  C93_reset demo_new [] rfl _ _ _ _ _

/-- C93: one output, two rows of ranges. -/
example (idx aff : ℤ) (o p f yi : Bool) :
    DPD.plotObsSpace pe { core := demoP } idx (some ⟨2, 2, !![(0 : ℝ), 1; 0, 1]⟩) aff o p f yi = .error .valueError :=
  C93_range _ _ (by simp [demoP]) _ _ _ _ _ _

/-- C93: a distribution whose density raises is kept although the call fails. -/
example : (DPD.setObserved (some ⟨fun _ => .error .typeError, fun _ => .error .typeError⟩) { core := demoP }).2.obDist =
    some ⟨fun _ => .error .typeError, fun _ => .error .typeError⟩ :=
  (C93_failed_observed (some ⟨fun _ => .error .typeError, fun _ => .error .typeError⟩) { core := demoP } .typeError
    rfl).1

end Verif
