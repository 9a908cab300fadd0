import Verif.Model.Comparison
import Verif.Props.ExamplesSimple
import Verif.Props.DensityDefault
import Verif.Lemmas.PlotSim
import Verif.Props.PlotBayes

/-!
# C108: `run_comparison_example`
-/

open Matrix

namespace Verif

open SpecST

variable {σ : Type} {env : Env} {pe : PlotEnv} {user : ℕ → ℝ → ℕ → ℝ}

theorem densAt_split {d : Dist} {A : Arr2} {v : List F} (h : densAt d A = .ok v) :
    ∃ out, d.pdf A = .ok out ∧ out.prodRows = .ok v := by
  unfold densAt at h
  exact Py.bind_eq_ok.1 h

theorem setObserved_run {d : Dist} {P : DP} {v : List F} (h : densAt d P.y = .ok v) :
    DP.setObserved (some d) P = (.ok (), { P with ob := some v }) := by
  obtain ⟨out, h1, h2⟩ := densAt_split h
  unfold DP.setObserved
  simp only [PyM.get_bind_run, Option.getD_some, h1, PyM.lift_ok_bind, h2]
  rfl

theorem setInitial_run {P : DP} {v : List F} (h : densAt (uniformOn P.domain) P.X = .ok v) :
    DP.setInitial none P = (.ok (), { P with init := some v, up := none, pr := none }) := by
  obtain ⟨out, h1, h2⟩ := densAt_split h
  unfold DP.setInitial
  simp only [PyM.get_bind_run, Option.getD_none, h1, PyM.lift_ok_bind, h2]
  rfl

theorem setPredicted_run {P : DP} {v : List F} (h : env.kde P.y 0 P.weights = .ok v) :
    DP.setPredicted env none 0 none P = (.ok (), { P with pr := some v, up := none }) := by
  unfold DP.setPredicted
  show (do
    let P ← PyM.get
    let v ← PyM.lift (DP.predVals env P none 0)
    PyM.modify fun s => { s with pr := some v, up := none } : PyM DP Unit) P = _
  simp only [PyM.get_bind_run, DP.predVals, h, PyM.lift_ok_bind]
  rfl

/-- The object after `set_observed(d)` and `estimate()`. -/
noncomputable def fittedDPD (P : DP) (d : Dist) (I O K r u : List F) : DPD :=
  { core := { P with init := some I, pr := some K, ob := some O, r := some r, up := some u }
    inDist := some (uniformOn P.domain)
    prDist := some (.ofKde P.y 0 (some P.weights))
    obDist := some d }

theorem density_fit_run {P : DP} {d : Dist} {I O K r iw u : List F} (h0 : P.init = none)
    (h2 : P.up = none)
    (hI : densAt (uniformOn P.domain) P.X = .ok I) (hO : densAt d P.y = .ok O)
    (hK : env.kde P.y 0 P.weights = .ok K) (hr : bzip1 (· / ·) O K = .ok r)
    (hiw : bzip1 (· * ·) I P.weights = .ok iw) (hu : bzip1 (· * ·) iw r = .ok u) {m : ℕ} {pt : List ℝ}
    (hm : npArgmax u = .ok m) (hpt : P.X.rowAt m = .ok pt) :
    runM (DPD.setObserved (some d)) { core := P } =
      .ok ((), { core := { P with ob := some O }, obDist := some d }) ∧
    DPD.mudPoint env { core := { P with ob := some O }, obDist := some d } =
      (.ok pt, fittedDPD P d I O K r u) := by
  constructor
  · unfold runM DPD.setObserved
    rw [PyM.modify_bind_run]
    unfold DPD.emb
    rw [setObserved_run hO]
    rfl
  · have e1 : DPD.setInitial none { core := { P with ob := some O }, obDist := some d } =
        (.ok (), { core := { P with ob := some O, init := some I, up := none, pr := none }
                   inDist := some (uniformOn P.domain)
                   obDist := some d }) := by
      unfold DPD.setInitial
      rw [PyM.get_bind_run, DPD.emb_bind_run, setInitial_run (P := { P with ob := some O }) hI]
      rfl
    have e2 : DPD.setPredicted env none 0 none
        { core := { P with ob := some O, init := some I, up := none, pr := none }
          inDist := some (uniformOn P.domain)
          obDist := some d } =
        (.ok (), { core := { P with ob := some O, init := some I, up := none, pr := some K }
                   inDist := some (uniformOn P.domain)
                   prDist := some (.ofKde P.y 0 (some P.weights))
                   obDist := some d }) := by
      unfold DPD.setPredicted
      show (do
        let S ← PyM.get
        DPD.emb (DP.setPredicted env none 0 none)
        PyM.modify fun S' => { S' with prDist := some (DPD.predCurve S.core.y S.core.weights (none, 0)) } :
          PyM DPD Unit) _ = _
      rw [PyM.get_bind_run, DPD.emb_bind_run,
        setPredicted_run (P := { P with ob := some O, init := some I, up := none, pr := none }) hK]
      rfl
    have e3 : DPD.fitTail { P with ob := some O, init := some I, up := none, pr := some K } =
        (.ok (), { P with init := some I, pr := some K, ob := some O, r := some r, up := some u }) := by
      unfold DPD.fitTail
      simp only [PyM.get_bind_run, DP.theAttr, PyM.lift_ok_bind, hr, PyM.modify_bind_run, hiw, hu]
      rfl
    have e4 : DPD.fit env none 0 none { core := { P with ob := some O }, obDist := some d } =
        (.ok (), fittedDPD P d I O K r u) := by
      unfold DPD.fit
      rw [PyM.get_bind_run, show ({ core := { P with ob := some O }, obDist := some d } :
          DPD).core.init.isNone = true from by simp [h0], PyM.when_true, PyM.bind_run, e1]
      simp only [PyM.get_bind_run, Option.isNone_none, PyM.when_true]
      rw [PyM.bind_run, e2]
      simp only [PyM.get_bind_run, Option.isNone_some, PyM.when_false]
      show DPD.emb DPD.fitTail _ = _
      unfold DPD.emb
      rw [e3]
      rfl
    unfold DPD.mudPoint
    rw [PyM.get_bind_run, show ({ core := { P with ob := some O }, obDist := some d } :
          DPD).core.up.isNone = true from by simp [h2], PyM.when_true, PyM.bind_run, e4]
    show DPD.emb DPD.pick (fittedDPD P d I O K r u) = _
    unfold DPD.emb
    have e5 : DPD.pick (fittedDPD P d I O K r u).core = (.ok pt, (fittedDPD P d I O K r u).core) := by
      unfold DPD.pick
      simp only [PyM.get_bind_run, fittedDPD, DP.theAttr, PyM.lift_ok_bind, hm, PyM.lift_run, hpt]
    rw [e5]

/-! ## The Bayes problem -/

theorem likeSet_run {d : Dist} {P : BP} {v : List F} (h : densAt d P.y = .ok v) :
    BP.setLikelihood d false P = (.ok (), { P with log := false, ll := some v, ps := none }) := by
  obtain ⟨out, h1, h2⟩ := densAt_split h
  unfold BP.setLikelihood
  simp only [PyM.get_bind_run, Bool.false_eq_true, if_false, PyM.modify_bind_run, h1, PyM.lift_ok_bind, h2]
  rfl

theorem priorSet_run {P : BP} {v : List F} (h : densAt (uniformOn P.domain) P.X = .ok v) :
    BP.setPrior none P = (.ok (), { P with pr := some v, ps := none }) := by
  obtain ⟨out, h1, h2⟩ := densAt_split h
  unfold BP.setPrior
  simp only [PyM.get_bind_run, Option.getD_none, h1, PyM.lift_ok_bind, h2]
  rfl

theorem emb_bind_run' {α β : Type} (x : PyM BP α) (f : α → PyM BPD β) (S : BPD) :
    (BPD.emb x >>= f) S = (match (x S.core).1 with
      | .ok a => f a { S with core := (x S.core).2 }
      | .error e => (.error e, { S with core := (x S.core).2 })) := by
  rw [PyM.bind_run]
  unfold BPD.emb
  rcases (x S.core).1 with e | a <;> rfl

/-- The object after `set_likelihood(d)` and `estimate()`. -/
noncomputable def fittedBPD (P : BP) (d : Dist) (I L ps : List F) : BPD :=
  { core := { P with log := false, ll := some L, pr := some I, ps := some ps }
    prDist := some (uniformOn P.domain)
    llDist := some d }

theorem likelihood_run {P : BP} {d : Dist} {L : List F} (hL : densAt d P.y = .ok L) :
    runM (BPD.setLikelihood d false) { core := P } =
      .ok ((), { core := { P with log := false, ll := some L, ps := none }, llDist := some d }) := by
  unfold runM BPD.setLikelihood
  rw [PyM.modify_bind_run]
  unfold BPD.emb
  rw [likeSet_run hL]

theorem bayes_prior_run {P : BP} {d : Dist} {I L : List F} (hI : densAt (uniformOn P.domain) P.X = .ok I) :
    BPD.setPrior none { core := { P with log := false, ll := some L, ps := none }, llDist := some d } =
      (.ok (), { core := { P with log := false, ll := some L, ps := none, pr := some I }
                 prDist := some (uniformOn P.domain)
                 llDist := some d }) := by
  unfold BPD.setPrior
  rw [PyM.modify_bind_run]
  unfold BPD.emb
  rw [show (({ core := { P with log := false, ll := some L, ps := none }, llDist := some d } : BPD).core) =
    { P with log := false, ll := some L, ps := none } from rfl,
    priorSet_run (P := { P with log := false, ll := some L, ps := none }) hI]
  rfl

theorem bayes_fit_run {P : BP} {d : Dist} {I L ps : List F} (h0 : P.pr = none)
    (hI : densAt (uniformOn P.domain) P.X = .ok I)
    (hps : bzip1 (· * ·) I L = .ok ps) (hlen : ps.length = P.X.r) (hsum : ps.sum ≠ .fin 0) {m : ℕ}
    {pt : List ℝ} (hm : npArgmax ps = .ok m) (hpt : P.X.rowAt m = .ok pt) :
    BPD.mapPoint { core := { P with log := false, ll := some L, ps := none }, llDist := some d } =
      (.ok pt, fittedBPD P d I L ps) := by
  classical
  have e3 : BPD.fitTail { P with log := false, ll := some L, ps := none, pr := some I } =
      (.ok (), { P with log := false, ll := some L, pr := some I, ps := some ps }) := by
    unfold BPD.fitTail
    simp only [PyM.get_bind_run, Option.isNone_some, PyM.when_false, DP.theAttr, PyM.lift_ok_bind,
      Bool.false_eq_true, if_false, hps]
    show (do
      PyM.lift (pyAssert (ps.length = P.X.r))
      PyM.lift (raiseIf (ps.sum = .fin 0) .valueError)
      PyM.modify fun s => { s with ps := some ps } : PyM BP Unit) _ = _
    rw [pyAssert_true hlen, PyM.lift_ok_bind, raiseIf_false hsum, PyM.lift_ok_bind]
    rfl
  have e4 : BPD.fit { core := { P with log := false, ll := some L, ps := none }, llDist := some d } =
      (.ok (), fittedBPD P d I L ps) := by
    unfold BPD.fit
    rw [PyM.get_bind_run, show ({ core := { P with log := false, ll := some L, ps := none }, llDist := some d } :
      BPD).core.pr.isNone = true from by simp [h0], PyM.when_true, PyM.bind_run, bayes_prior_run hI]
    show BPD.emb BPD.fitTail _ = _
    unfold BPD.emb
    rw [e3]
    rfl
  unfold BPD.mapPoint
  rw [PyM.get_bind_run, show ({ core := { P with log := false, ll := some L, ps := none }, llDist := some d } :
      BPD).core.ps.isNone = true from rfl, PyM.when_true, PyM.bind_run, e4]
  show BPD.emb BPD.pick (fittedBPD P d I L ps) = _
  unfold BPD.emb
  have e5 : BPD.pick (fittedBPD P d I L ps).core = (.ok pt, (fittedBPD P d I L ps).core) := by
    unfold BPD.pick
    simp only [PyM.get_bind_run, fittedBPD, DP.theAttr, PyM.lift_ok_bind, hm, PyM.lift_run, hpt]
  rw [e5]

/-- No mass: `fit` raises. -/
theorem bayes_fit_err {P : BP} {d : Dist} {I L ps : List F} (h0 : P.pr = none)
    (hI : densAt (uniformOn P.domain) P.X = .ok I)
    (hps : bzip1 (· * ·) I L = .ok ps) (hlen : ps.length = P.X.r) (hsum : ps.sum = .fin 0) :
    runM BPD.mapPoint { core := { P with log := false, ll := some L, ps := none }, llDist := some d } =
      .error .valueError := by
  classical
  have e3 : (BPD.fitTail { P with log := false, ll := some L, ps := none, pr := some I }).1 =
      .error .valueError := by
    unfold BPD.fitTail
    simp only [PyM.get_bind_run, Option.isNone_some, PyM.when_false, DP.theAttr, PyM.lift_ok_bind,
      Bool.false_eq_true, if_false, hps]
    show ((do
      PyM.lift (pyAssert (ps.length = P.X.r))
      PyM.lift (raiseIf (ps.sum = .fin 0) .valueError)
      PyM.modify fun s => { s with ps := some ps } : PyM BP Unit) _).1 = _
    rw [pyAssert_true hlen, PyM.lift_ok_bind, raiseIf_true hsum]
    rfl
  have e4 : (BPD.fit { core := { P with log := false, ll := some L, ps := none }, llDist := some d }).1 =
      .error .valueError := by
    unfold BPD.fit
    rw [PyM.get_bind_run, show ({ core := { P with log := false, ll := some L, ps := none }, llDist := some d } :
      BPD).core.pr.isNone = true from by simp [h0], PyM.when_true, PyM.bind_run, bayes_prior_run hI]
    exact e3
  unfold runM BPD.mapPoint
  rw [PyM.get_bind_run, show ({ core := { P with log := false, ll := some L, ps := none }, llDist := some d } :
      BPD).core.ps.isNone = true from rfl, PyM.when_true, PyM.bind_run]
  rcases hrun : BPD.fit { core := { P with log := false, ll := some L, ps := none }, llDist := some d } with ⟨r, S'⟩
  rw [hrun] at e4
  simp only at e4
  subst e4
  rfl

/-! ## The figures -/

theorem drawIf_run (hpe : ∀ src c R i a, pe.draw src c R i a = .ok ()) (role src : String) (c : Curve)
    (R : Arr2) (i a : ℤ) : drawIf pe true role src c R i a = .ok [.curve role c] := by
  unfold drawIf
  rw [if_pos rfl, hpe]
  rfl

theorem mapPoint_cached {P : BP} {d : Dist} {I L ps : List F} {m : ℕ} {pt : List ℝ}
    (hm : npArgmax ps = .ok m) (hpt : P.X.rowAt m = .ok pt) :
    BPD.mapPoint (fittedBPD P d I L ps) = (.ok pt, fittedBPD P d I L ps) := by
  unfold BPD.mapPoint
  rw [PyM.get_bind_run, show (fittedBPD P d I L ps).core.ps.isNone = false from rfl, PyM.when_false]
  show BPD.emb BPD.pick (fittedBPD P d I L ps) = _
  unfold BPD.emb
  have e5 : BPD.pick (fittedBPD P d I L ps).core = (.ok pt, (fittedBPD P d I L ps).core) := by
    unfold BPD.pick
    simp only [PyM.get_bind_run, fittedBPD, DP.theAttr, PyM.lift_ok_bind, hm, PyM.lift_run, hpt]
  rw [e5]

theorem mudPoint_cached {P : DP} {d : Dist} {I O K r u : List F} {m : ℕ} {pt : List ℝ} {D : Arr2}
    (hm : npArgmax u = .ok m) (hpt : P.X.rowAt m = .ok pt) :
    DPD.mudPoint env { fittedDPD P d I O K r u with
      core := { (fittedDPD P d I O K r u).core with domain := D } } =
      (.ok pt, { fittedDPD P d I O K r u with
        core := { (fittedDPD P d I O K r u).core with domain := D } }) := by
  unfold DPD.mudPoint
  rw [PyM.get_bind_run, show ({ fittedDPD P d I O K r u with
        core := { (fittedDPD P d I O K r u).core with domain := D } } : DPD).core.up.isNone = false from rfl,
    PyM.when_false]
  show DPD.emb DPD.pick _ = _
  unfold DPD.emb
  have e5 : DPD.pick { (fittedDPD P d I O K r u).core with domain := D } =
      (.ok pt, { (fittedDPD P d I O K r u).core with domain := D }) := by
    unfold DPD.pick
    simp only [PyM.get_bind_run, fittedDPD, DP.theAttr, PyM.lift_ok_bind, hm, PyM.lift_run, hpt]
  rw [e5]

theorem comparisonParam_run (hpe : ∀ src c R i a, pe.draw src c R i a = .ok ()) {P : DP} {d : Dist}
    {I O K r u rw : List F} {Q : BP} {dl : Dist} {I' L ps : List F} {m : ℕ} {pt : List ℝ} {D : Arr2}
    (hD : fitDomain none (some P.domain) (5 / 100) P.domInt = .ok D)
    (hrw : bzip1 (· * ·) r P.weights = .ok rw)
    (hm : npArgmax ps = .ok m) (hpt : Q.X.rowAt m = .ok pt) :
    comparisonParam env pe (fittedDPD P d I O K r u) (fittedBPD Q dl I' L ps) =
      .ok ([.curve "initial" (.ofDist (uniformOn P.domain)), .curve "update" (.ofKde P.X 0 (some rw)),
        .curve "posterior" (.ofKde Q.X 0 (some ps))],
        { fittedDPD P d I O K r u with
          core := { (fittedDPD P d I O K r u).core with domain := D } },
        fittedBPD Q dl I' L ps) := by
  have e1 : DPD.plotParamSpace env pe 0 none none (5 / 100) 100 true true false false true
      (fittedDPD P d I O K r u) =
      (.ok [.curve "initial" (.ofDist (uniformOn P.domain)), .curve "update" (.ofKde P.X 0 (some rw))],
        { fittedDPD P d I O K r u with
          core := { (fittedDPD P d I O K r u).core with domain := D } }) := by
    have ep : DPD.paramRange none (5 / 100) (fittedDPD P d I O K r u) = (.ok D,
        { fittedDPD P d I O K r u with
          core := { (fittedDPD P d I O K r u).core with domain := D } }) := by
      unfold DPD.paramRange
      show (do
        let S ← PyM.get
        let D ← PyM.lift (fitDomain none (some S.core.domain) (5 / 100) S.core.domInt)
        PyM.modify fun S => { S with core := { S.core with domain := D } }
        return D : PyM DPD Arr2) _ = _
      rw [PyM.get_bind_run, show fitDomain none (some (fittedDPD P d I O K r u).core.domain) (5 / 100)
        (fittedDPD P d I O K r u).core.domInt = .ok D from hD, PyM.lift_ok_bind, PyM.modify_bind_run]
      rfl
    have ew : DPD.ratioWeights { (fittedDPD P d I O K r u).core with domain := D } = .ok (some rw) := by
      show (do let v ← bzip1 (· * ·) r P.weights; return some v : Py (Option (List F))) = _
      rw [hrw]
      rfl
    unfold DPD.plotParamSpace
    rw [PyM.bind_run, ep]
    simp only [PyM.get_bind_run]
    rw [show DPD.theDist (fittedDPD P d I O K r u).inDist = .ok (uniformOn P.domain) from rfl,
      PyM.lift_ok_bind, drawIf_run hpe, PyM.lift_ok_bind]
    unfold DPD.updateCurve
    rw [if_pos rfl, ew, Py.ok_bind, drawIf_run hpe, PyM.lift_ok_bind]
    rfl
  have e2 : BPD.plotParamSpace pe 0 none 1000 false true false true none (fittedBPD Q dl I' L ps) =
      (.ok [.curve "posterior" (.ofKde Q.X 0 (some ps))], fittedBPD Q dl I' L ps) := by
    have ep : ∀ R, BPD.posteriorCurve pe true R 0 1000 (fittedBPD Q dl I' L ps) =
        (.ok [.curve "posterior" (.ofKde Q.X 0 (some ps))], fittedBPD Q dl I' L ps) := by
      intro R
      unfold BPD.posteriorCurve
      rw [if_pos rfl, PyM.bind_run, mapPoint_cached hm hpt]
      simp only [PyM.get_bind_run]
      rw [drawIf_run hpe]
      rfl
    unfold BPD.plotParamSpace
    simp only [PyM.get_bind_run]
    rw [show BPD.priorCurve pe false (fittedBPD Q dl I' L ps).prDist _ 0 1000 = .ok [] from rfl,
      PyM.lift_ok_bind, PyM.bind_run, ep]
    rfl
  unfold comparisonParam runM
  rw [e1]
  simp only [Py.ok_bind]
  rw [e2]
  rfl

theorem comparisonObs_run (hpe : ∀ src c R i a, pe.draw src c R i a = .ok ()) {P : DP} {d : Dist}
    {I O K r u rw : List F} {Q : BP} {dl : Dist} {I' L ps : List F} {D : Arr2} (hy : P.y.c = 1)
    (hrw : bzip1 (· * ·) r P.weights = .ok rw) :
    comparisonObs pe { fittedDPD P d I O K r u with
          core := { (fittedDPD P d I O K r u).core with domain := D } } (fittedBPD Q dl I' L ps) =
      .ok [.curve "observed" (.ofDist d), .curve "predicted" (.ofKde P.y 0 (some P.weights)),
        .curve "push-forward" (.ofKde P.y 0 (some rw)), .curve "push-forward" (.ofKde Q.y 0 (some ps))] := by
  have ew : DPD.ratioWeights { (fittedDPD P d I O K r u).core with domain := D } = .ok (some rw) := by
    show (do let v ← bzip1 (· * ·) r P.weights; return some v : Py (Option (List F))) = _
    rw [hrw]
    rfl
  have e1 : DPD.plotObsSpace pe { fittedDPD P d I O K r u with
          core := { (fittedDPD P d I O K r u).core with domain := D } } 0
          (some ⟨1, 2, .of fun _ k => if k = 0 then -1 else 1⟩) 100 true true true false =
      .ok [.curve "observed" (.ofDist d), .curve "predicted" (.ofKde P.y 0 (some P.weights)),
        .curve "push-forward" (.ofKde P.y 0 (some rw))] := by
    unfold DPD.plotObsSpace DPD.obsRange
    simp only [Py.ok_bind]
    rw [raiseIf_false (by
      show ¬ (1 ≠ P.y.c)
      rw [hy]; simp), Py.ok_bind]
    rw [show DPD.theDist (fittedDPD P d I O K r u).obDist = .ok d from rfl, Py.ok_bind, drawIf_run hpe, Py.ok_bind]
    unfold DPD.predictedCurve
    rw [if_pos rfl, show (fittedDPD P d I O K r u).prDist = some (.ofKde P.y 0 (some P.weights)) from rfl]
    simp only
    rw [drawIf_run hpe, Py.ok_bind]
    unfold DPD.pushforwardCurve
    rw [if_pos rfl, ew, Py.ok_bind, drawIf_run hpe, Py.ok_bind]
    rfl
  have e2 : BPD.plotObsSpace pe (fittedBPD Q dl I' L ps) 0 none 1000 false true =
      .ok [.curve "push-forward" (.ofKde Q.y 0 (some ps))] := by
    unfold BPD.plotObsSpace
    have h0 : ∀ R, BPD.likelihoodCurve pe false (fittedBPD Q dl I' L ps) R 0 1000 = .ok [] := fun _ => rfl
    simp only [h0, Py.ok_bind, drawIf_run hpe]
    rfl
  unfold comparisonObs
  rw [e1, Py.ok_bind, e2]
  rfl

/-! ## One pass -/

/-- `m` is the first among the `k` with `S k` at which `f` is largest. -/
structure FirstBest {n : ℕ} (S : Fin n → Prop) (f : Fin n → ℝ) (m : Fin n) : Prop where
  mem : S m
  best : ∀ k, S k → f k ≤ f m
  first : ∀ k, S k → k < m → f k < f m

open Classical in
theorem first_best {n : ℕ} {S : Fin n → Prop} {c : ℝ} (hc : 0 < c) {f : Fin n → ℝ} (hf : ∀ k, 0 < f k)
    (hS : ∃ k, S k) : ∃ m : Fin n,
      npArgmax (List.ofFn fun k => F.fin ((if S k then c else 0) * f k)) = .ok (m : ℕ) ∧ FirstBest S f m := by
  obtain ⟨k0, hk0⟩ := hS
  have e : (List.ofFn fun k => F.fin ((if S k then c else 0) * f k)) =
      (List.ofFn fun k => (if S k then c else 0) * f k).map F.fin := by
    rw [List.map_ofFn]; rfl
  rw [e]
  obtain ⟨m, hm, hm'⟩ := npArgmax_spec (l := (List.ofFn fun k => (if S k then c else 0) * f k).map F.fin) (by
    intro h0
    rw [List.map_eq_nil_iff, List.ofFn_eq_nil_iff] at h0
    have := k0.2
    omega)
  rw [isArgmax_fin] at hm'
  obtain ⟨hm0, h1, h2⟩ := hm'
  have hmn : m < n := by simpa using hm0
  have H1 : ∀ k : Fin n, (if S k then c else 0) * f k ≤ (if S ⟨m, hmn⟩ then c else 0) * f ⟨m, hmn⟩ := by
    intro k
    have := h2 k (by simp)
    simpa using this
  have H2 : ∀ k : Fin n, k < ⟨m, hmn⟩ →
      (if S k then c else 0) * f k < (if S ⟨m, hmn⟩ then c else 0) * f ⟨m, hmn⟩ := by
    intro k hk
    have := h1 k hk
    simpa using this
  have hSm : S ⟨m, hmn⟩ := by
    by_contra hcon
    have := H1 k0
    rw [if_pos hk0, if_neg hcon, zero_mul] at this
    exact absurd this (not_le.2 (mul_pos hc (hf k0)))
  refine ⟨⟨m, hmn⟩, hm, hSm, fun k hk => ?_, fun k hk hkm => ?_⟩
  · have := H1 k
    rw [if_pos hk, if_pos hSm] at this
    exact (mul_le_mul_iff_right₀ hc).1 this
  · have := H2 k hkm
    rw [if_pos hk, if_pos hSm] at this
    exact (mul_lt_mul_iff_right₀ hc).1 this

/-- `normVal` is the normal density. -/
theorem normVal_eq {s : ℝ} (hs : 0 < s) (m x : ℝ) :
    normVal m s x = ProbabilityTheory.gaussianPDFReal m ⟨s ^ 2, by positivity⟩ x := by
  unfold normVal ProbabilityTheory.gaussianPDFReal
  have h1 : Real.sqrt (2 * Real.pi * s ^ 2) = s * Real.sqrt (2 * Real.pi) := by
    rw [Real.sqrt_mul (by positivity), Real.sqrt_sq hs.le, mul_comm]
  show _ = (Real.sqrt (2 * Real.pi * s ^ 2))⁻¹ * Real.exp (-(x - m) ^ 2 / (2 * s ^ 2))
  rw [h1, div_eq_inv_mul]
  congr 2
  field_simp

/-- The domain as an array. -/
def domArr (a b : ℝ) : Arr2 := ⟨1, 2, .of fun _ k => ![a, b] k⟩

/-- Lies in the domain. -/
def Inside {n : ℕ} (lam : Fin n → ℝ) (a b : ℝ) (k : Fin n) : Prop := a ≤ lam k ∧ lam k ≤ b

open Classical in
theorem densAt_uniform1 {a b : ℝ} (hab : a < b) {n : ℕ} (lam : Fin n → ℝ) :
    densAt (uniformOn (domArr a b)) (Arr2.col lam) =
      .ok (List.ofFn fun k => .fin (if Inside lam a b k then 1 / (b - a) else 0)) := by
  unfold domArr Arr2.col
  rw [densAt_uniformOn _ _ (by intro j; simpa using hab.le)]
  congr 2
  funext k
  rw [Fin.prod_univ_one]
  show uniformPdf a b (lam k) = _
  unfold uniformPdf
  rw [if_pos (by linarith)]
  by_cases h : Inside lam a b k
  · rw [if_pos h, if_pos (show a ≤ lam k ∧ lam k ≤ b from h)]
  · rw [if_neg h, if_neg (show ¬ (a ≤ lam k ∧ lam k ≤ b) from h)]

theorem compBayes_run {n N : ℕ} (lam qv : Fin n → ℝ) (dat : Fin N → ℝ) {sigma : ℝ} (hs : 0 < sigma) (a b : ℝ) :
    ∃ P : BP, BP.new (.mat (Arr2.col lam)) (.mat (Arr2.col qv)) (some (.vec 2 ![a, b])) = .ok P ∧
      P.X = Arr2.col lam ∧ P.y = Arr2.col qv ∧ P.domain = domArr a b ∧ P.pr = none ∧
      compBayes (Arr2.col lam) (Arr2.col qv) (List.ofFn dat) sigma a b = (do
        let r ← runM BPD.mapPoint { core := { P with log := false
                                                     ll := some (List.ofFn fun k => .fin (∏ i, normVal (dat i) sigma (qv k)))
                                                     ps := none }
                                    llDist := some (normDists (List.ofFn dat) sigma) }
        return r.2) := by
  refine ⟨{ X := Arr2.col lam, y := Arr2.col qv, domain := domArr a b }, rfl, rfl, rfl, rfl, rfl, ?_⟩
  unfold compBayes
  rw [show BP.new (.mat (Arr2.col lam)) (.mat (Arr2.col qv)) (some (.vec 2 ![a, b])) =
    .ok { X := Arr2.col lam, y := Arr2.col qv, domain := domArr a b } from rfl, Py.ok_bind,
    likelihood_run (densAt_normDists hs dat qv)]
  rfl

open Classical in
/-- What one pass has to yield for samples `lam`, outputs `qv` and data `dat`; `ρ` is the predicted
density. -/
structure CompOk (env : Env) {n N : ℕ} (lam qv : Fin n → ℝ) (dat : Fin N → ℝ) (sigma a b : ℝ)
    (ρ : (Fin 1 → ℝ) → ℝ) (o : CompOut) : Prop where
  /-- the predicted density is the kernel density estimate of the outputs -/
  density : IsKernelEstimate 0 (fun k (_ : Fin 1) => qv k) (fun _ : Fin n => 1) ρ
  /-- the MUD point: the sample of the domain with the largest ratio of observed to predicted density -/
  mud : ∃ m, FirstBest (Inside lam a b) (fun k => normVal (meanOf dat) sigma (qv k) / ρ fun _ => qv k) m ∧
    (DPD.mudPoint env o.d).1 = .ok [lam m]
  /-- the MAP point: the sample of the domain with output nearest to the mean of the data -/
  map : ∃ m, FirstBest (Inside lam a b) (fun k => -|qv k - meanOf dat|) m ∧
    (BPD.mapPoint o.b).1 = .ok [lam m]
  /-- the first figure: initial, updated and posterior density -/
  param : o.param = [.curve "initial" (.ofDist (uniformOn (domArr a b))),
    .curve "update" (.ofKde (Arr2.col lam) 0
      (some (List.ofFn fun k => .fin (normVal (meanOf dat) sigma (qv k) / ρ fun _ => qv k)))),
    .curve "posterior" (.ofKde (Arr2.col lam) 0
      (some (List.ofFn fun k => .fin ((if Inside lam a b k then 1 / (b - a) else 0) *
        ∏ i, normVal (dat i) sigma (qv k)))))]
  /-- the second figure: observed and predicted density, and the two push-forwards -/
  obs : o.obs = [.curve "observed" (.ofDist (normDist (.fin (meanOf dat)) sigma)),
    .curve "predicted" (.ofKde (Arr2.col qv) 0 (some (List.replicate n (.fin 1)))),
    .curve "push-forward" (.ofKde (Arr2.col qv) 0
      (some (List.ofFn fun k => .fin (normVal (meanOf dat) sigma (qv k) / ρ fun _ => qv k)))),
    .curve "push-forward" (.ofKde (Arr2.col qv) 0
      (some (List.ofFn fun k => .fin ((if Inside lam a b k then 1 / (b - a) else 0) *
        ∏ i, normVal (dat i) sigma (qv k)))))]

theorem rowAt_col {n : ℕ} (lam : Fin n → ℝ) (m : Fin n) : (Arr2.col lam).rowAt m = .ok [lam m] := by
  unfold Arr2.rowAt
  rw [dif_pos (show (m : ℕ) < (Arr2.col lam).r from m.2)]
  rfl

theorem compPass_of {lam q : Arr2} {data : List ℝ} {sigma a b : ℝ} {domInt : Bool} {S S' : DPD} {T T' : BPD}
    {I1 I2 : List Item} (hD : compDensity env lam q data sigma a b domInt = .ok S)
    (hB : compBayes lam q data sigma a b = .ok T) (hp : comparisonParam env pe S T = .ok (I1, S', T'))
    (ho : comparisonObs pe S' T' = .ok I2) :
    compPass env pe lam q data sigma a b domInt = .ok ⟨S', T', I1, I2⟩ := by
  unfold compPass
  rw [hD, Py.ok_bind, hB, Py.ok_bind, hp, Py.ok_bind]
  show (do let o ← comparisonObs pe S' T'; _) = _
  rw [ho]
  rfl

theorem density_part {n : ℕ} (lam qv : Fin n → ℝ) (a b : ℝ) (domInt : Bool) (hne : ∃ i j, qv i ≠ qv j) :
    ∃ (P : DP) (ρ : (Fin 1 → ℝ) → ℝ),
      DP.new (.mat (Arr2.col lam)) (.mat (Arr2.col qv)) (some (.vec 2 ![a, b])) none false (1 / 10) false
        domInt = .ok P ∧ P.X = Arr2.col lam ∧ P.y = Arr2.col qv ∧ P.domain = domArr a b ∧
      P.weights = List.ofFn (fun _ : Fin n => F.fin 1) ∧ P.init = none ∧ P.up = none ∧ P.domInt = domInt ∧
      IsKernelEstimate 0 (fun k (_ : Fin 1) => qv k) (fun _ : Fin n => 1) ρ ∧ (scipyEnv user).kde P.y 0 P.weights =
        .ok (List.ofFn fun k : Fin n => F.fin (ρ fun _ => qv k)) := by
  classical
  have hn : 2 ≤ n := by
    obtain ⟨i, j, hij⟩ := hne
    have : i ≠ j := fun h => hij (by rw [h])
    have h1 := i.2
    have h2 := j.2
    have h3 : (i : ℕ) ≠ j := fun h => this (Fin.ext h)
    omega
  -- the problems
  obtain ⟨P, hP, hPX, hPy, hPd, hPw, hPi, hPu, hPI⟩ : ∃ P : DP,
      DP.new (.mat (Arr2.col lam)) (.mat (Arr2.col qv)) (some (.vec 2 ![a, b])) none false (1 / 10) false
        domInt = .ok P ∧ P.X = Arr2.col lam ∧ P.y = Arr2.col qv ∧ P.domain = domArr a b ∧
      P.weights = List.ofFn (fun _ : Fin n => F.fin 1) ∧ P.init = none ∧ P.up = none ∧ P.domInt = domInt := by
    refine ⟨{ X := Arr2.col lam, y := Arr2.col qv, domain := domArr a b, domInt := domInt,
              weights := List.ofFn (fun _ : Fin n => F.fin 1) }, ?_, rfl, rfl, rfl, rfl, rfl, rfl, rfl⟩
    rw [List.ofFn_const]
    rfl
  -- the predicted density
  have hW : ∑ _l : Fin n, (1 : ℝ) = n := by simp
  have hn0 : (0 : ℝ) < n := by positivity
  have h2 : ∑ i : Fin n, ((1 : ℝ) / n) ^ 2 < 1 := by
    rw [Finset.sum_const, Finset.card_univ, Fintype.card_fin, nsmul_eq_mul]
    have : (n : ℝ) * (1 / n) ^ 2 = 1 / n := by field_simp
    rw [this, div_lt_one hn0]
    exact_mod_cast hn
  have hkde : (DP.setPredicted (scipyEnv user) none 0 none P).1 = .ok () := by
    refine (setPredicted_returns_iff (d := 1) (w := fun _ => 1) hPy hPw 0).2 ⟨by omega, ?_, ?_, ?_, ?_⟩
    · rw [hW]; exact hn0.ne'
    · intro i; rw [hW]; positivity
    · rw [hW]; exact h2
    · rw [hW]
      refine kdeCov_posDef _ (fun i => by positivity) h2 ?_
      rintro u ⟨c, hc⟩
      obtain ⟨i, j, hij⟩ := hne
      have hi := hc i
      have hj := hc j
      simp only [dotProduct, Fin.sum_univ_one, of_apply] at hi hj
      have h0 : u 0 * (qv i - qv j) = 0 := by linarith
      ext l
      fin_cases l
      exact (mul_eq_zero.1 h0).resolve_right (sub_ne_zero.2 hij)
  obtain ⟨v, hv⟩ := (setPredicted_kde_iff 0).1 hkde
  have hv' : gaussianKde user P.y 0 P.weights = .ok v := hv
  rw [hPy, hPw] at hv'
  obtain ⟨ρ, hρ, hvρ⟩ := kde_density' (w := fun _ => 1) (by norm_num) hv'
  have hvρ' : v = List.ofFn fun k : Fin n => F.fin (ρ fun _ => qv k) := hvρ
  rw [hvρ'] at hv
  exact ⟨P, ρ, hP, hPX, hPy, hPd, hPw, hPi, hPu, hPI, hρ, hv⟩

/-- **C108**, one pass. -/
theorem C108_pass (hpe : ∀ src c R i a, pe.draw src c R i a = .ok ()) {n N : ℕ} (hN : 1 ≤ N)
    (lam qv : Fin n → ℝ) (dat : Fin N → ℝ) {sigma : ℝ} (hs : 0 < sigma) {a b : ℝ} (hab : a < b)
    (domInt : Bool) (hin : ∃ k, Inside lam a b k) (hne : ∃ i j, qv i ≠ qv j) :
    ∃ o ρ, compPass (scipyEnv user) pe (Arr2.col lam) (Arr2.col qv) (List.ofFn dat) sigma a b domInt = .ok o ∧
      CompOk (scipyEnv user) lam qv dat sigma a b ρ o := by
  classical
  have hc : (0 : ℝ) < 1 / (b - a) := one_div_pos.2 (by linarith)
  obtain ⟨P, ρ, hP, hPX, hPy, hPd, hPw, hPi, hPu, hPI, hρ, hv⟩ := density_part (user := user) lam qv a b domInt hne
  obtain ⟨Q, hQ, hQX, hQy, hQd, hQp, hQrun⟩ := compBayes_run lam qv dat hs a b
  set sc : Fin n → ℝ := fun k => normVal (meanOf dat) sigma (qv k) / ρ fun _ => qv k with hsc
  set pv : Fin n → ℝ := fun k => ∏ i, normVal (dat i) sigma (qv k) with hpv
  have hscpos : ∀ k, 0 < sc k := fun k => div_pos (normVal_pos hs _ _) (hρ.pos _)
  have hpvpos : ∀ k, 0 < pv k := fun k => Finset.prod_pos fun i _ => normVal_pos hs _ _
  obtain ⟨m, hm, hmb⟩ := first_best hc hscpos hin
  obtain ⟨m', hm', hmb'⟩ := first_best hc hpvpos hin
  -- the runs
  have hI : densAt (uniformOn P.domain) P.X = .ok (List.ofFn fun k => .fin (if Inside lam a b k then 1 / (b - a) else 0)) := by
    rw [hPd, hPX, densAt_uniform1 hab]
  have hO : densAt (normDist (.fin (meanOf dat)) sigma) P.y = .ok (List.ofFn fun k => .fin (normVal (meanOf dat) sigma (qv k))) := by
    rw [hPy, densAt_normDist hs]
  have hr : bzip1 (· / ·) (List.ofFn fun k => F.fin (normVal (meanOf dat) sigma (qv k)))
      (List.ofFn fun k : Fin n => F.fin (ρ fun _ => qv k)) = .ok (List.ofFn fun k => .fin (sc k)) := by
    rw [bzip1_ofFn]
    congr 2
    funext k
    exact F.fin_div_of_ne _ (hρ.pos _).ne'
  have hiw : bzip1 (· * ·) (List.ofFn fun k => F.fin (if Inside lam a b k then 1 / (b - a) else 0)) P.weights =
      .ok (List.ofFn fun k => F.fin (if Inside lam a b k then 1 / (b - a) else 0)) := by
    rw [hPw, bzip1_ofFn]
    congr 2
    funext k
    show F.fin (_ * 1) = _
    rw [mul_one]
  have hu : bzip1 (· * ·) (List.ofFn fun k => F.fin (if Inside lam a b k then 1 / (b - a) else 0))
      (List.ofFn fun k => F.fin (sc k)) =
      .ok (List.ofFn fun k => F.fin ((if Inside lam a b k then 1 / (b - a) else 0) * sc k)) := by
    rw [bzip1_ofFn]; rfl
  have hrw : bzip1 (· * ·) (List.ofFn fun k => F.fin (sc k)) P.weights = .ok (List.ofFn fun k => F.fin (sc k)) := by
    rw [hPw, bzip1_ofFn]
    congr 2
    funext k
    show F.fin (_ * 1) = _
    rw [mul_one]
  have hpt : P.X.rowAt m = .ok [lam m] := by rw [hPX, rowAt_col]
  obtain ⟨r1, r2⟩ := density_fit_run hPi hPu hI hO hv hr hiw hu hm hpt
  have hD : compDensity (scipyEnv user) (Arr2.col lam) (Arr2.col qv) (List.ofFn dat) sigma a b domInt =
      .ok (fittedDPD P (normDist (.fin (meanOf dat)) sigma)
        (List.ofFn fun k => F.fin (if Inside lam a b k then 1 / (b - a) else 0))
        (List.ofFn fun k => F.fin (normVal (meanOf dat) sigma (qv k)))
        (List.ofFn fun k : Fin n => F.fin (ρ fun _ => qv k)) (List.ofFn fun k => F.fin (sc k))
        (List.ofFn fun k => F.fin ((if Inside lam a b k then 1 / (b - a) else 0) * sc k))) := by
    unfold compDensity
    rw [hP, Py.ok_bind, listMean_ofFn hN, r1, Py.ok_bind]
    unfold runM
    rw [r2]
    rfl
  have hI' : densAt (uniformOn Q.domain) Q.X = .ok (List.ofFn fun k => .fin (if Inside lam a b k then 1 / (b - a) else 0)) := by
    rw [hQd, hQX, densAt_uniform1 hab]
  have hps : bzip1 (· * ·) (List.ofFn fun k => F.fin (if Inside lam a b k then 1 / (b - a) else 0))
      (List.ofFn fun k => F.fin (pv k)) =
      .ok (List.ofFn fun k => F.fin ((if Inside lam a b k then 1 / (b - a) else 0) * pv k)) := by
    rw [bzip1_ofFn]; rfl
  have hsum : (List.ofFn fun k => F.fin ((if Inside lam a b k then 1 / (b - a) else 0) * pv k)).sum ≠ .fin 0 := by
    rw [List.sum_ofFn, F.sum_fin]
    intro h0
    injection h0 with h0
    obtain ⟨k0, hk0⟩ := hin
    have hnn : ∀ k ∈ Finset.univ, 0 ≤ (if Inside lam a b k then 1 / (b - a) else 0) * pv k := fun k _ =>
      mul_nonneg (by split_ifs; exacts [hc.le, le_rfl]) (hpvpos k).le
    have := (Finset.sum_eq_zero_iff_of_nonneg hnn).1 h0 k0 (Finset.mem_univ _)
    rw [if_pos hk0] at this
    exact absurd this (mul_pos hc (hpvpos k0)).ne'
  have hpt' : Q.X.rowAt m' = .ok [lam m'] := by rw [hQX, rowAt_col]
  have hB : compBayes (Arr2.col lam) (Arr2.col qv) (List.ofFn dat) sigma a b =
      .ok (fittedBPD Q (normDists (List.ofFn dat) sigma)
        (List.ofFn fun k => F.fin (if Inside lam a b k then 1 / (b - a) else 0))
        (List.ofFn fun k => F.fin (pv k))
        (List.ofFn fun k => F.fin ((if Inside lam a b k then 1 / (b - a) else 0) * pv k))) := by
    rw [hQrun]
    unfold runM
    rw [bayes_fit_run hQp hI' hps (by rw [hQX]; simp [Arr2.col]) hsum hm' hpt']
    rfl
  -- the figures
  obtain ⟨D, hDm⟩ : ∃ D, fitDomain none (some P.domain) (5 / 100) P.domInt = .ok D := by
    rw [hPd]
    exact ⟨_, rfl⟩
  have hp1 := comparisonParam_run (env := scipyEnv user) hpe (d := normDist (.fin (meanOf dat)) sigma)
    (I := List.ofFn fun k => F.fin (if Inside lam a b k then 1 / (b - a) else 0))
    (O := List.ofFn fun k => .fin (normVal (meanOf dat) sigma (qv k)))
    (K := List.ofFn fun k : Fin n => F.fin (ρ fun _ => qv k))
    (u := List.ofFn fun k => F.fin ((if Inside lam a b k then 1 / (b - a) else 0) * sc k))
    (dl := normDists (List.ofFn dat) sigma)
    (I' := List.ofFn fun k => F.fin (if Inside lam a b k then 1 / (b - a) else 0))
    (L := List.ofFn fun k => F.fin (pv k)) hDm hrw hm' hpt'
  have hp2 := comparisonObs_run (D := D) hpe (d := normDist (.fin (meanOf dat)) sigma)
    (I := List.ofFn fun k => F.fin (if Inside lam a b k then 1 / (b - a) else 0))
    (O := List.ofFn fun k => .fin (normVal (meanOf dat) sigma (qv k)))
    (K := List.ofFn fun k : Fin n => F.fin (ρ fun _ => qv k))
    (u := List.ofFn fun k => F.fin ((if Inside lam a b k then 1 / (b - a) else 0) * sc k))
    (dl := normDists (List.ofFn dat) sigma)
    (I' := List.ofFn fun k => F.fin (if Inside lam a b k then 1 / (b - a) else 0))
    (L := List.ofFn fun k => F.fin (pv k)) (Q := Q)
    (ps := List.ofFn fun k => F.fin ((if Inside lam a b k then 1 / (b - a) else 0) * pv k))
    (by rw [hPy]; rfl) hrw
  have hfin := compPass_of hD hB hp1 hp2
  refine ⟨_, ρ, hfin, hρ, ⟨m, hmb, ?_⟩, ⟨m', ⟨hmb'.mem, fun k hk => ?_, fun k hk hkm => ?_⟩, ?_⟩, ?_, ?_⟩
  · rw [mudPoint_cached hm hpt]
  · exact neg_le_neg ((prod_normVal_le hs hN dat _ _).1 (hmb'.best k hk))
  · by_contra hcon
    have := hmb'.first k hk hkm
    exact absurd ((prod_normVal_le hs hN dat _ _).2 (by linarith)) (not_le.2 this)
  · rw [mapPoint_cached hm' hpt']
  · simp only [hPX, hPd, hQX]
    rfl
  · simp only [hPy, hQy, hPw, List.ofFn_const]
    rfl

/-- No sample in the domain: the Bayes problem raises. -/
theorem C108_outside {n N : ℕ} (hN : 1 ≤ N) (lam qv : Fin n → ℝ) (dat : Fin N → ℝ) {sigma : ℝ}
    (hs : 0 < sigma) {a b : ℝ} (hab : a < b) (domInt : Bool) (hout : ∀ k, ¬ Inside lam a b k)
    (hne : ∃ i j, qv i ≠ qv j) :
    compPass (scipyEnv user) pe (Arr2.col lam) (Arr2.col qv) (List.ofFn dat) sigma a b domInt =
      .error .valueError := by
  classical
  obtain ⟨P, ρ, hP, hPX, hPy, hPd, hPw, hPi, hPu, hPI, hρ, hv⟩ :=
    density_part (user := user) lam qv a b domInt hne
  obtain ⟨Q, hQ, hQX, hQy, hQd, hQp, hQrun⟩ := compBayes_run lam qv dat hs a b
  have hI : densAt (uniformOn P.domain) P.X = .ok (List.ofFn fun k =>
      .fin (if Inside lam a b k then 1 / (b - a) else 0)) := by
    rw [hPd, hPX, densAt_uniform1 hab]
  have hO : densAt (normDist (.fin (meanOf dat)) sigma) P.y =
      .ok (List.ofFn fun k => .fin (normVal (meanOf dat) sigma (qv k))) := by
    rw [hPy, densAt_normDist hs]
  have hr := bzip1_ofFn (· / ·) (fun k => F.fin (normVal (meanOf dat) sigma (qv k)))
    (fun k : Fin n => F.fin (ρ fun _ => qv k))
  have hiw := bzip1_ofFn (· * ·) (fun k => F.fin (if Inside lam a b k then 1 / (b - a) else 0))
    (fun _ : Fin n => F.fin 1)
  rw [← hPw] at hiw
  have hu := bzip1_ofFn (· * ·) (fun k => F.fin (if Inside lam a b k then 1 / (b - a) else 0) * F.fin 1)
    (fun k => F.fin (normVal (meanOf dat) sigma (qv k)) / F.fin (ρ fun _ => qv k))
  have hn : 0 < n := by
    obtain ⟨i, -⟩ := hne
    exact lt_of_le_of_lt (Nat.zero_le _) i.2
  obtain ⟨m, hm, hm'⟩ := npArgmax_spec (l := List.ofFn fun k =>
      F.fin (if Inside lam a b k then 1 / (b - a) else 0) * F.fin 1 *
      (F.fin (normVal (meanOf dat) sigma (qv k)) / F.fin (ρ fun _ => qv k)))
    (by rw [ne_eq, List.ofFn_eq_nil_iff]; omega)
  obtain ⟨hml, -⟩ := hm'
  have hmn : m < n := by simpa using hml
  have hpt : P.X.rowAt m = .ok [lam ⟨m, hmn⟩] := by
    rw [hPX]; exact rowAt_col lam ⟨m, hmn⟩
  obtain ⟨r1, r2⟩ := density_fit_run hPi hPu hI hO hv hr hiw hu hm hpt
  have hD : ∃ S, compDensity (scipyEnv user) (Arr2.col lam) (Arr2.col qv) (List.ofFn dat) sigma a b domInt =
      .ok S := by
    unfold compDensity
    rw [hP, Py.ok_bind, listMean_ofFn hN, r1, Py.ok_bind]
    unfold runM
    rw [r2]
    exact ⟨_, rfl⟩
  obtain ⟨S, hD⟩ := hD
  have hI' : densAt (uniformOn Q.domain) Q.X = .ok (List.ofFn fun k =>
      .fin (if Inside lam a b k then 1 / (b - a) else 0)) := by
    rw [hQd, hQX, densAt_uniform1 hab]
  have hps := bzip1_ofFn (· * ·) (fun k => F.fin (if Inside lam a b k then 1 / (b - a) else 0))
      (fun k => F.fin (∏ i, normVal (dat i) sigma (qv k)))
  have hB : compBayes (Arr2.col lam) (Arr2.col qv) (List.ofFn dat) sigma a b = .error .valueError := by
    rw [hQrun, bayes_fit_err hQp hI' hps (by rw [hQX]; simp [Arr2.col])]
    · rfl
    · rw [List.sum_ofFn]
      have : ∀ k, F.fin (if Inside lam a b k then 1 / (b - a) else 0) *
          F.fin (∏ i, normVal (dat i) sigma (qv k)) = F.fin 0 := by
        intro k
        rw [if_neg (hout k)]
        show F.fin (0 * _) = _
        rw [zero_mul]
      simp only [this]
      rw [F.sum_fin]
      simp
  unfold compPass
  rw [hD, Py.ok_bind, hB]
  rfl

/-! ## The loop -/

/-- The samples of a pass that starts in state `s`: uniform on [0, 1]. -/
noncomputable def compLam (G : Gen σ) (n : ℕ) (s : σ) : Fin n → ℝ := polyLam G (Frozen.uniform G 0 1) n s

/-- Its data. -/
noncomputable def compDat (G : Gen σ) (n : ℕ) (mu sigma : ℝ) (N : ℕ) (s : σ) : Fin N → ℝ :=
  polyDat G (Frozen.uniform G 0 1) n mu sigma N s

/-- The state of the generator after it. -/
noncomputable def compNext (G : Gen σ) (n N : ℕ) (s : σ) : σ :=
  if N = 1 then stateAfter ((Frozen.uniform G 0 1).stream G) s n
  else stateAfter G.normal (stateAfter ((Frozen.uniform G 0 1).stream G) s n) N

/-- Every pass has data, a sample in the domain and two different outputs. -/
def CompGood (G : Gen σ) (p n : ℕ) (a b : ℝ) : List ℕ → σ → Prop
  | [], _ => True
  | N :: Ns, s => 1 ≤ N ∧ (∃ k, Inside (compLam G n s) a b k) ∧
      (∃ i j, compLam G n s i ^ p ≠ compLam G n s j ^ p) ∧ CompGood G p n a b Ns (compNext G n N s)

/-- What the loop has to return: one result for each number of data, in this order. -/
def CompAll (env : Env) (G : Gen σ) (p n : ℕ) (mu sigma a b : ℝ) : List ℕ → σ → List CompOut → Prop
  | [], _, os => os = []
  | N :: Ns, s, os => ∃ o ρ os', os = o :: os' ∧
      CompOk env (compLam G n s) (fun k => compLam G n s k ^ p) (compDat G n mu sigma N s) sigma a b ρ o ∧
      CompAll env G p n mu sigma a b Ns (compNext G n N s) os'

theorem polynomial_run (G : Gen σ) (p n : ℕ) (mu sigma : ℝ) (N : ℕ) (s : σ) :
    polynomial1DData G (Frozen.uniform G 0 1) p n mu sigma N s =
      (.ok (Arr2.col (compLam G n s), Arr2.col (fun k => compLam G n s k ^ p),
        List.ofFn (compDat G n mu sigma N s)), compNext G n N s) := by
  refine Prod.ext (C89_exact G _ p n mu sigma N s) ?_
  unfold polynomial1DData
  rw [take_bind_run]
  unfold polynomialObs compNext
  by_cases hN : N = 1
  · rw [if_pos hN, if_pos hN]
    rfl
  · rw [if_neg hN, if_neg hN, PyM.bind_run, take_bind_run]
    rfl

/-- **C108.** `run_comparison_example` returns and yields for every number of data the MUD and MAP
points and the two figures that its docstring describes, for samples uniform on [0, 1]. -/
theorem C108_exact (hpe : ∀ src c R i a, pe.draw src c R i a = .ok ()) (G : Gen σ) (p n : ℕ) (mu : ℝ)
    {sigma : ℝ} (hs : 0 < sigma) {a b : ℝ} (hab : a < b) (domInt : Bool) (Ns : List ℕ) (s : σ)
    (hg : CompGood G p n a b Ns s) :
    ∃ os, (runComparison (scipyEnv user) pe G p n mu sigma a b domInt Ns s).1 = .ok os ∧
      CompAll (scipyEnv user) G p n mu sigma a b Ns s os := by
  induction Ns generalizing s with
  | nil => exact ⟨[], rfl, rfl⟩
  | cons N Ns ih =>
    obtain ⟨hN, hin, hne, hg⟩ := hg
    obtain ⟨os, hos, hall⟩ := ih _ hg
    obtain ⟨o, ρ, ho, hok⟩ := C108_pass (user := user) hpe hN (compLam G n s) (fun k => compLam G n s k ^ p)
      (compDat G n mu sigma N s) hs hab domInt hin hne
    refine ⟨o :: os, ?_, o, ρ, os, rfl, hok, hall⟩
    unfold runComparison
    rw [PyM.bind_run, polynomial_run]
    simp only
    rw [ho, PyM.lift_ok_bind, PyM.bind_run]
    rcases hz : runComparison (scipyEnv user) pe G p n mu sigma a b domInt Ns (compNext G n N s) with ⟨z1, z2⟩
    rw [hz] at hos
    change z1 = _ at hos
    subst hos
    rfl

theorem compLam_mem (G : Gen σ) (hu : ∀ t, 0 ≤ (G.unif t).1 ∧ (G.unif t).1 ≤ 1) (n : ℕ) (s : σ) (k : Fin n) :
    0 ≤ compLam G n s k ∧ compLam G n s k ≤ 1 := by
  have : ∃ t, compLam G n s k = 0 + (1 - 0) * (G.unif t).1 :=
    ⟨stateAfter ((Frozen.uniform G 0 1).stream G) s k, rfl⟩
  obtain ⟨t, ht⟩ := this
  rw [ht]
  have := hu t
  constructor <;> linarith [this.1, this.2]

/-- **C108** for a domain that contains [0, 1], such as the default [-1, 1], and a power `p ≥ 1`: it is
enough that the generator does not draw the same number `n` times in a row. -/
theorem C108_unit_partial (hpe : ∀ src c R i a, pe.draw src c R i a = .ok ()) (G : Gen σ)
    (hu : ∀ t, 0 ≤ (G.unif t).1 ∧ (G.unif t).1 ≤ 1) {p n : ℕ} (hp : 1 ≤ p)
    (hd : ∀ s, ∃ i j, compLam G n s i ≠ compLam G n s j) (mu : ℝ) {sigma : ℝ} (hs : 0 < sigma) {a b : ℝ}
    (ha : a ≤ 0) (hb : 1 ≤ b) (domInt : Bool) (Ns : List ℕ) (hNs : ∀ N ∈ Ns, 1 ≤ N) (s : σ) :
    ∃ os, (runComparison (scipyEnv user) pe G p n mu sigma a b domInt Ns s).1 = .ok os ∧
      CompAll (scipyEnv user) G p n mu sigma a b Ns s os := by
  refine C108_exact hpe G p n mu hs (by linarith) domInt Ns s ?_
  induction Ns generalizing s with
  | nil => trivial
  | cons N Ns ih =>
    refine ⟨hNs N (by simp), ?_, ?_, ih (fun M hM => hNs M (by simp [hM])) _⟩
    · obtain ⟨i, -⟩ := hd s
      have := compLam_mem G hu n s i
      exact ⟨i, by linarith [this.1], by linarith [this.2]⟩
    · obtain ⟨i, j, hij⟩ := hd s
      refine ⟨i, j, fun h => hij ?_⟩
      exact (pow_left_inj₀ (compLam_mem G hu n s i).1 (compLam_mem G hu n s j).1 (by omega)).1 h

/-- **C108 as documented**: any proper domain can be given, the samples are drawn from it. -/
def C108_claim : Prop := ∀ (user : ℕ → ℝ → ℕ → ℝ) (pe : PlotEnv) (σ : Type) (G : Gen σ) (p n : ℕ)
  (mu sigma a b : ℝ) (s : σ), (∀ src c R i a, pe.draw src c R i a = .ok ()) →
  (∀ t, 0 ≤ (G.unif t).1 ∧ (G.unif t).1 ≤ 1) → (∀ s, ∃ i j, compLam G n s i ≠ compLam G n s j) →
  1 ≤ p → 0 < sigma → a < b →
  ∃ os, (runComparison (scipyEnv user) pe G p n mu sigma a b false [1] s).1 = .ok os

/-- A generator: uniform draws 1, 1/2, 1/3, …, normal draws 1. -/
noncomputable def compGen : Gen ℕ := ⟨⟨id, fun s => (1, s + 1)⟩, fun s => (1 / ((s : ℝ) + 1), s + 1)⟩

theorem compGen_unif (t : ℕ) : 0 ≤ (compGen.unif t).1 ∧ (compGen.unif t).1 ≤ 1 := by
  show 0 ≤ 1 / ((t : ℝ) + 1) ∧ 1 / ((t : ℝ) + 1) ≤ 1
  have : (0 : ℝ) ≤ t := Nat.cast_nonneg t
  exact ⟨by positivity, by rw [div_le_one (by linarith)]; linarith⟩

theorem compGen_differ (s : ℕ) : ∃ i j, compLam compGen 2 s i ≠ compLam compGen 2 s j := by
  refine ⟨0, 1, ?_⟩
  show 0 + (1 - 0) * (1 / ((s : ℝ) + 1)) ≠ 0 + (1 - 0) * (1 / (((s + 1 : ℕ) : ℝ) + 1))
  have : (0 : ℝ) ≤ s := Nat.cast_nonneg s
  push_cast
  intro h
  have h1 : (s : ℝ) + 1 ≠ 0 := by linarith
  have h2 : (s : ℝ) + 1 + 1 ≠ 0 := by linarith
  field_simp at h
  linarith

theorem C108_claim_refuted : ¬ C108_claim := by
  intro h
  obtain ⟨os, hos⟩ := h (fun _ _ _ => 0) ⟨fun _ _ _ _ _ => .ok (), fun _ => true⟩ ℕ compGen 1 2 0 1 2 3 0
    (fun _ _ _ _ _ => rfl) compGen_unif compGen_differ le_rfl one_pos (by norm_num)
  unfold runComparison at hos
  rw [PyM.bind_run, polynomial_run] at hos
  simp only at hos
  rw [C108_outside le_rfl (compLam compGen 2 0) (fun k => compLam compGen 2 0 k ^ 1) (compDat compGen 2 0 1 1 0)
    one_pos (by norm_num) false (fun k hk => by
      have h1 := (compLam_mem compGen compGen_unif 2 0 k).2
      have h2 := hk.1
      linarith) (by
      obtain ⟨i, j, hij⟩ := compGen_differ 0
      exact ⟨i, j, by simpa using hij⟩)] at hos
  exact absurd hos (by
    intro h0
    cases h0)

/-- The hypotheses of C108 are met, for the default domain and numbers of data. -/
example : ∃ os, (runComparison (scipyEnv user) ⟨fun _ _ _ _ _ => .ok (), fun _ => true⟩ compGen 5 2 (1 / 4)
      (1 / 10) (-1) 1 true [1, 5, 10, 20] 0).1 = .ok os ∧
    CompAll (scipyEnv user) compGen 5 2 (1 / 4) (1 / 10) (-1) 1 [1, 5, 10, 20] 0 os :=
  C108_unit_partial (fun _ _ _ _ _ => rfl) compGen compGen_unif (by norm_num) compGen_differ _ (by norm_num)
    (by norm_num) (by norm_num) true _ (by decide) 0

/-! ### Further cases meeting the hypotheses -/

/-- One pass: two samples, of which one is inside the range, with different values. -/
example (user : ℕ → ℝ → ℕ → ℝ) : ∃ o ρ, compPass (scipyEnv user) ⟨fun _ _ _ _ _ => .ok (), fun _ => true⟩ (Arr2.col ![0, 3])
      (Arr2.col ![0, 9]) (List.ofFn ![1, 2]) (1 / 10) (-1) 1 true = .ok o ∧
    CompOk (scipyEnv user) ![0, 3] ![0, 9] ![1, 2] (1 / 10) (-1) 1 ρ o :=
  C108_pass (fun _ _ _ _ _ => rfl) (by norm_num) _ _ _ (by norm_num) (by norm_num) true
    ⟨0, by norm_num [Inside]⟩ ⟨0, 1, by norm_num⟩

example : normVal 0 1 0 = (Real.sqrt (2 * Real.pi))⁻¹ := by
  refine (normVal_eq one_pos 0 0).trans ?_
  show (Real.sqrt (2 * Real.pi * 1 ^ 2))⁻¹ * Real.exp (-(0 - 0) ^ 2 / (2 * 1 ^ 2)) = _
  simp

end Verif
