import Verif.SpecDensity
import Verif.Lemmas.Argmax

/-!
# The `DensityProblem` object refines its settings
-/

namespace Verif

variable {env : Env} {D : DData}

/-- Cached arrays agree with the settings. -/
structure DRel (env : Env) (D : DData) (P : DP) (σ : SpecState) : Prop where
  X : P.X = D.X
  y : P.y = D.y
  dom : P.domain = D.domain
  w : P.weights = σ.cur.weights
  init0 : P.init = none → σ.cur.initial = none
  init1 : ∀ v, P.init = some v → σ.cur.initial.isSome ∧ σ.cur.ini D = .ok v
  pr0 : P.pr = none → σ.cur.predicted = none
  pr1 : ∀ v, P.pr = some v → σ.cur.predicted.isSome ∧ σ.cur.pred env D = .ok v
  ob0 : P.ob = none → σ.cur.observed = none
  ob1 : ∀ v, P.ob = some v → σ.cur.obs D = .ok v
  r0 : P.r = none → σ.ratioOf = none
  r1 : ∀ r, P.r = some r → ∃ s, σ.ratioOf = some s ∧ s.ratio env D = .ok r
  upr : P.up.isSome → P.r.isSome
  up0 : P.up = none → σ.fitted = none
  up1 : ∀ u, P.up = some u → ∃ s, σ.fitted = some s ∧ s.updated env D = .ok u

/-- Lock-step simulation. -/
def DSim {α : Type} (env : Env) (D : DData) (x : PyM DP α) (z : PyM SpecState α) : Prop :=
  ∀ P σ, DRel env D P σ → (x P).1 = (z σ).1 ∧ DRel env D (x P).2 (z σ).2

theorem DSim.bind {α β : Type} {x : PyM DP α} {z : PyM SpecState α} {f : α → PyM DP β}
    {g : α → PyM SpecState β} (h : DSim env D x z) (hf : ∀ a, DSim env D (f a) (g a)) :
    DSim env D (x >>= f) (z >>= g) := by
  intro P σ hr
  have := h P σ hr
  rw [PyM.bind_run, PyM.bind_run]
  rcases hx : x P with ⟨r, P'⟩
  rcases hz : z σ with ⟨r', σ'⟩
  rw [hx, hz] at this
  obtain ⟨h1, h2⟩ := this
  simp only at h1 h2
  subst h1
  cases r with
  | ok a => exact hf a P' σ' h2
  | error e => exact ⟨rfl, h2⟩

theorem DSim.pure {α : Type} (a : α) : DSim env D (Pure.pure a) (Pure.pure a) := fun _ _ h => ⟨rfl, h⟩

theorem sim_setWeights (w : Option NArr) (n : Bool) :
    DSim env D (DP.setWeights w n) (SpecState.setWeights D w n) := by
  intro P σ h
  unfold DP.setWeights SpecState.setWeights
  rw [PyM.get_bind_run, DP.n_samples, h.X, h.y, PyM.bind_run, PyM.bind_run, PyM.lift_run, PyM.lift_run]
  cases DP.weightsOf D.X.r D.y.r w n with
  | error e => exact ⟨rfl, h⟩
  | ok v =>
    refine ⟨rfl, ?_⟩
    exact {
      X := h.X, y := h.y, dom := h.dom, w := rfl
      init0 := h.init0, init1 := h.init1
      pr0 := fun _ => rfl, pr1 := fun _ h => by cases h
      ob0 := h.ob0, ob1 := h.ob1
      r0 := h.r0, r1 := h.r1, upr := fun h => by cases h
      up0 := fun _ => rfl, up1 := fun _ h => by cases h }

theorem sim_setObserved (d : Option Dist) :
    DSim env D (DP.setObserved d) (SpecState.setObserved D d) := by
  intro P σ h
  unfold DP.setObserved SpecState.setObserved
  simp only [PyM.get_bind_run, Settings.obs, densAt, h.y]
  rw [PyM.bind_run, PyM.bind_run, PyM.lift_run, PyM.lift_run]
  cases h1 : (d.getD stdNormal).pdf D.y with
  | error e => exact ⟨rfl, h⟩
  | ok o =>
    simp only [Py.ok_bind, PyM.bind_run, PyM.lift_run]
    cases h2 : o.prodRows with
    | error e => exact ⟨rfl, h⟩
    | ok v =>
      refine ⟨rfl, ?_⟩
      exact {
        X := h.X, y := h.y, dom := h.dom, w := h.w
        init0 := h.init0, init1 := h.init1
        pr0 := h.pr0, pr1 := h.pr1
        ob0 := fun h => by cases h
        ob1 := fun v' h' => by
          cases h'
          simp only [PyM.modify_run, Settings.obs, densAt, h1, Py.ok_bind, h2]
        r0 := h.r0, r1 := h.r1, upr := h.upr
        up0 := h.up0, up1 := h.up1 }

theorem sim_setInitial (d : Option Dist) :
    DSim env D (DP.setInitial d) (SpecState.setInitial D d) := by
  intro P σ h
  unfold DP.setInitial SpecState.setInitial
  simp only [PyM.get_bind_run, Settings.ini, densAt, h.X, h.dom, Option.getD_some]
  rw [PyM.bind_run, PyM.bind_run, PyM.lift_run, PyM.lift_run]
  cases h1 : (d.getD (uniformOn D.domain)).pdf D.X with
  | error e => exact ⟨rfl, h⟩
  | ok o =>
    simp only [Py.ok_bind, PyM.bind_run, PyM.lift_run]
    cases h2 : o.prodRows with
    | error e => exact ⟨rfl, h⟩
    | ok v =>
      refine ⟨rfl, ?_⟩
      exact {
        X := h.X, y := h.y, dom := h.dom, w := h.w
        init0 := fun h => by cases h
        init1 := fun v' h' => by
          cases h'
          refine ⟨rfl, ?_⟩
          simp only [PyM.modify_run, Settings.ini, densAt, Option.getD_some, h1, Py.ok_bind, h2]
        pr0 := fun _ => rfl, pr1 := fun _ h => by cases h
        ob0 := h.ob0, ob1 := h.ob1
        r0 := h.r0, r1 := h.r1, upr := fun h => by cases h
        up0 := fun _ => rfl, up1 := fun _ h => by cases h }

theorem sim_setPredicted (d : Option Dist) (bw : ℕ) (w : Option NArr) :
    DSim env D (DP.setPredicted env d bw w) (SpecState.setPredicted env D d bw w) := by
  unfold DP.setPredicted SpecState.setPredicted
  refine DSim.bind ?_ fun _ => ?_
  · cases w with
    | none => exact DSim.pure ()
    | some w => exact sim_setWeights (some w) false
  intro P σ h
  rw [PyM.get_bind_run, PyM.get_bind_run, PyM.bind_run, PyM.bind_run, PyM.lift_run, PyM.lift_run]
  have e : DP.predVals env P d bw =
      ({ σ.cur with predicted := some (d, bw) } : Settings).pred env D := by
    unfold DP.predVals
    rw [h.y, h.w]
    cases d <;> rfl
  rw [e]
  cases h1 : ({ σ.cur with predicted := some (d, bw) } : Settings).pred env D with
  | error e => exact ⟨rfl, h⟩
  | ok v =>
    refine ⟨rfl, ?_⟩
    exact {
      X := h.X, y := h.y, dom := h.dom, w := h.w
      init0 := h.init0, init1 := h.init1
      pr0 := fun h => by cases h
      pr1 := fun v' h' => by
        cases h'
        exact ⟨rfl, h1⟩
      ob0 := h.ob0, ob1 := h.ob1
      r0 := h.r0, r1 := h.r1, upr := fun h => by cases h
      up0 := fun _ => rfl, up1 := fun _ h => by cases h }

theorem DRel.init_isNone {P : DP} {σ : SpecState} (h : DRel env D P σ) :
    P.init.isNone = σ.cur.initial.isNone := by
  cases hi : P.init with
  | none => rw [h.init0 hi]; rfl
  | some v => have := (h.init1 v hi).1; cases hs : σ.cur.initial <;> simp_all

theorem DRel.pr_isNone {P : DP} {σ : SpecState} (h : DRel env D P σ) :
    P.pr.isNone = σ.cur.predicted.isNone := by
  cases hi : P.pr with
  | none => rw [h.pr0 hi]; rfl
  | some v => have := (h.pr1 v hi).1; cases hs : σ.cur.predicted <;> simp_all

theorem DRel.up_isNone {P : DP} {σ : SpecState} (h : DRel env D P σ) :
    P.up.isNone = σ.fitted.isNone := by
  cases hi : P.up with
  | none => rw [h.up0 hi]; rfl
  | some v => obtain ⟨s, h1, -⟩ := h.up1 v hi; rw [h1]; rfl

/-- Both sides of a `when`. -/
theorem DSim.when {x : PyM DP Unit} {z : PyM SpecState Unit} (h : DSim env D x z) (b : Bool) :
    DSim env D (PyM.when b x) (PyM.when b z) := by
  cases b with
  | true => exact h
  | false => exact DSim.pure ()

theorem setInitial_post (d : Option Dist) (P : DP) (h : (DP.setInitial d P).1 = .ok ()) :
    (DP.setInitial d P).2.init.isSome := by
  unfold DP.setInitial at h ⊢
  simp only [PyM.get_run, PyM.bind_run, PyM.lift_run] at h ⊢
  cases h1 : (d.getD (uniformOn P.domain)).pdf P.X with
  | error e => rw [h1] at h; cases h
  | ok o =>
    rw [h1] at h
    simp only at h ⊢
    cases h2 : o.prodRows with
    | error e => rw [h2] at h; cases h
    | ok v => rfl

theorem setWeightsIf_init (w : Option NArr) (P : DP) : (DP.setWeightsIf w P).2.init = P.init := by
  cases w with
  | none => rfl
  | some w =>
    change (DP.setWeights (some w) false P).2.init = P.init
    unfold DP.setWeights
    simp only [PyM.get_run, PyM.bind_run, PyM.lift_run]
    cases DP.weightsOf P.X.r P.n_samples (some w) false <;> rfl

theorem setPredicted_post (d : Option Dist) (bw : ℕ) (w : Option NArr) (P : DP)
    (h : (DP.setPredicted env d bw w P).1 = .ok ()) :
    (DP.setPredicted env d bw w P).2.pr.isSome ∧ (DP.setPredicted env d bw w P).2.init = P.init := by
  unfold DP.setPredicted at h ⊢
  have h0 := setWeightsIf_init w P
  rw [PyM.bind_run] at h ⊢
  rcases hw : DP.setWeightsIf w P with ⟨r, P'⟩
  rw [hw] at h h0
  cases r with
  | error e => cases h
  | ok a =>
    simp only [PyM.get_run, PyM.bind_run, PyM.lift_run] at h h0 ⊢
    cases h1 : DP.predVals env P' d bw with
    | error e => rw [h1] at h; cases h
    | ok v => exact ⟨rfl, h0⟩

theorem sim_fitTail (P : DP) (σ : SpecState) (h : DRel env D P σ) (hi : P.init.isSome)
    (hp : P.pr.isSome) :
    let x : PyM DP Unit := (do
      let P ← PyM.get
      PyM.when P.ob.isNone (DP.setObserved none)
      let P ← PyM.get
      let ob ← PyM.lift (DP.theAttr P.ob)
      let pr ← PyM.lift (DP.theAttr P.pr)
      let ini ← PyM.lift (DP.theAttr P.init)
      let r ← PyM.lift (bzip1 (· / ·) ob pr)
      PyM.modify fun s => { s with r := some r }
      let iw ← PyM.lift (bzip1 (· * ·) ini P.weights)
      let u ← PyM.lift (bzip1 (· * ·) iw r)
      PyM.modify fun s => { s with up := some u })
    let z : PyM SpecState Unit := (do
      let σ ← PyM.get
      let _ ← PyM.lift (σ.cur.ratio env D)
      PyM.modify fun σ => ⟨σ.cur, σ.fitted, some σ.cur⟩
      let _ ← PyM.lift (σ.cur.updated env D)
      PyM.modify fun σ => ⟨σ.cur, some σ.cur, σ.ratioOf⟩)
    (x P).1 = (z σ).1 ∧ DRel env D (x P).2 (z σ).2 := by
  intro x z
  obtain ⟨ini, hini⟩ := Option.isSome_iff_exists.1 hi
  obtain ⟨pr, hpr⟩ := Option.isSome_iff_exists.1 hp
  -- the state after the observed step
  have key : ∀ Q : DP, ∀ ob, DRel env D Q σ → Q.init = some ini → Q.pr = some pr → Q.ob = some ob →
      let y : PyM DP Unit := (do
        let P ← PyM.get
        let ob ← PyM.lift (DP.theAttr P.ob)
        let pr ← PyM.lift (DP.theAttr P.pr)
        let ini ← PyM.lift (DP.theAttr P.init)
        let r ← PyM.lift (bzip1 (· / ·) ob pr)
        PyM.modify fun s => { s with r := some r }
        let iw ← PyM.lift (bzip1 (· * ·) ini P.weights)
        let u ← PyM.lift (bzip1 (· * ·) iw r)
        PyM.modify fun s => { s with up := some u })
      (y Q).1 = (z σ).1 ∧ DRel env D (y Q).2 (z σ).2 := by
    intro Q ob hQ hi hp ho y
    have hiv := (hQ.init1 _ hi).2
    have hpv := (hQ.pr1 _ hp).2
    have hov := hQ.ob1 _ ho
    have hrat : σ.cur.ratio env D = bzip1 (· / ·) ob pr := by
      simp only [Settings.ratio, hpv, hov, Py.ok_bind]
    have hup : σ.cur.updated env D = (do
        let r ← bzip1 (· / ·) ob pr
        let iw ← bzip1 (· * ·) ini σ.cur.weights
        bzip1 (· * ·) iw r) := by
      simp only [Settings.updated, hiv, hrat, Py.ok_bind]
    have e1 : DP.theAttr Q.ob = .ok ob := by rw [ho]; rfl
    have e2 : DP.theAttr Q.pr = .ok pr := by rw [hp]; rfl
    have e3 : DP.theAttr Q.init = .ok ini := by rw [hi]; rfl
    have hy : y Q = (do
      let r ← PyM.lift (bzip1 (· / ·) ob pr)
      PyM.modify fun s => { s with r := some r }
      let iw ← PyM.lift (bzip1 (· * ·) ini σ.cur.weights)
      let u ← PyM.lift (bzip1 (· * ·) iw r)
      PyM.modify fun s => { s with up := some u } : PyM DP Unit) Q := by
      simp only [y, PyM.get_bind_run, e1, e2, e3, PyM.lift_ok_bind, hQ.w]
    have hz : z σ = (do
      let _ ← PyM.lift (bzip1 (· / ·) ob pr)
      PyM.modify fun σ => ⟨σ.cur, σ.fitted, some σ.cur⟩
      let _ ← PyM.lift (do
        let r ← bzip1 (· / ·) ob pr
        let iw ← bzip1 (· * ·) ini σ.cur.weights
        bzip1 (· * ·) iw r)
      PyM.modify fun σ => ⟨σ.cur, some σ.cur, σ.ratioOf⟩ : PyM SpecState Unit) σ := by
      simp only [z, PyM.get_bind_run, hup, hrat]
    rw [hy, hz]
    cases h1 : bzip1 (· / ·) ob pr with
    | error e => exact ⟨rfl, hQ⟩
    | ok r =>
      have rel_r : DRel env D { Q with r := some r } ⟨σ.cur, σ.fitted, some σ.cur⟩ :=
        { X := hQ.X, y := hQ.y, dom := hQ.dom, w := hQ.w, init0 := hQ.init0, init1 := hQ.init1
          pr0 := hQ.pr0, pr1 := hQ.pr1, ob0 := hQ.ob0, ob1 := hQ.ob1
          r0 := fun h => by cases h
          r1 := fun r' hr' => by
            cases hr'
            exact ⟨σ.cur, rfl, by rw [hrat, h1]⟩
          upr := fun _ => rfl
          up0 := hQ.up0, up1 := hQ.up1 }
      simp only [PyM.lift_ok_bind, PyM.modify_bind_run, Py.ok_bind]
      cases h2 : bzip1 (· * ·) ini σ.cur.weights with
      | error e => exact ⟨rfl, rel_r⟩
      | ok iw =>
        simp only [PyM.lift_ok_bind, Py.ok_bind]
        cases h3 : bzip1 (· * ·) iw r with
        | error e => exact ⟨rfl, rel_r⟩
        | ok u =>
          refine ⟨rfl, ?_⟩
          exact {
            X := hQ.X, y := hQ.y, dom := hQ.dom, w := hQ.w
            init0 := hQ.init0, init1 := hQ.init1
            pr0 := hQ.pr0, pr1 := hQ.pr1, ob0 := hQ.ob0, ob1 := hQ.ob1
            r0 := rel_r.r0, r1 := rel_r.r1, upr := fun _ => rfl
            up0 := fun h => by cases h
            up1 := fun u' hu' => by
              cases hu'
              refine ⟨σ.cur, rfl, ?_⟩
              rw [hup, h1, Py.ok_bind, h2, Py.ok_bind, h3] }
  cases ho : P.ob with
  | some ob =>
    have := key P ob h hini hpr ho
    simpa only [x, PyM.get_bind_run, ho, Option.isNone_some, PyM.when_false, PyM.pure_bind'] using this
  | none =>
    have hobs := h.ob0 ho
    simp only [x, PyM.get_bind_run, ho, Option.isNone_none, PyM.when_true]
    have hs := sim_setObserved (env := env) (D := D) none P σ h
    rw [PyM.bind_run]
    have hcur : ({ σ.cur with observed := none } : Settings) = σ.cur := by
      rw [← hobs]
    rcases hx : DP.setObserved none P with ⟨r, Q⟩
    rw [hx] at hs
    have hfields : r = .ok () → Q.init = P.init ∧ Q.pr = P.pr ∧ ∃ v, Q.ob = some v := by
      rintro rfl
      unfold DP.setObserved at hx
      simp only [PyM.get_run, PyM.bind_run, PyM.lift_run] at hx
      cases h1 : ((none : Option Dist).getD stdNormal).pdf P.y with
      | error e => rw [h1] at hx; cases hx
      | ok o =>
        rw [h1] at hx
        simp only at hx
        cases h2 : o.prodRows with
        | error e => rw [h2] at hx; cases hx
        | ok v => rw [h2] at hx; cases hx; exact ⟨rfl, rfl, v, rfl⟩
    -- the settings do not change
    have hσ : (SpecState.setObserved D none σ) =
        ((do let _ ← σ.cur.obs D; pure () : Py Unit), σ) := by
      unfold SpecState.setObserved
      rw [PyM.get_bind_run]
      simp only [hcur, PyM.bind_run, PyM.lift_run]
      cases σ.cur.obs D with
      | error e => rfl
      | ok v =>
        simp only [PyM.modify_run, Py.ok_bind, Py.pure_eq]
        have : ({ σ.cur with observed := none } : Settings) = σ.cur := hcur
        simp only [this]
    rw [hσ] at hs
    cases r with
    | ok a =>
      obtain ⟨f1, f2, v, f3⟩ := hfields rfl
      exact key Q v hs.2 (f1.trans hini) (f2.trans hpr) f3
    | error e =>
      have h1 : σ.cur.obs D = .error e := by
        have := hs.1
        cases hh : σ.cur.obs D with
        | error e' => rw [hh] at this; simpa using this.symm
        | ok v => rw [hh] at this; simp at this
      have hz : z σ = (.error e, σ) := by
        simp only [z, PyM.get_bind_run, Settings.ratio, (h.pr1 _ hpr).2, h1,
          Py.ok_bind, Py.error_bind, PyM.lift_error_bind, PyM.throw_run]
      rw [hz]
      exact ⟨rfl, hs.2⟩

theorem sim_fit (d : Option Dist) (bw : ℕ) (w : Option NArr) :
    DSim env D (DP.fit env d bw w) (SpecState.fit env D d bw w) := by
  intro P σ h
  unfold DP.fit SpecState.fit
  rw [PyM.get_bind_run, PyM.get_bind_run, h.init_isNone, PyM.bind_run, PyM.bind_run]
  have h1 := (sim_setInitial (env := env) (D := D) none).when σ.cur.initial.isNone P σ h
  have p1 : (PyM.when σ.cur.initial.isNone (DP.setInitial none) P).1 = .ok () →
      (PyM.when σ.cur.initial.isNone (DP.setInitial none) P).2.init.isSome := by
    cases hn : σ.cur.initial.isNone with
    | true => exact setInitial_post none P
    | false =>
      intro _
      change P.init.isSome
      rw [← h.init_isNone] at hn
      cases hh : P.init <;> simp_all
  rcases hx : PyM.when σ.cur.initial.isNone (DP.setInitial none) P with ⟨r, P1⟩
  rcases hy : PyM.when σ.cur.initial.isNone (SpecState.setInitial D none) σ with ⟨r', σ1⟩
  rw [hx] at h1 p1
  rw [hy] at h1
  obtain ⟨e1, h1⟩ := h1
  simp only at e1 h1 p1
  subst e1
  cases r with
  | error e => exact ⟨rfl, h1⟩
  | ok a =>
    have p1 := p1 rfl
    simp only
    rw [PyM.get_bind_run, PyM.get_bind_run, h1.pr_isNone, PyM.bind_run, PyM.bind_run]
    have h2 := (sim_setPredicted (env := env) (D := D) d bw w).when σ1.cur.predicted.isNone P1 σ1 h1
    have p2 : (PyM.when σ1.cur.predicted.isNone (DP.setPredicted env d bw w) P1).1 = .ok () →
        (PyM.when σ1.cur.predicted.isNone (DP.setPredicted env d bw w) P1).2.pr.isSome ∧
        (PyM.when σ1.cur.predicted.isNone (DP.setPredicted env d bw w) P1).2.init = P1.init := by
      cases hn : σ1.cur.predicted.isNone with
      | true => exact setPredicted_post d bw w P1
      | false =>
        intro _
        refine ⟨?_, rfl⟩
        change P1.pr.isSome
        rw [← h1.pr_isNone] at hn
        cases hh : P1.pr <;> simp_all
    rcases hx2 : PyM.when σ1.cur.predicted.isNone (DP.setPredicted env d bw w) P1 with ⟨r, P2⟩
    rcases hy2 : PyM.when σ1.cur.predicted.isNone (SpecState.setPredicted env D d bw w) σ1
      with ⟨r', σ2⟩
    rw [hx2] at h2 p2
    rw [hy2] at h2
    obtain ⟨e2, h2⟩ := h2
    simp only at e2 h2 p2
    subst e2
    cases r with
    | error e => exact ⟨rfl, h2⟩
    | ok a =>
      obtain ⟨p2, p3⟩ := p2 rfl
      exact sim_fitTail P2 σ2 h2 (p3 ▸ p1) p2

/-- A successful fit caches. -/
theorem specFit_post (d : Option Dist) (bw : ℕ) (w : Option NArr) (σ : SpecState)
    (h : (SpecState.fit env D d bw w σ).1 = .ok ()) :
    (SpecState.fit env D d bw w σ).2.fitted = some (SpecState.fit env D d bw w σ).2.cur := by
  unfold SpecState.fit at h ⊢
  rw [PyM.get_bind_run, PyM.bind_run] at h ⊢
  rcases hx : PyM.when σ.cur.initial.isNone (SpecState.setInitial D none) σ with ⟨r, σ1⟩
  rw [hx] at h
  cases r with
  | error e => cases h
  | ok a =>
    simp only [PyM.get_bind_run] at h ⊢
    rw [PyM.bind_run] at h ⊢
    rcases hx2 : PyM.when σ1.cur.predicted.isNone (SpecState.setPredicted env D d bw w) σ1
      with ⟨r, σ2⟩
    rw [hx2] at h
    cases r with
    | error e => cases h
    | ok a =>
      simp only [PyM.get_bind_run] at h ⊢
      cases hr : σ2.cur.ratio env D with
      | error e => rw [hr] at h; cases h
      | ok r =>
        rw [hr] at h
        simp only [PyM.lift_ok_bind, PyM.modify_bind_run] at h ⊢
        cases hu : σ2.cur.updated env D with
        | error e => rw [hu] at h; cases h
        | ok u => rfl

theorem sim_estimate : DSim env D (DP.mudPoint env) (SpecState.estimate env D) := by
  intro P σ h
  unfold DP.mudPoint SpecState.estimate
  rw [PyM.get_bind_run, PyM.get_bind_run, h.up_isNone, PyM.bind_run, PyM.bind_run]
  have h1 := (sim_fit (env := env) (D := D) none 0 none).when σ.fitted.isNone P σ h
  have p1 : (PyM.when σ.fitted.isNone (SpecState.fit env D none 0 none) σ).1 = .ok () →
      (PyM.when σ.fitted.isNone (SpecState.fit env D none 0 none) σ).2.fitted.isSome := by
    cases hn : σ.fitted.isNone with
    | true => intro hh; rw [PyM.when_true] at hh ⊢; rw [specFit_post none 0 none σ hh]; rfl
    | false =>
      intro _
      change σ.fitted.isSome
      cases hh : σ.fitted <;> simp_all
  rcases hx : PyM.when σ.fitted.isNone (DP.fit env) P with ⟨r, P1⟩
  rcases hy : PyM.when σ.fitted.isNone (SpecState.fit env D none 0 none) σ with ⟨r', σ1⟩
  rw [hx] at h1
  rw [hy] at h1 p1
  obtain ⟨e1, h1⟩ := h1
  simp only at e1 h1 p1
  subst e1
  cases r with
  | error e => exact ⟨rfl, h1⟩
  | ok a =>
    have p1 := p1 rfl
    simp only [PyM.get_bind_run]
    cases hu : P1.up with
    | none => rw [h1.up0 hu] at p1; cases p1
    | some u =>
      obtain ⟨s, hs, hs'⟩ := h1.up1 u hu
      have e : (σ1.fitted.getD σ1.cur).best env D = (do
          let m ← npArgmax u
          D.X.rowAt m) := by
        rw [hs]
        simp only [Option.getD_some, Settings.best, hs', Py.ok_bind]
      rw [e, ← h1.X]
      simp only [DP.theAttr, PyM.lift_ok_bind]
      cases hm : npArgmax u with
      | error er => exact ⟨rfl, h1⟩
      | ok m => exact ⟨rfl, h1⟩

theorem sim_expectedRatio : DSim env D (DP.expectedRatio env) (SpecState.expectedRatio env D) := by
  intro P σ h
  unfold DP.expectedRatio SpecState.expectedRatio
  rw [PyM.get_bind_run, PyM.get_bind_run, h.up_isNone, PyM.bind_run, PyM.bind_run]
  have h1 := (sim_fit (env := env) (D := D) none 0 none).when σ.fitted.isNone P σ h
  have p1 : (PyM.when σ.fitted.isNone (SpecState.fit env D none 0 none) σ).1 = .ok () →
      (PyM.when σ.fitted.isNone (SpecState.fit env D none 0 none) σ).2.fitted.isSome := by
    cases hn : σ.fitted.isNone with
    | true => intro hh; rw [PyM.when_true] at hh ⊢; rw [specFit_post none 0 none σ hh]; rfl
    | false =>
      intro _
      change σ.fitted.isSome
      cases hh : σ.fitted <;> simp_all
  rcases hx : PyM.when σ.fitted.isNone (DP.fit env) P with ⟨r, P1⟩
  rcases hy : PyM.when σ.fitted.isNone (SpecState.fit env D none 0 none) σ with ⟨r', σ1⟩
  rw [hx] at h1
  rw [hy] at h1 p1
  obtain ⟨e1, h1⟩ := h1
  simp only at e1 h1 p1
  subst e1
  cases r with
  | error e => exact ⟨rfl, h1⟩
  | ok a =>
    have p1 := p1 rfl
    simp only [PyM.get_bind_run]
    have hup : P1.up.isSome := by
      have := h1.up_isNone
      cases hh : P1.up <;> cases hg : σ1.fitted <;> simp_all
    obtain ⟨v, hv⟩ := Option.isSome_iff_exists.1 (h1.upr hup)
    obtain ⟨s, hs, hs'⟩ := h1.r1 v hv
    rw [hv, hs]
    simp only [DP.theAttr, PyM.lift_ok_bind, Option.getD_some, hs', Py.ok_bind, h1.w]
    exact ⟨rfl, h1⟩

/-- State after `mud_point`/`expected_ratio`: that of the conditional fit. -/
theorem sim_cached {α : Type} {x : PyM DP α} (f : DP → Py α)
    (hx : x = (PyM.get >>= fun P => PyM.when P.up.isNone (DP.fit env) >>= fun _ =>
      PyM.get >>= fun P => PyM.lift (f P))) (P : DP) (σ : SpecState) (h : DRel env D P σ) :
    DRel env D (x P).2 ((PyM.get >>= fun σ : SpecState =>
      PyM.when σ.fitted.isNone (SpecState.fit env D none 0 none)) σ).2 := by
  subst hx
  rw [PyM.get_bind_run, PyM.get_bind_run, h.up_isNone, PyM.bind_run]
  have h1 := (sim_fit (env := env) (D := D) none 0 none).when σ.fitted.isNone P σ h
  rcases hx : PyM.when σ.fitted.isNone (DP.fit env) P with ⟨r, P1⟩
  rw [hx] at h1
  cases r with
  | error e => exact h1.2
  | ok a => exact h1.2

/-- Every call keeps the relation. -/
theorem sim_op (op : DOp) (P : DP) (σ : SpecState) (h : DRel env D P σ) :
    DRel env D (op.run env P).2 (op.spec env D σ).2 := by
  cases op with
  | setWeights w n => exact (sim_setWeights w n P σ h).2
  | setObserved d => exact (sim_setObserved d P σ h).2
  | setInitial d => exact (sim_setInitial d P σ h).2
  | setPredicted d bw w => exact (sim_setPredicted d bw w P σ h).2
  | fit d bw w => exact (sim_fit d bw w P σ h).2
  | estimate =>
    have := sim_cached (env := env) (D := D) (x := DP.mudPoint env)
      (fun P => do
        let u ← DP.theAttr P.up
        let m ← npArgmax u
        P.X.rowAt m) (by
        unfold DP.mudPoint
        congr 1; funext P; congr 1; funext _; congr 1; funext Q
        cases DP.theAttr Q.up with
        | error e => rfl
        | ok u => simp only [PyM.lift_ok_bind, Py.ok_bind]; cases npArgmax u <;> rfl) P σ h
    change DRel env D ((DP.mudPoint env >>= fun _ => pure ()) P).2 _
    rw [PyM.bind_run]
    rcases hx : DP.mudPoint env P with ⟨r, P1⟩
    rw [hx] at this
    cases r <;> exact this
  | expectedRatio =>
    have := sim_cached (env := env) (D := D) (x := DP.expectedRatio env)
      (fun P => do
        let u ← DP.theAttr P.r
        DP.npAverage u P.weights) (by
        unfold DP.expectedRatio
        congr 1; funext P; congr 1; funext _; congr 1; funext Q
        cases DP.theAttr Q.r with
        | error e => rfl
        | ok u => simp only [PyM.lift_ok_bind, Py.ok_bind]) P σ h
    change DRel env D ((DP.expectedRatio env >>= fun _ => pure ()) P).2 _
    rw [PyM.bind_run]
    rcases hx : DP.expectedRatio env P with ⟨r, P1⟩
    rw [hx] at this
    cases r <;> exact this

theorem sim_after (ops : List DOp) : ∀ (P : DP) (σ : SpecState), DRel env D P σ →
    DRel env D (P.after env ops) (σ.after env D ops) := by
  induction ops with
  | nil => intro P σ h; exact h
  | cons op ops ih => intro P σ h; exact ih _ _ (sim_op op P σ h)

end Verif
