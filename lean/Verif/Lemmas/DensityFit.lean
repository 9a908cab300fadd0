import Verif.Lemmas.DensitySim

/-!
# What the next estimate is computed from
-/

namespace Verif

variable {env : Env} {D : DData}

theorem bzip1_ofFn {n : ℕ} (f : F → F → F) (a b : Fin n → F) :
    bzip1 f (List.ofFn a) (List.ofFn b) = .ok (List.ofFn fun k => f (a k) (b k)) := by
  unfold bzip1
  rw [if_pos (by simp)]
  congr 1
  apply List.ext_getElem <;> simp

/-- The updated density, entry by entry. -/
theorem Settings.updated_ofFn {n : ℕ} {s : Settings} {a b c w : Fin n → F}
    (hw : s.weights = List.ofFn w) (ha : s.ini D = .ok (List.ofFn a))
    (hb : s.obs D = .ok (List.ofFn b)) (hc : s.pred env D = .ok (List.ofFn c)) :
    s.updated env D = .ok (List.ofFn fun k => a k * w k * (b k / c k)) := by
  simp only [Settings.updated, Settings.ratio, ha, hb, hc, hw, Py.ok_bind, bzip1_ofFn]

theorem Settings.ratio_ofFn {n : ℕ} {s : Settings} {b c : Fin n → F}
    (hb : s.obs D = .ok (List.ofFn b)) (hc : s.pred env D = .ok (List.ofFn c)) :
    s.ratio env D = .ok (List.ofFn fun k => b k / c k) := by
  simp only [Settings.ratio, hb, hc, Py.ok_bind, bzip1_ofFn]

/-- Invariant of the bookkeeping: distributions that are set have been evaluated. -/
structure SpecInv (env : Env) (D : DData) (σ : SpecState) : Prop where
  ini : σ.cur.initial.isSome → ∃ v, σ.cur.ini D = .ok v
  pr : σ.cur.predicted.isSome → ∃ v, σ.cur.pred env D = .ok v

theorem DRel.inv {P : DP} {σ : SpecState} (h : DRel env D P σ) : SpecInv env D σ where
  ini hs := by
    cases hi : P.init with
    | none => rw [h.init0 hi] at hs; cases hs
    | some v => exact ⟨v, (h.init1 v hi).2⟩
  pr hs := by
    cases hi : P.pr with
    | none => rw [h.pr0 hi] at hs; cases hs
    | some v => exact ⟨v, (h.pr1 v hi).2⟩

/-- The last part of a fit. -/
theorem specFitTail (σ : SpecState) (hi : ∃ v, σ.cur.ini D = .ok v) :
    let z : PyM SpecState Unit := (do
      let σ ← PyM.get
      let _ ← PyM.lift (σ.cur.ratio env D)
      PyM.modify fun σ => ⟨σ.cur, σ.fitted, some σ.cur⟩
      let _ ← PyM.lift (σ.cur.updated env D)
      PyM.modify fun σ => ⟨σ.cur, some σ.cur, σ.ratioOf⟩)
    (z σ).1 = (do let _ ← σ.cur.updated env D; pure ()) ∧ (z σ).2.cur = σ.cur ∧
      ((z σ).1 = .ok () → (z σ).2 = ⟨σ.cur, some σ.cur, some σ.cur⟩) := by
  intro z
  obtain ⟨v, hv⟩ := hi
  simp only [z, PyM.get_bind_run]
  cases hr : σ.cur.ratio env D with
  | error e =>
    have hu : σ.cur.updated env D = .error e := by
      simp only [Settings.updated, hv, hr, Py.ok_bind, Py.error_bind]
    rw [hu]
    exact ⟨rfl, rfl, fun h => by cases h⟩
  | ok r =>
    simp only [PyM.lift_ok_bind, PyM.modify_bind_run]
    cases hu : σ.cur.updated env D with
    | error e => exact ⟨rfl, rfl, fun h => by cases h⟩
    | ok u => exact ⟨rfl, rfl, fun _ => rfl⟩

/-- Defaults are filled in before a fit; the outcome is that of the completed settings. -/
theorem specFit_default (σ : SpecState) (h : SpecInv env D σ) :
    (SpecState.fit env D none 0 none σ).1 = (do let _ ← σ.cur.complete.updated env D; pure ()) ∧
    ((SpecState.fit env D none 0 none σ).1 = .ok () → (SpecState.fit env D none 0 none σ).2 =
      ⟨σ.cur.complete, some σ.cur.complete, some σ.cur.complete⟩) := by
  -- from a state whose initial distribution is set
  have step : ∀ σ : SpecState, σ.cur.initial.isSome → SpecInv env D σ →
      let z : PyM SpecState Unit := (do
        let σ ← PyM.get
        PyM.when σ.cur.predicted.isNone (SpecState.setPredicted env D none 0 none)
        let σ ← PyM.get
        let _ ← PyM.lift (σ.cur.ratio env D)
        PyM.modify fun σ => ⟨σ.cur, σ.fitted, some σ.cur⟩
        let _ ← PyM.lift (σ.cur.updated env D)
        PyM.modify fun σ => ⟨σ.cur, some σ.cur, σ.ratioOf⟩)
      (z σ).1 = (do let _ ← σ.cur.complete.updated env D; pure ()) ∧
      ((z σ).1 = .ok () → (z σ).2 =
        ⟨σ.cur.complete, some σ.cur.complete, some σ.cur.complete⟩) := by
    intro σ hs hinv z
    have e1 : σ.cur.initial.isNone = false := by cases h : σ.cur.initial <;> simp_all
    have hc0 : σ.cur.complete =
        { σ.cur with predicted := some (σ.cur.predicted.getD (none, 0)) } := by
      simp [Settings.complete, e1]
    cases hp : σ.cur.predicted with
    | some pd =>
      have hc : σ.cur.complete = σ.cur := by
        rw [hc0, hp]
        simp only [Option.getD_some]
        rw [← hp]
      have := specFitTail (env := env) σ (hinv.ini hs)
      rw [hc]
      simp only [z, PyM.get_bind_run, hp, Option.isNone_some, PyM.when_false, PyM.pure_bind']
      simp only [PyM.get_bind_run] at this
      exact ⟨this.1, this.2.2⟩
    | none =>
      have hc : σ.cur.complete = { σ.cur with predicted := some (none, 0) } := by
        rw [hc0, hp]; rfl
      obtain ⟨v, hv⟩ := hinv.ini hs
      have hv' : σ.cur.complete.ini D = .ok v := by rw [hc]; exact hv
      simp only [z, PyM.get_bind_run, hp, Option.isNone_none, PyM.when_true]
      have hset : SpecState.setPredicted env D none 0 none σ =
          ((do let _ ← σ.cur.complete.pred env D; pure () : Py Unit),
            match σ.cur.complete.pred env D with
            | .ok _ => ⟨σ.cur.complete, none, σ.ratioOf⟩
            | .error _ => σ) := by
        unfold SpecState.setPredicted
        simp only [SpecState.setWeightsIf, PyM.pure_bind', PyM.get_bind_run, ← hc]
        cases hpp : σ.cur.complete.pred env D with
        | error e => rfl
        | ok v =>
          simp only [PyM.lift_ok_bind, PyM.modify_run, Py.ok_bind, Py.pure_eq, ← hc]
      rw [PyM.bind_run, hset]
      cases hpp : σ.cur.complete.pred env D with
      | error e =>
        have hu : σ.cur.complete.updated env D = .error e := by
          simp only [Settings.updated, Settings.ratio, hv', hpp, Py.ok_bind, Py.error_bind]
        rw [hu]
        exact ⟨rfl, fun h => by cases h⟩
      | ok p =>
        have := specFitTail (env := env) (D := D) ⟨σ.cur.complete, none, σ.ratioOf⟩ ⟨v, hv'⟩
        exact ⟨this.1, this.2.2⟩
  unfold SpecState.fit
  cases hi : σ.cur.initial with
  | some d =>
    have := step σ (by rw [hi]; rfl) h
    simp only [PyM.get_bind_run, hi, Option.isNone_some, PyM.when_false, PyM.pure_bind']
    simpa only [PyM.get_bind_run] using this
  | none =>
    rw [PyM.get_bind_run, hi, Option.isNone_none, PyM.when_true, PyM.bind_run]
    have hcc : σ.cur.complete =
        ({ σ.cur with initial := some none, predicted := none } : Settings).complete := by
      simp [Settings.complete, hi]
    have hci : σ.cur.complete.ini D = ({ σ.cur with initial := some none } : Settings).ini D := by
      simp [Settings.complete, hi, Settings.ini]
    have hset : SpecState.setInitial D none σ =
        ((do let _ ← σ.cur.complete.ini D; pure () : Py Unit),
          match σ.cur.complete.ini D with
          | .ok _ => ⟨{ σ.cur with initial := some none, predicted := none }, none, σ.ratioOf⟩
          | .error _ => σ) := by
      unfold SpecState.setInitial
      simp only [PyM.get_bind_run, ← hci]
      cases hpp : σ.cur.complete.ini D with
      | error e => rfl
      | ok v => rfl
    rw [hset]
    cases hpp : σ.cur.complete.ini D with
    | error e =>
      have hu : σ.cur.complete.updated env D = .error e := by
        simp only [Settings.updated, hpp, Py.error_bind]
      rw [hu]
      exact ⟨rfl, fun h => by cases h⟩
    | ok p =>
      rw [hcc]
      refine step ⟨{ σ.cur with initial := some none, predicted := none }, none, σ.ratioOf⟩ rfl
        ⟨fun _ => ⟨p, ?_⟩, fun h => by cases h⟩
      rw [hci] at hpp
      exact hpp

/-- The cached fit, if there is one, is for the current settings. -/
def SpecState.Fresh (env : Env) (D : DData) (σ : SpecState) : Prop :=
  σ.fitted = none ∨ (σ.fitted = some σ.cur ∧ σ.ratioOf = some σ.cur ∧ σ.cur.complete = σ.cur ∧
    ∃ u, σ.cur.updated env D = .ok u)

theorem Settings.complete_weights (s : Settings) : s.complete.weights = s.weights := by
  unfold Settings.complete
  split_ifs <;> rfl

theorem Settings.complete_set {s : Settings} (h1 : s.initial.isSome) (h2 : s.predicted.isSome) :
    s.complete = s := by
  rcases s with ⟨w, i, p, o⟩
  cases i <;> cases p <;> simp_all [Settings.complete]

theorem Settings.complete_complete (s : Settings) : s.complete.complete = s.complete := by
  apply Settings.complete_set <;> unfold Settings.complete <;> split_ifs <;> simp_all
  cases h : s.initial <;> simp_all

/-- The next estimate after a history that keeps the cache fresh. -/
theorem specEstimate_fresh (σ : SpecState) (h : SpecInv env D σ) (hf : σ.Fresh env D) :
    (SpecState.estimate env D σ).1 = σ.cur.complete.best env D ∧
    (SpecState.expectedRatio env D σ).1 = (do
      let _ ← σ.cur.complete.updated env D
      let r ← σ.cur.complete.ratio env D
      DP.npAverage r σ.cur.weights) := by
  unfold SpecState.estimate SpecState.expectedRatio
  have hw := σ.cur.complete_weights
  rcases hf with hf | ⟨hf, hr, hc, u, hu⟩
  · have h1 := specFit_default σ h
    rw [PyM.get_bind_run, PyM.get_bind_run, hf]
    simp only [Option.isNone_none, PyM.when_true, PyM.bind_run]
    rcases hx : SpecState.fit env D none 0 none σ with ⟨r, σ'⟩
    rw [hx] at h1
    obtain ⟨h1, h2⟩ := h1
    simp only at h1 h2
    cases r with
    | error e =>
      have hu : σ.cur.complete.updated env D = .error e := by
        cases hh : σ.cur.complete.updated env D with
        | error e' => rw [hh] at h1; simpa using h1.symm
        | ok v => rw [hh] at h1; simp at h1
      simp only [Settings.best, hu, Py.error_bind, and_self]
    | ok a =>
      have hσ := h2 rfl
      obtain ⟨u, hu⟩ : ∃ u, σ.cur.complete.updated env D = .ok u := by
        cases hh : σ.cur.complete.updated env D with
        | error e' => rw [hh] at h1; cases h1
        | ok v => exact ⟨v, rfl⟩
      subst hσ
      simp only [PyM.get_run, PyM.lift_run, Option.getD_some, hu, Py.ok_bind, hw, and_self]
  · rw [hc]
    simp only [PyM.get_bind_run, hf, Option.isNone_some, PyM.when_false, PyM.pure_bind',
      PyM.lift_run, Option.getD_some, hr, hu, Py.ok_bind, and_self]

/-- Calls that change a setting, other than the observed distribution, discard the cached fit if
they take effect, and change nothing if they fail. -/
theorem spec_reset (op : DOp) (σ : SpecState)
    (hop : (∃ w n, op = .setWeights w n) ∨ (∃ d, op = .setInitial d)) :
    (op.spec env D σ).2 = σ ∨ (op.spec env D σ).2.fitted = none := by
  rcases hop with ⟨w, n, rfl⟩ | ⟨d, rfl⟩
  · change (SpecState.setWeights D w n σ).2 = σ ∨ (SpecState.setWeights D w n σ).2.fitted = none
    unfold SpecState.setWeights
    cases DP.weightsOf D.X.r D.y.r w n with
    | error e => exact Or.inl rfl
    | ok v => exact Or.inr rfl
  · change (SpecState.setInitial D d σ).2 = σ ∨ (SpecState.setInitial D d σ).2.fitted = none
    unfold SpecState.setInitial
    rw [PyM.get_bind_run]
    cases ({ σ.cur with initial := some d } : Settings).ini D with
    | error e => exact Or.inl rfl
    | ok v => exact Or.inr rfl

theorem spec_setPredicted_reset (d : Option Dist) (bw : ℕ) (w : Option NArr) (σ : SpecState) :
    (SpecState.setPredicted env D d bw w σ).2 = σ ∨
      (SpecState.setPredicted env D d bw w σ).2.fitted = none := by
  unfold SpecState.setPredicted
  rw [PyM.bind_run]
  have h1 : (SpecState.setWeightsIf D w σ).2 = σ ∨
      (SpecState.setWeightsIf D w σ).2.fitted = none := by
    cases w with
    | none => exact Or.inl rfl
    | some w => exact spec_reset (env := env) (.setWeights (some w) false) σ (Or.inl ⟨_, _, rfl⟩)
  rcases hx : SpecState.setWeightsIf D w σ with ⟨r, σ'⟩
  rw [hx] at h1
  cases r with
  | error e => exact h1
  | ok a =>
    simp only [PyM.get_bind_run]
    cases ({ σ'.cur with predicted := some (d, bw) } : Settings).pred env D with
    | error e => exact h1
    | ok v => exact Or.inr rfl

theorem specSetInitial_ok (d : Option Dist) (σ : SpecState)
    (h : (SpecState.setInitial D d σ).1 = .ok ()) :
    (SpecState.setInitial D d σ).2.cur.initial.isSome := by
  unfold SpecState.setInitial at h ⊢
  rw [PyM.get_bind_run] at h ⊢
  cases hh : ({ σ.cur with initial := some d } : Settings).ini D with
  | error e => rw [hh] at h; cases h
  | ok v => rfl

theorem specSetWeightsIf_initial (w : Option NArr) (σ : SpecState) :
    (SpecState.setWeightsIf D w σ).2.cur.initial = σ.cur.initial := by
  cases w with
  | none => rfl
  | some w =>
    change (SpecState.setWeights D (some w) false σ).2.cur.initial = σ.cur.initial
    unfold SpecState.setWeights
    cases DP.weightsOf D.X.r D.y.r (some w) false <;> rfl

theorem specSetPredicted_ok (d : Option Dist) (bw : ℕ) (w : Option NArr) (σ : SpecState)
    (h : (SpecState.setPredicted env D d bw w σ).1 = .ok ()) :
    (SpecState.setPredicted env D d bw w σ).2.cur.predicted.isSome ∧
    (SpecState.setPredicted env D d bw w σ).2.cur.initial = σ.cur.initial := by
  unfold SpecState.setPredicted at h ⊢
  rw [PyM.bind_run] at h ⊢
  have h0 := specSetWeightsIf_initial (D := D) w σ
  rcases hx : SpecState.setWeightsIf D w σ with ⟨r, σ'⟩
  rw [hx] at h h0
  cases r with
  | error e => cases h
  | ok a =>
    simp only [PyM.get_bind_run] at h h0 ⊢
    cases hh : ({ σ'.cur with predicted := some (d, bw) } : Settings).pred env D with
    | error e => rw [hh] at h; cases h
    | ok v => exact ⟨rfl, h0⟩

/-- A fit keeps the cache fresh; if it succeeds the cache is fresh afterwards in any case. -/
theorem specFit_fresh (d : Option Dist) (bw : ℕ) (w : Option NArr) (σ : SpecState)
    (h : σ.Fresh env D ∨ (SpecState.fit env D d bw w σ).1 = .ok ()) :
    (SpecState.fit env D d bw w σ).2.Fresh env D := by
  unfold SpecState.fit at h ⊢
  rw [PyM.get_bind_run, PyM.bind_run] at h ⊢
  have a1 : (PyM.when σ.cur.initial.isNone (SpecState.setInitial D none) σ).2 = σ ∨
      (PyM.when σ.cur.initial.isNone (SpecState.setInitial D none) σ).2.fitted = none := by
    cases σ.cur.initial.isNone with
    | false => exact Or.inl rfl
    | true => exact spec_reset (env := env) (.setInitial none) σ (Or.inr ⟨_, rfl⟩)
  have b1 : (PyM.when σ.cur.initial.isNone (SpecState.setInitial D none) σ).1 = .ok () →
      (PyM.when σ.cur.initial.isNone (SpecState.setInitial D none) σ).2.cur.initial.isSome := by
    cases hn : σ.cur.initial.isNone with
    | true => exact specSetInitial_ok none σ
    | false => intro _; change σ.cur.initial.isSome; cases hh : σ.cur.initial <;> simp_all
  rcases hx : PyM.when σ.cur.initial.isNone (SpecState.setInitial D none) σ with ⟨r, σ1⟩
  rw [hx] at h a1 b1
  have f1 : σ.Fresh env D → σ1.Fresh env D := fun hf => by
    rcases a1 with a1 | a1
    · simp only at a1; rw [a1]; exact hf
    · exact Or.inl a1
  cases r with
  | error e => exact f1 (h.resolve_right (by intro hh; cases hh))
  | ok a =>
    have b1 := b1 rfl
    simp only [PyM.get_bind_run] at h ⊢
    rw [PyM.bind_run] at h ⊢
    have a2 : (PyM.when σ1.cur.predicted.isNone (SpecState.setPredicted env D d bw w) σ1).2 = σ1 ∨
        (PyM.when σ1.cur.predicted.isNone
          (SpecState.setPredicted env D d bw w) σ1).2.fitted = none := by
      cases σ1.cur.predicted.isNone with
      | false => exact Or.inl rfl
      | true => exact spec_setPredicted_reset d bw w σ1
    have b2 : (PyM.when σ1.cur.predicted.isNone
          (SpecState.setPredicted env D d bw w) σ1).1 = .ok () →
        (PyM.when σ1.cur.predicted.isNone
          (SpecState.setPredicted env D d bw w) σ1).2.cur.predicted.isSome ∧
        (PyM.when σ1.cur.predicted.isNone
          (SpecState.setPredicted env D d bw w) σ1).2.cur.initial = σ1.cur.initial := by
      cases hn : σ1.cur.predicted.isNone with
      | true => exact specSetPredicted_ok d bw w σ1
      | false =>
        intro _
        refine ⟨?_, rfl⟩
        change σ1.cur.predicted.isSome
        cases hh : σ1.cur.predicted <;> simp_all
    rcases hx2 : PyM.when σ1.cur.predicted.isNone (SpecState.setPredicted env D d bw w) σ1
      with ⟨r, σ2⟩
    rw [hx2] at h a2 b2
    have f2 : σ.Fresh env D → σ2.Fresh env D := fun hf => by
      rcases a2 with a2 | a2
      · simp only at a2; rw [a2]; exact f1 hf
      · exact Or.inl a2
    cases r with
    | error e => exact f2 (h.resolve_right (by intro hh; cases hh))
    | ok a =>
      obtain ⟨b2, b3⟩ := b2 rfl
      have hc : σ2.cur.complete = σ2.cur := Settings.complete_set (by simp only at b3; rw [b3]; exact b1) b2
      simp only [PyM.get_bind_run] at h ⊢
      cases hr : σ2.cur.ratio env D with
      | error e =>
        rw [hr] at h
        exact f2 (h.resolve_right (by intro hh; cases hh))
      | ok r =>
        rw [hr] at h
        simp only [PyM.lift_ok_bind, PyM.modify_bind_run] at h ⊢
        cases hu : σ2.cur.updated env D with
        | ok u => exact Or.inr ⟨rfl, rfl, hc, u, hu⟩
        | error e =>
          rw [hu] at h
          have hf := f2 (h.resolve_right (by intro hh; cases hh))
          rcases hf with hf | ⟨-, -, -, u, hf⟩
          · exact Or.inl hf
          · rw [hu] at hf; cases hf

/-- All calls other than `set_observed` keep the cache fresh. -/
theorem spec_fresh (op : DOp) (hop : ∀ d, op ≠ .setObserved d) (σ : SpecState)
    (h : σ.Fresh env D) : (op.spec env D σ).2.Fresh env D := by
  have reset : ∀ σ' : SpecState, σ' = σ ∨ σ'.fitted = none → σ'.Fresh env D := by
    rintro σ' (rfl | h')
    · exact h
    · exact Or.inl h'
  have cached : ((do
      let σ ← PyM.get
      PyM.when σ.fitted.isNone (SpecState.fit env D none 0 none) : PyM SpecState Unit)
        σ).2.Fresh env D := by
    rw [PyM.get_bind_run]
    cases σ.fitted.isNone with
    | false => exact h
    | true => exact specFit_fresh none 0 none σ (Or.inl h)
  cases op with
  | setWeights w n => exact reset _ (spec_reset _ σ (Or.inl ⟨_, _, rfl⟩))
  | setInitial d => exact reset _ (spec_reset _ σ (Or.inr ⟨_, rfl⟩))
  | setObserved d => exact absurd rfl (hop d)
  | setPredicted d bw w => exact reset _ (spec_setPredicted_reset d bw w σ)
  | fit d bw w => exact specFit_fresh d bw w σ (Or.inl h)
  | estimate => exact cached
  | expectedRatio => exact cached

/-- Calls that only set keep the cache empty. -/
theorem spec_unfitted (op : DOp) (hop : (∀ d bw w, op ≠ .fit d bw w) ∧ op ≠ .estimate ∧
    op ≠ .expectedRatio) (σ : SpecState) (h : σ.fitted = none) :
    (op.spec env D σ).2.fitted = none := by
  have reset : ∀ σ' : SpecState, σ' = σ ∨ σ'.fitted = none → σ'.fitted = none := by
    rintro σ' (rfl | h')
    · exact h
    · exact h'
  cases op with
  | setWeights w n => exact reset _ (spec_reset (env := env) _ σ (Or.inl ⟨_, _, rfl⟩))
  | setInitial d => exact reset _ (spec_reset (env := env) _ σ (Or.inr ⟨_, rfl⟩))
  | setObserved d =>
    change (SpecState.setObserved D d σ).2.fitted = none
    unfold SpecState.setObserved
    rw [PyM.get_bind_run]
    cases ({ σ.cur with observed := d } : Settings).obs D <;> exact h
  | setPredicted d bw w => exact reset _ (spec_setPredicted_reset d bw w σ)
  | fit d bw w => exact absurd rfl (hop.1 d bw w)
  | estimate => exact absurd rfl hop.2.1
  | expectedRatio => exact absurd rfl hop.2.2

theorem SpecState.after_append (σ : SpecState) (a b : List DOp) :
    σ.after env D (a ++ b) = (σ.after env D a).after env D b := by
  unfold SpecState.after; rw [List.foldl_append]

theorem spec_after_fresh (ops : List DOp) : ∀ σ : SpecState, σ.Fresh env D →
    (∀ op ∈ ops, ∀ d, op ≠ .setObserved d) → (σ.after env D ops).Fresh env D := by
  induction ops with
  | nil => intro σ h _; exact h
  | cons op ops ih =>
    intro σ h hops
    exact ih _ (spec_fresh op (hops op (by simp)) σ h) fun o ho => hops o (by simp [ho])

theorem spec_after_unfitted (ops : List DOp) : ∀ σ : SpecState, σ.fitted = none →
    (∀ op ∈ ops, (∀ d bw w, op ≠ .fit d bw w) ∧ op ≠ .estimate ∧ op ≠ .expectedRatio) →
    (σ.after env D ops).fitted = none := by
  induction ops with
  | nil => intro σ h _; exact h
  | cons op ops ih =>
    intro σ h hops
    exact ih _ (spec_unfitted op (hops op (by simp)) σ h) fun o ho => hops o (by simp [ho])

end Verif
