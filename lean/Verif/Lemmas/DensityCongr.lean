import Verif.Lemmas.DensityFit

/-!
# Running two density problems in lock step

Two problems whose settings stay related by `Rs` give related estimates after related histories.
-/

namespace Verif

/-- Two computations fail with the same error or succeed with related results. -/
def PyRel {α β : Type} (Q : α → β → Prop) : Py α → Py β → Prop
  | .ok a, .ok b => Q a b
  | .error e, .error e' => e = e'
  | _, _ => False

theorem PyRel.bind {α β γ δ : Type} {Q : α → β → Prop} {Q' : γ → δ → Prop} {x : Py α} {y : Py β}
    {f : α → Py γ} {g : β → Py δ} (h : PyRel Q x y) (hf : ∀ a b, Q a b → PyRel Q' (f a) (g b)) :
    PyRel Q' (x >>= f) (y >>= g) := by
  cases x <;> cases y
  · exact h
  · exact h.elim
  · exact h.elim
  · exact hf _ _ h

theorem PyRel.mono {α β : Type} {Q Q' : α → β → Prop} {x : Py α} {y : Py β} (h : PyRel Q x y)
    (hq : ∀ a b, Q a b → Q' a b) : PyRel Q' x y := by
  cases x <;> cases y
  · exact h
  · exact h.elim
  · exact h.elim
  · exact hq _ _ h

theorem PyRel.of_eq {α : Type} {Q : α → α → Prop} {x y : Py α} (h : x = y) (hq : ∀ a, Q a a) :
    PyRel Q x y := by
  subst h
  cases x
  · exact rfl
  · exact hq _

theorem PyRel.eq {α : Type} {x y : Py α} (h : PyRel (· = ·) x y) : x = y := by
  cases x <;> cases y
  · exact congrArg Except.error h
  · exact h.elim
  · exact h.elim
  · exact congrArg Except.ok h

/-- What must be known about related settings; `I`, `Pd`, `Ob` relate the initial, predicted and
observed distributions given to the two problems, `W` the weights. -/
structure SetRelG (env : Env) (D D' : DData) (I Pd Ob : Option Dist → Option Dist → Prop)
    (W : Option NArr → Option NArr → Prop) (Rs : Settings → Settings → Prop) : Prop where
  iNone : I none none
  pNone : Pd none none
  initial : ∀ {s s'}, Rs s s' → s.initial.isNone = s'.initial.isNone
  predicted : ∀ {s s'}, Rs s s' → s.predicted.isNone = s'.predicted.isNone
  setIni : ∀ {s s'} d d', Rs s s' → I d d' →
    Rs { s with initial := some d, predicted := none } { s' with initial := some d', predicted := none }
  setIni' : ∀ {s s'} d d', Rs s s' → I d d' →
    Rs { s with initial := some d } { s' with initial := some d' }
  setPr : ∀ {s s'} d d' bw, Rs s s' → Pd d d' →
    Rs { s with predicted := some (d, bw) } { s' with predicted := some (d', bw) }
  setOb : ∀ {s s'} d d', Rs s s' → Ob d d' → Rs { s with observed := d } { s' with observed := d' }
  setW : ∀ {s s'} w w' n, Rs s s' → W w w' →
    PyRel (fun v v' => Rs { s with weights := v, predicted := none }
      { s' with weights := v', predicted := none })
      (DP.weightsOf D.X.r D.y.r w n) (DP.weightsOf D'.X.r D'.y.r w' n)
  ini : ∀ {s s'}, Rs s s' → PyRel (fun _ _ => True) (s.ini D) (s'.ini D')
  obs : ∀ {s s'}, Rs s s' → PyRel (fun _ _ => True) (s.obs D) (s'.obs D')
  pred : ∀ {s s'}, Rs s s' → PyRel (fun _ _ => True) (s.pred env D) (s'.pred env D')
  ratio : ∀ {s s'}, Rs s s' → PyRel (fun _ _ => True) (s.ratio env D) (s'.ratio env D')
  updated : ∀ {s s'}, Rs s s' → PyRel (fun _ _ => True) (s.updated env D) (s'.updated env D')

/-- The same distribution, satisfying `ok`. -/
def Same (ok : Option Dist → Prop) (d d' : Option Dist) : Prop := d = d' ∧ ok d

/-- What must be known about related settings. -/
structure SetRel (env : Env) (D D' : DData) (okD : Option Dist → Prop)
    (W : Option NArr → Option NArr → Prop) (Rs : Settings → Settings → Prop) : Prop where
  okNone : okD none
  initial : ∀ {s s'}, Rs s s' → s.initial = s'.initial
  predicted : ∀ {s s'}, Rs s s' → s.predicted = s'.predicted
  setIni : ∀ {s s'} d, Rs s s' → okD d →
    Rs { s with initial := some d, predicted := none } { s' with initial := some d, predicted := none }
  setIni' : ∀ {s s'} d, Rs s s' → okD d →
    Rs { s with initial := some d } { s' with initial := some d }
  setPr : ∀ {s s'} d bw, Rs s s' → okD d →
    Rs { s with predicted := some (d, bw) } { s' with predicted := some (d, bw) }
  setOb : ∀ {s s'} d, Rs s s' → okD d → Rs { s with observed := d } { s' with observed := d }
  setW : ∀ {s s'} w w' n, Rs s s' → W w w' →
    PyRel (fun v v' => Rs { s with weights := v, predicted := none }
      { s' with weights := v', predicted := none })
      (DP.weightsOf D.X.r D.y.r w n) (DP.weightsOf D'.X.r D'.y.r w' n)
  ini : ∀ {s s'}, Rs s s' → PyRel (fun _ _ => True) (s.ini D) (s'.ini D')
  obs : ∀ {s s'}, Rs s s' → PyRel (fun _ _ => True) (s.obs D) (s'.obs D')
  pred : ∀ {s s'}, Rs s s' → PyRel (fun _ _ => True) (s.pred env D) (s'.pred env D')
  ratio : ∀ {s s'}, Rs s s' → PyRel (fun _ _ => True) (s.ratio env D) (s'.ratio env D')
  updated : ∀ {s s'}, Rs s s' → PyRel (fun _ _ => True) (s.updated env D) (s'.updated env D')

theorem SetRel.general {env : Env} {D D' : DData} {okD : Option Dist → Prop}
    {W : Option NArr → Option NArr → Prop} {Rs : Settings → Settings → Prop}
    (H : SetRel env D D' okD W Rs) :
    SetRelG env D D' (Same okD) (Same okD) (Same okD) W Rs where
  iNone := ⟨rfl, H.okNone⟩
  pNone := ⟨rfl, H.okNone⟩
  initial h := by rw [H.initial h]
  predicted h := by rw [H.predicted h]
  setIni := by rintro s s' d _ h ⟨rfl, hd⟩; exact H.setIni d h hd
  setIni' := by rintro s s' d _ h ⟨rfl, hd⟩; exact H.setIni' d h hd
  setPr := by rintro s s' d _ bw h ⟨rfl, hd⟩; exact H.setPr d bw h hd
  setOb := by rintro s s' d _ h ⟨rfl, hd⟩; exact H.setOb d h hd
  setW := H.setW
  ini := H.ini
  obs := H.obs
  pred := H.pred
  ratio := H.ratio
  updated := H.updated

/-- Weights given as an optional argument. -/
def OptW (W : Option NArr → Option NArr → Prop) : Option NArr → Option NArr → Prop
  | none, none => True
  | some w, some w' => W (some w) (some w')
  | _, _ => False

/-- Related calls: the same distributions, related weights. -/
inductive OpRel (okD : Option Dist → Prop) (W : Option NArr → Option NArr → Prop) : DOp → DOp → Prop
  | setWeights {w w' n} : W w w' → OpRel okD W (.setWeights w n) (.setWeights w' n)
  | setObserved {d} : okD d → OpRel okD W (.setObserved d) (.setObserved d)
  | setInitial {d} : okD d → OpRel okD W (.setInitial d) (.setInitial d)
  | setPredicted {d bw w w'} : okD d → OptW W w w' →
      OpRel okD W (.setPredicted d bw w) (.setPredicted d bw w')
  | fit {d bw w w'} : okD d → OptW W w w' → OpRel okD W (.fit d bw w) (.fit d bw w')
  | estimate : OpRel okD W .estimate .estimate
  | expectedRatio : OpRel okD W .expectedRatio .expectedRatio

/-- Related calls in general: related distributions and weights. -/
inductive OpRelG (I Pd Ob : Option Dist → Option Dist → Prop)
    (W : Option NArr → Option NArr → Prop) : DOp → DOp → Prop
  | setWeights {w w' n} : W w w' → OpRelG I Pd Ob W (.setWeights w n) (.setWeights w' n)
  | setObserved {d d'} : Ob d d' → OpRelG I Pd Ob W (.setObserved d) (.setObserved d')
  | setInitial {d d'} : I d d' → OpRelG I Pd Ob W (.setInitial d) (.setInitial d')
  | setPredicted {d d' bw w w'} : Pd d d' → OptW W w w' →
      OpRelG I Pd Ob W (.setPredicted d bw w) (.setPredicted d' bw w')
  | fit {d d' bw w w'} : Pd d d' → OptW W w w' →
      OpRelG I Pd Ob W (.fit d bw w) (.fit d' bw w')
  | estimate : OpRelG I Pd Ob W .estimate .estimate
  | expectedRatio : OpRelG I Pd Ob W .expectedRatio .expectedRatio

theorem OpRel.general {okD : Option Dist → Prop} {W : Option NArr → Option NArr → Prop}
    {op op' : DOp} (h : OpRel okD W op op') :
    OpRelG (Same okD) (Same okD) (Same okD) W op op' := by
  cases h with
  | setWeights h => exact .setWeights h
  | setObserved h => exact .setObserved ⟨rfl, h⟩
  | setInitial h => exact .setInitial ⟨rfl, h⟩
  | setPredicted h h' => exact .setPredicted ⟨rfl, h⟩ h'
  | fit h h' => exact .fit ⟨rfl, h⟩ h'
  | estimate => exact .estimate
  | expectedRatio => exact .expectedRatio

/-- Related states. -/
structure StRel (Rs : Settings → Settings → Prop) (σ σ' : SpecState) : Prop where
  cur : Rs σ.cur σ'.cur
  fitted : Option.Rel Rs σ.fitted σ'.fitted
  ratioOf : Option.Rel Rs σ.ratioOf σ'.ratioOf

/-- Lock step: same outcome, related states afterwards. -/
def Lock (Rs : Settings → Settings → Prop) (x z : PyM SpecState Unit) : Prop :=
  ∀ σ σ', StRel Rs σ σ' → (x σ).1 = (z σ').1 ∧ StRel Rs (x σ).2 (z σ').2

variable {env : Env} {D D' : DData} {okD : Option Dist → Prop}
  {W : Option NArr → Option NArr → Prop} {Rs : Settings → Settings → Prop}

theorem Lock.pure : Lock Rs (Pure.pure ()) (Pure.pure ()) := fun _ _ h => ⟨rfl, h⟩

theorem Lock.bind {x z : PyM SpecState Unit} {f g : Unit → PyM SpecState Unit} (h : Lock Rs x z)
    (hf : ∀ a, Lock Rs (f a) (g a)) : Lock Rs (x >>= f) (z >>= g) := by
  intro σ σ' hr
  have := h σ σ' hr
  rw [PyM.bind_run, PyM.bind_run]
  rcases hx : x σ with ⟨r, P'⟩
  rcases hz : z σ' with ⟨r', Q'⟩
  rw [hx, hz] at this
  obtain ⟨h1, h2⟩ := this
  simp only at h1 h2
  subst h1
  cases r with
  | ok a => exact hf a P' Q' h2
  | error e => exact ⟨rfl, h2⟩

/-- A computation that reads the state, evaluates something and updates. -/
theorem Lock.step {α β : Type} {Q : SpecState → SpecState → α → β → Prop} {f : SpecState → Py α} {g : SpecState → Py β}
    {u : α → SpecState → SpecState} {v : β → SpecState → SpecState}
    (h : ∀ σ σ', StRel Rs σ σ' → PyRel (Q σ σ') (f σ) (g σ'))
    (hu : ∀ σ σ' a b, StRel Rs σ σ' → Q σ σ' a b → StRel Rs (u a σ) (v b σ')) :
    Lock Rs (PyM.get >>= fun σ => PyM.lift (f σ) >>= fun a => PyM.modify (u a))
      (PyM.get >>= fun σ => PyM.lift (g σ) >>= fun a => PyM.modify (v a)) := by
  intro σ σ' hr
  have := h σ σ' hr
  rw [PyM.get_bind_run, PyM.get_bind_run]
  cases hx : f σ <;> cases hz : g σ' <;> rw [hx, hz] at this
  · cases this; exact ⟨rfl, hr⟩
  · exact this.elim
  · exact this.elim
  · exact ⟨rfl, hu _ _ _ _ hr this⟩

theorem Lock.when {x z : PyM SpecState Unit} (h : Lock Rs x z) (b : Bool) :
    Lock Rs (PyM.when b x) (PyM.when b z) := by
  cases b with
  | true => exact h
  | false => exact Lock.pure

theorem Lock.getWhen {x z : PyM SpecState Unit} {b c : SpecState → Bool}
    (hb : ∀ σ σ', StRel Rs σ σ' → b σ = c σ') (h : Lock Rs x z) {f g : PyM SpecState Unit}
    (hf : Lock Rs f g) :
    Lock Rs (PyM.get >>= fun σ => PyM.when (b σ) x >>= fun _ => f)
      (PyM.get >>= fun σ => PyM.when (c σ) z >>= fun _ => g) := by
  intro σ σ' hr
  rw [PyM.get_bind_run, PyM.get_bind_run, hb σ σ' hr]
  exact Lock.bind (h.when _) (fun _ => hf) σ σ' hr

variable {I Pd Ob : Option Dist → Option Dist → Prop} (H : SetRelG env D D' I Pd Ob W Rs)
include H

theorem lock_setInitial {d d' : Option Dist} (hd : I d d') :
    Lock Rs (SpecState.setInitial D d) (SpecState.setInitial D' d') :=
  Lock.step (Q := fun _ _ _ _ => True) (fun _ _ h => H.ini (H.setIni' d d' h.cur hd))
    fun _ _ _ _ h _ => ⟨H.setIni d d' h.cur hd, .none, h.ratioOf⟩

theorem lock_setObserved {d d' : Option Dist} (hd : Ob d d') :
    Lock Rs (SpecState.setObserved D d) (SpecState.setObserved D' d') :=
  Lock.step (Q := fun _ _ _ _ => True) (fun _ _ h => H.obs (H.setOb d d' h.cur hd))
    fun _ _ _ _ h _ => ⟨H.setOb d d' h.cur hd, h.fitted, h.ratioOf⟩

theorem lock_setWeights {w w' : Option NArr} (n : Bool) (hw : W w w') :
    Lock Rs (SpecState.setWeights D w n) (SpecState.setWeights D' w' n) :=
  Lock.step (Q := fun σ σ' v v' => Rs { σ.cur with weights := v, predicted := none }
      { σ'.cur with weights := v', predicted := none }) (f := fun _ => DP.weightsOf D.X.r D.y.r w n)
    (g := fun _ => DP.weightsOf D'.X.r D'.y.r w' n)
    (fun _ _ h => H.setW w w' n h.cur hw) fun _ _ _ _ h hq => ⟨hq, .none, h.ratioOf⟩

theorem lock_setWeightsIf {w w' : Option NArr} (hw : OptW W w w') :
    Lock Rs (SpecState.setWeightsIf D w) (SpecState.setWeightsIf D' w') := by
  cases w <;> cases w'
  · exact Lock.pure
  · exact hw.elim
  · exact hw.elim
  · exact lock_setWeights H false hw

theorem lock_setPredicted {d d' : Option Dist} (bw : ℕ) {w w' : Option NArr} (hd : Pd d d')
    (hw : OptW W w w') :
    Lock Rs (SpecState.setPredicted env D d bw w) (SpecState.setPredicted env D' d' bw w') :=
  (lock_setWeightsIf H hw).bind fun _ =>
    Lock.step (Q := fun _ _ _ _ => True) (fun _ _ h => H.pred (H.setPr d d' bw h.cur hd))
      fun _ _ _ _ h _ => ⟨H.setPr d d' bw h.cur hd, .none, h.ratioOf⟩

theorem lock_fit {d d' : Option Dist} (bw : ℕ) {w w' : Option NArr} (hd : Pd d d')
    (hw : OptW W w w') :
    Lock Rs (SpecState.fit env D d bw w) (SpecState.fit env D' d' bw w') := by
  refine Lock.getWhen (b := fun σ => σ.cur.initial.isNone) (c := fun σ => σ.cur.initial.isNone)
    (fun _ _ h => H.initial h.cur) (lock_setInitial H H.iNone) ?_
  refine Lock.getWhen (b := fun σ => σ.cur.predicted.isNone) (c := fun σ => σ.cur.predicted.isNone)
    (fun _ _ h => H.predicted h.cur) (lock_setPredicted H bw hd hw) ?_
  intro σ σ' hr
  have h1 := H.ratio hr.cur
  have h2 := H.updated hr.cur
  rw [PyM.get_bind_run, PyM.get_bind_run]
  cases e1 : σ.cur.ratio env D <;> cases e1' : σ'.cur.ratio env D' <;> rw [e1, e1'] at h1
  · cases h1; exact ⟨rfl, hr⟩
  · exact h1.elim
  · exact h1.elim
  · simp only [PyM.lift_ok_bind, PyM.modify_bind_run]
    have hr' : StRel Rs ⟨σ.cur, σ.fitted, some σ.cur⟩ ⟨σ'.cur, σ'.fitted, some σ'.cur⟩ :=
      ⟨hr.cur, hr.fitted, .some hr.cur⟩
    cases e2 : σ.cur.updated env D <;> cases e2' : σ'.cur.updated env D' <;> rw [e2, e2'] at h2
    · cases h2; exact ⟨rfl, hr'⟩
    · exact h2.elim
    · exact h2.elim
    · exact ⟨rfl, hr.cur, .some hr.cur, .some hr.cur⟩

theorem lock_refit : Lock Rs
    (PyM.get >>= fun σ => PyM.when σ.fitted.isNone (SpecState.fit env D none 0 none))
    (PyM.get >>= fun σ => PyM.when σ.fitted.isNone (SpecState.fit env D' none 0 none)) := by
  intro σ σ' hr
  rw [PyM.get_bind_run, PyM.get_bind_run]
  have : σ.fitted.isNone = σ'.fitted.isNone := by
    have := hr.fitted
    cases h1 : σ.fitted <;> cases h2 : σ'.fitted <;> rw [h1, h2] at this <;> first | rfl | cases this
  rw [this]
  exact (lock_fit H 0 H.pNone (by trivial)).when _ σ σ' hr

theorem lock_op {op op' : DOp} (h : OpRelG I Pd Ob W op op') :
    Lock Rs (op.spec env D) (op'.spec env D') := by
  cases h with
  | setWeights h => exact lock_setWeights H _ h
  | setObserved h => exact lock_setObserved H h
  | setInitial h => exact lock_setInitial H h
  | setPredicted h h' => exact lock_setPredicted H _ h h'
  | fit h h' => exact lock_fit H _ h h'
  | estimate => exact lock_refit H
  | expectedRatio => exact lock_refit H

theorem lock_after {ops ops' : List DOp} (h : List.Forall₂ (OpRelG I Pd Ob W) ops ops') :
    ∀ {σ σ'}, StRel Rs σ σ' → StRel Rs (σ.after env D ops) (σ'.after env D' ops') := by
  induction h with
  | nil => intro σ σ' h; exact h
  | cons h _ ih => intro σ σ' hr; exact ih (lock_op H h σ σ' hr).2

/-- The estimates are those of related settings, or both fail alike before that. -/
theorem lock_estimate {σ σ' : SpecState} (hr : StRel Rs σ σ') :
    (∃ e, (SpecState.estimate env D σ).1 = .error e ∧ (SpecState.estimate env D' σ').1 = .error e) ∨
    ∃ s s', Rs s s' ∧ (SpecState.estimate env D σ).2.fitted = some s ∧
      (SpecState.estimate env D σ).1 = s.best env D ∧
      (SpecState.estimate env D' σ').1 = s'.best env D' := by
  have h := lock_refit H σ σ' hr
  unfold SpecState.estimate
  rw [PyM.get_bind_run, PyM.get_bind_run] at *
  rw [PyM.bind_run, PyM.bind_run]
  have p1 : (PyM.when σ.fitted.isNone (SpecState.fit env D none 0 none) σ).1 = .ok () →
      (PyM.when σ.fitted.isNone (SpecState.fit env D none 0 none) σ).2.fitted.isSome := by
    cases hn : σ.fitted.isNone with
    | true => intro hh; rw [PyM.when_true] at hh ⊢; rw [specFit_post none 0 none σ hh]; rfl
    | false =>
      intro _
      change σ.fitted.isSome
      cases hh : σ.fitted <;> simp_all
  rcases hx : PyM.when σ.fitted.isNone (SpecState.fit env D none 0 none) σ with ⟨r, σ1⟩
  rcases hy : PyM.when σ'.fitted.isNone (SpecState.fit env D' none 0 none) σ' with ⟨r', σ1'⟩
  rw [hx, hy] at h
  rw [hx] at p1
  obtain ⟨h1, h2⟩ := h
  simp only at h1 h2
  subst h1
  cases r with
  | error e => exact Or.inl ⟨e, rfl, rfl⟩
  | ok _ =>
    refine Or.inr ⟨σ1.fitted.getD σ1.cur, σ1'.fitted.getD σ1'.cur, ?_, ?_, rfl, rfl⟩
    swap
    · change σ1.fitted = _
      have := p1 rfl
      simp only at this
      cases h3 : σ1.fitted with
      | none => rw [h3] at this; cases this
      | some s => rfl
    have := h2.fitted
    have hc := h2.cur
    cases h3 : σ1.fitted <;> cases h4 : σ1'.fitted <;> rw [h3, h4] at this
    · exact hc
    · cases this
    · cases this
    · cases this with | some h => exact h

theorem lock_expectedRatio {σ σ' : SpecState} (hr : StRel Rs σ σ') :
    (∃ e, (SpecState.expectedRatio env D σ).1 = .error e ∧
      (SpecState.expectedRatio env D' σ').1 = .error e) ∨
    ∃ s s' t t', Rs s s' ∧ Rs t t' ∧
      (SpecState.expectedRatio env D σ).1 = (do
        let r ← s.ratio env D
        DP.npAverage r t.weights) ∧
      (SpecState.expectedRatio env D' σ').1 = (do
        let r ← s'.ratio env D'
        DP.npAverage r t'.weights) := by
  have h := lock_refit H σ σ' hr
  unfold SpecState.expectedRatio
  rw [PyM.get_bind_run, PyM.get_bind_run] at *
  rw [PyM.bind_run, PyM.bind_run]
  rcases hx : PyM.when σ.fitted.isNone (SpecState.fit env D none 0 none) σ with ⟨r, σ1⟩
  rcases hy : PyM.when σ'.fitted.isNone (SpecState.fit env D' none 0 none) σ' with ⟨r', σ1'⟩
  rw [hx, hy] at h
  obtain ⟨h1, h2⟩ := h
  simp only at h1 h2
  subst h1
  cases r with
  | error e => exact Or.inl ⟨e, rfl, rfl⟩
  | ok _ =>
    refine Or.inr ⟨σ1.ratioOf.getD σ1.cur, σ1'.ratioOf.getD σ1'.cur, σ1.cur, σ1'.cur, ?_, h2.cur,
      rfl, rfl⟩
    have := h2.ratioOf
    have hc := h2.cur
    cases h3 : σ1.ratioOf <;> cases h4 : σ1'.ratioOf <;> rw [h3, h4] at this
    · exact hc
    · cases this
    · cases this
    · cases this with | some h => exact h

end Verif
