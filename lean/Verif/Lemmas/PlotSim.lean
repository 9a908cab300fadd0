import Verif.Model.PlotProb
import Verif.Lemmas.DensityFit

/-!
# The distribution attributes of a `DensityProblem` follow its settings
-/

namespace Verif

variable {env : Env} {D : DData}

namespace DPD

/-- The method with distribution attributes does to the rest of the object what the method of
`Model/Density.lean` does. -/
def Proj {α : Type} (x : PyM DPD α) (z : PyM DP α) : Prop :=
  ∀ S, (x S).1 = (z S.core).1 ∧ (x S).2.core = (z S.core).2

theorem emb_bind_run {α β : Type} (x : PyM DP α) (f : α → PyM DPD β) (S : DPD) :
    (emb x >>= f) S = match x S.core with
      | (.ok a, P) => f a { S with core := P }
      | (.error e, P) => (.error e, { S with core := P }) := by
  rw [PyM.bind_run]
  unfold emb
  rcases x S.core with ⟨r, P⟩
  cases r <;> rfl

theorem Proj.emb {α : Type} (z : PyM DP α) : Proj (emb z) z := fun _ => ⟨rfl, rfl⟩

theorem Proj.pure {α : Type} (a : α) : Proj (Pure.pure a) (Pure.pure a) := fun _ => ⟨rfl, rfl⟩

theorem Proj.bind {α β : Type} {x : PyM DPD α} {z : PyM DP α} {f : α → PyM DPD β} {g : α → PyM DP β}
    (h : Proj x z) (hf : ∀ a, Proj (f a) (g a)) : Proj (x >>= f) (z >>= g) := by
  intro S
  have hS := h S
  rw [PyM.bind_run, PyM.bind_run]
  rcases hx : x S with ⟨r, S'⟩
  rcases hz : z S.core with ⟨r', P'⟩
  rw [hx, hz] at hS
  obtain ⟨h1, h2⟩ := hS
  simp only at h1 h2
  subst h1 h2
  cases r with
  | ok a => exact hf a S'
  | error e => exact ⟨rfl, rfl⟩

theorem Proj.when {x : PyM DPD Unit} {z : PyM DP Unit} (h : Proj x z) (b : Bool) :
    Proj (PyM.when b x) (PyM.when b z) := by
  cases b with
  | true => exact h
  | false => exact Proj.pure ()

/-- After an attribute has been assigned. -/
theorem Proj.then {x : PyM DPD Unit} {z : PyM DP Unit} (h : Proj x z) {f : DPD → DPD}
    (hf : ∀ S, (f S).core = S.core) : Proj (x >>= fun _ => PyM.modify f) z := by
  intro S
  have hS := h S
  rw [PyM.bind_run]
  rcases hx : x S with ⟨r, S'⟩
  rw [hx] at hS
  cases r with
  | error e => exact hS
  | ok a => exact ⟨hS.1, (hf S').trans hS.2⟩

/-- Reading the state. -/
theorem Proj.get {β : Type} {f : DPD → PyM DPD β} {g : DP → PyM DP β}
    (h : ∀ S, (f S S).1 = (g S.core S.core).1 ∧ (f S S).2.core = (g S.core S.core).2) :
    Proj (PyM.get >>= f) (PyM.get >>= g) := h

theorem proj_setWeights (w : Option NArr) (n : Bool) : Proj (setWeights w n) (DP.setWeights w n) :=
  (Proj.emb _).then fun _ => rfl

theorem proj_setWeightsIf (w : Option NArr) : Proj (setWeightsIf w) (DP.setWeightsIf w) := by
  cases w with
  | none => exact Proj.pure ()
  | some w => exact proj_setWeights _ _

theorem proj_setObserved (d : Option Dist) : Proj (setObserved d) (DP.setObserved d) :=
  fun _ => ⟨rfl, rfl⟩

theorem proj_setInitial (d : Option Dist) : Proj (setInitial d) (DP.setInitial d) := by
  intro S
  exact (Proj.emb (DP.setInitial d)).then
    (f := fun S' => { S' with inDist := some (d.getD (uniformOn S.core.domain)), prDist := none })
    (fun _ => rfl) S

theorem setPredicted_split (d : Option Dist) (bw : ℕ) (w : Option NArr) :
    DP.setPredicted env d bw w = (do
      DP.setWeightsIf w
      DP.setPredicted env d bw none) := rfl

theorem proj_setPredicted (d : Option Dist) (bw : ℕ) (w : Option NArr) :
    Proj (setPredicted env d bw w) (DP.setPredicted env d bw w) := by
  rw [setPredicted_split]
  refine (proj_setWeightsIf w).bind fun _ S => ?_
  exact (Proj.emb (DP.setPredicted env d bw none)).then
    (f := fun S' => { S' with prDist := some (predCurve S.core.y S.core.weights (d, bw)) })
    (fun _ => rfl) S

theorem fit_split (d : Option Dist) (bw : ℕ) (w : Option NArr) :
    DP.fit env d bw w = (do
      let P ← PyM.get
      PyM.when P.init.isNone (DP.setInitial none)
      let P ← PyM.get
      PyM.when P.pr.isNone (DP.setPredicted env d bw w)
      let P ← PyM.get
      PyM.when P.ob.isNone (DP.setObserved none)
      fitTail) := rfl

theorem proj_fit (d : Option Dist) (bw : ℕ) (w : Option NArr) :
    Proj (fit env d bw w) (DP.fit env d bw w) := by
  rw [fit_split]
  refine Proj.get fun S => ((proj_setInitial none).when _).bind (fun _ => ?_) S
  refine Proj.get fun S => ((proj_setPredicted d bw w).when _).bind (fun _ => ?_) S
  exact Proj.get fun S => ((proj_setObserved none).when _).bind (fun _ => Proj.emb _) S

theorem proj_mudPoint : Proj (mudPoint env) (DP.mudPoint env) := by
  change Proj (mudPoint env) (do
    let P ← PyM.get
    PyM.when P.up.isNone (DP.fit env)
    pick)
  exact Proj.get fun S => ((proj_fit none 0 none).when _).bind (fun _ => Proj.emb _) S

theorem proj_expectedRatio : Proj (expectedRatio env) (DP.expectedRatio env) := by
  change Proj (expectedRatio env) (do
    let P ← PyM.get
    PyM.when P.up.isNone (DP.fit env)
    average)
  exact Proj.get fun S => ((proj_fit none 0 none).when _).bind (fun _ => Proj.emb _) S

theorem proj_run (op : DOp) : Proj (run env op) (op.run env) := by
  cases op with
  | setWeights w n => exact proj_setWeights w n
  | setObserved d => exact proj_setObserved d
  | setInitial d => exact proj_setInitial d
  | setPredicted d bw w => exact proj_setPredicted d bw w
  | fit d bw w => exact proj_fit d bw w
  | estimate => exact proj_mudPoint.bind fun _ => Proj.pure ()
  | expectedRatio => exact proj_expectedRatio.bind fun _ => Proj.pure ()

/-! ### The attributes -/

/-- The attributes agree with the settings. -/
structure ARel (env : Env) (D : DData) (S : DPD) (σ : SpecState) : Prop where
  core : DRel env D S.core σ
  inn : S.inDist = σ.cur.initial.map fun d => d.getD (uniformOn D.domain)
  prd : S.prDist = σ.cur.predicted.map (predCurve D.y σ.cur.weights)
  ob0 : S.core.ob.isSome → S.obDist.isSome

/-- Lock-step simulation. -/
def ASim {α : Type} (env : Env) (D : DData) (x : PyM DPD α) (z : PyM SpecState α) : Prop :=
  ∀ S σ, ARel env D S σ → (x S).1 = (z σ).1 ∧ ARel env D (x S).2 (z σ).2

theorem ASim.pure {α : Type} (a : α) : ASim env D (Pure.pure a) (Pure.pure a) :=
  fun _ _ h => ⟨rfl, h⟩

theorem ASim.bind {α β : Type} {x : PyM DPD α} {z : PyM SpecState α} {f : α → PyM DPD β}
    {g : α → PyM SpecState β} (h : ASim env D x z) (hf : ∀ a, ASim env D (f a) (g a)) :
    ASim env D (x >>= f) (z >>= g) := by
  intro S σ hr
  have hS := h S σ hr
  rw [PyM.bind_run, PyM.bind_run]
  rcases hx : x S with ⟨r, S'⟩
  rcases hz : z σ with ⟨r', σ'⟩
  rw [hx, hz] at hS
  obtain ⟨h1, h2⟩ := hS
  simp only at h1 h2
  subst h1
  cases r with
  | ok a => exact hf a S' σ' h2
  | error e => exact ⟨rfl, h2⟩

theorem ASim.when {x : PyM DPD Unit} {z : PyM SpecState Unit} (h : ASim env D x z) (b : Bool) :
    ASim env D (PyM.when b x) (PyM.when b z) := by
  cases b with
  | true => exact h
  | false => exact ASim.pure ()

/-- `_ob` changes only in `set_observed`. -/
theorem setWeights_ob (w : Option NArr) (n : Bool) (P : DP) : (DP.setWeights w n P).2.ob = P.ob := by
  unfold DP.setWeights
  rw [PyM.get_bind_run]
  cases DP.weightsOf P.X.r P.n_samples w n <;> rfl

theorem setInitial_ob (d : Option Dist) (P : DP) : (DP.setInitial d P).2.ob = P.ob := by
  unfold DP.setInitial
  rw [PyM.get_bind_run]
  cases (d.getD (uniformOn P.domain)).pdf P.X with
  | error e => rfl
  | ok o => rw [PyM.lift_ok_bind]; cases o.prodRows <;> rfl

theorem setPredicted_ob (d : Option Dist) (bw : ℕ) (P : DP) :
    (DP.setPredicted env d bw none P).2.ob = P.ob := by
  change ((PyM.get >>= fun P => PyM.lift (DP.predVals env P d bw) >>= fun v =>
    PyM.modify fun s => { s with pr := some v, up := none } : PyM DP Unit) P).2.ob = P.ob
  rw [PyM.get_bind_run]
  cases DP.predVals env P d bw <;> rfl

theorem asim_setWeights (w : Option NArr) (n : Bool) :
    ASim env D (setWeights w n) (SpecState.setWeights D w n) := by
  intro S σ h
  have hp := proj_setWeights w n S
  have hs := sim_setWeights (env := env) w n S.core σ h.core
  refine ⟨hp.1.trans hs.1, ?_⟩
  have hob : (setWeights w n S).2.core.ob = S.core.ob := by rw [hp.2]; exact setWeights_ob w n _
  have hat : (setWeights w n S).2.inDist = S.inDist ∧ (setWeights w n S).2.obDist = S.obDist ∧
      (setWeights w n S).2.prDist =
        if (DP.setWeights w n S.core).1 = .ok () then none else S.prDist := by
    unfold setWeights
    rw [emb_bind_run]
    rcases DP.setWeights w n S.core with ⟨r, P'⟩
    cases r with
    | error e => exact ⟨rfl, rfl, (if_neg (by simp)).symm⟩
    | ok a => exact ⟨rfl, rfl, (if_pos rfl).symm⟩
  refine ⟨hp.2 ▸ hs.2, ?_, ?_, fun hh => ?_⟩
  · rw [hat.1, h.inn]
    unfold SpecState.setWeights
    cases DP.weightsOf D.X.r D.y.r w n <;> rfl
  · rw [hat.2.2, hs.1]
    unfold SpecState.setWeights
    cases DP.weightsOf D.X.r D.y.r w n with
    | error e => exact (if_neg (by rintro ⟨⟩)).trans h.prd
    | ok v => exact if_pos rfl
  · rw [hob] at hh
    rw [hat.2.1]
    exact h.ob0 hh

theorem asim_setInitial (d : Option Dist) :
    ASim env D (setInitial d) (SpecState.setInitial D d) := by
  intro S σ h
  have hp := proj_setInitial d S
  have hs := sim_setInitial (env := env) d S.core σ h.core
  refine ⟨hp.1.trans hs.1, ?_⟩
  have hob : (setInitial d S).2.core.ob = S.core.ob := by rw [hp.2]; exact setInitial_ob d _
  have hat : (setInitial d S).2.obDist = S.obDist ∧
      (setInitial d S).2.inDist = (if (DP.setInitial d S.core).1 = .ok ()
        then some (d.getD (uniformOn S.core.domain)) else S.inDist) ∧
      (setInitial d S).2.prDist =
        if (DP.setInitial d S.core).1 = .ok () then none else S.prDist := by
    unfold setInitial
    rw [PyM.get_bind_run, emb_bind_run]
    rcases DP.setInitial d S.core with ⟨r, P'⟩
    cases r with
    | error e => exact ⟨rfl, (if_neg (by simp)).symm, (if_neg (by simp)).symm⟩
    | ok a => exact ⟨rfl, (if_pos rfl).symm, (if_pos rfl).symm⟩
  refine ⟨hp.2 ▸ hs.2, ?_, ?_, fun hh => ?_⟩
  · rw [hat.2.1, hs.1, h.core.dom]
    unfold SpecState.setInitial
    rw [PyM.get_bind_run]
    cases ({ σ.cur with initial := some d } : Settings).ini D with
    | error e => exact (if_neg (by rintro ⟨⟩)).trans h.inn
    | ok v => exact if_pos rfl
  · rw [hat.2.2, hs.1]
    unfold SpecState.setInitial
    rw [PyM.get_bind_run]
    cases ({ σ.cur with initial := some d } : Settings).ini D with
    | error e => exact (if_neg (by rintro ⟨⟩)).trans h.prd
    | ok v => exact if_pos rfl
  · rw [hob] at hh
    rw [hat.1]
    exact h.ob0 hh

theorem asim_setObserved (d : Option Dist) :
    ASim env D (setObserved d) (SpecState.setObserved D d) := by
  intro S σ h
  have hp := proj_setObserved d S
  have hs := sim_setObserved (env := env) d S.core σ h.core
  refine ⟨hp.1.trans hs.1, hp.2 ▸ hs.2, ?_, ?_, fun _ => rfl⟩
  · change S.inDist = _
    rw [h.inn]
    unfold SpecState.setObserved
    rw [PyM.get_bind_run]
    cases ({ σ.cur with observed := d } : Settings).obs D <;> rfl
  · change S.prDist = _
    rw [h.prd]
    unfold SpecState.setObserved
    rw [PyM.get_bind_run]
    cases ({ σ.cur with observed := d } : Settings).obs D <;> rfl

theorem asim_setPredicted (d : Option Dist) (bw : ℕ) (w : Option NArr) :
    ASim env D (setPredicted env d bw w) (SpecState.setPredicted env D d bw w) := by
  refine ASim.bind ?_ fun _ => ?_
  · cases w with
    | none => exact ASim.pure ()
    | some w => exact asim_setWeights (some w) false
  intro S σ h
  have hs := sim_setPredicted (env := env) d bw none S.core σ h.core
  change ((emb (DP.setPredicted env d bw none) >>= fun _ => PyM.modify fun S' =>
    { S' with prDist := some (predCurve S.core.y S.core.weights (d, bw)) } : PyM DPD Unit) S).1 =
      (SpecState.setPredicted env D d bw none σ).1 ∧ ARel env D
    ((emb (DP.setPredicted env d bw none) >>= fun _ => PyM.modify fun S' =>
    { S' with prDist := some (predCurve S.core.y S.core.weights (d, bw)) } : PyM DPD Unit) S).2
      (SpecState.setPredicted env D d bw none σ).2
  have hob := setPredicted_ob (env := env) d bw S.core
  rw [emb_bind_run]
  rcases hx : DP.setPredicted env d bw none S.core with ⟨r, P'⟩
  rw [hx] at hs hob
  have e : SpecState.setPredicted env D d bw none σ =
      match ({ σ.cur with predicted := some (d, bw) } : Settings).pred env D with
      | .ok _ => (.ok (), ⟨{ σ.cur with predicted := some (d, bw) }, none, σ.ratioOf⟩)
      | .error e => (.error e, σ) := by
    unfold SpecState.setPredicted SpecState.setWeightsIf
    rw [PyM.pure_bind', PyM.get_bind_run]
    cases ({ σ.cur with predicted := some (d, bw) } : Settings).pred env D <;> rfl
  rw [e] at hs ⊢
  cases hv : ({ σ.cur with predicted := some (d, bw) } : Settings).pred env D with
  | error er =>
    rw [hv] at hs
    obtain ⟨h1, h2⟩ := hs
    simp only at h1 h2
    subst h1
    exact ⟨rfl, h2, h.inn, h.prd, fun hh => h.ob0 (by rwa [show P'.ob = S.core.ob from hob] at hh)⟩
  | ok v =>
    rw [hv] at hs
    obtain ⟨h1, h2⟩ := hs
    simp only at h1 h2
    subst h1
    refine ⟨rfl, h2, h.inn, ?_, fun hh => h.ob0 ?_⟩
    swap
    · have hh : P'.ob.isSome := hh
      rwa [show P'.ob = S.core.ob from hob] at hh
    change some _ = some _
    rw [h.core.y, h.core.w]

/-- The attributes read by the parameter-space plot. -/
theorem emb_attrs {α : Type} (x : PyM DP α) (S : DPD) : (emb x S).2.inDist = S.inDist ∧
    (emb x S).2.prDist = S.prDist ∧ (emb x S).2.obDist = S.obDist := ⟨rfl, rfl, rfl⟩

/-- `_ob` is not changed by the last lines of `fit`. -/
theorem fitTail_ob (P : DP) : (fitTail P).2.ob = P.ob := by
  unfold fitTail
  rw [PyM.get_bind_run]
  cases DP.theAttr P.ob with
  | error e => rfl
  | ok ob =>
    cases DP.theAttr P.pr with
    | error e => rfl
    | ok pr =>
      cases DP.theAttr P.init with
      | error e => rfl
      | ok ini =>
        simp only [PyM.lift_ok_bind]
        cases bzip1 (· / ·) ob pr with
        | error e => rfl
        | ok r =>
          simp only [PyM.lift_ok_bind, PyM.modify_bind_run]
          cases bzip1 (· * ·) ini P.weights with
          | error e => rfl
          | ok iw =>
            simp only [PyM.lift_ok_bind]
            cases bzip1 (· * ·) iw r <;> rfl

/-- The part of `fit` that fills in the initial and the predicted distribution. -/
noncomputable def fitHead (env : Env) (d : Option Dist) (bw : ℕ) (w : Option NArr) : PyM DPD Unit := do
  let S ← PyM.get
  PyM.when S.core.init.isNone (setInitial none)
  let S ← PyM.get
  PyM.when S.core.pr.isNone (setPredicted env d bw w)

/-- The same for the settings. -/
noncomputable def specHead (env : Env) (D : DData) (d : Option Dist) (bw : ℕ) (w : Option NArr) :
    PyM SpecState Unit := do
  let σ ← PyM.get
  PyM.when σ.cur.initial.isNone (SpecState.setInitial D none)
  let σ ← PyM.get
  PyM.when σ.cur.predicted.isNone (SpecState.setPredicted env D d bw w)

theorem asim_head (d : Option Dist) (bw : ℕ) (w : Option NArr) :
    ASim env D (fitHead env d bw w) (specHead env D d bw w) := by
  intro S σ h
  change ((PyM.when S.core.init.isNone (setInitial none) >>= fun _ =>
      PyM.get >>= fun S : DPD => PyM.when S.core.pr.isNone (setPredicted env d bw w)) S).1 =
    ((PyM.when σ.cur.initial.isNone (SpecState.setInitial D none) >>= fun _ => PyM.get >>=
      fun σ : SpecState => PyM.when σ.cur.predicted.isNone (SpecState.setPredicted env D d bw w)) σ).1 ∧
    ARel env D ((PyM.when S.core.init.isNone (setInitial none) >>= fun _ =>
      PyM.get >>= fun S : DPD => PyM.when S.core.pr.isNone (setPredicted env d bw w)) S).2
    ((PyM.when σ.cur.initial.isNone (SpecState.setInitial D none) >>= fun _ => PyM.get >>=
      fun σ : SpecState => PyM.when σ.cur.predicted.isNone (SpecState.setPredicted env D d bw w)) σ).2
  rw [h.core.init_isNone]
  refine ((asim_setInitial none).when _).bind (fun _ S σ h => ?_) S σ h
  rw [PyM.get_bind_run, PyM.get_bind_run, h.core.pr_isNone]
  exact (asim_setPredicted d bw w).when _ S σ h

/-- The rest of `fit`. -/
noncomputable def fitRest : PyM DPD Unit := do
  let S ← PyM.get
  PyM.when S.core.ob.isNone (setObserved none)
  emb fitTail

/-- The rest of `fit` for the settings. -/
noncomputable def specRest (env : Env) (D : DData) : PyM SpecState Unit := do
  let σ ← PyM.get
  let _ ← PyM.lift (σ.cur.ratio env D)
  PyM.modify fun σ => ⟨σ.cur, σ.fitted, some σ.cur⟩
  let _ ← PyM.lift (σ.cur.updated env D)
  PyM.modify fun σ => ⟨σ.cur, some σ.cur, σ.ratioOf⟩

theorem bind_assoc' {σ α β γ : Type} (x : PyM σ α) (f : α → PyM σ β) (g : β → PyM σ γ) :
    (x >>= f) >>= g = x >>= fun a => f a >>= g := by
  funext s
  rw [PyM.bind_run, PyM.bind_run, PyM.bind_run]
  rcases x s with ⟨r, s'⟩
  cases r <;> rfl

theorem fit_eq (d : Option Dist) (bw : ℕ) (w : Option NArr) :
    fit env d bw w = fitHead env d bw w >>= fun _ => fitRest := by
  unfold fit fitHead fitRest
  rw [bind_assoc']
  congr 1; funext S
  rw [bind_assoc']
  rfl

theorem specFit_eq (d : Option Dist) (bw : ℕ) (w : Option NArr) :
    SpecState.fit env D d bw w = specHead env D d bw w >>= fun _ => specRest env D := by
  unfold SpecState.fit specHead specRest
  rw [bind_assoc']
  congr 1; funext S
  rw [bind_assoc']
  rfl

theorem specRest_cur (σ : SpecState) : (specRest env D σ).2.cur = σ.cur := by
  unfold specRest
  rw [PyM.get_bind_run]
  cases σ.cur.ratio env D with
  | error e => rfl
  | ok r =>
    rw [PyM.lift_ok_bind, PyM.modify_bind_run]
    cases σ.cur.updated env D <;> rfl

theorem setObserved_none_run (P : DP) : DP.setObserved none P = (.ok (),
    { P with ob := some ((rowsOf (fun _ x => .fin (stdNormalPdf x)) P.y).map List.prod) }) := rfl

theorem fitRest_attrs (S : DPD) : (fitRest S).2.inDist = S.inDist ∧
    (fitRest S).2.prDist = S.prDist ∧
    (fitRest S).2.obDist = (if S.core.ob.isNone then some stdNormal else S.obDist) ∧
    ((fitRest S).2.core.ob.isSome) ∧ (∀ v, S.core.ob = some v → (fitRest S).2.core.ob = some v) := by
  unfold fitRest
  rw [PyM.get_bind_run]
  cases hob : S.core.ob with
  | some v =>
    rw [Option.isNone_some, PyM.when_false, PyM.pure_bind']
    refine ⟨rfl, rfl, (if_neg (by simp)).symm, ?_, fun v' hv' => ?_⟩
    · change (fitTail S.core).2.ob.isSome
      rw [fitTail_ob, hob]; rfl
    · change (fitTail S.core).2.ob = _
      rw [fitTail_ob, hob]; exact hv'
  | none =>
    rw [Option.isNone_none, PyM.when_true]
    refine ⟨rfl, rfl, (if_pos rfl).symm, ?_, fun v' hv' => by cases hv'⟩
    change (fitTail (DP.setObserved none S.core).2).2.ob.isSome
    rw [fitTail_ob]
    rfl

theorem asim_fit (d : Option Dist) (bw : ℕ) (w : Option NArr) :
    ASim env D (fit env d bw w) (SpecState.fit env D d bw w) := by
  intro S σ h
  have hp := proj_fit (env := env) d bw w S
  have hs := sim_fit (env := env) d bw w S.core σ h.core
  have hh := asim_head (env := env) d bw w S σ h
  suffices hat : (fit env d bw w S).2.inDist = (SpecState.fit env D d bw w σ).2.cur.initial.map
        (fun d => d.getD (uniformOn D.domain)) ∧
      (fit env d bw w S).2.prDist = (SpecState.fit env D d bw w σ).2.cur.predicted.map
        (predCurve D.y (SpecState.fit env D d bw w σ).2.cur.weights) ∧
      ((fit env d bw w S).2.core.ob.isSome → (fit env d bw w S).2.obDist.isSome) from
    ⟨hp.1.trans hs.1, hp.2 ▸ hs.2, hat.1, hat.2.1, hat.2.2⟩
  rw [fit_eq, specFit_eq, PyM.bind_run, PyM.bind_run]
  rcases hx : fitHead env d bw w S with ⟨r, S1⟩
  rcases hz : specHead env D d bw w σ with ⟨r', σ1⟩
  rw [hx, hz] at hh
  obtain ⟨h1, h2⟩ := hh
  simp only at h1 h2
  subst h1
  cases r with
  | error e => exact ⟨h2.inn, h2.prd, h2.ob0⟩
  | ok a =>
    have ha := fitRest_attrs S1
    have hc := specRest_cur (env := env) (D := D) σ1
    refine ⟨?_, ?_, fun _ => ?_⟩
    · change (fitRest S1).2.inDist = (specRest env D σ1).2.cur.initial.map _
      rw [ha.1, hc, h2.inn]
    · change (fitRest S1).2.prDist = (specRest env D σ1).2.cur.predicted.map
        (predCurve D.y (specRest env D σ1).2.cur.weights)
      rw [ha.2.1, hc, h2.prd]
    · change (fitRest S1).2.obDist.isSome
      rw [ha.2.2.1]
      cases ho : S1.core.ob with
      | none => rfl
      | some v => exact h2.ob0 (by rw [ho]; rfl)

/-- A method that fits if needed and then reads. -/
theorem asim_cached {α : Type} (x : PyM DP α) (hx : ∀ P, (x P).2 = P) (S : DPD) (σ : SpecState)
    (h : ARel env D S σ) :
    ARel env D ((PyM.get >>= fun S : DPD => PyM.when S.core.up.isNone (fit env) >>= fun _ =>
      emb x : PyM DPD α) S).2
      ((PyM.get >>= fun σ : SpecState =>
        PyM.when σ.fitted.isNone (SpecState.fit env D none 0 none)) σ).2 := by
  rw [PyM.get_bind_run, PyM.get_bind_run, h.core.up_isNone, PyM.bind_run]
  have h1 := (asim_fit (env := env) (D := D) none 0 none).when σ.fitted.isNone S σ h
  rcases hx' : PyM.when σ.fitted.isNone (fit env) S with ⟨r, S1⟩
  rw [hx'] at h1
  cases r with
  | error e => exact h1.2
  | ok a =>
    have : (emb x S1).2 = S1 := by unfold emb; simp [hx]
    change ARel env D (emb x S1).2 _
    rw [this]
    exact h1.2

theorem pick_state (P : DP) : (pick P).2 = P := by
  unfold pick
  rw [PyM.get_bind_run]
  cases DP.theAttr P.up with
  | error e => rfl
  | ok u => rw [PyM.lift_ok_bind]; cases npArgmax u <;> rfl

theorem average_state (P : DP) : (average P).2 = P := by
  unfold average
  rw [PyM.get_bind_run]
  cases DP.theAttr P.r <;> rfl

theorem asim_mudPoint (S : DPD) (σ : SpecState) (h : ARel env D S σ) :
    (mudPoint env S).1 = (SpecState.estimate env D σ).1 :=
  (proj_mudPoint S).1.trans (sim_estimate S.core σ h.core).1

theorem asim_run (op : DOp) (S : DPD) (σ : SpecState) (h : ARel env D S σ) :
    ARel env D (run env op S).2 (op.spec env D σ).2 := by
  cases op with
  | setWeights w n => exact (asim_setWeights w n S σ h).2
  | setObserved d => exact (asim_setObserved d S σ h).2
  | setInitial d => exact (asim_setInitial d S σ h).2
  | setPredicted d bw w => exact (asim_setPredicted d bw w S σ h).2
  | fit d bw w => exact (asim_fit d bw w S σ h).2
  | estimate =>
    have := asim_cached pick pick_state S σ h
    change ARel env D ((mudPoint env >>= fun _ => pure ()) S).2 _
    rw [PyM.bind_run]
    change ARel env D (mudPoint env S).2 _ at this
    rcases hx : mudPoint env S with ⟨r, S1⟩
    rw [hx] at this
    cases r <;> exact this
  | expectedRatio =>
    have := asim_cached average average_state S σ h
    change ARel env D ((expectedRatio env >>= fun _ => pure ()) S).2 _
    rw [PyM.bind_run]
    change ARel env D (expectedRatio env S).2 _ at this
    rcases hx : expectedRatio env S with ⟨r, S1⟩
    rw [hx] at this
    cases r <;> exact this

theorem asim_after (ops : List DOp) : ∀ (S : DPD) (σ : SpecState), ARel env D S σ →
    ARel env D (S.after env ops) (σ.after env D ops) := by
  induction ops with
  | nil => intro S σ h; exact h
  | cons op ops ih => intro S σ h; exact ih _ _ (asim_run op S σ h)

end DPD

end Verif
