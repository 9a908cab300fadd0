import Verif.Props.Bayes

/-!
# `BayesProblem`: what the estimate reflects after any history, and where the two likelihood modes differ (C41-C43)
-/

namespace Verif

/-! ## Specification -/

/-- What determines the next estimate: the settings in force, the mode asked for by the last call of `set_likelihood`
(**even if that call raised**), and the settings and mode of the last successful fit that is still in force. -/
structure BHist where
  set : BSettings := {}
  mode : Bool := false
  fitted : Option (BSettings × Bool) := none

/-- Prior and likelihood combined in the way `mode` says, which need not be the mode the likelihood was computed for. -/
noncomputable def mixedPosterior (D : DData) (s : BSettings) (mode : Bool) : Py (List F) := do
  let pr ← s.priorAt D
  match s.like with
  | none => .error .typeError
  | some (d, log) => do
    let ll ← likeAt d log D.y
    let ps ← BSettings.combine mode pr ll
    BSettings.checked D ps

open Classical in
/-- A fit: it takes effect unless it raises. -/
noncomputable def BHist.fit (D : DData) (t : BHist) : BHist :=
  if ∃ u, mixedPosterior D t.set t.mode = .ok u then { t with fitted := some (t.set, t.mode) } else t

open Classical in
/-- The effect of a call. -/
noncomputable def BHist.step (D : DData) (t : BHist) : BOp → BHist
  | .setPrior d =>
    if ∃ v, densAt (d.getD (uniformOn D.domain)) D.X = .ok v
    then { t with set := { t.set with prior := d }, fitted := none } else t
  | .setLikelihood d log =>
    if ∃ v, likeAt d log D.y = .ok v
    then { set := { t.set with like := some (d, log) }, mode := log, fitted := none }
    else { t with mode := log }
  | .fit => t.fit D
  | .estimate => if t.fitted.isSome then t else t.fit D

/-- The effect of a sequence of calls on a fresh object. -/
noncomputable def BHist.after (D : DData) (ops : List BOp) : BHist := ops.foldl (BHist.step D) {}

/-- The sample with the largest posterior: of the fit in force, or of a fit made now. -/
noncomputable def BHist.best (D : DData) (t : BHist) : Py (List ℝ) := do
  let u ← mixedPosterior D (t.fitted.getD (t.set, t.mode)).1 (t.fitted.getD (t.set, t.mode)).2
  let m ← npArgmax u
  D.X.rowAt m

/-! ## Refinement -/

structure BRelX (D : DData) (P : BP) (t : BHist) : Prop where
  X : P.X = D.X
  y : P.y = D.y
  dom : P.domain = D.domain
  pr0 : P.pr = none → t.set.prior = none
  pr1 : ∀ v, P.pr = some v → t.set.priorAt D = .ok v
  ll0 : P.ll = none → t.set.like = none
  ll1 : ∀ v, P.ll = some v → ∃ d l, t.set.like = some (d, l) ∧ likeAt d l D.y = .ok v
  mode : P.log = t.mode
  ps0 : P.ps = none → t.fitted = none
  ps1 : ∀ v, P.ps = some v → P.pr ≠ none ∧ ∃ s m, t.fitted = some (s, m) ∧ mixedPosterior D s m = .ok v

variable {D : DData} {P : BP} {t : BHist}

theorem setPrior_run (hX : P.X = D.X) (hdom : P.domain = D.domain) (d : Option Dist) :
    BP.setPrior d P = match densAt (d.getD (uniformOn D.domain)) D.X with
      | .ok v => (.ok (), { P with pr := some v, ps := none })
      | .error e => (.error e, P) := by
  unfold BP.setPrior densAt
  rw [PyM.get_bind_run, ← hdom, ← hX]
  cases hx : (d.getD (uniformOn P.domain)).pdf P.X with
  | error e => rfl
  | ok o =>
    rw [PyM.lift_ok_bind, Py.ok_bind]
    cases o.prodRows <;> rfl

theorem setLikelihood_runX (hy : P.y = D.y) (d : Dist) (log : Bool) :
    BP.setLikelihood d log P = match likeAt d log D.y with
      | .ok v => (.ok (), { P with log := log, ll := some v, ps := none })
      | .error e => (.error e, { P with log := log }) := by
  unfold BP.setLikelihood likeAt densAt
  rw [PyM.get_bind_run, ← hy]
  cases log
  · simp only [Bool.false_eq_true, if_false, PyM.modify_bind_run]
    cases hx : d.pdf P.y with
    | error e => rfl
    | ok o =>
      rw [PyM.lift_ok_bind, Py.ok_bind]
      cases o.prodRows <;> rfl
  · simp only [if_true, PyM.modify_bind_run]
    cases hx : d.logpdf P.y with
    | error e => rfl
    | ok o =>
      rw [PyM.lift_ok_bind, Py.ok_bind]
      cases o.sumRows <;> rfl

theorem brelx_setPrior (h : BRelX D P t) (d : Option Dist) :
    BRelX D (BP.setPrior d P).2 (t.step D (.setPrior d)) := by
  rw [setPrior_run h.X h.dom]
  cases hx : densAt (d.getD (uniformOn D.domain)) D.X with
  | error e =>
    simp only [BHist.step, hx, reduceCtorEq, exists_false, if_false]
    exact h
  | ok v =>
    simp only [BHist.step, hx, Except.ok.injEq, exists_eq', if_true]
    exact {
      X := h.X, y := h.y, dom := h.dom
      pr0 := fun h => by cases h
      pr1 := fun w hw => by cases hw; exact hx
      ll0 := h.ll0
      ll1 := h.ll1
      mode := h.mode
      ps0 := fun _ => rfl
      ps1 := fun w hw => by cases hw }

theorem brelx_setLikelihood (h : BRelX D P t) (d : Dist) (log : Bool) :
    BRelX D (BP.setLikelihood d log P).2 (t.step D (.setLikelihood d log)) := by
  rw [setLikelihood_runX h.y]
  cases hx : likeAt d log D.y with
  | error e =>
    simp only [BHist.step, hx, reduceCtorEq, exists_false, if_false]
    exact {
      X := h.X, y := h.y, dom := h.dom
      pr0 := h.pr0
      pr1 := h.pr1
      ll0 := h.ll0
      ll1 := h.ll1
      mode := rfl
      ps0 := h.ps0
      ps1 := h.ps1 }
  | ok v =>
    simp only [BHist.step, hx, Except.ok.injEq, exists_eq', if_true]
    exact {
      X := h.X, y := h.y, dom := h.dom
      pr0 := h.pr0
      pr1 := h.pr1
      ll0 := fun h => by cases h
      ll1 := fun w hw => by cases hw; exact ⟨d, log, rfl, hx⟩
      mode := rfl
      ps0 := fun _ => rfl
      ps1 := fun w hw => by cases hw }

theorem brelx_default (h : BRelX D P t) :
    (∃ v, t.set.priorAt D = .ok v ∧
      PyM.when P.pr.isNone (BP.setPrior none) P =
        (.ok (), if P.pr.isNone then { P with pr := some v, ps := none } else P) ∧
      BRelX D (if P.pr.isNone then { P with pr := some v, ps := none } else P) t ∧
      (if P.pr.isNone then { P with pr := some v, ps := none } else P).pr = some v) ∨
    ∃ e, t.set.priorAt D = .error e ∧ PyM.when P.pr.isNone (BP.setPrior none) P = (.error e, P) := by
  cases hp : P.pr with
  | some v =>
    left
    exact ⟨v, h.pr1 v hp, rfl, h, hp⟩
  | none =>
    have hs := h.pr0 hp
    have e0 : t.set.priorAt D = densAt (uniformOn D.domain) D.X := by
      unfold BSettings.priorAt; rw [hs]; rfl
    rw [Option.isNone_none, PyM.when_true, setPrior_run h.X h.dom, e0, Option.getD_none]
    have hfit : t.fitted = none := by
      apply h.ps0
      cases hps : P.ps with
      | none => rfl
      | some v => exact absurd hp (h.ps1 v hps).1
    cases hx : densAt (uniformOn D.domain) D.X with
    | error e => right; exact ⟨e, rfl, rfl⟩
    | ok v =>
      left
      refine ⟨v, rfl, rfl, ?_, rfl⟩
      exact {
        X := h.X, y := h.y, dom := h.dom
        pr0 := fun h => by cases h
        pr1 := fun w hw => by cases hw; rw [e0]; exact hx
        ll0 := h.ll0
        ll1 := h.ll1
        mode := h.mode
        ps0 := fun _ => hfit
        ps1 := fun w hw => by cases hw }

theorem brelx_fit (h : BRelX D P t) :
    BRelX D (BP.fit P).2 (t.fit D) ∧
      ((∃ u, mixedPosterior D t.set t.mode = .ok u ∧ (BP.fit P).1 = .ok () ∧ (BP.fit P).2.ps = some u) ∨
        ∃ e, mixedPosterior D t.set t.mode = .error e ∧ (BP.fit P).1 = .error e) := by
  classical
  have hbad : ∀ e, mixedPosterior D t.set t.mode = .error e → t.fit D = t := by
    intro e he
    unfold BHist.fit
    rw [he, if_neg (by simp)]
  unfold BP.fit
  rw [PyM.get_bind_run, PyM.bind_run]
  rcases brelx_default h with ⟨v, hv, e1, hrel, hpr⟩ | ⟨e, hv, e1⟩
  swap
  · have hm : mixedPosterior D t.set t.mode = .error e := by unfold mixedPosterior; rw [hv]; rfl
    rw [e1, hbad e hm]
    exact ⟨h, Or.inr ⟨e, hm, rfl⟩⟩
  rw [e1]
  generalize (if P.pr.isNone then { P with pr := some v, ps := none } else P) = Q at hrel hpr ⊢
  dsimp only
  rw [PyM.get_bind_run]
  cases hll : Q.ll with
  | none =>
    have hm : mixedPosterior D t.set t.mode = .error .typeError := by
      unfold mixedPosterior
      rw [hv, Py.ok_bind, hrel.ll0 hll]
    rw [hbad _ hm]
    exact ⟨hrel, Or.inr ⟨.typeError, hm, rfl⟩⟩
  | some l =>
    obtain ⟨d, lg, hd, hl⟩ := hrel.ll1 l hll
    have epost : mixedPosterior D t.set t.mode = (do
        let ps ← BSettings.combine Q.log v l
        BSettings.checked D ps) := by
      unfold mixedPosterior
      rw [hv, Py.ok_bind, hd, hrel.mode]
      dsimp only
      rw [hl, Py.ok_bind]
    rw [Option.isNone_some, PyM.when_false, PyM.pure_bind', hpr]
    simp only [DP.theAttr, PyM.lift_ok_bind]
    have ec : (if Q.log = true then bzip1 (· + ·) (List.map F.log v) l else bzip1 (· * ·) v l) =
      BSettings.combine Q.log v l := rfl
    rw [ec]
    cases hps : BSettings.combine Q.log v l with
    | error e =>
      rw [hps] at epost
      have hm : mixedPosterior D t.set t.mode = .error e := epost
      rw [hbad e hm]
      exact ⟨hrel, Or.inr ⟨e, hm, rfl⟩⟩
    | ok ps =>
      rw [hps, Py.ok_bind] at epost
      rw [PyM.lift_ok_bind]
      unfold BSettings.checked at epost
      rw [hrel.X]
      by_cases h1 : ps.length = D.X.r
      · rw [pyAssert_true h1] at epost ⊢
        by_cases h2 : ps.sum = .fin 0
        · rw [raiseIf_true h2] at epost ⊢
          have hm : mixedPosterior D t.set t.mode = .error .valueError := epost
          rw [hbad _ hm]
          exact ⟨hrel, Or.inr ⟨_, hm, rfl⟩⟩
        · rw [raiseIf_false h2] at epost ⊢
          have hm : mixedPosterior D t.set t.mode = .ok ps := epost
          have hf : t.fit D = { t with fitted := some (t.set, t.mode) } := by
            unfold BHist.fit
            rw [hm, if_pos ⟨_, rfl⟩]
          rw [hf]
          refine ⟨?_, Or.inl ⟨ps, hm, rfl, rfl⟩⟩
          exact {
            X := hrel.X, y := hrel.y, dom := hrel.dom
            pr0 := hrel.pr0
            pr1 := hrel.pr1
            ll0 := hrel.ll0
            ll1 := hrel.ll1
            mode := hrel.mode
            ps0 := fun hw => by cases hw
            ps1 := fun w hw => by
              cases hw
              exact ⟨fun hc => absurd (hpr.symm.trans hc) (by simp), _, _, rfl, hm⟩ }
      · rw [pyAssert_false h1] at epost ⊢
        have hm : mixedPosterior D t.set t.mode = .error .assertionError := epost
        rw [hbad _ hm]
        exact ⟨hrel, Or.inr ⟨_, hm, rfl⟩⟩

theorem brelx_estimate (h : BRelX D P t) :
    BRelX D (BP.mapPoint P).2 (t.step D .estimate) ∧ (BP.mapPoint P).1 = t.best D := by
  unfold BP.mapPoint BHist.best
  rw [PyM.get_bind_run, PyM.bind_run]
  simp only [BHist.step]
  cases hps : P.ps with
  | some u =>
    obtain ⟨-, s, m, hf, hm⟩ := h.ps1 u hps
    rw [Option.isNone_some, PyM.when_false, PyM.pure_run, hf]
    dsimp only
    simp only [Option.getD_some, hm, Option.isSome_some, if_true]
    rw [PyM.get_bind_run, hps, h.X]
    simp only [DP.theAttr, PyM.lift_ok_bind, Py.ok_bind]
    cases npArgmax u <;> exact ⟨h, rfl⟩
  | none =>
    rw [Option.isNone_none, PyM.when_true, h.ps0 hps]
    simp only [Option.getD_none, Option.isSome_none, Bool.false_eq_true, if_false]
    obtain ⟨hrel, ⟨u, hu, h1, h2⟩ | ⟨e, hu, h1⟩⟩ := brelx_fit h
    · rcases hx : BP.fit P with ⟨r, Q⟩
      rw [hx] at hrel h1 h2
      dsimp only at hrel h1 h2
      subst h1
      dsimp only
      rw [PyM.get_bind_run, hu, h2, hrel.X]
      simp only [DP.theAttr, PyM.lift_ok_bind, Py.ok_bind]
      cases npArgmax u <;> exact ⟨hrel, rfl⟩
    · rcases hx : BP.fit P with ⟨r, Q⟩
      rw [hx] at hrel h1
      dsimp only at hrel h1
      subst h1
      rw [hu]
      exact ⟨hrel, rfl⟩

theorem brelx_run (h : BRelX D P t) (op : BOp) : BRelX D (op.run P).2 (t.step D op) := by
  cases op with
  | setPrior d => exact brelx_setPrior h d
  | setLikelihood d log => exact brelx_setLikelihood h d log
  | fit => exact (brelx_fit h).1
  | estimate =>
    have e : (BOp.run .estimate P).2 = (BP.mapPoint P).2 := by
      change ((BP.mapPoint >>= fun _ => pure ()) P).2 = _
      rw [PyM.bind_run]
      rcases BP.mapPoint P with ⟨r, Q⟩
      cases r <;> rfl
    rw [e]
    exact (brelx_estimate h).1

theorem brelx_after (ops : List BOp) (h : BRelX D P t) : BRelX D (P.after ops) (ops.foldl (BHist.step D) t) := by
  induction ops generalizing P t with
  | nil => exact h
  | cons op ops ih => exact ih (brelx_run h op)

theorem bnew_relx {X y : NArr} {dom : Option NArr} {xi : Bool} {P : BP}
    (h : BP.new X y dom xi = .ok P) : BRelX P.data P {} := by
  have e : P.ps = none ∧ P.pr = none ∧ P.ll = none ∧ P.log = false := by
    unfold BP.new at h
    dsimp only at h
    cases dom with
    | none =>
      obtain ⟨dm, -, h⟩ := Py.bind_eq_ok.1 h
      cases h
      exact ⟨rfl, rfl, rfl, rfl⟩
    | some d =>
      obtain ⟨dm, -, h⟩ := Py.bind_eq_ok.1 h
      obtain ⟨_, -, h⟩ := Py.bind_eq_ok.1 h
      cases h
      exact ⟨rfl, rfl, rfl, rfl⟩
  obtain ⟨h1, h2, h3, h4⟩ := e
  exact {
    X := rfl, y := rfl, dom := rfl
    pr0 := fun _ => rfl, pr1 := fun v h => by rw [h2] at h; cases h
    ll0 := fun _ => rfl, ll1 := fun v h => by rw [h3] at h; cases h
    mode := h4
    ps0 := fun _ => rfl
    ps1 := fun v h => by rw [h1] at h; cases h }

/-! ## C41 -/

/-- **C41, what the code does**, for every history of calls, raising ones included: a call that raises has no effect
except that a `set_likelihood` that raises still switches the mode; the estimate is that of the last fit in force, and
a fit is in force until prior or likelihood are set again. -/
theorem C41_exact {X y : NArr} {dom : Option NArr} {xi : Bool} {P : BP} (h : BP.new X y dom xi = .ok P)
    (ops : List BOp) :
    (BP.mapPoint (P.after ops)).1 = (BHist.after P.data ops).best P.data :=
  (brelx_estimate (brelx_after ops (bnew_relx h))).2

/-- As long as the mode is the one of the likelihood in force and the fit in force is one of the settings in force. -/
def BHist.Current (t : BHist) : Prop :=
  (∀ d l, t.set.like = some (d, l) → l = t.mode) ∧ ∀ f, t.fitted = some f → f = (t.set, t.mode)

theorem mixed_current {D : DData} {s : BSettings} {m : Bool} (h : ∀ d l, s.like = some (d, l) → l = m) :
    mixedPosterior D s m = s.posterior D := by
  unfold mixedPosterior BSettings.posterior
  cases hl : s.like with
  | none => rfl
  | some f =>
    obtain ⟨d, l⟩ := f
    rw [h d l hl]

theorem best_current {D : DData} {t : BHist} (h : t.Current) : t.best D = t.set.best D := by
  unfold BHist.best BSettings.best
  have e : t.fitted.getD (t.set, t.mode) = (t.set, t.mode) := by
    cases hf : t.fitted with
    | none => rfl
    | some f => exact h.2 f hf
  rw [e, mixed_current h.1]

theorem fit_set (D : DData) (t : BHist) : (t.fit D).set = t.set := by
  unfold BHist.fit
  split_ifs <;> rfl

theorem fit_current {D : DData} {t : BHist} (h : t.Current) : (t.fit D).Current := by
  unfold BHist.fit
  split_ifs
  · exact ⟨h.1, fun f hf => (Option.some.inj hf).symm⟩
  · exact h

theorem step_set (D : DData) (t : BHist) (op : BOp) : (t.step D op).set = op.track D t.set := by
  cases op with
  | setPrior d => simp only [BHist.step, BOp.track]; split_ifs <;> rfl
  | setLikelihood d log => simp only [BHist.step, BOp.track]; split_ifs <;> rfl
  | fit => exact fit_set D t
  | estimate =>
    simp only [BHist.step, BOp.track]
    split_ifs
    · rfl
    · exact fit_set D t

theorem foldl_set (D : DData) (ops : List BOp) (t : BHist) :
    (ops.foldl (BHist.step D) t).set = ops.foldl (BOp.track D) t.set := by
  induction ops generalizing t with
  | nil => rfl
  | cons op ops ih => rw [List.foldl_cons, List.foldl_cons, ih, step_set]

theorem step_current {D : DData} {t : BHist} (h : t.Current) (op : BOp) (hok : ¬ Raises D op) : (t.step D op).Current := by
  cases op with
  | setPrior d =>
    simp only [BHist.step]
    split_ifs
    · exact ⟨h.1, fun f hf => by cases hf⟩
    · exact h
  | setLikelihood d log =>
    simp only [BHist.step]
    rw [if_pos (by by_contra hc; exact hok fun v hv => hc ⟨v, hv⟩)]
    refine ⟨fun d' l hl => ?_, fun f hf => by cases hf⟩
    cases hl
    rfl
  | fit => exact fit_current h
  | estimate =>
    simp only [BHist.step]
    split_ifs
    · exact h
    · exact fit_current h

theorem foldl_current {D : DData} (ops : List BOp) {t : BHist} (h : t.Current) (hok : ∀ op ∈ ops, ¬ Raises D op) :
    (ops.foldl (BHist.step D) t).Current := by
  induction ops generalizing t with
  | nil => exact h
  | cons op ops ih =>
    exact ih (step_current h op (hok op (List.mem_cons_self ..))) fun o ho => hok o (List.mem_cons_of_mem _ ho)

/-- **C41**, for all histories in which the last call of `set_likelihood` did not raise, whatever happened before. -/
theorem C41_last_partial {X y : NArr} {dom : Option NArr} {xi : Bool} {P : BP} (h : BP.new X y dom xi = .ok P)
    (pre post : List BOp) (d : Dist) (log : Bool) {v : List F} (hv : likeAt d log P.data.y = .ok v)
    (hpost : ∀ op ∈ post, ∀ d' l', op ≠ .setLikelihood d' l') :
    (BP.mapPoint (P.after (pre ++ .setLikelihood d log :: post))).1 =
      (BSettings.after P.data (pre ++ .setLikelihood d log :: post)).best P.data := by
  rw [C41_exact h, best_current]
  · unfold BHist.after BSettings.after
    rw [foldl_set]
  · unfold BHist.after
    rw [List.foldl_append, List.foldl_cons]
    refine foldl_current post ?_ fun op hop => ?_
    · simp only [BHist.step]
      rw [if_pos ⟨v, hv⟩]
      exact ⟨fun d' l hl => by cases hl; rfl, fun f hf => by cases hf⟩
    · cases op with
      | setLikelihood d' l' => exact absurd rfl (hpost _ hop d' l')
      | setPrior d' => exact id
      | fit => exact id
      | estimate => exact id

/-! ## C42, C43 -/

theorem F.log_eq_zero {x : ℝ} (hx : 0 ≤ x) : F.log (.fin x) = .fin 0 ↔ x = 1 := by
  rcases hx.eq_or_lt with rfl | hx
  · simp [F.log]
  · rw [F.log_fin_pos hx, F.fin_inj]
    constructor
    · intro h
      exact Real.eq_one_of_pos_of_log_eq_zero hx h
    · rintro rfl
      exact Real.log_one

theorem argmax_row_ne {n : ℕ} (X : Arr2) (hX : X.r = n) (u : Fin n → F) (hn : 0 < n) :
    ((npArgmax (List.ofFn u) >>= X.rowAt : Py (List ℝ)) = .error .valueError) = False := by
  obtain ⟨m, hm, hm', -⟩ := npArgmax_spec (l := List.ofFn u) (by intro h; rw [List.ofFn_eq_nil_iff] at h; omega)
  rw [hm, Py.ok_bind]
  unfold Arr2.rowAt
  rw [dif_pos (by simpa [hX] using hm')]
  simp

section
variable {Q : BP} {dp d : Dist} {n k : ℕ} {a : Fin n → ℝ} {p : Fin n → Fin k → ℝ}

/-- **C43, what the code does**, zero densities allowed: plain mode raises `ValueError` exactly if the posterior
vanishes at every sample; log mode exactly if the posterior densities of the samples multiply to 1. -/
theorem C43_exact (h : LogPair Q dp d a p) :
    ((BP.mapPoint (Q.after [.setPrior (some dp), .setLikelihood d false])).1 = .error .valueError ↔
      ∀ i, a i * ∏ j, p i j = 0) ∧
    ((BP.mapPoint (Q.after [.setPrior (some dp), .setLikelihood d true])).1 = .error .valueError ↔
      ∏ i, (a i * ∏ j, p i j) = 1) := by
  have h0 : ∀ i, 0 ≤ a i * ∏ j, p i j := fun i =>
    mul_nonneg (h.prior0 i) (Finset.prod_nonneg fun j _ => h.pdf0 i j)
  constructor
  · exact C43_plain_partial Q dp d h.rows a _ h.prior0 (fun i => Finset.prod_nonneg fun j _ => h.pdf0 i j) h.prior h.like
  · rw [bset_estimate Q dp d true h.rows _ _ h.prior h.logLike]
    have key : ∑ i, postVal true (F.fin (a i)) (F.log (F.fin (∏ j, p i j))) = .fin 0 ↔ ∏ i, (a i * ∏ j, p i j) = 1 := by
      simp only [h.post]
      rw [← F.log_prod _ _ fun i _ => h0 i, F.log_eq_zero (Finset.prod_nonneg fun i _ => h0 i)]
    split_ifs with h1
    · exact ⟨fun _ => key.1 h1, fun _ => rfl⟩
    · have hn : 0 < n := by
        rcases Nat.eq_zero_or_pos n with rfl | hn
        · exact absurd (key.2 (by simp)) h1
        · exact hn
      rw [argmax_row_ne Q.X h.rows _ hn, false_iff]
      exact fun h2 => h1 (key.2 h2)

/-- **C42, what the code does**: the two modes agree if and only if neither raises, that is, if the posterior does not
vanish at every sample and its values at the samples do not multiply to 1. -/
theorem C42_exact (h : LogPair Q dp d a p) (hn : 0 < n) :
    (BP.mapPoint (Q.after [.setPrior (some dp), .setLikelihood d true])).1 =
        (BP.mapPoint (Q.after [.setPrior (some dp), .setLikelihood d false])).1 ↔
      (∃ i, a i * ∏ j, p i j ≠ 0) ∧ ∏ i, (a i * ∏ j, p i j) ≠ 1 := by
  have h0 : ∀ i, 0 ≤ a i * ∏ j, p i j := fun i =>
    mul_nonneg (h.prior0 i) (Finset.prod_nonneg fun j _ => h.pdf0 i j)
  obtain ⟨hp, hl⟩ := C43_exact h
  by_cases h1 : ∀ i, a i * ∏ j, p i j = 0
  · rw [hp.2 h1, hl]
    simp only [h1, Finset.prod_const, Finset.card_univ, Fintype.card_fin, ne_eq, not_true_eq_false, exists_false, false_and,
      iff_false]
    rw [zero_pow hn.ne']
    exact zero_ne_one
  · by_cases h2 : ∏ i, (a i * ∏ j, p i j) = 1
    · rw [hl.2 h2]
      simp only [h2, ne_eq, not_true_eq_false, and_false, iff_false]
      exact fun he => h1 (hp.1 he.symm)
    · refine ⟨fun _ => ⟨by simpa using h1, h2⟩, fun _ => C42_same_partial Q dp d a p h ?_ ?_⟩
      · intro hs
        exact h1 fun i => (Finset.sum_eq_zero_iff_of_nonneg fun i _ => h0 i).1 hs i (Finset.mem_univ i)
      · rw [← F.log_prod _ _ fun i _ => h0 i, ne_eq, F.log_eq_zero (Finset.prod_nonneg fun i _ => h0 i)]
        exact h2

end

/-- Two samples with posterior densities `1/2` and `2`: nothing is degenerate, and log mode raises. -/
example : (BP.mapPoint (demoB.after [.setPrior (some (distOf fun x => 1 / 2 + 3 / 2 * x)),
    .setLikelihood (distOf fun _ => 1) true])).1 = .error .valueError := by
  rw [(C43_exact (demoB_pair (fun x => 1 / 2 + 3 / 2 * x) (fun _ => 1) (by norm_num) (by norm_num) (by norm_num)
    (by norm_num))).2]
  simp [Fin.prod_univ_two]
  norm_num

/-- The history of `C41_claim_refuted` followed by another likelihood: the estimate is right again. -/
example (d : Dist) (log : Bool) {v : List F} (hv : likeAt d log demoB.data.y = .ok v) :
    (BP.mapPoint (demoB.after (demoBOps ++ [.setLikelihood d log, .estimate]))).1 =
      (BSettings.after demoB.data (demoBOps ++ [.setLikelihood d log, .estimate])).best demoB.data :=
  C41_last_partial demoB_new demoBOps [.estimate] d log hv (by simp)

end Verif
