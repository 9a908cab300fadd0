import Verif.Props.PlotProb
import Verif.Props.BayesExact
import Verif.Model.Kde

/-!
# C156: what a call that raises leaves behind (`DensityProblem`)
-/

namespace Verif

open DPD

/-- A `set_weights` that raises changes nothing. -/
theorem C156_set_weights (w : Option NArr) (n : Bool) (S : DPD) (e : Err)
    (he : (DPD.setWeights w n S).1 = .error e) : (DPD.setWeights w n S).2 = S := by
  simp only [DPD.setWeights, DPD.emb, DP.setWeights, PyM.bind_run, PyM.get_run, PyM.lift_run,
    PyM.modify_run] at he ⊢
  cases h : DP.weightsOf S.core.X.r S.core.n_samples w n with
  | error e' => rfl
  | ok v => rw [h] at he; cases he

/-- A `set_initial` that raises changes nothing. -/
theorem C156_set_initial (d : Option Dist) (S : DPD) (e : Err)
    (he : (DPD.setInitial d S).1 = .error e) : (DPD.setInitial d S).2 = S := by
  simp only [DPD.setInitial, DPD.emb, DP.setInitial, PyM.bind_run, PyM.get_run, PyM.lift_run,
    PyM.modify_run] at he ⊢
  cases h : (d.getD (uniformOn S.core.domain)).pdf S.core.X with
  | error e' => rfl
  | ok o =>
    rw [h] at he
    dsimp only at he ⊢
    cases h2 : o.prodRows with
    | error e' => rfl
    | ok v => rw [h2] at he; cases he

/-- A `set_observed` that raises changes nothing but the stored distribution object, which only
`plot_obs_space` reads. -/
theorem C156_set_observed (d : Option Dist) (S : DPD) (e : Err)
    (he : (DPD.setObserved d S).1 = .error e) :
    (DPD.setObserved d S).2 = { S with obDist := some (d.getD stdNormal) } := by
  simp only [DPD.setObserved, DPD.emb, DP.setObserved, PyM.bind_run, PyM.get_run, PyM.lift_run,
    PyM.modify_run] at he ⊢
  cases h : (d.getD stdNormal).pdf S.core.y with
  | error e' => rfl
  | ok o =>
    rw [h] at he
    dsimp only at he ⊢
    cases h2 : o.prodRows with
    | error e' => rfl
    | ok v => rw [h2] at he; cases he

/-- A `set_predicted` without weights that raises changes nothing. -/
theorem C156_set_predicted {env : Env} (d : Option Dist) (bw : ℕ) (S : DPD) (e : Err)
    (he : (DPD.setPredicted env d bw none S).1 = .error e) :
    (DPD.setPredicted env d bw none S).2 = S := by
  simp only [DPD.setPredicted, DPD.setWeightsIf, DPD.emb, DP.setPredicted, DP.setWeightsIf,
    PyM.pure_run, PyM.bind_run, PyM.get_run, PyM.lift_run, PyM.modify_run] at he ⊢
  cases h : DP.predVals env S.core d bw with
  | error e' => rfl
  | ok o => rw [h] at he; cases he

theorem setPredicted_some {env : Env} (d : Option Dist) (bw : ℕ) (w : NArr) (S : DPD) :
    DPD.setPredicted env d bw (some w) S =
      match DPD.setWeights (some w) false S with
      | (.ok _, S') => DPD.setPredicted env d bw none S'
      | (.error e, S') => (.error e, S') := by
  have e1 : DPD.setWeightsIf (some w) = DPD.setWeights (some w) false := rfl
  rw [DPD.setPredicted, PyM.bind_run, e1]
  rcases DPD.setWeights (some w) false S with ⟨r, S'⟩
  cases r with
  | error e => rfl
  | ok u => rfl

/-- A `set_predicted` with weights that raises either changes nothing or has set the weights. -/
theorem C156_set_predicted_weights {env : Env} (d : Option Dist) (bw : ℕ) (w : NArr) (S : DPD)
    (e : Err) (he : (DPD.setPredicted env d bw (some w) S).1 = .error e) :
    ((DPD.setWeights (some w) false S).1 = .error e ∧
      (DPD.setPredicted env d bw (some w) S).2 = S) ∨
    ((DPD.setWeights (some w) false S).1 = .ok () ∧
      (DPD.setPredicted env d bw (some w) S).2 = (DPD.setWeights (some w) false S).2) := by
  have key : DPD.setPredicted env d bw (some w) S =
      match DPD.setWeights (some w) false S with
      | (.ok _, S') => DPD.setPredicted env d bw none S'
      | (.error e, S') => (.error e, S') := setPredicted_some d bw w S
  rw [key] at he ⊢
  have hw := C156_set_weights (some w) false S
  rcases h : DPD.setWeights (some w) false S with ⟨r, S'⟩
  rw [h] at he hw
  cases r with
  | error e' =>
    cases he
    exact Or.inl ⟨rfl, hw e rfl⟩
  | ok u =>
    dsimp only at he ⊢
    exact Or.inr ⟨rfl, C156_set_predicted d bw S' e he⟩

/-! ### Trying again -/

/-- Calling again after a failure fails in the same way and changes nothing more. -/
def RetrySame {σ α : Type} (x : PyM σ α) : Prop :=
  ∀ S e, (x S).1 = .error e → x (x S).2 = (.error e, (x S).2)

theorem retry_of_unchanged {σ α : Type} {x : PyM σ α}
    (h : ∀ S e, (x S).1 = .error e → (x S).2 = S) : RetrySame x := by
  intro S e he
  rw [h S e he]
  exact Prod.ext he (h S e he)

theorem setWeights_ok_core (w : Option NArr) (n : Bool) (S : DPD)
    (h : (DPD.setWeights w n S).1 = .ok ()) :
    (DPD.setWeights w n S).2.core.pr = none ∧ (DPD.setWeights w n S).2.core.up = none ∧
    (DPD.setWeights w n S).2.core.init = S.core.init ∧
    DPD.setWeights w n (DPD.setWeights w n S).2 = (.ok (), (DPD.setWeights w n S).2) := by
  simp only [DPD.setWeights, DPD.emb, DP.setWeights, PyM.bind_run, PyM.get_run, PyM.lift_run,
    PyM.modify_run] at h ⊢
  cases hw : DP.weightsOf S.core.X.r S.core.n_samples w n with
  | error e => rw [hw] at h; cases h
  | ok v =>
    dsimp only
    refine ⟨rfl, rfl, rfl, ?_⟩
    have : DP.weightsOf S.core.X.r
      ({ S.core with weights := v, pr := none, up := none } : DP).n_samples w n = .ok v := hw
    rw [this]

theorem retry_setPredicted {env : Env} (d : Option Dist) (bw : ℕ) (w : Option NArr) :
    RetrySame (DPD.setPredicted env d bw w) := by
  cases w with
  | none => exact retry_of_unchanged (C156_set_predicted d bw)
  | some w =>
    intro S e he
    rcases C156_set_predicted_weights d bw w S e he with ⟨_, h2⟩ | ⟨h1, h2⟩
    · rw [h2]; exact Prod.ext he h2
    · have h3 := setWeights_ok_core (some w) false S h1
      have he' := he
      rw [setPredicted_some] at he'
      rw [h2, setPredicted_some, h3.2.2.2]
      dsimp only
      rcases hS : DPD.setWeights (some w) false S with ⟨r, S'⟩
      rw [hS] at he' h1
      cases h1
      dsimp only at he' ⊢
      exact Prod.ext he' (C156_set_predicted d bw S' e he')

theorem retry_setObserved (d : Option Dist) : RetrySame (DPD.setObserved d) := by
  intro S e he
  rw [C156_set_observed d S e he]
  have : DPD.setObserved d { S with obDist := some (d.getD stdNormal) } = DPD.setObserved d S := rfl
  rw [this]
  exact Prod.ext he (C156_set_observed d S e he)

/-- A step of `fit`: skip or set. After a success it is skipped for good; a failure is repeated. -/
theorem retry_fitTail : RetrySame (DPD.emb DPD.fitTail) := by
  intro S e he
  simp only [DPD.emb, DPD.fitTail, PyM.bind_run, PyM.get_run, PyM.lift_run, PyM.modify_run] at he ⊢
  cases h1 : DP.theAttr S.core.ob with
  | error e' => rw [h1] at he; dsimp only at he ⊢; simp only [h1, he]
  | ok ob =>
  cases h2 : DP.theAttr S.core.pr with
  | error e' => rw [h1] at he; dsimp only at he ⊢; rw [h2] at he; simp only [h1, h2]; cases he; rfl
  | ok pr =>
  cases h3 : DP.theAttr S.core.init with
  | error e' =>
    rw [h1] at he; dsimp only at he ⊢; rw [h2] at he; dsimp only at he; rw [h3] at he
    simp only [h1, h2, h3]; cases he; rfl
  | ok ini =>
  simp only [h1, h2, h3] at he ⊢
  cases h4 : bzip1 (· / ·) ob pr with
  | error e' => rw [h4] at he; simp only [h1, h2, h3, h4]; cases he; rfl
  | ok r =>
  simp only [h4] at he
  cases h5 : bzip1 (· * ·) ini S.core.weights with
  | error e' => rw [h5] at he; simp only [h1, h2, h3, h4, h5]; cases he; rfl
  | ok iw =>
  simp only [h5] at he
  cases h6 : bzip1 (· * ·) iw r with
  | error e' => rw [h6] at he; simp only [h1, h2, h3, h4, h5, h6]; cases he; rfl
  | ok u => rw [h6] at he; cases he

/-- `if g(self): m()`, then `k()`. -/
def guarded {σ α : Type} (g : σ → Bool) (m : PyM σ Unit) (k : PyM σ α) : PyM σ α := do
  let S ← PyM.get
  PyM.when (g S) m
  k

theorem guarded_false {σ α : Type} {g : σ → Bool} {m : PyM σ Unit} {k : PyM σ α} {S : σ}
    (h : g S = false) : guarded g m k S = k S := by
  simp [guarded, h]

theorem guarded_true {σ α : Type} {g : σ → Bool} {m : PyM σ Unit} {k : PyM σ α} {S : σ}
    (h : g S = true) : guarded g m k S = match m S with
      | (.ok _, S') => k S'
      | (.error e, S') => (.error e, S') := by
  simp only [guarded, PyM.get_bind_run, h, PyM.when_true]
  rw [PyM.bind_run]
  rcases m S with ⟨r, S'⟩
  cases r <;> rfl

/-- `I` survives the call, whether it raises or not. -/
def Keeps {σ α : Type} (I : σ → Prop) (x : PyM σ α) : Prop := ∀ S, I S → I (x S).2

theorem keeps_guarded {σ α : Type} {I : σ → Prop} {g : σ → Bool} {m : PyM σ Unit} {k : PyM σ α}
    (hm : Keeps I m) (hk : Keeps I k) : Keeps I (guarded g m k) := by
  intro S hS
  cases hg : g S with
  | false => rw [guarded_false hg]; exact hk S hS
  | true =>
    rw [guarded_true hg]
    have := hm S hS
    rcases h : m S with ⟨r, S'⟩
    rw [h] at this
    cases r with
    | error e => exact this
    | ok u => exact hk S' this

theorem retry_guarded {σ α : Type} {g : σ → Bool} {m : PyM σ Unit} {k : PyM σ α}
    (hm : RetrySame m) (hme : ∀ S e, g S = true → (m S).1 = .error e → g (m S).2 = true)
    (hmo : ∀ S, g S = true → (m S).1 = .ok () → g (m S).2 = false)
    (hk : RetrySame k) (hkg : Keeps (fun S => g S = false) k) : RetrySame (guarded g m k) := by
  have hfalse : ∀ S e, g S = false → (k S).1 = .error e →
      guarded g m k (k S).2 = (.error e, (k S).2) := by
    intro S e hg he
    rw [guarded_false (hkg S hg)]
    exact hk S e he
  intro S e he
  cases hg : g S with
  | false => rw [guarded_false hg] at he ⊢; exact hfalse S e hg he
  | true =>
    rw [guarded_true hg] at he ⊢
    have h1 := hm S
    have h2 := hme S
    have h3 := hmo S
    rcases hmS : m S with ⟨r, S'⟩
    rw [hmS] at he h1 h2 h3
    cases r with
    | error e' =>
      cases he
      dsimp only
      rw [guarded_true (h2 e hg rfl), h1 e rfl]
    | ok u => exact hfalse S' e (h3 hg rfl) he

theorem fit_guarded (env : Env) (d : Option Dist) (bw : ℕ) (w : Option NArr) :
    DPD.fit env d bw w =
      guarded (fun S => S.core.init.isNone) (DPD.setInitial none)
        (guarded (fun S => S.core.pr.isNone) (DPD.setPredicted env d bw w)
          (guarded (fun S => S.core.ob.isNone) (DPD.setObserved none) (DPD.emb DPD.fitTail))) := rfl

theorem mudPoint_guarded (env : Env) :
    DPD.mudPoint env = guarded (fun S => S.core.up.isNone) (DPD.fit env) (DPD.emb DPD.pick) := rfl

theorem expectedRatio_guarded (env : Env) :
    DPD.expectedRatio env =
      guarded (fun S => S.core.up.isNone) (DPD.fit env) (DPD.emb DPD.average) := rfl

/-- `fit` after the distributions have been set writes the ratio and the update only. -/
theorem fitTail_writes (P : DP) : ∃ r u, (DPD.fitTail P).2 = { P with r := r, up := u } ∧
    ((∃ e, (DPD.fitTail P).1 = .error e ∧ u = P.up) ∨ ((DPD.fitTail P).1 = .ok () ∧ u.isSome)) := by
  simp only [DPD.fitTail, PyM.bind_run, PyM.get_run, PyM.lift_run, PyM.modify_run]
  cases h1 : DP.theAttr P.ob with
  | error e' => exact ⟨P.r, P.up, rfl, Or.inl ⟨_, rfl, rfl⟩⟩
  | ok ob =>
  cases h2 : DP.theAttr P.pr with
  | error e' => exact ⟨P.r, P.up, rfl, Or.inl ⟨_, rfl, rfl⟩⟩
  | ok pr =>
  cases h3 : DP.theAttr P.init with
  | error e' => exact ⟨P.r, P.up, rfl, Or.inl ⟨_, rfl, rfl⟩⟩
  | ok ini =>
  dsimp only
  cases h4 : bzip1 (· / ·) ob pr with
  | error e' => exact ⟨P.r, P.up, rfl, Or.inl ⟨_, rfl, rfl⟩⟩
  | ok r =>
  dsimp only
  cases h5 : bzip1 (· * ·) ini P.weights with
  | error e' => exact ⟨some r, P.up, rfl, Or.inl ⟨_, rfl, rfl⟩⟩
  | ok iw =>
  dsimp only
  cases h6 : bzip1 (· * ·) iw r with
  | error e' => exact ⟨some r, P.up, rfl, Or.inl ⟨_, rfl, rfl⟩⟩
  | ok u => exact ⟨some r, some u, rfl, Or.inr ⟨rfl, rfl⟩⟩

theorem keeps_emb_fitTail {I : DPD → Prop}
    (h : ∀ S r u, I S → I { S with core := { S.core with r := r, up := u } }) :
    Keeps I (DPD.emb DPD.fitTail) := by
  intro S hS
  obtain ⟨r, u, h1, _⟩ := fitTail_writes S.core
  simp only [DPD.emb, h1]
  exact h S r u hS

/-- What the setters write. -/
theorem setInitial_writes (d : Option Dist) (S : DPD) :
    (∃ e, (DPD.setInitial d S).1 = .error e ∧ (DPD.setInitial d S).2 = S) ∨
    ((DPD.setInitial d S).1 = .ok () ∧ (DPD.setInitial d S).2.core.init.isSome ∧
      (DPD.setInitial d S).2.core.pr = none ∧ (DPD.setInitial d S).2.core.up = none ∧
      (DPD.setInitial d S).2.core.weights = S.core.weights ∧
      (DPD.setInitial d S).2.core.ob = S.core.ob) := by
  cases h : (DPD.setInitial d S).1 with
  | error e => exact Or.inl ⟨e, rfl, C156_set_initial d S e h⟩
  | ok u =>
    refine Or.inr ⟨rfl, ?_⟩
    simp only [DPD.setInitial, DPD.emb, DP.setInitial, PyM.bind_run, PyM.get_run, PyM.lift_run,
      PyM.modify_run] at h ⊢
    cases h1 : (d.getD (uniformOn S.core.domain)).pdf S.core.X with
    | error e' => rw [h1] at h; cases h
    | ok o =>
      rw [h1] at h
      dsimp only at h ⊢
      cases h2 : o.prodRows with
      | error e' => rw [h2] at h; cases h
      | ok v => exact ⟨rfl, rfl, rfl, rfl, rfl⟩

theorem setPredicted_none_writes {env : Env} (d : Option Dist) (bw : ℕ) (S : DPD) :
    (∃ e, (DPD.setPredicted env d bw none S).1 = .error e ∧
      (DPD.setPredicted env d bw none S).2 = S) ∨
    ((DPD.setPredicted env d bw none S).1 = .ok () ∧ ∃ v c,
      (DPD.setPredicted env d bw none S).2 =
        { S with core := { S.core with pr := some v, up := none }, prDist := c }) := by
  simp only [DPD.setPredicted, DPD.setWeightsIf, DPD.emb, DP.setPredicted, DP.setWeightsIf,
    PyM.pure_run, PyM.bind_run, PyM.get_run, PyM.lift_run, PyM.modify_run]
  cases h : DP.predVals env S.core d bw with
  | error e' => exact Or.inl ⟨_, rfl, rfl⟩
  | ok o => exact Or.inr ⟨rfl, _, _, rfl⟩

theorem setPredicted_writes {env : Env} (d : Option Dist) (bw : ℕ) (w : Option NArr) (S : DPD) :
    (DPD.setPredicted env d bw w S).2.core.init = S.core.init ∧
    (DPD.setPredicted env d bw w S).2.core.ob = S.core.ob ∧
    ((∃ e, (DPD.setPredicted env d bw w S).1 = .error e ∧
      (S.core.pr = none → (DPD.setPredicted env d bw w S).2.core.pr = none) ∧
      (S.core.up = none → (DPD.setPredicted env d bw w S).2.core.up = none)) ∨
    ((DPD.setPredicted env d bw w S).1 = .ok () ∧
      (DPD.setPredicted env d bw w S).2.core.pr.isSome ∧
      (DPD.setPredicted env d bw w S).2.core.up = none)) := by
  have h0 : ∀ S : DPD, (DPD.setPredicted env d bw none S).2.core.init = S.core.init ∧
      (DPD.setPredicted env d bw none S).2.core.ob = S.core.ob ∧
      ((∃ e, (DPD.setPredicted env d bw none S).1 = .error e ∧
        (S.core.pr = none → (DPD.setPredicted env d bw none S).2.core.pr = none) ∧
        (S.core.up = none → (DPD.setPredicted env d bw none S).2.core.up = none)) ∨
      ((DPD.setPredicted env d bw none S).1 = .ok () ∧
        (DPD.setPredicted env d bw none S).2.core.pr.isSome ∧
        (DPD.setPredicted env d bw none S).2.core.up = none)) := by
    intro S
    rcases setPredicted_none_writes (env := env) d bw S with ⟨e, h1, h2⟩ | ⟨h1, v, c, h2⟩
    · rw [h2]; exact ⟨rfl, rfl, Or.inl ⟨e, h1, id, id⟩⟩
    · rw [h2]; exact ⟨rfl, rfl, Or.inr ⟨h1, rfl, rfl⟩⟩
  cases w with
  | none => exact h0 S
  | some w =>
    rw [setPredicted_some]
    have hw := C156_set_weights (some w) false S
    have hw' := setWeights_ok_core (some w) false S
    have hob : (DPD.setWeights (some w) false S).2.core.ob = S.core.ob := by
      simp only [DPD.setWeights, DPD.emb, DP.setWeights, PyM.bind_run, PyM.get_run, PyM.lift_run,
        PyM.modify_run]
      cases DP.weightsOf S.core.X.r S.core.n_samples (some w) false <;> rfl
    rcases hS : DPD.setWeights (some w) false S with ⟨r, S'⟩
    rw [hS] at hw hw' hob
    cases r with
    | error e =>
      have : S' = S := hw e rfl
      subst this
      exact ⟨rfl, rfl, Or.inl ⟨e, rfl, id, id⟩⟩
    | ok u =>
      obtain ⟨h1, h2, h3, _⟩ := hw' rfl
      obtain ⟨g1, g2, g3⟩ := h0 S'
      dsimp only at h1 h2 h3 hob ⊢
      refine ⟨g1.trans h3, g2.trans hob, ?_⟩
      rcases g3 with ⟨e, a, b, c⟩ | g3
      · exact Or.inl ⟨e, a, fun _ => b h1, fun _ => c h2⟩
      · exact Or.inr g3

theorem setObserved_writes (d : Option Dist) (S : DPD) :
    ∃ o D, (DPD.setObserved d S).2 = { S with core := { S.core with ob := o }, obDist := D } ∧
    ((∃ e, (DPD.setObserved d S).1 = .error e ∧ o = S.core.ob) ∨
      ((DPD.setObserved d S).1 = .ok () ∧ o.isSome)) := by
  simp only [DPD.setObserved, DPD.emb, DP.setObserved, PyM.bind_run, PyM.get_run, PyM.lift_run,
    PyM.modify_run]
  cases h : (d.getD stdNormal).pdf S.core.y with
  | error e' => exact ⟨_, _, rfl, Or.inl ⟨_, rfl, rfl⟩⟩
  | ok o =>
    dsimp only
    cases h2 : o.prodRows with
    | error e' => exact ⟨_, _, rfl, Or.inl ⟨_, rfl, rfl⟩⟩
    | ok v => exact ⟨_, _, rfl, Or.inr ⟨rfl, rfl⟩⟩

theorem retry_fit {env : Env} (d : Option Dist) (bw : ℕ) (w : Option NArr) :
    RetrySame (DPD.fit env d bw w) := by
  rw [fit_guarded]
  have ht : ∀ {I : DPD → Prop}, (∀ S r u, I S → I { S with core := { S.core with r := r, up := u } }) →
      Keeps I (DPD.emb DPD.fitTail) := keeps_emb_fitTail
  refine retry_guarded (retry_of_unchanged (C156_set_initial none)) ?_ ?_
    (retry_guarded (retry_setPredicted d bw w) ?_ ?_
      (retry_guarded (retry_setObserved none) ?_ ?_ retry_fitTail (ht fun S r u h => h)) ?_) ?_
  · intro S e hg he; rw [C156_set_initial none S e he]; exact hg
  · intro S _ hok
    rcases setInitial_writes none S with ⟨e, h, _⟩ | ⟨_, h, _⟩
    · rw [hok] at h; cases h
    · simpa using h
  · intro S e hg he
    rcases (setPredicted_writes (env := env) d bw w S).2.2 with ⟨e', _, h, _⟩ | ⟨h, _⟩
    · simp only [Option.isNone_iff_eq_none] at hg ⊢
      exact h hg
    · rw [he] at h; cases h
  · intro S _ hok
    rcases (setPredicted_writes (env := env) d bw w S).2.2 with ⟨e', h, _⟩ | ⟨_, h, _⟩
    · rw [hok] at h; cases h
    · simpa using h
  · intro S e hg he
    obtain ⟨o, D, h1, ⟨e', _, h2⟩ | ⟨h2, _⟩⟩ := setObserved_writes none S
    · rw [h1]; dsimp only; rw [h2]; exact hg
    · rw [he] at h2; cases h2
  · intro S _ hok
    obtain ⟨o, D, h1, ⟨e', h2, _⟩ | ⟨_, h2⟩⟩ := setObserved_writes none S
    · rw [hok] at h2; cases h2
    · rw [h1]; simpa using h2
  · refine keeps_guarded ?_ (ht fun S r u h => h)
    intro S h
    obtain ⟨o, D, h1, _⟩ := setObserved_writes none S
    rw [h1]; exact h
  · refine keeps_guarded ?_ (keeps_guarded ?_ (ht fun S r u h => h))
    · intro S h
      rw [(setPredicted_writes (env := env) d bw w S).1]; exact h
    · intro S h
      obtain ⟨o, D, h1, _⟩ := setObserved_writes none S
      rw [h1]; exact h

/-- A failed `fit` on an object without a stored update stores none; a successful one does. -/
theorem fit_up {env : Env} (d : Option Dist) (bw : ℕ) (w : Option NArr) (S : DPD)
    (hS : S.core.up = none) :
    (∃ e, (DPD.fit env d bw w S).1 = .error e ∧ (DPD.fit env d bw w S).2.core.up = none) ∨
    ((DPD.fit env d bw w S).1 = .ok () ∧ (DPD.fit env d bw w S).2.core.up.isSome) := by
  let Q : PyM DPD Unit → Prop := fun x => ∀ S : DPD, S.core.up = none →
    (∃ e, (x S).1 = .error e ∧ (x S).2.core.up = none) ∨ ((x S).1 = .ok () ∧ (x S).2.core.up.isSome)
  have hg : ∀ (g : DPD → Bool) (m k : PyM DPD Unit), Keeps (fun S => S.core.up = none) m → Q k →
      Q (guarded g m k) := by
    intro g m k hm hk S hS
    cases h : g S with
    | false => rw [guarded_false h]; exact hk S hS
    | true =>
      rw [guarded_true h]
      have h1 := hm S hS
      rcases h2 : m S with ⟨r, S'⟩
      rw [h2] at h1
      cases r with
      | error e => exact Or.inl ⟨e, rfl, h1⟩
      | ok u => exact hk S' h1
  have ht : Q (DPD.emb DPD.fitTail) := by
    intro S hS
    obtain ⟨r, u, h1, ⟨e, h2, h3⟩ | ⟨h2, h3⟩⟩ := fitTail_writes S.core
    · exact Or.inl ⟨e, h2, by simp only [DPD.emb, h1]; rw [h3, hS]⟩
    · exact Or.inr ⟨h2, by simp only [DPD.emb, h1]; exact h3⟩
  rw [fit_guarded]
  refine hg _ _ _ ?_ (hg _ _ _ ?_ (hg _ _ _ ?_ ht)) S hS
  · intro S hS
    rcases setInitial_writes none S with ⟨e, _, h⟩ | ⟨_, _, _, h, _⟩
    · rw [h]; exact hS
    · exact h
  · intro S hS
    rcases (setPredicted_writes (env := env) d bw w S).2.2 with ⟨e', _, _, h⟩ | ⟨_, _, h⟩
    · exact h hS
    · exact h
  · intro S hS
    obtain ⟨o, D, h1, _⟩ := setObserved_writes none S
    rw [h1]; exact hS

theorem retry_query {env : Env} {α : Type} {k : PyM DPD α} (hk : ∀ S, (k S).2 = S) :
    RetrySame (guarded (fun S => S.core.up.isNone) (DPD.fit env) k) := by
  refine retry_guarded (retry_fit none 0 none) ?_ ?_ (retry_of_unchanged fun S e _ => hk S) ?_
  · intro S e hg he
    rcases fit_up (env := env) none 0 none S (by simpa using hg) with ⟨e', _, h⟩ | ⟨h, _⟩
    · simpa using h
    · rw [he] at h; cases h
  · intro S hg hok
    rcases fit_up (env := env) none 0 none S (by simpa using hg) with ⟨e', h, _⟩ | ⟨_, h⟩
    · rw [hok] at h; cases h
    · simpa using h
  · intro S hS; rw [hk]; exact hS

theorem pick_reads (P : DP) : (DPD.pick P).2 = P := by
  simp only [DPD.pick, PyM.bind_run, PyM.get_run, PyM.lift_run]
  cases DP.theAttr P.up with
  | error e => rfl
  | ok u => dsimp only; cases npArgmax u <;> rfl

theorem average_reads (P : DP) : (DPD.average P).2 = P := by
  simp only [DPD.average, PyM.bind_run, PyM.get_run, PyM.lift_run]
  cases DP.theAttr P.r <;> rfl

theorem retry_drop {σ α : Type} {x : PyM σ α} (h : RetrySame x) :
    RetrySame (do let _ ← x; pure ()) := by
  intro S e he
  have h1 := h S
  have hb : ∀ S, (x >>= fun _ => (pure () : PyM σ Unit)) S = match x S with
      | (.ok _, S') => (.ok (), S')
      | (.error e, S') => (.error e, S') := fun _ => rfl
  rw [hb S] at he ⊢
  rcases hx : x S with ⟨r, S'⟩
  rw [hx] at he h1
  cases r with
  | ok a => cases he
  | error e' =>
    cases he
    have h2 : x S' = (.error e, S') := h1 e rfl
    dsimp only
    rw [hb, h2]

/-- **C156**: a call that raises raises again when repeated, with the same exception, and the
repetition changes nothing. -/
theorem C156_retry (env : Env) (op : DOp) (S : DPD) (e : Err)
    (he : (DPD.run env op S).1 = .error e) :
    DPD.run env op (DPD.run env op S).2 = (.error e, (DPD.run env op S).2) := by
  revert S e
  cases op with
  | setWeights w n => exact retry_of_unchanged (C156_set_weights w n)
  | setObserved d => exact retry_setObserved d
  | setInitial d => exact retry_of_unchanged (C156_set_initial d)
  | setPredicted d bw w => exact retry_setPredicted d bw w
  | fit d bw w => exact retry_fit d bw w
  | estimate =>
    refine retry_drop ?_
    rw [mudPoint_guarded]
    exact retry_query fun S => by simp only [DPD.emb, pick_reads]
  | expectedRatio =>
    refine retry_drop ?_
    rw [expectedRatio_guarded]
    exact retry_query fun S => by simp only [DPD.emb, average_reads]

/-- **C156**: `fit` and `estimate`, whether they raise or not, keep the data and the weights and
every distribution that was set - the predicted one only if an initial one was set too. -/
theorem C156_fit_keeps (env : Env) (d : Option Dist) (bw : ℕ) (S : DPD) :
    (DPD.fit env d bw none S).2.core.X = S.core.X ∧ (DPD.fit env d bw none S).2.core.y = S.core.y ∧
    (DPD.fit env d bw none S).2.core.domain = S.core.domain ∧
    (DPD.fit env d bw none S).2.core.weights = S.core.weights ∧
    (S.core.init.isSome → (DPD.fit env d bw none S).2.core.init = S.core.init) ∧
    (S.core.ob.isSome → (DPD.fit env d bw none S).2.core.ob = S.core.ob) ∧
    (S.core.init.isSome → S.core.pr.isSome →
      (DPD.fit env d bw none S).2.core.pr = S.core.pr) := by
  let I : DPD → Prop := fun T => T.core.X = S.core.X ∧ T.core.y = S.core.y ∧
    T.core.domain = S.core.domain ∧ T.core.weights = S.core.weights ∧
    (S.core.init.isSome → T.core.init = S.core.init) ∧ (S.core.ob.isSome → T.core.ob = S.core.ob) ∧
    (S.core.init.isSome → S.core.pr.isSome → T.core.pr = S.core.pr)
  change I (DPD.fit env d bw none S).2
  have hg : ∀ (g : DPD → Bool) (m k : PyM DPD Unit), (∀ T, g T = true → I T → I (m T).2) →
      Keeps I k → Keeps I (guarded g m k) := by
    intro g m k hm hk T hT
    cases h : g T with
    | false => rw [guarded_false h]; exact hk T hT
    | true =>
      rw [guarded_true h]
      have h1 := hm T h hT
      rcases h2 : m T with ⟨r, S'⟩
      rw [h2] at h1
      cases r with
      | error e => exact h1
      | ok u => exact hk S' h1
  rw [fit_guarded]
  refine hg _ _ _ ?_ (hg _ _ _ ?_ (hg _ _ _ ?_ (keeps_emb_fitTail fun S r u h => h))) S
    ⟨rfl, rfl, rfl, rfl, fun _ => rfl, fun _ => rfl, fun _ _ => rfl⟩
  · intro T hgT hT
    have hnone : S.core.init = none := by
      by_contra hne
      have := hT.2.2.2.2.1 (Option.isSome_iff_ne_none.2 hne)
      simp only [Option.isNone_iff_eq_none] at hgT
      rw [hgT] at this
      exact hne this.symm
    simp only [DPD.setInitial, DPD.emb, DP.setInitial, PyM.bind_run, PyM.get_run, PyM.lift_run,
      PyM.modify_run]
    have hI : ∀ v p a b, I { T with core := { T.core with init := some v, up := a, pr := b }, inDist := p,
                                    prDist := none } := fun v p a b =>
      ⟨hT.1, hT.2.1, hT.2.2.1, hT.2.2.2.1, by simp [hnone], hT.2.2.2.2.2.1, by simp [hnone]⟩
    cases h1 : ((none : Option Dist).getD (uniformOn T.core.domain)).pdf T.core.X with
    | error e' => exact hT
    | ok o =>
      dsimp only
      cases h2 : o.prodRows with
      | error e' => exact hT
      | ok v => exact hI v _ _ _
  · intro T hgT hT
    rcases setPredicted_none_writes (env := env) d bw T with ⟨e, _, h2⟩ | ⟨_, v, c, h2⟩
    · rw [h2]; exact hT
    · rw [h2]
      refine ⟨hT.1, hT.2.1, hT.2.2.1, hT.2.2.2.1, hT.2.2.2.2.1, hT.2.2.2.2.2.1, fun h3 h4 => ?_⟩
      have := hT.2.2.2.2.2.2 h3 h4
      simp only [Option.isNone_iff_eq_none] at hgT
      rw [← this, hgT] at h4
      cases h4
  · intro T hgT hT
    obtain ⟨o, D, h1, _⟩ := setObserved_writes none T
    rw [h1]
    refine ⟨hT.1, hT.2.1, hT.2.2.1, hT.2.2.2.1, hT.2.2.2.2.1, fun h3 => ?_, hT.2.2.2.2.2.2⟩
    have := hT.2.2.2.2.2.1 h3
    simp only [Option.isNone_iff_eq_none] at hgT
    rw [← this, hgT] at h3
    cases h3

/-- **C156**: after a `set_weights`, `set_initial`, `set_observed` or weightless `set_predicted` that
raised, every later call, estimate and expected ratio is the same as if the call had not been
made. -/
theorem C156_setters_partial (env : Env) (op : DOp) (S : DPD) (e : Err)
    (hop : (∃ w n, op = .setWeights w n) ∨ (∃ d, op = .setInitial d) ∨ (∃ d, op = .setObserved d) ∨
      ∃ d bw, op = .setPredicted d bw none)
    (he : (DPD.run env op S).1 = .error e) (later : List DOp) :
    (∀ op', (DPD.run env op' (DPD.after env (DPD.run env op S).2 later)).1 =
      (DPD.run env op' (DPD.after env S later)).1) ∧
    (DPD.mudPoint env (DPD.after env (DPD.run env op S).2 later)).1 =
      (DPD.mudPoint env (DPD.after env S later)).1 ∧
    (DPD.expectedRatio env (DPD.after env (DPD.run env op S).2 later)).1 =
      (DPD.expectedRatio env (DPD.after env S later)).1 := by
  have hcore : (DPD.run env op S).2.core = S.core := by
    rcases hop with ⟨w, n, rfl⟩ | ⟨d, rfl⟩ | ⟨d, rfl⟩ | ⟨d, bw, rfl⟩
    · exact congrArg DPD.core (C156_set_weights w n S e he)
    · exact congrArg DPD.core (C156_set_initial d S e he)
    · rw [show (DPD.run env (.setObserved d) S).2 = _ from C156_set_observed d S e he]
    · exact congrArg DPD.core (C156_set_predicted d bw S e he)
  have hafter : ∀ S : DPD, (DPD.after env S later).core = S.core.after env later := by
    induction later with
    | nil => intro S; rfl
    | cons op' ops ih =>
      intro S
      change ((DPD.after env (DPD.run env op' S).2 ops).core) = ((op'.run env S.core).2).after env ops
      rw [ih, (DPD.proj_run op' S).2]
  refine ⟨fun op' => ?_, ?_, ?_⟩
  · rw [(DPD.proj_run op' _).1, (DPD.proj_run op' _).1, hafter, hafter, hcore]
  · rw [(DPD.proj_mudPoint _).1, (DPD.proj_mudPoint _).1, hafter, hafter, hcore]
  · rw [(DPD.proj_expectedRatio _).1, (DPD.proj_expectedRatio _).1, hafter, hafter, hcore]

/-- **C156**, the full claim: a call that raises has no effect on the outcome of later calls. -/
def C156_claim : Prop :=
  ∀ (user : ℕ → ℝ → ℕ → ℝ) (X y : NArr) (dom w : Option NArr) (nrm : Bool) (pad : ℝ) (xi di : Bool)
    (P : DP), DP.new X y dom w nrm pad xi di = .ok P → ∀ (ops : List DOp) (op : DOp) (e : Err),
    (DPD.run (scipyEnv user) op (DPD.after (scipyEnv user) { core := P } ops)).1 = .error e →
    ∀ (later : List DOp) (op' : DOp),
    (DPD.run (scipyEnv user) op' (DPD.after (scipyEnv user)
      (DPD.run (scipyEnv user) op (DPD.after (scipyEnv user) { core := P } ops)).2 later)).1 =
    (DPD.run (scipyEnv user) op' (DPD.after (scipyEnv user)
      (DPD.after (scipyEnv user) { core := P } ops) later)).1

/-- Two samples with the same output. -/
def flatY : NArr := .mat ⟨2, 1, !![(1 : ℝ); 1]⟩

/-- The problem of two samples with the same output. -/
def flatP : DP := { demoP with y := ⟨2, 1, !![(1 : ℝ); 1]⟩ }

theorem flat_new : DP.new demoX flatY (some demoDom) = .ok flatP := rfl

open Classical in
/-- The kernel estimate of identical outputs raises. -/
theorem flat_kde (user : ℕ → ℝ → ℕ → ℝ) (bw : ℕ) :
    (scipyEnv user).kde flatP.y bw flatP.weights = .error .linAlgError := by
  have hw : ∀ i : Fin 2, kdeWeights 2 [F.fin 1, F.fin 1] i = 1 / 2 := by
    intro i
    fin_cases i <;> norm_num [kdeWeights, F.re]
  have hcov : kdeCov !![(1 : ℝ); 1] (kdeWeights 2 [F.fin 1, F.fin 1]) = 0 := by
    ext j k
    fin_cases j; fin_cases k
    simp [kdeCov, hw]
    norm_num
  have hn : ¬ (kdeCov !![(1 : ℝ); 1] (kdeWeights 2 [F.fin 1, F.fin 1])).PosDef := by
    rw [hcov]
    intro h
    have := h.det_pos
    simp at this
  have hy : flatP.y = ⟨2, 1, !![(1 : ℝ); 1]⟩ := rfl
  have hws : flatP.weights = [F.fin 1, F.fin 1] := rfl
  simp only [scipyEnv, gaussianKde, kdeCheck, hy, hws]
  have h5 : ¬ ∃ i, kdeWeights 2 [F.fin 1, F.fin 1] i < 0 := by
    rintro ⟨i, hi⟩; rw [hw] at hi; norm_num at hi
  have h6 : ¬ 1 ≤ ∑ i, kdeWeights 2 [F.fin 1, F.fin 1] i ^ 2 := by
    simp only [hw]; norm_num
  rw [raiseIf_false (by norm_num), raiseIf_false (by simp), raiseIf_false (by simp [F.isFin]),
    raiseIf_false (by norm_num [F.re]), raiseIf_false h5, raiseIf_false h6, raiseIf_true hn]
  rfl

/-- **C156** is false of the code: an `estimate()` that fails because all outputs coincide has set
the default initial distribution. A predicted distribution set afterwards is then kept and `fit()`
succeeds; without the failed call it is discarded and `fit()` fails. -/
theorem C156_claim_refuted : ¬ C156_claim := by
  intro hC
  have hk := flat_kde (fun _ _ _ => 1) 0
  obtain ⟨env, henv⟩ : ∃ env, env = scipyEnv (fun _ _ _ => 1) := ⟨_, rfl⟩
  rw [← henv] at hk
  have hini : ∃ v, v.length = 2 ∧ ∀ p c,
      DPD.setInitial none { core := { flatP with pr := p }, prDist := c } =
      (.ok (), { core := { flatP with init := some v }, inDist := some (uniformOn flatP.domain) }) := by
    have h0 : ∃ v, v.length = 2 ∧ DPD.setInitial none { core := flatP } =
        (.ok (), { core := { flatP with init := some v },
                   inDist := some (uniformOn flatP.domain) }) := ⟨_, rfl, rfl⟩
    obtain ⟨v, h1, h2⟩ := h0
    exact ⟨v, h1, fun p c => h2⟩
  obtain ⟨v, hv, hini⟩ := hini
  obtain ⟨a, b, rfl⟩ := List.length_eq_two.1 hv
  have hfit : ∀ p c, DPD.fit env none 0 none { core := { flatP with pr := p }, prDist := c } =
      (.error .linAlgError,
      { core := { flatP with init := some [a, b] }, inDist := some (uniformOn flatP.domain) }) := by
    intro p c
    rw [fit_guarded, guarded_true rfl, hini]
    dsimp only
    rw [guarded_true rfl]
    have : DPD.setPredicted env none 0 none
        { core := { flatP with init := some [a, b] }, inDist := some (uniformOn flatP.domain) } =
        (.error .linAlgError,
          { core := { flatP with init := some [a, b] }, inDist := some (uniformOn flatP.domain) }) := by
      simp only [DPD.setPredicted, DPD.setWeightsIf, DPD.emb, DP.setPredicted, DP.setWeightsIf,
        PyM.pure_run, PyM.bind_run, PyM.get_run, PyM.lift_run, DP.predVals, hk]
    rw [this]
  have hest : DPD.run env .estimate { core := flatP } = (.error .linAlgError,
      { core := { flatP with init := some [a, b] }, inDist := some (uniformOn flatP.domain) }) := by
    change (DPD.mudPoint env >>= fun _ => pure ()) _ = _
    rw [PyM.bind_run, mudPoint_guarded, guarded_true rfl, show DPD.fit env none 0 none { core := flatP } = _ from hfit none none]
  have h := hC (fun _ _ _ => 1) demoX flatY (some demoDom) none false (1 / 10) false false flatP
    flat_new [] .estimate .linAlgError (by rw [← henv]; exact congrArg Prod.fst hest)
    [.setPredicted (some (distOf fun _ => 1)) 0 none] (.fit none 0 none)
  rw [← henv] at h
  change (DPD.fit env none 0 none (DPD.setPredicted env (some (distOf fun _ => 1)) 0 none
      (DPD.run env .estimate { core := flatP }).2).2).1 =
    (DPD.fit env none 0 none (DPD.setPredicted env (some (distOf fun _ => 1)) 0 none
      { core := flatP }).2).1 at h
  rw [hest] at h
  have h1 : (DPD.fit env none 0 none (DPD.setPredicted env (some (distOf fun _ => 1)) 0 none
      { core := { flatP with init := some [a, b] }, inDist := some (uniformOn flatP.domain) }).2).1 =
      .ok () := rfl
  have h2 : (DPD.fit env none 0 none (DPD.setPredicted env (some (distOf fun _ => 1)) 0 none
      { core := flatP }).2).1 = .error .linAlgError := by
    have e1 : ∃ p c, (DPD.setPredicted env (some (distOf fun _ => 1)) 0 none { core := flatP }).2 =
      { core := { flatP with pr := p }, prDist := c } := ⟨_, _, rfl⟩
    obtain ⟨p, c, e1⟩ := e1
    rw [e1, hfit]
  rw [h1, h2] at h
  cases h

/-- The hypotheses are met: three weights for two samples are rejected, at any point. -/
example (env : Env) (S : DPD) (hS : S.core.n_samples = 2) : ∃ e,
    (DPD.run env (.setWeights (some (.vec 3 ![1, 1, 1])) false) S).1 = .error e := by
  refine ⟨.assertionError, ?_⟩
  change (DPD.setWeights (some (.vec 3 ![1, 1, 1])) false S).1 = _
  have h : DP.weightsOf S.core.X.r S.core.n_samples (some (.vec 3 ![1, 1, 1])) false =
      .error .assertionError := by
    rw [hS]; rfl
  simp only [DPD.setWeights, DPD.emb, DP.setWeights, PyM.bind_run, PyM.get_run, PyM.lift_run, h]

end Verif
