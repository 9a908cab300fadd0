import Verif.Props.ExceptionSafety
import Verif.Props.PlotBayes

/-!
# C157: what a call that raises leaves behind (`BayesProblem`)
-/

namespace Verif

open BPD

/-- A `set_prior` that raises changes nothing but the stored distribution object, which only
`plot_param_space` reads. -/
theorem C157_set_prior (d : Option Dist) (S : BPD) (e : Err)
    (he : (BPD.setPrior d S).1 = .error e) :
    (BPD.setPrior d S).2 = { S with prDist := some (d.getD (uniformOn S.core.domain)) } := by
  simp only [BPD.setPrior, BPD.emb, BP.setPrior, PyM.bind_run, PyM.get_run, PyM.lift_run,
    PyM.modify_run] at he ⊢
  cases h : (d.getD (uniformOn S.core.domain)).pdf S.core.X with
  | error e' => rfl
  | ok o =>
    rw [h] at he
    dsimp only at he ⊢
    cases h2 : o.prodRows with
    | error e' => rfl
    | ok v => rw [h2] at he; cases he

/-- A `set_likelihood` that raises changes the stored distribution object and the log flag. -/
theorem C157_set_likelihood (d : Dist) (log : Bool) (S : BPD) (e : Err)
    (he : (BPD.setLikelihood d log S).1 = .error e) :
    (BPD.setLikelihood d log S).2 =
      { S with llDist := some d, core := { S.core with log := log } } := by
  cases log with
  | false =>
    simp only [BPD.setLikelihood, BPD.emb, BP.setLikelihood, PyM.bind_run, PyM.get_run, PyM.lift_run,
      PyM.modify_run, Bool.false_eq_true, if_false] at he ⊢
    cases h : d.pdf S.core.y with
    | error e' => rfl
    | ok o =>
      rw [h] at he
      dsimp only at he ⊢
      cases h2 : o.prodRows with
      | error e' => rfl
      | ok v => rw [h2] at he; cases he
  | true =>
    simp only [BPD.setLikelihood, BPD.emb, BP.setLikelihood, PyM.bind_run, PyM.get_run, PyM.lift_run,
      PyM.modify_run, if_true] at he ⊢
    cases h : d.logpdf S.core.y with
    | error e' => rfl
    | ok o =>
      rw [h] at he
      dsimp only at he ⊢
      cases h2 : o.sumRows with
      | error e' => rfl
      | ok v => rw [h2] at he; cases he

theorem retry_setPrior (d : Option Dist) : RetrySame (BPD.setPrior d) := by
  intro S e he
  rw [C157_set_prior d S e he]
  have : BPD.setPrior d { S with prDist := some (d.getD (uniformOn S.core.domain)) } =
    BPD.setPrior d S := rfl
  rw [this]
  exact Prod.ext he (C157_set_prior d S e he)

theorem retry_setLikelihood (d : Dist) (log : Bool) : RetrySame (BPD.setLikelihood d log) := by
  intro S e he
  rw [C157_set_likelihood d log S e he]
  have : BPD.setLikelihood d log { S with llDist := some d, core := { S.core with log := log } } =
    BPD.setLikelihood d log S := by cases log <;> rfl
  rw [this]
  exact Prod.ext he (C157_set_likelihood d log S e he)

theorem bayesFit_guarded :
    BPD.fit = guarded (fun S => S.core.pr.isNone) (BPD.setPrior none) (BPD.emb BPD.fitTail) := rfl

theorem mapPoint_guarded :
    BPD.mapPoint = guarded (fun S => S.core.ps.isNone) BPD.fit (BPD.emb BPD.pick) := rfl

/-- The last step of `fit` stores a posterior or changes nothing. -/
theorem bayesTail_writes (P : BP) :
    (∃ e, BPD.fitTail P = (.error e, P)) ∨ ∃ v, BPD.fitTail P = (.ok (), { P with ps := some v }) := by
  classical
  rw [BPD.fitTail, PyM.get_bind_run, PyM.bind_run]
  cases h1 : P.ll.isNone with
  | true => exact Or.inl ⟨_, rfl⟩
  | false =>
  simp only [PyM.when_false, PyM.pure_run, PyM.bind_run, PyM.lift_run, PyM.modify_run]
  cases h2 : DP.theAttr P.pr with
  | error e => exact Or.inl ⟨_, rfl⟩
  | ok pr =>
  cases h3 : DP.theAttr P.ll with
  | error e => exact Or.inl ⟨_, rfl⟩
  | ok ll =>
  dsimp only
  generalize (if P.log = true then bzip1 (· + ·) (pr.map F.log) ll else bzip1 (· * ·) pr ll) = z
  cases z with
  | error e => exact Or.inl ⟨_, rfl⟩
  | ok ps =>
  dsimp only
  by_cases h4 : ps.length = P.X.r
  · rw [pyAssert_true h4]
    dsimp only
    by_cases h5 : ps.sum = .fin 0
    · rw [raiseIf_true h5]; exact Or.inl ⟨_, rfl⟩
    · rw [raiseIf_false h5]; exact Or.inr ⟨_, rfl⟩
  · rw [pyAssert_false h4]; exact Or.inl ⟨_, rfl⟩

theorem setPrior_writes (d : Option Dist) (S : BPD) :
    (∃ e, (BPD.setPrior d S).1 = .error e ∧ (BPD.setPrior d S).2.core = S.core) ∨
    ∃ v, (BPD.setPrior d S).1 = .ok () ∧
      (BPD.setPrior d S).2.core = { S.core with pr := some v, ps := none } := by
  cases h : (BPD.setPrior d S).1 with
  | error e => exact Or.inl ⟨e, rfl, by rw [C157_set_prior d S e h]⟩
  | ok u =>
    refine Or.inr ?_
    simp only [BPD.setPrior, BPD.emb, BP.setPrior, PyM.bind_run, PyM.get_run, PyM.lift_run,
      PyM.modify_run] at h ⊢
    cases h1 : (d.getD (uniformOn S.core.domain)).pdf S.core.X with
    | error e' => rw [h1] at h; cases h
    | ok o =>
      rw [h1] at h
      dsimp only at h ⊢
      cases h2 : o.prodRows with
      | error e' => rw [h2] at h; cases h
      | ok v => exact ⟨v, trivial, rfl⟩

theorem retry_bayesFit : RetrySame BPD.fit := by
  rw [bayesFit_guarded]
  refine retry_guarded (retry_setPrior none) ?_ ?_ (retry_of_unchanged ?_) ?_
  · intro S e hg he
    rw [C157_set_prior none S e he]; exact hg
  · intro S _ hok
    rcases setPrior_writes none S with ⟨e, h, _⟩ | ⟨v, _, h⟩
    · rw [hok] at h; cases h
    · rw [h]; rfl
  · intro S e he
    rcases bayesTail_writes S.core with ⟨e', h⟩ | ⟨v, h⟩
    · simp only [BPD.emb, h]
    · simp only [BPD.emb, h] at he; cases he
  · intro S hS
    rcases bayesTail_writes S.core with ⟨e', h⟩ | ⟨v, h⟩ <;> simp only [BPD.emb, h] <;> exact hS

theorem bayesFit_ps (S : BPD) (hS : S.core.ps = none) :
    (∃ e, (BPD.fit S).1 = .error e ∧ (BPD.fit S).2.core.ps = none) ∨
    ((BPD.fit S).1 = .ok () ∧ (BPD.fit S).2.core.ps.isSome) := by
  have ht : ∀ S : BPD, S.core.ps = none →
      (∃ e, (BPD.emb BPD.fitTail S).1 = .error e ∧ (BPD.emb BPD.fitTail S).2.core.ps = none) ∨
      ((BPD.emb BPD.fitTail S).1 = .ok () ∧ (BPD.emb BPD.fitTail S).2.core.ps.isSome) := by
    intro S hS
    rcases bayesTail_writes S.core with ⟨e', h⟩ | ⟨v, h⟩
    · exact Or.inl ⟨e', by simp only [BPD.emb, h], by simp only [BPD.emb, h]; exact hS⟩
    · exact Or.inr ⟨by simp only [BPD.emb, h], by simp only [BPD.emb, h]; rfl⟩
  rw [bayesFit_guarded]
  cases hg : S.core.pr.isNone with
  | false => rw [guarded_false (g := fun S : BPD => S.core.pr.isNone) hg]; exact ht S hS
  | true =>
    rw [guarded_true (g := fun S : BPD => S.core.pr.isNone) hg]
    have hw := setPrior_writes none S
    rcases h : BPD.setPrior none S with ⟨r, S'⟩
    rw [h] at hw
    rcases hw with ⟨e, h1, h2⟩ | ⟨v, h1, h2⟩
    · dsimp only at h1 h2
      subst h1
      exact Or.inl ⟨e, rfl, by dsimp only; rw [h2]; exact hS⟩
    · dsimp only at h1 h2
      subst h1
      exact ht S' (by rw [h2])

theorem bpick_reads (P : BP) : (BPD.pick P).2 = P := by
  simp only [BPD.pick, PyM.bind_run, PyM.get_run, PyM.lift_run]
  cases DP.theAttr P.ps with
  | error e => rfl
  | ok u => dsimp only; cases npArgmax u <;> rfl

/-- **C157**: a call that raises raises again when repeated, with the same exception, and the
repetition changes nothing. -/
theorem C157_retry (op : BOp) (S : BPD) (e : Err) (he : (BPD.run op S).1 = .error e) :
    BPD.run op (BPD.run op S).2 = (.error e, (BPD.run op S).2) := by
  revert S e
  cases op with
  | setPrior d => exact retry_setPrior d
  | setLikelihood d log => exact retry_setLikelihood d log
  | fit => exact retry_bayesFit
  | estimate =>
    refine retry_drop ?_
    rw [mapPoint_guarded]
    refine retry_guarded retry_bayesFit ?_ ?_ (retry_of_unchanged fun S e _ => ?_) ?_
    · intro S e hg he
      rcases bayesFit_ps S (by simpa using hg) with ⟨e', _, h⟩ | ⟨h, _⟩
      · simpa using h
      · rw [he] at h; cases h
    · intro S hg hok
      rcases bayesFit_ps S (by simpa using hg) with ⟨e', h, _⟩ | ⟨_, h⟩
      · rw [hok] at h; cases h
      · simpa using h
    · simp only [BPD.emb, bpick_reads]
    · intro S hS; simp only [BPD.emb, bpick_reads]; exact hS

/-! ### Later results -/

/-- The second object differs from the first at most in that the default prior has been set
already. -/
def PriorReady (P Q : BP) : Prop :=
  P = Q ∨ ∃ v, BP.setPrior none P = (.ok (), { P with pr := some v, ps := none }) ∧ P.pr = none ∧
    P.ps = none ∧ Q = { P with pr := some v }

theorem bayesFit_core : BP.fit = guarded (fun P => P.pr.isNone) (BP.setPrior none) BPD.fitTail := rfl

theorem mapPoint_core : BP.mapPoint = guarded (fun P => P.ps.isNone) BP.fit BPD.pick := rfl

theorem priorReady_fit {P Q : BP} (h : PriorReady P Q) : BP.fit P = BP.fit Q := by
  rcases h with rfl | ⟨v, h1, h2, h3, rfl⟩
  · rfl
  · rw [bayesFit_core, guarded_true (by simp [h2]), h1, guarded_false (by rfl)]
    have : ({ P with pr := some v, ps := none } : BP) = { P with pr := some v } := by
      cases P; simp_all
    rw [this]

theorem priorReady_mapPoint {P Q : BP} (h : PriorReady P Q) :
    (BP.mapPoint P).1 = (BP.mapPoint Q).1 ∧ (BP.mapPoint P).2 = (BP.mapPoint Q).2 := by
  rcases h with rfl | ⟨v, h1, h2, h3, rfl⟩
  · exact ⟨rfl, rfl⟩
  · have := priorReady_fit (Or.inr ⟨v, h1, h2, h3, rfl⟩)
    rw [mapPoint_core, guarded_true (by simp [h3]), guarded_true (by simp [h3]), this]
    exact ⟨rfl, rfl⟩

theorem priorReady_run {P Q : BP} (h : PriorReady P Q) (op : BOp) :
    (op.run P).1 = (op.run Q).1 ∧ PriorReady (op.run P).2 (op.run Q).2 := by
  rcases h with rfl | h
  · exact ⟨rfl, Or.inl rfl⟩
  have hR : PriorReady P Q := Or.inr h
  obtain ⟨v, h1, h2, h3, rfl⟩ := h
  cases op with
  | setPrior d =>
    simp only [BOp.run, BP.setPrior, PyM.bind_run, PyM.get_run, PyM.lift_run, PyM.modify_run]
    cases h4 : (d.getD (uniformOn P.domain)).pdf P.X with
    | error e => exact ⟨rfl, hR⟩
    | ok o =>
      dsimp only
      cases h5 : o.prodRows with
      | error e => exact ⟨rfl, hR⟩
      | ok u => exact ⟨rfl, Or.inl rfl⟩
  | setLikelihood d log =>
    have hset : ∀ l g, PriorReady { P with ll := l, log := g } { P with pr := some v, ll := l, log := g } := by
      intro l g
      refine Or.inr ⟨v, ?_, h2, h3, rfl⟩
      simp only [BP.setPrior, PyM.bind_run, PyM.get_run, PyM.lift_run, PyM.modify_run] at h1 ⊢
      cases h4 : ((none : Option Dist).getD (uniformOn P.domain)).pdf P.X with
      | error e => rw [h4] at h1; cases h1
      | ok o =>
        rw [h4] at h1
        dsimp only at h1 ⊢
        cases h5 : o.prodRows with
        | error e => rw [h5] at h1; cases h1
        | ok u =>
          rw [h5] at h1
          dsimp only at h1 ⊢
          have : u = v := by
            have := congrArg (fun z => z.2.pr) h1
            simpa using this
          rw [this]
    have hset' : ∀ l g, PriorReady { P with ll := l, log := g, ps := none }
        { P with pr := some v, ll := l, log := g, ps := none } := by
      intro l g
      have := hset l g
      have e : ({ P with ll := l, log := g, ps := none } : BP) = { P with ll := l, log := g } := by
        cases P; simp_all
      have e' : ({ P with pr := some v, ll := l, log := g, ps := none } : BP) =
          { P with pr := some v, ll := l, log := g } := by
        cases P; simp_all
      rw [e, e']; exact this
    cases log with
    | false =>
      simp only [BOp.run, BP.setLikelihood, PyM.bind_run, PyM.get_run, PyM.lift_run,
        PyM.modify_run, Bool.false_eq_true, if_false]
      cases h : d.pdf P.y with
      | error e' => exact ⟨rfl, hset _ _⟩
      | ok o =>
        dsimp only
        cases h2 : o.prodRows with
        | error e' => exact ⟨rfl, hset _ _⟩
        | ok v => exact ⟨rfl, hset' _ _⟩
    | true =>
      simp only [BOp.run, BP.setLikelihood, PyM.bind_run, PyM.get_run, PyM.lift_run,
        PyM.modify_run, if_true]
      cases h : d.logpdf P.y with
      | error e' => exact ⟨rfl, hset _ _⟩
      | ok o =>
        dsimp only
        cases h2 : o.sumRows with
        | error e' => exact ⟨rfl, hset _ _⟩
        | ok v => exact ⟨rfl, hset' _ _⟩
  | fit =>
    have := priorReady_fit hR
    change (BP.fit P).1 = (BP.fit _).1 ∧ PriorReady (BP.fit P).2 (BP.fit _).2
    rw [this]; exact ⟨rfl, Or.inl rfl⟩
  | estimate =>
    have h4 := priorReady_mapPoint hR
    have h5 : BP.mapPoint P = BP.mapPoint { P with pr := some v } := Prod.ext h4.1 h4.2
    have h6 : (BOp.run .estimate) P = (BOp.run .estimate) { P with pr := some v } := by
      change (BP.mapPoint >>= fun _ => pure ()) P = (BP.mapPoint >>= fun _ => pure ()) _
      rw [PyM.bind_run, PyM.bind_run, h5]
    rw [h6]; exact ⟨rfl, Or.inl rfl⟩

theorem priorReady_after (later : List BOp) : ∀ {P Q : BP}, PriorReady P Q →
    PriorReady (P.after later) (Q.after later) := by
  induction later with
  | nil => intro P Q h; exact h
  | cons op ops ih => intro P Q h; exact ih (priorReady_run h op).2

theorem tail_shape (P : BP) : (∃ e, BPD.fitTail P = (.error e, P)) ∨ ∃ v, v ≠ [] ∧ v.length = P.X.r ∧
    BPD.fitTail P = (.ok (), { P with ps := some v }) := by
  classical
  rw [BPD.fitTail, PyM.get_bind_run, PyM.bind_run]
  cases h1 : P.ll.isNone with
  | true => exact Or.inl ⟨_, rfl⟩
  | false =>
  simp only [PyM.when_false, PyM.pure_run, PyM.bind_run, PyM.lift_run, PyM.modify_run]
  cases h2 : DP.theAttr P.pr with
  | error e => exact Or.inl ⟨_, rfl⟩
  | ok pr =>
  cases h3 : DP.theAttr P.ll with
  | error e => exact Or.inl ⟨_, rfl⟩
  | ok ll =>
  dsimp only
  generalize (if P.log = true then bzip1 (· + ·) (pr.map F.log) ll else bzip1 (· * ·) pr ll) = z
  cases z with
  | error e => exact Or.inl ⟨_, rfl⟩
  | ok ps =>
  dsimp only
  by_cases h4 : ps.length = P.X.r
  · rw [pyAssert_true h4]
    dsimp only
    by_cases h5 : ps.sum = .fin 0
    · rw [raiseIf_true h5]; exact Or.inl ⟨_, rfl⟩
    · rw [raiseIf_false h5]
      exact Or.inr ⟨_, by rintro rfl; exact h5 rfl, h4, rfl⟩
  · rw [pyAssert_false h4]; exact Or.inl ⟨_, rfl⟩

theorem setPrior_shape (d : Option Dist) (P : BP) : (∃ e, BP.setPrior d P = (.error e, P)) ∨
    ∃ v, BP.setPrior d P = (.ok (), { P with pr := some v, ps := none }) := by
  simp only [BP.setPrior, PyM.bind_run, PyM.get_run, PyM.lift_run, PyM.modify_run]
  cases h1 : (d.getD (uniformOn P.domain)).pdf P.X with
  | error e' => exact Or.inl ⟨_, rfl⟩
  | ok o =>
    dsimp only
    cases h2 : o.prodRows with
    | error e' => exact Or.inl ⟨_, rfl⟩
    | ok v => exact Or.inr ⟨v, rfl⟩

/-- What `fit` can do. -/
theorem fit_shape (P : BP) (hP : P.pr = none → P.ps = none) :
    (∃ e, (BP.fit P).1 = .error e ∧ PriorReady P (BP.fit P).2) ∨
    ∃ (Q : BP) (v : List F), BP.fit P = (.ok (), { Q with ps := some v }) ∧ v ≠ [] ∧ v.length = Q.X.r ∧
      Q.pr.isSome := by
  rw [bayesFit_core]
  cases hpr : P.pr with
  | some p =>
    rw [guarded_false (by simp [hpr])]
    rcases tail_shape P with ⟨e, h⟩ | ⟨v, h1, h2, h⟩
    · rw [h]; exact Or.inl ⟨e, rfl, Or.inl rfl⟩
    · rw [h]; exact Or.inr ⟨P, v, rfl, h1, h2, by simp [hpr]⟩
  | none =>
    rw [guarded_true (by simp [hpr])]
    rcases setPrior_shape none P with ⟨e, h⟩ | ⟨p, h⟩
    · rw [h]; exact Or.inl ⟨e, rfl, Or.inl rfl⟩
    · have hps := hP hpr
      have hR : PriorReady P { P with pr := some p, ps := none } :=
        Or.inr ⟨p, h, hpr, hps, by cases P; simp_all⟩
      rw [h]
      dsimp only
      rcases tail_shape { P with pr := some p, ps := none } with ⟨e, h⟩ | ⟨v, h1, h2, h⟩
      · rw [h]; exact Or.inl ⟨e, rfl, hR⟩
      · rw [h]; exact Or.inr ⟨_, v, rfl, h1, h2, rfl⟩

theorem pick_shape (Q : BP) (v : List F) (h : v ≠ []) (hl : v.length = Q.X.r) :
    ∃ x, BPD.pick { Q with ps := some v } = (.ok x, { Q with ps := some v }) := by
  obtain ⟨m, hm, h1⟩ := npArgmax_spec h
  have h2 : m < Q.X.r := hl ▸ h1.1
  refine ⟨List.ofFn fun j => Q.X.m ⟨m, h2⟩ j, ?_⟩
  simp only [BPD.pick, PyM.bind_run, PyM.get_run, PyM.lift_run, DP.theAttr, hm, Arr2.rowAt, h2,
    dif_pos]

/-- What `estimate` can do. -/
theorem mapPoint_shape (P : BP) (hP : P.pr = none → P.ps = none) :
    (∃ e, (BP.mapPoint P).1 = .error e ∧ PriorReady P (BP.mapPoint P).2) ∨
    ∃ x, (BP.mapPoint P).1 = .ok x ∧ ((BP.mapPoint P).2 = P ∨ (BP.mapPoint P).2.pr.isSome) := by
  rw [mapPoint_core]
  cases hps : P.ps with
  | some u =>
    rw [guarded_false (by simp [hps])]
    have h := bpick_reads P
    cases h1 : (BPD.pick P).1 with
    | error e => exact Or.inl ⟨e, rfl, Or.inl h.symm⟩
    | ok x => exact Or.inr ⟨x, rfl, Or.inl h⟩
  | none =>
    rw [guarded_true (by simp [hps])]
    have h0 := fit_shape P hP
    rcases h : BP.fit P with ⟨r, Q⟩
    rw [h] at h0
    rcases h0 with ⟨e, h1, h2⟩ | ⟨Q', v, h1, h2, h3, h4⟩
    · dsimp only at h1
      subst h1
      exact Or.inl ⟨e, rfl, h2⟩
    · cases h1
      obtain ⟨x, hx⟩ := pick_shape Q' v h2 h3
      refine Or.inr ⟨x, ?_⟩
      dsimp only
      rw [hx]
      exact ⟨rfl, Or.inr h4⟩

/-- Without a prior there is no stored posterior. -/
theorem no_prior_no_posterior (ops : List BOp) : ∀ {P : BP}, (P.pr = none → P.ps = none) →
    (P.after ops).pr = none → (P.after ops).ps = none := by
  have hset : ∀ {P Q : BP}, (P.pr = none → P.ps = none) → PriorReady P Q →
      (Q.pr = none → Q.ps = none) := by
    rintro P Q hP (rfl | ⟨v, _, _, _, rfl⟩)
    · exact hP
    · intro h; cases h
  induction ops with
  | nil => intro P h; exact h
  | cons op ops ih =>
    intro P h
    refine ih (P := (op.run P).2) ?_
    cases op with
    | setPrior d =>
      change (BP.setPrior d P).2.pr = none → (BP.setPrior d P).2.ps = none
      rcases setPrior_shape d P with ⟨e, h1⟩ | ⟨v, h1⟩ <;> rw [h1]
      · exact h
      · intro h; cases h
    | setLikelihood d log =>
      have : (BP.setLikelihood d log P).2.pr = P.pr ∧
          ((BP.setLikelihood d log P).2.ps = P.ps ∨ (BP.setLikelihood d log P).2.ps = none) := by
        cases log with
        | false =>
          simp only [BP.setLikelihood, PyM.bind_run, PyM.get_run, PyM.lift_run,
            PyM.modify_run, Bool.false_eq_true, if_false]
          cases h : d.pdf P.y with
          | error e' => exact ⟨rfl, Or.inl rfl⟩
          | ok o =>
            dsimp only
            cases h2 : o.prodRows with
            | error e' => exact ⟨rfl, Or.inl rfl⟩
            | ok v => exact ⟨rfl, Or.inr rfl⟩
        | true =>
          simp only [BP.setLikelihood, PyM.bind_run, PyM.get_run, PyM.lift_run,
            PyM.modify_run, if_true]
          cases h : d.logpdf P.y with
          | error e' => exact ⟨rfl, Or.inl rfl⟩
          | ok o =>
            dsimp only
            cases h2 : o.sumRows with
            | error e' => exact ⟨rfl, Or.inl rfl⟩
            | ok v => exact ⟨rfl, Or.inr rfl⟩
      intro h1
      change (BP.setLikelihood d log P).2.pr = none at h1
      change (BP.setLikelihood d log P).2.ps = none
      rcases this.2 with h2 | h2
      · rw [h2]; exact h (this.1 ▸ h1)
      · exact h2
    | fit =>
      change (BP.fit P).2.pr = none → (BP.fit P).2.ps = none
      rcases fit_shape P h with ⟨e, _, h1⟩ | ⟨Q, v, h1, _, _, h2⟩
      · exact hset h h1
      · rw [h1]; intro h3
        change Q.pr = none at h3
        rw [h3] at h2; cases h2
    | estimate =>
      have e1 : (BOp.run .estimate P).2 = (BP.mapPoint P).2 := by
        change ((BP.mapPoint >>= fun _ => pure ()) P).2 = _
        rw [PyM.bind_run]
        rcases BP.mapPoint P with ⟨r, S⟩
        cases r <;> rfl
      rw [e1]
      rcases mapPoint_shape P h with ⟨e, _, h1⟩ | ⟨x, _, h1 | h1⟩
      · exact hset h h1
      · rw [h1]; exact h
      · intro h2; rw [h2] at h1; cases h1

/-- **C157**, the full claim: a call that raises has no effect on the results of later calls. -/
def C157_claim : Prop :=
  ∀ (X y : NArr) (dom : Option NArr) (xi : Bool) (P : BP), BP.new X y dom xi = .ok P →
    ∀ (ops : List BOp) (op : BOp) (e : Err), (op.run (P.after ops)).1 = .error e →
    ∀ later : List BOp,
    (∀ op' : BOp, (op'.run (P.after (ops ++ op :: later))).1 =
      (op'.run (P.after (ops ++ later))).1) ∧
    (BP.mapPoint (P.after (ops ++ op :: later))).1 = (BP.mapPoint (P.after (ops ++ later))).1

/-- **C157**: the claim holds for a failed `set_prior`, `fit` or `estimate` at any point of any
history, and for a failed `set_likelihood` whose `log` is the one in force. -/
theorem C157_later_partial {X y : NArr} {dom : Option NArr} {xi : Bool} {P : BP}
    (h : BP.new X y dom xi = .ok P) (ops : List BOp) (op : BOp) (e : Err)
    (hop : ∀ d log, op = .setLikelihood d log → log = (P.after ops).log)
    (he : (op.run (P.after ops)).1 = .error e) (later : List BOp) :
    (∀ op' : BOp, (op'.run (P.after (ops ++ op :: later))).1 =
      (op'.run (P.after (ops ++ later))).1) ∧
    (BP.mapPoint (P.after (ops ++ op :: later))).1 = (BP.mapPoint (P.after (ops ++ later))).1 := by
  have h0 : P.pr = none → P.ps = none := by
    intro _
    unfold BP.new at h
    dsimp only at h
    cases dom with
    | none =>
      obtain ⟨dm, -, h⟩ := Py.bind_eq_ok.1 h
      cases h
      rfl
    | some d =>
      obtain ⟨dm, -, h⟩ := Py.bind_eq_ok.1 h
      obtain ⟨_, -, h⟩ := Py.bind_eq_ok.1 h
      cases h
      rfl
  have hI := no_prior_no_posterior ops h0
  have hap : ∀ a b, P.after (a ++ b) = (P.after a).after b := fun a b => by
    simp only [BP.after, List.foldl_append]
  have hR : PriorReady (P.after ops) (op.run (P.after ops)).2 := by
    generalize P.after ops = Q at *
    cases op with
    | setPrior d =>
      rcases setPrior_shape d Q with ⟨e, h1⟩ | ⟨v, h1⟩
      · exact Or.inl (by rw [show (BOp.setPrior d).run Q = _ from h1])
      · rw [show (BOp.setPrior d).run Q = _ from h1] at he; cases he
    | setLikelihood d log =>
      have := C157_set_likelihood d log { core := Q } e he
      have h1 : ((BOp.setLikelihood d log).run Q).2 = { Q with log := log } := congrArg BPD.core this
      rw [h1, hop d log rfl]
      exact Or.inl rfl
    | fit =>
      rcases fit_shape Q hI with ⟨e, _, h1⟩ | ⟨Q', v, h1, _⟩
      · exact h1
      · rw [show BOp.fit.run Q = _ from h1] at he; cases he
    | estimate =>
      have e1 : (BOp.run .estimate Q) = match BP.mapPoint Q with
          | (.ok _, S) => (.ok (), S)
          | (.error e, S) => (.error e, S) := by
        change (BP.mapPoint >>= fun _ => pure ()) Q = _
        rw [PyM.bind_run]
        rcases BP.mapPoint Q with ⟨r, S⟩
        cases r <;> rfl
      rcases mapPoint_shape Q hI with ⟨e', h1, h2⟩ | ⟨x, h1, _⟩
      · rw [e1]
        rcases hm : BP.mapPoint Q with ⟨r, S⟩
        rw [hm] at h1 h2
        cases h1
        exact h2
      · rw [e1] at he
        rcases hm : BP.mapPoint Q with ⟨r, S⟩
        rw [hm] at h1 he
        cases h1
        cases he
  have hL := priorReady_after later hR
  rw [hap, hap]
  change (∀ op' : BOp, (op'.run ((op.run (P.after ops)).2.after later)).1 = _) ∧
    (BP.mapPoint ((op.run (P.after ops)).2.after later)).1 = _
  exact ⟨fun op' => (priorReady_run hL op').1.symm, (priorReady_mapPoint hL).1.symm⟩

/-- **C157** is false of the code: a `set_likelihood(…, log=True)` that raises has already switched
to logarithms, and the next estimate takes the old likelihood for a logarithm. -/
theorem C157_claim_refuted : ¬ C157_claim := by
  intro hC
  have h := (hC _ _ _ _ _ demoB_new [.setLikelihood (distOf fun x => 1 + 9 / 10 * x) false]
    (.setLikelihood kdeLike true) .valueError ?_ [.setPrior (some (distOf fun x => 1 - x / 2))]).2
  · refine demoB_stale (h.trans ?_)
    have hlike : ∃ v, likeAt (distOf fun x => 1 + 9 / 10 * x) false demoB.data.y = .ok v :=
      ⟨_, (demoB_pair (fun _ => 1) (fun x => 1 + 9 / 10 * x) (by norm_num) (by norm_num)
        (by norm_num) (by norm_num)).like⟩
    have hbad : ¬ ∃ v, likeAt kdeLike true demoB.data.y = .ok v := by
      rintro ⟨v, hv⟩
      cases hv
    have hpr : ∃ v, densAt ((some (distOf fun x => 1 - x / 2)).getD (uniformOn demoB.data.domain))
        demoB.data.X = .ok v := ⟨_, demo_densAt _⟩
    have h1 := C41_current_partial demoB_new
      ([.setLikelihood (distOf fun x => 1 + 9 / 10 * x) false] ++
        [.setPrior (some (distOf fun x => 1 - x / 2))]) ?_
    · rw [h1]
      congr 1
      simp only [BSettings.after, demoBOps, List.foldl_cons, List.foldl_nil, BOp.track,
        List.cons_append, List.nil_append]
      rw [if_pos hpr, if_neg hbad, if_pos hlike, if_pos hpr]
    · intro op hop
      simp only [List.cons_append, List.nil_append, List.mem_cons, List.not_mem_nil, or_false] at hop
      rcases hop with rfl | rfl
      · exact fun h => hlike.elim fun v hv => h v hv
      · exact id
  · rfl

/-- The hypotheses are met: an estimate before any likelihood is given raises and sets the default
prior; the results of the calls that follow are those without the premature call. -/
example (later : List BOp) : (BP.mapPoint (demoB.after (.estimate :: later))).1 =
    (BP.mapPoint (demoB.after later)).1 :=
  (C157_later_partial demoB_new [] .estimate .typeError (by intro d l h; cases h) rfl later).2

example : (demoB.after [.estimate]).pr ≠ demoB.pr := by
  intro h
  have : (demoB.after [.estimate]).pr.isSome = true := rfl
  rw [h] at this
  cases this

end Verif
