import Verif.Props.PlotProb
import Verif.Props.Bayes
import Verif.Model.Kde

/-!
# Figures of a `BayesProblem`: C94, C95
-/

namespace Verif

open BPD

variable {pe : PlotEnv} {D : DData} {s : BSettings}

namespace BPD

/-- The method does to the rest of the object what the method of `Model/Density.lean` does. -/
def Proj {α : Type} (x : PyM BPD α) (z : PyM BP α) : Prop :=
  ∀ S, (x S).1 = (z S.core).1 ∧ (x S).2.core = (z S.core).2

theorem Proj.emb {α : Type} (z : PyM BP α) : Proj (emb z) z := fun _ => ⟨rfl, rfl⟩

theorem Proj.bind {α β : Type} {x : PyM BPD α} {z : PyM BP α} {f : α → PyM BPD β} {g : α → PyM BP β}
    (h : Proj x z) (hf : ∀ a, Proj (f a) (g a)) : Proj (x >>= f) (z >>= g) := by
  intro S
  have hS := h S
  rw [PyM.bind_run, PyM.bind_run]
  rcases hx : x S with ⟨r, S'⟩
  rcases hz : z S.core with ⟨r', P'⟩
  rw [hx, hz] at hS
  obtain ⟨h1, h2⟩ := hS
  simp only at h1 h2
  subst h1 h2
  cases r with
  | ok a => exact hf a S'
  | error e => exact ⟨rfl, rfl⟩

theorem Proj.when {x : PyM BPD Unit} {z : PyM BP Unit} (h : Proj x z) (b : Bool) :
    Proj (PyM.when b x) (PyM.when b z) := by
  cases b with
  | true => exact h
  | false => exact fun _ => ⟨rfl, rfl⟩

theorem proj_fit : Proj fit BP.fit := by
  change Proj fit (PyM.get >>= fun P => PyM.when P.pr.isNone (BP.setPrior none) >>= fun _ => fitTail)
  intro S
  exact ((show Proj (setPrior none) (BP.setPrior none) from fun _ => ⟨rfl, rfl⟩).when
    S.core.pr.isNone).bind (fun _ => Proj.emb fitTail) S

theorem proj_mapPoint : Proj mapPoint BP.mapPoint := by
  change Proj mapPoint (PyM.get >>= fun P => PyM.when P.ps.isNone BP.fit >>= fun _ => pick)
  intro S
  exact (proj_fit.when S.core.ps.isNone).bind (fun _ => Proj.emb pick) S

theorem proj_run (op : BOp) : Proj (run op) op.run := by
  cases op with
  | setPrior d => exact fun _ => ⟨rfl, rfl⟩
  | setLikelihood d log => exact fun _ => ⟨rfl, rfl⟩
  | fit => exact proj_fit
  | estimate => exact proj_mapPoint.bind fun _ _ => ⟨rfl, rfl⟩

theorem after_core (ops : List BOp) : ∀ S : BPD, (S.after ops).core = S.core.after ops := by
  induction ops with
  | nil => intro S; rfl
  | cons op ops ih =>
    intro S
    change ((run op S).2.after ops).core = ((op.run S.core).2).after ops
    rw [ih, (proj_run op S).2]

end BPD

/-! ### The attributes -/

/-- The distribution attributes agree with the settings. -/
structure BARel (D : DData) (S : BPD) (s : BSettings) : Prop where
  core : BRel D S.core s
  prd : ∀ d, S.prDist = some d → d = s.prior.getD (uniformOn D.domain)
  prn : S.prDist = none → S.core.pr = none ∧ s.prior = none
  lld : ∀ d, S.llDist = some d → ∃ log, s.like = some (d, log)
  lln : S.llDist = none → S.core.ll = none

/-- A call in the history raises in evaluating the density of its argument. -/
def SetRaises (D : DData) : BOp → Prop
  | .setPrior d => ∀ v, densAt (d.getD (uniformOn D.domain)) D.X ≠ .ok v
  | .setLikelihood d log => ∀ v, likeAt d log D.y ≠ .ok v
  | _ => False

theorem SetRaises.raises {op : BOp} (h : ¬ SetRaises D op) : ¬ Raises D op := by
  cases op with
  | setPrior d => exact id
  | setLikelihood d log => exact h
  | fit => exact id
  | estimate => exact id

/-- The attributes after `fit`: only an unset prior is set, to the default. -/
theorem fit_attrs (S : BPD) : (BPD.fit S).2.llDist = S.llDist ∧
    (BPD.fit S).2.prDist =
      if S.core.pr.isNone then some (uniformOn S.core.domain) else S.prDist := by
  unfold BPD.fit
  rw [PyM.get_bind_run, PyM.bind_run]
  cases hp : S.core.pr with
  | some v => exact ⟨rfl, rfl⟩
  | none =>
    rw [Option.isNone_none, PyM.when_true, if_pos rfl]
    have e : BPD.setPrior none S = ((BP.setPrior none S.core).1,
        { S with core := (BP.setPrior none S.core).2, prDist := some (uniformOn S.core.domain) }) := rfl
    rw [e]
    cases (BP.setPrior none S.core).1 <;> exact ⟨rfl, rfl⟩

theorem fitTail_attr (P : BP) : (BPD.fitTail P).2.ll = P.ll ∧ (BPD.fitTail P).2.pr = P.pr := by
  classical
  unfold BPD.fitTail
  rw [PyM.get_bind_run]
  cases hll : P.ll with
  | none => exact ⟨hll, rfl⟩
  | some l =>
    rw [Option.isNone_some, PyM.when_false, PyM.pure_bind']
    cases hpr : P.pr with
    | none => exact ⟨hll, hpr⟩
    | some v =>
      simp only [DP.theAttr, PyM.lift_ok_bind]
      cases (if P.log = true then bzip1 (· + ·) (List.map F.log v) l else bzip1 (· * ·) v l) with
      | error e => exact ⟨hll, hpr⟩
      | ok ps =>
        rw [PyM.lift_ok_bind]
        by_cases h1 : ps.length = P.X.r
        · rw [pyAssert_true h1]
          by_cases h2 : ps.sum = .fin 0
          · rw [raiseIf_true h2]; exact ⟨hll, hpr⟩
          · rw [raiseIf_false h2]; exact ⟨hll, hpr⟩
        · rw [pyAssert_false h1]; exact ⟨hll, hpr⟩

theorem fit_core (S : BPD) : (BPD.fit S).2.core.ll = S.core.ll ∧
    (∀ v, S.core.pr = some v → (BPD.fit S).2.core.pr = some v) := by
  unfold BPD.fit
  rw [PyM.get_bind_run, PyM.bind_run]
  cases hp : S.core.pr with
  | some v =>
    exact ⟨(fitTail_attr S.core).1, fun w hw => by
      change (BPD.fitTail S.core).2.pr = _
      rw [(fitTail_attr S.core).2, hp, hw]⟩
  | none =>
    refine ⟨?_, fun w hw => by cases hw⟩
    have e : BPD.setPrior none S = ((BP.setPrior none S.core).1,
        { S with core := (BP.setPrior none S.core).2, prDist := some (uniformOn S.core.domain) }) := rfl
    rw [Option.isNone_none, PyM.when_true, e]
    have hl : (BP.setPrior none S.core).2.ll = S.core.ll := by
      unfold BP.setPrior
      rw [PyM.get_bind_run]
      cases ((none : Option Dist).getD (uniformOn S.core.domain)).pdf S.core.X with
      | error e => rfl
      | ok o => rw [PyM.lift_ok_bind]; cases o.prodRows <;> rfl
    cases (BP.setPrior none S.core).1 with
    | error e => exact hl
    | ok a => exact (fitTail_attr _).1.trans hl

theorem barel_fit {S : BPD} (h : BARel D S s) : BARel D (BPD.fit S).2 s where
  core := by rw [(proj_fit S).2]; exact (brel_fit h.core).1
  prd d hd := by
    rw [(fit_attrs S).2] at hd
    cases hp : S.core.pr with
    | some v => rw [hp] at hd; exact h.prd d hd
    | none =>
      rw [hp] at hd
      cases hd
      rw [h.core.pr0 hp, h.core.dom]
      rfl
  prn hd := by
    rw [(fit_attrs S).2] at hd
    cases hp : S.core.pr with
    | some v => rw [hp] at hd; exact absurd (h.prn hd).1 (by simp [hp])
    | none => rw [hp] at hd; cases hd
  lld d hd := h.lld d ((fit_attrs S).1 ▸ hd)
  lln hd := (fit_core S).1.trans (h.lln ((fit_attrs S).1 ▸ hd))

theorem pick_bp_state (P : BP) : (BPD.pick P).2 = P := by
  unfold BPD.pick
  rw [PyM.get_bind_run]
  cases DP.theAttr P.ps with
  | error e => rfl
  | ok u => rw [PyM.lift_ok_bind]; cases npArgmax u <;> rfl

theorem barel_mapPoint {S : BPD} (h : BARel D S s) : BARel D (BPD.mapPoint S).2 s ∧
    (BPD.mapPoint S).1 = s.best D := by
  refine ⟨?_, (proj_mapPoint S).1.trans (brel_estimate h.core).2⟩
  unfold BPD.mapPoint
  rw [PyM.get_bind_run, PyM.bind_run]
  have h1 : BARel D (PyM.when S.core.ps.isNone BPD.fit S).2 s := by
    cases S.core.ps.isNone with
    | true => exact barel_fit h
    | false => exact h
  rcases hx : PyM.when S.core.ps.isNone BPD.fit S with ⟨r, S1⟩
  rw [hx] at h1
  cases r with
  | error e => exact h1
  | ok a =>
    have : (BPD.emb BPD.pick S1).2 = S1 := by unfold BPD.emb; simp [pick_bp_state]
    change BARel D (BPD.emb BPD.pick S1).2 s
    rw [this]
    exact h1

theorem barel_run {S : BPD} (h : BARel D S s) (op : BOp) (hok : ¬ SetRaises D op) :
    BARel D (BPD.run op S).2 (op.track D s) := by
  have hc := brel_run h.core op (SetRaises.raises hok)
  rw [← (BPD.proj_run op S).2] at hc
  cases op with
  | setPrior d =>
    have hv : ∃ v, densAt (d.getD (uniformOn D.domain)) D.X = .ok v := by
      by_contra hcc
      exact hok fun v hv => hcc ⟨v, hv⟩
    have hs : BOp.track D s (.setPrior d) = { s with prior := d } := if_pos hv
    refine ⟨hc, fun d' hd' => ?_, fun hd' => (by cases hd'), fun d' hd' => ?_, fun hd' => ?_⟩
    · cases hd'
      rw [hs, h.core.dom]
    · obtain ⟨log, hl⟩ := h.lld d' hd'
      exact ⟨log, by rw [hs]; exact hl⟩
    · change (BP.setPrior d S.core).2.ll = none
      have hl : (BP.setPrior d S.core).2.ll = S.core.ll := by
        unfold BP.setPrior
        rw [PyM.get_bind_run]
        cases (d.getD (uniformOn S.core.domain)).pdf S.core.X with
        | error e => rfl
        | ok o => rw [PyM.lift_ok_bind]; cases o.prodRows <;> rfl
      rw [hl]
      exact h.lln hd'
  | setLikelihood d log =>
    have hv : ∃ v, likeAt d log D.y = .ok v := by
      by_contra hcc
      exact hok fun v hv => hcc ⟨v, hv⟩
    have hs : BOp.track D s (.setLikelihood d log) = { s with like := some (d, log) } := if_pos hv
    refine ⟨hc, fun d' hd' => ?_, fun hd' => ?_, fun d' hd' => ?_, fun hd' => (by cases hd')⟩
    · rw [hs]; exact h.prd d' hd'
    · rw [hs]
      refine ⟨?_, (h.prn hd').2⟩
      change (BP.setLikelihood d log S.core).2.pr = none
      rw [setLikelihood_run h.core]
      cases likeAt d log D.y <;> exact (h.prn hd').1
    · cases hd'
      exact ⟨log, by rw [hs]⟩
  | fit => exact barel_fit h
  | estimate =>
    have := (barel_mapPoint h).1
    change BARel D ((BPD.mapPoint >>= fun _ => pure ()) S).2 s
    rw [PyM.bind_run]
    rcases hx : BPD.mapPoint S with ⟨r, S1⟩
    rw [hx] at this
    cases r <;> exact this

theorem barel_after (ops : List BOp) (hok : ∀ op ∈ ops, ¬ SetRaises D op) : ∀ {S : BPD} {s},
    BARel D S s → BARel D (S.after ops) (ops.foldl (BOp.track D) s) := by
  induction ops with
  | nil => intro S s h; exact h
  | cons op ops ih =>
    intro S s h
    exact ih (fun o ho => hok o (List.mem_cons_of_mem _ ho))
      (barel_run h op (hok op (List.mem_cons_self ..)))

theorem bnew_barel {X y : NArr} {dom : Option NArr} {xi : Bool} {P : BP}
    (h : BP.new X y dom xi = .ok P) : BARel P.data { core := P } {} := by
  have hr := bnew_rel h
  have e : P.pr = none ∧ P.ll = none := by
    unfold BP.new at h
    dsimp only at h
    cases dom with
    | none =>
      obtain ⟨dm, -, h⟩ := Py.bind_eq_ok.1 h
      cases h
      exact ⟨rfl, rfl⟩
    | some d =>
      obtain ⟨dm, -, h⟩ := Py.bind_eq_ok.1 h
      obtain ⟨_, -, h⟩ := Py.bind_eq_ok.1 h
      cases h
      exact ⟨rfl, rfl⟩
  exact ⟨hr, fun d hd => (by cases hd), fun _ => ⟨e.1, rfl⟩, fun d hd => (by cases hd), fun _ => e.2⟩

/-! ## C94: the parameter space -/

/-- After a successful estimate the posterior is cached. -/
theorem mapPoint_ps {S : BPD} (h : BARel D S s) {pt : List ℝ} (hp : (BPD.mapPoint S).1 = .ok pt) :
    ∃ u, s.posterior D = .ok u ∧ (BPD.mapPoint S).2.core.ps = some u := by
  have hr := (barel_mapPoint h).1
  cases hps : (BPD.mapPoint S).2.core.ps with
  | some u => exact ⟨u, hr.core.ps1 u hps, rfl⟩
  | none =>
    exfalso
    have e1 := (proj_mapPoint S).1
    have e2 := (proj_mapPoint S).2
    rw [hp] at e1
    rw [e2] at hps
    have e : BP.mapPoint = (PyM.get >>= fun P : BP => PyM.when P.ps.isNone BP.fit >>= fun _ =>
      BPD.pick) := rfl
    rw [e, PyM.get_bind_run, PyM.bind_run] at e1 hps
    rcases hx : PyM.when S.core.ps.isNone BP.fit S.core with ⟨r, Q⟩
    rw [hx] at e1 hps
    cases r with
    | error e => cases e1
    | ok a =>
      have hq : (BPD.pick Q).2 = Q := pick_bp_state Q
      change (BPD.pick Q).2.ps = none at hps
      change .ok pt = (BPD.pick Q).1 at e1
      rw [hq] at hps
      unfold BPD.pick at e1
      rw [PyM.get_bind_run, hps] at e1
      cases e1

/-- **C94**, exactly what is drawn over the parameter space with default options, after any history
in which no setting call raised: the density of the current prior; the kernel density estimate of
the samples weighted with the values of the posterior array of the current settings — in logarithmic
mode the *logarithms* of the posterior; a line at the MAP point of the current settings. -/
theorem C94_exact {X y : NArr} {dom : Option NArr} {xi : Bool} {P : BP}
    (h : BP.new X y dom xi = .ok P) (ops : List BOp) (hok : ∀ op ∈ ops, ¬ SetRaises P.data op)
    (idx : ℤ) (R : Option Arr2) (aff : ℤ) (items : List Item)
    (hp : (BPD.plotParamSpace pe idx R aff true true true true none
      (BPD.after { core := P } ops)).1 = .ok items) :
    ∃ ps pt k, (BSettings.after P.data ops).posterior P.data = .ok ps ∧
      (BSettings.after P.data ops).best P.data = .ok pt ∧ ND.normIdx pt.length idx = .ok k ∧
      items = [.curve "prior" (.ofDist
          ((BSettings.after P.data ops).prior.getD (uniformOn P.domain))),
        .curve "posterior" (.ofKde P.X 0 (some ps)), .vert "map" (pt.getD k 0)] := by
  have hrel := barel_after ops hok (bnew_barel h)
  change BARel P.data _ (BSettings.after P.data ops) at hrel
  generalize BPD.after { core := P } ops = S at hrel hp
  generalize BSettings.after P.data ops = s at hrel
  change ((do
    let a ← PyM.lift (priorCurve pe true S.prDist (R.getD S.core.domain) idx aff)
    let b ← posteriorCurve pe true (R.getD S.core.domain) idx aff
    let m ← mapLine true idx
    let t ← PyM.lift (vertTrue true none idx)
    return a ++ b ++ m ++ t : PyM BPD (List Item)) S).1 = _ at hp
  cases hpd : S.prDist with
  | none => rw [hpd] at hp; cases hp
  | some d =>
    rw [hpd] at hp
    have hd := hrel.prd d hpd
    unfold priorCurve at hp
    rw [if_pos rfl] at hp
    dsimp only at hp
    cases ha : drawIf pe true "prior" "pdf" (.ofDist d) (R.getD S.core.domain) idx aff with
    | error e => rw [ha] at hp; cases hp
    | ok a =>
      rw [ha, PyM.lift_ok_bind, PyM.bind_run] at hp
      have hae := drawIf_ok ha
      unfold posteriorCurve at hp
      rw [if_pos rfl, PyM.bind_run] at hp
      have hm := barel_mapPoint hrel
      rcases hx : BPD.mapPoint S with ⟨r, S1⟩
      rw [hx] at hp hm
      cases r with
      | error e => cases hp
      | ok pt =>
        obtain ⟨u, hu, hu'⟩ := mapPoint_ps hrel (pt := pt) (by rw [hx])
        rw [hx] at hu'
        simp only [PyM.get_bind_run, PyM.lift_run] at hp hu' hm
        cases hb : drawIf pe true "posterior" "kde" (.ofKde S1.core.X 0 S1.core.ps)
            (R.getD S.core.domain) idx aff with
        | error e => rw [hb] at hp; cases hp
        | ok b =>
          rw [hb] at hp
          have hbe := drawIf_ok hb
          dsimp only at hp
          unfold mapLine at hp
          rw [if_pos rfl, PyM.bind_run, PyM.bind_run] at hp
          have hm2 := barel_mapPoint hm.1
          rcases hx2 : BPD.mapPoint S1 with ⟨r2, S2⟩
          rw [hx2] at hp hm2
          cases r2 with
          | error e => cases hp
          | ok pt2 =>
            simp only [PyM.lift_run] at hp hm2
            have : pt2 = pt := by
              have := hm2.2.trans hm.2.symm
              cases this
              rfl
            subst this
            unfold vertAt at hp
            cases hk : ND.normIdx pt2.length idx with
            | error e => rw [hk] at hp; cases hp
            | ok k =>
              rw [hk] at hp
              cases hp
              refine ⟨u, pt2, k, hu, hm.2.symm, hk, ?_⟩
              rw [hae, hbe, hu', hm.1.core.X, hd]
              rfl

/-- Before a prior is set (by `set_prior`, `fit` or `estimate`) `plot_param_space` raises an
`AttributeError` with default options. -/
theorem C94_needs_prior {X y : NArr} {dom : Option NArr} {xi : Bool} {P : BP}
    (_h : BP.new X y dom xi = .ok P) (ops : List BOp)
    (hops : ∀ op ∈ ops, ∃ d log, op = .setLikelihood d log) (idx : ℤ) (R : Option Arr2) (aff : ℤ)
    (p m t : Bool) (tv : Option (List ℝ)) :
    (BPD.plotParamSpace pe idx R aff true p m t tv (BPD.after { core := P } ops)).1 =
      .error .attributeError := by
  have key : ∀ (ops : List BOp), (∀ op ∈ ops, ∃ d log, op = .setLikelihood d log) → ∀ S : BPD,
      S.prDist = none → (S.after ops).prDist = none := by
    intro ops
    induction ops with
    | nil => intro _ S hS; exact hS
    | cons op ops ih =>
      intro hops S hS
      refine ih (fun o ho => hops o (List.mem_cons_of_mem _ ho)) _ ?_
      obtain ⟨d, log, rfl⟩ := hops op (List.mem_cons_self ..)
      exact hS
  have hS := key ops hops { core := P } rfl
  generalize BPD.after { core := P } ops = S at hS
  change ((do
    let a ← PyM.lift (priorCurve pe true S.prDist (R.getD S.core.domain) idx aff)
    let b ← posteriorCurve pe p (R.getD S.core.domain) idx aff
    let m ← mapLine m idx
    let t ← PyM.lift (vertTrue t tv idx)
    return a ++ b ++ m ++ t : PyM BPD (List Item)) S).1 = _
  rw [hS]
  rfl

/-- The full claim C94: in the estimate drawn as the posterior a sample of larger posterior has a
larger weight. -/
def C94_claim : Prop :=
  ∀ (pe : PlotEnv) (X y : NArr) (dom : Option NArr) (xi : Bool) (P : BP),
    BP.new X y dom xi = .ok P → ∀ (ops : List BOp) (items : List Item) (ps : List F),
    (BPD.plotParamSpace pe 0 none 1000 true true true true none
      (BPD.after { core := P } ops)).1 = .ok items →
    .curve "posterior" (.ofKde P.X 0 (some ps)) ∈ items → kdeCheck P.X ps = .ok () →
    ∀ i j : Fin P.X.r, (ps.getD i .nan).lt (ps.getD j .nan) →
      kdeWeights P.X.r ps i < kdeWeights P.X.r ps j

/-- **C94**, part (plain mode): posterior values that are finite and nonnegative, not all 0, are the
weights up to the common factor 1 / sum, so that the order is kept. -/
theorem C94_plain_partial {n : ℕ} (p : Fin n → ℝ) (h0 : ∀ i, 0 ≤ p i) (hs : ∃ i, p i ≠ 0) :
    (∀ i, kdeWeights n (List.ofFn fun k => F.fin (p k)) i = p i / ∑ k, p k) ∧
    ∀ i j, kdeWeights n (List.ofFn fun k => F.fin (p k)) i <
      kdeWeights n (List.ofFn fun k => F.fin (p k)) j ↔ p i < p j := by
  have hsum : ((List.ofFn fun k => F.fin (p k)).map F.re).sum = ∑ k, p k := by
    rw [List.map_ofFn, List.sum_ofFn]
    rfl
  have hw : ∀ i, kdeWeights n (List.ofFn fun k => F.fin (p k)) i = p i / ∑ k, p k := by
    intro i
    unfold kdeWeights
    rw [hsum]
    congr 1
    simp [F.re]
  have hpos : 0 < ∑ k, p k := by
    obtain ⟨i, hi⟩ := hs
    exact Finset.sum_pos' (fun k _ => h0 k) ⟨i, Finset.mem_univ _, lt_of_le_of_ne (h0 i) (Ne.symm hi)⟩
  refine ⟨hw, fun i j => ?_⟩
  rw [hw, hw]
  exact div_lt_div_iff_of_pos_right hpos

/-- In logarithmic mode with log posteriors that are all negative (so no exception is raised) the
weights are in *reverse* order: the least probable sample has the largest weight. -/
theorem C94_log_reversed {n : ℕ} (p : Fin n → ℝ) (h0 : ∀ i, p i < 0) (i j : Fin n) :
    kdeWeights n (List.ofFn fun k => F.fin (p k)) i <
      kdeWeights n (List.ofFn fun k => F.fin (p k)) j ↔ p j < p i := by
  have hsum : ((List.ofFn fun k => F.fin (p k)).map F.re).sum = ∑ k, p k := by
    rw [List.map_ofFn, List.sum_ofFn]
    rfl
  have hneg : ∑ k, p k < 0 := by
    have : Nonempty (Fin n) := ⟨i⟩
    exact Finset.sum_neg (fun k _ => h0 k) Finset.univ_nonempty
  unfold kdeWeights
  rw [hsum]
  simp only [List.getD_eq_getElem?_getD, List.getElem?_ofFn, Fin.is_lt, dite_true, Option.getD_some,
    F.re, Fin.eta]
  exact div_lt_div_right_of_neg hneg

/-- In logarithmic mode with log posteriors of both signs the estimate cannot be built: the figure
raises a `ValueError`. -/
theorem C94_log_mixed {n d : ℕ} (A : Matrix (Fin n) (Fin d) ℝ) (p : Fin n → ℝ) (i j : Fin n)
    (hi : p i < 0) (hj : 0 < p j) :
    kdeCheck ⟨n, d, A⟩ (List.ofFn fun k => F.fin (p k)) = .error .valueError := by
  classical
  unfold kdeCheck
  by_cases h1 : n * d ≤ 1
  · rw [raiseIf_true (show (⟨n, d, A⟩ : Arr2).r * (⟨n, d, A⟩ : Arr2).c ≤ 1 from h1)]; rfl
  rw [raiseIf_false (show ¬ (⟨n, d, A⟩ : Arr2).r * (⟨n, d, A⟩ : Arr2).c ≤ 1 from h1), Py.ok_bind,
    raiseIf_false (by simp), Py.ok_bind, raiseIf_false (by
      rw [not_not]
      intro x hx
      obtain ⟨k, rfl⟩ := (List.mem_ofFn' _ _).1 hx
      trivial), Py.ok_bind]
  have hsum : ((List.ofFn fun k => F.fin (p k)).map F.re).sum = ∑ k, p k := by
    rw [List.map_ofFn, List.sum_ofFn]
    rfl
  by_cases h2 : ∑ k, p k = 0
  · rw [raiseIf_true (hsum.trans h2)]; rfl
  rw [raiseIf_false (by rw [hsum]; exact h2), Py.ok_bind, raiseIf_true]
  · rfl
  · change ∃ k, kdeWeights n (List.ofFn fun k => F.fin (p k)) k < 0
    have hw : ∀ i, kdeWeights n (List.ofFn fun k => F.fin (p k)) i = p i / ∑ k, p k := by
      intro i
      unfold kdeWeights
      rw [hsum]
      congr 1
      simp [F.re]
    rcases lt_or_gt_of_ne h2 with h3 | h3
    · exact ⟨j, by rw [hw]; exact div_neg_of_pos_of_neg hj h3⟩
    · exact ⟨i, by rw [hw]; exact div_neg_of_neg_of_pos hi h3⟩

/-- With a prior set and drawing code that does not raise, the figure is drawn whenever the MAP point
of the current settings exists and has a coordinate of that index. -/
theorem C94_returns {X y : NArr} {dom : Option NArr} {xi : Bool} {P : BP}
    (h : BP.new X y dom xi = .ok P) (ops : List BOp) (hok : ∀ op ∈ ops, ¬ SetRaises P.data op)
    (hpr : (BPD.after { core := P } ops).prDist ≠ none)
    (hdraw : ∀ so c rng i a, pe.draw so c rng i a = .ok ()) (idx : ℤ) (R : Option Arr2) (aff : ℤ)
    {pt : List ℝ} {k : ℕ} (hpt : (BSettings.after P.data ops).best P.data = .ok pt)
    (hk : ND.normIdx pt.length idx = .ok k) :
    ∃ items, (BPD.plotParamSpace pe idx R aff true true true true none
      (BPD.after { core := P } ops)).1 = .ok items := by
  have hrel := barel_after ops hok (bnew_barel h)
  change BARel P.data _ (BSettings.after P.data ops) at hrel
  generalize BPD.after { core := P } ops = S at hrel hpr
  generalize BSettings.after P.data ops = s at hrel hpt
  have hd : ∀ r so c rng i a, drawIf pe true r so c rng i a = .ok [.curve r c] := by
    intro r so c rng i a
    unfold drawIf
    rw [if_pos rfl, hdraw]
    rfl
  change ∃ items, ((do
    let a ← PyM.lift (priorCurve pe true S.prDist (R.getD S.core.domain) idx aff)
    let b ← posteriorCurve pe true (R.getD S.core.domain) idx aff
    let m ← mapLine true idx
    let t ← PyM.lift (vertTrue true none idx)
    return a ++ b ++ m ++ t : PyM BPD (List Item)) S).1 = .ok items
  cases hpd : S.prDist with
  | none => exact absurd hpd hpr
  | some d =>
    unfold priorCurve
    rw [if_pos rfl]
    dsimp only
    rw [hd, PyM.lift_ok_bind, PyM.bind_run]
    unfold posteriorCurve
    rw [if_pos rfl, PyM.bind_run]
    have hm := barel_mapPoint hrel
    rcases hx : BPD.mapPoint S with ⟨r, S1⟩
    rw [hx] at hm
    have hr : r = .ok pt := hm.2.trans hpt
    subst hr
    simp only [PyM.get_bind_run, PyM.lift_run, hd]
    unfold mapLine
    rw [if_pos rfl, PyM.bind_run, PyM.bind_run]
    have hm2 := barel_mapPoint hm.1
    rcases hx2 : BPD.mapPoint S1 with ⟨r2, S2⟩
    rw [hx2] at hm2
    have hr2 : r2 = .ok pt := hm2.2.trans hpt
    subst hr2
    simp only [PyM.lift_run]
    unfold vertAt
    rw [hk]
    exact ⟨_, rfl⟩

/-! ### The example -/

/-- Prior density `exp (-1 - x)` and likelihood 1 at the samples 0 and 1 of `demoB`. -/
noncomputable def demoLOps (log : Bool) : List BOp :=
  [.setPrior (some (distOf fun x => Real.exp (-1 - x))), .setLikelihood (distOf fun _ => 1) log]

theorem demoB_opair : LogPair demoB (distOf fun x => Real.exp (-1 - x)) (distOf fun _ => 1)
    ![Real.exp (-1 - 0), Real.exp (-1 - 1)] (fun i (_ : Fin 1) => ![1, 1] i) :=
  demoB_pair (fun x => Real.exp (-1 - x)) (fun _ => 1) (Real.exp_pos _).le (Real.exp_pos _).le
    zero_le_one zero_le_one

theorem demoL_like (log : Bool) : ∃ v, likeAt (distOf fun _ => 1) log demoB.data.y = .ok v := by
  cases log with
  | true => exact ⟨_, demoB_opair.logLike⟩
  | false => exact ⟨_, demoB_opair.like⟩

theorem demoL_ok (log : Bool) : ∀ op ∈ demoLOps log, ¬ SetRaises demoB.data op := by
  intro op hop
  rcases List.mem_cons.1 hop with rfl | hop
  · exact fun h => h _ demoB_opair.prior
  · rcases List.mem_cons.1 hop with rfl | hop
    · obtain ⟨v, hv⟩ := demoL_like log
      exact fun h => h _ hv
    · cases hop

theorem demoL_settings (log : Bool) : BSettings.after demoB.data (demoLOps log) =
    ⟨some (distOf fun x => Real.exp (-1 - x)), some (distOf fun _ => 1, log)⟩ := by
  unfold BSettings.after demoLOps
  rw [List.foldl_cons, List.foldl_cons, List.foldl_nil]
  have e1 : BOp.track demoB.data {} (.setPrior (some (distOf fun x => Real.exp (-1 - x)))) =
      ⟨some (distOf fun x => Real.exp (-1 - x)), none⟩ := if_pos ⟨_, demoB_opair.prior⟩
  rw [e1]
  exact if_pos (demoL_like log)

theorem demoL_posterior : (BSettings.after demoB.data (demoLOps true)).posterior demoB.data =
    .ok [.fin (-1), .fin (-2)] := by
  classical
  rw [demoL_settings]
  unfold BSettings.posterior
  have h1 : BSettings.priorAt demoB.data ⟨some (distOf fun x => Real.exp (-1 - x)),
      some (distOf fun _ => 1, true)⟩ = .ok [.fin (Real.exp (-1 - 0)), .fin (Real.exp (-1 - 1))] := by
    refine Eq.trans demoB_opair.prior ?_
    simp [List.ofFn_succ]
  have h2 : likeAt (distOf fun _ => 1) true demoB.data.y = .ok [.fin 0, .fin 0] := by
    refine Eq.trans demoB_opair.logLike ?_
    simp [List.ofFn_succ, F.log]
  rw [h1, Py.ok_bind]
  change (do
    let ll ← likeAt (distOf fun _ => 1) true demoB.data.y
    let ps ← BSettings.combine true [.fin (Real.exp (-1 - 0)), .fin (Real.exp (-1 - 1))] ll
    BSettings.checked demoB.data ps) = _
  rw [h2, Py.ok_bind]
  have h3 : BSettings.combine true [.fin (Real.exp (-1 - 0)), .fin (Real.exp (-1 - 1))]
      [.fin 0, .fin 0] = .ok [.fin (-1), .fin (-2)] := by
    unfold BSettings.combine
    rw [if_pos rfl]
    simp only [List.map_cons, List.map_nil, F.log_fin_pos (Real.exp_pos _), Real.log_exp]
    simp [bzip1, F.fin_add]
    norm_num
  rw [h3, Py.ok_bind]
  unfold BSettings.checked
  rw [pyAssert_true (by rfl), raiseIf_false]
  · rfl
  · simp only [List.sum_cons, List.sum_nil]
    intro hh
    have : (F.fin (-1) + (F.fin (-2) + F.fin 0)) = .fin 0 := hh
    rw [F.fin_add, F.fin_add, F.fin_inj] at this
    norm_num at this

theorem demoL_best : (BSettings.after demoB.data (demoLOps true)).best demoB.data = .ok [0] := by
  unfold BSettings.best
  rw [demoL_posterior, Py.ok_bind]
  have : npArgmax [F.fin (-1), F.fin (-2)] = .ok 0 := by
    simp [npArgmax, argmaxGo, F.lt]
  rw [this]
  simp [Arr2.rowAt, demoB, BP.data]

theorem demoL_weights : kdeWeights demoB.X.r [.fin (-1), .fin (-2)] = ![1 / 3, 2 / 3] := by
  change (kdeWeights 2 _ : Fin 2 → ℝ) = _
  funext i
  fin_cases i <;> simp [kdeWeights, F.re] <;> norm_num

theorem demoL_kde : kdeCheck demoB.X [.fin (-1), .fin (-2)] = .ok () := by
  classical
  unfold kdeCheck
  rw [demoL_weights]
  have hc : kdeCov demoB.X.m (![1 / 3, 2 / 3] : Fin demoB.X.r → ℝ) =
      (1 / 2 : ℝ) • (1 : Matrix (Fin demoB.X.c) (Fin demoB.X.c) ℝ) := by
    change kdeCov (!![(0 : ℝ); 1] : Matrix (Fin 2) (Fin 1) ℝ) (![1 / 3, 2 / 3] : Fin 2 → ℝ) =
      (1 / 2 : ℝ) • (1 : Matrix (Fin 1) (Fin 1) ℝ)
    ext i j
    fin_cases i; fin_cases j
    simp [kdeCov, Fin.sum_univ_two]
    norm_num
  rw [raiseIf_false (by change ¬ (2 * 1 ≤ 1); norm_num), Py.ok_bind,
    raiseIf_false (by change ¬ (2 ≠ 2); norm_num), Py.ok_bind,
    raiseIf_false (by simp [F.isFin]), Py.ok_bind, raiseIf_false (by simp [F.re]; norm_num),
    Py.ok_bind, raiseIf_false, Py.ok_bind, raiseIf_false, Py.ok_bind, raiseIf_false]
  · rw [hc, not_not]
    exact Matrix.PosDef.one.smul (by norm_num)
  · change ¬ (1 ≤ ∑ i : Fin 2, (![1 / 3, 2 / 3] : Fin 2 → ℝ) i ^ 2)
    rw [Fin.sum_univ_two]
    norm_num
  · change ¬ ∃ i : Fin 2, (![1 / 3, 2 / 3] : Fin 2 → ℝ) i < 0
    rw [Fin.exists_fin_two]
    norm_num

/-- **C94 is false of the code**: in logarithmic mode. Samples 0 and 1 with log posteriors -1 and -2:
the MAP point is 0, but in the curve drawn as the posterior 0 has weight 1/3 and 1 has weight 2/3. -/
theorem C94_claim_refuted : ¬ C94_claim := by
  intro hC
  obtain ⟨items, hi⟩ := C94_returns (pe := demoPe) demoB_new (demoLOps true) (demoL_ok true)
    (by change (some _ : Option Dist) ≠ none; simp) (fun _ _ _ _ _ => rfl) 0 none 1000 demoL_best
    (k := 0) rfl
  obtain ⟨ps, pt, k, hps, -, -, hl⟩ := C94_exact demoB_new (demoLOps true) (demoL_ok true) _ _ _ _ hi
  rw [demoL_posterior] at hps
  cases hps
  have := hC demoPe demoX demoX (some demoDom) true demoB demoB_new (demoLOps true) items _ hi
    (by rw [hl]; simp) demoL_kde (1 : Fin 2) (0 : Fin 2) (by
      change F.lt (.fin (-2)) (.fin (-1))
      simp [F.lt])
  rw [demoL_weights] at this
  change (![1 / 3, 2 / 3] : Fin 2 → ℝ) 1 < (![1 / 3, 2 / 3] : Fin 2 → ℝ) 0 at this
  norm_num at this

/-! ## C95: the observable space -/

/-- **C95**, exactly what is drawn over the observable space with default options, after any history
in which no setting call raised: the density of the current likelihood and the kernel density
estimate of the data with the cached posterior as weights; if there is one, it is the posterior of
the current settings, if there is none the data are weighted equally. -/
theorem C95_exact {X y : NArr} {dom : Option NArr} {xi : Bool} {P : BP}
    (h : BP.new X y dom xi = .ok P) (ops : List BOp) (hok : ∀ op ∈ ops, ¬ SetRaises P.data op)
    (idx : ℤ) (R : Option Arr2) (aff : ℤ) (items : List Item)
    (hp : BPD.plotObsSpace pe (BPD.after { core := P } ops) idx R aff true true = .ok items) :
    ∃ d log w, (BSettings.after P.data ops).like = some (d, log) ∧
      items = [.curve "likelihood" (.ofDist d), .curve "push-forward" (.ofKde P.y 0 w)] ∧
      (∀ ps, w = some ps → (BSettings.after P.data ops).posterior P.data = .ok ps) := by
  have hrel := barel_after ops hok (bnew_barel h)
  change BARel P.data _ (BSettings.after P.data ops) at hrel
  generalize BPD.after { core := P } ops = S at hrel hp
  generalize BSettings.after P.data ops = s at hrel
  unfold BPD.plotObsSpace likelihoodCurve at hp
  simp only [if_true] at hp
  cases hl : S.core.ll with
  | none => rw [hl] at hp; cases hp
  | some v =>
    cases hd : S.llDist with
    | none => rw [hl, hd] at hp; cases hp
    | some d =>
      rw [hl, hd] at hp
      dsimp only at hp
      obtain ⟨a, ha, hp⟩ := Py.bind_eq_ok.1 hp
      obtain ⟨b, hb, hp⟩ := Py.bind_eq_ok.1 hp
      cases hp
      obtain ⟨log, hlog⟩ := hrel.lld d hd
      refine ⟨d, log, S.core.ps, hlog, ?_, fun ps hps => hrel.core.ps1 ps hps⟩
      rw [drawIf_ok ha, drawIf_ok hb, hrel.core.y]
      rfl

/-- Without a likelihood `plot_obs_space` raises a `ValueError` with default options. -/
theorem C95_needs_likelihood {X y : NArr} {dom : Option NArr} {xi : Bool} {P : BP}
    (h : BP.new X y dom xi = .ok P) (ops : List BOp) (hok : ∀ op ∈ ops, ¬ SetRaises P.data op)
    (hno : ∀ op ∈ ops, ∀ d log, op ≠ .setLikelihood d log) (idx : ℤ) (R : Option Arr2) (aff : ℤ)
    (b : Bool) :
    BPD.plotObsSpace pe (BPD.after { core := P } ops) idx R aff true b = .error .valueError := by
  have hrel := barel_after ops hok (bnew_barel h)
  change BARel P.data _ (BSettings.after P.data ops) at hrel
  have hs : ∀ (ops : List BOp), (∀ op ∈ ops, ∀ d log, op ≠ .setLikelihood d log) →
      ∀ s : BSettings, s.like = none → (ops.foldl (BOp.track P.data) s).like = none := by
    intro ops
    induction ops with
    | nil => intro _ s hs; exact hs
    | cons op ops ih =>
      intro hno s hs
      refine ih (fun o ho => hno o (List.mem_cons_of_mem _ ho)) _ ?_
      have := hno op (List.mem_cons_self ..)
      cases op with
      | setPrior d =>
        simp only [BOp.track]
        split_ifs <;> exact hs
      | setLikelihood d log => exact absurd rfl (this d log)
      | fit => exact hs
      | estimate => exact hs
  have hl := hs ops hno {} rfl
  change (BSettings.after P.data ops).like = none at hl
  generalize BPD.after { core := P } ops = S at hrel
  have : S.core.ll = none := by
    cases hc : S.core.ll with
    | none => rfl
    | some v =>
      obtain ⟨d, hd, -⟩ := hrel.core.ll1 v hc
      rw [hl] at hd
      cases hd
  unfold BPD.plotObsSpace likelihoodCurve
  simp only [if_true, this]
  rfl

/-- `fit` after the prior has been set either raises and changes nothing, or stores the posterior. -/
theorem fitTail_cases (P : BP) :
    (∃ e, BPD.fitTail P = (.error e, P)) ∨
      ∃ ps, P.pr ≠ none ∧ BPD.fitTail P = (.ok (), { P with ps := some ps }) := by
  classical
  unfold BPD.fitTail
  rw [PyM.get_bind_run]
  cases hll : P.ll with
  | none => exact .inl ⟨_, rfl⟩
  | some l =>
    rw [Option.isNone_some, PyM.when_false, PyM.pure_bind']
    cases hpr : P.pr with
    | none => exact .inl ⟨_, rfl⟩
    | some v =>
      simp only [DP.theAttr, PyM.lift_ok_bind]
      cases (if P.log = true then bzip1 (· + ·) (List.map F.log v) l else bzip1 (· * ·) v l) with
      | error e => exact .inl ⟨_, rfl⟩
      | ok ps =>
        rw [PyM.lift_ok_bind]
        by_cases h1 : ps.length = P.X.r
        · rw [pyAssert_true h1]
          by_cases h2 : ps.sum = .fin 0
          · rw [raiseIf_true h2]; exact .inl ⟨_, rfl⟩
          · rw [raiseIf_false h2]; exact .inr ⟨ps, by simp, by
              rw [PyM.lift_ok_bind, PyM.lift_ok_bind]
              simp only [PyM.modify, hpr, hll]⟩
        · rw [pyAssert_false h1]; exact .inl ⟨_, rfl⟩

/-- The object has a cached prior and posterior. -/
def Cached (S : BPD) : Prop := S.core.pr ≠ none ∧ S.core.ps ≠ none

theorem fitTail_cached {P : BP} (h : (BPD.fitTail P).1 = .ok ()) :
    (BPD.fitTail P).2.pr ≠ none ∧ (BPD.fitTail P).2.ps ≠ none := by
  rcases fitTail_cases P with ⟨e, he⟩ | ⟨ps, hpr, he⟩
  · rw [he] at h; cases h
  · rw [he]; exact ⟨hpr, by simp⟩

/-- A successful `fit` caches the posterior. -/
theorem fit_cached {S : BPD} (hok : (BPD.fit S).1 = .ok ()) : Cached (BPD.fit S).2 := by
  unfold BPD.fit at hok ⊢
  rw [PyM.get_bind_run, PyM.bind_run] at hok ⊢
  rcases hx : PyM.when S.core.pr.isNone (BPD.setPrior none) S with ⟨r, S1⟩
  rw [hx] at hok
  cases r with
  | error e => cases hok
  | ok a => exact fitTail_cached (P := S1.core) hok

/-- `fit` and `estimate` keep the cached posterior. -/
theorem cached_run {S : BPD} (h : Cached S) {op : BOp} (hop : op = .fit ∨ op = .estimate) :
    Cached (BPD.run op S).2 := by
  rcases hop with rfl | rfl
  · change Cached (BPD.fit S).2
    unfold BPD.fit
    rw [PyM.get_bind_run, PyM.bind_run]
    cases hp : S.core.pr with
    | none => exact absurd hp h.1
    | some v =>
      change Cached (BPD.emb BPD.fitTail S).2
      unfold BPD.emb
      rcases fitTail_cases S.core with ⟨e, he⟩ | ⟨ps, hpr, he⟩
      · rw [he]; exact h
      · rw [he]; exact ⟨h.1, by simp⟩
  · change Cached ((BPD.mapPoint >>= fun _ => pure ()) S).2
    have : (BPD.mapPoint S).2 = S := by
      unfold BPD.mapPoint
      rw [PyM.get_bind_run, PyM.bind_run]
      cases hp : S.core.ps with
      | none => exact absurd hp h.2
      | some v =>
        change (BPD.emb BPD.pick S).2 = S
        unfold BPD.emb
        simp [pick_bp_state]
    rw [PyM.bind_run]
    rcases hx : BPD.mapPoint S with ⟨r, S1⟩
    rw [hx] at this
    subst this
    cases r <;> exact h

theorem cached_after (ops : List BOp) (hops : ∀ op ∈ ops, op = .fit ∨ op = .estimate) :
    ∀ {S : BPD}, Cached S → Cached (S.after ops) := by
  induction ops with
  | nil => intro S h; exact h
  | cons op ops ih =>
    intro S h
    exact ih (fun o ho => hops o (List.mem_cons_of_mem _ ho))
      (cached_run h (hops op (List.mem_cons_self ..)))

/-- The figure draws the cached posterior. -/
theorem obs_weights {S : BPD} {idx : ℤ} {R : Option Arr2} {aff : ℤ} {items : List Item}
    (hp : BPD.plotObsSpace pe S idx R aff true true = .ok items) :
    ∃ d, items = [.curve "likelihood" (.ofDist d),
      .curve "push-forward" (.ofKde S.core.y 0 S.core.ps)] := by
  unfold BPD.plotObsSpace likelihoodCurve at hp
  simp only [if_true] at hp
  cases hl : S.core.ll with
  | none => rw [hl] at hp; cases hp
  | some v =>
    cases hd : S.llDist with
    | none => rw [hl, hd] at hp; cases hp
    | some d =>
      rw [hl, hd] at hp
      dsimp only at hp
      obtain ⟨a, ha, hp⟩ := Py.bind_eq_ok.1 hp
      obtain ⟨b, hb, hp⟩ := Py.bind_eq_ok.1 hp
      cases hp
      exact ⟨d, by rw [drawIf_ok ha, drawIf_ok hb]; rfl⟩

/-- The full claim C95: the data are weighted with the posterior of the current settings. -/
def C95_claim : Prop :=
  ∀ (pe : PlotEnv) (X y : NArr) (dom : Option NArr) (xi : Bool) (P : BP),
    BP.new X y dom xi = .ok P → ∀ (ops : List BOp) (items : List Item),
    (∀ op ∈ ops, ¬ SetRaises P.data op) →
    BPD.plotObsSpace pe (BPD.after { core := P } ops) 0 none 1000 true true = .ok items →
    ∃ ps, (BSettings.after P.data ops).posterior P.data = .ok ps ∧
      .curve "push-forward" (.ofKde P.y 0 (some ps)) ∈ items

/-- **C95**, part: the weights are the posterior of the current settings if `fit` succeeded and was
followed by no `set_prior` and no `set_likelihood`. -/
theorem C95_after_fit_partial {X y : NArr} {dom : Option NArr} {xi : Bool} {P : BP}
    (h : BP.new X y dom xi = .ok P) (ops rest : List BOp)
    (hok : ∀ op ∈ ops, ¬ SetRaises P.data op) (hrest : ∀ op ∈ rest, op = .fit ∨ op = .estimate)
    (hfit : (BPD.fit (BPD.after { core := P } ops)).1 = .ok ()) (idx : ℤ) (R : Option Arr2) (aff : ℤ)
    (items : List Item)
    (hp : BPD.plotObsSpace pe (BPD.after { core := P } (ops ++ .fit :: rest)) idx R aff true true =
      .ok items) :
    ∃ d log ps, (BSettings.after P.data ops).like = some (d, log) ∧
      (BSettings.after P.data ops).posterior P.data = .ok ps ∧
      items = [.curve "likelihood" (.ofDist d), .curve "push-forward" (.ofKde P.y 0 (some ps))] := by
  have hc : Cached (BPD.after { core := P } (ops ++ .fit :: rest)) := by
    unfold BPD.after
    rw [List.foldl_append, List.foldl_cons]
    exact cached_after rest hrest (fit_cached hfit)
  have hset : BSettings.after P.data (ops ++ .fit :: rest) = BSettings.after P.data ops := by
    unfold BSettings.after
    rw [List.foldl_append, List.foldl_cons]
    generalize ops.foldl (BOp.track P.data) {} = s
    change rest.foldl (BOp.track P.data) s = s
    clear hp hc
    induction rest generalizing s with
    | nil => rfl
    | cons op rest ih =>
      rw [List.foldl_cons, show BOp.track P.data s op = s from by
        rcases hrest op (List.mem_cons_self ..) with rfl | rfl <;> rfl]
      exact ih (fun o ho => hrest o (List.mem_cons_of_mem _ ho)) s
  obtain ⟨d, log, w, h1, h2, h3⟩ := C95_exact h _ (by
    intro op hop
    rcases List.mem_append.1 hop with hop | hop
    · exact hok op hop
    · rcases List.mem_cons.1 hop with rfl | hop
      · exact id
      · rcases hrest op hop with rfl | rfl <;> exact id) _ _ _ _ hp
  rw [hset] at h1 h3
  obtain ⟨d', he⟩ := obs_weights hp
  have hw : (BPD.after { core := P } (ops ++ .fit :: rest)).core.ps = w := by
    rw [h2] at he
    simp only [List.cons.injEq, Item.curve.injEq, Curve.ofKde.injEq, true_and, and_true] at he
    exact he.2.2.symm
  obtain ⟨ps, hps⟩ := Option.ne_none_iff_exists'.1 hc.2
  rw [hps] at hw
  exact ⟨d, log, ps, h1, h3 ps hw.symm, by rw [h2, ← hw]⟩

/-- Not fitted since the last `set_prior` or `set_likelihood`: every data point has the same
weight. -/
theorem C95_unfitted {X y : NArr} {dom : Option NArr} {xi : Bool} {P : BP}
    (h : BP.new X y dom xi = .ok P) (ops : List BOp) (op : BOp)
    (hok : ∀ o ∈ ops ++ [op], ¬ SetRaises P.data o)
    (hop : (∃ d, op = .setPrior d) ∨ ∃ d log, op = .setLikelihood d log) (idx : ℤ) (R : Option Arr2)
    (aff : ℤ) (items : List Item)
    (hp : BPD.plotObsSpace pe (BPD.after { core := P } (ops ++ [op])) idx R aff true true =
      .ok items) : .curve "push-forward" (.ofKde P.y 0 none) ∈ items := by
  obtain ⟨d', he⟩ := obs_weights hp
  have hrel := barel_after (ops ++ [op]) hok (bnew_barel h)
  rw [he, hrel.core.y]
  have hrel0 := barel_after ops (fun o ho => hok o (List.mem_append_left _ ho)) (bnew_barel h)
  have hps : (BPD.after { core := P } (ops ++ [op])).core.ps = none := by
    unfold BPD.after
    rw [List.foldl_append]
    change (BPD.run op (BPD.after { core := P } ops)).2.core.ps = none
    have hne := hok op (by simp)
    generalize BPD.after { core := P } ops = S at hrel0
    rw [(BPD.proj_run op S).2]
    rcases hop with ⟨d, rfl⟩ | ⟨d, log, rfl⟩
    · have hv : ∃ v, densAt (d.getD (uniformOn P.data.domain)) P.data.X = .ok v := by
        by_contra hcc
        exact hne fun v hv => hcc ⟨v, hv⟩
      obtain ⟨v, hv⟩ := hv
      change (BP.setPrior d S.core).2.ps = none
      unfold densAt at hv
      unfold BP.setPrior
      rw [PyM.get_bind_run, hrel0.core.dom, hrel0.core.X]
      obtain ⟨o, ho, hv⟩ := Py.bind_eq_ok.1 hv
      rw [ho, PyM.lift_ok_bind, hv]
      rfl
    · have hv : ∃ v, likeAt d log P.data.y = .ok v := by
        by_contra hcc
        exact hne fun v hv => hcc ⟨v, hv⟩
      obtain ⟨v, hv⟩ := hv
      change (BP.setLikelihood d log S.core).2.ps = none
      rw [setLikelihood_run hrel0.core, hv]
  rw [hps]
  simp [BP.data]

/-- **C95 is false of the code**: the problem of the example, with prior and likelihood set, but not
fitted. -/
theorem C95_claim_refuted : ¬ C95_claim := by
  intro hC
  have hrel := barel_after (demoLOps true) (demoL_ok true) (bnew_barel demoB_new)
  have hp : ∃ items, BPD.plotObsSpace demoPe (BPD.after { core := demoB } (demoLOps true)) 0 none
      1000 true true = .ok items := by
    have hd : (BPD.after { core := demoB } (demoLOps true)).llDist = some (distOf fun _ => 1) := rfl
    unfold BPD.plotObsSpace likelihoodCurve
    rw [hd]
    cases hl : (BPD.after { core := demoB } (demoLOps true)).core.ll with
    | none =>
      have := hrel.core.ll0 hl
      change (BSettings.after demoB.data (demoLOps true)).like = none at this
      rw [demoL_settings] at this
      cases this
    | some v => exact ⟨_, rfl⟩
  obtain ⟨items, hi⟩ := hp
  obtain ⟨ps, -, hm⟩ := hC demoPe demoX demoX (some demoDom) true demoB demoB_new (demoLOps true) items
    (demoL_ok true) hi
  have hu := C95_unfitted demoB_new [.setPrior (some (distOf fun x => Real.exp (-1 - x)))]
    (.setLikelihood (distOf fun _ => 1) true) (demoL_ok true) (.inr ⟨_, _, rfl⟩) _ _ _ _ hi
  obtain ⟨d, he⟩ := obs_weights hi
  rw [he] at hm hu
  simp at hm hu
  rw [← hm.2] at hu
  cases hu.2

/-- `C95_after_fit_partial` is not vacuous: the example can be fitted. -/
example : (BPD.fit (BPD.after { core := demoB } (demoLOps true))).1 = .ok () := by
  have hrel := barel_after (demoLOps true) (demoL_ok true) (bnew_barel demoB_new)
  change BARel demoB.data _ (BSettings.after demoB.data (demoLOps true)) at hrel
  rw [(BPD.proj_fit _).1]
  rcases (brel_fit hrel.core).2 with ⟨u, -, h, -⟩ | ⟨e, h, -⟩
  · exact h
  · rw [demoL_posterior] at h
    cases h

/-! ### Further cases meeting the hypotheses -/

/-- C94: the weights `1, 3` become `1/4, 3/4`. -/
example : kdeWeights 2 (List.ofFn fun k => F.fin (![1, 3] k)) 1 = 3 / 4 := by
  rw [(C94_plain_partial (n := 2) ![1, 3] (by intro i; fin_cases i <;> simp) ⟨0, by simp⟩).1 1]
  simp [Fin.sum_univ_two]
  norm_num

/-- C94: of the log posteriors `-1, -3` the smaller one gets the larger weight; `-1, 2` is rejected. -/
example : kdeWeights 2 (List.ofFn fun k => F.fin (![-1, -3] k)) 0 < kdeWeights 2 (List.ofFn fun k => F.fin (![-1, -3] k)) 1 ∧
    kdeCheck ⟨2, 1, !![(0 : ℝ); 1]⟩ (List.ofFn fun k => F.fin (![-1, 2] k)) = .error .valueError :=
  ⟨(C94_log_reversed (n := 2) ![-1, -3] (by intro i; fin_cases i <;> norm_num) 0 1).2 (by norm_num),
    C94_log_mixed _ _ 0 1 (by norm_num) (by norm_num)⟩

/-- C94: with only a likelihood set there is no prior to plot. -/
example (pe : PlotEnv) (d : Dist) (idx aff : ℤ) (p m t : Bool) : (BPD.plotParamSpace pe idx none aff true p m t none
      (BPD.after { core := demoB } [.setLikelihood d true, .setLikelihood d false])).1 = .error .attributeError :=
  C94_needs_prior demoB_new _ (by
    intro op hop
    simp only [List.mem_cons, List.not_mem_nil, or_false] at hop
    rcases hop with rfl | rfl <;> exact ⟨_, _, rfl⟩) _ _ _ _ _ _ _

/-- C95: without a likelihood. -/
example (pe : PlotEnv) (idx aff : ℤ) (b : Bool) :
    BPD.plotObsSpace pe (BPD.after { core := demoB } [.fit, .estimate]) idx none aff true b = .error .valueError :=
  C95_needs_likelihood demoB_new _ (by
    intro op hop
    simp only [List.mem_cons, List.not_mem_nil, or_false] at hop
    rcases hop with rfl | rfl <;> exact id) (by
    intro op hop
    simp only [List.mem_cons, List.not_mem_nil, or_false] at hop
    rcases hop with rfl | rfl <;> simp) _ _ _ _

end Verif
