import Verif.SpecBayes
import Verif.Props.DensityDomain
import Mathlib.Analysis.Complex.ExponentialBounds

/-!
# `BayesProblem`: C40-C43
-/

namespace Verif

/-! ## Refinement of the object to its settings -/

/-- The cached arrays of the object are those of the settings. -/
structure BRel (D : DData) (P : BP) (s : BSettings) : Prop where
  X : P.X = D.X
  y : P.y = D.y
  dom : P.domain = D.domain
  pr0 : P.pr = none → s.prior = none
  pr1 : ∀ v, P.pr = some v → s.priorAt D = .ok v
  ll0 : P.ll = none → s.like = none
  ll1 : ∀ v, P.ll = some v → ∃ d, s.like = some (d, P.log) ∧ likeAt d P.log D.y = .ok v
  ps1 : ∀ v, P.ps = some v → s.posterior D = .ok v

variable {D : DData} {P : BP} {s : BSettings}

theorem brel_setPrior (h : BRel D P s) (d : Option Dist) :
    BRel D (BP.setPrior d P).2 (BOp.track D s (.setPrior d)) := by
  have e : BP.setPrior d P = match densAt (d.getD (uniformOn D.domain)) D.X with
      | .ok v => (.ok (), { P with pr := some v, ps := none })
      | .error e => (.error e, P) := by
    unfold BP.setPrior densAt
    rw [PyM.get_bind_run, ← h.dom, ← h.X]
    cases hx : (d.getD (uniformOn P.domain)).pdf P.X with
    | error e => rfl
    | ok o =>
      rw [PyM.lift_ok_bind, Py.ok_bind]
      cases o.prodRows <;> rfl
  rw [e]
  cases hx : densAt (d.getD (uniformOn D.domain)) D.X with
  | error e =>
    simp only [BOp.track, hx, reduceCtorEq, exists_false, if_false]
    exact h
  | ok v =>
    simp only [BOp.track, hx, Except.ok.injEq, exists_eq', if_true]
    exact {
      X := h.X, y := h.y, dom := h.dom
      pr0 := fun h => by cases h
      pr1 := fun w hw => by cases hw; exact hx
      ll0 := h.ll0
      ll1 := h.ll1
      ps1 := fun w hw => by cases hw }

theorem setLikelihood_run (h : BRel D P s) (d : Dist) (log : Bool) :
    BP.setLikelihood d log P = match likeAt d log D.y with
      | .ok v => (.ok (), { P with log := log, ll := some v, ps := none })
      | .error e => (.error e, { P with log := log }) := by
  unfold BP.setLikelihood likeAt densAt
  rw [PyM.get_bind_run, ← h.y]
  cases log
  · simp only [Bool.false_eq_true, if_false, PyM.modify_bind_run]
    cases hx : d.pdf P.y with
    | error e => rfl
    | ok o =>
      rw [PyM.lift_ok_bind, Py.ok_bind]
      cases o.prodRows <;> rfl
  · simp only [if_true, PyM.modify_bind_run]
    cases hx : d.logpdf P.y with
    | error e => rfl
    | ok o =>
      rw [PyM.lift_ok_bind, Py.ok_bind]
      cases o.sumRows <;> rfl

theorem brel_setLikelihood (h : BRel D P s) (d : Dist) (log : Bool)
    (hok : ∃ v, likeAt d log D.y = .ok v) :
    BRel D (BP.setLikelihood d log P).2 (BOp.track D s (.setLikelihood d log)) := by
  rw [setLikelihood_run h]
  obtain ⟨v, hv⟩ := hok
  simp only [BOp.track, hv, Except.ok.injEq, exists_eq', if_true]
  exact {
    X := h.X, y := h.y, dom := h.dom
    pr0 := h.pr0
    pr1 := h.pr1
    ll0 := fun h => by cases h
    ll1 := fun w hw => by cases hw; exact ⟨d, rfl, hv⟩
    ps1 := fun w hw => by cases hw }

/-- Filling in the default prior. -/
theorem brel_default (h : BRel D P s) :
    (∃ v, s.priorAt D = .ok v ∧
      PyM.when P.pr.isNone (BP.setPrior none) P =
        (.ok (), if P.pr.isNone then { P with pr := some v, ps := none } else P) ∧
      BRel D (if P.pr.isNone then { P with pr := some v, ps := none } else P) s ∧
      (if P.pr.isNone then { P with pr := some v, ps := none } else P).pr = some v) ∨
    ∃ e, s.priorAt D = .error e ∧ PyM.when P.pr.isNone (BP.setPrior none) P = (.error e, P) := by
  cases hp : P.pr with
  | some v =>
    left
    exact ⟨v, h.pr1 v hp, rfl, h, hp⟩
  | none =>
    have hs := h.pr0 hp
    have e0 : s.priorAt D = densAt (uniformOn D.domain) D.X := by
      unfold BSettings.priorAt; rw [hs]; rfl
    have e : BP.setPrior none P = match densAt (uniformOn D.domain) D.X with
        | .ok v => (.ok (), { P with pr := some v, ps := none })
        | .error e => (.error e, P) := by
      unfold BP.setPrior densAt
      rw [PyM.get_bind_run, ← h.dom, ← h.X, Option.getD_none]
      cases hx : (uniformOn P.domain).pdf P.X with
      | error e => rfl
      | ok o =>
        rw [PyM.lift_ok_bind, Py.ok_bind]
        cases o.prodRows <;> rfl
    rw [Option.isNone_none, PyM.when_true, e, e0]
    cases hx : densAt (uniformOn D.domain) D.X with
    | error e => right; exact ⟨e, rfl, rfl⟩
    | ok v =>
      left
      refine ⟨v, rfl, rfl, ?_, rfl⟩
      exact {
        X := h.X, y := h.y, dom := h.dom
        pr0 := fun h => by cases h
        pr1 := fun w hw => by cases hw; rw [e0]; exact hx
        ll0 := h.ll0
        ll1 := h.ll1
        ps1 := fun w hw => by cases hw }

/-- `fit` computes the posterior of the settings, or raises what its definition raises. -/
theorem brel_fit (h : BRel D P s) :
    BRel D (BP.fit P).2 s ∧
      ((∃ u, s.posterior D = .ok u ∧ (BP.fit P).1 = .ok () ∧ (BP.fit P).2.ps = some u) ∨
        ∃ e, s.posterior D = .error e ∧ (BP.fit P).1 = .error e) := by
  classical
  unfold BP.fit
  rw [PyM.get_bind_run, PyM.bind_run]
  rcases brel_default h with ⟨v, hv, e1, hrel, hpr⟩ | ⟨e, hv, e1⟩
  swap
  · rw [e1]
    exact ⟨h, Or.inr ⟨e, by unfold BSettings.posterior; rw [hv]; rfl, rfl⟩⟩
  rw [e1]
  generalize (if P.pr.isNone then { P with pr := some v, ps := none } else P) = Q at hrel hpr ⊢
  dsimp only
  rw [PyM.get_bind_run]
  cases hll : Q.ll with
  | none =>
    refine ⟨hrel, Or.inr ⟨.typeError, ?_, rfl⟩⟩
    unfold BSettings.posterior
    rw [hv, Py.ok_bind, hrel.ll0 hll]
  | some l =>
    obtain ⟨d, hd, hl⟩ := hrel.ll1 l hll
    have epost : s.posterior D = (do
        let ps ← BSettings.combine Q.log v l
        BSettings.checked D ps) := by
      unfold BSettings.posterior
      rw [hv, Py.ok_bind, hd]
      dsimp only
      rw [hl, Py.ok_bind]
    rw [Option.isNone_some, PyM.when_false, PyM.pure_bind', hpr]
    simp only [DP.theAttr, PyM.lift_ok_bind]
    have ec : (if Q.log = true then bzip1 (· + ·) (List.map F.log v) l else bzip1 (· * ·) v l) =
      BSettings.combine Q.log v l := rfl
    rw [ec, epost]
    cases hps : BSettings.combine Q.log v l with
    | error e => exact ⟨hrel, Or.inr ⟨e, rfl, rfl⟩⟩
    | ok ps =>
      rw [hps, Py.ok_bind] at epost
      rw [Py.ok_bind, PyM.lift_ok_bind]
      unfold BSettings.checked
      unfold BSettings.checked at epost
      rw [hrel.X]
      by_cases h1 : ps.length = D.X.r
      · rw [pyAssert_true h1] at epost ⊢
        by_cases h2 : ps.sum = .fin 0
        · rw [raiseIf_true h2]
          exact ⟨hrel, Or.inr ⟨_, rfl, rfl⟩⟩
        · rw [raiseIf_false h2] at epost ⊢
          refine ⟨?_, Or.inl ⟨ps, rfl, rfl, rfl⟩⟩
          exact {
            X := hrel.X, y := hrel.y, dom := hrel.dom
            pr0 := hrel.pr0
            pr1 := hrel.pr1
            ll0 := hrel.ll0
            ll1 := hrel.ll1
            ps1 := fun w hw => by cases hw; exact epost }
      · rw [pyAssert_false h1]
        exact ⟨hrel, Or.inr ⟨_, rfl, rfl⟩⟩

/-- `estimate` returns the best sample of the settings. -/
theorem brel_estimate (h : BRel D P s) :
    BRel D (BP.mapPoint P).2 s ∧ (BP.mapPoint P).1 = s.best D := by
  unfold BP.mapPoint BSettings.best
  rw [PyM.get_bind_run, PyM.bind_run]
  cases hps : P.ps with
  | some u =>
    rw [Option.isNone_some, PyM.when_false, PyM.pure_run]
    dsimp only
    rw [PyM.get_bind_run, h.ps1 u hps, hps, h.X]
    simp only [DP.theAttr, PyM.lift_ok_bind, Py.ok_bind]
    cases npArgmax u <;> exact ⟨h, rfl⟩
  | none =>
    rw [Option.isNone_none, PyM.when_true]
    obtain ⟨hrel, ⟨u, hu, h1, h2⟩ | ⟨e, hu, h1⟩⟩ := brel_fit h
    · rcases hx : BP.fit P with ⟨r, Q⟩
      rw [hx] at hrel h1 h2
      dsimp only at hrel h1 h2
      subst h1
      dsimp only
      rw [PyM.get_bind_run, hu, h2, hrel.X]
      simp only [DP.theAttr, PyM.lift_ok_bind, Py.ok_bind]
      cases npArgmax u <;> exact ⟨hrel, rfl⟩
    · rcases hx : BP.fit P with ⟨r, Q⟩
      rw [hx] at hrel h1
      dsimp only at hrel h1
      subst h1
      rw [hu]
      exact ⟨hrel, rfl⟩

/-- A call of `set_likelihood` in the history raises. -/
def Raises (D : DData) : BOp → Prop
  | .setLikelihood d log => ∀ v, likeAt d log D.y ≠ .ok v
  | _ => False

theorem brel_run (h : BRel D P s) (op : BOp) (hok : ¬ Raises D op) :
    BRel D (op.run P).2 (op.track D s) := by
  cases op with
  | setPrior d => exact brel_setPrior h d
  | setLikelihood d log =>
    refine brel_setLikelihood h d log ?_
    by_contra hc
    exact hok fun v hv => hc ⟨v, hv⟩
  | fit => exact (brel_fit h).1
  | estimate =>
    have e : (BOp.run .estimate P).2 = (BP.mapPoint P).2 := by
      change ((BP.mapPoint >>= fun _ => pure ()) P).2 = _
      rw [PyM.bind_run]
      rcases BP.mapPoint P with ⟨r, Q⟩
      cases r <;> rfl
    rw [e]
    exact (brel_estimate h).1

theorem brel_after (ops : List BOp) (hok : ∀ op ∈ ops, ¬ Raises D op) (h : BRel D P s) :
    BRel D (P.after ops) (ops.foldl (BOp.track D) s) := by
  induction ops generalizing P s with
  | nil => exact h
  | cons op ops ih =>
    exact ih (fun o ho => hok o (List.mem_cons_of_mem _ ho))
      (brel_run h op (hok op (List.mem_cons_self ..)))

theorem bnew_rel {X y : NArr} {dom : Option NArr} {xi : Bool} {P : BP}
    (h : BP.new X y dom xi = .ok P) : BRel P.data P {} := by
  have e : P.ps = none ∧ P.pr = none ∧ P.ll = none := by
    unfold BP.new at h
    dsimp only at h
    cases dom with
    | none =>
      obtain ⟨dm, -, h⟩ := Py.bind_eq_ok.1 h
      cases h
      exact ⟨rfl, rfl, rfl⟩
    | some d =>
      obtain ⟨dm, -, h⟩ := Py.bind_eq_ok.1 h
      obtain ⟨_, -, h⟩ := Py.bind_eq_ok.1 h
      cases h
      exact ⟨rfl, rfl, rfl⟩
  obtain ⟨h1, h2, h3⟩ := e
  exact {
    X := rfl, y := rfl, dom := rfl
    pr0 := fun _ => rfl, pr1 := fun v h => by rw [h2] at h; cases h
    ll0 := fun _ => rfl, ll1 := fun v h => by rw [h3] at h; cases h
    ps1 := fun v h => by rw [h1] at h; cases h }

/-! ## C41: estimates reflect the current settings -/

/-- The full claim C41: whatever the history of calls (some of which may have raised), the next
estimate is the best sample for the settings made by the calls that succeeded. -/
def C41_claim : Prop := ∀ (X y : NArr) (dom : Option NArr) (xi : Bool) (P : BP),
  BP.new X y dom xi = .ok P → ∀ ops : List BOp,
    (BP.mapPoint (P.after ops)).1 = (BSettings.after P.data ops).best P.data

/-- **C41**, for all histories in which no call of `set_likelihood` raised. -/
theorem C41_current_partial {X y : NArr} {dom : Option NArr} {xi : Bool} {P : BP}
    (h : BP.new X y dom xi = .ok P) (ops : List BOp) (hok : ∀ op ∈ ops, ¬ Raises P.data op) :
    (BP.mapPoint (P.after ops)).1 = (BSettings.after P.data ops).best P.data :=
  (brel_estimate (brel_after ops hok (bnew_rel h))).2

/-! ## C40: the MAP point maximises the posterior -/

theorem bzip1_map_left {n : ℕ} (f : F → F → F) (g : F → F) (a b : Fin n → F) :
    bzip1 f ((List.ofFn a).map g) (List.ofFn b) = .ok (List.ofFn fun k => f (g (a k)) (b k)) := by
  rw [List.map_ofFn, bzip1_ofFn]; rfl

/-- The posterior values the claim C40 talks about. -/
noncomputable def postVal (log : Bool) (a b : F) : F := if log then F.log a + b else a * b

theorem combine_ofFn (log : Bool) {n : ℕ} (a b : Fin n → F) :
    BSettings.combine log (List.ofFn a) (List.ofFn b) = .ok (List.ofFn fun k => postVal log (a k) (b k)) := by
  unfold BSettings.combine postVal
  cases log
  · simp [bzip1_ofFn]
  · exact bzip1_map_left _ _ _ _

/-- The object after both distributions are set. -/
theorem bset_rel (Q : BP) (dp d : Dist) (log : Bool) {a b : List F}
    (ha : densAt dp Q.X = .ok a) (hb : likeAt d log Q.y = .ok b) :
    BRel Q.data (Q.after [.setPrior (some dp), .setLikelihood d log])
      { prior := some dp, like := some (d, log) } := by
  have e : Q.after [.setPrior (some dp), .setLikelihood d log] =
      { Q with pr := some a, ll := some b, log := log, ps := none } := by
    obtain ⟨o, ho, ho'⟩ := Py.bind_eq_ok.1 ha
    cases log
    · obtain ⟨o2, ho2, ho2'⟩ := Py.bind_eq_ok.1 (show densAt d Q.y = .ok b from hb)
      simp only [BP.after, List.foldl_cons, List.foldl_nil, BOp.run, BP.setPrior, BP.setLikelihood,
        PyM.get_bind_run, Option.getD_some, ho, ho', PyM.lift_ok_bind, PyM.modify_run, ho2, ho2',
        PyM.modify_bind_run, Bool.false_eq_true, if_false]
    · obtain ⟨o2, ho2, ho2'⟩ := Py.bind_eq_ok.1
        (show (do let out ← d.logpdf Q.y; out.sumRows : Py (List F)) = .ok b from hb)
      simp only [BP.after, List.foldl_cons, List.foldl_nil, BOp.run, BP.setPrior, BP.setLikelihood,
        PyM.get_bind_run, Option.getD_some, ho, ho', PyM.lift_ok_bind, PyM.modify_run, ho2, ho2',
        PyM.modify_bind_run, if_true]
  rw [e]
  exact {
    X := rfl, y := rfl, dom := rfl
    pr0 := fun h => by cases h
    pr1 := fun w hw => by cases hw; exact ha
    ll0 := fun h => by cases h
    ll1 := fun w hw => by cases hw; exact ⟨d, rfl, hb⟩
    ps1 := fun w hw => by cases hw }

open Classical in
/-- What `estimate` does once prior and likelihood are set. -/
theorem bset_estimate (Q : BP) (dp d : Dist) (log : Bool) {n : ℕ} (hX : Q.X.r = n)
    (a b : Fin n → F) (ha : densAt dp Q.X = .ok (List.ofFn a))
    (hb : likeAt d log Q.y = .ok (List.ofFn b)) :
    (BP.mapPoint (Q.after [.setPrior (some dp), .setLikelihood d log])).1 =
      if ∑ k, postVal log (a k) (b k) = .fin 0 then .error .valueError
      else npArgmax (List.ofFn fun k => postVal log (a k) (b k)) >>= Q.X.rowAt := by
  rw [(brel_estimate (bset_rel Q dp d log ha hb)).2]
  unfold BSettings.best BSettings.posterior BSettings.priorAt
  rw [Option.getD_some]
  change (do
    let u ← (do
      let pr ← densAt dp Q.X
      let ll ← likeAt d log Q.y
      let ps ← BSettings.combine log pr ll
      BSettings.checked Q.data ps)
    let m ← npArgmax u
    Q.X.rowAt m : Py (List ℝ)) = _
  rw [ha, Py.ok_bind, hb, Py.ok_bind, combine_ofFn, Py.ok_bind]
  unfold BSettings.checked
  rw [pyAssert_true (by rw [List.length_ofFn]; exact hX.symm), Py.ok_bind, List.sum_ofFn]
  split_ifs with h
  · rw [raiseIf_true h]; rfl
  · rw [raiseIf_false h]; rfl

/-- **C40.** Whatever state the object `Q` is in, once prior and likelihood are set the estimate is
the sample `X[m]`, `m` being the (first) index maximising `prior * likelihood`, or
`log prior + log likelihood` in log mode (unless the values sum to 0, see C43). -/
theorem C40_map_point (Q : BP) (dp d : Dist) (log : Bool) {n : ℕ} (hn : 0 < n) (hX : Q.X.r = n)
    (a b : Fin n → F) (ha : densAt dp Q.X = .ok (List.ofFn a))
    (hb : likeAt d log Q.y = .ok (List.ofFn b))
    (hs : ∑ k, postVal log (a k) (b k) ≠ .fin 0) :
    ∃ m : Fin n, IsArgmax (List.ofFn fun k => postVal log (a k) (b k)) m ∧
      (BP.mapPoint (Q.after [.setPrior (some dp), .setLikelihood d log])).1 =
        .ok (List.ofFn fun j : Fin Q.X.c => Q.X.get m j) := by
  rw [bset_estimate Q dp d log hX a b ha hb, if_neg hs]
  obtain ⟨m, hm, hm'⟩ := npArgmax_spec (l := List.ofFn fun k => postVal log (a k) (b k))
    (by intro h; rw [List.ofFn_eq_nil_iff] at h; omega)
  have hmn : m < n := by obtain ⟨h, -⟩ := hm'; simpa using h
  refine ⟨⟨m, hmn⟩, hm', ?_⟩
  rw [hm, Py.ok_bind]
  unfold Arr2.rowAt
  rw [dif_pos (by omega)]
  congr 2
  funext j
  rw [Arr2.get, dif_pos ⟨by omega, j.2⟩]

/-- **C40**, plain mode, finite densities. -/
theorem C40_plain (Q : BP) (dp d : Dist) {n : ℕ} (hn : 0 < n) (hX : Q.X.r = n)
    (a b : Fin n → ℝ) (ha : densAt dp Q.X = .ok (List.ofFn fun k => F.fin (a k)))
    (hb : densAt d Q.y = .ok (List.ofFn fun k => F.fin (b k))) (hs : ∑ k, a k * b k ≠ 0) :
    ∃ m : Fin n, (∀ k, a k * b k ≤ a m * b m) ∧ (∀ k, k < m → a k * b k < a m * b m) ∧
      (BP.mapPoint (Q.after [.setPrior (some dp), .setLikelihood d false])).1 =
        .ok (List.ofFn fun j : Fin Q.X.c => Q.X.get m j) := by
  obtain ⟨m, hm, h⟩ := C40_map_point Q dp d false hn hX _ _ ha hb
    (by simpa [postVal] using hs)
  have e : (List.ofFn fun k => postVal false (F.fin (a k)) (F.fin (b k))) =
      (List.ofFn fun k => a k * b k).map F.fin := by
    rw [List.map_ofFn]; rfl
  rw [e, isArgmax_fin] at hm
  obtain ⟨hm0, h1, h2⟩ := hm
  refine ⟨m, fun k => ?_, fun k hk => ?_, h⟩
  · simpa using h2 k (by simp)
  · simpa using h1 k hk

theorem F.log_fin_pos {x : ℝ} (h : 0 < x) : F.log (.fin x) = .fin (Real.log x) := by
  simp only [F.log]; rw [if_neg h.ne', if_neg (not_lt.2 h.le)]

/-- **C40**, log mode, positive prior densities and finite log likelihoods. -/
theorem C40_log (Q : BP) (dp d : Dist) {n : ℕ} (hn : 0 < n) (hX : Q.X.r = n)
    (a b : Fin n → ℝ) (ha : densAt dp Q.X = .ok (List.ofFn fun k => F.fin (a k)))
    (ha0 : ∀ k, 0 < a k) {out : FOut} (hout : d.logpdf Q.y = .ok out)
    (hb : out.sumRows = .ok (List.ofFn fun k => F.fin (b k)))
    (hs : ∑ k, (Real.log (a k) + b k) ≠ 0) :
    ∃ m : Fin n, (∀ k, Real.log (a k) + b k ≤ Real.log (a m) + b m) ∧
      (∀ k, k < m → Real.log (a k) + b k < Real.log (a m) + b m) ∧
      (BP.mapPoint (Q.after [.setPrior (some dp), .setLikelihood d true])).1 =
        .ok (List.ofFn fun j : Fin Q.X.c => Q.X.get m j) := by
  have e0 : ∀ k, postVal true (F.fin (a k)) (F.fin (b k)) = F.fin (Real.log (a k) + b k) := by
    intro k
    simp only [postVal, if_true]
    rw [F.log_fin_pos (ha0 k)]; rfl
  obtain ⟨m, hm, h⟩ := C40_map_point Q dp d true hn hX _ _ ha
    (show likeAt d true Q.y = _ by
      change (do let out ← d.logpdf Q.y; out.sumRows : Py (List F)) = _
      rw [hout]; exact hb)
    (by simp only [e0, F.sum_fin, ne_eq, F.fin_inj]; exact hs)
  have e : (List.ofFn fun k => postVal true (F.fin (a k)) (F.fin (b k))) =
      (List.ofFn fun k => Real.log (a k) + b k).map F.fin := by
    rw [List.map_ofFn]
    congr 1
    funext k
    exact e0 k
  rw [e, isArgmax_fin] at hm
  obtain ⟨hm0, h1, h2⟩ := hm
  refine ⟨m, fun k => ?_, fun k hk => ?_, h⟩
  · simpa using h2 k (by simp)
  · simpa using h1 k hk

/-! ## C43: degenerate posteriors -/

/-- The full claim C43: `fit` raises `ValueError` exactly if the posterior vanishes at all samples
(in log mode: all log posteriors are `-inf`). -/
def C43_claim (log : Bool) : Prop := ∀ (Q : BP) (dp d : Dist) (n : ℕ) (_ : Q.X.r = n) (_ : 0 < n)
  (a b : Fin n → F), densAt dp Q.X = .ok (List.ofFn a) → likeAt d log Q.y = .ok (List.ofFn b) →
  ((BP.mapPoint (Q.after [.setPrior (some dp), .setLikelihood d log])).1 = .error .valueError ↔
    ∀ k, postVal log (a k) (b k) = if log then .ninf else .fin 0)

/-- **C43, true part**: plain mode, finite non-negative densities. -/
theorem C43_plain_partial (Q : BP) (dp d : Dist) {n : ℕ} (hX : Q.X.r = n)
    (a b : Fin n → ℝ) (ha0 : ∀ k, 0 ≤ a k) (hb0 : ∀ k, 0 ≤ b k)
    (ha : densAt dp Q.X = .ok (List.ofFn fun k => F.fin (a k)))
    (hb : densAt d Q.y = .ok (List.ofFn fun k => F.fin (b k))) :
    (BP.mapPoint (Q.after [.setPrior (some dp), .setLikelihood d false])).1 = .error .valueError ↔
      ∀ k, a k * b k = 0 := by
  by_cases h : ∀ k, a k * b k = 0
  · rw [bset_estimate Q dp d false hX _ _ ha hb, if_pos
      (by simp only [postVal, Bool.false_eq_true, if_false, F.fin_mul, F.sum_fin, h, Finset.sum_const_zero])]
    exact ⟨fun _ => h, fun _ => rfl⟩
  · have hn : 0 < n := by
      rcases Nat.eq_zero_or_pos n with rfl | hn
      · exact absurd (fun k => k.elim0) h
      · exact hn
    have hs : ∑ k, a k * b k ≠ 0 := fun hs => h fun k =>
      (Finset.sum_eq_zero_iff_of_nonneg fun k _ => mul_nonneg (ha0 k) (hb0 k)).1 hs k
        (Finset.mem_univ k)
    obtain ⟨m, -, -, e⟩ := C40_plain Q dp d hn hX a b ha hb hs
    rw [e]
    exact ⟨fun h => (by cases h), fun h' => absurd h' h⟩

/-- **C43, what the code does in log mode**: `ValueError` if and only if the log posteriors sum to
zero (positive prior densities, finite log likelihoods). -/
theorem C43_log_exact (Q : BP) (dp d : Dist) {n : ℕ} (hn : 0 < n) (hX : Q.X.r = n)
    (a b : Fin n → ℝ) (ha : densAt dp Q.X = .ok (List.ofFn fun k => F.fin (a k)))
    (ha0 : ∀ k, 0 < a k) {out : FOut} (hout : d.logpdf Q.y = .ok out)
    (hb : out.sumRows = .ok (List.ofFn fun k => F.fin (b k))) :
    (BP.mapPoint (Q.after [.setPrior (some dp), .setLikelihood d true])).1 = .error .valueError ↔
      ∑ k, (Real.log (a k) + b k) = 0 := by
  by_cases h : ∑ k, (Real.log (a k) + b k) = 0
  · rw [bset_estimate Q dp d true hX _ _ ha
      (show likeAt d true Q.y = .ok (List.ofFn fun k => F.fin (b k)) by
        change (do let out ← d.logpdf Q.y; out.sumRows : Py (List F)) = _
        rw [hout]; exact hb), if_pos]
    · simp [h]
    · have e0 : ∀ k, postVal true (F.fin (a k)) (F.fin (b k)) = F.fin (Real.log (a k) + b k) := by
        intro k
        simp only [postVal, if_true]
        rw [F.log_fin_pos (ha0 k)]; rfl
      simp only [e0, F.sum_fin, h]
  · obtain ⟨m, -, -, e⟩ := C40_log Q dp d hn hX a b ha ha0 hout hb h
    rw [e]
    simp [h]

/-! ## C42: log and plain likelihood -/

/-- Table of densities as an array. -/
def tabOf {n k : ℕ} (p : Fin n → Fin k → F) : FOut := .tab (List.ofFn fun i => List.ofFn (p i))

theorem tabOf_prod {n k : ℕ} (p : Fin n → Fin k → F) :
    (tabOf p).prodRows = .ok (List.ofFn fun i => ∏ j, p i j) := by
  simp only [tabOf, FOut.prodRows, List.map_ofFn]
  congr 2
  funext i
  exact List.prod_ofFn

theorem tabOf_sum {n k : ℕ} (p : Fin n → Fin k → F) :
    (tabOf p).sumRows = .ok (List.ofFn fun i => ∑ j, p i j) := by
  simp only [tabOf, FOut.sumRows, List.map_ofFn]
  congr 2
  funext i
  exact List.sum_ofFn

theorem F.log_mul {x y : ℝ} (hx : 0 ≤ x) (hy : 0 ≤ y) :
    F.log (.fin (x * y)) = F.log (.fin x) + F.log (.fin y) := by
  rcases hx.eq_or_lt with rfl | hx
  · rcases hy.eq_or_lt with rfl | hy
    · simp [F.log]; rfl
    · rw [F.log_fin_pos hy]; simp [F.log]; rfl
  · rcases hy.eq_or_lt with rfl | hy
    · rw [F.log_fin_pos hx]; simp [F.log]; rfl
    · rw [F.log_fin_pos hx, F.log_fin_pos hy, F.log_fin_pos (mul_pos hx hy),
        Real.log_mul hx.ne' hy.ne']; rfl

theorem F.log_prod {ι : Type*} (t : Finset ι) (f : ι → ℝ) (h : ∀ i ∈ t, 0 ≤ f i) :
    F.log (.fin (∏ i ∈ t, f i)) = ∑ i ∈ t, F.log (.fin (f i)) := by
  classical
  induction t using Finset.induction_on with
  | empty => simp [F.log, F.zero_def]
  | insert a t ha ih =>
    rw [Finset.prod_insert ha, Finset.sum_insert ha, F.log_mul (h _ (Finset.mem_insert_self ..))
      (Finset.prod_nonneg fun i hi => h i (Finset.mem_insert_of_mem hi)),
      ih fun i hi => h i (Finset.mem_insert_of_mem hi)]

theorem F.log_lt {x y : ℝ} (hx : 0 ≤ x) (hy : 0 ≤ y) :
    (F.log (.fin x)).lt (F.log (.fin y)) ↔ x < y := by
  rcases hx.eq_or_lt with rfl | hx
  · rcases hy.eq_or_lt with rfl | hy
    · simp [F.log, F.lt]
    · rw [F.log_fin_pos hy]; simp [F.log, F.lt, hy]
  · rcases hy.eq_or_lt with rfl | hy
    · rw [F.log_fin_pos hx]; simp [F.log, F.lt, hx.le]
    · rw [F.log_fin_pos hx, F.log_fin_pos hy]; exact Real.log_lt_log_iff hx hy

theorem F.log_ne_nan {x : ℝ} (hx : 0 ≤ x) : F.log (.fin x) ≠ .nan := by
  rcases hx.eq_or_lt with rfl | hx
  · simp [F.log]
  · rw [F.log_fin_pos hx]; simp

/-- `np.argmax` of the logarithms is that of the values. -/
theorem isArgmax_log {n : ℕ} (u : Fin n → ℝ) (hu : ∀ k, 0 ≤ u k) (m : ℕ) :
    IsArgmax (List.ofFn fun k => F.log (.fin (u k))) m ↔ IsArgmax (List.ofFn fun k => .fin (u k)) m := by
  have hl : ∀ k : Fin n, F.log (.fin (u k)) ≠ .nan := fun k => F.log_ne_nan (hu k)
  have hlt : ∀ k l : Fin n, (F.log (.fin (u k))).lt (F.log (.fin (u l))) ↔ (F.fin (u k)).lt (F.fin (u l)) :=
    fun k l => F.log_lt (hu k) (hu l)
  unfold IsArgmax
  simp only [List.getElem_ofFn, hl, ne_eq, not_false_eq_true, true_and, false_or, hlt,
    reduceCtorEq, List.length_ofFn]

/-- The data of C42: densities `a` of the prior and a table `p` of likelihood densities; `logpdf`
is the logarithm of `pdf`. -/
structure LogPair (Q : BP) (dp d : Dist) {n k : ℕ} (a : Fin n → ℝ) (p : Fin n → Fin k → ℝ) : Prop where
  rows : Q.X.r = n
  prior : densAt dp Q.X = .ok (List.ofFn fun i => F.fin (a i))
  prior0 : ∀ i, 0 ≤ a i
  pdf : d.pdf Q.y = .ok (tabOf fun i j => F.fin (p i j))
  logpdf : d.logpdf Q.y = .ok (tabOf fun i j => F.log (.fin (p i j)))
  pdf0 : ∀ i j, 0 ≤ p i j

section
variable {Q : BP} {dp d : Dist} {n k : ℕ} {a : Fin n → ℝ} {p : Fin n → Fin k → ℝ}

theorem LogPair.like (h : LogPair Q dp d a p) :
    likeAt d false Q.y = .ok (List.ofFn fun i => F.fin (∏ j, p i j)) := by
  change densAt d Q.y = _
  unfold densAt
  rw [h.pdf, Py.ok_bind, tabOf_prod]
  simp only [F.prod_fin]

theorem LogPair.logLike (h : LogPair Q dp d a p) :
    likeAt d true Q.y = .ok (List.ofFn fun i => F.log (F.fin (∏ j, p i j))) := by
  change (do let out ← d.logpdf Q.y; out.sumRows : Py (List F)) = _
  rw [h.logpdf, Py.ok_bind, tabOf_sum]
  congr 2
  funext i
  rw [F.log_prod _ _ fun j _ => h.pdf0 i j]

/-- In log mode the posterior values are the logarithms of those in plain mode. -/
theorem LogPair.post (h : LogPair Q dp d a p) (i : Fin n) :
    postVal true (F.fin (a i)) (F.log (F.fin (∏ j, p i j))) = F.log (.fin (a i * ∏ j, p i j)) := by
  simp only [postVal, if_true]
  rw [F.log_mul (h.prior0 i) (Finset.prod_nonneg fun j _ => h.pdf0 i j)]

end

/-- The full claim C42: log and plain likelihood give the same result. -/
def C42_claim : Prop := ∀ (Q : BP) (dp d : Dist) (n k : ℕ) (a : Fin n → ℝ) (p : Fin n → Fin k → ℝ),
  LogPair Q dp d a p →
    (BP.mapPoint (Q.after [.setPrior (some dp), .setLikelihood d true])).1 =
      (BP.mapPoint (Q.after [.setPrior (some dp), .setLikelihood d false])).1

/-- **C42, true part**: unless one of the two raises (the plain one when all posterior densities
vanish, the log one when the log posteriors sum to 0), both give the same point. -/
theorem C42_same_partial (Q : BP) (dp d : Dist) {n k : ℕ} (a : Fin n → ℝ) (p : Fin n → Fin k → ℝ)
    (h : LogPair Q dp d a p) (h1 : ∑ i, a i * ∏ j, p i j ≠ 0)
    (h2 : ∑ i, F.log (.fin (a i * ∏ j, p i j)) ≠ .fin 0) :
    (BP.mapPoint (Q.after [.setPrior (some dp), .setLikelihood d true])).1 =
      (BP.mapPoint (Q.after [.setPrior (some dp), .setLikelihood d false])).1 := by
  rw [bset_estimate Q dp d true h.rows _ _ h.prior h.logLike,
    bset_estimate Q dp d false h.rows _ _ h.prior h.like, if_neg, if_neg]
  · simp only [h.post]
    congr 1
    have hn : n ≠ 0 := by
      rintro rfl
      simp at h1
    obtain ⟨m, hm, hm'⟩ := npArgmax_spec (l := List.ofFn fun i => F.log (.fin (a i * ∏ j, p i j)))
      (by intro h; rw [List.ofFn_eq_nil_iff] at h; omega)
    have := (isArgmax_log _ (fun i => mul_nonneg (h.prior0 i)
      (Finset.prod_nonneg fun j _ => h.pdf0 i j)) m).1 hm'
    rw [hm]
    exact (npArgmax_eq this).symm
  · simpa [postVal] using h1
  · simpa only [h.post] using h2

/-! ## Concrete problems: the hypotheses are met, and the refutations -/

/-- Two samples 0 and 1 with data 0 and 1 on `[0, 1]`. -/
def demoB : BP where
  X := ⟨2, 1, !![(0 : ℝ); 1]⟩
  y := ⟨2, 1, !![(0 : ℝ); 1]⟩
  domain := ⟨1, 2, !![(0 : ℝ), 1]⟩

theorem demoB_new : BP.new demoX demoX (some demoDom) = .ok demoB := rfl

theorem demoB_pair (f g : ℝ → ℝ) (hf0 : 0 ≤ f 0) (hf1 : 0 ≤ f 1) (hg0 : 0 ≤ g 0) (hg1 : 0 ≤ g 1) :
    LogPair demoB (distOf f) (distOf g) ![f 0, f 1] (fun i (_ : Fin 1) => ![g 0, g 1] i) where
  rows := rfl
  prior := by
    refine (demo_densAt f).trans ?_
    simp
  prior0 := by intro i; fin_cases i <;> simpa
  pdf := by
    simp [distOf, rowsOf, demoB, tabOf]
  logpdf := by
    simp [distOf, rowsOf, demoB, tabOf]
  pdf0 := by intro i j; fin_cases i <;> simpa

/-- Prior `(1, 1/2)`, likelihood `(1, 3)`: the MAP point is the sample 1. -/
example : (BP.mapPoint (demoB.after [.setPrior (some (distOf fun x => 1 - x / 2)),
    .setLikelihood (distOf fun x => 1 + 2 * x) false])).1 = .ok [1] := by
  have h := demoB_pair (fun x => 1 - x / 2) (fun x => 1 + 2 * x) (by norm_num) (by norm_num)
    (by norm_num) (by norm_num)
  obtain ⟨m, h1, -, h3⟩ := C40_plain demoB _ _ (n := 2) (by norm_num) h.rows _ _ h.prior h.like
    (by simp; norm_num)
  rw [h3]
  have : m = 1 := by
    by_contra hne
    have : m = 0 := by omega
    subst this
    have := h1 1
    norm_num at this
  subst this
  simp [demoB, Arr2.get]

/-- The same in log mode: `C42_same_partial` applies. -/
example : (BP.mapPoint (demoB.after [.setPrior (some (distOf fun x => 1 - x / 2)),
      .setLikelihood (distOf fun x => 1 + 2 * x) true])).1 =
    (BP.mapPoint (demoB.after [.setPrior (some (distOf fun x => 1 - x / 2)),
      .setLikelihood (distOf fun x => 1 + 2 * x) false])).1 := by
  refine C42_same_partial demoB _ _ _ _ (demoB_pair _ _ (by norm_num) (by norm_num) (by norm_num)
    (by norm_num)) ?_ ?_
  · simp; norm_num
  · have e : ((1 : ℝ) - 1 / 2) * (1 + 2 * 1) = 3 / 2 := by norm_num
    simp only [Fin.sum_univ_two, Matrix.cons_val_zero, Matrix.cons_val_one, Finset.prod_const,
      Finset.card_univ, Fintype.card_fin, pow_one, e]
    rw [F.log_fin_pos (by norm_num), F.log_fin_pos (by norm_num)]
    rw [F.fin_add, ne_eq, F.fin_inj]
    norm_num

/-- **C42 and C43 are false of the code, (i)**: a posterior of 1 at both samples (a perfectly good
posterior) has log posteriors 0, 0, and the log-mode call raises `ValueError`. -/
theorem C43_spurious_refuted :
    (BP.mapPoint (demoB.after [.setPrior (some (distOf fun _ => 1)),
      .setLikelihood (distOf fun _ => 1) true])).1 = .error .valueError ∧
    (BP.mapPoint (demoB.after [.setPrior (some (distOf fun _ => 1)),
      .setLikelihood (distOf fun _ => 1) false])).1 = .ok [0] := by
  have h := demoB_pair (fun _ => 1) (fun _ => 1) (by norm_num) (by norm_num) (by norm_num)
    (by norm_num)
  constructor
  · rw [bset_estimate demoB _ _ true h.rows _ _ h.prior h.logLike, if_pos]
    simp only [h.post]
    have e : F.log (.fin 1) = .fin 0 := by rw [F.log_fin_pos one_pos, Real.log_one]
    simp [e]
  · obtain ⟨m, -, h2, h3⟩ := C40_plain demoB _ _ (n := 2) (by norm_num) h.rows _ _ h.prior h.like
      (by simp)
    rw [h3]
    have : m = 0 := by
      by_contra hne
      have : m = 1 := by omega
      subst this
      have := h2 0 (by decide)
      simp at this
    subst this
    simp [demoB, Arr2.get]

/-- **C42 and C43 are false of the code, (ii)**: a likelihood that vanishes at both samples is
reported in plain mode; in log mode the first sample is returned. -/
theorem C43_missed_refuted :
    (BP.mapPoint (demoB.after [.setPrior (some (distOf fun _ => 1)),
      .setLikelihood (distOf fun _ => 0) true])).1 = .ok [0] ∧
    (BP.mapPoint (demoB.after [.setPrior (some (distOf fun _ => 1)),
      .setLikelihood (distOf fun _ => 0) false])).1 = .error .valueError := by
  have h := demoB_pair (fun _ => 1) (fun _ => 0) (by norm_num) (by norm_num) (by norm_num)
    (by norm_num)
  constructor
  · rw [bset_estimate demoB _ _ true h.rows _ _ h.prior h.logLike, if_neg]
    · simp only [h.post]
      have e : F.log (.fin 0) = .ninf := by simp [F.log]
      simp [e, npArgmax, argmaxGo, F.lt, Arr2.rowAt, demoB]
    · simp only [h.post]
      have e : F.log (.fin 0) = .ninf := by simp [F.log]
      have e2 : (F.ninf + F.ninf : F) = .ninf := rfl
      simp [e, e2]
  · rw [C43_plain_partial demoB _ _ h.rows ![1, 1] (fun i => ∏ _j : Fin 1, ![0, 0] i)]
    · intro k; fin_cases k <;> simp
    · intro k; fin_cases k <;> simp
    · intro k; fin_cases k <;> simp
    · exact h.prior
    · exact h.like

/-- **C42 is false of the code.** -/
theorem C42_claim_refuted : ¬ C42_claim := by
  intro h
  have h1 := h demoB _ _ 2 1 _ _ (demoB_pair (fun _ => 1) (fun _ => 1) (by norm_num) (by norm_num)
    (by norm_num) (by norm_num))
  rw [C43_spurious_refuted.1, C43_spurious_refuted.2] at h1
  cases h1

/-- **C43 is false of the code** (log mode). -/
theorem C43_claim_refuted : ¬ C43_claim true := by
  intro h
  have hp := demoB_pair (fun _ => 1) (fun _ => 1) (by norm_num) (by norm_num) (by norm_num)
    (by norm_num)
  have h1 := (h demoB _ _ 2 rfl (by norm_num) _ _ hp.prior hp.logLike).1 C43_spurious_refuted.1 0
  rw [hp.post] at h1
  have e : F.log (.fin 1) = .fin 0 := by rw [F.log_fin_pos one_pos, Real.log_one]
  simp [e] at h1

/-- A distribution whose `logpdf` returns a 1-D array (as `gaussian_kde` does). -/
noncomputable def kdeLike : Dist where
  pdf A := .ok (.vec (List.replicate A.r (.fin 1)))
  logpdf A := .ok (.vec (List.replicate A.r (.fin 0)))

/-- Likelihood `(1, 1.9)`, a failing attempt to set another one in log mode, prior `(1, 0.5)`. -/
noncomputable def demoBOps : List BOp :=
  [.setLikelihood (distOf fun x => 1 + 9 / 10 * x) false, .setLikelihood kdeLike true,
    .setPrior (some (distOf fun x => 1 - x / 2))]

/-- The estimate for the settings in force is sample 0; the code returns sample 1. -/
theorem demoB_stale : (BP.mapPoint (demoB.after demoBOps)).1 ≠
    (BSettings.after demoB.data demoBOps).best demoB.data := by
  intro h1
  -- the settings in force
  have hlike : ∃ v, likeAt (distOf fun x => 1 + 9 / 10 * x) false demoB.data.y = .ok v :=
    ⟨_, (demoB_pair (fun _ => 1) (fun x => 1 + 9 / 10 * x) (by norm_num) (by norm_num) (by norm_num)
      (by norm_num)).like⟩
  have hbad : ¬ ∃ v, likeAt kdeLike true demoB.data.y = .ok v := by
    rintro ⟨v, hv⟩
    cases hv
  have hpr : ∃ v, densAt ((some (distOf fun x => 1 - x / 2)).getD (uniformOn demoB.data.domain))
      demoB.data.X = .ok v := ⟨_, demo_densAt _⟩
  have hset : BSettings.after demoB.data demoBOps =
      { prior := some (distOf fun x => 1 - x / 2)
        like := some (distOf fun x => 1 + 9 / 10 * x, false) } := by
    simp only [BSettings.after, demoBOps, List.foldl_cons, List.foldl_nil, BOp.track]
    rw [if_pos hpr, if_neg hbad, if_pos hlike]
  have hp := demoB_pair (fun x => 1 - x / 2) (fun x => 1 + 9 / 10 * x) (by norm_num) (by norm_num)
    (by norm_num) (by norm_num)
  -- the right answer
  have hbest : (BSettings.after demoB.data demoBOps).best demoB.data = .ok [0] := by
    rw [hset]
    have hb := bset_rel demoB (distOf fun x => 1 - x / 2) (distOf fun x => 1 + 9 / 10 * x) false
      hp.prior hp.like
    rw [← (brel_estimate hb).2]
    obtain ⟨m, h1, -, h3⟩ := C40_plain demoB _ _ (n := 2) (by norm_num) hp.rows _ _ hp.prior hp.like
      (by simp; norm_num)
    rw [h3]
    have : m = 0 := by
      by_contra hne
      have : m = 1 := by omega
      subst this
      have := h1 0
      norm_num at this
    subst this
    simp [demoB, Arr2.get]
  -- what the code does
  classical
  have hcode : (BP.mapPoint (demoB.after demoBOps)).1 = .ok [1] := by
    have e : demoB.after demoBOps = { demoB with
        pr := some [.fin 1, .fin (1 / 2)], ll := some [.fin 1, .fin (19 / 10)], log := true } := by
      simp [BP.after, demoBOps, BOp.run, BP.setLikelihood, BP.setPrior, distOf, rowsOf, kdeLike,
        FOut.prodRows, FOut.sumRows, demoB]
      norm_num
    rw [e]
    have hl : (F.log (.fin 1) + .fin 1 : F) = .fin 1 := by
      rw [F.log_fin_pos one_pos, Real.log_one]; simp
    have hl2 : (F.log (.fin (1 / 2)) + .fin (19 / 10) : F) = .fin (19 / 10 - Real.log 2) := by
      rw [F.log_fin_pos (by norm_num), one_div, Real.log_inv, F.fin_add]
      congr 1; ring
    have hsum : ([F.fin 1, F.fin (19 / 10 - Real.log 2)] : List F).sum ≠ .fin 0 := by
      have := Real.log_two_lt_d9
      simp only [List.sum_cons, List.sum_nil, add_zero, F.fin_add, ne_eq, F.fin_inj]
      intro h
      linarith
    have hfit : BP.fit { demoB with
        pr := some [.fin 1, .fin (1 / 2)], ll := some [.fin 1, .fin (19 / 10)], log := true } =
        (.ok (), { demoB with
          pr := some [.fin 1, .fin (1 / 2)], ll := some [.fin 1, .fin (19 / 10)], log := true
          ps := some [.fin 1, .fin (19 / 10 - Real.log 2)] }) := by
      unfold BP.fit
      simp only [PyM.get_bind_run, Option.isNone_some, PyM.when_false, PyM.pure_bind', DP.theAttr,
        PyM.lift_ok_bind, if_true, bzip1, List.map_cons, List.map_nil, List.length_cons,
        List.length_nil, List.zipWith_cons_cons, List.zipWith_nil_right, hl, hl2]
      rw [pyAssert_true (by rfl), raiseIf_false hsum]
      rfl
    unfold BP.mapPoint
    rw [PyM.get_bind_run, PyM.bind_run]
    rw [show (({ demoB with
        pr := some [.fin 1, .fin (1 / 2)], ll := some [.fin 1, .fin (19 / 10)], log := true } : BP).ps.isNone)
        = true from rfl, PyM.when_true, hfit]
    have hlt : (F.fin 1).lt (F.fin (19 / 10 - Real.log 2)) := by
      have := Real.log_two_lt_d9
      change 1 < 19 / 10 - Real.log 2
      linarith
    have harg : npArgmax [F.fin 1, F.fin (19 / 10 - Real.log 2)] = .ok 1 := by
      simp [npArgmax, argmaxGo, hlt]
    simp [PyM.get_bind_run, DP.theAttr, harg, Arr2.rowAt, demoB]
  rw [hcode, hbest] at h1
  injection h1 with h1
  norm_num at h1

/-- **C41 is false of the code** when a call of `set_likelihood` raised: it has already switched the
log flag, so the old (plain) likelihood is used as if it were logarithmic. The estimate for the
settings in force is sample 0; the code returns sample 1. -/
theorem C41_claim_refuted : ¬ C41_claim := fun h =>
  demoB_stale (h _ _ _ _ _ demoB_new demoBOps)

/-- `C41_current_partial` on a history with two changes of the likelihood. -/
example := C41_current_partial demoB_new
  [.setLikelihood (distOf fun x => 1 + x) false, .estimate, .setPrior none,
    .setLikelihood (distOf fun x => 2 - x) true, .fit]
  (by
    intro op hop
    simp only [List.mem_cons, List.not_mem_nil, or_false] at hop
    rcases hop with rfl | rfl | rfl | rfl | rfl
    · exact fun h => h _ (demoB_pair (fun _ => 1) (fun x => 1 + x) (by norm_num) (by norm_num)
        (by norm_num) (by norm_num)).like
    · exact id
    · exact id
    · exact fun h => h _ (demoB_pair (fun _ => 1) (fun x => 2 - x) (by norm_num) (by norm_num)
        (by norm_num) (by norm_num)).logLike
    · exact id)

/-! ### Further cases meeting the hypotheses -/

/-- C40 in both modes for prior `1 - x/2` and likelihood `1 + 2x` at the samples `0, 1`: the log posteriors
are `0` and `log (1/2) + log 3`. -/
example : ∃ m : Fin 2, (BP.mapPoint (demoB.after [.setPrior (some (distOf fun x => 1 - x / 2)),
      .setLikelihood (distOf fun x => 1 + 2 * x) true])).1 =
        .ok (List.ofFn fun j : Fin 1 => demoB.X.get m j) := by
  have h := demoB_pair (fun x => 1 - x / 2) (fun x => 1 + 2 * x) (by norm_num) (by norm_num)
    (by norm_num) (by norm_num)
  have hlp : (distOf fun x => 1 + 2 * x).logpdf demoB.y =
      .ok (tabOf fun (i : Fin 2) (_ : Fin 1) => F.fin (![Real.log 1, Real.log 3] i)) := by
    rw [h.logpdf]
    congr 2
    funext i j
    fin_cases i
    · norm_num [F.log]
    · norm_num [F.log]
  obtain ⟨m, -, -, e⟩ := C40_log demoB (distOf fun x => 1 - x / 2) (distOf fun x => 1 + 2 * x) (n := 2)
    (by norm_num) rfl ![1 - 0 / 2, 1 - 1 / 2] ![Real.log 1, Real.log 3] h.prior
    (by intro k; fin_cases k <;> norm_num) hlp (by simp [tabOf, FOut.sumRows]) (by
      simp only [Fin.sum_univ_two, Matrix.cons_val_zero, Matrix.cons_val_one]
      rw [show (1 : ℝ) - 0 / 2 = 1 by norm_num, Real.log_one, zero_add, zero_add,
        ← Real.log_mul (by norm_num) (by norm_num)]
      exact (Real.log_pos (by norm_num)).ne')
  exact ⟨m, e⟩

/-- The plain posteriors are `1` and `3/2`. -/
example : ∃ m : Fin 2, (BP.mapPoint (demoB.after [.setPrior (some (distOf fun x => 1 - x / 2)),
      .setLikelihood (distOf fun x => 1 + 2 * x) false])).1 =
        .ok (List.ofFn fun j : Fin 1 => demoB.X.get m j) := by
  have h := demoB_pair (fun x => 1 - x / 2) (fun x => 1 + 2 * x) (by norm_num) (by norm_num)
    (by norm_num) (by norm_num)
  obtain ⟨m, -, e⟩ := C40_map_point demoB _ _ false (n := 2) (by norm_num) h.rows _ _ h.prior h.like
    (by simp [postVal, Fin.sum_univ_two]; norm_num)
  exact ⟨m, e⟩

end Verif
