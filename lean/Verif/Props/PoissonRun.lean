import Verif.Model.PoissonRun
import Verif.Props.SensorOrder
import Verif.Props.PoissonLoad
import Verif.Props.PlotProb
import Verif.Props.PlotTs

/-!
# C112, C113: running the Poisson example

`/repo/src/mud/examples/poisson.py:134-469`.
-/

namespace Verif

namespace Poisson

open ND SpecST STP

variable {σ ρ : Type}

/-! ## The order of the sensors -/

theorem samplePool_perm {R : PyRandom ρ} (hR : ∀ n s, 0 < n → (R.below n s).1 < n) :
    ∀ (m : ℕ) (pool : List ℕ) (s : ρ), pool.length = m → (samplePool R m pool s).1.Perm pool := by
  intro m
  induction m with
  | zero =>
    intro pool s h
    rw [List.length_eq_zero_iff.1 h]
    exact .refl _
  | succ m ih =>
    intro pool s h
    have hj : (R.below (m + 1) s).1 < m + 1 := hR _ _ m.succ_pos
    simp only [samplePool]
    generalize (R.below (m + 1) s).1 = j at hj
    generalize (R.below (m + 1) s).2 = s'
    refine (List.Perm.cons _ (ih _ s' (by simp [h]))).trans ?_
    obtain ⟨pre, x, rfl⟩ : ∃ pre x, pool = pre ++ [x] := by
      refine ⟨pool.dropLast, pool.getLast (by rintro rfl; simp at h), ?_⟩
      rw [List.dropLast_append_getLast]
    have hp : pre.length = m := by simpa using h
    have hx : (pre ++ [x]).getD m 0 = x := by
      rw [List.getD_eq_getElem?_getD, List.getElem?_append_right (by omega)]
      simp [hp]
    rw [hx]
    rcases Nat.lt_succ_iff_lt_or_eq.1 hj with hj | rfl
    · have h1 : ((pre ++ [x]).set j x).take m = pre.set j x := by
        rw [List.set_append_left _ _ (by omega), List.take_append_of_le_length (by simp [hp])]
        exact List.take_of_length_le (by simp [hp])
      have h2 : (pre ++ [x]).getD j 0 = pre[j] := by
        rw [List.getD_eq_getElem?_getD, List.getElem?_append_left (by omega),
          List.getElem?_eq_getElem (by omega)]
        rfl
      rw [h1, h2]
      refine (List.Perm.cons _ (List.set_perm_cons_eraseIdx (by omega) x)).trans ?_
      refine (List.Perm.swap _ _ _).trans ?_
      refine (List.Perm.cons _ (List.getElem_cons_eraseIdx_perm (by omega))).trans ?_
      exact (List.perm_append_singleton x pre).symm
    · have h1 : ((pre ++ [x]).set j x).take j = pre := by
        rw [List.set_append_right _ _ (by omega), List.take_append_of_le_length (by omega)]
        exact List.take_of_length_le (by omega)
      rw [h1, hx]
      exact (List.perm_append_singleton x pre).symm

/-- `a` comes before `b` in the order "first coordinate, then second". -/
def LexLt (a b : ℝ × ℝ) : Prop := a.1 < b.1 ∨ a.1 = b.1 ∧ a.2 < b.2

theorem nodup_no_swap {α : Type} {a b : α} : ∀ {l : List α}, l.Nodup → [a, b].Sublist l →
    [b, a].Sublist l → False := by
  intro l
  induction l with
  | nil => intro _ h _; cases h
  | cons x l ih =>
    intro hnd h1 h2
    rw [List.nodup_cons] at hnd
    cases h1 with
    | cons _ h1 =>
      cases h2 with
      | cons _ h2 => exact ih hnd.2 h1 h2
      | cons_cons _ h2 => exact hnd.1 (h1.subset (by simp))
    | cons_cons _ h1 =>
      cases h2 with
      | cons _ h2 => exact hnd.1 (h2.subset (by simp))
      | cons_cons _ h2 => exact hnd.1 (h2.subset (by simp))

theorem lexOrder_perm (pts : List (ℝ × ℝ)) : (lexOrder pts).Perm (List.range pts.length) :=
  List.mergeSort_perm _ _

theorem lexOrder_sorted (pts : List (ℝ × ℝ)) :
    (lexOrder pts).Pairwise fun i j => LexLt (pts.getD i (0, 0)) (pts.getD j (0, 0)) ∨
      pts.getD i (0, 0) = pts.getD j (0, 0) ∧ i < j := by
  classical
  set le : ℕ → ℕ → Bool := fun i j =>
    decide ((pts.getD i (0, 0)).1 < (pts.getD j (0, 0)).1 ∨
      (pts.getD i (0, 0)).1 = (pts.getD j (0, 0)).1 ∧
        (pts.getD i (0, 0)).2 ≤ (pts.getD j (0, 0)).2) with hle
  have hE : lexOrder pts = (List.range pts.length).mergeSort le := by
    unfold lexOrder
    congr 1
  have trans : ∀ a b c, le a b = true → le b c = true → le a c = true := by
    intro a b c h1 h2
    simp only [hle, decide_eq_true_eq] at h1 h2 ⊢
    rcases h1 with h1 | ⟨h1, h1'⟩ <;> rcases h2 with h2 | ⟨h2, h2'⟩
    · exact .inl (h1.trans h2)
    · exact .inl (h2 ▸ h1)
    · exact .inl (h1 ▸ h2)
    · exact .inr ⟨h1.trans h2, h1'.trans h2'⟩
  have total : ∀ a b, (le a b || le b a) = true := by
    intro a b
    simp only [hle, Bool.or_eq_true, decide_eq_true_eq]
    rcases lt_trichotomy (pts.getD a (0, 0)).1 (pts.getD b (0, 0)).1 with h | h | h
    · exact .inl (.inl h)
    · rcases le_total (pts.getD a (0, 0)).2 (pts.getD b (0, 0)).2 with h' | h'
      · exact .inl (.inr ⟨h, h'⟩)
      · exact .inr (.inr ⟨h.symm, h'⟩)
    · exact .inr (.inl h)
  have hs := List.pairwise_mergeSort trans total (List.range pts.length)
  have hnd : ((List.range pts.length).mergeSort le).Nodup :=
    (List.mergeSort_perm _ _).nodup_iff.2 List.nodup_range
  rw [hE, List.pairwise_iff_forall_sublist]
  intro i j hij
  have h1 := (List.pairwise_iff_forall_sublist.1 hs) hij
  have hne : i ≠ j := by
    have := hij.nodup hnd
    simpa using this
  have h1' := h1
  simp only [hle, decide_eq_true_eq] at h1
  rcases h1 with h1 | ⟨h1, h2⟩
  · exact .inl (.inl h1)
  · rcases h2.lt_or_eq with h2 | h2
    · exact .inl (.inr ⟨h1, h2⟩)
    · refine .inr ⟨Prod.ext h1 h2, ?_⟩
      by_contra hlt
      have hji : j < i := by omega
      have hle' : le j i = true := by
        simp only [hle, decide_eq_true_eq]
        exact .inr ⟨h1.symm, h2.ge⟩
      have hmem : ∀ k ∈ [i, j], k ∈ List.range pts.length := fun k hk =>
        (List.mergeSort_perm _ _).mem_iff.1 (hij.subset hk)
      have hsub : [j, i].Sublist (List.range pts.length) := by
        have hi : i < pts.length := List.mem_range.1 (hmem i (by simp))
        have : List.range pts.length = List.range i ++ List.range' i (pts.length - i) := by
          have h := List.range_add (n := i) (m := pts.length - i)
          rw [Nat.add_sub_cancel' hi.le] at h
          rw [h, List.range'_eq_map_range]
        rw [this]
        refine (List.Sublist.append (l₁ := [j]) (r₁ := [i]) ?_ ?_)
        · exact List.singleton_sublist.2 (List.mem_range.2 hji)
        · exact List.singleton_sublist.2 (by simp; omega)
      have hsub' := List.pair_sublist_mergeSort trans total hle' hsub
      have h3 := hs
      -- both orders cannot occur in a list without repetitions
      have hP : ((List.range pts.length).mergeSort le).Pairwise fun a b => ¬ (a = j ∧ b = i) := by
        rw [List.pairwise_iff_forall_sublist]
        rintro a b hab ⟨rfl, rfl⟩
        exact nodup_no_swap hnd hij hab
      exact (List.pairwise_iff_forall_sublist.1 hP) hsub' ⟨rfl, rfl⟩

/-! ## A default estimate with its figures -/

variable {env : Env} {pe : PlotEnv}

/-- The settings of a fresh problem on which `estimate` is called: uniform initial distribution on the
domain, kernel density estimate for the predicted one, standard normal observed one. -/
def defaults (Q : DP) : Settings :=
  { weights := Q.weights, initial := some none, predicted := some (none, 0) }

theorem spec_fresh {D : DData} {w : List F} {pt : List ℝ} {σ1 : SpecState}
    (h : SpecState.estimate env D { cur := { weights := w } } = (.ok pt, σ1)) :
    σ1 = ⟨{ weights := w, initial := some none, predicted := some (none, 0) },
      some { weights := w, initial := some none, predicted := some (none, 0) },
      some { weights := w, initial := some none, predicted := some (none, 0) }⟩ ∧
    ∃ r u, ({ weights := w, initial := some none, predicted := some (none, 0) } : Settings).ratio env D =
        .ok r ∧
      ({ weights := w, initial := some none, predicted := some (none, 0) } : Settings).updated env D =
        .ok u ∧
      ({ weights := w, initial := some none, predicted := some (none, 0) } : Settings).best env D =
        .ok pt := by
  set s0 : Settings := { weights := w, initial := some none, predicted := some (none, 0) } with hs0
  have hE : SpecState.estimate env D { cur := { weights := w } } =
      (match ({ weights := w, initial := some none } : Settings).ini D with
      | .error e => (.error e, { cur := { weights := w } })
      | .ok _ => match s0.pred env D with
        | .error e => (.error e, { cur := { weights := w, initial := some none } })
        | .ok _ => match s0.ratio env D with
          | .error e => (.error e, { cur := s0 })
          | .ok _ => match s0.updated env D with
            | .error e => (.error e, ⟨s0, none, some s0⟩)
            | .ok _ => (s0.best env D, ⟨s0, some s0, some s0⟩)) := by
    unfold SpecState.estimate SpecState.fit SpecState.setInitial SpecState.setPredicted
    simp only [PyM.bind_run, PyM.when, Option.isNone_none, if_true, PyM.lift, PyM.modify,
      SpecState.setWeightsIf, PyM.get]
    cases ({ weights := w, initial := some none } : Settings).ini D with
    | error e => rfl
    | ok a =>
      have hpure : ∀ τ : SpecState, (pure () : PyM SpecState Unit) τ = (.ok (), τ) := fun _ => rfl
      simp only [Option.isNone_none, if_true, PyM.bind_run, hpure, PyM.get, PyM.lift, PyM.modify, ← hs0]
      cases s0.pred env D with
      | error e => rfl
      | ok b =>
        simp only [← hs0]
        cases s0.ratio env D with
        | error e => rfl
        | ok r =>
          simp only
          cases s0.updated env D <;> rfl
  rw [hE] at h
  cases hi : ({ weights := w, initial := some none } : Settings).ini D with
  | error e => rw [hi] at h; cases h
  | ok a =>
    cases hp : s0.pred env D with
    | error e => simp only [hi, hp] at h; cases h
    | ok b =>
      cases hr : s0.ratio env D with
      | error e => simp only [hi, hp, hr] at h; cases h
      | ok r =>
        cases hu : s0.updated env D with
        | error e => simp only [hi, hp, hr, hu] at h; cases h
        | ok u =>
          simp only [hi, hp, hr, hu] at h
          obtain ⟨h1, h2⟩ := Prod.mk.inj h
          exact ⟨h2.symm, r, u, rfl, rfl, h1⟩

/-- What `estimate` on a fresh problem returns and leaves. -/
theorem fresh_estimate {X y : NArr} {dom w : Option NArr} {nrm : Bool} {pad : ℝ} {xi di : Bool} {Q : DP}
    (h : DP.new X y dom w nrm pad xi di = .ok Q) {pt : List ℝ} {S1 : DPD}
    (he : DPD.mudPoint env { core := Q } = (.ok pt, S1)) :
    ∃ r, (defaults Q).ratio env Q.data = .ok r ∧ (defaults Q).best env Q.data = .ok pt ∧
      S1.core.r = some r ∧ S1.core.up.isSome ∧ S1.inDist = some (uniformOn Q.domain) ∧
      S1.core.X = Q.X ∧ S1.core.y = Q.y ∧ S1.core.domain = Q.domain ∧ S1.core.weights = Q.weights := by
  have hrel := new_arel (env := env) h
  have h1 := DPD.asim_mudPoint _ _ hrel
  have h2 := DPD.asim_run (env := env) .estimate _ _ hrel
  rcases hs : SpecState.estimate env Q.data Q.start with ⟨res, σ1⟩
  rw [he, hs] at h1
  obtain rfl : Except.ok pt = res := h1
  obtain ⟨hσ, r, u, hr, hu, hb⟩ := spec_fresh hs
  have e1 : (DOp.spec env Q.data .estimate Q.start).2 = σ1 := by
    have : (SpecState.estimate env Q.data Q.start).2 = σ1 := by rw [hs]
    rw [← this]
    change ((PyM.get >>= fun τ : SpecState =>
      PyM.when τ.fitted.isNone (SpecState.fit env Q.data none 0 none)) Q.start).2 = _
    unfold SpecState.estimate
    rw [PyM.get_bind_run, PyM.get_bind_run, PyM.bind_run]
    rcases PyM.when Q.start.fitted.isNone (SpecState.fit env Q.data none 0 none) Q.start with ⟨x, τ⟩
    cases x <;> rfl
  have e2 : (DPD.run env .estimate { core := Q }).2 = S1 := by
    change ((DPD.mudPoint env >>= fun _ => pure () : PyM DPD Unit) { core := Q }).2 = _
    rw [PyM.bind_run, he]
    rfl
  rw [e1, e2] at h2
  have hc := h2.core
  rw [hσ] at hc
  have hinn := h2.inn
  rw [hσ] at hinn
  refine ⟨r, hr, hb, ?_, ?_, hinn, hc.X, hc.y, hc.dom, hc.w⟩
  · cases hr' : S1.core.r with
    | none => exact absurd (hc.r0 hr') (by simp)
    | some v =>
      obtain ⟨s, e, e'⟩ := hc.r1 v hr'
      obtain rfl := Option.some.inj e
      rw [e'] at hr
      cases hr
      rfl
  · cases hr' : S1.core.up with
    | none => exact absurd (hc.up0 hr') (by simp)
    | some v => rfl

theorem plot_dens (S : DPD) (k : ℤ) (R : Arr2) (pr : ℝ) (aff : ℤ) :
    DPD.plotParamSpace env pe k none (some R) pr aff true true false false false S =
      ((do
        let d ← DPD.theDist S.inDist
        let a ← drawIf pe true "initial" "pdf" (.ofDist d) R k aff
        let b ← DPD.updateCurve pe true S.core R k aff
        return a ++ b), S) := by
  change ((do
    let d ← PyM.lift (DPD.theDist S.inDist)
    let a ← PyM.lift (drawIf pe true "initial" "pdf" (.ofDist d) R k aff)
    let b ← PyM.lift (DPD.updateCurve pe true S.core R k aff)
    return a ++ b ++ [] ++ [] ++ [] : PyM DPD (List Item)) S) = _
  cases DPD.theDist S.inDist with
  | error e => rfl
  | ok d =>
    rw [PyM.lift_ok_bind, Py.ok_bind]
    cases drawIf pe true "initial" "pdf" (.ofDist d) R k aff with
    | error e => rfl
    | ok a =>
      rw [PyM.lift_ok_bind, Py.ok_bind]
      cases DPD.updateCurve pe true S.core R k aff with
      | error e => rfl
      | ok b =>
        rw [PyM.lift_ok_bind, Py.ok_bind]
        simp only [List.append_nil]
        rfl

/-- The estimate of a fitted object is the stored one. -/
theorem mudPoint_cached {S : DPD} (h : S.core.up.isSome) :
    DPD.mudPoint env S = ((DPD.pick S.core).1, S) := by
  unfold DPD.mudPoint
  rw [PyM.get_bind_run]
  have : S.core.up.isNone = false := by cases hh : S.core.up <;> simp_all
  rw [this, PyM.bind_run]
  change DPD.emb DPD.pick S = _
  unfold DPD.emb
  rw [DPD.pick_state]

theorem expectedRatio_cached {S : DPD} (h : S.core.up.isSome) :
    DPD.expectedRatio env S = ((DPD.average S.core).1, S) := by
  unfold DPD.expectedRatio
  rw [PyM.get_bind_run]
  have : S.core.up.isNone = false := by cases hh : S.core.up <;> simp_all
  rw [this, PyM.bind_run]
  change DPD.emb DPD.average S = _
  unfold DPD.emb
  rw [DPD.average_state]

theorem average_eq {P : DP} {r w : List F} (hr : P.r = some r) (hw : P.weights = w) :
    (DPD.average P).1 = DP.npAverage r w := by
  unfold DPD.average
  rw [PyM.get_bind_run, hr, hw]
  rfl

theorem pick_domain (P : DP) (D : Arr2) : (DPD.pick { P with domain := D }).1 = (DPD.pick P).1 := by
  unfold DPD.pick
  rw [PyM.get_bind_run, PyM.get_bind_run]
  cases hu : DP.theAttr P.up with
  | error e => rfl
  | ok u =>
    change ((PyM.lift (npArgmax u) >>= fun m => PyM.lift (P.X.rowAt m) : PyM DP _) _).1 =
      ((PyM.lift (npArgmax u) >>= fun m => PyM.lift (P.X.rowAt m) : PyM DP _) _).1
    cases npArgmax u <;> rfl

theorem plot_lines {S S' : DPD} {k : ℤ} {c : List ℝ} {pr : ℝ} {aff : ℤ} {items : List Item}
    (hup : S.core.up.isSome)
    (h : DPD.plotParamSpace env pe k (some c) none pr aff false false false true true S =
      (.ok items, S')) :
    ∃ D pt i j, fitDomain none (some S.core.domain) pr S.core.domInt = .ok D ∧
      S' = { S with core := { S.core with domain := D } } ∧
      (DPD.pick S.core).1 = .ok pt ∧ normIdx pt.length k = .ok i ∧ normIdx c.length k = .ok j ∧
      items = [.vert "mud" (pt.getD i 0), .vert "true" (c.getD j 0)] := by
  unfold DPD.plotParamSpace at h
  rw [PyM.bind_run] at h
  unfold DPD.paramRange at h
  simp only [PyM.get_bind_run] at h
  cases hD : fitDomain none (some S.core.domain) pr S.core.domInt with
  | error e =>
    rw [hD] at h
    cases h
  | ok D =>
    rw [hD] at h
    simp only [PyM.lift_ok_bind, PyM.modify_bind_run] at h
    change ((do
      let d ← PyM.lift (DPD.theDist S.inDist)
      let m ← DPD.mudLine env true k
      let t ← PyM.lift (vertTrue true (some c) k)
      return [] ++ [] ++ [] ++ m ++ t : PyM DPD (List Item))
        { S with core := { S.core with domain := D } }) = _ at h
    cases hd : DPD.theDist S.inDist with
    | error e => rw [hd] at h; cases h
    | ok d =>
      rw [hd, PyM.lift_ok_bind] at h
      unfold DPD.mudLine at h
      have hmp := mudPoint_cached (env := env) (S := { S with core := { S.core with domain := D } }) hup
      rw [if_pos rfl, PyM.bind_run, PyM.bind_run, hmp] at h
      have e3 := pick_domain S.core D
      simp only [e3] at h
      cases hp : (DPD.pick S.core).1 with
      | error e => rw [hp] at h; cases h
      | ok pt =>
        rw [hp] at h
        simp only at h
        unfold PyM.lift vertTrue vertAt at h
        cases hi : normIdx pt.length k with
        | error e => rw [hi] at h; cases h
        | ok i =>
          cases hj : normIdx c.length k with
          | error e =>
            rw [hi] at h
            simp only [Py.ok_bind, if_true] at h
            simp only [pure, Except.pure, hj] at h
            cases h
          | ok j =>
            rw [hi] at h
            simp only [Py.ok_bind, if_true] at h
            simp only [pure, Except.pure, hj] at h
            obtain ⟨h1, h2⟩ := Prod.mk.inj h
            exact ⟨D, pt, i, j, rfl, h2.symm, rfl, hi, rfl, (Except.ok.inj h1).symm⟩

/-- An object that holds the fit of `Q` with estimate `pt` and ratio `r`. -/
structure Fitted (Q : DP) (pt : List ℝ) (r : List F) (S : DPD) : Prop where
  r : S.core.r = some r
  up : S.core.up.isSome
  inDist : S.inDist = some (uniformOn Q.domain)
  X : S.core.X = Q.X
  y : S.core.y = Q.y
  w : S.core.weights = Q.weights
  pick : (DPD.pick S.core).1 = .ok pt

/-- What one axis shows: the uniform density on the domain of the problem, the kernel density estimate of
the samples with weights "ratio times weights", lines at coordinate `k` of the estimate and of `closest`,
and on demand the mean of the ratio. -/
def AxisOf (Q : DP) (pt : List ℝ) (r : List F) (closest : List ℝ) (annotate : Bool) (k : ℕ)
    (x : List Item × List F) : Prop :=
  ∃ u, bzip1 (· * ·) r Q.weights = .ok u ∧ ∃ (hp : k < pt.length) (hc : k < closest.length),
    x.1 = [.curve "initial" (.ofDist (uniformOn Q.domain)), .curve "update" (.ofKde Q.X 0 (some u)),
      .vert "mud" pt[k], .vert "true" closest[k]] ∧
    (annotate = true → ∃ e, DP.npAverage r Q.weights = .ok e ∧ x.2 = [e]) ∧
    (annotate = false → x.2 = [])

theorem normIdx_nat {n k i : ℕ} (h : normIdx n k = .ok i) : i = k ∧ k < n := by
  unfold normIdx at h
  split_ifs at h with h1 h2
  · cases h
    exact ⟨Int.toNat_natCast k, by omega⟩
  · exact absurd h2.1 (by omega)

theorem axis_spec {Q : DP} {pt : List ℝ} {r : List F} {S S' : DPD} {R : Arr2} {closest : List ℝ}
    {ann : Bool} {k : ℕ} {x : List Item × List F} (hS : Fitted Q pt r S)
    (h : trialAxis env pe R closest ann k S = (.ok x, S')) :
    AxisOf Q pt r closest ann k x ∧ Fitted Q pt r S' ∧ S'.core.domInt = S.core.domInt ∧
      fitDomain none (some S.core.domain) (5 / 100) S.core.domInt = .ok S'.core.domain := by
  unfold trialAxis at h
  rw [PyM.bind_run, plot_dens, hS.inDist] at h
  cases ha : drawIf pe true "initial" "pdf" (.ofDist (uniformOn Q.domain)) R k 100 with
  | error e =>
    simp only [DPD.theDist, Py.ok_bind] at h
    rw [ha] at h
    cases h
  | ok a =>
    cases hb : DPD.updateCurve pe true S.core R k 100 with
    | error e =>
      simp only [DPD.theDist, Py.ok_bind] at h
      rw [ha, hb] at h
      cases h
    | ok b =>
      simp only [DPD.theDist, Py.ok_bind] at h
      rw [ha, hb] at h
      simp only [Py.ok_bind] at h
      change (DPD.plotParamSpace env pe k (some closest) none (5 / 100) 100 false false false true true >>=
        fun b' => annotateIf env ann >>= fun e => pure ((a ++ b) ++ b', e) : PyM DPD _) S = _ at h
      rw [PyM.bind_run] at h
      rcases hl : DPD.plotParamSpace env pe k (some closest) none (5 / 100) 100 false false false true true S
        with ⟨res, S2⟩
      rw [hl] at h
      cases res with
      | error e => cases h
      | ok l =>
        simp only at h
        obtain ⟨D, pt', i, j, hD, rfl, hpt, hi, hj, rfl⟩ := plot_lines hS.up hl
        obtain rfl : pt = pt' := Except.ok.inj (hS.pick.symm.trans hpt)
        obtain ⟨hik, hi⟩ := normIdx_nat hi
        obtain ⟨hjk, hj⟩ := normIdx_nat hj
        rw [hik, hjk] at h
        have ha := drawIf_ok ha
        unfold DPD.updateCurve DPD.ratioWeights at hb
        rw [if_pos rfl, hS.r, hS.w, hS.X] at hb
        obtain ⟨uw, hu, hb⟩ := Py.bind_eq_ok.1 hb
        obtain ⟨u, hu', hu⟩ := Py.bind_eq_ok.1 hu
        cases hu
        have hb := drawIf_ok hb
        have hF : Fitted Q pt r { S with core := { S.core with domain := D } } :=
          ⟨hS.r, hS.up, hS.inDist, hS.X, hS.y, hS.w, by
            rw [← hpt]
            exact pick_domain S.core D⟩
        have hx : (a ++ b) ++ [Item.vert "mud" (pt.getD k 0), .vert "true" (closest.getD k 0)] =
            [.curve "initial" (.ofDist (uniformOn Q.domain)), .curve "update" (.ofKde Q.X 0 (some u)),
              .vert "mud" pt[k], .vert "true" closest[k]] := by
          rw [ha, hb, List.getD_eq_getElem _ _ hi, List.getD_eq_getElem _ _ hj]
          rfl
        cases ann with
        | false =>
          obtain ⟨h1, h2⟩ := Prod.mk.inj (show (Except.ok ((a ++ b) ++ _, ([] : List F)), _) = _ from h)
          cases h2
          cases h1
          exact ⟨⟨u, hu', hi, hj, hx, nofun, fun _ => rfl⟩, hF, rfl, hD⟩
        | true =>
          change ((DPD.expectedRatio env >>= fun e => pure [e] : PyM DPD (List F)) >>= fun e =>
            pure ((a ++ b) ++ _, e) : PyM DPD _) _ = _ at h
          rw [PyM.bind_run, PyM.bind_run, expectedRatio_cached hF.up] at h
          rw [average_eq hF.r hF.w] at h
          cases he : DP.npAverage r Q.weights with
          | error e => rw [he] at h; cases h
          | ok e =>
            rw [he] at h
            obtain ⟨h1, h2⟩ := Prod.mk.inj h
            cases h2
            cases h1
            exact ⟨⟨u, hu', hi, hj, hx, fun _ => ⟨e, he, rfl⟩, nofun⟩, hF, rfl, hD⟩

theorem figs_spec {X y : NArr} {dom w : Option NArr} {nrm : Bool} {pad : ℝ} {xi di : Bool} {Q : DP}
    (hQ : DP.new X y dom w nrm pad xi di = .ok Q) {R : Arr2} {closest : List ℝ} {ann1 ann2 : Bool}
    {x : (List Item × List F) × (List Item × List F)} {S : DPD}
    (h : trialFigs env pe R closest ann1 ann2 { core := Q } = (.ok x, S)) :
    ∃ pt r, (DP.mudPoint env Q).1 = .ok pt ∧ (defaults Q).best env Q.data = .ok pt ∧
      (defaults Q).ratio env Q.data = .ok r ∧
      (DP.expectedRatio env (Q.after env [.estimate])).1 = DP.npAverage r Q.weights ∧
      AxisOf Q pt r closest ann1 0 x.1 ∧ AxisOf Q pt r closest ann2 1 x.2 ∧ Fitted Q pt r S ∧
      ∃ b D, fitDomain none (some Q.domain) (5 / 100) b = .ok D ∧
        fitDomain none (some D) (5 / 100) b = .ok S.core.domain := by
  unfold trialFigs at h
  rw [PyM.bind_run] at h
  rcases he : DPD.mudPoint env { core := Q } with ⟨res, S1⟩
  rw [he] at h
  cases res with
  | error e => cases h
  | ok pt =>
    simp only at h
    obtain ⟨r, hr, hb, h1, h2, h3, h4, h5, h6, h7⟩ := fresh_estimate hQ he
    have hpick : (DPD.pick S1.core).1 = .ok pt := by
      have hm := he
      unfold DPD.mudPoint at hm
      rw [PyM.get_bind_run, PyM.bind_run] at hm
      rcases hf : PyM.when (DPD.core { core := Q }).up.isNone (DPD.fit env) { core := Q } with ⟨f, S2⟩
      rw [hf] at hm
      cases f with
      | error e => cases hm
      | ok a =>
        obtain ⟨e1, e2⟩ := Prod.mk.inj (show ((DPD.pick S2.core).1,
          { S2 with core := (DPD.pick S2.core).2 }) = _ from hm)
        rw [DPD.pick_state] at e2
        rw [← e2]
        exact e1
    have hF : Fitted Q pt r S1 := ⟨h1, h2, h3, h4, h5, h7, hpick⟩
    rw [PyM.bind_run] at h
    rcases ha : trialAxis env pe R closest ann1 0 S1 with ⟨ra, S2⟩
    rw [ha] at h
    cases ra with
    | error e => cases h
    | ok a =>
      simp only at h
      rw [PyM.bind_run] at h
      rcases hb' : trialAxis env pe R closest ann2 1 S2 with ⟨rb, S3⟩
      rw [hb'] at h
      cases rb with
      | error e => cases h
      | ok b =>
        obtain ⟨e1, e2⟩ := Prod.mk.inj (show (Except.ok (a, b), S3) = _ from h)
        cases e2
        cases e1
        obtain ⟨a1, a2, a3, a4⟩ := axis_spec (k := 0) hF ha
        obtain ⟨b1, b2, b3, b4⟩ := axis_spec (k := 1) a2 hb'
        have hp := DPD.proj_mudPoint (env := env) { core := Q }
        rw [he] at hp
        refine ⟨pt, r, hp.1.symm, hb, hr, ?_, a1, b1, b2, _, _, h6 ▸ a4, a3 ▸ b4⟩
        have hx := DPD.proj_expectedRatio (env := env) S1
        rw [expectedRatio_cached h2] at hx
        have hs : S1.core = Q.after env [.estimate] := by
          rw [hp.2]
          change _ = ((DP.mudPoint env >>= fun _ => pure () : PyM DP Unit) Q).2
          rw [PyM.bind_run]
          rcases DP.mudPoint env Q with ⟨u, v⟩
          cases u <;> rfl
        rw [← hs, ← hx.1]
        exact average_eq h1 h7

/-! ### It does return -/

theorem annotate_true {S : DPD} {r w : List F} {e : F} (hup : S.core.up.isSome) (hr : S.core.r = some r)
    (hw : S.core.weights = w) (he : DP.npAverage r w = .ok e) : annotateIf env true S = (.ok [e], S) := by
  change ((DPD.expectedRatio env >>= fun e => pure [e] : PyM DPD (List F)) S) = _
  rw [PyM.bind_run, expectedRatio_cached hup, average_eq hr hw, he]
  rfl

theorem axis_ok {Q : DP} {pt : List ℝ} {r u : List F} {S : DPD} {R : Arr2} {closest : List ℝ}
    {ann : Bool} {k : ℕ} (hS : Fitted Q pt r S) (hdraw : ∀ a c R i n, pe.draw a c R i n = .ok ())
    (hu : bzip1 (· * ·) r Q.weights = .ok u) {e : F} (he : DP.npAverage r Q.weights = .ok e)
    (hp : k < pt.length) (hc : k < closest.length) (hD : S.core.domain.c = 2) :
    ∃ x S', trialAxis env pe R closest ann k S = (.ok x, S') ∧ S'.core.domain.c = 2 := by
  have hn : ∀ {n : ℕ}, k < n → normIdx n k = .ok k := by
    intro n h
    unfold normIdx
    rw [if_pos ⟨by omega, by omega⟩]
    rfl
  obtain ⟨D, hfd, hDc⟩ : ∃ D, fitDomain none (some S.core.domain) (5 / 100) S.core.domInt = .ok D ∧
      D.c = 2 := by
    unfold fitDomain padBounds
    simp only [hD, lt_irrefl, if_false]
    exact ⟨_, rfl, hD⟩
  have h1 : DPD.plotParamSpace env pe k none (some R) (5 / 100) 100 true true false false false S =
      (.ok [.curve "initial" (.ofDist (uniformOn Q.domain)), .curve "update" (.ofKde Q.X 0 (some u))],
        S) := by
    rw [plot_dens, hS.inDist]
    unfold DPD.updateCurve DPD.ratioWeights drawIf
    rw [hS.r, hS.w, hS.X]
    simp only [if_true, DPD.theDist, Py.ok_bind, hdraw, hu]
    rfl
  have h2 : DPD.plotParamSpace env pe k (some closest) none (5 / 100) 100 false false false true true S =
      (.ok [.vert "mud" (pt.getD k 0), .vert "true" (closest.getD k 0)],
        { S with core := { S.core with domain := D } }) := by
    unfold DPD.plotParamSpace DPD.paramRange
    rw [PyM.bind_run]
    simp only [PyM.get_bind_run]
    rw [hfd]
    simp only [PyM.lift_ok_bind, PyM.modify_bind_run]
    change ((do
      let d ← PyM.lift (DPD.theDist S.inDist)
      let m ← DPD.mudLine env true k
      let t ← PyM.lift (vertTrue true (some closest) k)
      return [] ++ [] ++ [] ++ m ++ t : PyM DPD (List Item))
        { S with core := { S.core with domain := D } }) = _
    have hd : DPD.theDist S.inDist = .ok (uniformOn Q.domain) := by rw [hS.inDist]; rfl
    rw [hd]
    unfold DPD.mudLine
    have hmp := mudPoint_cached (env := env) (S := { S with core := { S.core with domain := D } }) hS.up
    rw [PyM.lift_ok_bind, if_pos rfl, PyM.bind_run, PyM.bind_run, hmp]
    have e3 := (pick_domain S.core D).trans hS.pick
    simp only [e3]
    unfold PyM.lift vertTrue vertAt
    rw [hn hp]
    simp only [Py.ok_bind, if_true, pure, Except.pure, hn hc]
    rfl
  unfold trialAxis
  rw [PyM.bind_run, h1]
  simp only
  rw [PyM.bind_run, h2]
  simp only
  cases ann with
  | false => exact ⟨_, _, rfl, hDc⟩
  | true =>
    rw [PyM.bind_run, annotate_true (S := { S with core := { S.core with domain := D } }) hS.up hS.r hS.w he]
    exact ⟨_, _, rfl, hDc⟩

theorem figs_ok {n p q : ℕ} (hn : 0 < n) (hp : 2 ≤ p) (X : Matrix (Fin n) (Fin p) ℝ)
    (Y : Matrix (Fin n) (Fin q) ℝ) (Dm : Matrix (Fin p) (Fin 2) ℝ) (hD : ∀ j, Dm j 0 < Dm j 1)
    (hdraw : ∀ a c R i n, pe.draw a c R i n = .ok ())
    (hkde : ∃ c : Fin n → F, env.kde ⟨n, q, Y⟩ 0 (List.replicate n (.fin 1)) = .ok (List.ofFn c))
    {closest : List ℝ} (hc : 2 ≤ closest.length) (R : Arr2) (ann1 ann2 : Bool) {Q : DP}
    (hQ : DP.new (.mat ⟨n, p, X⟩) (.mat ⟨n, q, Y⟩) (some (.mat ⟨p, 2, Dm⟩)) none = .ok Q) :
    ∃ x S, trialFigs env pe R closest ann1 ann2 { core := Q } = (.ok x, S) := by
  classical
  obtain ⟨c, hkde⟩ := hkde
  have hQ' : Q = { X := ⟨n, p, X⟩, y := ⟨n, q, Y⟩, domain := ⟨p, 2, Dm⟩, domInt := false,
                   weights := List.replicate n (.fin 1) } := by
    unfold DP.new at hQ
    simp only [NArr.shapeRow, NArr.shapeCol] at hQ
    rw [pyAssert_true trivial] at hQ
    cases hQ
    rfl
  have hw : Q.weights = List.ofFn fun _ : Fin n => F.fin 1 := by
    rw [hQ', List.ofFn_const]
  have hO0 := C28_default_observed Y
  have hD0 := C28_default_initial X Dm hD
  have hkde' : env.kde Q.y 0 Q.weights = .ok (List.ofFn c) := by rw [hQ']; exact hkde
  have hO1 : densAt stdNormal Q.y = .ok (List.ofFn fun k => F.fin (∏ j,
      ProbabilityTheory.gaussianPDFReal 0 1 (Y k j))) := by rw [hQ']; exact hO0
  obtain ⟨m, -, hpt⟩ := C28_defaults (env := env) hQ (n := n) hn (by rw [hQ']) _ _ _ _ hw
    (by rw [hQ']; exact hD0) hO1 hkde'
  rcases he : DPD.mudPoint env { core := Q } with ⟨res, S1⟩
  have hpr := DPD.proj_mudPoint (env := env) { core := Q }
  rw [he] at hpr
  obtain rfl : res = _ := hpr.1.trans hpt
  obtain ⟨r, hr, hb, h1, h2, h3, h4, h5, h6, h7⟩ := fresh_estimate hQ he
  have hr' := Settings.ratio_ofFn (env := env) (D := Q.data) (s := defaults Q) hO1 hkde'
  rw [hr] at hr'
  obtain rfl := Except.ok.inj hr'
  have hu := bzip1_ofFn (· * ·) (fun k => F.fin (∏ j, ProbabilityTheory.gaussianPDFReal 0 1 (Y k j)) / c k)
    (fun _ : Fin n => F.fin 1)
  rw [← hw] at hu
  obtain ⟨e, hav⟩ : ∃ e, DP.npAverage (List.ofFn fun k => F.fin (∏ j,
      ProbabilityTheory.gaussianPDFReal 0 1 (Y k j)) / c k) Q.weights = .ok e := by
    unfold DP.npAverage
    rw [raiseIf_false (by rw [hw]; simp), raiseIf_false (by
      rw [hw, List.sum_ofFn, F.sum_fin]
      intro h
      have := F.fin.inj h
      simp at this
      omega)]
    exact ⟨_, rfl⟩
  have hpick : (DPD.pick S1.core).1 = .ok (List.ofFn fun j : Fin Q.X.c => Q.X.get m j) := by
    have hm := he
    unfold DPD.mudPoint at hm
    rw [PyM.get_bind_run, PyM.bind_run] at hm
    rcases hf : PyM.when (DPD.core { core := Q }).up.isNone (DPD.fit env) { core := Q } with ⟨f, S2⟩
    rw [hf] at hm
    cases f with
    | error e => cases hm
    | ok a =>
      obtain ⟨e1, e2⟩ := Prod.mk.inj (show ((DPD.pick S2.core).1,
        { S2 with core := (DPD.pick S2.core).2 }) = _ from hm)
      rw [DPD.pick_state] at e2
      rw [← e2]
      exact e1
  have hF : Fitted Q _ _ S1 := ⟨h1, h2, h3, h4, h5, h7, hpick⟩
  have hXc : Q.X.c = p := by rw [hQ']
  obtain ⟨x1, S2, hx1, hc1⟩ := axis_ok (env := env) (k := 0) (R := R) (ann := ann1) hF hdraw hu hav
    (by rw [List.length_ofFn]; omega) (show 0 < closest.length by omega) (by rw [h6, hQ'])
  obtain ⟨-, hF2, -, -⟩ := axis_spec hF hx1
  obtain ⟨x2, S3, hx2, hc2⟩ := axis_ok (env := env) (k := 1) (R := R) (ann := ann2) hF2 hdraw hu hav
    (by rw [List.length_ofFn]; omega) (show 1 < closest.length by omega) hc1
  refine ⟨(x1, x2), S3, ?_⟩
  unfold trialFigs
  rw [PyM.bind_run, he]
  simp only
  rw [PyM.bind_run]
  have hx1' : trialAxis env pe R closest ann1 0 S1 = (.ok x1, S2) := hx1
  have hx2' : trialAxis env pe R closest ann2 1 S2 = (.ok x2, S3) := hx2
  rw [hx1']
  simp only
  rw [PyM.bind_run, hx2']
  rfl

end Poisson

end Verif
