import Verif.Props.SpatioTemporal

/-!
# C51: domain and parameter samples of a `SpatioTemporalProblem`
-/

namespace Verif

open ND SpecST STP

/-- The state after an assignment (an assignment that raises leaves what it changed before). -/
noncomputable def SpecST.Assign.exec : Assign → STP → STP
  | .domain a, P => (STP.setDomain a P).2
  | .lam a, P => (STP.setLam a P).2

/-- **C51, full statement** (false of the code). -/
def C51_claim : Prop :=
  ∀ ops : List Assign, Compatible (ops.foldl (fun P op => op.exec P) {})

/-- `x i j` are the entries of a samples array with `n` rows and `p` columns (1-D arrays are one
column). -/
def SamplesOf (a : ND) (n p : ℕ) (x : ℕ → ℕ → ℝ) : Prop :=
  (a.shape = [n, p] ∧ ∀ i < n, ∀ j < p, x i j = a.get [i, j]) ∨
    (a.shape = [n] ∧ p = 1 ∧ ∀ i < n, x i 0 = a.get [i])

/-- The assignments under which C51 holds: once samples are stored, domains have one row per
parameter; samples assigned after a domain lie inside it. -/
def Careful (P : STP) : Assign → Prop
  | .domain a => ∀ lam ∈ P.lam, ∀ n p, lam.shape = [n, p] → a.data.length = 2 * p
  | .lam a => ∃ n p x, SamplesOf a n p x ∧ ∀ D ∈ P.domain, ∀ i < n, ∀ j < p,
      D.get [j, 0] ≤ x i j ∧ x i j ≤ D.get [j, 1]

/-- Every assignment of the history is careful at the state it is made in. -/
def CarefulAll : STP → List Assign → Prop
  | _, [] => True
  | P, op :: ops => Careful P op ∧ CarefulAll (op.exec P) ops

theorem minMax_spec {L : ND} {n p : ℕ} (h : L.shape = [n, p]) (hn : n ≠ 0) :
    ∃ mm, minMax L = .ok mm ∧ mm.shape = [p, 2] ∧ ∀ j < p,
      (IsLeast {x | ∃ i < n, x = L.get [i, j]} (mm.get [j, 0])) ∧
      (IsGreatest {x | ∃ i < n, x = L.get [i, j]} (mm.get [j, 1])) := by
  refine ⟨_, by simp only [minMax, h, hn, if_false]; rfl, rfl, fun j hj => ?_⟩
  have : Nonempty (Fin n) := ⟨⟨0, Nat.pos_of_ne_zero hn⟩⟩
  rw [get_ofFn (by simp [InB, hj]), get_ofFn (by simp [InB, hj])]
  simp only [List.getD_cons_succ, List.getD_cons_zero, if_true, one_ne_zero, if_false]
  constructor
  · obtain ⟨i, hi⟩ := exists_eq_ciInf_of_finite (f := fun i : Fin n => L.get [i, j])
    refine ⟨⟨i, i.2, hi.symm⟩, ?_⟩
    rintro x ⟨k, hk, rfl⟩
    exact ciInf_le (Finite.bddBelow_range _) (⟨k, hk⟩ : Fin n)
  · obtain ⟨i, hi⟩ := exists_eq_ciSup_of_finite (f := fun i : Fin n => L.get [i, j])
    refine ⟨⟨i, i.2, hi.symm⟩, ?_⟩
    rintro x ⟨k, hk, rfl⟩
    exact le_ciSup (f := fun i : Fin n => L.get [i, j]) (Finite.bddAbove_range _) (⟨k, hk⟩ : Fin n)

theorem minMax_zero {L : ND} {p : ℕ} (h : L.shape = [0, p]) : minMax L = .error .valueError := by
  simp [minMax, h]

theorem allB_self (p : ℕ) (f : ℕ → ℕ → Prop) :
    ∃ b : Bool, allB p p f = .ok b ∧ (b = true ↔ ∀ i < p, f i i) := by
  classical
  refine ⟨decide (∀ i < p, f (if p = 1 then 0 else i) (if p = 1 then 0 else i)), by
    unfold allB; rw [Arr2.bdim_self], ?_⟩
  rw [decide_eq_true_iff]
  by_cases hp : p = 1
  · subst hp
    constructor
    · intro h i hi
      obtain rfl : i = 0 := by omega
      exact h 0 hi
    · intro h i hi
      exact h 0 (by norm_num)
  · simp only [hp, if_false]

theorem reshapeCols_two (a : ND) :
    (∃ D, a.reshapeCols 2 = .ok D ∧ D.shape = [a.data.length / 2, 2] ∧ D.data = a.data) ∨
      a.reshapeCols 2 = .error .valueError := by
  unfold reshapeCols
  rw [if_neg two_ne_zero]
  by_cases h : a.shape.prod = [a.data.length / 2, 2].prod
  · exact .inl ⟨_, reshape_ok h, rfl, rfl⟩
  · exact .inr (reshape_err h)

theorem setDomain_none {P : STP} (h : P.lam = none) (a : ND) :
    (∃ D, a.reshapeCols 2 = .ok D ∧ STP.setDomain a P = (.ok (), { P with domain := some D })) ∨
      STP.setDomain a P = (.error .valueError, P) := by
  rcases reshapeCols_two a with ⟨D, hD, -, -⟩ | hD
  · refine .inl ⟨D, hD, ?_⟩
    unfold STP.setDomain
    conv_lhs => rw [hD, PyM.lift_ok_bind, PyM.get_bind_run, h]
    rfl
  · refine .inr ?_
    unfold STP.setDomain
    rw [hD]
    rfl

/-- The exact behaviour of the `domain` setter once samples are stored and the dimensions agree:
the new domain is stored iff it contains every sample; otherwise `ValueError` and no change. -/
theorem C51_set_domain_exact {P : STP} {L D₀ : ND} {n p : ℕ} (hL : P.lam = some L)
    (hLs : L.shape = [n, p]) (hn : n ≠ 0) (hD₀ : P.domain = some D₀) (hD₀s : D₀.shape = [p, 2])
    {a : ND} (ha : a.data.length = 2 * p) :
    ∃ D, D.shape = [p, 2] ∧ D.data = a.data ∧
      ((∀ i < n, ∀ j < p, D.get [j, 0] ≤ L.get [i, j] ∧ L.get [i, j] ≤ D.get [j, 1]) →
        STP.setDomain a P = (.ok (), { P with domain := some D })) ∧
      ((¬ ∀ i < n, ∀ j < p, D.get [j, 0] ≤ L.get [i, j] ∧ L.get [i, j] ≤ D.get [j, 1]) →
        STP.setDomain a P = (.error .valueError, P)) := by
  obtain ⟨mm, hmm, hmms, hmmg⟩ := minMax_spec hLs hn
  rcases reshapeCols_two a with ⟨D, hD, hDs, hDd⟩ | hD
  case inr =>
    exfalso
    unfold reshapeCols at hD
    rw [if_neg two_ne_zero, reshape_ok (by rw [← a.size_eq, ha]; simp; omega)] at hD
    cases hD
  have hDs : D.shape = [p, 2] := by rw [hDs, ha]; simp
  refine ⟨D, hDs, hDd, ?_⟩
  obtain ⟨lo, hlo, hlo'⟩ := allB_self p fun i j => D.get [i, 0] ≤ mm.get [j, 0]
  obtain ⟨hi, hhi, hhi'⟩ := allB_self p fun i j => mm.get [j, 1] ≤ D.get [i, 1]
  have hcheck : checkDomain P.domain D L = raiseIf ((lo && hi) = false) .valueError := by
    unfold checkDomain
    rw [hD₀]
    simp only [need, Py.ok_bind]
    rw [show D₀.dim 0 = .ok p from by simp [ND.dim, hD₀s],
      show L.dim 1 = .ok p from by simp [ND.dim, hLs]]
    simp only [Py.ok_bind]
    rw [raiseIf_false (by simp), Py.ok_bind, hmm]
    simp only [hDs, Py.ok_bind, List.getD_cons_zero, hlo, hhi]
  have hiff : (∀ i < n, ∀ j < p, D.get [j, 0] ≤ L.get [i, j] ∧ L.get [i, j] ≤ D.get [j, 1]) ↔
      (∀ i < p, D.get [i, 0] ≤ mm.get [i, 0]) ∧ (∀ i < p, mm.get [i, 1] ≤ D.get [i, 1]) := by
    constructor
    · intro h
      constructor
      · intro j hj
        obtain ⟨i, hi, e⟩ := (hmmg j hj).1.1
        rw [e]; exact (h i hi j hj).1
      · intro j hj
        obtain ⟨i, hi, e⟩ := (hmmg j hj).2.1
        rw [e]; exact (h i hi j hj).2
    · rintro ⟨h1, h2⟩ i hi j hj
      exact ⟨(h1 j hj).trans ((hmmg j hj).1.2 ⟨i, hi, rfl⟩),
        ((hmmg j hj).2.2 ⟨i, hi, rfl⟩).trans (h2 j hj)⟩
  constructor
  · intro h
    obtain ⟨h1, h2⟩ := hiff.1 h
    unfold STP.setDomain
    conv_lhs => rw [hD, PyM.lift_ok_bind, PyM.get_bind_run, hL]
    simp only [checkDomainIf]
    rw [hcheck, raiseIf_false (by simp [hlo'.2 h1, hhi'.2 h2])]
    rfl
  · intro h
    unfold STP.setDomain
    rw [hD, PyM.lift_ok_bind, PyM.get_bind_run, hL]
    simp only [checkDomainIf]
    rw [hcheck, raiseIf_true]
    · rfl
    · by_contra hh
      rw [Bool.not_eq_false, Bool.and_eq_true] at hh
      exact h (hiff.2 ⟨hlo'.1 hh.1, hhi'.1 hh.2⟩)

theorem samples_table {a : ND} {n p : ℕ} {x : ℕ → ℕ → ℝ} (h : SamplesOf a n p x) :
    (asColumn a).shape = [n, p] ∧ ∀ i < n, ∀ j < p, (asColumn a).get [i, j] = x i j := by
  rcases h with ⟨h, hx⟩ | ⟨h, rfl, hx⟩
  · rw [asColumn_of_ne (by rw [h]; simp)]
    exact ⟨h, fun i hi j hj => (hx i hi j hj).symm⟩
  · obtain ⟨h1, h2⟩ := asColumn_spec h
    refine ⟨h1, fun i hi j hj => ?_⟩
    obtain rfl : j = 0 := by omega
    rw [hx i hi]
    simp [ND.get, h1, h2, h, offset]

/-- What the object looks like after `lam` is set (the remaining attribute is `sample_dist`). -/
theorem setLam_tail (L : ND) (Q : STP) : ∃ d,
    (PyM.get >>= fun P : STP => PyM.when P.sampleDist.isNone (setSampleDist "u") >>= fun _ =>
      PyM.modify fun s => { s with lam := some L }) Q =
      (.ok (), { Q with lam := some L, sampleDist := some d }) := by
  rw [PyM.get_bind_run]
  cases h : Q.sampleDist with
  | none =>
    refine ⟨"u", ?_⟩
    simp only [Option.isNone_none, PyM.when_true, setSampleDist]
    rw [raiseIf_false (by simp)]
    rfl
  | some d =>
    refine ⟨d, ?_⟩
    simp only [Option.isNone_some, PyM.when_false, PyM.pure_bind']
    rw [PyM.modify_run, ← h]

/-- **First samples.** On a problem without domain, assigning samples (at least one) stores them
and sets the domain to the exact column minima and maxima. -/
theorem C51_first_samples {P : STP} (hd : P.domain = none) (hl : P.lam = none) {a : ND} {n p : ℕ}
    {x : ℕ → ℕ → ℝ} (ha : SamplesOf a n p x) (hn : n ≠ 0) :
    ∃ L D d, STP.setLam a P =
        (.ok (), { P with lam := some L, domain := some D, sampleDist := some d }) ∧
      L.shape = [n, p] ∧ (∀ i < n, ∀ j < p, L.get [i, j] = x i j) ∧ D.shape = [p, 2] ∧
      ∀ j < p, IsLeast {y | ∃ i < n, y = x i j} (D.get [j, 0]) ∧
        IsGreatest {y | ∃ i < n, y = x i j} (D.get [j, 1]) := by
  obtain ⟨hs, hg⟩ := samples_table ha
  obtain ⟨mm, hmm, hmms, hmmg⟩ := minMax_spec hs hn
  have hmd : mm.reshapeCols 2 = .ok mm := by
    unfold reshapeCols
    rw [if_neg two_ne_zero, reshape_self]
    rw [mm.size_eq, hmms]; simp
  have hset : STP.setDomain mm P = (.ok (), { P with domain := some mm }) := by
    rcases setDomain_none hl mm with ⟨D, hD, h⟩ | h
    · rw [hmd] at hD; cases hD; exact h
    · unfold STP.setDomain at h
      rw [hmd, PyM.lift_ok_bind, PyM.get_bind_run, hl] at h
      cases h
  obtain ⟨d, hdd⟩ := setLam_tail (asColumn a) { P with domain := some mm }
  refine ⟨asColumn a, mm, d, ?_, hs, hg, hmms, fun j hj => ?_⟩
  · unfold STP.setLam
    rw [PyM.get_bind_run, hd]
    simp only [lamDomain]
    rw [hmm, PyM.lift_ok_bind, PyM.bind_run, hset]
    exact hdd
  · have e : {y | ∃ i < n, y = (asColumn a).get [i, j]} = {y | ∃ i < n, y = x i j} := by
      ext y
      constructor
      · rintro ⟨i, hi, rfl⟩; exact ⟨i, hi, hg i hi j hj⟩
      · rintro ⟨i, hi, rfl⟩; exact ⟨i, hi, (hg i hi j hj).symm⟩
    rw [← e]
    exact hmmg j hj

/-- Samples assigned after a domain: accepted iff the column count is the number of rows of the
domain — whether or not they lie inside; otherwise `ValueError` and no change. -/
theorem C51_set_lam_exact {P : STP} {D : ND} {r : ℕ} (hD : P.domain = some D)
    (hDs : D.shape = [r, 2]) {a : ND} {n p : ℕ} {x : ℕ → ℕ → ℝ} (ha : SamplesOf a n p x) :
    (p = r → ∃ L d, STP.setLam a P = (.ok (), { P with lam := some L, sampleDist := some d }) ∧
      L.shape = [n, p] ∧ ∀ i < n, ∀ j < p, L.get [i, j] = x i j) ∧
    (p ≠ r → STP.setLam a P = (.error .valueError, P)) := by
  obtain ⟨hs, hg⟩ := samples_table ha
  have h1 : (asColumn a).dim 1 = .ok p := by simp [ND.dim, hs]
  have h2 : D.dim 0 = .ok r := by simp [ND.dim, hDs]
  have e : STP.setLam a P = (lamDomain (asColumn a) (some D) >>= fun _ =>
      (PyM.get >>= fun P : STP => PyM.when P.sampleDist.isNone (setSampleDist "u") >>= fun _ =>
      PyM.modify fun s => { s with lam := some (asColumn a) })) P := by
    unfold STP.setLam
    rw [PyM.get_bind_run, hD]
  constructor
  · intro hp
    obtain ⟨d, hdd⟩ := setLam_tail (asColumn a) P
    refine ⟨asColumn a, d, ?_, hs, hg⟩
    rw [e]
    simp only [lamDomain]
    rw [h1, PyM.lift_ok_bind, h2, PyM.lift_ok_bind, raiseIf_false (by simp [hp]), PyM.lift_ok_bind]
    exact hdd
  · intro hp
    rw [e]
    simp only [lamDomain]
    rw [h1, PyM.lift_ok_bind, h2, PyM.lift_ok_bind, raiseIf_true hp]
    rfl

/-- The invariant used in the induction. -/
def Inv51 (P : STP) : Prop := Compatible P ∧ ∀ D ∈ P.domain, ∃ r, D.shape = [r, 2]

theorem inv51_domain {P : STP} (hI : Inv51 P) {a : ND} (hc : Careful P (.domain a)) :
    Inv51 (STP.setDomain a P).2 := by
  cases hL : P.lam with
  | none =>
    rcases setDomain_none hL a with ⟨D, hD, h⟩ | h
    · rw [h]
      refine ⟨fun L hL' => ?_, fun D' hD' => ?_⟩
      · exact absurd (hL'.symm.trans hL) (by simp)
      · cases hD'
        rcases reshapeCols_two a with ⟨D', h1, h2, -⟩ | h1
        · rw [hD] at h1; cases h1; exact ⟨_, h2⟩
        · rw [hD] at h1; cases h1
    · rw [h]; exact hI
  | some L =>
    obtain ⟨D₀, hD₀, n, p, hLs, hD₀s, hin⟩ := hI.1 L hL
    have ha := hc L hL n p hLs
    by_cases hn : n = 0
    · -- no samples: the setter raises
      subst hn
      have h : ∃ e, STP.setDomain a P = (.error e, P) := by
        rcases reshapeCols_two a with ⟨D, hD, hDs, hDd⟩ | hD
        · refine ⟨.valueError, ?_⟩
          unfold STP.setDomain
          rw [hD, PyM.lift_ok_bind, PyM.get_bind_run, hL]
          simp only [checkDomainIf, checkDomain, show P.domain = some D₀ from hD₀, need, Py.ok_bind]
          rw [show D₀.dim 0 = .ok p from by simp [ND.dim, hD₀s],
            show L.dim 1 = .ok p from by simp [ND.dim, hLs]]
          simp only [Py.ok_bind]
          rw [raiseIf_false (by simp), Py.ok_bind, minMax_zero hLs]
          rfl
        · exact ⟨.valueError, by unfold STP.setDomain; rw [hD]; rfl⟩
      obtain ⟨e, h⟩ := h
      rw [h]; exact hI
    · obtain ⟨D, hDs, hDd, h1, h2⟩ := C51_set_domain_exact hL hLs hn hD₀ hD₀s ha
      by_cases hin' : ∀ i < n, ∀ j < p, D.get [j, 0] ≤ L.get [i, j] ∧ L.get [i, j] ≤ D.get [j, 1]
      · rw [h1 hin']
        refine ⟨fun L' hL' => ?_, fun D' hD' => ?_⟩
        · obtain rfl : L = L' := Option.some.inj (hL.symm.trans hL')
          exact ⟨D, rfl, n, p, hLs, hDs, hin'⟩
        · cases hD'; exact ⟨p, hDs⟩
      · rw [h2 hin']; exact hI

theorem inv51_lam {P : STP} (hI : Inv51 P) {a : ND} (hc : Careful P (.lam a)) :
    Inv51 (STP.setLam a P).2 := by
  obtain ⟨n, p, x, ha, hin⟩ := hc
  cases hD : P.domain with
  | none =>
    have hL : P.lam = none := by
      cases hL : P.lam with
      | none => rfl
      | some L =>
        obtain ⟨D, hD', -⟩ := hI.1 L hL
        exact absurd (hD'.symm.trans hD) (by simp)
    by_cases hn : n = 0
    · have hs := (samples_table ha).1
      subst hn
      have : STP.setLam a P = (.error .valueError, P) := by
        unfold STP.setLam
        rw [PyM.get_bind_run, hD]
        simp only [lamDomain]
        rw [minMax_zero hs]
        rfl
      rw [this]; exact hI
    · obtain ⟨L, D, d, h, hs, hg, hDs, hb⟩ := C51_first_samples hD hL ha hn
      rw [h]
      refine ⟨fun L' hL' => ?_, fun D' hD' => ?_⟩
      · obtain rfl : L = L' := Option.some.inj hL'
        refine ⟨D, rfl, n, p, hs, hDs, fun i hi j hj => ?_⟩
        rw [hg i hi j hj]
        exact ⟨(hb j hj).1.2 ⟨i, hi, rfl⟩, (hb j hj).2.2 ⟨i, hi, rfl⟩⟩
      · cases hD'; exact ⟨p, hDs⟩
  | some D =>
    obtain ⟨r, hDs⟩ := hI.2 D hD
    obtain ⟨h1, h2⟩ := C51_set_lam_exact hD hDs ha
    by_cases hp : p = r
    · obtain ⟨L, d, h, hs, hg⟩ := h1 hp
      rw [h]
      refine ⟨fun L' hL' => ?_, fun D' hD' => ?_⟩
      · obtain rfl : L = L' := Option.some.inj hL'
        refine ⟨D, hD, n, p, hs, hp ▸ hDs, fun i hi j hj => ?_⟩
        rw [hg i hi j hj]
        exact hin D hD i hi j hj
      · exact hI.2 D' hD'
    · rw [h2 hp]; exact hI

/-- **C51, the part that holds.** After every history of careful assignments to `domain` and `lam`
(successful or not), the domain has one row per parameter and contains every sample. -/
theorem C51_compatible_partial (ops : List Assign) (h : CarefulAll {} ops) :
    Compatible (ops.foldl (fun P op => op.exec P) {}) := by
  have key : ∀ (ops : List Assign) (P : STP), Inv51 P → CarefulAll P ops →
      Inv51 (ops.foldl (fun P op => op.exec P) P) := by
    intro ops
    induction ops with
    | nil => intro P hI _; exact hI
    | cons op ops ih =>
      intro P hI hc
      refine ih _ ?_ hc.2
      cases op with
      | domain a => exact inv51_domain hI hc.1
      | lam a => exact inv51_lam hI hc.1
  exact (key ops {} ⟨fun _ h => (by cases h), fun _ h => (by cases h)⟩ h).1

theorem nd_samples (n : ℕ) (d : List ℕ) (h : d.length = [n].prod) :
    SamplesOf (ndOfNats [n] d h) n 1 (fun i _ => (ndOfNats [n] d h).get [i]) :=
  .inr ⟨rfl, rfl, fun _ _ => rfl⟩

/-- **C51 is false of the code**: a domain `[0, 1]` followed by the sample `5` is accepted. -/
theorem C51_claim_refuted : ¬ C51_claim := by
  intro h
  have := h [.domain (ndOfNats [2] [0, 1] rfl), .lam (ndOfNats [1] [5] rfl)]
  simp only [List.foldl_cons, List.foldl_nil, Assign.exec] at this
  have hr : (ndOfNats [2] [0, 1] rfl).reshapeCols 2 = .ok (ndOfNats [1, 2] [0, 1] rfl) := by
    unfold reshapeCols
    rw [if_neg two_ne_zero, reshape_ok (by simp [ndOfNats])]
    rfl
  have h1 : STP.setDomain (ndOfNats [2] [0, 1] rfl) {} =
      (.ok (), { domain := some (ndOfNats [1, 2] [0, 1] rfl) }) := by
    rcases setDomain_none (P := {}) rfl (ndOfNats [2] [0, 1] rfl) with ⟨D, hD, h⟩ | h
    · rw [hr] at hD; cases hD; exact h
    · unfold STP.setDomain at h
      rw [hr] at h
      cases h
  rw [h1] at this
  obtain ⟨L, d, h2, hs, hg⟩ := (C51_set_lam_exact
    (P := { domain := some (ndOfNats [1, 2] [0, 1] rfl) }) rfl rfl
    (nd_samples 1 [5] rfl)).1 rfl
  rw [h2] at this
  obtain ⟨D, hD, n, p, hL, hDs, hin⟩ := this L rfl
  cases hD
  rw [hs] at hL
  obtain ⟨rfl, rfl⟩ : 1 = n ∧ 1 = p := by simpa using hL
  have := (hin 0 (by norm_num) 0 (by norm_num)).2
  rw [hg 0 (by norm_num) 0 (by norm_num)] at this
  simp [ndOfNats, ND.get, offset] at this

/-- The hypothesis of `C51_compatible_partial` is met by a history with samples first, then a
larger domain. -/
example : CarefulAll {} [.lam (ndOfNats [2] [3, 5] rfl), .domain (ndOfNats [2] [0, 9] rfl)] := by
  obtain ⟨L, D, d, h, hs, hg, hDs, hb⟩ := C51_first_samples (P := {}) rfl rfl
    (nd_samples 2 [3, 5] rfl) two_ne_zero
  refine ⟨⟨2, 1, _, nd_samples 2 [3, 5] rfl, fun D hD => by cases hD⟩, ?_, trivial⟩
  simp only [Careful, Assign.exec, h]
  intro lam hlam n p hn
  cases hlam
  rw [hs] at hn
  obtain ⟨rfl, rfl⟩ : 2 = n ∧ 1 = p := by simpa using hn
  rfl

/-! ### Further cases meeting the hypotheses -/

/-- On the concrete problem `[[0, 8], [1, 7]]` is accepted as a new domain and `[[2, 8], [1, 7]]` is not
(the first sample is `(1, 2)`). -/
example : (STP.setDomain (ndOfNats [2, 2] [0, 8, 1, 7] rfl) demoST).1 = .ok () ∧
    STP.setDomain (ndOfNats [2, 2] [2, 8, 1, 7] rfl) demoST = (.error .valueError, demoST) := by
  obtain ⟨D, h1, h2, h3, -⟩ := C51_set_domain_exact (P := demoST) (n := 3) (p := 2)
    (L := ndOfNats [3, 2] [1, 2, 3, 4, 5, 6] rfl) rfl rfl (by norm_num) (D₀ := ndOfNats [2, 2] [0, 9, 0, 9] rfl)
    rfl rfl (a := ndOfNats [2, 2] [0, 8, 1, 7] rfl) rfl
  obtain ⟨E, g1, g2, -, g3⟩ := C51_set_domain_exact (P := demoST) (n := 3) (p := 2)
    (L := ndOfNats [3, 2] [1, 2, 3, 4, 5, 6] rfl) rfl rfl (by norm_num) (D₀ := ndOfNats [2, 2] [0, 9, 0, 9] rfl)
    rfl rfl (a := ndOfNats [2, 2] [2, 8, 1, 7] rfl) rfl
  constructor
  · rw [h3]
    intro i hi j hj
    interval_cases i <;> interval_cases j <;>
      simp [ND.get, h1, h2, offset, ndOfNats] <;> norm_num
  · refine g3 fun h => ?_
    have := (h 0 (by norm_num) 0 (by norm_num)).1
    simp [ND.get, g1, g2, offset, ndOfNats] at this

/-- The history above leaves compatible samples and domain. -/
example : Compatible ((STP.setDomain (ndOfNats [2] [0, 9] rfl)
    ((STP.setLam (ndOfNats [2] [3, 5] rfl) {}).2)).2) := by
  refine C51_compatible_partial [.lam (ndOfNats [2] [3, 5] rfl), .domain (ndOfNats [2] [0, 9] rfl)] ?_
  obtain ⟨L, D, d, h, hs, hg, hDs, hb⟩ := C51_first_samples (P := {}) rfl rfl
    (nd_samples 2 [3, 5] rfl) two_ne_zero
  refine ⟨⟨2, 1, _, nd_samples 2 [3, 5] rfl, fun D hD => by cases hD⟩, ?_, trivial⟩
  simp only [Careful, Assign.exec, h]
  intro lam hlam n p hn
  cases hlam
  rw [hs] at hn
  obtain ⟨rfl, rfl⟩ : 2 = n ∧ 1 = p := by simpa using hn
  rfl

end Verif
