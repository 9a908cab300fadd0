import Verif.Model.Paper
import Verif.Props.Cli
import Verif.Props.ContoursRun
import Verif.Props.Fenics

/-!
# C123: `mud_paper`

`/repo/src/mud/examples/examples.py:850-1060`.
-/

open Matrix

namespace Verif

namespace Paper

open ND SpecST STP Prep Poisson Adcirc Cli

variable {σ ρ : Type}

/-- A run of two steps that returns. -/
theorem bind_returns {τ α β : Type} {x : PyM τ α} {f : α → PyM τ β} {s s' : τ} {b : β}
    (h : (x >>= f) s = (.ok b, s')) : ∃ a t, x s = (.ok a, t) ∧ f a t = (.ok b, s') := by
  rw [PyM.bind_run] at h
  rcases hx : x s with ⟨r, t⟩
  rw [hx] at h
  cases r with
  | error e => cases h
  | ok a => exact ⟨a, t, rfl, h⟩

theorem onNp_returns {α : Type} {x : PyM σ α} {s s' : σ × ρ} {a : α} (h : onNp x s = (.ok a, s')) :
    x s.1 = (.ok a, s'.1) ∧ s'.2 = s.2 := by
  unfold onNp at h
  obtain ⟨h1, h2⟩ := Prod.mk.inj h
  subst h2
  exact ⟨Prod.ext h1 rfl, rfl⟩

theorem lift_returns {τ α : Type} {x : Py α} {s s' : τ} {a : α} (h : PyM.lift x s = (.ok a, s')) :
    x = .ok a ∧ s' = s := by
  obtain ⟨h1, h2⟩ := Prod.mk.inj (show (x, s) = (.ok a, s') from h)
  exact ⟨h1, h2.symm⟩

/-- The stages of a run that returns: the state of NumPy's generator is `u` after figures 1 to 6 and the
Poisson data. -/
structure Stages (W : World σ ρ) (sp : String) (seed : Option ℕ) (s : σ × ρ) (o : Out) (u : σ)
    (K : Fenics.Disk) : Prop where
  figs : ∃ v, linearFigs W seed (startState W.G.normal seed s.1) = (.ok o.figs, v) ∧
    poissonData W (join (join sp "data") "poisson_data.pkl") seed v = (.ok K, u)
  rest : ∃ s1 s2 s3, runSol K.toFileEnv W.G.normal W.R W.ext W.env W.pe W.closest
      (join (join sp "data") "poisson_data.pkl") 0.05 seed ["response", "qoi"] "random"
      [(0, 5), (5, 50), (50, -1)] 3 (startState W.G.normal seed u, s.2) = (.ok o.sol, s1) ∧
    trialsTable W K.toFileEnv (join (join sp "data") "poisson_data.pkl") seed s1 =
      (.ok (o.trials, o.table), s2) ∧
    adcircData W K (join (join sp "data") "adcirc-si.pkl") = .ok o.disk ∧
    (∃ l, loadAdcirc o.disk.toFileEnv W.G.normal (join (join sp "data") "adcirc-si.pkl")
      ⟨[1, 2], [0, 0], rfl⟩ 0.05 (some 21) s2.1 = (.ok l, s3) ∧ tides W l.2 = .ok o.tides)

theorem setSeed_returns {G : Gen σ} {seed : Option ℕ} {s s' : σ × ρ} {a : Unit}
    (h : onNp (setSeed G seed) s = (.ok a, s')) : s' = (startState G.normal seed s.1, s.2) := by
  cases seed <;> exact (Prod.mk.inj h).2.symm

theorem stages {W : World σ ρ} {sp : String} {seed : Option ℕ} {s s' : σ × ρ} {o : Out}
    (h : mudPaper W sp seed s = (.ok o, s')) : ∃ u K, Stages W sp seed s o u K := by
  unfold mudPaper at h
  obtain ⟨_, s0, h0, h⟩ := bind_returns h
  obtain ⟨figs, s1, h1, h⟩ := bind_returns h
  obtain ⟨K, s2, h2, h⟩ := bind_returns h
  obtain ⟨_, s3, h3, h⟩ := bind_returns h
  obtain ⟨sol, s4, h4, h⟩ := bind_returns h
  obtain ⟨tr, s5, h5, h⟩ := bind_returns h
  obtain ⟨K', s6, h6, h⟩ := bind_returns h
  obtain ⟨l, s7, h7, h⟩ := bind_returns h
  obtain ⟨t, s8, h8, h⟩ := bind_returns h
  obtain ⟨h, -⟩ := Prod.mk.inj h
  cases h
  have e0 := setSeed_returns h0
  have e3 := setSeed_returns h3
  subst e0
  obtain ⟨h1, q1⟩ := onNp_returns h1
  obtain ⟨h2, q2⟩ := onNp_returns h2
  obtain ⟨h6', e6⟩ := lift_returns h6
  subst e6
  obtain ⟨h7, q7⟩ := onNp_returns h7
  obtain ⟨h8, -⟩ := lift_returns h8
  have e3' : s3 = (startState W.G.normal seed s2.1, s.2) := by rw [e3, q2, q1]
  subst e3'
  exact ⟨s2.1, K, ⟨s1.1, h1, h2⟩, s4, s6, s7.1, h4, h5, h6', l, h7, h8⟩

/-! ## From scratch, with FEniCS -/

theorem join_ends (d f : String) : f.toList <:+ (join d f).toList := by
  unfold join
  split
  · exact List.suffix_refl _
  · rw [String.toList_append]
    exact List.suffix_append _ _

/-- The file generated is not the one read. -/
theorem not_generated (d : String) : join d "poisson_data.pkl" ≠ Fenics.resPath "." 1000 500 2 := by
  intro h
  have h1 := join_ends d "poisson_data.pkl"
  rw [h] at h1
  revert h1
  decide

/-- The file is absent after the data are generated. -/
theorem poissonData_absent {W : World σ ρ} {d : String} {seed : Option ℕ} {s s' : σ} {K : Fenics.Disk}
    (hno : W.disk.file (join d "poisson_data.pkl") = none) (hfen : W.dolfin.available = true)
    (h : poissonData W (join d "poisson_data.pkl") seed s = (.ok K, s')) :
    K.file (join d "poisson_data.pkl") = none := by
  unfold poissonData at h
  rw [if_neg (by rw [hno]; simp), if_neg (by rw [hfen]; simp)] at h
  obtain ⟨o, t, ho, h⟩ := bind_returns h
  cases h
  unfold Fenics.runFenics at ho
  obtain ⟨_, _, -, ho⟩ := bind_returns ho
  obtain ⟨_, _, -, ho⟩ := bind_returns ho
  obtain ⟨_, _, -, ho⟩ := bind_returns ho
  obtain ⟨_, _, -, ho⟩ := bind_returns ho
  obtain ⟨_, _, -, ho⟩ := bind_returns ho
  obtain ⟨r, _, -, ho⟩ := bind_returns ho
  obtain ⟨p, _, hp, ho⟩ := bind_returns ho
  cases ho
  obtain ⟨hp, -⟩ := lift_returns hp
  unfold Fenics.save at hp
  obtain ⟨K', hK, hp⟩ := Py.bind_eq_ok.1 hp
  cases hp
  unfold Fenics.Disk.write at hK
  obtain ⟨_, -, hK⟩ := Py.bind_eq_ok.1 hK
  cases hK
  exact (if_neg (not_generated d)).trans hno

/-- The path read never ends in "nc", so that it is read as a pickle. -/
theorem read_absent {E : FileEnv} {d : String} (h : E.file (join d "poisson_data.pkl") = none) :
    E.read (join d "poisson_data.pkl") = .error .fileNotFoundError := by
  have hnc : endsNc (join d "poisson_data.pkl") = false := by
    unfold endsNc
    rw [Bool.eq_false_iff, ne_eq, List.isSuffixOf_iff_suffix]
    intro hs
    have h1 := join_ends d "poisson_data.pkl"
    have h2 : ['k', 'l'] <:+ (join d "poisson_data.pkl").toList :=
      List.IsSuffix.trans (by decide) h1
    have h3 := List.suffix_of_suffix_length_le hs h2 (by simp)
    revert h3
    decide
  unfold FileEnv.read FileEnv.useXr
  rw [hnc]
  simp only [Bool.false_eq_true, if_false, Py.ok_bind, h]

theorem runSol_absent {E : FileEnv} {G : Rng σ} {R : PyRandom ρ} {ext : Decomp} {env : Env} {pe : PlotEnv}
    {closest : List ℝ} {path : String} (h : E.read path = .error .fileNotFoundError) (sigma : ℝ)
    (seed : Option ℕ) (figs : List String) (order : String) (gs : List (ℤ × ℤ)) (styles : ℕ) (s : σ × ρ) :
    (runSol E G R ext env pe closest path sigma seed figs order gs styles s).1 =
      .error .fileNotFoundError := by
  unfold runSol loadPoisson loadThen
  rw [h]
  rfl

/-- The full claim: where FEniCS is installed, `mud_paper` can be run from scratch. -/
def C123_scratch_claim : Prop :=
  ∃ (σ ρ : Type) (W : World σ ρ) (sp : String) (seed : Option ℕ) (s s' : σ × ρ) (o : Out),
    W.dolfin.available = true ∧ W.disk.file (join (join sp "data") "poisson_data.pkl") = none ∧
    mudPaper W sp seed s = (.ok o, s')

/-- **The claim is false of the code**: the generated data are saved under another name, so that no run
without the data file succeeds, whatever the options, the generators and the rest of the world. -/
theorem C123_scratch_claim_refuted : ¬ C123_scratch_claim := by
  rintro ⟨σ, ρ, W, sp, seed, s, s', o, hfen, hno, h⟩
  obtain ⟨u, K, ⟨v, -, hK⟩, s1, -, -, h4, -⟩ := stages h
  have := runSol_absent (G := W.G.normal) (R := W.R) (ext := W.ext) (env := W.env) (pe := W.pe)
    (closest := W.closest) (read_absent (E := K.toFileEnv) (poissonData_absent hno hfen hK)) 0.05 seed
    ["response", "qoi"] "random" [(0, 5), (5, 50), (50, -1)] 3 (startState W.G.normal seed u, s.2)
  rw [h4] at this
  cases this

/-- **C123 (from scratch, FEniCS).** After figures 1 to 6 and the generation of 1000 samples,
`FileNotFoundError`. -/
theorem C123_scratch_exact {W : World σ ρ} {sp : String} {seed : Option ℕ} {s : σ × ρ} {f : Figs}
    {K : Fenics.Disk} {v u : σ} (hfen : W.dolfin.available = true)
    (hno : W.disk.file (join (join sp "data") "poisson_data.pkl") = none)
    (h1 : linearFigs W seed (startState W.G.normal seed s.1) = (.ok f, v))
    (h2 : poissonData W (join (join sp "data") "poisson_data.pkl") seed v = (.ok K, u)) :
    (mudPaper W sp seed s).1 = .error .fileNotFoundError := by
  obtain ⟨s, t⟩ := s
  have e0 : onNp (ρ := ρ) (setSeed W.G seed) (s, t) = (.ok (), (startState W.G.normal seed s, t)) := by
    cases seed <;> rfl
  have e1 : onNp (ρ := ρ) (linearFigs W seed) (startState W.G.normal seed s, t) = (.ok f, (v, t)) := by
    unfold onNp; rw [h1]
  have e2 : onNp (ρ := ρ) (poissonData W (join (join sp "data") "poisson_data.pkl") seed) (v, t) =
      (.ok K, (u, t)) := by
    unfold onNp; rw [h2]
  have e3 : onNp (ρ := ρ) (setSeed W.G seed) (u, t) = (.ok (), (startState W.G.normal seed u, t)) := by
    cases seed <;> rfl
  unfold mudPaper
  rw [bind_of_ok e0, bind_of_ok e1, bind_of_ok e2, bind_of_ok e3, PyM.bind_run]
  have := runSol_absent (G := W.G.normal) (R := W.R) (ext := W.ext) (env := W.env) (pe := W.pe)
    (closest := W.closest) (read_absent (E := K.toFileEnv) (poissonData_absent hno hfen h2)) 0.05 seed
    ["response", "qoi"] "random" [(0, 5), (5, 50), (50, -1)] 3 (startState W.G.normal seed u, t)
  rcases hx : runSol K.toFileEnv W.G.normal W.R W.ext W.env W.pe W.closest
    (join (join sp "data") "poisson_data.pkl") 0.05 seed ["response", "qoi"] "random"
    [(0, 5), (5, 50), (50, -1)] 3 (startState W.G.normal seed u, t) with ⟨r, s4⟩
  rw [hx] at this
  obtain rfl : r = _ := this
  rfl

/-- **C123 (data).** Without FEniCS: an existing data file is used as it is and nothing is downloaded; a
missing one is downloaded to its place, other files are as before, unless a file of that name lies in the
working directory, which is then moved there instead. -/
theorem C123_data {W : World σ ρ} {path : String} {seed : Option ℕ} (s : σ) :
    (∀ c, W.disk.file path = some c → poissonData W path seed s = (.ok W.disk, s)) ∧
    (∀ ds, W.disk.file path = none → W.dolfin.available = false → W.remote "poisson_data.pkl" = .ok ds →
      ∃ K, poissonData W path seed s = (.ok K, s) ∧
        K.file path = some ((W.disk.file "poisson_data.pkl").getD (.pickle ds)) ∧
        ∀ q, q ≠ path → q ≠ "poisson_data.pkl" → K.file q = W.disk.file q) ∧
    (∀ e, W.disk.file path = none → W.dolfin.available = false → W.remote "poisson_data.pkl" = .error e →
      poissonData W path seed s = (.error e, s)) := by
  refine ⟨?_, ?_, ?_⟩
  · intro c hc
    unfold poissonData
    rw [if_pos (by rw [hc]; rfl)]
    rfl
  · intro ds hno ha hr
    unfold poissonData fetch
    rw [if_neg (by rw [hno]; simp), if_pos ha, hr]
    refine ⟨_, rfl, ?_, ?_⟩
    · change (if path = path then _ else _) = _
      rw [if_pos rfl]
    · intro q h1 h2
      change (if q = path then _ else if q = _ then _ else _) = _
      rw [if_neg h1, if_neg h2]
  · intro e hno ha hr
    unfold poissonData fetch
    rw [if_neg (by rw [hno]; simp), if_pos ha, hr]
    rfl

/-! ## Reproducibility -/

theorem sol_state {E : FileEnv} {G : Rng σ} {R : PyRandom ρ} {ext : Decomp} {env : Env} {pe : PlotEnv}
    {closest : List ℝ} {path : String} {sigma : ℝ} {seed : Option ℕ} {figs : List String} {order : String}
    {gs : List (ℤ × ℤ)} {styles : ℕ} {s s' : σ × ρ} {o : SolResult}
    (h : runSol E G R ext env pe closest path sigma seed figs order gs styles s = (.ok o, s')) :
    ∃ ds, loadPoisson E G path sigma seed s.1 = (.ok (ds, o.prob), s'.1) := by
  unfold runSol at h
  obtain ⟨l, s1, h1, h⟩ := bind_returns h
  obtain ⟨idx, s2, h2, h⟩ := bind_returns h
  obtain ⟨h3, rfl⟩ := lift_returns h
  obtain ⟨h1, -⟩ := onNp_returns h1
  have e2 : s'.1 = s1.1 := by
    unfold onPy at h2
    rw [← (Prod.mk.inj h2).2]
  have hp : o.prob = l.2 := by
    unfold solWith at h3
    obtain ⟨_, -, h3⟩ := Py.bind_eq_ok.1 h3
    obtain ⟨_, -, h3⟩ := Py.bind_eq_ok.1 h3
    obtain ⟨_, -, h3⟩ := Py.bind_eq_ok.1 h3
    obtain ⟨_, -, h3⟩ := Py.bind_eq_ok.1 h3
    obtain ⟨_, -, h3⟩ := Py.bind_eq_ok.1 h3
    cases h3
    rfl
  rw [e2, hp]
  exact ⟨l.1, h1⟩

theorem table_seeded (W : World σ ρ) (E : FileEnv) (path : String) (k : ℕ) (s s' : σ × ρ) :
    (trialsTable W E path (some k) s).1 = (trialsTable W E path (some k) s').1 := by
  unfold trialsTable
  rw [PyM.bind_run, PyM.bind_run]
  have h := C112_seeded E W.G.normal W.R W.ext W.env W.pe W.closest W.x_range path [5, 50, 500] "random" true
    true 0.05 k s s'
  rcases h1 : runTrials E W.G.normal W.R W.ext W.env W.pe W.closest W.x_range path [5, 50, 500] "random" true
    true 0.05 (some k) s with ⟨a, u⟩
  rcases h2 : runTrials E W.G.normal W.R W.ext W.env W.pe W.closest W.x_range path [5, 50, 500] "random" true
    true 0.05 (some k) s' with ⟨a', u'⟩
  rw [h1, h2] at h
  obtain rfl : a = a' := h
  cases a with
  | error e => rfl
  | ok l =>
    dsimp only
    rw [PyM.bind_run, PyM.bind_run]
    cases l.2.zipIdx.mapM (trialRow W.env [5, 50, 500]) <;> rfl

/-- **C123 (seed), proved part**: with `--seed`, two runs of `mud_paper` that return agree in all numbers of
figures 1 to 6, in the Poisson problem solved for figures 7 and 8, in figure 9 and its table, in figures 10
to 13 and in the data files left, whatever the states of the generators. -/
theorem C123_seeded_partial {W : World σ ρ} {sp : String} {k : ℕ} {s s' s1 s1' : σ × ρ} {o o' : Out}
    (h : mudPaper W sp (some k) s = (.ok o, s1)) (h' : mudPaper W sp (some k) s' = (.ok o', s1')) :
    o.figs = o'.figs ∧ o.sol.prob = o'.sol.prob ∧ o.trials = o'.trials ∧ o.table = o'.table ∧
      o.tides = o'.tides ∧ o.disk = o'.disk := by
  obtain ⟨u, K, ⟨v, h1, h2⟩, t1, t2, t3, h3, h4, h5, l, h6, h7⟩ := stages h
  obtain ⟨u', K', ⟨v', h1', h2'⟩, t1', t2', t3', h3', h4', h5', l', h6', h7'⟩ := stages h'
  have e1 : linearFigs W (some k) (startState W.G.normal (some k) s.1) =
      linearFigs W (some k) (startState W.G.normal (some k) s'.1) := rfl
  rw [e1, h1'] at h1
  obtain ⟨a1, a2⟩ := Prod.mk.inj h1
  subst a2
  rw [h2'] at h2
  obtain ⟨a2, a3⟩ := Prod.mk.inj h2
  cases a2
  subst a3
  obtain ⟨ds, q⟩ := sol_state h3
  obtain ⟨ds', q'⟩ := sol_state h3'
  rw [q'] at q
  have q1 := (Prod.mk.inj (Except.ok.inj (Prod.mk.inj q).1)).2
  have q2 := table_seeded W K.toFileEnv (join (join sp "data") "poisson_data.pkl") k t1 t1'
  rw [h4, h4'] at q2
  obtain ⟨q3, q4⟩ := Prod.mk.inj (Except.ok.inj q2)
  rw [h5'] at h5
  have q5 := Except.ok.inj h5
  rw [← q5] at h6
  have q6 := load_seeded_adcirc o'.disk.toFileEnv W.G.normal (join (join sp "data") "adcirc-si.pkl")
    ⟨[1, 2], [0, 0], rfl⟩ 0.05 21 t2.1 t2'.1
  rw [h6, h6'] at q6
  obtain rfl := Except.ok.inj q6
  rw [h7'] at h7
  exact ⟨(Except.ok.inj a1).symm, q1.symm, q3, q4, (Except.ok.inj h7).symm, q5.symm⟩

/-- **C123 (fixed seeds).** Figures 10 to 13 depend on the data only, not on `--seed`: runs with any options
and states that leave the same files agree in them. -/
theorem C123_tides_fixed {W : World σ ρ} {sp : String} {seed seed' : Option ℕ} {s s' s1 s1' : σ × ρ}
    {o o' : Out} (h : mudPaper W sp seed s = (.ok o, s1)) (h' : mudPaper W sp seed' s' = (.ok o', s1'))
    (hd : o.disk = o'.disk) : o.tides = o'.tides := by
  obtain ⟨u, K, -, t1, t2, t3, -, -, -, l, h6, h7⟩ := stages h
  obtain ⟨u', K', -, t1', t2', t3', -, -, -, l', h6', h7'⟩ := stages h'
  rw [hd] at h6
  have q6 := load_seeded_adcirc o'.disk.toFileEnv W.G.normal (join (join sp "data") "adcirc-si.pkl")
    ⟨[1, 2], [0, 0], rfl⟩ 0.05 21 t2.1 t2'.1
  rw [h6, h6'] at q6
  obtain rfl := Except.ok.inj q6
  rw [h7'] at h7
  exact (Except.ok.inj h7).symm

end Paper

end Verif
