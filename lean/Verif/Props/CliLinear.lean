import Verif.Model.CliLinear
import Verif.Props.PaperRun

/-!
# C124: the commands `comparison`, `contours`, `wme_covariance`, `high_dim_linear` and `poisson_generate`
-/

open Matrix

namespace Verif

namespace Cli

open SpecST

variable {σ : Type}

/-! ## Specification -/

/-- The text `t` reads as the number `x`. -/
inductive Tok.Reads : Tok → ℝ → Prop
  | int (z : ℤ) : Tok.Reads (.int z) z
  | dec (x : ℝ) : Tok.Reads (.dec x) x

/-- How a command ends whose body ends like this. -/
def ended {α : Type} : Py α × σ → Except Exit α × σ
  | (.ok a, t) => (.ok a, t)
  | (.error e, t) => (.error (.raised e), t)

/-- `--seed k`, or nothing. -/
def seedArg (k : Option ℕ) : Option ℤ := k.map fun k : ℕ => (k : ℤ)

/-- A seed NumPy accepts. -/
def SeedOk (k : Option ℕ) : Prop := ∀ z ∈ k, z < 2 ^ 32

theorem seedOf_arg {k : Option ℕ} (hk : SeedOk k) : seedOf (seedArg k) = .ok k := by
  cases k with
  | none => rfl
  | some k =>
    have h : k < 2 ^ 32 := hk k rfl
    have h' : (0 : ℤ) ≤ k ∧ (k : ℤ) < 2 ^ 32 := ⟨by positivity, by exact_mod_cast h⟩
    have e : seedArg (some k) = some (k : ℤ) := rfl
    rw [e]
    unfold seedOf
    dsimp only
    rw [if_pos h', Int.toNat_natCast]

theorem reseed_state (G : Rng σ) (k : Option ℕ) (s : σ) : (G.reseed k s).2 = startState G k s := by
  cases k <;> rfl

theorem command_run {α β : Type} (G : Gen σ) {k : Option ℕ} (hk : SeedOk k) {o : β} (body : Option ℕ → β → PyM σ α)
    (s : σ) : command G (seedArg k) (.ok o) body s = ended (body k o (startState G.normal k s)) := by
  unfold command
  rw [seedOf_arg hk]
  dsimp only
  rw [reseed_state]
  rcases body k o (startState G.normal k s) with ⟨r, t⟩
  cases r <;> rfl

theorem command_usage {α β : Type} (G : Gen σ) {k : Option ℕ} (hk : SeedOk k) {o : Except Exit β}
    (ho : o = .error .usage) (body : Option ℕ → β → PyM σ α) (s : σ) :
    (command G (seedArg k) o body s).1 = .error .usage := by
  subst ho
  unfold command
  rw [seedOf_arg hk]

/-- `--seed` with a number that NumPy rejects: `ValueError`, whatever the command. -/
theorem C124_seed_range {α β : Type} (G : Gen σ) {z : ℤ} (hz : z < 0 ∨ 2 ^ 32 ≤ z) (o : Except Exit β)
    (body : Option ℕ → β → PyM σ α) (s : σ) : command G (some z) o body s = (.error (.raised .valueError), s) := by
  have h : seedOf (some z) = .error .valueError := if_neg (by omega)
  unfold command
  rw [h]

theorem single_last {α : Type} (conv : Tok → Except Exit α) (d : α) (l : List Tok) (t : Tok) :
    single conv d (l ++ [t]) = conv t := by
  unfold single
  rw [List.getLast?_append]
  rfl

theorem asFloat_reads {t : Tok} {x : ℝ} (h : t.Reads x) : asFloat t = .ok x := by
  cases h <;> rfl

theorem mapM_ints (l : List ℤ) : (l.map Tok.int).mapM asInt = .ok l := by
  induction l with
  | nil => rfl
  | cons z l ih =>
    rw [List.map_cons, List.mapM_cons, ih]
    rfl

theorem several_ints {l : List ℤ} (hl : l ≠ []) (d : List ℤ) : several asInt d (l.map Tok.int) = .ok l := by
  unfold several
  rw [if_neg (by simpa using hl), mapM_ints]

/-! ## `comparison` -/

theorem comparisonPass_run (env : Env) (pe : PlotEnv) (G : Gen σ) (p n : ℕ) (mu sigma : ℝ) (a b : ℤ) (Ns : List ℤ)
    (N : ℕ) : comparisonPass env pe G ⟨p, n, mu, sigma, [a, b], Ns⟩ N =
      runComparison env pe G p n mu sigma a b true [N] := by
  unfold comparisonPass
  dsimp only
  rw [raiseIf_false (by omega), raiseIf_false (by simp), raiseIf_false (by omega)]
  rfl

theorem comparisonLoop_run (env : Env) (pe : PlotEnv) (G : Gen σ) (p n : ℕ) (mu sigma : ℝ) (a b : ℤ) (Ns' : List ℤ)
    (Ns : List ℕ) (s : σ) :
    comparisonLoop env pe G ⟨p, n, mu, sigma, [a, b], Ns'⟩ (Ns.map fun N : ℕ => (N : ℤ)) s =
      runComparison env pe G p n mu sigma a b true Ns s := by
  induction Ns generalizing s with
  | nil => rfl
  | cons N Ns ih =>
    rw [List.map_cons]
    unfold comparisonLoop
    rw [comparisonPass_run]
    unfold runComparison
    rw [PyM.bind_run, PyM.bind_run, PyM.bind_run]
    rcases polynomial1DData G (Frozen.uniform G 0 1) p n mu sigma N s with ⟨r, t⟩
    cases r with
    | error e => rfl
    | ok d =>
      dsimp only
      rw [PyM.bind_run, PyM.bind_run]
      rcases h : PyM.lift (compPass env pe d.1 d.2.1 d.2.2 sigma a b true) t with ⟨r', t'⟩
      cases r' with
      | error e => rfl
      | ok o =>
        dsimp only
        rw [PyM.bind_run, PyM.bind_run]
        have e : runComparison env pe G p n mu sigma a b true [] t' = (.ok [], t') := rfl
        rw [e]
        dsimp only
        have e2 : (pure [o] : PyM σ (List CompOut)) t' = (.ok [o], t') := rfl
        rw [e2]
        dsimp only
        rw [PyM.bind_run, ih]
        rcases runComparison env pe G p n mu sigma a b true Ns t' with ⟨r'', t''⟩
        cases r'' <;> rfl

/-- The files of the figures: two per number of data. -/
def comparisonFiles (save_path : String) (Ns : List ℕ) : List String :=
  (Ns.flatMap fun N => [s!"bip-vs-sip-{N}.png", s!"bip-vs-sip-pf-{N}.png"]).map (Paper.join save_path)

theorem flatMap_casts (Ns : List ℕ) : ((Ns.map fun N : ℕ => (N : ℤ)).flatMap fun N : ℤ => Paper.compFiles N.toNat) =
    Ns.flatMap fun N => [s!"bip-vs-sip-{N}.png", s!"bip-vs-sip-pf-{N}.png"] := by
  rw [List.flatMap_map]
  rfl

theorem comparison_eq {l : ComparisonLine} {p n : ℕ} {mu sigma : ℝ} {a b : ℤ} {Ns : List ℕ}
    (hl : comparisonOptions l = .ok ⟨p, n, mu, sigma, [a, b], Ns.map fun N : ℕ => (N : ℤ)⟩)
    (env : Env) (pe : PlotEnv) (G : Gen σ) (sp : String) {k : Option ℕ} (hk : SeedOk k) (s : σ) :
    comparison env pe G sp (seedArg k) l s = ended ((do
      let os ← runComparison env pe G p n mu sigma a b true Ns
      return (os, comparisonFiles sp Ns) : PyM σ (List CompOut × List String)) (startState G.normal k s)) := by
  unfold comparison
  rw [hl, command_run G hk, PyM.bind_run, PyM.bind_run, comparisonLoop_run, flatMap_casts]
  rfl

/-- **C124, `comparison`.** With an integer power, number of samples, domain and numbers of data, the command runs the
example with the values given — the last one of those that can be given once —, from the generator seeded with
`--seed`, and writes two figures per number of data to `--save-path`. -/
theorem C124_comparison (env : Env) (pe : PlotEnv) (G : Gen σ) (sp : String) {k : Option ℕ} (hk : SeedOk k)
    (ps ns ms ss : List Tok) (p n : ℕ) {tm ts : Tok} {mu sigma : ℝ} (hm : tm.Reads mu) (hs : ts.Reads sigma) (a b : ℤ)
    {Ns : List ℕ} (hN : Ns ≠ []) (s : σ) :
    comparison env pe G sp (seedArg k) ⟨ps ++ [.int p], ns ++ [.int n], ms ++ [tm], ss ++ [ts], [.int a, .int b],
      Ns.map fun N : ℕ => .int N⟩ s = ended ((do
        let os ← runComparison env pe G p n mu sigma a b true Ns
        return (os, comparisonFiles sp Ns) : PyM σ (List CompOut × List String)) (startState G.normal k s)) := by
  refine comparison_eq ?_ env pe G sp hk s
  unfold comparisonOptions
  dsimp only
  rw [single_last, single_last, single_last, single_last, asFloat_reads hm, asFloat_reads hs]
  have h1 : several asInt [-1, 1] [.int a, .int b] = .ok [a, b] := several_ints (l := [a, b]) (by simp) _
  have h2 : several asInt [1, 5, 10, 20] (Ns.map fun N : ℕ => .int N) = .ok (Ns.map fun N : ℕ => (N : ℤ)) := by
    have := several_ints (l := Ns.map fun N : ℕ => (N : ℤ)) (by simpa using hN) [1, 5, 10, 20]
    rwa [List.map_map] at this
  rw [h1, h2]
  rfl

/-- The values an option has when it is not given. -/
def ComparisonLine.filled (l : ComparisonLine) : ComparisonLine where
  power := if l.power.isEmpty then [.int 5] else l.power
  num_samples := if l.num_samples.isEmpty then [.int 1000] else l.num_samples
  mu := if l.mu.isEmpty then [.dec 0.25] else l.mu
  sigma := if l.sigma.isEmpty then [.dec 0.1] else l.sigma
  domain := if l.domain.isEmpty then [.int (-1), .int 1] else l.domain
  n_vals := if l.n_vals.isEmpty then [.int 1, .int 5, .int 10, .int 20] else l.n_vals

theorem single_filled {α : Type} (conv : Tok → Except Exit α) {d : α} {t : Tok} (h : conv t = .ok d) (l : List Tok) :
    single conv d (if l.isEmpty then [t] else l) = single conv d l := by
  cases l with
  | nil => exact h
  | cons x l => rfl

theorem several_filled {α : Type} (conv : Tok → Except Exit α) {d : List α} {ts : List Tok}
    (h : several conv d ts = .ok d) (l : List Tok) :
    several conv d (if l.isEmpty then ts else l) = several conv d l := by
  cases l with
  | nil => exact h
  | cons x l => rfl

/-- Options that are not given have their documented values. -/
theorem C124_comparison_defaults (env : Env) (pe : PlotEnv) (G : Gen σ) (sp : String) (seed : Option ℤ)
    (l : ComparisonLine) : comparison env pe G sp seed l = comparison env pe G sp seed l.filled := by
  unfold comparison
  have e : comparisonOptions l.filled = comparisonOptions l := by
    unfold comparisonOptions ComparisonLine.filled
    dsimp only
    rw [single_filled asInt rfl, single_filled asInt rfl, single_filled asFloat rfl, single_filled asFloat rfl,
      several_filled asInt (ts := [.int (-1), .int 1]) (several_ints (l := [-1, 1]) (by simp) _),
      several_filled asInt (ts := [.int 1, .int 5, .int 10, .int 20])
        (several_ints (l := [1, 5, 10, 20]) (by simp) _)]
  rw [e]

/-- A power, a number of samples, a bound of the domain or a number of data that is not written as an integer is a
usage error: nothing runs. -/
theorem C124_integers (env : Env) (pe : PlotEnv) (G : Gen σ) (sp : String) {k : Option ℕ} (hk : SeedOk k)
    (l : ComparisonLine) {t : Tok} (ht : ∀ z, t ≠ .int z) (h : l.power.getLast? = some t ∨
      l.num_samples.getLast? = some t ∨ t ∈ l.domain ∨ t ∈ l.n_vals) (s : σ) :
    (comparison env pe G sp (seedArg k) l s).1 = .error .usage := by
  have hint : ∀ (d : ℤ) (ts : List Tok), single asInt d ts = .error .usage ∨ ∃ z, single asInt d ts = .ok z := by
    intro d ts
    unfold single
    cases ts.getLast? with
    | none => exact .inr ⟨d, rfl⟩
    | some t => cases t <;> simp [asInt]
  have hfl : ∀ (d : ℝ) (ts : List Tok), single asFloat d ts = .error .usage ∨ ∃ z, single asFloat d ts = .ok z := by
    intro d ts
    unfold single
    cases ts.getLast? with
    | none => exact .inr ⟨d, rfl⟩
    | some t => cases t <;> simp [asFloat]
  have hM : ∀ ts : List Tok, (ts.mapM asInt = .error .usage ∨ ∃ z, ts.mapM asInt = .ok z) ∧
      (t ∈ ts → ts.mapM asInt = .error .usage) := by
    intro ts
    induction ts with
    | nil => exact ⟨.inr ⟨[], rfl⟩, fun h => by cases h⟩
    | cons x ts ih =>
      rw [List.mapM_cons]
      cases x with
      | int z =>
        rcases ih.1 with h1 | ⟨z', h1⟩
        · exact ⟨.inl (by rw [h1]; rfl), fun _ => by rw [h1]; rfl⟩
        · refine ⟨.inr ⟨z :: z', by rw [h1]; rfl⟩, fun hm => ?_⟩
          rcases List.mem_cons.1 hm with rfl | hm
          · exact absurd rfl (ht z)
          · rw [ih.2 hm]; rfl
      | dec x => exact ⟨.inl rfl, fun _ => rfl⟩
      | word x => exact ⟨.inl rfl, fun _ => rfl⟩
  have hS : ∀ (d : List ℤ) (ts : List Tok), (several asInt d ts = .error .usage ∨ ∃ z, several asInt d ts = .ok z) ∧
      (t ∈ ts → several asInt d ts = .error .usage) := by
    intro d ts
    unfold several
    cases ts with
    | nil => exact ⟨.inr ⟨d, rfl⟩, fun h => by cases h⟩
    | cons x ts => exact hM (x :: ts)
  have hL : ∀ (d : ℤ) (ts : List Tok), ts.getLast? = some t → single asInt d ts = .error .usage := by
    intro d ts h
    unfold single
    rw [h]
    cases t with
    | int z => exact absurd rfl (ht z)
    | dec x => rfl
    | word x => rfl
  refine command_usage G hk ?_ _ s
  unfold comparisonOptions
  rcases hint 5 l.power with h1 | ⟨p, h1⟩
  · rw [h1]; rfl
  rcases hint 1000 l.num_samples with h2 | ⟨n, h2⟩
  · rw [h1, h2]; rfl
  rcases hfl 0.25 l.mu with h3 | ⟨m, h3⟩
  · rw [h1, h2, h3]; rfl
  rcases hfl 0.1 l.sigma with h4 | ⟨sg, h4⟩
  · rw [h1, h2, h3, h4]; rfl
  rcases (hS [-1, 1] l.domain).1 with h5 | ⟨d, h5⟩
  · rw [h1, h2, h3, h4, h5]; rfl
  rcases (hS [1, 5, 10, 20] l.n_vals).1 with h6 | ⟨ns, h6⟩
  · rw [h1, h2, h3, h4, h5, h6]; rfl
  exfalso
  rcases h with h | h | h | h
  · rw [hL 5 _ h] at h1; cases h1
  · rw [hL 1000 _ h] at h2; cases h2
  · rw [(hS [-1, 1] _).2 h] at h5; cases h5
  · rw [(hS [1, 5, 10, 20] _).2 h] at h6; cases h6

/-- **The full claim on `-d`**: any bounds `x`, `y` can be given for the domain of possible values; the command then
does not reject the command line. -/
def C124_domain_claim : Prop :=
  ∀ (σ : Type) (env : Env) (pe : PlotEnv) (G : Gen σ) (tx ty : Tok) (x y : ℝ) (s : σ), tx.Reads x → ty.Reads y → x < y →
    (comparison env pe G "." none { domain := [tx, ty] } s).1 ≠ .error .usage

/-- **The claim is false of the code**: the option is declared with a list of integers as its default, so that
`-d 0 -d 0.5` is a usage error. -/
theorem C124_domain_claim_refuted : ¬ C124_domain_claim := by
  intro h
  have h1 := h ℕ (scipyEnv fun _ _ _ => 0) ⟨fun _ _ _ _ _ => .ok (), fun _ => true⟩ compGen (.int 0) (.dec 0.5) _ _ 0
    (.int 0) (.dec 0.5) (by norm_num)
  exact h1 (C124_integers _ _ _ _ (k := none) (fun z hz => by cases hz) _ (t := .dec 0.5) (fun z hz => by cases hz)
    (.inr (.inr (.inl (by simp)))) 0)

theorem options_given {ps ns ms ss : List Tok} {p n : ℤ} {tm ts : Tok} {mu sigma : ℝ} (hm : tm.Reads mu)
    (hs : ts.Reads sigma) {d Ns : List ℤ} (hd : d ≠ []) (hN : Ns ≠ []) :
    comparisonOptions ⟨ps ++ [.int p], ns ++ [.int n], ms ++ [tm], ss ++ [ts], d.map .int, Ns.map .int⟩ =
      .ok ⟨p, n, mu, sigma, d, Ns⟩ := by
  unfold comparisonOptions
  dsimp only
  rw [single_last, single_last, single_last, single_last, asFloat_reads hm, asFloat_reads hs,
    several_ints hd, several_ints hN]
  rfl

/-- Another number of bounds than two: `ValueError` before anything is drawn. -/
theorem C124_bounds (env : Env) (pe : PlotEnv) (G : Gen σ) (sp : String) {k : Option ℕ} (hk : SeedOk k)
    (ps ns ms ss : List Tok) (p : ℕ) (n : ℤ) {tm ts : Tok} {mu sigma : ℝ} (hm : tm.Reads mu) (hs : ts.Reads sigma)
    {d Ns : List ℤ} (hd : d ≠ []) (hN : Ns ≠ []) (h2 : d.length ≠ 2) (s : σ) :
    comparison env pe G sp (seedArg k) ⟨ps ++ [.int p], ns ++ [.int n], ms ++ [tm], ss ++ [ts], d.map .int,
      Ns.map .int⟩ s = (.error (.raised .valueError), startState G.normal k s) := by
  unfold comparison
  rw [options_given hm hs hd hN, command_run G hk]
  obtain ⟨N, Ns, rfl⟩ := List.exists_cons_of_ne_nil hN
  unfold comparisonLoop comparisonPass
  dsimp only
  rw [raiseIf_false (by omega), raiseIf_true h2]
  rfl

/-- A negative number of samples or (first) number of data: `ValueError`. -/
theorem C124_negative (env : Env) (pe : PlotEnv) (G : Gen σ) (sp : String) {k : Option ℕ} (hk : SeedOk k)
    (ps ns ms ss : List Tok) (p : ℕ) (n : ℤ) {tm ts : Tok} {mu sigma : ℝ} (hm : tm.Reads mu) (hs : ts.Reads sigma)
    {d Ns : List ℤ} {N : ℤ} (hd : d ≠ []) (h : n < 0 ∨ N < 0) (s : σ) :
    (comparison env pe G sp (seedArg k) ⟨ps ++ [.int p], ns ++ [.int n], ms ++ [tm], ss ++ [ts], d.map .int,
      (N :: Ns).map .int⟩ s).1 = .error (.raised .valueError) := by
  unfold comparison
  rw [options_given hm hs hd (by simp), command_run G hk]
  unfold comparisonLoop comparisonPass
  dsimp only
  rw [raiseIf_false (by omega)]
  by_cases h2 : d.length ≠ 2
  · rw [raiseIf_true h2]
    rfl
  · rw [raiseIf_false h2, raiseIf_true h]
    rfl

variable {user : ℕ → ℝ → ℕ → ℝ}

/-- **C124, what `comparison` shows**: for a domain that contains [0, 1] and a power of at least 1, the estimates and
figures of C108 for every number of data, in this order. -/
theorem C124_comparison_estimates {pe : PlotEnv} (hpe : ∀ src c R i a, pe.draw src c R i a = .ok ()) (G : Gen σ)
    (hu : ∀ t, 0 ≤ (G.unif t).1 ∧ (G.unif t).1 ≤ 1) (sp : String) {k : Option ℕ} (hk : SeedOk k) {p n : ℕ} (hp : 1 ≤ p)
    (hd : ∀ s, ∃ i j, compLam G n s i ≠ compLam G n s j) {tm ts : Tok} {mu sigma : ℝ} (hm : tm.Reads mu)
    (hs : ts.Reads sigma) (h0 : 0 < sigma) {a b : ℤ} (ha : a ≤ 0) (hb : 1 ≤ b) {Ns : List ℕ} (hne : Ns ≠ [])
    (hNs : ∀ N ∈ Ns, 1 ≤ N) (s : σ) :
    ∃ os t, comparison (scipyEnv user) pe G sp (seedArg k) ⟨[.int p], [.int n], [tm], [ts], [.int a, .int b],
        Ns.map fun N : ℕ => .int N⟩ s = (.ok (os, comparisonFiles sp Ns), t) ∧
      CompAll (scipyEnv user) G p n mu sigma a b Ns (startState G.normal k s) os := by
  obtain ⟨os, h1, h2⟩ := C108_unit_partial (user := user) hpe G hu hp hd mu h0 (a := a) (b := b) (by exact_mod_cast ha)
    (by exact_mod_cast hb) true Ns hNs (startState G.normal k s)
  have e := C124_comparison (scipyEnv user) pe G sp hk [] [] [] [] p n hm hs a b hne s
  rcases hr : runComparison (scipyEnv user) pe G p n mu sigma a b true Ns (startState G.normal k s) with ⟨r, t⟩
  rw [hr] at h1
  change r = _ at h1
  subst h1
  refine ⟨os, t, e.trans ?_, h2⟩
  rw [PyM.bind_run, hr]
  rfl

example : ∃ os t, comparison (scipyEnv user) ⟨fun _ _ _ _ _ => .ok (), fun _ => true⟩ compGen "." (seedArg (some 3))
    ⟨[.int 5], [.int 2], [.dec 0.25], [.dec 0.1], [.int (-1), .int 1], [.int 1, .int 5]⟩ 7 =
      (.ok (os, ["bip-vs-sip-1.png", "bip-vs-sip-pf-1.png", "bip-vs-sip-5.png", "bip-vs-sip-pf-5.png"]), t) ∧
    os.length = 2 := by
  obtain ⟨os, t, h, h'⟩ := C124_comparison_estimates (user := user) (fun _ _ _ _ _ => rfl) compGen compGen_unif "."
    (k := some 3) (pe := ⟨fun _ _ _ _ _ => .ok (), fun _ => true⟩) (fun z hz => by cases hz; norm_num) (p := 5)
    (n := 2) (by norm_num) compGen_differ (.dec 0.25) (.dec 0.1) (by norm_num) (a := -1) (b := 1) (by norm_num)
    (by norm_num) (Ns := [1, 5]) (by simp) (by decide) 7
  refine ⟨os, t, h, ?_⟩
  obtain ⟨o, _, os', rfl, -, h'⟩ := h'
  obtain ⟨o', _, os'', rfl, -, h'⟩ := h'
  cases h'
  rfl

/-! ## `high_dim_linear` -/

/-- **C124, `high_dim_linear`**: the run of C107 with the dimensions given (100 by default), seeded with `--seed` — and
not seeded at all without it. -/
theorem C124_high_dim (G : Gen σ) (svd : (A : Arr2) → SvdOut A.r A.c) {k : Option ℕ} (hk : SeedOk k) (di dO : ℕ) (s : σ) :
    highDimLinear G svd (seedArg k) [.int di] [.int dO] s = ended (runHighDim G svd di dO k (startState G.normal k s)) ∧
    highDimLinear G svd (seedArg k) [] [] s = highDimLinear G svd (seedArg k) [.int 100] [.int 100] s := by
  refine ⟨?_, rfl⟩
  have e : ∀ n : ℕ, size n = .ok n := fun n => (if_neg (by omega)).trans (by simp)
  refine (command_run G hk (o := ((di : ℤ), (dO : ℤ))) _ s).trans ?_
  rw [e, e]
  rfl

/-- With `--seed` the tables do not depend on the state of the generator. -/
theorem C124_high_dim_seeded (G : Gen σ) (svd : (A : Arr2) → SvdOut A.r A.c) {k : ℕ} (hk : k < 2 ^ 32) (di dO : ℕ)
    (s t : σ) : highDimLinear G svd (some k) [.int di] [.int dO] s = highDimLinear G svd (some k) [.int di] [.int dO] t := by
  have hk' : SeedOk (some k) := fun z hz => by cases hz; exact hk
  exact ((C124_high_dim G svd hk' di dO s).1).trans ((C124_high_dim G svd hk' di dO t).1).symm

/-- **The full claim**: without options on the seed the command reproduces the run with the default seed 21 of
`run_high_dim_linear`. -/
def C124_seed_claim : Prop :=
  ∀ (σ : Type) (G : Gen σ) (svd : (A : Arr2) → SvdOut A.r A.c) (_ : ∀ s, 0 ≤ (G.unif s).1)
    (_ : ∀ A : Arr2, IsSvd A.m (svd A)) (n : ℕ) (_ : 0 < n) (s : σ),
    (highDimLinear G svd none [.int n] [.int n] s).1 = (ended (runHighDim G svd n n (some 21) s)).1

/-- A generator: the normal draws are `s, s + 1, …` from the state `s` on. -/
noncomputable def zeroGen : Gen ℕ := ⟨⟨id, fun s => (s, s + 1)⟩, fun s => (1 / 2, s + 1)⟩

/-- **The claim is false of the code**: `None` is passed for the seed, and the run depends on the state of the
generator. -/
theorem C124_seed_claim_refuted : ¬ C124_seed_claim := by
  intro h
  choose svd hsvd using fun A : Arr2 => exists_isSvd A.m
  have hU : ∀ s, 0 ≤ (zeroGen.unif s).1 := fun _ => by simp [zeroGen]
  have h1 := h ℕ zeroGen svd hU hsvd 1 one_pos 0
  rw [show highDimLinear zeroGen svd none [.int (1 : ℕ)] [.int (1 : ℕ)] 0 = _ from
    (C124_high_dim zeroGen svd (k := none) (fun z hz => by cases hz) 1 1 0).1] at h1
  have l0 : hdRef zeroGen 1 1 none 0 = ![2] := by
    funext i
    fin_cases i
    norm_num [hdRef, drawVec, nthDraw, stateAfter, startState, zeroGen]
  have l1 : hdRef zeroGen 1 1 (some 21) 0 = ![23] := by
    funext i
    fin_cases i
    norm_num [hdRef, drawVec, nthDraw, stateAfter, startState, zeroGen]
  have a0 : hdA zeroGen 1 1 none 0 = 0 := by
    ext i j
    norm_num [hdA, drawMat, nthDraw, stateAfter, startState, zeroGen]
  have a1 : (hdA zeroGen 1 1 (some 21) 0).det ≠ 0 := by
    rw [det_fin_one]
    norm_num [hdA, drawMat, nthDraw, stateAfter, startState, zeroGen]
  have n0 : hdRef zeroGen 1 1 none 0 ≠ 0 := fun e => by
    rw [l0] at e
    simpa using congrFun e 0
  have n1 : hdRef zeroGen 1 1 (some 21) 0 ≠ 0 := fun e => by
    rw [l1] at e
    simpa using congrFun e 0
  obtain ⟨D, R, mud, ls, mudR, lsR, r1, c1, -, z1, -⟩ := C107_tables hU hsvd one_ne_zero (some 21) 0 n1
  obtain ⟨v, D', R', -, -, r0, hD, -⟩ := C107_exact hU hsvd one_ne_zero none 0 n0
  have hDD : D' = D := by
    rcases e0 : runHighDim zeroGen svd 1 1 none (startState zeroGen.normal none 0) with ⟨x0, t0⟩
    rcases e1 : runHighDim zeroGen svd 1 1 (some 21) 0 with ⟨x1, t1⟩
    have r0' : x0 = .ok (D', R') := by rw [← r0]; exact (congrArg Prod.fst e0).symm
    have r1' : x1 = .ok (D, R) := by rw [← r1]; exact (congrArg Prod.fst e1).symm
    rw [e0, e1, r0', r1'] at h1
    cases h1
    rfl
  obtain ⟨row, ⟨hk, x, y, z, h3, hrow⟩, hc⟩ := cell_of hD (a := 0) (k := 0) (α := 1) rfl one_pos
  have hz0 : ls 0 = 0 := (z1 a1).2
  have c2 := (c1 0 (by norm_num) 0 one_pos).2.1
  rw [← hDD, hc 2, hrow, hz0] at c2
  have c3 : relDist (hdRef zeroGen 1 1 none 0) z = 0 := by simpa using c2
  have hb := h3.ls_blind (w := ![1]) (by
    rw [a0]
    ext i
    simp [firstRows]) (by simp)
  rw [c3, l0] at hb
  have hpos : (0 : ℝ) < |![1] ⬝ᵥ ![(2 : ℝ)]| / Real.sqrt (sqDist ![(2 : ℝ)] 0) := by
    apply div_pos
    · simp
    · apply Real.sqrt_pos.2
      simp [sqDist]
  linarith

/-! ## `wme_covariance` -/

/-- **C124, `wme_covariance`**: the run of C105 with the values given. -/
theorem C124_wme (G : Gen σ) {k : Option ℕ} (hk : SeedOk k) (di dO : ℕ) {ts : Tok} {c : ℝ} (hc : ts.Reads c)
    {Ns : List ℕ} (hN : Ns ≠ []) (s : σ) :
    wmeCovariance G (seedArg k) [.int di] [.int dO] [ts] (Ns.map fun N : ℕ => .int N) s =
      ended (runWmeCovariance G di dO c Ns k (startState G.normal k s)) ∧
    wmeCovariance G (seedArg k) [] [] [] [] s = wmeCovariance G (seedArg k) [.int 20] [.int 5] [.dec 0.1]
      [.int 10, .int 100, .int 1000, .int 10000] s := by
  constructor
  · have e : ∀ n : ℕ, size n = .ok n := fun n => (if_neg (by omega)).trans (by simp)
    have e' : ∀ l : List ℕ, (l.map fun N : ℕ => (N : ℤ)).mapM dataSize = .ok l := by
      intro l
      induction l with
      | nil => rfl
      | cons n l ih =>
        rw [List.map_cons, List.mapM_cons, ih]
        have : dataSize n = .ok n := (if_neg (by omega)).trans (by simp)
        rw [this]
        rfl
    have h2 : several asInt [10, 100, 1000, 10000] (Ns.map fun N : ℕ => .int N) =
        .ok (Ns.map fun N : ℕ => (N : ℤ)) := by
      have := several_ints (l := Ns.map fun N : ℕ => (N : ℤ)) (by simpa using hN) [10, 100, 1000, 10000]
      rwa [List.map_map] at this
    have h3 : single asFloat 0.1 [ts] = .ok c := (single_last asFloat 0.1 [] ts).trans (asFloat_reads hc)
    unfold wmeCovariance
    rw [h2, h3]
    refine (command_run G hk (o := ((di : ℤ), (dO : ℤ), c, Ns.map fun N : ℕ => (N : ℤ))) _ s).trans ?_
    dsimp only
    rw [e, e, e']
    rfl
  · unfold wmeCovariance
    have h2 : several asInt [10, 100, 1000, 10000] [.int 10, .int 100, .int 1000, .int 10000] =
        .ok [10, 100, 1000, 10000] := several_ints (l := [10, 100, 1000, 10000]) (by simp) _
    rw [h2]
    rfl

/-- With `--seed` the covariances do not depend on the state of the generator. -/
theorem C124_wme_seeded (G : Gen σ) {k : ℕ} (hk : k < 2 ^ 32) (di dO : ℕ) {ts : Tok} {c : ℝ} (hc : ts.Reads c)
    {Ns : List ℕ} (hN : Ns ≠ []) (s t : σ) :
    wmeCovariance G (some k) [.int di] [.int dO] [ts] (Ns.map fun N : ℕ => .int N) s =
      wmeCovariance G (some k) [.int di] [.int dO] [ts] (Ns.map fun N : ℕ => .int N) t := by
  have hk' : SeedOk (some k) := fun z hz => by cases hz; exact hk
  exact ((C124_wme G hk' di dO hc hN s).1).trans ((C124_wme G hk' di dO hc hN t).1).symm

/-! ## `contours` -/

/-- The file holds the problem with these arguments, in any order: matrices as lists of rows, vectors as lists. -/
structure FileHolds (items : List (String × JVal)) (A : Matrix (Fin 1) (Fin 2) ℝ) (b y : Fin 1 → ℝ) (m : Fin 2 → ℝ)
    (S : Matrix (Fin 2) (Fin 2) ℝ) (cov_o : JVal) (α : ℝ) : Prop where
  keys : ∀ p ∈ items, p.1 ∈ ["A", "b", "y", "mean_i", "cov_i", "cov_o", "alpha"]
  distinct : (items.map (·.1)).Nodup
  has_A : ("A", .table [[A 0 0, A 0 1]]) ∈ items
  has_b : ("b", .list [b 0]) ∈ items
  has_y : ("y", .list [y 0]) ∈ items
  has_mean : ("mean_i", .list [m 0, m 1]) ∈ items
  has_cov : ("cov_i", .table [[S 0 0, S 0 1], [S 1 0, S 1 1]]) ∈ items
  has_cov_o : ("cov_o", cov_o) ∈ items
  has_alpha : ("alpha", .num α) ∈ items

theorem mapM_entry {items : List (String × JVal)} {w : JVal → NArr} (h : ∀ p ∈ items, p.2.toArray = .ok (w p.2)) :
    items.mapM entry = .ok (items.map fun p => (p.1, w p.2)) := by
  induction items with
  | nil => rfl
  | cons p l ih =>
    rw [List.mapM_cons, ih fun q hq => h q (by simp [hq])]
    have : entry p = .ok (p.1, w p.2) := by
      unfold entry
      rw [h p (by simp)]
      rfl
    rw [this]
    rfl

theorem lookup_mem {α : Type} {l : List (String × α)} (hl : (l.map (·.1)).Nodup) {k : String} {v : α} (h : (k, v) ∈ l) :
    l.lookup k = some v := by
  induction l with
  | nil => cases h
  | cons p l ih =>
    obtain ⟨k', v'⟩ := p
    rw [List.map_cons, List.nodup_cons] at hl
    rcases List.mem_cons.1 h with e | h
    · cases e
      simp [List.lookup]
    · have hne : (k == k') = false := by
        rw [beq_eq_false_iff_ne]
        intro e
        exact hl.1 (List.mem_map.2 ⟨_, h, e⟩)
      rw [List.lookup, hne]
      exact ih hl.2 h

theorem lookup_map {α β : Type} (w : α → β) (l : List (String × α)) (k : String) :
    (l.map fun p => (p.1, w p.2)).lookup k = (l.lookup k).map w := by
  induction l with
  | nil => rfl
  | cons p l ih =>
    rw [List.map_cons, List.lookup, List.lookup]
    cases k == p.1
    · exact ih
    · rfl

theorem table_ok {l : List (List ℝ)} (h : ∀ r ∈ l, r.length = (l.headD []).length) :
    (JVal.table l).toArray =
      .ok (.mat ⟨l.length, (l.headD []).length, .of fun i j => (l.getD i []).getD j 0⟩) := if_pos h

theorem table12 (A : Matrix (Fin 1) (Fin 2) ℝ) :
    (JVal.table [[A 0 0, A 0 1]]).toArray = .ok (.mat ⟨1, 2, A⟩) := by
  refine (table_ok (by simp)).trans (congrArg (fun M => Except.ok (NArr.mat ⟨1, 2, M⟩)) ?_)
  ext i j
  fin_cases i
  fin_cases j <;> rfl

theorem table22 (S : Matrix (Fin 2) (Fin 2) ℝ) :
    (JVal.table [[S 0 0, S 0 1], [S 1 0, S 1 1]]).toArray = .ok (.mat ⟨2, 2, S⟩) := by
  refine (table_ok (by simp)).trans (congrArg (fun M => Except.ok (NArr.mat ⟨2, 2, M⟩)) ?_)
  ext i j
  fin_cases i <;> fin_cases j <;> rfl

theorem table11 (C : Matrix (Fin 1) (Fin 1) ℝ) : (JVal.table [[C 0 0]]).toArray = .ok (.mat ⟨1, 1, C⟩) := by
  refine (table_ok (by simp)).trans (congrArg (fun M => Except.ok (NArr.mat ⟨1, 1, M⟩)) ?_)
  ext i j
  fin_cases i
  fin_cases j
  rfl

theorem list1 (b : Fin 1 → ℝ) : (JVal.list [b 0]).toArray = .ok (.vec 1 b) := by
  refine congrArg (fun v => Except.ok (NArr.vec 1 v)) ?_
  funext i
  fin_cases i
  rfl

theorem list2 (b : Fin 2 → ℝ) : (JVal.list [b 0, b 1]).toArray = .ok (.vec 2 b) := by
  refine congrArg (fun v => Except.ok (NArr.vec 2 v)) ?_
  funext i
  fin_cases i <;> rfl

/-- The array of a value that has one. -/
noncomputable def arrayOf (v : JVal) : NArr :=
  match v.toArray with
  | .ok a => a
  | .error _ => .scal 0

theorem arrayOf_ok {v : JVal} {a : NArr} (h : v.toArray = .ok a) : arrayOf v = a := by
  unfold arrayOf
  rw [h]

theorem unique_value {α : Type} {l : List (String × α)} (hl : (l.map (·.1)).Nodup) {p : String × α} {k : String} {v : α}
    (hp : p ∈ l) (hk : p.1 = k) (h : (k, v) ∈ l) : p.2 = v := by
  subst hk
  exact Option.some.inj ((lookup_mem hl hp).symm.trans (lookup_mem hl h))

theorem file_args {items : List (String × JVal)} {A : Matrix (Fin 1) (Fin 2) ℝ} {b y : Fin 1 → ℝ} {m : Fin 2 → ℝ}
    {S : Matrix (Fin 2) (Fin 2) ℝ} {cov_o : JVal} {α : ℝ} (h : FileHolds items A b y m S cov_o α) {C : NArr}
    (hC : cov_o.toArray = .ok C) : ∃ l, items.mapM entry = .ok l ∧
      jsonArgs l = .ok ⟨{ A := some (.mat ⟨1, 2, A⟩), b := some (.vec 1 b), y := some (.vec 1 y)
                          mean_i := some (.vec 2 m), cov_i := some ⟨2, 2, S⟩, alpha := some α }, some C⟩ := by
  have hall : ∀ p ∈ items, p.2.toArray = .ok (arrayOf p.2) := by
    intro p hp
    have key : ∀ {v : JVal} {a : NArr}, p.2 = v → v.toArray = .ok a → p.2.toArray = .ok (arrayOf p.2) := by
      intro v a e ha
      rw [e, ha, arrayOf_ok ha]
    have hk := h.keys p hp
    simp only [List.mem_cons, List.not_mem_nil, or_false] at hk
    rcases hk with hk | hk | hk | hk | hk | hk | hk
    · exact key (unique_value h.distinct hp hk h.has_A) (table12 A)
    · exact key (unique_value h.distinct hp hk h.has_b) (list1 b)
    · exact key (unique_value h.distinct hp hk h.has_y) (list1 y)
    · exact key (unique_value h.distinct hp hk h.has_mean) (list2 m)
    · exact key (unique_value h.distinct hp hk h.has_cov) (table22 S)
    · exact key (unique_value h.distinct hp hk h.has_cov_o) hC
    · exact key (unique_value h.distinct hp hk h.has_alpha) (a := .scal α) rfl
  refine ⟨_, mapM_entry hall, ?_⟩
  unfold jsonArgs
  rw [raiseIf_false (by
    rintro ⟨p, hp, hk⟩
    obtain ⟨q, hq, rfl⟩ := List.mem_map.1 hp
    refine hk ?_
    have := h.keys q hq
    simp only [List.mem_cons, List.not_mem_nil, or_false, jsonKeys] at this ⊢
    tauto)]
  simp only [lookup_map, lookup_mem h.distinct h.has_A, lookup_mem h.distinct h.has_b, lookup_mem h.distinct h.has_y,
    lookup_mem h.distinct h.has_mean, lookup_mem h.distinct h.has_cov, lookup_mem h.distinct h.has_cov_o,
    lookup_mem h.distinct h.has_alpha, Option.map_some, arrayOf_ok (table12 A), arrayOf_ok (list1 b),
    arrayOf_ok (list1 y), arrayOf_ok (list2 m), arrayOf_ok (table22 S), arrayOf_ok hC]
  rfl

open Contours in
/-- **C124, `contours`.** A file that holds a problem with one observation, its fields in any order: the command draws
exactly the figures asked for (all without `-p`), of this problem, and saves them to `--save-path`. -/
theorem C124_contours (G : Gen σ) {k : Option ℕ} (hk : SeedOk k) (file : String → Py (List (String × JVal)))
    (sp : String) (fs : List String) (f : String) {items : List (String × JVal)} (hf : file f = .ok items)
    (A : Matrix (Fin 1) (Fin 2) ℝ) (hA : A ≠ 0) (b y : Fin 1 → ℝ) (m : Fin 2 → ℝ) (S : Matrix (Fin 2) (Fin 2) ℝ)
    (hS : S.PosDef) (C : Matrix (Fin 1) (Fin 1) ℝ) (hC : C.PosDef) (α : ℝ) (hα : 0 < α)
    (h : FileHolds items A b y m S (.table [[C 0 0]]) α) (svd1 : (Fin 2 → ℝ) → SvdOut 1 2)
    (hsvd : ∀ r, IsSvd (.of fun _ => r) (svd1 r)) (figs : List String) (s : σ) :
    ∃ out, contours G svd1 file sp (seedArg k) (fs ++ [f]) figs s = (.ok out, startState G.normal k s) ∧
      Api.new A b y m S C α = .ok { out.prob with mud := none, map := none, cov_p := none, ls := none } ∧
      List.Forall₂ (FigureOf A b y m S C α (codeRes A b y) (CodeLine A b y m S C α))
        (sheets.filter fun sh => decide (figs = [] ∨ sh.name ∈ figs ∨ "all" ∈ figs)) out.figs ∧
      out.saved = if sp = "" then [] else
        (sheets.filter fun sh => decide (figs = [] ∨ sh.name ∈ figs ∨ "all" ∈ figs)).map (·.file) := by
  obtain ⟨l, h1, h2⟩ := file_args h (table11 C)
  set names := if figs.isEmpty then ["all"] else figs with hn
  obtain ⟨out, h3, h4, -, h5, h6⟩ := C118_figures A hA b y m S hS C hC α hα svd1 hsvd (some (.names names))
    (decide (sp ≠ ""))
  have hw : (fun sh : Sheet => wanted (some (.names names)) sh.name) =
      fun sh => decide (figs = [] ∨ sh.name ∈ figs ∨ "all" ∈ figs) := by
    funext sh
    rw [Bool.eq_iff_iff, C118_requested, Asked, decide_eq_true_iff, hn]
    cases figs with
    | nil => simp
    | cons x figs => simp
  rw [hw] at h5 h6
  refine ⟨out, ?_, h4, h5, ?_⟩
  · unfold contours
    rw [command_run G hk, List.getLast?_append]
    have e : contoursBody svd1 file sp (some f) names = .ok out := by
      unfold contoursBody
      dsimp only
      rw [hf, Py.ok_bind, h1, Py.ok_bind, h2, Py.ok_bind]
      exact h3
    show ended (PyM.lift (contoursBody svd1 file sp (some f) names) _) = _
    rw [e]
    rfl
  · rw [h6]
    by_cases hsp : sp = "" <;> simp [hsp]

open Contours in
/-- Without a file: the default problem of C118. -/
theorem C124_contours_default (G : Gen σ) {k : Option ℕ} (hk : SeedOk k) (file : String → Py (List (String × JVal)))
    (sp : String) (svd1 : (Fin 2 → ℝ) → SvdOut 1 2) (hsvd : ∀ r, IsSvd (.of fun _ => r) (svd1 r)) (s : σ) :
    ∃ out, contours G svd1 file sp (seedArg k) [] [] s = (.ok out, startState G.normal k s) ∧
      out.prob.mud = some (.col ![0.625, 0.375]) ∧ out.prob.map = some (.col ![0.4375, 0.3125]) ∧
      out.prob.ls = some (.col ![0.5, 0.5]) ∧ out.figs.length = 6 := by
  obtain ⟨out, h1, h2, h3, h4, h5⟩ := C118_default_run svd1 hsvd (some (.names ["all"])) (decide (sp ≠ ""))
  refine ⟨out, ?_, h2, h3, h4, h5⟩
  unfold contours
  rw [command_run G hk]
  show ended (PyM.lift (contoursBody svd1 file sp none ["all"]) _) = _
  have e : contoursBody svd1 file sp none ["all"] = .ok out := by
    have e1 : jsonArgs [] = .ok {} := rfl
    unfold contoursBody
    dsimp only
    rw [Py.ok_bind, show List.mapM entry [] = .ok [] from rfl, Py.ok_bind, e1, Py.ok_bind]
    exact h1
  rw [e]
  rfl

/-- A file that cannot be read, a field that is not one of the arguments, a matrix with rows of different lengths: the
command raises, and nothing is drawn. -/
theorem C124_contours_rejects (G : Gen σ) {k : Option ℕ} (hk : SeedOk k) (file : String → Py (List (String × JVal)))
    (sp : String) (svd1 : (Fin 2 → ℝ) → SvdOut 1 2) (f : String) (figs : List String) (s : σ) :
    (∀ e, file f = .error e →
      contours G svd1 file sp (seedArg k) [f] figs s = (.error (.raised e), startState G.normal k s)) ∧
    (∀ items p, file f = .ok items → p ∈ items → (∀ q ∈ items, ∃ a, q.2.toArray = .ok a) →
      p.1 ∉ ["A", "b", "y", "mean_i", "cov_i", "cov_o", "alpha", "close_fig"] →
      contours G svd1 file sp (seedArg k) [f] figs s = (.error (.raised .typeError), startState G.normal k s)) ∧
    (∀ items key rows, file f = .ok items → (key, JVal.table rows) ∈ items →
      (∃ r ∈ rows, ∃ r' ∈ rows, r.length ≠ r'.length) →
      contours G svd1 file sp (seedArg k) [f] figs s = (.error (.raised .valueError), startState G.normal k s)) := by
  have run : ∀ e, contoursBody svd1 file sp (some f) (if figs.isEmpty then ["all"] else figs) = .error e →
      contours G svd1 file sp (seedArg k) [f] figs s = (.error (.raised e), startState G.normal k s) := by
    intro e he
    unfold contours
    rw [command_run G hk]
    show ended (PyM.lift (contoursBody svd1 file sp (some f) _) _) = _
    rw [he]
    rfl
  refine ⟨fun e he => run _ ?_, fun items p hf hp hall hk => run _ ?_, fun items key rows hf hp hr => run _ ?_⟩
  · unfold contoursBody
    dsimp only
    rw [he]
    rfl
  · have h1 : items.mapM entry = .ok (items.map fun p => (p.1, arrayOf p.2)) := mapM_entry fun q hq => by
      obtain ⟨a, ha⟩ := hall q hq
      rw [ha, arrayOf_ok ha]
    have h2 : jsonArgs (items.map fun p => (p.1, arrayOf p.2)) = .error .typeError := by
      unfold jsonArgs
      rw [raiseIf_true ⟨_, List.mem_map.2 ⟨p, hp, rfl⟩, hk⟩]
      rfl
    unfold contoursBody
    dsimp only
    rw [hf, Py.ok_bind, h1, Py.ok_bind, h2]
    rfl
  · have hbad : (JVal.table rows).toArray = .error .valueError := by
      obtain ⟨r, hr1, r', hr2, hne⟩ := hr
      refine if_neg fun hh => hne ?_
      rw [hh r hr1, hh r' hr2]
    have tot : ∀ v : JVal, v.toArray = .error .valueError ∨ ∃ a, v.toArray = .ok a := by
      intro v
      cases v with
      | num x => exact .inr ⟨_, rfl⟩
      | list l => exact .inr ⟨_, rfl⟩
      | table l =>
        by_cases h : ∀ r ∈ l, r.length = (l.headD []).length
        · exact .inr ⟨_, if_pos h⟩
        · exact .inl (if_neg h)
    have h1 : ∀ l : List (String × JVal), (key, JVal.table rows) ∈ l → l.mapM entry = .error .valueError := by
      intro l
      induction l with
      | nil => intro h; cases h
      | cons q l ih =>
        intro hm
        rw [List.mapM_cons]
        rcases List.mem_cons.1 hm with rfl | hm
        · have he : entry (key, JVal.table rows) = .error .valueError := by
            unfold entry
            dsimp only
            rw [hbad]
            rfl
          rw [he]
          rfl
        · rcases tot q.2 with hq | ⟨a, ha⟩
          · have he : entry q = .error .valueError := by
              unfold entry
              rw [hq]
              rfl
            rw [he]
            rfl
          · have he : entry q = .ok (q.1, a) := by
              unfold entry
              rw [ha]
              rfl
            rw [he, ih hm]
            rfl
    unfold contoursBody
    dsimp only
    rw [hf, Py.ok_bind, h1 items hp]
    rfl

/-- **The full claim on the file**: the data covariance can be given as documented for `run_contours`, as a 1-D array
(`cov_o - 1D array, default = [1]`). -/
def C124_cov_claim : Prop :=
  ∀ (G : Gen ℕ) (file : String → Py (List (String × JVal))) (svd1 : (Fin 2 → ℝ) → SvdOut 1 2)
    (_ : ∀ r, IsSvd (.of fun _ => r) (svd1 r)) (f : String) (items : List (String × JVal))
    (A : Matrix (Fin 1) (Fin 2) ℝ) (_ : A ≠ 0) (b y : Fin 1 → ℝ) (m : Fin 2 → ℝ) (S : Matrix (Fin 2) (Fin 2) ℝ)
    (_ : S.PosDef) (c : ℝ) (_ : 0 < c) (α : ℝ) (_ : 0 < α) (s : ℕ), file f = .ok items →
    FileHolds items A b y m S (.list [c]) α → ∃ out, (contours G svd1 file "." none [f] [] s).1 = .ok out

/-- What happens for every problem with one observation: `IndexError`. -/
theorem C124_cov_list (G : Gen σ) {k : Option ℕ} (hk : SeedOk k) (file : String → Py (List (String × JVal)))
    (sp : String) (svd1 : (Fin 2 → ℝ) → SvdOut 1 2) (f : String) (figs : List String) {items : List (String × JVal)}
    (hf : file f = .ok items) (A : Matrix (Fin 1) (Fin 2) ℝ) (b y : Fin 1 → ℝ) (m : Fin 2 → ℝ)
    (S : Matrix (Fin 2) (Fin 2) ℝ) (c : List ℝ) (α : ℝ) (h : FileHolds items A b y m S (.list c) α) (s : σ) :
    contours G svd1 file sp (seedArg k) [f] figs s = (.error (.raised .indexError), startState G.normal k s) := by
  obtain ⟨l, h1, h2⟩ := file_args h (C := .vec c.length c.get) rfl
  unfold contours
  rw [command_run G hk]
  show ended (PyM.lift (contoursBody svd1 file sp (some f) _) _) = _
  have e : contoursBody svd1 file sp (some f) (if figs.isEmpty then ["all"] else figs) = .error .indexError := by
    unfold contoursBody
    dsimp only
    rw [hf, Py.ok_bind, h1, Py.ok_bind, h2, Py.ok_bind]
    rfl
  rw [e]
  rfl

/-- A file with the default problem, the observation's variance written as `cov_o`. -/
noncomputable def lineFile (cov_o : JVal) : List (String × JVal) :=
  [("A", .table [[1, 1]]), ("b", .list [0]), ("y", .list [1]), ("mean_i", .list [0.25, 0.25]),
   ("cov_i", .table [[1, -0.25], [-0.25, 0.5]]), ("cov_o", cov_o), ("alpha", .num 1)]

theorem lineFile_holds (cov_o : JVal) : FileHolds (lineFile cov_o) !![1, 1] ![0] ![1] ![0.25, 0.25]
    !![1, -0.25; -0.25, 0.5] cov_o 1 where
  keys p hp := by
    simp only [lineFile, List.mem_cons, List.not_mem_nil, or_false] at hp
    rcases hp with rfl | rfl | rfl | rfl | rfl | rfl | rfl <;> simp
  distinct := by simp [lineFile]
  has_A := by simp [lineFile]
  has_b := by simp [lineFile]
  has_y := by simp [lineFile]
  has_mean := by simp [lineFile]
  has_cov := by simp [lineFile]
  has_cov_o := by simp [lineFile]
  has_alpha := by simp [lineFile]

theorem line_ne : (!![1, 1] : Matrix (Fin 1) (Fin 2) ℝ) ≠ 0 := fun h0 => by
  have := congrFun (congrFun h0 0) 0
  simp at this

/-- **The claim is false of the code.** -/
theorem C124_cov_claim_refuted : ¬ C124_cov_claim := by
  intro h
  obtain ⟨svd1, hsvd⟩ := Contours.svd1_exists
  obtain ⟨out, ho⟩ := h compGen (fun _ => .ok (lineFile (.list [1]))) svd1 hsvd "p.json" _ !![1, 1] line_ne ![0] ![1]
    ![0.25, 0.25] !![1, -0.25; -0.25, 0.5] (posDef_fin_two one_pos (by norm_num)) 1 one_pos 1 one_pos 0 rfl
    (lineFile_holds _)
  have e := C124_cov_list compGen (k := none) (fun z hz => by cases hz) (fun _ => .ok (lineFile (.list [1]))) "." svd1
    "p.json" [] rfl !![1, 1] ![0] ![1] ![0.25, 0.25] !![1, -0.25; -0.25, 0.5] [1] 1 (lineFile_holds _) 0
  have e' : (contours compGen svd1 (fun _ => .ok (lineFile (.list [1]))) "." none ["p.json"] [] 0).1 =
      .error (.raised .indexError) := congrArg Prod.fst e
  rw [e'] at ho
  cases ho

/-- The hypotheses are met: a file with a 2-D `cov_o`, two figures asked for. -/
example : ∃ svd1 out, contours compGen svd1 (fun _ => .ok (lineFile (.table [[1]]))) "figs" (seedArg (some 4))
    ["p.json"] ["mud", "map"] 0 = (.ok out, 4) ∧ out.figs.length = 2 ∧
    out.saved = ["classical_solution.png", "consistent_solution.png"] := by
  obtain ⟨svd1, hsvd⟩ := Contours.svd1_exists
  obtain ⟨out, h, -, hF, hs⟩ := C124_contours compGen (k := some 4) (fun z hz => by cases hz; norm_num)
    (fun _ => .ok (lineFile (.table [[1]]))) "figs" [] "p.json" rfl !![1, 1] line_ne ![0] ![1] ![0.25, 0.25]
    !![1, -0.25; -0.25, 0.5] (posDef_fin_two one_pos (by norm_num)) !![1] (posDef_fin_one one_pos) 1
    one_pos (lineFile_holds _) svd1 hsvd ["mud", "map"] 0
  refine ⟨svd1, out, h, ?_, ?_⟩
  · rw [← hF.length_eq]
    decide
  · rw [hs]
    decide

/-! ## `poisson_generate` -/

theorem several_reads {ts : List Tok} {xs d : List ℝ} (h : List.Forall₂ Tok.Reads ts xs) (hne : ts ≠ []) :
    several asFloat d ts = .ok xs := by
  have : ts.mapM asFloat = .ok xs := by
    clear hne
    induction h with
    | nil => rfl
    | cons h1 _ ih =>
      rw [List.mapM_cons, asFloat_reads h1, ih]
      rfl
  unfold several
  rw [if_neg (by simpa using hne), this]

section generate
variable (D : Fenics.Dolfin) (G : Gen σ) (K : Fenics.Disk) (sp : String) {k : Option ℕ} (hk : SeedOk k) (n m : ℕ)
  {tmin tmax tlow thigh : List Tok} {mins maxs low high : List ℝ} (h1 : List.Forall₂ Tok.Reads tmin mins)
  (h2 : List.Forall₂ Tok.Reads tmax maxs) (h3 : List.Forall₂ Tok.Reads tlow low)
  (h4 : List.Forall₂ Tok.Reads thigh high) (n1 : tmin ≠ []) (n2 : tmax ≠ []) (n3 : tlow ≠ []) (n4 : thigh ≠ []) (g : ℤ)
include hk h1 h2 h3 h4 n1 n2 n3 n4

theorem generate_run (s : σ) :
    poissonGenerate D G K sp (seedArg k) (.int n) (.int m) tmin tmax tlow thigh [.int g] s =
      ended (generateBody D G (mkdir K sp) sp k n m mins maxs low high g (startState G.normal k s)) := by
  have e : ∀ n : ℕ, size n = .ok n := fun n => (if_neg (by omega)).trans (by simp)
  unfold poissonGenerate
  rw [several_reads h1 n1, several_reads h2 n2, several_reads h3 n3, several_reads h4 n4]
  refine (command_run G hk (o := (((n : ℤ), (m : ℤ)), (mins, maxs), (low, high), g)) _ s).trans ?_
  dsimp only
  rw [e, e]
  rfl

/-- **C124, `poisson_generate` without FEniCS**: the command returns, saying so; no file is written. -/
theorem C124_generate_without (ha : D.available = false) (s : σ) :
    ∃ K', poissonGenerate D G K sp (seedArg k) (.int n) (.int m) tmin tmax tlow thigh [.int g] s =
      (.ok (.unable, K'), startState G.normal k s) ∧ K'.file = K.file := by
  refine ⟨mkdir K sp, ?_, rfl⟩
  rw [generate_run D G K sp hk n m h1 h2 h3 h4 n1 n2 n3 n4 g s]
  unfold generateBody
  rw [Fenics.C120_errors.1 ha]
  rfl

/-- **C124, `poisson_generate`**: with FEniCS, limits of equal length and sensors in the unit square, the command prints
the path of the file, which holds the data set of C120 for the values given; no other file is changed. -/
theorem C124_generate (ha : D.available = true) (hlen : mins.length = maxs.length)
    (hlow : low.length = 2 ∨ low.length = 1) (hhigh : high.length = 2 ∨ high.length = 1)
    (hG : ∀ t, 0 ≤ (G.unif t).1 ∧ (G.unif t).1 < 1)
    (hbox : ∀ c < 2, 0 ≤ Fenics.bound low c ∧ Fenics.bound low c ≤ Fenics.bound high c ∧ Fenics.bound high c ≤ 1)
    (hD : ∀ b, ∃ u, D.solve b = .ok u ∧ (∀ q ∈ u.nodes, ∃ v, u.value q = .ok v) ∧
      ∀ x y : ℝ, 0 ≤ x → x ≤ 1 → 0 ≤ y → y ≤ 1 → ∃ v, u.value (x, y) = .ok v) (s : σ) :
    ∃ (r : Fenics.Result) (K' : Fenics.Disk) (p : String) (t : σ),
      poissonGenerate D G K sp (seedArg k) (.int n) (.int m) tmin tmax tlow thigh [.int g] s =
        (.ok (.path (some p), K'), t) ∧
      p = s!"{sp}/s{n}_n{m}_d{mins.length}_res" ∧ K'.file p = some (.pickle r.toDs) ∧
      (∀ q, q ≠ p → K'.file q = K.file q) ∧
      Fenics.Generated D G (startState G.normal k s) n m mins maxs low high g r := by
  obtain ⟨out, t, h⟩ := Fenics.C120_returns (K := mkdir K sp) (n := n) (m := m) (gamma := g) (save_path := some sp) ha
    hlen hlow hhigh (by
      intro q hq
      cases hq
      simp [mkdir]) hG hbox hD k (startState G.normal k s)
  obtain ⟨g1, g2, g3, g4, g5, -⟩ := Fenics.C120_generated h
  have g1' : Fenics.Generated D G (startState G.normal k s) n m mins maxs low high g out.res := by
    have e : startState G.uniform k (startState G.normal k s) = startState G.normal k s := by
      cases k <;> rfl
    rwa [e] at g1
  refine ⟨out.res, out.disk, Fenics.resPath sp n m mins.length, t, ?_, ?_, g4 _ g3, ?_, g1'⟩
  · rw [generate_run D G K sp hk n m h1 h2 h3 h4 n1 n2 n3 n4 g s]
    unfold generateBody
    rw [h]
    dsimp only
    rw [g3]
    rfl
  · rfl
  · intro q hq
    refine g5 q ?_
    rw [g3]
    intro e
    exact hq (Option.some.inj e).symm

end generate

/-- `poisson_generate 3 2` with the limits given twice each, in the directory `figs`. -/
example : ∃ (r : Fenics.Result) (K' : Fenics.Disk) (t : ℕ),
    poissonGenerate Fenics.demoDolfin Fenics.demoGen2 Fenics.demoDisk "figs" (seedArg (some 5)) (.int 3) (.int 2)
        [.int (-4), .int (-4)] [.int 0, .int 0] [.int 0, .dec 0.25] [.int 1, .dec 0.5] [.int (-3)] 0 =
      (.ok (.path (some "figs/s3_n2_d2_res"), K'), t) ∧ K'.file "figs/s3_n2_d2_res" = some (.pickle r.toDs) ∧
      r.lam.get [2, 1] = -2 := by
  have hi : ∀ z : ℤ, ∀ x : ℝ, x = z → Tok.Reads (.int z) x := fun z x e => e ▸ .int z
  obtain ⟨r, K', p, t, e, hp, hf, -, hg⟩ := C124_generate Fenics.demoDolfin Fenics.demoGen2 Fenics.demoDisk "figs"
    (k := some 5) (fun z hz => by cases hz; norm_num) 3 2
    (tmin := [.int (-4), .int (-4)]) (tmax := [.int 0, .int 0]) (tlow := [.int 0, .dec 0.25])
    (thigh := [.int 1, .dec 0.5]) (mins := [-4, -4]) (maxs := [0, 0]) (low := [0, 0.25]) (high := [1, 0.5])
    (.cons (hi _ _ (by norm_num)) (.cons (hi _ _ (by norm_num)) .nil))
    (.cons (hi _ _ (by norm_num)) (.cons (hi _ _ (by norm_num)) .nil))
    (.cons (hi _ _ (by norm_num)) (.cons (.dec _) .nil))
    (.cons (hi _ _ (by norm_num)) (.cons (.dec _) .nil))
    (by simp) (by simp) (by simp) (by simp) (-3) rfl rfl (.inl rfl) (.inl rfl)
    (fun t => by constructor <;> (show _; simp [Fenics.demoGen2]; try norm_num))
    (by intro c hc; interval_cases c <;> norm_num [Fenics.bound])
    (fun b => ⟨_, rfl, fun _ _ => ⟨_, rfl⟩, fun _ _ _ _ _ _ => ⟨_, rfl⟩⟩) 0
  have e' : s!"figs/s{3}_n{2}_d{([-4, -4] : List ℝ).length}_res" = "figs/s3_n2_d2_res" := rfl
  have hp' : p = "figs/s3_n2_d2_res" := hp.trans e'
  subst hp'
  refine ⟨r, K', t, by exact_mod_cast e, hf, ?_⟩
  rw [hg.lam 2 (by omega) 1 (by simp)]
  simp [nthDraw, Fenics.demoGen2, Gen.uniform]
  norm_num

/-- **C124, the two commands together**: `poisson_trials` on the path `poisson_generate` printed runs to the end, if
there are at least two samples, parameters and sensors, every limit of the domain is below the other and the data of
the samples are affinely independent enough for the density estimates. -/
theorem C124_pipeline {D : Fenics.Dolfin} {G : Gen σ} {s₀ : σ} {n m : ℕ} {mins maxs low high : List ℝ} {g : ℤ}
    {r : Fenics.Result} (hg : Fenics.Generated D G s₀ n m mins maxs low high g r)
    (hlen : mins.length = maxs.length) {K' : Fenics.Disk} {sp p : String}
    (hp : p = s!"{sp}/s{n}_n{m}_d{mins.length}_res") (hf : K'.file p = some (.pickle r.toDs))
    {τ ρ : Type} (G' : Rng τ) {R : Poisson.PyRandom ρ} (hR : ∀ n s, 0 < n → (R.below n s).1 < n) (X : Prep.Ext)
    (hX : X.Correct) {closest : List ℝ} (hc : 2 ≤ closest.length)
    (hdom : ∀ k < mins.length, mins.getD k 0 < maxs.getD k 0)
    (hn : 2 ≤ n) (hd : 2 ≤ mins.length) (hm : 2 ≤ m) {user : ℕ → ℝ → ℕ → ℝ} {pe : PlotEnv}
    (hdraw : ∀ a c R i n, pe.draw a c R i n = .ok ()) (hind : Poisson.Independent n m r.data)
    (x_range : Arr2) {Ns : List ℕ} (hNs : ∀ N ∈ Ns, 2 ≤ N) (sigma : ℝ) (seed : Option ℕ) (figs : List String)
    (t : τ × ρ) :
    ∃ out t', poissonTrials K'.toFileEnv G' R (Prep.decomp X) (scipyEnv user) pe closest x_range p
      (Ns.map fun N : ℕ => (N : ℤ)) sigma seed figs t = (.ok out, t') := by
  have hp' : p = Fenics.resPath sp n m mins.length := hp
  subst hp'
  have hread := Fenics.read_generated (E := K'.toFileEnv) (mins := mins) hf
  refine C122_trials_returns hread (Fenics.generated_file hlen hg) hR X hX ?_ hn hd hm hc hdraw hind x_range hNs
    sigma seed figs t
  intro j hj
  have hk' : j < (List.zip mins maxs).length := by simp [← hlen, hj]
  obtain ⟨h0, h1⟩ := Fenics.pairsND_get hk'
  rw [Fenics.zip_getD hlen hj] at h0 h1
  have e0 : (Fenics.pairsND (List.zip mins maxs)).get [j, 0] =
      (Fenics.pairsND (List.zip mins maxs)).data.getD (2 * j) 0 := by
    simp [ND.get, ND.offset, Fenics.pairsND, mul_comm]
  have e1 : (Fenics.pairsND (List.zip mins maxs)).get [j, 1] =
      (Fenics.pairsND (List.zip mins maxs)).data.getD (2 * j + 1) 0 := by
    simp [ND.get, ND.offset, Fenics.pairsND, mul_comm]
  rw [hg.domain, ← e0, ← e1, h0, h1]
  exact hdom j hj

/-! ### Further cases meeting the hypotheses -/

/-- C124: `poisson_trials` on what `poisson_generate` wrote. -/
example {user : ℕ → ℝ → ℕ → ℝ} (X : Prep.Ext) (hX : X.Correct) (R : Arr2) (t : ℕ × ℕ) :
    ∃ (K' : Fenics.Disk) (s' : ℕ),
      poissonGenerate Fenics.planeDolfin Fenics.planeGen Fenics.demoDisk "figs" (seedArg (some 5)) (.int 3) (.int 2)
        [.int (-4), .int (-4)] [.int 0, .int 0] [.int 0, .int 0] [.int 1, .int 1] [.int (-3)] 9 =
        (.ok (.path (some "figs/s3_n2_d2_res"), K'), s') ∧
      ∃ out t', poissonTrials K'.toFileEnv Poisson.solG Poisson.solR (Prep.decomp X) (scipyEnv user) Poisson.solPe [0, 0] R
        "figs/s3_n2_d2_res" ([5, 2].map fun N : ℕ => (N : ℤ)) 0.05 none [] t = (.ok out, t') := by
  have hi : ∀ z : ℤ, ∀ x : ℝ, x = z → Tok.Reads (.int z) x := fun z x e => e ▸ .int z
  obtain ⟨r, K', p, s', e, hp, hf, -, hg⟩ := C124_generate Fenics.planeDolfin Fenics.planeGen Fenics.demoDisk "figs"
    (k := some 5) (fun z hz => by cases hz; norm_num) 3 2
    (tmin := [.int (-4), .int (-4)]) (tmax := [.int 0, .int 0]) (tlow := [.int 0, .int 0])
    (thigh := [.int 1, .int 1]) (mins := [-4, -4]) (maxs := [0, 0]) (low := [0, 0]) (high := [1, 1])
    (.cons (hi _ _ (by norm_num)) (.cons (hi _ _ (by norm_num)) .nil))
    (.cons (hi _ _ (by norm_num)) (.cons (hi _ _ (by norm_num)) .nil))
    (.cons (hi _ _ (by norm_num)) (.cons (hi _ _ (by norm_num)) .nil))
    (.cons (hi _ _ (by norm_num)) (.cons (hi _ _ (by norm_num)) .nil))
    (by simp) (by simp) (by simp) (by simp) (-3) rfl rfl (.inl rfl) (.inl rfl) Fenics.planeGen_unif
    (by intro c hc; interval_cases c <;> norm_num [Fenics.bound]) Fenics.plane_solve 9
  have e' : s!"figs/s{3}_n{2}_d{([-4, -4] : List ℝ).length}_res" = "figs/s3_n2_d2_res" := rfl
  have hp' : p = "figs/s3_n2_d2_res" := hp.trans e'
  subst hp'
  exact ⟨K', s', by exact_mod_cast e, C124_pipeline hg rfl hp hf Poisson.solG Poisson.solR_lt X hX (by simp)
    (by intro k hk; rcases k with _ | _ | k <;> simp at hk ⊢) (by norm_num) (by simp) le_rfl
    (fun _ _ _ _ _ => rfl) (Fenics.plane_indep hg) R (by simp) 0.05 none [] t⟩

/-- C124: a negative seed; three bounds; a negative number of data. -/
example {α β : Type} (G : Gen ℕ) (o : Except Exit β) (body : Option ℕ → β → PyM ℕ α) :
    command G (some (-1)) o body 5 = (.error (.raised .valueError), 5) :=
  C124_seed_range G (.inl (by norm_num)) o body 5

example (env : Env) (pe : PlotEnv) (G : Gen ℕ) : comparison env pe G "." none
    ⟨[.int 5], [.int 100], [.dec 0.25], [.dec 0.1], [.int (-1), .int 1, .int 2], [.int 1]⟩ 7 =
      (.error (.raised .valueError), 7) :=
  C124_bounds env pe G "." (k := none) (fun z hz => by cases hz) [] [] [] [] 5 100 (.dec 0.25) (.dec 0.1)
    (d := [-1, 1, 2]) (Ns := [1]) (by simp) (by simp) (by simp) 7

example (env : Env) (pe : PlotEnv) (G : Gen ℕ) : (comparison env pe G "." none
    ⟨[.int 5], [.int 100], [.dec 0.25], [.dec 0.1], [.int (-1), .int 1], [.int (-3), .int 1]⟩ 7).1 =
      .error (.raised .valueError) :=
  C124_negative env pe G "." (k := none) (fun z hz => by cases hz) [] [] [] [] 5 100 (.dec 0.25) (.dec 0.1)
    (d := [-1, 1]) (N := -3) (Ns := [1]) (by simp) (.inr (by norm_num)) 7

/-- C124: `wme_covariance` with values given. -/
example (G : Gen ℕ) : wmeCovariance G none [.int 4] [.int 2] [.dec 0.5] [.int 10, .int 20] 3 =
    ended (runWmeCovariance G 4 2 0.5 [10, 20] none 3) :=
  (C124_wme G (k := none) (fun z hz => by cases hz) 4 2 (.dec 0.5) (Ns := [10, 20]) (by simp) 3).1

/-- C124: a file with a key that is no argument of `run_contours`. -/
example (G : Gen ℕ) (svd1 : (Fin 2 → ℝ) → SvdOut 1 2) : contours G svd1 (fun _ => .ok [("B", .num 1)]) "." none ["f"] [] 3 =
    (.error (.raised .typeError), 3) :=
  (C124_contours_rejects G (k := none) (fun z hz => by cases hz) (fun _ => .ok [("B", .num 1)]) "." svd1 "f" [] 3).2.1
    _ ("B", .num 1) rfl (by simp) (by intro q hq; obtain rfl := List.mem_singleton.1 hq; exact ⟨_, rfl⟩) (by decide)

end Cli

end Verif
