import Verif.Props.Boundary
import Verif.Props.ExamplesLinear
import Verif.Props.PoissonScipy

/-!
# C120, C121: data sets generated with FEniCS
-/

namespace Verif

namespace Fenics

open STP SpecST Poisson

variable {σ ρ : Type}

/-! ## Specification -/

/-- Bound of column `c`: a single number bounds all columns. -/
def bound (l : List ℝ) (c : ℕ) : ℝ := if l.length = 1 then l.getD 0 0 else l.getD c 0

/-- The point of row `j` of a table with two columns. -/
def pointAt (A : ND) (j : ℕ) : ℝ × ℝ := (A.get [j, 0], A.get [j, 1])

/-- What a data set generated from the generator state `s` contains. -/
structure Generated (D : Dolfin) (G : Gen σ) (s : σ) (n m : ℕ) (mins maxs low high : List ℝ) (gamma : ℝ)
    (r : Result) : Prop where
  /-- Sensors: uniform in their box, from the first `2 m` draws. -/
  sensors_shape : r.sensors.shape = [m, 2]
  sensors : ∀ j < m, ∀ c < 2, r.sensors.get [j, c] =
    bound low c + (bound high c - bound low c) * nthDraw G.uniform s (2 * j + c)
  /-- Samples: uniform in the domain, from the following draws. -/
  lam_shape : r.lam.shape = [n, mins.length]
  lam : ∀ i < n, ∀ k < mins.length, r.lam.get [i, k] =
    mins.getD k 0 + (maxs.getD k 0 - mins.getD k 0) *
      nthDraw G.uniform s (2 * m + (i * mins.length + k))
  /-- Data: the solution for the boundary values of sample `i`, at sensor `j`. -/
  data_shape : r.data.shape = [n, m]
  data : ∀ i < n, ∃ u, D.solve (boundary (-3) (some ((List.range mins.length).map fun k => r.lam.get [i, k]))) = .ok u ∧
    ∀ j < m, u.value (pointAt r.sensors j) = .ok (r.data.get [i, j])
  /-- True values: the solution for the true boundary condition, at the sensors and on its mesh. -/
  tv_shape : r.true_vals.shape = [m, 1]
  truth : ∃ u, D.solve (boundary gamma none) = .ok u ∧
    (∀ j < m, u.value (pointAt r.sensors j) = .ok (r.true_vals.get [j, 0])) ∧
    r.u.map (fun p => (p.1, p.2.1)) = u.nodes ∧ ∀ p ∈ r.u, u.value (p.1, p.2.1) = .ok p.2.2
  domain : r.domain = List.zip mins maxs

/-! ## Proof -/

theorem bounds_ok {l : List ℝ} {d : ℕ} {l' : List ℝ} (h : bounds l d = .ok l') :
    (l.length = d ∨ l.length = 1) ∧ ∀ c < d, l'.getD c 0 = bound l c := by
  unfold bounds at h
  unfold bound
  by_cases h1 : l.length = d
  · rw [if_pos h1] at h
    cases h
    refine ⟨.inl h1, fun c hc => ?_⟩
    by_cases h2 : l.length = 1
    · rw [if_pos h2, show c = 0 by omega]
    · rw [if_neg h2]
  · rw [if_neg h1] at h
    by_cases h2 : l.length = 1
    · rw [if_pos h2] at h
      cases h
      refine ⟨.inr h2, fun c hc => ?_⟩
      rw [if_pos h2]
      simp [List.getD_eq_getElem?_getD, hc]
    · rw [if_neg h2] at h
      cases h

theorem bounds_exists {l : List ℝ} {d : ℕ} (h : l.length = d ∨ l.length = 1) : ∃ l', bounds l d = .ok l' := by
  unfold bounds
  by_cases h1 : l.length = d
  · exact ⟨_, if_pos h1⟩
  · rw [if_neg h1]
    exact ⟨_, if_pos (h.resolve_left h1)⟩

theorem bounds_error {l : List ℝ} {d : ℕ} (h : ¬ (l.length = d ∨ l.length = 1)) :
    bounds l d = .error .valueError := by
  push Not at h
  unfold bounds
  rw [if_neg h.1, if_neg h.2]

theorem uniform_ok (G : Gen σ) {low high : List ℝ} {n d : ℕ} (hl : low.length = d ∨ low.length = 1)
    (hh : high.length = d ∨ high.length = 1) (s : σ) :
    ∃ A, uniform G low high n d s = (.ok A, stateAfter G.uniform s (n * d)) ∧ A.shape = [n, d] ∧
      ∀ i < n, ∀ c < d, A.get [i, c] =
        bound low c + (bound high c - bound low c) * nthDraw G.uniform s (i * d + c) := by
  obtain ⟨lo, hlo⟩ := bounds_exists hl
  obtain ⟨hi, hhi⟩ := bounds_exists hh
  refine ⟨scaled lo hi ((List.range (n * d)).map (nthDraw G.uniform s)) n d, ?_, rfl, ?_⟩
  · unfold uniform
    rw [hlo, PyM.lift_ok_bind, hhi, PyM.lift_ok_bind, take_bind_run]
    rfl
  · intro i hi' c hc
    have hlt : i * d + c < n * d := by
      calc i * d + c < (i + 1) * d := by rw [Nat.add_mul]; omega
        _ ≤ n * d := Nat.mul_le_mul_right _ hi'
    rw [scaled, ND.get_ofFn (by simp [ND.InB, hi', hc])]
    simp only [List.getD_cons_zero, List.getD_cons_succ]
    rw [getD_draws _ _ hlt, (bounds_ok hlo).2 c hc, (bounds_ok hhi).2 c hc]

theorem uniform_inv {G : Gen σ} {low high : List ℝ} {n d : ℕ} {s s' : σ} {A : ND}
    (h : uniform G low high n d s = (.ok A, s')) :
    (low.length = d ∨ low.length = 1) ∧ (high.length = d ∨ high.length = 1) := by
  unfold uniform at h
  by_cases hl : low.length = d ∨ low.length = 1
  · by_cases hh : high.length = d ∨ high.length = 1
    · exact ⟨hl, hh⟩
    · obtain ⟨lo, hlo⟩ := bounds_exists hl
      rw [hlo, PyM.lift_ok_bind, bounds_error hh] at h
      cases (Prod.mk.inj h).1
  · rw [bounds_error hl] at h
    cases (Prod.mk.inj h).1

theorem uniform_error {G : Gen σ} {low high : List ℝ} {n d : ℕ} {s : σ}
    (h : ¬ ((low.length = d ∨ low.length = 1) ∧ (high.length = d ∨ high.length = 1))) :
    uniform G low high n d s = (.error .valueError, s) := by
  unfold uniform
  by_cases hl : low.length = d ∨ low.length = 1
  · obtain ⟨lo, hlo⟩ := bounds_exists hl
    rw [hlo, PyM.lift_ok_bind, bounds_error fun hh => h ⟨hl, hh⟩]
    rfl
  · rw [bounds_error hl]
    rfl

theorem pointsOf_eq {A : ND} {m : ℕ} (h : A.shape = [m, 2]) : pointsOf A = (List.range m).map (pointAt A) := by
  unfold pointsOf
  rw [h]
  rfl

theorem rowOf_eq {A : ND} {n d : ℕ} (h : A.shape = [n, d]) (i : ℕ) :
    rowOf A i = (List.range d).map fun k => A.get [i, k] := by
  unfold rowOf
  rw [h]
  rfl

theorem tableOf_get {n m : ℕ} {rows : List (List ℝ)} {i j : ℕ} (hi : i < n) (hj : j < m) :
    (tableOf n m rows).get [i, j] = (rows.getD i []).getD j 0 := by
  rw [tableOf, ND.get_ofFn (by simp [ND.InB, hi, hj])]
  rfl

theorem forall₂_range {β : Type} {m : ℕ} {R : ℕ → β → Prop} {l : List β} (d : β)
    (h : List.Forall₂ R (List.range m) l) : l.length = m ∧ ∀ j < m, R j (l.getD j d) := by
  have hl : l.length = m := by simpa using h.length_eq.symm
  refine ⟨hl, fun j hj => ?_⟩
  have := (List.forall₂_iff_get.1 h).2 j (by simpa using hj) (by omega)
  simp only [List.get_eq_getElem, List.getElem_range] at this
  rw [List.getD_eq_getElem?_getD, List.getElem?_eq_getElem (by omega)]
  exact this

/-- The values of a surface at the points of a table. -/
theorem values_spec {u : Surface} {A : ND} {m : ℕ} (h : A.shape = [m, 2]) {l : List ℝ}
    (hl : (pointsOf A).mapM u.value = .ok l) :
    l.length = m ∧ ∀ j < m, u.value (pointAt A j) = .ok (l.getD j 0) := by
  have := mapM_forall₂ hl
  rw [pointsOf_eq h, List.forall₂_map_left_iff] at this
  exact forall₂_range 0 this

theorem nodes_spec {f : ℝ × ℝ → Py ℝ} {nodes : List (ℝ × ℝ)} {l : List (ℝ × ℝ × ℝ)}
    (h : List.Forall₂ (fun a b => (b.1, b.2.1) = a ∧ f (b.1, b.2.1) = .ok b.2.2) nodes l) :
    l.map (fun p => (p.1, p.2.1)) = nodes ∧ ∀ p ∈ l, f (p.1, p.2.1) = .ok p.2.2 := by
  induction h with
  | nil => exact ⟨rfl, by simp⟩
  | cons h1 _ ih =>
    refine ⟨by rw [List.map_cons, ih.1, h1.1], ?_⟩
    intro p hp
    rcases List.mem_cons.1 hp with rfl | hp
    · exact h1.2
    · exact ih.2 p hp

theorem simulate_spec {D : Dolfin} {mins maxs : List ℝ} {gamma : ℝ} {n m d : ℕ} {sensors lams : ND} {r : Result}
    (hs : sensors.shape = [m, 2]) (hl : lams.shape = [n, d])
    (h : simulateAll D mins maxs gamma n m sensors lams = .ok r) :
    r.sensors = sensors ∧ r.lam = lams ∧ r.domain = List.zip mins maxs ∧ r.data.shape = [n, m] ∧
    r.true_vals.shape = [m, 1] ∧
    (∀ i < n, ∃ u, D.solve (boundary (-3) (some ((List.range d).map fun k => lams.get [i, k]))) = .ok u ∧
      ∀ j < m, u.value (pointAt sensors j) = .ok (r.data.get [i, j])) ∧
    ∃ u, D.solve (boundary gamma none) = .ok u ∧
      (∀ j < m, u.value (pointAt sensors j) = .ok (r.true_vals.get [j, 0])) ∧
      r.u.map (fun p => (p.1, p.2.1)) = u.nodes ∧ ∀ p ∈ r.u, u.value (p.1, p.2.1) = .ok p.2.2 := by
  unfold simulateAll at h
  obtain ⟨rows, hrows, h⟩ := Py.bind_eq_ok.1 h
  obtain ⟨t, ht, h⟩ := Py.bind_eq_ok.1 h
  obtain ⟨tv, htv, h⟩ := Py.bind_eq_ok.1 h
  obtain ⟨nodes, hnodes, h⟩ := Py.bind_eq_ok.1 h
  cases h
  refine ⟨rfl, rfl, rfl, rfl, rfl, ?_, t, ht, ?_, ?_⟩
  · intro i hi
    have hr := (forall₂_range ([] : List ℝ) (mapM_forall₂ hrows)).2 i hi
    unfold simRow at hr
    obtain ⟨u, hu, hr⟩ := Py.bind_eq_ok.1 hr
    rw [rowOf_eq hl] at hu
    refine ⟨u, hu, fun j hj => ?_⟩
    rw [(values_spec hs hr).2 j hj, tableOf_get hi hj]
  · intro j hj
    obtain ⟨h1, h2⟩ := values_spec hs htv
    rw [h2 j hj, tableOf_get hj (by omega)]
    simp [List.getD_eq_getElem?_getD, h1, hj]
  · have hF := mapM_forall₂ hnodes
    have key : List.Forall₂ (fun a b => (b.1, b.2.1) = a ∧ t.value (b.1, b.2.1) = .ok b.2.2) t.nodes nodes := by
      refine hF.imp fun a b hab => ?_
      unfold nodeRow at hab
      obtain ⟨v, hv, hab⟩ := Py.bind_eq_ok.1 hab
      cases hab
      exact ⟨rfl, hv⟩
    exact nodes_spec key

theorem stateAfter_add (G : Rng σ) (s : σ) (a : ℕ) : ∀ b, stateAfter G (stateAfter G s a) b = stateAfter G s (a + b)
  | 0 => rfl
  | b + 1 => by
    show (G.draw _).2 = (G.draw _).2
    rw [stateAfter_add G s a b]
    rfl

theorem nthDraw_add (G : Rng σ) (s : σ) (a b : ℕ) : nthDraw G (stateAfter G s a) b = nthDraw G s (a + b) := by
  unfold nthDraw
  rw [stateAfter_add]

section
variable {D : Dolfin} {G : Gen σ} {K : Disk} {n m : ℕ} {mins maxs low high : List ℝ} {gamma : ℝ}
  {save_path : Option String} {seed : Option ℕ} {s s' : σ} {out : Out}

/-- The steps of a run that gets to the simulations. -/
theorem run_eq (ha : D.available = true) (hlen : mins.length = maxs.length)
    (hlow : low.length = 2 ∨ low.length = 1) (hhigh : high.length = 2 ∨ high.length = 1) :
    ∃ sensors lams, sensors.shape = [m, 2] ∧ lams.shape = [n, mins.length] ∧
      (∀ j < m, ∀ c < 2, sensors.get [j, c] = bound low c + (bound high c - bound low c) *
        nthDraw G.uniform (startState G.uniform seed s) (2 * j + c)) ∧
      (∀ i < n, ∀ k < mins.length, lams.get [i, k] = mins.getD k 0 + (maxs.getD k 0 - mins.getD k 0) *
        nthDraw G.uniform (startState G.uniform seed s) (2 * m + (i * mins.length + k))) ∧
      runFenics D G K n m mins maxs low high gamma save_path seed s =
        ((simulateAll D mins maxs gamma n m sensors lams >>= fun r =>
            save K save_path n m mins.length r >>= fun p => (.ok ⟨r, p.1, p.2⟩ : Py Out)),
          stateAfter G.uniform (startState G.uniform seed s) (2 * m + n * mins.length)) := by
  obtain ⟨A, hA, hAs, hAv⟩ := uniform_ok G (n := m) hlow hhigh (startState G.uniform seed s)
  obtain ⟨B, hB, hBs, hBv⟩ := uniform_ok G (n := n) (low := mins) (high := maxs) (d := mins.length) (.inl rfl)
    (.inl hlen.symm) (stateAfter G.uniform (startState G.uniform seed s) (m * 2))
  have hb : ∀ l : List ℝ, l.length = mins.length → ∀ k < mins.length, bound l k = l.getD k 0 := by
    intro l hl k hk
    unfold bound
    by_cases h1 : l.length = 1
    · rw [if_pos h1, show k = 0 by omega]
    · rw [if_neg h1]
  refine ⟨A, B, hAs, hBs, ?_, ?_, ?_⟩
  · intro j hj c hc
    rw [hAv j hj c hc, mul_comm j 2]
  · intro i hi k hk
    rw [hBv i hi k hk, nthDraw_add, hb _ rfl k hk, hb _ hlen.symm k hk, mul_comm m 2]
  · unfold runFenics
    rw [raiseIf_false (by simp [ha]), PyM.lift_ok_bind, reseed_bind_run, raiseIf_false (by simp [hlen]),
      PyM.lift_ok_bind, PyM.bind_run, hA]
    dsimp only
    rw [PyM.bind_run, hB]
    dsimp only
    rw [stateAfter_add, mul_comm m 2]
    cases simulateAll D mins maxs gamma n m A B with
    | error e => rfl
    | ok r =>
      rw [PyM.lift_ok_bind, Py.ok_bind]
      cases save K save_path n m mins.length r with
      | error e => rfl
      | ok p => rfl

/-- **C120, errors.** Without FEniCS nothing happens but `ModuleNotFoundError`; bounds of different lengths,
and bounds of sensors with more than two numbers, raise `ValueError`, and nothing is drawn. -/
theorem C120_errors :
    (D.available = false → runFenics D G K n m mins maxs low high gamma save_path seed s =
      (.error .moduleNotFoundError, s)) ∧
    (D.available = true → mins.length ≠ maxs.length →
      runFenics D G K n m mins maxs low high gamma save_path seed s =
        (.error .valueError, startState G.uniform seed s)) ∧
    (D.available = true → mins.length = maxs.length →
      ¬ ((low.length = 2 ∨ low.length = 1) ∧ (high.length = 2 ∨ high.length = 1)) →
      runFenics D G K n m mins maxs low high gamma save_path seed s =
        (.error .valueError, startState G.uniform seed s)) := by
  refine ⟨fun h => ?_, fun ha h => ?_, fun ha hl h => ?_⟩
  · unfold runFenics
    rw [raiseIf_true (by simp [h])]
    rfl
  · unfold runFenics
    rw [raiseIf_false (by simp [ha]), PyM.lift_ok_bind, reseed_bind_run, raiseIf_true (by simp [h])]
    rfl
  · unfold runFenics
    rw [raiseIf_false (by simp [ha]), PyM.lift_ok_bind, reseed_bind_run, raiseIf_false (by simp [hl]),
      PyM.lift_ok_bind, PyM.bind_run, uniform_error h]

/-- **C120.** What `run_fenics` returns is the data set generated from the generator's state (that of the
seed, if given); `2 m + n d` numbers are drawn; the data set is written to one file, whose path is returned,
and no other file changes; without a path no file changes. -/
theorem C120_generated (h : runFenics D G K n m mins maxs low high gamma save_path seed s = (.ok out, s')) :
    Generated D G (startState G.uniform seed s) n m mins maxs low high gamma out.res ∧
    s' = stateAfter G.uniform (startState G.uniform seed s) (2 * m + n * mins.length) ∧
    out.path = save_path.map (fun sp => resPath sp n m mins.length) ∧
    (∀ p, out.path = some p → out.disk.file p = some (.pickle out.res.toDs)) ∧
    (∀ q, out.path ≠ some q → out.disk.file q = K.file q) ∧ out.disk.xarray = K.xarray := by
  have ha : D.available = true := by
    by_contra hc
    rw [C120_errors.1 (by simpa using hc)] at h
    cases (Prod.mk.inj h).1
  have hl : mins.length = maxs.length := by
    by_contra hc
    rw [C120_errors.2.1 ha hc] at h
    cases (Prod.mk.inj h).1
  have hb : (low.length = 2 ∨ low.length = 1) ∧ (high.length = 2 ∨ high.length = 1) := by
    by_contra hc
    rw [C120_errors.2.2 ha hl hc] at h
    cases (Prod.mk.inj h).1
  obtain ⟨A, B, hAs, hBs, hAv, hBv, e⟩ := run_eq (G := G) (K := K) (n := n) (m := m) (gamma := gamma)
    (save_path := save_path) (seed := seed) (s := s) ha hl hb.1 hb.2
  rw [e] at h
  obtain ⟨h1, h2⟩ := Prod.mk.inj h
  obtain ⟨r, hr, h1⟩ := Py.bind_eq_ok.1 h1
  obtain ⟨p, hp, h1⟩ := Py.bind_eq_ok.1 h1
  cases h1
  obtain ⟨e1, e2, e3, e4, e5, e6, e7⟩ := simulate_spec hAs hBs hr
  refine ⟨⟨?_, ?_, ?_, ?_, e4, ?_, e5, ?_, e3⟩, h2.symm, ?_⟩
  · rw [e1]; exact hAs
  · rw [e1]; exact hAv
  · rw [e2]; exact hBs
  · rw [e2]; exact hBv
  · rw [e2, e1]; exact e6
  · rw [e1]; exact e7
  · cases save_path with
    | none =>
      cases hp
      exact ⟨rfl, fun p hp => (by cases hp), fun _ _ => rfl, rfl⟩
    | some sp =>
      unfold save at hp
      obtain ⟨K', hK, hp⟩ := Py.bind_eq_ok.1 hp
      cases hp
      unfold Disk.write at hK
      obtain ⟨-, -, hK⟩ := Py.bind_eq_ok.1 hK
      cases hK
      refine ⟨rfl, ?_, ?_, rfl⟩
      · rintro p hp
        cases hp
        exact if_pos rfl
      · intro q hq
        exact if_neg fun hc => hq (by rw [hc])

/-- **C120, the samples lie in the domain and the sensors in their box**, for a generator of numbers in
`[0, 1)`. -/
theorem C120_inside (hG : ∀ t, 0 ≤ (G.unif t).1 ∧ (G.unif t).1 < 1)
    (h : runFenics D G K n m mins maxs low high gamma save_path seed s = (.ok out, s')) :
    (∀ k < mins.length, mins.getD k 0 ≤ maxs.getD k 0 → ∀ i < n,
      mins.getD k 0 ≤ out.res.lam.get [i, k] ∧ out.res.lam.get [i, k] ≤ maxs.getD k 0) ∧
    (∀ c < 2, bound low c ≤ bound high c → ∀ j < m,
      bound low c ≤ out.res.sensors.get [j, c] ∧ out.res.sensors.get [j, c] ≤ bound high c) := by
  have hg := (C120_generated h).1
  have key : ∀ a b : ℝ, a ≤ b → ∀ k, a ≤ a + (b - a) * nthDraw G.uniform (startState G.uniform seed s) k ∧
      a + (b - a) * nthDraw G.uniform (startState G.uniform seed s) k ≤ b := by
    intro a b hab k
    obtain ⟨h0, h1⟩ := hG (stateAfter G.uniform (startState G.uniform seed s) k)
    change 0 ≤ nthDraw G.uniform (startState G.uniform seed s) k at h0
    change nthDraw G.uniform (startState G.uniform seed s) k < 1 at h1
    constructor <;> nlinarith
  constructor
  · intro k hk hle i hi
    rw [hg.lam i hi k hk]
    exact key _ _ hle _
  · intro c hc hle j hj
    rw [hg.sensors j hj c hc]
    exact key _ _ hle _

/-- **C120, it returns** when FEniCS is installed, the bounds match, the directory exists, and the solver
solves the problems drawn with surfaces defined at the sensors and on their mesh: in particular when it
solves every problem with surfaces defined on the unit square, and the sensors are drawn there. -/
theorem C120_returns (ha : D.available = true) (hlen : mins.length = maxs.length)
    (hlow : low.length = 2 ∨ low.length = 1) (hhigh : high.length = 2 ∨ high.length = 1)
    (hdir : ∀ sp ∈ save_path, K.dir sp = true) (hG : ∀ t, 0 ≤ (G.unif t).1 ∧ (G.unif t).1 < 1)
    (hbox : ∀ c < 2, 0 ≤ bound low c ∧ bound low c ≤ bound high c ∧ bound high c ≤ 1)
    (hD : ∀ b, ∃ u, D.solve b = .ok u ∧ (∀ q ∈ u.nodes, ∃ v, u.value q = .ok v) ∧
      ∀ x y : ℝ, 0 ≤ x → x ≤ 1 → 0 ≤ y → y ≤ 1 → ∃ v, u.value (x, y) = .ok v) (seed : Option ℕ) (s : σ) :
    ∃ out s', runFenics D G K n m mins maxs low high gamma save_path seed s = (.ok out, s') := by
  obtain ⟨A, B, hAs, hBs, hAv, hBv, e⟩ := run_eq (G := G) (K := K) (n := n) (m := m) (gamma := gamma)
    (save_path := save_path) (seed := seed) (s := s) ha hlen hlow hhigh
  have hin : ∀ j < m, ∀ c < 2, 0 ≤ A.get [j, c] ∧ A.get [j, c] ≤ 1 := by
    intro j hj c hc
    rw [hAv j hj c hc]
    obtain ⟨h0, h1⟩ := hG (stateAfter G.uniform (startState G.uniform seed s) (2 * j + c))
    change 0 ≤ nthDraw G.uniform (startState G.uniform seed s) (2 * j + c) at h0
    change nthDraw G.uniform (startState G.uniform seed s) (2 * j + c) < 1 at h1
    obtain ⟨b0, b1, b2⟩ := hbox c hc
    constructor <;> nlinarith
  have hval : ∀ u : Surface, (∀ x y : ℝ, 0 ≤ x → x ≤ 1 → 0 ≤ y → y ≤ 1 → ∃ v, u.value (x, y) = .ok v) →
      ∃ l, (pointsOf A).mapM u.value = .ok l := by
    intro u hu
    refine mapM_exists fun q hq => ?_
    rw [pointsOf_eq hAs] at hq
    obtain ⟨j, hj, rfl⟩ := List.mem_map.1 hq
    have hj := List.mem_range.1 hj
    exact hu _ _ (hin j hj 0 (by omega)).1 (hin j hj 0 (by omega)).2 (hin j hj 1 (by omega)).1
      (hin j hj 1 (by omega)).2
  obtain ⟨rows, hrows⟩ : ∃ rows, (List.range n).mapM (simRow D B (pointsOf A)) = .ok rows := by
    refine mapM_exists fun i _ => ?_
    obtain ⟨u, hu, -, hv⟩ := hD (boundary (-3) (some (rowOf B i)))
    obtain ⟨l, hl⟩ := hval u hv
    exact ⟨l, Py.bind_eq_ok.2 ⟨u, hu, hl⟩⟩
  obtain ⟨t, ht, htn, htv⟩ := hD (boundary gamma none)
  obtain ⟨tv, htv'⟩ := hval t htv
  obtain ⟨nodes, hnodes⟩ : ∃ nodes, t.nodes.mapM (nodeRow t) = .ok nodes := by
    refine mapM_exists fun q hq => ?_
    obtain ⟨v, hv⟩ := htn q hq
    exact ⟨_, Py.bind_eq_ok.2 ⟨v, hv, rfl⟩⟩
  obtain ⟨r, hr⟩ : ∃ r, simulateAll D mins maxs gamma n m A B = .ok r := by
    unfold simulateAll
    exact ⟨_, Py.bind_eq_ok.2 ⟨rows, hrows, Py.bind_eq_ok.2 ⟨t, ht, Py.bind_eq_ok.2 ⟨tv, htv',
      Py.bind_eq_ok.2 ⟨nodes, hnodes, rfl⟩⟩⟩⟩⟩
  obtain ⟨p, hp⟩ : ∃ p, save K save_path n m mins.length r = .ok p := by
    cases save_path with
    | none => exact ⟨_, rfl⟩
    | some sp =>
      have hw : ∃ K', K.write sp (resPath sp n m mins.length) r.toDs = .ok K' := by
        unfold Disk.write
        rw [raiseIf_false (by simp [hdir sp rfl])]
        exact ⟨_, rfl⟩
      obtain ⟨K', hw⟩ := hw
      exact ⟨_, Py.bind_eq_ok.2 ⟨K', hw, rfl⟩⟩
  exact ⟨_, _, e.trans (by rw [hr, Py.ok_bind, hp, Py.ok_bind])⟩

/-- **C120, a seed fixes the data set.** -/
theorem C120_seeded (k : ℕ) (s t : σ) (ha : D.available = true) :
    runFenics D G K n m mins maxs low high gamma save_path (some k) s =
      runFenics D G K n m mins maxs low high gamma save_path (some k) t := by
  unfold runFenics
  rw [raiseIf_false (by simp [ha]), PyM.lift_ok_bind, reseed_bind_run, reseed_bind_run]
  rfl

end

/-! ## File names -/

theorem split_sep {α : Type} {c : α} : ∀ {a b x y : List α}, c ∉ a → c ∉ b → a ++ c :: x = b ++ c :: y →
    a = b ∧ x = y
  | [], [], _, _, _, _, h => ⟨rfl, (List.cons.inj h).2⟩
  | [], b0 :: b, _, _, _, hb, h => absurd (List.cons.inj h).1 fun e => hb (by simp [e])
  | a0 :: a, [], _, _, ha, _, h => absurd (List.cons.inj h).1 fun e => ha (by simp [e])
  | a0 :: a, b0 :: b, x, y, ha, hb, h => by
    obtain ⟨e1, e2⟩ := List.cons.inj (show a0 :: (a ++ c :: x) = b0 :: (b ++ c :: y) from h)
    obtain ⟨e3, e4⟩ := split_sep (fun hc => ha (by simp [hc])) (fun hc => hb (by simp [hc])) e2
    exact ⟨by rw [e1, e3], e4⟩

theorem digits_inj {a b : ℕ} (h : Nat.toDigits 10 a = Nat.toDigits 10 b) : a = b := by
  rw [← Nat.ofDigitChars_ten_toDigits (n := a), h, Nat.ofDigitChars_ten_toDigits]

theorem resPath_toList (sp : String) (n m d : ℕ) : (resPath sp n m d).toList =
    sp.toList ++ ('/' :: 's' :: (Nat.toDigits 10 n ++ '_' :: 'n' :: (Nat.toDigits 10 m ++ '_' :: 'd' ::
      (Nat.toDigits 10 d ++ ['_', 'r', 'e', 's'])))) := by
  unfold resPath
  simp [String.toList_append, Nat.toString_eq_repr, Nat.toList_repr]

/-- **C120, file names.** Data sets of different sizes saved in the same directory have different names, and
no name ends with the letters that mark a netCDF file. -/
theorem C120_names (sp : String) :
    (∀ n m d n' m' d', resPath sp n m d = resPath sp n' m' d' ↔ n = n' ∧ m = m' ∧ d = d') ∧
    ∀ n m d, endsNc (resPath sp n m d) = false := by
  constructor
  · intro n m d n' m' d'
    constructor
    · intro h
      have h := congrArg String.toList h
      rw [resPath_toList, resPath_toList, List.append_cancel_left_eq, List.cons.injEq, List.cons.injEq] at h
      obtain ⟨h1, h⟩ := split_sep Nat.underscore_not_in_toDigits Nat.underscore_not_in_toDigits h.2.2
      obtain ⟨h2, h⟩ := split_sep Nat.underscore_not_in_toDigits Nat.underscore_not_in_toDigits
        (List.cons.inj h).2
      obtain ⟨h3, -⟩ := split_sep Nat.underscore_not_in_toDigits Nat.underscore_not_in_toDigits
        (List.cons.inj h).2
      exact ⟨digits_inj h1, digits_inj h2, digits_inj h3⟩
    · rintro ⟨rfl, rfl, rfl⟩
      rfl
  · intro n m d
    unfold endsNc
    rw [resPath_toList]
    by_contra hc
    have hc : ['n', 'c'] <:+ _ := List.isSuffixOf_iff_suffix.1 (by simpa using hc)
    have h2 := hc.getLast (by simp)
    simp at h2

/-! ## C121: from the generated data set to the inverse problem -/

section
variable {D : Dolfin} {G : Gen σ} {K : Disk} {n m : ℕ} {mins maxs low high : List ℝ} {gamma : ℝ}
  {sp : String} {seed : Option ℕ} {s s' : σ} {out : Out}

theorem pairsND_get {l : List (ℝ × ℝ)} {k : ℕ} (hk : k < l.length) :
    (pairsND l).get [k, 0] = (l.getD k (0, 0)).1 ∧ (pairsND l).get [k, 1] = (l.getD k (0, 0)).2 := by
  constructor <;> (rw [pairsND, ND.get_ofFn (by simp [ND.InB, hk])]; simp)

theorem zip_getD {a b : List ℝ} (h : a.length = b.length) {k : ℕ} (hk : k < a.length) :
    (List.zip a b).getD k (0, 0) = (a.getD k 0, b.getD k 0) := by
  simp [List.getD_eq_getElem?_getD, hk, h ▸ hk]

/-- The generated data set has the form the loader expects. -/
theorem generated_file (hlen : mins.length = maxs.length) {r : Result} {s : σ}
    (h : Generated D G s n m mins maxs low high gamma r) :
    PoissonFile r.toDs n mins.length m (pairsND r.domain) r.sensors r.true_vals r.lam r.data where
  no_dist := rfl
  has_domain := rfl
  has_sensors := rfl
  no_times := rfl
  no_ref := rfl
  no_sd := rfl
  has_tv := rfl
  no_meas := rfl
  has_lam := rfl
  has_data := rfl
  dom_len := by
    rw [(pairsND r.domain).size_eq, h.domain]
    simp [pairsND, hlen]
    ring
  sensors_shape := h.sensors_shape
  tv_len := by
    rw [r.true_vals.size_eq, h.tv_shape]
    simp
  lam_shape := h.lam_shape
  data_shape := h.data_shape

theorem run_lengths {save_path : Option String}
    (h : runFenics D G K n m mins maxs low high gamma save_path seed s = (.ok out, s')) :
    mins.length = maxs.length := by
  have ha : D.available = true := by
    by_contra hc
    rw [C120_errors.1 (by simpa using hc)] at h
    cases (Prod.mk.inj h).1
  by_contra hc
  rw [C120_errors.2.1 ha hc] at h
  cases (Prod.mk.inj h).1

/-- The file written can be read, with or without `xarray`. -/
theorem read_generated {E : FileEnv} {ds : DataSet} (hE : E.file (resPath sp n m mins.length) = some (.pickle ds)) :
    E.read (resPath sp n m mins.length) = .ok ds := by
  unfold FileEnv.read FileEnv.useXr
  rw [(C120_names sp).2, hE]
  rfl

/-- **C121, loading.** As long as the file that `run_fenics(..., save_path=sp)` wrote is there, whatever
other files there are and whether or not `xarray` is installed, `load_poisson_prob` of the returned path
returns the generated data set and a complete problem: the generated samples, data and sensors, one time,
the domain `mins`, `maxs`, and as measurements the true solution at the sensors plus `0.05` times the draws
of the generator. -/
theorem C121_load
    (h : runFenics D G K n m mins maxs low high gamma (some sp) seed s = (.ok out, s'))
    {p : String} (hp : out.path = some p) {E : FileEnv} (hE : E.file p = out.disk.file p)
    {τ : Type} (G' : Rng τ) (std_dev : ℝ) (seed' : Option ℕ) (t : τ) :
    ∃ P M B u, loadPoisson E G' p std_dev seed' t =
        (.ok (out.res.toDs, P), stateAfter G' (startState G' seed' t) m) ∧
      Ready P n mins.length m 1 out.res.lam out.res.data out.res.sensors ⟨[1], [0], rfl⟩ (some M) ∧
      P.domain = some B ∧ B.shape = [mins.length, 2] ∧
      (∀ k < mins.length, B.get [k, 0] = mins.getD k 0 ∧ B.get [k, 1] = maxs.getD k 0) ∧
      D.solve (boundary gamma none) = .ok u ∧
      ∀ j < m, ∃ v, u.value (pointAt out.res.sensors j) = .ok v ∧
        M.get [j, 0] = v + 0.05 * nthDraw G' (startState G' seed' t) j := by
  have hlen := run_lengths h
  obtain ⟨hg, -, hpath, hfile, -, -⟩ := C120_generated h
  obtain rfl : p = resPath sp n m mins.length := by
    rw [hpath] at hp
    exact (Option.some.inj hp).symm
  have hread := read_generated (E := E) (mins := mins) (by rw [hE]; exact hfile _ hp)
  have hf := generated_file hlen hg
  obtain ⟨P, M, B, e, hr, hB, hBs, hBd, -, -, -, hM⟩ := C110_poisson_partial (G := G') hread hf.no_dist
    hf.has_domain hf.has_sensors hf.no_times hf.no_ref hf.no_sd hf.has_tv hf.no_meas hf.has_lam hf.has_data
    hf.dom_len (by simp [HasLen, hf.sensors_shape]) hf.tv_len hf.lam_shape hf.data_shape std_dev seed' t
  obtain ⟨u, hu, hv, -, -⟩ := hg.truth
  refine ⟨P, M, B, u, e, hr, hB, hBs, ?_, hu, ?_⟩
  · have hB' : B = pairsND out.res.domain := by
      ext1
      · rw [hBs, hg.domain]
        simp [pairsND, hlen]
      · exact hBd
    intro k hk
    rw [hB', hg.domain]
    have hk' : k < (List.zip mins maxs).length := by simp [← hlen, hk]
    obtain ⟨h0, h1⟩ := pairsND_get hk'
    rw [h0, h1, zip_getD hlen hk]
    exact ⟨rfl, rfl⟩
  · intro j hj
    refine ⟨_, hv j hj, ?_⟩
    rw [hM j hj]
    congr 1
    show _ = out.res.true_vals.data.getD (ND.offset out.res.true_vals.shape [j, 0]) 0
    rw [hg.tv_shape]
    simp [ND.offset]

/-- **C121, solving.** If moreover no combination of the simulated sensor data is constant over the samples,
there are at least two samples, parameters and sensors, and the domain is a box, then the trials with any
numbers of sensors from two on return. -/
theorem C121_trials
    (h : runFenics D G K n m mins maxs low high gamma (some sp) seed s = (.ok out, s'))
    {p : String} (hp : out.path = some p) {E : FileEnv} (hE : E.file p = out.disk.file p)
    {τ : Type} (G' : Rng τ) {R : PyRandom ρ} (hR : ∀ n s, 0 < n → (R.below n s).1 < n) (X : Prep.Ext)
    (hX : X.Correct) {closest : List ℝ} (hc : 2 ≤ closest.length)
    (hdom : ∀ k < mins.length, mins.getD k 0 < maxs.getD k 0)
    (hn : 2 ≤ n) (hd : 2 ≤ mins.length) (hm : 2 ≤ m) {user : ℕ → ℝ → ℕ → ℝ} {pe : PlotEnv}
    (hdraw : ∀ a c R i n, pe.draw a c R i n = .ok ()) (hind : Independent n m out.res.data)
    (x_range : Arr2) {Ns : List ℕ} (hNs : ∀ N ∈ Ns, 2 ≤ N) (order : String) (ann1 ann2 : Bool)
    (sigma : ℝ) (seed' : Option ℕ) (t : τ × ρ) :
    ∃ r t', runTrials E G' R (Prep.decomp X) (scipyEnv user) pe closest x_range p
      (Ns.map fun N : ℕ => (N : ℤ)) order ann1 ann2 sigma seed' t = (.ok r, t') := by
  have hlen := run_lengths h
  obtain ⟨hg, -, hpath, hfile, -, -⟩ := C120_generated h
  obtain rfl : p = resPath sp n m mins.length := by
    rw [hpath] at hp
    exact (Option.some.inj hp).symm
  have hread := read_generated (E := E) (mins := mins) (by rw [hE]; exact hfile _ hp)
  refine C112_returns_scipy hread (generated_file hlen hg) hR X hX ?_ hn hd hm hc hdraw hind x_range hNs order
    ann1 ann2 sigma seed' t
  intro j hj
  have hk' : j < (List.zip mins maxs).length := by simp [← hlen, hj]
  obtain ⟨h0, h1⟩ := pairsND_get hk'
  rw [zip_getD hlen hj] at h0 h1
  have e0 : (pairsND (List.zip mins maxs)).get [j, 0] =
      (pairsND (List.zip mins maxs)).data.getD (2 * j) 0 := by
    simp [ND.get, ND.offset, pairsND, mul_comm]
  have e1 : (pairsND (List.zip mins maxs)).get [j, 1] =
      (pairsND (List.zip mins maxs)).data.getD (2 * j + 1) 0 := by
    simp [ND.get, ND.offset, pairsND, mul_comm]
  rw [hg.domain, ← e0, ← e1, h0, h1]
  exact hdom j hj

end

/-! ## An installation to run with -/

/-- A solver whose surfaces are `x + y` plus the last interior boundary value (if any), on a mesh of two nodes. -/
noncomputable def demoDolfin : Dolfin where
  available := true
  solve := fun b => .ok ⟨fun q => .ok (q.1 + q.2 + (match b with
    | .power c => c
    | .text ts => ts.length)), [(0, 0), (1, 1)]⟩

/-- A disk with the directory `.`. -/
def demoDisk : Disk := ⟨⟨true, fun _ => none⟩, fun d => d == "."⟩

/-- A generator of the number 1/2. -/
noncomputable def demoGen2 : Gen ℕ := ⟨⟨fun k => k, fun s => (0, s + 1)⟩, fun s => (1 / 2, s + 1)⟩

/-- The default arguments with 3 samples and 2 sensors. -/
example : ∃ out s', runFenics demoDolfin demoGen2 demoDisk 3 2 [-4, -4] [0, 0] [0, 0] [1, 1] (-3)
      (some ".") none 0 = (.ok out, s') ∧
    out.path = some "./s3_n2_d2_res" ∧ out.res.lam.get [2, 1] = -2 ∧ out.res.domain = [(-4, 0), (-4, 0)] ∧
    out.disk.read "./s3_n2_d2_res" = .ok out.res.toDs := by
  obtain ⟨out, s', h⟩ := C120_returns (D := demoDolfin) (G := demoGen2) (K := demoDisk) (n := 3) (m := 2)
    (mins := [-4, -4]) (maxs := [0, 0]) (low := [0, 0]) (high := [1, 1]) (gamma := -3) (save_path := some ".")
    rfl rfl (.inl rfl) (.inl rfl) (by intro sp hsp; cases hsp; rfl)
    (fun t => by constructor <;> (show _; simp [demoGen2]; try norm_num))
    (by intro c hc; interval_cases c <;> simp [bound])
    (fun b => ⟨_, rfl, fun _ _ => ⟨_, rfl⟩, fun _ _ _ _ _ _ => ⟨_, rfl⟩⟩) none 0
  obtain ⟨hg, -, hpath, hfile, -, -⟩ := C120_generated h
  have hp : out.path = some "./s3_n2_d2_res" := by
    rw [hpath]
    rfl
  refine ⟨out, s', h, hp, ?_, hg.domain, ?_⟩
  · rw [hg.lam 2 (by omega) 1 (by simp)]
    simp [nthDraw, demoGen2, Gen.uniform]
    norm_num
  · have e : resPath "." 3 2 ([-4, -4] : List ℝ).length = "./s3_n2_d2_res" := rfl
    have hr := read_generated (E := out.disk.toFileEnv) (sp := ".") (n := 3) (m := 2) (mins := [-4, -4])
      (ds := out.res.toDs) (hfile _ hpath)
    rwa [e] at hr

/-! ### A run whose data can be analysed (C121) -/

/-- The number at place `k` of a text, `0` if there is none. -/
def numAt (k : ℕ) : BExpr → ℝ
  | .power _ => 0
  | .text ts => match ts[k]? with
    | some (.num r) => r
    | _ => 0

/-- A solver whose surface for two boundary values `a, b` (at the places `41` and `85` of the text) is
`a x + b y`. -/
noncomputable def planeDolfin : Dolfin where
  available := true
  solve := fun b => .ok ⟨fun q => .ok (numAt 41 b * q.1 + numAt 85 b * q.2), [(0, 0), (1, 1)]⟩

theorem numAt_boundary (g a b : ℝ) : numAt 41 (boundary g (some [a, b])) = a ∧
    numAt 85 (boundary g (some [a, b])) = b := ⟨rfl, rfl⟩

/-- A generator whose first ten numbers place two sensors at `(1/2, 0)` and `(0, 1/2)` of the unit box and three
samples at three corners of the lower half of their box. -/
noncomputable def planeGen : Gen ℕ :=
  ⟨⟨fun _ => 0, fun s => (0, s + 1)⟩, fun s => ([1 / 2, 0, 0, 1 / 2, 0, 0, 1 / 2, 0, 0, 1 / 2].getD s 0, s + 1)⟩

theorem planeGen_unif (t : ℕ) : 0 ≤ (planeGen.unif t).1 ∧ (planeGen.unif t).1 < 1 := by
  show 0 ≤ ([1 / 2, 0, 0, 1 / 2, 0, 0, 1 / 2, 0, 0, 1 / 2] : List ℝ).getD t 0 ∧
    ([1 / 2, 0, 0, 1 / 2, 0, 0, 1 / 2, 0, 0, 1 / 2] : List ℝ).getD t 0 < 1
  rcases Nat.lt_or_ge t 10 with h | h
  · interval_cases t <;> norm_num
  · rw [List.getD_eq_default _ _ (by simpa using h)]
    norm_num

theorem planeGen_draw (k : ℕ) : nthDraw planeGen.uniform 0 k =
    [1 / 2, 0, 0, 1 / 2, 0, 0, 1 / 2, 0, 0, 1 / 2].getD k 0 := by
  have e : ∀ j, stateAfter planeGen.uniform 0 j = j := by
    intro j
    induction j with
    | zero => rfl
    | succ j ih =>
      rw [stateAfter, ih]
      rfl
  show ([1 / 2, 0, 0, 1 / 2, 0, 0, 1 / 2, 0, 0, 1 / 2] : List ℝ).getD (stateAfter planeGen.uniform 0 k) 0 = _
  rw [e]

theorem plane_solve (b : BExpr) : ∃ u, planeDolfin.solve b = .ok u ∧ (∀ q ∈ u.nodes, ∃ v, u.value q = .ok v) ∧
    ∀ x y : ℝ, 0 ≤ x → x ≤ 1 → 0 ≤ y → y ≤ 1 → ∃ v, u.value (x, y) = .ok v :=
  ⟨_, rfl, fun _ _ => ⟨_, rfl⟩, fun _ _ _ _ _ _ => ⟨_, rfl⟩⟩

/-- The data generated with it are affinely independent. -/
theorem plane_indep {r : Result} {g : ℝ}
    (hg : Generated planeDolfin planeGen 0 3 2 [-4, -4] [0, 0] [0, 0] [1, 1] g r) : Independent 3 2 r.data := by
  have hs : ∀ j < 2, ∀ c < 2, r.sensors.get [j, c] = if j = c then 1 / 2 else 0 := by
    intro j hj c hc
    rw [hg.sensors j hj c hc, planeGen_draw]
    interval_cases j <;> interval_cases c <;> simp [bound]
  have hl : ∀ i < 3, ∀ k < 2, r.lam.get [i, k] = if i = k + 1 then -2 else -4 := by
    intro i hi k hk
    rw [hg.lam i hi k hk, planeGen_draw]
    interval_cases i <;> interval_cases k <;> norm_num
  have hd : ∀ i < 3, ∀ j < 2, r.data.get [i, j] = if i = j + 1 then -1 else -2 := by
    intro i hi j hj
    obtain ⟨u, hu, hv⟩ := hg.data i hi
    have e : (List.range ([-4, -4] : List ℝ).length).map (fun k => r.lam.get [i, k]) = [r.lam.get [i, 0], r.lam.get [i, 1]] := rfl
    rw [e] at hu
    obtain ⟨h1, h2⟩ := numAt_boundary (-3) (r.lam.get [i, 0]) (r.lam.get [i, 1])
    cases hu
    have := Except.ok.inj (hv j hj)
    rw [← this, h1, h2]
    have h01 := hs j hj 0 (by norm_num)
    have h02 := hs j hj 1 (by norm_num)
    simp only [pointAt, h01, h02, hl i hi 0 (by norm_num), hl i hi 1 (by norm_num)]
    interval_cases i <;> interval_cases j <;> norm_num
  rintro u ⟨c, hc⟩
  have e0 := hc 0 (by norm_num)
  have e1 := hc 1 (by norm_num)
  have e2 := hc 2 (by norm_num)
  simp only [Fin.sum_univ_two, Fin.val_zero, Fin.val_one, hd 0 (by norm_num) 0 (by norm_num),
    hd 0 (by norm_num) 1 (by norm_num), hd 1 (by norm_num) 0 (by norm_num), hd 1 (by norm_num) 1 (by norm_num),
    hd 2 (by norm_num) 0 (by norm_num), hd 2 (by norm_num) 1 (by norm_num)] at e0 e1 e2
  norm_num at e0 e1 e2
  ext j
  fin_cases j
  · show u 0 = 0
    linarith
  · show u 1 = 0
    linarith

/-- C121 on this run: the generated file is loaded and analysed with `2` and `5` sensors. -/
example {user : ℕ → ℝ → ℕ → ℝ} (X : Prep.Ext) (hX : X.Correct) (R : Arr2) (t : ℕ × ℕ) :
    ∃ out s', runFenics planeDolfin planeGen demoDisk 3 2 [-4, -4] [0, 0] [0, 0] [1, 1] (-3) (some ".") none 0 =
        (.ok out, s') ∧
      ∃ r t', runTrials out.disk.toFileEnv solG solR (Prep.decomp X) (scipyEnv user) solPe [0, 0] R "./s3_n2_d2_res"
        ([2, 5].map fun N : ℕ => (N : ℤ)) "random" true true 0.05 none t = (.ok r, t') := by
  obtain ⟨out, s', h⟩ := C120_returns (D := planeDolfin) (G := planeGen) (K := demoDisk) (n := 3) (m := 2)
    (mins := [-4, -4]) (maxs := [0, 0]) (low := [0, 0]) (high := [1, 1]) (gamma := -3) (save_path := some ".")
    rfl rfl (.inl rfl) (.inl rfl) (by intro sp hsp; cases hsp; rfl) planeGen_unif
    (by intro c hc; interval_cases c <;> simp [bound]) plane_solve none 0
  obtain ⟨hg, -, hpath, -⟩ := C120_generated h
  have hp : out.path = some "./s3_n2_d2_res" := by
    rw [hpath]
    rfl
  exact ⟨out, s', h, C121_trials h hp rfl solG solR_lt X hX (by simp)
    (by intro k hk; rcases k with _ | _ | k <;> simp at hk ⊢) (by norm_num) (by simp) le_rfl
    (fun _ _ _ _ _ => rfl) (plane_indep hg) R (by simp) "random" true true 0.05 none t⟩

/-- C120: with a seed the state before the run does not matter, and the samples are in their box. -/
example (s t : ℕ) : runFenics planeDolfin planeGen demoDisk 3 2 [-4, -4] [0, 0] [0, 0] [1, 1] (-3) none (some 7) s =
    runFenics planeDolfin planeGen demoDisk 3 2 [-4, -4] [0, 0] [0, 0] [1, 1] (-3) none (some 7) t :=
  C120_seeded 7 s t rfl

example {out : Out} {s' : ℕ} (h : runFenics planeDolfin planeGen demoDisk 3 2 [-4, -4] [0, 0] [0, 0] [1, 1] (-3)
    none none 0 = (.ok out, s')) : -4 ≤ out.res.lam.get [2, 1] ∧ out.res.lam.get [2, 1] ≤ 0 :=
  (C120_inside planeGen_unif h).1 1 (by simp) (by simp) 2 (by norm_num)

end Fenics

end Verif
