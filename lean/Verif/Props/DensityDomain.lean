import Verif.Props.DensitySelect

/-!
# Domains: C36 (`fit_domain`), C37 (plotting), C38 (`pad_domain`), C39 (1-D samples)
-/

open Matrix

namespace Verif

variable {env : Env}

/-! ## C36 -/

theorem truncR_intCast (z : ℤ) : truncR z = z := by
  unfold truncR; split_ifs <;> simp

theorem truncR_mono {x y : ℝ} (h : x ≤ y) : truncR x ≤ truncR y := by
  unfold truncR
  split_ifs with h1 h2 h2
  · exact_mod_cast Int.floor_le_floor h
  · exact absurd (h1.trans h) h2
  · have a : (⌈x⌉ : ℝ) ≤ 0 := by
      exact_mod_cast Int.ceil_le.2 (by push_cast; linarith)
    have b : (0 : ℝ) ≤ ⌊y⌋ := by exact_mod_cast Int.floor_nonneg.2 h2
    linarith
  · exact_mod_cast Int.ceil_le_ceil h

theorem storeAs_false (x : ℝ) : storeAs false x = x := rfl
theorem storeAs_true (x : ℝ) : storeAs true x = truncR x := rfl

/-- `fit_domain` on a table with at least one row. -/
theorem fitDomain_rows {n p : ℕ} (X : Matrix (Fin (n + 1)) (Fin p) ℝ) (pad : ℝ) (isInt : Bool) :
    fitDomain (some ⟨n + 1, p, X⟩) none pad isInt = .ok ⟨p, 2, .of fun j k =>
      if k = 0 then storeAs isInt ((⨅ i, X i j) - pad * ((⨆ i, X i j) - ⨅ i, X i j))
      else storeAs isInt ((⨆ i, X i j) + pad * ((⨆ i, X i j) - ⨅ i, X i j))⟩ := by
  unfold fitDomain padBounds
  simp only [Nat.add_eq_zero_iff, one_ne_zero, and_false, if_false, lt_irrefl]
  congr 1
  rw [Arr2.mk_inj]
  ext j k
  have g0 : ∀ (h : Matrix (Fin p) (Fin 2) ℝ), Arr2.get ⟨p, 2, h⟩ j 0 = h j 0 := fun h =>
    Arr2.get_mk h j 0
  have g1 : ∀ (h : Matrix (Fin p) (Fin 2) ℝ), Arr2.get ⟨p, 2, h⟩ j 1 = h j 1 := fun h =>
    Arr2.get_mk h j 1
  fin_cases k <;> simp [g0, g1, colMin, colMax]

theorem isLeast_iInf {n : ℕ} (f : Fin (n + 1) → ℝ) : IsLeast (Set.range f) (⨅ i, f i) :=
  ⟨Set.Nonempty.csInf_mem (Set.range_nonempty f) (Set.finite_range f), fun _ ⟨i, hi⟩ => hi ▸
    ciInf_le (Set.finite_range f).bddBelow i⟩

theorem isGreatest_iSup {n : ℕ} (f : Fin (n + 1) → ℝ) : IsGreatest (Set.range f) (⨆ i, f i) :=
  ⟨Set.Nonempty.csSup_mem (Set.range_nonempty f) (Set.finite_range f), fun _ ⟨i, hi⟩ => hi ▸
    le_ciSup (Set.finite_range f).bddAbove i⟩

/-- **C36**, arrays of floats: one row per column of `x`, from `min - pad*range` to
`max + pad*range`, and (for `pad ≥ 0`) every sample lies in between. -/
theorem C36_float {n p : ℕ} (X : Matrix (Fin (n + 1)) (Fin p) ℝ) (pad : ℝ) :
    ∃ D : Matrix (Fin p) (Fin 2) ℝ, fitDomain (some ⟨n + 1, p, X⟩) none pad false = .ok ⟨p, 2, D⟩ ∧
      ∀ j, ∃ lo hi, IsLeast (Set.range fun i => X i j) lo ∧ IsGreatest (Set.range fun i => X i j) hi ∧
        D j 0 = lo - pad * (hi - lo) ∧ D j 1 = hi + pad * (hi - lo) ∧
        (0 ≤ pad → ∀ i, D j 0 ≤ X i j ∧ X i j ≤ D j 1) := by
  refine ⟨_, fitDomain_rows X pad false, fun j => ⟨_, _, isLeast_iInf _, isGreatest_iSup _,
    by simp [storeAs], by simp [storeAs], fun hp i => ?_⟩⟩
  have h1 := (isLeast_iInf fun i => X i j).2 ⟨i, rfl⟩
  have h2 := (isGreatest_iSup fun i => X i j).2 ⟨i, rfl⟩
  have h3 : 0 ≤ pad * ((⨆ i, X i j) - ⨅ i, X i j) := mul_nonneg hp (by linarith)
  simp only [Matrix.of_apply, if_true, storeAs_false, one_ne_zero, if_false]
  constructor <;> linarith

/-- **C36**, arrays of integers: the bounds are rounded toward zero and still contain every
sample. -/
theorem C36_int {n p : ℕ} (Z : Matrix (Fin (n + 1)) (Fin p) ℤ) (pad : ℝ) (hp : 0 ≤ pad) :
    ∃ D : Matrix (Fin p) (Fin 2) ℝ,
      fitDomain (some ⟨n + 1, p, Z.map Int.cast⟩) none pad true = .ok ⟨p, 2, D⟩ ∧
      ∀ j, ∃ lo hi : ℤ, IsLeast (Set.range fun i => Z i j) lo ∧ IsGreatest (Set.range fun i => Z i j) hi ∧
        D j 0 = truncR (lo - pad * (hi - lo)) ∧ D j 1 = truncR (hi + pad * (hi - lo)) ∧
        ∀ i, D j 0 ≤ Z i j ∧ (Z i j : ℝ) ≤ D j 1 := by
  refine ⟨_, fitDomain_rows _ pad true, fun j => ?_⟩
  obtain ⟨⟨i0, h0⟩, h0'⟩ := isLeast_iInf fun i => (Z i j : ℝ)
  obtain ⟨⟨i1, h1⟩, h1'⟩ := isGreatest_iSup fun i => (Z i j : ℝ)
  refine ⟨Z i0 j, Z i1 j, ⟨⟨i0, rfl⟩, ?_⟩, ⟨⟨i1, rfl⟩, ?_⟩, ?_, ?_, fun i => ?_⟩
  · rintro _ ⟨i, rfl⟩
    have := h0' ⟨i, rfl⟩
    rw [← h0] at this
    exact Int.cast_le.1 this
  · rintro _ ⟨i, rfl⟩
    have := h1' ⟨i, rfl⟩
    rw [← h1] at this
    exact Int.cast_le.1 this
  · simp only [Matrix.of_apply, if_true, storeAs_true, Matrix.map_apply, ← h0, ← h1]
  · simp only [Matrix.of_apply, one_ne_zero, if_false, storeAs_true, Matrix.map_apply, ← h0, ← h1]
  · have a := h0' ⟨i, rfl⟩
    have b := h1' ⟨i, rfl⟩
    simp only [Matrix.of_apply, if_true, one_ne_zero, if_false, storeAs_true, Matrix.map_apply,
      ← h0, ← h1] at a b ⊢
    have h3 : 0 ≤ pad * ((Z i1 j : ℝ) - Z i0 j) := mul_nonneg hp (by linarith)
    constructor
    · rw [← truncR_intCast (Z i j)]; exact truncR_mono (by linarith)
    · rw [← truncR_intCast (Z i j)]; exact truncR_mono (by linarith)

/-- **C36**: without samples, or with nothing to fit, `ValueError`. -/
theorem C36_errors (pad : ℝ) (isInt : Bool) :
    fitDomain none none pad isInt = .error .valueError ∧
    ∀ X : Arr2, X.r = 0 → fitDomain (some X) none pad isInt = .error .valueError :=
  ⟨rfl, fun X h => by simp [fitDomain, h]⟩

/-- `fit_domain` in terms of the column minima and maxima. -/
theorem fitDomain_eq {n p : ℕ} (X : Matrix (Fin (n + 1)) (Fin p) ℝ) (pad : ℝ) (isInt : Bool)
    (lo hi : Fin p → ℝ) (hlo : ∀ j, IsLeast (Set.range fun i => X i j) (lo j))
    (hhi : ∀ j, IsGreatest (Set.range fun i => X i j) (hi j)) :
    fitDomain (some ⟨n + 1, p, X⟩) none pad isInt = .ok ⟨p, 2, .of fun j k =>
      if k = 0 then storeAs isInt (lo j - pad * (hi j - lo j))
      else storeAs isInt (hi j + pad * (hi j - lo j))⟩ := by
  rw [fitDomain_rows]
  have e1 : ∀ j, ⨅ i, X i j = lo j := fun j => (isLeast_iInf _).unique (hlo j)
  have e2 : ∀ j, ⨆ i, X i j = hi j := fun j => (isGreatest_iSup _).unique (hhi j)
  simp only [e1, e2]

/-- The doctest of `fit_domain`: `[[1, 10], [0, -10]]` with `pad_ratio = 1`. -/
example : fitDomain (some ⟨2, 2, !![(1 : ℝ), 10; 0, -10]⟩) none 1 true =
    .ok ⟨2, 2, !![(-1 : ℝ), 2; -30, 30]⟩ := by
  rw [fitDomain_eq (n := 1) _ 1 true ![0, -10] ![1, 10]]
  · have e := truncR_intCast
    congr 1
    rw [Arr2.mk_inj]
    ext j k
    have t1 : truncR (-1) = -1 := by exact_mod_cast e (-1)
    have t2 : truncR 2 = 2 := by exact_mod_cast e 2
    have t3 : truncR (-30) = -30 := by exact_mod_cast e (-30)
    have t4 : truncR 30 = 30 := by exact_mod_cast e 30
    fin_cases j <;> fin_cases k <;> norm_num [storeAs_true, t1, t2, t3, t4]
  · intro j
    fin_cases j
    · exact ⟨⟨1, rfl⟩, by rintro _ ⟨i, rfl⟩; fin_cases i <;> norm_num⟩
    · exact ⟨⟨1, rfl⟩, by rintro _ ⟨i, rfl⟩; fin_cases i <;> norm_num⟩
  · intro j
    fin_cases j
    · exact ⟨⟨0, rfl⟩, by rintro _ ⟨i, rfl⟩; fin_cases i <;> norm_num⟩
    · exact ⟨⟨0, rfl⟩, by rintro _ ⟨i, rfl⟩; fin_cases i <;> norm_num⟩

/-! ## C37: plotting -/

/-- The domain written by one call of `plot_param_space` without `x_range`. -/
noncomputable def grown (isInt : Bool) (pad : ℝ) {p : ℕ} (D : Matrix (Fin p) (Fin 2) ℝ) :
    Matrix (Fin p) (Fin 2) ℝ :=
  .of fun j k => if k = 0 then storeAs isInt (D j 0 - pad * (D j 1 - D j 0))
    else storeAs isInt (D j 1 + pad * (D j 1 - D j 0))

theorem padBounds_mk {p : ℕ} (D : Matrix (Fin p) (Fin 2) ℝ) (isInt : Bool) (pad : ℝ) :
    padBounds isInt pad ⟨p, 2, D⟩ = .ok ⟨p, 2, grown isInt pad D⟩ := by
  unfold padBounds grown
  simp only [lt_irrefl, if_false]
  congr 1
  rw [Arr2.mk_inj]
  ext j k
  have g0 : Arr2.get ⟨p, 2, D⟩ j 0 = D j 0 := Arr2.get_mk D j 0
  have g1 : Arr2.get ⟨p, 2, D⟩ j 1 = D j 1 := Arr2.get_mk D j 1
  fin_cases k <;> simp [g0, g1]

/-- The attributes no fitting call changes. -/
def DP.frame (P : DP) : Arr2 × Arr2 × Arr2 × Bool := (P.X, P.y, P.domain, P.domInt)

theorem frame_bind {α β : Type} {x : PyM DP α} {f : α → PyM DP β}
    (hx : ∀ P, (x P).2.frame = P.frame) (hf : ∀ a P, (f a P).2.frame = P.frame) (P : DP) :
    ((x >>= f) P).2.frame = P.frame := by
  rw [PyM.bind_run]
  rcases h : x P with ⟨r, P'⟩
  have := hx P
  rw [h] at this
  cases r with
  | error e => exact this
  | ok a => exact (hf a P').trans this

theorem frame_when {b : Bool} {x : PyM DP Unit} (hx : ∀ P, (x P).2.frame = P.frame) (P : DP) :
    (PyM.when b x P).2.frame = P.frame := by
  cases b
  · rfl
  · exact hx P

theorem frame_setWeights (w : Option NArr) (n : Bool) (P : DP) :
    (DP.setWeights w n P).2.frame = P.frame := by
  unfold DP.setWeights
  exact frame_bind (fun _ => rfl) (fun _ => frame_bind (fun _ => rfl) fun _ _ => rfl) P

theorem frame_setObserved (d : Option Dist) (P : DP) :
    (DP.setObserved d P).2.frame = P.frame := by
  unfold DP.setObserved
  exact frame_bind (fun _ => rfl) (fun _ => frame_bind (fun _ => rfl)
    fun _ => frame_bind (fun _ => rfl) fun _ _ => rfl) P

theorem frame_setInitial (d : Option Dist) (P : DP) :
    (DP.setInitial d P).2.frame = P.frame := by
  unfold DP.setInitial
  exact frame_bind (fun _ => rfl) (fun _ => frame_bind (fun _ => rfl)
    fun _ => frame_bind (fun _ => rfl) fun _ _ => rfl) P

theorem frame_setPredicted (d : Option Dist) (bw : ℕ) (w : Option NArr) (P : DP) :
    (DP.setPredicted env d bw w P).2.frame = P.frame := by
  unfold DP.setPredicted
  refine frame_bind ?_ (fun _ => frame_bind (fun _ => rfl)
    fun _ => frame_bind (fun _ => rfl) fun _ _ => rfl) P
  intro P
  cases w with
  | none => rfl
  | some w => exact frame_setWeights _ _ P

theorem frame_fit (d : Option Dist) (bw : ℕ) (w : Option NArr) (P : DP) :
    (DP.fit env d bw w P).2.frame = P.frame := by
  unfold DP.fit
  refine frame_bind (fun _ => rfl) (fun _ => frame_bind (frame_when (frame_setInitial _))
    fun _ => frame_bind (fun _ => rfl) fun _ => frame_bind (frame_when (frame_setPredicted _ _ _))
    fun _ => frame_bind (fun _ => rfl) fun _ => frame_bind (frame_when (frame_setObserved _))
    fun _ => frame_bind (fun _ => rfl) fun _ => frame_bind (fun _ => rfl) fun _ =>
    frame_bind (fun _ => rfl) fun _ => frame_bind (fun _ => rfl) fun _ =>
    frame_bind (fun _ => rfl) fun _ => frame_bind (fun _ => rfl) fun _ =>
    frame_bind (fun _ => rfl) fun _ => frame_bind (fun _ => rfl) fun _ _ => rfl) P

theorem frame_mudPoint (P : DP) : (DP.mudPoint env P).2.frame = P.frame := by
  unfold DP.mudPoint
  exact frame_bind (fun _ => rfl) (fun _ => frame_bind (frame_when (frame_fit _ _ _))
    fun _ => frame_bind (fun _ => rfl) fun _ => frame_bind (fun _ => rfl) fun _ =>
    frame_bind (fun _ => rfl) fun _ _ => rfl) P

/-- The full claim C37: no call of `plot_param_space` changes the domain. -/
def C37_claim : Prop := ∀ (env : Env) (P : DP) (xr : Bool) (pad : ℝ) (mo : Bool),
  (DP.plotParamSpace env xr pad mo P).2.domain = P.domain

/-- **C37, true part.** With an explicit `x_range` the domain is unchanged. -/
theorem C37_x_range_partial (P : DP) (pad : ℝ) (mo : Bool) :
    (DP.plotParamSpace env true pad mo P).2.domain = P.domain := by
  have : (DP.plotParamSpace env true pad mo P).2.frame = P.frame := by
    unfold DP.plotParamSpace
    refine frame_bind (fun _ => rfl) (fun a => ?_) P
    intro P
    refine frame_bind (x := PyM.lift _) (fun _ => rfl) (fun _ P => ?_) P
    cases mo
    · rfl
    · exact frame_bind frame_mudPoint (fun _ _ => rfl) P
  exact congrArg (fun f => f.2.2.1) this

theorem plot_frame {p : ℕ} (P : DP) (D : Matrix (Fin p) (Fin 2) ℝ) (hD : P.domain = ⟨p, 2, D⟩)
    (pad : ℝ) (mo : Bool) :
    (DP.plotParamSpace env false pad mo P).2.frame =
      (P.X, P.y, ⟨p, 2, grown P.domInt pad D⟩, P.domInt) := by
  have hf : fitDomain none (some P.domain) pad P.domInt = .ok ⟨p, 2, grown P.domInt pad D⟩ := by
    rw [hD]; exact padBounds_mk D _ _
  unfold DP.plotParamSpace
  simp only [PyM.get_bind_run, hf, PyM.lift_ok_bind, PyM.modify_bind_run, Bool.false_eq_true,
    if_false]
  have key : ∀ (u : Py Unit) (S : DP), ((do
      PyM.lift u
      if mo = true then do let _ ← DP.mudPoint env; pure ()
      else pure () : PyM DP Unit) S).2.frame = S.frame := by
    intro u S
    refine frame_bind (fun _ => rfl) (fun _ P => ?_) S
    cases mo
    · rfl
    · exact frame_bind frame_mudPoint (fun _ _ => rfl) P
  exact key _ _

/-- **C37, what the code does.** Without `x_range` every call replaces the domain by the padded
one - whatever the other arguments and even if the call then raises. -/
theorem C37_exact {p : ℕ} (P : DP) (D : Matrix (Fin p) (Fin 2) ℝ) (hD : P.domain = ⟨p, 2, D⟩)
    (pad : ℝ) (mo : Bool) :
    (DP.plotParamSpace env false pad mo P).2.domain = ⟨p, 2, grown P.domInt pad D⟩ :=
  congrArg (fun f => f.2.2.1) (plot_frame P D hD pad mo)

/-- **C37, what the code does**, repeatedly: `k` plots of a problem with a domain of floats
multiply every width by `(1 + 2 pad)^k` and keep the centre. -/
theorem C37_growth {p : ℕ} (P : DP) (D : Matrix (Fin p) (Fin 2) ℝ) (hD : P.domain = ⟨p, 2, D⟩)
    (hi : P.domInt = false) (pad : ℝ) (mo : Bool) (k : ℕ) :
    ∃ D' : Matrix (Fin p) (Fin 2) ℝ,
      ((fun P => (DP.plotParamSpace env false pad mo P).2)^[k] P).domain = ⟨p, 2, D'⟩ ∧
      ∀ j, D' j 1 - D' j 0 = (1 + 2 * pad) ^ k * (D j 1 - D j 0) ∧
        D' j 0 + D' j 1 = D j 0 + D j 1 := by
  induction k generalizing P D with
  | zero => exact ⟨D, hD, fun j => ⟨by simp, rfl⟩⟩
  | succ k ih =>
    have hfr := plot_frame (env := env) P D hD pad mo
    obtain ⟨D', h1, h2⟩ := ih (DP.plotParamSpace env false pad mo P).2 (grown P.domInt pad D)
      (congrArg (fun f => f.2.2.1) hfr) ((congrArg (fun f => f.2.2.2) hfr).trans hi)
    refine ⟨D', h1, fun j => ?_⟩
    obtain ⟨h3, h4⟩ := h2 j
    simp only [grown, hi, storeAs_false, Matrix.of_apply, if_true, one_ne_zero, if_false] at h3 h4
    rw [h3, h4, pow_succ]
    constructor <;> ring

/-- `C37_growth` for three default plots of a problem on `[0, 1]`. -/
example := C37_growth (env := env) demoP !![(0 : ℝ), 1] rfl rfl (5 / 100) true 3

/-- A plot with `mud_opts=None` of a problem whose initial distribution is set succeeds and only
changes the domain. -/
theorem plot_no_mud {p : ℕ} (P : DP) (D : Matrix (Fin p) (Fin 2) ℝ) (hD : P.domain = ⟨p, 2, D⟩)
    (hin : P.init.isSome = true) (pad : ℝ) :
    DP.plotParamSpace env false pad false P =
      (.ok (), { P with domain := ⟨p, 2, grown P.domInt pad D⟩ }) := by
  have hf : fitDomain none (some P.domain) pad P.domInt = .ok ⟨p, 2, grown P.domInt pad D⟩ := by
    rw [hD]; exact padBounds_mk D _ _
  unfold DP.plotParamSpace
  simp only [PyM.get_bind_run, hf, PyM.lift_ok_bind, PyM.modify_bind_run, Bool.false_eq_true,
    if_false, pyAssert, hin, if_true]
  rfl

/-- A failing plot (nothing set yet: `AssertionError`) changes the domain as well. -/
theorem C37_failing_plot {p : ℕ} (P : DP) (D : Matrix (Fin p) (Fin 2) ℝ)
    (hD : P.domain = ⟨p, 2, D⟩) (hin : P.init = none) (pad : ℝ) (mo : Bool) :
    DP.plotParamSpace env false pad mo P =
      (.error .assertionError, { P with domain := ⟨p, 2, grown P.domInt pad D⟩ }) := by
  have hf : fitDomain none (some P.domain) pad P.domInt = .ok ⟨p, 2, grown P.domInt pad D⟩ := by
    rw [hD]; exact padBounds_mk D _ _
  unfold DP.plotParamSpace
  simp only [PyM.get_bind_run, hf, PyM.lift_ok_bind, PyM.modify_bind_run, Bool.false_eq_true,
    if_false, hin, pyAssert, Option.isSome_none, if_false]
  rfl

/-- Two samples 0 and 1 on the domain `[0, 0.98]`: sample 1 is outside. -/
noncomputable def demoQ : DP := { demoP with domain := ⟨1, 2, !![(0 : ℝ), 98 / 100]⟩ }

theorem demoQ_new :
    DP.new demoX demoX (some (.mat ⟨1, 2, !![(0 : ℝ), 98 / 100]⟩)) = .ok demoQ := rfl

/-- The settings made by the user in the example: default initial distribution, observed density
`1 + x`, predicted density 1. -/
noncomputable def demoSet : List DOp :=
  [.setInitial none, .setObserved (some (distOf fun x => 1 + x)),
    .setPredicted (some (distOf fun _ => 1)) 0 none]

theorem demoQ_estimate (Q : DP) (lo hi : ℝ) (hlt : lo < hi) (hX : Q.X = demoP.X)
    (hy : Q.y = demoP.y) (hw : Q.weights = demoP.weights) (hD : Q.domain = ⟨1, 2, !![lo, hi]⟩)
    (h0 : lo ≤ 0 ∧ 0 ≤ hi) :
    (DP.mudPoint env (Q.after env demoSet)).1 = .ok [if lo ≤ 1 ∧ 1 ≤ hi then 1 else 0] := by
  have hset : Q.after env demoSet =
      Q.after env [.setInitial (some (uniformOn Q.domain)),
        .setObserved (some (distOf fun x => 1 + x)),
        .setPredicted (some (distOf fun _ => 1)) 0 none] := rfl
  have hwd : 0 < hi - lo := by linarith
  obtain ⟨m, h1, h2, h3⟩ := C28_mud_point_finite (env := env) Q (uniformOn Q.domain)
    (distOf fun x => 1 + x) (distOf fun _ => 1) (n := 2) (by norm_num) (by rw [hX]; rfl)
    ![1 / (hi - lo), if lo ≤ 1 ∧ 1 ≤ hi then 1 / (hi - lo) else 0] ![1, 1] ![1 + 0, 1 + 1] ![1, 1]
    (by rw [hw]; simp [demoP])
    (by
      rw [hX, hD]
      refine (densAt_uniformOn _ _ (by intro j; fin_cases j; simpa using hlt.le)).trans ?_
      have e0 : uniformPdf lo hi 0 = .fin (1 / (hi - lo)) := by
        unfold uniformPdf; rw [if_pos hwd, if_pos h0]
      have e1 : uniformPdf lo hi 1 = .fin (if lo ≤ 1 ∧ 1 ≤ hi then 1 / (hi - lo) else 0) := by
        unfold uniformPdf; rw [if_pos hwd]; split_ifs <;> rfl
      simp [e0, e1])
    (by rw [hy]; exact (demo_densAt _).trans (by simp))
    (by
      rw [hy]
      obtain ⟨o, h1, h2⟩ := demo_ravel (fun _ => 1)
      exact ⟨o, h1, h2.trans (by simp)⟩)
    (by intro k; fin_cases k <;> norm_num)
  rw [hset, h3]
  have hi' : 0 < (hi - lo)⁻¹ := inv_pos.2 hwd
  have hX0 : Q.X.get 0 0 = 0 := by rw [hX]; simp [demoP, Arr2.get]
  have hX1 : Q.X.get 1 0 = 1 := by rw [hX]; simp [demoP, Arr2.get]
  have hc : Q.X.c = 1 := by rw [hX]; rfl
  have hrow : ∀ i : ℕ, (List.ofFn fun j : Fin Q.X.c => Q.X.get i j) = [Q.X.get i 0] := by
    intro i
    rw [List.ofFn_congr hc]
    simp
  rw [hrow]
  have h10 := h1 0
  have h11 := h1 1
  split_ifs with hc
  · have : m = 1 := by
      by_contra hne
      have : m = 0 := by omega
      subst this
      simp [hc] at h11
      linarith
    subst this
    simp [hX1]
  · have : m = 0 := by
      by_contra hne
      have : m = 1 := by omega
      subst this
      simp [hc] at h10
      linarith
    subst this
    simp [hX0]

/-- **C37 is false of the code**: a successful plot between two identical sequences of settings
changes the estimate from 0 to 1. -/
theorem C37_estimate_refuted :
    (DP.mudPoint env (demoQ.after env demoSet)).1 = .ok [0] ∧
    (DP.plotParamSpace env false (5 / 100) false (demoQ.after env demoSet)).1 = .ok () ∧
    (DP.mudPoint env ((DP.plotParamSpace env false (5 / 100) false
      (demoQ.after env demoSet)).2.after env demoSet)).1 = .ok [1] := by
  have e1 := demoQ_estimate (env := env) demoQ 0 (98 / 100) (by norm_num) rfl rfl rfl rfl
    ⟨le_rfl, by norm_num⟩
  rw [if_neg (by norm_num)] at e1
  -- the state after the settings
  have hfr : ∀ Q : DP, (Q.after env demoSet).frame = Q.frame := by
    intro Q
    exact (frame_setPredicted _ _ _ _).trans ((frame_setObserved _ _).trans (frame_setInitial _ _))
  have hst : ∃ a b c : List F, demoQ.after env demoSet =
      { demoQ with init := some a, ob := some b, pr := some c } := by
    obtain ⟨a, ha⟩ : ∃ a, densAt (uniformOn demoQ.domain) demoQ.X = .ok a :=
      ⟨_, densAt_uniformOn _ _ (by intro j; fin_cases j; simp; norm_num)⟩
    obtain ⟨out, hout, hc⟩ := demo_ravel (fun _ => 1)
    obtain ⟨o1, ho1, ho1'⟩ := Py.bind_eq_ok.1 ha
    have hb : densAt (distOf fun x => 1 + x) demoQ.y = .ok _ := demo_densAt _
    obtain ⟨o2, ho2, ho2'⟩ := Py.bind_eq_ok.1 hb
    have hout : (distOf fun _ => 1).pdf demoQ.y = .ok out := hout
    refine ⟨a, List.ofFn ![F.fin (1 + 0), F.fin (1 + 1)], List.ofFn ![F.fin 1, F.fin 1], ?_⟩
    simp only [demoSet, DP.after, List.foldl_cons, List.foldl_nil, DOp.run, DP.setInitial,
      DP.setObserved, DP.setPredicted, DP.setWeightsIf, DP.predVals, PyM.get_bind_run,
      Option.getD_some, Option.getD_none, ho1, ho2,
      hout, PyM.lift_ok_bind, ho1', ho2', PyM.modify_run, PyM.pure_bind', Py.ok_bind, Py.pure_eq,
      hc]
    rfl
  obtain ⟨a, b, c, hst⟩ := hst
  have hp := plot_no_mud (env := env) (demoQ.after env demoSet) !![(0 : ℝ), 98 / 100]
    (congrArg (fun f => f.2.2.1) (hfr demoQ)) (by rw [hst]; rfl) (5 / 100)
  refine ⟨e1, by rw [hp], ?_⟩
  rw [hp]
  have hg : grown (demoQ.after env demoSet).domInt (5 / 100) !![(0 : ℝ), 98 / 100] =
      !![-(49 / 1000 : ℝ), 1029 / 1000] := by
    rw [show (demoQ.after env demoSet).domInt = false from
      congrArg (fun f => f.2.2.2) (hfr demoQ)]
    ext j k
    fin_cases j; fin_cases k <;> simp [grown, storeAs_false] <;> norm_num
  have e2 := demoQ_estimate (env := env)
    { (demoQ.after env demoSet) with
      domain := ⟨1, 2, grown (demoQ.after env demoSet).domInt (5 / 100) !![(0 : ℝ), 98 / 100]⟩ }
    (-(49 / 1000)) (1029 / 1000) (by norm_num)
    (congrArg (fun f => f.1) (hfr demoQ)) (congrArg (fun f => f.2.1) (hfr demoQ))
    (by rw [hst]; rfl) (by rw [hg]) (by norm_num)
  rw [if_pos (by norm_num)] at e2
  exact e2

/-- **C37 is false of the code.** -/
theorem C37_claim_refuted : ¬ C37_claim := by
  intro h
  have h1 := h ⟨fun _ _ _ => .error .unmodelled⟩ demoP false (5 / 100) true
  rw [C37_exact demoP !![(0 : ℝ), 1] rfl] at h1
  have h2 := congrFun (congrFun (Arr2.mk_inj.1 h1) 0) 1
  simp [grown, demoP, storeAs_false] at h2

/-! ## C38: `pad_domain` -/

/-- The full claim C38: without an explicit domain, the bounding box padded by `pad_domain`. -/
def C38_claim : Prop := ∀ (X y : NArr) (w : Option NArr) (nrm : Bool) (pad : ℝ) (xi : Bool) (P : DP),
  DP.new X y none w nrm pad xi = .ok P → fitDomain (some P.X) none pad xi = .ok P.domain

/-- **C38, what the code does.** The padding ratio is always 0.1. -/
theorem C38_exact {X y : NArr} {w : Option NArr} {nrm : Bool} {pad : ℝ} {xi di : Bool} {P : DP}
    (h : DP.new X y none w nrm pad xi di = .ok P) :
    fitDomain (some P.X) none (1 / 10) xi = .ok P.domain := by
  unfold DP.new at h
  dsimp only at h
  obtain ⟨dm, hdm, h⟩ := Py.bind_eq_ok.1 h
  obtain ⟨p, hp, h⟩ := Py.bind_eq_ok.1 h
  obtain ⟨v, -, h⟩ := Py.bind_eq_ok.1 h
  cases h
  cases hp
  exact hdm

/-- **C38, true part**: `pad_domain=0.1` (the default). -/
theorem C38_default_partial {X y : NArr} {w : Option NArr} {nrm : Bool} {xi di : Bool} {P : DP}
    (h : DP.new X y none w nrm (1 / 10) xi di = .ok P) :
    fitDomain (some P.X) none (1 / 10) xi = .ok P.domain := C38_exact h

/-- **C38, what the code does**: the argument is ignored. -/
theorem C38_ignored (X y : NArr) (dom w : Option NArr) (nrm : Bool) (pad pad' : ℝ) (xi di : Bool) :
    DP.new X y dom w nrm pad xi di = DP.new X y dom w nrm pad' xi di := rfl

theorem demoX_bounds : fitDomain (some ⟨2, 1, !![(0 : ℝ); 1]⟩) none (1 / 10) false =
    .ok ⟨1, 2, !![-(1 / 10 : ℝ), 11 / 10]⟩ := by
  rw [fitDomain_eq (n := 1) _ (1 / 10) false ![0] ![1]]
  · congr 1
    rw [Arr2.mk_inj]
    ext j k
    fin_cases j; fin_cases k <;> norm_num [storeAs_false]
  · intro j
    fin_cases j
    exact ⟨⟨0, rfl⟩, by rintro _ ⟨i, rfl⟩; fin_cases i <;> norm_num⟩
  · intro j
    fin_cases j
    exact ⟨⟨1, rfl⟩, by rintro _ ⟨i, rfl⟩; fin_cases i <;> norm_num⟩

theorem demo_new_nodom (pad : ℝ) : DP.new demoX demoX none none false pad = .ok
    { demoP with domain := ⟨1, 2, !![-(1 / 10 : ℝ), 11 / 10]⟩ } := by
  unfold DP.new
  dsimp only
  rw [show (NArr.shapeRow demoX) = ⟨2, 1, !![(0 : ℝ); 1]⟩ from rfl, demoX_bounds]
  rfl

/-- **C38 is false of the code**: with `pad_domain=0` samples 0 and 1 give `[-0.1, 1.1]`. -/
theorem C38_claim_refuted : ¬ C38_claim := by
  intro h
  have h1 := h demoX demoX none false 0 false _ (demo_new_nodom 0)
  rw [show ({ demoP with domain := ⟨1, 2, !![-(1 / 10 : ℝ), 11 / 10]⟩ } : DP).X =
    ⟨2, 1, !![(0 : ℝ); 1]⟩ from rfl,
    fitDomain_eq (n := 1) _ 0 false ![0] ![1]
      (by
        intro j
        fin_cases j
        exact ⟨⟨0, rfl⟩, by rintro _ ⟨i, rfl⟩; fin_cases i <;> norm_num⟩)
      (by
        intro j
        fin_cases j
        exact ⟨⟨1, rfl⟩, by rintro _ ⟨i, rfl⟩; fin_cases i <;> norm_num⟩)] at h1
  injection h1 with h1
  have h2 := congrFun (congrFun (Arr2.mk_inj.1 h1) 0) 0
  norm_num [storeAs_false] at h2

/-! ## C39: one-dimensional `X` -/

/-- The full claim C39: a 1-D `X` of length `n` is `n` samples of one parameter. -/
def C39_claim : Prop := ∀ (n : ℕ) (v : Fin n → ℝ) (y : NArr) (dom w : Option NArr) (nrm : Bool)
  (P : DP), DP.new (.vec n v) y dom w nrm = .ok P → P.X = Arr2.col v

theorem new_X {X y : NArr} {dom w : Option NArr} {nrm : Bool} {pad : ℝ} {xi di : Bool} {P : DP}
    (h : DP.new X y dom w nrm pad xi di = .ok P) : P.X = X.shapeRow ∧ P.y = y.shapeCol := by
  unfold DP.new at h
  dsimp only at h
  cases dom with
  | none =>
    obtain ⟨dm, -, h⟩ := Py.bind_eq_ok.1 h
    obtain ⟨_, -, h⟩ := Py.bind_eq_ok.1 h
    obtain ⟨v, -, h⟩ := Py.bind_eq_ok.1 h
    cases h
    exact ⟨rfl, rfl⟩
  | some d =>
    obtain ⟨dm, -, h⟩ := Py.bind_eq_ok.1 h
    obtain ⟨_, -, h⟩ := Py.bind_eq_ok.1 h
    obtain ⟨v, -, h⟩ := Py.bind_eq_ok.1 h
    cases h
    exact ⟨rfl, rfl⟩

/-- **C39, what the code does**: a 1-D `X` of length `n` is *one* sample of `n` parameters
(while a 1-D `y` is one feature of `n` samples), and an estimate that is returned is all of `X`. -/
theorem C39_exact {n : ℕ} (v : Fin n → ℝ) {y : NArr} {dom w : Option NArr} {nrm : Bool} {pad : ℝ}
    {xi di : Bool} {P : DP} (h : DP.new (.vec n v) y dom w nrm pad xi di = .ok P) :
    P.X = Arr2.row v ∧ P.n_params = n ∧
      ∀ (ops : List DOp) (x : List ℝ), (DP.mudPoint env (P.after env ops)).1 = .ok x →
        x = List.ofFn v := by
  have hX := (new_X h).1
  refine ⟨hX, by rw [DP.n_params, hX]; rfl, fun ops x hx => ?_⟩
  obtain ⟨i, hi⟩ := C28_is_sample h ops hx
  rw [hi]
  revert i
  rw [hX]
  intro i _
  rfl

/-- **C39, true part**: one sample of one parameter. -/
theorem C39_single_partial (v : Fin 1 → ℝ) {y : NArr} {dom w : Option NArr} {nrm : Bool} {pad : ℝ}
    {xi di : Bool} {P : DP} (h : DP.new (.vec 1 v) y dom w nrm pad xi di = .ok P) :
    P.X = Arr2.col v := by
  rw [(new_X h).1]
  change Arr2.row v = Arr2.col v
  unfold Arr2.row Arr2.col
  rw [Arr2.mk_inj]
  ext i j
  fin_cases i; fin_cases j; rfl

theorem demo_new_vec : DP.new (.vec 2 ![0, 1]) (.mat ⟨1, 1, !![(0 : ℝ)]⟩)
    (some (.mat ⟨2, 2, !![(0 : ℝ), 1; 0, 1]⟩)) = .ok
    { X := Arr2.row ![0, 1], y := ⟨1, 1, !![(0 : ℝ)]⟩, domain := ⟨2, 2, !![(0 : ℝ), 1; 0, 1]⟩
      domInt := false, weights := [.fin 1] } := rfl

/-- **C39 is false of the code.** -/
theorem C39_claim_refuted : ¬ C39_claim := by
  intro h
  have h1 := h 2 ![0, 1] _ _ _ false _ demo_new_vec
  have h2 := congrArg Arr2.r h1
  change 1 = 2 at h2
  omega

/-- **C39 is false of the code** for `BayesProblem` as well: `X` and `y` are one row. -/
theorem C39_bayes_exact {n : ℕ} (v : Fin n → ℝ) {y : NArr} {dom : Option NArr} {xi : Bool} {P : BP}
    (h : BP.new (.vec n v) y dom xi = .ok P) : P.X = Arr2.row v ∧ P.y = y.shapeRow := by
  unfold BP.new at h
  dsimp only at h
  cases dom with
  | none =>
    obtain ⟨dm, -, h⟩ := Py.bind_eq_ok.1 h
    cases h
    exact ⟨rfl, rfl⟩
  | some d =>
    obtain ⟨dm, -, h⟩ := Py.bind_eq_ok.1 h
    obtain ⟨_, -, h⟩ := Py.bind_eq_ok.1 h
    cases h
    exact ⟨rfl, rfl⟩

/-! ### Further cases meeting the hypotheses -/

example := C36_float !![(1 : ℝ), 10; 0, -10] (1 / 10)

example := C36_int !![(1 : ℤ), 10; 0, -10] (1 / 10) (by norm_num)

/-- A plot before any distribution is set fails, and has widened the domain. -/
example {env : Env} : DP.plotParamSpace env false 1 true demoP = (.error .assertionError,
    { demoP with domain := ⟨1, 2, grown demoP.domInt 1 !![(0 : ℝ), 1]⟩ }) :=
  C37_failing_plot demoP !![(0 : ℝ), 1] rfl rfl 1 true

/-- The concrete samples without a domain. -/
example := C38_exact (demo_new_nodom 0)
example := C38_default_partial (demo_new_nodom (1 / 10))

/-- A 1-D array of samples: one sample of two parameters. -/
example {env : Env} := (C39_exact (env := env) ![0, 1] demo_new_vec).2.2 []

example : ∃ P, BP.new (.vec 2 ![0, 1]) (.vec 2 ![3, 4]) (some (.mat ⟨2, 2, !![(0 : ℝ), 1; 0, 1]⟩)) = .ok P ∧
    P.X = Arr2.row ![0, 1] :=
  ⟨_, rfl, (C39_bayes_exact (y := .vec 2 ![3, 4]) (dom := some (.mat ⟨2, 2, !![(0 : ℝ), 1; 0, 1]⟩)) (xi := false) ![0, 1] rfl).1⟩

example : ∃ P, DP.new (.vec 1 ![3]) (.mat ⟨1, 1, !![(0 : ℝ)]⟩) (some (.mat ⟨1, 2, !![(0 : ℝ), 5]⟩)) = .ok P ∧
    P.X = Arr2.col ![3] :=
  ⟨_, rfl, C39_single_partial (y := .mat ⟨1, 1, !![(0 : ℝ)]⟩) (dom := some (.mat ⟨1, 2, !![(0 : ℝ), 5]⟩)) (w := none) (nrm := false) (pad := 1 / 10) (xi := false) (di := false) ![3] rfl⟩

end Verif
