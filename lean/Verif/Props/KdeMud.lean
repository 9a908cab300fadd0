import Verif.Props.KdeUniform

/-!
# C145: the MUD point with the default predicted density

`DensityProblem` with independent samples and no predicted density given. If the observed density is concentrated where
the density of the outputs is continuous and positive, the estimates converge to the maximiser of the updated density.
Otherwise they need not: the kernel density estimate halves the density at the end of an interval, so that the estimate
can be drawn to the boundary.
-/

open MeasureTheory ProbabilityTheory Filter Topology WithLp Complex

namespace Verif

variable {p q : ℕ} {Ω : Type} [MeasurableSpace Ω] {user : ℕ → ℝ → ℕ → ℝ}

/-! ## The session -/

/-- `P = DensityProblem(X, y, domain, weights)` on the first `n` samples, `P.set_initial(di)` (`di = None`: the default,
uniform on the domain), `P.set_observed(do_)`; the predicted density is left to `fit`. -/
noncomputable def sampledDefault (user : ℕ → ℝ → ℕ → ℝ) (x : ℕ → Fin p → ℝ) (Q : (Fin p → ℝ) → Fin q → ℝ)
    (dom : Option (Matrix (Fin p) (Fin 2) ℝ)) (W : Option ((Fin p → ℝ) → ℝ)) (di : Option Dist) (do_ : Dist) (n : ℕ) :
    Py DP := do
  let P ← sampledNew x Q dom W n
  return P.after (scipyEnv user) [.setInitial di, .setObserved (some do_)]

/-- The initial distribution in force evaluates `a`: the one given, or the uniform distribution on the domain given. -/
def InitialIs (di : Option Dist) (dom : Option (Matrix (Fin p) (Fin 2) ℝ)) (a : (Fin p → ℝ) → ℝ) : Prop :=
  match di, dom with
  | some d, _ => d.Evaluates a
  | none, some D => (uniformOn ⟨p, 2, D⟩).Evaluates a
  | none, none => False

theorem sampledNew_domain {x : ℕ → Fin p → ℝ} {Q : (Fin p → ℝ) → Fin q → ℝ} {D : Matrix (Fin p) (Fin 2) ℝ}
    {W : Option ((Fin p → ℝ) → ℝ)} {n : ℕ} {S : DP} (h : sampledNew x Q (some D) W n = .ok S) :
    S.domain = ⟨p, 2, D⟩ := by
  unfold sampledNew DP.new at h
  simp only [NArr.shapeRow, Option.map_some] at h
  rw [pyAssert_true trivial] at h
  obtain ⟨d, hd, h⟩ := Py.bind_eq_ok.1 h
  obtain ⟨w, hw, h⟩ := Py.bind_eq_ok.1 h
  obtain ⟨v, -, h⟩ := Py.bind_eq_ok.1 h
  cases hw
  cases h
  rfl

/-- The first fit of the session stores the ratios and the updated densities with the kernel estimate as predicted
density. -/
theorem default_fit {x : ℕ → Fin p → ℝ} {Q : (Fin p → ℝ) → Fin q → ℝ}
    {dom : Option (Matrix (Fin p) (Fin 2) ℝ)} {W : Option ((Fin p → ℝ) → ℝ)} {di : Option Dist} {do_ : Dist}
    {a : (Fin p → ℝ) → ℝ} {f ρ : (Fin q → ℝ) → ℝ} (ha : InitialIs di dom a) (hf : do_.Evaluates f)
    {n : ℕ} (hn : 0 < n) (h : Predicts user x Q dom W 0 n ρ) :
    ∃ S S', sampledDefault user x Q dom W di do_ n = .ok S ∧ S.up = none ∧
      DP.fit (scipyEnv user) none 0 none S = (.ok (), S') ∧ S'.X = ⟨n, p, .of fun k => x k⟩ ∧
      S'.weights = List.ofFn (fun k : Fin n => F.fin (weightFn W (x k))) ∧
      S'.r = some (List.ofFn fun k : Fin n => F.fin (f (Q (x k))) / F.fin (ρ (Q (x k)))) ∧
      S'.up = some ((List.ofFn fun k : Fin n => updatedFn a W Q f ρ (x k)).map F.fin) := by
  obtain ⟨S, hS, h1, h2, h3⟩ := h
  obtain ⟨S', hS', hX, hy, hw⟩ := sampled_new x Q dom W hn
  have hSS : S = S' := by
    have : sampledNew x Q dom W n = .ok S' := hS'
    rw [hS] at this
    exact Except.ok.inj this
  subst hSS
  obtain ⟨v, hv⟩ := (setPredicted_kde_iff 0).1 h1
  rw [setPredicted_kde 0 hv] at h2
  have hv2 : v = List.ofFn fun k : Fin n => F.fin (ρ (Q (x k))) := Option.some.inj h2
  have hini : densAt (di.getD (uniformOn S.domain)) S.X = .ok (List.ofFn fun k : Fin n => F.fin (a (x k))) := by
    cases di with
    | some d => rw [hX]; exact ha n _
    | none =>
      cases dom with
      | none => exact ha.elim
      | some D =>
        rw [hX, Option.getD_none, sampledNew_domain hS]
        exact ha n _
  have hob : densAt do_ S.y = .ok (List.ofFn fun k : Fin n => F.fin (f (Q (x k)))) := by
    rw [hy]; exact hf n _
  obtain ⟨o1, ho1, ho1'⟩ := Py.bind_eq_ok.1 hini
  obtain ⟨o2, ho2, ho2'⟩ := Py.bind_eq_ok.1 hob
  have e : S.after (scipyEnv user) [.setInitial di, .setObserved (some do_)] =
      { S with
        init := some (List.ofFn fun k : Fin n => F.fin (a (x k)))
        ob := some (List.ofFn fun k : Fin n => F.fin (f (Q (x k))))
        pr := none, up := none } := by
    simp only [DP.after, List.foldl_cons, List.foldl_nil, DOp.run, DP.setInitial, DP.setObserved,
      PyM.get_bind_run, ho1, ho2, Option.getD_some, PyM.lift_ok_bind, ho1', ho2', PyM.modify_run]
  set T : DP := { S with
    init := some (List.ofFn fun k : Fin n => F.fin (a (x k)))
    ob := some (List.ofFn fun k : Fin n => F.fin (f (Q (x k))))
    pr := none, up := none } with hT
  have hsp : DP.setPredicted (scipyEnv user) none 0 none T =
      (.ok (), { T with pr := some (List.ofFn fun k : Fin n => F.fin (ρ (Q (x k)))), up := none }) := by
    rw [← hv2]
    exact setPredicted_kde (Q := T) 0 hv
  have hfit : DP.fit (scipyEnv user) none 0 none T = DP.fit (scipyEnv user) none 0 none
      { T with pr := some (List.ofFn fun k : Fin n => F.fin (ρ (Q (x k)))), up := none } := by
    conv_lhs => unfold DP.fit
    conv_rhs => unfold DP.fit
    simp only [PyM.get_bind_run, hT, Option.isNone_some, PyM.when_false, PyM.pure_bind', Option.isNone_none,
      PyM.when_true]
    rw [PyM.bind_run, ← hT, hsp]
    simp only [PyM.get_bind_run, hT, Option.isNone_some, PyM.when_false, PyM.pure_bind']
  rw [DP.fit_set none 0 none { T with pr := some (List.ofFn fun k : Fin n => F.fin (ρ (Q (x k)))), up := none }
    (fun k : Fin n => F.fin (a (x k))) (fun k : Fin n => F.fin (weightFn W (x k)))
    (fun k : Fin n => F.fin (f (Q (x k)))) (fun k : Fin n => F.fin (ρ (Q (x k)))) hw rfl rfl rfl] at hfit
  have eu : (List.ofFn fun k : Fin n => F.fin (a (x k)) * F.fin (weightFn W (x k)) *
      (F.fin (f (Q (x k))) / F.fin (ρ (Q (x k))))) =
      (List.ofFn fun k : Fin n => updatedFn a W Q f ρ (x k)).map F.fin := by
    rw [List.map_ofFn]
    congr 1; funext k
    rw [F.fin_div_of_ne _ (h3.pos _).ne']; rfl
  rw [eu] at hfit
  exact ⟨T, _, by rw [sampledDefault, hS, ← e]; rfl, rfl, hfit, hX, hw, rfl, rfl⟩

/-- The estimate of the session is one of the samples where initial × weight × observed / kernel estimate is largest. -/
theorem default_best {x : ℕ → Fin p → ℝ} {Q : (Fin p → ℝ) → Fin q → ℝ}
    {dom : Option (Matrix (Fin p) (Fin 2) ℝ)} {W : Option ((Fin p → ℝ) → ℝ)} {di : Option Dist} {do_ : Dist}
    {a : (Fin p → ℝ) → ℝ} {f ρ : (Fin q → ℝ) → ℝ} (ha : InitialIs di dom a) (hf : do_.Evaluates f)
    {n : ℕ} (hn : 0 < n) (h : Predicts user x Q dom W 0 n ρ) :
    ∃ S e, sampledDefault user x Q dom W di do_ n = .ok S ∧
      (DP.mudPoint (scipyEnv user) S).1 = .ok (List.ofFn e) ∧ BestOf x (updatedFn a W Q f ρ) n e := by
  obtain ⟨S, S', hS, hup, hfit, hX, -, -, hu⟩ := default_fit (di := di) ha hf hn h
  obtain ⟨m, hm, hm'⟩ := npArgmax_spec (l := (List.ofFn fun k : Fin n => updatedFn a W Q f ρ (x k)).map F.fin)
    (by intro h; rw [List.map_eq_nil_iff, List.ofFn_eq_nil_iff] at h; omega)
  rw [isArgmax_fin] at hm'
  obtain ⟨hm0, -, h5⟩ := hm'
  have hmn : m < n := by simpa using hm0
  have e2 : S'.X.rowAt m = .ok (List.ofFn (x m)) := by
    rw [hX]
    unfold Arr2.rowAt
    rw [dif_pos hmn]
    rfl
  refine ⟨S, x m, hS, ?_, m, hmn, rfl, fun k hk => ?_⟩
  · unfold DP.mudPoint
    rw [PyM.get_bind_run]
    have : S.up.isNone = true := by rw [hup]; rfl
    rw [this, PyM.when_true, PyM.bind_run, hfit]
    simp only [PyM.get_bind_run, hu, DP.theAttr, PyM.lift_ok_bind, hm, PyM.lift_run]
    exact e2
  · have := h5 k (by simpa using hk)
    simpa using this

theorem default_path {x : ℕ → Fin p → ℝ} {Q : (Fin p → ℝ) → Fin q → ℝ}
    {dom : Option (Matrix (Fin p) (Fin 2) ℝ)} {W : Option ((Fin p → ℝ) → ℝ)} {di : Option Dist} {do_ : Dist}
    {a : (Fin p → ℝ) → ℝ} {f : (Fin q → ℝ) → ℝ} {ρ : ℕ → (Fin q → ℝ) → ℝ} (ha : InitialIs di dom a)
    (hf : do_.Evaluates f) (h : ∀ᶠ n in atTop, Predicts user x Q dom W 0 n (ρ n)) :
    ∃ e : ℕ → Fin p → ℝ, (∀ᶠ n in atTop, ∃ S, sampledDefault user x Q dom W di do_ n = .ok S ∧
        (DP.mudPoint (scipyEnv user) S).1 = .ok (List.ofFn (e n))) ∧
      ∀ᶠ n in atTop, BestOf x (updatedFn a W Q f (ρ n)) n (e n) := by
  have h0 : ∀ n, ∃ e, 0 < n → Predicts user x Q dom W 0 n (ρ n) →
      (∃ S, sampledDefault user x Q dom W di do_ n = .ok S ∧
        (DP.mudPoint (scipyEnv user) S).1 = .ok (List.ofFn e)) ∧
      BestOf x (updatedFn a W Q f (ρ n)) n e := by
    intro n
    by_cases hn : 0 < n ∧ Predicts user x Q dom W 0 n (ρ n)
    · obtain ⟨S, e, hS, he, hb⟩ := default_best (di := di) ha hf hn.1 hn.2
      exact ⟨e, fun _ _ => ⟨⟨S, hS, he⟩, hb⟩⟩
    · exact ⟨0, fun h1 h2 => absurd ⟨h1, h2⟩ hn⟩
  choose e he using h0
  have hev : ∀ᶠ n in atTop, _ := (h.and (eventually_gt_atTop 0)).mono fun n hn => he n hn.2 hn.1
  exact ⟨e, hev.mono fun n h => h.1, hev.mono fun n h => h.2⟩

/-! ## Convergence -/

theorem best_uniform {x : ℕ → Fin p → ℝ} {u : (Fin p → ℝ) → ℝ} {x₀ : Fin p → ℝ} (hu : IsPeak u x₀)
    (hhit : ∀ η < u x₀, ∃ k, η < u (x k)) {un : ℕ → (Fin p → ℝ) → ℝ}
    (hun : TendstoUniformlyOn un u atTop (Set.range x)) {e : ℕ → Fin p → ℝ}
    (he : ∀ᶠ n in atTop, BestOf x (un n) n (e n)) : Tendsto e atTop (𝓝 x₀) := by
  rw [Metric.tendsto_nhds]
  intro ε hε
  obtain ⟨η, hη, hsep⟩ := hu.sep ε hε
  obtain ⟨k, hk⟩ := hhit ((u x₀ + η) / 2) (by linarith)
  have h1 := Metric.tendstoUniformlyOn_iff.1 hun ((u x₀ - η) / 4) (by linarith)
  filter_upwards [he, h1, eventually_gt_atTop k] with n ⟨m, hm, hem, hb⟩ h2 hkn
  by_contra hcon
  rw [not_lt] at hcon
  have h3 := hb k hkn
  have h4 := h2 (x k) ⟨k, rfl⟩
  have h5 := h2 (x m) ⟨m, rfl⟩
  rw [Real.dist_eq, abs_lt] at h4 h5
  have h6 := hsep (x m) (hem ▸ hcon)
  linarith [h4.2, h5.1]

theorem hit_levels {P : Measure Ω} {x : ℕ → Ω → Fin p → ℝ} {τ : Measure (Fin p → ℝ)} [IsProbabilityMeasure τ]
    (hi : iIndepFun x P) (hx : ∀ k, HasLaw (x k) τ P) {u : (Fin p → ℝ) → ℝ} {x₀ : Fin p → ℝ} (hu : ContinuousAt u x₀)
    (hτ : ∀ U, IsOpen U → x₀ ∈ U → τ U ≠ 0) : ∀ᵐ ω ∂P, ∀ η < u x₀, ∃ k, η < u (x k ω) := by
  have h1 : ∀ᵐ ω ∂P, ∀ i : ℕ, ∃ k, u x₀ - 1 / ((i : ℝ) + 1) < u (x k ω) := by
    rw [ae_all_iff]
    intro i
    have hn : {y | u x₀ - 1 / ((i : ℝ) + 1) < u y} ∈ 𝓝 x₀ :=
      hu.eventually_const_lt (sub_lt_self _ (by positivity))
    obtain ⟨U, hU, ho, hm⟩ := mem_nhds_iff.1 hn
    filter_upwards [hit_ae hi hx ho.measurableSet (hτ U ho hm)] with ω ⟨k, hk⟩
    exact ⟨k, hU hk⟩
  filter_upwards [h1] with ω h η hη
  obtain ⟨i, hi⟩ := exists_nat_one_div_lt (sub_pos.2 hη)
  obtain ⟨k, hk⟩ := h i
  exact ⟨k, by linarith⟩

/-- **C145**, proved part: samples drawn independently from `τ` with bounded weights `W > 0`, `μ = W τ` the initial
distribution, any number of outputs with finite second moments and a bounded density `g`. The observed density `f` is
bounded and vanishes outside a compact set at whose points `g` is continuous and positive; the initial density in force
`a` is bounded. Then almost surely `estimate` returns for all large numbers of samples, with the default predicted density,
and the estimates converge to the peak `x₀` of the updated density, provided `τ` charges its neighbourhoods.
Missing from the claim: observed densities that do not vanish where the density of the outputs is discontinuous or 0. -/
theorem C145_interior_partial {P : Measure Ω} {x : ℕ → Ω → Fin p → ℝ} {τ μ : Measure (Fin p → ℝ)} [IsProbabilityMeasure μ]
    (hi : iIndepFun x P) (hx : ∀ k, HasLaw (x k) τ P)
    (W : Option ((Fin p → ℝ) → ℝ)) (hWm : Measurable (weightFn W)) (hW : ∀ l, 0 < weightFn W l)
    {M : ℝ} (hM : ∀ l, weightFn W l ≤ M) (hμ : μ = τ.withDensity fun l => ENNReal.ofReal (weightFn W l))
    {Q : (Fin p → ℝ) → Fin q → ℝ} (hQ : Measurable Q) (hq : 0 < q)
    (h2 : ∀ j, Integrable (fun l => Q l j ^ 2) μ)
    {g : (Fin q → ℝ) → ℝ} (hgm : Measurable g) (hg0 : ∀ z, 0 ≤ g z) {B : ℝ} (hB : ∀ z, g z ≤ B)
    (hg : μ.map Q = volume.withDensity fun z => ENNReal.ofReal (g z))
    {di : Option Dist} {do_ : Dist} {dom : Option (Matrix (Fin p) (Fin 2) ℝ)}
    {a : (Fin p → ℝ) → ℝ} {f : (Fin q → ℝ) → ℝ} (ha : InitialIs di dom a) (hf : do_.Evaluates f)
    {A : ℝ} (hA : ∀ l, |a l| ≤ A) {Bf : ℝ} (hBf : ∀ z, |f z| ≤ Bf)
    {K : Set (Fin q → ℝ)} (hK : IsCompact K) (hgK : ∀ z ∈ K, ContinuousAt g z ∧ 0 < g z) (hfK : ∀ z, z ∉ K → f z = 0)
    {x₀ : Fin p → ℝ} (hu : IsPeak (updatedFn a W Q f g) x₀) (hτ : ∀ U, IsOpen U → x₀ ∈ U → τ U ≠ 0) :
    ∀ᵐ ω ∂P, ∃ e : ℕ → Fin p → ℝ,
      (∀ᶠ n in atTop, ∃ S, sampledDefault user (fun k => x k ω) Q dom W di do_ n = .ok S ∧
        (DP.mudPoint (scipyEnv user) S).1 = .ok (List.ofFn (e n))) ∧
      Tendsto e atTop (𝓝 x₀) := by
  have hτp : IsProbabilityMeasure τ := by
    have := hi.isProbabilityMeasure
    exact (hx 0).map_eq ▸ Measure.isProbabilityMeasure_map (hx 0).aemeasurable
  obtain ⟨c, hc0, hc⟩ : ∃ c > 0, ∀ z ∈ K, c ≤ g z := by
    rcases K.eq_empty_or_nonempty with rfl | hne
    · exact ⟨1, one_pos, fun z hz => hz.elim⟩
    · obtain ⟨z, hz, hmin⟩ := hK.exists_isMinOn hne fun z hz => (hgK z hz).1.continuousWithinAt
      exact ⟨g z, (hgK z hz).2, fun z' hz' => hmin hz'⟩
  have hA0 : 0 ≤ A := (abs_nonneg _).trans (hA 0)
  have hB0 : 0 ≤ Bf := (abs_nonneg _).trans (hBf 0)
  have hM0 : 0 < M := (hW 0).trans_le (hM 0)
  filter_upwards [C144_uniform (user := user) hi hx W hWm hW hM hμ hQ hq h2 hgm hg0 hB hg dom two_pos,
    hit_levels hi hx hu.cont hτ] with ω ⟨ρ, h3, h4⟩ h5
  have h6 := Metric.tendstoUniformlyOn_iff.1 (h4 K hK fun z hz => (hgK z hz).1)
  have hun : TendstoUniformly (fun n => updatedFn a W Q f (ρ n)) (updatedFn a W Q f g) atTop := by
    rw [Metric.tendstoUniformly_iff]
    intro ε hε
    set L := A * M * (Bf * (2 / c ^ 2)) + 1 with hL
    have hL0 : 0 < L := by positivity
    filter_upwards [h6 (min (c / 2) (ε / L)) (by positivity)] with n h7 l
    by_cases hz : Q l ∈ K
    · have h8 := h7 _ hz
      rw [Real.dist_eq, lt_min_iff] at h8
      have hcg := hc _ hz
      have hρ : c / 2 ≤ ρ n (Q l) := by have := (abs_lt.1 h8.1).2; linarith
      have hgp : 0 < g (Q l) := by linarith
      have hρp : 0 < ρ n (Q l) := by linarith
      have e1 : updatedFn a W Q f g l - updatedFn a W Q f (ρ n) l =
          a l * weightFn W l * (f (Q l) * ((ρ n (Q l) - g (Q l)) / (g (Q l) * ρ n (Q l)))) := by
        unfold updatedFn
        field_simp
      rw [Real.dist_eq, e1, abs_mul, abs_mul, abs_mul, abs_div, abs_of_pos (mul_pos hgp hρp), abs_of_pos (hW l),
        abs_sub_comm]
      have h9 : |g (Q l) - ρ n (Q l)| / (g (Q l) * ρ n (Q l)) ≤ 2 / c ^ 2 * (ε / L) := by
        rw [div_le_iff₀ (mul_pos hgp hρp)]
        have : c * (c / 2) ≤ g (Q l) * ρ n (Q l) := mul_le_mul hcg hρ (by positivity) hgp.le
        have h10 : 2 / c ^ 2 * (ε / L) * (c * (c / 2)) = ε / L := by field_simp
        have h11 : 0 ≤ 2 / c ^ 2 * (ε / L) := by positivity
        nlinarith [h8.2, mul_le_mul_of_nonneg_left this h11]
      calc |a l| * weightFn W l * (|f (Q l)| * (|g (Q l) - ρ n (Q l)| / (g (Q l) * ρ n (Q l))))
          ≤ A * M * (Bf * (2 / c ^ 2 * (ε / L))) := by
            have := (hW l).le
            gcongr
            · exact hA l
            · exact hM l
            · exact hBf _
        _ = (L - 1) * (ε / L) := by rw [hL]; ring
        _ < ε := by
          rw [sub_mul, mul_div_cancel₀ _ hL0.ne', one_mul]
          have : 0 < ε / L := by positivity
          linarith
    · have : updatedFn a W Q f g l = updatedFn a W Q f (ρ n) l := by
        unfold updatedFn
        rw [hfK _ hz, zero_div, zero_div]
      rw [this, dist_self]
      exact hε
  obtain ⟨e, he, hb⟩ := default_path (di := di) ha hf h3
  exact ⟨e, he, best_uniform hu h5 (hun.tendstoUniformlyOn) hb⟩

/-! ## The uniform distribution on the unit interval -/

/-- The uniform distribution on the unit interval. -/
noncomputable def unitLaw : Measure (Fin 1 → ℝ) := volume.restrict (Set.Icc 0 1)

open Classical in
/-- Its density. -/
noncomputable def unitPdf (z : Fin 1 → ℝ) : ℝ := if 0 ≤ z 0 ∧ z 0 ≤ 1 then 1 else 0

theorem mem_unit {z : Fin 1 → ℝ} : z ∈ Set.Icc (0 : Fin 1 → ℝ) 1 ↔ 0 ≤ z 0 ∧ z 0 ≤ 1 := by
  rw [Set.mem_Icc, Pi.le_def, Pi.le_def]
  constructor
  · exact fun h => ⟨h.1 0, h.2 0⟩
  · exact fun h => ⟨fun j => by rw [Subsingleton.elim j 0]; exact h.1, fun j => by rw [Subsingleton.elim j 0]; exact h.2⟩

theorem unitPdf_in {z : Fin 1 → ℝ} (h0 : 0 ≤ z 0) (h1 : z 0 ≤ 1) : unitPdf z = 1 := if_pos ⟨h0, h1⟩

theorem unitPdf_nonneg (z : Fin 1 → ℝ) : 0 ≤ unitPdf z := by
  unfold unitPdf; split_ifs <;> norm_num

theorem unitPdf_le (z : Fin 1 → ℝ) : unitPdf z ≤ 1 := by
  unfold unitPdf; split_ifs <;> norm_num

theorem unitPdf_indicator : unitPdf = (Set.Icc (0 : Fin 1 → ℝ) 1).indicator 1 := by
  classical
  funext z
  rw [Set.indicator_apply, unitPdf]
  simp only [mem_unit, Pi.one_apply]

theorem unitPdf_measurable : Measurable unitPdf := by
  rw [unitPdf_indicator]
  exact measurable_one.indicator measurableSet_Icc

theorem unitLaw_density : unitLaw = volume.withDensity fun z => ENNReal.ofReal (unitPdf z) := by
  rw [unitLaw, ← withDensity_indicator_one measurableSet_Icc]
  congr 1
  funext z
  rw [unitPdf_indicator]
  by_cases h : z ∈ Set.Icc (0 : Fin 1 → ℝ) 1
  · rw [Set.indicator_of_mem h, Set.indicator_of_mem h]; simp
  · rw [Set.indicator_of_notMem h, Set.indicator_of_notMem h]; simp

instance unitLaw_prob : IsProbabilityMeasure unitLaw := by
  constructor
  rw [unitLaw, Measure.restrict_apply_univ, Real.volume_Icc_pi]
  simp

theorem unitLaw_upper {c : ℝ} (h1 : c ≤ 1) : unitLaw {y | 1 - c < y 0} = ENNReal.ofReal c := by
  have hm : MeasurableSet {y : Fin 1 → ℝ | 1 - c < y 0} := measurableSet_lt measurable_const (measurable_pi_apply 0)
  rw [unitLaw, Measure.restrict_apply hm]
  have : {y : Fin 1 → ℝ | 1 - c < y 0} ∩ Set.Icc 0 1 = Set.univ.pi fun _ => Set.Ioc (1 - c) 1 := by
    ext y
    rw [Set.mem_inter_iff, mem_unit, Set.mem_univ_pi, Set.mem_ofPred_eq]
    constructor
    · intro h j
      rw [Subsingleton.elim j 0]
      exact ⟨h.1, h.2.2⟩
    · intro h
      have := h 0
      rw [Set.mem_Ioc] at this
      exact ⟨this.1, by linarith, this.2⟩
  rw [this, volume_pi, Measure.pi_pi]
  simp [Real.volume_Ioc]

/-- Almost surely, from some number `n` of samples on one of them is within `n ^ (-1/2)` of the end of the interval. -/
theorem near_end {P : Measure Ω} {x : ℕ → Ω → Fin 1 → ℝ} (hi : iIndepFun x P) (hx : ∀ k, HasLaw (x k) unitLaw P) :
    ∀ᵐ ω ∂P, ∀ᶠ n : ℕ in atTop, ∃ k < n, 1 - (n : ℝ) ^ (-(1 / 2) : ℝ) < x k ω 0 := by
  set bad : ℕ → Set Ω := fun n => {ω | 0 < n ∧ ∀ k < n, x k ω ∉ {y | 1 - (n : ℝ) ^ (-(1 / 2) : ℝ) < y 0}} with hbad
  have hb : ∀ n, P (bad n) ≤ ENNReal.ofReal ((((2 * n ^ 2 + 1) ^ 0 : ℕ) : ℝ) *
      (4 * Real.exp (-1 * (n : ℝ) ^ (1 / 9 : ℝ)))) := by
    intro n
    rcases Nat.eq_zero_or_pos n with rfl | hn
    · have : bad 0 = ∅ := by ext ω; simp [hbad]
      rw [this, measure_empty]
      exact zero_le
    · have hn' : (1 : ℝ) ≤ n := by exact_mod_cast hn
      have hm : MeasurableSet {y : Fin 1 → ℝ | 1 - (n : ℝ) ^ (-(1 / 2) : ℝ) < y 0} :=
        measurableSet_lt measurable_const (measurable_pi_apply 0)
      have e : bad n = {ω | ∀ k < n, x k ω ∉ {y | 1 - (n : ℝ) ^ (-(1 / 2) : ℝ) < y 0}} := by
        ext ω; simp [hbad, hn]
      have hc0 : 0 ≤ (n : ℝ) ^ (-(1 / 2) : ℝ) := by positivity
      have hc1 : (n : ℝ) ^ (-(1 / 2) : ℝ) ≤ 1 := Real.rpow_le_one_of_one_le_of_nonpos hn' (by norm_num)
      rw [e, miss_prob hi hx hm, unitLaw_upper hc1, ← ENNReal.ofReal_one,
        ← ENNReal.ofReal_sub _ hc0, ← ENNReal.ofReal_pow (by linarith)]
      refine ENNReal.ofReal_le_ofReal ?_
      have h1 : 1 - (n : ℝ) ^ (-(1 / 2) : ℝ) ≤ Real.exp (-(n : ℝ) ^ (-(1 / 2) : ℝ)) := by
        have := Real.add_one_le_exp (-(n : ℝ) ^ (-(1 / 2) : ℝ))
        linarith
      have h2 : (1 - (n : ℝ) ^ (-(1 / 2) : ℝ)) ^ n ≤ Real.exp (-(n : ℝ) ^ (-(1 / 2) : ℝ)) ^ n :=
        pow_le_pow_left₀ (by linarith) h1 n
      rw [← Real.exp_nat_mul] at h2
      have h3 : (n : ℝ) ^ (1 / 9 : ℝ) ≤ n * (n : ℝ) ^ (-(1 / 2) : ℝ) := by
        nth_rw 2 [← Real.rpow_one (n : ℝ)]
        rw [← Real.rpow_add (by linarith)]
        exact Real.rpow_le_rpow_of_exponent_le hn' (by norm_num)
      have h4 : Real.exp (n * -(n : ℝ) ^ (-(1 / 2) : ℝ)) ≤ Real.exp (-1 * (n : ℝ) ^ (1 / 9 : ℝ)) :=
        Real.exp_le_exp.2 (by linarith)
      have h5 := Real.exp_pos (-1 * (n : ℝ) ^ (1 / 9 : ℝ))
      rw [pow_zero, Nat.cast_one, one_mul]
      linarith
  have hsum : ∑' n, P (bad n) ≠ ⊤ := by
    refine ne_top_of_le_ne_top ?_ (ENNReal.tsum_le_tsum hb)
    exact (summable_grid 0 one_pos).tsum_ofReal_ne_top
  filter_upwards [ae_eventually_notMem hsum] with ω h
  filter_upwards [h, eventually_gt_atTop 0] with n h1 hn
  by_contra hcon
  push Not at hcon
  exact h1 ⟨hn, fun k hk hmem => absurd hmem (not_lt.2 (hcon k hk))⟩

theorem unit_sq (j : Fin 1) : Integrable (fun z : Fin 1 → ℝ => z j ^ 2) unitLaw := by
  have hb : ∀ᵐ z ∂unitLaw, ‖z j ^ 2‖ ≤ 1 := by
    rw [unitLaw, ae_restrict_iff' measurableSet_Icc]
    refine .of_forall fun z hz => ?_
    rw [Subsingleton.elim j 0, Real.norm_eq_abs, abs_of_nonneg (sq_nonneg _)]
    obtain ⟨a, b⟩ := mem_unit.1 hz
    nlinarith
  exact (integrable_const (1 : ℝ)).mono' ((measurable_pi_apply j).pow_const 2).aestronglyMeasurable hb

theorem unit_charges {x₀ : Fin 1 → ℝ} (h0 : 0 < x₀ 0) (h1 : x₀ 0 < 1) (U : Set (Fin 1 → ℝ)) (hU : IsOpen U)
    (hm : x₀ ∈ U) : unitLaw U ≠ 0 := by
  rw [unitLaw, Measure.restrict_apply hU.measurableSet]
  have hO : IsOpen {z : Fin 1 → ℝ | 0 < z 0 ∧ z 0 < 1} :=
    (isOpen_lt continuous_const (continuous_apply 0)).inter (isOpen_lt (continuous_apply 0) continuous_const)
  have h3 := (hU.inter hO).measure_pos volume ⟨x₀, hm, h0, h1⟩
  refine (h3.trans_le (measure_mono ?_)).ne'
  exact Set.inter_subset_inter_right _ fun z hz => mem_unit.2 ⟨hz.1.le, hz.2.le⟩

/-! ### Smoothing the uniform density -/

section Smooth
variable {H : Matrix (Fin 1) (Fin 1) ℝ}

theorem normalLaw_sqd (z : Fin q → ℝ) {H : Matrix (Fin q) (Fin q) ℝ} (hH : H.PosSemidef) (j : Fin q) :
    Integrable (fun t : Fin q → ℝ => (t j - z j) ^ 2) (normalLaw z H) := by
  have h1 := (normalLaw_sq z hH j).1
  have h2 : Integrable (fun t : Fin q → ℝ => t j) (normalLaw z H) := by
    refine ((integrable_const (1 : ℝ)).add h1).mono' (measurable_pi_apply j).aestronglyMeasurable
      (.of_forall fun t => ?_)
    rw [Real.norm_eq_abs, Pi.add_apply]
    nlinarith [sq_abs (t j), sq_nonneg (|t j| - 1)]
  have h3 : Integrable (fun t : Fin q → ℝ => t j ^ 2 - 2 * z j * t j + z j ^ 2) (normalLaw z H) :=
    (h1.sub (h2.const_mul (2 * z j))).add (integrable_const _)
  exact h3.congr (.of_forall fun t => by ring)

theorem unit_integrable (z : Fin 1 → ℝ) : Integrable unitPdf (normalLaw z H) :=
  (integrable_const (1 : ℝ)).mono' unitPdf_measurable.aestronglyMeasurable
    (.of_forall fun y => by rw [Real.norm_eq_abs, abs_of_nonneg (unitPdf_nonneg y)]; exact unitPdf_le y)

theorem smooth_le_one (z : Fin 1 → ℝ) : ∫ y, unitPdf y ∂(normalLaw z H) ≤ 1 := by
  have := integral_mono (unit_integrable (H := H) z) (integrable_const (1 : ℝ)) unitPdf_le
  simpa using this

theorem smooth_interior (hH : H.PosDef) {z : Fin 1 → ℝ} {δ : ℝ} (hδ : 0 < δ) (h0 : δ ≤ z 0) (h1 : z 0 ≤ 1 - δ) :
    1 - H 0 0 / δ ^ 2 ≤ ∫ y, unitPdf y ∂(normalLaw z H) := by
  have hi := (normalLaw_sqd z hH.posSemidef 0).div_const (δ ^ 2)
  have h := integral_mono (integrable_const (1 : ℝ)) ((unit_integrable (H := H) z).add hi) fun y => by
    change 1 ≤ unitPdf y + (y 0 - z 0) ^ 2 / δ ^ 2
    by_cases hy : 0 ≤ y 0 ∧ y 0 ≤ 1
    · rw [unitPdf_in hy.1 hy.2]
      have : 0 ≤ (y 0 - z 0) ^ 2 / δ ^ 2 := by positivity
      linarith
    · have h2 : δ ^ 2 ≤ (y 0 - z 0) ^ 2 := by
        rw [not_and_or, not_le, not_le] at hy
        rcases hy with hy | hy <;> nlinarith
      have h3 : 1 ≤ (y 0 - z 0) ^ 2 / δ ^ 2 := (one_le_div (by positivity)).2 h2
      linarith [unitPdf_nonneg y]
  have e : ∫ y, (unitPdf + fun y : Fin 1 → ℝ => (y 0 - z 0) ^ 2 / δ ^ 2) y ∂(normalLaw z H) =
      ∫ y, unitPdf y ∂(normalLaw z H) + H 0 0 / δ ^ 2 := by
    simp only [Pi.add_apply]
    rw [integral_add (unit_integrable z) hi, integral_div, (normalLaw_sq z hH.posSemidef 0).2]
  rw [e] at h
  simp only [integral_const, probReal_univ, one_smul] at h
  linarith

theorem normal_half (hH : H.PosDef) (z : Fin 1 → ℝ) :
    (normalLaw z H).real {y | y 0 ≤ z 0} = 1 / 2 ∧ (normalLaw z H).real {y | z 0 ≤ y 0} = 1 / 2 := by
  have hmap : (normalLaw z H).map (fun y => (-1 : Matrix (Fin 1) (Fin 1) ℝ).mulVec y + (2 : ℝ) • z) = normalLaw z H := by
    rw [normalLaw_map z hH.posSemidef]
    congr 1
    · rw [Matrix.neg_mulVec, Matrix.one_mulVec, two_smul]
      abel
    · simp
  have hm : MeasurableSet {y : Fin 1 → ℝ | y 0 ≤ z 0} := measurableSet_le (measurable_pi_apply 0) measurable_const
  have hm2 : MeasurableSet {y : Fin 1 → ℝ | z 0 ≤ y 0} := measurableSet_le measurable_const (measurable_pi_apply 0)
  have h1 : normalLaw z H {y | y 0 ≤ z 0} = normalLaw z H {y | z 0 ≤ y 0} := by
    conv_lhs => rw [← hmap]
    rw [Measure.map_apply (measurable_observe _ _) hm]
    congr 1
    ext y
    simp only [Set.mem_preimage, Set.mem_ofPred_eq, Matrix.neg_mulVec, Matrix.one_mulVec, Pi.add_apply, Pi.neg_apply,
      Pi.smul_apply, smul_eq_mul]
    constructor <;> intro h <;> linarith
  have h2 : normalLaw z H {y | y 0 = z 0} = 0 := by
    rw [normalLaw_eq_pdfLaw z hH]
    refine withDensity_absolutelyContinuous _ _ ?_
    have : {y : Fin 1 → ℝ | y 0 = z 0} = {z} := by
      ext y
      rw [Set.mem_ofPred_eq, Set.mem_singleton_iff]
      exact ⟨fun h => funext fun j => by rw [Subsingleton.elim j 0]; exact h, fun h => by rw [h]⟩
    rw [this]
    exact measure_singleton z
  have h3 : (normalLaw z H).real {y | y 0 ≤ z 0} + (normalLaw z H).real {y | z 0 ≤ y 0} = 1 := by
    have := measureReal_union_add_inter (μ := normalLaw z H) (s := {y | y 0 ≤ z 0}) hm2
    have e1 : {y : Fin 1 → ℝ | y 0 ≤ z 0} ∪ {y | z 0 ≤ y 0} = Set.univ := by
      ext y; simpa using le_total (y 0) (z 0)
    have e2 : {y : Fin 1 → ℝ | y 0 ≤ z 0} ∩ {y | z 0 ≤ y 0} = {y | y 0 = z 0} := by
      ext y
      simp only [Set.mem_inter_iff, Set.mem_ofPred_eq]
      exact ⟨fun h => le_antisymm h.1 h.2, fun h => ⟨h.le, h.ge⟩⟩
    have h2' : (normalLaw z H).real {y | y 0 = z 0} = 0 := by rw [measureReal_def, h2]; rfl
    rw [e1, e2, probReal_univ, h2', add_zero] at this
    exact this.symm
  have h4 : (normalLaw z H).real {y | y 0 ≤ z 0} = (normalLaw z H).real {y | z 0 ≤ y 0} := by
    rw [measureReal_def, measureReal_def, h1]
  constructor <;> linarith

theorem smooth_half (hH : H.PosDef) {z : Fin 1 → ℝ} (h0 : 0 ≤ z 0) (h1 : z 0 ≤ 1) :
    1 / 2 - 4 * H 0 0 ≤ ∫ y, unitPdf y ∂(normalLaw z H) := by
  have hi := (normalLaw_sqd z hH.posSemidef 0).const_mul 4
  have e : ∫ y, (unitPdf y + 4 * (y 0 - z 0) ^ 2) ∂(normalLaw z H) =
      ∫ y, unitPdf y ∂(normalLaw z H) + 4 * H 0 0 := by
    rw [integral_add (unit_integrable z) hi, integral_const_mul, (normalLaw_sq z hH.posSemidef 0).2]
  have hm : MeasurableSet {y : Fin 1 → ℝ | y 0 ≤ z 0} := measurableSet_le (measurable_pi_apply 0) measurable_const
  have hm2 : MeasurableSet {y : Fin 1 → ℝ | z 0 ≤ y 0} := measurableSet_le measurable_const (measurable_pi_apply 0)
  have key : ∀ s : Set (Fin 1 → ℝ), MeasurableSet s → (normalLaw z H).real s = 1 / 2 →
      (∀ y ∈ s, ¬ (0 ≤ y 0 ∧ y 0 ≤ 1) → 1 / 2 ≤ |y 0 - z 0|) →
      1 / 2 - 4 * H 0 0 ≤ ∫ y, unitPdf y ∂(normalLaw z H) := by
    intro s hs hhalf hfar
    have h := integral_mono ((integrable_const (1 : ℝ)).indicator hs) ((unit_integrable (H := H) z).add hi) fun y => by
      change s.indicator (fun _ => (1 : ℝ)) y ≤ unitPdf y + 4 * (y 0 - z 0) ^ 2
      by_cases hy : y ∈ s
      · rw [Set.indicator_of_mem hy]
        by_cases hu : 0 ≤ y 0 ∧ y 0 ≤ 1
        · rw [unitPdf_in hu.1 hu.2]
          nlinarith [sq_nonneg (y 0 - z 0)]
        · have h3 := hfar y hy hu
          have h4 : (1 / 2 : ℝ) ^ 2 ≤ |y 0 - z 0| ^ 2 := pow_le_pow_left₀ (by norm_num) h3 2
          rw [sq_abs] at h4
          linarith [unitPdf_nonneg y]
      · rw [Set.indicator_of_notMem hy]
        nlinarith [unitPdf_nonneg y, sq_nonneg (y 0 - z 0)]
    have h' : ∫ y, s.indicator (fun _ => (1 : ℝ)) y ∂(normalLaw z H) ≤
        ∫ y, (unitPdf y + 4 * (y 0 - z 0) ^ 2) ∂(normalLaw z H) := h
    rw [e, integral_indicator_const _ hs, hhalf] at h'
    simp only [smul_eq_mul, mul_one] at h'
    linarith
  rcases le_total (z 0) (1 / 2) with hz | hz
  · refine key _ hm2 (normal_half hH z).2 fun y hy hu => ?_
    rw [Set.mem_ofPred_eq] at hy
    have : 1 < y 0 := by
      by_contra hc
      exact hu ⟨by linarith, not_lt.1 hc⟩
    rw [abs_of_nonneg (by linarith)]
    linarith
  · refine key _ hm (normal_half hH z).1 fun y hy hu => ?_
    rw [Set.mem_ofPred_eq] at hy
    have : y 0 < 0 := by
      by_contra hc
      exact hu ⟨not_lt.1 hc, by linarith⟩
    rw [abs_of_nonpos (by linarith)]
    linarith

theorem normalPdf_le_top (hH : H.PosDef) (z : Fin 1 → ℝ) : normalPdf H z ≤ normalTop H := by
  rw [normalPdf, normalTop]
  refine div_le_div_of_nonneg_right (Real.exp_le_one_iff.2 ?_) (Real.sqrt_nonneg _)
  have := hH.inv.posSemidef.dotProduct_mulVec_nonneg z
  simp only [star_trivial] at this
  linarith

theorem smooth_end (hH : H.PosDef) {z : Fin 1 → ℝ} (h1 : z 0 ≤ 1) :
    ∫ y, unitPdf y ∂(normalLaw z H) ≤ 1 / 2 + (1 - z 0) * normalTop H := by
  have htop : 0 ≤ normalTop H := by unfold normalTop; positivity
  have hm : MeasurableSet {y : Fin 1 → ℝ | y 0 ≤ z 0} := measurableSet_le (measurable_pi_apply 0) measurable_const
  have hI : MeasurableSet (Set.Icc z 1) := measurableSet_Icc
  have hb : (normalLaw z H).real (Set.Icc z 1) ≤ (1 - z 0) * normalTop H := by
    have : normalLaw z H (Set.Icc z 1) ≤ ENNReal.ofReal ((1 - z 0) * normalTop H) := by
      rw [normalLaw_eq_pdfLaw z hH, pdfLaw, withDensity_apply _ hI]
      calc ∫⁻ y in Set.Icc z 1, ENNReal.ofReal (normalPdf H (y - z))
          ≤ ∫⁻ _ in Set.Icc z 1, ENNReal.ofReal (normalTop H) :=
            lintegral_mono fun y => ENNReal.ofReal_le_ofReal (normalPdf_le_top hH _)
        _ = ENNReal.ofReal ((1 - z 0) * normalTop H) := by
          rw [setLIntegral_const, Real.volume_Icc_pi]
          simp only [Pi.one_apply, Finset.univ_unique, Fin.default_eq_zero, Finset.prod_singleton]
          rw [← ENNReal.ofReal_mul htop, mul_comm]
    exact ENNReal.toReal_le_of_le_ofReal (mul_nonneg (by linarith) htop) this
  have h := integral_mono (unit_integrable (H := H) z)
    (((integrable_const (1 : ℝ)).indicator hm).add ((integrable_const (1 : ℝ)).indicator hI)) fun y => by
      change unitPdf y ≤ {y : Fin 1 → ℝ | y 0 ≤ z 0}.indicator (fun _ => (1 : ℝ)) y +
        (Set.Icc z 1).indicator (fun _ => (1 : ℝ)) y
      have n1 : 0 ≤ {y : Fin 1 → ℝ | y 0 ≤ z 0}.indicator (fun _ => (1 : ℝ)) y :=
        Set.indicator_nonneg (fun _ _ => zero_le_one) y
      have n2 : 0 ≤ (Set.Icc z 1).indicator (fun _ => (1 : ℝ)) y := Set.indicator_nonneg (fun _ _ => zero_le_one) y
      by_cases hu : 0 ≤ y 0 ∧ y 0 ≤ 1
      · rcases le_total (y 0) (z 0) with hy | hy
        · rw [Set.indicator_of_mem (show y ∈ {y : Fin 1 → ℝ | y 0 ≤ z 0} from hy)]
          linarith [unitPdf_le y]
        · have hmem : y ∈ Set.Icc z 1 :=
            ⟨fun j => by rw [Subsingleton.elim j 0]; exact hy, fun j => by rw [Subsingleton.elim j 0]; exact hu.2⟩
          rw [Set.indicator_of_mem hmem]
          linarith [unitPdf_le y]
      · have : unitPdf y = 0 := if_neg hu
        linarith
  have h' : ∫ y, unitPdf y ∂(normalLaw z H) ≤ ∫ y, ({y : Fin 1 → ℝ | y 0 ≤ z 0}.indicator (fun _ => (1 : ℝ)) y +
        (Set.Icc z 1).indicator (fun _ => (1 : ℝ)) y) ∂(normalLaw z H) := h
  rw [integral_add ((integrable_const (1 : ℝ)).indicator hm) ((integrable_const (1 : ℝ)).indicator hI),
    integral_indicator_const _ hm, integral_indicator_const _ hI, (normal_half hH z).1] at h'
  simp only [smul_eq_mul, mul_one] at h'
  linarith

end Smooth

/-! ### One path -/

/-- What holds along almost every sequence of samples from the uniform distribution on the unit interval: the default
predicted density `ρ n` is near 1 inside, never far below 1/2, and near 1/2 at some sample close to the end. -/
structure UnitPath (user : ℕ → ℝ → ℕ → ℝ) (dom : Option (Matrix (Fin 1) (Fin 2) ℝ)) (x : ℕ → Fin 1 → ℝ)
    (ρ : ℕ → (Fin 1 → ℝ) → ℝ) : Prop where
  predicts : ∀ᶠ n in atTop, Predicts user x (id : (Fin 1 → ℝ) → Fin 1 → ℝ) dom none 0 n (ρ n)
  inside : ∀ k, 0 ≤ x k 0 ∧ x k 0 ≤ 1
  upper : ∀ ε > 0, ∀ᶠ n in atTop, ∀ z, ρ n z ≤ 1 + ε
  half : ∀ ε > 0, ∀ᶠ n in atTop, ∀ z : Fin 1 → ℝ, 0 ≤ z 0 → z 0 ≤ 1 → 1 / 2 - ε ≤ ρ n z
  interior : ∀ δ > 0, ∀ ε > 0, ∀ᶠ n in atTop, ∀ z : Fin 1 → ℝ, δ ≤ z 0 → z 0 ≤ 1 - δ → 1 - ε ≤ ρ n z
  last : ∀ ε > 0, ∀ᶠ n in atTop, ∃ k < n, 1 - ε < x k 0 ∧ ρ n (x k) ≤ 1 / 2 + ε

theorem unit_path {P : Measure Ω} {x : ℕ → Ω → Fin 1 → ℝ} (hi : iIndepFun x P) (hx : ∀ k, HasLaw (x k) unitLaw P)
    (dom : Option (Matrix (Fin 1) (Fin 2) ℝ)) : ∀ᵐ ω ∂P, ∃ ρ, UnitPath user dom (fun k => x k ω) ρ := by
  have hc : NotConfined unitLaw := by
    refine notConfined_of_ac ?_ inferInstance
    rw [unitLaw_density]
    exact withDensity_absolutelyContinuous _ _
  have hd := lawCov_det unit_sq hc
  have hμ : unitLaw = unitLaw.withDensity fun l => ENNReal.ofReal (weightFn none l) := by simp [weightFn]
  have hr := ecf_rate hi hx (w := weightFn none) (M := 1) measurable_const (fun _ => one_pos) hμ (fun _ => le_rfl)
    measurable_id unit_sq
  have ha := averages_ae hi hx (w := weightFn none) measurable_const (fun _ => one_pos) hμ measurable_id unit_sq
  rw [Measure.map_id] at hr ha
  have hin : ∀ᵐ ω ∂P, ∀ k, 0 ≤ x k ω 0 ∧ x k ω 0 ≤ 1 := by
    rw [ae_all_iff]
    intro k
    have h1 : ∀ᵐ z ∂unitLaw, 0 ≤ z 0 ∧ z 0 ≤ 1 := by
      rw [unitLaw, ae_restrict_iff' measurableSet_Icc]
      exact .of_forall fun z hz => mem_unit.1 hz
    rw [← (hx k).map_eq] at h1
    exact ae_of_ae_map (hx k).aemeasurable h1
  filter_upwards [ha, hr, hin, near_end hi hx] with ω h hr hin hne
  obtain ⟨η, h3, h4⟩ := h.close hd (by norm_num) 0 hr
  set H := kernelCov 0 (fun k => id (x k ω)) (fun k => weightFn none (x k ω)) with hH
  set ρ := kernelEstimate 0 (fun k => id (x k ω)) (fun k => weightFn none (x k ω)) with hρ
  have hpd := h.kernelCov_posDef hd 0
  have h0 : Tendsto (fun n => H n 0 0) atTop (𝓝 0) := by
    have := ((continuous_id.matrix_elem (0 : Fin 1) (0 : Fin 1)).tendsto _).comp (h.kernelCov_zero 0)
    exact this
  have h5 : ∀ᶠ n in atTop, ∀ z, |ρ n z - ∫ y, unitPdf y ∂(normalLaw z (H n))| ≤ η n := by
    filter_upwards [h4, hpd] with n a1 a2 z
    have := a1 z
    rw [unitLaw_density, smoothed_eq unitPdf_measurable unitPdf_nonneg a2] at this
    exact this
  have htop : Tendsto (fun n : ℕ => (n : ℝ) ^ (-(1 / 2) : ℝ) * normalTop (H n)) atTop (𝓝 0) := by
    have hdet : 0 < (lawCov unitLaw).det := by
      have : Tendsto (fun n : ℕ => (Verif.wCov (fun k : Fin n => id (x k ω)) fun k : Fin n =>
        weightFn none (x k ω)).det) atTop (𝓝 (lawCov unitLaw).det) := (continuous_id.matrix_det.tendsto _).comp h.wCov
      refine lt_of_le_of_ne (ge_of_tendsto this ?_) hd.symm
      filter_upwards [h.posDef hd] with n hn
      exact hn.det_pos.le
    have ht := normalTop_tendsto hdet h.wCov
    have t1 := bandwidth_tail 1 1 (a := 1 / 2) (by norm_num)
    have t2 := t1.mul ht
    rw [zero_mul] at t2
    refine squeeze_zero' (.of_forall fun n => ?_) ?_ t2
    · have : 0 ≤ normalTop (H n) := by unfold normalTop; positivity
      positivity
    · filter_upwards [h.effSize.eventually_gt_atTop 0] with n a2
      have hbp := bandwidth_pos 0 1 a2
      have hle := bandwidth_inv_le 0 1 a2 (effSize_le fun k : Fin n => weightFn none (x k ω))
      have e1 : normalTop (H n) = (bandwidth 0 (Verif.effSize fun k : Fin n => weightFn none (x k ω)) 1)⁻¹ ^ 1 *
        normalTop (Verif.wCov (fun k : Fin n => id (x k ω)) fun k : Fin n => weightFn none (x k ω)) := normalTop_smul hbp _
      have n1 : 0 ≤ normalTop (Verif.wCov (fun k : Fin n => id (x k ω)) fun k : Fin n => weightFn none (x k ω)) := by
        unfold normalTop; positivity
      have n2 := (inv_pos.2 hbp).le
      rw [e1, ← mul_assoc]
      refine mul_le_mul_of_nonneg_right ?_ n1
      rw [mul_comm]
      exact mul_le_mul_of_nonneg_right (pow_le_pow_left₀ n2 hle 1) (by positivity)
  refine ⟨ρ, h.predicts hd dom (by norm_num) one_pos, hin, fun ε hε => ?_, fun ε hε => ?_, fun δ hδ ε hε => ?_,
    fun ε hε => ?_⟩
  · filter_upwards [h5, h3.eventually_lt_const hε] with n a1 a2 z
    have := (abs_le.1 (a1 z)).2
    linarith [smooth_le_one (H := H n) z]
  · filter_upwards [h5, h3.eventually_lt_const (half_pos hε), hpd,
      h0.eventually_lt_const (show 0 < ε / 8 by positivity)] with n a1 a2 a3 a4 z z0 z1
    have := (abs_le.1 (a1 z)).1
    linarith [smooth_half a3 z0 z1]
  · filter_upwards [h5, h3.eventually_lt_const (half_pos hε), hpd,
      h0.eventually_lt_const (show 0 < ε / 2 * δ ^ 2 by positivity)] with n a1 a2 a3 a4 z z0 z1
    have := (abs_le.1 (a1 z)).1
    have h6 : H n 0 0 / δ ^ 2 < ε / 2 := (div_lt_iff₀ (by positivity)).2 a4
    linarith [smooth_interior a3 hδ z0 z1]
  · have hn : Tendsto (fun n : ℕ => (n : ℝ) ^ (-(1 / 2) : ℝ)) atTop (𝓝 0) :=
      (tendsto_rpow_neg_atTop (by norm_num)).comp tendsto_natCast_atTop_atTop
    filter_upwards [h5, h3.eventually_lt_const (half_pos hε), hpd, hne, hn.eventually_lt_const hε,
      htop.eventually_lt_const (half_pos hε)] with n a1 a2 a3 ⟨k, hk, hk2⟩ a5 a6
    refine ⟨k, hk, by linarith, ?_⟩
    have := (abs_le.1 (a1 (x k ω))).2
    have h7 := smooth_end a3 (hin k).2
    have h8 : (1 - x k ω 0) * normalTop (H n) ≤ (n : ℝ) ^ (-(1 / 2) : ℝ) * normalTop (H n) := by
      refine mul_le_mul_of_nonneg_right (by linarith) ?_
      unfold normalTop; positivity
    linarith

/-! ### The estimates -/

theorem dist_one (z z' : Fin 1 → ℝ) : dist z z' = |z 0 - z' 0| := by
  refine le_antisymm ?_ ?_
  · refine (dist_pi_le_iff (abs_nonneg _)).2 fun j => ?_
    rw [Subsingleton.elim j 0, Real.dist_eq]
  · rw [← Real.dist_eq]
    exact dist_le_pi_dist z z' 0

theorem UnitPath.pos {dom : Option (Matrix (Fin 1) (Fin 2) ℝ)} {x : ℕ → Fin 1 → ℝ} {ρ : ℕ → (Fin 1 → ℝ) → ℝ}
    (h : UnitPath user dom x ρ) : ∀ᶠ n in atTop, ∀ z, 0 < ρ n z :=
  h.predicts.mono fun _ ⟨_, _, _, _, hk⟩ z => hk.pos z

/-- Away from the ends the updated values stay below any level above `f`, at the ends below any level above `2 f`. -/
theorem UnitPath.below {dom : Option (Matrix (Fin 1) (Fin 2) ℝ)} {x : ℕ → Fin 1 → ℝ} {ρ : ℕ → (Fin 1 → ℝ) → ℝ}
    (h : UnitPath user dom x ρ) {f : (Fin 1 → ℝ) → ℝ} (hf : ContinuousOn f (Set.Icc 0 1))
    {A : Set (Fin 1 → ℝ)} (hA : IsClosed A) {U c : ℝ} (hUc : U < c)
    (h1 : ∀ z ∈ A, 0 ≤ z 0 → z 0 ≤ 1 → f z ≤ U) (h2 : (0 : Fin 1 → ℝ) ∈ A → 2 * f 0 ≤ U)
    (h3 : (1 : Fin 1 → ℝ) ∈ A → 2 * f 1 ≤ U) (hU : 0 ≤ U) :
    ∀ᶠ n in atTop, ∀ z ∈ A, 0 ≤ z 0 → z 0 ≤ 1 → f z / ρ n z ≤ c := by
  have hc : 0 < c := by linarith
  have hend : ∀ b : Fin 1 → ℝ, b ∈ Set.Icc (0 : Fin 1 → ℝ) 1 → (b ∈ A → 2 * f b ≤ U) →
      ∃ δ > 0, ∀ z ∈ A, 0 ≤ z 0 → z 0 ≤ 1 → |z 0 - b 0| < δ → f z ≤ (U + c) / 4 := by
    intro b hb hbU
    by_cases hbA : b ∈ A
    · have h4 := (hf b hb).eventually_lt_const (u := (U + c) / 4) (by have := hbU hbA; linarith)
      obtain ⟨δ, hδ, h5⟩ := Metric.mem_nhdsWithin_iff.1 h4
      refine ⟨δ, hδ, fun z hz z0 z1 hd => ?_⟩
      have : z ∈ Metric.ball b δ ∩ Set.Icc 0 1 := ⟨by rw [Metric.mem_ball, dist_one]; exact hd, mem_unit.2 ⟨z0, z1⟩⟩
      exact (h5 this).le
    · obtain ⟨δ, hδ, h5⟩ := Metric.isOpen_iff.1 hA.isOpen_compl b hbA
      refine ⟨δ, hδ, fun z hz z0 z1 hd => absurd hz ?_⟩
      exact h5 (by rw [Metric.mem_ball, dist_one]; exact hd)
  obtain ⟨δ₀, hδ₀, e0⟩ := hend 0 (mem_unit.2 (by simp)) h2
  obtain ⟨δ₁, hδ₁, e1⟩ := hend 1 (mem_unit.2 (by simp)) h3
  have hε : 0 < (c - U) / (4 * c) := by
    have : 0 < c - U := by linarith
    positivity
  filter_upwards [h.half _ hε, h.interior (min δ₀ δ₁) (by positivity) _ hε, h.pos] with n a1 a2 a3 z hz z0 z1
  rw [div_le_iff₀ (a3 z)]
  have hce : c * ((c - U) / (4 * c)) = (c - U) / 4 := by field_simp
  have hm0 := min_le_left δ₀ δ₁
  have hm1 := min_le_right δ₀ δ₁
  by_cases g0 : z 0 < min δ₀ δ₁
  · have := e0 z hz z0 z1 (by rw [Pi.zero_apply, sub_zero, abs_of_nonneg z0]; linarith)
    nlinarith [mul_le_mul_of_nonneg_left (a1 z z0 z1) hc.le]
  · by_cases g1 : 1 - min δ₀ δ₁ < z 0
    · have := e1 z hz z0 z1 (by rw [Pi.one_apply, abs_of_nonpos (by linarith)]; linarith)
      nlinarith [mul_le_mul_of_nonneg_left (a1 z z0 z1) hc.le]
    · have := mul_le_mul_of_nonneg_left (a2 z (not_lt.1 g0) (not_lt.1 g1)) hc.le
      have := h1 z hz z0 z1
      nlinarith

/-- **C145**, the wrong limit: uniform samples on the unit interval, the identity as model. The observed density `f` is
continuous on the interval; if it is larger at 1 than at 0 and its values stay below twice its value at 1, then the
estimates with the default predicted density converge to the end 1 of the interval, wherever the largest value of `f` is. -/
theorem C145_boundary {P : Measure Ω} {x : ℕ → Ω → Fin 1 → ℝ} (hi : iIndepFun x P) (hx : ∀ k, HasLaw (x k) unitLaw P)
    {di : Option Dist} {do_ : Dist} {dom : Option (Matrix (Fin 1) (Fin 2) ℝ)} {a f : (Fin 1 → ℝ) → ℝ}
    (ha : InitialIs di dom a) (ha1 : ∀ z, 0 ≤ z 0 → z 0 ≤ 1 → a z = 1) (hf : do_.Evaluates f) (hf0 : ∀ z, 0 ≤ f z)
    (hfc : ContinuousOn f (Set.Icc 0 1)) (h01 : f 0 < f 1) (hmax : ∀ z, 0 ≤ z 0 → z 0 ≤ 1 → f z < 2 * f 1) :
    ∀ᵐ ω ∂P, ∃ e : ℕ → Fin 1 → ℝ,
      (∀ᶠ n in atTop, ∃ S, sampledDefault user (fun k => x k ω) id dom none di do_ n = .ok S ∧
        (DP.mudPoint (scipyEnv user) S).1 = .ok (List.ofFn (e n))) ∧
      Tendsto e atTop (𝓝 1) := by
  filter_upwards [unit_path (user := user) hi hx dom] with ω ⟨ρ, h⟩
  obtain ⟨e, he1, he2⟩ := default_path (di := di) (do_ := do_) ha hf h.predicts
  refine ⟨e, he1, ?_⟩
  rw [Metric.tendsto_nhds]
  intro ε hε
  obtain ⟨m, hm, hmU⟩ : ∃ m, m < 2 * f 1 ∧ ∀ z, 0 ≤ z 0 → z 0 ≤ 1 → f z ≤ m := by
    obtain ⟨z, hz, hz2⟩ := (isCompact_Icc (a := (0 : Fin 1 → ℝ)) (b := 1)).exists_isMaxOn
      ⟨0, mem_unit.2 (by simp)⟩ hfc
    have := mem_unit.1 hz
    exact ⟨f z, hmax z this.1 this.2, fun z' a b => hz2 (mem_unit.2 ⟨a, b⟩)⟩
  set U := max m (2 * f 0) with hU
  have hUL : U < 2 * f 1 := max_lt hm (by linarith)
  have hU0 : 0 ≤ U := le_max_of_le_right (by linarith [hf0 0])
  have hA : IsClosed {z : Fin 1 → ℝ | ε ≤ dist z 1} := isClosed_le continuous_const (continuous_id.dist continuous_const)
  have hb := h.below hfc hA (U := U) (c := (U + 2 * f 1) / 2) (by linarith)
    (fun z _ z0 z1 => (hmU z z0 z1).trans (le_max_left _ _)) (fun _ => le_max_right _ _)
    (fun h1 => absurd h1 (by rw [Set.mem_ofPred_eq, dist_self, not_le]; exact hε)) hU0
  set c := (U + 2 * f 1) / 2 with hc
  have hc0 : 0 < c := by rw [hc]; linarith [hf0 0, hf0 1]
  have hnear := (hfc 1 (mem_unit.2 (by simp))).eventually_const_lt (u := f 1 - (2 * f 1 - U) / 8) (by linarith)
  obtain ⟨δ, hδ, h5⟩ := Metric.mem_nhdsWithin_iff.1 hnear
  have hε' : 0 < min δ ((2 * f 1 - U) / (16 * c)) := by
    have : 0 < 2 * f 1 - U := by linarith
    positivity
  filter_upwards [hb, h.last _ hε', he2, h.pos] with n b1 ⟨k, hk, hk1, hk2⟩ ⟨j, hj, hej, hbest⟩ hpos
  by_contra hcon
  rw [not_lt] at hcon
  have hu : ∀ i, updatedFn a none id f (ρ n) (x i ω) = f (x i ω) / ρ n (x i ω) := fun i => by
    rw [updatedFn, ha1 _ (h.inside i).1 (h.inside i).2]
    simp [weightFn]
  have h6 := hbest k hk
  rw [hu, hu] at h6
  have h7 := b1 (x j ω) (hcon.trans_eq (by rw [hej])) (h.inside j).1 (h.inside j).2
  have hfk : f 1 - (2 * f 1 - U) / 8 < f (x k ω) := by
    refine h5 ⟨?_, mem_unit.2 (h.inside k)⟩
    have := min_le_left δ ((2 * f 1 - U) / (16 * c))
    have h1' := (h.inside k).2
    rw [Metric.mem_ball, dist_one, Pi.one_apply, abs_of_nonpos (by linarith)]
    linarith
  have h8 : f (x k ω) / ρ n (x k ω) ≤ c := h6.trans h7
  rw [div_le_iff₀ (hpos _)] at h8
  have h9 : ρ n (x k ω) ≤ 1 / 2 + (2 * f 1 - U) / (16 * c) := hk2.trans (by have := min_le_right δ ((2 * f 1 - U) / (16 * c)); linarith)
  have hce : c * ((2 * f 1 - U) / (16 * c)) = (2 * f 1 - U) / 16 := by field_simp
  have := mul_le_mul_of_nonneg_left h9 hc0.le
  nlinarith

/-- **C145**, the right limit for uniform samples on the unit interval: the observed density `f` is continuous on the
interval with a strict maximum at an inner point `x₀`, where it is more than twice its values at the two ends. -/
theorem C145_unit {P : Measure Ω} {x : ℕ → Ω → Fin 1 → ℝ} (hi : iIndepFun x P) (hx : ∀ k, HasLaw (x k) unitLaw P)
    {di : Option Dist} {do_ : Dist} {dom : Option (Matrix (Fin 1) (Fin 2) ℝ)} {a f : (Fin 1 → ℝ) → ℝ}
    (ha : InitialIs di dom a) (ha1 : ∀ z, 0 ≤ z 0 → z 0 ≤ 1 → a z = 1) (hf : do_.Evaluates f) (hf0 : ∀ z, 0 ≤ f z)
    (hfc : ContinuousOn f (Set.Icc 0 1)) {x₀ : Fin 1 → ℝ} (hx0 : 0 < x₀ 0) (hx1 : x₀ 0 < 1)
    (hmax : ∀ z, 0 ≤ z 0 → z 0 ≤ 1 → z ≠ x₀ → f z < f x₀) (h0 : 2 * f 0 < f x₀) (h1 : 2 * f 1 < f x₀) :
    ∀ᵐ ω ∂P, ∃ e : ℕ → Fin 1 → ℝ,
      (∀ᶠ n in atTop, ∃ S, sampledDefault user (fun k => x k ω) id dom none di do_ n = .ok S ∧
        (DP.mudPoint (scipyEnv user) S).1 = .ok (List.ofFn (e n))) ∧
      Tendsto e atTop (𝓝 x₀) := by
  have hxI : Set.Icc (0 : Fin 1 → ℝ) 1 ∈ 𝓝 x₀ := by
    have : {z : Fin 1 → ℝ | 0 < z 0 ∧ z 0 < 1} ∈ 𝓝 x₀ :=
      ((isOpen_lt continuous_const (continuous_apply 0)).inter (isOpen_lt (continuous_apply 0) continuous_const)).mem_nhds
        ⟨hx0, hx1⟩
    exact mem_of_superset this fun z hz => mem_unit.2 ⟨hz.1.le, hz.2.le⟩
  filter_upwards [unit_path (user := user) hi hx dom, hit_levels hi hx (hfc.continuousAt hxI)
    (unit_charges hx0 hx1)] with ω ⟨ρ, h⟩ hhit
  obtain ⟨e, he1, he2⟩ := default_path (di := di) (do_ := do_) ha hf h.predicts
  refine ⟨e, he1, ?_⟩
  rw [Metric.tendsto_nhds]
  intro ε hε
  have hA : IsClosed {z : Fin 1 → ℝ | ε ≤ dist z x₀} := isClosed_le continuous_const (continuous_id.dist continuous_const)
  obtain ⟨m, hm, hmU⟩ : ∃ m, m < f x₀ ∧ ∀ z, ε ≤ dist z x₀ → 0 ≤ z 0 → z 0 ≤ 1 → f z ≤ m := by
    rcases (Set.Icc (0 : Fin 1 → ℝ) 1 ∩ {z | ε ≤ dist z x₀}).eq_empty_or_nonempty with hem | hne
    · exact ⟨f x₀ - 1, by linarith, fun z a b c => absurd (show z ∈ (Set.Icc (0 : Fin 1 → ℝ) 1 ∩ {z | ε ≤ dist z x₀})
        from ⟨mem_unit.2 ⟨b, c⟩, a⟩) (by rw [hem]; exact Set.notMem_empty _)⟩
    · obtain ⟨z, hz, hz2⟩ := ((isCompact_Icc (a := (0 : Fin 1 → ℝ)) (b := 1)).inter_right hA).exists_isMaxOn hne
        (hfc.mono Set.inter_subset_left)
      have h4 := mem_unit.1 hz.1
      refine ⟨f z, hmax z h4.1 h4.2 ?_, fun z' a b c => hz2 ⟨mem_unit.2 ⟨b, c⟩, a⟩⟩
      rintro rfl
      have := hz.2
      rw [Set.mem_ofPred_eq, dist_self] at this
      linarith
  set U := max m (max (2 * f 0) (2 * f 1)) with hU
  have hUL : U < f x₀ := max_lt hm (max_lt h0 h1)
  have hU0 : 0 ≤ U := le_max_of_le_right (le_max_of_le_left (by linarith [hf0 0]))
  have hb := h.below hfc hA (U := U) (c := (U + f x₀) / 2) (by linarith)
    (fun z hz z0 z1 => (hmU z hz z0 z1).trans (le_max_left _ _)) (fun _ => le_max_of_le_right (le_max_left _ _))
    (fun _ => le_max_of_le_right (le_max_right _ _)) hU0
  set c := (U + f x₀) / 2 with hc
  have hc0 : 0 < c := by rw [hc]; linarith
  obtain ⟨k, hk⟩ := hhit (f x₀ - (f x₀ - U) / 8) (by linarith)
  have hε' : 0 < (f x₀ - U) / (16 * c) := by
    have : 0 < f x₀ - U := by linarith
    positivity
  filter_upwards [hb, h.upper _ hε', he2, h.pos, eventually_gt_atTop k] with n b1 b2 ⟨j, hj, hej, hbest⟩ hpos hkn
  by_contra hcon
  rw [not_lt] at hcon
  have hu : ∀ i, updatedFn a none id f (ρ n) (x i ω) = f (x i ω) / ρ n (x i ω) := fun i => by
    rw [updatedFn, ha1 _ (h.inside i).1 (h.inside i).2]
    simp [weightFn]
  have h6 := hbest k hkn
  rw [hu, hu] at h6
  have h7 := b1 (x j ω) (hcon.trans_eq (by rw [hej])) (h.inside j).1 (h.inside j).2
  have h8 : f (x k ω) / ρ n (x k ω) ≤ c := h6.trans h7
  rw [div_le_iff₀ (hpos _)] at h8
  have hce : c * ((f x₀ - U) / (16 * c)) = (f x₀ - U) / 16 := by field_simp
  have := mul_le_mul_of_nonneg_left (b2 (x k ω)) hc0.le
  nlinarith

/-! ### The claim -/

/-- **C145**, the claim: the samples are drawn independently from `τ` (no weights), the outputs have
finite second moments and a bounded density `g`, and the default predicted density is used. Whatever the initial density
`a` in force and the observed density `f` (bounded and continuous), the estimates converge almost surely to the peak of the
updated density `a f(Q) / g(Q)`. -/
def C145_claim (user : ℕ → ℝ → ℕ → ℝ) : Prop :=
  ∀ (p q : ℕ) (τ : Measure (Fin p → ℝ)) [IsProbabilityMeasure τ] (Q : (Fin p → ℝ) → Fin q → ℝ) (g f : (Fin q → ℝ) → ℝ)
    (a : (Fin p → ℝ) → ℝ) (di : Option Dist) (do_ : Dist) (dom : Option (Matrix (Fin p) (Fin 2) ℝ)) (x₀ : Fin p → ℝ) (B : ℝ),
    Measurable Q → 0 < q → (∀ j, Integrable (fun l => Q l j ^ 2) τ) →
    Measurable g → (∀ z, 0 ≤ g z ∧ g z ≤ B) → τ.map Q = volume.withDensity (fun z => ENNReal.ofReal (g z)) →
    InitialIs di dom a → (∀ l, 0 ≤ a l ∧ a l ≤ B) → do_.Evaluates f → (∀ z, 0 ≤ f z ∧ f z ≤ B) → Continuous f →
    IsPeak (updatedFn a none Q f g) x₀ → (∀ U, IsOpen U → x₀ ∈ U → τ U ≠ 0) →
    ∀ᵐ ω ∂(Measure.infinitePi fun _ : ℕ => τ), ∃ e : ℕ → Fin p → ℝ,
      (∀ᶠ n in atTop, ∃ S, sampledDefault user (fun k => ω k) Q dom none di do_ n = .ok S ∧
        (DP.mudPoint (scipyEnv user) S).1 = .ok (List.ofFn (e n))) ∧
      Tendsto e atTop (𝓝 x₀)

theorem unit_box : boxDensity (!![0, 1] : Matrix (Fin 1) (Fin 2) ℝ) = unitPdf := by
  have e0 : (fun j => (!![0, 1] : Matrix (Fin 1) (Fin 2) ℝ) j 0) = 0 := by funext j; fin_cases j; rfl
  have e1 : (fun j => (!![0, 1] : Matrix (Fin 1) (Fin 2) ℝ) j 1) = 1 := by funext j; fin_cases j; rfl
  rw [unitPdf_indicator, boxDensity, e0, e1, Real.volume_Icc_pi]
  simp
  rfl

/-- The uniform distribution on the domain `[0, 1]` has the density 1 there. -/
theorem unit_initial : InitialIs none (some (!![0, 1] : Matrix (Fin 1) (Fin 2) ℝ)) unitPdf := by
  have hD : ∀ j : Fin 1, (!![0, 1] : Matrix (Fin 1) (Fin 2) ℝ) j 0 < (!![0, 1] : Matrix (Fin 1) (Fin 2) ℝ) j 1 := by
    intro j; fin_cases j; norm_num
  have h := uniform_evaluates hD
  rw [unit_box] at h
  exact h

/-- The values of `scipy.stats.norm(m, s).pdf`. -/
theorem normal_one (m : ℝ) {s : ℝ} (hs : 0 < s) : ∃ c > 0, (normColumns (fun _ : Fin 1 => m) fun _ => s).Evaluates
    fun z : Fin 1 → ℝ => c * Real.exp (-((z 0 - m) ^ 2 / (2 * s ^ 2))) := by
  refine ⟨1 / Real.sqrt (2 * Real.pi * s ^ 2), by positivity, ?_⟩
  have h := normColumns_evaluates (fun _ : Fin 1 => m) (s := fun _ => s) fun _ => hs
  refine Eq.mp (congrArg _ ?_) h
  funext z
  rw [normalPdf, Matrix.inv_diagonal]
  have : Ring.inverse (fun _ : Fin 1 => s ^ 2) = fun _ => (s ^ 2)⁻¹ := by
    refine Ring.inverse_unit ⟨fun _ => s ^ 2, fun _ => (s ^ 2)⁻¹, ?_, ?_⟩ <;>
    · funext j
      simp only [Pi.mul_apply, Pi.one_apply]
      field_simp
  rw [this]
  simp only [Matrix.det_diagonal, Matrix.mulVec_diagonal, dotProduct, Finset.univ_unique, Fin.default_eq_zero,
    Finset.sum_singleton, Finset.prod_singleton, pow_one, Pi.sub_apply]
  rw [div_eq_mul_one_div, mul_comm]
  congr 2
  field_simp

theorem C145_claim_refuted (user : ℕ → ℝ → ℕ → ℝ) : ¬ C145_claim user := by
  intro hcl
  obtain ⟨c, hc, hf⟩ := normal_one (3 / 4) (s := 3 / 10) (by norm_num)
  set f : (Fin 1 → ℝ) → ℝ := fun z => c * Real.exp (-((z 0 - 3 / 4) ^ 2 / (2 * (3 / 10) ^ 2))) with hfd
  have hfcont : Continuous f := by rw [hfd]; fun_prop
  have hf0 : ∀ z, 0 ≤ f z := fun z => by rw [hfd]; positivity
  have hfc : ∀ z, f z ≤ c := fun z => by
    have : Real.exp (-((z 0 - 3 / 4) ^ 2 / (2 * (3 / 10) ^ 2))) ≤ 1 :=
      Real.exp_le_one_iff.2 (by rw [neg_nonpos]; positivity)
    rw [hfd]
    nlinarith
  have hu : ∀ z, 0 ≤ z 0 → z 0 ≤ 1 → updatedFn unitPdf none id f unitPdf z = f z := fun z a b => by
    rw [updatedFn, id, unitPdf_in a b]; simp [weightFn]
  have hu' : ∀ z, updatedFn unitPdf none id f unitPdf z ≤ f z := fun z => by
    by_cases hz : 0 ≤ z 0 ∧ z 0 ≤ 1
    · exact (hu z hz.1 hz.2).le
    · have : unitPdf z = 0 := if_neg hz
      rw [updatedFn, this, zero_mul, zero_mul]
      exact hf0 z
  have hx0 : {z : Fin 1 → ℝ | 0 < z 0 ∧ z 0 < 1} ∈ 𝓝 (fun _ : Fin 1 => (3 / 4 : ℝ)) :=
    ((isOpen_lt continuous_const (continuous_apply 0)).inter (isOpen_lt (continuous_apply 0) continuous_const)).mem_nhds
      ⟨by norm_num, by norm_num⟩
  have hpk : IsPeak (updatedFn unitPdf none id f unitPdf) fun _ => 3 / 4 := by
    refine ⟨?_, fun ε hε => ⟨c * Real.exp (-(ε ^ 2 / (2 * (3 / 10) ^ 2))), ?_, fun z hz => ?_⟩⟩
    · refine hfcont.continuousAt.congr ?_
      filter_upwards [hx0] with z hz
      exact (hu z hz.1.le hz.2.le).symm
    · rw [hu _ (by norm_num) (by norm_num), hfd]
      refine mul_lt_mul_of_pos_left (Real.exp_lt_exp.2 ?_) hc
      have : 0 < ε ^ 2 := by positivity
      simp only [sub_self, neg_lt_neg_iff]
      norm_num
      exact this
    · refine (hu' z).trans ?_
      refine mul_le_mul_of_nonneg_left (Real.exp_le_exp.2 ?_) hc.le
      rw [dist_one] at hz
      have := pow_le_pow_left₀ hε.le hz 2
      rw [sq_abs] at this
      rw [neg_le_neg_iff]
      gcongr
  obtain ⟨i1, i2⟩ := iid_coords unitLaw
  have hgood := hcl 1 1 unitLaw id unitPdf f unitPdf none (normColumns (fun _ : Fin 1 => 3 / 4) fun _ => 3 / 10)
    (some !![0, 1]) (fun _ => 3 / 4) (max 1 c) measurable_id one_pos unit_sq unitPdf_measurable
    (fun z => ⟨unitPdf_nonneg z, (unitPdf_le z).trans (le_max_left _ _)⟩) (by rw [Measure.map_id]; exact unitLaw_density)
    unit_initial (fun z => ⟨unitPdf_nonneg z, (unitPdf_le z).trans (le_max_left _ _)⟩) hf
    (fun z => ⟨hf0 z, (hfc z).trans (le_max_right _ _)⟩) hfcont hpk (unit_charges (by norm_num) (by norm_num))
  have hend : c / 2 < f 1 := by
    have := Real.add_one_le_exp (-(((1 : Fin 1 → ℝ) 0 - 3 / 4) ^ 2 / (2 * (3 / 10) ^ 2)))
    have h3 : 1 / 2 < Real.exp (-(((1 : Fin 1 → ℝ) 0 - 3 / 4) ^ 2 / (2 * (3 / 10) ^ 2))) := by
      refine lt_of_lt_of_le ?_ this
      rw [Pi.one_apply]
      norm_num
    rw [hfd]
    nlinarith
  have hbad := C145_boundary (user := user) i1 i2 unit_initial (fun z a b => unitPdf_in a b) hf hf0 hfcont.continuousOn
    (by
      rw [hfd]
      refine mul_lt_mul_of_pos_left (Real.exp_lt_exp.2 ?_) hc
      rw [Pi.zero_apply, Pi.one_apply]
      norm_num) fun z _ _ => by linarith [hfc z]
  obtain ⟨ω, ⟨e, h1, h1'⟩, e', h3, h3'⟩ := (hgood.and hbad).exists
  have he : e =ᶠ[atTop] e' := by
    filter_upwards [h1, h3] with n ⟨S, hS, hm⟩ ⟨S', hS', hm'⟩
    rw [hS] at hS'
    cases hS'
    rw [hm] at hm'
    exact List.ofFn_injective (Except.ok.inj hm')
  have := congrFun (tendsto_nhds_unique h1' (h3'.congr' he.symm)) 0
  norm_num at this

/-! ### Cases -/

/-- C145_unit: the observed density `norm(1/2, 1/10)`. -/
example (user : ℕ → ℝ → ℕ → ℝ) : ∀ᵐ ω ∂(Measure.infinitePi fun _ : ℕ => unitLaw), ∃ e : ℕ → Fin 1 → ℝ,
    (∀ᶠ n in atTop, ∃ S, sampledDefault user (fun k => ω k) id (some !![0, 1]) none none
      (normColumns (fun _ : Fin 1 => 1 / 2) fun _ => 1 / 10) n = .ok S ∧
      (DP.mudPoint (scipyEnv user) S).1 = .ok (List.ofFn (e n))) ∧ Tendsto e atTop (𝓝 fun _ => 1 / 2) := by
  obtain ⟨c, hc, hf⟩ := normal_one (1 / 2) (s := 1 / 10) (by norm_num)
  obtain ⟨i1, i2⟩ := iid_coords unitLaw
  have hsmall : 2 * Real.exp (-(25 / 2)) < 1 := by
    have h1 := Real.add_one_le_exp (25 / 2 : ℝ)
    rw [Real.exp_neg, mul_inv_lt_iff₀ (Real.exp_pos _)]
    linarith
  refine C145_unit (user := user) i1 i2 unit_initial (fun z a b => unitPdf_in a b) hf (fun z => by positivity)
    (Continuous.continuousOn (by fun_prop)) (by norm_num) (by norm_num) (fun z _ _ hz => ?_) ?_ ?_
  · refine mul_lt_mul_of_pos_left (Real.exp_lt_exp.2 ?_) hc
    have h1 : z 0 - 1 / 2 ≠ 0 := fun h => hz (funext fun j => by rw [Subsingleton.elim j 0]; linarith)
    have h2 : 0 < (z 0 - 1 / 2) ^ 2 := by positivity
    have : 0 < (z 0 - 1 / 2) ^ 2 / (2 * (1 / 10) ^ 2) := by positivity
    simpa using this
  · have e1 : -(((0 : Fin 1 → ℝ) 0 - 1 / 2) ^ 2 / (2 * (1 / 10) ^ 2)) = -(25 / 2 : ℝ) := by rw [Pi.zero_apply]; norm_num
    have e2 : -((1 / 2 - 1 / 2) ^ 2 / (2 * (1 / 10) ^ 2)) = (0 : ℝ) := by norm_num
    rw [e1, e2, Real.exp_zero]
    nlinarith
  · have e1 : -(((1 : Fin 1 → ℝ) 0 - 1 / 2) ^ 2 / (2 * (1 / 10) ^ 2)) = -(25 / 2 : ℝ) := by rw [Pi.one_apply]; norm_num
    have e2 : -((1 / 2 - 1 / 2) ^ 2 / (2 * (1 / 10) ^ 2)) = (0 : ℝ) := by norm_num
    rw [e1, e2, Real.exp_zero]
    nlinarith

/-- C145_interior_partial: the initial density `norm(1/2, 1)`, the observed density uniform on `[1/4, 3/4]`. -/
example (user : ℕ → ℝ → ℕ → ℝ) : ∀ᵐ ω ∂(Measure.infinitePi fun _ : ℕ => unitLaw), ∃ e : ℕ → Fin 1 → ℝ,
    (∀ᶠ n in atTop, ∃ S, sampledDefault user (fun k => ω k) id none none
      (some (normColumns (fun _ : Fin 1 => 1 / 2) fun _ => 1)) (uniformOn ⟨1, 2, !![1 / 4, 3 / 4]⟩) n = .ok S ∧
      (DP.mudPoint (scipyEnv user) S).1 = .ok (List.ofFn (e n))) ∧ Tendsto e atTop (𝓝 fun _ => 1 / 2) := by
  obtain ⟨c, hc, ha⟩ := normal_one (1 / 2) (s := 1) one_pos
  obtain ⟨i1, i2⟩ := iid_coords unitLaw
  have hD : ∀ j : Fin 1, (!![1 / 4, 3 / 4] : Matrix (Fin 1) (Fin 2) ℝ) j 0 <
      (!![1 / 4, 3 / 4] : Matrix (Fin 1) (Fin 2) ℝ) j 1 := by intro j; fin_cases j; norm_num
  have hf := uniform_evaluates hD
  have ef : boxDensity (!![1 / 4, 3 / 4] : Matrix (Fin 1) (Fin 2) ℝ) =
      (Set.Icc (fun _ => 1 / 4) fun _ => 3 / 4).indicator fun _ => 2 := by
    have e0 : (fun j => (!![1 / 4, 3 / 4] : Matrix (Fin 1) (Fin 2) ℝ) j 0) = fun _ => 1 / 4 := by
      funext j; fin_cases j; rfl
    have e1 : (fun j => (!![1 / 4, 3 / 4] : Matrix (Fin 1) (Fin 2) ℝ) j 1) = fun _ => 3 / 4 := by
      funext j; fin_cases j; rfl
    rw [boxDensity, e0, e1, Real.volume_Icc_pi]
    norm_num
  rw [ef] at hf
  set K : Set (Fin 1 → ℝ) := Set.Icc (fun _ => 1 / 4) fun _ => 3 / 4 with hK
  set f : (Fin 1 → ℝ) → ℝ := K.indicator fun _ => 2 with hfd
  set a : (Fin 1 → ℝ) → ℝ := fun z => c * Real.exp (-((z 0 - 1 / 2) ^ 2 / (2 * 1 ^ 2))) with had
  have hO : IsOpen {z : Fin 1 → ℝ | 0 < z 0 ∧ z 0 < 1} :=
    (isOpen_lt continuous_const (continuous_apply 0)).inter (isOpen_lt (continuous_apply 0) continuous_const)
  have hO2 : IsOpen {z : Fin 1 → ℝ | 1 / 4 < z 0 ∧ z 0 < 3 / 4} :=
    (isOpen_lt continuous_const (continuous_apply 0)).inter (isOpen_lt (continuous_apply 0) continuous_const)
  have hacont : Continuous a := by rw [had]; fun_prop
  have hpos : ∀ z, 0 < a z := fun z => by rw [had]; positivity
  have hle : ∀ z, a z ≤ c := fun z => by
    have : Real.exp (-((z 0 - 1 / 2) ^ 2 / (2 * 1 ^ 2))) ≤ 1 := Real.exp_le_one_iff.2 (by rw [neg_nonpos]; positivity)
    rw [had]
    nlinarith
  have hmemK : ∀ z : Fin 1 → ℝ, z ∈ K ↔ 1 / 4 ≤ z 0 ∧ z 0 ≤ 3 / 4 := fun z => by
    rw [hK, Set.mem_Icc, Pi.le_def, Pi.le_def]
    exact ⟨fun h => ⟨h.1 0, h.2 0⟩, fun h => ⟨fun j => by rw [Subsingleton.elim j 0]; exact h.1,
      fun j => by rw [Subsingleton.elim j 0]; exact h.2⟩⟩
  have hu : ∀ z ∈ K, updatedFn a none id f unitPdf z = 2 * a z := fun z hz => by
    have h1 := (hmemK z).1 hz
    rw [updatedFn, id, unitPdf_in (by linarith) (by linarith), hfd, Set.indicator_of_mem hz]
    simp [weightFn, mul_comm]
  have hu0 : ∀ z, z ∉ K → updatedFn a none id f unitPdf z = 0 := fun z hz => by
    rw [updatedFn, id, hfd, Set.indicator_of_notMem hz, zero_div, mul_zero]
  have hpk : IsPeak (updatedFn a none id f unitPdf) fun _ => 1 / 2 := by
    refine ⟨?_, fun ε hε => ⟨2 * (c * Real.exp (-(ε ^ 2 / (2 * 1 ^ 2)))), ?_, fun z hz => ?_⟩⟩
    · refine (hacont.const_mul 2).continuousAt.congr ?_
      filter_upwards [hO2.mem_nhds (show (fun _ : Fin 1 => (1 / 2 : ℝ)) ∈ _ from ⟨by norm_num, by norm_num⟩)] with z hz
      exact (hu z ((hmemK z).2 ⟨hz.1.le, hz.2.le⟩)).symm
    · rw [hu _ ((hmemK _).2 ⟨by norm_num, by norm_num⟩), had]
      refine mul_lt_mul_of_pos_left (mul_lt_mul_of_pos_left (Real.exp_lt_exp.2 ?_) hc) two_pos
      have : 0 < ε ^ 2 / (2 * 1 ^ 2) := by positivity
      simpa using this
    · by_cases hzK : z ∈ K
      · rw [hu z hzK]
        refine mul_le_mul_of_nonneg_left (mul_le_mul_of_nonneg_left (Real.exp_le_exp.2 ?_) hc.le) two_pos.le
        rw [dist_one] at hz
        have := pow_le_pow_left₀ hε.le hz 2
        rw [sq_abs] at this
        rw [neg_le_neg_iff]
        gcongr
      · rw [hu0 z hzK]
        positivity
  refine C145_interior_partial (user := user) (μ := unitLaw) i1 i2 none measurable_const (fun _ => one_pos)
    (M := 1) (fun _ => le_rfl) (by simp [weightFn]) measurable_id one_pos unit_sq unitPdf_measurable
    unitPdf_nonneg unitPdf_le (by rw [Measure.map_id]; exact unitLaw_density)
    (di := some (normColumns (fun _ : Fin 1 => 1 / 2) fun _ => 1)) (a := a) ha hf (A := c)
    (fun z => by rw [abs_of_pos (hpos z)]; exact hle z) (Bf := 2) (fun z => ?_) (K := K) isCompact_Icc (fun z hz => ?_)
    (fun z hz => Set.indicator_of_notMem hz _) hpk (unit_charges (by norm_num) (by norm_num))
  · rw [hfd]
    by_cases hz : z ∈ K
    · rw [Set.indicator_of_mem hz]; norm_num
    · rw [Set.indicator_of_notMem hz]; norm_num
  · have h1 := (hmemK z).1 hz
    refine ⟨?_, by rw [unitPdf_in (by linarith) (by linarith)]; exact one_pos⟩
    refine (continuousAt_const (y := (1 : ℝ))).congr ?_
    filter_upwards [hO.mem_nhds (show z ∈ {z : Fin 1 → ℝ | 0 < z 0 ∧ z 0 < 1} from ⟨by linarith, by linarith⟩)] with y hy
    exact (unitPdf_in hy.1.le hy.2.le).symm

end Verif
