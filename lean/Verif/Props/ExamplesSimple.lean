import Verif.Model.ExamplesSimple
import Verif.Props.ExamplesLinear
import Verif.Props.DensitySelect
import Verif.Props.DensityDomain
import Verif.Props.Bayes

/-!
# C89–C91: the one-dimensional example problems
-/

open Matrix

namespace Verif

open SpecST

variable {σ : Type} {env : Env}

/-! ## C89: `polynomial_1D_data` -/

/-- The samples: the next `n` variates of the initial distribution. -/
def polyLam (G : Gen σ) (I : Frozen σ) (n : ℕ) (s : σ) (k : Fin n) : ℝ := nthDraw (I.stream G) s k

/-- The data: `mu` if there is one, otherwise `mu + sigma² z` for the normal draws `z` that follow
the samples. -/
noncomputable def polyDat (G : Gen σ) (I : Frozen σ) (n : ℕ) (mu sigma : ℝ) (N : ℕ) (s : σ) (i : Fin N) : ℝ :=
  if N = 1 then mu else mu + sigma ^ 2 * nthDraw G.normal (stateAfter (I.stream G) s n) i

theorem ofFn_congr_len {α : Type} {m n : ℕ} (h : m = n) (f : Fin m → α) (g : Fin n → α)
    (hfg : ∀ i : Fin m, f i = g (Fin.cast h i)) : List.ofFn f = List.ofFn g := by
  subst h
  congr 1
  funext i
  exact hfg i

theorem map_draws_ofFn {α : Type} (G : Rng σ) (s : σ) (n : ℕ) (f : ℝ → α) :
    ((List.range n).map (nthDraw G s)).map f = List.ofFn fun i : Fin n => f (nthDraw G s i) := by
  rw [List.map_map]
  apply List.ext_getElem
  · simp
  · intro i h1 h2; simp

/-- **C89**, what is returned, for all sizes: the next variates of the initial distribution, their
`p`-th powers, and the data. -/
theorem C89_exact (G : Gen σ) (I : Frozen σ) (p n : ℕ) (mu sigma : ℝ) (N : ℕ) (s : σ) :
    (polynomial1DData G I p n mu sigma N s).1 = .ok (Arr2.col (polyLam G I n s),
      Arr2.col (fun k => polyLam G I n s k ^ p), List.ofFn (polyDat G I n mu sigma N s)) := by
  unfold polynomial1DData
  rw [take_bind_run]
  have e1 : colOf n ((List.range n).map (nthDraw (I.stream G) s)) = Arr2.col (polyLam G I n s) := by
    rw [colOf_draws]
    congr 1
    funext k
    rw [drawVec, Nat.zero_add]
    rfl
  have e2 : colOf n (((List.range n).map (nthDraw (I.stream G) s)).map (· ^ p)) =
      Arr2.col fun k => polyLam G I n s k ^ p := by
    unfold colOf
    congr 1
    funext i
    rw [map_draws_ofFn]
    simp [List.getD_eq_getElem?_getD, polyLam]
  unfold polynomialObs
  by_cases hN : N = 1
  · subst hN
    simp only [if_true]
    show Except.ok _ = _
    rw [e1, e2]
    simp [polyDat]
  · rw [if_neg hN, PyM.bind_run, take_bind_run]
    show Except.ok _ = _
    rw [e1, e2]
    congr 3
    rw [map_draws_ofFn]
    congr 1
    funext i
    rw [polyDat, if_neg hN]

/-- **C89 as documented**: with two or more data each is `mu + sigma z`, `z` the standard normal
draws. -/
def C89_claim : Prop := ∀ (σ : Type) (G : Gen σ) (I : Frozen σ) (p n : ℕ) (mu sigma : ℝ) (N : ℕ) (s : σ), 2 ≤ N →
  ∃ l q, (polynomial1DData G I p n mu sigma N s).1 = .ok (l, q,
    List.ofFn fun i : Fin N => mu + sigma * nthDraw G.normal (stateAfter (I.stream G) s n) i)

theorem C89_claim_refuted : ¬ C89_claim := by
  intro h
  obtain ⟨l, q, h1⟩ := h ℕ ⟨⟨id, fun s => (1, s)⟩, fun s => (0, s)⟩ ⟨fun _ => .fin 1, fun s => (0, s)⟩
    1 1 0 (1 / 2) 2 0 le_rfl
  rw [C89_exact] at h1
  injection h1 with h1
  have h2 := congrArg (fun t : Arr2 × Arr2 × List ℝ => t.2.2.getD 0 0) h1
  simp [polyDat, nthDraw] at h2
  norm_num at h2

/-- **C89**, the part that holds: the deviation of the data is the documented one only for
`sigma ∈ {0, 1}`, for a generator that draws something other than 0. -/
theorem C89_partial (G : Gen σ) (I : Frozen σ) (n : ℕ) (mu sigma : ℝ) {N : ℕ} (hN : 2 ≤ N) (s : σ)
    (i : Fin N) (hz : nthDraw G.normal (stateAfter (I.stream G) s n) i ≠ 0) :
    polyDat G I n mu sigma N s i = mu + sigma * nthDraw G.normal (stateAfter (I.stream G) s n) i ↔
      sigma = 0 ∨ sigma = 1 := by
  rw [polyDat, if_neg (by omega)]
  constructor
  · intro h
    have : (sigma * (sigma - 1)) * nthDraw G.normal (stateAfter (I.stream G) s n) i = 0 := by linarith
    rcases mul_eq_zero.1 ((mul_eq_zero.1 this).resolve_right hz) with h | h
    · exact Or.inl h
    · exact Or.inr (by linarith)
  · rintro (rfl | rfl) <;> ring

/-! ## C90: `identity_1D_density_prob` -/

/-- `m` is the first of the samples nearest to the point `c`. -/
def FirstNearest {n : ℕ} (lam : Fin n → ℝ) (c : ℝ) (m : Fin n) : Prop :=
  (∀ k, |lam m - c| ≤ |lam k - c|) ∧ ∀ k, k < m → |lam m - c| < |lam k - c|

theorem FirstNearest.unique {n : ℕ} {lam : Fin n → ℝ} {c : ℝ} {m m' : Fin n}
    (h : FirstNearest lam c m) (h' : FirstNearest lam c m') : m = m' := by
  rcases lt_trichotomy m m' with hl | hl | hl
  · exact absurd (h'.2 m hl) (not_lt.2 (h.1 m'))
  · exact hl
  · exact absurd (h.2 m' hl) (not_lt.2 (h'.1 m))

/-- The mean of the data. -/
noncomputable def meanOf {N : ℕ} (d : Fin N → ℝ) : ℝ := (∑ i, d i) / N

/-- The value of the normal density, as a real number. -/
noncomputable def normVal (m s x : ℝ) : ℝ := Real.exp (-((x - m) / s) ^ 2 / 2) / (s * Real.sqrt (2 * Real.pi))

theorem normPdf_pos {s : ℝ} (hs : 0 < s) (m x : ℝ) : Funs.normPdf m s x = .fin (normVal m s x) := by
  rw [Funs.normPdf, if_pos hs]; rfl

theorem normVal_pos {s : ℝ} (hs : 0 < s) (m x : ℝ) : 0 < normVal m s x := by
  unfold normVal; positivity

theorem normVal_le {s : ℝ} (hs : 0 < s) (m x y : ℝ) :
    normVal m s x ≤ normVal m s y ↔ |y - m| ≤ |x - m| := by
  unfold normVal
  have hd : 0 < s * Real.sqrt (2 * Real.pi) := by positivity
  rw [div_le_div_iff_of_pos_right hd, Real.exp_le_exp, ← sq_le_sq, div_pow, div_pow]
  have h2 : 0 < s ^ 2 := by positivity
  rw [div_le_div_iff_of_pos_right (by norm_num), neg_le_neg_iff, div_le_div_iff_of_pos_right h2]

theorem densAt_frozen (D : Frozen σ) {n : ℕ} (v : Fin n → ℝ) :
    densAt D.dist (Arr2.col v) = .ok (List.ofFn fun k => D.dens (v k)) := by
  show Except.ok _ = _
  congr 1
  simp only [rowsOf, Arr2.col, List.map_ofFn]
  congr 1
  funext k
  simp

theorem listMean_ofFn {N : ℕ} (hN : 1 ≤ N) (d : Fin N → ℝ) : listMean (List.ofFn d) = .fin (meanOf d) := by
  unfold listMean meanOf
  rw [List.sum_ofFn, List.length_ofFn, F.fin_div_of_ne _ (by positivity)]

theorem densAt_normDist {s : ℝ} (hs : 0 < s) (m : ℝ) {n : ℕ} (v : Fin n → ℝ) :
    densAt (normDist (.fin m) s) (Arr2.col v) = .ok (List.ofFn fun k => .fin (normVal m s (v k))) := by
  show Except.ok _ = _
  congr 1
  simp only [rowsOf, Arr2.col, List.map_ofFn]
  congr 1
  funext k
  simp [normPdf_pos hs]

/-- The distribution the samples are drawn from: the given one, or uniform on the domain. -/
noncomputable def initOf (G : Gen σ) (init : Option (Frozen σ)) (a b : ℝ) : Frozen σ :=
  init.getD (Frozen.uniform G a b)

theorem identity_run (env : Env) (G : Gen σ) (n N : ℕ) (mu sigma : ℝ) (init : Option (Frozen σ))
    (nrm : Bool) {a b : ℝ} (hab : a ≤ b) (an : Bool) (s : σ) :
    let I := initOf G init a b
    let lam := polyLam G I n s
    (identity1DDensity env G n N mu sigma none init nrm a b an s).1 =
      (do
        let D ← DP.new (.mat (Arr2.col lam)) (.mat (Arr2.col lam)) (some (.vec 2 ![a, b])) none nrm
        runObj (identitySetup env I.dist (List.ofFn (polyDat G I n mu sigma N s)) sigma an) D) := by
  intro I lam
  unfold identity1DDensity
  rw [raiseIf_false (by rintro ⟨-, h⟩; linarith), PyM.lift_ok_bind]
  have h := C89_exact G I 1 n mu sigma N s
  rw [PyM.bind_run]
  change (polynomial1DData G (init.getD (Frozen.uniform G a b)) 1 n mu sigma N s).1 = _ at h
  rcases hz : polynomial1DData G (init.getD (Frozen.uniform G a b)) 1 n mu sigma N s with ⟨z1, z2⟩
  rw [hz] at h
  change z1 = _ at h
  subst h
  simp only [pow_one]
  rfl

/-- **C90.** `identity_1D_density_prob` with the analytical predicted density, no weights, and an
initial density that is positive at the samples: `mud_point()` of the returned problem is the (first)
sample nearest to the mean of the data. -/
theorem C90_mud_nearest (G : Gen σ) {n N : ℕ} (hn : 1 ≤ n) (hN : 1 ≤ N) (mu : ℝ) {sigma : ℝ}
    (hs : 0 < sigma) (init : Option (Frozen σ)) (nrm : Bool) {a b : ℝ} (hab : a ≤ b) (s : σ)
    (hpos : ∀ k, ∃ r, 0 < r ∧ (initOf G init a b).dens (polyLam G (initOf G init a b) n s k) = .fin r) :
    let I := initOf G init a b
    let lam := polyLam G I n s
    ∃ D m, (identity1DDensity env G n N mu sigma none init nrm a b true s).1 = .ok D ∧
      FirstNearest lam (meanOf (polyDat G I n mu sigma N s)) m ∧
      (DP.mudPoint env D).1 = .ok [lam m] := by
  intro I lam
  set dat := polyDat G I n mu sigma N s with hdat
  choose r hr0 hr using hpos
  rw [identity_run env G n N mu sigma init nrm hab true s]
  obtain ⟨Q, hQ, hQX, hQy, hQw⟩ : ∃ Q : DP, DP.new (.mat (Arr2.col lam)) (.mat (Arr2.col lam))
      (some (.vec 2 ![a, b])) none nrm = .ok Q ∧ Q.X = Arr2.col lam ∧ Q.y = Arr2.col lam ∧
      Q.weights = List.ofFn fun _ : Fin n => F.fin 1 := by
    refine ⟨_, rfl, rfl, rfl, ?_⟩
    exact (List.ofFn_const n (F.fin 1)).symm
  have ha : densAt I.dist Q.X = .ok (List.ofFn fun k => .fin (r k)) := by
    rw [hQX, densAt_frozen]
    congr 2
    funext k
    exact hr k
  have hb : densAt (normDist (listMean (List.ofFn dat)) sigma) Q.y =
      .ok (List.ofFn fun k => .fin (normVal (meanOf dat) sigma (lam k))) := by
    rw [hQy, listMean_ofFn hN, densAt_normDist hs]
  have hc : ∃ out, I.dist.pdf Q.y = .ok out ∧ out.ravel = List.ofFn fun k => F.fin (r k) := by
    refine ⟨_, rfl, ?_⟩
    rw [hQy]
    show (rowsOf (fun _ x => I.dens x) (Arr2.col lam)).flatten = _
    have : rowsOf (fun _ x => I.dens x) (Arr2.col lam) = List.ofFn fun k => [F.fin (r k)] := by
      unfold rowsOf
      congr 1
      funext k
      show List.ofFn (fun _ : Fin 1 => I.dens (lam k)) = _
      rw [hr k]
      rfl
    rw [this]
    have h2 : ∀ (l : List F), (l.map fun x => [x]).flatten = l := by
      intro l
      induction l with
      | nil => rfl
      | cons x l ih => simp [ih]
    have h3 : (List.ofFn fun k => [F.fin (r k)]) = (List.ofFn fun k => F.fin (r k)).map fun x => [x] := by
      rw [List.map_ofFn]; rfl
    rw [h3, h2]
  obtain ⟨m, h1, h2, h3⟩ := C28_mud_point_finite (env := env) Q I.dist
    (normDist (listMean (List.ofFn dat)) sigma) I.dist (by omega) (by rw [hQX]; rfl) r (fun _ => 1)
    (fun k => normVal (meanOf dat) sigma (lam k)) r hQw ha hb hc (fun k => (hr0 k).ne')
  have hv : ∀ k, r k * 1 * (normVal (meanOf dat) sigma (lam k) / r k) = normVal (meanOf dat) sigma (lam k) := by
    intro k
    have := (hr0 k).ne'
    field_simp
  simp only [hv, normVal_le hs] at h1
  simp only [hv] at h2
  have hrun : runObj (identitySetup env I.dist (List.ofFn dat) sigma true) Q =
      .ok (Q.after env [.setInitial (some I.dist), .setObserved (some (normDist (listMean (List.ofFn dat)) sigma)),
        .setPredicted (some I.dist) 0 none]) := by
    rfl
  refine ⟨Q.after env [.setInitial (some I.dist), .setObserved (some (normDist (listMean (List.ofFn dat)) sigma)),
        .setPredicted (some I.dist) 0 none], m, ?_, ⟨fun k => h1 k, fun k hk => ?_⟩, ?_⟩
  · show (do
        let D ← DP.new (.mat (Arr2.col lam)) (.mat (Arr2.col lam)) (some (.vec 2 ![a, b])) none nrm
        runObj (identitySetup env I.dist (List.ofFn dat) sigma true) D) = _
    rw [hQ, Py.ok_bind, hrun]
  · by_contra hc
    exact absurd (h2 k hk) (not_lt.2 ((normVal_le hs _ _ _).2 (not_lt.1 hc)))
  · rw [h3]
    congr 1
    have : ∀ (Y : Arr2), Y = Arr2.col lam → (List.ofFn fun j : Fin Y.c => Y.get m j) = [lam m] := by
      rintro _ rfl
      show [(Arr2.col lam).get m 0] = _
      congr 1
      simp [Arr2.col, Arr2.get]
    exact this _ hQX

/-- **C90** for the default call (`init_dist="uniform"`, domain `[a, b]`): no hypothesis about the
density is needed, the uniform draws of the generator lie in `[0, 1]`. -/
theorem C90_default (G : Gen σ) {n N : ℕ} (hn : 1 ≤ n) (hN : 1 ≤ N) (mu : ℝ) {sigma : ℝ}
    (hs : 0 < sigma) (nrm : Bool) {a b : ℝ} (hab : a < b) (s : σ)
    (hu : ∀ t, 0 ≤ (G.unif t).1 ∧ (G.unif t).1 ≤ 1) :
    let I := Frozen.uniform G a b
    let lam := polyLam G I n s
    ∃ D m, (identity1DDensity env G n N mu sigma none none nrm a b true s).1 = .ok D ∧
      FirstNearest lam (meanOf (polyDat G I n mu sigma N s)) m ∧
      (DP.mudPoint env D).1 = .ok [lam m] := by
  refine C90_mud_nearest G hn hN mu hs none nrm hab.le s fun k => ⟨1 / (b - a), ?_, ?_⟩
  · have : 0 < b - a := by linarith
    positivity
  · show uniformPdf a b _ = _
    have h : ∃ t, polyLam G (initOf G none a b) n s k = a + (b - a) * (G.unif t).1 :=
      ⟨stateAfter ((initOf G none a b).stream G) s k, rfl⟩
    obtain ⟨t, ht⟩ := h
    obtain ⟨h0, h1⟩ := hu t
    rw [ht, uniformPdf, if_pos (by linarith), if_pos]
    constructor <;> nlinarith

/-- **C90** without the analytical predicted density: the predicted density is the kernel estimate of the samples
(values `c`), and `mud_point()` is the first sample with the greatest value of initial density times observed
density over it. -/
theorem C90_kde (G : Gen σ) {n N : ℕ} (hn : 1 ≤ n) (hN : 1 ≤ N) (mu : ℝ) {sigma : ℝ}
    (hs : 0 < sigma) (init : Option (Frozen σ)) (nrm : Bool) {a b : ℝ} (hab : a ≤ b) (s : σ) (r c : Fin n → ℝ)
    (hr : ∀ k, (initOf G init a b).dens (polyLam G (initOf G init a b) n s k) = .fin (r k))
    (hc : env.kde (Arr2.col (polyLam G (initOf G init a b) n s)) 0 (List.replicate n (.fin 1)) =
      .ok (List.ofFn fun k => .fin (c k))) (hc0 : ∀ k, c k ≠ 0) :
    let I := initOf G init a b
    let lam := polyLam G I n s
    let mean := meanOf (polyDat G I n mu sigma N s)
    ∃ D m, (identity1DDensity env G n N mu sigma none init nrm a b false s).1 = .ok D ∧
      (∀ k, r k * (normVal mean sigma (lam k) / c k) ≤ r m * (normVal mean sigma (lam m) / c m)) ∧
      (∀ k < m, r k * (normVal mean sigma (lam k) / c k) < r m * (normVal mean sigma (lam m) / c m)) ∧
      (DP.mudPoint env D).1 = .ok [lam m] := by
  intro I lam mean
  set dat := polyDat G I n mu sigma N s with hdat
  rw [identity_run env G n N mu sigma init nrm hab false s]
  obtain ⟨Q, hQ, hQX, hQy, hQw⟩ : ∃ Q : DP, DP.new (.mat (Arr2.col lam)) (.mat (Arr2.col lam))
      (some (.vec 2 ![a, b])) none nrm = .ok Q ∧ Q.X = Arr2.col lam ∧ Q.y = Arr2.col lam ∧
      Q.weights = List.ofFn fun _ : Fin n => F.fin 1 := by
    refine ⟨_, rfl, rfl, rfl, ?_⟩
    exact (List.ofFn_const n (F.fin 1)).symm
  have ha : densAt I.dist Q.X = .ok (List.ofFn fun k => .fin (r k)) := by
    rw [hQX, densAt_frozen]
    congr 2
    funext k
    exact hr k
  have hb : densAt (normDist (listMean (List.ofFn dat)) sigma) Q.y =
      .ok (List.ofFn fun k => .fin (normVal (meanOf dat) sigma (lam k))) := by
    rw [hQy, listMean_ofFn hN, densAt_normDist hs]
  have hc' : env.kde Q.y 0 Q.weights = .ok (List.ofFn fun k => .fin (c k)) := by
    rw [hQy, hQw, List.ofFn_const]
    exact hc
  have hrun : runObj (identitySetup env I.dist (List.ofFn dat) sigma false) Q =
      .ok (Q.after env [.setInitial (some I.dist),
        .setObserved (some (normDist (listMean (List.ofFn dat)) sigma))]) := rfl
  set ops : List DOp := [.setInitial (some I.dist),
        .setObserved (some (normDist (listMean (List.ofFn dat)) sigma))] with hops
  have hrel := sim_after (env := env) ops _ _ (new_rel (env := env) hQ)
  have hset : Q.start.after env Q.data ops =
      ⟨{ Q.start.cur with
          initial := some (some I.dist)
          observed := some (normDist (listMean (List.ofFn dat)) sigma)
          predicted := none }, none, none⟩ := by
    rfl
  have hu : (Q.start.after env Q.data ops).cur.complete.updated env Q.data =
      .ok (List.ofFn fun k => F.fin (r k) * F.fin 1 * (F.fin (normVal (meanOf dat) sigma (lam k)) / F.fin (c k))) := by
    rw [hset]
    exact Settings.updated_ofFn (env := env) (D := Q.data) (w := fun _ => F.fin 1) hQw ha hb hc'
  have e : (List.ofFn fun k => F.fin (r k) * F.fin 1 * (F.fin (normVal (meanOf dat) sigma (lam k)) / F.fin (c k))) =
      (List.ofFn fun k => r k * (normVal (meanOf dat) sigma (lam k) / c k)).map F.fin := by
    rw [List.map_ofFn]
    congr 1
    funext k
    rw [F.fin_div_of_ne _ (hc0 k)]
    simp
  rw [e] at hu
  obtain ⟨m, hm, hm'⟩ := npArgmax_spec (l := (List.ofFn fun k => r k * (normVal (meanOf dat) sigma (lam k) / c k)).map F.fin)
    (by intro h; rw [List.map_eq_nil_iff, List.ofFn_eq_nil_iff] at h; omega)
  rw [isArgmax_fin] at hm'
  obtain ⟨hm0, h1, h2⟩ := hm'
  have hmn : m < n := by simpa using hm0
  refine ⟨Q.after env ops, ⟨m, hmn⟩, ?_, fun k => ?_, fun k hk => ?_, ?_⟩
  · show (do
        let D ← DP.new (.mat (Arr2.col lam)) (.mat (Arr2.col lam)) (some (.vec 2 ![a, b])) none nrm
        runObj (identitySetup env I.dist (List.ofFn dat) sigma false) D) = _
    rw [hQ, Py.ok_bind, hrun]
  · have := h2 k (by simp)
    simpa using this
  · have := h1 k hk
    simpa using this
  · rw [(sim_estimate _ _ hrel).1, (specEstimate_fresh _ hrel.inv (Or.inl (by rw [hset]))).1]
    simp only [Settings.best, hu, Py.ok_bind, hm]
    show Q.X.rowAt m = _
    rw [hQX]
    unfold Arr2.rowAt
    rw [dif_pos (by exact hmn)]
    rfl

/-- A generator for the examples: normal draws 1, uniform draws 1/2. -/
noncomputable def demoGen : Gen ℕ := ⟨⟨id, fun s => (1, s + 1)⟩, fun s => (1 / 2, s + 1)⟩

/-- The hypotheses of C90 are met. -/
example : ∃ D m, (identity1DDensity env demoGen 3 2 0 1 none none false 0 1 true 0).1 = .ok D ∧
      FirstNearest (polyLam demoGen (Frozen.uniform demoGen 0 1) 3 0)
        (meanOf (polyDat demoGen (Frozen.uniform demoGen 0 1) 3 0 1 2 0)) m ∧
      (DP.mudPoint env D).1 = .ok [polyLam demoGen (Frozen.uniform demoGen 0 1) 3 0 m] :=
  C90_default _ (by norm_num) (by norm_num) 0 one_pos false one_pos 0 fun _ => by norm_num [demoGen]

/-- The hypotheses of `C90_kde` are met: a kernel estimate that is 1 at all three samples. -/
example : ∃ D m, (identity1DDensity ⟨fun _ _ _ => .ok [.fin 1, .fin 1, .fin 1]⟩ demoGen 3 2 0 1 none none false 0 1
      false 0).1 = .ok D ∧
      (DP.mudPoint ⟨fun _ _ _ => .ok [.fin 1, .fin 1, .fin 1]⟩ D).1 =
        .ok [polyLam demoGen (Frozen.uniform demoGen 0 1) 3 0 m] :=
  have ⟨D, m, h1, _, _, h2⟩ := C90_kde (env := ⟨fun _ _ _ => .ok [.fin 1, .fin 1, .fin 1]⟩) demoGen (n := 3) (N := 2) (by norm_num) (by norm_num)
    0 one_pos none false zero_le_one 0 (fun _ => 1) (fun _ => 1)
    (fun k => by
      show uniformPdf 0 1 _ = _
      have h : ∃ t, polyLam demoGen (initOf demoGen none 0 1) 3 0 k = 0 + (1 - 0) * (demoGen.unif t).1 :=
        ⟨stateAfter ((initOf demoGen none 0 1).stream demoGen) 0 k, rfl⟩
      obtain ⟨t, ht⟩ := h
      rw [ht, uniformPdf, if_pos (by norm_num), if_pos (by norm_num [demoGen])]
      norm_num)
    (by simp [List.ofFn_succ]) (fun _ => one_ne_zero)
  ⟨D, m, h1, h2⟩

/-! ## C91: `identity_1D_bayes_prob` -/

theorem densAt_normDists {sg : ℝ} (hs : 0 < sg) {n N : ℕ} (d : Fin N → ℝ) (v : Fin n → ℝ) :
    densAt (normDists (List.ofFn d) sg) (Arr2.col v) =
      .ok (List.ofFn fun k => .fin (∏ i, normVal (d i) sg (v k))) := by
  unfold densAt normDists
  simp only [Arr2.col, if_true, Py.ok_bind, FOut.prodRows, List.map_ofFn]
  congr 2
  funext k
  have e : (⟨n, 1, Matrix.of fun i (_ : Fin 1) => v i⟩ : Arr2).get k 0 = v k := by simp [Arr2.get]
  simp only [Function.comp, normPdf_pos hs, List.prod_ofFn]
  rw [← F.prod_fin]
  exact Finset.prod_congr rfl fun i _ => by rw [← e]

theorem sum_sq_mean {N : ℕ} (hN : 1 ≤ N) (d : Fin N → ℝ) (x : ℝ) :
    ∑ i, (x - d i) ^ 2 = N * (x - meanOf d) ^ 2 + ∑ i, (meanOf d - d i) ^ 2 := by
  have h0 : (N : ℝ) ≠ 0 := by positivity
  have hm : ∑ i, (meanOf d - d i) = 0 := by
    rw [Finset.sum_sub_distrib, Finset.sum_const, Finset.card_univ, Fintype.card_fin, nsmul_eq_mul, meanOf]
    field_simp
    ring
  have e : ∀ i, (x - d i) ^ 2 = (x - meanOf d) ^ 2 + 2 * (x - meanOf d) * (meanOf d - d i) + (meanOf d - d i) ^ 2 := by
    intro i; ring
  simp only [e]
  rw [Finset.sum_add_distrib, Finset.sum_add_distrib, ← Finset.mul_sum, hm, Finset.sum_const,
    Finset.card_univ, Fintype.card_fin, nsmul_eq_mul]
  ring

theorem prod_normVal_le {sg : ℝ} (hs : 0 < sg) {N : ℕ} (hN : 1 ≤ N) (d : Fin N → ℝ) (x y : ℝ) :
    ∏ i, normVal (d i) sg x ≤ ∏ i, normVal (d i) sg y ↔ |y - meanOf d| ≤ |x - meanOf d| := by
  unfold normVal
  have hd : 0 < ∏ _i : Fin N, sg * Real.sqrt (2 * Real.pi) := Finset.prod_pos fun _ _ => by positivity
  rw [Finset.prod_div_distrib, Finset.prod_div_distrib, div_le_div_iff_of_pos_right hd,
    ← Real.exp_sum, ← Real.exp_sum, Real.exp_le_exp, ← sq_le_sq]
  have e : ∀ z : ℝ, ∑ i, -((z - d i) / sg) ^ 2 / 2 =
      -((N * (z - meanOf d) ^ 2 + ∑ i, (meanOf d - d i) ^ 2) / (2 * sg ^ 2)) := by
    intro z
    rw [← sum_sq_mean hN, Finset.sum_div, ← Finset.sum_neg_distrib]
    refine Finset.sum_congr rfl fun i _ => ?_
    field_simp
  have h2 : 0 < 2 * sg ^ 2 := by positivity
  have hN' : (0 : ℝ) < N := by positivity
  rw [e, e, neg_le_neg_iff, div_le_div_iff_of_pos_right h2]
  constructor
  · intro h; nlinarith
  · intro h; nlinarith

/-- Prior proportional to a constant, or undefined everywhere: the estimate is the first sample
nearest to the mean. -/
theorem bayes_best {sg : ℝ} (hs : 0 < sg) {n N : ℕ} (hn : 1 ≤ n) (hN : 1 ≤ N) (d : Fin N → ℝ)
    (lam : Fin n → ℝ) {P : BP} {dom : Option NArr}
    (h : BP.new (.mat (Arr2.col lam)) (.mat (Arr2.col lam)) dom = .ok P)
    (hX : P.X = Arr2.col lam) (hy : P.y = Arr2.col lam)
    (hp : (∃ c, 0 < c ∧ densAt (uniformOn P.domain) P.X = .ok (List.ofFn fun _ : Fin n => .fin c)) ∨
      (densAt (uniformOn P.domain) P.X = .ok (List.ofFn fun _ : Fin n => .nan) ∧ ∀ i j, lam i = lam j)) :
    ∃ m, FirstNearest lam (meanOf d) m ∧
      (BP.mapPoint (P.after [.setLikelihood (normDists (List.ofFn d) sg) false])).1 = .ok [lam m] := by
  classical
  have hl : likeAt (normDists (List.ofFn d) sg) false P.data.y =
      .ok (List.ofFn fun k => .fin (∏ i, normVal (d i) sg (lam k))) := by
    show densAt _ P.y = _
    rw [hy, densAt_normDists hs]
  have hset : BSettings.after P.data [.setLikelihood (normDists (List.ofFn d) sg) false] =
      { like := some (normDists (List.ofFn d) sg, false) } := by
    simp only [BSettings.after, List.foldl_cons, List.foldl_nil, BOp.track]
    rw [if_pos ⟨_, hl⟩]
  rw [C41_current_partial h [.setLikelihood (normDists (List.ofFn d) sg) false] (by
    intro op hop hr
    rw [List.mem_singleton] at hop
    subst hop
    exact hr _ hl), hset]
  have hrow : ∀ m : Fin n, P.data.X.rowAt m = .ok [lam m] := by
    intro m
    show P.X.rowAt m = _
    rw [hX]
    unfold Arr2.rowAt
    rw [dif_pos (show (m : ℕ) < (Arr2.col lam).r from m.2)]
    rfl
  unfold BSettings.best BSettings.posterior BSettings.priorAt
  rcases hp with ⟨c, hc, hp⟩ | ⟨hp, heq⟩
  · change ∃ m, _ ∧ (do
      let u ← (do
        let pr ← densAt (uniformOn P.domain) P.X
        let ll ← likeAt (normDists (List.ofFn d) sg) false P.data.y
        let ps ← BSettings.combine false pr ll
        BSettings.checked P.data ps)
      let m ← npArgmax u
      P.data.X.rowAt m : Py (List ℝ)) = _
    rw [hp, Py.ok_bind, hl, Py.ok_bind, combine_ofFn, Py.ok_bind]
    have e : (List.ofFn fun k => postVal false (F.fin c) (F.fin (∏ i, normVal (d i) sg (lam k)))) =
        (List.ofFn fun k => c * ∏ i, normVal (d i) sg (lam k)).map F.fin := by
      rw [List.map_ofFn]; rfl
    have hpos : ∀ k, 0 < c * ∏ i, normVal (d i) sg (lam k) := fun k =>
      mul_pos hc (Finset.prod_pos fun i _ => normVal_pos hs _ _)
    unfold BSettings.checked
    rw [e, pyAssert_true (by
      show _ = P.X.r
      rw [hX]; simp [Arr2.col]), Py.ok_bind, raiseIf_false, Py.ok_bind]
    swap
    · rw [List.map_ofFn, List.sum_ofFn]
      simp only [Function.comp, F.sum_fin]
      intro h0
      injection h0 with h0
      have : 0 < ∑ k, c * ∏ i, normVal (d i) sg (lam k) :=
        Finset.sum_pos (fun k _ => hpos k) ⟨⟨0, hn⟩, Finset.mem_univ _⟩
      linarith
    obtain ⟨m, hm, hm'⟩ := npArgmax_spec
      (l := (List.ofFn fun k => c * ∏ i, normVal (d i) sg (lam k)).map F.fin)
      (by intro h0; rw [List.map_eq_nil_iff, List.ofFn_eq_nil_iff] at h0; omega)
    rw [isArgmax_fin] at hm'
    obtain ⟨hm0, h1, h2⟩ := hm'
    have hmn : m < n := by simpa using hm0
    refine ⟨⟨m, hmn⟩, ⟨fun k => ?_, fun k hk => ?_⟩, ?_⟩
    · have := h2 k (by simp)
      simp only [List.getElem_ofFn] at this
      exact (prod_normVal_le hs hN d _ _).1 ((mul_le_mul_iff_right₀ hc).1 this)
    · have := h1 k hk
      simp only [List.getElem_ofFn] at this
      by_contra hcon
      have h4 := (prod_normVal_le hs hN d _ _).2 (not_lt.1 hcon)
      have h5 := (mul_lt_mul_iff_right₀ hc).1 this
      exact absurd h4 (not_le.2 h5)
    · show (do
        let m ← npArgmax _
        P.data.X.rowAt m : Py (List ℝ)) = _
      rw [hm, Py.ok_bind]
      exact hrow ⟨m, hmn⟩
  · change ∃ m, _ ∧ (do
      let u ← (do
        let pr ← densAt (uniformOn P.domain) P.X
        let ll ← likeAt (normDists (List.ofFn d) sg) false P.data.y
        let ps ← BSettings.combine false pr ll
        BSettings.checked P.data ps)
      let m ← npArgmax u
      P.data.X.rowAt m : Py (List ℝ)) = _
    rw [hp, Py.ok_bind, hl, Py.ok_bind, combine_ofFn, Py.ok_bind]
    have e : (List.ofFn fun k => postVal false F.nan (F.fin (∏ i, normVal (d i) sg (lam k)))) =
        List.ofFn fun _ : Fin n => F.nan := by
      congr 1
      funext k
      simp only [postVal, Bool.false_eq_true, if_false, F.nan_mul]
    unfold BSettings.checked
    obtain ⟨n, rfl⟩ : ∃ n', n = n' + 1 := ⟨n - 1, by omega⟩
    rw [e, pyAssert_true (by
      show _ = P.X.r
      rw [hX]; simp [Arr2.col]), Py.ok_bind, raiseIf_false, Py.ok_bind]
    swap
    · rw [List.ofFn_succ, List.sum_cons, F.nan_add]
      intro h0; cases h0
    refine ⟨0, ⟨fun k => by rw [heq 0 k], fun k hk => absurd hk (Fin.not_lt_zero k)⟩, ?_⟩
    have hm : npArgmax (List.ofFn fun _ : Fin (n + 1) => F.nan) = .ok 0 := by
      refine npArgmax_eq ⟨by simp, fun k hk => absurd hk (Nat.not_lt_zero _), fun hne => ?_⟩
      simp at hne
    show (do
        let m ← npArgmax _
        P.data.X.rowAt m : Py (List ℝ)) = _
    rw [hm, Py.ok_bind]
    exact hrow 0

theorem identity_bayes_run (G : Gen σ) (n N : ℕ) (mu sigma : ℝ) (I : Frozen σ) (dom : Option NArr)
    (s : σ) :
    (identity1DBayes G n N mu sigma I dom s).1 =
      (do
        let B ← BP.new (.mat (Arr2.col (polyLam G I n s))) (.mat (Arr2.col (polyLam G I n s))) dom
        runObj (BP.setLikelihood (normDists (List.ofFn (polyDat G I n mu sigma N s)) sigma) false) B) := by
  unfold identity1DBayes
  have h := C89_exact G I 1 n mu sigma N s
  rw [PyM.bind_run]
  rcases hz : polynomial1DData G I 1 n mu sigma N s with ⟨z1, z2⟩
  rw [hz] at h
  change z1 = _ at h
  subst h
  simp only [pow_one]
  change ((PyM.lift (BP.new (.mat (Arr2.col (polyLam G I n s))) (.mat (Arr2.col (polyLam G I n s))) dom) >>=
        fun B => PyM.lift (runObj (BP.setLikelihood (normDists (List.ofFn (polyDat G I n mu sigma N s)) sigma)) B))
      z2).1 = _
  generalize BP.new (.mat (Arr2.col (polyLam G I n s))) (.mat (Arr2.col (polyLam G I n s))) dom = x
  cases x <;> rfl

theorem bayes_runObj {sg : ℝ} (hs : 0 < sg) {n N : ℕ} (d : Fin N → ℝ) (lam : Fin n → ℝ) (P : BP)
    (hy : P.y = Arr2.col lam) :
    runObj (BP.setLikelihood (normDists (List.ofFn d) sg) false) P =
      .ok (P.after [.setLikelihood (normDists (List.ofFn d) sg) false]) := by
  have hl := densAt_normDists hs d lam
  rw [← hy] at hl
  unfold densAt at hl
  rcases hp : (normDists (List.ofFn d) sg).pdf P.y with e | out
  · rw [hp] at hl; cases hl
  · rw [hp, Py.ok_bind] at hl
    simp only [runObj, BP.after, List.foldl_cons, List.foldl_nil, BOp.run]
    unfold BP.setLikelihood
    simp only [PyM.get_bind_run, Bool.false_eq_true, if_false, PyM.modify_bind_run, hp, PyM.lift_ok_bind, hl]
    rfl

/-- **C91**, default domain: `map_point()` of the problem returned by `identity_1D_bayes_prob` is the
(first) sample nearest to the mean of the data, for every initial distribution, every number of
samples and of data. -/
theorem C91_map_nearest (G : Gen σ) {n N : ℕ} (hn : 1 ≤ n) (hN : 1 ≤ N) (mu : ℝ) {sigma : ℝ}
    (hs : 0 < sigma) (I : Frozen σ) (s : σ) :
    let lam := polyLam G I n s
    ∃ B m, (identity1DBayes G n N mu sigma I none s).1 = .ok B ∧
      FirstNearest lam (meanOf (polyDat G I n mu sigma N s)) m ∧
      (BP.mapPoint B).1 = .ok [lam m] := by
  intro lam
  obtain ⟨n, rfl⟩ : ∃ n', n = n' + 1 := ⟨n - 1, by omega⟩
  set dat := polyDat G I (n + 1) mu sigma N s
  obtain ⟨D, hD, hD'⟩ := C36_float (Matrix.of fun i (_ : Fin 1) => lam i) (1 / 10)
  have hnew : BP.new (.mat (Arr2.col lam)) (.mat (Arr2.col lam)) none =
      .ok { X := Arr2.col lam, y := Arr2.col lam, domain := ⟨1, 2, D⟩ } := by
    unfold BP.new
    simp only [NArr.shapeRow]
    show (do let D ← fitDomain (some (Arr2.col lam)) none (1 / 10) false; _ : Py BP) = _
    rw [show fitDomain (some (Arr2.col lam)) none (1 / 10) false = _ from hD]
    rfl
  obtain ⟨lo, hi, hlo, hhi, h0, h1, hin⟩ := hD' 0
  have hle : lo ≤ hi := hhi.2 hlo.1
  have hdle : ∀ j, D j 0 ≤ D j 1 := by
    intro j
    rw [Subsingleton.elim j 0, h0, h1]
    nlinarith
  have hdens := densAt_uniformOn (Matrix.of fun i (_ : Fin 1) => lam i) D hdle
  have key := bayes_best hs hn hN dat lam hnew rfl rfl (by
    rcases hle.eq_or_lt with he | hlt
    · right
      refine ⟨hdens.trans ?_, fun i j => ?_⟩
      · congr 2
        funext k
        rw [Fin.prod_univ_one, uniformPdf, if_neg]
        rw [h0, h1, he]; simp
      · have hall : ∀ i, lam i = lo := fun i =>
          le_antisymm (he ▸ hhi.2 ⟨i, rfl⟩) (hlo.2 ⟨i, rfl⟩)
        rw [hall i, hall j]
    · left
      have hpos : 0 < D 0 1 - D 0 0 := by rw [h0, h1]; linarith
      refine ⟨1 / (D 0 1 - D 0 0), by positivity, hdens.trans ?_⟩
      congr 2
      funext k
      rw [Fin.prod_univ_one, uniformPdf, if_pos hpos, if_pos (hin (by norm_num) k)])
  obtain ⟨m, hm, hm'⟩ := key
  refine ⟨_, m, ?_, hm, hm'⟩
  rw [identity_bayes_run, hnew, Py.ok_bind]
  exact bayes_runObj hs dat lam _ rfl

/-- **C91**, domain given: the same for every domain `[a, b]` that contains the samples. -/
theorem C91_given_domain (G : Gen σ) {n N : ℕ} (hn : 1 ≤ n) (hN : 1 ≤ N) (mu : ℝ) {sigma : ℝ}
    (hs : 0 < sigma) (I : Frozen σ) (s : σ) {a b : ℝ} (hab : a < b)
    (hin : ∀ k, a ≤ polyLam G I n s k ∧ polyLam G I n s k ≤ b) :
    let lam := polyLam G I n s
    ∃ B m, (identity1DBayes G n N mu sigma I (some (.vec 2 ![a, b])) s).1 = .ok B ∧
      FirstNearest lam (meanOf (polyDat G I n mu sigma N s)) m ∧
      (BP.mapPoint B).1 = .ok [lam m] := by
  intro lam
  set dat := polyDat G I n mu sigma N s
  have hnew : BP.new (.mat (Arr2.col lam)) (.mat (Arr2.col lam)) (some (.vec 2 ![a, b])) =
      .ok { X := Arr2.col lam, y := Arr2.col lam, domain := ⟨1, 2, !![a, b]⟩ } := by
    unfold BP.new
    have e : (NArr.vec 2 ![a, b]).shapeRow = ⟨1, 2, !![a, b]⟩ := by
      simp only [NArr.shapeRow, Arr2.row]
      rw [Arr2.mk_inj]
      ext i j
      fin_cases i; fin_cases j <;> rfl
    simp only [e]
    rfl
  have hdens := densAt_uniformOn (Matrix.of fun i (_ : Fin 1) => lam i) !![a, b]
    (by intro j; fin_cases j; exact hab.le)
  have key := bayes_best hs hn hN dat lam hnew rfl rfl (by
    left
    have hpos : 0 < b - a := by linarith
    refine ⟨1 / (b - a), by positivity, hdens.trans ?_⟩
    congr 2
    funext k
    rw [Fin.prod_univ_one]
    show uniformPdf a b (lam k) = _
    rw [uniformPdf, if_pos hpos, if_pos (hin k)])
  obtain ⟨m, hm, hm'⟩ := key
  refine ⟨_, m, ?_, hm, hm'⟩
  rw [identity_bayes_run, hnew, Py.ok_bind]
  exact bayes_runObj hs dat lam _ rfl

/-- **C91**, agreement: from the same generator state, with the same initial distribution, sizes and
parameters, the density problem and the Bayes problem return the same point. -/
theorem C91_same_point (G : Gen σ) {n N : ℕ} (hn : 1 ≤ n) (hN : 1 ≤ N) (mu : ℝ) {sigma : ℝ}
    (hs : 0 < sigma) (nrm : Bool) {a b : ℝ} (hab : a < b) (s : σ)
    (hu : ∀ t, 0 ≤ (G.unif t).1 ∧ (G.unif t).1 ≤ 1) :
    ∃ D B x, (identity1DDensity env G n N mu sigma none none nrm a b true s).1 = .ok D ∧
      (identity1DBayes G n N mu sigma (Frozen.uniform G a b) none s).1 = .ok B ∧
      (DP.mudPoint env D).1 = .ok x ∧ (BP.mapPoint B).1 = .ok x := by
  obtain ⟨D, m, h1, h2, h3⟩ := C90_default (env := env) G hn hN mu hs nrm hab s hu
  obtain ⟨B, m', h1', h2', h3'⟩ := C91_map_nearest G hn hN mu hs (Frozen.uniform G a b) s
  exact ⟨D, B, _, h1, h1', h3, by rw [h3', h2.unique h2']⟩

/-- The hypotheses of C91 are met. -/
example : ∃ D B x, (identity1DDensity env demoGen 3 2 0 1 none none true 0 1 true 0).1 = .ok D ∧
      (identity1DBayes demoGen 3 2 0 1 (Frozen.uniform demoGen 0 1) none 0).1 = .ok B ∧
      (DP.mudPoint env D).1 = .ok x ∧ (BP.mapPoint B).1 = .ok x :=
  C91_same_point _ (by norm_num) (by norm_num) 0 one_pos true one_pos 0 fun _ => by norm_num [demoGen]

/-! ### Further cases meeting the hypotheses -/

/-- C89: with deviation `2` the data are not those of a normal variate of deviation `2`. -/
example (i : Fin 3) : polyDat demoGen (Frozen.uniform demoGen 0 1) 3 0 2 3 0 i ≠
    0 + 2 * nthDraw demoGen.normal (stateAfter ((Frozen.uniform demoGen 0 1).stream demoGen) 0 3) i := by
  intro h
  have := (C89_partial demoGen (Frozen.uniform demoGen 0 1) 3 0 2 (by norm_num) 0 i one_ne_zero).1 h
  norm_num at this

/-- C90 with an initial distribution of constant density on `[0, 1]`. -/
example : ∃ D m, (identity1DDensity env demoGen 3 2 0 1 none (some ⟨fun _ => .fin 2, fun s => ((s : ℝ), s + 1)⟩) false
      0 1 true 4).1 = .ok D ∧
    FirstNearest ![4, 5, 6] 1 m ∧ (DP.mudPoint env D).1 = .ok [(![4, 5, 6] : Fin 3 → ℝ) m] := by
  have h := C90_mud_nearest (env := env) demoGen (n := 3) (N := 2) (by norm_num) (by norm_num) 0 (sigma := 1)
    one_pos (some ⟨fun _ => .fin 2, fun s => ((s : ℝ), s + 1)⟩) false zero_le_one 4 fun _ => ⟨2, two_pos, rfl⟩
  have hl : polyLam demoGen (initOf demoGen (some ⟨fun _ => .fin 2, fun s => ((s : ℝ), s + 1)⟩) 0 1) 3 4 =
      ![4, 5, 6] := by
    ext i
    fin_cases i <;> simp [polyLam, nthDraw, stateAfter, Frozen.stream, initOf]
  have hm : meanOf (polyDat demoGen (initOf demoGen (some ⟨fun _ => .fin 2, fun s => ((s : ℝ), s + 1)⟩) 0 1) 3 0 1 2 4)
      = 1 := by
    simp [meanOf, polyDat, nthDraw, demoGen]
  simpa only [hl, hm] using h

/-- C91 with the same initial distribution, without a domain and with the domain `[0, 10]`. -/
example : (∃ B m, (identity1DBayes demoGen 3 2 0 1 ⟨fun _ => .fin 2, fun s => ((s : ℝ), s + 1)⟩ none 4).1 = .ok B ∧
      FirstNearest ![4, 5, 6] 1 m ∧ (BP.mapPoint B).1 = .ok [(![4, 5, 6] : Fin 3 → ℝ) m]) ∧
    ∃ B m, (identity1DBayes demoGen 3 2 0 1 ⟨fun _ => .fin 2, fun s => ((s : ℝ), s + 1)⟩ (some (.vec 2 ![0, 10])) 4).1 =
        .ok B ∧
      FirstNearest ![4, 5, 6] 1 m ∧ (BP.mapPoint B).1 = .ok [(![4, 5, 6] : Fin 3 → ℝ) m] := by
  have hl : polyLam demoGen ⟨fun _ => .fin 2, fun s => ((s : ℝ), s + 1)⟩ 3 4 = ![4, 5, 6] := by
    ext i
    fin_cases i <;> simp [polyLam, nthDraw, stateAfter, Frozen.stream]
  have hm : meanOf (polyDat demoGen ⟨fun _ => .fin 2, fun s => ((s : ℝ), s + 1)⟩ 3 0 1 2 4) = 1 := by
    simp [meanOf, polyDat, nthDraw, demoGen]
  have h1 := C91_map_nearest demoGen (n := 3) (N := 2) (by norm_num) (by norm_num) 0 (sigma := 1) one_pos
    ⟨fun _ => .fin 2, fun s => ((s : ℝ), s + 1)⟩ 4
  have h2 := C91_given_domain demoGen (n := 3) (N := 2) (by norm_num) (by norm_num) 0 (sigma := 1) one_pos
    ⟨fun _ => .fin 2, fun s => ((s : ℝ), s + 1)⟩ 4 (a := 0) (b := 10) (by norm_num) (by
      intro k
      rw [hl]
      fin_cases k <;> norm_num)
  exact ⟨by simpa only [hl, hm] using h1, by simpa only [hl, hm] using h2⟩

end Verif
