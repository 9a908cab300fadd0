import Verif.Model.ExamplesLinear
import Verif.Props.MoreData
import Verif.Props.Util
import Verif.Props.Equipment
import Verif.Props.Iterate

/-!
# C86–C88: the linear example problems
-/

open Matrix Filter Topology

namespace Verif

open SpecST

variable {σ : Type}

theorem take_run (G : Rng σ) (n : ℕ) (s : σ) :
    G.take n s = (.ok ((List.range n).map (nthDraw G s)), stateAfter G s n) := by
  simp [Rng.take, randn_spec]

theorem take_bind_run {β : Type} (G : Rng σ) (n : ℕ) (f : List ℝ → PyM σ β) (s : σ) :
    (G.take n >>= f) s = f ((List.range n).map (nthDraw G s)) (stateAfter G s n) := by
  rw [PyM.bind_run, take_run]

theorem reseed_bind_run {β : Type} (G : Rng σ) (seed : Option ℕ) (f : Unit → PyM σ β) (s : σ) :
    (G.reseed seed >>= f) s = f () (startState G seed s) := by
  cases seed <;> rfl

theorem getD_draws (G : Rng σ) (s : σ) {n i : ℕ} (h : i < n) :
    ((List.range n).map (nthDraw G s)).getD i 0 = nthDraw G s i := by
  simp [List.getD_eq_getElem?_getD, h]

theorem nthDraw_stateAfter (G : Rng σ) (s : σ) (k i : ℕ) :
    nthDraw G (stateAfter G s k) i = nthDraw G s (k + i) := by
  have : ∀ i, stateAfter G (stateAfter G s k) i = stateAfter G s (k + i) := by
    intro i
    induction i with
    | zero => rfl
    | succ i ih => rw [stateAfter, ih]; rfl
  rw [nthDraw, this]; rfl

/-! ## C86: `random_linear_problem` -/

/-- The matrix of the draws number `k, k + 1, ...`. -/
def drawMat (G : Rng σ) (s : σ) (k r c : ℕ) : Matrix (Fin r) (Fin c) ℝ :=
  .of fun i j => nthDraw G s (k + (i * c + j))

/-- The vector of the draws number `k, k + 1, ...`. -/
def drawVec (G : Rng σ) (s : σ) (k n : ℕ) : Fin n → ℝ := fun i => nthDraw G s (k + i)

theorem matOf_draws (G : Rng σ) (s : σ) (r c : ℕ) :
    matOf r c ((List.range (r * c)).map (nthDraw G s)) = ⟨r, c, drawMat G s 0 r c⟩ := by
  unfold matOf drawMat
  congr 1
  ext i j
  have : (i : ℕ) * c + j < r * c := by
    calc (i : ℕ) * c + j < i * c + c := by omega
      _ = (i + 1) * c := by ring
      _ ≤ r * c := Nat.mul_le_mul_right _ i.2
  simp only [of_apply, getD_draws G s this, Nat.zero_add]

theorem colOf_draws (G : Rng σ) (s : σ) (n : ℕ) :
    colOf n ((List.range n).map (nthDraw G s)) = Arr2.col (drawVec G s 0 n) := by
  unfold colOf drawVec
  congr 1
  funext i
  rw [getD_draws G s i.2, Nat.zero_add]

theorem diagSorted_spec (n : ℕ) (u : List ℝ) (hn : u.length = n) (hu : ∀ x ∈ u, 0 ≤ x) :
    ∃ v : Fin n → ℝ, diagSorted n u = ⟨n, n, diagonal v⟩ ∧ (∀ i, 1 / 2 ≤ v i) ∧ Antitone v ∧
      (List.ofFn v).Perm (u.map (· + 1 / 2)) := by
  subst hn
  set l := (u.insertionSort (· ≤ ·)).reverse.map (· + 1 / 2) with hl
  have hlen : l.length = u.length := by simp [hl]
  have hmem : ∀ y ∈ l, 1 / 2 ≤ y := by
    intro y hy
    rw [hl, List.mem_map] at hy
    obtain ⟨x, hx, rfl⟩ := hy
    have h0 := hu x (by simpa using hx)
    change 1 / 2 ≤ x + 1 / 2
    linarith
  refine ⟨fun i => l.getD i 0, rfl, fun i => ?_, ?_, ?_⟩
  · have hi : (i : ℕ) < l.length := by rw [hlen]; exact i.2
    simp only [List.getD_eq_getElem?_getD, List.getElem?_eq_getElem hi, Option.getD_some]
    exact hmem _ (List.getElem_mem hi)
  · have hs : l.Pairwise (· ≥ ·) := by
      rw [hl, List.pairwise_map, List.pairwise_reverse]
      refine (List.pairwise_insertionSort (· ≤ ·) u).imp fun h => ?_
      simpa using h
    intro i j hij
    have hi : (i : ℕ) < l.length := by rw [hlen]; exact i.2
    have hj : (j : ℕ) < l.length := by rw [hlen]; exact j.2
    simp only [List.getD_eq_getElem?_getD, List.getElem?_eq_getElem hi,
      List.getElem?_eq_getElem hj, Option.getD_some]
    rcases eq_or_lt_of_le hij with h | h
    · subst h; exact le_rfl
    · exact List.pairwise_iff_getElem.1 hs i j hi hj h
  · have : List.ofFn (fun i : Fin u.length => l.getD i 0) = l := by
      apply List.ext_getElem
      · simp [hlen]
      · intro k h1 h2
        simp [List.getD_eq_getElem?_getD, h2]
    rw [this, hl]
    exact ((List.reverse_perm _).trans (List.perm_insertionSort _ u)).map _

/-- A mean given by the user as a 1-D array or a column, or left out (zero). -/
def InitMean {n : ℕ} (mean : Option NArr) (m : Fin n → ℝ) : Prop :=
  (mean = none ∧ m = 0) ∨ ∃ x, mean = some x ∧ IsVec x m

theorem defaultMean_toCol {n : ℕ} {mean : Option NArr} {m : Fin n → ℝ} (h : InitMean mean m) :
    (defaultMean n mean).toCol = Arr2.col m := by
  rcases h with ⟨rfl, rfl⟩ | ⟨x, rfl, rfl | rfl⟩
  · show (Arr2.zeros n 1).ravelCol = _
    rw [Arr2.zeros_col, Arr2.ravelCol_col]
  · rfl
  · exact Arr2.ravelCol_col m

theorem new_cols {d p : ℕ} (A : Matrix (Fin d) (Fin p) ℝ) (b y : Fin d → ℝ) (m : Fin p → ℝ) (x : NArr)
    (hx : x.toCol = Arr2.col m) (S : Matrix (Fin p) (Fin p) ℝ) :
    LGP.new (.mat ⟨d, p, A⟩) (some (.mat (Arr2.col b))) (some (.mat (Arr2.col y))) (some x)
      (some ⟨p, p, S⟩) = Api.new A b y m S 1 1 := by
  rw [Api.new, new_typed]
  unfold LGP.new
  have e : ∀ v : Fin d → ℝ, (NArr.mat (Arr2.col v)).toCol = Arr2.col v := fun v => Arr2.ravelCol_col v
  simp only [hx, e, NArr.toRow2]
  rw [raiseIf_false (by simp [Arr2.col])]
  rfl

theorem drawVec_after (G : Rng σ) (s : σ) (k l n : ℕ) :
    drawVec G (stateAfter G s k) l n = drawVec G s (k + l) n := by
  funext i
  rw [drawVec, drawVec, nthDraw_stateAfter, Nat.add_assoc]

theorem stateAfter_add (G : Rng σ) (s : σ) (k i : ℕ) :
    stateAfter G (stateAfter G s k) i = stateAfter G s (k + i) := by
  induction i with
  | zero => rfl
  | succ i ih => rw [stateAfter, ih]; rfl

/-- The call of `random_linear_problem`, for a given covariance. -/
theorem random_given (G : Gen σ) (di dO : ℕ) {mean : Option NArr} {m : Fin di → ℝ}
    (hm : InitMean mean m) (S : Matrix (Fin di) (Fin di) ℝ) (seed : Option ℕ) (s : σ) :
    let s0 := startState G.normal seed s
    let A := drawMat G.normal s0 0 dO di
    let b := drawVec G.normal s0 (dO * di) dO
    let lam := drawVec G.normal s0 (dO * di + dO) di
    ∃ P, randomLinearProblem G di dO mean (some ⟨di, di, S⟩) seed s =
        (.ok (Arr2.col lam, P), stateAfter G.normal s0 (dO * di + dO + di)) ∧
      Api.new A b (A *ᵥ lam + b) m S 1 1 = .ok P := by
  intro s0 A b lam
  refine ⟨LGP.typed A b (A *ᵥ lam + b) m S 1 1, ?_, new_typed ..⟩
  unfold randomLinearProblem
  rw [reseed_bind_run, take_bind_run, take_bind_run, take_bind_run, matOf_draws, colOf_draws,
    colOf_draws, Arr2.matmul_col, PyM.lift_ok_bind, Arr2.add_col, PyM.lift_ok_bind]
  simp only [drawVec_after, stateAfter_add, Nat.add_zero]
  show (do
    let P ← PyM.lift (LGP.new (.mat ⟨dO, di, A⟩) (some (.mat (Arr2.col b)))
      (some (.mat (Arr2.col (A *ᵥ lam + b)))) (some (defaultMean di mean)) (some ⟨di, di, S⟩))
    return (Arr2.col lam, P) : PyM σ (Arr2 × LGP)) _ = _
  rw [new_cols A b _ m _ (defaultMean_toCol hm) S, Api.new, new_typed, PyM.lift_ok_bind]
  rfl

theorem random_default (G : Gen σ) (hU : ∀ s, 0 ≤ (G.unif s).1) (di dO : ℕ) {mean : Option NArr}
    {m : Fin di → ℝ} (hm : InitMean mean m) (seed : Option ℕ) (s : σ) :
    let s0 := startState G.normal seed s
    let A := drawMat G.normal s0 0 dO di
    let b := drawVec G.normal s0 (dO * di) dO
    let lam := drawVec G.normal s0 (dO * di + dO) di
    ∃ P v, (randomLinearProblem G di dO mean none seed s).1 = .ok (Arr2.col lam, P) ∧
      Api.new A b (A *ᵥ lam + b) m (diagonal v) 1 1 = .ok P ∧ (∀ i, 1 / 2 ≤ v i) ∧ Antitone v := by
  intro s0 A b lam
  have hu : ∀ (n : ℕ) (s : σ), ∀ x ∈ (List.range n).map (nthDraw G.uniform s), 0 ≤ x := by
    intro n s x hx
    obtain ⟨i, -, rfl⟩ := List.mem_map.1 hx
    exact hU _
  obtain ⟨v, h1, h2, h3, -⟩ := diagSorted_spec di
    ((List.range di).map (nthDraw G.uniform (stateAfter G.normal s0 (dO * di + dO + di)))) (by simp)
    (hu _ _)
  refine ⟨LGP.typed A b (A *ᵥ lam + b) m (diagonal v) 1 1, v, ?_, new_typed .., h2, h3⟩
  unfold randomLinearProblem
  rw [reseed_bind_run, take_bind_run, take_bind_run, take_bind_run, matOf_draws, colOf_draws,
    colOf_draws, Arr2.matmul_col, PyM.lift_ok_bind, Arr2.add_col, PyM.lift_ok_bind]
  simp only [drawVec_after, stateAfter_add, Nat.add_zero]
  rw [PyM.bind_run, show defaultCov G di none = (do
    let u ← G.uniform.take di
    return diagSorted di u) from rfl, take_bind_run, h1]
  show ((do
    let P ← PyM.lift (LGP.new (.mat ⟨dO, di, A⟩) (some (.mat (Arr2.col b)))
      (some (.mat (Arr2.col (A *ᵥ lam + b)))) (some (defaultMean di mean))
      (some ⟨di, di, diagonal v⟩))
    return (Arr2.col lam, P) : PyM σ (Arr2 × LGP)) _).1 = _
  rw [new_cols A b _ m _ (defaultMean_toCol hm), Api.new, new_typed, PyM.lift_ok_bind]
  rfl

/-- **C86.** `random_linear_problem(dim_input, dim_output, mean_i, cov_i, seed)`, with a positive
definite `cov_i` or none: the operator, the offset and the reference parameter are successive normal
draws of the generator (from the seeded state if there is a seed); the data are reproduced exactly by
the reference; the initial covariance is the given one or a positive definite diagonal matrix with
non-increasing entries `≥ 1/2`; and `solve('mud')` on the returned problem returns a point that
reproduces the data, the reference itself if the operator is injective. -/
theorem C86_random_problem (G : Gen σ) (hU : ∀ s, 0 ≤ (G.unif s).1) (di dO : ℕ)
    {mean : Option NArr} {m : Fin di → ℝ} (hm : InitMean mean m)
    (cov : Option (Matrix (Fin di) (Fin di) ℝ)) (hcov : ∀ S ∈ cov, S.PosDef) (seed : Option ℕ)
    (s : σ) :
    let s0 := startState G.normal seed s
    let A := drawMat G.normal s0 0 dO di
    let b := drawVec G.normal s0 (dO * di) dO
    let lam := drawVec G.normal s0 (dO * di + dO) di
    ∃ P S, (randomLinearProblem G di dO mean (cov.map (Arr2.mk di di)) seed s).1 =
        .ok (Arr2.col lam, P) ∧
      Api.new A b (A *ᵥ lam + b) m S 1 1 = .ok P ∧ S.PosDef ∧ (∀ T ∈ cov, S = T) ∧
      (cov = none → ∃ v, S = diagonal v ∧ (∀ i, 1 / 2 ≤ v i) ∧ Antitone v) ∧
      ∃ x : Fin di → ℝ, Returns (LGP.solve "mud" none P).1 x ∧ A *ᵥ x + b = A *ᵥ lam + b ∧
        ((∀ v, A *ᵥ v = 0 → v = 0) → x = lam) := by
  intro s0 A b lam
  have key : ∀ S : Matrix (Fin di) (Fin di) ℝ, S.PosDef → ∀ P,
      Api.new A b (A *ᵥ lam + b) m S 1 1 = .ok P →
      ∃ x : Fin di → ℝ, Returns (LGP.solve "mud" none P).1 x ∧ A *ᵥ x + b = A *ᵥ lam + b ∧
        ((∀ v, A *ᵥ v = 0 → v = 0) → x = lam) := by
    intro S hS P hP
    obtain ⟨x, h1, h2⟩ := C01_mud_reproduces_attainable A b (A *ᵥ lam + b) m S hS 1 1 one_pos
      ⟨lam, rfl⟩
    refine ⟨x, ?_, h2, fun hinj => ?_⟩
    · have e : Api.solve "mud" A b (A *ᵥ lam + b) m S 1 1 =
          (Api.new A b (A *ᵥ lam + b) m S 1 1 >>= fun P => (LGP.solve "mud" none P).1) := rfl
      rw [e, hP] at h1
      exact h1
    · refine sub_eq_zero.1 (hinj _ ?_)
      rw [mulVec_sub, sub_eq_zero]
      exact add_right_cancel h2
  cases cov with
  | some S =>
    obtain ⟨P, h1, h2⟩ := random_given G di dO hm S seed s
    exact ⟨P, S, by rw [Option.map_some, h1], h2, hcov S rfl, by simp, by simp,
      key S (hcov S rfl) P h2⟩
  | none =>
    obtain ⟨P, v, h1, h2, h3, h4⟩ := random_default G hU di dO hm seed s
    have hpd : (diagonal v).PosDef := Matrix.PosDef.diagonal fun i => by have := h3 i; linarith
    exact ⟨P, diagonal v, h1, h2, hpd, by simp, fun _ => ⟨v, rfl, h3, h4⟩, key _ hpd P h2⟩

/-- **C86**, reproducibility: with a seed neither the problem nor the final generator state depends on
the state before the call. -/
theorem C86_seeded (G : Gen σ) (di dO : ℕ) (mean : Option NArr) (cov : Option Arr2) (k : ℕ)
    (s s' : σ) :
    randomLinearProblem G di dO mean cov (some k) s = randomLinearProblem G di dO mean cov (some k) s' := by
  unfold randomLinearProblem
  rw [reseed_bind_run, reseed_bind_run]
  rfl

/-- Non-vacuity: a generator with non-negative uniform draws, a given mean, no covariance. -/
example : ∃ G : Gen ℕ, (∀ s, 0 ≤ (G.unif s).1) ∧
    InitMean (some (.vec 2 ![1, 2])) (![1, 2] : Fin 2 → ℝ) :=
  ⟨⟨⟨id, fun s => ((-1) ^ s, s + 1)⟩, fun s => (1 / 2, s + 1)⟩, fun _ => by norm_num,
    Or.inr ⟨_, rfl, Or.inl rfl⟩⟩

/-! ## C87: `noisy_linear_data` -/

theorem bdim_one (n : ℕ) : Arr2.bdim 1 n = some n := by
  unfold Arr2.bdim
  split
  · next h => rw [h]
  · simp

theorem squeeze_addB {r n : ℕ} (w : Fin r → ℝ) (z : Fin n → ℝ) (ρ : Fin n → Fin r)
    (h : r = 1 ∨ ∀ i, (ρ i : ℕ) = i) (hr : r = 1 ∨ r = n) :
    (squeezeRow (Arr2.col w)).addB (.mat (Arr2.col z)) =
      .ok (.mat (Arr2.col fun i => w (ρ i) + z i)) := by
  by_cases h1 : r = 1
  · subst h1
    have e : squeezeRow (Arr2.col w) = .vec 1 w := by
      unfold squeezeRow; rw [if_pos (show (Arr2.col w).r = 1 from rfl), Arr2.ravel_col]
    rw [e]
    unfold NArr.addB
    have e2 : (NArr.vec 1 w).toRow2.add (NArr.mat (Arr2.col z)).toRow2 =
        .ok (Arr2.col fun i => w (ρ i) + z i) := by
      show Arr2.zipB _ (Arr2.row w) (Arr2.col z) = _
      unfold Arr2.zipB
      have a1 : Arr2.bdim (Arr2.row w).r (Arr2.col z).r = some n := bdim_one n
      have a2 : Arr2.bdim (Arr2.row w).c (Arr2.col z).c = some 1 := bdim_one 1
      rw [a1, a2]
      show Except.ok _ = Except.ok _
      congr 1
      show Arr2.mk n 1 _ = Arr2.mk n 1 _
      congr 1
      ext i j
      have hb : (Arr2.row w).bget i j = w (ρ i) := by
        show (Arr2.row w).get (if (1 : ℕ) = 1 then 0 else i) (if (1 : ℕ) = 1 then 0 else j) = _
        rw [if_pos rfl, if_pos rfl]
        have : (Arr2.row w).get 0 0 = w 0 := Arr2.get_mk (.of fun _ j => w j) (0 : Fin 1) (0 : Fin 1)
        rw [this]
        congr 1
        exact Subsingleton.elim _ _
      have hc : (Arr2.col z).bget i j = z i := Arr2.bget_mk _ i j
      simp only [of_apply, hb, hc]
    rw [e2, Py.ok_bind, if_neg (by simp [ndimOpt])]
    rfl
  · have hn : r = n := hr.resolve_left h1
    subst hn
    have hρ : ∀ i, ρ i = i := fun i => Fin.ext ((h.resolve_left h1) i)
    have e : squeezeRow (Arr2.col w) = .mat (Arr2.col w) := by
      unfold squeezeRow; rw [if_neg (show ¬ (Arr2.col w).r = 1 from h1)]
    rw [e]
    unfold NArr.addB
    show ((Arr2.col w).add (Arr2.col z) >>= _) = _
    rw [Arr2.add_col, Py.ok_bind, if_neg (by simp [ndimOpt])]
    simp only [hρ]
    rfl

/-- `std` stands for the standard deviations `sd` of `n` data: one number for all, or a 1-D array. -/
def StdIs {n : ℕ} (std : NoiseStd) (sd : Fin n → ℝ) : Prop :=
  (∃ c, std = .num c ∧ sd = fun _ => c) ∨ std = .arr (.vec n sd)

/-- **C87.** `noisy_linear_data(M, ref, std, num_data)` for an operator with `n` rows, or with one row
that is measured `n` times: entry `i` is the value of the operator's row (the only row) at the
reference plus `std_i` times the generator's `i`-th next normal draw; `n` numbers are drawn. -/
theorem C87_noisy_data (G : Rng σ) {r p n : ℕ} (M : Matrix (Fin r) (Fin p) ℝ) {ref : NArr}
    {v : Fin p → ℝ} (hv : IsVec ref v) {std : NoiseStd} {sd : Fin n → ℝ} (hs : StdIs std sd)
    (num_data : Option ℕ) (hn : num_data.getD r = n) (ρ : Fin n → Fin r)
    (hρ : r = 1 ∨ (r = n ∧ ∀ i, (ρ i : ℕ) = i)) (s : σ) :
    noisyLinearData G ⟨r, p, M⟩ ref std num_data s =
      (.ok (.vec n fun i => M (ρ i) ⬝ᵥ v + sd i * nthDraw G s i), stateAfter G s n) := by
  have hlen : ref.len = .ok p := by rcases hv with rfl | rfl <;> rfl
  have hcol : ref.toCol = Arr2.col v := by
    rcases hv with rfl | rfl
    · rfl
    · exact Arr2.ravelCol_col v
  have hstd : stdCheck n std = .ok (.vec n sd) := by
    rcases hs with ⟨c, rfl, rfl⟩ | rfl
    · rfl
    · simp [stdCheck, NArr.nEntries]
  unfold noisyLinearData
  rw [hlen, PyM.lift_ok_bind]
  simp only
  rw [hn, pyAssert_true trivial, PyM.lift_ok_bind, pyAssert_true (hρ.imp id fun h => h.1), PyM.lift_ok_bind,
    hstd, PyM.lift_ok_bind, hcol, Arr2.matmul_col, PyM.lift_ok_bind, take_bind_run]
  have hd : diagMul (.vec n sd) (fun i : Fin n => ((List.range n).map (nthDraw G s)).getD i 0) =
      .ok (.mat (Arr2.col fun i => sd i * nthDraw G s i)) := by
    show ((Arr2.mk n n (diagonal sd)).matmul (Arr2.col _) >>= _) = _
    rw [Arr2.matmul_col, Py.ok_bind]
    show Except.ok _ = Except.ok _
    congr 3
    funext i
    rw [mulVec_diagonal, getD_draws G s i.2]
  rw [hd, PyM.lift_ok_bind, squeeze_addB _ _ ρ (hρ.imp id fun h => h.2) (hρ.imp id fun h => h.1),
    PyM.lift_ok_bind]
  show (Except.ok ((Arr2.col _).ravel), _) = _
  rw [Arr2.ravel_col]
  rfl

/-- **C87**, validation: a reference of the wrong length, an operator with several rows but not one per
datum, or a wrong number of standard deviations raise `AssertionError`, before any number is drawn. -/
theorem C87_rejects (G : Rng σ) (M : Arr2) {ref : NArr} {k : ℕ} (hk : ref.len = .ok k) (std : NoiseStd)
    (num_data : Option ℕ) (s : σ)
    (h : M.c ≠ k ∨ (M.r ≠ 1 ∧ M.r ≠ num_data.getD M.r) ∨
      ∃ a, std = .arr a ∧ a.size ≠ num_data.getD M.r) :
    noisyLinearData G M ref std num_data s = (.error .assertionError, s) := by
  unfold noisyLinearData
  rw [hk, PyM.lift_ok_bind]
  by_cases h1 : M.c = k
  swap
  · rw [pyAssert_false h1]; rfl
  rw [pyAssert_true h1, PyM.lift_ok_bind]
  by_cases h2 : M.r = 1 ∨ M.r = num_data.getD M.r
  swap
  · rw [pyAssert_false h2]; rfl
  rw [pyAssert_true h2, PyM.lift_ok_bind]
  obtain ⟨a, rfl, h3⟩ : ∃ a, std = .arr a ∧ a.size ≠ num_data.getD M.r := by
    rcases h with h | h | h
    · exact absurd h1 h
    · rcases h2 with h2 | h2
      · exact absurd h2 h.1
      · exact absurd h2 h.2
    · exact h
  have : a.nEntries = a.size := by cases a <;> rfl
  have e : stdCheck (num_data.getD M.r) (.arr a) = .error .assertionError := by
    simp [stdCheck, this, h3]
  rw [e]
  rfl

/-- Standard deviations given as a column pass the check but then fail (`np.diag` of a column is a
single number): `ValueError`, after the numbers have been drawn, for two or more data. -/
theorem C87_column_std (G : Rng σ) {r p n : ℕ} (M : Matrix (Fin r) (Fin p) ℝ) {ref : NArr}
    {v : Fin p → ℝ} (hv : IsVec ref v) (sd : Fin n → ℝ) (num_data : Option ℕ)
    (hn : num_data.getD r = n) (hr : r = 1 ∨ r = n) (h2 : 2 ≤ n) (s : σ) :
    noisyLinearData G ⟨r, p, M⟩ ref (.arr (.mat (Arr2.col sd))) num_data s =
      (.error .valueError, stateAfter G s n) := by
  have hlen : ref.len = .ok p := by rcases hv with rfl | rfl <;> rfl
  have hcol : ref.toCol = Arr2.col v := by
    rcases hv with rfl | rfl
    · rfl
    · exact Arr2.ravelCol_col v
  have hstd : stdCheck n (.arr (.mat (Arr2.col sd))) = .ok (.mat (Arr2.col sd)) := by
    simp [stdCheck, NArr.nEntries, Arr2.col]
  unfold noisyLinearData
  rw [hlen, PyM.lift_ok_bind]
  simp only
  rw [hn, pyAssert_true trivial, PyM.lift_ok_bind, pyAssert_true hr, PyM.lift_ok_bind,
    hstd, PyM.lift_ok_bind, hcol, Arr2.matmul_col, PyM.lift_ok_bind, take_bind_run]
  have hd : ∀ z : Fin n → ℝ, diagMul (.mat (Arr2.col sd)) z = .error .valueError := by
    intro z
    have h : ¬ min (Arr2.col sd).r (Arr2.col sd).c = n := by
      show ¬ min n 1 = n
      omega
    unfold diagMul
    exact if_neg h
  rw [hd]
  rfl

/-- Non-vacuity: one row measured three times, and two rows with their own deviations. -/
example : StdIs (n := 3) (.num (1 / 10)) (fun _ => 1 / 10) ∧ StdIs (.arr (.vec 2 ![1, 2])) ![1, 2] ∧
    (some 3).getD 1 = 3 ∧ (none : Option ℕ).getD 2 = 2 ∧ IsVec (.vec 2 ![1, 2]) ![1, 2] :=
  ⟨Or.inl ⟨_, rfl, rfl⟩, Or.inr rfl, rfl, rfl, Or.inl rfl⟩

/-! ## C88: `rotation_map` -/

/-- The operator of the rotation map with `q` outputs: row `i` is `(sin θ, cos θ)` for the angle
`θ = i π / (q - 1)`. -/
noncomputable def rotMat (q : ℕ) : Matrix (Fin q) (Fin 2) ℝ :=
  .of fun i => ![Real.sin (i * Real.pi / (q - 1 : ℕ)), Real.cos (i * Real.pi / (q - 1 : ℕ))]

theorem rotationOp_eq (q : ℕ) : rotationOp q = rotMat q := by
  ext i j
  simp only [rotationOp, rotMat, of_apply, linspaceAt, zero_add, sub_zero, mul_div_assoc]

/-- A column given by the user, or the default. -/
def ColArg {n : ℕ} (x : Option NArr) (dflt v : Fin n → ℝ) : Prop :=
  (x = none ∧ v = dflt) ∨ x = some (.mat (Arr2.col v))

/-- **C88.** `rotation_map(qnum, tol, b, ref_param, seed)` with `b` and `ref_param` columns or left out:
the data are those of the reference; the initial mean is two normal draws; the initial covariance is
a multiple of the identity, positive definite for a positive tolerance. -/
theorem C88_rotation_map (G : Rng σ) (q : ℕ) (tol : ℝ) {b ref : Option NArr} {β : Fin q → ℝ}
    {v : Fin 2 → ℝ} (hb : ColArg b 0 β) (hr : ColArg ref ![1 / 2, 1 / 2] v) (seed : Option ℕ) (s : σ) :
    let s0 := startState G (seed.map fun _ => 24) s
    ∃ c : ℝ, (0 < tol → 0 < c) ∧
    rotationMap G q tol b ref seed s =
      (.ok { A := ⟨q, 2, rotMat q⟩
             b := .mat (Arr2.col β)
             y := .mat (Arr2.col (rotMat q *ᵥ v + β))
             initial_mean := Arr2.col ![nthDraw G s0 0, nthDraw G s0 1]
             initial_cov := ⟨2, 2, c • 1⟩
             ref_param := .mat (Arr2.col v) }, stateAfter G s0 2) := by
  intro s0
  refine ⟨stdFromEquipment tol (95 / 100), fun ht => (C65_std_from_equipment ht (by norm_num)
    (by norm_num)).1, ?_⟩
  have hb' : b.getD (.mat (Arr2.zeros q 1)) = .mat (Arr2.col β) := by
    rcases hb with ⟨rfl, rfl⟩ | rfl
    · rw [Arr2.zeros_col]; rfl
    · rfl
  have hr' : ref.getD (.mat (Arr2.col ![1 / 2, 1 / 2])) = .mat (Arr2.col v) := by
    rcases hr with ⟨rfl, rfl⟩ | rfl <;> rfl
  unfold rotationMap
  rw [reseed_bind_run, hb', hr', rotationOp_eq]
  have e1 : (Arr2.mk q 2 (rotMat q)).matmulN (.mat (Arr2.col v)) =
      .ok (.mat (Arr2.col (rotMat q *ᵥ v))) := by
    show ((Arr2.mk q 2 (rotMat q)).matmul (Arr2.col v) >>= _) = _
    rw [Arr2.matmul_col]; rfl
  have e2 : (NArr.mat (Arr2.col (rotMat q *ᵥ v))).addB (.mat (Arr2.col β)) =
      .ok (.mat (Arr2.col (rotMat q *ᵥ v + β))) := by
    unfold NArr.addB
    show ((Arr2.col _).add (Arr2.col β) >>= _) = _
    rw [Arr2.add_col, Py.ok_bind, if_neg (by simp [ndimOpt])]
    rfl
  rw [e1, PyM.lift_ok_bind, e2, PyM.lift_ok_bind, take_bind_run]
  have e3 : colOf 2 ((List.range 2).map (nthDraw G s0)) = Arr2.col ![nthDraw G s0 0, nthDraw G s0 1] := by
    unfold colOf
    congr 1
    ext i
    fin_cases i <;> rfl
  show (Except.ok _, _) = _
  rw [e3]
  rfl

theorem rotMat_inj {q : ℕ} (hq : 3 ≤ q) (v : Fin 2 → ℝ) (h : rotMat q *ᵥ v = 0) : v = 0 := by
  have h0 := congrFun h ⟨0, by omega⟩
  have h1 := congrFun h ⟨1, by omega⟩
  simp only [rotMat, mulVec, dotProduct, Fin.sum_univ_two, of_apply, Pi.zero_apply, cons_val_zero,
    cons_val_one, Nat.cast_zero, zero_mul, zero_div, Real.sin_zero, Real.cos_zero, one_mul,
    Nat.cast_one, zero_add] at h0 h1
  have hpos : 0 < Real.sin (Real.pi / (q - 1 : ℕ)) := by
    have hq' : (2 : ℝ) ≤ ((q - 1 : ℕ) : ℝ) := by exact_mod_cast (show 2 ≤ q - 1 by omega)
    refine Real.sin_pos_of_pos_of_lt_pi (by positivity) ?_
    rw [div_lt_iff₀ (by linarith)]
    nlinarith [Real.pi_pos]
  rw [h0, mul_zero, add_zero] at h1
  have h2 : v 0 = 0 := (mul_eq_zero.1 h1).resolve_left hpos.ne'
  ext i
  fin_cases i
  · exact h2
  · exact h0

theorem rotMat_small {q : ℕ} (h2 : q ≤ 2) (i : Fin q) :
    rotMat q i = ![0, if (i : ℕ) = 0 then 1 else -1] := by
  obtain ⟨i, hi⟩ := i
  have : q = 1 ∧ i = 0 ∨ q = 2 ∧ i = 0 ∨ q = 2 ∧ i = 1 := by omega
  rcases this with ⟨rfl, rfl⟩ | ⟨rfl, rfl⟩ | ⟨rfl, rfl⟩ <;> ext j <;> fin_cases j <;> simp [rotMat]

theorem smul_one_posDef {n : ℕ} {c : ℝ} (hc : 0 < c) : (c • (1 : Matrix (Fin n) (Fin n) ℝ)).PosDef :=
  Matrix.PosDef.one.smul hc

/-- **C88**, three or more outputs: both the MUD point of the returned problem and the limit of
iterating over its outputs are the reference parameter. -/
theorem C88_recovers {q : ℕ} (hq : 3 ≤ q) {c : ℝ} (hc : 0 < c) (β : Fin q → ℝ) (v m : Fin 2 → ℝ) :
    Returns (LGP.new (.mat ⟨q, 2, rotMat q⟩) (some (.mat (Arr2.col β)))
      (some (.mat (Arr2.col (rotMat q *ᵥ v + β)))) (some (.mat (Arr2.col m)))
      (some ⟨2, 2, c • 1⟩) >>= fun P => (LGP.solve "mud" none P).1) v ∧
    ∃ (f : ℕ → Fin 2 → ℝ), Tendsto f atTop (𝓝 v) ∧
      ∀ n : ℕ, ∃ chain z, iterate ⟨q, 2, rotMat q⟩ (.mat (Arr2.col β))
        (.mat (Arr2.col (rotMat q *ᵥ v + β))) (.mat (Arr2.col m)) (some ⟨2, 2, c • 1⟩) n none
          = .ok chain ∧ chain.getLast? = some z ∧ IsVec z (f n) := by
  have hS := smul_one_posDef (n := 2) hc
  have uniq : ∀ x : Fin 2 → ℝ, rotMat q *ᵥ x + β = rotMat q *ᵥ v + β → x = v := fun x hx =>
    sub_eq_zero.1 (rotMat_inj hq _ (by rw [mulVec_sub, sub_eq_zero]; exact add_right_cancel hx))
  constructor
  · rw [new_cols _ _ _ m (.mat (Arr2.col m)) (Arr2.ravelCol_col m)]
    obtain ⟨x, h1, h2⟩ := C01_mud_reproduces_attainable (rotMat q) β (rotMat q *ᵥ v + β) m _ hS 1 1
      one_pos ⟨v, rfl⟩
    have := uniq x h2
    subst this
    exact h1
  · obtain ⟨xM, f, ρ, -, h2, h3, h4, -⟩ := C19_converges (rotMat q) _ hS β (rotMat q *ᵥ v + β) m
      ⟨v, rfl⟩ (idx := none) (ks := List.finRange q) (by simp [Visits]) (List.mem_finRange)
    refine ⟨f, (uniq xM h2) ▸ h4, fun n => ?_⟩
    exact h3 _ _ _ (Or.inr rfl) (Or.inr rfl) (Or.inr rfl) n

/-- **C88**, one or two outputs: they see only the second parameter; the MUD point keeps the first
entry of the initial mean and takes the second entry of the reference. -/
theorem C88_small {q : ℕ} (h1 : 1 ≤ q) (h2 : q ≤ 2) {c : ℝ} (hc : 0 < c) (β : Fin q → ℝ)
    (v m : Fin 2 → ℝ) :
    Returns (LGP.new (.mat ⟨q, 2, rotMat q⟩) (some (.mat (Arr2.col β)))
      (some (.mat (Arr2.col (rotMat q *ᵥ v + β)))) (some (.mat (Arr2.col m)))
      (some ⟨2, 2, c • 1⟩) >>= fun P => (LGP.solve "mud" none P).1) ![m 0, v 1] := by
  have hS := smul_one_posDef (n := 2) hc
  rw [new_cols _ _ _ m (.mat (Arr2.col m)) (Arr2.ravelCol_col m)]
  obtain ⟨x, k1, k2, k3⟩ := C02_mud_minimises_distance (rotMat q) β (rotMat q *ᵥ v + β) m _ hS 1 1
    one_pos ⟨v, rfl⟩
  have hA : ∀ (w : Fin 2 → ℝ) (i : Fin q), (rotMat q *ᵥ w) i = (if (i : ℕ) = 0 then 1 else -1) * w 1 := by
    intro w i
    show rotMat q i ⬝ᵥ w = _
    rw [rotMat_small h2]
    simp [dotProduct, Fin.sum_univ_two]
  have hx1 : x 1 = v 1 := by
    have := congrFun (add_right_cancel k2) ⟨0, by omega⟩
    simpa [hA] using this
  have hm : ∀ w : Fin 2 → ℝ, mahal (c • (1 : Matrix (Fin 2) (Fin 2) ℝ)) w m =
      c⁻¹ * ((w 0 - m 0) ^ 2 + (w 1 - m 1) ^ 2) := by
    intro w
    have : (c • (1 : Matrix (Fin 2) (Fin 2) ℝ))⁻¹ = c⁻¹ • 1 := by
      refine inv_eq_right_inv ?_
      rw [smul_mul_smul_comm, mul_inv_cancel₀ hc.ne', one_smul, one_mul]
    unfold mahal
    rw [this, smul_mulVec, one_mulVec]
    simp [dotProduct, Fin.sum_univ_two]
    ring
  have hx : x = ![m 0, v 1] := by
    by_contra hne
    have hsol : rotMat q *ᵥ ![m 0, v 1] + β = rotMat q *ᵥ v + β := by
      congr 1
      funext i
      rw [hA, hA]
      simp
    have := k3 _ hsol (Ne.symm hne)
    rw [hm, hm, hx1] at this
    simp only [cons_val_zero, cons_val_one, sub_self] at this
    have h0 : 0 < c⁻¹ := inv_pos.2 hc
    nlinarith [mul_nonneg h0.le (sq_nonneg (x 0 - m 0))]
  rw [← hx]
  exact k1

/-- **C88**, validation: a 1-D reference together with the default offset gives a square table of
data, which the constructor of the linear problem rejects (two or more outputs). -/
theorem C88_ref_1d (G : Rng σ) (q : ℕ) (hq : 2 ≤ q) (tol : ℝ) (v : Fin 2 → ℝ) (seed : Option ℕ) (s : σ) :
    ∃ R, (rotationMap G q tol none (some (.vec 2 v)) seed s).1 = .ok R ∧
      (∃ Y, R.y = .mat Y ∧ Y.r = q ∧ Y.c = q) ∧
      LGP.new (.mat R.A) (some R.b) (some R.y) (some (.mat R.initial_mean)) (some R.initial_cov) =
        .error .valueError := by
  obtain ⟨Y, e2, hYr, hYc⟩ : ∃ Y, (NArr.vec q (rotMat q *ᵥ v)).addB (.mat (Arr2.zeros q 1)) = .ok (.mat Y) ∧
      Y.r = q ∧ Y.c = q := by
    unfold NArr.addB
    have a1 : Arr2.bdim (NArr.vec q (rotMat q *ᵥ v)).toRow2.r (NArr.mat (Arr2.zeros q 1)).toRow2.r = some q :=
      bdim_one q
    have a2 : Arr2.bdim (NArr.vec q (rotMat q *ᵥ v)).toRow2.c (NArr.mat (Arr2.zeros q 1)).toRow2.c = some q := by
      show Arr2.bdim q 1 = some q
      unfold Arr2.bdim
      split
      · rfl
      · simp [*]
    have : ∃ Y, (NArr.vec q (rotMat q *ᵥ v)).toRow2.add (NArr.mat (Arr2.zeros q 1)).toRow2 = .ok Y ∧
        Y.r = q ∧ Y.c = q := by
      unfold Arr2.add Arr2.zipB
      rw [a1, a2]
      exact ⟨_, rfl, rfl, rfl⟩
    obtain ⟨Y, hY, h1, h2⟩ := this
    rw [hY]
    refine ⟨Y, ?_, h1, h2⟩
    rw [Py.ok_bind, if_neg (by simp [ndimOpt])]
    rfl
  have e1 : (Arr2.mk q 2 (rotMat q)).matmulN (.vec 2 v) = .ok (.vec q (rotMat q *ᵥ v)) := by
    unfold Arr2.matmulN
    exact dif_pos (show (Arr2.mk q 2 (rotMat q)).c = 2 from rfl)
  unfold rotationMap
  rw [reseed_bind_run, rotationOp_eq, Option.getD_some, Option.getD_none, e1, PyM.lift_ok_bind, e2,
    PyM.lift_ok_bind, take_bind_run]
  refine ⟨_, rfl, ⟨Y, rfl, hYr, hYc⟩, ?_⟩
  unfold LGP.new
  have hne : q ≠ Y.r * Y.c := by
    rw [hYr, hYc]
    intro h
    nlinarith
  show (raiseIf (q ≠ Y.r * Y.c) .valueError >>= _) = _
  rw [raiseIf_true hne]
  rfl

/-- What a user expects of the seed: the generator is seeded with it. -/
def C88_seed_claim : Prop :=
  ∀ (σ : Type) (G : Rng σ) (k : ℕ) (s : σ), ∃ R, (rotationMap G 10 (1 / 10) none none (some k) s).1 = .ok R ∧
    R.initial_mean = Arr2.col ![nthDraw G (G.seed k) 0, nthDraw G (G.seed k) 1]

theorem C88_seed_claim_refuted : ¬ C88_seed_claim := by
  intro h
  obtain ⟨R, h1, h2⟩ := h ℕ ⟨id, fun s => (s, s)⟩ 0 0
  obtain ⟨c, -, h3⟩ := C88_rotation_map (⟨id, fun s => (s, s)⟩ : Rng ℕ) 10 (1 / 10) (b := none) (ref := none)
    (Or.inl ⟨rfl, rfl⟩) (Or.inl ⟨rfl, rfl⟩) (some 0) 0
  rw [h3] at h1
  injection h1 with h1
  rw [← h1] at h2
  have h4 := congrArg (fun A : Arr2 => A.get 0 0) h2
  have e : ∀ w : Fin 2 → ℝ, (Arr2.col w).get 0 0 = w 0 := fun w =>
    Arr2.get_mk (.of fun i _ => w i) (0 : Fin 2) (0 : Fin 1)
  simp only [e] at h4
  simp [startState, nthDraw, stateAfter] at h4

/-- **C88**, the seed: any seed gives the same result, whatever the state before the call (the
generator is always seeded with 24). -/
theorem C88_seed_exact (G : Rng σ) (q : ℕ) (tol : ℝ) (b ref : Option NArr) (k l : ℕ) (s s' : σ) :
    rotationMap G q tol b ref (some k) s = rotationMap G q tol b ref (some l) s' := by
  unfold rotationMap
  rw [reseed_bind_run, reseed_bind_run]
  rfl

/-- What a user expects of `rotation_map_trials`: that it runs. -/
def C88_trials_claim : Prop :=
  ∀ (σ : Type) (G : Gen σ) (q n : ℕ) (order : ℕ → List ℤ) (seed : Option ℕ) (s : σ), 1 ≤ q →
    ∃ u, (rotationMapTrials G q n order seed s).1 = .ok u

/-- **C88**, the trials: with at least one output and one trial `rotation_map_trials` raises
`TypeError` (the iterative problem has no parameter `initial_mean`), whatever the method's order of
rows; with no outputs it raises `ZeroDivisionError`. -/
theorem C88_trials_raise (G : Gen σ) (q n : ℕ) (order : ℕ → List ℤ) (seed : Option ℕ) (s : σ) :
    (1 ≤ q → 1 ≤ n → (rotationMapTrials G q n order seed s).1 = .error .typeError) ∧
    (rotationMapTrials G 0 n order seed s).1 = .error .zeroDivisionError := by
  have run : ∀ q : ℕ, ∃ (R : RotationMap) (s' : σ), rotationMapTrials G q n order seed s = ((do
      PyM.lift (raiseIf (q = 0) .zeroDivisionError)
      (List.range n).forM fun t => rotationTrial G R.A R.b R.y R.initial_cov (order t)) : PyM σ Unit) s' := by
    intro q
    obtain ⟨c, -, h⟩ := C88_rotation_map G.normal q (1 / 10) (b := none) (ref := none)
      (Or.inl ⟨rfl, rfl⟩) (Or.inl ⟨rfl, rfl⟩) seed s
    have key : ∀ (z : Py RotationMap × σ) (R : RotationMap) (s' : σ), z = (.ok R, s') →
        rotationMap G.normal q (1 / 10) none none seed s = z → ∃ (R : RotationMap) (s' : σ),
          rotationMapTrials G q n order seed s = ((do
            PyM.lift (raiseIf (q = 0) .zeroDivisionError)
            (List.range n).forM fun t => rotationTrial G R.A R.b R.y R.initial_cov (order t)) :
              PyM σ Unit) s' := by
      rintro z R s' rfl hz
      refine ⟨R, s', ?_⟩
      unfold rotationMapTrials
      rw [PyM.bind_run, hz]
    exact key _ _ _ rfl h
  constructor
  · intro hq hn
    obtain ⟨R, s', h⟩ := run q
    rw [h, raiseIf_false (by omega), PyM.lift_ok_bind]
    obtain ⟨k, rfl⟩ : ∃ k, n = k + 1 := ⟨n - 1, by omega⟩
    rw [List.range_succ_eq_map]
    show ((rotationTrial G R.A R.b R.y R.initial_cov (order 0) >>= _) s').1 = _
    have hb : bindCall ILP.params 2 1 ["b", "y", "initial_mean", "cov", "idx_order"] =
        .error .typeError := by simp [bindCall, ILP.params]
    have ht : (rotationTrial G R.A R.b R.y R.initial_cov (order 0) s').1 = .error .typeError := by
      unfold rotationTrial
      rw [take_bind_run, hb]
      rfl
    rw [PyM.bind_run]
    generalize rotationTrial G R.A R.b R.y R.initial_cov (order 0) s' = z at ht
    obtain ⟨z1, z2⟩ := z
    subst ht
    rfl
  · obtain ⟨R, s', h⟩ := run 0
    rw [h, raiseIf_true rfl]
    rfl

theorem C88_trials_claim_refuted : ¬ C88_trials_claim := by
  intro h
  obtain ⟨u, hu⟩ := h ℕ ⟨⟨id, fun s => (s, s)⟩, fun s => (s, s)⟩ 10 100 (fun _ => []) none 0 (by norm_num)
  rw [(C88_trials_raise _ 10 100 _ _ _).1 (by norm_num) (by norm_num)] at hu
  cases hu

/-- Non-vacuity: the default call of `rotation_map` and a call with a given reference and offset. -/
example : ColArg (none : Option NArr) (0 : Fin 10 → ℝ) 0 ∧
    ColArg (some (.mat (Arr2.col ![1, 2]))) ![1 / 2, 1 / 2] (![1, 2] : Fin 2 → ℝ) :=
  ⟨Or.inl ⟨rfl, rfl⟩, Or.inr rfl⟩

/-! ### Cases meeting the hypotheses -/

/-- C86 with a generator that counts: the operator is `[[0, 1], [2, 3]]`, the reference `(6, 7)`, and it is
the MUD point. -/
example : ∃ P, (randomLinearProblem (⟨⟨id, fun s => ((s : ℝ), s + 1)⟩, fun s => (1 / 2, s + 1)⟩ : Gen ℕ) 2 2
      none none (some 0) 9).1 = .ok (Arr2.col ![6, 7], P) ∧
    Returns (LGP.solve "mud" none P).1 (![6, 7] : Fin 2 → ℝ) := by
  obtain ⟨P, S, h1, -, -, -, -, x, hx, -, hinj⟩ := C86_random_problem
    (⟨⟨id, fun s => ((s : ℝ), s + 1)⟩, fun s => (1 / 2, s + 1)⟩ : Gen ℕ) (fun _ => by norm_num) 2 2
    (mean := none) (.inl ⟨rfl, rfl⟩) none (by simp) (some 0) 9
  have hl : drawVec (⟨id, fun s => ((s : ℝ), s + 1)⟩ : Rng ℕ) (startState ⟨id, fun s => ((s : ℝ), s + 1)⟩ (some 0) 9)
      (2 * 2 + 2) 2 = ![6, 7] := by
    ext i
    fin_cases i <;> simp [drawVec, nthDraw, stateAfter, startState]
  have hx' := hinj (by
    intro v hv
    have e0 := congrFun hv 0
    have e1 := congrFun hv 1
    simp [drawMat, mulVec, dotProduct, Fin.sum_univ_two, nthDraw, stateAfter, startState] at e0 e1
    ext i
    fin_cases i
    · simp; linarith
    · simp; linarith)
  rw [hl] at h1 hx'
  exact ⟨P, h1, hx' ▸ hx⟩

/-- C87: one row measured three times, with a different deviation each time. -/
example : noisyLinearData (⟨id, fun s => ((s : ℝ), s + 1)⟩ : Rng ℕ) ⟨1, 2, !![1, 2]⟩ (.vec 2 ![3, 4])
      (.arr (.vec 3 ![1, 2, 3])) (some 3) 5 = (.ok (.vec 3 ![16, 23, 32]), 8) := by
  rw [C87_noisy_data _ (n := 3) _ (.inl rfl) (.inr rfl) (some 3) rfl (fun _ => 0) (.inl rfl)]
  congr 3
  ext i
  fin_cases i <;> simp [nthDraw, stateAfter, dotProduct, Fin.sum_univ_two] <;> norm_num

/-- C87: three deviations for two data. -/
example (G : Rng ℕ) (M : Matrix (Fin 2) (Fin 2) ℝ) : noisyLinearData G ⟨2, 2, M⟩ (.vec 2 ![3, 4])
      (.arr (.vec 3 ![1, 2, 3])) none 5 = (.error .assertionError, 5) :=
  C87_rejects G _ rfl _ _ _ (.inr (.inr ⟨_, rfl, by simp [NArr.size]⟩))

/-- C87: two deviations as a column for two data. -/
example (M : Matrix (Fin 2) (Fin 2) ℝ) : noisyLinearData (⟨id, fun s => ((s : ℝ), s + 1)⟩ : Rng ℕ) ⟨2, 2, M⟩
      (.vec 2 ![3, 4]) (.arr (.mat (Arr2.col ![1, 2]))) none 5 = (.error .valueError, 7) :=
  C87_column_std _ M (.inl rfl) ![1, 2] none rfl (.inr rfl) le_rfl 5

/-- C88: three rows and a unit covariance; then one row. -/
example : Returns (LGP.new (.mat ⟨3, 2, rotMat 3⟩) (some (.mat (Arr2.col ![1, 2, 3])))
      (some (.mat (Arr2.col (rotMat 3 *ᵥ ![5, 6] + ![1, 2, 3])))) (some (.mat (Arr2.col ![8, 9])))
      (some ⟨2, 2, (1 : ℝ) • 1⟩) >>= fun P => (LGP.solve "mud" none P).1) ![5, 6] ∧
    Returns (LGP.new (.mat ⟨1, 2, rotMat 1⟩) (some (.mat (Arr2.col ![1])))
      (some (.mat (Arr2.col (rotMat 1 *ᵥ ![5, 6] + ![1])))) (some (.mat (Arr2.col ![8, 9])))
      (some ⟨2, 2, (1 : ℝ) • 1⟩) >>= fun P => (LGP.solve "mud" none P).1) ![8, 6] :=
  ⟨(C88_recovers le_rfl one_pos ![1, 2, 3] ![5, 6] ![8, 9]).1,
    C88_small le_rfl (by norm_num) one_pos ![1] ![5, 6] ![8, 9]⟩

/-- C88: the default number of rows and a 1-D reference. -/
example (G : Rng ℕ) : ∃ R, (rotationMap G 10 (1 / 10) none (some (.vec 2 ![1 / 2, 1 / 2])) none 3).1 = .ok R ∧
    LGP.new (.mat R.A) (some R.b) (some R.y) (some (.mat R.initial_mean)) (some R.initial_cov) =
      .error .valueError := by
  obtain ⟨R, h1, -, h3⟩ := C88_ref_1d G 10 (by norm_num) (1 / 10) ![1 / 2, 1 / 2] none 3
  exact ⟨R, h1, h3⟩

end Verif
