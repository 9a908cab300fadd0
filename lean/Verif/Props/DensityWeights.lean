import Verif.Lemmas.DensityCongr
import Verif.Lemmas.FScale
import Verif.Props.Density

/-!
# `DensityProblem`: C30, C31 (weights)
-/

namespace Verif

variable {env : Env}

theorem bzip1_map (f : F → F → F) (g h k : F → F) (hk : ∀ x y, f (g x) (h y) = k (f x y))
    (a b : List F) :
    bzip1 f (a.map g) (b.map h) = (do let l ← bzip1 f a b; return l.map k) := by
  unfold bzip1
  simp only [List.length_map]
  by_cases hl : a.length = b.length
  · rw [if_pos hl, if_pos hl, Py.ok_bind, Py.pure_eq]
    congr 1
    apply List.ext_getElem <;> simp [hk]
  · rw [if_neg hl, if_neg hl]
    match a, b with
    | [x], b => simp [hk]
    | a, [y] =>
      match a with
      | [] => simp
      | [x] => simp at hl
      | x :: x' :: a => simp [hk]
    | [], [] => simp at hl
    | [], b :: b' :: bs => simp
    | x :: x' :: a, [] => simp
    | x :: x' :: a, y :: y' :: b => simp

/-! ## C30: only relative weights matter -/

/-- The kernel density estimate depends on the weights only up to a positive factor (scipy divides
them by their sum). -/
def KdeScale (env : Env) : Prop :=
  ∀ y bw w (c : ℝ), 0 < c → env.kde y bw (w.map (F.fin c * ·)) = env.kde y bw w

/-- The same weights argument, or a vector of weights and a positive multiple of it. -/
def ScaledW (w w' : Option NArr) : Prop :=
  w' = w ∨ ∃ (c : ℝ) (n : ℕ) (v : Fin n → ℝ), 0 < c ∧ w = some (.vec n v) ∧
    w' = some (.vec n fun k => c * v k)

/-- Settings that differ in a positive factor of the weights. -/
def ScaledS (s s' : Settings) : Prop :=
  ∃ c : ℝ, 0 < c ∧ s' = { s with weights := s.weights.map (F.fin c * ·) }

theorem ScaledS.refl_map (s : Settings) : ScaledS s s :=
  ⟨1, one_pos, by
    rcases s with ⟨w, i, p, o⟩
    simp [← F.one_def]⟩

/-- Norm of a positive multiple. -/
theorem norm2_scale {c : ℝ} (hc : 0 < c) (v : List ℝ) :
    DP.norm2 (v.map (c * ·)) = c * DP.norm2 v := by
  unfold DP.norm2
  rw [List.map_map]
  have : (v.map ((fun x => x ^ 2) ∘ fun x => c * x)).sum = c ^ 2 * (v.map fun x => x ^ 2).sum := by
    rw [← List.sum_map_mul_left]
    congr 1
    apply List.map_congr_left
    intro x _
    simp only [Function.comp]
    ring
  rw [this, Real.sqrt_mul (sq_nonneg c), Real.sqrt_sq hc.le]

/-- One-dimensional weights are stored as they are, or divided by their norm. -/
theorem weightsOf_vec (nX nY m : ℕ) (v : Fin m → ℝ) (n : Bool) :
    DP.weightsOf nX nY (some (.vec m v)) n = (do
      pyAssert (nY = m)
      if n then return (List.ofFn v).map fun x => F.fin x / F.fin (DP.norm2 (List.ofFn v))
      else return (List.ofFn v).map F.fin) := by
  have e : (List.ofFn fun j : Fin (Arr2.row v).c => ∏ i, (Arr2.row v).m i j) = List.ofFn v := by
    have : (fun j : Fin m => ∏ i : Fin 1, (Arr2.row v).m i j) = v := by
      funext j
      exact Fin.prod_univ_one _
    exact congrArg List.ofFn this
  have key : ∀ L : List ℝ, L = List.ofFn v → (do
      pyAssert (nY = (Arr2.row v).c)
      if n then return L.map (fun x => F.fin x / F.fin (DP.norm2 L))
      else return L.map F.fin : Py (List F)) = (do
      pyAssert (nY = m)
      if n then return (List.ofFn v).map (fun x => F.fin x / F.fin (DP.norm2 (List.ofFn v)))
      else return (List.ofFn v).map F.fin) := by
    rintro L rfl; rfl
  exact key _ e

/-- A positive multiple of the weights: the stored weights are a positive multiple too. -/
theorem weightsOf_scaled {nX nY : ℕ} {w w' : Option NArr} (n : Bool) (h : ScaledW w w') :
    PyRel (fun v v' => ∃ c : ℝ, 0 < c ∧ v' = v.map (F.fin c * ·)) (DP.weightsOf nX nY w n)
      (DP.weightsOf nX nY w' n) := by
  rcases h with rfl | ⟨c, m, v, hc, rfl, rfl⟩
  · exact PyRel.of_eq rfl fun a => ⟨1, one_pos, by simp [← F.one_def]⟩
  · rw [weightsOf_vec, weightsOf_vec]
    have e : (List.ofFn fun j : Fin m => c * v j) = (List.ofFn v).map (c * ·) := by
      simp [List.map_ofFn, Function.comp_def]
    refine PyRel.bind (Q := fun _ _ => True) (PyRel.of_eq rfl fun _ => trivial) fun _ _ _ => ?_
    rw [e]
    cases n with
    | false =>
      refine ⟨c, hc, ?_⟩
      simp only [List.map_map]
      rfl
    | true =>
      refine ⟨1, one_pos, ?_⟩
      rw [norm2_scale hc, ← F.one_def]
      simp only [one_mul, List.map_map]
      apply List.map_congr_left
      intro x _
      simp only [Function.comp]
      rw [← F.fin_mul, ← F.fin_mul, F.pos_mul_div hc]

theorem pred_scaled (hk : KdeScale env) (D : DData) {s : Settings} {c : ℝ} (hc : 0 < c) :
    ({ s with weights := s.weights.map (F.fin c * ·) } : Settings).pred env D = s.pred env D := by
  unfold Settings.pred
  dsimp only
  rcases s.predicted.getD (none, 0) with ⟨d | d, bw⟩
  · exact hk _ _ _ _ hc
  · rfl

theorem ratio_scaled (hk : KdeScale env) (D : DData) {s : Settings} {c : ℝ} (hc : 0 < c) :
    ({ s with weights := s.weights.map (F.fin c * ·) } : Settings).ratio env D = s.ratio env D := by
  unfold Settings.ratio
  rw [pred_scaled hk D hc]
  rfl

theorem updated_scaled (hk : KdeScale env) (D : DData) {s : Settings} {c : ℝ} (hc : 0 < c) :
    ({ s with weights := s.weights.map (F.fin c * ·) } : Settings).updated env D =
      (do let u ← s.updated env D; return u.map (F.fin c * ·)) := by
  unfold Settings.updated
  rw [ratio_scaled hk D hc]
  dsimp only
  change (do
    let ini ← s.ini D
    let r ← s.ratio env D
    let iw ← bzip1 (· * ·) ini (s.weights.map (F.fin c * ·))
    bzip1 (· * ·) iw r) = _
  cases s.ini D with
  | error e => rfl
  | ok a =>
    cases s.ratio env D with
    | error e => rfl
    | ok r =>
      simp only [Py.ok_bind]
      have h1 := bzip1_map (· * ·) id (F.fin c * ·) (F.fin c * ·)
        (fun x y => by simp only [id]; exact mul_left_comm x (F.fin c) y) a s.weights
      rw [List.map_id] at h1
      rw [h1]
      cases bzip1 (· * ·) a s.weights with
      | error e => rfl
      | ok iw =>
        simp only [Py.ok_bind, Py.pure_eq]
        have h2 := bzip1_map (· * ·) (F.fin c * ·) id (F.fin c * ·)
          (fun x y => by simp only [id]; exact mul_assoc (F.fin c) x y) iw r
        rw [List.map_id] at h2
        exact h2

theorem best_scaled (hk : KdeScale env) (D : DData) {s s' : Settings} (h : ScaledS s s') :
    s'.best env D = s.best env D := by
  obtain ⟨c, hc, rfl⟩ := h
  unfold Settings.best
  rw [updated_scaled hk D hc]
  cases s.updated env D with
  | error e => rfl
  | ok u => simp only [Py.ok_bind, Py.pure_eq, npArgmax_scale hc]

/-- The lock-step conditions for scaled weights. -/
theorem scaled_setRel (hk : KdeScale env) (D : DData) :
    SetRel env D D (fun _ => True) ScaledW ScaledS where
  okNone := trivial
  initial := by rintro s _ ⟨c, hc, rfl⟩; rfl
  predicted := by rintro s _ ⟨c, hc, rfl⟩; rfl
  setIni := by rintro s _ d ⟨c, hc, rfl⟩ _; exact ⟨c, hc, rfl⟩
  setIni' := by rintro s _ d ⟨c, hc, rfl⟩ _; exact ⟨c, hc, rfl⟩
  setPr := by rintro s _ d bw ⟨c, hc, rfl⟩ _; exact ⟨c, hc, rfl⟩
  setOb := by rintro s _ d ⟨c, hc, rfl⟩ _; exact ⟨c, hc, rfl⟩
  setW := by
    rintro s _ w w' n ⟨c, hc, rfl⟩ hw
    refine (weightsOf_scaled n hw).mono ?_
    rintro v _ ⟨c', hc', rfl⟩
    exact ⟨c', hc', rfl⟩
  ini := by rintro s _ ⟨c, hc, rfl⟩; exact PyRel.of_eq rfl fun _ => trivial
  obs := by rintro s _ ⟨c, hc, rfl⟩; exact PyRel.of_eq rfl fun _ => trivial
  pred := by rintro s _ ⟨c, hc, rfl⟩; exact PyRel.of_eq (pred_scaled hk D hc).symm fun _ => trivial
  ratio := by
    rintro s _ ⟨c, hc, rfl⟩; exact PyRel.of_eq (ratio_scaled hk D hc).symm fun _ => trivial
  updated := by
    rintro s _ ⟨c, hc, rfl⟩
    rw [updated_scaled hk D hc]
    cases s.updated env D with
    | error e => exact rfl
    | ok u => exact trivial

theorem npAverage_scale {c : ℝ} (hc : 0 < c) (r w : List F) :
    DP.npAverage r (w.map (F.fin c * ·)) = DP.npAverage r w := by
  unfold DP.npAverage
  have e1 : (List.zipWith (· * ·) r (w.map (F.fin c * ·))).sum =
      F.fin c * (List.zipWith (· * ·) r w).sum := by
    rw [← F.pos_mul_sum hc, List.map_zipWith, List.zipWith_map_right]
    congr 2
    funext a b
    exact mul_left_comm _ _ _
  rw [e1, F.pos_mul_sum hc, F.pos_mul_div hc, List.length_map]
  have e2 : (F.fin c * w.sum = F.fin 0) = (w.sum = F.fin 0) := propext (F.pos_mul_eq_zero hc _)
  simp only [raiseIf]
  rw [e2]

/-- Two objects that differ in the weights only. -/
theorem new_scaled {X y : NArr} {dom w w' : Option NArr} {nrm : Bool} {pad : ℝ} {xi di : Bool}
    {P P' : DP} (h : DP.new X y dom w nrm pad xi di = .ok P)
    (h' : DP.new X y dom w' nrm pad xi di = .ok P') (hw : ScaledW w w') :
    P'.data = P.data ∧ ScaledS P.start.cur P'.start.cur := by
  unfold DP.new at h h'
  dsimp only at h h'
  have hW := weightsOf_scaled (nX := X.shapeRow.r) (nY := y.shapeCol.r) nrm hw
  have fin : ∀ {A : Py (Arr2 × Bool)}, (do
      let dm ← A
      let v ← DP.weightsOf X.shapeRow.r y.shapeCol.r w nrm
      pure ({ X := X.shapeRow, y := y.shapeCol, domain := dm.1, domInt := dm.2, weights := v } : DP)) = .ok P →
    (do
      let dm ← A
      let v ← DP.weightsOf X.shapeRow.r y.shapeCol.r w' nrm
      pure ({ X := X.shapeRow, y := y.shapeCol, domain := dm.1, domInt := dm.2, weights := v } : DP)) = .ok P' →
      P'.data = P.data ∧ ScaledS P.start.cur P'.start.cur := by
    intro A h h'
    obtain ⟨dm, hA, h⟩ := Py.bind_eq_ok.1 h
    obtain ⟨dm', hA', h'⟩ := Py.bind_eq_ok.1 h'
    obtain ⟨v, hv, h⟩ := Py.bind_eq_ok.1 h
    obtain ⟨v', hv', h'⟩ := Py.bind_eq_ok.1 h'
    rw [hA] at hA'
    cases hA'
    rw [hv, hv'] at hW
    cases h
    cases h'
    refine ⟨rfl, ?_⟩
    obtain ⟨c, hc, hcv⟩ := hW
    exact ⟨c, hc, by simp [DP.start, hcv]⟩
  cases dom with
  | none => exact fin (A := do
      let D ← fitDomain (some X.shapeRow) none (1 / 10) xi
      pure (D, xi)) (by simpa using h) (by simpa using h')
  | some d => exact fin (A := do
      pyAssert (d.shapeRow.r = X.shapeRow.c)
      pure (d.shapeRow, di)) (by simpa using h) (by simpa using h')

/-- **C30.** Two problems whose weights differ by positive factors (at construction and in later
calls), with otherwise the same history: the MUD point and the expected ratio are the same. -/
theorem C30_relative_weights (hk : KdeScale env) {X y : NArr} {dom w w' : Option NArr} {nrm : Bool}
    {pad : ℝ} {xi di : Bool} {P P' : DP} (h : DP.new X y dom w nrm pad xi di = .ok P)
    (h' : DP.new X y dom w' nrm pad xi di = .ok P') (hw : ScaledW w w') {ops ops' : List DOp}
    (hops : List.Forall₂ (OpRel (fun _ => True) ScaledW) ops ops') :
    (DP.mudPoint env (P'.after env ops')).1 = (DP.mudPoint env (P.after env ops)).1 ∧
    (DP.expectedRatio env (P'.after env ops')).1 = (DP.expectedRatio env (P.after env ops)).1 := by
  obtain ⟨hD, hS⟩ := new_scaled h h' hw
  have H := scaled_setRel hk P.data
  have hst : StRel ScaledS P.start P'.start := ⟨hS, .none, .none⟩
  have hr := lock_after H.general (hops.imp fun _ _ h => h.general) hst
  rw [(C29_exact h _).1, (C29_exact h _).2, (C29_exact h' _).1, (C29_exact h' _).2, hD]
  constructor
  · rcases lock_estimate H.general hr with ⟨e, h1, h2⟩ | ⟨s, s', hs, -, h1, h2⟩
    · rw [h1, h2]
    · rw [h1, h2, best_scaled hk _ hs]
  · rcases lock_expectedRatio H.general hr with ⟨e, h1, h2⟩ | ⟨s, s', t, t', hs, ht, h1, h2⟩
    · rw [h1, h2]
    · rw [h1, h2]
      obtain ⟨c, hc, rfl⟩ := hs
      obtain ⟨c', hc', rfl⟩ := ht
      rw [ratio_scaled hk _ hc]
      simp only [npAverage_scale hc']

/-- An external kernel density estimate satisfying the hypothesis: anything computed from the
weights divided by their sum. -/
theorem kdeScale_of_normalised (g : Arr2 → ℕ → List F → Py (List F)) :
    KdeScale ⟨fun y bw w => g y bw (w.map (· / w.sum))⟩ := by
  intro y bw w c hc
  simp only [F.pos_mul_sum hc, List.map_map]
  congr 1
  apply List.map_congr_left
  intro x _
  exact F.pos_mul_div hc x _

/-- The hypotheses of `C30_relative_weights` are met by a problem with two samples. -/
example (g) := C30_relative_weights (kdeScale_of_normalised g) (X := demoX) (y := demoX)
  (dom := some demoDom) (w := some (.vec 2 ![1, 3])) (w' := some (.vec 2 fun k => 5 * ![1, 3] k))
  (nrm := false) (pad := 0) (xi := false) (di := false) rfl rfl
  (Or.inr ⟨5, 2, ![1, 3], by norm_num, rfl, rfl⟩)
  (ops := [.setWeights (some (.vec 2 ![1, 2])) true, .estimate])
  (ops' := [.setWeights (some (.vec 2 fun k => 7 * ![1, 2] k)) true, .estimate])
  (.cons (.setWeights (Or.inr ⟨7, 2, ![1, 2], by norm_num, rfl, rfl⟩)) (.cons .estimate .nil))

/-! ## C31: stacked weights -/

theorem weightsOf_mat (nX nY : ℕ) (A : Arr2) (n : Bool) :
    DP.weightsOf nX nY (some (.mat A)) n =
      DP.weightsOf nX nY (some (.vec A.c fun j => ∏ i, A.m i j)) n := by
  rw [weightsOf_vec]; rfl

/-- **C31**: a 2-D weights array acts like the 1-D array of its column products, in `set_weights`
and in the constructor. -/
theorem C31_columns (A : Arr2) (n : Bool) :
    DP.setWeights (some (.mat A)) n = DP.setWeights (some (.vec A.c fun j => ∏ i, A.m i j)) n ∧
    ∀ X y dom pad xi di, DP.new X y dom (some (.mat A)) n pad xi di =
      DP.new X y dom (some (.vec A.c fun j => ∏ i, A.m i j)) n pad xi di := by
  constructor
  · unfold DP.setWeights
    simp only [weightsOf_mat]
  · intros
    unfold DP.new
    simp only [weightsOf_mat]

/-- **C31**: the order of the rows does not matter. -/
theorem C31_row_order {r c : ℕ} (M : Matrix (Fin r) (Fin c) ℝ) (e : Equiv.Perm (Fin r)) (n : Bool) :
    DP.setWeights (some (.mat ⟨r, c, M.submatrix e id⟩)) n = DP.setWeights (some (.mat ⟨r, c, M⟩)) n := by
  rw [(C31_columns _ n).1, (C31_columns _ n).1]
  congr 3
  funext j
  exact Equiv.prod_comp e fun i => M i j

/-- **C31**: unit weights act like no weights. -/
theorem C31_unit (P : DP) (h : P.X.r = P.y.r) :
    DP.setWeights (some (.vec P.y.r fun _ => 1)) false P = DP.setWeights none false P := by
  unfold DP.setWeights
  rw [PyM.get_bind_run, PyM.get_bind_run, DP.n_samples, weightsOf_vec]
  simp only [pyAssert, DP.weightsOf, h]
  simp [List.ofFn_const]

/-- **C31**: with `normalize=True` the combined weights are scaled by a positive factor to
Euclidean norm 1 (they must not all vanish). -/
theorem C31_normalize (P : DP) (v : Fin P.y.r → ℝ) (hv : ∃ k, v k ≠ 0) :
    ∃ u : Fin P.y.r → ℝ, (DP.setWeights (some (.vec P.y.r v)) true P).1 = .ok () ∧
      (DP.setWeights (some (.vec P.y.r v)) true P).2.weights = List.ofFn (fun k => F.fin (u k)) ∧
      ∑ k, u k ^ 2 = 1 ∧ ∃ c : ℝ, 0 < c ∧ ∀ k, u k = c * v k := by
  obtain ⟨k0, hk0⟩ := hv
  have hN : DP.norm2 (List.ofFn v) = Real.sqrt (∑ k, v k ^ 2) := by
    unfold DP.norm2
    rw [List.map_ofFn, List.sum_ofFn]; rfl
  have hpos : 0 < ∑ k, v k ^ 2 := by
    refine Finset.sum_pos' (fun k _ => sq_nonneg _) ⟨k0, Finset.mem_univ _, ?_⟩
    positivity
  have hsq : 0 < Real.sqrt (∑ k, v k ^ 2) := Real.sqrt_pos.2 hpos
  refine ⟨fun k => v k / Real.sqrt (∑ k, v k ^ 2), ?_, ?_, ?_, 1 / Real.sqrt (∑ k, v k ^ 2),
    by positivity, fun k => by ring⟩
  · unfold DP.setWeights
    rw [PyM.get_bind_run, DP.n_samples, weightsOf_vec]
    simp only [pyAssert, if_true]
    rfl
  · unfold DP.setWeights
    rw [PyM.get_bind_run, DP.n_samples, weightsOf_vec]
    simp only [pyAssert, if_true]
    change (List.ofFn v).map (fun x => F.fin x / F.fin (DP.norm2 (List.ofFn v))) = _
    rw [hN, List.map_ofFn]
    congr 1
    funext k
    exact F.fin_div_of_ne _ hsq.ne'
  · simp only [div_pow]
    rw [← Finset.sum_div, Real.sq_sqrt hpos.le, div_self hpos.ne']

/-- **C31**: without normalisation the stored weights are the combined weights. -/
theorem C31_values (P : DP) (A : Arr2) (h : A.c = P.y.r) :
    (DP.setWeights (some (.mat A)) false P).1 = .ok () ∧
    (DP.setWeights (some (.mat A)) false P).2.weights =
      List.ofFn fun j => F.fin (∏ i, A.m i j) := by
  rw [(C31_columns A false).1]
  unfold DP.setWeights
  rw [PyM.get_bind_run, DP.n_samples, weightsOf_vec]
  simp only [pyAssert, if_pos h.symm]
  refine ⟨rfl, ?_⟩
  change (List.ofFn fun j => ∏ i, A.m i j).map F.fin = _
  rw [List.map_ofFn]; rfl

/-- **C31**: weights with the wrong number of columns are rejected with an `AssertionError` and the
problem is unchanged. -/
theorem C31_rejected (P : DP) (A : Arr2) (n : Bool) (h : A.c ≠ P.y.r) :
    DP.setWeights (some (.mat A)) n P = (.error .assertionError, P) ∧
    ∀ v : Fin A.c → ℝ, DP.setWeights (some (.vec A.c v)) n P = (.error .assertionError, P) := by
  have key : ∀ v : Fin A.c → ℝ, DP.setWeights (some (.vec A.c v)) n P = (.error .assertionError, P) := by
    intro v
    unfold DP.setWeights
    rw [PyM.get_bind_run, DP.n_samples, weightsOf_vec]
    simp only [pyAssert, if_neg (Ne.symm h)]
    rfl
  exact ⟨by rw [(C31_columns A n).1]; exact key _, key⟩

/-- Two rows of weights for two samples. -/
example : (DP.setWeights (some (.mat ⟨2, 2, !![1, 2; 3, 4]⟩)) false demoP).2.weights =
    [.fin 3, .fin 8] := by
  rw [(C31_values demoP _ rfl).2]
  simp only [List.ofFn_succ, List.ofFn_zero, Fin.prod_univ_two]
  norm_num

/-! ### Further cases meeting the hypotheses -/

example : DP.setWeights (some (.vec 2 fun _ => 1)) false demoP = DP.setWeights none false demoP :=
  C31_unit demoP rfl

/-- Weights `3, 4`, normalised. -/
example : ∃ u : Fin 2 → ℝ, (DP.setWeights (some (.vec 2 ![3, 4])) true demoP).1 = .ok () ∧
    (DP.setWeights (some (.vec 2 ![3, 4])) true demoP).2.weights = List.ofFn (fun k => F.fin (u k)) ∧
    ∑ k, u k ^ 2 = 1 ∧ ∃ c : ℝ, 0 < c ∧ ∀ k, u k = c * ![3, 4] k :=
  C31_normalize demoP ![3, 4] ⟨(0 : Fin 2), by simp⟩

/-- Three weights for two samples. -/
example : DP.setWeights (some (.vec 3 ![1, 2, 3])) true demoP = (.error .assertionError, demoP) :=
  (C31_rejected demoP ⟨1, 3, !![1, 2, 3]⟩ true (by simp [demoP])).2 _

end Verif
