import Verif.Props.DensityWeights

/-!
# `DensityProblem`: C33 (the order of the samples)
-/

namespace Verif

variable {env : Env}

/-- The same list in another order. -/
def PermBy {n : ℕ} (e : Equiv.Perm (Fin n)) (l l' : List F) : Prop :=
  ∃ g : Fin n → F, l = List.ofFn g ∧ l' = List.ofFn (g ∘ e)

/-- A distribution object that evaluates each row of its argument on its own and returns one value
per entry (as scipy's univariate distributions do). -/
def RowWise (d : Dist) : Prop :=
  ∃ f : List ℝ → List F, (∀ x, (f x).length = x.length) ∧
    ∀ A : Arr2, d.pdf A = .ok (.tab (List.ofFn fun i => f (List.ofFn (A.m i))))

/-- The default, or a row-wise distribution. -/
def okRow : Option Dist → Prop
  | none => True
  | some d => RowWise d

/-- Permuting the data and the weights permutes the kernel density estimate. -/
def KdePerm (env : Env) : Prop :=
  ∀ (n k : ℕ) (N : Matrix (Fin n) (Fin k) ℝ) (w : Fin n → F) (bw : ℕ) (e : Equiv.Perm (Fin n)),
    PyRel (PermBy e) (env.kde ⟨n, k, N⟩ bw (List.ofFn w))
      (env.kde ⟨n, k, N.submatrix e id⟩ bw (List.ofFn (w ∘ e)))

/-- Permuted 1-D weights, or none. -/
def PermW {n : ℕ} (e : Equiv.Perm (Fin n)) (w w' : Option NArr) : Prop :=
  (w = none ∧ w' = none) ∨ ∃ v : Fin n → ℝ, w = some (.vec n v) ∧ w' = some (.vec n (v ∘ e))

/-- Settings with permuted weights, all distributions being row-wise. -/
structure PermS {n : ℕ} (e : Equiv.Perm (Fin n)) (s s' : Settings) : Prop where
  w : PermBy e s.weights s'.weights
  init : s.initial = s'.initial
  pr : s.predicted = s'.predicted
  ob : s.observed = s'.observed
  okI : ∀ d, s.initial = some d → okRow d
  okP : ∀ d bw, s.predicted = some (d, bw) → okRow d
  okO : okRow s.observed

theorem rowWise_distOf (f : ℝ → ℝ) : RowWise (distOf f) :=
  ⟨fun x => x.map fun a => F.fin (f a), fun x => by simp, fun A => by
    simp only [distOf, rowsOf, List.map_ofFn]; rfl⟩

theorem prod_perm {n p : ℕ} (e : Equiv.Perm (Fin n)) (M : Matrix (Fin n) (Fin p) ℝ)
    (f : List ℝ → List F) :
    PyRel (PermBy e) (FOut.prodRows (.tab (List.ofFn fun i => f (List.ofFn (M i)))))
      (FOut.prodRows (.tab (List.ofFn fun i => f (List.ofFn ((M.submatrix e id) i))))) := by
  refine ⟨fun i => (f (List.ofFn (M i))).prod, ?_, ?_⟩
  · rw [List.map_ofFn]; rfl
  · rw [List.map_ofFn]; rfl

theorem densAt_perm {n p : ℕ} (e : Equiv.Perm (Fin n)) (M : Matrix (Fin n) (Fin p) ℝ) {d : Dist}
    (hd : RowWise d) :
    PyRel (PermBy e) (densAt d ⟨n, p, M⟩) (densAt d ⟨n, p, M.submatrix e id⟩) := by
  obtain ⟨f, -, hf⟩ := hd
  unfold densAt
  rw [hf, hf, Py.ok_bind, Py.ok_bind]
  exact prod_perm e M f

theorem rowWise_stdNormal : RowWise stdNormal :=
  ⟨fun x => x.map fun a => F.fin (stdNormalPdf a), fun x => by simp, fun A => by
    simp only [stdNormal, rowsOf, List.map_ofFn]; rfl⟩

theorem uniformOn_perm {n p : ℕ} (e : Equiv.Perm (Fin n)) (M : Matrix (Fin n) (Fin p) ℝ)
    (dom : Arr2) :
    PyRel (PermBy e) (densAt (uniformOn dom) ⟨n, p, M⟩)
      (densAt (uniformOn dom) ⟨n, p, M.submatrix e id⟩) := by
  unfold densAt uniformOn
  dsimp only
  split_ifs
  · exact rfl
  · simp only [Py.ok_bind]
    refine ⟨fun i => (List.ofFn fun j : Fin p => uniformPdf (⨅ k : Fin dom.c, dom.get j k)
      (⨆ k : Fin dom.c, dom.get j k) (M i j)).prod, ?_, ?_⟩
    · simp only [rowsOf, List.map_ofFn]; rfl
    · simp only [rowsOf, List.map_ofFn]; rfl

theorem flatten_len {n k : ℕ} (g : Fin n → List F) (h : ∀ i, (g i).length = k) :
    (List.ofFn g).flatten.length = n * k := by
  rw [List.length_flatten, List.map_ofFn, List.sum_ofFn]
  simp [h]

theorem flatten_one {n : ℕ} (g : Fin n → List F) (h : ∀ i, (g i).length = 1) :
    (List.ofFn g).flatten = List.ofFn fun i => (g i).headD .nan := by
  have : ∀ l : List (List F), (∀ x ∈ l, x.length = 1) → l.flatten = l.map fun x => x.headD .nan := by
    intro l
    induction l with
    | nil => intro _; rfl
    | cons a l ih =>
      intro h
      obtain ⟨x, rfl⟩ := List.length_eq_one_iff.1 (h a (by simp))
      simp [ih fun x hx => h x (by simp [hx])]
  rw [this _ (by simp [List.mem_ofFn, h]), List.map_ofFn]
  rfl

/-- The predicted values: permuted, or of a length that no other array matches. -/
def PredRel {n : ℕ} (e : Equiv.Perm (Fin n)) (c c' : List F) : Prop :=
  PermBy e c c' ∨ (c.length = c'.length ∧ c.length ≠ n ∧ c.length ≠ 1)

theorem ravel_perm {n k : ℕ} (hn : 2 ≤ n) (e : Equiv.Perm (Fin n)) (N : Matrix (Fin n) (Fin k) ℝ)
    {d : Dist} (hd : RowWise d) :
    PyRel (PredRel e) (do let out ← d.pdf ⟨n, k, N⟩; return out.ravel)
      (do let out ← d.pdf ⟨n, k, N.submatrix e id⟩; return out.ravel) := by
  obtain ⟨f, hl, hf⟩ := hd
  rw [hf, hf]
  simp only [Py.ok_bind, Py.pure_eq, FOut.ravel]
  have l1 : (List.ofFn fun i => f (List.ofFn (N i))).flatten.length = n * k :=
    flatten_len _ fun i => by rw [hl]; simp
  have l2 : (List.ofFn fun i => f (List.ofFn (N.submatrix e id i))).flatten.length = n * k :=
    flatten_len _ fun i => by rw [hl]; simp
  by_cases hk : k = 1
  · left
    subst hk
    rw [flatten_one _ fun i => by rw [hl]; simp, flatten_one _ fun i => by rw [hl]; simp]
    exact ⟨fun i => (f (List.ofFn (N i))).headD .nan, rfl, rfl⟩
  · right
    rw [l1, l2]
    refine ⟨rfl, fun h => hk ?_, fun h => ?_⟩
    · exact Nat.eq_of_mul_eq_mul_left (by omega) (h.trans (mul_one n).symm)
    · have := Nat.eq_one_of_mul_eq_one_right h
      omega

theorem bzip1_perm {n : ℕ} (e : Equiv.Perm (Fin n)) (f : F → F → F) {a a' b b' : List F}
    (ha : PermBy e a a') (hb : PermBy e b b') : PyRel (PermBy e) (bzip1 f a b) (bzip1 f a' b') := by
  obtain ⟨g, rfl, rfl⟩ := ha
  obtain ⟨h, rfl, rfl⟩ := hb
  rw [bzip1_ofFn, bzip1_ofFn]
  exact ⟨fun k => f (g k) (h k), rfl, rfl⟩

theorem bzip1_mismatch (f : F → F → F) {a b : List F} (h : a.length ≠ b.length) (ha : a.length ≠ 1)
    (hb : b.length ≠ 1) : bzip1 f a b = .error .valueError := by
  unfold bzip1
  rw [if_neg h]
  match a, b with
  | [], [] => rfl
  | [x], _ => simp at ha
  | [], [y] => simp at hb
  | [], y :: y' :: b => rfl
  | x :: x' :: a, [] => rfl
  | x :: x' :: a, [y] => simp at hb
  | x :: x' :: a, y :: y' :: b => rfl

section
variable {n p k : ℕ} (e : Equiv.Perm (Fin n)) (M : Matrix (Fin n) (Fin p) ℝ)
  (N : Matrix (Fin n) (Fin k) ℝ) (dom : Arr2)

/-- Data and permuted data. -/
def permD (M : Matrix (Fin n) (Fin p) ℝ) (N : Matrix (Fin n) (Fin k) ℝ) (dom : Arr2) : DData :=
  ⟨⟨n, p, M⟩, ⟨n, k, N⟩, dom⟩

variable {s s' : Settings}

theorem ini_perm (h : PermS e s s') : PyRel (PermBy e) (s.ini (permD M N dom))
    (s'.ini (permD (M.submatrix e id) (N.submatrix e id) dom)) := by
  unfold Settings.ini
  rw [← h.init]
  cases hi : s.initial with
  | none => exact uniformOn_perm e M dom
  | some d =>
    cases d with
    | none => exact uniformOn_perm e M dom
    | some d => exact densAt_perm e M (h.okI _ hi)

theorem obs_perm (h : PermS e s s') : PyRel (PermBy e) (s.obs (permD M N dom))
    (s'.obs (permD (M.submatrix e id) (N.submatrix e id) dom)) := by
  unfold Settings.obs
  rw [← h.ob]
  have := h.okO
  cases hi : s.observed with
  | none => exact densAt_perm e N rowWise_stdNormal
  | some d => rw [hi] at this; exact densAt_perm e N this

theorem pred_perm (hk : KdePerm env) (hn : 2 ≤ n) (h : PermS e s s') :
    PyRel (PredRel e) (s.pred env (permD M N dom))
      (s'.pred env (permD (M.submatrix e id) (N.submatrix e id) dom)) := by
  have kde : ∀ bw, PyRel (PredRel e) (env.kde ⟨n, k, N⟩ bw s.weights)
      (env.kde ⟨n, k, N.submatrix e id⟩ bw s'.weights) := by
    intro bw
    obtain ⟨w, h1, h2⟩ := h.w
    rw [h1, h2]
    exact (hk n k N w bw e).mono fun _ _ => Or.inl
  unfold Settings.pred
  rw [← h.pr]
  cases hi : s.predicted with
  | none => exact kde 0
  | some q =>
    obtain ⟨d, bw⟩ := q
    cases d with
    | none => exact kde bw
    | some d => exact ravel_perm hn e N (h.okP _ _ hi)

theorem ratio_perm (hk : KdePerm env) (hn : 2 ≤ n) (h : PermS e s s') :
    PyRel (PermBy e) (s.ratio env (permD M N dom))
      (s'.ratio env (permD (M.submatrix e id) (N.submatrix e id) dom)) := by
  unfold Settings.ratio
  refine (pred_perm e M N dom hk hn h).bind fun c c' hc => ?_
  refine (obs_perm e M N dom h).bind fun b b' hb => ?_
  rcases hc with hc | ⟨h1, h2, h3⟩
  · exact bzip1_perm e _ hb hc
  · obtain ⟨g, rfl, rfl⟩ := hb
    rw [bzip1_mismatch _ (by simp; omega) (by simp; omega) h3,
      bzip1_mismatch _ (by simp; omega) (by simp; omega) (by omega)]
    exact rfl

theorem updated_perm (hk : KdePerm env) (hn : 2 ≤ n) (h : PermS e s s') :
    PyRel (PermBy e) (s.updated env (permD M N dom))
      (s'.updated env (permD (M.submatrix e id) (N.submatrix e id) dom)) := by
  unfold Settings.updated
  refine (ini_perm e M N dom h).bind fun a a' ha => ?_
  refine (ratio_perm e M N dom hk hn h).bind fun r r' hr => ?_
  refine (bzip1_perm e _ ha h.w).bind fun iw iw' hiw => ?_
  exact bzip1_perm e _ hiw hr

theorem norm2_perm (v : Fin n → ℝ) : DP.norm2 (List.ofFn (v ∘ e)) = DP.norm2 (List.ofFn v) := by
  unfold DP.norm2
  rw [List.map_ofFn, List.map_ofFn, List.sum_ofFn, List.sum_ofFn]
  congr 1
  exact Equiv.sum_comp e fun i => v i ^ 2

theorem weightsOf_perm {w w' : Option NArr} (nrm : Bool) (h : PermW e w w') :
    PyRel (PermBy e) (DP.weightsOf n n w nrm) (DP.weightsOf n n w' nrm) := by
  rcases h with ⟨rfl, rfl⟩ | ⟨v, rfl, rfl⟩
  · exact ⟨fun _ => .fin 1, by simp [List.ofFn_const], by
      change List.replicate n (F.fin 1) = List.ofFn fun _ => F.fin 1
      simp [List.ofFn_const]⟩
  · rw [weightsOf_vec, weightsOf_vec]
    refine PyRel.bind (Q := fun _ _ => True) (PyRel.of_eq rfl fun _ => trivial) fun _ _ _ => ?_
    rw [norm2_perm]
    cases nrm with
    | false =>
      refine ⟨fun k => F.fin (v k), ?_, ?_⟩
      · rw [List.map_ofFn]; rfl
      · rw [List.map_ofFn]; rfl
    | true =>
      refine ⟨fun k => F.fin (v k) / F.fin (DP.norm2 (List.ofFn v)), ?_, ?_⟩
      · rw [List.map_ofFn]; rfl
      · rw [List.map_ofFn]; rfl

theorem perm_setRel (hk : KdePerm env) (hn : 2 ≤ n) :
    SetRel env (permD M N dom) (permD (M.submatrix e id) (N.submatrix e id) dom) okRow (PermW e)
      (PermS e) where
  okNone := trivial
  initial h := h.init
  predicted h := h.pr
  setIni d h hd := { h with
    init := rfl, pr := rfl, okI := fun _ h => by cases h; exact hd, okP := fun _ _ h => by cases h }
  setIni' d h hd := { h with init := rfl, okI := fun _ h => by cases h; exact hd }
  setPr d bw h hd := { h with pr := rfl, okP := fun _ _ h => by cases h; exact hd }
  setOb d h hd := { h with ob := rfl, okO := hd }
  setW w w' nrm h hw := (weightsOf_perm e nrm hw).mono fun v v' hv =>
    { h with w := hv, pr := rfl, okP := fun _ _ h => by cases h }
  ini h := (ini_perm e M N dom h).mono fun _ _ _ => trivial
  obs h := (obs_perm e M N dom h).mono fun _ _ _ => trivial
  pred h := (pred_perm e M N dom hk hn h).mono fun _ _ _ => trivial
  ratio h := (ratio_perm e M N dom hk hn h).mono fun _ _ _ => trivial
  updated h := (updated_perm e M N dom hk hn h).mono fun _ _ _ => trivial

end

/-- Exactly one sample has the largest value. -/
def UniqueMax (u : List F) : Prop :=
  ∃ (m : ℕ) (h : m < u.length), u[m] ≠ F.nan ∧
    ∀ (k : ℕ) (hk : k < u.length), k ≠ m → (u[k]).lt u[m]

theorem UniqueMax.isArgmax {u : List F} {m : ℕ} (h : m < u.length) (h0 : u[m] ≠ F.nan)
    (h1 : ∀ (k : ℕ) (hk : k < u.length), k ≠ m → (u[k]).lt u[m]) : IsArgmax u m := by
  refine ⟨h, fun k hk => ?_, fun _ k hk => ?_⟩
  · have := h1 k (by omega) (by omega)
    exact ⟨(F.lt_ne_nan this).1, Or.inr this⟩
  · by_cases hkm : k = m
    · subst hkm; exact ⟨h0, F.lt_irrefl _⟩
    · have := h1 k hk hkm
      exact ⟨(F.lt_ne_nan this).1, F.lt_asymm this⟩

theorem best_perm {n p k : ℕ} (e : Equiv.Perm (Fin n)) (M : Matrix (Fin n) (Fin p) ℝ)
    (N : Matrix (Fin n) (Fin k) ℝ) (dom : Arr2) {s s' : Settings} (hk : KdePerm env) (hn : 2 ≤ n)
    (h : PermS e s s') (hu : ∀ u, s.updated env (permD M N dom) = .ok u → UniqueMax u) :
    s'.best env (permD (M.submatrix e id) (N.submatrix e id) dom) = s.best env (permD M N dom) := by
  have hup := updated_perm e M N dom hk hn h
  unfold Settings.best
  cases h1 : s.updated env (permD M N dom) <;>
    cases h2 : s'.updated env (permD (M.submatrix e id) (N.submatrix e id) dom) <;>
    rw [h1, h2] at hup
  · cases hup; rfl
  · exact hup.elim
  · exact hup.elim
  · rename_i u u'
    obtain ⟨m, hm, h0, h3⟩ := hu u h1
    obtain ⟨g, rfl, rfl⟩ := hup
    have hmn : m < n := by simpa using hm
    have e1 : npArgmax (List.ofFn g) = .ok m := npArgmax_eq (UniqueMax.isArgmax hm h0 h3)
    have e2 : npArgmax (List.ofFn (g ∘ e)) = .ok (e.symm ⟨m, hmn⟩).1 := by
      refine npArgmax_eq (UniqueMax.isArgmax (by simp) ?_ fun k hk hkm => ?_)
      · simpa using h0
      · have hk' : k < n := by simpa using hk
        have h4 := h3 (e ⟨k, hk'⟩).1 (by simp) (fun h => hkm (by
          have : e ⟨k, hk'⟩ = ⟨m, hmn⟩ := Fin.ext h
          rw [← this]; simp))
        simpa using h4
    simp only [Py.ok_bind, e1, e2]
    unfold Arr2.rowAt
    rw [dif_pos (by exact (e.symm ⟨m, hmn⟩).2), dif_pos (by exact hmn)]
    congr 2
    funext j
    change M (e ⟨(e.symm ⟨m, hmn⟩).1, _⟩) j = M ⟨m, _⟩ j
    simp

theorem fitDomain_perm {n p : ℕ} (e : Equiv.Perm (Fin n)) (M : Matrix (Fin n) (Fin p) ℝ) (r : ℝ)
    (b : Bool) : fitDomain (some ⟨n, p, M.submatrix e id⟩) none r b =
      fitDomain (some ⟨n, p, M⟩) none r b := by
  unfold fitDomain
  have h1 : ∀ j, colMin ⟨n, p, M.submatrix e id⟩ j = colMin ⟨n, p, M⟩ j := fun j =>
    Equiv.iInf_comp (g := fun i => M i j) e
  have h2 : ∀ j, colMax ⟨n, p, M.submatrix e id⟩ j = colMax ⟨n, p, M⟩ j := fun j =>
    Equiv.iSup_comp (g := fun i => M i j) e
  simp only [h1, h2]

theorem new_perm {n p k : ℕ} (e : Equiv.Perm (Fin n)) (M : Matrix (Fin n) (Fin p) ℝ)
    (N : Matrix (Fin n) (Fin k) ℝ) {dom w w' : Option NArr} {nrm : Bool} {pad : ℝ} {xi di : Bool}
    {P P' : DP} (h : DP.new (.mat ⟨n, p, M⟩) (.mat ⟨n, k, N⟩) dom w nrm pad xi di = .ok P)
    (h' : DP.new (.mat ⟨n, p, M.submatrix e id⟩) (.mat ⟨n, k, N.submatrix e id⟩) dom w' nrm pad xi di
      = .ok P') (hw : PermW e w w') :
    ∃ D0, P.data = permD M N D0 ∧ P'.data = permD (M.submatrix e id) (N.submatrix e id) D0 ∧
      PermBy e P.weights P'.weights := by
  have hW := weightsOf_perm e nrm hw
  have fin : ∀ {A : Py (Arr2 × Bool)}, (do
      let dm ← A
      let v ← DP.weightsOf n n w nrm
      pure ({ X := ⟨n, p, M⟩, y := ⟨n, k, N⟩, domain := dm.1, domInt := dm.2, weights := v } : DP)) =
        .ok P →
    (do
      let dm ← A
      let v ← DP.weightsOf n n w' nrm
      pure ({ X := ⟨n, p, M.submatrix e id⟩, y := ⟨n, k, N.submatrix e id⟩, domain := dm.1, domInt := dm.2
              weights := v } : DP)) = .ok P' →
      ∃ D0, P.data = permD M N D0 ∧ P'.data = permD (M.submatrix e id) (N.submatrix e id) D0 ∧
        PermBy e P.weights P'.weights := by
    intro A h h'
    obtain ⟨dm, hA, h⟩ := Py.bind_eq_ok.1 h
    obtain ⟨dm', hA', h'⟩ := Py.bind_eq_ok.1 h'
    obtain ⟨v, hv, h⟩ := Py.bind_eq_ok.1 h
    obtain ⟨v', hv', h'⟩ := Py.bind_eq_ok.1 h'
    rw [hA] at hA'
    cases hA'
    rw [hv, hv'] at hW
    cases h
    cases h'
    exact ⟨dm.1, rfl, rfl, hW⟩
  unfold DP.new at h h'
  dsimp only at h h'
  cases dom with
  | none =>
    refine fin (A := do
      let D ← fitDomain (some ⟨n, p, M⟩) none (1 / 10) xi
      pure (D, xi)) (by simpa [NArr.shapeRow, NArr.shapeCol] using h) ?_
    rw [← fitDomain_perm e M]
    simpa [NArr.shapeRow, NArr.shapeCol] using h'
  | some d =>
    exact fin (A := do
      pyAssert (d.shapeRow.r = p)
      pure (d.shapeRow, di)) (by rw [bind_assoc]; exact h) (by rw [bind_assoc]; exact h')

theorem npAverage_perm {n : ℕ} (e : Equiv.Perm (Fin n)) {r r' w w' : List F} (hr : PermBy e r r')
    (hw : PermBy e w w') : DP.npAverage r' w' = DP.npAverage r w := by
  obtain ⟨g, rfl, rfl⟩ := hr
  obtain ⟨v, rfl, rfl⟩ := hw
  have z : ∀ a b : Fin n → F, List.zipWith (· * ·) (List.ofFn a) (List.ofFn b) =
      List.ofFn fun i => a i * b i := by
    intro a b
    apply List.ext_getElem <;> simp
  unfold DP.npAverage
  rw [z, z, List.sum_ofFn, List.sum_ofFn, List.sum_ofFn, List.sum_ofFn]
  have e1 : ∑ i, (v ∘ e) i = ∑ i, v i := Equiv.sum_comp e v
  have e2 : ∑ i, (g ∘ e) i * (v ∘ e) i = ∑ i, g i * v i := Equiv.sum_comp e fun i => g i * v i
  rw [e1, e2]
  simp only [List.length_ofFn]

/-- **C33.** A problem and the problem with its samples (rows of X and y, and weights) in another
order, with the same history of calls: if after the estimate the updated density has a unique
maximum the MUD points agree, and the expected ratios always agree. -/
theorem C33_sample_order (hk : KdePerm env) {n p k : ℕ} (e : Equiv.Perm (Fin n))
    (M : Matrix (Fin n) (Fin p) ℝ) (N : Matrix (Fin n) (Fin k) ℝ) {dom w w' : Option NArr}
    {nrm : Bool} {pad : ℝ} {xi di : Bool} {P P' : DP}
    (h : DP.new (.mat ⟨n, p, M⟩) (.mat ⟨n, k, N⟩) dom w nrm pad xi di = .ok P)
    (h' : DP.new (.mat ⟨n, p, M.submatrix e id⟩) (.mat ⟨n, k, N.submatrix e id⟩) dom w' nrm pad xi di
      = .ok P') (hw : PermW e w w') {ops ops' : List DOp}
    (hops : List.Forall₂ (OpRel okRow (PermW e)) ops ops') :
    ((∀ u, (DP.mudPoint env (P.after env ops)).2.up = some u → UniqueMax u) →
      (DP.mudPoint env (P'.after env ops')).1 = (DP.mudPoint env (P.after env ops)).1) ∧
    (DP.expectedRatio env (P'.after env ops')).1 = (DP.expectedRatio env (P.after env ops)).1 := by
  by_cases hn : 2 ≤ n
  swap
  · -- at most one sample: the two problems are equal
    have hsub : Subsingleton (Fin n) := by
      refine ⟨fun a b => Fin.ext ?_⟩
      have := a.2; have := b.2; omega
    have he : e = 1 := Subsingleton.elim _ _
    subst he
    have hM : M.submatrix (1 : Equiv.Perm (Fin n)) id = M := rfl
    have hN : N.submatrix (1 : Equiv.Perm (Fin n)) id = N := rfl
    have hWeq : ∀ {w w'}, PermW (1 : Equiv.Perm (Fin n)) w w' → w' = w := by
      rintro w w' (⟨rfl, rfl⟩ | ⟨v, rfl, rfl⟩) <;> rfl
    have hO : ∀ {w w'}, OptW (PermW (1 : Equiv.Perm (Fin n))) w w' → w' = w := by
      intro w w' h
      cases w <;> cases w'
      · rfl
      · exact h.elim
      · exact h.elim
      · exact hWeq h
    have hopeq : ops' = ops := by
      clear h h'
      induction hops with
      | nil => rfl
      | cons h _ ih =>
        rw [ih]
        congr 1
        cases h with
        | setWeights h => rw [hWeq h]
        | setObserved h => rfl
        | setInitial h => rfl
        | setPredicted h h' => rw [hO h']
        | fit h h' => rw [hO h']
        | estimate => rfl
        | expectedRatio => rfl
    rw [hM, hN, hWeq hw, h] at h'
    cases h'
    subst hopeq
    exact ⟨fun _ => rfl, rfl⟩
  obtain ⟨D0, hD, hD', hPw⟩ := new_perm e M N h h' hw
  have H := perm_setRel e M N D0 hk hn
  have hst : StRel (PermS e) P.start P'.start :=
    ⟨⟨hPw, rfl, rfl, rfl, fun _ h => (by cases h), fun _ _ h => (by cases h), trivial⟩, .none, .none⟩
  have hr := lock_after H.general (hops.imp fun _ _ h => h.general) hst
  have hrel := sim_after ops _ _ (new_rel (env := env) h)
  have hrel2 := (sim_estimate _ _ hrel).2
  rw [(C29_exact h _).1, (C29_exact h _).2, (C29_exact h' _).1, (C29_exact h' _).2]
  rw [hD] at hrel2
  rw [hD, hD']
  constructor
  · intro hu
    rcases lock_estimate H.general hr with ⟨er, h1, h2⟩ | ⟨s, s', hs, hfit, h1, h2⟩
    · rw [h1, h2]
    · rw [h1, h2]
      refine best_perm e M N D0 hk hn hs fun u hu' => hu u ?_
      cases hup : (DP.mudPoint env (P.after env ops)).2.up with
      | none =>
        have := hrel2.up0 hup
        rw [hfit] at this
        cases this
      | some v =>
        obtain ⟨s0, hs0, hs1⟩ := hrel2.up1 v hup
        rw [hfit] at hs0
        cases hs0
        rw [hu'] at hs1
        cases hs1
        rfl
  · rcases lock_expectedRatio H.general hr with ⟨er, h1, h2⟩ | ⟨s, s', t, t', hs, ht, h1, h2⟩
    · rw [h1, h2]
    · rw [h1, h2]
      refine (PyRel.eq ((ratio_perm e M N D0 hk hn hs).bind fun r r' hr => ?_)).symm
      exact PyRel.of_eq (npAverage_perm e hr ht.w).symm fun _ => rfl

/-- The hypotheses of `C33_sample_order` are met: two samples swapped, weights 1 and 3 swapped, a
predicted density given by the weights. -/
example := C33_sample_order (env := ⟨fun _ _ w => .ok w⟩)
  (fun _ _ _ w _ _ => ⟨w, rfl, rfl⟩) (Equiv.swap (0 : Fin 2) 1) !![(0 : ℝ); 1] !![(0 : ℝ); 1]
  (dom := some demoDom) (w := some (.vec 2 ![1, 3])) (w' := some (.vec 2 (![1, 3] ∘ Equiv.swap (0 : Fin 2) 1)))
  (nrm := false) (pad := 0) (xi := false) (di := false) rfl rfl (Or.inr ⟨_, rfl, rfl⟩)
  (ops := [.setObserved (some (distOf fun x => 1 + x)), .estimate])
  (.cons (.setObserved (rowWise_distOf _)) (.cons .estimate .nil))

end Verif
