import Verif.Props.Kde

/-!
# C80: the units of the outputs do not matter
-/

open Matrix

namespace Verif

variable {user : ℕ → ℝ → ℕ → ℝ} {n d : ℕ}

/-- The rows `y_i` replaced by `T y_i + c`. -/
def affineRows (T : Matrix (Fin d) (Fin d) ℝ) (c : Fin d → ℝ) (D : Matrix (Fin n) (Fin d) ℝ) :
    Matrix (Fin n) (Fin d) ℝ := .of fun i => T *ᵥ D i + c

/-- Centred data. -/
def kdeCentred (D : Matrix (Fin n) (Fin d) ℝ) (v : Fin n → ℝ) : Matrix (Fin n) (Fin d) ℝ :=
  .of fun i j => D i j - ∑ l, v l * D l j

theorem kdeCov_eq (D : Matrix (Fin n) (Fin d) ℝ) (v : Fin n → ℝ) :
    kdeCov D v = (1 / (1 - ∑ i, v i ^ 2)) •
      ((kdeCentred D v)ᵀ * diagonal v * kdeCentred D v) := by
  ext j k
  simp only [kdeCov, of_apply, Matrix.smul_apply, smul_eq_mul]
  congr 1
  rw [mul_apply]
  refine Finset.sum_congr rfl fun i _ => ?_
  rw [mul_diagonal]
  simp only [transpose_apply, kdeCentred, of_apply]
  ring

theorem kdeCentred_affine (T : Matrix (Fin d) (Fin d) ℝ) (c : Fin d → ℝ)
    (D : Matrix (Fin n) (Fin d) ℝ) {v : Fin n → ℝ} (hv : ∑ i, v i = 1) :
    kdeCentred (affineRows T c D) v = kdeCentred D v * Tᵀ := by
  ext i j
  simp only [kdeCentred, affineRows, of_apply, mul_apply, transpose_apply, Pi.add_apply, mulVec,
    dotProduct, mul_add, Finset.sum_add_distrib, ← Finset.sum_mul, hv, one_mul, sub_mul]
  rw [Finset.sum_sub_distrib]
  have : ∑ l, v l * ∑ k, T j k * D l k = ∑ k, (∑ l, v l * D l k) * T j k := by
    simp only [Finset.mul_sum, Finset.sum_mul]
    rw [Finset.sum_comm]
    exact Finset.sum_congr rfl fun k _ => Finset.sum_congr rfl fun l _ => by ring
  rw [this]
  have : ∑ k, T j k * D i k = ∑ k, D i k * T j k := Finset.sum_congr rfl fun k _ => mul_comm _ _
  rw [this]
  ring

theorem kdeCov_affine (T : Matrix (Fin d) (Fin d) ℝ) (c : Fin d → ℝ)
    (D : Matrix (Fin n) (Fin d) ℝ) {v : Fin n → ℝ} (hv : ∑ i, v i = 1) :
    kdeCov (affineRows T c D) v = T * kdeCov D v * Tᵀ := by
  rw [kdeCov_eq, kdeCov_eq, kdeCentred_affine T c D hv]
  simp only [transpose_mul, transpose_transpose, Matrix.mul_smul, Matrix.smul_mul, Matrix.mul_assoc]

theorem kdeAt_affine (T : Matrix (Fin d) (Fin d) ℝ) (hT : IsUnit T.det) (c : Fin d → ℝ)
    (D : Matrix (Fin n) (Fin d) ℝ) {v : Fin n → ℝ} (hv : ∑ i, v i = 1) (h : ℝ) (x : Fin d → ℝ) :
    kdeAt (affineRows T c D) v h (T *ᵥ x + c) = kdeAt D v h x / |T.det| := by
  unfold kdeAt
  rw [kdeCov_affine T c D hv, Finset.sum_div]
  refine Finset.sum_congr rfl fun i _ => ?_
  have e1 : (fun j => (T *ᵥ x + c) j - affineRows T c D i j) = T *ᵥ fun j => x j - D i j := by
    have : (fun j => x j - D i j) = x - D i := rfl
    rw [this, mulVec_sub]
    funext j
    simp [affineRows]
  have e2 : h ^ 2 • (T * kdeCov D v * Tᵀ) = T * (h ^ 2 • kdeCov D v) * Tᵀ := by
    simp
  rw [e1, e2, normalPdf_map _ _ hT, mul_div_assoc]

theorem posDef_affine {T C : Matrix (Fin d) (Fin d) ℝ} (hT : IsUnit T.det) :
    (T * C * Tᵀ).PosDef ↔ C.PosDef := by
  have := Matrix.IsUnit.posDef_star_right_conjugate_iff (U := T) (x := C)
    ((Matrix.isUnit_iff_isUnit_det T).2 hT)
  simpa [star_eq_conjTranspose, conjTranspose_eq_transpose_of_trivial] using this

theorem sum_kdeWeights {w : List F} (hl : w.length = n) (h : (w.map F.re).sum ≠ 0) :
    ∑ i, kdeWeights n w i = 1 := by
  subst hl
  have e : w = List.ofFn fun i : Fin w.length => w[i.1] := by simp
  have h1 : ∑ i, kdeWeights w.length w i = (w.map F.re).sum / (w.map F.re).sum := by
    unfold kdeWeights
    rw [← Finset.sum_div]
    congr 1
    conv_rhs => rw [e, sum_re_ofFn]
    exact Finset.sum_congr rfl fun i _ => by simp
  rw [h1, div_self h]

theorem raiseIf_bind_congr {p : Prop} [Decidable p] {e : Err} {α : Type} {x y : Py α}
    (h : ¬ p → x = y) : (raiseIf p e >>= fun _ => x) = (raiseIf p e >>= fun _ => y) := by
  by_cases hp : p
  · rw [raiseIf_true hp]; rfl
  · rw [raiseIf_false hp]; exact h hp

theorem kdeCheck_affine (T : Matrix (Fin d) (Fin d) ℝ) (hT : IsUnit T.det) (c : Fin d → ℝ)
    (D : Matrix (Fin n) (Fin d) ℝ) (w : List F) :
    kdeCheck ⟨n, d, affineRows T c D⟩ w = kdeCheck ⟨n, d, D⟩ w := by
  classical
  unfold kdeCheck
  simp only []
  refine raiseIf_bind_congr fun _ => ?_
  refine raiseIf_bind_congr fun h2 => ?_
  refine raiseIf_bind_congr fun _ => ?_
  refine raiseIf_bind_congr fun h4 => ?_
  have hv := sum_kdeWeights (not_not.1 h2) h4
  rw [raiseIf_congr (p := ¬ (kdeCov (affineRows T c D) _).PosDef)
    (q := ¬ (kdeCov D (kdeWeights n w)).PosDef)]
  rw [kdeCov_affine T c D hv, posDef_affine hT]

/-- scipy's estimate for transformed data is the transformed density: the values at the samples
are divided by `|det T|`; it raises the same exceptions. -/
theorem gaussianKde_affine (T : Matrix (Fin d) (Fin d) ℝ) (hT : IsUnit T.det) (c : Fin d → ℝ)
    (D : Matrix (Fin n) (Fin d) ℝ) (bw : ℕ) (w : List F) :
    gaussianKde user ⟨n, d, affineRows T c D⟩ bw w = (do
      let l ← gaussianKde user ⟨n, d, D⟩ bw w
      return l.map (F.fin (1 / |T.det|) * ·)) := by
  unfold gaussianKde
  rw [kdeCheck_affine T hT c D w]
  cases hc : kdeCheck ⟨n, d, D⟩ w with
  | error e => rfl
  | ok _ =>
    have hv := (kdeCheck_ok hc).2.2.2.1
    simp only [Py.ok_bind, Py.pure_eq, List.map_ofFn]
    congr 2
    funext i
    have := kdeAt_affine T hT c D hv
      (kdeFactor user bw (kdeNeff (kdeWeights n w)) d) (D i)
    change F.fin (kdeAt (affineRows T c D) _ _ (T *ᵥ D i + c)) = _
    rw [this]
    simp only [Function.comp, F.fin_mul, F.fin_inj]
    ring

/-! ## Two problems in different units -/

/-- Each value multiplied by `c`. -/
def TimesC (c : ℝ) (l l' : List F) : Prop := l' = l.map (F.fin c * ·)

section
variable {p p' : ℕ} (T : Matrix (Fin d) (Fin d) ℝ) (c : Fin d → ℝ) (M : Matrix (Fin n) (Fin p) ℝ)
  (M' : Matrix (Fin n) (Fin p') ℝ) (N : Matrix (Fin n) (Fin d) ℝ) (dom dom' : Arr2)

/-- Initial distributions that agree up to the units of the parameters: the density values at the
samples differ by a constant positive factor. -/
def SameInitial (q q' : Option Dist) : Prop :=
  ∃ k : ℝ, 0 < k ∧ PyRel (TimesC k) (densAt (q.getD (uniformOn dom)) ⟨n, p, M⟩)
    (densAt (q'.getD (uniformOn dom')) ⟨n, p', M'⟩)

/-- The observed distribution `q'` is `q` in the new units: the density at `T y + c` is the density
of `q` at `y` divided by `|det T|`. -/
def SameObserved (q q' : Option Dist) : Prop :=
  ∃ b, densAt (q.getD stdNormal) ⟨n, d, N⟩ = .ok b ∧
    densAt (q'.getD stdNormal) ⟨n, d, affineRows T c N⟩ = .ok (b.map (F.fin (1 / |T.det|) * ·))

/-- Predicted distributions: both the kernel density estimate, or `q'` is `q` in the new units. -/
def SamePredicted : Option Dist → Option Dist → Prop
  | none, none => True
  | some q, some q' => PyRel (fun o o' : FOut => TimesC (1 / |T.det|) o.ravel o'.ravel)
      (q.pdf ⟨n, d, N⟩) (q'.pdf ⟨n, d, affineRows T c N⟩)
  | _, _ => False

/-- Settings of the two problems. -/
structure UnitS (s s' : Settings) : Prop where
  w : s'.weights = s.weights
  i0 : s.initial.isNone = s'.initial.isNone
  p0 : s.predicted.isNone = s'.predicted.isNone
  ini : SameInitial M M' dom dom' (s.initial.getD none) (s'.initial.getD none)
  ob : SameObserved T c N s.observed s'.observed
  pr : SamePredicted T c N (s.predicted.getD (none, 0)).1 (s'.predicted.getD (none, 0)).1
  bw : (s.predicted.getD (none, 0)).2 = (s'.predicted.getD (none, 0)).2

/-- Data of the problem in the original units. -/
def unitD : DData := ⟨⟨n, p, M⟩, ⟨n, d, N⟩, dom⟩

variable {T c M M' N dom dom'} {s s' : Settings}

theorem bzip1_times {f : F → F → F} {g h k : F → F} (hk : ∀ x y, f (g x) (h y) = k (f x y))
    (a b : List F) : PyRel (fun l l' => l' = l.map k) (bzip1 f a b) (bzip1 f (a.map g) (b.map h)) := by
  rw [bzip1_map f g h k hk]
  cases bzip1 f a b with
  | error e => exact rfl
  | ok l => exact rfl

theorem unit_pred (hT : IsUnit T.det) (h : UnitS T c M M' N dom dom' s s') :
    PyRel (TimesC (1 / |T.det|)) (s.pred (scipyEnv user) (unitD M N dom))
      (s'.pred (scipyEnv user) (unitD M' (affineRows T c N) dom')) := by
  have h1 := h.pr
  have h2 := h.bw
  have h3 := h.w
  unfold Settings.pred
  generalize s.predicted.getD (none, 0) = x at h1 h2 ⊢
  generalize s'.predicted.getD (none, 0) = x' at h1 h2 ⊢
  obtain ⟨q, bw⟩ := x
  obtain ⟨q', bw'⟩ := x'
  change SamePredicted T c N q q' at h1
  change bw = bw' at h2
  subst h2
  match q, q', h1 with
  | none, none, _ =>
    simp only [scipyEnv, unitD, h3, gaussianKde_affine T hT c N]
    cases gaussianKde user ⟨n, d, N⟩ bw s.weights with
    | error e => exact rfl
    | ok l => exact rfl
  | some q, some q', h1 =>
    exact PyRel.bind (Q := fun o o' : FOut => TimesC (1 / |T.det|) o.ravel o'.ravel) h1
      fun o o' ho => ho

theorem unit_ratio (hT : IsUnit T.det) (h : UnitS T c M M' N dom dom' s s') :
    PyRel (· = ·) (s.ratio (scipyEnv user) (unitD M N dom))
      (s'.ratio (scipyEnv user) (unitD M' (affineRows T c N) dom')) := by
  have hpos : 0 < 1 / |T.det| := one_div_pos.2 (abs_pos.2 hT.ne_zero)
  unfold Settings.ratio
  refine (unit_pred hT h).bind fun l l' hl => ?_
  obtain ⟨b, h1, h2⟩ := h.ob
  have e1 : s.obs (unitD M N dom) = .ok b := h1
  have e2 : s'.obs (unitD M' (affineRows T c N) dom') = _ := h2
  rw [e1, e2, Py.ok_bind, Py.ok_bind, hl]
  refine (bzip1_times (k := id) (fun x y => F.pos_mul_div hpos x y) b l).mono ?_
  rintro a _ rfl
  simp

theorem unit_updated (hT : IsUnit T.det) (h : UnitS T c M M' N dom dom' s s') :
    PyRel (fun u u' => ∃ k : ℝ, 0 < k ∧ TimesC k u u') (s.updated (scipyEnv user) (unitD M N dom))
      (s'.updated (scipyEnv user) (unitD M' (affineRows T c N) dom')) := by
  obtain ⟨k, hk, hi⟩ := h.ini
  unfold Settings.updated
  refine PyRel.bind (Q := TimesC k) hi fun a a' ha => ?_
  refine (unit_ratio hT h).bind fun r r' hr => ?_
  subst hr
  rw [ha, h.w]
  have h1 := bzip1_times (f := (· * ·)) (g := (F.fin k * ·)) (h := id) (k := (F.fin k * ·))
    (fun x y => mul_assoc _ _ _) a s.weights
  rw [List.map_id] at h1
  refine h1.bind fun b b' hb => ?_
  rw [hb]
  have h2 := bzip1_times (f := (· * ·)) (g := (F.fin k * ·)) (h := id) (k := (F.fin k * ·))
    (fun x y => mul_assoc _ _ _) b r
  rw [List.map_id] at h2
  exact h2.mono fun u u' hu => ⟨k, hk, hu⟩

theorem unit_best (hT : IsUnit T.det) (h : UnitS T c M M' N dom dom' s s') :
    PyRel (fun x x' => ∃ i, x = List.ofFn (M i) ∧ x' = List.ofFn (M' i))
      (s.best (scipyEnv user) (unitD M N dom))
      (s'.best (scipyEnv user) (unitD M' (affineRows T c N) dom')) := by
  unfold Settings.best
  refine (unit_updated hT h).bind ?_
  rintro u _ ⟨k, hk, rfl⟩
  rw [npArgmax_scale hk]
  refine PyRel.bind (Q := (· = ·)) (PyRel.of_eq rfl fun _ => rfl) ?_
  rintro m _ rfl
  change PyRel _ (Arr2.rowAt ⟨n, p, M⟩ m) (Arr2.rowAt ⟨n, p', M'⟩ m)
  unfold Arr2.rowAt
  by_cases hm : m < n
  · rw [dif_pos hm, dif_pos hm]; exact ⟨⟨m, hm⟩, rfl, rfl⟩
  · rw [dif_neg hm, dif_neg hm]; exact rfl

theorem PyRel.weaken {α β : Type} {Q : α → β → Prop} {x : Py α} {y : Py β} (h : PyRel Q x y) :
    PyRel (fun _ _ => True) x y := h.mono fun _ _ _ => trivial

theorem unit_setRel (hT : IsUnit T.det) (h0 : SameInitial M M' dom dom' none none) :
    SetRelG (scipyEnv user) (unitD M N dom) (unitD M' (affineRows T c N) dom')
      (SameInitial M M' dom dom') (SamePredicted T c N) (SameObserved T c N) (· = ·)
      (UnitS T c M M' N dom dom') where
  iNone := h0
  pNone := trivial
  initial h := h.i0
  predicted h := h.p0
  setIni q q' h hq := { h with i0 := rfl, p0 := rfl, ini := hq, pr := trivial, bw := rfl }
  setIni' q q' h hq := { h with i0 := rfl, ini := hq }
  setPr q q' bw h hq := { h with p0 := rfl, pr := hq, bw := rfl }
  setOb q q' h hq := { h with ob := hq }
  setW w w' nrm h hw := by
    subst hw
    exact PyRel.of_eq rfl fun v => { h with w := rfl, p0 := rfl, pr := trivial, bw := rfl }
  ini h := by
    obtain ⟨k, -, h⟩ := h.ini
    exact h.weaken
  obs h := by
    obtain ⟨b, h1, h2⟩ := h.ob
    have e1 : Settings.obs (unitD M N dom) _ = .ok b := h1
    have e2 : Settings.obs (unitD M' (affineRows T c N) dom') _ = _ := h2
    rw [e1, e2]
    trivial
  pred h := (unit_pred hT h).weaken
  ratio h := (unit_ratio hT h).weaken
  updated h := (unit_updated hT h).weaken

end

theorem new_fields {X y : NArr} {dom w : Option NArr} {nrm : Bool} {pad : ℝ} {xi di : Bool} {P : DP}
    (h : DP.new X y dom w nrm pad xi di = .ok P) :
    P.X = X.shapeRow ∧ P.y = y.shapeCol ∧
      DP.weightsOf X.shapeRow.r y.shapeCol.r w nrm = .ok P.weights := by
  unfold DP.new at h
  dsimp only at h
  cases dom with
  | none =>
    obtain ⟨dm, -, h⟩ := Py.bind_eq_ok.1 h
    obtain ⟨_, -, h⟩ := Py.bind_eq_ok.1 h
    obtain ⟨v, hv, h⟩ := Py.bind_eq_ok.1 h
    cases h
    exact ⟨rfl, rfl, hv⟩
  | some d =>
    obtain ⟨dm, -, h⟩ := Py.bind_eq_ok.1 h
    obtain ⟨_, -, h⟩ := Py.bind_eq_ok.1 h
    obtain ⟨v, hv, h⟩ := Py.bind_eq_ok.1 h
    cases h
    exact ⟨rfl, rfl, hv⟩

/-- **C80.** Two problems with the same weights: the outputs of the second are `T y + c` for an
invertible `T` (other units, or another basis), the samples of the second are the samples of the
first in other coordinates. The distributions given in the two histories of calls are the same
distributions in the respective units; the observed one is set first. Then the two MUD points are
the same sample, and the expected ratios are equal (or both calls raise the same exception). -/
theorem C80_units {p p' : ℕ} {T : Matrix (Fin d) (Fin d) ℝ} (hT : IsUnit T.det) (c : Fin d → ℝ)
    (M : Matrix (Fin n) (Fin p) ℝ) (M' : Matrix (Fin n) (Fin p') ℝ) (N : Matrix (Fin n) (Fin d) ℝ)
    {dom dom' w : Option NArr} {nrm : Bool} {pad pad' : ℝ} {xi di xi' di' : Bool} {P P' : DP}
    (h : DP.new (.mat ⟨n, p, M⟩) (.mat ⟨n, d, N⟩) dom w nrm pad xi di = .ok P)
    (h' : DP.new (.mat ⟨n, p', M'⟩) (.mat ⟨n, d, affineRows T c N⟩) dom' w nrm pad' xi' di' = .ok P')
    (h0 : SameInitial M M' P.domain P'.domain none none) {q q' : Option Dist}
    (hq : SameObserved T c N q q') {ops ops' : List DOp}
    (hops : List.Forall₂ (OpRelG (SameInitial M M' P.domain P'.domain) (SamePredicted T c N)
      (SameObserved T c N) (· = ·)) ops ops') :
    PyRel (fun x x' => ∃ i, x = List.ofFn (M i) ∧ x' = List.ofFn (M' i))
      (DP.mudPoint (scipyEnv user) (P.after (scipyEnv user) (.setObserved q :: ops))).1
      (DP.mudPoint (scipyEnv user) (P'.after (scipyEnv user) (.setObserved q' :: ops'))).1 ∧
    (DP.expectedRatio (scipyEnv user) (P'.after (scipyEnv user) (.setObserved q' :: ops'))).1 =
      (DP.expectedRatio (scipyEnv user) (P.after (scipyEnv user) (.setObserved q :: ops))).1 := by
  obtain ⟨e1, e2, e3⟩ := new_fields h
  obtain ⟨e1', e2', e3'⟩ := new_fields h'
  have hD : P.data = unitD M N P.domain := by unfold DP.data unitD; rw [e1, e2]; rfl
  have hD' : P'.data = unitD M' (affineRows T c N) P'.domain := by
    unfold DP.data unitD; rw [e1', e2']; rfl
  have hw : P'.weights = P.weights := by
    have : Except.ok (ε := Err) P'.weights = .ok P.weights := e3'.symm.trans e3
    injection this
  have H := unit_setRel (user := user) (T := T) (c := c) (N := N) hT h0
  rw [(C29_exact h _).1, (C29_exact h _).2, (C29_exact h' _).1, (C29_exact h' _).2, hD, hD']
  have hst : StRel (UnitS T c M M' N P.domain P'.domain)
      ((DOp.setObserved q).spec (scipyEnv user) (unitD M N P.domain) P.start).2
      ((DOp.setObserved q').spec (scipyEnv user) (unitD M' (affineRows T c N) P'.domain) P'.start).2 := by
    obtain ⟨b, h1, h2⟩ := id hq
    have e1 : ({ P.start.cur with observed := q } : Settings).obs (unitD M N P.domain) = .ok b := h1
    have e2 : ({ P'.start.cur with observed := q' } : Settings).obs
      (unitD M' (affineRows T c N) P'.domain) = _ := h2
    simp only [DOp.spec, SpecState.setObserved, PyM.get_bind_run, e1, e2, PyM.lift_ok_bind,
      PyM.modify_run]
    exact ⟨⟨hw, rfl, rfl, h0, hq, trivial, rfl⟩, .none, .none⟩
  have hr := lock_after H hops hst
  constructor
  · rcases lock_estimate H hr with ⟨er, h1, h2⟩ | ⟨s, s', hs, hfit, h1, h2⟩
    · change PyRel _ (SpecState.estimate _ _ (SpecState.after _ _ _ ops)).1
        (SpecState.estimate _ _ (SpecState.after _ _ _ ops')).1
      rw [h1, h2]
      exact rfl
    · change PyRel _ (SpecState.estimate _ _ (SpecState.after _ _ _ ops)).1
        (SpecState.estimate _ _ (SpecState.after _ _ _ ops')).1
      rw [h1, h2]
      exact unit_best hT hs
  · change (SpecState.expectedRatio _ _ (SpecState.after _ _ _ ops')).1 =
      (SpecState.expectedRatio _ _ (SpecState.after _ _ _ ops)).1
    rcases lock_expectedRatio H hr with ⟨er, h1, h2⟩ | ⟨s, s', t, t', hs, ht, h1, h2⟩
    · rw [h1, h2]
    · rw [h1, h2, (unit_ratio hT hs).eq, ht.w]

/-- The hypotheses of `C80_units` are met: two samples, outputs 0 and 1 in the first problem and
`2 y + 1` in the second, the observed density being transformed accordingly; default initial
density, kernel density estimate. -/
example (f : ℝ → ℝ) := C80_units (user := user) (n := 2) (d := 1) (p := 1) (p' := 1)
  (T := !![(2 : ℝ)]) (by simp) ![1] !![(0 : ℝ); 1] !![(0 : ℝ); 1] !![(0 : ℝ); 1] (dom := some demoDom)
  (dom' := some demoDom) (w := none) (nrm := false) (pad := 0) (pad' := 0) (xi := false)
  (di := false) (xi' := false) (di' := false) (P := demoP)
  (P' := { demoP with y := ⟨2, 1, affineRows !![(2 : ℝ)] ![1] !![(0 : ℝ); 1]⟩ }) rfl rfl
  ⟨1, one_pos, PyRel.of_eq rfl fun l => by simp [TimesC, ← F.one_def]⟩
  (q := some (distOf f)) (q' := some (distOf fun y => f ((y - 1) / 2) / 2))
  ⟨[.fin (f 0), .fin (f 1)], by simp [densAt, distOf, FOut.prodRows, rowsOf], by
    simp [densAt, distOf, FOut.prodRows, rowsOf, affineRows, mulVec, dotProduct]; constructor <;> ring_nf⟩
  (ops := [.setWeights (some (.vec 2 ![1, 3])) true, .estimate])
  (.cons (.setWeights rfl) (.cons .estimate .nil))

end Verif
