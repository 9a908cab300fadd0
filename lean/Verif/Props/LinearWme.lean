import Verif.Model.Wme
import Verif.Props.Linear

/-!
# Properties C23–C27: `transform_linear_map` and `LinearWMEProblem`
-/

open Matrix

namespace Verif

variable {p : ℕ}

/-! ## C25: input validation -/

/-- The documented requirements on `(operator, data, std)`.  A standard deviation is "zero" if
it rounds to 0 at 14 decimals. -/
def Acceptable (operator : Arr2) (N : ℕ) (std : StdArg) : Prop :=
  if operator.r > 1 then
    operator.r = N ∧ match std with
      | .num s => 5 / 10 ^ 15 < |s|
      | .seq n v => n = N ∧ ∀ i, 5 / 10 ^ 15 < |v i|
  else
    match std with
      | .num s => 1 / 10 ^ 14 < s
      | .seq _ _ => False

/-- The call succeeds exactly on acceptable input (with at least one datum). -/
theorem C25_accepts (operator : Arr2) (N : ℕ) (hN : 0 < N) (data : Fin N → ℝ) (std : StdArg) :
    (∃ r, transformLinearMap operator N data std = .ok r) ↔ Acceptable operator N std := by
  unfold transformLinearMap Acceptable
  by_cases hr : operator.r > 1
  · simp only [hr, if_true]
    by_cases h1 : operator.r = N
    · cases std with
      | num s =>
        by_cases h2 : roundsToZero s
        · have : ¬ (5 / 10 ^ 15 < |s|) := not_lt.2 h2
          have h3 : ∃ _ : Fin N, roundsToZero s := ⟨⟨0, hN⟩, h2⟩
          simp [h1, this, h3]
        · have h2' : 5 / 10 ^ 15 < |s| := not_le.1 h2
          have h3 : ¬ ∃ _ : Fin N, roundsToZero s := fun ⟨_, h⟩ => h2 h
          simp [h1, h2', h3, hN.ne', raiseIf_false]
      | seq n v =>
        by_cases h4 : n = N
        · by_cases h2 : ∃ i, roundsToZero (v i)
          · obtain ⟨i, hi⟩ := h2
            have : ¬ ∀ i, 5 / 10 ^ 15 < |v i| := fun h => absurd (h i) (not_lt.2 hi)
            have h3 : ∃ i, roundsToZero (v i) := ⟨i, hi⟩
            simp [h1, h4, this, h3]
          · have h2' : ∀ i, 5 / 10 ^ 15 < |v i| := fun i => not_le.1 fun h => h2 ⟨i, h⟩
            simp [h1, h4, h2, h2', hN.ne', raiseIf_false]
        · simp [h1, h4]
    · simp [h1]
  · simp only [hr, if_false]
    cases std with
    | num s =>
      by_cases h : s > 1 / 10 ^ 14
      · have h' : 1 / 10 ^ 14 < s := h
        simp only [h', iff_true]
        simp [hN.ne', raiseIf_false]
      · have h' : ¬ 1 / 10 ^ 14 < s := h
        simp only [h', iff_false]
        simp
    | seq n v => simp

/-- What is raised otherwise: `ValueError` for a sequence of standard deviations of a repeated
observation, `AssertionError` in every other case. -/
theorem C25_errors (operator : Arr2) (N : ℕ) (hN : 0 < N) (data : Fin N → ℝ) (std : StdArg)
    (h : ¬ Acceptable operator N std) :
    ((operator.r ≤ 1 ∧ ∃ n v, std = .seq n v) →
      transformLinearMap operator N data std = .error .valueError) ∧
    (¬ (operator.r ≤ 1 ∧ ∃ n v, std = .seq n v) →
      transformLinearMap operator N data std = .error .assertionError) := by
  unfold Acceptable at h
  unfold transformLinearMap
  by_cases hr : operator.r > 1
  · have hr' : ¬ operator.r ≤ 1 := by omega
    refine ⟨fun h => absurd h.1 hr', fun _ => ?_⟩
    simp only [hr, if_true] at h ⊢
    by_cases h1 : operator.r = N
    · cases std with
      | num s =>
        have h3 : ∃ _ : Fin N, roundsToZero s := by
          refine ⟨⟨0, hN⟩, ?_⟩
          by_contra h2
          exact h ⟨h1, not_le.1 h2⟩
        simp [h1, h3]
      | seq n v =>
        by_cases h4 : n = N
        · have h2 : ∃ i, roundsToZero (v i) := by
            by_contra h2
            exact h ⟨h1, h4, fun i => not_le.1 fun h => h2 ⟨i, h⟩⟩
          simp [h1, h4, h2]
        · simp [h1, h4]
    · simp [h1]
  · have hr' : operator.r ≤ 1 := by omega
    simp only [hr, if_false] at h ⊢
    cases std with
    | num s =>
      have h' : ¬ s > 1 / 10 ^ 14 := h
      refine ⟨fun h => by simp at h, fun _ => ?_⟩
      dsimp only
      rw [pyAssert_false h']
      rfl
    | seq n v => exact ⟨fun _ => rfl, fun h => absurd ⟨hr', n, v, rfl⟩ h⟩

/-- Accepted and rejected input: two rows with deviations 1/10, 1/5; with a deviation 0; one row
with a sequence of deviations. -/
example : Acceptable ⟨2, 2, !![1, 2; 3, 4]⟩ 2 (.seq 2 ![1 / 10, 1 / 5]) ∧
    ¬ Acceptable ⟨2, 2, !![1, 2; 3, 4]⟩ 2 (.seq 2 ![0, 1 / 5]) ∧
    ¬ Acceptable ⟨1, 2, !![1, 2]⟩ 2 (.seq 2 ![1 / 10, 1 / 5]) := by
  refine ⟨⟨rfl, rfl, fun i => ?_⟩, fun h => ?_, fun h => h⟩
  · fin_cases i <;> norm_num [abs_of_pos]
  · have := h.2.2 0
    norm_num at this

/-! ## C23: the map is the weighted mean error -/

/-- The first result applied to `x` (1-D of length `p`, or one row). -/
def applyMap (A : NArr) (x : Fin p → ℝ) (v : ℝ) : Prop :=
  (∃ a : Fin p → ℝ, (A = .vec p a ∨ A = .mat (Arr2.row a)) ∧ a ⬝ᵥ x = v)

theorem transform_stacked {N : ℕ} (hN : 1 < N) (M : Matrix (Fin N) (Fin p) ℝ) (d σ : Fin N → ℝ)
    (hσ : ∀ i, 5 / 10 ^ 15 < |σ i|) :
    transformLinearMap ⟨N, p, M⟩ N d (.seq N σ) =
      .ok (.vec p (fun j => ∑ i, 1 / (σ i * Real.sqrt N) * M i j),
        -1 / Real.sqrt N * ∑ i, d i / σ i) := by
  unfold transformLinearMap
  have h2 : ¬ ∃ i, roundsToZero (σ i) := fun ⟨i, h⟩ => absurd (hσ i) (not_lt.2 h)
  simp only [gt_iff_lt, hN, if_true, pyAssert_true, Py.ok_bind, h2, not_false_eq_true]
  rw [raiseIf_false (by omega)]
  simp

theorem transform_stacked_num {N : ℕ} (hN : 1 < N) (M : Matrix (Fin N) (Fin p) ℝ) (d : Fin N → ℝ)
    (s : ℝ) :
    transformLinearMap ⟨N, p, M⟩ N d (.num s) = transformLinearMap ⟨N, p, M⟩ N d (.seq N fun _ => s) := by
  unfold transformLinearMap
  simp only [gt_iff_lt, hN, if_true]

theorem transform_repeated {N : ℕ} (hN : 0 < N) (a : Fin p → ℝ) (d : Fin N → ℝ) (s : ℝ)
    (hs : 1 / 10 ^ 14 < s) :
    transformLinearMap (Arr2.row a) N d (.num s) =
      .ok (.mat (Arr2.row fun j => Real.sqrt N / s * a j), -1 / Real.sqrt N * ∑ i, d i / s) := by
  unfold transformLinearMap
  have : ¬ (Arr2.row a).r > 1 := by simp [Arr2.row]
  have hs' : s > 1 / 10 ^ 14 := hs
  simp only [this, if_false, pyAssert_true hs', Py.ok_bind]
  rw [raiseIf_false (by omega)]
  simp only [Py.ok_bind, Py.pure_eq]
  rfl

/-- Stacked rows: for every `x`, `A x + b = (1/√N) Σ_i (M_i x - d_i)/σ_i`. -/
theorem C23_stacked {N : ℕ} (hN : 1 < N) (M : Matrix (Fin N) (Fin p) ℝ) (d σ : Fin N → ℝ)
    (hσ : ∀ i, 5 / 10 ^ 15 < |σ i|) :
    ∃ A b, transformLinearMap ⟨N, p, M⟩ N d (.seq N σ) = .ok (A, b) ∧
      ∀ x, ∃ v, applyMap A x v ∧ v + b = 1 / Real.sqrt N * ∑ i, (M i ⬝ᵥ x - d i) / σ i := by
  refine ⟨_, _, transform_stacked hN M d σ hσ, fun x => ⟨_, ⟨_, Or.inl rfl, rfl⟩, ?_⟩⟩
  have hne : ∀ i, σ i ≠ 0 := fun i h0 => by
    have := hσ i; rw [h0, abs_zero] at this; norm_num at this
  have hq : Real.sqrt N ≠ 0 := (Real.sqrt_pos.2 (by exact_mod_cast (by omega : 0 < N))).ne'
  have e : (fun j => ∑ i, 1 / (σ i * Real.sqrt N) * M i j) ⬝ᵥ x
      = 1 / Real.sqrt N * ∑ i, (M i ⬝ᵥ x) / σ i := by
    simp only [dotProduct, Finset.sum_mul, Finset.mul_sum, Finset.sum_div]
    rw [Finset.sum_comm]
    refine Finset.sum_congr rfl fun i _ => Finset.sum_congr rfl fun j _ => ?_
    have := hne i
    field_simp
  rw [e]
  simp only [sub_div, Finset.sum_sub_distrib]
  ring

/-- A single number for `std` means that number for every row. -/
theorem C23_scalar_std {N : ℕ} (hN : 1 < N) (M : Matrix (Fin N) (Fin p) ℝ) (d : Fin N → ℝ) (s : ℝ) :
    transformLinearMap ⟨N, p, M⟩ N d (.num s) =
      transformLinearMap ⟨N, p, M⟩ N d (.seq N fun _ => s) := transform_stacked_num hN M d s

/-- Repeated observation of one row: the same with `M_i = a` for all `i`. -/
theorem C23_repeated {N : ℕ} (hN : 0 < N) (a : Fin p → ℝ) (d : Fin N → ℝ) (s : ℝ)
    (hs : 1 / 10 ^ 14 < s) :
    ∃ A b, transformLinearMap (Arr2.row a) N d (.num s) = .ok (A, b) ∧
      ∀ x, ∃ v, applyMap A x v ∧ v + b = 1 / Real.sqrt N * ∑ i, (a ⬝ᵥ x - d i) / s := by
  refine ⟨_, _, transform_repeated hN a d s hs, fun x => ⟨_, ⟨_, Or.inr rfl, rfl⟩, ?_⟩⟩
  have hne : s ≠ 0 := by rintro rfl; norm_num at hs
  have hN' : (0 : ℝ) < N := by exact_mod_cast hN
  have hq : Real.sqrt N ≠ 0 := (Real.sqrt_pos.2 hN').ne'
  have e : (fun j => Real.sqrt N / s * a j) ⬝ᵥ x = Real.sqrt N / s * (a ⬝ᵥ x) := by
    simp only [dotProduct, Finset.mul_sum]
    exact Finset.sum_congr rfl fun j _ => by ring
  rw [e]
  simp only [sub_div, Finset.sum_sub_distrib, Finset.sum_const, Finset.card_univ, Fintype.card_fin,
    nsmul_eq_mul]
  have hsq : Real.sqrt N * Real.sqrt N = N := Real.mul_self_sqrt hN'.le
  field_simp
  rw [pow_two, hsq]
  ring

/-- It vanishes at any `x` that reproduces the data (both cases). -/
theorem C23_zero {N : ℕ} (M : Matrix (Fin N) (Fin p) ℝ) (d σ : Fin N → ℝ) (x : Fin p → ℝ)
    (hx : M *ᵥ x = d) :
    (∀ (_ : 1 < N) (_ : ∀ i, 5 / 10 ^ 15 < |σ i|),
      ∃ A b v, transformLinearMap ⟨N, p, M⟩ N d (.seq N σ) = .ok (A, b) ∧ applyMap A x v ∧ v + b = 0) ∧
    (∀ (_ : 0 < N) (a : Fin p → ℝ) (s : ℝ) (_ : 1 / 10 ^ 14 < s) (_ : ∀ i, M i = a),
      ∃ A b v, transformLinearMap (Arr2.row a) N d (.num s) = .ok (A, b) ∧ applyMap A x v ∧
        v + b = 0) := by
  constructor
  · intro hN hσ
    obtain ⟨A, b, h1, h2⟩ := C23_stacked hN M d σ hσ
    obtain ⟨v, h3, h4⟩ := h2 x
    refine ⟨A, b, v, h1, h3, h4.trans ?_⟩
    have : ∀ i, M i ⬝ᵥ x = d i := fun i => by rw [← hx]; rfl
    simp [this]
  · intro hN a s hs hM
    obtain ⟨A, b, h1, h2⟩ := C23_repeated hN a d s hs
    obtain ⟨v, h3, h4⟩ := h2 x
    refine ⟨A, b, v, h1, h3, h4.trans ?_⟩
    have : ∀ i, a ⬝ᵥ x = d i := fun i => by rw [← hx, ← hM i]; rfl
    simp [← this]

/-! ## C24: repeated observations are the stacked problem -/

theorem C24_repeated_eq_stacked {N : ℕ} (hN : 1 < N) (a : Fin p → ℝ) (d : Fin N → ℝ) (s : ℝ)
    (hs : 1 / 10 ^ 14 < s) :
    ∃ (A : Fin p → ℝ) (b : ℝ),
      transformLinearMap (Arr2.row a) N d (.num s) = .ok (.mat (Arr2.row A), b) ∧
      transformLinearMap ⟨N, p, .of fun _ => a⟩ N d (.num s) = .ok (.vec p A, b) := by
  refine ⟨_, _, transform_repeated (by omega) a d s hs, ?_⟩
  have hs0 : 0 < s := lt_trans (by norm_num) hs
  have hσ : ∀ _ : Fin N, 5 / 10 ^ 15 < |s| := fun _ => by
    rw [abs_of_pos hs0]; refine lt_trans ?_ hs; norm_num
  rw [transform_stacked_num hN, transform_stacked hN _ d (fun _ => s) hσ]
  congr 3
  funext j
  have hN' : (0 : ℝ) < N := by exact_mod_cast (by omega : 0 < N)
  have hq : Real.sqrt N ≠ 0 := (Real.sqrt_pos.2 hN').ne'
  simp only [of_apply, Finset.sum_const, Finset.card_univ, Fintype.card_fin, nsmul_eq_mul]
  have hsq : Real.sqrt N * Real.sqrt N = N := Real.mul_self_sqrt hN'.le
  rw [← hsq]
  field_simp
  rw [Real.sqrt_sq (Real.sqrt_nonneg _)]

example : ∃ (N : ℕ) (M : Matrix (Fin N) (Fin 2) ℝ) (d σ : Fin N → ℝ) (x : Fin 2 → ℝ), 1 < N ∧
    (∀ i, 5 / 10 ^ 15 < |σ i|) ∧ M *ᵥ x = d ∧ M ≠ 0 := by
  refine ⟨2, !![1, 2; 3, 4], ![5, 11], ![1/10, 1/5], ![1, 2], by norm_num, fun i => ?_, ?_, ?_⟩
  · fin_cases i <;> norm_num [abs_of_pos]
  · ext i; fin_cases i <;> norm_num [mulVec, dotProduct, Fin.sum_univ_two]
  · intro h; have := congrFun (congrFun h 0) 0; simp at this

/-! ## C26: the MUD point of a linear WME problem -/

/-- One quantity of interest: `N` rows with one datum each, or one row observed `N` times. -/
inductive QoI (p : ℕ)
  | stacked (N : ℕ) (M : Matrix (Fin N) (Fin p) ℝ) (d σ : Fin N → ℝ)
  | repeated (N : ℕ) (a : Fin p → ℝ) (d : Fin N → ℝ) (s : ℝ)

namespace QoI

/-- Entry of the `operators` argument. -/
def op : QoI p → Arr2
  | stacked N M _ _ => ⟨N, p, M⟩
  | repeated _ a _ _ => Arr2.row a
/-- Entry of the `data` argument. -/
def data : QoI p → (N : ℕ) × (Fin N → ℝ)
  | stacked N _ d _ => ⟨N, d⟩
  | repeated N _ d _ => ⟨N, d⟩
/-- Entry of the `sigma` argument. -/
def std : QoI p → StdArg
  | stacked N _ _ σ => .seq N σ
  | repeated _ _ _ s => .num s
/-- Input that passes the assertions. -/
def Valid : QoI p → Prop
  | stacked N _ _ σ => 1 < N ∧ ∀ i, 5 / 10 ^ 15 < |σ i|
  | repeated N _ _ s => 0 < N ∧ 1 / 10 ^ 14 < s
/-- The weighted error of `x`, summed over the observations. -/
noncomputable def misfit (x : Fin p → ℝ) : QoI p → ℝ
  | stacked _ M d σ => ∑ i, (M i ⬝ᵥ x - d i) / σ i
  | repeated _ a d s => ∑ i, (a ⬝ᵥ x - d i) / s

/-- Number of data. -/
def size : QoI p → ℕ
  | stacked N _ _ _ => N
  | repeated N _ _ _ => N

/-- Row of the transformed map. -/
noncomputable def rowA : QoI p → Fin p → ℝ
  | stacked N M _ σ => fun j => ∑ i, 1 / (σ i * Real.sqrt N) * M i j
  | repeated N a _ s => fun j => Real.sqrt N / s * a j
/-- Offset of the transformed map. -/
noncomputable def offB : QoI p → ℝ
  | stacked N _ d σ => -1 / Real.sqrt N * ∑ i, d i / σ i
  | repeated N _ d s => -1 / Real.sqrt N * ∑ i, d i / s

theorem size_pos {q : QoI p} (h : q.Valid) : 0 < q.size := by
  cases q with
  | stacked N M d σ => exact lt_trans one_pos h.1
  | repeated N a d s => exact h.1

theorem transform {q : QoI p} (h : q.Valid) :
    ∃ A, transformLinearMap q.op q.data.1 q.data.2 q.std = .ok (A, q.offB) ∧
      A.bcast2 = Arr2.row q.rowA := by
  cases q with
  | stacked N M d σ => exact ⟨_, transform_stacked h.1 M d σ h.2, rfl⟩
  | repeated N a d s => exact ⟨_, transform_repeated h.1 a d s h.2, rfl⟩

theorem row_misfit {q : QoI p} (h : q.Valid) (x : Fin p → ℝ) :
    q.rowA ⬝ᵥ x + q.offB = 1 / Real.sqrt q.size * q.misfit x := by
  cases q with
  | stacked N M d σ =>
    obtain ⟨A, b, h1, h2⟩ := C23_stacked h.1 M d σ h.2
    rw [transform_stacked h.1 M d σ h.2] at h1
    obtain ⟨v, ⟨a, ha, hv⟩, h3⟩ := h2 x
    cases h1
    rcases ha with ha | ha
    · cases ha; rw [← hv] at h3; exact h3
    · cases ha
  | repeated N a d s =>
    obtain ⟨A, b, h1, h2⟩ := C23_repeated h.1 a d s h.2
    rw [transform_repeated h.1 a d s h.2] at h1
    obtain ⟨v, ⟨a', ha, hv⟩, h3⟩ := h2 x
    cases h1
    rcases ha with ha | ha
    · cases ha
    · have : a' = fun j => Real.sqrt N / s * a j := by
        injection ha with ha
        funext j
        exact (congrFun (congrFun (Arr2.mk_inj.1 ha) 0) j).symm
      rw [← hv, this] at h3; exact h3

end QoI

theorem transformAll_qois (qs : List (QoI p)) (h : ∀ q ∈ qs, q.Valid) :
    ∃ rs, transformAll ((qs.map QoI.op).zip ((qs.map QoI.data).zip (qs.map QoI.std))) = .ok rs ∧
      rs.map (fun r => r.1.bcast2) = qs.map (fun q => Arr2.row q.rowA) ∧
      rs.map (fun r => Arr2.col ![r.2]) = qs.map (fun q => Arr2.row ![q.offB]) := by
  induction qs with
  | nil => exact ⟨[], rfl, rfl, rfl⟩
  | cons q qs ih =>
    obtain ⟨rs, h1, h2, h3⟩ := ih fun q hq => h q (List.mem_cons_of_mem _ hq)
    obtain ⟨A, hA, hA'⟩ := QoI.transform (h q List.mem_cons_self)
    refine ⟨(A, q.offB) :: rs, ?_, ?_, ?_⟩
    · simp only [List.map_cons, List.zip_cons_cons, transformAll, hA, h1, Py.ok_bind, Py.pure_eq]
    · simp [h2, hA']
    · simp only [List.map_cons, h3, List.cons.injEq, and_true]
      refine Arr2.mk_inj.2 ?_
      ext i j; fin_cases i; fin_cases j; rfl

theorem vstackList_rows {c : ℕ} (l : List (Fin c → ℝ)) (h : l ≠ []) :
    vstackList (l.map Arr2.row) = .ok ⟨l.length, c, .of fun i => l[i]⟩ := by
  induction l with
  | nil => exact absurd rfl h
  | cons a l ih =>
    cases l with
    | nil =>
      simp only [List.map_cons, List.map_nil, vstackList]
      refine congrArg Except.ok (Arr2.mk_inj.2 ?_)
      ext i j; fin_cases i; rfl
    | cons b l =>
      simp only [List.map_cons, vstackList] at ih ⊢
      rw [ih (by simp)]
      simp only [Py.ok_bind, Arr2.row, Arr2.vstack_mk]
      refine congrArg Except.ok ?_
      refine Arr2.ext_get (by simp; omega) rfl fun i j hi hj => ?_
      have hi' : i < 1 + (l.length + 1) := hi
      have hj' : j < c := hj
      simp only [Arr2.get]
      rw [dif_pos ⟨hi', hj'⟩, dif_pos ⟨by simp; omega, hj'⟩]
      rcases i with _ | i
      · have : (⟨0, hi'⟩ : Fin (1 + (l.length + 1))) = Fin.castAdd (l.length + 1) (0 : Fin 1) := rfl
        simp only [of_apply, this]
        rfl
      · have : (⟨i + 1, hi'⟩ : Fin (1 + (l.length + 1)))
            = Fin.natAdd 1 (⟨i, by omega⟩ : Fin (l.length + 1)) := by
          ext; simp; omega
        simp only [of_apply, this, Fin.addCases_right]
        rfl

/-- `LinearWMEProblem(operators, data, sigma, mean_i=m, cov_i=S, cov_o=C, alpha=α)`. -/
noncomputable def Api.lwp (qs : List (QoI p)) (m : Fin p → ℝ) (S : Matrix (Fin p) (Fin p) ℝ)
    (cov_o : Option Arr2) (α : ℝ) : Py LGP :=
  LWP.new (qs.map QoI.op) (qs.map QoI.data) (.perQoi (qs.map QoI.std)) none (some (.vec p m))
    (some ⟨p, p, S⟩) cov_o (some α)

theorem lwp_typed (qs : List (QoI p)) (hne : qs ≠ []) (hv : ∀ q ∈ qs, q.Valid) (m : Fin p → ℝ)
    (S : Matrix (Fin p) (Fin p) ℝ) (C : Option (Matrix (Fin qs.length) (Fin qs.length) ℝ)) (α : ℝ) :
    Api.lwp qs m S (C.map fun C => ⟨qs.length, qs.length, C⟩) α
      = .ok (LGP.typed (.of fun i : Fin qs.length => qs[i].rowA) (fun i => qs[i].offB) 0 m S
        (C.getD 1) α) := by
  obtain ⟨rs, h1, h2, h3⟩ := transformAll_qois qs hv
  have e2 := vstackList_rows (qs.map QoI.rowA) (by simpa using hne)
  have e3 := vstackList_rows (qs.map fun q => ![q.offB]) (by simpa using hne)
  rw [List.map_map] at e2 e3
  have hA : (⟨(qs.map QoI.rowA).length, p, .of fun i => (qs.map QoI.rowA)[i]⟩ : Arr2)
      = ⟨qs.length, p, .of fun i => qs[i].rowA⟩ := by
    refine Arr2.ext_get (by simp) rfl fun i j hi hj => ?_
    have hi' : i < qs.length := by simpa using hi
    have hj' : j < p := hj
    simp [Arr2.get, hi', hj']
  have hB : (⟨(qs.map fun q => ![q.offB]).length, 1,
      .of fun i => (qs.map fun q => ![q.offB])[i]⟩ : Arr2) = Arr2.col fun i : Fin qs.length => qs[i].offB := by
    refine Arr2.ext_get (by simp [Arr2.col]) rfl fun i j hi hj => ?_
    have hi' : i < qs.length := by simpa using hi
    have hj' : j = 0 := by simpa using hj
    subst hj'
    simp [Arr2.get, Arr2.col, hi']
  unfold Api.lwp LWP.new transformLinearSetup
  simp only [SigmaArg.toList, h1, Py.ok_bind, h2, h3]
  erw [e2]
  simp only [Py.ok_bind]
  erw [e3]
  simp only [Py.ok_bind, Py.pure_eq]
  rw [hA, hB]
  cases C with
  | none =>
    simp only [LGP.new, LGP.typed, toRow2_mat, NArr.toCol, Arr2.ravelCol_col, Option.map_none,
      Option.getD_none, Arr2.zeros_col, Arr2.eye]
    simp
    rfl
  | some C =>
    simp only [LGP.new, LGP.typed, toRow2_mat, NArr.toCol, Arr2.ravelCol_col, Option.map_some,
      Option.getD_some, Arr2.zeros_col]
    simp

/-- If the weighted errors can vanish simultaneously, the MUD point makes all of them vanish,
and it is the point nearest to the initial mean among those. -/
theorem C26_mud_zeroes_misfits (qs : List (QoI p)) (hne : qs ≠ []) (hv : ∀ q ∈ qs, q.Valid)
    (m : Fin p → ℝ) (S : Matrix (Fin p) (Fin p) ℝ) (hS : S.PosDef)
    (C : Option (Matrix (Fin qs.length) (Fin qs.length) ℝ)) (α : ℝ) (hα : 0 < α)
    (h₀ : ∃ x₀, ∀ q ∈ qs, q.misfit x₀ = 0) :
    ∃ P x, Api.lwp qs m S (C.map fun C => ⟨qs.length, qs.length, C⟩) α = .ok P ∧
      Returns (LGP.solve "mud" none P).1 x ∧ (∀ q ∈ qs, q.misfit x = 0) ∧
      ∀ x', (∀ q ∈ qs, q.misfit x' = 0) → x' ≠ x → mahal S x m < mahal S x' m := by
  set A : Matrix (Fin qs.length) (Fin p) ℝ := .of fun i => qs[i].rowA
  set b : Fin qs.length → ℝ := fun i => qs[i].offB
  have key : ∀ x, (A *ᵥ x + b = 0) ↔ ∀ q ∈ qs, q.misfit x = 0 := by
    intro x
    constructor
    · intro h q hq
      obtain ⟨i, hi, rfl⟩ := List.getElem_of_mem hq
      have h1 : qs[i].rowA ⬝ᵥ x + qs[i].offB = 0 := congrFun h ⟨i, hi⟩
      rw [QoI.row_misfit (hv _ hq)] at h1
      have hs : Real.sqrt (qs[i].size : ℝ) ≠ 0 :=
        (Real.sqrt_pos.2 (by exact_mod_cast QoI.size_pos (hv _ hq))).ne'
      exact (mul_eq_zero.1 h1).resolve_left (one_div_ne_zero hs)
    · intro h
      funext i
      have hq : qs[i] ∈ qs := List.getElem_mem _
      have := QoI.row_misfit (hv _ hq) x
      rw [h _ hq, mul_zero] at this
      exact this
  obtain ⟨x₀, h₀⟩ := h₀
  obtain ⟨x, h1, h2, h3⟩ := C02_mud_minimises_distance A b 0 m S hS (C.getD 1) α hα
    ⟨x₀, (key x₀).2 h₀⟩
  refine ⟨_, x, lwp_typed qs hne hv m S C α, ?_, (key x).1 h2, fun x' hx' hn => h3 x' ((key x').2 hx') hn⟩
  unfold Api.solve at h1
  rw [new_typed] at h1
  exact h1

/-- The gradient of the weighted error. -/
noncomputable def QoI.grad : QoI p → Fin p → ℝ
  | stacked _ M _ σ => fun j => ∑ i, M i j / σ i
  | repeated N a _ s => fun j => N * a j / s

/-- The errors can vanish simultaneously whenever their gradients are linearly independent
(the stacked map has full row rank). -/
theorem C26_full_rank (qs : List (QoI p))
    (hi : LinearIndependent ℝ fun i : Fin qs.length => qs[i].grad) :
    ∃ x₀, ∀ q ∈ qs, q.misfit x₀ = 0 := by
  set G : Matrix (Fin qs.length) (Fin p) ℝ := .of fun i => qs[i].grad
  have hsurj : ∀ c : Fin qs.length → ℝ, ∃ x, G *ᵥ x = c := by
    have hr : G.rank = qs.length := by
      have := LinearIndependent.rank_matrix (M := G) hi
      simpa using this
    have htop : LinearMap.range G.mulVecLin = ⊤ := by
      apply Submodule.eq_top_of_finrank_eq
      rw [Module.finrank_fin_fun]
      exact hr
    intro c
    obtain ⟨x, hx⟩ := LinearMap.range_eq_top.1 htop c
    exact ⟨x, hx⟩
  obtain ⟨x, hx⟩ := hsurj fun i => - qs[i].misfit 0
  refine ⟨x, fun q hq => ?_⟩
  obtain ⟨i, hi, rfl⟩ := List.getElem_of_mem hq
  have h1 : qs[i].grad ⬝ᵥ x = - qs[i].misfit 0 := congrFun hx ⟨i, hi⟩
  have h2 : qs[i].misfit x = qs[i].grad ⬝ᵥ x + qs[i].misfit 0 := by
    cases qs[i] with
    | stacked N M d σ =>
      simp only [QoI.misfit, QoI.grad, dotProduct, Finset.sum_mul, Pi.zero_apply, mul_zero,
        Finset.sum_const_zero]
      rw [Finset.sum_comm, ← Finset.sum_add_distrib]
      refine Finset.sum_congr rfl fun k _ => ?_
      rw [sub_div, zero_sub, neg_div, ← sub_eq_add_neg, Finset.sum_div]
      congr 1
      exact Finset.sum_congr rfl fun j _ => by ring
    | repeated N a d s =>
      simp only [QoI.misfit, QoI.grad, dotProduct_zero, sub_div, Finset.sum_sub_distrib,
        Finset.sum_const, Finset.card_univ, Fintype.card_fin, nsmul_eq_mul, zero_div]
      have : (fun j => (N : ℝ) * a j / s) ⬝ᵥ x = N * ((a ⬝ᵥ x) / s) := by
        simp only [dotProduct, Finset.sum_div, Finset.mul_sum]
        exact Finset.sum_congr rfl fun j _ => by ring
      rw [this]; ring
  rw [h2, h1, neg_add_cancel]

/-- For repeated measurements a vanishing weighted error says: the prediction is the sample mean
of the data. -/
theorem C26_sample_mean {N : ℕ} (a : Fin p → ℝ) (d : Fin N → ℝ) (s : ℝ)
    (h : (QoI.repeated N a d s).Valid) (x : Fin p → ℝ) :
    (QoI.repeated N a d s).misfit x = 0 ↔ a ⬝ᵥ x = (∑ i, d i) / N := by
  have hN : (N : ℝ) ≠ 0 := by exact_mod_cast (h.1).ne'
  have hs : s ≠ 0 := (lt_trans (by norm_num) h.2).ne'
  simp only [QoI.misfit, ← Finset.sum_div, Finset.sum_sub_distrib, Finset.sum_const,
    Finset.card_univ, Fintype.card_fin, nsmul_eq_mul]
  rw [div_eq_zero_iff, or_iff_left hs, sub_eq_zero, eq_div_iff hN, mul_comm]

/-- A single `sigma` is used for every quantity of interest. -/
theorem C26_scalar_sigma (ops : List Arr2) (data : List ((N : ℕ) × (Fin N → ℝ))) (s : ℝ)
    (y m : Option NArr) (S C : Option Arr2) (α : Option ℝ) :
    LWP.new ops data (.num s) y m S C α
      = LWP.new ops data (.perQoi (List.replicate data.length (.num s))) y m S C α := rfl

/-- Two quantities of interest: two stacked rows and a repeated row. -/
example : let qs : List (QoI 2) := [.stacked 2 !![1, 2; 3, 4] ![1, 2] ![1/10, 1/5],
      .repeated 3 ![1, 1] ![1, 2, 3] (1/2)]
    (∀ q ∈ qs, q.Valid) ∧ LinearIndependent ℝ fun i : Fin qs.length => qs[i].grad := by
  intro qs
  constructor
  · intro q hq
    simp only [qs, List.mem_cons, List.not_mem_nil, or_false] at hq
    rcases hq with rfl | rfl
    · refine ⟨by norm_num, fun i => ?_⟩
      fin_cases i <;> norm_num [abs_of_pos]
    · exact ⟨by norm_num, by norm_num⟩
  · rw [Fintype.linearIndependent_iff]
    intro g hg
    change (∑ i : Fin 2, g i • qs[i].grad) = 0 at hg
    rw [Fin.sum_univ_two] at hg
    have e0 : qs[(0 : Fin 2)].grad = ![25, 40] := by
      funext j
      fin_cases j <;> simp [qs, QoI.grad, Fin.sum_univ_two] <;> norm_num
    have e1 : qs[(1 : Fin 2)].grad = ![6, 6] := by
      funext j
      fin_cases j <;> simp [qs, QoI.grad] <;> norm_num
    rw [e0, e1] at hg
    have h0 := congrFun hg 0
    have h1 := congrFun hg 1
    simp at h0 h1
    have g0 : g (0 : Fin 2) = 0 := by linarith
    have g1 : g (1 : Fin 2) = 0 := by linarith
    intro i
    change Fin 2 at i
    fin_cases i
    · exact g0
    · exact g1

/-! ## C27: variance of a repeatedly measured quantity -/

/-- For one row `a` observed `N` times with standard deviation `s`, the updated covariance
(defaults everywhere) has variance `s² / N` in the direction `a`. -/
theorem C27_variance {N : ℕ} (hN : 0 < N) (a : Fin p → ℝ) (d : Fin N → ℝ) (s : ℝ)
    (hs : 1 / 10 ^ 14 < s) (m : Fin p → ℝ) (S : Matrix (Fin p) (Fin p) ℝ)
    (hS : a ⬝ᵥ (S *ᵥ a) ≠ 0) (α : ℝ) :
    ∃ P U, Api.lwp [QoI.repeated N a d s] m S none α = .ok P ∧
      P.updated_cov = .ok ⟨p, p, U⟩ ∧ a ⬝ᵥ (U *ᵥ a) = s ^ 2 / N := by
  have hv : ∀ q ∈ [QoI.repeated N a d s], q.Valid := by
    intro q hq; rw [List.mem_singleton] at hq; subst hq; exact ⟨hN, hs⟩
  have hs0 : 0 < s := lt_trans (by norm_num) hs
  have hN' : (0 : ℝ) < N := by exact_mod_cast hN
  have hq : 0 < Real.sqrt N := Real.sqrt_pos.2 hN'
  have hP := lwp_typed [QoI.repeated N a d s] (by simp) hv m S none α
  set A : Matrix (Fin 1) (Fin p) ℝ := .of fun i => [QoI.repeated N a d s][i].rowA with hA
  have hrow : ∀ i j, A i j = Real.sqrt N / s * a j := by
    intro i j
    fin_cases i
    rfl
  have key : ∀ T : Matrix (Fin p) (Fin p) ℝ, (A * T * Aᵀ) 0 0
      = N / s ^ 2 * (a ⬝ᵥ (T *ᵥ a)) := by
    intro T
    have hsq : Real.sqrt N * Real.sqrt N = N := Real.mul_self_sqrt hN'.le
    have : (A * T * Aᵀ) 0 0 = (Real.sqrt N / s) * (Real.sqrt N / s) * (a ⬝ᵥ (T *ᵥ a)) := by
      rw [Matrix.mul_assoc, mul_apply]
      simp only [mul_apply, transpose_apply, hrow, dotProduct, mulVec, Finset.mul_sum]
      exact Finset.sum_congr rfl fun i _ => Finset.sum_congr rfl fun j _ => by ring
    rw [this]
    have : Real.sqrt N / s * (Real.sqrt N / s) = N / s ^ 2 := by
      rw [div_mul_div_comm, hsq, pow_two]
    rw [this]
  have hdet : (A * S * Aᵀ).det ≠ 0 := by
    rw [det_fin_one, key]
    exact mul_ne_zero (by positivity) hS
  obtain ⟨U, -, h2, h3⟩ := C05_pushforward A S 1 hdet
    (LGP.typed A (fun i => [QoI.repeated N a d s][i].offB) 0 m S 1 α)
  refine ⟨_, U, hP, ?_, ?_⟩
  · rw [← h2]
    simp [LGP.updated_cov, LGP.typed, hA]
  · have := key U
    rw [h3, one_apply_eq] at this
    field_simp at this ⊢
    linarith

/-- C27 for three observations of `x_0 + x_1` with deviation 1/2. -/
example : ∃ P U, Api.lwp [QoI.repeated 3 ![1, 1] ![1, 2, 3] (1/2)] ![0, 0] !![1, -1/4; -1/4, 1/2] none 1 = .ok P ∧
    P.updated_cov = .ok ⟨2, 2, U⟩ ∧ (![1, 1] : Fin 2 → ℝ) ⬝ᵥ (U *ᵥ ![1, 1]) = (1/2) ^ 2 / (3 : ℕ) :=
  C27_variance (by norm_num) ![1, 1] ![1, 2, 3] (1/2) (by norm_num) ![0, 0] !![1, -1/4; -1/4, 1/2]
    (by norm_num [mulVec, dotProduct, Fin.sum_univ_two]) 1

end Verif
