import Verif.Props.Pooling

/-!
# C177: the units of the observations in weighted mean errors and linear WME problems

`/repo/src/mud/funs.py:23-47`, `/repo/src/mud/util.py:19-85`, `/repo/src/mud/base.py:1316-1360`.
-/

open Matrix

namespace Verif

variable {p S n : ℕ}

/-! ### The weighted mean error -/

/-- **C177, wme.** Predictions, data and standard deviation in another unit (a non-zero factor, and an offset for each
observation): the same weighted mean errors. -/
theorem C177_wme (P P' : Matrix (Fin S) (Fin n) ℝ) (d d' : Fin n → ℝ) (s : ℝ) (hs : s ≠ 0) (hn : 0 < n) {u : ℝ}
    (hu : u ≠ 0) (o : Fin n → ℝ) (hP : ∀ i j, P' i j = u * P i j + o j) (hd : ∀ j, d' j = u * d j + o j) :
    wme (.mat ⟨S, n, P'⟩) (.vec n d') (some (u * s)) = wme (.mat ⟨S, n, P⟩) (.vec n d) (some s) := by
  rw [C21_formula _ _ _ (mul_ne_zero hu hs) hn, C21_formula _ _ _ hs hn]
  congr 2
  funext i
  have : ∑ j, (P' i j - d' j) = u * ∑ j, (P i j - d j) := by
    rw [Finset.mul_sum]
    exact Finset.sum_congr rfl fun j _ => by rw [hP, hd]; ring
  rw [this]
  have hq : Real.sqrt n ≠ 0 := (Real.sqrt_pos.2 (by exact_mod_cast hn)).ne'
  congr 1
  field_simp

theorem popVar_units (d : Fin n → ℝ) (hn : 0 < n) (u o : ℝ) :
    popVar (fun j => u * d j + o) = u ^ 2 * popVar d := by
  have h : (n : ℝ) ≠ 0 := by exact_mod_cast hn.ne'
  have hm : (∑ j, (u * d j + o)) / (n : ℝ) = u * ((∑ j, d j) / n) + o := by
    rw [Finset.sum_add_distrib, ← Finset.mul_sum]
    simp only [Finset.sum_const, Finset.card_univ, Fintype.card_fin, nsmul_eq_mul]
    field_simp
  simp only [popVar]
  rw [hm]
  generalize (∑ j, d j) / (n : ℝ) = c
  rw [← mul_div_assoc, Finset.mul_sum]
  congr 1
  exact Finset.sum_congr rfl fun j _ => by ring

/-- The same without a standard deviation, for one positive factor and one offset; the data are not all equal. -/
theorem C177_wme_default (P : Matrix (Fin S) (Fin n) ℝ) (d : Fin n → ℝ) (hd : ∃ i j, d i ≠ d j) {u : ℝ} (hu : 0 < u)
    (o : ℝ) :
    wme (.mat ⟨S, n, .of fun i j => u * P i j + o⟩) (.vec n fun j => u * d j + o) none =
      wme (.mat ⟨S, n, P⟩) (.vec n d) none := by
  obtain ⟨i, j, hij⟩ := hd
  have hn : 0 < n := i.pos
  obtain ⟨hp, e⟩ := C21_default_sd P d ⟨i, j, hij⟩
  obtain ⟨-, e'⟩ := C21_default_sd (.of fun i j => u * P i j + o) (fun j => u * d j + o)
    ⟨i, j, fun h => hij (by simpa [hu.ne'] using h)⟩
  rw [e, e', popVar_units d hn, Real.sqrt_mul (sq_nonneg u), Real.sqrt_sq hu.le]
  exact C177_wme P _ d _ _ (Real.sqrt_pos.2 hp).ne' hn hu.ne' (fun _ => o) (fun _ _ => rfl) fun _ => rfl

/-! ### Linear problems -/

/-- `q'` is the quantity of interest `q` in other units: for stacked rows a factor for each observation. -/
inductive QoI.InUnits : QoI p → QoI p → Prop
  | stacked (N : ℕ) (M : Matrix (Fin N) (Fin p) ℝ) (d s : Fin N → ℝ) (u : Fin N → ℝ) (hu : ∀ i, 0 < u i) :
    InUnits (.stacked N M d s) (.stacked N (.of fun i => u i • M i) (fun i => u i * d i) fun i => u i * s i)
  | repeated (N : ℕ) (a : Fin p → ℝ) (d : Fin N → ℝ) (s u : ℝ) (hu : 0 < u) :
    InUnits (.repeated N a d s) (.repeated N (u • a) (fun i => u * d i) (u * s))

theorem QoI.InUnits.rowA {q q' : QoI p} (h : q.InUnits q') : q'.rowA = q.rowA := by
  cases h with
  | stacked N M d s u hu =>
    funext j
    refine Finset.sum_congr rfl fun i _ => ?_
    have := (hu i).ne'
    simp only [of_apply, Pi.smul_apply, smul_eq_mul]
    rcases eq_or_ne (s i) 0 with h0 | h0
    · simp [h0]
    · have hq : Real.sqrt N ≠ 0 := (Real.sqrt_pos.2 (by exact_mod_cast i.pos)).ne'
      field_simp
  | repeated N a d s u hu =>
    funext j
    have := hu.ne'
    simp only [QoI.rowA, Pi.smul_apply, smul_eq_mul]
    rcases eq_or_ne s 0 with h0 | h0
    · simp [h0]
    · field_simp

theorem QoI.InUnits.offB {q q' : QoI p} (h : q.InUnits q') : q'.offB = q.offB := by
  cases h with
  | stacked N M d s u hu =>
    simp only [QoI.offB]
    congr 1
    exact Finset.sum_congr rfl fun i _ => mul_div_mul_left _ _ (hu i).ne'
  | repeated N a d s u hu =>
    simp only [QoI.offB]
    congr 1
    exact Finset.sum_congr rfl fun i _ => mul_div_mul_left _ _ hu.ne'

theorem QoI.InUnits.transform {q q' : QoI p} (h : q.InUnits q') (hv : q.Valid) (hv' : q'.Valid) :
    transformLinearMap q'.op q'.data.1 q'.data.2 q'.std = transformLinearMap q.op q.data.1 q.data.2 q.std := by
  have hA := h.rowA
  have hB := h.offB
  cases h with
  | stacked N M d s u hu =>
    exact (transform_stacked hv'.1 _ _ _ hv'.2).trans (Eq.trans (by
      exact congrArg₂ (fun A b => (.ok (.vec p A, b) : Py (NArr × ℝ))) hA hB) (transform_stacked hv.1 M d s hv.2).symm)
  | repeated N a d s u hu =>
    exact (transform_repeated hv'.1 _ _ _ hv'.2).trans (Eq.trans (by
      exact congrArg₂ (fun A b => (.ok (.mat (Arr2.row A), b) : Py (NArr × ℝ))) hA hB)
      (transform_repeated hv.1 a d s hv.2).symm)

/-- **C177, what holds.** The quantities of interest in any other units give the same problem, so long as all standard
deviations are above the absolute bound of `transform_linear_map`, `1e-14` (`5e-15` for stacked rows). -/
theorem C177_partial {qs qs' : List (QoI p)} (h : List.Forall₂ QoI.InUnits qs qs')
    (hv : ∀ q ∈ qs, q.Valid) (hv' : ∀ q ∈ qs', q.Valid) (m : Fin p → ℝ) (S : Matrix (Fin p) (Fin p) ℝ)
    (C : Option Arr2) (α : ℝ) : Api.lwp qs' m S C α = Api.lwp qs m S C α := by
  have e : transformAll ((qs'.map QoI.op).zip ((qs'.map QoI.data).zip (qs'.map QoI.std))) =
      transformAll ((qs.map QoI.op).zip ((qs.map QoI.data).zip (qs.map QoI.std))) := by
    induction h with
    | nil => rfl
    | cons h _ ih =>
      rw [List.forall_mem_cons] at hv hv'
      simp only [List.map_cons, List.zip_cons_cons, transformAll, h.transform hv.1 hv'.1, ih hv.2 hv'.2]
  simp only [Api.lwp, LWP.new, transformLinearSetup, SigmaArg.toList, e]

/-- C177 as stated for linear problems: for every choice of the units. -/
def C177_claim : Prop :=
  ∀ (p : ℕ) (qs qs' : List (QoI p)) (m : Fin p → ℝ) (S : Matrix (Fin p) (Fin p) ℝ) (C : Option Arr2) (α : ℝ),
    List.Forall₂ QoI.InUnits qs qs' → qs ≠ [] → (∀ q ∈ qs, q.Valid) → Api.lwp qs' m S C α = Api.lwp qs m S C α

/-- One measurement with standard deviation `1`; in a unit `1e14` times larger it is rejected. -/
theorem C177_claim_refuted : ¬ C177_claim := by
  intro h
  set u : ℝ := 1 / 10 ^ 14 with hu
  have h0 : 0 < u := by positivity
  have hv : ∀ q ∈ [QoI.repeated 1 (![1] : Fin 1 → ℝ) ![1] 1], q.Valid := by
    intro q hq
    obtain rfl := List.mem_singleton.1 hq
    exact ⟨one_pos, by norm_num⟩
  have key := h 1 [.repeated 1 ![1] ![1] 1] [.repeated 1 (u • ![1]) (fun i => u * (![1] : Fin 1 → ℝ) i) (u * 1)]
    ![0] 1 none 1 (.cons (.repeated 1 ![1] ![1] 1 u h0) .nil) (by simp) hv
  have h1 := lwp_typed _ (by simp) hv ![0] 1 none 1
  rw [Option.map_none] at h1
  rw [h1] at key
  have e : transformLinearMap (Arr2.row (u • ![1] : Fin 1 → ℝ)) 1 (fun i => u * (![1] : Fin 1 → ℝ) i) (.num (u * 1)) =
      .error .assertionError := by
    unfold transformLinearMap
    have h2 : ¬ (Arr2.row (u • ![1] : Fin 1 → ℝ)).r > 1 := by simp [Arr2.row]
    have h3 : ¬ (u * 1 > 1 / 10 ^ 14) := by rw [hu]; norm_num
    simp only [h2, if_false]
    rw [pyAssert_false h3]
    rfl
  have e2 : Api.lwp [.repeated 1 (u • ![1]) (fun i => u * (![1] : Fin 1 → ℝ) i) (u * 1)] ![0] 1 none 1 =
      .error .assertionError := by
    simp only [Api.lwp, LWP.new, transformLinearSetup, SigmaArg.toList, List.map_cons, List.map_nil,
      List.zip_cons_cons, List.zip_nil_left, transformAll, QoI.op, QoI.data, QoI.std, e]
    rfl
  rw [e2] at key
  cases key

/-! ### Concrete cases -/

example : wme (.mat ⟨1, 2, !![7, 9]⟩) (.vec 2 ![3, 5]) (some (2 * 1)) =
    wme (.mat ⟨1, 2, !![3, 4]⟩) (.vec 2 ![1, 2]) (some 1) :=
  C177_wme !![3, 4] !![7, 9] ![1, 2] ![3, 5] 1 one_ne_zero two_pos two_ne_zero ![1, 1]
    (fun i j => by fin_cases i; fin_cases j <;> norm_num) fun j => by fin_cases j <;> norm_num

/-- A stacked quantity, its second observation in another unit, and a repeated one. -/
example (m : Fin 1 → ℝ) (S : Matrix (Fin 1) (Fin 1) ℝ) :
    Api.lwp [.stacked 2 (.of fun i => (![1, 1000] : Fin 2 → ℝ) i • !![1; 2] i)
        (fun i => (![1, 1000] : Fin 2 → ℝ) i * ![3, 4] i) (fun i => (![1, 1000] : Fin 2 → ℝ) i * ![1, 1] i),
      .repeated 2 ((5 : ℝ) • ![1]) (fun i => 5 * (![6, 7] : Fin 2 → ℝ) i) (5 * 1)] m S none 1 =
    Api.lwp [.stacked 2 !![1; 2] ![3, 4] ![1, 1], .repeated 2 ![1] ![6, 7] 1] m S none 1 := by
  refine C177_partial (.cons (.stacked 2 !![1; 2] ![3, 4] ![1, 1] ![1, 1000] fun i => ?_)
    (.cons (.repeated 2 ![1] ![6, 7] 1 5 (by norm_num)) .nil)) ?_ ?_ m S none 1
  · fin_cases i <;> norm_num
  · intro q hq
    rcases List.mem_pair.1 hq with rfl | rfl
    · exact ⟨by norm_num, fun i => by fin_cases i <;> norm_num⟩
    · exact ⟨by norm_num, by norm_num⟩
  · intro q hq
    rcases List.mem_pair.1 hq with rfl | rfl
    · exact ⟨by norm_num, fun i => by fin_cases i <;> norm_num⟩
    · exact ⟨by norm_num, by norm_num⟩

end Verif
