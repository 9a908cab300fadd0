import Verif.Props.DensityPerm

/-!
# `DensityProblem`: C32, C34, C35
-/

namespace Verif

variable {env : Env}

/-! ## C32: zero-weight samples are never selected -/

/-- **C32.** Finite densities and non-zero predicted densities: if some sample has positive updated
density, the returned sample `X[m]` has non-zero weight (and non-zero initial and observed
density). -/
theorem C32_zero_weight (Q : DP) (di do_ dp : Dist) {n : ℕ} (hX : Q.X.r = n)
    (a w b c : Fin n → ℝ) (hw : Q.weights = List.ofFn fun k => F.fin (w k))
    (ha : densAt di Q.X = .ok (List.ofFn fun k => F.fin (a k)))
    (hb : densAt do_ Q.y = .ok (List.ofFn fun k => F.fin (b k)))
    (hc : ∃ out, dp.pdf Q.y = .ok out ∧ out.ravel = List.ofFn fun k => F.fin (c k))
    (hc0 : ∀ k, c k ≠ 0) (hpos : ∃ k, 0 < a k * w k * (b k / c k)) :
    ∃ m : Fin n, w m ≠ 0 ∧ a m ≠ 0 ∧ b m ≠ 0 ∧
      (DP.mudPoint env (Q.after env [.setInitial (some di), .setObserved (some do_),
        .setPredicted (some dp) 0 none])).1 =
        .ok (List.ofFn fun j : Fin Q.X.c => Q.X.get m j) := by
  obtain ⟨k, hk⟩ := hpos
  obtain ⟨m, h1, -, h2⟩ := C28_mud_point_finite (env := env) Q di do_ dp (by have := k.2; omega) hX
    a w b c hw ha hb hc hc0
  have := lt_of_lt_of_le hk (h1 k)
  refine ⟨m, fun h => ?_, fun h => ?_, fun h => ?_, h2⟩ <;> simp [h] at this

/-- Where the predicted density vanishes C32 fails: `0 * inf` is `nan`, which `argmax` selects.
Samples 0 (weight 0, predicted density 0) and 1 (weight 1, predicted density 1): the estimate is
the sample 0. -/
theorem C32_needs_positive_predicted :
    (DP.mudPoint env (demoP.after env [.setWeights (some (.vec 2 ![0, 1])) false,
      .setInitial (some (distOf fun _ => 1)), .setObserved (some (distOf fun _ => 1)),
      .setPredicted (some (distOf fun x => x)) 0 none])).1 = .ok [0] := by
  have e : (demoP.after env [.setWeights (some (.vec 2 ![0, 1])) false]) =
      { demoP with weights := [.fin 0, .fin 1] } := by
    simp only [DP.after, List.foldl_cons, List.foldl_nil, DOp.run, DP.setWeights, PyM.get_bind_run,
      weightsOf_vec]
    simp [pyAssert, demoP, DP.n_samples]
  change (DP.mudPoint env ((demoP.after env [.setWeights (some (.vec 2 ![0, 1])) false]).after env
    [.setInitial (some (distOf fun _ => 1)), .setObserved (some (distOf fun _ => 1)),
      .setPredicted (some (distOf fun x => x)) 0 none])).1 = .ok [0]
  rw [e]
  obtain ⟨m, hm, h⟩ := C28_mud_point (env := env) { demoP with weights := [.fin 0, .fin 1] }
    (distOf fun _ => 1) (distOf fun _ => 1) (distOf fun x => x) (n := 2) (by norm_num) rfl
    ![.fin 1, .fin 1] ![.fin 0, .fin 1] ![.fin 1, .fin 1] ![.fin 0, .fin 1]
    (by simp) (demo_densAt _) (demo_densAt _) (demo_ravel _)
  rw [h]
  have : m = 0 := by
    by_contra hne
    have : m = 1 := by omega
    subst this
    obtain ⟨_, h1, _⟩ := hm
    have := (h1 0 (by simp)).1
    apply this
    simp [F.fin_div, F.infOf, F.mul_of_not, F.isFin, F.sgn]
  subst this
  simp [demoP, Arr2.get]

/-- The hypotheses of `C32_zero_weight` are met. -/
example := C32_zero_weight (env := env) { demoP with weights := [.fin 0, .fin 1] }
    (distOf fun _ => 1) (distOf fun x => 2 - x) (distOf fun x => 1 + x) (n := 2) rfl
    ![1, 1] ![0, 1] ![2 - 0, 2 - 1] ![1 + 0, 1 + 1]
    (by simp) ((demo_densAt _).trans (by simp)) ((demo_densAt _).trans (by simp))
    (by obtain ⟨o, h1, h2⟩ := demo_ravel (fun x => 1 + x); exact ⟨o, h1, h2.trans (by simp)⟩)
    (by intro k; fin_cases k <;> norm_num) ⟨1, by norm_num⟩

/-! ## C34: expected ratio -/

/-- The state after setting the three distributions. -/
theorem after_set (Q : DP) (di do_ dp : Dist) {a b c : List F}
    (ha : densAt di Q.X = .ok a) (hb : densAt do_ Q.y = .ok b)
    (hc : ∃ out, dp.pdf Q.y = .ok out ∧ out.ravel = c) :
    Q.after env [.setInitial (some di), .setObserved (some do_), .setPredicted (some dp) 0 none] =
      { Q with init := some a, ob := some b, pr := some c, up := none } := by
  obtain ⟨out, hout, hc⟩ := hc
  obtain ⟨o1, ho1, ho1'⟩ := Py.bind_eq_ok.1 ha
  obtain ⟨o2, ho2, ho2'⟩ := Py.bind_eq_ok.1 hb
  simp only [DP.after, List.foldl_cons, List.foldl_nil, DOp.run, DP.setInitial, DP.setObserved,
    DP.setPredicted, DP.setWeightsIf, DP.predVals, PyM.get_bind_run, Option.getD_some, ho1, ho2,
    hout, PyM.lift_ok_bind, ho1', ho2', PyM.modify_run, PyM.pure_bind', Py.ok_bind, Py.pure_eq,
    hc]

/-- **C34**: the expected ratio is the weighted mean of observed/predicted over the samples; it
fails with `ZeroDivisionError` iff the weights sum to 0. -/
theorem C34_weighted_mean (Q : DP) (di do_ dp : Dist) {n : ℕ}
    (a w b c : Fin n → ℝ) (hw : Q.weights = List.ofFn fun k => F.fin (w k))
    (ha : densAt di Q.X = .ok (List.ofFn fun k => F.fin (a k)))
    (hb : densAt do_ Q.y = .ok (List.ofFn fun k => F.fin (b k)))
    (hc : ∃ out, dp.pdf Q.y = .ok out ∧ out.ravel = List.ofFn fun k => F.fin (c k))
    (hc0 : ∀ k, c k ≠ 0) :
    (DP.expectedRatio env (Q.after env [.setInitial (some di), .setObserved (some do_),
        .setPredicted (some dp) 0 none])).1 =
      if ∑ k, w k = 0 then .error .zeroDivisionError
      else .ok (.fin ((∑ k, w k * (b k / c k)) / ∑ k, w k)) := by
  rw [after_set Q di do_ dp ha hb hc]
  have hfit := DP.fit_set (env := env) none 0 none
    { Q with
      init := some (List.ofFn fun k => F.fin (a k)), ob := some (List.ofFn fun k => F.fin (b k))
      pr := some (List.ofFn fun k => F.fin (c k)), up := none }
    _ _ _ _ hw rfl rfl rfl
  unfold DP.expectedRatio
  rw [PyM.get_bind_run, Option.isNone_none, PyM.when_true, PyM.bind_run, hfit]
  simp only [PyM.get_bind_run, DP.theAttr, PyM.lift_ok_bind, PyM.lift_run, hw]
  have z : List.zipWith (· * ·) (List.ofFn fun k => F.fin (b k) / F.fin (c k))
      (List.ofFn fun k => F.fin (w k)) = List.ofFn fun k => F.fin (w k * (b k / c k)) := by
    apply List.ext_getElem
    · simp
    · intro i h1 h2
      simp only [List.getElem_zipWith, List.getElem_ofFn]
      rw [F.fin_div_of_ne _ (hc0 _), F.fin_mul, mul_comm]
  unfold DP.npAverage
  rw [z, List.sum_ofFn, List.sum_ofFn, F.sum_fin, F.sum_fin]
  by_cases h0 : ∑ k, w k = 0
  · rw [if_pos h0]
    simp [raiseIf, h0]
  · rw [if_neg h0]
    have : ¬ (F.fin (∑ k, w k) = F.fin 0) := by simpa using h0
    simp [raiseIf, h0, F.fin_div_of_ne]

/-- **C34**: for non-negative weights the expected ratio lies between any lower and any upper bound
of the ratios; in particular it is 1 when observed and predicted densities coincide. -/
theorem C34_bounds (Q : DP) (di do_ dp : Dist) {n : ℕ}
    (a w b c : Fin n → ℝ) (hw : Q.weights = List.ofFn fun k => F.fin (w k))
    (ha : densAt di Q.X = .ok (List.ofFn fun k => F.fin (a k)))
    (hb : densAt do_ Q.y = .ok (List.ofFn fun k => F.fin (b k)))
    (hc : ∃ out, dp.pdf Q.y = .ok out ∧ out.ravel = List.ofFn fun k => F.fin (c k))
    (hc0 : ∀ k, c k ≠ 0) (hw0 : ∀ k, 0 ≤ w k) (hws : ∑ k, w k ≠ 0) :
    ∃ E : ℝ, (DP.expectedRatio env (Q.after env [.setInitial (some di), .setObserved (some do_),
        .setPredicted (some dp) 0 none])).1 = .ok (.fin E) ∧
      (∀ lo, (∀ k, lo ≤ b k / c k) → lo ≤ E) ∧ (∀ hi, (∀ k, b k / c k ≤ hi) → E ≤ hi) ∧
      ((∀ k, b k = c k) → E = 1) := by
  have hpos : 0 < ∑ k, w k := lt_of_le_of_ne (Finset.sum_nonneg fun k _ => hw0 k) (Ne.symm hws)
  refine ⟨_, by rw [C34_weighted_mean (env := env) Q di do_ dp a w b c hw ha hb hc hc0, if_neg hws],
    fun lo h => ?_, fun hi h => ?_, fun h => ?_⟩
  · rw [le_div_iff₀ hpos, Finset.mul_sum]
    refine Finset.sum_le_sum fun k _ => ?_
    rw [mul_comm]
    exact mul_le_mul_of_nonneg_left (h k) (hw0 k)
  · rw [div_le_iff₀ hpos, Finset.mul_sum]
    refine Finset.sum_le_sum fun k _ => ?_
    rw [mul_comm hi]
    exact mul_le_mul_of_nonneg_left (h k) (hw0 k)
  · have : ∀ k, w k * (b k / c k) = w k := fun k => by rw [h k, div_self (hc0 k), mul_one]
    simp only [this]
    exact div_self hws

/-- The hypotheses of `C34_bounds` are met. -/
example := C34_bounds (env := env) demoP
    (distOf fun _ => 1) (distOf fun x => 2 - x) (distOf fun x => 1 + x) (n := 2)
    ![1, 1] ![1, 1] ![2 - 0, 2 - 1] ![1 + 0, 1 + 1]
    (by simp [demoP]) ((demo_densAt _).trans (by simp)) ((demo_densAt _).trans (by simp))
    (by obtain ⟨o, h1, h2⟩ := demo_ravel (fun x => 1 + x); exact ⟨o, h1, h2.trans (by simp)⟩)
    (by intro k; fin_cases k <;> norm_num) (by intro k; fin_cases k <;> norm_num) (by norm_num)

/-! ## C35: default initial distribution -/

theorem iInf_two (f : Fin 2 → ℝ) (h : f 0 ≤ f 1) : ⨅ k, f k = f 0 :=
  le_antisymm (ciInf_le (Set.finite_range f).bddBelow 0)
    (le_ciInf fun k => by fin_cases k; exacts [le_rfl, h])

theorem iSup_two (f : Fin 2 → ℝ) (h : f 0 ≤ f 1) : ⨆ k, f k = f 1 :=
  le_antisymm (ciSup_le fun k => by fin_cases k; exacts [h, le_rfl])
    (le_ciSup (Set.finite_range f).bddAbove 1)

/-- Density of sample `k` under the default initial distribution. -/
theorem densAt_uniformOn {n p : ℕ} (X : Matrix (Fin n) (Fin p) ℝ) (Dm : Matrix (Fin p) (Fin 2) ℝ)
    (h : ∀ j, Dm j 0 ≤ Dm j 1) :
    densAt (uniformOn ⟨p, 2, Dm⟩) ⟨n, p, X⟩ =
      .ok (List.ofFn fun k => ∏ j, uniformPdf (Dm j 0) (Dm j 1) (X k j)) := by
  unfold densAt uniformOn
  simp only [OfNat.ofNat_ne_zero, false_and, if_false, Py.ok_bind, FOut.prodRows, rowsOf,
    List.map_ofFn]
  congr 2
  funext k
  simp only [Function.comp, List.prod_ofFn]
  refine Finset.prod_congr rfl fun j _ => ?_
  have e0 : ∀ l : Fin 2, (⟨p, 2, Dm⟩ : Arr2).get j l = Dm j l := fun l => Arr2.get_mk Dm j l
  simp only [e0]
  rw [iInf_two _ (h j), iSup_two _ (h j)]

theorem prod_nan {ι : Type*} [Fintype ι] [DecidableEq ι] (f : ι → F) (i : ι) (h : f i = .nan) :
    ∏ j, f j = .nan := by
  rw [← Finset.mul_prod_erase _ _ (Finset.mem_univ i), h, F.nan_mul]

/-- **C35.** With the default initial distribution and a domain given by lower and upper bounds:
if some sample has a positive updated density, the MUD point lies in the domain. -/
theorem C35_in_domain (Q : DP) (do_ dp : Dist) {n p : ℕ} (X : Matrix (Fin n) (Fin p) ℝ)
    (Dm : Matrix (Fin p) (Fin 2) ℝ) (hX : Q.X = ⟨n, p, X⟩) (hD : Q.domain = ⟨p, 2, Dm⟩)
    (hlo : ∀ j, Dm j 0 ≤ Dm j 1) (a : Fin n → F) (w b c : Fin n → ℝ)
    (hw : Q.weights = List.ofFn fun k => F.fin (w k))
    (ha : densAt (uniformOn Q.domain) Q.X = .ok (List.ofFn a))
    (hb : densAt do_ Q.y = .ok (List.ofFn fun k => F.fin (b k)))
    (hc : ∃ out, dp.pdf Q.y = .ok out ∧ out.ravel = List.ofFn fun k => F.fin (c k))
    (hc0 : ∀ k, c k ≠ 0)
    (hpos : ∃ k, (F.fin 0).lt (a k * F.fin (w k) * (F.fin (b k) / F.fin (c k)))) :
    ∃ m : Fin n, (∀ j, Dm j 0 ≤ X m j ∧ X m j ≤ Dm j 1) ∧
      (DP.mudPoint env (Q.after env [.setInitial none, .setObserved (some do_),
        .setPredicted (some dp) 0 none])).1 = .ok (List.ofFn fun j => X m j) := by
  classical
  obtain ⟨k0, hk0⟩ := hpos
  -- the initial densities
  have hav : a = fun k => ∏ j, uniformPdf (Dm j 0) (Dm j 1) (X k j) := by
    rw [hX, hD, densAt_uniformOn X Dm hlo] at ha
    injection ha with ha
    exact (List.ofFn_injective ha).symm
  -- the domain is not degenerate
  have hlt : ∀ j, Dm j 0 < Dm j 1 := by
    intro j
    by_contra hj
    have : a k0 = .nan := by
      rw [hav]
      exact prod_nan _ j (by unfold uniformPdf; rw [if_neg (by linarith)])
    rw [this, F.nan_mul, F.nan_mul] at hk0
    exact hk0
  let A : Fin n → ℝ := fun k => ∏ j,
    if Dm j 0 ≤ X k j ∧ X k j ≤ Dm j 1 then 1 / (Dm j 1 - Dm j 0) else 0
  have haA : ∀ k, a k = .fin (A k) := by
    intro k
    rw [hav]
    simp only [A]
    rw [← F.prod_fin]
    refine Finset.prod_congr rfl fun j _ => ?_
    unfold uniformPdf
    rw [if_pos (by linarith [hlt j])]
    split_ifs <;> rfl
  have ha' : densAt (uniformOn Q.domain) Q.X = .ok (List.ofFn fun k => F.fin (A k)) := by
    rw [ha]; congr 2; funext k; exact haA k
  have hset : Q.after env [.setInitial none, .setObserved (some do_), .setPredicted (some dp) 0 none] =
      Q.after env [.setInitial (some (uniformOn Q.domain)), .setObserved (some do_),
        .setPredicted (some dp) 0 none] := rfl
  obtain ⟨m, h1, -, h2⟩ := C28_mud_point_finite (env := env) Q (uniformOn Q.domain) do_ dp
    (by have := k0.2; omega) (by rw [hX]) A w b c hw ha' hb hc hc0
  rw [hset, h2]
  rw [haA, F.fin_div_of_ne _ (hc0 _)] at hk0
  have hk0 : 0 < A k0 * w k0 * (b k0 / c k0) := hk0
  have hm := lt_of_lt_of_le hk0 (h1 k0)
  refine ⟨m, fun j => ?_, ?_⟩
  · by_contra hj
    have : A m = 0 := Finset.prod_eq_zero (Finset.mem_univ j) (if_neg hj)
    rw [this] at hm
    simp at hm
  · rw [hX]
    congr 2
    funext j
    exact Arr2.get_mk X m j

/-- The hypotheses of `C35_in_domain` are met; sample 1 is in the domain. -/
example := C35_in_domain (env := env) demoP (distOf fun x => 1 + x) (distOf fun x => 2 - x)
    (n := 2) (p := 1) !![(0 : ℝ); 1] !![(0 : ℝ), 1] rfl rfl (by intro j; fin_cases j; simp)
    ![.fin 1, .fin 1] ![1, 1] ![1 + 0, 1 + 1] ![2 - 0, 2 - 1] (by simp [demoP])
    (by
      refine (densAt_uniformOn _ _ (by intro j; fin_cases j; simp)).trans ?_
      simp [uniformPdf])
    ((demo_densAt _).trans (by simp))
    (by obtain ⟨o, h1, h2⟩ := demo_ravel (fun x => 2 - x); exact ⟨o, h1, h2.trans (by simp)⟩)
    (by intro k; fin_cases k <;> norm_num) ⟨0, by simp [F.fin_div, F.lt]⟩

/-- C34 with weights `1, 3`: the expected ratio is `(1 · 2 + 3 · 1/2) / 4`. -/
example {env : Env} : (DP.expectedRatio env (({ demoP with weights := [.fin 1, .fin 3] } : DP).after env
    [.setInitial (some (distOf fun _ => 1)), .setObserved (some (distOf fun x => 2 - x)),
     .setPredicted (some (distOf fun x => 1 + x)) 0 none])).1 = .ok (.fin (7 / 8)) := by
  rw [C34_weighted_mean (env := env) { demoP with weights := [.fin 1, .fin 3] }
    (distOf fun _ => 1) (distOf fun x => 2 - x) (distOf fun x => 1 + x) (n := 2)
    ![1, 1] ![1, 3] ![2 - 0, 2 - 1] ![1 + 0, 1 + 1]
    (by simp) ((demo_densAt _).trans (by simp)) ((demo_densAt _).trans (by simp))
    (by obtain ⟨o, h1, h2⟩ := demo_ravel (fun x => 1 + x); exact ⟨o, h1, h2.trans (by simp)⟩)
    (by intro k; fin_cases k <;> norm_num)]
  simp only [Fin.sum_univ_two]
  norm_num

end Verif
