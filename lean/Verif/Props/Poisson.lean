import Verif.Model.Poisson
import Verif.Props.Util
import Mathlib.Analysis.Convex.Function
import Mathlib.Analysis.Convex.Extrema
import Mathlib.Analysis.InnerProductSpace.PiL2

/-!
# C109: the boundary spline of the Poisson example
-/

namespace Verif

open Poisson

/-- `S` is the piecewise linear function on [0, 1] with breaks at 1/3 and 2/3 that vanishes at 0 and 1
and has the values `l0`, `l1` at the breaks. -/
structure IsSpline (l0 l1 : ℝ) (S : ℝ → ℝ) : Prop where
  at0 : S 0 = 0
  at1 : S (1 / 3) = l0
  at2 : S (2 / 3) = l1
  at3 : S 1 = 0
  affine : ∀ k : ℕ, k < 3 → ∀ t : ℝ, 0 ≤ t → t ≤ 1 →
    S ((k + t) / 3) = (1 - t) * S (k / 3) + t * S ((k + 1) / 3)

/-- The tent over `c`. -/
noncomputable def tent (c x : ℝ) : ℝ := max 0 (1 - 3 * |x - c|)

theorem tent_thirds (x : ℝ) :
    (0 ≤ x → x ≤ 1 / 3 → tent (1 / 3) x = 3 * x ∧ tent (2 / 3) x = 0) ∧
    (1 / 3 ≤ x → x ≤ 2 / 3 → tent (1 / 3) x = 2 - 3 * x ∧ tent (2 / 3) x = 3 * x - 1) ∧
    (2 / 3 ≤ x → x ≤ 1 → tent (1 / 3) x = 0 ∧ tent (2 / 3) x = 3 - 3 * x) := by
  unfold tent
  refine ⟨fun h1 h2 => ⟨?_, ?_⟩, fun h1 h2 => ⟨?_, ?_⟩, fun h1 h2 => ⟨?_, ?_⟩⟩
  · rw [abs_of_nonpos (by linarith), max_eq_right (by linarith)]; ring
  · rw [abs_of_nonpos (by linarith), max_eq_left (by linarith)]
  · rw [abs_of_nonneg (by linarith), max_eq_right (by linarith)]; ring
  · rw [abs_of_nonpos (by linarith), max_eq_right (by linarith)]; ring
  · rw [abs_of_nonneg (by linarith), max_eq_left (by linarith)]
  · rw [abs_of_nonneg (by linarith), max_eq_right (by linarith)]; ring

theorem interp_eq (l0 l1 : ℝ) {x : ℝ} (h0 : 0 ≤ x) (h1 : x ≤ 1) :
    interp1d [0, 1 / 3, 2 / 3, 1] [0, l0, l1, 0] x = .ok (l0 * tent (1 / 3) x + l1 * tent (2 / 3) x) := by
  classical
  unfold interp1d
  rw [raiseIf_false (by
    rintro (h | h)
    · simp at h; linarith
    · simp at h; linarith), Py.ok_bind]
  obtain ⟨t1, t2, t3⟩ := tent_thirds x
  by_cases hx0 : x = 0
  · subst hx0
    obtain ⟨e1, e2⟩ := t1 le_rfl (by norm_num)
    rw [e1, e2, show searchSorted [0, 1 / 3, 2 / 3, 1] 0 = 0 from by
      simp [searchSorted]; norm_num]
    simp
  · have hx : 0 < x := lt_of_le_of_ne h0 (Ne.symm hx0)
    by_cases hx1 : x ≤ 1 / 3
    · obtain ⟨e1, e2⟩ := t1 h0 hx1
      rw [e1, e2, show searchSorted [0, 1 / 3, 2 / 3, 1] x = 1 from by
        simp only [searchSorted, List.countP_cons, List.countP_nil, hx, decide_true, if_true,
          decide_eq_true_eq, if_neg (not_lt.2 hx1), if_neg (not_lt.2 (hx1.trans (by norm_num : (1 / 3 : ℝ) ≤ 2 / 3))),
          if_neg (not_lt.2 h1)]]
      show Except.ok _ = _
      congr 1
      simp
      ring
    · rw [not_le] at hx1
      by_cases hx2 : x ≤ 2 / 3
      · obtain ⟨e1, e2⟩ := t2 hx1.le hx2
        rw [e1, e2, show searchSorted [0, 1 / 3, 2 / 3, 1] x = 2 from by
          simp only [searchSorted, List.countP_cons, List.countP_nil, hx, hx1, decide_true, if_true,
            decide_eq_true_eq, if_neg (not_lt.2 hx2), if_neg (not_lt.2 h1)]]
        show Except.ok _ = _
        congr 1
        simp
        ring
      · rw [not_le] at hx2
        obtain ⟨e1, e2⟩ := t3 hx2.le h1
        rw [e1, e2, show searchSorted [0, 1 / 3, 2 / 3, 1] x = 3 from by
          simp only [searchSorted, List.countP_cons, List.countP_nil, hx, hx1, hx2, decide_true, if_true,
            decide_eq_true_eq, if_neg (not_lt.2 h1)]]
        show Except.ok _ = _
        congr 1
        simp
        ring

/-- The spline is the combination of the tents. -/
theorem spline_tents {l0 l1 : ℝ} {S : ℝ → ℝ} (h : IsSpline l0 l1 S) {x : ℝ} (h0 : 0 ≤ x) (h1 : x ≤ 1) :
    S x = l0 * tent (1 / 3) x + l1 * tent (2 / 3) x := by
  obtain ⟨t1, t2, t3⟩ := tent_thirds x
  by_cases hx1 : x ≤ 1 / 3
  · obtain ⟨e1, e2⟩ := t1 h0 hx1
    have := h.affine 0 (by norm_num) (3 * x) (by linarith) (by linarith)
    rw [show (((0 : ℕ) : ℝ) + 3 * x) / 3 = x from by push_cast; ring,
      show ((0 : ℕ) : ℝ) / 3 = 0 from by simp, show (((0 : ℕ) : ℝ) + 1) / 3 = 1 / 3 from by simp, h.at0, h.at1] at this
    rw [this, e1, e2]; ring
  · rw [not_le] at hx1
    by_cases hx2 : x ≤ 2 / 3
    · obtain ⟨e1, e2⟩ := t2 hx1.le hx2
      have := h.affine 1 (by norm_num) (3 * x - 1) (by linarith) (by linarith)
      rw [show (((1 : ℕ) : ℝ) + (3 * x - 1)) / 3 = x from by push_cast; ring,
        show ((1 : ℕ) : ℝ) / 3 = 1 / 3 from by simp, show (((1 : ℕ) : ℝ) + 1) / 3 = 2 / 3 from by norm_num, h.at1, h.at2] at this
      rw [this, e1, e2]; ring
    · rw [not_le] at hx2
      obtain ⟨e1, e2⟩ := t3 hx2.le h1
      have := h.affine 2 (by norm_num) (3 * x - 2) (by linarith) (by linarith)
      rw [show (((2 : ℕ) : ℝ) + (3 * x - 2)) / 3 = x from by push_cast; ring,
        show ((2 : ℕ) : ℝ) / 3 = 2 / 3 from by simp, show (((2 : ℕ) : ℝ) + 1) / 3 = 1 from by norm_num, h.at2, h.at3] at this
      rw [this, e1, e2]; ring

/-- The tents do form a spline. -/
theorem isSpline_tents (l0 l1 : ℝ) : IsSpline l0 l1 fun x => l0 * tent (1 / 3) x + l1 * tent (2 / 3) x := by
  have a0 := (tent_thirds 0).1 le_rfl (by norm_num)
  have a1 := (tent_thirds (1 / 3)).1 (by norm_num) le_rfl
  have a2 := (tent_thirds (2 / 3)).2.1 (by norm_num) le_rfl
  have a3 := (tent_thirds 1).2.2 (by norm_num) le_rfl
  refine ⟨?_, ?_, ?_, ?_, ?_⟩
  · rw [a0.1, a0.2]; ring
  · rw [a1.1, a1.2]; ring
  · rw [a2.1, a2.2]; ring
  · rw [a3.1, a3.2]; ring
  · intro k hk t ht0 ht1
    interval_cases k
    · obtain ⟨e1, e2⟩ := (tent_thirds ((((0 : ℕ) : ℝ) + t) / 3)).1 (by push_cast; linarith) (by push_cast; linarith)
      simp only [e1, e2]
      rw [show ((0 : ℕ) : ℝ) / 3 = 0 from by simp, show (((0 : ℕ) : ℝ) + 1) / 3 = 1 / 3 from by simp, a0.1, a0.2, a1.1, a1.2]
      push_cast; ring
    · obtain ⟨e1, e2⟩ := (tent_thirds ((((1 : ℕ) : ℝ) + t) / 3)).2.1 (by push_cast; linarith) (by push_cast; linarith)
      simp only [e1, e2]
      rw [show ((1 : ℕ) : ℝ) / 3 = 1 / 3 from by simp, show (((1 : ℕ) : ℝ) + 1) / 3 = 2 / 3 from by norm_num, a1.1, a1.2, a2.1, a2.2]
      push_cast; ring
    · obtain ⟨e1, e2⟩ := (tent_thirds ((((2 : ℕ) : ℝ) + t) / 3)).2.2 (by push_cast; linarith) (by push_cast; linarith)
      simp only [e1, e2]
      rw [show ((2 : ℕ) : ℝ) / 3 = 2 / 3 from by simp, show (((2 : ℕ) : ℝ) + 1) / 3 = 1 from by norm_num, a2.1, a2.2, a3.1, a3.2]
      push_cast; ring

/-- The `i`-th of `aff` equally spaced points of [0, 1]. -/
noncomputable def gridPt (aff i : ℕ) : ℝ := i / (aff - 1 : ℕ)

theorem gridPt_mem {aff i : ℕ} (h : i < aff) : 0 ≤ gridPt aff i ∧ gridPt aff i ≤ 1 := by
  unfold gridPt
  refine ⟨by positivity, ?_⟩
  have : (i : ℝ) ≤ (aff - 1 : ℕ) := by exact_mod_cast (by omega : i ≤ aff - 1)
  exact div_le_one_of_le₀ this (by positivity)

theorem linspace01 (aff : ℕ) : linspace 0 1 aff = (List.range aff).map (gridPt aff) := by
  unfold linspace
  refine List.map_congr_left fun i _ => ?_
  unfold linspaceAt gridPt
  ring

theorem mapM_ok_map {α β : Type} {f : α → Py β} {g : α → β} : ∀ {l : List α}, (∀ a ∈ l, f a = .ok (g a)) →
    l.mapM f = .ok (l.map g)
  | [], _ => rfl
  | a :: l, h => by
    rw [List.mapM_cons, h a (by simp), Py.ok_bind, mapM_ok_map fun b hb => h b (by simp [hb])]
    rfl

/-- The objective in terms of the tents. -/
theorem objective_tents (lam : Fin 2 → ℝ) (aff : ℕ) : splineObjective lam aff = .ok (Real.sqrt
    (∑ i : Fin aff, (gTrue (gridPt aff i) -
      (lam 0 * tent (1 / 3) (gridPt aff i) + lam 1 * tent (2 / 3) (gridPt aff i))) ^ 2)) := by
  unfold splineObjective
  rw [linspace01]
  simp only
  rw [mapM_ok_map (g := fun x => lam 0 * tent (1 / 3) x + lam 1 * tent (2 / 3) x) (by
    intro x hx
    obtain ⟨i, hi, rfl⟩ := List.mem_map.1 hx
    have := gridPt_mem (List.mem_range.1 hi)
    exact interp_eq _ _ this.1 this.2), Py.ok_bind]
  show Except.ok _ = _
  congr 2
  rw [List.zipWith_map_right, List.zipWith_self, List.map_map, Finset.sum_fin_eq_sum_range]
  rw [← List.sum_toFinset _ List.nodup_range]
  refine Finset.sum_congr (by ext; simp) fun i hi => ?_
  rw [dif_pos (by simpa using hi)]
  rfl

/-- **C109, value.** `spline_objective_function_2d(lam, aff)` is the Euclidean distance, over `aff`
equally spaced points, of `g(x) = 197.65032 x² (x - 1)⁵` and the piecewise linear function with the
values 0, `lam[0]`, `lam[1]`, 0 at 0, 1/3, 2/3, 1. -/
theorem C109_value (lam : Fin 2 → ℝ) (aff : ℕ) {S : ℝ → ℝ} (hS : IsSpline (lam 0) (lam 1) S) :
    splineObjective lam aff = .ok (Real.sqrt
      (∑ i : Fin aff, (197.65032 * gridPt aff i ^ 2 * (gridPt aff i - 1) ^ 5 - S (gridPt aff i)) ^ 2)) := by
  rw [objective_tents]
  congr 2
  refine Finset.sum_congr rfl fun i _ => ?_
  have := gridPt_mem i.2
  rw [spline_tents hS this.1 this.2]
  rfl

/-! ## The minimiser -/

/-- Two independent columns: exactly one best combination. -/
theorem best_two {ι : Type} [Fintype ι] (g h1 h2 : ι → ℝ)
    (hind : ∀ a b : ℝ, (∀ i, a * h1 i + b * h2 i = 0) → a = 0 ∧ b = 0) :
    ∃! l : Fin 2 → ℝ, ∀ m : Fin 2 → ℝ, ∑ i, (g i - (l 0 * h1 i + l 1 * h2 i)) ^ 2 ≤
      ∑ i, (g i - (m 0 * h1 i + m 1 * h2 i)) ^ 2 := by
  set A := ∑ i, h1 i ^ 2 with hA
  set B := ∑ i, h1 i * h2 i with hB
  set C := ∑ i, h2 i ^ 2 with hC
  set u := ∑ i, g i * h1 i with hu
  set v := ∑ i, g i * h2 i with hv
  have hQ : ∀ a b : ℝ, ∑ i, (a * h1 i + b * h2 i) ^ 2 = a ^ 2 * A + 2 * a * b * B + b ^ 2 * C := by
    intro a b
    simp only [hA, hB, hC, Finset.mul_sum, ← Finset.sum_add_distrib]
    exact Finset.sum_congr rfl fun i _ => by ring
  have hpos : ∀ a b : ℝ, (a ≠ 0 ∨ b ≠ 0) → 0 < a ^ 2 * A + 2 * a * b * B + b ^ 2 * C := by
    intro a b hab
    rw [← hQ]
    refine lt_of_le_of_ne (Finset.sum_nonneg fun i _ => sq_nonneg _) fun h => ?_
    have := (Finset.sum_eq_zero_iff_of_nonneg fun i _ => sq_nonneg (a * h1 i + b * h2 i)).1 h.symm
    obtain ⟨ha, hb⟩ := hind a b fun i => by simpa using this i (Finset.mem_univ i)
    rcases hab with h | h <;> contradiction
  have hApos : 0 < A := by have := hpos 1 0 (Or.inl one_ne_zero); linarith
  have hdet : 0 < A * C - B ^ 2 := by
    have := hpos (-B) A (Or.inr hApos.ne')
    have h2 : 0 < A * (A * C - B ^ 2) := by linarith
    exact pos_of_mul_pos_right h2 hApos.le
  have hdet' := hdet.ne'
  set a := (u * C - v * B) / (A * C - B ^ 2) with ha
  set b := (v * A - u * B) / (A * C - B ^ 2) with hb
  have hn1 : a * A + b * B = u := by
    rw [ha, hb, div_mul_eq_mul_div, div_mul_eq_mul_div, ← add_div, div_eq_iff hdet']; ring
  have hn2 : a * B + b * C = v := by
    rw [ha, hb, div_mul_eq_mul_div, div_mul_eq_mul_div, ← add_div, div_eq_iff hdet']; ring
  have hexp : ∀ m : Fin 2 → ℝ, ∑ i, (g i - (m 0 * h1 i + m 1 * h2 i)) ^ 2 =
      ∑ i, (g i - (a * h1 i + b * h2 i)) ^ 2 + ((m 0 - a) ^ 2 * A + 2 * (m 0 - a) * (m 1 - b) * B +
        (m 1 - b) ^ 2 * C) := by
    intro m
    have e : ∀ x y : ℝ, ∑ i, (g i - (x * h1 i + y * h2 i)) ^ 2 =
        ∑ i, g i ^ 2 - 2 * x * u - 2 * y * v + (x ^ 2 * A + 2 * x * y * B + y ^ 2 * C) := by
      intro x y
      rw [← hQ]
      simp only [hu, hv, Finset.mul_sum, ← Finset.sum_sub_distrib, ← Finset.sum_add_distrib]
      exact Finset.sum_congr rfl fun i _ => by ring
    rw [e, e, ← hn1, ← hn2]
    ring
  refine ⟨![a, b], fun m => ?_, fun m hm => ?_⟩
  · rw [hexp m]
    simp only [Matrix.cons_val_zero, Matrix.cons_val_one]
    have : 0 ≤ (m 0 - a) ^ 2 * A + 2 * (m 0 - a) * (m 1 - b) * B + (m 1 - b) ^ 2 * C := by
      rw [← hQ]; exact Finset.sum_nonneg fun i _ => sq_nonneg _
    linarith
  · have h := hm ![a, b]
    rw [hexp m] at h
    simp only [Matrix.cons_val_zero, Matrix.cons_val_one] at h
    by_contra hne
    have : m 0 - a ≠ 0 ∨ m 1 - b ≠ 0 := by
      by_contra hcon
      push Not at hcon
      apply hne
      ext i
      fin_cases i
      · exact sub_eq_zero.1 hcon.1
      · exact sub_eq_zero.1 hcon.2
    have := hpos _ _ this
    linarith

/-- With four or more points the tents are independent. -/
theorem tents_independent {aff : ℕ} (h : 4 ≤ aff) (a b : ℝ)
    (hab : ∀ i : Fin aff, a * tent (1 / 3) (gridPt aff i) + b * tent (2 / 3) (gridPt aff i) = 0) :
    a = 0 ∧ b = 0 := by
  have h3 : (3 : ℝ) ≤ (aff - 1 : ℕ) := by exact_mod_cast (by omega : 3 ≤ aff - 1)
  have hp : (0 : ℝ) < (aff - 1 : ℕ) := by linarith
  constructor
  · have h1 := hab ⟨1, by omega⟩
    have hx : gridPt aff 1 = 1 / (aff - 1 : ℕ) := by unfold gridPt; simp
    have hx0 : 0 < gridPt aff 1 := by rw [hx]; positivity
    have hx1 : gridPt aff 1 ≤ 1 / 3 := by rw [hx]; exact one_div_le_one_div_of_le (by norm_num) h3
    obtain ⟨e1, e2⟩ := (tent_thirds (gridPt aff 1)).1 hx0.le hx1
    simp only at h1
    rw [e1, e2, mul_zero, add_zero] at h1
    rcases mul_eq_zero.1 h1 with h | h
    · exact h
    · linarith
  · have h1 := hab ⟨aff - 2, by omega⟩
    have hx : gridPt aff (aff - 2) = 1 - 1 / (aff - 1 : ℕ) := by
      unfold gridPt
      have : ((aff - 2 : ℕ) : ℝ) = (aff - 1 : ℕ) - 1 := by
        have h5 : aff - 1 = (aff - 2) + 1 := by omega
        rw [h5]; push_cast; ring
      rw [this]
      field_simp
    have hd : 1 / ((aff - 1 : ℕ) : ℝ) ≤ 1 / 3 := one_div_le_one_div_of_le (by norm_num) h3
    have hd0 : 0 < 1 / ((aff - 1 : ℕ) : ℝ) := by positivity
    obtain ⟨e1, e2⟩ := (tent_thirds (gridPt aff (aff - 2))).2.2 (by rw [hx]; linarith) (by rw [hx]; linarith)
    simp only at h1
    rw [e1, e2, mul_zero, zero_add] at h1
    rcases mul_eq_zero.1 h1 with h | h
    · exact h
    · rw [hx] at h; linarith

/-- With fewer, the difference of the tents cannot be seen. -/
theorem tents_dependent {aff : ℕ} (h : aff < 4) (i : Fin aff) :
    tent (1 / 3) (gridPt aff i) = tent (2 / 3) (gridPt aff i) := by
  have a0 := (tent_thirds 0).1 le_rfl (by norm_num)
  have a1 := (tent_thirds (1 / 2)).2.1 (by norm_num) (by norm_num)
  have a3 := (tent_thirds 1).2.2 (by norm_num) le_rfl
  obtain ⟨i, hi⟩ := i
  have hc : gridPt aff i = 0 ∨ gridPt aff i = 1 / 2 ∨ gridPt aff i = 1 := by
    unfold gridPt
    interval_cases aff <;> interval_cases i <;> norm_num
  simp only
  rcases hc with e | e | e <;> rw [e]
  · rw [a0.1, a0.2]; norm_num
  · rw [a1.1, a1.2]; norm_num
  · rw [a3.1, a3.2]; norm_num

/-- **C109, minimiser.** The objective is convex, so that a local minimum is a global one, and there
is exactly one minimiser if and only if at least four points are used (the default is 10000). -/
theorem C109_minimiser {aff : ℕ} {f : (Fin 2 → ℝ) → ℝ} (hf : ∀ lam, splineObjective lam aff = .ok (f lam)) :
    ConvexOn ℝ Set.univ f ∧ (∀ lam, IsLocalMin f lam → ∀ mu, f lam ≤ f mu) ∧
    ((∃! lam, ∀ mu, f lam ≤ f mu) ↔ 4 ≤ aff) := by
  have hfe : ∀ lam, f lam = Real.sqrt (∑ i : Fin aff, (gTrue (gridPt aff i) -
      (lam 0 * tent (1 / 3) (gridPt aff i) + lam 1 * tent (2 / 3) (gridPt aff i))) ^ 2) := by
    intro lam
    have := hf lam
    rw [objective_tents] at this
    injection this with this
    exact this.symm
  have hconv : ConvexOn ℝ Set.univ f := by
    set V : (Fin 2 → ℝ) → EuclideanSpace ℝ (Fin aff) := fun lam => WithLp.toLp 2 fun i =>
      gTrue (gridPt aff i) - (lam 0 * tent (1 / 3) (gridPt aff i) + lam 1 * tent (2 / 3) (gridPt aff i)) with hV
    have hfV : ∀ lam, f lam = ‖V lam‖ := by
      intro lam
      rw [hfe, EuclideanSpace.norm_eq]
      simp [hV]
    refine ⟨convex_univ, fun x _ y _ a b ha hb hab => ?_⟩
    have e : V (a • x + b • y) = a • V x + b • V y := by
      ext i
      simp only [hV, PiLp.add_apply, PiLp.smul_apply, Pi.add_apply, Pi.smul_apply, smul_eq_mul]
      have : gTrue (gridPt aff i) = (a + b) * gTrue (gridPt aff i) := by rw [hab, one_mul]
      linear_combination this
    rw [hfV, hfV, hfV, e]
    refine (norm_add_le _ _).trans ?_
    rw [norm_smul, norm_smul, Real.norm_of_nonneg ha, Real.norm_of_nonneg hb]
    rfl
  refine ⟨hconv, fun lam hl mu => ?_, ?_⟩
  · exact IsMinOn.of_isLocalMin_of_convex_univ hl hconv mu
  · have hle : ∀ lam mu, f lam ≤ f mu ↔ ∑ i : Fin aff, (gTrue (gridPt aff i) -
        (lam 0 * tent (1 / 3) (gridPt aff i) + lam 1 * tent (2 / 3) (gridPt aff i))) ^ 2 ≤
        ∑ i : Fin aff, (gTrue (gridPt aff i) -
        (mu 0 * tent (1 / 3) (gridPt aff i) + mu 1 * tent (2 / 3) (gridPt aff i))) ^ 2 := by
      intro lam mu
      rw [hfe, hfe, Real.sqrt_le_sqrt_iff (Finset.sum_nonneg fun i _ => sq_nonneg _)]
    constructor
    · rintro ⟨lam, hlam, huniq⟩
      by_contra hlt
      rw [not_le] at hlt
      have he : f ![lam 0 + 1, lam 1 - 1] = f lam := by
        rw [hfe, hfe]
        congr 1
        refine Finset.sum_congr rfl fun i _ => ?_
        rw [tents_dependent hlt i]
        simp only [Matrix.cons_val_zero, Matrix.cons_val_one]
        ring
      have := huniq ![lam 0 + 1, lam 1 - 1] fun mu => by
        show f ![lam 0 + 1, lam 1 - 1] ≤ f mu
        rw [he]; exact hlam mu
      have := congrFun this 0
      simp at this
    · intro h4
      simp only [hle]
      exact best_two _ _ _ (tents_independent h4)

/-- **C109, the line drawn**: the graph of the spline that the objective measures, through 0 at both
ends, with the breaks at equally spaced points, for any number of parameters. -/
theorem C109_line (lam : List ℝ) (aff : ℕ) (plotTrue : Bool) :
    (solutionSpline lam aff plotTrue).getLast? =
      some ((List.range (lam.length + 2)).map fun i : ℕ => (i : ℝ) / (lam.length + 1 : ℕ), [0] ++ lam ++ [0]) ∧
    (plotTrue = true → solutionSpline lam aff plotTrue ≠ [] ∧ (solutionSpline lam aff plotTrue).head? =
      some ((List.range aff).map (gridPt aff), (List.range aff).map fun i => gTrue (gridPt aff i))) := by
  have e : [0] ++ ((linspace 0 1 (2 + lam.length)).drop 1).dropLast ++ [1] =
      (List.range (lam.length + 2)).map fun i : ℕ => (i : ℝ) / (lam.length + 1 : ℕ) := by
    rw [linspace01]
    apply List.ext_getElem
    · simp
    · intro i h1 h2
      have hi : i < lam.length + 2 := by simpa using h2
      rw [List.getElem_map, List.getElem_range]
      rcases Nat.eq_zero_or_pos i with rfl | hpos
      · simp
      · by_cases hl : i = lam.length + 1
        · subst hl
          rw [List.getElem_append_right (by simp)]
          have : ((lam.length + 1 : ℕ) : ℝ) ≠ 0 := by positivity
          simp only [List.getElem_singleton]
          rw [div_self this]
        · rw [List.getElem_append_left (by simp; omega), List.getElem_append_right (by simp; omega)]
          simp only [List.getElem_dropLast, List.getElem_drop, List.getElem_map, List.getElem_range,
            List.length_singleton]
          unfold gridPt
          rw [show 1 + (i - 1) = i from by omega, show 2 + lam.length - 1 = lam.length + 1 from by omega]
  constructor
  · unfold solutionSpline
    simp only [List.getLast?_append, List.getLast?_singleton, Option.some_or]
    rw [e]
  · rintro rfl
    unfold solutionSpline
    simp [linspace01]

/-- The hypotheses of C109 are met: with the default number of points there is one best pair. -/
example : ∃! lam : Fin 2 → ℝ, ∀ mu, (splineObjective lam 10000).toOption.get! ≤
    (splineObjective mu 10000).toOption.get! := by
  refine (C109_minimiser (aff := 10000) (f := fun lam => (splineObjective lam 10000).toOption.get!) fun lam => ?_).2.2.2 (by norm_num)
  have h := objective_tents lam 10000
  simp only [h]
  rfl

/-- C109: the value for the line through `(1/3, -1)` and `(2/3, 2)`, on `100` points. -/
example : splineObjective ![-1, 2] 100 = .ok (Real.sqrt
    (∑ i : Fin 100, (197.65032 * gridPt 100 i ^ 2 * (gridPt 100 i - 1) ^ 5 -
      (-1 * tent (1 / 3) (gridPt 100 i) + 2 * tent (2 / 3) (gridPt 100 i))) ^ 2)) :=
  C109_value ![-1, 2] 100 (isSpline_tents (-1) 2)

end Verif
