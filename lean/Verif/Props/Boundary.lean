import Verif.Model.Fenics
import Verif.Props.Examples
import Verif.Props.Poisson

/-!
# C119: the boundary condition drawn and the boundary condition solved
-/

namespace Verif

namespace Fenics

open Poisson Piecewise

/-! ## Specification -/

/-- The text is read as the function `f` of the second coordinate. -/
def ReadsAs : BExpr → (ℝ → ℝ) → Prop
  | .power cons, f => ∀ x, f x = x ^ 2 * (1 - x) ^ 5 * cons
  | .text ts, f => ∃ e, Parses ts e ∧ ∀ pt : ℕ → ℝ, e.eval pt = f (pt 1)

/-- `S` is the function whose graph is the line drawn through the points `(xs[i], ys[i])`. -/
def IsPolyline (xs ys : List ℝ) (S : ℝ → ℝ) : Prop :=
  ∀ i, i + 1 < xs.length → ∀ t : ℝ, 0 ≤ t → t ≤ 1 →
    S ((1 - t) * xs.getD i 0 + t * xs.getD (i + 1) 0) = (1 - t) * ys.getD i 0 + t * ys.getD (i + 1) 0

/-! ## The true boundary condition -/

/-- `x² (1 - x)⁵` is largest on the unit interval at `2/7`. -/
theorem power_le {x : ℝ} (h0 : 0 ≤ x) (h1 : x ≤ 1) : x ^ 2 * (1 - x) ^ 5 ≤ 12500 / 823543 := by
  have hy : 0 ≤ 1 - x := by linarith
  have key : 12500 / 823543 - x ^ 2 * (1 - x) ^ 5 =
      (x - 2 / 7) ^ 2 * ((3125 * (1 - x) ^ 5 + 37500 * ((1 - x) ^ 4 * x) + 27708 * ((1 - x) ^ 3 * x ^ 2) +
        13540 * ((1 - x) ^ 2 * x ^ 3) + 3900 * ((1 - x) * x ^ 4) + 500 * x ^ 5) / 16807) := by
    ring
  have : 0 ≤ 12500 / 823543 - x ^ 2 * (1 - x) ^ 5 := by
    rw [key]
    positivity
  linarith

/-- **C119, the true boundary condition.** The boundary expression of the true solution is read as a
function `g` of the second coordinate that is 0 at both ends, equals `gamma` at `2/7`, and lies between 0 and
`gamma` on the unit interval: `gamma` is its minimum if negative (its maximum if positive). The curve that
the figures show as the truth is this function exactly for `gamma = -3`. -/
theorem C119_truth (gamma : ℝ) {g : ℝ → ℝ} (hg : ReadsAs (boundary gamma none) g) :
    g 0 = 0 ∧ g 1 = 0 ∧ g (2 / 7) = gamma ∧
    (∀ x, 0 ≤ x → x ≤ 1 → (gamma ≤ 0 → gamma ≤ g x ∧ g x ≤ 0) ∧ (0 ≤ gamma → 0 ≤ g x ∧ g x ≤ gamma)) ∧
    ((∀ x, 0 ≤ x → x ≤ 1 → gTrue x = g x) ↔ gamma = -3) := by
  have h : ∀ x, g x = x ^ 2 * (1 - x) ^ 5 * (gamma * 823543 / 12500) := hg
  refine ⟨by rw [h]; ring, by rw [h]; ring, by rw [h]; ring, fun x h0 h1 => ?_, ?_⟩
  · have hp := power_le h0 h1
    have hn : 0 ≤ x ^ 2 * (1 - x) ^ 5 := by
      have : 0 ≤ 1 - x := by linarith
      positivity
    rw [h]
    constructor
    · intro hγ
      constructor <;> nlinarith
    · intro hγ
      constructor <;> nlinarith
  · constructor
    · intro hx
      have := hx (2 / 7) (by norm_num) (by norm_num)
      rw [h] at this
      unfold gTrue at this
      norm_num at this
      linarith
    · rintro rfl x - -
      rw [h]
      unfold gTrue
      ring

/-! ## The boundary condition of a sample -/

/-- Every sample's boundary expression is read as a function. -/
theorem C119_reads (gamma : ℝ) (lam : Option (List ℝ)) : ∃ f, ReadsAs (boundary gamma lam) f := by
  cases lam with
  | none => exact ⟨fun x => x ^ 2 * (1 - x) ^ 5 * (gamma * 823543 / 12500), fun _ => rfl⟩
  | some u =>
    obtain ⟨e, he, h1, h2⟩ := C70_interpolant u 1
    refine ⟨fun x => e.eval fun _ => x, e, he, fun pt => ?_⟩
    show e.eval pt = e.eval fun _ => pt 1
    by_cases hx : pt 1 < 0 ∨ 1 ≤ pt 1
    · rw [h2 pt hx, h2 (fun _ => pt 1) hx]
    · push Not at hx
      obtain ⟨i, t, hi, ht0, ht1, e'⟩ := C70_cover u.length hx.1 hx.2
      rw [h1 pt i t hi ht0 ht1 e', h1 (fun _ => pt 1) i t hi ht0 ht1 e']

/-- **C119, the boundary condition of a sample.** The line drawn for the values `u` and the boundary
condition solved for them agree exactly up to the last interior point (and in the end point 1): on the last
interval the line falls to 0 where the boundary condition goes to 1. -/
theorem C119_sample_exact (u : List ℝ) (gamma : ℝ) (aff : ℕ) (plotTrue : Bool) {xs ys : List ℝ} {S f : ℝ → ℝ}
    (hd : (solutionSpline u aff plotTrue).getLast? = some (xs, ys)) (hS : IsPolyline xs ys S)
    (hf : ReadsAs (boundary gamma (some u)) f) {x : ℝ} (h0 : 0 ≤ x) (h1 : x ≤ 1) :
    f x = S x ↔ x ≤ u.length / (u.length + 1) ∨ x = 1 := by
  obtain ⟨e, he, hfe⟩ := hf
  obtain ⟨e', he', k1, k2⟩ := C70_interpolant u 1
  obtain rfl := he.unique he'
  rw [(C109_line u aff plotTrue).1] at hd
  obtain ⟨rfl, rfl⟩ := Prod.mk.inj (Option.some.inj hd)
  have hn : (0 : ℝ) < (u.length : ℝ) + 1 := by positivity
  have hlen : ((List.range (u.length + 2)).map fun i : ℕ => (i : ℝ) / (u.length + 1 : ℕ)).length =
      u.length + 2 := by simp
  have hxs : ∀ i < u.length + 2,
      ((List.range (u.length + 2)).map fun i : ℕ => (i : ℝ) / (u.length + 1 : ℕ)).getD i 0 =
        i / (u.length + 1) := by
    intro i hi
    simp [List.getD_eq_getElem?_getD, hi]
  have hys : ∀ i ≤ u.length + 1, ([0] ++ u ++ [0]).getD i 0 = if i = u.length + 1 then 0 else knot u i := by
    intro i hi
    cases i with
    | zero => simp [knot]
    | succ i =>
      by_cases hl : i = u.length
      · subst hl
        simp
      · rw [if_neg (by omega)]
        simp only [List.getD_eq_getElem?_getD, List.cons_append, List.nil_append,
          List.getElem?_cons_succ, knot]
        rw [List.getElem?_append_left (by omega), if_neg (by omega), if_neg (by omega)]
        simp
  have key : ∀ i ≤ u.length, ∀ t : ℝ, 0 ≤ t → t ≤ 1 → x = (i + t) / (u.length + 1) →
      S x = (1 - t) * knot u i + t * (if i = u.length then 0 else knot u (i + 1)) := by
    intro i hi t ht0 ht1 hx
    have h := hS i (by rw [hlen]; omega) t ht0 ht1
    rw [hxs i (by omega), hxs (i + 1) (by omega), hys i (by omega), hys (i + 1) (by omega),
      if_neg (by omega)] at h
    have e1 : (1 - t) * ((i : ℝ) / (u.length + 1)) + t * (((i + 1 : ℕ) : ℝ) / (u.length + 1)) = x := by
      rw [hx]
      push_cast
      field_simp
      ring
    rw [e1] at h
    rw [h]
    by_cases hl : i = u.length
    · rw [if_pos hl, if_pos (by omega)]
    · rw [if_neg hl, if_neg (by omega)]
  have hfx : f x = e.eval fun _ => x := (hfe fun _ => x).symm
  rcases h1.eq_or_lt with rfl | h1
  · have hS1 := key u.length le_rfl 1 zero_le_one le_rfl (by field_simp)
    rw [hfx, k2 _ (.inr le_rfl), hS1]
    simp
  · obtain ⟨i, t, hi, ht0, ht1, hx⟩ := C70_cover u.length h0 h1
    have hS1 := key i hi t ht0 ht1.le hx
    rw [hfx, k1 _ i t hi ht0 ht1 hx, hS1]
    have hne : ¬ x = 1 := h1.ne
    by_cases hl : i = u.length
    · subst hl
      rw [if_pos rfl]
      have hk : knot u (u.length + 1) = 1 := by simp [knot]
      have : x ≤ u.length / (u.length + 1) ↔ t = 0 := by
        rw [hx, div_le_div_iff_of_pos_right hn]
        constructor
        · intro h; linarith
        · intro h; linarith
      rw [hk, this]
      constructor
      · intro h; left; linarith
      · rintro (h | h)
        · rw [h]; ring
        · exact absurd h hne
    · rw [if_neg hl]
      refine iff_of_true rfl (.inl ?_)
      rw [hx, div_le_div_iff_of_pos_right hn]
      have : (i : ℝ) + 1 ≤ u.length := by exact_mod_cast (by omega : i + 1 ≤ u.length)
      linarith

/-- The claim: the line drawn for the values `u` is the boundary condition solved for them. -/
def C119_claim : Prop :=
  ∀ (u : List ℝ) (gamma : ℝ) (aff : ℕ) (plotTrue : Bool) (xs ys : List ℝ) (S f : ℝ → ℝ),
    (solutionSpline u aff plotTrue).getLast? = some (xs, ys) → IsPolyline xs ys S →
    ReadsAs (boundary gamma (some u)) f → ∀ x, 0 ≤ x → x ≤ 1 → f x = S x

/-- The polyline through equally spaced knots exists. -/
theorem polyline_one (a : ℝ) : IsPolyline [0, 1 / 2, 1] [0, a, 0]
    fun x => if x ≤ 1 / 2 then 2 * a * x else 2 * a * (1 - x) := by
  intro i hi t ht0 ht1
  have hi' : i < 2 := by
    simp at hi
    omega
  interval_cases i
  · simp only [List.getD_cons_zero, List.getD_cons_succ, zero_add]
    rw [if_pos (by linarith)]
    ring
  · simp only [List.getD_cons_zero, List.getD_cons_succ, zero_add, Nat.reduceAdd]
    by_cases ht : t = 0
    · subst ht
      norm_num
      ring
    · rw [if_neg (by have : 0 < t := lt_of_le_of_ne ht0 (Ne.symm ht); linarith)]
      ring

/-- **The claim is false of the code**: with one parameter `-1`, between the knot `1/2` and the end. -/
theorem C119_claim_refuted : ¬ C119_claim := by
  intro h
  obtain ⟨f, hf⟩ := C119_reads (-3) (some [-1])
  have hd : (solutionSpline [-1] 2 false).getLast? = some ([0, 1 / 2, 1], [0, -1, 0]) := by
    rw [(C109_line [-1] 2 false).1]
    norm_num [List.range_succ]
  have e := h [-1] (-3) 2 false _ _ _ f hd (polyline_one (-1)) hf (3 / 4) (by norm_num) (by norm_num)
  have := (C119_sample_exact [-1] (-3) 2 false hd (polyline_one (-1)) hf
    (x := 3 / 4) (by norm_num) (by norm_num)).1 e
  norm_num at this

/-- **C119, the part that holds**: line and boundary condition agree up to the last interior point, in
particular in all knots. -/
theorem C119_sample_partial (u : List ℝ) (gamma : ℝ) (aff : ℕ) (plotTrue : Bool) {xs ys : List ℝ} {S f : ℝ → ℝ}
    (hd : (solutionSpline u aff plotTrue).getLast? = some (xs, ys)) (hS : IsPolyline xs ys S)
    (hf : ReadsAs (boundary gamma (some u)) f) {x : ℝ} (h0 : 0 ≤ x) (h1 : x ≤ u.length / (u.length + 1)) :
    f x = S x :=
  (C119_sample_exact u gamma aff plotTrue hd hS hf h0 (h1.trans (by
    rw [div_le_one (by positivity)]; linarith))).2 (.inl h1)

/-- The default truth reaches `-3` and is the curve drawn. -/
example : ∃ g, ReadsAs (boundary (-3) none) g ∧ g (2 / 7) = -3 ∧ gTrue (1 / 2) = g (1 / 2) := by
  obtain ⟨g, hg⟩ := C119_reads (-3) none
  obtain ⟨-, -, h1, -, h2⟩ := C119_truth (-3) hg
  exact ⟨g, hg, h1, h2.2 rfl _ (by norm_num) (by norm_num)⟩

end Fenics

end Verif
