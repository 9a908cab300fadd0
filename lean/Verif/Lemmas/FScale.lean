import Verif.Lemmas.Argmax

/-!
# Multiplying floats by a positive constant
-/

namespace Verif
namespace F

variable {c : ℝ}

theorem pos_mul_pinf (hc : 0 < c) : fin c * pinf = pinf := by
  rw [mul_of_not (by simp [isFin])]; simp [sgn, infOf, hc]
theorem pos_mul_ninf (hc : 0 < c) : fin c * ninf = ninf := by
  rw [mul_of_not (by simp [isFin])]
  simp [sgn, infOf, hc, not_lt.2 hc.le]

theorem pos_mul_eq_nan (hc : 0 < c) (a : F) : fin c * a = nan ↔ a = nan := by
  cases a <;> simp [pos_mul_pinf hc, pos_mul_ninf hc, mul_nan]

theorem pos_mul_lt (hc : 0 < c) (a b : F) : (fin c * a).lt (fin c * b) ↔ a.lt b := by
  cases a <;> cases b <;> simp [pos_mul_pinf hc, pos_mul_ninf hc, mul_nan, lt, hc]

theorem pos_mul_add (hc : 0 < c) (a b : F) : fin c * (a + b) = fin c * a + fin c * b := by
  cases a <;> cases b <;>
    simp [pos_mul_pinf hc, pos_mul_ninf hc, mul_nan, nan_add, add_nan, mul_add] <;>
    change fin c * add _ _ = add _ _ <;>
    simp [add, pos_mul_pinf hc, pos_mul_ninf hc, mul_nan]

theorem infOf_pos_mul (hc : 0 < c) (s : ℝ) : infOf (c * s) = infOf s := by
  rw [mul_comm, infOf_mul_pos hc]

theorem pos_mul_div (hc : 0 < c) (a b : F) : (fin c * a) / (fin c * b) = a / b := by
  have hc0 := hc.ne'
  cases a <;> cases b <;> simp only [pos_mul_pinf hc, pos_mul_ninf hc, mul_nan, fin_mul] <;>
    try rfl
  · rename_i x y
    rw [fin_div, fin_div]
    by_cases h : y = 0
    · simp [h, infOf_pos_mul hc]
    · rw [if_neg (by simp [h, hc0]), if_neg h, mul_div_mul_left _ _ hc0]
  · rename_i y
    change div _ _ = div _ _
    simp only [div, mul_eq_zero, hc0, false_or, infOf_pos_mul hc]
  · rename_i y
    change div _ _ = div _ _
    simp only [div, mul_eq_zero, hc0, false_or]
    rw [show -(c * y) = c * -y by ring, infOf_pos_mul hc]

theorem pos_mul_eq_zero (hc : 0 < c) (a : F) : fin c * a = fin 0 ↔ a = fin 0 := by
  cases a <;> simp [pos_mul_pinf hc, pos_mul_ninf hc, mul_nan, hc.ne']

theorem pos_mul_sum (hc : 0 < c) (l : List F) : (l.map (fin c * ·)).sum = fin c * l.sum := by
  induction l with
  | nil => simp [zero_def]
  | cons a l ih => simp [ih, pos_mul_add hc]

end F

/-- Scaling all values by a positive number does not change `np.argmax`. -/
theorem npArgmax_scale {c : ℝ} (hc : 0 < c) (l : List F) :
    npArgmax (l.map (F.fin c * ·)) = npArgmax l := by
  have h : ∀ (vs : List F) (bi : ℕ) (b : F) (i : ℕ),
      argmaxGo bi (F.fin c * b) i (vs.map (F.fin c * ·)) = argmaxGo bi b i vs := by
    intro vs
    induction vs with
    | nil => intros; rfl
    | cons v vs ih =>
      intro bi b i
      simp only [List.map_cons, argmaxGo, ih]
      have e1 := F.pos_mul_eq_nan hc b
      have e2 : (F.fin c * v = F.nan ∨ (F.fin c * b).lt (F.fin c * v)) ↔ (v = F.nan ∨ b.lt v) := by
        rw [F.pos_mul_eq_nan hc, F.pos_mul_lt hc]
      by_cases h1 : b = F.nan
      · rw [if_pos h1, if_pos (e1.2 h1)]
      · rw [if_neg h1, if_neg (fun h => h1 (e1.1 h))]
        by_cases h2 : v = F.nan ∨ b.lt v
        · rw [if_pos h2, if_pos (e2.2 h2)]
        · rw [if_neg h2, if_neg (fun h => h2 (e2.1 h))]
  cases l with
  | nil => rfl
  | cons v vs => simp only [List.map_cons, npArgmax, h]

end Verif
