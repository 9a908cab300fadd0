import Verif.Model.Rounded
import Verif.Props.Wme
import Verif.Props.DensitySelect
import Verif.Props.Bayes
import Verif.Lemmas.Argmax
import Mathlib.Tactic.Positivity
import Mathlib.Tactic.FieldSimp
import Mathlib.Tactic.Ring
import Mathlib.Tactic.GCongr
import Mathlib.Analysis.Complex.Exponential

/-!
# C137–C140: rounding errors
-/

open Matrix

namespace Verif

/-! ## The arithmetic -/

/-- `x'` is `x` up to a factor between `a` and `b`. -/
def Near (a b x' x : ℝ) : Prop := ∃ θ, a ≤ θ ∧ θ ≤ b ∧ x' = θ * x

theorem Near.refl (x : ℝ) : Near 1 1 x x := ⟨1, le_rfl, le_rfl, (one_mul x).symm⟩

theorem Near.mul {a b c d x' x y' y : ℝ} (ha : 0 ≤ a) (hc : 0 ≤ c) (h : Near a b x' x) (g : Near c d y' y) :
    Near (a * c) (b * d) (x' * y') (x * y) := by
  obtain ⟨θ, h1, h2, rfl⟩ := h
  obtain ⟨η, g1, g2, rfl⟩ := g
  exact ⟨θ * η, mul_le_mul h1 g1 hc (ha.trans h1), mul_le_mul h2 g2 (hc.trans g1) ((ha.trans h1).trans h2), by ring⟩

theorem Near.trans {a b c d x'' x' x : ℝ} (ha : 0 ≤ a) (hc : 0 ≤ c) (h : Near a b x'' x') (g : Near c d x' x) :
    Near (a * c) (b * d) x'' x := by
  obtain ⟨θ, h1, h2, rfl⟩ := h
  obtain ⟨η, g1, g2, rfl⟩ := g
  exact ⟨θ * η, mul_le_mul h1 g1 hc (ha.trans h1), mul_le_mul h2 g2 (hc.trans g1) ((ha.trans h1).trans h2), by ring⟩

theorem Near.inv {a b x' x : ℝ} (ha : 0 < a) (h : Near a b x' x) : Near b⁻¹ a⁻¹ x'⁻¹ x⁻¹ := by
  obtain ⟨θ, h1, h2, rfl⟩ := h
  have hθ := ha.trans_le h1
  exact ⟨θ⁻¹, inv_anti₀ hθ h2, inv_anti₀ ha h1, mul_inv θ x⟩

/-- The bounds for a nonnegative number. -/
theorem Near.bounds {a b x' x : ℝ} (hx : 0 ≤ x) (h : Near a b x' x) : a * x ≤ x' ∧ x' ≤ b * x := by
  obtain ⟨θ, h1, h2, rfl⟩ := h
  exact ⟨mul_le_mul_of_nonneg_right h1 hx, mul_le_mul_of_nonneg_right h2 hx⟩

theorem Near.of_bounds {a b x' x : ℝ} (hab : a ≤ b) (hx : 0 ≤ x) (h1 : a * x ≤ x') (h2 : x' ≤ b * x) :
    Near a b x' x := by
  rcases hx.eq_or_lt with rfl | hx
  · exact ⟨a, le_rfl, hab, by rw [mul_zero] at *; exact le_antisymm h2 h1⟩
  · exact ⟨x' / x, (le_div_iff₀ hx).2 h1, (div_le_iff₀ hx).2 h2, (div_mul_cancel₀ _ hx.ne').symm⟩

theorem flSum_ne {m : Multiset ℝ} {s : ℝ} {fl : ℝ → ℝ} (h : FlSum fl m s) : 1 ≤ m.card := by
  induction h with
  | single x => simp
  | add _ _ h1 h2 => rw [Multiset.card_add]; omega

section
variable {R : Arith} (hR : R.Standard)
include hR

theorem Arith.Standard.lo : 0 < 1 - R.u := sub_pos.2 hR.u1
theorem Arith.Standard.hi : 0 < 1 + R.u := by linarith [hR.u0]

/-- Rounding is a factor between `1 - u` and `1 + u`. -/
theorem Arith.Standard.near (x : ℝ) : Near (1 - R.u) (1 + R.u) (R.fl x) x := by
  have h := hR.err x
  rcases eq_or_ne x 0 with rfl | hx
  · simp only [sub_zero, abs_zero, mul_zero, abs_nonpos_iff] at h
    exact ⟨1, by linarith [hR.u0], by linarith [hR.u0], by rw [h, mul_zero]⟩
  · refine ⟨R.fl x / x, ?_, ?_, (div_mul_cancel₀ _ hx).symm⟩ <;>
    · have hd : |R.fl x / x - 1| ≤ R.u := by
        rw [div_sub_one hx, abs_div]
        exact (div_le_iff₀ (abs_pos.2 hx)).2 h
      have := abs_le.1 hd
      linarith [this.1, this.2]

theorem Arith.Standard.fl_zero : R.fl 0 = 0 := by
  obtain ⟨θ, -, -, h⟩ := hR.near 0
  rw [h, mul_zero]

theorem Arith.Standard.fl_nonneg {x : ℝ} (hx : 0 ≤ x) : 0 ≤ R.fl x :=
  (mul_nonneg hR.lo.le hx).trans ((hR.near x).bounds hx).1

theorem Arith.Standard.fl_eq_zero {x : ℝ} : R.fl x = 0 ↔ x = 0 := by
  obtain ⟨θ, h1, -, h⟩ := hR.near x
  have hθ := hR.lo.trans_le h1
  rw [h, mul_eq_zero]
  exact ⟨fun h => h.resolve_left hθ.ne', Or.inr⟩

/-- **Any order of summation**: the error of a sum of `n` numbers is at most `(1 + u)^(n - 1) - 1` times the sum of
their absolute values. -/
theorem flSum_err {m : Multiset ℝ} {s : ℝ} (h : FlSum R.fl m s) :
    |s - m.sum| ≤ ((1 + R.u) ^ (m.card - 1) - 1) * (m.map abs).sum := by
  induction h with
  | single x => simp
  | @add a b s t ha hb h1 h2 =>
    have ca := flSum_ne ha
    have cb := flSum_ne hb
    obtain ⟨i, hi⟩ : ∃ i, a.card = i + 1 := ⟨a.card - 1, by omega⟩
    obtain ⟨j, hj⟩ : ∃ j, b.card = j + 1 := ⟨b.card - 1, by omega⟩
    have hu := hR.u0
    have hA : 0 ≤ (a.map abs).sum := Multiset.sum_nonneg fun x hx => by
      obtain ⟨y, -, rfl⟩ := Multiset.mem_map.1 hx; exact abs_nonneg y
    have hB : 0 ≤ (b.map abs).sum := Multiset.sum_nonneg fun x hx => by
      obtain ⟨y, -, rfl⟩ := Multiset.mem_map.1 hx; exact abs_nonneg y
    have sA : |a.sum| ≤ (a.map abs).sum := Multiset.abs_sum_le_sum_abs
    have sB : |b.sum| ≤ (b.map abs).sum := Multiset.abs_sum_le_sum_abs
    rw [Multiset.card_add, Multiset.sum_add, Multiset.map_add, Multiset.sum_add]
    simp only [hi, hj, Nat.add_sub_cancel] at h1 h2 ⊢
    rw [show i + 1 + (j + 1) - 1 = i + 1 + j by omega]
    set A := (a.map abs).sum
    set B := (b.map abs).sum
    have e1 : |s| ≤ (1 + R.u) ^ i * A := by
      have : |s| ≤ |s - a.sum| + |a.sum| := by simpa using abs_add_le (s - a.sum) a.sum
      linarith
    have e2 : |t| ≤ (1 + R.u) ^ j * B := by
      have : |t| ≤ |t - b.sum| + |b.sum| := by simpa using abs_add_le (t - b.sum) b.sum
      linarith
    have e3 : |R.fl (s + t) - (a.sum + b.sum)| ≤ R.u * (|s| + |t|) + (|s - a.sum| + |t - b.sum|) := by
      have h3 := hR.err (s + t)
      have h4 : R.u * |s + t| ≤ R.u * (|s| + |t|) := mul_le_mul_of_nonneg_left (abs_add_le s t) hu
      have h5 : |R.fl (s + t) - (a.sum + b.sum)| ≤ |R.fl (s + t) - (s + t)| + |(s - a.sum) + (t - b.sum)| := by
        refine le_trans (le_of_eq ?_) (abs_add_le _ _)
        congr 1; ring
      linarith [abs_add_le (s - a.sum) (t - b.sum)]
    have e4 : R.u * (|s| + |t|) ≤ R.u * ((1 + R.u) ^ i * A + (1 + R.u) ^ j * B) :=
      mul_le_mul_of_nonneg_left (add_le_add e1 e2) hu
    have p1 : (1 + R.u) ^ (i + 1) ≤ (1 + R.u) ^ (i + 1 + j) := pow_le_pow_right₀ (by linarith) (by omega)
    have p2 : (1 + R.u) ^ (j + 1) ≤ (1 + R.u) ^ (i + 1 + j) := pow_le_pow_right₀ (by linarith) (by omega)
    have e5 : (1 + R.u) ^ (i + 1) * A ≤ (1 + R.u) ^ (i + 1 + j) * A := mul_le_mul_of_nonneg_right p1 hA
    have e6 : (1 + R.u) ^ (j + 1) * B ≤ (1 + R.u) ^ (i + 1 + j) * B := mul_le_mul_of_nonneg_right p2 hB
    rw [pow_succ] at e5 e6
    nlinarith [e3, e4, h1, h2, e5, e6]

/-- Nonnegative numbers: the sum is right up to a factor. -/
theorem flSum_nonneg {m : Multiset ℝ} {s : ℝ} (h : FlSum R.fl m s) (h0 : ∀ x ∈ m, 0 ≤ x) :
    Near ((1 - R.u) ^ (m.card - 1)) ((1 + R.u) ^ (m.card - 1)) s m.sum := by
  have hlo := hR.lo.le
  have hlo1 : 1 - R.u ≤ 1 := by linarith [hR.u0]
  have hhi1 : 1 ≤ 1 + R.u := by linarith [hR.u0]
  induction h with
  | single x => simpa using Near.refl x
  | @add a b s t ha hb h1 h2 =>
    have ca := flSum_ne ha
    have cb := flSum_ne hb
    have a0 : 0 ≤ a.sum := Multiset.sum_nonneg fun x hx => h0 x (Multiset.mem_add.2 (Or.inl hx))
    have b0 : 0 ≤ b.sum := Multiset.sum_nonneg fun x hx => h0 x (Multiset.mem_add.2 (Or.inr hx))
    have g1 := (h1 fun x hx => h0 x (Multiset.mem_add.2 (Or.inl hx))).bounds a0
    have g2 := (h2 fun x hx => h0 x (Multiset.mem_add.2 (Or.inr hx))).bounds b0
    rw [Multiset.card_add, Multiset.sum_add]
    have hs : Near ((1 - R.u) ^ (a.card + b.card - 2)) ((1 + R.u) ^ (a.card + b.card - 2)) (s + t) (a.sum + b.sum) := by
      refine Near.of_bounds ((pow_le_one₀ hlo hlo1).trans (one_le_pow₀ hhi1)) (add_nonneg a0 b0) ?_ ?_
      · rw [mul_add]
        exact add_le_add
          ((mul_le_mul_of_nonneg_right (pow_le_pow_of_le_one hlo hlo1 (by omega)) a0).trans g1.1)
          ((mul_le_mul_of_nonneg_right (pow_le_pow_of_le_one hlo hlo1 (by omega)) b0).trans g2.1)
      · rw [mul_add]
        exact add_le_add
          (g1.2.trans (mul_le_mul_of_nonneg_right (pow_le_pow_right₀ hhi1 (by omega)) a0))
          (g2.2.trans (mul_le_mul_of_nonneg_right (pow_le_pow_right₀ hhi1 (by omega)) b0))
    have := (hR.near (s + t)).trans hlo (pow_nonneg hlo _) hs
    rw [← pow_succ', ← pow_succ'] at this
    rwa [show a.card + b.card - 2 + 1 = a.card + b.card - 1 by omega] at this

end

/-- Rounding to `p ≥ 1` binary digits and pairwise summation is a standard arithmetic. -/
theorem binary_standard {p : ℕ} (hp : 1 ≤ p) : (binary p).Standard where
  u0 := by simp only [binary]; positivity
  u1 := by
    simp only [binary]
    rw [div_lt_one (by positivity)]
    exact one_lt_pow₀ (by norm_num) (by omega)
  err x := by
    simp only [binary]
    rcases eq_or_ne x 0 with rfl | hx
    · simp [roundTo]
    · have hx0 := abs_pos.2 hx
      unfold roundTo
      set e := Int.log 2 |x|
      have h1 : (2 : ℝ) ^ e ≤ |x| := by
        have := Int.zpow_log_le_self (R := ℝ) (b := 2) (by norm_num) hx0
        exact_mod_cast this
      set q : ℝ := (2 : ℝ) ^ (e + 1 - (p : ℤ))
      have hq : 0 < q := zpow_pos (by norm_num) _
      have h2 : |x / q - round (x / q)| ≤ 1 / 2 := abs_sub_round _
      have h3 : |round (x / q) * q - x| = |x / q - round (x / q)| * q := by
        rw [← abs_of_pos hq, ← abs_mul, abs_of_pos hq, sub_mul, div_mul_cancel₀ _ hq.ne', abs_sub_comm]
      have h4 : q = 2 * (1 / 2 ^ p) * (2 : ℝ) ^ e := by
        simp only [q]
        rw [zpow_sub₀ (by norm_num), zpow_add₀ (by norm_num), zpow_one, zpow_natCast]
        field_simp
      rw [h3]
      calc _ ≤ 1 / 2 * q := mul_le_mul_of_nonneg_right h2 hq.le
        _ = 1 / 2 ^ p * (2 : ℝ) ^ e := by rw [h4]; ring
        _ ≤ 1 / 2 ^ p * |x| := mul_le_mul_of_nonneg_left h1 (by positivity)
  sum_nil := by simp [binary, pairSum]
  sum_cons l hl := by
    have key : ∀ (k : ℕ) (l : List ℝ), l ≠ [] → FlSum (roundTo p) l (pairSum (roundTo p) k l) := by
      have fold : ∀ (l : List ℝ) (m : Multiset ℝ) (s : ℝ), FlSum (roundTo p) m s →
          FlSum (roundTo p) (m + l) (l.foldl (fun s y => roundTo p (s + y)) s) := by
        intro l
        induction l with
        | nil => intro m s h; simpa using h
        | cons y l ih =>
          intro m s h
          have := ih _ _ (h.add (.single y))
          rw [List.foldl_cons]
          convert this using 1
          rw [add_assoc]; rfl
      intro k
      induction k with
      | zero =>
        intro l hl
        match l, hl with
        | [x], _ => exact .single x
        | x :: y :: l, _ => exact fold (y :: l) {x} x (.single x)
      | succ k ih =>
        intro l hl
        match l, hl with
        | [x], _ => exact .single x
        | x :: y :: l, _ =>
          rw [pairSum]
          · have hlen : (x :: y :: l).length = l.length + 2 := by simp
            have := (ih ((x :: y :: l).take ((x :: y :: l).length / 2)) (by
              intro h; have := congrArg List.length h; rw [List.length_take, hlen] at this
              simp at this)).add
              (ih ((x :: y :: l).drop ((x :: y :: l).length / 2)) (by
              intro h; have := congrArg List.length h; rw [List.length_drop, hlen] at this
              simp at this; omega))
            rwa [Multiset.coe_add, List.take_append_drop] at this
          all_goals simp
    exact key _ l hl

/-! ## C137 -/

theorem wmeFl_eval (R : Arith) {S n : ℕ} (P : Matrix (Fin S) (Fin n) ℝ) (d : Fin n → ℝ) (s : ℝ) :
    wmeFl R (.mat ⟨S, n, P⟩) (.vec n d) s =
      .ok (List.ofFn fun i => R.sum (List.ofFn fun j =>
        R.fl (R.fl (1 / R.fl (s * R.fl (Real.sqrt n))) * R.fl (P i j - d j)))) := by
  unfold wmeFl
  simp only [Py.pure_eq, Py.ok_bind, NArr.len, ne_eq, not_true_eq_false, NArr.bcast2, sub_rowvec]
  rfl

/-- The factor of one term of the sum. -/
theorem wme_term {R : Arith} (hR : R.Standard) (s q x : ℝ) :
    Near ((1 - R.u) ^ 3 / (1 + R.u) ^ 2) ((1 + R.u) ^ 3 / (1 - R.u) ^ 2)
      (R.fl (R.fl (1 / R.fl (s * R.fl q)) * R.fl x)) (1 / (s * q) * x) := by
  have lo := hR.lo
  have hi := hR.hi
  have h1 : Near ((1 - R.u) ^ 2) ((1 + R.u) ^ 2) (R.fl (s * R.fl q)) (s * q) := by
    have := (hR.near (s * R.fl q)).trans lo.le (by rw [one_mul]; exact lo.le)
      ((Near.refl s).mul zero_le_one lo.le (hR.near q))
    rwa [one_mul, one_mul, ← pow_two, ← pow_two] at this
  have h2 := (hR.near (1 / R.fl (s * R.fl q))).trans lo.le (by positivity)
    (by rw [one_div]; exact h1.inv (by positivity) : Near ((1 + R.u) ^ 2)⁻¹ ((1 - R.u) ^ 2)⁻¹ _ _)
  have h3 := (hR.near _).trans lo.le (by positivity) (h2.mul (by positivity) lo.le (hR.near x))
  rw [one_div (s * q)]
  convert h3 using 1 <;> field_simp

/-- `np.sum` of computed terms. -/
theorem sum_terms {R : Arith} (hR : R.Standard) {n : ℕ} (hn : 0 < n) {a b : ℝ} (ha : 0 ≤ a) (hab : 2 ≤ a + b)
    {x e : Fin n → ℝ} (hx : ∀ j, Near a b (x j) (e j)) :
    |R.sum (List.ofFn x) - ∑ j, e j| ≤ ((1 + R.u) ^ (n - 1) * b - 1) * ∑ j, |e j| := by
  have h := flSum_err hR (hR.sum_cons (List.ofFn x) (by
    intro h; rw [List.ofFn_eq_nil_iff] at h; omega))
  simp only [Multiset.sum_coe, Multiset.map_coe, Multiset.coe_card, List.length_ofFn, List.map_ofFn,
    List.sum_ofFn, Function.comp_apply] at h
  have h1 : ∀ j, |x j - e j| ≤ (b - 1) * |e j| := by
    intro j
    obtain ⟨θ, h1, h2, h3⟩ := hx j
    rw [h3, ← sub_one_mul, abs_mul]
    refine mul_le_mul_of_nonneg_right (abs_le.2 ⟨by linarith, by linarith⟩) (abs_nonneg _)
  have h2 : ∀ j, |x j| ≤ b * |e j| := by
    intro j
    obtain ⟨θ, h1, h2, h3⟩ := hx j
    rw [h3, abs_mul, abs_of_nonneg (ha.trans h1)]
    exact mul_le_mul_of_nonneg_right h2 (abs_nonneg _)
  have h3 : |∑ j, x j - ∑ j, e j| ≤ (b - 1) * ∑ j, |e j| := by
    rw [← Finset.sum_sub_distrib, Finset.mul_sum]
    exact (Finset.abs_sum_le_sum_abs _ _).trans (Finset.sum_le_sum fun j _ => h1 j)
  have h4 : ∑ j, |x j| ≤ b * ∑ j, |e j| := by
    rw [Finset.mul_sum]
    exact Finset.sum_le_sum fun j _ => h2 j
  have h5 : 0 ≤ (1 + R.u) ^ (n - 1) - 1 := sub_nonneg.2 (one_le_pow₀ (by linarith [hR.u0]))
  have h6 := mul_le_mul_of_nonneg_left h4 h5
  have h7 : |R.sum (List.ofFn x) - ∑ j, e j| ≤ |R.sum (List.ofFn x) - ∑ j, x j| + |∑ j, x j - ∑ j, e j| := by
    refine le_trans (le_of_eq ?_) (abs_add_le _ _)
    congr 1; ring
  linarith

/-- **C137, sharp form.** -/
theorem C137_sharp {R : Arith} (hR : R.Standard) {S n : ℕ} (P : Matrix (Fin S) (Fin n) ℝ) (d : Fin n → ℝ) {s : ℝ}
    (hs : s ≠ 0) (hn : 0 < n) :
    ∃ x x' : Fin S → ℝ, wme (.mat ⟨S, n, P⟩) (.vec n d) (some s) = .ok (List.ofFn fun i => F.fin (x i)) ∧
      wmeFl R (.mat ⟨S, n, P⟩) (.vec n d) s = .ok (List.ofFn x') ∧
      ∀ i, |x' i - x i| ≤ ((1 + R.u) ^ (n + 2) / (1 - R.u) ^ 2 - 1) * ((∑ j, |P i j - d j|) / (|s| * Real.sqrt n)) := by
  refine ⟨_, _, C21_formula P d s hs hn, wmeFl_eval R P d s, fun i => ?_⟩
  have lo := hR.lo
  have hi := hR.hi
  have hu := hR.u0
  have hab : 2 ≤ (1 - R.u) ^ 3 / (1 + R.u) ^ 2 + (1 + R.u) ^ 3 / (1 - R.u) ^ 2 := by
    rw [div_add_div _ _ (by positivity) (by positivity), le_div_iff₀ (by positivity)]
    have h1 : (1 - R.u ^ 2) ^ 2 ≤ 1 := by
      have : R.u ^ 2 ≤ 1 := pow_le_one₀ hu hR.u1.le
      nlinarith [sq_nonneg R.u]
    nlinarith [sq_nonneg R.u, sq_nonneg (R.u ^ 2)]
  have h := sum_terms hR hn (x := fun j => R.fl (R.fl (1 / R.fl (s * R.fl (Real.sqrt n))) * R.fl (P i j - d j)))
    (by positivity) hab fun j => wme_term hR s (Real.sqrt n) (P i j - d j)
  rw [← Finset.mul_sum] at h
  have e1 : ∑ j, |1 / (s * Real.sqrt n) * (P i j - d j)| = (∑ j, |P i j - d j|) / (|s| * Real.sqrt n) := by
    simp only [abs_mul, abs_div, abs_one, abs_of_nonneg (Real.sqrt_nonneg _)]
    rw [← Finset.mul_sum]
    ring
  have e2 : (1 + R.u) ^ (n - 1) * ((1 + R.u) ^ 3 / (1 - R.u) ^ 2) = (1 + R.u) ^ (n + 2) / (1 - R.u) ^ 2 := by
    rw [← mul_div_assoc, ← pow_add]
    congr 2
    omega
  rw [e1, e2] at h
  exact h

/-- The constants below in a simple form. -/
theorem rounding_const {u : ℝ} (hu : 0 ≤ u) (hu2 : u ≤ 1 / 2) {k l : ℕ} (hk : ((k : ℝ) + 2 * l) * u ≤ 1) :
    (1 + u) ^ k / (1 - u) ^ l - 1 ≤ 2 * ((k : ℝ) + 2 * l) * u := by
  have h1 : (1 + u) ^ k ≤ Real.exp (k * u) := by
    rw [Real.exp_nat_mul]
    exact pow_le_pow_left₀ (by linarith) (by linarith [Real.add_one_le_exp u]) k
  have h2 : 1 / (1 - u) ≤ Real.exp (2 * u) := by
    have : 1 + 2 * u ≤ Real.exp (2 * u) := by linarith [Real.add_one_le_exp (2 * u)]
    refine le_trans ?_ this
    rw [div_le_iff₀ (by linarith)]
    nlinarith
  have h3 : (1 / (1 - u)) ^ l ≤ Real.exp (2 * l * u) := by
    have := pow_le_pow_left₀ (by apply div_nonneg <;> linarith) h2 l
    rwa [← Real.exp_nat_mul, show (l : ℝ) * (2 * u) = 2 * l * u by ring] at this
  have h4 : (1 + u) ^ k / (1 - u) ^ l ≤ Real.exp (((k : ℝ) + 2 * l) * u) := by
    rw [add_mul, Real.exp_add, div_eq_mul_one_div, one_div, ← inv_pow, ← one_div]
    exact mul_le_mul h1 h3 (pow_nonneg (by apply div_nonneg <;> linarith) _) (Real.exp_pos _).le
  have h5 := Real.abs_exp_sub_one_le (x := ((k : ℝ) + 2 * l) * u) (by
    rw [abs_of_nonneg (by positivity)]; exact hk)
  rw [abs_of_nonneg (a := ((k : ℝ) + 2 * l) * u) (by positivity)] at h5
  linarith [le_abs_self (Real.exp (((k : ℝ) + 2 * l) * u) - 1)]

/-- **C137.** With unit roundoff `u` and `(n + 6) u ≤ 1`, every value of `wme` on `n` data, computed in floating point
and summed in any order, is within `2 (n + 6) u Σ |pred_j - data_j| / (|sd| √n)` of the exact one. -/
theorem C137_wme {R : Arith} (hR : R.Standard) {S n : ℕ} (P : Matrix (Fin S) (Fin n) ℝ) (d : Fin n → ℝ) {s : ℝ}
    (hs : s ≠ 0) (hn : 0 < n) (hu : ((n : ℝ) + 6) * R.u ≤ 1) :
    ∃ x x' : Fin S → ℝ, wme (.mat ⟨S, n, P⟩) (.vec n d) (some s) = .ok (List.ofFn fun i => F.fin (x i)) ∧
      wmeFl R (.mat ⟨S, n, P⟩) (.vec n d) s = .ok (List.ofFn x') ∧
      ∀ i, |x' i - x i| ≤ 2 * ((n : ℝ) + 6) * R.u * ((∑ j, |P i j - d j|) / (|s| * Real.sqrt n)) := by
  obtain ⟨x, x', h1, h2, h3⟩ := C137_sharp hR P d hs hn
  refine ⟨x, x', h1, h2, fun i => (h3 i).trans (mul_le_mul_of_nonneg_right ?_ (by positivity))⟩
  have hn1 : (1 : ℝ) ≤ n := by exact_mod_cast hn
  have := rounding_const hR.u0 (by nlinarith [hR.u0]) (k := n + 2) (l := 2) (by push_cast; linarith)
  push_cast at this
  linarith

/-- A prediction that equals the data has the value 0, exactly. -/
theorem C137_zero {R : Arith} (hR : R.Standard) {n : ℕ} (d : Fin n → ℝ) (s : ℝ) :
    wmeFl R (.mat ⟨1, n, .of fun _ j => d j⟩) (.vec n d) s = .ok [0] := by
  rw [wmeFl_eval]
  simp only [of_apply, sub_self, hR.fl_zero, mul_zero]
  rcases n.eq_zero_or_pos with rfl | hn
  · simp [hR.sum_nil]
  · have h := sum_terms hR hn (a := 1) (b := 1) zero_le_one (by norm_num) (x := fun _ => 0) (e := fun _ => 0)
      fun _ => Near.refl 0
    simp only [Finset.sum_const_zero, abs_zero, mul_zero, sub_zero, abs_nonpos_iff] at h
    simp only [h, List.ofFn_succ, List.ofFn_zero]

/-! ## C138 -/

variable {env : Env}

theorem DP.fitFl_set {R : Arith} {n : ℕ} (S : DP) (a w b c : Fin n → F) (hw : S.weights = List.ofFn w)
    (ha : S.init = some (List.ofFn a)) (hb : S.ob = some (List.ofFn b)) (hc : S.pr = some (List.ofFn c)) :
    DP.fitFl R env none 0 none S = (.ok (), { S with
      r := some (List.ofFn fun k => (b k / c k).rnd R.fl)
      up := some (List.ofFn fun k => ((a k * w k).rnd R.fl * (b k / c k).rnd R.fl).rnd R.fl) }) := by
  unfold DP.fitFl
  simp only [PyM.get_bind_run, ha, hb, hc, hw, Option.isNone_some, PyM.when_false, PyM.pure_bind',
    DP.theAttr, PyM.lift_ok_bind, bzip1_ofFn, PyM.modify_bind_run, PyM.modify_run]

theorem rowAt_ok (X : Arr2) {m : ℕ} (h : m < X.r) : X.rowAt m = .ok (List.ofFn fun j : Fin X.c => X.get m j) := by
  unfold Arr2.rowAt
  rw [dif_pos h]
  congr 2
  funext j
  rw [Arr2.get, dif_pos ⟨h, j.2⟩]

theorem argmax_row (X : Arr2) {n : ℕ} (hn : 0 < n) (hX : X.r = n) (v : Fin n → ℝ) :
    ∃ m : Fin n, (∀ k, v k ≤ v m) ∧ npArgmax (List.ofFn fun k => F.fin (v k)) = .ok m.1 ∧
      X.rowAt m = .ok (List.ofFn fun j : Fin X.c => X.get m j) := by
  obtain ⟨m, hm, hm'⟩ := npArgmax_spec (l := List.ofFn fun k => F.fin (v k))
    (by intro h; rw [List.ofFn_eq_nil_iff] at h; omega)
  have e : (List.ofFn fun k => F.fin (v k)) = (List.ofFn v).map F.fin := by rw [List.map_ofFn]; rfl
  rw [e, isArgmax_fin] at hm'
  obtain ⟨h0, -, h2⟩ := hm'
  have hmn : m < n := by simpa using h0
  exact ⟨⟨m, hmn⟩, fun k => by simpa using h2 k (by simp), hm, rowAt_ok X (by omega)⟩

/-- One value of the updated density, computed. -/
theorem up_near {R : Arith} (hR : R.Standard) (a w b c : ℝ) :
    Near ((1 - R.u) ^ 3) ((1 + R.u) ^ 3) (R.fl (R.fl (a * w) * R.fl (b / c))) (a * w * (b / c)) := by
  have lo := hR.lo.le
  have := (hR.near (R.fl (a * w) * R.fl (b / c))).trans lo (by positivity)
    ((hR.near (a * w)).mul lo lo (hR.near (b / c)))
  convert this using 1 <;> ring

/-- The sample `mud_point` selects in floating point. -/
theorem mudPointFl_eval {R : Arith} (Q : DP) (di do_ dp : Dist) {n : ℕ} (hn : 0 < n) (hX : Q.X.r = n)
    (a w b c : Fin n → ℝ) (hw : Q.weights = List.ofFn fun k => F.fin (w k))
    (ha : densAt di Q.X = .ok (List.ofFn fun k => F.fin (a k)))
    (hb : densAt do_ Q.y = .ok (List.ofFn fun k => F.fin (b k)))
    (hc : ∃ out, dp.pdf Q.y = .ok out ∧ out.ravel = List.ofFn fun k => F.fin (c k)) (hc0 : ∀ k, 0 < c k) :
    ∃ m : Fin n, (∀ k, R.fl (R.fl (a k * w k) * R.fl (b k / c k)) ≤ R.fl (R.fl (a m * w m) * R.fl (b m / c m))) ∧
      (DP.mudPointFl R env (Q.after env [.setInitial (some di), .setObserved (some do_),
        .setPredicted (some dp) 0 none])).1 = .ok (List.ofFn fun j : Fin Q.X.c => Q.X.get m j) := by
  obtain ⟨m, h1, h2, h3⟩ := argmax_row Q.X hn hX fun k => R.fl (R.fl (a k * w k) * R.fl (b k / c k))
  refine ⟨m, h1, ?_⟩
  rw [after_set Q di do_ dp ha hb hc]
  have hfit := DP.fitFl_set (R := R) (env := env)
    { Q with
      init := some (List.ofFn fun k => F.fin (a k)), ob := some (List.ofFn fun k => F.fin (b k))
      pr := some (List.ofFn fun k => F.fin (c k)), up := none }
    _ _ _ _ hw rfl rfl rfl
  unfold DP.mudPointFl
  rw [PyM.get_bind_run, Option.isNone_none, PyM.when_true, PyM.bind_run, hfit]
  simp only [PyM.get_bind_run, DP.theAttr, PyM.lift_ok_bind, F.fin_div_of_ne _ (hc0 _).ne', F.fin_mul, F.rnd]
  rw [h2, PyM.lift_ok_bind, PyM.lift_run, h3]

/-- **C138.** Whatever the rounding, the sample `mud_point` returns has an (exact) updated density of at least
`((1 - u)/(1 + u))³` times the largest one. -/
theorem C138_near {R : Arith} (hR : R.Standard) (Q : DP) (di do_ dp : Dist) {n : ℕ} (hn : 0 < n) (hX : Q.X.r = n)
    (a w b c : Fin n → ℝ) (hw : Q.weights = List.ofFn fun k => F.fin (w k))
    (ha : densAt di Q.X = .ok (List.ofFn fun k => F.fin (a k)))
    (hb : densAt do_ Q.y = .ok (List.ofFn fun k => F.fin (b k)))
    (hc : ∃ out, dp.pdf Q.y = .ok out ∧ out.ravel = List.ofFn fun k => F.fin (c k))
    (ha0 : ∀ k, 0 ≤ a k) (hw0 : ∀ k, 0 ≤ w k) (hb0 : ∀ k, 0 ≤ b k) (hc0 : ∀ k, 0 < c k) :
    ∃ m : Fin n, (DP.mudPointFl R env (Q.after env [.setInitial (some di), .setObserved (some do_),
        .setPredicted (some dp) 0 none])).1 = .ok (List.ofFn fun j : Fin Q.X.c => Q.X.get m j) ∧
      ∀ k, ((1 - R.u) / (1 + R.u)) ^ 3 * (a k * w k * (b k / c k)) ≤ a m * w m * (b m / c m) := by
  obtain ⟨m, h1, h2⟩ := mudPointFl_eval (R := R) (env := env) Q di do_ dp hn hX a w b c hw ha hb hc hc0
  refine ⟨m, h2, fun k => ?_⟩
  have h0 : ∀ k, 0 ≤ a k * w k * (b k / c k) := fun k =>
    mul_nonneg (mul_nonneg (ha0 k) (hw0 k)) (div_nonneg (hb0 k) (hc0 k).le)
  have hk := ((up_near hR (a k) (w k) (b k) (c k)).bounds (h0 k)).1
  have hm := ((up_near hR (a m) (w m) (b m) (c m)).bounds (h0 m)).2
  have hi := pow_pos hR.hi 3
  rw [div_pow, div_mul_eq_mul_div, div_le_iff₀ hi]
  linarith [h1 k]

/-- **C138**, the same answer: if one sample beats every other by more than the factor `((1 + u)/(1 - u))³`, the
computed and the exact MUD point are that sample. -/
theorem C138_same {R : Arith} (hR : R.Standard) (Q : DP) (di do_ dp : Dist) {n : ℕ} (hX : Q.X.r = n)
    (a w b c : Fin n → ℝ) (hw : Q.weights = List.ofFn fun k => F.fin (w k))
    (ha : densAt di Q.X = .ok (List.ofFn fun k => F.fin (a k)))
    (hb : densAt do_ Q.y = .ok (List.ofFn fun k => F.fin (b k)))
    (hc : ∃ out, dp.pdf Q.y = .ok out ∧ out.ravel = List.ofFn fun k => F.fin (c k))
    (ha0 : ∀ k, 0 ≤ a k) (hw0 : ∀ k, 0 ≤ w k) (hb0 : ∀ k, 0 ≤ b k) (hc0 : ∀ k, 0 < c k) (i : Fin n)
    (hi : ∀ k ≠ i, a k * w k * (b k / c k) < ((1 - R.u) / (1 + R.u)) ^ 3 * (a i * w i * (b i / c i))) :
    (DP.mudPointFl R env (Q.after env [.setInitial (some di), .setObserved (some do_),
        .setPredicted (some dp) 0 none])).1 = .ok (List.ofFn fun j : Fin Q.X.c => Q.X.get i j) ∧
    (DP.mudPoint env (Q.after env [.setInitial (some di), .setObserved (some do_),
        .setPredicted (some dp) 0 none])).1 = .ok (List.ofFn fun j : Fin Q.X.c => Q.X.get i j) := by
  have hn : 0 < n := i.pos
  constructor
  · obtain ⟨m, h1, h2⟩ := C138_near (env := env) hR Q di do_ dp hn hX a w b c hw ha hb hc ha0 hw0 hb0 hc0
    rcases eq_or_ne m i with rfl | hm
    · exact h1
    · exact absurd (h2 i) (not_le.2 (hi m hm))
  · obtain ⟨m, h1, h2⟩ := C28_mud_point (env := env) Q di do_ dp hn hX (fun k => F.fin (a k)) (fun k => F.fin (w k))
      (fun k => F.fin (b k)) (fun k => F.fin (c k)) hw ha hb hc
    have e : (List.ofFn fun k => F.fin (a k) * F.fin (w k) * (F.fin (b k) / F.fin (c k))) =
        (List.ofFn fun k => a k * w k * (b k / c k)).map F.fin := by
      rw [List.map_ofFn]
      congr 1
      funext k
      rw [F.fin_div_of_ne _ (hc0 k).ne', F.fin_mul, F.fin_mul]
      rfl
    rw [e, isArgmax_fin] at h1
    obtain ⟨h30, -, h3⟩ := h1
    rcases eq_or_ne m i with hmi | hm
    · rw [← hmi]; exact h2
    · have h4 : a i * w i * (b i / c i) ≤ a m * w m * (b m / c m) := by simpa using h3 i (by simp)
      have h0 : 0 ≤ a i * w i * (b i / c i) := mul_nonneg (mul_nonneg (ha0 i) (hw0 i)) (div_nonneg (hb0 i) (hc0 i).le)
      have hq : ((1 - R.u) / (1 + R.u)) ^ 3 ≤ 1 := by
        refine pow_le_one₀ (div_nonneg hR.lo.le hR.hi.le) ?_
        rw [div_le_one hR.hi]
        linarith [hR.u0]
      have := hi m hm
      nlinarith

/-! ## C139 -/

theorem sumF_fin (R : Arith) {n : ℕ} (v : Fin n → ℝ) :
    R.sumF (List.ofFn fun k => F.fin (v k)) = .fin (R.sum (List.ofFn v)) := by
  unfold Arith.sumF
  rw [if_pos (by intro a ha; obtain ⟨k, rfl⟩ := List.mem_ofFn.1 ha; exact ⟨_, rfl⟩), List.map_ofFn]
  rfl

theorem sum_near {R : Arith} (hR : R.Standard) {n : ℕ} (hn : 0 < n) {v : Fin n → ℝ} (hv : ∀ k, 0 ≤ v k) :
    Near ((1 - R.u) ^ (n - 1)) ((1 + R.u) ^ (n - 1)) (R.sum (List.ofFn v)) (∑ k, v k) := by
  have h := flSum_nonneg hR (hR.sum_cons (List.ofFn v) (by
    intro h; rw [List.ofFn_eq_nil_iff] at h; omega)) (by
    intro x hx
    obtain ⟨k, rfl⟩ := List.mem_ofFn.1 (Multiset.mem_coe.1 hx)
    exact hv k)
  simpa [List.sum_ofFn] using h

/-- Sums of terms that are right up to a factor. -/
theorem sum_near_of {n : ℕ} {α β : ℝ} {x e : Fin n → ℝ} (he : ∀ k, 0 ≤ e k) (hαβ : α ≤ β)
    (h : ∀ k, Near α β (x k) (e k)) : Near α β (∑ k, x k) (∑ k, e k) := by
  refine Near.of_bounds hαβ (Finset.sum_nonneg fun k _ => he k) ?_ ?_ <;> rw [Finset.mul_sum]
  · exact Finset.sum_le_sum fun k _ => ((h k).bounds (he k)).1
  · exact Finset.sum_le_sum fun k _ => ((h k).bounds (he k)).2

open Classical in
/-- **C139, sharp form.** -/
theorem C139_sharp {R : Arith} (hR : R.Standard) (Q : DP) (di do_ dp : Dist) {n : ℕ} (a w b c : Fin n → ℝ)
    (hw : Q.weights = List.ofFn fun k => F.fin (w k)) (ha : densAt di Q.X = .ok (List.ofFn fun k => F.fin (a k)))
    (hb : densAt do_ Q.y = .ok (List.ofFn fun k => F.fin (b k)))
    (hc : ∃ out, dp.pdf Q.y = .ok out ∧ out.ravel = List.ofFn fun k => F.fin (c k))
    (hw0 : ∀ k, 0 ≤ w k) (hb0 : ∀ k, 0 ≤ b k) (hc0 : ∀ k, 0 < c k) (hpos : ∃ k, 0 < w k) :
    ∃ ρ ρ' : ℝ, 0 ≤ ρ ∧
      (DP.expectedRatio env (Q.after env [.setInitial (some di), .setObserved (some do_),
        .setPredicted (some dp) 0 none])).1 = .ok (.fin ρ) ∧
      (DP.expectedRatioFl R env (Q.after env [.setInitial (some di), .setObserved (some do_),
        .setPredicted (some dp) 0 none])).1 = .ok (.fin ρ') ∧
      (1 - R.u) ^ (n + 2) / (1 + R.u) ^ (n - 1) * ρ ≤ ρ' ∧ ρ' ≤ (1 + R.u) ^ (n + 2) / (1 - R.u) ^ (n - 1) * ρ := by
  obtain ⟨k₀, hk₀⟩ := hpos
  have hn : 0 < n := k₀.pos
  have lo := hR.lo
  have hi := hR.hi
  have hW : 0 < ∑ k, w k := Finset.sum_pos' (fun k _ => hw0 k) ⟨k₀, Finset.mem_univ _, hk₀⟩
  have hr0 : ∀ k, 0 ≤ b k / c k := fun k => div_nonneg (hb0 k) (hc0 k).le
  have hsw := sum_near hR hn hw0
  have hsw0 : 0 < R.sum (List.ofFn w) := (mul_pos (pow_pos lo _) hW).trans_le (hsw.bounds hW.le).1
  refine ⟨(∑ k, w k * (b k / c k)) / ∑ k, w k,
    R.fl (R.sum (List.ofFn fun k => R.fl (R.fl (b k / c k) * w k)) / R.sum (List.ofFn w)),
    div_nonneg (Finset.sum_nonneg fun k _ => mul_nonneg (hw0 k) (hr0 k)) hW.le, ?_, ?_, ?_⟩
  · rw [C34_weighted_mean Q di do_ dp a w b c hw ha hb hc fun k => (hc0 k).ne', if_neg hW.ne']
  · rw [after_set Q di do_ dp ha hb hc]
    have hfit := DP.fitFl_set (R := R) (env := env)
      { Q with
        init := some (List.ofFn fun k => F.fin (a k)), ob := some (List.ofFn fun k => F.fin (b k))
        pr := some (List.ofFn fun k => F.fin (c k)), up := none }
      _ _ _ _ hw rfl rfl rfl
    unfold DP.expectedRatioFl
    rw [PyM.get_bind_run, Option.isNone_none, PyM.when_true, PyM.bind_run, hfit]
    simp only [PyM.get_bind_run, DP.theAttr, PyM.lift_ok_bind, PyM.lift_run, hw, F.fin_div_of_ne _ (hc0 _).ne', F.rnd]
    unfold DP.npAverageFl
    have z : List.zipWith (fun x y : F => (x * y).rnd R.fl) (List.ofFn fun k => F.fin (R.fl (b k / c k)))
        (List.ofFn fun k => F.fin (w k)) = List.ofFn fun k => F.fin (R.fl (R.fl (b k / c k) * w k)) := by
      apply List.ext_getElem
      · simp
      · intro i h1 h2
        simp only [List.getElem_zipWith, List.getElem_ofFn, F.fin_mul, F.rnd]
    rw [z, sumF_fin, sumF_fin, raiseIf_false (by simp), Py.ok_bind, raiseIf_false (p := F.fin (R.sum (List.ofFn w)) = F.fin 0) (by
      rw [F.fin_inj]; exact hsw0.ne'), Py.ok_bind, F.fin_div_of_ne _ hsw0.ne']
    rfl
  · have t : ∀ k, Near ((1 - R.u) ^ 2) ((1 + R.u) ^ 2) (R.fl (R.fl (b k / c k) * w k)) (w k * (b k / c k)) := by
      intro k
      have := (hR.near (R.fl (b k / c k) * w k)).trans lo.le (by rw [mul_one]; exact lo.le)
        ((hR.near (b k / c k)).mul lo.le zero_le_one (Near.refl (w k)))
      rw [mul_one, mul_one, ← pow_two, ← pow_two] at this
      rwa [mul_comm (w k)]
    have h01 : (1 - R.u) ^ 2 ≤ (1 + R.u) ^ 2 := pow_le_pow_left₀ lo.le (by linarith [hR.u0]) 2
    have s1 := (sum_near hR hn (v := fun k => R.fl (R.fl (b k / c k) * w k)) fun k =>
      hR.fl_nonneg (mul_nonneg (hR.fl_nonneg (hr0 k)) (hw0 k))).trans (by positivity) (by positivity)
      (sum_near_of (fun k => mul_nonneg (hw0 k) (hr0 k)) h01 t)
    have s2 := (hR.near _).trans lo.le (by positivity) (s1.mul (by positivity) (by positivity) (hsw.inv (pow_pos lo _)))
    have hbd := s2.bounds (mul_nonneg (Finset.sum_nonneg fun k _ => mul_nonneg (hw0 k) (hr0 k)) (inv_nonneg.2 hW.le))
    have ex : ∀ t : ℝ, t * (t ^ (n - 1) * t ^ 2) = t ^ (n + 2) := by
      intro t
      rw [← pow_add, ← pow_succ']
      congr 1
      omega
    rw [← mul_assoc (1 - R.u), ← mul_assoc (1 + R.u), ex, ex] at hbd
    simpa only [div_eq_mul_inv] using hbd

/-- **C139.** With nonnegative weights that are not all 0 and `3 n u ≤ 1`, the expected ratio computed in floating
point, the sums taken in any order, is within `6 n u` times the exact one of it. -/
theorem C139_ratio {R : Arith} (hR : R.Standard) (Q : DP) (di do_ dp : Dist) {n : ℕ} (a w b c : Fin n → ℝ)
    (hw : Q.weights = List.ofFn fun k => F.fin (w k)) (ha : densAt di Q.X = .ok (List.ofFn fun k => F.fin (a k)))
    (hb : densAt do_ Q.y = .ok (List.ofFn fun k => F.fin (b k)))
    (hc : ∃ out, dp.pdf Q.y = .ok out ∧ out.ravel = List.ofFn fun k => F.fin (c k))
    (hw0 : ∀ k, 0 ≤ w k) (hb0 : ∀ k, 0 ≤ b k) (hc0 : ∀ k, 0 < c k) (hpos : ∃ k, 0 < w k)
    (hu : 3 * n * R.u ≤ 1) :
    ∃ ρ ρ' : ℝ,
      (DP.expectedRatio env (Q.after env [.setInitial (some di), .setObserved (some do_),
        .setPredicted (some dp) 0 none])).1 = .ok (.fin ρ) ∧
      (DP.expectedRatioFl R env (Q.after env [.setInitial (some di), .setObserved (some do_),
        .setPredicted (some dp) 0 none])).1 = .ok (.fin ρ') ∧ |ρ' - ρ| ≤ 6 * n * R.u * ρ := by
  obtain ⟨ρ, ρ', h0, h1, h2, h3, h4⟩ := C139_sharp (env := env) hR Q di do_ dp a w b c hw ha hb hc hw0 hb0 hc0 hpos
  refine ⟨ρ, ρ', h1, h2, ?_⟩
  obtain ⟨k₀, -⟩ := hpos
  obtain ⟨m, rfl⟩ : ∃ m, n = m + 1 := ⟨n - 1, by have := k₀.pos; omega⟩
  have u0 := hR.u0
  rw [Nat.add_sub_cancel] at h3 h4
  push_cast at hu ⊢
  have hm0 : (0 : ℝ) ≤ m := Nat.cast_nonneg m
  have hu2 : R.u ≤ 1 / 2 := by nlinarith
  have up := rounding_const u0 hu2 (k := m + 1 + 2) (l := m) (by push_cast; linarith)
  push_cast at up
  have dn : 1 - (2 * m + 3 : ℝ) * R.u ≤ (1 - R.u) ^ (m + 1 + 2) / (1 + R.u) ^ m := by
    have hi := hR.hi
    rw [le_div_iff₀ (pow_pos hi m)]
    have hb := one_add_mul_le_pow (a := -R.u) (by linarith [hR.u1]) (m + (m + 1 + 2))
    have h5 : (1 - R.u) ^ m * (1 + R.u) ^ m ≤ 1 := by
      rw [← mul_pow]
      refine pow_le_one₀ (mul_nonneg hR.lo.le hi.le) ?_
      nlinarith
    have h6 : (1 - R.u) ^ (m + (m + 1 + 2)) * (1 + R.u) ^ m ≤ (1 - R.u) ^ (m + 1 + 2) := by
      rw [pow_add, mul_assoc, mul_comm ((1 - R.u) ^ (m + 1 + 2)), ← mul_assoc]
      exact mul_le_of_le_one_left (pow_nonneg hR.lo.le _) h5
    refine le_trans (mul_le_mul_of_nonneg_right ?_ (pow_nonneg hi.le m)) h6
    push_cast at hb
    rw [← sub_eq_add_neg] at hb
    linarith
  rw [abs_le]
  constructor
  · have := mul_le_mul_of_nonneg_right dn h0
    nlinarith [mul_nonneg u0 h0, mul_nonneg hm0 (mul_nonneg u0 h0)]
  · have := mul_le_mul_of_nonneg_right up h0
    nlinarith [mul_nonneg u0 h0, mul_nonneg hm0 (mul_nonneg u0 h0)]

/-! ## C140 -/

theorem bset_state (Q : BP) (dp d : Dist) (log : Bool) {a b : List F}
    (ha : densAt dp Q.X = .ok a) (hb : likeAt d log Q.y = .ok b) :
    Q.after [.setPrior (some dp), .setLikelihood d log] =
      { Q with pr := some a, ll := some b, log := log, ps := none } := by
  obtain ⟨o, ho, ho'⟩ := Py.bind_eq_ok.1 ha
  cases log
  · obtain ⟨o2, ho2, ho2'⟩ := Py.bind_eq_ok.1 (show densAt d Q.y = .ok b from hb)
    simp only [BP.after, List.foldl_cons, List.foldl_nil, BOp.run, BP.setPrior, BP.setLikelihood,
      PyM.get_bind_run, Option.getD_some, ho, ho', PyM.lift_ok_bind, PyM.modify_run, ho2, ho2',
      PyM.modify_bind_run, Bool.false_eq_true, if_false]
  · obtain ⟨o2, ho2, ho2'⟩ := Py.bind_eq_ok.1
      (show (do let out ← d.logpdf Q.y; out.sumRows : Py (List F)) = .ok b from hb)
    simp only [BP.after, List.foldl_cons, List.foldl_nil, BOp.run, BP.setPrior, BP.setLikelihood,
      PyM.get_bind_run, Option.getD_some, ho, ho', PyM.lift_ok_bind, PyM.modify_run, ho2, ho2',
      PyM.modify_bind_run, if_true]

/-- One value of the posterior, computed. -/
noncomputable def postFl (R : Arith) (log : Bool) (a b : ℝ) : ℝ :=
  if log then R.fl (R.fl (Real.log a) + b) else R.fl (a * b)

open Classical in
theorem mapPointFl_eval {R : Arith} (Q : BP) (dp d : Dist) (log : Bool) {n : ℕ} (hn : 0 < n) (hX : Q.X.r = n)
    (a b : Fin n → ℝ) (ha : densAt dp Q.X = .ok (List.ofFn fun k => F.fin (a k)))
    (hb : likeAt d log Q.y = .ok (List.ofFn fun k => F.fin (b k))) (ha0 : log = true → ∀ k, 0 < a k) :
    ((BP.mapPointFl R (Q.after [.setPrior (some dp), .setLikelihood d log])).1 = .error .valueError ∧
      R.sum (List.ofFn fun k => postFl R log (a k) (b k)) = 0) ∨
    R.sum (List.ofFn fun k => postFl R log (a k) (b k)) ≠ 0 ∧
    ∃ m : Fin n, (∀ k, postFl R log (a k) (b k) ≤ postFl R log (a m) (b m)) ∧
      (BP.mapPointFl R (Q.after [.setPrior (some dp), .setLikelihood d log])).1 =
        .ok (List.ofFn fun j : Fin Q.X.c => Q.X.get m j) := by
  obtain ⟨m, h1, h2, h3⟩ := argmax_row Q.X hn hX fun k => postFl R log (a k) (b k)
  rw [bset_state Q dp d log ha hb]
  have hv : (if log = true
      then bzip1 (fun a b => (a + b).rnd R.fl) ((List.ofFn fun k => F.fin (a k)).map fun a => a.log.rnd R.fl)
        (List.ofFn fun k => F.fin (b k))
      else bzip1 (fun a b => (a * b).rnd R.fl) (List.ofFn fun k => F.fin (a k)) (List.ofFn fun k => F.fin (b k))) =
      .ok (List.ofFn fun k => F.fin (postFl R log (a k) (b k))) := by
    cases log
    · simp only [Bool.false_eq_true, if_false, bzip1_ofFn, postFl, F.fin_mul, F.rnd]
    · simp only [if_true, List.map_ofFn, bzip1_ofFn, postFl, Function.comp_def, F.log_fin_pos (ha0 rfl _), F.rnd,
        F.fin_add]
  unfold BP.mapPointFl BP.fitFl
  simp only [Option.isNone_none, PyM.when_true, PyM.bind_run, Option.isNone_some, PyM.when_false, DP.theAttr, PyM.lift_ok_bind, PyM.get_run, PyM.lift_run, hv, PyM.pure_run]
  rw [pyAssert_true (by rw [List.length_ofFn]; exact hX.symm)]
  dsimp only
  rw [sumF_fin]
  by_cases hs : R.sum (List.ofFn fun k => postFl R log (a k) (b k)) = 0
  · left
    rw [raiseIf_true (by rw [hs])]
    exact ⟨rfl, hs⟩
  · right
    rw [raiseIf_false (by rw [F.fin_inj]; exact hs)]
    refine ⟨hs, m, h1, ?_⟩
    simp only [PyM.modify_run, h2, h3]

/-- **C140**, plain mode: whatever the rounding, `map_point` raises `ValueError` exactly if the posterior vanishes at
every sample; otherwise the sample it returns has an (exact) posterior density of at least `(1 - u)/(1 + u)` times the
largest one. -/
theorem C140_plain {R : Arith} (hR : R.Standard) (Q : BP) (dp d : Dist) {n : ℕ} (hn : 0 < n) (hX : Q.X.r = n)
    (a b : Fin n → ℝ) (ha : densAt dp Q.X = .ok (List.ofFn fun k => F.fin (a k)))
    (hb : densAt d Q.y = .ok (List.ofFn fun k => F.fin (b k))) (ha0 : ∀ k, 0 ≤ a k) (hb0 : ∀ k, 0 ≤ b k) :
    ((BP.mapPointFl R (Q.after [.setPrior (some dp), .setLikelihood d false])).1 = .error .valueError ↔
      ∀ k, a k * b k = 0) ∧
    ((∃ k, a k * b k ≠ 0) → ∃ m : Fin n,
      (BP.mapPointFl R (Q.after [.setPrior (some dp), .setLikelihood d false])).1 =
        .ok (List.ofFn fun j : Fin Q.X.c => Q.X.get m j) ∧
      ∀ k, (1 - R.u) / (1 + R.u) * (a k * b k) ≤ a m * b m) := by
  have h0 : ∀ k, 0 ≤ a k * b k := fun k => mul_nonneg (ha0 k) (hb0 k)
  have hp : ∀ k, postFl R false (a k) (b k) = R.fl (a k * b k) := fun k => if_neg (by simp)
  have hsum := sum_near hR hn (v := fun k => R.fl (a k * b k)) fun k => hR.fl_nonneg (h0 k)
  have hS0 : 0 ≤ ∑ k, R.fl (a k * b k) := Finset.sum_nonneg fun k _ => hR.fl_nonneg (h0 k)
  have hz : R.sum (List.ofFn fun k => R.fl (a k * b k)) = 0 ↔ ∀ k, a k * b k = 0 := by
    constructor
    · intro h k
      have h1 := (hsum.bounds hS0).1
      rw [h] at h1
      have h2 : ∑ k, R.fl (a k * b k) = 0 :=
        le_antisymm (nonpos_of_mul_nonpos_right h1 (pow_pos hR.lo _)) hS0
      exact hR.fl_eq_zero.1 ((Finset.sum_eq_zero_iff_of_nonneg fun k _ => hR.fl_nonneg (h0 k)).1 h2 k (Finset.mem_univ _))
    · intro h
      have : ∑ k, R.fl (a k * b k) = 0 := Finset.sum_eq_zero fun k _ => hR.fl_eq_zero.2 (h k)
      obtain ⟨θ, -, -, e⟩ := hsum
      rw [e, this, mul_zero]
  have key := mapPointFl_eval (R := R) Q dp d false hn hX a b ha (by exact hb) (by simp)
  simp only [hp] at key
  rcases key with ⟨h1, h2⟩ | ⟨h2, m, h3, h4⟩
  · have h5 := hz.1 h2
    exact ⟨⟨fun _ => h5, fun _ => h1⟩, fun ⟨k, hk⟩ => absurd (h5 k) hk⟩
  · refine ⟨⟨fun h => ?_, fun h => absurd (hz.2 h) h2⟩, fun _ => ⟨m, h4, fun k => ?_⟩⟩
    · rw [h4] at h; cases h
    · have g1 := ((hR.near (a k * b k)).bounds (h0 k)).1
      have g2 := ((hR.near (a m * b m)).bounds (h0 m)).2
      rw [div_mul_eq_mul_div, div_le_iff₀ hR.hi]
      linarith [h3 k]

/-- **C140**, log mode: unless it raises `ValueError`, `map_point` returns a sample whose (exact) log posterior is
largest up to the rounding errors `u ((1 + u)|log prior| + |log posterior|)` of the two samples. -/
theorem C140_log {R : Arith} (hR : R.Standard) (Q : BP) (dp d : Dist) {n : ℕ} (hn : 0 < n) (hX : Q.X.r = n)
    (a b : Fin n → ℝ) (ha : densAt dp Q.X = .ok (List.ofFn fun k => F.fin (a k))) (ha0 : ∀ k, 0 < a k)
    {out : FOut} (hout : d.logpdf Q.y = .ok out) (hb : out.sumRows = .ok (List.ofFn fun k => F.fin (b k))) :
    (BP.mapPointFl R (Q.after [.setPrior (some dp), .setLikelihood d true])).1 = .error .valueError ∨
    ∃ m : Fin n, (BP.mapPointFl R (Q.after [.setPrior (some dp), .setLikelihood d true])).1 =
        .ok (List.ofFn fun j : Fin Q.X.c => Q.X.get m j) ∧
      ∀ k, Real.log (a k) + b k - R.u * ((1 + R.u) * |Real.log (a k)| + |Real.log (a k) + b k|) ≤
        Real.log (a m) + b m + R.u * ((1 + R.u) * |Real.log (a m)| + |Real.log (a m) + b m|) := by
  have hb' : likeAt d true Q.y = .ok (List.ofFn fun k => F.fin (b k)) := by
    show (do let out ← d.logpdf Q.y; out.sumRows : Py (List F)) = _
    rw [hout, Py.ok_bind, hb]
  have err : ∀ x y : ℝ, |R.fl (R.fl x + y) - (x + y)| ≤ R.u * ((1 + R.u) * |x| + |x + y|) := by
    intro x y
    have h1 := hR.err x
    have h2 := hR.err (R.fl x + y)
    have h3 : |R.fl x + y| ≤ |x + y| + R.u * |x| := by
      have : R.fl x + y = (x + y) + (R.fl x - x) := by ring
      rw [this]
      linarith [abs_add_le (x + y) (R.fl x - x)]
    have h4 : |R.fl (R.fl x + y) - (x + y)| ≤ |R.fl (R.fl x + y) - (R.fl x + y)| + |R.fl x - x| := by
      refine le_trans (le_of_eq ?_) (abs_add_le _ _)
      congr 1; ring
    nlinarith [mul_le_mul_of_nonneg_left h3 hR.u0]
  have hp : ∀ k, postFl R true (a k) (b k) = R.fl (R.fl (Real.log (a k)) + b k) := fun k => if_pos rfl
  have key := mapPointFl_eval (R := R) Q dp d true hn hX a b ha hb' fun _ => ha0
  simp only [hp] at key
  rcases key with ⟨h1, -⟩ | ⟨-, m, h3, h4⟩
  · exact Or.inl h1
  · refine Or.inr ⟨m, h4, fun k => ?_⟩
    have g1 := (abs_le.1 (err (Real.log (a k)) (b k))).1
    have g2 := (abs_le.1 (err (Real.log (a m)) (b m))).2
    linarith [h3 k]

/-! ## Consistency with the exact model -/

/-- Arithmetic without rounding. -/
noncomputable def exactArith : Arith := ⟨id, 0, List.sum⟩

theorem exact_standard : exactArith.Standard where
  u0 := le_rfl
  u1 := zero_lt_one
  err x := by simp [exactArith]
  sum_nil := rfl
  sum_cons l hl := by
    induction l with
    | nil => exact absurd rfl hl
    | cons x l ih =>
      rcases eq_or_ne l [] with rfl | h
      · have := FlSum.single (fl := exactArith.fl) x
        simpa [exactArith] using this
      · have := (FlSum.single (fl := exactArith.fl) x).add (ih h)
        simpa [exactArith] using this

theorem rnd_id (a : F) : a.rnd exactArith.fl = a := by cases a <;> rfl

theorem sumF_exact (l : List F) : exactArith.sumF l = l.sum := by
  unfold Arith.sumF
  split_ifs with h
  · show F.fin ((l.map F.val).sum) = l.sum
    induction l with
    | nil => rfl
    | cons a l ih =>
      obtain ⟨x, rfl⟩ := h a (by simp)
      rw [List.map_cons, List.sum_cons, List.sum_cons, ← ih fun b hb => h b (by simp [hb])]
      rfl
  · rfl

open Classical in
/-- Without rounding the floating-point model is the exact model. -/
theorem rounded_exact : DP.fitFl exactArith env = DP.fit env ∧ DP.mudPointFl exactArith env = DP.mudPoint env ∧
    DP.expectedRatioFl exactArith env = DP.expectedRatio env ∧ BP.fitFl exactArith = BP.fit ∧
    BP.mapPointFl exactArith = BP.mapPoint := by
  have hr : ∀ (l : List F) (e : Err), raiseIf (exactArith.sumF l = F.fin 0) e = raiseIf (l.sum = F.fin 0) e := by
    intro l e
    rw [sumF_exact]
  have h1 : DP.fitFl exactArith env = DP.fit env := by
    unfold DP.fitFl DP.fit
    simp only [rnd_id]
  have h2 : BP.fitFl exactArith = BP.fit := by
    unfold BP.fitFl BP.fit
    simp only [rnd_id, hr]
  refine ⟨h1, ?_, ?_, h2, ?_⟩
  · unfold DP.mudPointFl DP.mudPoint
    rw [h1]
  · unfold DP.expectedRatioFl DP.expectedRatio DP.npAverageFl DP.npAverage
    rw [h1]
    simp only [rnd_id, sumF_exact]
  · unfold BP.mapPointFl BP.mapPoint
    rw [h2]

/-! ### Cases meeting the hypotheses: double precision -/

theorem double_standard : (binary 53).Standard := binary_standard (by norm_num)

example : (binary 53).u = 1 / 2 ^ 53 := rfl

/-- Two binary digits: 5 is rounded to 6. -/
example : roundTo 2 5 = 6 := by
  have h : Int.log 2 |(5 : ℝ)| = 2 := by
    have e : |(5 : ℝ)| = ((5 : ℕ) : ℝ) := by norm_num
    have e2 : Nat.log 2 5 = 2 := by rw [Nat.log_eq_iff] <;> norm_num
    rw [e, Int.log_natCast, e2]
    rfl
  have hr : round ((5 : ℝ) / 2) = 3 := by
    rw [round_eq, Int.floor_eq_iff]
    norm_num
  unfold roundTo
  rw [h]
  norm_num [hr]

example := C137_wme double_standard (S := 2) !![(1 : ℝ), 2, 4; 0, 1, 1] ![1, 1, 3] (s := 1 / 10) (by norm_num)
  (by norm_num) (by simp only [binary]; norm_num)
example := C137_sharp double_standard (S := 2) !![(1 : ℝ), 2, 4; 0, 1, 1] ![1, 1, 3] (s := 1 / 10) (by norm_num)
  (by norm_num)
example := C137_zero double_standard ![(1 : ℝ), 1, 3] (1 / 10)

example := C138_near (env := env) double_standard { demoP with weights := [.fin 1, .fin 3] }
    (distOf fun _ => 1) (distOf fun x => 2 - x) (distOf fun x => 1 + x) (n := 2) (by norm_num) rfl
    ![1, 1] ![1, 3] ![2 - 0, 2 - 1] ![1 + 0, 1 + 1]
    (by simp) ((demo_densAt _).trans (by simp)) ((demo_densAt _).trans (by simp))
    (by obtain ⟨o, h1, h2⟩ := demo_ravel (fun x => 1 + x); exact ⟨o, h1, h2.trans (by simp)⟩)
    (by intro k; fin_cases k <;> norm_num) (by intro k; fin_cases k <;> norm_num)
    (by intro k; fin_cases k <;> norm_num) (by intro k; fin_cases k <;> norm_num)

/-- Updated densities 2 and 3/2: the first sample is returned with and without rounding. -/
example := C138_same (env := env) double_standard { demoP with weights := [.fin 1, .fin 3] }
    (distOf fun _ => 1) (distOf fun x => 2 - x) (distOf fun x => 1 + x) (n := 2) rfl
    ![1, 1] ![1, 3] ![2 - 0, 2 - 1] ![1 + 0, 1 + 1]
    (by simp) ((demo_densAt _).trans (by simp)) ((demo_densAt _).trans (by simp))
    (by obtain ⟨o, h1, h2⟩ := demo_ravel (fun x => 1 + x); exact ⟨o, h1, h2.trans (by simp)⟩)
    (by intro k; fin_cases k <;> norm_num) (by intro k; fin_cases k <;> norm_num)
    (by intro k; fin_cases k <;> norm_num) (by intro k; fin_cases k <;> norm_num) 0
    (by
      intro k hk
      have : k = 1 := by omega
      subst this
      simp only [binary]
      norm_num)

example := C139_ratio (env := env) double_standard { demoP with weights := [.fin 1, .fin 3] }
    (distOf fun _ => 1) (distOf fun x => 2 - x) (distOf fun x => 1 + x) (n := 2)
    ![1, 1] ![1, 3] ![2 - 0, 2 - 1] ![1 + 0, 1 + 1]
    (by simp) ((demo_densAt _).trans (by simp)) ((demo_densAt _).trans (by simp))
    (by obtain ⟨o, h1, h2⟩ := demo_ravel (fun x => 1 + x); exact ⟨o, h1, h2.trans (by simp)⟩)
    (by intro k; fin_cases k <;> norm_num) (by intro k; fin_cases k <;> norm_num)
    (by intro k; fin_cases k <;> norm_num) ⟨0, by norm_num⟩ (by simp only [binary]; norm_num)

example := C139_sharp (env := env) double_standard { demoP with weights := [.fin 1, .fin 3] }
    (distOf fun _ => 1) (distOf fun x => 2 - x) (distOf fun x => 1 + x) (n := 2)
    ![1, 1] ![1, 3] ![2 - 0, 2 - 1] ![1 + 0, 1 + 1]
    (by simp) ((demo_densAt _).trans (by simp)) ((demo_densAt _).trans (by simp))
    (by obtain ⟨o, h1, h2⟩ := demo_ravel (fun x => 1 + x); exact ⟨o, h1, h2.trans (by simp)⟩)
    (by intro k; fin_cases k <;> norm_num) (by intro k; fin_cases k <;> norm_num)
    (by intro k; fin_cases k <;> norm_num) ⟨0, by norm_num⟩

example : ∃ m : Fin 2, (BP.mapPointFl (binary 53) (demoB.after [.setPrior (some (distOf fun x => 1 - x / 2)),
      .setLikelihood (distOf fun x => 1 + 2 * x) false])).1 =
        .ok (List.ofFn fun j : Fin 1 => demoB.X.get m j) := by
  have h := demoB_pair (fun x => 1 - x / 2) (fun x => 1 + 2 * x) (by norm_num) (by norm_num)
    (by norm_num) (by norm_num)
  obtain ⟨m, e, -⟩ := (C140_plain double_standard demoB _ _ (n := 2) (by norm_num) h.rows _ _ h.prior h.like
    h.prior0 (fun k => Finset.prod_nonneg fun j _ => h.pdf0 k j)).2 ⟨0, by norm_num⟩
  exact ⟨m, e⟩

example : (BP.mapPointFl (binary 53) (demoB.after [.setPrior (some (distOf fun x => 1 - x / 2)),
      .setLikelihood (distOf fun x => 1 + 2 * x) true])).1 = .error .valueError ∨
    ∃ m : Fin 2, (BP.mapPointFl (binary 53) (demoB.after [.setPrior (some (distOf fun x => 1 - x / 2)),
      .setLikelihood (distOf fun x => 1 + 2 * x) true])).1 =
        .ok (List.ofFn fun j : Fin 1 => demoB.X.get m j) := by
  have h := demoB_pair (fun x => 1 - x / 2) (fun x => 1 + 2 * x) (by norm_num) (by norm_num)
    (by norm_num) (by norm_num)
  have hlp : (distOf fun x => 1 + 2 * x).logpdf demoB.y =
      .ok (tabOf fun (i : Fin 2) (_ : Fin 1) => F.fin (![Real.log 1, Real.log 3] i)) := by
    rw [h.logpdf]
    congr 2
    funext i j
    fin_cases i
    · norm_num [F.log]
    · norm_num [F.log]
  rcases C140_log double_standard demoB (distOf fun x => 1 - x / 2) (distOf fun x => 1 + 2 * x) (n := 2)
    (by norm_num) rfl ![1 - 0 / 2, 1 - 1 / 2] ![Real.log 1, Real.log 3] h.prior
    (by intro k; fin_cases k <;> norm_num) hlp (by simp [tabOf, FOut.sumRows]) with e | ⟨m, e, -⟩
  · exact Or.inl e
  · exact Or.inr ⟨m, e⟩

end Verif
