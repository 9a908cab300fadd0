import Mathlib.Data.Real.Basic
import Mathlib.Algebra.BigOperators.Group.Finset.Basic
import Mathlib.Algebra.BigOperators.Fin
import Mathlib.Analysis.SpecialFunctions.Log.Basic
import Mathlib.Tactic.Linarith

/-!
# Floating-point special values

`F` is the set of values a NumPy float can take in the density computations of
`/repo/src/mud`: exact reals plus `inf`, `-inf` and `nan`, with the IEEE rules for them.
Simplifications: no rounding, no overflow of finite values, no signed zero
(division by zero takes the sign of the numerator).
-/

namespace Verif

/-- A float: finite (exact), `inf`, `-inf` or `nan`. For `funs.py:23-47`, `base.py:174-422`. -/
inductive F
  | fin (x : ℝ)
  | pinf
  | ninf
  | nan

namespace F

/-- The notation. For `funs.py:23-47`, `base.py:174-422`. -/
instance : Coe ℝ F := ⟨F.fin⟩
/-- The notation. For `funs.py:23-47`, `base.py:174-422`. -/
instance : Inhabited F := ⟨.fin 0⟩

/-- `+`. For `funs.py:23-47`, `base.py:174-422`. -/
def add : F → F → F
  | fin x, fin y => fin (x + y)
  | fin _, pinf => pinf
  | fin _, ninf => ninf
  | pinf, fin _ => pinf
  | ninf, fin _ => ninf
  | pinf, pinf => pinf
  | ninf, ninf => ninf
  | _, _ => nan

/-- unary minus. For `funs.py:23-47`, `base.py:174-422`. -/
def neg : F → F
  | fin x => fin (-x)
  | pinf => ninf
  | ninf => pinf
  | nan => nan

/-- A real with the sign of the value (0 for `nan`). For `funs.py:23-47`, `base.py:174-422`. -/
def sgn : F → ℝ
  | fin x => x
  | pinf => 1
  | ninf => -1
  | nan => 0

/-- Infinity with the sign of `s`; `nan` for `s = 0`. For `funs.py:23-47`, `base.py:174-422`. -/
noncomputable def infOf (s : ℝ) : F := if 0 < s then pinf else if s < 0 then ninf else nan

/-- `*`. For `funs.py:23-47`, `base.py:174-422`. -/
noncomputable def mul : F → F → F
  | fin x, fin y => fin (x * y)
  | a, b => infOf (a.sgn * b.sgn)

/-- `/`: division by zero gives an infinity with the sign of the numerator, `0/0 = nan`,
`inf/inf = nan`. For `funs.py:23-47`, `base.py:174-422`. -/
noncomputable def div : F → F → F
  | fin x, fin y => if y = 0 then infOf x else fin (x / y)
  | fin _, pinf => fin 0
  | fin _, ninf => fin 0
  | pinf, fin y => if y = 0 then pinf else infOf y
  | ninf, fin y => if y = 0 then ninf else infOf (-y)
  | _, _ => nan

/-- `np.log`: `-inf` at 0, `nan` for negative numbers. For `funs.py:23-47`, `base.py:174-422`. -/
noncomputable def log : F → F
  | fin x => if x = 0 then ninf else if x < 0 then nan else fin (Real.log x)
  | pinf => pinf
  | ninf => nan
  | nan => nan

/-- `a < b` (false if either is `nan`). For `funs.py:23-47`, `base.py:174-422`. -/
def lt : F → F → Prop
  | fin x, fin y => x < y
  | fin _, pinf => True
  | ninf, fin _ => True
  | ninf, pinf => True
  | _, _ => False

/-- The notation. For `funs.py:23-47`, `base.py:174-422`. -/
noncomputable instance : Add F := ⟨add⟩
/-- The notation. For `funs.py:23-47`, `base.py:174-422`. -/
noncomputable instance : Mul F := ⟨mul⟩
/-- The notation. For `funs.py:23-47`, `base.py:174-422`. -/
noncomputable instance : Div F := ⟨div⟩
/-- The notation. For `funs.py:23-47`, `base.py:174-422`. -/
instance : Neg F := ⟨neg⟩
/-- The notation. For `funs.py:23-47`, `base.py:174-422`. -/
instance : Zero F := ⟨fin 0⟩
/-- The notation. For `funs.py:23-47`, `base.py:174-422`. -/
instance : One F := ⟨fin 1⟩

@[simp] theorem fin_add (x y : ℝ) : (fin x + fin y : F) = fin (x + y) := rfl
@[simp] theorem fin_mul (x y : ℝ) : (fin x * fin y : F) = fin (x * y) := rfl
theorem fin_div (x y : ℝ) : (fin x / fin y : F) = if y = 0 then infOf x else fin (x / y) := rfl
theorem fin_div_of_ne (x : ℝ) {y : ℝ} (h : y ≠ 0) : (fin x / fin y : F) = fin (x / y) := by
  rw [fin_div, if_neg h]
theorem zero_def : (0 : F) = fin 0 := rfl
theorem one_def : (1 : F) = fin 1 := rfl
@[simp] theorem fin_inj {x y : ℝ} : fin x = fin y ↔ x = y := by
  constructor
  · intro h; injection h
  · rintro rfl; rfl

/-- The notation. For `funs.py:23-47`, `base.py:174-422`. -/
noncomputable instance : AddCommMonoid F where
  add := add
  zero := fin 0
  add_assoc a b c := by
    change add (add a b) c = add a (add b c)
    cases a <;> cases b <;> cases c <;> simp [add, add_assoc]
  zero_add a := by
    change add (fin 0) a = a
    cases a <;> simp [add]
  add_zero a := by
    change add a (fin 0) = a
    cases a <;> simp [add]
  add_comm a b := by
    change add a b = add b a
    cases a <;> cases b <;> simp [add, add_comm]
  nsmul := nsmulRec

theorem infOf_mul_pos {s t : ℝ} (h : 0 < t) : infOf (s * t) = infOf s := by
  unfold infOf
  by_cases h1 : 0 < s
  · rw [if_pos h1, if_pos (mul_pos h1 h)]
  · by_cases h2 : s < 0
    · rw [if_neg h1, if_pos h2, if_neg, if_pos (mul_neg_of_neg_of_pos h2 h)]
      exact not_lt.2 (mul_neg_of_neg_of_pos h2 h).le
    · have : s = 0 := le_antisymm (not_lt.1 h1) (not_lt.1 h2)
      subst this; simp

theorem infOf_sgn_mul (s t : ℝ) : infOf ((infOf s).sgn * t) = infOf (s * t) := by
  rcases lt_trichotomy s 0 with h | h | h
  · have e : (infOf s).sgn = -1 := by
      unfold infOf; rw [if_neg (not_lt.2 h.le), if_pos h]; rfl
    rw [e]
    have : s * t = (-1 * t) * (-s) := by ring
    rw [this, infOf_mul_pos (s := -1 * t) (t := -s) (by linarith)]
  · subst h
    have e : (infOf 0).sgn = 0 := by unfold infOf; simp [sgn]
    rw [e]
  · have e : (infOf s).sgn = 1 := by unfold infOf; rw [if_pos h]; rfl
    rw [e, mul_comm s t, infOf_mul_pos h, one_mul]

/-- Is the value finite?. For `funs.py:23-47`, `base.py:174-422`. -/
def isFin : F → Prop
  | fin _ => True
  | _ => False

theorem mul_of_not {a b : F} (h : ¬ (a.isFin ∧ b.isFin)) : a * b = infOf (a.sgn * b.sgn) := by
  change mul a b = _
  cases a <;> cases b <;> simp_all [mul, isFin]

theorem infOf_not_fin (s : ℝ) : ¬ (infOf s).isFin := by
  unfold infOf; split_ifs <;> simp [isFin]

theorem mul_sgn {a b : F} (h : ¬ (a.isFin ∧ b.isFin)) : ¬ (a * b).isFin := by
  rw [mul_of_not h]; exact infOf_not_fin _

protected theorem mul_comm (a b : F) : a * b = b * a := by
  by_cases h : a.isFin ∧ b.isFin
  · cases a <;> cases b <;> simp_all [isFin, mul_comm]
  · rw [mul_of_not h, mul_of_not (by tauto), mul_comm]

protected theorem mul_assoc (a b c : F) : a * b * c = a * (b * c) := by
  by_cases hf : a.isFin ∧ b.isFin ∧ c.isFin
  · cases a <;> cases b <;> cases c <;> simp_all [isFin, mul_assoc]
  -- the sign of a product, up to a positive factor
  have key : ∀ x y : F, ∀ t : ℝ, infOf ((x * y).sgn * t) = infOf (x.sgn * y.sgn * t) := by
    intro x y t
    by_cases h : x.isFin ∧ y.isFin
    · cases x <;> cases y <;> simp_all [isFin, sgn]
    · rw [mul_of_not h, infOf_sgn_mul]
  have h1 : ¬ ((a * b).isFin ∧ c.isFin) := by
    intro ⟨h, hc⟩
    by_cases hab : a.isFin ∧ b.isFin
    · exact hf ⟨hab.1, hab.2, hc⟩
    · exact mul_sgn hab h
  have h2 : ¬ (a.isFin ∧ (b * c).isFin) := by
    intro ⟨ha, h⟩
    by_cases hbc : b.isFin ∧ c.isFin
    · exact hf ⟨ha, hbc.1, hbc.2⟩
    · exact mul_sgn hbc h
  rw [mul_of_not h1, mul_of_not h2, key, mul_comm a.sgn (b * c).sgn, key]
  congr 1; ring

/-- The notation. For `funs.py:23-47`, `base.py:174-422`. -/
noncomputable instance : CommMonoid F where
  mul := mul
  one := fin 1
  mul_assoc := F.mul_assoc
  one_mul a := by
    change mul (fin 1) a = a
    cases a <;> simp [mul, sgn, infOf]
  mul_one a := by
    change mul a (fin 1) = a
    cases a <;> simp [mul, sgn, infOf]
  mul_comm := F.mul_comm

@[simp] theorem sum_fin {ι : Type*} (s : Finset ι) (f : ι → ℝ) :
    ∑ i ∈ s, fin (f i) = fin (∑ i ∈ s, f i) := by
  classical
  induction s using Finset.induction_on with
  | empty => simp [zero_def]
  | insert a s h ih => rw [Finset.sum_insert h, Finset.sum_insert h, ih]; rfl

@[simp] theorem prod_fin {ι : Type*} (s : Finset ι) (f : ι → ℝ) :
    ∏ i ∈ s, fin (f i) = fin (∏ i ∈ s, f i) := by
  classical
  induction s using Finset.induction_on with
  | empty => simp [one_def]
  | insert a s h ih => rw [Finset.prod_insert h, Finset.prod_insert h, ih]; rfl

theorem nan_add (a : F) : nan + a = nan := by cases a <;> rfl
theorem add_nan (a : F) : a + nan = nan := by cases a <;> rfl
theorem nan_mul (a : F) : nan * a = nan := by
  rw [mul_of_not (by simp [isFin])]; simp [sgn, infOf]
theorem mul_nan (a : F) : a * nan = nan := by rw [F.mul_comm, nan_mul]

theorem lt_irrefl (a : F) : ¬ a.lt a := by cases a <;> simp [lt]
theorem lt_trans {a b c : F} (h : a.lt b) (h' : b.lt c) : a.lt c := by
  cases a <;> cases b <;> cases c <;> simp_all [lt]
  exact _root_.lt_trans h h'
theorem lt_asymm {a b : F} (h : a.lt b) : ¬ b.lt a := fun h' => lt_irrefl a (lt_trans h h')
theorem lt_total {a b : F} (ha : a ≠ nan) (hb : b ≠ nan) : a.lt b ∨ a = b ∨ b.lt a := by
  cases a <;> cases b <;> simp_all [lt]
  exact lt_trichotomy _ _
theorem lt_ne_nan {a b : F} (h : a.lt b) : a ≠ nan ∧ b ≠ nan := by
  cases a <;> cases b <;> simp_all [lt]

end F

end Verif
