import Verif.Model.Svd

/-!
# C60: `null_space`
-/

open Matrix

namespace Verif

variable {M N : ℕ} {A : Matrix (Fin M) (Fin N) ℝ} {o : SvdOut M N}

theorem npMax_spec {l : List ℝ} {m : ℝ} (h : npMax l = .ok m) : IsGreatest {x | x ∈ l} m := by
  have key : ∀ (l : List ℝ) (x : ℝ), IsGreatest {y | y ∈ x :: l} (l.foldl max x) := by
    intro l
    induction l with
    | nil => intro x; exact ⟨by simp, fun y hy => by simp at hy; exact hy.le⟩
    | cons a l ih =>
      intro x
      obtain ⟨h1, h2⟩ := ih (max x a)
      rw [List.foldl_cons]
      refine ⟨?_, fun y hy => ?_⟩
      · have h1 : l.foldl max (max x a) ∈ max x a :: l := h1
        rw [List.mem_cons] at h1
        rcases h1 with h1 | h1
        · show _ ∈ x :: a :: l
          rw [h1]
          rcases max_choice x a with h | h <;> rw [h] <;> simp
        · show _ ∈ x :: a :: l
          simp [h1]
      · have hm : max x a ≤ l.foldl max (max x a) := h2 (show _ ∈ max x a :: l by simp)
        have hy : y ∈ x :: a :: l := hy
        simp only [List.mem_cons] at hy
        rcases hy with rfl | rfl | hy
        · exact (le_max_left _ _).trans hm
        · exact (le_max_right _ _).trans hm
        · exact h2 (show _ ∈ max x a :: l by simp [hy])
  cases l with
  | nil => cases h
  | cons x l =>
    have : l.foldl max x = m := by injection h
    exact this ▸ key l x

theorem npMax_ok {l : List ℝ} (h : l ≠ []) : ∃ m, npMax l = .ok m := by
  cases l with
  | nil => exact absurd rfl h
  | cons x l => exact ⟨_, rfl⟩

/-- The singular values above the tolerance come first. -/
theorem numAbove_spec {tol : ℝ} (htol : 0 ≤ tol) : ∀ {s : List ℝ}, s.Pairwise (· ≥ ·) →
    ∀ i, (i < numAbove s tol ↔ tol < s.getD i 0)
  | [], _, i => by simp [numAbove, htol]
  | x :: s, h, i => by
    rw [List.pairwise_cons] at h
    have ih := numAbove_spec htol h.2
    unfold numAbove at ih ⊢
    rw [List.countP_cons]
    by_cases hx : tol < x
    · simp only [hx, decide_true, if_true]
      cases i with
      | zero => simp [hx]
      | succ i => rw [List.getD_cons_succ, ← ih i]; omega
    · have h0 : s.countP (fun y => decide (tol < y)) = 0 := by
        rw [List.countP_eq_zero]
        intro y hy
        have := h.1 y hy
        simp only [decide_eq_true_eq, not_lt]
        push Not at hx
        exact le_trans this hx
      have hx' : ¬ tol < x := hx
      simp only [hx', decide_false, h0]
      cases i with
      | zero => simpa using not_lt.1 hx
      | succ i =>
        rw [List.getD_cons_succ, ← ih i, h0]; simp

theorem numAbove_le_length (s : List ℝ) (tol : ℝ) : numAbove s tol ≤ s.length :=
  List.countP_le_length

namespace IsSvd

variable (h : IsSvd A o)
include h

theorem vh_orth' : o.vhᵀ * o.vh = 1 := mul_eq_one_comm.1 h.vh_orth

theorem mul_vhT : A * o.vhᵀ = o.u * diagOf M N o.s := by
  conv_lhs => rw [h.factor]
  rw [Matrix.mul_assoc, h.vh_orth, Matrix.mul_one]

theorem getD_zero_of_le {i : ℕ} (hi : min M N ≤ i) : o.s.getD i 0 = 0 := by
  rw [List.getD_eq_getElem?_getD, List.getElem?_eq_none (by rw [h.s_len]; exact hi)]; rfl

theorem getD_nonneg (i : ℕ) : 0 ≤ o.s.getD i 0 := by
  by_cases hi : i < o.s.length
  · rw [List.getD_eq_getElem?_getD, List.getElem?_eq_getElem hi]
    exact h.s_nonneg _ (List.getElem_mem hi)
  · rw [h.getD_zero_of_le (by rw [← h.s_len]; omega)]

theorem gram_diag : (diagOf M N o.s)ᵀ * diagOf M N o.s =
    Matrix.diagonal fun i : Fin N => o.s.getD i 0 ^ 2 := by
  ext i j
  rw [Matrix.mul_apply, Matrix.diagonal_apply]
  simp only [Matrix.transpose_apply, diagOf, Matrix.of_apply]
  by_cases hij : i = j
  · subst hij
    rw [if_pos rfl]
    by_cases hi : (i : ℕ) < M
    · rw [Finset.sum_eq_single (⟨i, hi⟩ : Fin M)]
      · simp [sq]
      · intro b _ hb
        have : (b : ℕ) ≠ i := fun h => hb (Fin.ext h)
        simp [this]
      · simp
    · rw [h.getD_zero_of_le (by omega)]
      refine (Finset.sum_eq_zero fun b _ => ?_).trans (by norm_num)
      have : (b : ℕ) ≠ i := by have := b.2; omega
      simp [this]
  · rw [if_neg hij]
    refine Finset.sum_eq_zero fun b _ => ?_
    by_cases hb : (b : ℕ) = i
    · have : (b : ℕ) ≠ j := fun h' => hij (Fin.ext (hb.symm.trans h'))
      simp [this]
    · simp [hb]

theorem gram : (A * o.vhᵀ)ᵀ * (A * o.vhᵀ) = Matrix.diagonal fun i : Fin N => o.s.getD i 0 ^ 2 := by
  rw [h.mul_vhT, Matrix.transpose_mul, Matrix.mul_assoc, ← Matrix.mul_assoc o.uᵀ, h.u_orth,
    Matrix.one_mul, h.gram_diag]

/-- The image of the `i`-th right singular vector has squared length `s_i²`. -/
theorem image_sq (i : Fin N) :
    (A *ᵥ fun j => o.vh i j) ⬝ᵥ (A *ᵥ fun j => o.vh i j) = o.s.getD i 0 ^ 2 := by
  have := congrFun (congrFun h.gram i) i
  rw [Matrix.diagonal_apply_eq, Matrix.mul_apply] at this
  rw [← this]
  simp [dotProduct, Matrix.mulVec, Matrix.mul_apply, Matrix.transpose_apply]

/-- `A x = 0` iff the coordinates of `x` along singular vectors with non-zero singular value
vanish. -/
theorem ker_iff (x : Fin N → ℝ) :
    A *ᵥ x = 0 ↔ ∀ i : Fin N, o.s.getD i 0 ≠ 0 → (o.vh *ᵥ x) i = 0 := by
  have hx : A *ᵥ x = (A * o.vhᵀ) *ᵥ (o.vh *ᵥ x) := by
    rw [Matrix.mulVec_mulVec, Matrix.mul_assoc, h.vh_orth', Matrix.mul_one]
  have hn : (A *ᵥ x) ⬝ᵥ (A *ᵥ x) = ∑ i : Fin N, o.s.getD i 0 ^ 2 * (o.vh *ᵥ x) i ^ 2 := by
    have e3 : ∀ (B : Matrix (Fin M) (Fin N) ℝ) (c : Fin N → ℝ),
        (B *ᵥ c) ⬝ᵥ (B *ᵥ c) = c ⬝ᵥ ((Bᵀ * B) *ᵥ c) := fun B c => by
      rw [← Matrix.mulVec_mulVec, Matrix.dotProduct_mulVec c, Matrix.vecMul_transpose]
    rw [hx, e3, h.gram]
    simp only [dotProduct, Matrix.mulVec_diagonal]
    exact Finset.sum_congr rfl fun i _ => by ring
  rw [← dotProduct_self_eq_zero, hn,
    Finset.sum_eq_zero_iff_of_nonneg fun i _ => mul_nonneg (sq_nonneg _) (sq_nonneg _)]
  constructor
  · intro h1 i hi
    have := h1 i (Finset.mem_univ i)
    rcases mul_eq_zero.1 this with h2 | h2
    · exact absurd (pow_eq_zero_iff (two_ne_zero)|>.1 h2) hi
    · exact pow_eq_zero_iff two_ne_zero |>.1 h2
  · intro h1 i _
    by_cases hi : o.s.getD i 0 = 0
    · rw [hi]; ring
    · rw [h1 i hi]; ring

end IsSvd

/-- The relative tolerance that is used. -/
noncomputable def rcondOf (M N : ℕ) (rcond : Option ℝ) : ℝ := rcond.getD (floatEps * max M N)

theorem rcondOf_nonneg {rcond : Option ℝ} (h : ∀ r ∈ rcond, 0 ≤ r) : 0 ≤ rcondOf M N rcond := by
  cases rcond with
  | none =>
    simp only [rcondOf, Option.getD_none, floatEps]
    positivity
  | some r => exact h r rfl

/-- **C60.** For a non-empty `(M, N)` array `A` with largest singular value `smax`, `null_space(A,
rcond)` (for `rcond ≥ 0` or the default) returns an `(N, K)` array `Z` with orthonormal columns, each
of which `A` maps to a vector of length at most `rcond * smax`; and if every singular value not above
`rcond * smax` is zero, the columns span exactly the kernel of `A`. -/
theorem C60_null_space (h : IsSvd A o) (hM : M ≠ 0) (hN : N ≠ 0) {rcond : Option ℝ}
    (hr : ∀ r ∈ rcond, 0 ≤ r) :
    ∃ (smax : ℝ) (K : ℕ) (Z : Matrix (Fin N) (Fin K) ℝ), IsGreatest {x | x ∈ o.s} smax ∧
      nullSpace o rcond = .ok ⟨N, K, Z⟩ ∧ Zᵀ * Z = 1 ∧
      (∀ k, Real.sqrt ((A *ᵥ Zᵀ k) ⬝ᵥ (A *ᵥ Zᵀ k)) ≤ rcondOf M N rcond * smax) ∧
      ((∀ x ∈ o.s, x ≤ rcondOf M N rcond * smax → x = 0) →
        ∀ x, A *ᵥ x = 0 ↔ ∃ z, x = Z *ᵥ z) := by
  have hs : o.s ≠ [] := by
    intro hs
    have := h.s_len
    rw [hs] at this
    simp at this
    omega
  obtain ⟨m, hm⟩ := npMax_ok hs
  have hg := npMax_spec hm
  have hm0 : 0 ≤ m := h.s_nonneg m hg.1
  have hr0 := rcondOf_nonneg (M := M) (N := N) hr
  have htol : 0 ≤ m * rcondOf M N rcond := mul_nonneg hm0 hr0
  set num := numAbove o.s (m * rcondOf M N rcond) with hnum
  have hspec := numAbove_spec htol h.s_desc
  have hle : num ≤ N := (numAbove_le_length _ _).trans (by rw [h.s_len]; omega)
  refine ⟨m, N - num, .of fun j k => o.vh ⟨num + k, by have := k.2; omega⟩ j, hg, ?_, ?_,
    fun k => ?_, fun hz x => ?_⟩
  · unfold nullSpace
    dsimp only
    rw [hm]
    rfl
  · ext a b
    rw [Matrix.mul_apply, Matrix.one_apply]
    have := congrFun (congrFun h.vh_orth ⟨num + a, by have := a.2; omega⟩)
      ⟨num + b, by have := b.2; omega⟩
    rw [Matrix.mul_apply, Matrix.one_apply] at this
    simp only [Matrix.transpose_apply, Matrix.of_apply] at this ⊢
    rw [this]
    simp [Fin.ext_iff]
  · have hk := k.2
    have hi := h.image_sq ⟨num + k, by omega⟩
    have : (Matrix.of fun (j : Fin N) (k : Fin (N - num)) =>
        o.vh ⟨num + k, by have := k.2; omega⟩ j)ᵀ k = fun j => o.vh ⟨num + k, by omega⟩ j := rfl
    rw [this, hi, Real.sqrt_sq (h.getD_nonneg _)]
    have h1 := (hspec (num + k)).not.1 (by omega)
    rw [mul_comm]
    exact not_lt.1 h1
  · have hz' : ∀ i : ℕ, num ≤ i → o.s.getD i 0 = 0 := by
      intro i hi
      by_cases hl : i < o.s.length
      · have h1 := not_lt.1 ((hspec i).not.1 (by omega))
        rw [List.getD_eq_getElem?_getD, List.getElem?_eq_getElem hl] at h1 ⊢
        exact hz _ (List.getElem_mem hl) (by rw [mul_comm]; exact h1)
      · exact h.getD_zero_of_le (by rw [← h.s_len]; omega)
    have hpos : ∀ i : ℕ, i < num → o.s.getD i 0 ≠ 0 := fun i hi =>
      (lt_of_le_of_lt htol ((hspec i).1 hi)).ne'
    rw [h.ker_iff]
    constructor
    · intro hx
      refine ⟨fun k => (o.vh *ᵥ x) ⟨num + k, by have := k.2; omega⟩, ?_⟩
      have e : x = o.vhᵀ *ᵥ (o.vh *ᵥ x) := by
        rw [Matrix.mulVec_mulVec, h.vh_orth', Matrix.one_mulVec]
      conv_lhs => rw [e]
      funext j
      simp only [Matrix.mulVec, dotProduct, Matrix.transpose_apply, Matrix.of_apply]
      have hx' : ∀ i : Fin N, (i : ℕ) < num → ∑ c, o.vh i c * x c = 0 := fun i hi =>
        hx i (hpos i hi)
      obtain ⟨q, hq⟩ : ∃ q, N = num + q := ⟨N - num, by omega⟩
      have split : ∀ f : Fin N → ℝ, (∀ i : Fin N, (i : ℕ) < num → f i = 0) →
          ∑ i, f i = ∑ k : Fin (N - num), f ⟨num + k, by have := k.2; omega⟩ := by
        intro f hf
        rw [← Finset.sum_filter_add_sum_filter_not Finset.univ fun i : Fin N => (i : ℕ) < num]
        rw [Finset.sum_eq_zero (s := Finset.univ.filter fun i : Fin N => (i : ℕ) < num)
          fun i hi => hf i (Finset.mem_filter.1 hi).2, zero_add]
        symm
        refine Finset.sum_bij (fun k _ => ⟨num + k, by have := k.2; omega⟩) ?_ ?_ ?_ ?_
        · intro k _; simp
        · intro a _ b _ hab
          have : num + (a : ℕ) = num + b := congrArg Fin.val hab
          exact Fin.ext (by omega)
        · intro b hb
          have hb' : ¬ (b : ℕ) < num := (Finset.mem_filter.1 hb).2
          exact ⟨⟨b - num, by have := b.2; omega⟩, Finset.mem_univ _, Fin.ext (by simp; omega)⟩
        · intro _ _; rfl
      rw [split _ fun i hi => by rw [hx' i hi, mul_zero]]
    · rintro ⟨z, rfl⟩ i hi
      have hlt : (i : ℕ) < num := by
        by_contra hc
        exact hi (hz' i (by omega))
      simp only [Matrix.mulVec, dotProduct, Matrix.of_apply, Finset.mul_sum]
      rw [Finset.sum_comm]
      refine Finset.sum_eq_zero fun k _ => ?_
      have := congrFun (congrFun h.vh_orth i) ⟨num + k, by have := k.2; omega⟩
      rw [Matrix.mul_apply, Matrix.one_apply_ne (fun h => by
        have := congrArg Fin.val h
        simp only at this
        omega)] at this
      simp only [Matrix.transpose_apply] at this
      simp only [← mul_assoc]
      rw [← Finset.sum_mul, this, zero_mul]

end Verif
