import Verif.Model.Svd
import Mathlib.LinearAlgebra.Matrix.Charpoly.Basic
import Mathlib.Algebra.Polynomial.Roots
import Mathlib.Algebra.Order.BigOperators.Ring.Finset
import Mathlib.LinearAlgebra.Matrix.Trace
import Mathlib.Data.List.GetD

/-!
# Singular value decompositions: uniqueness and the variational characterisation
-/

open Matrix

namespace Verif

variable {M N : ℕ} {A : Matrix (Fin M) (Fin N) ℝ} {o o' : SvdOut M N}

/-- The squared singular values, one per column. -/
def SvdOut.lam (o : SvdOut M N) (j : Fin N) : ℝ := o.s.getD j 0 ^ 2

theorem IsSvd.getD_nonneg (h : IsSvd A o) (j : ℕ) : 0 ≤ o.s.getD j 0 := by
  by_cases hj : j < o.s.length
  · rw [List.getD_eq_getElem _ _ hj]; exact h.s_nonneg _ (List.getElem_mem hj)
  · rw [List.getD_eq_default _ _ (by omega)]

theorem IsSvd.getD_anti (h : IsSvd A o) {i j : ℕ} (hij : i ≤ j) :
    o.s.getD j 0 ≤ o.s.getD i 0 := by
  by_cases hj : j < o.s.length
  · rcases Nat.eq_or_lt_of_le hij with e | e
    · rw [e]
    · have hi : i < o.s.length := by omega
      rw [List.getD_eq_getElem _ _ hj, List.getD_eq_getElem _ _ hi]
      exact List.pairwise_iff_getElem.1 h.s_desc i j hi hj e
  · rw [List.getD_eq_default _ _ (by omega)]; exact h.getD_nonneg i

theorem IsSvd.lam_anti (h : IsSvd A o) {i j : Fin N} (hij : i ≤ j) : o.lam j ≤ o.lam i :=
  pow_le_pow_left₀ (h.getD_nonneg _) (h.getD_anti hij) 2

theorem IsSvd.vh_orth' (h : IsSvd A o) : o.vhᵀ * o.vh = 1 :=
  mul_eq_one_comm.1 h.vh_orth

theorem diagOf_gram (h : IsSvd A o) :
    (diagOf M N o.s)ᵀ * diagOf M N o.s = diagonal o.lam := by
  ext i j
  rw [mul_apply, diagonal_apply]
  simp only [transpose_apply, diagOf, of_apply]
  by_cases hi : (i : ℕ) < M
  · rw [Finset.sum_eq_single ⟨i, hi⟩]
    · by_cases hij : i = j
      · subst hij; simp [SvdOut.lam, sq]
      · have : ¬ (i : ℕ) = j := fun e => hij (Fin.ext e)
        simp [hij, this]
    · intro b _ hb
      have : ¬ (b : ℕ) = i := fun e => hb (Fin.ext e)
      simp [this]
    · simp
  · rw [Finset.sum_eq_zero]
    · by_cases hij : i = j
      · subst hij
        have hl := h.s_len
        simp only [if_true, SvdOut.lam]
        rw [List.getD_eq_default _ _ (by omega)]; simp
      · simp [hij]
    · intro b _
      have : ¬ (b : ℕ) = i := fun e => hi (e ▸ b.2)
      simp [this]

theorem IsSvd.gramLam (h : IsSvd A o) : Aᵀ * A = o.vhᵀ * diagonal o.lam * o.vh := by
  conv_lhs => rw [h.factor]
  rw [transpose_mul, transpose_mul, ← diagOf_gram h]
  calc o.vhᵀ * ((diagOf M N o.s)ᵀ * o.uᵀ) * (o.u * diagOf M N o.s * o.vh)
      = o.vhᵀ * ((diagOf M N o.s)ᵀ * (o.uᵀ * o.u) * diagOf M N o.s) * o.vh := by
        simp only [Matrix.mul_assoc]
    _ = _ := by rw [h.u_orth, Matrix.mul_one]

/-- The singular values are determined by the matrix. -/
theorem IsSvd.lam_unique (h : IsSvd A o) (h' : IsSvd A o') : o.lam = o'.lam := by
  have key : ∀ {o : SvdOut M N}, IsSvd A o →
      (Aᵀ * A).charpoly = ∏ i, (Polynomial.X - Polynomial.C (o.lam i)) := by
    intro o h
    rw [h.gramLam, charpoly_mul_comm, ← Matrix.mul_assoc, h.vh_orth, Matrix.one_mul,
      charpoly_diagonal]
  have hroots : ∀ f : Fin N → ℝ,
      (∏ i, (Polynomial.X - Polynomial.C (f i))).roots = (Finset.univ.val.map f) := by
    intro f
    have : (∏ i, (Polynomial.X - Polynomial.C (f i))) =
        ((Finset.univ.val.map f).map fun a => Polynomial.X - Polynomial.C a).prod := by
      rw [Multiset.map_map]; rfl
    rw [this, Polynomial.roots_multiset_prod_X_sub_C]
  have e : Finset.univ.val.map o.lam = Finset.univ.val.map o'.lam := by
    rw [← hroots, ← hroots, ← key h, ← key h']
  rw [Fin.univ_val_map, Fin.univ_val_map, Multiset.coe_eq_coe] at e
  have sorted : ∀ {o : SvdOut M N}, IsSvd A o → (List.ofFn o.lam).Pairwise (· ≥ ·) := by
    intro o h
    rw [List.pairwise_ofFn]
    exact fun i j hij => h.lam_anti hij.le
  have := e.eq_of_pairwise (fun a b _ _ h1 h2 => le_antisymm h2 h1) (sorted h) (sorted h')
  exact List.ofFn_injective this

theorem IsSvd.s_unique (h : IsSvd A o) (h' : IsSvd A o') (j : Fin N) :
    o.s.getD j 0 = o'.s.getD j 0 := by
  have := congrFun (h.lam_unique h') j
  unfold SvdOut.lam at this
  exact (pow_left_inj₀ (h.getD_nonneg _) (h'.getD_nonneg _) two_ne_zero).1 this

/-- The right singular vector of a simple singular value is determined up to its sign. -/
theorem IsSvd.vh_unique (h : IsSvd A o) (h' : IsSvd A o') (i : Fin N)
    (hi : ∀ j : Fin N, j ≠ i → o.s.getD j 0 ≠ o.s.getD i 0) :
    (∀ j, o'.vh i j = o.vh i j) ∨ ∀ j, o'.vh i j = -o.vh i j := by
  have hl : ∀ j : Fin N, j ≠ i → o.lam j ≠ o.lam i := fun j hj e =>
    hi j hj ((pow_left_inj₀ (h.getD_nonneg _) (h.getD_nonneg _) two_ne_zero).1 e)
  set P : Matrix (Fin N) (Fin N) ℝ := o'.vh * o.vhᵀ with hP
  have hcomm : diagonal o.lam * P = P * diagonal o.lam := by
    have e : o.vhᵀ * diagonal o.lam * o.vh = o'.vhᵀ * diagonal o.lam * o'.vh := by
      rw [← h.gramLam, h'.gramLam, h.lam_unique h']
    have e2 : o'.vh * (o.vhᵀ * diagonal o.lam * o.vh) * o.vhᵀ =
        o'.vh * (o'.vhᵀ * diagonal o.lam * o'.vh) * o.vhᵀ := by rw [e]
    have e3 : o'.vh * (o.vhᵀ * diagonal o.lam * o.vh) * o.vhᵀ = P * diagonal o.lam := by
      rw [hP]; simp only [Matrix.mul_assoc, h.vh_orth, Matrix.mul_one]
    have e4 : o'.vh * (o'.vhᵀ * diagonal o.lam * o'.vh) * o.vhᵀ = diagonal o.lam * P := by
      rw [hP, ← Matrix.mul_assoc, ← Matrix.mul_assoc, h'.vh_orth, Matrix.one_mul, Matrix.mul_assoc]
    rw [← e4, ← e2, e3]
  have hz : ∀ j, j ≠ i → P i j = 0 := by
    intro j hj
    have e := congrFun (congrFun hcomm i) j
    rw [diagonal_mul, mul_diagonal] at e
    have : (o.lam i - o.lam j) * P i j = 0 := by linear_combination e
    rcases mul_eq_zero.1 this with e | e
    · exact absurd (sub_eq_zero.1 e).symm (hl j hj)
    · exact e
  have hrow : ∀ j, o'.vh i j = P i i * o.vh i j := by
    intro j
    have e : o'.vh = P * o.vh := by
      rw [hP, Matrix.mul_assoc, h.vh_orth', Matrix.mul_one]
    conv_lhs => rw [e, mul_apply]
    rw [Finset.sum_eq_single i (fun b _ hb => by rw [hz b hb, zero_mul]) (by simp)]
  have hsq : P i i * P i i = 1 := by
    have e : P * Pᵀ = 1 := by
      rw [hP, transpose_mul, transpose_transpose, Matrix.mul_assoc, ← Matrix.mul_assoc o.vhᵀ,
        h.vh_orth', Matrix.one_mul, h'.vh_orth]
    have e := congrFun (congrFun e i) i
    rw [mul_apply, one_apply_eq,
      Finset.sum_eq_single i (fun b _ hb => by rw [hz b hb, zero_mul]) (by simp)] at e
    exact e
  rcases mul_self_eq_one_iff.1 hsq with e | e
  · left; intro j; rw [hrow, e, one_mul]
  · right; intro j; rw [hrow, e, neg_one_mul]

/-- Sum of the squares of the entries. -/
def sqSum {m n : ℕ} (B : Matrix (Fin m) (Fin n) ℝ) : ℝ := ∑ i, ∑ j, B i j ^ 2

theorem sqSum_eq_trace {m n : ℕ} (B : Matrix (Fin m) (Fin n) ℝ) : sqSum B = (Bᵀ * B).trace := by
  unfold sqSum trace
  rw [Finset.sum_comm]
  refine Finset.sum_congr rfl fun j _ => ?_
  rw [diag_apply, mul_apply]
  exact Finset.sum_congr rfl fun i _ => by rw [transpose_apply, sq]

/-- Ky Fan: projecting the rows on any `k` orthonormal directions keeps at most the sum of the `k`
largest squared singular values. -/
theorem IsSvd.kyFan (h : IsSvd A o) {k : ℕ} (hk : k ≤ N) (W : Matrix (Fin k) (Fin N) ℝ)
    (hW : W * Wᵀ = 1) :
    sqSum (A * Wᵀ) ≤ ∑ i : Fin k, o.lam (Fin.castLE hk i) := by
  classical
  set B : Matrix (Fin k) (Fin N) ℝ := W * o.vhᵀ with hB
  have hBB : B * Bᵀ = 1 := by
    rw [hB, transpose_mul, transpose_transpose, Matrix.mul_assoc, ← Matrix.mul_assoc o.vhᵀ,
      h.vh_orth', Matrix.one_mul, hW]
  set c : Fin N → ℝ := fun j => ∑ r, B r j ^ 2 with hc
  have e1 : sqSum (A * Wᵀ) = ∑ j, c j * o.lam j := by
    have : (A * Wᵀ)ᵀ * (A * Wᵀ) = B * diagonal o.lam * Bᵀ := by
      rw [transpose_mul, transpose_transpose, Matrix.mul_assoc, ← Matrix.mul_assoc Aᵀ, h.gramLam, hB,
        transpose_mul, transpose_transpose]
      simp only [Matrix.mul_assoc]
    rw [sqSum_eq_trace, this]
    have hd : ∀ i, (B * diagonal o.lam * Bᵀ) i i = ∑ j, B i j * o.lam j * B i j := fun i => by
      rw [mul_apply]
      exact Finset.sum_congr rfl fun j _ => by rw [mul_diagonal, transpose_apply]
    simp only [trace, diag_apply, hd, hc]
    rw [Finset.sum_comm]
    refine Finset.sum_congr rfl fun j _ => ?_
    rw [Finset.sum_mul]
    exact Finset.sum_congr rfl fun i _ => by ring
  have hc0 : ∀ j, 0 ≤ c j := fun j => Finset.sum_nonneg fun r _ => sq_nonneg _
  have hsum : ∑ j, c j = k := by
    rw [hc, Finset.sum_comm]
    have : ∀ r, ∑ j, B r j ^ 2 = 1 := fun r => by
      have e := congrFun (congrFun hBB r) r
      rw [mul_apply, one_apply_eq] at e
      rw [← e]
      exact Finset.sum_congr rfl fun j _ => by rw [transpose_apply, sq]
    simp [this]
  -- the projection `BᵀB` is idempotent, so its diagonal entries are at most one
  have hc1 : ∀ j, c j ≤ 1 := by
    intro j
    set Q := Bᵀ * B with hQ
    have hQQ : Q * Q = Q := by
      rw [hQ, Matrix.mul_assoc, ← Matrix.mul_assoc B, hBB, Matrix.one_mul]
    have hQT : ∀ a b, Q a b = Q b a := by
      intro a b
      simp only [hQ, mul_apply, transpose_apply]
      exact Finset.sum_congr rfl fun i _ => mul_comm _ _
    have hcj : c j = Q j j := by
      simp only [hc, hQ, mul_apply, transpose_apply]
      exact Finset.sum_congr rfl fun i _ => sq _
    have e := congrFun (congrFun hQQ j) j
    rw [mul_apply] at e
    have : Q j j ^ 2 ≤ Q j j := by
      conv_rhs => rw [← e]
      have := Finset.single_le_sum (f := fun b => Q j b * Q b j)
        (fun b _ => by rw [hQT b j]; exact mul_self_nonneg _) (Finset.mem_univ j)
      rw [sq]; exact this
    rw [hcj]
    by_contra hlt
    push Not at hlt
    nlinarith
  rw [e1]
  rcases Nat.eq_zero_or_pos k with rfl | hkpos
  · have hz : ∀ j, c j = 0 := fun j =>
      (Finset.sum_eq_zero_iff_of_nonneg (fun j _ => hc0 j)).1 (by simpa using hsum) j
        (Finset.mem_univ j)
    simp [hz]
  -- threshold
  set t : ℝ := o.lam ⟨k - 1, by omega⟩ with ht
  set δ : Fin N → ℝ := fun j => if (j : ℕ) < k then 1 else 0 with hδ
  have hcard : ∀ f : Fin N → ℝ, ∑ j, δ j * f j = ∑ i : Fin k, f (Fin.castLE hk i) := by
    intro f
    have : ∑ j, δ j * f j = ∑ j ∈ Finset.univ.filter (fun j : Fin N => (j : ℕ) < k), f j := by
      rw [Finset.sum_filter]
      exact Finset.sum_congr rfl fun j _ => by simp only [hδ]; split_ifs <;> simp
    rw [this]
    symm
    refine Finset.sum_bij (fun i _ => Fin.castLE hk i) (fun i _ => by simp)
      (fun a _ b _ hab => Fin.castLE_injective hk hab) (fun b hb => ?_) (fun _ _ => rfl)
    exact ⟨⟨b, (Finset.mem_filter.1 hb).2⟩, Finset.mem_univ _, Fin.ext rfl⟩
  have hδsum : ∑ j, δ j = k := by
    have := hcard fun _ => 1
    simpa using this
  have hpt : ∀ j, 0 ≤ (δ j - c j) * (o.lam j - t) := by
    intro j
    by_cases hj : (j : ℕ) < k
    · have h1 : t ≤ o.lam j := h.lam_anti (i := j) (Fin.mk_le_mk.2 (by omega : (j : ℕ) ≤ k - 1))
      have h2 : δ j = 1 := by simp [hδ, hj]
      rw [h2]
      exact mul_nonneg (sub_nonneg.2 (hc1 j)) (sub_nonneg.2 h1)
    · have h1 : o.lam j ≤ t := h.lam_anti (j := j) (Fin.mk_le_mk.2 (by omega : k - 1 ≤ (j : ℕ)))
      have h2 : δ j = 0 := by simp [hδ, hj]
      rw [h2]
      exact mul_nonneg_of_nonpos_of_nonpos (by linarith [hc0 j]) (sub_nonpos.2 h1)
  have hS := Finset.sum_nonneg fun j (_ : j ∈ Finset.univ) => hpt j
  have expand : ∑ j, (δ j - c j) * (o.lam j - t) =
      ∑ j, δ j * o.lam j - ∑ j, c j * o.lam j - (∑ j, δ j - ∑ j, c j) * t := by
    rw [← Finset.sum_sub_distrib, ← Finset.sum_sub_distrib, Finset.sum_mul,
      ← Finset.sum_sub_distrib]
    exact Finset.sum_congr rfl fun j _ => by ring
  rw [expand, hδsum, hsum, sub_self, zero_mul, sub_zero, hcard] at hS
  linarith

end Verif
