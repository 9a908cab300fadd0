import Verif.Model.Preprocessing
import Verif.Lemmas.SvdUnique
import Verif.Lemmas.SvdExists
import Verif.Props.STMud

/-!
# C100-C103: `pca` and `svd`
-/

open Matrix

namespace Verif

/-! ## Specification -/

/-- `Y` is the standardised form of `X`: every column shifted and divided by a positive number so that
it has mean zero and, unless it is constant, variance one. -/
def IsStd {n d : ℕ} (X Y : Matrix (Fin n) (Fin d) ℝ) : Prop :=
  ∀ j, (∃ m c : ℝ, 0 < c ∧ ∀ i, Y i j = (X i j - m) / c) ∧ ∑ i, Y i j = 0 ∧
    (∑ i, Y i j ^ 2 = n ∨ ∀ i, Y i j = 0)

/-- `C`, `Z` are a principal component analysis of `Y` with `k` components: orthonormal directions,
coordinates along them, uncorrelated, in the order of decreasing variance, and no `k` orthonormal
directions carry more variance. -/
structure IsPca {n d k : ℕ} (Y : Matrix (Fin n) (Fin d) ℝ) (C : Matrix (Fin k) (Fin d) ℝ)
    (Z : Matrix (Fin n) (Fin k) ℝ) : Prop where
  orth : C * Cᵀ = 1
  coord : Z = Y * Cᵀ
  uncorr : ∀ a b, a ≠ b → ∑ i, Z i a * Z i b = 0
  desc : ∀ a b, a ≤ b → ∑ i, Z i b ^ 2 ≤ ∑ i, Z i a ^ 2
  best : ∀ W : Matrix (Fin k) (Fin d) ℝ, W * Wᵀ = 1 →
    ∑ i, ∑ a, (Y * Wᵀ) i a ^ 2 ≤ ∑ i, ∑ a, Z i a ^ 2

/-- The entries of a 2-D array. -/
def entries (A : ND) (n d : ℕ) : Matrix (Fin n) (Fin d) ℝ := .of fun i j => A.get [i, j]

/-! ## Standardisation -/

namespace Prep

variable {n d : ℕ}

theorem sum_dev (hn : 0 < n) (X : Matrix (Fin n) (Fin d) ℝ) (j : Fin d) :
    ∑ i, (X i j - colMean X j) = 0 := by
  have : (n : ℝ) ≠ 0 := by positivity
  rw [Finset.sum_sub_distrib, Finset.sum_const, Finset.card_univ, Fintype.card_fin, nsmul_eq_mul]
  unfold colMean
  field_simp
  simp

theorem colVar_nonneg (X : Matrix (Fin n) (Fin d) ℝ) (j : Fin d) : 0 ≤ colVar X j :=
  div_nonneg (Finset.sum_nonneg fun _ _ => sq_nonneg _) (by positivity)

theorem scale_pos (X : Matrix (Fin n) (Fin d) ℝ) (j : Fin d) : 0 < scale X j := by
  unfold scale
  split_ifs with h
  · exact one_pos
  · exact Real.sqrt_pos.2 (lt_of_le_of_ne (colVar_nonneg X j) (Ne.symm h))

theorem standardize_isStd (hn : 0 < n) (X : Matrix (Fin n) (Fin d) ℝ) : IsStd X (standardize X) := by
  intro j
  refine ⟨⟨colMean X j, scale X j, scale_pos X j, fun i => rfl⟩, ?_, ?_⟩
  · simp only [standardize, of_apply]
    rw [← Finset.sum_div, sum_dev hn, zero_div]
  · have hn0 : (n : ℝ) ≠ 0 := by positivity
    by_cases h : colVar X j = 0
    · right
      intro i
      have hs : ∑ i, (X i j - colMean X j) ^ 2 = 0 := by
        rcases div_eq_zero_iff.1 h with e | e
        · exact e
        · exact absurd e hn0
      have := (Finset.sum_eq_zero_iff_of_nonneg fun i _ => sq_nonneg _).1 hs i (Finset.mem_univ i)
      simp only [standardize, of_apply]
      rw [pow_eq_zero_iff two_ne_zero] at this
      rw [this, zero_div]
    · left
      simp only [standardize, of_apply, div_pow]
      rw [← Finset.sum_div]
      have hsc : scale X j ^ 2 = colVar X j := by
        unfold scale
        rw [if_neg h, Real.sq_sqrt (colVar_nonneg X j)]
      rw [hsc, div_eq_iff h]
      unfold colVar
      field_simp

/-- The standardised form is unique, also for columns measured in other units. -/
theorem isStd_unique (hn : 0 < n) {X X' Y Y' : Matrix (Fin n) (Fin d) ℝ} (h : IsStd X Y)
    (h' : IsStd X' Y') (hX : ∀ j, ∃ a b : ℝ, 0 < a ∧ ∀ i, X' i j = a * X i j + b) : Y' = Y := by
  ext i j
  obtain ⟨⟨m, c, hc, hY⟩, hs, hv⟩ := h j
  obtain ⟨⟨m', c', hc', hY'⟩, hs', hv'⟩ := h' j
  obtain ⟨a, b, ha, hab⟩ := hX j
  -- `Y'` is a positive affine image of `Y`
  obtain ⟨p, q, hp, hpq⟩ : ∃ p q : ℝ, 0 < p ∧ ∀ i, Y' i j = p * Y i j + q := by
    refine ⟨a * c / c', (a * m + b - m') / c', by positivity, fun i => ?_⟩
    rw [hY', hab, hY]
    field_simp
    ring
  have hn0 : (n : ℝ) ≠ 0 := by positivity
  have hq : q = 0 := by
    have : ∑ i, Y' i j = p * ∑ i, Y i j + n * q := by
      simp only [hpq, Finset.sum_add_distrib, ← Finset.mul_sum]
      simp
    rw [hs, hs', mul_zero, zero_add] at this
    rcases mul_eq_zero.1 this.symm with e | e
    · exact absurd e hn0
    · exact e
  have hpq' : ∀ i, Y' i j = p * Y i j := fun i => by rw [hpq, hq, add_zero]
  have hsq : ∑ i, Y' i j ^ 2 = p ^ 2 * ∑ i, Y i j ^ 2 := by
    simp only [hpq', mul_pow, ← Finset.mul_sum]
  rcases hv with hv | hv
  · rcases hv' with hv' | hv'
    · rw [hv, hv'] at hsq
      have : p ^ 2 = 1 := by
        have := mul_right_cancel₀ hn0 (show p ^ 2 * n = 1 * n by rw [← hsq, one_mul])
        exact this
      have hp1 : p = 1 := by nlinarith
      rw [hpq', hp1, one_mul]
    · have h0 : ∑ i, Y i j ^ 2 = 0 := by
        refine Finset.sum_eq_zero fun i _ => ?_
        have := hpq' i
        rw [hv' i] at this
        rcases mul_eq_zero.1 this.symm with e | e
        · exact absurd e hp.ne'
        · rw [e]; simp
      exact absurd (hv.symm.trans h0) hn0
  · rw [hpq', hv i, mul_zero]

theorem center_std (hn : 0 < n) (X : Matrix (Fin n) (Fin d) ℝ) :
    center (standardize X) = standardize X := by
  ext i j
  have : colMean (standardize X) j = 0 := by
    unfold colMean
    rw [(standardize_isStd hn X j).2.1, zero_div]
  simp [center, this]

/-! ## The principal components -/

theorem checkData_ok {A : ND} (h : A.shape = [n, d]) (hn : 0 < n) (hd : 0 < d) :
    checkData A = .ok ⟨n, d, entries A n d⟩ := by
  unfold checkData
  rw [raiseIf_false (by simp [h]), Py.ok_bind, toArr2_two h]
  show (do raiseIf (n = 0 ∨ d = 0) Err.valueError; _) = _
  rw [raiseIf_false (by omega)]
  rfl

theorem checkData_err {A : ND} (h : ∀ n d, A.shape = [n, d] → n = 0 ∨ d = 0) :
    checkData A = .error .valueError := by
  unfold checkData
  by_cases hl : A.shape.length = 2
  · obtain ⟨n, d, e⟩ := List.length_eq_two.1 hl
    rw [raiseIf_false (by simp [hl]), Py.ok_bind, toArr2_two e]
    show (do raiseIf (n = 0 ∨ d = 0) Err.valueError; _) = _
    rw [raiseIf_true (h n d e)]
    rfl
  · rw [raiseIf_true hl]; rfl

theorem getD_lam {o : SvdOut n d} {k : ℕ} (hd : k ≤ d) (i : Fin k) :
    o.s.getD i 0 ^ 2 = o.lam (Fin.castLE hd i) := rfl

theorem mul_vhT {Y : Matrix (Fin n) (Fin d) ℝ} {o : SvdOut n d} (h : IsSvd Y o) {k : ℕ} (hn : k ≤ n)
    (hd : k ≤ d) (r : Fin n) (a : Fin k) :
    ∑ j, Y r j * o.vh (Fin.castLE hd a) j = o.u r (Fin.castLE hn a) * o.s.getD a 0 := by
  have e : Y * o.vhᵀ = o.u * diagOf n d o.s := by
    conv_lhs => rw [h.factor]
    rw [Matrix.mul_assoc, h.vh_orth, Matrix.mul_one]
  have e := congrFun (congrFun e r) (Fin.castLE hd a)
  rw [mul_apply, mul_apply] at e
  simp only [transpose_apply] at e
  rw [e, Finset.sum_eq_single (Fin.castLE hn a)]
  · simp [diagOf]
  · intro b _ hb
    have : ¬ (b : ℕ) = a := fun e => hb (Fin.ext e)
    simp [diagOf, this]
  · simp

theorem sg_mul {sg : ℕ → ℝ} (hsg : ∀ i, sg i = 1 ∨ sg i = -1) (i : ℕ) : sg i * sg i = 1 := by
  rcases hsg i with e | e <;> rw [e] <;> norm_num

theorem pcaArr_isPca {Y : Matrix (Fin n) (Fin d) ℝ} {o : SvdOut n d} (h : IsSvd Y o) {sg : ℕ → ℝ}
    (hsg : ∀ i, sg i = 1 ∨ sg i = -1) {k : ℕ} (hn : k ≤ n) (hd : k ≤ d) :
    IsPca Y (.of fun (i : Fin k) j => sg i * o.vh (Fin.castLE hd i) j)
      (.of fun r (i : Fin k) => sg i * (o.u r (Fin.castLE hn i) * o.s.getD i 0)) := by
  have hu : ∀ a b : Fin k, ∑ r, o.u r (Fin.castLE hn a) * o.u r (Fin.castLE hn b) =
      if a = b then 1 else 0 := by
    intro a b
    have e := congrFun (congrFun h.u_orth (Fin.castLE hn a)) (Fin.castLE hn b)
    rw [mul_apply, one_apply] at e
    simp only [transpose_apply] at e
    rw [e]
    by_cases hab : a = b
    · simp [hab]
    · rw [if_neg hab, if_neg fun e => hab (Fin.castLE_injective hn e)]
  have hvar : ∀ a b : Fin k, ∑ r, (sg a * (o.u r (Fin.castLE hn a) * o.s.getD a 0)) *
      (sg b * (o.u r (Fin.castLE hn b) * o.s.getD b 0)) =
      if a = b then o.s.getD a 0 ^ 2 else 0 := by
    intro a b
    have : ∀ r, (sg a * (o.u r (Fin.castLE hn a) * o.s.getD a 0)) *
      (sg b * (o.u r (Fin.castLE hn b) * o.s.getD b 0)) =
      (sg a * sg b * (o.s.getD a 0 * o.s.getD b 0)) *
        (o.u r (Fin.castLE hn a) * o.u r (Fin.castLE hn b)) := fun r => by ring
    simp only [this, ← Finset.mul_sum, hu]
    by_cases hab : a = b
    · subst hab
      rw [if_pos rfl, if_pos rfl, sg_mul hsg]; ring
    · rw [if_neg hab, if_neg hab, mul_zero]
  have hsqv : ∀ a : Fin k, ∑ r, (sg a * (o.u r (Fin.castLE hn a) * o.s.getD a 0)) ^ 2 =
      o.s.getD a 0 ^ 2 := fun a => by
    have := hvar a a
    rw [if_pos rfl] at this
    rw [← this]
    exact Finset.sum_congr rfl fun r _ => sq _
  refine ⟨?_, ?_, fun a b hab => ?_, fun a b hab => ?_, fun W hW => ?_⟩
  · ext a b
    rw [mul_apply, one_apply]
    simp only [transpose_apply, of_apply]
    have e := congrFun (congrFun h.vh_orth (Fin.castLE hd a)) (Fin.castLE hd b)
    rw [mul_apply, one_apply] at e
    simp only [transpose_apply] at e
    have : ∀ j, sg a * o.vh (Fin.castLE hd a) j * (sg b * o.vh (Fin.castLE hd b) j) =
      sg a * sg b * (o.vh (Fin.castLE hd a) j * o.vh (Fin.castLE hd b) j) := fun j => by ring
    simp only [this, ← Finset.mul_sum, e]
    by_cases hab : a = b
    · subst hab; rw [if_pos rfl, if_pos rfl, sg_mul hsg, mul_one]
    · rw [if_neg hab, if_neg fun e => hab (Fin.castLE_injective hd e), mul_zero]
  · ext r a
    rw [mul_apply]
    simp only [transpose_apply, of_apply]
    rw [← mul_vhT h hn hd r a, Finset.mul_sum]
    exact Finset.sum_congr rfl fun j _ => by ring
  · have := hvar a b
    rw [if_neg hab] at this
    exact this
  · simp only [of_apply]
    rw [hsqv, hsqv]
    exact pow_le_pow_left₀ (h.getD_nonneg _) (h.getD_anti hab) 2
  · refine (h.kyFan hd W hW).trans (le_of_eq ?_)
    rw [Finset.sum_comm]
    simp only [of_apply, hsqv]
    rfl

end Prep

open Prep

/-- **C100** (`pca`): data that is not 2-D, is empty, or has fewer rows or columns than components is
rejected with `ValueError`; otherwise the result is a principal component analysis of the standardised
data, whatever decomposition the library computes. -/
theorem C100_pca (E : Ext) (hE : E.Correct) (A : ND) (k : ℕ) :
    (∃ n d, A.shape = [n, d] ∧ 0 < n ∧ 0 < d ∧ k ≤ n ∧ k ≤ d ∧
      ∃ (C : Matrix (Fin k) (Fin d) ℝ) (Z : Matrix (Fin n) (Fin k) ℝ),
        pca E A k = .ok (⟨k, d, C⟩, ⟨n, k, Z⟩) ∧
        ∃ Y, IsStd (entries A n d) Y ∧ IsPca Y C Z ∧ ∀ a, ∑ i, Z i a = 0) ∨
    ((∀ n d, A.shape = [n, d] → n = 0 ∨ d = 0 ∨ n < k ∨ d < k) ∧
      pca E A k = .error .valueError) := by
  by_cases h : ∃ n d, A.shape = [n, d] ∧ 0 < n ∧ 0 < d
  · obtain ⟨n, d, hs, hn, hd⟩ := h
    have e0 : pca E A k = skPca E ⟨n, d, standardize (entries A n d)⟩ k := by
      unfold pca; rw [checkData_ok hs hn hd, Py.ok_bind]
    by_cases hk : k ≤ n ∧ k ≤ d
    · left
      have hstd := standardize_isStd hn (entries A n d)
      have hsvd := hE.pcaSvd (center (standardize (entries A n d)))
      have hp := pcaArr_isPca hsvd (fun i => hE.sign (E.pcaSvd (center (standardize (entries A n d)))) i) hk.1 hk.2
      rw [center_std hn] at hp
      refine ⟨n, d, hs, hn, hd, hk.1, hk.2, _, _, ?_, standardize (entries A n d), hstd, hp, ?_⟩
      · rw [e0]
        unfold skPca
        rw [dif_pos (show k ≤ (Arr2.mk n d (standardize (entries A n d))).r ∧
          k ≤ (Arr2.mk n d (standardize (entries A n d))).c from hk)]
        simp only [center_std hn]
        rfl
      · intro a
        rw [hp.coord]
        simp only [mul_apply, transpose_apply]
        rw [Finset.sum_comm]
        refine Finset.sum_eq_zero fun j _ => ?_
        rw [← Finset.sum_mul, (hstd j).2.1, zero_mul]
    · right
      refine ⟨fun n' d' hs' => ?_, ?_⟩
      · rw [hs] at hs'
        have h1 : n = n' := by simpa using congrArg (·.getD 0 0) hs'
        have h2 : d = d' := by simpa using congrArg (·.getD 1 0) hs'
        omega
      · rw [e0]
        unfold skPca
        rw [dif_neg (show ¬ (k ≤ (Arr2.mk n d (standardize (entries A n d))).r ∧
          k ≤ (Arr2.mk n d (standardize (entries A n d))).c) from hk)]
  · right
    push Not at h
    refine ⟨fun n d hs => ?_, ?_⟩
    · have := h n d hs; omega
    · unfold pca
      rw [checkData_err fun n d hs => by have := h n d hs; omega]
      rfl

/-- The standardised data exists and is the only one, so C100 and C101 determine the matrix they
speak of. -/
theorem C100_standardised {n d : ℕ} (hn : 0 < n) (X : Matrix (Fin n) (Fin d) ℝ) :
    ∃! Y, IsStd X Y :=
  ⟨standardize X, standardize_isStd hn X, fun _ h =>
    isStd_unique hn (standardize_isStd hn X) h fun _ => ⟨1, 0, one_pos, fun _ => by ring⟩⟩

/-- The external routines the theorems assume exist. -/
theorem ext_exists : ∃ E : Ext, E.Correct := by
  classical
  refine ⟨⟨fun A => (exists_isSvd A).choose, fun A => (exists_isSvd A).choose, fun _ _ => 1⟩,
    fun A => (exists_isSvd A).choose_spec, fun A => (exists_isSvd A).choose_spec,
    fun _ _ => Or.inl rfl⟩

/-- Non-trivial case: the identity matrix of the documentation has one component. -/
example : ∃ (E : Ext), E.Correct ∧ ∃ C Z, pca E ⟨[2, 2], [1, 0, 0, 1], rfl⟩ 1 = .ok (C, Z) := by
  obtain ⟨E, hE⟩ := ext_exists
  refine ⟨E, hE, ?_⟩
  rcases C100_pca E hE ⟨[2, 2], [1, 0, 0, 1], rfl⟩ 1 with ⟨_, _, _, _, _, _, _, _, _, h, _⟩ | ⟨h, _⟩
  · exact ⟨_, _, h⟩
  · have := h 2 2 rfl; omega

/-! ## C101: `svd` -/

/-- The claim of the documentation: keyword arguments are passed to `np.linalg.svd`, so that asking
for the reduced form gives the reduced shapes. -/
def C101_claim : Prop :=
  ∀ (E : Ext), E.Correct → ∀ (A : ND) n d, A.shape = [n, d] → 0 < n → 0 < d →
    ∀ M N o, svd E A ["full_matrices=False"] = .ok ⟨M, N, o⟩ → M = n ∧ N = d ∧
      n = min n d ∧ d = min n d

/-- **C101** (`svd`): `ValueError` unless the data is 2-D and not empty; otherwise the three factors
are a singular value decomposition of the standardised data. The keyword arguments do not matter. -/
theorem C101_svd_partial (E : Ext) (hE : E.Correct) (A : ND) (kw : List String) :
    (∃ n d, A.shape = [n, d] ∧ 0 < n ∧ 0 < d ∧
      ∃ o : SvdOut n d, svd E A kw = .ok ⟨n, d, o⟩ ∧
        ∃ Y, IsStd (entries A n d) Y ∧ o.u * o.uᵀ = 1 ∧ o.vh * o.vhᵀ = 1 ∧
          o.s.length = min n d ∧ (∀ x ∈ o.s, 0 ≤ x) ∧ o.s.Pairwise (· ≥ ·) ∧
          ∀ i j, Y i j = ∑ r : Fin n, ∑ c : Fin d,
            if (r : ℕ) = c then o.u i r * o.s.getD r 0 * o.vh c j else 0) ∨
    ((∀ n d, A.shape = [n, d] → n = 0 ∨ d = 0) ∧ svd E A kw = .error .valueError) := by
  by_cases h : ∃ n d, A.shape = [n, d] ∧ 0 < n ∧ 0 < d
  · obtain ⟨n, d, hs, hn, hd⟩ := h
    left
    have hsvd := hE.svd (standardize (entries A n d))
    refine ⟨n, d, hs, hn, hd, E.svd (standardize (entries A n d)), ?_, standardize (entries A n d),
      standardize_isStd hn _, mul_eq_one_comm.1 hsvd.u_orth, hsvd.vh_orth, hsvd.s_len,
      hsvd.s_nonneg, hsvd.s_desc, fun i j => ?_⟩
    · unfold svd; rw [checkData_ok hs hn hd, Py.ok_bind]; rfl
    · conv_lhs => rw [hsvd.factor]
      rw [mul_apply]
      simp only [mul_apply, diagOf, of_apply, Finset.sum_mul]
      rw [Finset.sum_comm]
      refine Finset.sum_congr rfl fun r _ => Finset.sum_congr rfl fun c _ => ?_
      split_ifs <;> simp
  · right
    push Not at h
    refine ⟨fun n d hs => ?_, ?_⟩
    · have := h n d hs; omega
    · unfold svd
      rw [checkData_err fun n d hs => by have := h n d hs; omega]
      rfl

theorem C101_claim_refuted : ¬ C101_claim := by
  intro h
  obtain ⟨E, hE⟩ := ext_exists
  have hs : (ND.mk [2, 1] [1, 0] rfl).shape = [2, 1] := rfl
  have e : svd E ⟨[2, 1], [1, 0], rfl⟩ ["full_matrices=False"] = .ok
      ⟨2, 1, E.svd (standardize (entries ⟨[2, 1], [1, 0], rfl⟩ 2 1))⟩ := by
    unfold svd; rw [checkData_ok hs two_pos one_pos, Py.ok_bind]; rfl
  have := h E hE ⟨[2, 1], [1, 0], rfl⟩ 2 1 hs two_pos one_pos _ _ _ e
  omega

/-! ## C102: units -/

/-- **C102**: `pca` and `svd` do not depend on the units of the columns: multiplying a column by a
positive number and adding a constant to it changes nothing. -/
theorem C102_units (E : Ext) {A A' : ND} {n d : ℕ} (h : A.shape = [n, d]) (h' : A'.shape = [n, d])
    (hn : 0 < n) (hd : 0 < d)
    (hu : ∀ j < d, ∃ a b : ℝ, 0 < a ∧ ∀ i < n, A'.get [i, j] = a * A.get [i, j] + b) (k : ℕ)
    (kw : List String) : pca E A' k = pca E A k ∧ svd E A' kw = svd E A kw := by
  have e : standardize (entries A' n d) = standardize (entries A n d) := by
    refine isStd_unique hn (standardize_isStd hn _) (standardize_isStd hn _) fun j => ?_
    obtain ⟨a, b, ha, hab⟩ := hu j j.2
    exact ⟨a, b, ha, fun i => hab i i.2⟩
  constructor
  · unfold pca
    rw [checkData_ok h hn hd, checkData_ok h' hn hd, Py.ok_bind, Py.ok_bind]
    show skPca E ⟨n, d, _⟩ k = skPca E ⟨n, d, _⟩ k
    rw [e]
  · unfold svd
    rw [checkData_ok h hn hd, checkData_ok h' hn hd, Py.ok_bind, Py.ok_bind]
    show Except.ok _ = Except.ok _
    simp only [e]

example : (ND.mk [2, 1] [1, 3] rfl).get [1, 0] = 2 * (ND.mk [2, 1] [0, 1] rfl).get [1, 0] + 1 := by
  simp [ND.get, ND.offset]; norm_num

/-! ## C103: the two reductions of `mud_problem` -/

section C103

open ND SpecST STP

variable {P : STP} {n p S T : ℕ} {lam data sensors times D : ND} {meas : ND}

/-- The residuals (measurement - datum) / standard deviation. -/
noncomputable def resid (n k : ℕ) (data meas : ND) (sd : ℝ) : Matrix (Fin n) (Fin k) ℝ :=
  .of fun i j => (meas.get [j, 0] - data.get [i, j]) / sd

theorem entries_ofArr2 {n k : ℕ} (R : Matrix (Fin n) (Fin k) ℝ) :
    entries (ofArr2 ⟨n, k, R⟩) n k = R := by
  ext i j
  unfold entries ofArr2
  rw [of_apply, get_ofFn (show InB [n, k] [(i : ℕ), (j : ℕ)] from ⟨i.2, j.2, trivial⟩)]
  show Arr2.get ⟨n, k, R⟩ i j = _
  rw [Arr2.get_mk' _ i.2 j.2]

theorem takeRowsN_mk {N k : ℕ} (V : Matrix (Fin N) (Fin N) ℝ) (hk : k ≤ N) :
    takeRowsN ⟨N, N, V⟩ k = ⟨k, N, .of fun i j => V (Fin.castLE hk i) j⟩ := by
  unfold takeRowsN Arr2.takeRows
  have e : Arr2.pyStop N (k : ℤ) = k := by unfold Arr2.pyStop; rw [if_neg (by omega)]; omega
  refine Arr2.ext_get e rfl fun i j hi hj => ?_
  have hi' : i < k := e ▸ hi
  rw [Arr2.get_mk' _ hi hj, Arr2.get_mk' _ hi' hj]
  rfl

theorem decomp_pca (E : Ext) {n K k : ℕ} (R : Matrix (Fin n) (Fin K) ℝ) (hn : 0 < n) (hK : 0 < K)
    (h1 : k ≤ n) (h2 : k ≤ K) :
    (decomp E).pcaComponents ⟨n, K, R⟩ k = .ok ⟨k, K, .of fun i j =>
      E.sign (E.pcaSvd (standardize R)) i * (E.pcaSvd (standardize R)).vh (Fin.castLE h2 i) j⟩ := by
  unfold decomp pca
  simp only
  rw [checkData_ok (show (ofArr2 ⟨n, K, R⟩).shape = [n, K] from rfl) hn hK, Py.ok_bind,
    entries_ofArr2]
  unfold skPca
  rw [dif_pos (show k ≤ (Arr2.mk n K (standardize R)).r ∧ k ≤ (Arr2.mk n K (standardize R)).c from
    ⟨h1, h2⟩)]
  simp only [center_std hn]
  rfl

theorem decomp_svd (E : Ext) {n K : ℕ} (R : Matrix (Fin n) (Fin K) ℝ) (hn : 0 < n) (hK : 0 < K) :
    (decomp E).svdV ⟨n, K, R⟩ = .ok ⟨K, K, (E.svd (standardize R)).vh⟩ := by
  unfold decomp svd
  simp only
  rw [checkData_ok (show (ofArr2 ⟨n, K, R⟩).shape = [n, K] from rfl) hn hK, Py.ok_bind,
    entries_ofArr2]
  rfl

/-- **C103** (the two reductions of `mud_problem`): on a ready problem, with at most `min(n, S·T)`
components, `"pca"` and `"svd"` build the same density problem up to the sign of the quantities of
interest, if the first singular values of the standardised residuals are simple. The quantities of
interest are the coordinates of the residuals along the principal directions `C` of the standardised
residuals. -/
theorem C103_pca_svd (E : Ext) (hE : E.Correct)
    (h : Ready P n p S T lam data sensors times (some meas)) (hn : 0 < n) (hK : 0 < S * T)
    {sd : ℝ} (hsd : P.stdDev = some sd) (h0 : sd ≠ 0) (hD : P.domain = some D)
    (hDs : D.shape = [p, 2]) {k : ℕ} (h1 : k ≤ n) (h2 : k ≤ S * T)
    (Y : Matrix (Fin n) (Fin (S * T)) ℝ) (hY : IsStd (resid n (S * T) data meas sd) Y)
    (o : SvdOut n (S * T)) (ho : IsSvd Y o)
    (hsimple : ∀ i < k, ∀ j < S * T, j ≠ i → o.s.getD j 0 ≠ o.s.getD i 0) :
    ∃ (C : Matrix (Fin k) (Fin (S * T)) ℝ) (Z : Matrix (Fin n) (Fin k) ℝ) (ε : Fin k → ℝ)
      (Q : DP),
      IsPca Y C Z ∧ (∀ a, ε a = 1 ∨ ε a = -1) ∧
      P.mudProblem (decomp E) "pca" none none k = .ok Q ∧
      Q.y = ⟨n, k, .of fun i a => ∑ j, resid n (S * T) data meas sd i j * C a j⟩ ∧
      P.mudProblem (decomp E) "svd" none none k = .ok { Q with
        y := ⟨n, k, .of fun i a => ε a * ∑ j, resid n (S * T) data meas sd i j * C a j⟩ } := by
  set R := resid n (S * T) data meas sd with hR
  have hYR : Y = standardize R :=
    isStd_unique hn (standardize_isStd hn R) hY fun _ => ⟨1, 0, one_pos, fun _ => by ring⟩
  have hp : IsSvd Y (E.pcaSvd (standardize R)) := by rw [hYR]; exact hE.pcaSvd _
  have hs : IsSvd Y (E.svd (standardize R)) := by rw [hYR]; exact hE.svd _
  have hsg := fun i => hE.sign (E.pcaSvd (standardize R)) i
  set C : Matrix (Fin k) (Fin (S * T)) ℝ := .of fun i j =>
    E.sign (E.pcaSvd (standardize R)) i * (E.pcaSvd (standardize R)).vh (Fin.castLE h2 i) j with hC
  -- the signs
  have hv : ∀ a : Fin k, ∃ ε : ℝ, (ε = 1 ∨ ε = -1) ∧
      ∀ j, (E.svd (standardize R)).vh (Fin.castLE h2 a) j = ε * C a j := by
    intro a
    have hsim : ∀ j : Fin (S * T), j ≠ Fin.castLE h2 a →
        (E.pcaSvd (standardize R)).s.getD j 0 ≠
          (E.pcaSvd (standardize R)).s.getD (Fin.castLE h2 a) 0 := by
      intro j hj
      rw [hp.s_unique ho j, hp.s_unique ho (Fin.castLE h2 a)]
      exact hsimple a a.2 j j.2 fun e => hj (Fin.ext e)
    have key := hp.vh_unique hs (Fin.castLE h2 a) hsim
    simp only [hC, of_apply]
    rcases hsg a with e | e <;> rcases key with k1 | k1 <;> rw [e]
    · exact ⟨1, Or.inl rfl, fun j => by rw [k1]; ring⟩
    · exact ⟨-1, Or.inr rfl, fun j => by rw [k1]; ring⟩
    · exact ⟨-1, Or.inr rfl, fun j => by rw [k1]; ring⟩
    · exact ⟨1, Or.inl rfl, fun j => by rw [k1]; ring⟩
  choose ε hε hεv using hv
  have e1 := mudProblem_whole (decomp E) h hK.ne' hsd h0 "pca" none none k
  have e2 := mudProblem_whole (decomp E) h hK.ne' hsd h0 "svd" none none k
  have hRt : resTab n (S * T) data (fun j => meas.get [j, 0]) sd = ⟨n, S * T, R⟩ := rfl
  have q1 : qoiOf (decomp E) "pca" k n ⟨n, S * T, R⟩ =
      .ok (.mat ⟨n, k, .of fun i a => ∑ j, R i j * C a j⟩) := by
    unfold qoiOf
    rw [if_neg (by decide), if_pos rfl, decomp_pca E R hn hK h1 h2, Py.ok_bind]
    show (do let x ← Arr2.matmul ⟨n, S * T, R⟩ ⟨S * T, k, Cᵀ⟩; pure (NArr.mat x)) = _
    rw [Arr2.matmul_mk]
    rfl
  have q2 : qoiOf (decomp E) "svd" k n ⟨n, S * T, R⟩ =
      .ok (.mat ⟨n, k, .of fun i a => ε a * ∑ j, R i j * C a j⟩) := by
    unfold qoiOf
    rw [if_neg (by decide), if_neg (by decide), if_pos rfl, decomp_svd E R hn hK, Py.ok_bind,
      takeRowsN_mk _ h2]
    set V' : Matrix (Fin k) (Fin (S * T)) ℝ :=
      .of fun i j => (E.svd (standardize R)).vh (Fin.castLE h2 i) j
    show (do let x ← Arr2.matmul ⟨n, S * T, R⟩ ⟨S * T, k, V'ᵀ⟩; pure (NArr.mat x)) = _
    rw [Arr2.matmul_mk]
    have : R * V'ᵀ = .of fun i a => ε a * ∑ j, R i j * C a j := by
      ext i a
      rw [mul_apply, of_apply, Finset.mul_sum]
      refine Finset.sum_congr rfl fun j _ => ?_
      simp only [transpose_apply, V', of_apply]
      rw [hεv]; ring
    rw [this]
    rfl
  simp only [weighResiduals, Py.ok_bind, hRt, q1, q2, hD, Option.map_some] at e1 e2
  rw [dpNew_eq h.lam_shape hDs] at e1 e2
  exact ⟨C, _, ε, _, pcaArr_isPca hp hsg h1 h2, hε, e1, rfl, e2⟩

/-- More components than samples or observations: `"pca"` is rejected with `ValueError`. -/
theorem C103_too_many (E : Ext) (h : Ready P n p S T lam data sensors times (some meas)) (hn : 0 < n)
    (hK : 0 < S * T) {sd : ℝ} (hsd : P.stdDev = some sd) (h0 : sd ≠ 0) {k : ℕ}
    (hk : n < k ∨ S * T < k) (sw : Option NArr) :
    P.mudProblem (decomp E) "pca" none sw k = .error .valueError := by
  rw [mudProblem_whole (decomp E) h hK.ne' hsd h0 "pca" none sw k]
  have hRt : resTab n (S * T) data (fun j => meas.get [j, 0]) sd =
    ⟨n, S * T, resid n (S * T) data meas sd⟩ := rfl
  simp only [weighResiduals, Py.ok_bind, hRt]
  unfold qoiOf
  rw [if_neg (by decide), if_pos rfl]
  have : (decomp E).pcaComponents ⟨n, S * T, resid n (S * T) data meas sd⟩ k =
      .error .valueError := by
    unfold decomp pca
    simp only
    rw [checkData_ok (show (ofArr2 ⟨n, S * T, resid n (S * T) data meas sd⟩).shape = [n, S * T] from
      rfl) hn hK, Py.ok_bind]
    unfold skPca
    rw [dif_neg (show ¬ (k ≤ n ∧ k ≤ S * T) by omega)]
    rfl
  rw [this]
  rfl

/-- ... while `"svd"` with more components than samples (but at most the number of observations) is not: the
additional quantities of interest are the coordinates along directions in which the standardised
residuals vanish. -/
theorem C103_svd_many (E : Ext) (hE : E.Correct)
    (h : Ready P n p S T lam data sensors times (some meas)) (hn : 0 < n) (hK : 0 < S * T)
    {sd : ℝ} (hsd : P.stdDev = some sd) (h0 : sd ≠ 0) (hD : P.domain = some D)
    (hDs : D.shape = [p, 2]) {k : ℕ} (h2 : k ≤ S * T)
    (Y : Matrix (Fin n) (Fin (S * T)) ℝ) (hY : IsStd (resid n (S * T) data meas sd) Y) :
    ∃ (V : Matrix (Fin k) (Fin (S * T)) ℝ) (Q : DP), V * Vᵀ = 1 ∧
      (∀ a : Fin k, n ≤ a → ∀ i, ∑ j, Y i j * V a j = 0) ∧
      P.mudProblem (decomp E) "svd" none none k = .ok Q ∧
      Q.y = ⟨n, k, .of fun i a => ∑ j, resid n (S * T) data meas sd i j * V a j⟩ := by
  set R := resid n (S * T) data meas sd with hR
  have hYR : Y = standardize R :=
    isStd_unique hn (standardize_isStd hn R) hY fun _ => ⟨1, 0, one_pos, fun _ => by ring⟩
  have hs : IsSvd Y (E.svd (standardize R)) := by rw [hYR]; exact hE.svd _
  set V' : Matrix (Fin k) (Fin (S * T)) ℝ :=
      .of fun i j => (E.svd (standardize R)).vh (Fin.castLE h2 i) j with hV'
  have e2 := mudProblem_whole (decomp E) h hK.ne' hsd h0 "svd" none none k
  have hRt : resTab n (S * T) data (fun j => meas.get [j, 0]) sd = ⟨n, S * T, R⟩ := rfl
  have q2 : qoiOf (decomp E) "svd" k n ⟨n, S * T, R⟩ =
      .ok (.mat ⟨n, k, .of fun i a => ∑ j, R i j * V' a j⟩) := by
    unfold qoiOf
    rw [if_neg (by decide), if_neg (by decide), if_pos rfl, decomp_svd E R hn hK, Py.ok_bind,
      takeRowsN_mk _ h2]
    show (do let x ← Arr2.matmul ⟨n, S * T, R⟩ ⟨S * T, k, V'ᵀ⟩; pure (NArr.mat x)) = _
    rw [Arr2.matmul_mk]
    rfl
  simp only [weighResiduals, Py.ok_bind, hRt, q2, hD, Option.map_some] at e2
  rw [dpNew_eq h.lam_shape hDs] at e2
  refine ⟨V', _, ?_, fun a ha i => ?_, e2, rfl⟩
  · ext a b
    have e := congrFun (congrFun hs.vh_orth (Fin.castLE h2 a)) (Fin.castLE h2 b)
    rw [mul_apply, one_apply] at e ⊢
    simp only [transpose_apply] at e
    simp only [transpose_apply, hV', of_apply, e]
    by_cases hab : a = b
    · simp [hab]
    · rw [if_neg hab, if_neg fun e => hab (Fin.castLE_injective h2 e)]
  · have e : Y * (E.svd (standardize R)).vhᵀ = (E.svd (standardize R)).u *
        diagOf n (S * T) (E.svd (standardize R)).s := by
      conv_lhs => rw [hs.factor]
      rw [Matrix.mul_assoc, hs.vh_orth, Matrix.mul_one]
    have e := congrFun (congrFun e i) (Fin.castLE h2 a)
    rw [mul_apply, mul_apply] at e
    simp only [transpose_apply] at e
    simp only [hV', of_apply]
    rw [e]
    refine Finset.sum_eq_zero fun b _ => ?_
    have : ¬ (b : ℕ) = a := by have := b.2; omega
    simp [diagOf, this]

/-! ### Concrete case: `squareST`, one component -/

/-- Standardised residuals of `squareST`. -/
def sqY : Matrix (Fin 2) (Fin (1 * 2)) ℝ := .of fun i _ => if i = 0 then 1 else -1

/-- Their singular value decomposition. -/
noncomputable def sqSvd : SvdOut 2 (1 * 2) where
  u := .of fun i j => if i = 1 ∧ j = 0 then -(Real.sqrt 2 / 2) else Real.sqrt 2 / 2
  s := [2, 0]
  vh := .of fun i j => if i = (1 : Fin 2) ∧ j = (1 : Fin 2) then -(Real.sqrt 2 / 2)
    else Real.sqrt 2 / 2

theorem sqY_std : IsStd (resid 2 (1 * 2) (ndOfNats [2, 2] [0, 1, 2, 3] rfl)
    (ndOfNats [2, 1] [1, 5] rfl) 1) sqY := by
  intro j
  change Fin 2 at j
  refine ⟨?_, ?_, Or.inl ?_⟩
  · fin_cases j
    · refine ⟨0, 1, one_pos, fun i => ?_⟩
      fin_cases i <;> simp [sqY, resid, ND.get, offset, ndOfNats]
      norm_num
    · refine ⟨3, 1, one_pos, fun i => ?_⟩
      fin_cases i <;> simp [sqY, resid, ND.get, offset, ndOfNats] <;> norm_num
  · simp [sqY, Fin.sum_univ_succ]
  · simp [sqY]

theorem sqSvd_isSvd : IsSvd sqY sqSvd := by
  have h2 : Real.sqrt 2 * Real.sqrt 2 = 2 := Real.mul_self_sqrt (by norm_num)
  refine ⟨?_, ?_, rfl, by simp [sqSvd], by simp [sqSvd], ?_⟩
  · ext i j
    fin_cases i <;> fin_cases j <;> simp [sqSvd, mul_apply, Fin.sum_univ_succ, one_apply] <;>
      nlinarith
  · ext i j
    change Fin 2 at i j
    fin_cases i <;> fin_cases j <;>
      simp [sqSvd, mul_apply, Fin.sum_univ_succ, one_apply] <;> nlinarith
  · ext i j
    change Fin 2 at i j
    fin_cases i <;> fin_cases j <;>
      simp [sqSvd, sqY, diagOf, mul_apply, Fin.sum_univ_succ] <;> nlinarith

example : ∃ E : Ext, E.Correct ∧ ∃ Q Q' : DP, ∃ ε : ℝ, (ε = 1 ∨ ε = -1) ∧
    squareST.mudProblem (decomp E) "pca" none none 1 = .ok Q ∧
    squareST.mudProblem (decomp E) "svd" none none 1 = .ok Q' ∧
    ∀ i : Fin 2, Q'.y.get i 0 = ε * Q.y.get i 0 := by
  obtain ⟨E, hE⟩ := ext_exists
  obtain ⟨C, Z, ε, Q, -, hε, h1, hy, h2⟩ := C103_pca_svd E hE squareST_ready two_pos two_pos
    (sd := 1) rfl one_ne_zero rfl rfl (k := 1) (by norm_num) (by norm_num) sqY sqY_std sqSvd
    sqSvd_isSvd (fun i hi j hj hji => by
      obtain rfl : i = 0 := by omega
      obtain rfl : j = 1 := by omega
      simp [sqSvd])
  refine ⟨E, hE, Q, _, ε 0, hε 0, h1, h2, fun i => ?_⟩
  rw [hy]
  simp only
  rw [Arr2.get_mk' _ i.2 one_pos, Arr2.get_mk' _ i.2 one_pos]
  rfl

/-! ### Further cases meeting the hypotheses -/

/-- C102: the columns `(0, 1)` and `(1, 3)` differ by a unit. -/
example (E : Ext) (k : ℕ) : pca E (ND.mk [2, 1] [1, 3] rfl) k = pca E (ND.mk [2, 1] [0, 1] rfl) k :=
  (C102_units E (n := 2) (d := 1) rfl rfl two_pos one_pos (fun j hj => ⟨2, 1, two_pos, fun i hi => by
    obtain rfl : j = 0 := by omega
    interval_cases i <;> norm_num [ND.get, ND.offset]⟩) k []).1

/-- C103: three components of two data. -/
example (E : Ext) (sw : Option NArr) : squareST.mudProblem (decomp E) "pca" none sw 3 = .error .valueError :=
  C103_too_many E squareST_ready two_pos two_pos (sd := 1) rfl one_ne_zero (.inl (by norm_num)) sw

end C103

end Verif
