import Verif.Props.NullSpace
import Verif.Lemmas.SvdExists

/-!
# C61 `rank_decomposition` and C68 `plot_contours`
-/

open Matrix

namespace Verif

variable {M N : ℕ} {A : Matrix (Fin M) (Fin N) ℝ} {o : SvdOut M N}

/-! ## C60, for every matrix -/

/-- **C60, non-vacuity.** Every non-empty matrix has a decomposition NumPy may return, so
`C60_null_space` speaks about every one. -/
theorem C60_null_space_total (A : Matrix (Fin M) (Fin N) ℝ) (hM : M ≠ 0) (hN : N ≠ 0) :
    ∃ o, IsSvd A o ∧ ∃ Z, nullSpace o = .ok Z :=
  let ⟨o, h⟩ := exists_isSvd A
  let ⟨_, _, _, _, h', _⟩ := C60_null_space h hM hN (rcond := none) (by simp)
  ⟨o, h, _, h'⟩

/-- The decomposition of the row `(a, 0)` with `a > 0`. -/
def svdRow (a : ℝ) : SvdOut 1 2 := ⟨1, [a], 1⟩

theorem svdRow_isSvd {a : ℝ} (ha : 0 ≤ a) : IsSvd !![a, 0] (svdRow a) where
  u_orth := by simp [svdRow]
  vh_orth := by simp [svdRow]
  s_len := rfl
  s_nonneg := by simp [svdRow, ha]
  s_desc := by simp [svdRow]
  factor := by
    ext i j
    fin_cases i; fin_cases j <;> simp [svdRow, diagOf]

/-- A concrete null space: for the row `(3, 0)` it is the column `(0, 1)`. -/
example : nullSpace (svdRow 3) = .ok ⟨2, 1, !![0; 1]⟩ := by
  have hn : numAbove [3] (3 * (floatEps * max (1 : ℕ) (2 : ℕ))) = 1 := by
    have : (3 * (floatEps * ((max 1 2 : ℕ) : ℝ))) < 3 := by norm_num [floatEps]
    simp [numAbove]
    norm_num [floatEps]
  have e : nullSpace (svdRow 3) =
    .ok (dropRowsT 1 (numAbove [3] (3 * (floatEps * max (1 : ℕ) (2 : ℕ))))) := rfl
  rw [e, hn]
  have : (dropRowsT (1 : Matrix (Fin 2) (Fin 2) ℝ) 1) = ⟨2, 1, !![0; 1]⟩ := by
    unfold dropRowsT
    congr 1
    ext i j
    fin_cases i <;> fin_cases j <;> simp [Matrix.one_apply]
  rw [this]

/-! ## C61 -/

/-- The rank-`k` truncation of the decomposition: the sum of the first `k` terms
`s_i · u_i · v_iᵀ`, where `u_i` is the `i`-th left singular vector (a column of `u`) and `v_i` the
`i`-th right singular vector (a **row** of `vh`). -/
noncomputable def svdTruncation (o : SvdOut M N) (k : ℕ) : Matrix (Fin M) (Fin N) ℝ :=
  .of fun r c => ∑ i : Fin M, ∑ j : Fin N,
    if (i : ℕ) = j ∧ (i : ℕ) < k then o.s.getD i 0 * o.u r i * o.vh j c else 0

/-- The specification is right: the full truncation is the matrix. -/
theorem svdTruncation_full (h : IsSvd A o) {k : ℕ} (hk : min M N ≤ k) : svdTruncation o k = A := by
  rw [h.factor]
  ext r c
  simp only [svdTruncation, Matrix.of_apply, Matrix.mul_apply, diagOf, Finset.sum_mul]
  rw [Finset.sum_comm]
  refine Finset.sum_congr rfl fun j _ => Finset.sum_congr rfl fun i _ => ?_
  by_cases hij : (i : ℕ) = j
  · have : (i : ℕ) < k := by have := i.2; have := j.2; omega
    simp only [hij, true_and, if_true]
    rw [if_pos (by omega)]
    ring
  · simp [hij]

/-- **C61 as documented**: entry `k` is the rank-`(k+1)` truncation. -/
def C61_claim : Prop := ∀ (M N : ℕ) (A : Matrix (Fin M) (Fin N) ℝ) (o : SvdOut M N), M ≠ 0 → N ≠ 0 →
  IsSvd A o → ∃ L, rankDecomposition o = .ok L ∧ ∀ k (hk : k < L.length),
    L[k] = svdTruncation o (k + 1)

/-- Term `i` of the code: `s_i · u[:, i] · v[:, i]ᵀ` with the **column** of the third factor. -/
noncomputable def codeTerm (o : SvdOut M N) (i : ℕ) : Matrix (Fin M) (Fin N) ℝ :=
  .of fun r c => if h : i < M ∧ i < N then
    o.s.getD i 0 * o.u r ⟨i, h.1⟩ * o.vh c ⟨i, h.2⟩ else 0

theorem rankOneUpdate_ok (hs : o.s.length = min M N) {i : ℕ} (hM : i < M) (hN : i < N) :
    rankOneUpdate o i = .ok (codeTerm o i) := by
  unfold rankOneUpdate
  rw [raiseIf, if_neg (by rw [hs]; omega)]
  simp only [hM, hN, dif_pos]
  show Except.ok _ = Except.ok _
  congr 1
  ext r c
  simp [codeTerm, hM, hN]

theorem rankOneUpdate_err (hs : o.s.length = min M N) {i : ℕ} (h : M ≤ i ∨ N ≤ i) :
    rankOneUpdate o i = .error .indexError := by
  unfold rankOneUpdate
  rw [raiseIf, if_pos (by rw [hs]; omega)]
  rfl

theorem rankLoop_ok (hs : o.s.length = min M N) : ∀ (is : List ℕ) (acc : Matrix (Fin M) (Fin N) ℝ),
    (∀ i ∈ is, i < M ∧ i < N) →
    rankLoop o is acc = .ok ((List.range is.length).map fun k =>
      acc + ((is.take (k + 1)).map (codeTerm o)).sum)
  | [], acc, _ => rfl
  | i :: is, acc, h => by
    have hi := h i (by simp)
    rw [rankLoop, rankOneUpdate_ok hs hi.1 hi.2]
    have ih := rankLoop_ok hs is (acc + codeTerm o i) fun j hj => h j (by simp [hj])
    show (do let rest ← rankLoop o is (acc + codeTerm o i); pure ((acc + codeTerm o i) :: rest)) = _
    rw [ih]
    show Except.ok _ = Except.ok _
    congr 1
    rw [List.length_cons, List.range_succ_eq_map, List.map_cons, List.map_map]
    congr 1
    · simp
    · refine List.map_congr_left fun k _ => ?_
      simp [add_assoc]

theorem rankLoop_err (hs : o.s.length = min M N) : ∀ (is : List ℕ) (acc : Matrix (Fin M) (Fin N) ℝ),
    (∃ i ∈ is, M ≤ i ∨ N ≤ i) → rankLoop o is acc = .error .indexError
  | [], _, h => by simp at h
  | i :: is, acc, h => by
    rw [rankLoop]
    by_cases hi : M ≤ i ∨ N ≤ i
    · rw [rankOneUpdate_err hs hi]; rfl
    · rw [rankOneUpdate_ok hs (by omega) (by omega)]
      show (do let rest ← rankLoop o is (acc + codeTerm o i); pure ((acc + codeTerm o i) :: rest)) = _
      rw [rankLoop_err hs is _ (by
        obtain ⟨j, hj, hj'⟩ := h
        rcases List.mem_cons.1 hj with rfl | hj
        · exact absurd hj' hi
        · exact ⟨j, hj, hj'⟩)]
      rfl

/-- **C61, what the code returns.** For `1 ≤ N ≤ M`: `N` matrices; the first is term 0, entry `k ≥ 1`
is the sum of terms `1 … k` (term 0 is missing), and every term uses the column of `vh`. -/
theorem C61_rank_decomposition_exact (h : IsSvd A o) (hN : N ≠ 0) (hle : N ≤ M) :
    ∃ L, rankDecomposition o = .ok L ∧ L.length = N ∧ L[0]? = some (codeTerm o 0) ∧
      ∀ k, k + 1 < N → L[k + 1]? = some (∑ i ∈ Finset.Icc 1 (k + 1), codeTerm o i) := by
  have hs := h.s_len
  refine ⟨codeTerm o 0 :: (List.range (N - 1)).map fun k =>
      (0 : Matrix (Fin M) (Fin N) ℝ) +
        ((((List.range (N - 1)).map (· + 1)).take (k + 1)).map (codeTerm o)).sum, ?_, ?_, ?_, ?_⟩
  · unfold rankDecomposition
    rw [rankOneUpdate_ok hs (by omega) (by omega)]
    show (do let rest ← rankLoop o ((List.range (N - 1)).map (· + 1)) 0
             pure (codeTerm o 0 :: rest)) = _
    rw [rankLoop_ok hs _ _ (by
      intro i hi
      simp only [List.mem_map, List.mem_range] at hi
      omega)]
    simp only [List.length_map, List.length_range]
    rfl
  · simp; omega
  · rfl
  · intro k hk
    rw [List.getElem?_cons_succ, List.getElem?_map, List.getElem?_range (by omega)]
    simp only [Option.map_some, zero_add, Option.some.injEq]
    rw [← List.map_take, List.take_range, min_eq_left (by omega), List.map_map]
    have : ∀ n, ((List.range n).map (codeTerm o ∘ (· + 1))).sum =
        ∑ i ∈ Finset.Icc 1 n, codeTerm o i := by
      intro n
      induction n with
      | zero => simp
      | succ n ih =>
        rw [List.range_succ, List.map_append, List.sum_append, ih,
          Finset.sum_Icc_succ_top (by omega)]
        simp
    exact this _

/-- **C61, failure.** A matrix with fewer rows than columns (or no column) raises `IndexError`. -/
theorem C61_rank_decomposition_wide (h : IsSvd A o) (hw : N = 0 ∨ M < N) :
    rankDecomposition o = .error .indexError := by
  have hs := h.s_len
  unfold rankDecomposition
  by_cases h0 : M ≤ 0 ∨ N ≤ 0
  · rw [rankOneUpdate_err hs h0]; rfl
  · rw [rankOneUpdate_ok hs (by omega) (by omega)]
    show (do let rest ← rankLoop o ((List.range (N - 1)).map (· + 1)) 0
             pure (codeTerm o 0 :: rest)) = _
    rw [rankLoop_err hs _ _ ⟨M, by simp only [List.mem_map, List.mem_range]; exact ⟨M - 1, by omega, by omega⟩,
      Or.inl le_rfl⟩]
    rfl

/-- **C61, the part that holds**: a matrix with a single column is returned as its own
decomposition. -/
theorem C61_rank_decomposition_partial {A : Matrix (Fin M) (Fin 1) ℝ} {o : SvdOut M 1}
    (h : IsSvd A o) (hM : M ≠ 0) : rankDecomposition o = .ok [A] ∧ A = svdTruncation o 1 := by
  obtain ⟨L, hL, hlen, h0, -⟩ := C61_rank_decomposition_exact h (by norm_num) (by omega)
  have hA := svdTruncation_full h (k := 1) (by omega)
  refine ⟨?_, hA.symm⟩
  rw [hL]
  obtain ⟨x, rfl⟩ := List.length_eq_one_iff.1 hlen
  have : x = codeTerm o 0 := by simpa using h0
  rw [this, ← hA]
  congr 2
  ext r c
  have hc : c = 0 := Subsingleton.elim _ _
  subst hc
  simp only [codeTerm, svdTruncation, Matrix.of_apply]
  rw [dif_pos ⟨by omega, by omega⟩, Finset.sum_eq_single (⟨0, by omega⟩ : Fin M)]
  · simp
  · intro b _ hb
    have : (b : ℕ) ≠ 0 := fun h => hb (Fin.ext h)
    simp [this]
  · simp

def svdDiag : SvdOut 2 2 := ⟨1, [2, 1], 1⟩

theorem svdDiag_isSvd : IsSvd !![2, 0; 0, 1] svdDiag where
  u_orth := by simp [svdDiag]
  vh_orth := by simp [svdDiag]
  s_len := rfl
  s_nonneg := by simp [svdDiag]
  s_desc := by simp [svdDiag]
  factor := by
    ext i j
    fin_cases i <;> fin_cases j <;> simp [svdDiag, diagOf]

/-- **C61 is false of the code**: the last entry for `diag(2, 1)` is `diag(0, 1)`. -/
theorem C61_claim_refuted : ¬ C61_claim := by
  intro hc
  obtain ⟨L, hL, hk⟩ := hc 2 2 _ svdDiag (by norm_num) (by norm_num) svdDiag_isSvd
  obtain ⟨L', hL', hlen, -, h1⟩ := C61_rank_decomposition_exact svdDiag_isSvd (by norm_num) le_rfl
  rw [hL] at hL'
  cases hL'
  have e1 := hk 1 (by omega)
  have e2 := h1 0 (by norm_num)
  rw [List.getElem?_eq_getElem (by omega), Option.some.injEq] at e2
  have e2 : L[1] = _ := e2
  rw [e2, svdTruncation_full svdDiag_isSvd (by norm_num)] at e1
  have := congrFun (congrFun e1 0) 0
  simp [codeTerm, svdDiag] at this

/-! ## C68 -/

/-- The contour line of a row through the reference point: the points with the same output. -/
def onContour (row ref : Fin 2 → ℝ) (p : ℝ × ℝ) : Prop :=
  row 0 * p.1 + row 1 * p.2 = row 0 * ref 0 + row 1 * ref 1

/-- **C68 as documented**: for every row, the segment drawn lies on the contour line of that row
through the reference point (both end points do) and has the reference point as its midpoint. -/
def C68_claim : Prop := ∀ (m : ℕ) (A : Matrix (Fin m) (Fin 2) ℝ) (o : Fin m → SvdOut 1 2)
  (ref : Fin 2 → ℝ) (w : ℝ), m ≠ 0 → (∀ i, A i ≠ 0) → (∀ i, IsSvd (.of fun _ => A i) (o i)) →
  ∃ S, plotContours o ref w = .ok S ∧ S.length = m ∧ ∀ (i : Fin m) p q, S[i]? = some (p, q) →
    onContour (A i) ref p ∧ onContour (A i) ref q ∧ p.1 + q.1 = 2 * ref 0 ∧ p.2 + q.2 = 2 * ref 1

/-- The null space of a non-zero row of length two is one column orthogonal to it. -/
theorem nullSpace_row {row : Fin 2 → ℝ} {d : SvdOut 1 2} (h : IsSvd (.of fun _ : Fin 1 => row) d)
    (hr : row ≠ 0) : ∃ Z : Matrix (Fin 2) (Fin 1) ℝ, nullSpace d = .ok ⟨2, 1, Z⟩ ∧
      row 0 * Z 0 0 + row 1 * Z 1 0 = 0 ∧ Z 0 0 ^ 2 + Z 1 0 ^ 2 = 1 := by
  obtain ⟨a, ha⟩ := List.length_eq_one_iff.1 (show d.s.length = 1 from h.s_len)
  have ha0 : 0 ≤ a := h.s_nonneg a (by simp [ha])
  have hane : a ≠ 0 := by
    rintro rfl
    refine hr (funext fun c => ?_)
    have := congrFun (congrFun h.factor 0) c
    rw [Matrix.of_apply] at this
    rw [this]
    have hd : diagOf 1 2 d.s = 0 := by
      ext i j
      fin_cases i; fin_cases j <;> simp [diagOf, ha]
    rw [hd]
    simp
  have hapos : 0 < a := lt_of_le_of_ne ha0 (Ne.symm hane)
  have hnum : numAbove d.s (a * (floatEps * max (1 : ℕ) (2 : ℕ))) = 1 := by
    have : a * (floatEps * ((max 1 2 : ℕ) : ℝ)) < a := by
      have : floatEps * ((max 1 2 : ℕ) : ℝ) < 1 := by norm_num [floatEps]
      nlinarith
    rw [ha]
    simp only [numAbove, List.countP_cons, List.countP_nil, this, decide_true]
    rfl
  have e : nullSpace d = .ok (dropRowsT d.vh 1) := by
    unfold nullSpace
    dsimp only
    rw [ha]
    show Except.ok _ = _
    rw [← ha]
    congr 2
  refine ⟨.of fun j _ => d.vh 1 j, e.trans (by
    unfold dropRowsT
    congr 2
    ext j k
    have : k = (0 : Fin 1) := Subsingleton.elim (α := Fin 1) _ _
    subst this
    rfl), ?_, ?_⟩
  · have h1 := (h.ker_iff fun j => d.vh 1 j).2 (by
      intro i hi
      have hi0 : i = 0 := by
        fin_cases i
        · rfl
        · exact absurd (by simp [ha]) hi
      subst hi0
      have := congrFun (congrFun h.vh_orth 0) 1
      rw [Matrix.mul_apply, Matrix.one_apply_ne (by decide)] at this
      exact this)
    have := congrFun h1 0
    simpa [Matrix.mulVec, dotProduct, Fin.sum_univ_two] using this
  · have := congrFun (congrFun h.vh_orth 1) 1
    rw [Matrix.mul_apply, Matrix.one_apply_eq, Fin.sum_univ_two] at this
    simpa [sq] using this

theorem stackCols_single (Zs : List (Matrix (Fin 2) (Fin 1) ℝ)) :
    stackCols (Zs.map fun Z => ⟨2, 1, Z⟩) = Zs.map fun Z => fun j => Z j 0 := by
  induction Zs with
  | nil => rfl
  | cons Z Zs ih =>
    rw [List.map_cons, List.map_cons, stackCols, ih, List.ofFn_succ]
    simp only [List.ofFn_zero, List.cons_append, List.nil_append]
    congr 1
    funext j
    fin_cases j <;> simp [Arr2.get]

theorem mapM_nullSpace {m : ℕ} (o : Fin m → SvdOut 1 2) (Z : Fin m → Matrix (Fin 2) (Fin 1) ℝ)
    (h : ∀ i, nullSpace (o i) = .ok ⟨2, 1, Z i⟩) :
    (List.ofFn o).mapM (fun d => nullSpace d) =
      Except.ok (ε := Err) ((List.ofFn Z).map fun Z => (⟨2, 1, Z⟩ : Arr2)) := by
  induction m with
  | zero => rfl
  | succ m ih =>
    rw [List.ofFn_succ, List.ofFn_succ, List.mapM_cons, h 0,
      ih (fun i => o i.succ) (fun i => Z i.succ) fun i => h i.succ]
    rfl

/-- The segments that are drawn when no row of `A` is zero. -/
theorem plotContours_ok {m : ℕ} {A : Matrix (Fin m) (Fin 2) ℝ} {o : Fin m → SvdOut 1 2}
    (ref : Fin 2 → ℝ) (w : ℝ) (hm : m ≠ 0) (hA : ∀ i, A i ≠ 0)
    (h : ∀ i, IsSvd (.of fun _ => A i) (o i)) :
    ∃ a : Fin m → Fin 2 → ℝ, plotContours o ref w = .ok (List.ofFn fun i => contourSegment ref (a i) w) ∧
      ∀ i, A i 0 * a i 0 + A i 1 * a i 1 = 0 ∧ a i 0 ^ 2 + a i 1 ^ 2 = 1 := by
  choose Z hZ hz hz' using fun i => nullSpace_row (h i) (hA i)
  refine ⟨fun i j => Z i j 0, ?_, fun i => ⟨hz i, hz' i⟩⟩
  unfold plotContours
  rw [raiseIf, if_neg hm]
  show (do let Zs ← (List.ofFn o).mapM fun d => nullSpace d
           let AA := stackCols Zs
           raiseIf (AA.length < m) .indexError
           pure ((AA.take m).map fun a => contourSegment ref a w) : Py _) = _
  rw [mapM_nullSpace o Z hZ]
  show (do let AA := stackCols ((List.ofFn Z).map fun Z => ⟨2, 1, Z⟩)
           raiseIf (AA.length < m) .indexError
           pure ((AA.take m).map fun a => contourSegment ref a w) : Py _) = _
  rw [stackCols_single]
  dsimp only
  rw [raiseIf, if_neg (by simp)]
  show Except.ok _ = Except.ok _
  congr 1
  rw [List.take_of_length_le (by simp), List.map_map, List.map_ofFn]
  rfl

/-- **C68, what holds**: when no row is zero, one segment is drawn per row, of length scale `w` along
a unit vector of the kernel of that row; its end points both lie on the contour line through the
reference point *iff* the two coordinates of the reference point are equal, and then the reference
point is the midpoint. -/
theorem C68_contours_partial {m : ℕ} {A : Matrix (Fin m) (Fin 2) ℝ} {o : Fin m → SvdOut 1 2}
    (ref : Fin 2 → ℝ) (w : ℝ) (hm : m ≠ 0) (hA : ∀ i, A i ≠ 0)
    (h : ∀ i, IsSvd (.of fun _ => A i) (o i)) :
    ∃ S, plotContours o ref w = .ok S ∧ S.length = m ∧ ∀ (i : Fin m) p q, S[i]? = some (p, q) →
      ((onContour (A i) ref p ∧ onContour (A i) ref q) ↔ ref 0 = ref 1) ∧
      (ref 0 = ref 1 → p.1 + q.1 = 2 * ref 0 ∧ p.2 + q.2 = 2 * ref 1 ∧
        (p.1 - ref 0) ^ 2 + (p.2 - ref 1) ^ 2 = w ^ 2) := by
  obtain ⟨a, ha, hz⟩ := plotContours_ok ref w hm hA h
  refine ⟨_, ha, by simp, fun i p q hi => ?_⟩
  have hi : (List.ofFn fun i => contourSegment ref (a i) w)[(i : ℕ)]? = some (p, q) := hi
  rw [List.getElem?_ofFn, dif_pos i.2, Option.some.injEq] at hi
  simp only [contourSegment, Prod.mk.injEq] at hi
  obtain ⟨rfl, rfl⟩ := hi
  obtain ⟨hz, hu⟩ := hz i
  simp only [onContour]
  refine ⟨⟨fun ⟨h1, h2⟩ => ?_, fun e => ⟨?_, ?_⟩⟩, fun e => ⟨?_, ?_, ?_⟩⟩
  · by_contra hne
    refine hA i (funext fun c => ?_)
    have hd : ref 0 - ref 1 ≠ 0 := sub_ne_zero.2 hne
    have e1 : A i 1 * (ref 0 - ref 1) = 0 := by linear_combination h1 + w * hz
    have e0 : A i 0 * (ref 0 - ref 1) = 0 := by linear_combination -h2 + w * hz
    have e1 := (mul_eq_zero.1 e1).resolve_right hd
    have e0 := (mul_eq_zero.1 e0).resolve_right hd
    fin_cases c
    · exact e0
    · exact e1
  · rw [← e]; linear_combination -w * hz
  · rw [← e]; linear_combination w * hz
  · rw [← e]; ring
  · rw [← e]; ring
  · rw [← e]; linear_combination w ^ 2 * hu

/-- **C68 is false of the code**: with reference point `(0, 1)`. -/
theorem C68_claim_refuted : ¬ C68_claim := by
  intro hc
  have hA : ∀ i, (!![1, 0] : Matrix (Fin 1) (Fin 2) ℝ) i ≠ 0 := by
    intro i hi
    have := congrFun hi 0
    fin_cases i
    simp at this
  have hsvd : ∀ i : Fin 1, IsSvd (.of fun _ => (!![1, 0] : Matrix (Fin 1) (Fin 2) ℝ) i) (svdRow 1) := by
    intro i
    have : i = 0 := Subsingleton.elim _ _
    subst this
    have := svdRow_isSvd (a := 1) (by norm_num)
    convert this using 1
    ext r c
    have : r = 0 := Subsingleton.elim _ _
    subst this
    rfl
  obtain ⟨S, hS, hl, hk⟩ := hc 1 !![1, 0] (fun _ => svdRow 1) ![0, 1] 1 (by norm_num) hA hsvd
  obtain ⟨S', hS', -, hk'⟩ := C68_contours_partial ![0, 1] 1 (by norm_num) hA hsvd
  rw [hS] at hS'
  cases hS'
  obtain ⟨pq, hpq⟩ := List.length_eq_one_iff.1 hl
  have h0 : S[((0 : Fin 1) : ℕ)]? = some (pq.1, pq.2) := by rw [hpq]; rfl
  obtain ⟨h1, h2, -⟩ := hk 0 _ _ h0
  have := (hk' 0 _ _ h0).1.1 ⟨h1, h2⟩
  norm_num at this

/-! ### Cases meeting the hypotheses -/

/-- The null space of `[3 0]` at the default tolerance and at a given one. -/
example : ∃ (smax : ℝ) (K : ℕ) (Z : Matrix (Fin 2) (Fin K) ℝ), IsGreatest {x | x ∈ (svdRow 3).s} smax ∧
    nullSpace (svdRow 3) (some (1 / 10)) = .ok ⟨2, K, Z⟩ ∧ Zᵀ * Z = 1 := by
  obtain ⟨smax, K, Z, h1, h2, h3, -⟩ := C60_null_space (svdRow_isSvd (a := 3) (by norm_num)) one_ne_zero
    two_ne_zero (rcond := some (1 / 10)) (by intro r hr; cases hr; norm_num)
  exact ⟨smax, K, Z, h1, h2, h3⟩

/-- The documented decomposition raises on the wide matrix `[3 0]`. -/
example : rankDecomposition (svdRow 3) = .error .indexError :=
  C61_rank_decomposition_wide (svdRow_isSvd (a := 3) (by norm_num)) (.inr (by norm_num))

/-- A decomposition of the column `[2, 0]`. -/
theorem svdCol_isSvd : IsSvd (!![2; 0] : Matrix (Fin 2) (Fin 1) ℝ) ⟨1, [2], 1⟩ where
  u_orth := by simp
  vh_orth := by simp
  s_len := rfl
  s_nonneg := by simp
  s_desc := by simp
  factor := by
    ext i j
    fin_cases i <;> fin_cases j <;> simp [diagOf]

example : rankDecomposition (⟨1, [2], 1⟩ : SvdOut 2 1) = .ok [!![2; 0]] :=
  (C61_rank_decomposition_partial svdCol_isSvd two_ne_zero).1

end Verif
