import Verif.Model.Numpy
import Mathlib.Algebra.BigOperators.Group.List.Lemmas

/-!
# n-dimensional arrays

The part of NumPy's n-dimensional array vocabulary used by `SpatioTemporalProblem`
(`/repo/src/mud/base.py:1528-2030`), `add_noise` (`util.py:186-226`) and the plotting helpers:
shape, row-major storage, `reshape`, indexing along one axis.

Simplification (as everywhere): entries are exact reals.
-/

namespace Verif

/-- An `np.ndarray` of floats: shape and entries in row-major (C) order. For `base.py:1528-2030`. -/
@[ext] structure ND where
  shape : List ℕ
  data : List ℝ
  size_eq : data.length = shape.prod

namespace ND

/-- Position of a multi-index in row-major order. For `base.py:1528-2030`. -/
def offset : List ℕ → List ℕ → ℕ
  | _ :: ns, i :: is => i * ns.prod + offset ns is
  | _, _ => 0

/-- `A[i, j, ...]` for an in-bounds multi-index. For `base.py:1528-2030`. -/
def get (A : ND) (idx : List ℕ) : ℝ := A.data.getD (offset A.shape idx) 0

/-- All multi-indices of a shape in row-major order. For `base.py:1528-2030`. -/
def indices : List ℕ → List (List ℕ)
  | [] => [[]]
  | n :: ns => (List.range n).flatMap fun i => (indices ns).map (i :: ·)

/-- Is `idx` a multi-index of an array of this shape?. For `base.py:1528-2030`. -/
def InB : List ℕ → List ℕ → Prop
  | [], [] => True
  | n :: ns, i :: is => i < n ∧ InB ns is
  | _, _ => False

theorem length_indices : ∀ s : List ℕ, (indices s).length = s.prod
  | [] => rfl
  | n :: ns => by
    simp [indices, List.length_flatMap, length_indices ns]

/-- The array of the given shape whose entry at `idx` is `f idx`. For `base.py:1528-2030`. -/
def ofFn (shape : List ℕ) (f : List ℕ → ℝ) : ND :=
  ⟨shape, (indices shape).map f, by rw [List.length_map, length_indices]⟩

@[simp] theorem ofFn_shape (s : List ℕ) (f : List ℕ → ℝ) : (ofFn s f).shape = s := rfl

theorem offset_lt : ∀ {s idx : List ℕ}, InB s idx → offset s idx < s.prod
  | [], [], _ => by simp [offset]
  | n :: ns, i :: is, h => by
    have h2 := offset_lt h.2
    simp only [offset, List.prod_cons]
    calc i * ns.prod + offset ns is < i * ns.prod + ns.prod := by omega
      _ = (i + 1) * ns.prod := by ring
      _ ≤ n * ns.prod := Nat.mul_le_mul_right _ h.1

theorem getElem?_flatMap_range {α : Type} (g : ℕ → List α) (m : ℕ) :
    ∀ n (_ : ∀ i, (g i).length = m) (i k : ℕ), i < n → k < m →
      ((List.range n).flatMap g)[i * m + k]? = (g i)[k]? := by
  intro n hg
  induction n with
  | zero => intro i k hi; omega
  | succ n ih =>
    intro i k hi hk
    rw [List.range_succ, List.flatMap_append]
    have hlen : ((List.range n).flatMap g).length = n * m := by
      simp [List.length_flatMap, hg]
    rcases Nat.lt_or_ge i n with h | h
    · rw [List.getElem?_append_left, ih i k h hk]
      rw [hlen]
      calc i * m + k < (i + 1) * m := by rw [Nat.add_mul]; omega
        _ ≤ n * m := Nat.mul_le_mul_right _ h
    · obtain rfl : i = n := by omega
      rw [List.getElem?_append_right (by rw [hlen]; omega), hlen]
      simp

theorem indices_getElem? : ∀ {s idx : List ℕ}, InB s idx →
    (indices s)[offset s idx]? = some idx
  | [], [], _ => rfl
  | n :: ns, i :: is, h => by
    rw [indices, offset, getElem?_flatMap_range _ ns.prod n
      (fun i => by rw [List.length_map, length_indices]) i _ h.1 (offset_lt h.2)]
    simp [indices_getElem? h.2]

theorem get_ofFn {s : List ℕ} {f : List ℕ → ℝ} {idx : List ℕ} (h : InB s idx) :
    (ofFn s f).get idx = f idx := by
  unfold get ofFn
  simp [List.getD_eq_getElem?_getD, indices_getElem? h]

theorem mem_indices : ∀ {s idx : List ℕ}, idx ∈ indices s ↔ InB s idx
  | [], [] => by simp [indices, InB]
  | [], _ :: _ => by simp [indices, InB]
  | _ :: _, [] => by simp [indices, InB]
  | n :: ns, i :: is => by
    simp [indices, InB, mem_indices (s := ns) (idx := is)]

/-- Every array is the array of its entries. -/
theorem eq_ofFn (A : ND) : A = ofFn A.shape A.get := by
  have hl : A.data.length = ((indices A.shape).map A.get).length := by
    rw [List.length_map, length_indices, A.size_eq]
  ext1
  · rfl
  refine List.ext_getElem? fun k => ?_
  show A.data[k]? = ((indices A.shape).map A.get)[k]?
  suffices key : ∀ (s : List ℕ) (d : List ℝ), d.length = s.prod → ∀ k,
      d[k]? = ((indices s).map fun idx => d.getD (offset s idx) 0)[k]? from
    key A.shape A.data A.size_eq k
  intro s
  induction s with
  | nil =>
    intro d hd k
    match d, hd with
    | [x], _ => cases k <;> simp [indices, offset]
  | cons n ns ih =>
    intro d hd k
    by_cases hk : k < n * ns.prod
    · have hpos : 0 < ns.prod := Nat.pos_of_ne_zero fun h => by simp [h] at hk
      have hi : k / ns.prod < n := (Nat.div_lt_iff_lt_mul hpos).2 hk
      have hm : k % ns.prod < ns.prod := Nat.mod_lt _ hpos
      have hdec : k = k / ns.prod * ns.prod + k % ns.prod := by
        rw [Nat.mul_comm]; exact (Nat.div_add_mod k ns.prod).symm
      have hsub : ((d.drop (k / ns.prod * ns.prod)).take ns.prod).length = ns.prod := by
        rw [List.length_take, List.length_drop, hd, List.prod_cons]
        have : (k / ns.prod + 1) * ns.prod ≤ n * ns.prod := Nat.mul_le_mul_right _ hi
        have : (k / ns.prod + 1) * ns.prod = k / ns.prod * ns.prod + ns.prod := by ring
        omega
      have := ih _ hsub (k % ns.prod)
      rw [List.getElem?_take_of_lt hm, List.getElem?_drop, ← hdec] at this
      rw [this, List.getElem?_map, List.getElem?_map]
      conv_rhs => rw [hdec]
      rw [indices, getElem?_flatMap_range _ ns.prod n
        (fun i => by rw [List.length_map, length_indices]) _ _ hi hm, List.getElem?_map,
        Option.map_map]
      have hin : ∀ idx ∈ indices ns, d.getD (offset (n :: ns) (k / ns.prod :: idx)) 0 =
          ((d.drop (k / ns.prod * ns.prod)).take ns.prod).getD (offset ns idx) 0 := by
        intro idx hidx
        have ho := offset_lt (mem_indices.1 hidx)
        rw [List.getD_eq_getElem?_getD, List.getD_eq_getElem?_getD,
          List.getElem?_take_of_lt ho, List.getElem?_drop]
        rfl
      have hk' : k % ns.prod < (indices ns).length := by rw [length_indices]; exact hm
      rw [List.getElem?_eq_getElem hk']
      simp only [Option.map_some]
      exact congrArg some (hin _ (List.getElem_mem hk')).symm
    · rw [List.getElem?_eq_none, List.getElem?_eq_none]
      · rw [List.length_map, length_indices, List.prod_cons]; omega
      · rw [hd, List.prod_cons]; omega

/-- Two arrays are equal when shapes and entries agree. -/
theorem ext_get {A B : ND} (hs : A.shape = B.shape)
    (h : ∀ idx, InB A.shape idx → A.get idx = B.get idx) : A = B := by
  rw [A.eq_ofFn, B.eq_ofFn]
  ext1
  · exact hs
  · simp only [ofFn, ← hs]
    exact List.map_congr_left fun idx hidx => h idx (mem_indices.1 hidx)

/-- `A.shape[k]`; `IndexError` if there is no such axis. For `base.py:1528-2030`. -/
def dim (A : ND) (k : ℕ) : Py ℕ :=
  match A.shape[k]? with
  | some n => .ok n
  | none => .error .indexError

/-- `np.reshape(A, shape)` with explicit sizes: `ValueError` unless the size matches. For `base.py:1528-2030`. -/
def reshape (A : ND) (shape : List ℕ) : Py ND :=
  if h : A.shape.prod = shape.prod then .ok ⟨shape, A.data, A.size_eq.trans h⟩
  else .error .valueError

/-- `np.reshape(A, (-1, k))`: the row count is inferred; `ValueError` if `k = 0` or `k` does not
divide the size. For `base.py:1528-2030`. -/
def reshapeCols (A : ND) (k : ℕ) : Py ND :=
  if k = 0 then .error .valueError else A.reshape [A.data.length / k, k]

/-- `np.reshape(A, (n, -1))`: `ValueError` if `n = 0` or `n` does not divide the size. For `base.py:1528-2030`. -/
def reshapeRows (A : ND) (n : ℕ) : Py ND :=
  if n = 0 then .error .valueError else A.reshape [n, A.data.length / n]

/-- `np.reshape(A, (-1,))`, `A.ravel()`. For `base.py:1528-2030`. -/
def ravel (A : ND) : ND := ⟨[A.data.length], A.data, by simp⟩

/-- `A.T` for arrays of at most two dimensions (the only ones transposed in the modelled code).
For `base.py:1528-2030`. -/
def T (A : ND) : ND :=
  match A.shape with
  | [r, c] => ofFn [c, r] fun idx => A.get idx.reverse
  | _ => A

/-- A 2-D array as a table (for the `DensityProblem` model); anything else becomes empty. For `base.py:1528-2030`. -/
def toArr2 (A : ND) : Arr2 :=
  ⟨A.shape.getD 0 0, A.shape.getD 1 0, .of fun i j => A.get [i, j]⟩

/-- What an array index or mask may be in the modelled code. For `base.py:1528-2030`. -/
inductive Mask
  /-- a list or array of (possibly negative) integers -/
  | ints (l : List ℤ)
  /-- a boolean mask -/
  | bools (l : List Bool)
  /-- a slice `a:b` -/
  | slice (a b : Option ℤ)
  /-- a single integer, which removes the axis -/
  | int (k : ℤ)

/-- Python's normalisation of a single index on an axis of length `n`. For `base.py:1528-2030`. -/
def normIdx (n : ℕ) (k : ℤ) : Py ℕ :=
  if 0 ≤ k ∧ k < n then .ok k.toNat
  else if k < 0 ∧ 0 ≤ k + n then .ok (k + n).toNat
  else .error .indexError

/-- Python's normalisation of a slice bound. For `base.py:1528-2030`. -/
def sliceBound (n : ℕ) (k : ℤ) : ℕ := if k < 0 then (k + n).toNat else min k.toNat n

/-- Positions selected on an axis of length `n`, in the order of the result. For `base.py:1528-2030`. -/
def Mask.resolve (n : ℕ) : Mask → Py (List ℕ)
  | .ints l => l.mapM (normIdx n)
  | .bools l =>
    if l.length = n then .ok ((List.range n).filter fun i => l.getD i false)
    else .error .indexError
  | .slice a b =>
    let lo := (a.map (sliceBound n)).getD 0
    let hi := (b.map (sliceBound n)).getD n
    .ok ((List.range n).filter fun i => decide (lo ≤ i ∧ i < hi))
  | .int k => do return [← normIdx n k]

/-- Does the index remove its axis?. For `base.py:1528-2030`. -/
def Mask.isInt : Mask → Bool
  | .int _ => true
  | _ => false

/-- `A[sel, :, ...]`, `A[:, sel, ...]`, ...: index axis `ax`, leave the others alone.
`IndexError` if there are not enough axes or an index is out of range.
`nd` is the number of axes written in the subscript. For `base.py:1528-2030`. -/
def index (A : ND) (nd ax : ℕ) (m : Mask) : Py ND := do
  raiseIf (A.shape.length < nd) .indexError
  let sel ← m.resolve (A.shape.getD ax 0)
  if m.isInt then
    return ofFn (A.shape.eraseIdx ax) fun idx => A.get (idx.insertIdx ax (sel.getD 0 0))
  else
    return ofFn (A.shape.set ax sel.length) fun idx => A.get (idx.set ax (sel.getD (idx.getD ax 0) 0))

end ND

end Verif
