import Verif.SpecST

/-! # Indexing lemmas for n-dimensional arrays -/

namespace Verif

open ND SpecST

namespace ND

theorem normIdx_ok {n : ℕ} {k : ℤ} {i : ℕ} :
    normIdx n k = .ok i ↔ i < n ∧ ((i : ℤ) = k ∨ (i : ℤ) = k + n) := by
  unfold normIdx
  split_ifs with h1 h2
  · constructor
    · intro h; cases h; omega
    · intro h; congr 1; omega
  · constructor
    · intro h; cases h; omega
    · intro h; congr 1; omega
  · constructor
    · intro h; cases h
    · intro h; omega

theorem normIdx_err {n : ℕ} {k : ℤ} {e : Err} (h : normIdx n k = .error e) : e = .indexError := by
  unfold normIdx at h
  split_ifs at h
  cases h; rfl

theorem mapM_ok {n : ℕ} : ∀ {l : List ℤ} {sel : List ℕ},
    l.mapM (normIdx n) = .ok sel ↔
      List.Forall₂ (fun (k : ℤ) (i : ℕ) => i < n ∧ ((i : ℤ) = k ∨ (i : ℤ) = k + n)) l sel
  | [], sel => by
    rw [List.mapM_nil]
    constructor
    · intro h; cases h; exact .nil
    · intro h; cases h; rfl
  | k :: l, sel => by
    rw [List.mapM_cons]
    constructor
    · intro h
      obtain ⟨i, hi, h⟩ := Py.bind_eq_ok.1 h
      obtain ⟨is, his, h⟩ := Py.bind_eq_ok.1 h
      cases h
      exact .cons (normIdx_ok.1 hi) (mapM_ok.1 his)
    · intro h
      cases h with
      | cons h1 h2 =>
        rw [normIdx_ok.2 h1, Py.ok_bind, mapM_ok.2 h2]
        rfl

theorem mapM_err {n : ℕ} : ∀ {l : List ℤ} {e : Err},
    l.mapM (normIdx n) = .error e → e = .indexError
  | [], e, h => by rw [List.mapM_nil] at h; cases h
  | k :: l, e, h => by
    rw [List.mapM_cons] at h
    cases h1 : normIdx n k with
    | error e' => rw [h1] at h; cases h; exact normIdx_err h1
    | ok i =>
      rw [h1, Py.ok_bind] at h
      cases h2 : l.mapM (normIdx n) with
      | error e' => rw [h2] at h; cases h; exact mapM_err h2
      | ok is => rw [h2] at h; cases h

theorem pairwise_ext {a b : List ℕ} (ha : a.Pairwise (· < ·)) (hb : b.Pairwise (· < ·))
    (h : ∀ i, i ∈ a ↔ i ∈ b) : a = b :=
  List.Perm.eq_of_pairwise (fun _ _ _ _ h1 h2 => absurd h1 (by omega)) ha hb
    ((List.perm_ext_iff_of_nodup (ha.imp fun h => Nat.ne_of_lt h)
      (hb.imp fun h => Nat.ne_of_lt h)).2 h)

/-- `resolve` succeeds exactly with the positions the specification picks. -/
theorem resolve_ok {n : ℕ} {m : Mask} {sel : List ℕ} :
    m.resolve n = .ok sel ↔ Picks n (some m) sel := by
  have hr : ∀ p : ℕ → Bool, ((List.range n).filter p).Pairwise (· < ·) := fun p =>
    List.pairwise_lt_range.filter _
  cases m with
  | ints l => exact mapM_ok
  | bools l =>
    simp only [Mask.resolve, Picks]
    split_ifs with h
    · have hm : ∀ i, i ∈ (List.range n).filter (fun i => l.getD i false) ↔ l[i]? = some true := by
        intro i
        simp only [List.mem_filter, List.mem_range, List.getD_eq_getElem?_getD]
        rw [← h]
        constructor
        · rintro ⟨h1, h2⟩
          rw [List.getElem?_eq_getElem h1] at h2 ⊢
          simpa using h2
        · intro h1
          obtain ⟨h2, _⟩ := List.getElem?_eq_some_iff.1 h1
          exact ⟨h2, by rw [h1]; rfl⟩
      constructor
      · intro h'; cases h'; exact ⟨h, hr _, hm⟩
      · rintro ⟨_, h2, h3⟩
        congr 1
        exact pairwise_ext (hr _) h2 fun i => (hm i).trans (h3 i).symm
    · constructor
      · intro h'; cases h'
      · rintro ⟨h', _⟩; exact absurd h' h
  | slice a b =>
    simp only [Mask.resolve, Picks]
    have hm : ∀ i, i ∈ (List.range n).filter (fun i => decide
        ((a.map (sliceBound n)).getD 0 ≤ i ∧ i < (b.map (sliceBound n)).getD n)) ↔ i < n ∧
      (∀ k ∈ a, (if k < 0 then k + n else k) ≤ (i : ℤ)) ∧
        (∀ k ∈ b, (i : ℤ) < if k < 0 then k + n else k) := by
      intro i
      simp only [List.mem_filter, List.mem_range, decide_eq_true_eq]
      have hA : i < n → ((a.map (sliceBound n)).getD 0 ≤ i ↔
          ∀ k ∈ a, (if k < 0 then k + n else k) ≤ (i : ℤ)) := by
        intro hi
        cases a with
        | none => simp
        | some k =>
          simp only [Option.map_some, Option.getD_some, Option.mem_def, Option.some.injEq,
            forall_eq', sliceBound]
          split_ifs <;> omega
      have hB : i < n → (i < (b.map (sliceBound n)).getD n ↔
          ∀ k ∈ b, (i : ℤ) < if k < 0 then k + n else k) := by
        intro hi
        cases b with
        | none => simpa using hi
        | some k =>
          simp only [Option.map_some, Option.getD_some, Option.mem_def, Option.some.injEq,
            forall_eq', sliceBound]
          split_ifs <;> omega
      constructor
      · rintro ⟨h1, h2, h3⟩; exact ⟨h1, (hA h1).1 h2, (hB h1).1 h3⟩
      · rintro ⟨h1, h2, h3⟩; exact ⟨h1, (hA h1).2 h2, (hB h1).2 h3⟩
    constructor
    · intro h'; cases h'; exact ⟨hr _, hm⟩
    · rintro ⟨h2, h3⟩
      congr 1
      exact pairwise_ext (hr _) h2 fun i => (hm i).trans (h3 i).symm
  | int k =>
    simp only [Mask.resolve, Picks]
    constructor
    · intro h
      obtain ⟨i, hi, h⟩ := Py.bind_eq_ok.1 h
      cases h
      exact ⟨i, rfl, normIdx_ok.1 hi⟩
    · rintro ⟨i, rfl, h⟩
      rw [normIdx_ok.2 h]; rfl

/-- The only failure is `IndexError`. -/
theorem resolve_err {n : ℕ} {m : Mask} {e : Err} (h : m.resolve n = .error e) :
    e = .indexError := by
  cases m with
  | ints l => exact mapM_err h
  | bools l =>
    simp only [Mask.resolve] at h
    split_ifs at h
    cases h; rfl
  | slice a b => cases h
  | int k =>
    simp only [Mask.resolve] at h
    cases h1 : normIdx n k with
    | error e' => rw [h1] at h; cases h; exact normIdx_err h1
    | ok i => rw [h1] at h; cases h

theorem resolve_err_of {n : ℕ} {m : Mask} (h : ¬ ∃ sel, Picks n (some m) sel) :
    m.resolve n = .error .indexError := by
  cases h1 : m.resolve n with
  | error e => rw [resolve_err h1]
  | ok sel => exact absurd ⟨sel, resolve_ok.1 h1⟩ h

theorem _root_.Verif.SpecST.Picks.lt {n : ℕ} {m : Option Mask} {sel : List ℕ} (h : Picks n m sel) :
    ∀ i ∈ sel, i < n := by
  intro i hi
  match m with
  | none => rw [show sel = _ from h] at hi; exact List.mem_range.1 hi
  | some (.ints l) =>
    obtain ⟨k, hk, h'⟩ : ∃ k ∈ l, i < n ∧ ((i : ℤ) = k ∨ (i : ℤ) = k + n) := by
      have h' : List.Forall₂ (fun (k : ℤ) (i : ℕ) => i < n ∧ ((i : ℤ) = k ∨ (i : ℤ) = k + n)) l sel := h
      clear h
      induction h' with
      | nil => cases hi
      | cons h1 h2 ih =>
        rcases List.mem_cons.1 hi with rfl | hi
        · exact ⟨_, List.mem_cons_self, h1⟩
        · obtain ⟨k, hk, h⟩ := ih hi
          exact ⟨k, List.mem_cons_of_mem _ hk, h⟩
    exact h'.1
  | some (.bools l) =>
    obtain ⟨h1, -, h3⟩ := h
    obtain ⟨h4, -⟩ := List.getElem?_eq_some_iff.1 ((h3 i).1 hi)
    omega
  | some (.slice a b) => exact ((h.2 i).1 hi).1
  | some (.int k) =>
    obtain ⟨j, rfl, hj, -⟩ := h
    obtain rfl : i = j := by simpa using hi
    exact hj

/-- Different positions lists cannot be picked by the same mask. -/
theorem _root_.Verif.SpecST.Picks.unique {n : ℕ} {m : Option Mask} {a b : List ℕ} (ha : Picks n m a)
    (hb : Picks n m b) : a = b := by
  cases m with
  | none => exact ha.trans hb.symm
  | some m =>
    have := (resolve_ok.2 ha).symm.trans (resolve_ok.2 hb)
    injection this

theorem getD_lt {n : ℕ} {sel : List ℕ} (h : ∀ i ∈ sel, i < n) {k : ℕ} (hk : k < sel.length) :
    sel.getD k 0 < n := by
  rw [List.getD_eq_getElem?_getD, List.getElem?_eq_getElem hk]
  exact h _ (List.getElem_mem hk)

theorem range_getD {n k : ℕ} (hk : k < n) : (List.range n).getD k 0 = k := by
  rw [List.getD_eq_getElem?_getD, List.getElem?_range hk]; rfl

theorem reshape_ok {A : ND} {s : List ℕ} (h : A.shape.prod = s.prod) :
    A.reshape s = .ok ⟨s, A.data, A.size_eq.trans h⟩ := dif_pos h

theorem reshape_err {A : ND} {s : List ℕ} (h : A.shape.prod ≠ s.prod) :
    A.reshape s = .error .valueError := dif_neg h

theorem reshape_self {A : ND} {s : List ℕ} (h : A.shape = s) : A.reshape s = .ok A := by
  subst h; exact reshape_ok rfl

theorem dim_of_head {A : ND} {n : ℕ} (h : A.shape.head? = some n) : A.dim 0 = .ok n := by
  unfold dim
  match hs : A.shape with
  | [] => rw [hs] at h; cases h
  | a :: l => rw [hs] at h; cases h; rfl

theorem index_ok {A : ND} {nd ax : ℕ} {m : Mask} {sel : List ℕ} (hnd : nd ≤ A.shape.length)
    (hs : m.resolve (A.shape.getD ax 0) = .ok sel) (hm : m.isInt = false) :
    A.index nd ax m = .ok (ofFn (A.shape.set ax sel.length) fun idx =>
      A.get (idx.set ax (sel.getD (idx.getD ax 0) 0))) := by
  unfold index
  rw [raiseIf_false (by omega), Py.ok_bind, hs, Py.ok_bind, hm]
  rfl

theorem index_int {A : ND} {nd ax : ℕ} {m : Mask} {sel : List ℕ} (hnd : nd ≤ A.shape.length)
    (hs : m.resolve (A.shape.getD ax 0) = .ok sel) (hm : m.isInt = true) :
    A.index nd ax m = .ok (ofFn (A.shape.eraseIdx ax) fun idx =>
      A.get (idx.insertIdx ax (sel.getD 0 0))) := by
  unfold index
  rw [raiseIf_false (by omega), Py.ok_bind, hs, Py.ok_bind, hm]
  rfl

theorem index_err {A : ND} {nd ax : ℕ} {m : Mask} (hnd : nd ≤ A.shape.length)
    (hs : m.resolve (A.shape.getD ax 0) = .error .indexError) :
    A.index nd ax m = .error .indexError := by
  unfold index
  rw [raiseIf_false (by omega), Py.ok_bind, hs]
  rfl

theorem get_mk (s : List ℕ) (d : List ℝ) (h : d.length = s.prod) (idx : List ℕ) :
    (ND.mk s d h).get idx = d.getD (offset s idx) 0 := rfl

end ND

end Verif
