import Verif.Model.Funs
import Verif.Props.Wme
import Verif.Props.Util
import Verif.Props.Bayes

/-!
# `mud.funs`: C67 (`mud_problem`, `map_problem`)
-/

open Matrix

namespace Verif

/-! ## Specification -/

namespace SpecFuns

open SpecST

variable {σ : Type}

/-- Which number of observations is meant: all of them by default. -/
def Uses (d : ℕ) : Option ℤ → ℕ → Prop
  | none, k => k = d
  | some m, k => m = k

/-- Misfit of observation `j` for sample `i`: prediction minus noisy datum, where the noise is `sd`
times the `j`-th standard normal number drawn. -/
noncomputable def misfit (G : Rng σ) (s : σ) (qoi : Arr2) (qoi_true : List ℝ) (sd : ℝ) (i j : ℕ) : ℝ :=
  qoi.get i j - (qoi_true.getD j 0 + sd * nthDraw G s j)

/-- Weighted mean error of sample `i` over the observations in `js`. -/
noncomputable def errorOver (G : Rng σ) (s : σ) (qoi : Arr2) (qoi_true : List ℝ) (sd : ℝ)
    (js : List ℕ) (i : ℕ) : ℝ :=
  (js.map (misfit G s qoi qoi_true sd i)).sum / (sd * Real.sqrt js.length)

end SpecFuns

open SpecST SpecFuns Funs

variable {σ : Type} (G : Rng σ)

/-! ## Rejection -/

theorem checkNumObs_uses {d k : ℕ} {m : Option ℤ} (h : Uses d m k) (h1 : 1 ≤ k) (hk : k ≤ d) :
    checkNumObs d m = .ok k := by
  cases m with
  | none => cases h; rfl
  | some m =>
    cases h
    have a : ¬ ((k : ℤ) < 1) := by omega
    have b : ¬ ((k : ℤ) > d) := by omega
    simp [checkNumObs, a, b]

theorem checkNumObs_bad {d : ℕ} {m : ℤ} (h : m < 1 ∨ (d : ℤ) < m) :
    checkNumObs d (some m) = .error .valueError := by
  unfold checkNumObs
  by_cases a : m < 1
  · simp [a]
  · have b : m > d := by omega
    simp [a, b]

/-- C67: a number of observations below 1 or above the number of columns is refused by
`mud_problem`, before any random number is drawn. -/
theorem C67_mud_rejects (lam : NArr) (qoi : Arr2) (qoi_true : List ℝ) (domain : Option NArr)
    (sd : ℝ) (m : ℤ) (split : Option (List (List ℤ))) (weights : Option NArr) (s : σ)
    (h : m < 1 ∨ (qoi.c : ℤ) < m) :
    mudProblem G lam (.mat qoi) qoi_true domain sd (some m) split weights s
      = (.error .valueError, s) := by
  unfold mudProblem
  have : qoiTable (.mat qoi) = .ok qoi := rfl
  rw [this, PyM.lift_ok_bind, checkNumObs_bad h]
  rfl

/-- C67: the same for `map_problem`. -/
theorem C67_map_rejects (lam : NArr) (qoi : Arr2) (qoi_true : List ℝ) (domain : Option NArr)
    (sd : ℝ) (m : ℤ) (log : Bool) (s : σ) (h : m < 1 ∨ (qoi.c : ℤ) < m) :
    mapProblem G lam (.mat qoi) qoi_true domain sd (some m) log s = (.error .valueError, s) := by
  unfold mapProblem
  have : qoiTable (.mat qoi) = .ok qoi := rfl
  rw [this, PyM.lift_ok_bind, checkNumObs_bad h]
  rfl

/-- A 1-D array of predictions is one observation per sample. -/
theorem qoiTable_vec {n : ℕ} (v : Fin n → ℝ) : qoiTable (.vec n v) = qoiTable (.mat (Arr2.col v)) :=
  rfl

/-! ## The unsplit problem -/

theorem finAll_map {ι : Type} (f : ι → ℝ) : ∀ l : List ι, finAll (l.map fun i => F.fin (f i)) = .ok (l.map f)
  | [] => rfl
  | a :: l => by
    show (do return f a :: (← finAll (l.map fun i => F.fin (f i))) : Py _) = _
    rw [finAll_map f l]; rfl

theorem finAll_ofFn {n : ℕ} (f : Fin n → ℝ) : finAll (List.ofFn fun i => F.fin (f i)) = .ok (List.ofFn f) := by
  have := finAll_map f (List.finRange n)
  rwa [← List.ofFn_eq_map, ← List.ofFn_eq_map] at this

/-- The weighted mean error on a list of residual data. -/
theorem wme_list {S k : ℕ} (P : Matrix (Fin S) (Fin k) ℝ) (d : List ℝ) (hd : d.length = k) (sd : ℝ)
    (hsd : sd ≠ 0) (hk : 0 < k) :
    (do finAll (← wme (.mat ⟨S, k, P⟩) (vecOf d) (some sd)) : Py (List ℝ)) =
      .ok (List.ofFn fun i : Fin S => (∑ j : Fin k, (P i j - d.getD j 0)) / (sd * Real.sqrt k)) := by
  subst hd
  have e : vecOf d = .vec d.length fun j => d.getD j 0 := by
    unfold vecOf; congr 1; funext i; simp
  rw [e, C21_formula P _ sd hsd hk, Py.ok_bind, finAll_ofFn]
  congr 2; funext i; ring

theorem addB_same {a b : List ℝ} (h : a.length = b.length) :
    addB a b = .ok (List.zipWith (· + ·) a b) := if_pos h

theorem errorOver_eq (s : σ) (qoi : Arr2) (t : List ℝ) (sd : ℝ) (js : List ℕ) (i : ℕ) {m : ℕ}
    (hm : js.length = m) :
    errorOver G s qoi t sd js i =
      (∑ j : Fin m, misfit G s qoi t sd i (js.getD j 0)) / (sd * Real.sqrt m) := by
  subst hm
  unfold errorOver
  congr 1
  rw [← List.sum_ofFn]
  congr 1
  exact List.ext_getElem (by simp) fun k _ _ => by simp

theorem colOf_ofFn {S : ℕ} {l : List ℝ} {f : Fin S → ℝ} (h : l = List.ofFn f) :
    (Arr2.col fun i : Fin l.length => l[i]) = Arr2.col f := by
  subst h
  refine Arr2.ext_get (by simp [Arr2.col]) rfl fun i j hi hj => ?_
  simp only [Arr2.col] at hi hj ⊢
  have hi' : i < S := by simpa using hi
  rw [Arr2.get_mk' _ hi hj, Arr2.get_mk' _ hi' hj]
  simp

theorem mudQoi_none {S d k : ℕ} (A : Matrix (Fin S) (Fin d) ℝ) (t : List ℝ) (sd : ℝ) (hsd : sd ≠ 0)
    (hk : 1 ≤ k) (hkt : k ≤ t.length) (s : σ) :
    mudQoi ⟨S, d, A⟩ t ((G.randn k s).1.map (· * sd)) sd k none =
      .ok (.mat (Arr2.col fun i : Fin S => errorOver G s ⟨S, d, A⟩ t sd (List.range k) i)) := by
  unfold mudQoi
  rw [randn_spec]
  have hl : (t.take k).length = ((List.range k).map (nthDraw G s) |>.map (· * sd)).length := by
    simp [hkt]
  simp only
  rw [addB_same hl, Py.ok_bind]
  have := wme_list (S := S) (k := k) (.of fun i j => (Arr2.mk S d A).get i j)
    (List.zipWith (· + ·) (t.take k) ((List.range k).map (nthDraw G s) |>.map (· * sd)))
    (by simp [hkt]) sd hsd (by omega)
  have e : takeCols ⟨S, d, A⟩ k = ⟨S, k, .of fun i j => (Arr2.mk S d A).get i j⟩ := rfl
  rw [e, ← bind_assoc, this, Py.ok_bind, Py.pure_eq]
  congr 2
  refine colOf_ofFn ?_
  congr 1
  funext i
  rw [errorOver_eq G s _ t sd _ _ (List.length_range (n := k))]
  congr 1
  refine Finset.sum_congr rfl fun j _ => ?_
  unfold misfit
  have hj : j.1 < t.length := by omega
  simp [List.getD_eq_getElem?_getD, hj, mul_comm]

/-- C67: without a split, `mud_problem` is the density problem whose single quantity of interest is
the weighted mean error over exactly the first `k` observations, where `k` is `num_obs`, or the
number of columns by default; `k` random numbers are drawn. -/
theorem C67_mud (lam : NArr) {S d k : ℕ} (A : Matrix (Fin S) (Fin d) ℝ) (t : List ℝ)
    (domain : Option NArr) (sd : ℝ) (m : Option ℤ) (weights : Option NArr) (s : σ)
    (hsd : sd ≠ 0) (hm : Uses d m k) (h1 : 1 ≤ k) (hk : k ≤ d) (hkt : k ≤ t.length) :
    mudProblem G lam (.mat ⟨S, d, A⟩) t domain sd m none weights s =
      (DP.new (asCol lam)
        (.mat (Arr2.col fun i : Fin S => errorOver G s ⟨S, d, A⟩ t sd (List.range k) i))
        domain weights, stateAfter G s k) := by
  unfold mudProblem
  have : qoiTable (.mat ⟨S, d, A⟩) = .ok ⟨S, d, A⟩ := rfl
  rw [this, PyM.lift_ok_bind, checkNumObs_uses hm h1 hk, PyM.lift_ok_bind, PyM.get_bind_run,
    PyM.modify_bind_run, mudQoi_none G A t sd hsd h1 hkt s, PyM.lift_ok_bind, randn_spec]
  rfl

/-- C67: observations beyond the first `num_obs` have no influence. -/
theorem C67_mud_ignores_rest (lam : NArr) {S d d' k : ℕ} (A : Matrix (Fin S) (Fin d) ℝ)
    (B : Matrix (Fin S) (Fin d') ℝ) (t t' : List ℝ)
    (domain : Option NArr) (sd : ℝ) (weights : Option NArr) (s : σ)
    (hsd : sd ≠ 0) (h1 : 1 ≤ k) (hk : k ≤ d) (hk' : k ≤ d') (hkt : k ≤ t.length)
    (hkt' : k ≤ t'.length) (hA : ∀ i j, j < k → (Arr2.mk S d A).get i j = (Arr2.mk S d' B).get i j)
    (ht : t.take k = t'.take k) :
    mudProblem G lam (.mat ⟨S, d, A⟩) t domain sd (some k) none weights s =
      mudProblem G lam (.mat ⟨S, d', B⟩) t' domain sd (some k) none weights s := by
  rw [C67_mud G lam A t domain sd (some k) weights s hsd rfl h1 hk hkt,
    C67_mud G lam B t' domain sd (some k) weights s hsd rfl h1 hk' hkt']
  congr 4
  funext i
  unfold errorOver
  congr 2
  refine List.map_congr_left fun j hj => ?_
  have hj : j < k := by simpa using hj
  unfold misfit
  rw [hA i j hj]
  have : t.getD j 0 = t'.getD j 0 := by
    have := congrArg (fun l : List ℝ => l.getD j 0) ht
    simpa [List.getD_eq_getElem?_getD, List.getElem?_take, hj] using this
  rw [this]

/-! ## Splits -/

theorem mapM_normIdx {n : ℕ} : ∀ (l : List ℤ), (∀ i ∈ l, 0 ≤ i ∧ i < n) →
    l.mapM (ND.normIdx n) = .ok (l.map Int.toNat)
  | [], _ => rfl
  | a :: l, h => by
    have ha := h a (by simp)
    rw [List.mapM_cons, mapM_normIdx l fun i hi => h i (by simp [hi])]
    have : ND.normIdx n a = .ok a.toNat := if_pos ha
    rw [this]; rfl

/-- The observations of one block that are used. -/
def SpecFuns.kept (k : ℕ) (block : List ℤ) : List ℕ := (block.filter fun i => decide (i < (k : ℤ))).map Int.toNat

theorem splitBlock_eq {S d k : ℕ} (A : Matrix (Fin S) (Fin d) ℝ) (t : List ℝ) (sd : ℝ) (hsd : sd ≠ 0)
    (hk : k ≤ d) (hkt : k ≤ t.length) (s : σ) {B : List ℤ} (hB : ∀ i ∈ B, 0 ≤ i)
    (hne : kept k B ≠ []) :
    splitBlock ⟨S, d, A⟩ t ((G.randn k s).1.map (· * sd)) sd k B =
      .ok (List.ofFn fun i : Fin S => errorOver G s ⟨S, d, A⟩ t sd (kept k B) i) := by
  unfold splitBlock
  rw [randn_spec]
  have hq : ∀ i ∈ B.filter (fun i : ℤ => decide (i < (k : ℤ))), 0 ≤ i ∧ i < (k : ℤ) := by
    intro i hi
    simp only [List.mem_filter, decide_eq_true_eq] at hi
    exact ⟨hB i hi.1, hi.2⟩
  have hkept : ∀ j ∈ kept k B, j < k := by
    intro j hj
    simp only [kept, List.mem_map] at hj
    obtain ⟨i, hi, rfl⟩ := hj
    have := hq i hi
    omega
  simp only
  rw [mapM_normIdx _ fun i hi => ⟨(hq i hi).1, by have := (hq i hi).2; show i < (d : ℤ); omega⟩,
    Py.ok_bind,
    mapM_normIdx _ fun i hi => ⟨(hq i hi).1, by have := (hq i hi).2; omega⟩, Py.ok_bind,
    mapM_normIdx _ fun i hi => ⟨(hq i hi).1, by have := (hq i hi).2; simpa using this⟩, Py.ok_bind]
  change (do
    let data ← addB ((kept k B).map fun i => t.getD i 0) ((kept k B).map fun i =>
      (((List.range k).map (nthDraw G s)).map (· * sd)).getD i 0)
    let w ← wme (.mat (pickCols ⟨S, d, A⟩ (kept k B))) (vecOf data) (some sd)
    finAll w : Py _) = _
  rw [addB_same (by simp), Py.ok_bind]
  have := wme_list (S := S) (k := (kept k B).length)
    (.of fun i j => (Arr2.mk S d A).get i (kept k B)[j])
    (List.zipWith (· + ·) ((kept k B).map fun i => t.getD i 0) ((kept k B).map fun i =>
      (((List.range k).map (nthDraw G s)).map (· * sd)).getD i 0))
    (by simp) sd hsd (List.length_pos_iff.2 hne)
  refine this.trans ?_
  congr 2
  funext i
  rw [errorOver_eq G s _ t sd _ _ rfl]
  congr 1
  refine Finset.sum_congr rfl fun j _ => ?_
  have hj := hkept (kept k B)[j] (List.getElem_mem _)
  have hr : (List.range k)[(kept k B)[j.1]]? = some (kept k B)[j.1] := by
    rw [List.getElem?_range]; exact hj
  unfold misfit
  simp [List.getD_eq_getElem?_getD, hr, mul_comm]

theorem mapM_ok {α β : Type} (f : α → Py β) (g : α → β) : ∀ l : List α, (∀ a ∈ l, f a = .ok (g a)) →
    l.mapM f = .ok (l.map g)
  | [], _ => rfl
  | a :: l, h => by
    rw [List.mapM_cons, mapM_ok f g l fun b hb => h b (by simp [hb]), h a (by simp)]
    rfl

/-- C67: with a split into blocks of (nonnegative) indices, quantity of interest `b` is the weighted
mean error over the indices of block `b` that are below `num_obs`. -/
theorem C67_mud_split (lam : NArr) {S d k : ℕ} (A : Matrix (Fin S) (Fin d) ℝ) (t : List ℝ)
    (domain : Option NArr) (sd : ℝ) (m : Option ℤ) (weights : Option NArr) (s : σ)
    (hsd : sd ≠ 0) (hm : Uses d m k) (h1 : 1 ≤ k) (hk : k ≤ d) (hkt : k ≤ t.length)
    (split : List (List ℤ)) (hs : split ≠ []) (hpos : ∀ B ∈ split, ∀ i ∈ B, 0 ≤ i)
    (hne : ∀ B ∈ split, kept k B ≠ []) :
    mudProblem G lam (.mat ⟨S, d, A⟩) t domain sd m (some split) weights s =
      (DP.new (asCol lam)
        (.mat ⟨S, split.length, .of fun i b => errorOver G s ⟨S, d, A⟩ t sd (kept k split[b]) i⟩)
        domain weights, stateAfter G s k) := by
  unfold mudProblem
  have : qoiTable (.mat ⟨S, d, A⟩) = .ok ⟨S, d, A⟩ := rfl
  rw [this, PyM.lift_ok_bind, checkNumObs_uses hm h1 hk, PyM.lift_ok_bind, PyM.get_bind_run,
    PyM.modify_bind_run]
  have e : mudQoi ⟨S, d, A⟩ t ((G.randn k s).1.map (· * sd)) sd k (some split) =
      .ok (.mat ⟨S, split.length,
        .of fun i b => errorOver G s ⟨S, d, A⟩ t sd (kept k split[b]) i⟩) := by
    show (do
      let q ← split.mapM (splitBlock ⟨S, d, A⟩ t ((G.randn k s).1.map (· * sd)) sd k)
      return NArr.mat (← stackT S q) : Py _) = _
    rw [mapM_ok (splitBlock ⟨S, d, A⟩ t ((G.randn k s).1.map (· * sd)) sd k) (fun B => List.ofFn fun i : Fin S =>
      errorOver G s ⟨S, d, A⟩ t sd (kept k B) i) split fun B hB =>
        splitBlock_eq G A t sd hsd hk hkt s (hpos B hB) (hne B hB), Py.ok_bind]
    have : ∀ q : List (List ℝ), q ≠ [] →
        stackT S q = .ok ⟨S, q.length, .of fun i j => (q[j]).getD i 0⟩ := by
      intro q hq; cases q with
      | nil => exact absurd rfl hq
      | cons => rfl
    rw [this _ (by simpa using hs), Py.ok_bind, Py.pure_eq]
    congr 2
    refine Arr2.ext_get rfl (by simp) fun i j hi hj => ?_
    simp only [List.length_map] at hj
    rw [Arr2.get_mk' _ hi (by simpa using hj), Arr2.get_mk' _ hi hj]
    simp [List.getD_eq_getElem?_getD]
  rw [e, PyM.lift_ok_bind, randn_spec]
  rfl

/-- C67: a split that is one block with all the indices gives the unsplit problem. -/
theorem C67_full_block (lam : NArr) {S d k : ℕ} (A : Matrix (Fin S) (Fin d) ℝ) (t : List ℝ)
    (domain : Option NArr) (sd : ℝ) (m : Option ℤ) (weights : Option NArr) (s : σ)
    (hsd : sd ≠ 0) (hm : Uses d m k) (h1 : 1 ≤ k) (hk : k ≤ d) (hkt : k ≤ t.length) :
    mudProblem G lam (.mat ⟨S, d, A⟩) t domain sd m (some [(List.range d).map Int.ofNat]) weights s =
      mudProblem G lam (.mat ⟨S, d, A⟩) t domain sd m none weights s := by
  have hkept : kept k ((List.range d).map Int.ofNat) = List.range k := by
    unfold kept
    rw [List.filter_map, List.map_map]
    have : (Int.toNat ∘ Int.ofNat) = id := rfl
    rw [this, List.map_id]
    have e : ((fun i : ℤ => decide (i < (k : ℤ))) ∘ Int.ofNat) = fun j : ℕ => decide (j < k) := by
      funext j; simp
    rw [e]
    obtain ⟨r, rfl⟩ := Nat.exists_eq_add_of_le hk
    rw [List.range_add, List.filter_append, List.filter_eq_self.2, List.filter_eq_nil_iff.2,
      List.append_nil]
    · intro j hj; simp at hj ⊢; omega
    · intro j hj; simpa using hj
  rw [C67_mud G lam A t domain sd m weights s hsd hm h1 hk hkt,
    C67_mud_split G lam A t domain sd m weights s hsd hm h1 hk hkt _ (by simp)]
  · congr 4
    ext i b
    have : b = ⟨0, by simp⟩ := by
      have := b.2; simp only [List.length_singleton] at this; ext; simp
    subst this
    show errorOver G s ⟨S, d, A⟩ t sd (kept k ((List.range d).map Int.ofNat)) i = _
    rw [hkept]; rfl
  · intro B hB i hi
    simp only [List.mem_singleton] at hB
    subst hB
    simp only [List.mem_map] at hi
    obtain ⟨j, -, rfl⟩ := hi
    exact Int.natCast_nonneg j
  · intro B hB
    simp only [List.mem_singleton] at hB
    subst hB
    rw [hkept]
    intro h
    have := congrArg List.length h
    simp at this
    omega

/-- A negative index passes the test `index < num_obs` and counts from the end, so it can select an
observation beyond the first `num_obs`: with `num_obs = 1` the block `[-1]` compares the last
prediction with the last datum (plus the noise of observation 0). -/
theorem C67_negative_index (lam : NArr) {S d : ℕ} (A : Matrix (Fin S) (Fin d) ℝ) (t : List ℝ)
    (domain : Option NArr) (sd : ℝ) (weights : Option NArr) (s : σ)
    (hsd : sd ≠ 0) (hd : 1 ≤ d) (ht : 1 ≤ t.length) :
    mudProblem G lam (.mat ⟨S, d, A⟩) t domain sd (some 1) (some [[-1]]) weights s =
      (DP.new (asCol lam)
        (.mat (Arr2.col fun i : Fin S => ((Arr2.mk S d A).get i (d - 1) -
          (t.getD (t.length - 1) 0 + sd * nthDraw G s 0)) / sd))
        domain weights, stateAfter G s 1) := by
  unfold mudProblem
  have e0 : qoiTable (.mat ⟨S, d, A⟩) = .ok ⟨S, d, A⟩ := rfl
  have e1 : checkNumObs (Arr2.mk S d A).c (some 1) = .ok 1 :=
    checkNumObs_uses (show ((1 : ℤ)) = ((1 : ℕ) : ℤ) by simp) (le_refl 1) hd
  rw [e0, PyM.lift_ok_bind, e1, PyM.lift_ok_bind, PyM.get_bind_run, PyM.modify_bind_run]
  have hn : ∀ n : ℕ, 1 ≤ n → [(-1 : ℤ)].mapM (ND.normIdx n) = .ok [n - 1] := by
    intro n hn
    rw [List.mapM_cons, List.mapM_nil]
    have : ND.normIdx n (-1) = .ok (n - 1) := by
      unfold ND.normIdx
      rw [if_neg (by omega), if_pos (by omega)]
      congr 1; omega
    rw [this]; rfl
  have hb : splitBlock ⟨S, d, A⟩ t ((G.randn 1 s).1.map (· * sd)) sd 1 [-1] =
      .ok (List.ofFn fun i : Fin S => ((Arr2.mk S d A).get i (d - 1) -
          (t.getD (t.length - 1) 0 + sd * nthDraw G s 0)) / sd) := by
    unfold splitBlock
    rw [randn_spec]
    have hf : [(-1 : ℤ)].filter (fun i : ℤ => decide (i < ((1 : ℕ) : ℤ))) = [-1] := by decide
    simp only [hf]
    rw [hn d hd, Py.ok_bind, hn _ ht, Py.ok_bind, hn _ (by simp), Py.ok_bind, addB_same (by simp),
      Py.ok_bind]
    have := wme_list (S := S) (k := 1) (.of fun i _ => (Arr2.mk S d A).get i (d - 1))
      [t.getD (t.length - 1) 0 + nthDraw G s 0 * sd] rfl sd hsd one_pos
    have ep : pickCols ⟨S, d, A⟩ [d - 1] =
        ⟨S, 1, .of fun i _ => (Arr2.mk S d A).get i (d - 1)⟩ := by
      refine Arr2.ext_get rfl rfl fun i j hi hj => ?_
      have hj1 : j < 1 := hj
      have hi' : i < S := hi
      obtain rfl : j = 0 := by omega
      simp [pickCols, Arr2.get, hi']
    rw [ep]
    refine Eq.trans ?_ (this.trans ?_)
    · rfl
    · congr 2; funext i; simp [mul_comm]
  have e2 : mudQoi ⟨S, d, A⟩ t ((G.randn 1 s).1.map (· * sd)) sd 1 (some [[-1]]) =
      .ok (.mat (Arr2.col fun i : Fin S => ((Arr2.mk S d A).get i (d - 1) -
          (t.getD (t.length - 1) 0 + sd * nthDraw G s 0)) / sd)) := by
    show (do
      let q ← [[(-1 : ℤ)]].mapM (splitBlock ⟨S, d, A⟩ t ((G.randn 1 s).1.map (· * sd)) sd 1)
      return NArr.mat (← stackT S q) : Py _) = _
    rw [List.mapM_cons, List.mapM_nil, hb]
    show Except.ok (NArr.mat _) = _
    congr 2
    refine Arr2.ext_get rfl rfl fun i j hi hj => ?_
    have hj1 : j < 1 := hj
    obtain rfl : j = 0 := by omega
    unfold Arr2.col
    rw [Arr2.get_mk' _ hi hj, Arr2.get_mk' _ hi hj1]
    simp [List.getD_eq_getElem?_getD]
  rw [e2, PyM.lift_ok_bind, randn_spec]
  rfl

/-! ## `map_problem` -/

/-- Density of a normal distribution with mean `m` and standard deviation `s > 0`. -/
noncomputable def SpecFuns.gauss (m s x : ℝ) : ℝ :=
  Real.exp (-((x - m) / s) ^ 2 / 2) / (s * Real.sqrt (2 * Real.pi))

/-- The likelihood of sample `i`: product over the first `k` observations of the normal density
around the noisy datum, or the logarithm of that product. -/
noncomputable def SpecFuns.likelihood (G : Rng σ) (s : σ) (qoi : Arr2) (t : List ℝ) (sd : ℝ)
    (k : ℕ) (log : Bool) (i : ℕ) : ℝ :=
  let p := ∏ j ∈ Finset.range k, gauss (t.getD j 0 + sd * nthDraw G s j) sd (qoi.get i j)
  if log then Real.log p else p

theorem gauss_pos {m s x : ℝ} (hs : 0 < s) : 0 < gauss m s x := by
  unfold gauss
  have : 0 < Real.sqrt (2 * Real.pi) := Real.sqrt_pos.2 (by positivity)
  positivity

theorem normPdf_eq {m s x : ℝ} (hs : 0 < s) : normPdf m s x = .fin (gauss m s x) := if_pos hs

theorem normLogPdf_eq {m s x : ℝ} (hs : 0 < s) :
    normLogPdf m s x = .fin (Real.log (gauss m s x)) := by
  unfold normLogPdf gauss
  rw [if_pos hs]
  have : 0 < Real.sqrt (2 * Real.pi) := Real.sqrt_pos.2 (by positivity)
  rw [Real.log_div (Real.exp_ne_zero _) (by positivity), Real.log_exp]

theorem setLikelihood_ok {d : Dist} {log : Bool} {b : BP} {v : List F} (h : likeAt d log b.y = .ok v) :
    BP.setLikelihood d log b = (.ok (), { b with log := log, ll := some v, ps := none }) := by
  unfold BP.setLikelihood
  rw [PyM.get_bind_run]
  cases log
  · obtain ⟨o, h1, h2⟩ := Py.bind_eq_ok.1 (show (d.pdf b.y >>= fun o => o.prodRows) = .ok v from h)
    simp only [Bool.false_eq_true, if_false, PyM.modify_bind_run, h1, h2, PyM.lift_ok_bind]
    rfl
  · obtain ⟨o, h1, h2⟩ := Py.bind_eq_ok.1 (show (d.logpdf b.y >>= fun o => o.sumRows) = .ok v from h)
    simp only [if_true, PyM.modify_bind_run, h1, h2, PyM.lift_ok_bind]
    rfl

theorem likelihoodOf_eq {S d k : ℕ} (A : Matrix (Fin S) (Fin d) ℝ) (t : List ℝ) (sd : ℝ) (hsd : 0 < sd)
    (hkt : k ≤ t.length) (s : σ) (log : Bool) :
    likeAt (likelihoodOf (List.zipWith (· + ·) (t.take k)
        (((List.range k).map (nthDraw G s)).map (· * sd))) sd) log (takeCols ⟨S, d, A⟩ k) =
      .ok (List.ofFn fun i : Fin S => F.fin (likelihood G s ⟨S, d, A⟩ t sd k log i)) := by
  set data := List.zipWith (· + ·) (t.take k) (((List.range k).map (nthDraw G s)).map (· * sd))
    with hdata
  have hlen : data.length = k := by simp [hdata, hkt]
  have hget : ∀ j < k, data.getD j 0 = t.getD j 0 + sd * nthDraw G s j := by
    intro j hj
    have hj' : j < t.length := by omega
    simp [hdata, List.getD_eq_getElem?_getD, hj, hj', mul_comm]
  cases log
  · have e : (likelihoodOf data sd).pdf (takeCols ⟨S, d, A⟩ k) =
        .ok (.tab (rowsOf (fun j x => .fin (gauss (data.getD j 0) sd x)) (takeCols ⟨S, d, A⟩ k))) := by
      unfold likelihoodOf
      simp only
      rw [if_pos (by rw [hlen]; rfl)]
      simp only [normPdf_eq hsd]
    unfold likeAt densAt
    rw [if_neg (by simp), e, Py.ok_bind]
    show Except.ok (List.map List.prod _) = _
    congr 1
    unfold rowsOf
    rw [List.map_ofFn]
    congr 1
    funext i
    simp only [Function.comp, likelihood, Bool.false_eq_true, if_false]
    rw [List.prod_ofFn]
    show ∏ j : Fin k, F.fin (gauss (data.getD j 0) sd ((Arr2.mk S d A).get i j)) = _
    rw [F.prod_fin, Finset.prod_range]
    congr 1
    exact Finset.prod_congr rfl fun j _ => by rw [hget j j.2]
  · have e : (likelihoodOf data sd).logpdf (takeCols ⟨S, d, A⟩ k) =
        .ok (.tab (rowsOf (fun j x => .fin (Real.log (gauss (data.getD j 0) sd x)))
          (takeCols ⟨S, d, A⟩ k))) := by
      unfold likelihoodOf
      simp only
      rw [if_pos (by rw [hlen]; rfl)]
      simp only [normLogPdf_eq hsd]
    unfold likeAt
    rw [if_pos rfl, e, Py.ok_bind]
    show Except.ok (List.map List.sum _) = _
    congr 1
    unfold rowsOf
    rw [List.map_ofFn]
    congr 1
    funext i
    simp only [Function.comp, likelihood, if_true]
    rw [List.sum_ofFn]
    show ∑ j : Fin k, F.fin (Real.log (gauss (data.getD j 0) sd ((Arr2.mk S d A).get i j))) = _
    rw [F.sum_fin, Finset.prod_range, Real.log_prod fun j _ => (gauss_pos hsd).ne']
    congr 1
    exact Finset.sum_congr rfl fun j _ => by rw [hget j j.2]

/-- C67: `map_problem` is the Bayesian problem on the first `k` observations whose likelihood is
normal around the first `k` noisy data; `k` random numbers are drawn. An inconsistent domain is
reported as by the constructor. -/
theorem C67_map (lam : NArr) {S d k : ℕ} (A : Matrix (Fin S) (Fin d) ℝ) (t : List ℝ)
    (domain : Option NArr) (sd : ℝ) (m : Option ℤ) (log : Bool) (s : σ)
    (hsd : 0 < sd) (hm : Uses d m k) (h1 : 1 ≤ k) (hk : k ≤ d) (hkt : k ≤ t.length) :
    mapProblem G lam (.mat ⟨S, d, A⟩) t domain sd m log s =
      (do
        let b ← BP.new (asCol lam) (.mat ⟨S, k, .of fun i j => (Arr2.mk S d A).get i j⟩) domain
        return { b with
          log := log
          ll := some (List.ofFn fun i : Fin S =>
            F.fin (likelihood G s ⟨S, d, A⟩ t sd k log i)) }, stateAfter G s k) := by
  unfold mapProblem
  have e0 : qoiTable (.mat ⟨S, d, A⟩) = .ok ⟨S, d, A⟩ := rfl
  rw [e0, PyM.lift_ok_bind, checkNumObs_uses hm h1 hk, PyM.lift_ok_bind, PyM.get_bind_run,
    PyM.modify_bind_run, randn_spec, addB_same (by simp [hkt]), PyM.lift_ok_bind]
  change (PyM.lift (BP.new (asCol lam) (.mat (takeCols ⟨S, d, A⟩ k)) domain) >>= _) _ = _
  have e2 : (NArr.mat ⟨S, k, .of fun i j => (Arr2.mk S d A).get i j⟩) =
    .mat (takeCols ⟨S, d, A⟩ k) := rfl
  rw [e2]
  cases hb : BP.new (asCol lam) (.mat (takeCols ⟨S, d, A⟩ k)) domain with
  | error e => rfl
  | ok b =>
    have hy : b.y = takeCols ⟨S, d, A⟩ k ∧ b.ps = none := by
      unfold BP.new at hb
      cases domain with
      | none =>
        obtain ⟨D, -, h⟩ := Py.bind_eq_ok.1 hb
        cases h
        exact ⟨rfl, rfl⟩
      | some D =>
        obtain ⟨-, -, h⟩ := Py.bind_eq_ok.1 hb
        cases h
        exact ⟨rfl, rfl⟩
    have hl := likelihoodOf_eq G A t sd hsd hkt s log
    rw [← hy.1] at hl
    rw [PyM.lift_ok_bind, setLikelihood_ok hl, PyM.lift_ok_bind]
    show (Except.ok _, _) = (Except.ok _, _)
    congr 2
    rw [← hy.2]

/-! ## The hypotheses are met -/

/-- A counter standing in for a generator: the numbers drawn are 0, 1, 2, ... -/
def countRng : Rng ℕ := ⟨id, fun n => (n, n + 1)⟩

theorem countRng_state (s i : ℕ) : stateAfter countRng s i = s + i := by
  induction i with
  | zero => rfl
  | succ i ih => rw [stateAfter, ih]; rfl

/-- Two samples, three predictions each; two observations are used, and the numbers come out
different from those with all three. -/
example :
    let A : Matrix (Fin 2) (Fin 3) ℝ := !![4, 6, 9; 0, 1, 2]
    mudProblem countRng (.vec 2 ![0, 1]) (.mat ⟨2, 3, A⟩) [1, 2, 3] none 1 (some 2) none none 5 =
      (DP.new (asCol (.vec 2 ![0, 1]))
        (.mat (Arr2.col fun i : Fin 2 =>
          errorOver countRng 5 ⟨2, 3, A⟩ [1, 2, 3] 1 (List.range 2) i)) none none, 7) ∧
    errorOver countRng 5 ⟨2, 3, A⟩ [1, 2, 3] 1 (List.range 2) 0 = -4 / Real.sqrt 2 := by
  intro A
  refine ⟨?_, ?_⟩
  · have := C67_mud countRng (.vec 2 ![0, 1]) A [1, 2, 3] none 1 (some 2) none 5 one_ne_zero
      (k := 2) rfl (by norm_num) (by norm_num) (by simp)
    rw [countRng_state] at this
    exact this
  · have h0 : nthDraw countRng 5 0 = 5 := by
      simp only [nthDraw, countRng_state]; norm_num [countRng]
    have h1 : nthDraw countRng 5 1 = 6 := by
      simp only [nthDraw, countRng_state]; norm_num [countRng]
    simp [errorOver, misfit, List.range_succ, A, Arr2.get, h0, h1]
    norm_num

/-- A split into two blocks, with `num_obs = 2`: the index 2 of the second block is dropped. -/
example (A : Matrix (Fin 2) (Fin 3) ℝ) :
    mudProblem countRng (.vec 2 ![0, 1]) (.mat ⟨2, 3, A⟩) [1, 2, 3] none 1 (some 2)
      (some [[0], [1, 2]]) none 5 =
      (DP.new (asCol (.vec 2 ![0, 1]))
        (.mat ⟨2, 2, .of fun i b => errorOver countRng 5 ⟨2, 3, A⟩ [1, 2, 3] 1
          (kept 2 ([[0], [1, 2]] : List (List ℤ))[b]) i⟩) none none, 7) ∧
    kept 2 [1, 2] = [1] := by
  refine ⟨?_, by decide⟩
  have := C67_mud_split countRng (.vec 2 ![0, 1]) A [1, 2, 3] none 1 (some 2) none 5 one_ne_zero
      (k := 2) rfl (by norm_num) (by norm_num) (by simp) [[0], [1, 2]] (by simp)
      (by intro B hB i hi; simp at hB; rcases hB with rfl | rfl <;> simp at hi <;> omega)
      (by intro B hB; simp at hB; rcases hB with rfl | rfl <;> decide)
  rw [countRng_state] at this
  exact this

example (A : Matrix (Fin 2) (Fin 3) ℝ) (log : Bool) :
    ∃ b, mapProblem countRng (.vec 2 ![0, 1]) (.mat ⟨2, 3, A⟩) [1, 2, 3]
      (some (.mat ⟨1, 2, !![0, 1]⟩)) 1 (some 2) log 5 = (.ok b, 7) := by
  rw [C67_map countRng _ A [1, 2, 3] _ 1 (some 2) log 5 one_pos (k := 2) rfl (by norm_num)
    (by norm_num) (by simp), countRng_state]
  exact ⟨_, rfl⟩

/-! ### Further cases meeting the hypotheses -/

/-- Three columns: neither none nor four of them can be used. -/
example (lam : NArr) (A : Matrix (Fin 2) (Fin 3) ℝ) (log : Bool) :
    mudProblem countRng lam (.mat ⟨2, 3, A⟩) [1, 2, 3] none 1 (some 0) none none 5 = (.error .valueError, 5) ∧
    mapProblem countRng lam (.mat ⟨2, 3, A⟩) [1, 2, 3] none 1 (some 4) log 5 = (.error .valueError, 5) :=
  ⟨C67_mud_rejects countRng lam _ _ _ _ _ _ _ _ (.inl (by norm_num)),
    C67_map_rejects countRng lam _ _ _ _ _ _ _ (.inr (by norm_num))⟩

/-- One of three columns is used: the other two, and the other reference values, do not matter. -/
example (lam : NArr) : mudProblem countRng lam (.mat ⟨2, 3, !![4, 6, 9; 0, 1, 2]⟩) [1, 2, 3] none 1 (some (1 : ℕ)) none none 5 =
    mudProblem countRng lam (.mat ⟨2, 2, !![4, 7; 0, 7]⟩) [1, 8] none 1 (some (1 : ℕ)) none none 5 :=
  C67_mud_ignores_rest countRng lam _ _ _ _ _ _ _ _ (k := 1) one_ne_zero le_rfl (by norm_num) (by norm_num)
    (by simp) (by simp) (by
      intro i j hj
      obtain rfl : j = 0 := by omega
      match i with
      | 0 => simp [Arr2.get]
      | 1 => simp [Arr2.get]
      | i + 2 => simp [Arr2.get]) rfl

/-- One block of all columns is the same as no blocks. -/
example (lam : NArr) (A : Matrix (Fin 2) (Fin 3) ℝ) :
    mudProblem countRng lam (.mat ⟨2, 3, A⟩) [1, 2, 3] none 1 (some 2) (some [[0, 1, 2]]) none 5 =
      mudProblem countRng lam (.mat ⟨2, 3, A⟩) [1, 2, 3] none 1 (some 2) none none 5 :=
  C67_full_block countRng lam A _ _ _ (some 2) _ _ (k := 2) one_ne_zero rfl (by norm_num) (by norm_num) (by simp)

/-- The index `-1` is the last column, whatever `num_obs` is. -/
example (lam : NArr) (A : Matrix (Fin 2) (Fin 3) ℝ) :
    mudProblem countRng lam (.mat ⟨2, 3, A⟩) [1, 2, 3] none 1 (some 1) (some [[-1]]) none 5 =
      (DP.new (asCol lam)
        (.mat (Arr2.col fun i : Fin 2 => ((Arr2.mk 2 3 A).get i 2 - (3 + 1 * 5)) / 1)) none none, 6) := by
  rw [C67_negative_index countRng lam A _ _ _ _ _ one_ne_zero (by norm_num) (by simp)]
  rfl

end Verif
