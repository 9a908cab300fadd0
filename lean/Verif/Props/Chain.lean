import Verif.Model.Chain
import Verif.Props.Iterative
import Verif.Lemmas.LinearRun
import Mathlib.Analysis.InnerProductSpace.PiL2

/-!
# Errors of `IterativeLinearProblem`: C96
-/

namespace Verif

open ILPE

/-- `n × 1` array of a vector of `ℝⁿ`. -/
def ptArr {n : ℕ} (x : EuclideanSpace ℝ (Fin n)) : Arr2 := Arr2.col x.ofLp

theorem errorOf_col {n : ℕ} (r x : EuclideanSpace ℝ (Fin n)) :
    errorOf (.mat (ptArr r)) (ptArr x) = .ok ‖x - r‖ := by
  unfold errorOf ptArr
  change (do let D ← (Arr2.col x.ofLp).sub (Arr2.col r.ofLp); return norm2 D) = _
  rw [Arr2.sub_col, Py.ok_bind, EuclideanSpace.norm_eq]
  change Except.ok (norm2 _) = _
  congr 1
  unfold norm2 Arr2.col
  congr 1
  refine Finset.sum_congr rfl fun i _ => ?_
  change ∑ j : Fin 1, (x i - r i) ^ 2 = ‖x i - r i‖ ^ 2
  simp

theorem errorOf_vec {n : ℕ} (r x : EuclideanSpace ℝ (Fin n)) :
    errorOf (.vec n r.ofLp) (ptArr x) = .ok (Real.sqrt (∑ i, ∑ j, (x i - r j) ^ 2)) := by
  unfold errorOf ptArr
  change (do let D ← (Arr2.col x.ofLp).sub (Arr2.row r.ofLp); return norm2 D) = _
  have e : (Arr2.col x.ofLp).sub (Arr2.row r.ofLp) = .ok ⟨n, n, .of fun i j => x i - r j⟩ := by
    unfold Arr2.sub Arr2.zipB
    have a1 : Arr2.bdim (Arr2.col x.ofLp).r (Arr2.row r.ofLp).r = some n := by
      change Arr2.bdim n 1 = _
      unfold Arr2.bdim
      split_ifs <;> simp_all
    have a2 : Arr2.bdim (Arr2.col x.ofLp).c (Arr2.row r.ofLp).c = some n := by
      change Arr2.bdim 1 n = _
      unfold Arr2.bdim
      split_ifs <;> simp_all
    rw [a1, a2]
    change Except.ok (Arr2.mk n n _) = Except.ok (Arr2.mk n n _)
    congr 2
    ext i j
    have hx : (Arr2.col x.ofLp).bget i j = x i := by
      have : (if (Arr2.col x.ofLp).r = 1 then 0 else (i : ℕ)) = i := by
        split_ifs with h
        · have h : n = 1 := h
          subst h
          omega
        · rfl
      unfold Arr2.bget
      rw [this, if_pos (show (Arr2.col x.ofLp).c = 1 from rfl)]
      exact Arr2.get_mk (.of fun i _ => x i) i (0 : Fin 1)
    have hr : (Arr2.row r.ofLp).bget i j = r j := by
      have : (if (Arr2.row r.ofLp).c = 1 then 0 else (j : ℕ)) = j := by
        split_ifs with h
        · have h : n = 1 := h
          subst h
          omega
        · rfl
      unfold Arr2.bget
      rw [this, if_pos (show (Arr2.row r.ofLp).r = 1 from rfl)]
      exact Arr2.get_mk (.of fun _ j => r j) (0 : Fin 1) j
    simp only [Matrix.of_apply, hx, hr]
  rw [e]
  rfl

/-- The full claim C96: after any sequence of calls, `get_errors(ref)` returns the distances of the
points computed so far to `ref`. -/
def C96_claim : Prop :=
  ∀ (A : NArr) (b y mu : Option NArr) (cov data_cov : Option Arr2) (idx : Option (List ℤ))
    (ops : List IOp) (n : ℕ) (r : EuclideanSpace ℝ (Fin n))
    (pts : List (EuclideanSpace ℝ (Fin n))),
    let S := ILPE.after { core := ILP.new A b y mu cov data_cov idx } ops
    (∃ e m, .solve e m ∈ ops ∧ 1 ≤ e) →
    (S.core.solution_chains.map List.tail).flatten = pts.map ptArr →
    (getErrors (.mat (ptArr r)) S).1 = .ok (pts.map fun x => ‖x - r‖)

/-! ### What happens to the chains -/

/-- With a non-empty order no chain is ever recorded, because `solve` raises. -/
theorem solve_keeps {P : ILP} (hP : P.idx_order ≠ []) (hc : P.solution_chains = []) (n : ℤ)
    (m : String) : (ILP.solve n m P).2 = P := by
  by_cases hn : 1 ≤ n
  · exact (C20_solve_raises P hP hc n hn m).2
  · have h0 : n.toNat = 0 := by omega
    simp [ILP.solve, PyM.bind_run, hc, h0, ILP.epochs, ILP.last]

theorem refresh_getErrors_core (r : NArr) (S : ILPE) : (getErrors r S).2.core = S.core := by
  unfold getErrors
  rw [PyM.get_bind_run]
  cases concat S.core.solution_chains with
  | error e => rfl
  | ok sols =>
    rw [PyM.lift_ok_bind]
    cases refresh r sols S.errors <;> rfl

theorem run_core (op : IOp) (S : ILPE) : (op.run S).2.core = S.core ∨
    ∃ n m, op = .solve n m ∧ (op.run S).2.core = (ILP.solve n m S.core).2 := by
  cases op with
  | solve n m =>
    refine .inr ⟨n, m, rfl, ?_⟩
    change ((ILPE.solve n m >>= fun _ => pure ()) S).2.core = _
    have e : ILPE.solve n m S = ((ILP.solve n m S.core).1,
        { S with core := (ILP.solve n m S.core).2 }) := rfl
    rw [PyM.bind_run, e]
    cases (ILP.solve n m S.core).1 <;> rfl
  | errors r =>
    left
    change ((getErrors r >>= fun _ => pure ()) S).2.core = _
    have := refresh_getErrors_core r S
    rw [PyM.bind_run]
    rcases hx : getErrors r S with ⟨e, S'⟩
    rw [hx] at this
    cases e <;> exact this
  | plotError r =>
    left
    change (((getErrors r >>= fun _ => PyM.get >>= fun S => pure S.errors) >>= fun _ => pure ()) S).2.core = _
    have := refresh_getErrors_core r S
    rw [PyM.bind_run, PyM.bind_run]
    rcases hx : getErrors r S with ⟨e, S'⟩
    rw [hx] at this
    cases e <;> exact this

/-- **C96 is false of the code**: with a non-empty order of rows, whatever was called before,
`get_errors` raises `ValueError`, because `solve` never records a chain (C20). -/
theorem C96_raises (A : NArr) (b y mu : Option NArr) (cov data_cov : Option Arr2)
    (idx : Option (List ℤ)) (hidx : (ILP.new A b y mu cov data_cov idx).idx_order ≠ [])
    (ops : List IOp) (r : NArr) :
    (getErrors r (ILPE.after { core := ILP.new A b y mu cov data_cov idx } ops)).1 =
      .error .valueError := by
  have key : ∀ (ops : List IOp) (S : ILPE), S.core.idx_order ≠ [] → S.core.solution_chains = [] →
      (S.after ops).core.solution_chains = [] := by
    intro ops
    induction ops with
    | nil => intro S _ hc; exact hc
    | cons op ops ih =>
      intro S hP hc
      have : (op.run S).2.core = S.core := by
        rcases run_core op S with h | ⟨n, m, -, h⟩
        · exact h
        · rw [h, solve_keeps hP hc]
      exact ih _ (by rw [this]; exact hP) (by rw [this]; exact hc)
  have hc := key ops { core := ILP.new A b y mu cov data_cov idx } hidx rfl
  unfold getErrors
  rw [PyM.get_bind_run, hc]
  rfl

theorem getErrors_ok {S : ILPE} {r : NArr} {sols : List Arr2} {e : List ℝ}
    (h1 : concat S.core.solution_chains = .ok sols) (h2 : refresh r sols S.errors = .ok e) :
    getErrors r S = (.ok e, { S with errors := e }) := by
  unfold getErrors
  rw [PyM.get_bind_run, h1, PyM.lift_ok_bind, h2]
  rfl

theorem mapM_map_ok {α β γ : Type} (f : β → Py γ) (k : α → β) (g : α → γ) (l : List α)
    (h : ∀ x, f (k x) = .ok (g x)) : (l.map k).mapM f = .ok (l.map g) := by
  induction l with
  | nil => rfl
  | cons a l ih =>
    rw [List.map_cons, List.mapM_cons, h a, Py.ok_bind, ih]
    rfl

theorem length_mapM {α β : Type} (f : α → Py β) (l : List α) : ∀ e, l.mapM f = .ok e →
    e.length = l.length := by
  induction l with
  | nil => intro e h; cases h; rfl
  | cons a l ih =>
    intro e h
    rw [List.mapM_cons] at h
    obtain ⟨b, -, h⟩ := Py.bind_eq_ok.1 h
    obtain ⟨c, hc, h⟩ := Py.bind_eq_ok.1 h
    cases h
    simp [ih c hc]

/-- **C96**, part: on an object that holds chains of points (as it would if `solve` recorded them)
and no errors of that number, `get_errors` returns the distances, in order. -/
theorem C96_distances_partial {n : ℕ} (S : ILPE) (init : List (EuclideanSpace ℝ (Fin n)))
    (steps : List (List (EuclideanSpace ℝ (Fin n)))) (hlen : init.length = steps.length)
    (hne : steps ≠ []) (hst : ∀ c ∈ steps, c ≠ [])
    (hc : S.core.solution_chains = List.zipWith (fun a c => ptArr a :: c.map ptArr) init steps)
    (he : S.errors.length ≠ steps.flatten.length) (r : EuclideanSpace ℝ (Fin n)) :
    getErrors (.mat (ptArr r)) S = (.ok (steps.flatten.map fun x => ‖x - r‖),
      { S with errors := steps.flatten.map fun x => ‖x - r‖ }) := by
  have ht : S.core.solution_chains.map List.tail = steps.map (List.map ptArr) := by
    rw [hc, List.map_zipWith]
    clear hc he hne hst
    induction steps generalizing init with
    | nil => cases init <;> simp_all
    | cons c cs ih =>
      cases init with
      | nil => simp at hlen
      | cons a as => simpa using ih as (by simpa using hlen)
  have h1 : concat S.core.solution_chains = .ok (steps.flatten.map ptArr) := by
    unfold concat
    dsimp only
    rw [ht, if_neg, if_neg, if_neg, if_pos, List.map_flatten]
    · intro x hx y hy a ha b hb
      obtain ⟨cx, -, rfl⟩ := List.mem_map.1 hx
      obtain ⟨cy, -, rfl⟩ := List.mem_map.1 hy
      obtain ⟨px, -, rfl⟩ := List.mem_map.1 ha
      obtain ⟨py, -, rfl⟩ := List.mem_map.1 hb
      exact ⟨rfl, rfl⟩
    · rintro ⟨x, hx, rfl⟩
      obtain ⟨cx, hcx, hx⟩ := List.mem_map.1 hx
      exact hst cx hcx (List.map_eq_nil_iff.1 hx)
    · intro h
      obtain ⟨c, hc⟩ := List.exists_mem_of_ne_nil _ hne
      exact hst c hc (List.map_eq_nil_iff.1 (h _ (List.mem_map_of_mem hc)))
    · intro h
      rw [h, List.map_nil] at ht
      exact hne (List.map_eq_nil_iff.1 ht.symm)
  refine getErrors_ok h1 ?_
  unfold refresh
  rw [if_pos (by rw [List.length_map]; exact fun h => he h.symm),
    mapM_map_ok _ _ _ _ fun x => errorOf_col r x]

/-- A second call with another reference returns the errors of the first: the cached list is kept
because its length is right. -/
theorem C96_stale (S : ILPE) (r r' : NArr) (e : List ℝ) (h : (getErrors r S).1 = .ok e) :
    (getErrors r' (getErrors r S).2).1 = .ok e := by
  cases h1 : concat S.core.solution_chains with
  | error x =>
    unfold getErrors at h
    rw [PyM.get_bind_run, h1] at h
    cases h
  | ok sols =>
    cases h2 : refresh r sols S.errors with
    | error x =>
      unfold getErrors at h
      rw [PyM.get_bind_run, h1, PyM.lift_ok_bind, h2] at h
      cases h
    | ok e' =>
      rw [getErrors_ok h1 h2] at h ⊢
      cases h
      have hl : sols.length = e.length := by
        unfold refresh at h2
        split_ifs at h2 with hh
        · exact (length_mapM _ _ _ h2).symm
        · cases h2; exact not_not.1 hh
      rw [getErrors_ok (S := { S with errors := e }) h1 (e := e) (by
        unfold refresh
        rw [if_neg (not_not.2 hl)])]

/-- So the distances to `r` are returned for every other reference. -/
theorem C96_stale_distances {n : ℕ} (S : ILPE) (init : List (EuclideanSpace ℝ (Fin n)))
    (steps : List (List (EuclideanSpace ℝ (Fin n)))) (hlen : init.length = steps.length)
    (hne : steps ≠ []) (hst : ∀ c ∈ steps, c ≠ [])
    (hc : S.core.solution_chains = List.zipWith (fun a c => ptArr a :: c.map ptArr) init steps)
    (he : S.errors.length ≠ steps.flatten.length) (r r' : EuclideanSpace ℝ (Fin n)) :
    (getErrors (.mat (ptArr r')) (getErrors (.mat (ptArr r)) S).2).1 =
      .ok (steps.flatten.map fun x => ‖x - r‖) :=
  C96_stale S _ _ _ (by rw [C96_distances_partial S init steps hlen hne hst hc he r])

/-- A reference given as a 1-D array is broadcast: the value is not the distance but
`sqrt (∑ i j, (x i - r j)²)`. -/
theorem C96_one_dim {n : ℕ} (S : ILPE) (init x r : EuclideanSpace ℝ (Fin n))
    (hc : S.core.solution_chains = [[ptArr init, ptArr x]]) (he : S.errors = []) :
    (getErrors (.vec n r.ofLp) S).1 = .ok [Real.sqrt (∑ i, ∑ j, (x i - r j) ^ 2)] := by
  have h1 : concat S.core.solution_chains = .ok [ptArr x] := by
    rw [hc]
    unfold concat
    dsimp only
    rw [if_neg (by simp), if_neg (by simp), if_neg (by simp), if_pos (by simp)]
    rfl
  rw [getErrors_ok h1 (e := [Real.sqrt (∑ i, ∑ j, (x i - r j) ^ 2)])]
  unfold refresh
  rw [he, if_pos (by simp)]
  exact mapM_map_ok _ ptArr (fun x => Real.sqrt (∑ i, ∑ j, (x i - r j) ^ 2)) [x]
    fun x => errorOf_vec r x

/-- At the reference itself, in two dimensions, that is `|r₀ - r₁| * sqrt 2` and not 0. -/
example : (getErrors (.vec 2 ![(0 : ℝ), 1]) { core := { ILP.new (.mat ⟨1, 2, !![(1 : ℝ), 1]⟩) none none
      none with solution_chains := [[Arr2.col ![(0 : ℝ), 0], Arr2.col ![(0 : ℝ), 1]]] } }).1 =
    .ok [Real.sqrt 2] := by
  have h := C96_one_dim (n := 2) { core := { ILP.new (.mat ⟨1, 2, !![(1 : ℝ), 1]⟩) none none
      none with solution_chains := [[Arr2.col ![(0 : ℝ), 0], Arr2.col ![(0 : ℝ), 1]]] } }
      (WithLp.toLp 2 ![(0 : ℝ), 0]) (WithLp.toLp 2 ![(0 : ℝ), 1]) (WithLp.toLp 2 ![(0 : ℝ), 1]) rfl rfl
  refine Eq.trans h ?_
  congr 3
  norm_num [Fin.sum_univ_two]

/-- **C96 is false of the code.** -/
theorem C96_claim_refuted : ¬ C96_claim := by
  intro h
  have h0 := C96_raises (.mat ⟨1, 1, !![(1 : ℝ)]⟩) none none none none none none
    (by simp [ILP.new, NArr.toRow2]) [.solve 1 "mud"] (.mat (ptArr (0 : EuclideanSpace ℝ (Fin 0))))
  have hs : (ILPE.after { core := ILP.new (.mat ⟨1, 1, !![(1 : ℝ)]⟩) none none none none none none }
      [.solve 1 "mud"]).core.solution_chains = [] := by
    change (IOp.run (.solve 1 "mud") _).2.core.solution_chains = []
    rcases run_core (.solve 1 "mud")
        { core := ILP.new (.mat ⟨1, 1, !![(1 : ℝ)]⟩) none none none none none none } with
      h | ⟨n, m, -, h⟩
    · rw [h]; rfl
    · rw [h, solve_keeps (by simp [ILP.new, NArr.toRow2]) rfl]; rfl
  have := h (.mat ⟨1, 1, !![(1 : ℝ)]⟩) none none none none none none [.solve 1 "mud"] 0 0 []
    ⟨1, "mud", by simp, le_rfl⟩ (by rw [hs]; rfl)
  rw [h0] at this
  cases this

/-! ## C97: the figures -/

/-- The full claim C97: `plot_chain` draws chains of points with two or more coordinates (if
`plot_contours` works). -/
def C97_claim : Prop :=
  ∀ S : ILPE, (∀ c ∈ S.core.solution_chains, ∀ x ∈ c, 2 ≤ x.r) → plotChain (.ok ()) [] S = .ok ()

/-- **C97**, part: `plot_chain_error` draws what `get_errors` returns, and raises if it does. -/
theorem C97_error_partial (r : NArr) (S : ILPE) : plotChainError r S = getErrors r S := by
  unfold plotChainError
  rw [PyM.bind_run]
  cases h1 : concat S.core.solution_chains with
  | error x =>
    have : getErrors r S = (.error x, S) := by
      unfold getErrors
      rw [PyM.get_bind_run, h1]
      rfl
    rw [this]
  | ok sols =>
    cases h2 : refresh r sols S.errors with
    | error x =>
      have : getErrors r S = (.error x, S) := by
        unfold getErrors
        rw [PyM.get_bind_run, h1, PyM.lift_ok_bind, h2]
        rfl
      rw [this]
    | ok e => rw [getErrors_ok h1 h2]; rfl

/-- `plot_chain` never returns, on any object and with any arguments: it passes on the keywords
`color` and `s`, which `plot_contours` does not have. -/
theorem C97_plot_chain_raises (contours : Py Unit) (kwargs : List String) (S : ILPE) :
    plotChain contours kwargs S = .error .typeError ∨
      plotChain contours kwargs S = .error .indexError := by
  have hb : bindCall contourParams 0 1 (["ax", "subset", "color", "s"] ++ kwargs) =
      .error .typeError := by
    unfold bindCall
    rw [if_neg]
    rintro ⟨-, h, -⟩
    have := h "color" (by simp)
    revert this
    decide
  unfold plotChain
  rw [hb]
  have : (∃ l, S.core.solution_chains.mapM drawChain = .ok l) ∨
      S.core.solution_chains.mapM drawChain = .error .indexError := by
    induction S.core.solution_chains with
    | nil => exact .inl ⟨_, rfl⟩
    | cons c cs ih =>
      rw [List.mapM_cons]
      unfold drawChain at ih ⊢
      by_cases hc : ∀ x ∈ c, 2 ≤ x.r
      · rw [if_pos hc, Py.ok_bind]
        rcases ih with ⟨l, hl⟩ | hl
        · rw [hl]; exact .inl ⟨_, rfl⟩
        · rw [hl]; exact .inr rfl
      · rw [if_neg hc]; exact .inr rfl
  rcases this with ⟨l, hl⟩ | hl
  · rw [hl]; exact .inl rfl
  · rw [hl]; exact .inr rfl

/-- **C97 is false of the code.** -/
theorem C97_claim_refuted : ¬ C97_claim := by
  intro h
  have := h { core := ILP.new (.scal 0) none none none } (by intro c hc; cases hc)
  rcases C97_plot_chain_raises (.ok ()) [] { core := ILP.new (.scal 0) none none none } with h' | h' <;>
    · rw [h'] at this; cases this

/-- The hypotheses of `C96_distances_partial` are met by an object with one chain of one step. -/
example : getErrors (.mat (ptArr (WithLp.toLp 2 ![(0 : ℝ), 1]))) { core := { ILP.new
      (.mat ⟨1, 2, !![(1 : ℝ), 1]⟩) none none none with
      solution_chains := [[ptArr (WithLp.toLp 2 ![(0 : ℝ), 0]), ptArr (WithLp.toLp 2 ![(0 : ℝ), 3])]] } } =
    (.ok [2], { core := { ILP.new (.mat ⟨1, 2, !![(1 : ℝ), 1]⟩) none none none with
      solution_chains := [[ptArr (WithLp.toLp 2 ![(0 : ℝ), 0]), ptArr (WithLp.toLp 2 ![(0 : ℝ), 3])]] },
                errors := [2] }) := by
  rw [C96_distances_partial (n := 2) _ [WithLp.toLp 2 ![(0 : ℝ), 0]] [[WithLp.toLp 2 ![(0 : ℝ), 3]]] rfl
    (by simp) (by simp) rfl (by simp)]
  have : ‖(WithLp.toLp 2 ![(0 : ℝ), 3] : EuclideanSpace ℝ (Fin 2)) - WithLp.toLp 2 ![(0 : ℝ), 1]‖ = 2 := by
    rw [EuclideanSpace.norm_eq]
    norm_num [Fin.sum_univ_two]
    rw [show (4 : ℝ) = 2 ^ 2 by norm_num, Real.sqrt_sq (by norm_num)]
  simp [this]

/-! ### Further cases meeting the hypotheses -/

/-- C96: the second reference does not matter. -/
example (r' : EuclideanSpace ℝ (Fin 2)) :
    let S : ILPE := { core := { ILP.new (.mat ⟨1, 2, !![(1 : ℝ), 1]⟩) none none none with
      solution_chains := [[ptArr (WithLp.toLp 2 ![(0 : ℝ), 0]), ptArr (WithLp.toLp 2 ![(0 : ℝ), 3])]] } }
    (ILPE.getErrors (.mat (ptArr r')) (ILPE.getErrors (.mat (ptArr (WithLp.toLp 2 ![(0 : ℝ), 1]))) S).2).1 =
      .ok [‖(WithLp.toLp 2 ![(0 : ℝ), 3] : EuclideanSpace ℝ (Fin 2)) - WithLp.toLp 2 ![(0 : ℝ), 1]‖] :=
  C96_stale_distances (n := 2) _ [WithLp.toLp 2 ![(0 : ℝ), 0]] [[WithLp.toLp 2 ![(0 : ℝ), 3]]] rfl
    (by simp) (by simp) rfl (by simp) _ r'

end Verif
