import Verif.Props.LinearApi
import Verif.Props.Linear

/-!
# C166: the results stored on a linear problem

`solve` leaves its results in the attributes `mud`, `mud_alt`, `map`, `ls`, `up_cov`, `cov_p`.
-/

open Matrix

namespace Verif

/-! ### Specification -/

/-- The attributes holding results, each with the solution method that computes it. -/
def resultAttrs : List (String × String) :=
  [("mud", "mud"), ("mud_alt", "mud_alt"), ("up_cov", "mud_alt"), ("map", "map"), ("cov_p", "map"), ("ls", "ls")]

/-- The methods `solve('all')` runs up to and including the given one. -/
def runsUpTo (method : String) : List String :=
  if method = "mud" then ["mud"]
  else if method = "mud_alt" then ["mud", "mud_alt"]
  else if method = "map" then ["mud", "mud_alt", "map"]
  else ["mud", "mud_alt", "map", "ls"]

/-- `solve(method, output_dim)` returns, on this object. -/
def SolveSucceeds (P : LGP) (method : String) (od : Option ℤ) : Prop :=
  ∃ x, (LGP.solve method od P).1 = .ok x

/-- The call `solve(*c)` computes the solution `method` of the problem `P`: it asks for it and gets it, or it
asks for all of them and none up to this one raises. -/
def ComputesSolution (P : LGP) (method : String) (c : String × Option ℤ) : Prop :=
  (c.1 = method ∧ SolveSucceeds P method c.2) ∨
  (c.1 = "all" ∧ ∀ n ∈ runsUpTo method, SolveSucceeds P n c.2)

/-! ### Lemmas -/

theorem solve_other {P : LGP} {od : Option ℤ} {method : String} (h : method ∉ solveMethods) :
    (LGP.solve method od P).2 = P := by
  simp only [solveMethods, List.mem_cons, List.not_mem_nil, or_false, not_or] at h
  obtain ⟨h1, h2, h3, h4, h5⟩ := h
  cases hw : P.locals od with
  | error e => rw [solve_error P od hw]
  | ok w => simp [LGP.solve, hw, h1, h2, h3, h4, h5]

theorem locals_congr {P Q : LGP} (h : SameProblem Q P) (od : Option ℤ) : Q.locals od = P.locals od := by
  obtain ⟨h1, h2, h3, h4, h5, h6, h7⟩ := h
  simp only [LGP.locals, h1, h2, h3, h4, h5, h6, h7]

theorem branches_congr {P Q : LGP} (h : SameProblem Q P) (w : LGP.Locals) :
    Q.mudBranch w = P.mudBranch w ∧ Q.mudAltBranch w = P.mudAltBranch w ∧ Q.mapBranch w = P.mapBranch w ∧
      Q.lsBranch w = P.lsBranch w := by
  obtain ⟨h1, h2, h3, h4, h5, h6, h7⟩ := h
  refine ⟨?_, ?_, ?_, ?_⟩
  · simp only [LGP.mudBranch, h4]
  · simp only [LGP.mudAltBranch, LGP.updated_cov, h4]
  · simp only [LGP.mapBranch, h4]
  · simp only [LGP.lsBranch]

theorem sameProblem_after (calls : List (String × Option ℤ)) (P : LGP) : SameProblem (afterCalls P calls) P := by
  induction calls generalizing P with
  | nil => exact SameProblem.rfl' P
  | cons c cs ih => exact (ih _).trans' (C11_solve_keeps_problem P c.1 c.2)

/-- One call: a result it computes is the one a fresh object would hold; any other result stays. -/
theorem stored_step {P Q : LGP} (h : SameProblem Q P) (c : String × Option ℤ) {a method : String}
    (ha : (a, method) ∈ resultAttrs) :
    (ComputesSolution P method c ∧ (LGP.solve c.1 c.2 Q).2.attr a = (LGP.solve method c.2 P).2.attr a) ∨
    (¬ ComputesSolution P method c ∧ (LGP.solve c.1 c.2 Q).2.attr a = Q.attr a) := by
  obtain ⟨c, od⟩ := c
  have hl := locals_congr h od
  cases hw : P.locals od with
  | error e =>
    refine .inr ⟨?_, by rw [solve_error Q od (hl.trans hw)]⟩
    have hn : ∀ m, ¬ SolveSucceeds P m od := fun m ⟨x, hx⟩ => by rw [solve_error P od hw] at hx; cases hx
    rintro (⟨-, h⟩ | ⟨-, h⟩)
    · exact hn _ h
    · have : "mud" ∈ runsUpTo method := by
        unfold runsUpTo; split_ifs <;> simp
      exact hn _ (h _ this)
  | ok w =>
    have hw' := hl.trans hw
    obtain ⟨b1, b2, b3, b4⟩ := branches_congr h w
    by_cases hc : c ∈ solveMethods
    · simp only [solveMethods, List.mem_cons, List.not_mem_nil, or_false] at hc
      simp only [resultAttrs, List.mem_cons, List.not_mem_nil, or_false, Prod.mk.injEq] at ha
      have e1 := solve_mud P od hw
      have e2 := solve_mud_alt P od hw
      have e3 := solve_map P od hw
      have e4 := solve_ls P od hw
      rcases hc with rfl | rfl | rfl | rfl | rfl
      · rw [solve_mud Q od hw', b1]
        rcases ha with ⟨rfl, rfl⟩ | ⟨rfl, rfl⟩ | ⟨rfl, rfl⟩ | ⟨rfl, rfl⟩ | ⟨rfl, rfl⟩ | ⟨rfl, rfl⟩ <;>
          simp only [ComputesSolution, SolveSucceeds] <;> cases hb : P.mudBranch w <;> simp [LGP.attr, e1, hb]
      · rw [solve_mud_alt Q od hw', b2]
        rcases ha with ⟨rfl, rfl⟩ | ⟨rfl, rfl⟩ | ⟨rfl, rfl⟩ | ⟨rfl, rfl⟩ | ⟨rfl, rfl⟩ | ⟨rfl, rfl⟩ <;>
          simp only [ComputesSolution, SolveSucceeds] <;> cases hb : P.mudAltBranch w <;> simp [LGP.attr, e2, hb]
      · rw [solve_map Q od hw', b3]
        rcases ha with ⟨rfl, rfl⟩ | ⟨rfl, rfl⟩ | ⟨rfl, rfl⟩ | ⟨rfl, rfl⟩ | ⟨rfl, rfl⟩ | ⟨rfl, rfl⟩ <;>
          simp only [ComputesSolution, SolveSucceeds] <;> cases hb : P.mapBranch w <;> simp [LGP.attr, e3, hb]
      · rw [solve_ls Q od hw', b4]
        rcases ha with ⟨rfl, rfl⟩ | ⟨rfl, rfl⟩ | ⟨rfl, rfl⟩ | ⟨rfl, rfl⟩ | ⟨rfl, rfl⟩ | ⟨rfl, rfl⟩ <;>
          simp only [ComputesSolution, SolveSucceeds] <;> cases hb : P.lsBranch w <;> simp [LGP.attr, e4, hb]
      · rw [solve_all Q od hw', b1, b2, b3, b4]
        rcases ha with ⟨rfl, rfl⟩ | ⟨rfl, rfl⟩ | ⟨rfl, rfl⟩ | ⟨rfl, rfl⟩ | ⟨rfl, rfl⟩ | ⟨rfl, rfl⟩ <;>
          simp only [ComputesSolution, SolveSucceeds, runsUpTo, String.reduceEq, reduceIte, List.forall_mem_cons, e1, e2, e3, e4] <;>
          (generalize P.mudBranch w = r1
           generalize P.mudAltBranch w = r2
           generalize P.mapBranch w = r3
           generalize P.lsBranch w = r4
           rcases r1 with _ | x1
           · simp
           rcases r2 with _ | x2
           · simp [LGP.attr]
           rcases r3 with _ | x3
           · simp [LGP.attr]
           rcases r4 with _ | x4 <;> simp [LGP.attr])
    · refine .inr ⟨?_, by rw [solve_other hc]⟩
      rintro (⟨rfl, -⟩ | ⟨rfl, -⟩)
      · refine hc ?_
        simp only [resultAttrs, List.mem_cons, List.not_mem_nil, or_false, Prod.mk.injEq] at ha
        rcases ha with ⟨-, rfl⟩ | ⟨-, rfl⟩ | ⟨-, rfl⟩ | ⟨-, rfl⟩ | ⟨-, rfl⟩ | ⟨-, rfl⟩ <;> simp [solveMethods]
      · exact hc (by simp [solveMethods])

/-! ### C166 -/

/-- **C166.** After any history of `solve` calls, with any method names and dimensions and whether or not they
raise, look at the last call that computed a given solution. Every attribute belonging to that solution holds
what a single `solve` for it, with the `output_dim` of that call, leaves on the fresh object; if no call of the
history computed it, the attributes are as they were. -/
theorem C166_stored (P : LGP) (calls : List (String × Option ℤ)) (method : String) :
    (∃ pre c post, calls = pre ++ c :: post ∧ ComputesSolution P method c ∧ (∀ c' ∈ post, ¬ ComputesSolution P method c') ∧
      ∀ a, (a, method) ∈ resultAttrs →
        (afterCalls P calls).attr a = (LGP.solve method c.2 P).2.attr a) ∨
    ((∀ c ∈ calls, ¬ ComputesSolution P method c) ∧
      ∀ a, (a, method) ∈ resultAttrs → (afterCalls P calls).attr a = P.attr a) := by
  induction calls using List.reverseRecOn with
  | nil => exact .inr ⟨by simp, fun _ _ => rfl⟩
  | append_singleton cs c ih =>
    have e : afterCalls P (cs ++ [c]) = (LGP.solve c.1 c.2 (afterCalls P cs)).2 := by
      simp [afterCalls, List.foldl_append]
    have hs := sameProblem_after cs P
    rw [e]
    by_cases hc : ComputesSolution P method c
    · refine .inl ⟨cs, c, [], rfl, hc, by simp, fun a ha => ?_⟩
      rcases stored_step hs c ha with ⟨-, h⟩ | ⟨h, -⟩
      · exact h
      · exact absurd hc h
    · have hk : ∀ a, (a, method) ∈ resultAttrs →
          (LGP.solve c.1 c.2 (afterCalls P cs)).2.attr a = (afterCalls P cs).attr a := fun a ha => by
        rcases stored_step hs c ha with ⟨h, -⟩ | ⟨-, h⟩
        · exact absurd h hc
        · exact h
      rcases ih with ⟨pre, c0, post, rfl, h1, h2, h3⟩ | ⟨h1, h2⟩
      · refine .inl ⟨pre, c0, post ++ [c], by simp, h1, ?_, fun a ha => (hk a ha).trans (h3 a ha)⟩
        intro c' hc'
        rcases List.mem_append.1 hc' with h | h
        · exact h2 _ h
        · rw [List.mem_singleton.1 h]; exact hc
      · refine .inr ⟨?_, fun a ha => (hk a ha).trans (h2 a ha)⟩
        intro c' hc'
        rcases List.mem_append.1 hc' with h | h
        · exact h1 _ h
        · rw [List.mem_singleton.1 h]; exact hc

/-- The value returned by a single `solve` is the one left in the attribute of that name. -/
theorem C166_returned (P : LGP) (od : Option ℤ) {method : String}
    (hm : method ∈ ["mud", "mud_alt", "map", "ls"]) (x : SolveRes)
    (h : (LGP.solve method od P).1 = .ok x) : (LGP.solve method od P).2.attr method = .ok x := by
  cases hw : P.locals od with
  | error e => rw [solve_error P od hw] at h; cases h
  | ok w =>
    simp only [List.mem_cons, List.not_mem_nil, or_false] at hm
    rcases hm with rfl | rfl | rfl | rfl <;> revert h
    · rw [solve_mud P od hw]; cases P.mudBranch w <;> simp [LGP.attr, ofAttr]
    · rw [solve_mud_alt P od hw]; cases P.mudAltBranch w <;> simp [LGP.attr, ofAttr]
    · rw [solve_map P od hw]; cases P.mapBranch w <;> simp [LGP.attr, ofAttr]
    · rw [solve_ls P od hw]; cases P.lsBranch w <;> simp [LGP.attr, ofAttr]

/-- A newly constructed problem holds no result: reading one raises `AttributeError`. -/
theorem C166_fresh {A : NArr} {b y mean : Option NArr} {cov data_cov : Option Arr2} {alpha : Option ℝ} {P : LGP}
    (h : LGP.new A b y mean cov data_cov alpha = .ok P) {a method : String} (ha : (a, method) ∈ resultAttrs) :
    P.attr a = .error .attributeError := by
  have hP : P.mud = none ∧ P.mud_alt = none ∧ P.map = none ∧ P.ls = none ∧ P.up_cov = none ∧ P.cov_p = none := by
    unfold LGP.new at h
    obtain ⟨-, -, h⟩ := Py.bind_eq_ok.1 h
    cases h
    exact ⟨rfl, rfl, rfl, rfl, rfl, rfl⟩
  obtain ⟨h1, h2, h3, h4, h5, h6⟩ := hP
  simp only [resultAttrs, List.mem_cons, List.not_mem_nil, or_false, Prod.mk.injEq] at ha
  rcases ha with ⟨rfl, -⟩ | ⟨rfl, -⟩ | ⟨rfl, -⟩ | ⟨rfl, -⟩ | ⟨rfl, -⟩ | ⟨rfl, -⟩ <;>
    simp [LGP.attr, ofAttr, *]

/-- The attributes `cov_p` and `up_cov`, read after `solve('map')` and `solve('mud_alt')`: the posterior covariance, and
what `updated_cov` returns for the covariance `alpha * cov`. -/
theorem C166_covariances {d p : ℕ} (A : Matrix (Fin d) (Fin p) ℝ) (b y : Fin d → ℝ) (m : Fin p → ℝ)
    {S : Matrix (Fin p) (Fin p) ℝ} (hS : S.PosDef) {C : Matrix (Fin d) (Fin d) ℝ} (hC : C.PosDef) (α : ℝ) (hα : 0 < α) :
    ∃ P U, Api.new A b y m S C α = .ok P ∧
      (LGP.solve "map" none P).2.attr "cov_p" = .ok (.arr ⟨p, p, (Aᵀ * C⁻¹ * A + (α • S)⁻¹)⁻¹⟩) ∧
      funsUpdatedCov ⟨d, p, A⟩ (some ⟨p, p, α • S⟩) (some ⟨d, d, C⟩) = .ok U ∧
      (LGP.solve "mud_alt" none P).2.attr "up_cov" = .ok (.arr U) := by
  have hSα : (α • S).PosDef := hS.smul hα
  have hH : (mapH A (α • S) C).PosDef := map_posDef hSα hC
  refine ⟨_, ⟨p, p, upF A (α • S) C⟩, new_typed .., ?_, by simp [funsUpdatedCov, updatedCovBody_typed], ?_⟩
  · rw [solve_map _ _ (locals_typed ..), mapBranch_typed _ _ _ _ _ m _ _ rfl,
      if_neg (by rw [not_or, not_or]; exact ⟨posDef_det_ne hC, posDef_det_ne hSα, posDef_det_ne hH⟩)]
    simp [LGP.attr, ofAttr, mapH]
  · rw [solve_mud_alt _ _ (locals_typed ..), mudAltBranch_typed _ _ _ _ _ m _ _ rfl, if_neg (posDef_det_ne hC)]
    simp [LGP.attr, ofAttr]

/-- Non-vacuity: with a singular data covariance, `solve('all')` raises in its second step. The MUD point is
already stored, the MAP point is not: here the MUD point `5` is that of the failed `solve('all')`, and reading
`map` raises. -/
example : ∃ P, Api.new (d := 1) (p := 1) !![1] ![0] ![5] ![0] !![1] !![0] 1 = .ok P ∧
    (LGP.solve "all" none P).1 = .error .linAlgError ∧
    ComputesSolution P "mud" ("all", none) ∧ ¬ ComputesSolution P "map" ("all", none) ∧
    (afterCalls P [("all", none), ("map", none)]).attr "mud" = .ok (.arr (Arr2.col ![5])) ∧
    (afterCalls P [("all", none), ("map", none)]).attr "map" = .error .attributeError := by
  refine ⟨_, new_typed .., ?_⟩
  generalize hP : LGP.typed (!![1] : Matrix (Fin 1) (Fin 1) ℝ) ![0] ![5] ![0] (!![1] : Matrix (Fin 1) (Fin 1) ℝ)
    (!![0] : Matrix (Fin 1) (Fin 1) ℝ) 1 = P
  have hw := locals_typed (!![1] : Matrix (Fin 1) (Fin 1) ℝ) ![0] ![5] ![0] (!![1] : Matrix (Fin 1) (Fin 1) ℝ)
    (!![0] : Matrix (Fin 1) (Fin 1) ℝ) 1
  rw [hP] at hw
  have hm : P.mean_i = Arr2.col ![0] := by rw [← hP]; rfl
  have m1 := mudBranch_typed P (!![1] : Matrix (Fin 1) (Fin 1) ℝ) ![0] ![5]
    ((![5] : Fin 1 → ℝ) - ![0] - (!![1] : Matrix (Fin 1) (Fin 1) ℝ).mulVec ![0]) ![0]
    ((1 : ℝ) • (!![1] : Matrix (Fin 1) (Fin 1) ℝ)) (!![0] : Matrix (Fin 1) (Fin 1) ℝ) hm
  have m2 := mudAltBranch_typed P (!![1] : Matrix (Fin 1) (Fin 1) ℝ) ![0] ![5]
    ((![5] : Fin 1 → ℝ) - ![0] - (!![1] : Matrix (Fin 1) (Fin 1) ℝ).mulVec ![0]) ![0]
    ((1 : ℝ) • (!![1] : Matrix (Fin 1) (Fin 1) ℝ)) (!![0] : Matrix (Fin 1) (Fin 1) ℝ) hm
  have m3 := mapBranch_typed P (!![1] : Matrix (Fin 1) (Fin 1) ℝ) ![0] ![5]
    ((![5] : Fin 1 → ℝ) - ![0] - (!![1] : Matrix (Fin 1) (Fin 1) ℝ).mulVec ![0]) ![0]
    ((1 : ℝ) • (!![1] : Matrix (Fin 1) (Fin 1) ℝ)) (!![0] : Matrix (Fin 1) (Fin 1) ℝ) hm
  have v : mudF (!![1] : Matrix (Fin 1) (Fin 1) ℝ)
      ((![5] : Fin 1 → ℝ) - ![0] - (!![1] : Matrix (Fin 1) (Fin 1) ℝ).mulVec ![0]) ![0]
      ((1 : ℝ) • (!![1] : Matrix (Fin 1) (Fin 1) ℝ)) = ![5] := by
    have e : (!![1] : Matrix (Fin 1) (Fin 1) ℝ) = 1 := by ext i j; fin_cases i; fin_cases j; rfl
    rw [mudF, e, one_smul, Matrix.transpose_one, Matrix.mul_one, Matrix.mul_one, Matrix.one_mul,
      mpinv_of_isUnit_det (by simp), inv_one, Matrix.one_mulVec, Matrix.one_mulVec]
    ext i; fin_cases i; simp
  rw [v] at m1
  rw [if_pos (by simp)] at m2
  rw [if_pos (by simp)] at m3
  have s1 := solve_mud P none hw
  have s2 := solve_mud_alt P none hw
  have s3 := solve_map P none hw
  have sa := solve_all P none hw
  rw [m1] at s1
  rw [m2] at s2
  rw [m3] at s3
  rw [m1, m2] at sa
  dsimp only at s1 s2 s3 sa
  have n1 : ¬ ComputesSolution P "map" ("all", none) := by
    rintro (⟨h, -⟩ | ⟨-, h⟩)
    · simp at h
    · obtain ⟨x, hx⟩ := h "mud_alt" (by simp [runsUpTo])
      rw [s2] at hx; cases hx
  have n2 : ¬ ComputesSolution P "map" ("map", none) := by
    rintro (⟨-, x, hx⟩ | ⟨h, -⟩)
    · rw [s3] at hx; cases hx
    · simp at h
  have c1 : ComputesSolution P "mud" ("all", none) := by
    refine .inr ⟨rfl, fun n hn => ?_⟩
    rw [List.mem_singleton.1 (show n ∈ ["mud"] by simpa [runsUpTo] using hn)]
    exact ⟨_, by rw [s1]⟩
  refine ⟨by rw [sa], c1, n1, ?_, ?_⟩
  · rcases C166_stored P [("all", none), ("map", none)] "mud" with ⟨_, c, _, hc, -, -, h⟩ | ⟨h, -⟩
    · have : c.2 = none := by
        have : c ∈ [("all", none), ("map", (none : Option ℤ))] := by rw [hc]; simp
        rcases List.mem_cons.1 this with rfl | h
        · rfl
        · rw [List.mem_singleton.1 h]
      rw [h "mud" (by simp [resultAttrs]), this, s1]
      simp [LGP.attr, ofAttr]
    · exact absurd c1 (h _ (by simp))
  · rcases C166_stored P [("all", none), ("map", none)] "map" with ⟨_, c, _, hc, h, -, -⟩ | ⟨-, h⟩
    · have : c ∈ [("all", none), ("map", (none : Option ℤ))] := by rw [hc]; simp
      rcases List.mem_cons.1 this with rfl | h'
      · exact absurd h n1
      · rw [List.mem_singleton.1 h'] at h; exact absurd h n2
    · rw [h "map" (by simp [resultAttrs]), ← hP]
      simp [LGP.attr, ofAttr, LGP.typed]

end Verif
