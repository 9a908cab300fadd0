import Verif.Model.PlotOpts
import Verif.Props.PlotProb
import Verif.Props.PlotTs
import Verif.Props.PlotLinear
import Verif.Props.Contours

/-!
# Options of the figures: C152, C153, C154
-/

namespace Verif

/-! ## Dictionaries -/

namespace Dict

/-- Value of an option: the user's, or else the default. -/
def chosen (base user : Dict) (k : String) : Option OptVal := (user.get k).or (base.get k)

/-- The keys of a dictionary are different. -/
def Keys (d : Dict) : Prop := (d.map (·.1)).Nodup

theorem get_cons (p : String × OptVal) (d : Dict) (k : String) :
    get (p :: d) k = if p.1 = k then some p.2 else get d k := by
  unfold get
  by_cases h : p.1 = k <;> simp [h]

theorem get_nil (k : String) : get [] k = none := rfl

theorem has_cons (p : String × OptVal) (d : Dict) (k : String) :
    has (p :: d) k = (decide (p.1 = k) || has d k) := by
  simp [has]

theorem get_none_of_has {d : Dict} {k : String} (h : d.has k = false) : d.get k = none := by
  induction d with
  | nil => rfl
  | cons p d ih =>
    rw [has_cons] at h
    simp only [Bool.or_eq_false_iff, decide_eq_false_iff_not] at h
    rw [get_cons, if_neg h.1, ih h.2]

theorem get_append (d e : Dict) (k : String) : get (d ++ e) k = (d.get k).or (e.get k) := by
  induction d with
  | nil => simp [get_nil]
  | cons p d ih =>
    rw [List.cons_append, get_cons, get_cons, ih]
    split <;> simp

theorem get_mapSet (d : Dict) (k : String) (v : OptVal) (j : String) :
    get (d.map fun e => if e.1 = k then (k, v) else e) j =
      if j = k then (if d.has k then some v else none) else d.get j := by
  induction d with
  | nil => simp [get_nil, has]
  | cons p d ih =>
    rw [List.map_cons, get_cons, ih, has_cons, get_cons]
    by_cases hp : p.1 = k
    · by_cases hj : j = k
      · subst hj; simp [hp]
      · simp [hp, hj, Ne.symm hj]
    · by_cases hj : j = k
      · subst hj; simp [hp]
      · simp [hp, hj]

theorem get_set (d : Dict) (k : String) (v : OptVal) (j : String) :
    (d.set k v).get j = if j = k then some v else d.get j := by
  unfold set
  by_cases h : d.has k = true
  · rw [if_pos h, get_mapSet]; simp [h]
  · rw [if_neg h, get_append, get_cons, get_nil]
    by_cases hj : j = k
    · subst hj
      simp [get_none_of_has (by simpa using h)]
    · simp [hj, Ne.symm hj]

/-- `d.update(e)` sets the keys of `e` and leaves the others. -/
theorem get_update (d e : Dict) (he : e.Keys) (k : String) : (d.update e).get k = chosen d e k := by
  induction e generalizing d with
  | nil => simp [update, chosen, get_nil]
  | cons p e ih =>
    have hn := List.nodup_cons.1 he
    change ((d.set p.1 p.2).update e).get k = _
    rw [ih _ hn.2]
    unfold chosen
    rw [get_set, get_cons]
    by_cases hk : p.1 = k
    · subst hk
      have : Dict.get e p.1 = none := by
        apply get_none_of_has
        unfold has
        rw [Bool.eq_false_iff]
        intro h
        obtain ⟨q, hq, hq'⟩ := List.any_eq_true.1 h
        exact hn.1 (List.mem_map.2 ⟨q, hq, by simpa using hq'⟩)
      simp [this]
    · simp [hk, Ne.symm hk]

theorem has_eq (d : Dict) (k : String) : d.has k = (d.get k).isSome := by
  induction d with
  | nil => rfl
  | cons p d ih =>
    rw [has_cons, get_cons, ih]
    by_cases h : p.1 = k <;> simp [h]

theorem has_update (d e : Dict) (he : e.Keys) (k : String) : (d.update e).has k = (d.has k || e.has k) := by
  rw [has_eq, has_eq, has_eq, get_update d e he]
  unfold chosen
  cases e.get k <;> cases d.get k <;> rfl

theorem get_drop (d : Dict) (k j : String) : (d.drop k).get j = if j = k then none else d.get j := by
  induction d with
  | nil => simp [drop, get_nil]
  | cons p d ih =>
    unfold drop at ih ⊢
    rw [List.filter_cons]
    by_cases h : p.1 = k
    · rw [if_neg (by simp [h]), ih, get_cons]
      by_cases hj : j = k
      · simp [hj]
      · simp [hj, h, Ne.symm hj]
    · rw [if_pos (by simp [h]), get_cons, ih, get_cons]
      by_cases hj : j = k
      · subst hj; simp [h]
      · simp [hj]

end Dict

/-- A user's option dictionary: different keys, none of them in a list. -/
def Dict.Fine (taken : List String) (u : Dict) : Prop := u.Keys ∧ ∀ k ∈ taken, u.has k = false

/-- The role of an element. -/
def Item.role : Item → String
  | .curve r _ => r
  | .vert r _ => r

/-- The elements with keywords by role. -/
def withKw (f : String → Dict) (l : List Item) : List Drawn := l.map fun x => ⟨x, f x.role⟩

theorem withKw_append (f : String → Dict) (a b : List Item) : withKw f (a ++ b) = withKw f a ++ withKw f b :=
  List.map_append ..

/-- A figure with keywords by role; errors are kept. -/
def withKwR {σ : Type} (f : String → Dict) (x : Py (List Item) × σ) : Py (List Drawn) × σ := (withKw f <$> x.1, x.2)

/-! ### The defaults, written out -/

/-- The defaults of `DensityProblem` by element: colour, line style, label. -/
def styleD : String → Dict
  | "initial" => [("color", .text "b"), ("linestyle", .text "--"), ("label", .text "$\\pi_\\\\mathrm{init}$")]
  | "update" => [("color", .text "k"), ("linestyle", .text "-."), ("label", .text "$\\pi_\\\\mathrm{update}$")]
  | "weighted initial" => [("color", .text "b"), ("linestyle", .text ":"), ("label", .text "$\\\\tilde{\\pi}_\\\\mathrm{init}$")]
  | "mud" => [("color", .text "g"), ("label", .text "$\\lambda^\\mathrm{MUD}$")]
  | "true" => [("color", .text "r"), ("linestyle", .text "-."), ("label", .text "$\\lambda^{\\dagger}$")]
  | "observed" => [("color", .text "r"), ("linestyle", .text "-"), ("label", .text "$\\pi_\\mathrm{obs}$")]
  | "predicted" => [("color", .text "b"), ("linestyle", .text "-"), ("label", .text "$\\pi_\\mathrm{pred}$")]
  | "push-forward" => [("color", .text "k"), ("linestyle", .text "-."), ("label", .text "$\\pi_\\mathrm{pf-pr}$")]
  | _ => []

/-- The defaults of `BayesProblem` by element. -/
noncomputable def styleB : String → Dict
  | "prior" => [("color", .text "b"), ("linestyle", .text "--"), ("linewidth", .num 4), ("label", .text "Prior")]
  | "posterior" => [("color", .text "g"), ("linestyle", .text ":"), ("linewidth", .num 4), ("label", .text "Posterior")]
  | "map" => [("color", .text "g"), ("label", .text "$\\lambda^\\mathrm{MAP}$")]
  | "true" => [("color", .text "r"), ("linestyle", .text "-."), ("label", .text "$\\lambda^{\\dagger}$")]
  | "likelihood" => [("color", .text "r"), ("linestyle", .text "-"), ("linewidth", .num 4), ("label", .text "Data-Likelihood")]
  | "push-forward" => [("color", .text "g"), ("linestyle", .text ":"), ("linewidth", .num 4), ("label", .text "PF of Posterior")]
  | _ => []

/-- The defaults of `plot_ts`: measured points and simulated series. -/
noncomputable def styleMeasured : Dict :=
  [("color", .text "k"), ("marker", .text "^"), ("label", .text "$\\zeta_{obs}$"), ("zorder", .num 50), ("s", .num 2)]
@[inherit_doc styleMeasured] noncomputable def styleSeries : Dict :=
  [("color", .text "r"), ("linestyle", .text "-"), ("zorder", .num 1), ("alpha", .num 0.1)]

section

variable {pe : PlotEnv} {acc : Dict → Py Unit} (hacc : ∀ kw, acc kw = .ok ())

theorem noClash_ok {taken : List String} {base u : Dict} (hb : ∀ k ∈ taken, base.has k = false) (hu : u.Fine taken) :
    noClash taken (base.update u) = .ok () := by
  unfold noClash raiseIf
  rw [if_neg]
  rintro ⟨k, hk, hh⟩
  rw [Dict.has_update _ _ hu.1, hb k hk, hu.2 k hk] at hh
  simp at hh

include hacc in
theorem drawKw_eq {taken : List String} {role source : String} {c : Curve} {rng : Arr2} {idx aff : ℤ} {base : Dict}
    {o : Option Dict} {f : String → Dict} (hb : ∀ k ∈ taken, base.has k = false) (ho : ∀ u ∈ o, u.Fine taken)
    (hf : f role = base.update (o.getD [])) :
    drawKw pe acc taken role source c rng idx aff base o = withKw f <$> drawIf pe o.isSome role source c rng idx aff := by
  cases o with
  | none => rfl
  | some u =>
    unfold drawKw drawIf
    dsimp only
    rw [noClash_ok hb (ho u rfl)]
    simp only [Py.ok_bind, hacc]
    simp only [Option.getD_some] at hf
    cases pe.draw source c rng idx aff with
    | error e => rfl
    | ok _ =>
      simp [withKw, Item.role, hf]

include hacc in
theorem vertKw_eq {role : String} {pt : List ℝ} {idx : ℤ} {base u : Dict} {f : String → Dict}
    (hb : ∀ k ∈ ["ax", "x_loc", "ylim"], base.has k = false) (hu : u.Fine ["ax", "x_loc", "ylim"])
    (hf : f role = base.update u) :
    vertKw acc role pt idx (base.update u) = withKw f <$> vertAt role pt idx := by
  unfold vertKw vertAt
  rw [noClash_ok hb hu, hacc]
  cases ND.normIdx pt.length idx with
  | error e => rfl
  | ok k => simp [withKw, Item.role, hf]

include hacc in
theorem vertKwB_eq {role : String} {pt : List ℝ} {idx : ℤ} {base u : Dict} {f : String → Dict}
    (hb : ∀ k ∈ ["ax", "x_loc"], base.has k = false) (hu : u.Fine ["ax", "x_loc"])
    (hf : f role = (base.update u).drop "ylim") :
    vertKwB acc role pt idx (base.update u) = withKw f <$> vertAt role pt idx := by
  unfold vertKwB vertAt
  rw [noClash_ok hb hu, hacc]
  cases ND.normIdx pt.length idx with
  | error e => rfl
  | ok k => simp [withKw, Item.role, hf]

/-- A sequence of steps drawn with keywords is the sequence drawn without, with keywords added. -/
theorem withKwR_bind {σ α β γ δ : Type} (g : α → γ) (g' : β → δ) {x : PyM σ γ} {y : PyM σ α} {F : γ → PyM σ δ} {G : α → PyM σ β}
    (S : σ) (hx : x S = (g <$> (y S).1, (y S).2)) (hF : ∀ a s, F (g a) s = (g' <$> (G a s).1, (G a s).2)) :
    (x >>= F) S = (g' <$> ((y >>= G) S).1, ((y >>= G) S).2) := by
  rw [PyM.bind_run, PyM.bind_run, hx]
  rcases hy : y S with ⟨r, s⟩
  cases r with
  | error e => rfl
  | ok a =>
    simpa using hF a s

/-! ## `DensityProblem` -/

open Dict

theorem io_free : ∀ k ∈ plotDistArgs, DPD.io.has k = false := by decide +kernel
theorem uo_free : ∀ k ∈ plotDistArgs, DPD.uo.has k = false := by decide +kernel

include hacc in
/-- **C152** (parameter space). Every element of the figure is drawn with the user's options, and the defaults for the
others; an element is left out exactly if its options are `None` (for the true value also if they are empty). Curves,
positions and the effect on the object are those of C92. -/
theorem C152_param (env : Env) (S : DPD) (idx : ℤ) (tv : Option (List ℝ)) (xr : Option Arr2) (pad : ℝ) (aff : ℤ) (o : DPD.ParamOpts)
    (hin : ∀ u ∈ o.inO, u.Fine plotDistArgs) (hup : ∀ u ∈ o.upO, u.Fine plotDistArgs) (hwin : ∀ u ∈ o.winO, u.Fine plotDistArgs)
    (hmud : ∀ u ∈ o.mudO, u.Fine ["ax", "x_loc", "ylim"]) (htrue : ∀ u ∈ o.trueO, u.Fine ["ax", "x_loc", "ylim"]) :
    ∃ f : String → Dict,
      (∀ k, (f "initial").get k = chosen (styleD "initial") (o.inO.getD []) k) ∧
      (∀ k, (f "update").get k = chosen (styleD "update") (o.upO.getD []) k) ∧
      (∀ k, (f "weighted initial").get k = chosen (styleD "weighted initial") (o.winO.getD []) k) ∧
      (∀ k, (f "mud").get k = chosen (styleD "mud") (o.mudO.getD []) k) ∧
      (∀ k, (f "true").get k = chosen (styleD "true") (o.trueO.getD []) k) ∧
      DPD.plotParamSpaceKw env pe acc idx tv xr pad aff o S =
        withKwR f (DPD.plotParamSpace env pe idx tv xr pad aff o.inO.isSome o.upO.isSome o.winO.isSome o.mudO.isSome
          (o.trueO.isSome && !(o.trueO.getD []).isEmpty) S) := by
  have hk : ∀ {t : List String} {o : Option Dict}, (∀ u ∈ o, u.Fine t) → (o.getD []).Keys := fun {t o} h => by
    cases o with
    | none => exact List.nodup_nil
    | some u => exact (h u rfl).1
  let f : String → Dict := fun r =>
    if r = "initial" then DPD.io.update (o.inO.getD []) else if r = "update" then DPD.uo.update (o.upO.getD [])
    else if r = "weighted initial" then DPD.wo.update (o.winO.getD []) else if r = "mud" then DPD.mo.update (o.mudO.getD [])
    else DPD.tro.update (o.trueO.getD [])
  have f1 : f "initial" = DPD.io.update (o.inO.getD []) := by simp [f]
  have f2 : f "update" = DPD.uo.update (o.upO.getD []) := by simp [f]
  have f3 : f "weighted initial" = DPD.wo.update (o.winO.getD []) := by simp [f]
  have f4 : f "mud" = DPD.mo.update (o.mudO.getD []) := by simp [f]
  have f5 : f "true" = DPD.tro.update (o.trueO.getD []) := by simp [f]
  refine ⟨f, fun k => by rw [f1]; exact get_update _ _ (hk hin) k, fun k => by rw [f2]; exact get_update _ _ (hk hup) k,
    fun k => by rw [f3]; exact get_update _ _ (hk hwin) k, fun k => by rw [f4]; exact get_update _ _ (hk hmud) k,
    fun k => by rw [f5]; exact get_update _ _ (hk htrue) k, ?_⟩
  clear_value f
  unfold DPD.plotParamSpaceKw DPD.plotParamSpace withKwR
  refine withKwR_bind id (withKw f) S (by simp) fun rng s => ?_
  refine withKwR_bind id (withKw f) s (by simp) fun S' s => ?_
  refine withKwR_bind id (withKw f) s (by simp) fun d s => ?_
  refine withKwR_bind (withKw f) (withKw f) s ?_ fun a s => ?_
  · rw [PyM.lift_run, PyM.lift_run]
    exact congrArg (·, s) (drawKw_eq hacc io_free hin f1)
  refine withKwR_bind (withKw f) (withKw f) s ?_ fun b s => ?_
  · rw [PyM.lift_run, PyM.lift_run]
    refine congrArg (·, s) ?_
    unfold DPD.updateKw DPD.updateCurve
    cases ho : o.upO with
    | none => rfl
    | some u =>
      simp only [id, Option.isSome_some, if_true]
      cases DPD.ratioWeights S'.core with
      | error e => rfl
      | ok w =>
        simp only [Py.ok_bind]
        exact drawKw_eq (o := some u) hacc (by decide +kernel) (ho ▸ hup) (ho ▸ f2)
  refine withKwR_bind (withKw f) (withKw f) s ?_ fun c s => ?_
  · rw [PyM.lift_run, PyM.lift_run]
    exact congrArg (·, s) (drawKw_eq hacc (by decide +kernel) hwin f3)
  refine withKwR_bind (withKw f) (withKw f) s ?_ fun m s => ?_
  · unfold DPD.mudLine
    cases ho : o.mudO with
    | none => rfl
    | some u =>
      simp only [Option.isSome_some, if_true]
      unfold DPD.mudLineKw
      dsimp only
      refine withKwR_bind id (withKw f) s (by simp) fun pt s => ?_
      rw [PyM.lift_run, PyM.lift_run]
      exact congrArg (·, s) (vertKw_eq hacc (by decide +kernel) (hmud u ho) (by rw [f4, ho]; rfl))
  refine withKwR_bind (withKw f) (withKw f) s ?_ fun t s => ?_
  · rw [PyM.lift_run, PyM.lift_run]
    refine congrArg (·, s) ?_
    unfold trueKw vertTrue
    cases tv with
    | none => rfl
    | some v =>
      cases ho : o.trueO with
      | none => rfl
      | some u =>
        cases u with
        | nil => rfl
        | cons p u =>
          exact vertKw_eq hacc (by decide +kernel) (htrue _ ho) (by rw [f5, ho]; rfl)
  simp [withKw_append]

/-- `if opts:` -/
theorem truthy_fine {t : List String} {o : Option Dict} (h : ∀ u ∈ o, u.Fine t) : ∀ u ∈ truthy o, u.Fine t := by
  intro u hu
  rcases o with _ | _ | ⟨p, l⟩
  · cases hu
  · cases hu
  · exact h u hu

theorem truthy_isSome (o : Option Dict) : (truthy o).isSome = (o.isSome && !(o.getD []).isEmpty) := by
  rcases o with _ | _ | ⟨p, l⟩ <;> rfl

theorem truthy_getD (o : Option Dict) : (truthy o).getD [] = o.getD [] := by
  rcases o with _ | _ | ⟨p, l⟩ <;> rfl

theorem py_bind {α β γ δ : Type} (g : α → γ) (g' : β → δ) {x : Py γ} {y : Py α} {F : γ → Py δ} {G : α → Py β}
    (hx : x = g <$> y) (hF : ∀ a, F (g a) = g' <$> G a) : (x >>= F) = g' <$> (y >>= G) := by
  rw [hx]
  cases y with
  | error e => rfl
  | ok a => simpa using hF a

include hacc in
/-- **C152** (space of the data). Here an element is also left out if its options are an empty dictionary. -/
theorem C152_obs (S : DPD) (idx : ℤ) (yr : Option Arr2) (aff : ℤ) (o : DPD.ObsOpts) (yi : Bool)
    (hob : ∀ u ∈ o.obO, u.Fine plotDistArgs) (hpr : ∀ u ∈ o.prO, u.Fine plotDistArgs) (hpf : ∀ u ∈ o.pfO, u.Fine plotDistArgs) :
    ∃ f : String → Dict,
      (∀ k, (f "observed").get k = chosen (styleD "observed") (o.obO.getD []) k) ∧
      (∀ k, (f "predicted").get k = chosen (styleD "predicted") (o.prO.getD []) k) ∧
      (∀ k, (f "push-forward").get k = chosen (styleD "push-forward") (o.pfO.getD []) k) ∧
      DPD.plotObsSpaceKw pe acc S idx yr aff o yi =
        withKw f <$> DPD.plotObsSpace pe S idx yr aff (o.obO.isSome && !(o.obO.getD []).isEmpty)
          (o.prO.isSome && !(o.prO.getD []).isEmpty) (o.pfO.isSome && !(o.pfO.getD []).isEmpty) yi := by
  have hk : ∀ {t : List String} {o : Option Dict}, (∀ u ∈ o, u.Fine t) → (o.getD []).Keys := fun {t o} h => by
    cases o with
    | none => exact List.nodup_nil
    | some u => exact (h u rfl).1
  let f : String → Dict := fun r =>
    if r = "observed" then DPD.oo.update (o.obO.getD []) else if r = "predicted" then DPD.po.update (o.prO.getD [])
    else DPD.fo.update (o.pfO.getD [])
  have f1 : f "observed" = DPD.oo.update (o.obO.getD []) := by simp [f]
  have f2 : f "predicted" = DPD.po.update (o.prO.getD []) := by simp [f]
  have f3 : f "push-forward" = DPD.fo.update (o.pfO.getD []) := by simp [f]
  refine ⟨f, fun k => by rw [f1]; exact get_update _ _ (hk hob) k, fun k => by rw [f2]; exact get_update _ _ (hk hpr) k,
    fun k => by rw [f3]; exact get_update _ _ (hk hpf) k, ?_⟩
  clear_value f
  rw [← truthy_isSome, ← truthy_isSome, ← truthy_isSome]
  rw [← truthy_getD] at f1 f2 f3
  have h1 := truthy_fine hob
  have h2 := truthy_fine hpr
  have h3 := truthy_fine hpf
  unfold DPD.plotObsSpaceKw DPD.plotObsSpace
  refine py_bind id (withKw f) (by simp) fun rng => ?_
  refine py_bind id (withKw f) (by simp) fun _ => ?_
  refine py_bind id (withKw f) (by simp) fun d => ?_
  refine py_bind (withKw f) (withKw f) (drawKw_eq hacc (by decide +kernel) h1 f1) fun a => ?_
  refine py_bind (withKw f) (withKw f) ?_ fun b => ?_
  · unfold DPD.predictedKw DPD.predictedCurve
    cases ho : truthy o.prO with
    | none => rfl
    | some u =>
      simp only [Option.isSome_some, if_true]
      rcases S.prDist with _ | ⟨d⟩ | ⟨p, bw, w⟩
      · rfl
      · exact drawKw_eq (o := some u) hacc (by decide +kernel) (ho ▸ h2) (ho ▸ f2)
      · exact drawKw_eq (o := some u) hacc (by decide +kernel) (ho ▸ h2) (ho ▸ f2)
  refine py_bind (withKw f) (withKw f) ?_ fun c => ?_
  · unfold DPD.pushforwardKw DPD.pushforwardCurve
    cases ho : truthy o.pfO with
    | none => rfl
    | some u =>
      simp only [id, Option.isSome_some, if_true]
      refine py_bind id (withKw f) (by simp) fun w => ?_
      exact drawKw_eq (o := some u) hacc (by decide +kernel) (ho ▸ h3) (ho ▸ f3)
  simp [withKw_append]

/-! ## `BayesProblem` -/

theorem pro_free : ∀ k ∈ plotDistArgs, BPD.pro.has k = false := by
  intro k hk
  simp only [plotDistArgs, List.mem_cons, List.not_mem_nil, or_false] at hk
  rcases hk with rfl | rfl | rfl | rfl | rfl | rfl <;> simp [BPD.pro, Dict.has]

theorem pso_free : ∀ k ∈ plotDistArgs, BPD.pso.has k = false := by
  intro k hk
  simp only [plotDistArgs, List.mem_cons, List.not_mem_nil, or_false] at hk
  rcases hk with rfl | rfl | rfl | rfl | rfl | rfl <;> simp [BPD.pso, Dict.has]

include hacc in
/-- **C152** (`BayesProblem`, parameter space). An option `ylim` of a vertical line is not handed to matplotlib. -/
theorem C152_bayes_param (S : BPD) (idx : ℤ) (xr : Option Arr2) (aff : ℤ) (o : BPD.ParamOpts) (tv : Option (List ℝ))
    (hpr : ∀ u ∈ o.prO, u.Fine plotDistArgs) (hps : ∀ u ∈ o.psO, u.Fine plotDistArgs)
    (hmap : ∀ u ∈ o.mapO, u.Fine ["ax", "x_loc"]) (htrue : ∀ u ∈ o.trueO, u.Fine ["ax", "x_loc"]) :
    ∃ f : String → Dict,
      (∀ k, (f "prior").get k = chosen (styleB "prior") (o.prO.getD []) k) ∧
      (∀ k, (f "posterior").get k = chosen (styleB "posterior") (o.psO.getD []) k) ∧
      (∀ k, (f "map").get k = if k = "ylim" then none else chosen (styleB "map") (o.mapO.getD []) k) ∧
      (∀ k, (f "true").get k = if k = "ylim" then none else chosen (styleB "true") (o.trueO.getD []) k) ∧
      BPD.plotParamSpaceKw pe acc idx xr aff o tv S =
        withKwR f (BPD.plotParamSpace pe idx xr aff o.prO.isSome o.psO.isSome o.mapO.isSome
          (o.trueO.isSome && !(o.trueO.getD []).isEmpty) tv S) := by
  have hk : ∀ {t : List String} {o : Option Dict}, (∀ u ∈ o, u.Fine t) → (o.getD []).Keys := fun {t o} h => by
    cases o with
    | none => exact List.nodup_nil
    | some u => exact (h u rfl).1
  let f : String → Dict := fun r =>
    if r = "prior" then BPD.pro.update (o.prO.getD []) else if r = "posterior" then BPD.pso.update (o.psO.getD [])
    else if r = "map" then (BPD.mo.update (o.mapO.getD [])).drop "ylim" else (BPD.tro.update (o.trueO.getD [])).drop "ylim"
  have f1 : f "prior" = BPD.pro.update (o.prO.getD []) := by simp [f]
  have f2 : f "posterior" = BPD.pso.update (o.psO.getD []) := by simp [f]
  have f3 : f "map" = (BPD.mo.update (o.mapO.getD [])).drop "ylim" := by simp [f]
  have f4 : f "true" = (BPD.tro.update (o.trueO.getD [])).drop "ylim" := by simp [f]
  refine ⟨f, fun k => by rw [f1]; exact get_update _ _ (hk hpr) k, fun k => by rw [f2]; exact get_update _ _ (hk hps) k,
    fun k => by rw [f3, get_drop, get_update _ _ (hk hmap)]; rfl, fun k => by rw [f4, get_drop, get_update _ _ (hk htrue)]; rfl, ?_⟩
  clear_value f
  unfold BPD.plotParamSpaceKw BPD.plotParamSpace withKwR
  refine withKwR_bind id (withKw f) S (by simp) fun S' s => ?_
  refine withKwR_bind (withKw f) (withKw f) s ?_ fun a s => ?_
  · rw [PyM.lift_run, PyM.lift_run]
    refine congrArg (·, s) ?_
    unfold BPD.priorKw BPD.priorCurve
    cases ho : o.prO with
    | none => rfl
    | some u =>
      simp only [id, Option.isSome_some, if_true]
      cases S'.prDist with
      | none => rfl
      | some d => exact drawKw_eq (o := some u) hacc pro_free (ho ▸ hpr) (ho ▸ f1)
  refine withKwR_bind (withKw f) (withKw f) s ?_ fun b s => ?_
  · unfold BPD.posteriorKw BPD.posteriorCurve
    cases ho : o.psO with
    | none => rfl
    | some u =>
      simp only [id, Option.isSome_some, if_true]
      refine withKwR_bind id (withKw f) s (by simp) fun _ s => ?_
      refine withKwR_bind id (withKw f) s (by simp) fun S'' s => ?_
      rw [PyM.lift_run, PyM.lift_run]
      exact congrArg (·, s) (drawKw_eq (o := some u) hacc pso_free (ho ▸ hps) (ho ▸ f2))
  refine withKwR_bind (withKw f) (withKw f) s ?_ fun m s => ?_
  · unfold BPD.mapLine
    cases ho : o.mapO with
    | none => rfl
    | some u =>
      simp only [Option.isSome_some, if_true]
      unfold BPD.mapLineKw
      dsimp only
      refine withKwR_bind id (withKw f) s (by simp) fun pt s => ?_
      rw [PyM.lift_run, PyM.lift_run]
      exact congrArg (·, s) (vertKwB_eq hacc (by decide +kernel) (hmap u ho) (by rw [f3, ho]; rfl))
  refine withKwR_bind (withKw f) (withKw f) s ?_ fun t s => ?_
  · rw [PyM.lift_run, PyM.lift_run]
    refine congrArg (·, s) ?_
    unfold trueKw vertTrue
    cases tv with
    | none => rfl
    | some v =>
      cases ho : o.trueO with
      | none => rfl
      | some u =>
        cases u with
        | nil => rfl
        | cons p u =>
          exact vertKwB_eq hacc (by decide +kernel) (htrue _ ho) (by rw [f4, ho]; rfl)
  simp [withKw_append]

include hacc in
/-- **C152** (`BayesProblem`, space of the data). An empty dictionary stands for the defaults. -/
theorem C152_bayes_obs (S : BPD) (idx : ℤ) (yr : Option Arr2) (aff : ℤ) (o : BPD.ObsOpts)
    (hll : ∀ u ∈ o.llO, u.Keys) (hpf : ∀ u ∈ o.pfO, u.Keys) :
    ∃ f : String → Dict,
      (∀ k, (f "likelihood").get k = chosen (styleB "likelihood") (o.llO.getD []) k) ∧
      (∀ k, (f "push-forward").get k = chosen (styleB "push-forward") (o.pfO.getD []) k) ∧
      BPD.plotObsSpaceKw pe acc S idx yr aff o = withKw f <$> BPD.plotObsSpace pe S idx yr aff o.llO.isSome o.pfO.isSome := by
  have hk : ∀ {o : Option Dict}, (∀ u ∈ o, u.Keys) → (o.getD []).Keys := fun {o} h => by
    cases o with
    | none => exact List.nodup_nil
    | some u => exact h u rfl
  have hfine : ∀ {o : Option Dict}, (∀ u ∈ o, u.Keys) → ∀ u ∈ o, u.Fine [] := fun h u hu => ⟨h u hu, by simp⟩
  let f : String → Dict := fun r =>
    if r = "likelihood" then BPD.lo.update (o.llO.getD []) else BPD.po.update (o.pfO.getD [])
  have f1 : f "likelihood" = BPD.lo.update (o.llO.getD []) := by simp [f]
  have f2 : f "push-forward" = BPD.po.update (o.pfO.getD []) := by simp [f]
  refine ⟨f, fun k => by rw [f1]; exact get_update _ _ (hk hll) k, fun k => by rw [f2]; exact get_update _ _ (hk hpf) k, ?_⟩
  clear_value f
  unfold BPD.plotObsSpaceKw BPD.plotObsSpace
  refine py_bind (withKw f) (withKw f) ?_ fun a => ?_
  · unfold BPD.likelihoodKw BPD.likelihoodCurve
    cases ho : o.llO with
    | none => rfl
    | some u =>
      simp only [Option.isSome_some, if_true]
      cases S.core.ll with
      | none => rfl
      | some _ =>
        cases S.llDist with
        | none => rfl
        | some d => exact drawKw_eq (o := some u) hacc (by simp) (ho ▸ hfine hll) (ho ▸ f1)
  refine py_bind (withKw f) (withKw f) (drawKw_eq hacc (by simp) (hfine hpf) f2) fun b => ?_
  simp [withKw_append]

end

open Dict

/-! ### Keywords that cannot be given, and the defaults -/

/-- An option with the name of an argument that the method passes itself (such as `ax` or `source`) is a `TypeError`. -/
theorem C152_reserved (env : Env) (pe : PlotEnv) (acc : Dict → Py Unit) (S : DPD) (idx : ℤ) (tv : Option (List ℝ)) (R : Arr2) (pad : ℝ) (aff : ℤ)
    (o : DPD.ParamOpts) {d : Dist} (hd : S.inDist = some d) {u : Dict} (hu : o.inO = some u) (hk : u.Keys) {k : String}
    (hk1 : k ∈ ["dist", "domain", "ax", "idx", "source", "aff"]) (hk2 : u.has k = true) :
    DPD.plotParamSpaceKw env pe acc idx tv (some R) pad aff o S = (.error .typeError, S) := by
  have hclash : noClash plotDistArgs (DPD.io.update u) = .error .typeError := by
    unfold noClash
    rw [raiseIf_true ⟨k, hk1, by rw [has_update _ _ hk, hk2, Bool.or_true]⟩]
  unfold DPD.plotParamSpaceKw
  have e : DPD.paramRange (some R) pad S = (.ok R, S) := rfl
  rw [PyM.bind_run, e]
  dsimp only
  rw [PyM.get_bind_run, hd]
  simp only [DPD.theDist, PyM.lift_ok_bind, hu, drawKw, hclash, Py.error_bind, PyM.lift_error_bind]
  rfl

/-- The defaults of the signature are accepted. -/
theorem defaults_fine : (∀ u ∈ ({} : DPD.ParamOpts).inO, u.Fine plotDistArgs) ∧ (∀ u ∈ ({} : DPD.ParamOpts).upO, u.Fine plotDistArgs) ∧
    (∀ u ∈ ({} : DPD.ParamOpts).winO, u.Fine plotDistArgs) ∧ (∀ u ∈ ({} : DPD.ParamOpts).mudO, u.Fine ["ax", "x_loc", "ylim"]) ∧
    (∀ u ∈ ({} : DPD.ParamOpts).trueO, u.Fine ["ax", "x_loc", "ylim"]) := by
  refine ⟨?_, ?_, ?_, ?_, ?_⟩ <;> rintro u ⟨⟩ <;> refine ⟨?_, ?_⟩ <;> simp [Dict.Keys, plotDistArgs, Dict.has]

/-- The default call of `plot_param_space`: the initial density solid blue, the update dash-dotted black, the MUD point
green, the true value dash-dotted red, all with formulas as labels and no line width. The documentation says dashed, width
4 and "Initial". -/
theorem C152_defaults (env : Env) (pe : PlotEnv) {acc : Dict → Py Unit} (hacc : ∀ kw, acc kw = .ok ()) (S : DPD) (idx : ℤ)
    (tv : Option (List ℝ)) (xr : Option Arr2) (pad : ℝ) (aff : ℤ) :
    ∃ f : String → Dict,
      (∀ k, (f "initial").get k =
        Dict.get [("color", .text "b"), ("linestyle", .text "-"), ("label", .text "$\\pi_\\mathrm{init}$")] k) ∧
      (∀ k, (f "update").get k =
        Dict.get [("color", .text "k"), ("linestyle", .text "-."), ("label", .text "$\\pi_\\mathrm{update}$")] k) ∧
      (∀ k, (f "mud").get k = Dict.get [("color", .text "g"), ("label", .text "$\\lambda^\\mathrm{MUD}$")] k) ∧
      (∀ k, (f "true").get k =
        Dict.get [("color", .text "r"), ("linestyle", .text "-."), ("label", .text "$\\lambda^{\\dagger}$")] k) ∧
      DPD.plotParamSpaceKw env pe acc idx tv xr pad aff {} S =
        withKwR f (DPD.plotParamSpace env pe idx tv xr pad aff true true false true true S) := by
  obtain ⟨h1, h2, h3, h4, h5⟩ := defaults_fine
  obtain ⟨f, g1, g2, -, g4, g5, hf⟩ := C152_param (pe := pe) hacc env S idx tv xr pad aff {} h1 h2 h3 h4 h5
  refine ⟨f, fun k => (g1 k).trans ?_, fun k => (g2 k).trans ?_, fun k => (g4 k).trans ?_, fun k => (g5 k).trans ?_, hf⟩
  all_goals
    unfold chosen
    simp only [styleD, Option.getD_some, get_cons, get_nil]
    split_ifs with a b c <;> first | rfl | (subst b; simp at c)

/-- The default call of `plot_obs_space`. -/
theorem C152_obs_defaults (pe : PlotEnv) {acc : Dict → Py Unit} (hacc : ∀ kw, acc kw = .ok ()) (S : DPD) (idx : ℤ)
    (yr : Option Arr2) (aff : ℤ) (yi : Bool) :
    ∃ f : String → Dict, (∀ r ∈ ["observed", "predicted", "push-forward"], ∀ k, (f r).get k = (styleD r).get k) ∧
      DPD.plotObsSpaceKw pe acc S idx yr aff {} yi = withKw f <$> DPD.plotObsSpace pe S idx yr aff true true true yi := by
  have h : ∀ u : Dict, u ∈ [DPD.oo, DPD.po, DPD.fo] → u.Fine plotDistArgs := by
    intro u hu
    simp only [List.mem_cons, List.not_mem_nil, or_false] at hu
    rcases hu with rfl | rfl | rfl <;> refine ⟨?_, ?_⟩ <;> simp [Dict.Keys, plotDistArgs, Dict.has, DPD.oo, DPD.po, DPD.fo]
  obtain ⟨f, h1, h2, h3, hf⟩ := C152_obs (pe := pe) hacc S idx yr aff {} yi
    (by rintro u ⟨⟩; exact h _ (by simp [DPD.oo])) (by rintro u ⟨⟩; exact h _ (by simp [DPD.po])) (by rintro u ⟨⟩; exact h _ (by simp [DPD.fo]))
  have dup : ∀ (d : Dict) k, chosen d d k = d.get k := by
    intro d k
    unfold chosen
    cases d.get k <;> rfl
  refine ⟨f, ?_, hf⟩
  intro r hr
  simp only [List.mem_cons, List.not_mem_nil, or_false] at hr
  rcases hr with rfl | rfl | rfl
  · exact fun k => (h1 k).trans (dup _ k)
  · exact fun k => (h2 k).trans (dup _ k)
  · exact fun k => (h3 k).trans (dup _ k)

/-- The default calls of `BayesProblem`. -/
theorem C152_bayes_defaults (pe : PlotEnv) {acc : Dict → Py Unit} (hacc : ∀ kw, acc kw = .ok ()) (S : BPD) (idx : ℤ)
    (xr : Option Arr2) (aff : ℤ) (tv : Option (List ℝ)) :
    ∃ f : String → Dict, (∀ r ∈ ["prior", "posterior", "map", "true"], ∀ k, (f r).get k = (styleB r).get k) ∧
      BPD.plotParamSpaceKw pe acc idx xr aff {} tv S = withKwR f (BPD.plotParamSpace pe idx xr aff true true true true tv S) := by
  have h1 : BPD.pro.Fine plotDistArgs := by refine ⟨?_, pro_free⟩; simp [Dict.Keys, BPD.pro]
  have h2 : BPD.pso.Fine plotDistArgs := by refine ⟨?_, pso_free⟩; simp [Dict.Keys, BPD.pso]
  have h3 : BPD.mo.Fine ["ax", "x_loc"] := by refine ⟨?_, ?_⟩ <;> simp [Dict.Keys, BPD.mo, Dict.has]
  have h4 : BPD.tro.Fine ["ax", "x_loc"] := by refine ⟨?_, ?_⟩ <;> simp [Dict.Keys, BPD.tro, Dict.has]
  obtain ⟨f, g1, g2, g3, g4, hf⟩ := C152_bayes_param (pe := pe) hacc S idx xr aff {} tv
    (by rintro u ⟨⟩; exact h1) (by rintro u ⟨⟩; exact h2) (by rintro u ⟨⟩; exact h3) (by rintro u ⟨⟩; exact h4)
  have dup : ∀ (d : Dict) k, chosen d d k = d.get k := by
    intro d k
    unfold chosen
    cases d.get k <;> rfl
  refine ⟨f, ?_, hf⟩
  intro r hr
  simp only [List.mem_cons, List.not_mem_nil, or_false] at hr
  have ny : ∀ d : Dict, d.get "ylim" = none → ∀ k, (if k = "ylim" then none else chosen d d k) = d.get k := by
    intro d hd k
    split_ifs with hk
    · rw [hk, hd]
    · exact dup d k
  rcases hr with rfl | rfl | rfl | rfl
  · exact fun k => (g1 k).trans (dup _ k)
  · exact fun k => (g2 k).trans (dup _ k)
  · exact fun k => (g3 k).trans (ny _ (by simp [styleB, Dict.get]) k)
  · exact fun k => (g4 k).trans (ny _ (by simp [styleB, Dict.get]) k)

/-- The default call of `plot_obs_space` of `BayesProblem`. -/
theorem C152_bayes_obs_defaults (pe : PlotEnv) {acc : Dict → Py Unit} (hacc : ∀ kw, acc kw = .ok ()) (S : BPD) (idx : ℤ)
    (yr : Option Arr2) (aff : ℤ) :
    ∃ f : String → Dict, (∀ r ∈ ["likelihood", "push-forward"], ∀ k, (f r).get k = (styleB r).get k) ∧
      BPD.plotObsSpaceKw pe acc S idx yr aff {} = withKw f <$> BPD.plotObsSpace pe S idx yr aff true true := by
  obtain ⟨f, g1, g2, hf⟩ := C152_bayes_obs (pe := pe) hacc S idx yr aff {}
    (by rintro u ⟨⟩; simp [Dict.Keys]) (by rintro u ⟨⟩; simp [Dict.Keys])
  have dup : ∀ (d : Dict) k, chosen d d k = d.get k := by
    intro d k
    unfold chosen
    cases d.get k <;> rfl
  refine ⟨f, ?_, hf⟩
  intro r hr
  simp only [List.mem_cons, List.not_mem_nil, or_false] at hr
  rcases hr with rfl | rfl
  · exact fun k => (g1 k).trans (dup _ k)
  · exact fun k => (g2 k).trans (dup _ k)

/-! ### The claim -/

/-- The full claim C152 for the space of the data: a curve whose options are not `None` is drawn. -/
def C152_claim : Prop :=
  ∀ (pe : PlotEnv) (acc : Dict → Py Unit) (S : DPD) (idx : ℤ) (yr : Option Arr2) (aff : ℤ) (o : DPD.ObsOpts) (l : List Drawn),
    (∀ kw, acc kw = .ok ()) → DPD.plotObsSpaceKw pe acc S idx yr aff o = .ok l → o.obO ≠ none →
    ∃ x ∈ l, x.item.role = "observed"

/-- **C152 is false of the code**: the empty dictionary (defaults wanted) suppresses the curve. -/
theorem C152_claim_refuted : ¬ C152_claim := by
  intro h
  have := h ⟨fun _ _ _ _ _ => .ok (), fun _ => true⟩ (fun _ => .ok ()) { core := demoP, obDist := some stdNormal } 0
    (some ⟨demoP.n_features, 2, 0⟩) 100 ⟨some [], none, none⟩ [] (fun _ => rfl) (by
      unfold DPD.plotObsSpaceKw
      simp only [DPD.obsRange, Py.ok_bind]
      rw [raiseIf_false (by simp)]
      rfl) (by simp)
  obtain ⟨x, hx, -⟩ := this
  cases hx

/-- What holds: a non-empty dictionary draws the curve. -/
theorem C152_nonempty_partial (pe : PlotEnv) {acc : Dict → Py Unit} (hacc : ∀ kw, acc kw = .ok ()) (S : DPD) (idx : ℤ) (yr : Option Arr2)
    (aff : ℤ) (o : DPD.ObsOpts) (yi : Bool) {l : List Drawn} (h : DPD.plotObsSpaceKw pe acc S idx yr aff o yi = .ok l)
    {p : String × OptVal} {u : Dict} (ho : o.obO = some (p :: u)) (hob : Dict.Fine plotDistArgs (p :: u))
    (hpr : ∀ u ∈ o.prO, u.Fine plotDistArgs) (hpf : ∀ u ∈ o.pfO, u.Fine plotDistArgs) :
    ∃ x ∈ l, ∃ d, S.obDist = some d ∧ x.item = .curve "observed" (.ofDist d) ∧ ∀ k, x.kw.get k = chosen (styleD "observed") (p :: u) k := by
  obtain ⟨f, h1, -, -, hf⟩ := C152_obs (pe := pe) hacc S idx yr aff o yi (by rw [ho]; rintro _ ⟨⟩; exact hob) hpr hpf
  rw [hf] at h
  unfold DPD.plotObsSpace at h
  obtain ⟨l', hl', rfl⟩ : ∃ l', DPD.plotObsSpace pe S idx yr aff (o.obO.isSome && !(o.obO.getD []).isEmpty)
          (o.prO.isSome && !(o.prO.getD []).isEmpty) (o.pfO.isSome && !(o.pfO.getD []).isEmpty) yi = .ok l' ∧ withKw f l' = l := by
    change withKw f <$> DPD.plotObsSpace pe S idx yr aff _ _ _ yi = _ at h
    revert h
    cases DPD.plotObsSpace pe S idx yr aff _ _ _ yi with
    | error e => intro h; cases h
    | ok l' => intro h; cases h; exact ⟨l', rfl, rfl⟩
  unfold DPD.plotObsSpace at hl'
  obtain ⟨rng, -, hl'⟩ := Py.bind_eq_ok.1 hl'
  obtain ⟨_, -, hl'⟩ := Py.bind_eq_ok.1 hl'
  obtain ⟨d, hd, hl'⟩ := Py.bind_eq_ok.1 hl'
  obtain ⟨a, ha, hl'⟩ := Py.bind_eq_ok.1 hl'
  obtain ⟨b, -, hl'⟩ := Py.bind_eq_ok.1 hl'
  obtain ⟨c, -, hl'⟩ := Py.bind_eq_ok.1 hl'
  cases hl'
  have hd' : S.obDist = some d := by
    revert hd
    cases S.obDist with
    | none => intro hd; cases hd
    | some d' => intro hd; cases hd; rfl
  rw [ho] at ha
  obtain ⟨_, -, ha⟩ := Py.bind_eq_ok.1 ha
  cases ha
  refine ⟨⟨.curve "observed" (.ofDist d), f "observed"⟩, ?_, d, hd', rfl, fun k => by rw [h1, ho]; rfl⟩
  simp [withKw, Item.role]

/-! ## `plot_ts` -/

section

open ND STP

theorem mapM_kw {α β : Type} (g : ℕ → Py α) (h : ℕ → β) (l : List ℕ) (s : ℕ) :
    ((l.zipIdx s).mapM fun p => do let x ← g p.2; return (x, h p.2)) =
      (fun r : List α => (r.zipIdx s).map fun p => (p.1, h p.2)) <$> (l.zipIdx s).mapM fun p => g p.2 := by
  induction l generalizing s with
  | nil => rfl
  | cons a l ih =>
    rw [List.zipIdx_cons, List.mapM_cons, List.mapM_cons, ih]
    cases g s with
    | error e => rfl
    | ok x =>
      simp only [Py.ok_bind, Py.pure_eq]
      cases (l.zipIdx (s + 1)).mapM fun p => g p.2 with
      | error e => rfl
      | ok r => rfl

theorem mapM_length {α : Type} (g : ℕ → Py α) (l : List ℕ) (s : ℕ) {r : List α}
    (h : ((l.zipIdx s).mapM fun p => g p.2) = .ok r) : r.length = l.length := by
  induction l generalizing s r with
  | nil => cases h; rfl
  | cons a l ih =>
    rw [List.zipIdx_cons, List.mapM_cons] at h
    obtain ⟨x, -, h⟩ := Py.bind_eq_ok.1 h
    obtain ⟨r', hr', h⟩ := Py.bind_eq_ok.1 h
    cases h
    simp [ih _ hr']

theorem plotTsKw_eq (choice : ℕ → ℕ → List ℕ) (hch : ∀ n k, (choice n k).length = k) (P : STP) (sensor : String)
    (ms mt mx : Option Mask) (mp : ℤ) (mk sk : Dict) (alpha : ℝ) :
    P.plotTsKw choice sensor ms mt mx mp mk sk alpha =
      (fun fig : TsFigure => (⟨(fig.measured, measBase.update mk), fig.series.zipIdx.map fun p =>
        (p.1, lineKw sensor alpha sk fig.series.length p.2)⟩ : TsDrawn)) <$> P.plotTs choice ms mt mx mp := by
  unfold STP.plotTsKw STP.plotTs
  cases P.sampleData ms mt mx with
  | error e => rfl
  | ok s =>
    simp only [Py.ok_bind]
    cases s.data.dim 0 with
    | error e => rfl
    | ok n =>
      simp only [Py.ok_bind]
      cases scatterTs s.times s.meas with
      | error e => rfl
      | ok pts =>
        simp only [Py.ok_bind]
        generalize hK : (if mp > n then (n : ℤ) else mp) = K
        by_cases hneg : K < 0
        · rw [raiseIf_true hneg]
          rfl
        · rw [raiseIf_false hneg]
          simp only [Py.ok_bind]
          rw [mapM_kw (fun i => lineTs s.times s.data i) (fun i => lineKw sensor alpha sk K i)]
          cases hr : (choice n K.toNat).zipIdx.mapM fun p => lineTs s.times s.data p.2 with
          | error e => rfl
          | ok r =>
            have hl := mapM_length (fun i => lineTs s.times s.data i) _ _ hr
            rw [hch] at hl
            have : ((r.length : ℕ) : ℤ) = K := by omega
            simp [this]

/-- **C153.** What `plot_ts` draws (C98) with keywords: the measured points with the caller's options and the defaults
for the others, every simulated series but the last likewise; the last one is red, solid, with the given `alpha` and the
label of the sensor, whatever the options of the caller. -/
theorem C153_exact (choice : ℕ → ℕ → List ℕ) (hch : ∀ n k, (choice n k).length = k) (P : STP) (sensor : String)
    (ms mt mx : Option Mask) (mp : ℤ) {mk sk : Dict} (hmk : mk.Keys) (hsk : sk.Keys) (alpha : ℝ) {fig : TsFigure}
    (h : P.plotTs choice ms mt mx mp = .ok fig) :
    ∃ out, P.plotTsKw choice sensor ms mt mx mp mk sk alpha = .ok out ∧
      out.measured.1 = fig.measured ∧ (∀ k, out.measured.2.get k = chosen styleMeasured mk k) ∧
      out.series.map (·.1) = fig.series ∧
      ∀ i (hi : i < out.series.length),
        (i + 1 < out.series.length → ∀ k, out.series[i].2.get k = chosen styleSeries sk k) ∧
        (i + 1 = out.series.length →
          out.series[i].2 = [("fmt", .text "r-"), ("alpha", .num alpha), ("label", .text ("Sensor " ++ sensor))]) := by
  rw [plotTsKw_eq choice hch, h]
  refine ⟨_, rfl, rfl, fun k => get_update _ _ hmk k, ?_, ?_⟩
  · simp [List.map_map, Function.comp_def, List.zipIdx_map_fst]
  · intro i hi
    simp only [List.length_map, List.length_zipIdx] at hi ⊢
    constructor
    · intro h1 k
      simp only [List.getElem_map, List.getElem_zipIdx, lineKw]
      rw [if_pos (by omega)]
      exact get_update _ _ hsk k
    · intro h1
      simp only [List.getElem_map, List.getElem_zipIdx, lineKw]
      rw [if_neg (by omega)]

/-- If `plot_ts` raises, it raises the same error whatever the options (that matplotlib accepts). -/
theorem C153_error (choice : ℕ → ℕ → List ℕ) (hch : ∀ n k, (choice n k).length = k) (P : STP) (sensor : String)
    (ms mt mx : Option Mask) (mp : ℤ) (mk sk : Dict) (alpha : ℝ) {e : Err} (h : P.plotTs choice ms mt mx mp = .error e) :
    P.plotTsKw choice sensor ms mt mx mp mk sk alpha = .error e := by
  rw [plotTsKw_eq choice hch, h]
  rfl

/-- The full claim C153: the colour the caller chooses for the simulated series is that of all of them. -/
def C153_claim : Prop :=
  ∀ (choice : ℕ → ℕ → List ℕ) (P : STP) (sensor : String) (ms mt mx : Option Mask) (mp : ℤ) (mk sk : Dict) (alpha : ℝ)
    (out : TsDrawn) (v : OptVal), IsChoice choice → mk.Keys → sk.Keys → sk.get "color" = some v →
    P.plotTsKw choice sensor ms mt mx mp mk sk alpha = .ok out → ∀ l ∈ out.series, l.2.get "color" = some v

/-- **C153 is false of the code**: the last series. -/
theorem C153_claim_refuted : ¬ C153_claim := by
  intro h
  have hch : IsChoice fun n k => List.replicate k (n - 1) := ⟨by simp, fun n k hn i hi => by
      have := List.eq_of_mem_replicate hi
      omega⟩
  have e := C98_exact demoST_ready (fun n k => List.replicate k (n - 1)) (by simp) (ms := none) (mt := none)
    (fun _ h => by cases h)
    (fun _ h => by cases h) (a := List.range 3) (b := List.range 3) rfl rfl (c := 0) (k := 0) (by norm_num)
    (.inl rfl) (by simp) rfl rfl rfl 2
  obtain ⟨out, ho, -, -, h3, h4⟩ := C153_exact _ hch.1 demoST "0" none none (some (.int 0)) 2 (mk := [])
    (sk := [("color", .text "b")]) List.nodup_nil (List.nodup_singleton _) 0.1 e
  have hl : out.series.length = 2 := by
    rw [← List.length_map (f := (·.1)), h3]
    simp
  have h5 := (h4 1 (by omega)).2 hl.symm
  have := h _ demoST "0" none none (some (.int 0)) 2 [] [("color", .text "b")] 0.1 out (.text "b") hch List.nodup_nil (List.nodup_singleton _) rfl ho out.series[1] (List.getElem_mem _)
  rw [h5] at this
  cases this

end

/-! ## `plot_sol` -/

/-- **C154.** `plot_sol` draws what C78 says. The markers get the caller's options except that their `label` is always the
name of the point; the caller's dictionary itself is changed in this way (also if it is shared with the line or the
annotation, or is the default argument), every other dictionary is left. -/
theorem C154_exact (ptRef annRef : ℕ) (lnRef : Option ℕ) (point : String) (label : Option String) (note_loc : Option (ℝ × ℝ))
    (P P' : LGP) (H : DictHeap) {s : SolPlot} (h : LGP.plotSol point lnRef.isSome P = (.ok s, P')) :
    ∃ out H', LGP.plotSolKw ptRef annRef lnRef point label note_loc (P, H) = (.ok out, (P', H')) ∧
      out.markers.1 = s.markers ∧ out.line.map (·.1) = s.line ∧ (∀ l ∈ out.line, ∃ r ∈ lnRef, l.2 = H' r) ∧
      out.markers.2 = H' ptRef ∧ (∀ n ∈ out.note, n.2.2 = H' annRef) ∧ out.note.map (·.1) = label ∧
      (∀ n ∈ out.note, match note_loc with
        | none => n.2.1.1.zip n.2.1.2 = s.markers.map fun p => (p.1 - 0.02, p.2 + 0.02)
        | some q => n.2.1 = ([q.1], [q.2])) ∧
      (H' ptRef).get "label" = some (.text point) ∧
      (∀ r k, r ≠ ptRef ∨ k ≠ "label" → (H' r).get k = (H r).get k) ∧ ∀ r ≠ ptRef, H' r = H r := by
  unfold LGP.plotSol at h
  rw [PyM.bind_run] at h
  rcases hp : LGP.plotPt point lnRef.isSome P with ⟨pt, Q⟩
  rw [hp] at h
  cases pt with
  | error e => cases h
  | ok pt =>
    dsimp only at h
    rw [PyM.bind_run] at h
    cases hx : pt.rowList 0 with
    | error e => rw [hx] at h; cases h
    | ok xs =>
      rw [hx, PyM.lift_run] at h
      dsimp only at h
      rw [PyM.bind_run] at h
      cases hy : pt.rowList 1 with
      | error e => rw [hy] at h; cases h
      | ok ys =>
        rw [hy, PyM.lift_run] at h
        dsimp only at h
        rw [PyM.get_bind_run] at h
        cases hl : LGP.plotLine point lnRef.isSome Q pt with
        | error e => rw [hl] at h; cases h
        | ok line =>
          rw [hl, PyM.lift_ok_bind] at h
          cases h
          refine ⟨⟨(List.zip xs ys, H.put ptRef "label" (.text point) ptRef),
            line.bind fun l => lnRef.map fun r => (l, H.put ptRef "label" (.text point) r),
            LGP.noteOf (H.put ptRef "label" (.text point) annRef) xs ys note_loc label⟩,
            H.put ptRef "label" (.text point), ?_, rfl, ?_, ?_, rfl, ?_, ?_, ?_, ?_, ?_, ?_⟩
          · unfold LGP.plotSolKw
            rw [PyM.bind_run, LGP.onHeap]
            dsimp only
            rw [hp]
            dsimp only
            rw [PyM.modify_bind_run, hx, PyM.lift_ok_bind, hy, PyM.lift_ok_bind, PyM.get_bind_run]
            dsimp only
            rw [hl, PyM.lift_ok_bind]
            rfl
          · cases line with
            | none => rfl
            | some l =>
              cases lnRef with
              | none =>
                unfold LGP.plotLine at hl
                simp at hl
              | some r => rfl
          · intro l hl'
            cases line with
            | none => cases hl'
            | some l0 =>
              cases lnRef with
              | none => cases hl'
              | some r =>
                cases hl'
                exact ⟨r, rfl, rfl⟩
          · intro n hn
            unfold LGP.noteOf at hn
            cases label with
            | none => cases hn
            | some l => cases hn; rfl
          · cases label <;> rfl
          · intro n hn
            unfold LGP.noteOf at hn
            cases label with
            | none => cases hn
            | some l =>
              cases hn
              cases note_loc with
              | none => exact List.zip_map ..
              | some q => rfl
          · simp [DictHeap.put, get_set]
          · intro r k hrk
            unfold DictHeap.put
            by_cases hr : r = ptRef
            · rw [if_pos hr, get_set, if_neg (hrk.resolve_left (fun h => h hr))]
            · rw [if_neg hr]
          · intro r hr
            simp [DictHeap.put, hr]

/-- The full claim C154: the marker is labelled as the caller wants, and the caller's dictionaries are left alone. -/
def C154_claim : Prop :=
  ∀ (ptRef annRef : ℕ) (lnRef : Option ℕ) (point : String) (label : Option String) (note_loc : Option (ℝ × ℝ)) (P P' : LGP)
    (H H' : DictHeap) (out : SolDrawn), LGP.plotSolKw ptRef annRef lnRef point label note_loc (P, H) = (.ok out, (P', H')) →
    (∀ v, (H ptRef).get "label" = some v → out.markers.2.get "label" = some v) ∧ ∀ r, H' r = H r

/-- **C154 is false of the code**, for every problem and every point that can be drawn. -/
theorem C154_refuted (ptRef annRef : ℕ) (lnRef : Option ℕ) (point : String) (label : Option String) (note_loc : Option (ℝ × ℝ))
    (P P' : LGP) {s : SolPlot} (h : LGP.plotSol point lnRef.isSome P = (.ok s, P')) (H : DictHeap) {v : String} (hv : v ≠ point)
    (hH : (H ptRef).get "label" = some (.text v)) :
    ∃ out H', LGP.plotSolKw ptRef annRef lnRef point label note_loc (P, H) = (.ok out, (P', H')) ∧
      out.markers.2.get "label" = some (.text point) ∧ H' ptRef ≠ H ptRef := by
  obtain ⟨out, H', h1, -, -, -, h5, -, -, -, h8, -⟩ := C154_exact ptRef annRef lnRef point label note_loc P P' H h
  refine ⟨out, H', h1, by rw [h5, h8], fun e => ?_⟩
  rw [e, hH] at h8
  exact hv (by injection h8 with h8; injection h8)

theorem C154_claim_refuted : ¬ C154_claim := by
  intro h
  obtain ⟨P, -, hP⟩ := C78_initial (d := 1) (p := 0) (fun _ _ => 1) 0 0 0 1 1 1 true
  obtain ⟨out, H', h1, h2, -⟩ := C154_refuted 0 1 (some 2) "initial" none none P P hP
    (fun _ => [("label", .text "start")]) (v := "start") (by decide) rfl
  have := (h _ _ _ _ _ _ _ _ _ _ _ h1).1 (.text "start") rfl
  rw [h2] at this
  simp at this

/-- Any sequence of calls of `plot_sol` (on any problems, exceptions caught) changes no dictionary but those passed as
`pt_opts`, and these only in the label. -/
theorem C154_calls (calls : List (LGP × ℕ × ℕ × Option ℕ × String × Option String × Option (ℝ × ℝ))) (H : DictHeap) :
    let H' := calls.foldl (fun H c => (LGP.plotSolKw c.2.1 c.2.2.1 c.2.2.2.1 c.2.2.2.2.1 c.2.2.2.2.2.1 c.2.2.2.2.2.2 (c.1, H)).2.2) H
    ∀ r k, (∀ c ∈ calls, r ≠ c.2.1) ∨ k ≠ "label" → (H' r).get k = (H r).get k := by
  induction calls generalizing H with
  | nil => intro H' r k _; rfl
  | cons c calls ih =>
    intro H' r k hrk
    have step : ∀ (P : LGP) (H : DictHeap) (a b : ℕ) (l : Option ℕ) (p : String) (lb : Option String) (n : Option (ℝ × ℝ)),
        (LGP.plotSolKw a b l p lb n (P, H)).2.2 = H ∨ (LGP.plotSolKw a b l p lb n (P, H)).2.2 = H.put a "label" (.text p) := by
      intro P H a b l p lb n
      unfold LGP.plotSolKw
      rw [PyM.bind_run, LGP.onHeap]
      dsimp only
      rcases LGP.plotPt p l.isSome P with ⟨pt, Q⟩
      cases pt with
      | error e => exact .inl rfl
      | ok pt =>
        right
        dsimp only
        rw [PyM.modify_bind_run]
        cases pt.rowList 0 with
        | error e => rfl
        | ok xs =>
          rw [PyM.lift_ok_bind]
          cases pt.rowList 1 with
          | error e => rfl
          | ok ys =>
            rw [PyM.lift_ok_bind, PyM.get_bind_run]
            dsimp only
            cases LGP.plotLine p l.isSome Q pt with
            | error e => rfl
            | ok line => rfl
    have h2 := ih ((LGP.plotSolKw c.2.1 c.2.2.1 c.2.2.2.1 c.2.2.2.2.1 c.2.2.2.2.2.1 c.2.2.2.2.2.2 (c.1, H)).2.2) r k
      (hrk.imp (fun h c hc => h c (List.mem_cons_of_mem _ hc)) id)
    refine h2.trans ?_
    rcases step c.1 H c.2.1 c.2.2.1 c.2.2.2.1 c.2.2.2.2.1 c.2.2.2.2.2.1 c.2.2.2.2.2.2 with e | e
    · rw [e]
    · rw [e]
      unfold DictHeap.put
      by_cases hr : r = c.2.1
      · rw [if_pos hr, get_set, if_neg (hrk.resolve_left fun h => h c List.mem_cons_self hr)]
      · rw [if_neg hr]

/-! ## `plot_contours` -/

/-- **C155.** If matplotlib accepts the options, every contour (C124) is drawn with them, and is annotated if wanted: with
the number of the row, at the given place or at the start of the line. -/
theorem C155_exact {acc : Dict → Py Unit} (fmt : String → ℕ → String) (svd1 : (Fin 2 → ℝ) → SvdOut 1 2) (w : ℝ) (annotate : Bool)
    (note_loc : Option (ℝ × ℝ)) (label : String) (opts ann : Dict) (hacc : acc opts = .ok ()) (P P' : LGP)
    {l : List ((ℝ × ℝ) × (ℝ × ℝ))} (h : Contours.solContours svd1 w P = (.ok l, P')) :
    ∃ out, contoursKw acc fmt svd1 w annotate note_loc label opts ann P = (.ok out, P') ∧ out.map (·.seg) = l ∧
      (∀ x ∈ out, x.kw = opts) ∧
      ∀ i (hi : i < out.length), out[i].note =
        if annotate then some (fmt label (i + 1), note_loc.getD out[i].seg.1, ann) else none := by
  refine ⟨l.zipIdx.map fun p => ⟨p.1, opts,
    if annotate then some (fmt label (p.2 + 1), note_loc.getD p.1.1, ann) else none⟩, ?_, ?_, ?_, ?_⟩
  · unfold contoursKw
    rw [PyM.bind_run, h]
    dsimp only
    rw [PyM.lift_run]
    congr 1
    generalize 0 = s
    clear h
    induction l generalizing s with
    | nil => rfl
    | cons a l ih =>
      rw [List.zipIdx_cons, List.mapM_cons, ih]
      simp [hacc]
  · simp [List.map_map, Function.comp_def, List.zipIdx_map_fst]
  · intro x hx
    obtain ⟨p, -, rfl⟩ := List.mem_map.1 hx
    rfl
  · intro i hi
    simp

/-- **C155, refuted part.** Matplotlib's lines have no property `fs`, so with the default options `plot_contours` raises
`AttributeError` whenever there is a contour to draw. -/
theorem C155_default_raises {acc : Dict → Py Unit} (hacc : ∀ kw : Dict, kw.has "fs" = true → acc kw = .error .attributeError)
    (fmt : String → ℕ → String) (svd1 : (Fin 2 → ℝ) → SvdOut 1 2) (w : ℝ) (annotate : Bool)
    (note_loc : Option (ℝ × ℝ)) (label : String) (P P' : LGP) {x : (ℝ × ℝ) × (ℝ × ℝ)}
    {l : List ((ℝ × ℝ) × (ℝ × ℝ))} (h : Contours.solContours svd1 w P = (.ok (x :: l), P')) :
    contoursKw acc fmt svd1 w annotate note_loc label contourOpts [("fontsize", .num 20)] P = (.error .attributeError, P') := by
  unfold contoursKw
  rw [PyM.bind_run, h]
  dsimp only
  rw [PyM.lift_run, List.zipIdx_cons, List.mapM_cons, hacc contourOpts (by simp [contourOpts, Dict.has])]
  rfl

/-- A problem with one observation and two parameters, and a decomposition: what the theorems on contours need. -/
theorem contour_problem : ∃ (svd1 : (Fin 2 → ℝ) → SvdOut 1 2) (P : LGP) (x : (ℝ × ℝ) × (ℝ × ℝ)),
    (∀ r, IsSvd (.of fun _ => r) (svd1 r)) ∧ Contours.solContours svd1 1 P = (.ok [x], P) := by
  have h : ∀ r : Fin 2 → ℝ, ∃ o, IsSvd (.of fun _ => r : Matrix (Fin 1) (Fin 2) ℝ) o := fun r => exists_isSvd _
  choose svd1 hsvd using h
  have hS : ((1 : ℝ) • (1 : Matrix (Fin 2) (Fin 2) ℝ)).PosDef := by rw [one_smul]; exact Matrix.PosDef.one
  have hC : (1 : Matrix (Fin 1) (Fin 1) ℝ).PosDef := Matrix.PosDef.one
  obtain ⟨l, hl, -⟩ := Contours.lines_solved (A := fun _ _ => 1) (b := 0) (y := 0) (m := 0) (S := 1) (C := 1) (α := 1)
    (fun h => by simpa using congrFun (congrFun h 0) 0) (posDef_det_ne hC) (posDef_det_ne hS)
    (posDef_det_ne (map_posDef hS hC)) hsvd
  exact ⟨svd1, _, l, hsvd, hl⟩

/-- The full claim C155: with the default options the contours are drawn. -/
def C155_claim : Prop :=
  ∀ (acc : Dict → Py Unit) (fmt : String → ℕ → String) (svd1 : (Fin 2 → ℝ) → SvdOut 1 2) (P P' : LGP)
    (l : List ((ℝ × ℝ) × (ℝ × ℝ))), (∀ r, IsSvd (.of fun _ => r) (svd1 r)) →
    (∀ kw : Dict, acc kw = if kw.has "fs" then .error .attributeError else .ok ()) →
    Contours.solContours svd1 1 P = (.ok l, P') → ∃ out, (contoursKw acc fmt svd1) P = (.ok out, P')

/-- **C155 is false of the code** (with matplotlib, whose lines have no property `fs`). -/
theorem C155_claim_refuted : ¬ C155_claim := by
  intro h
  obtain ⟨svd1, P, x, hsvd, hl⟩ := contour_problem
  obtain ⟨out, ho⟩ := h (fun kw => if kw.has "fs" then .error .attributeError else .ok ()) (fun l _ => l) svd1 P P [x] hsvd
    (fun _ => rfl) hl
  rw [C155_default_raises (by intro kw hk; simp [hk]) _ svd1 1 false none "{i}" P P hl] at ho
  cases ho

/-- C155: with `plot_opts={"color": "r"}`, as in `run_contours`, and an annotation. -/
example : ∃ svd1 P x out, contoursKw (fun kw => if kw.has "fs" then .error .attributeError else .ok ()) (fun _ n => toString n) svd1 1 true
    none "{i}" [("color", .text "r")] [] P = (.ok out, P) ∧ out.map (·.seg) = [x] ∧ out.map (·.note) = [some ("1", x.1, [])] := by
  obtain ⟨svd1, P, x, -, hl⟩ := contour_problem
  obtain ⟨out, ho, h1, -, h3⟩ := C155_exact (acc := fun kw => if kw.has "fs" then .error .attributeError else .ok ()) (fun _ n => toString n)
    svd1 1 true none "{i}" [("color", .text "r")] [] rfl P P hl
  refine ⟨svd1, P, x, out, ho, h1, ?_⟩
  have hl1 : out.length = 1 := by rw [← List.length_map (f := (·.seg)), h1]; rfl
  obtain ⟨y, rfl⟩ := List.length_eq_one_iff.1 hl1
  have h4 := h3 0 (by simp)
  simp only [List.map_cons, List.map_nil, List.cons.injEq, and_true] at h1 ⊢
  subst h1
  exact h4

/-- C152: the initial density of the concrete problem in green, the other defaults kept; nothing else is drawn. -/
example (env : Env) (d : Dist) : ∃ kw : Dict,
    (DPD.plotParamSpaceKw env ⟨fun _ _ _ _ _ => .ok (), fun _ => true⟩ (fun _ => .ok ()) 0 none (some ⟨1, 2, 0⟩) 0.05 100
      ⟨some [("color", .text "g")], none, none, none, none⟩ { core := demoP, inDist := some d }).1 =
      .ok [⟨.curve "initial" (.ofDist d), kw⟩] ∧
    kw.get "color" = some (.text "g") ∧ kw.get "linestyle" = some (.text "--") := by
  obtain ⟨f, h1, -, -, -, -, h6⟩ := C152_param (pe := ⟨fun _ _ _ _ _ => .ok (), fun _ => true⟩) (acc := fun _ => .ok ()) (fun _ => rfl) env
    { core := demoP, inDist := some d } 0 none (some ⟨1, 2, 0⟩) 0.05 100 ⟨some [("color", .text "g")], none, none, none, none⟩
    (by rintro u ⟨⟩; exact ⟨List.nodup_singleton _, by simp [plotDistArgs, Dict.has]⟩) (by rintro u ⟨⟩) (by rintro u ⟨⟩) (by rintro u ⟨⟩)
    (by rintro u ⟨⟩)
  refine ⟨f "initial", by rw [h6]; rfl, by rw [h1]; rfl, by rw [h1]; rfl⟩

end Verif
