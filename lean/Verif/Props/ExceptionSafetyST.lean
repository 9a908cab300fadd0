import Verif.Props.ExceptionSafety
import Verif.Props.STLoad2

/-!
# C158, C159: assignments and loading that fail, and loading again (`SpatioTemporalProblem`)
-/

namespace Verif

open ND SpecST STP

/-- A call that raises leaves the object as it was. -/
def Safe {σ α : Type} (x : PyM σ α) : Prop := ∀ S e, (x S).1 = .error e → (x S).2 = S

theorem safe_lift {σ α : Type} (x : Py α) : Safe (PyM.lift x : PyM σ α) := fun _ _ _ => rfl

theorem safe_throw {σ α : Type} (e : Err) : Safe (PyM.throw e : PyM σ α) := fun _ _ _ => rfl

theorem safe_modify {σ : Type} (f : σ → σ) : Safe (PyM.modify f) := fun _ _ h => by cases h

theorem safe_pure {σ α : Type} (a : α) : Safe (pure a : PyM σ α) := fun _ _ h => by cases h

theorem safe_bind_lift {σ α β : Type} {x : Py α} {f : α → PyM σ β} (h : ∀ a, Safe (f a)) :
    Safe (PyM.lift x >>= f) := by
  cases x with
  | error e => exact safe_throw e
  | ok a => exact h a

theorem safe_get {σ β : Type} {f : σ → PyM σ β} (h : ∀ s, Safe (f s)) : Safe (PyM.get >>= f) :=
  fun S e he => h S S e he

theorem safe_then {σ α β : Type} {x : PyM σ α} {f : α → PyM σ β} (h : Safe x)
    (hf : ∀ a S e, (f a S).1 ≠ .error e) : Safe (x >>= f) := by
  intro S e he
  have h1 := h S
  rw [PyM.bind_run] at he ⊢
  rcases hx : x S with ⟨r, S'⟩
  rw [hx] at he h1
  cases r with
  | error e' => exact h1 e' rfl
  | ok a => exact absurd he (hf a S' e)

theorem safe_setDomain (a : ND) : Safe (setDomain a) :=
  safe_bind_lift fun _ => safe_get fun _ => safe_bind_lift fun _ => safe_modify _

theorem safe_setSampleDist (d : String) : Safe (setSampleDist d) :=
  safe_bind_lift fun _ => safe_modify _

theorem safe_lamDomain (lam : ND) (d : Option ND) : Safe (lamDomain lam d) := by
  cases d with
  | some D => exact safe_bind_lift fun _ => safe_bind_lift fun _ => safe_lift _
  | none => exact safe_bind_lift fun mm => safe_setDomain mm

theorem safe_setLam (a : ND) : Safe (setLam a) := by
  refine safe_get fun P => safe_then (safe_lamDomain _ _) ?_
  intro _ S e h
  obtain ⟨d, hd⟩ := setLam_tail (asColumn a) S
  rw [hd] at h
  cases h

theorem safe_setLamRef (a : ND) : Safe (setLamRef a) :=
  safe_get fun _ => safe_bind_lift fun _ => safe_bind_lift fun _ => safe_modify _

theorem safe_setMeasurements (a : ND) : Safe (setMeasurements a) :=
  safe_get fun _ => safe_bind_lift fun _ => safe_bind_lift fun _ => safe_modify _

theorem safe_setTrueVals (a : ND) : Safe (setTrueVals a) :=
  safe_get fun _ => safe_bind_lift fun _ => safe_bind_lift fun _ => safe_modify _

/-- **C158**: an assignment to an attribute that raises changes nothing, with one exception. -/
theorem C158_assign_partial (f : String) (v : Val) (hf : f ≠ "data") (P : STP) (e : Err)
    (he : (setAttr f v P).1 = .error e) : (setAttr f v P).2 = P := by
  have : Safe (setAttr f v) := by
    unfold setAttr
    repeat' split
    all_goals first
      | exact safe_throw _ | exact safe_modify _ | exact safe_pure _
      | exact safe_setSampleDist _ | exact safe_setDomain _ | exact safe_setLamRef _
      | exact safe_setTrueVals _ | exact safe_setMeasurements _ | exact safe_setLam _
  exact this P e he

/-- **C158**, the exception: assigning `data` raises without effect, unless the array has no
dimension and neither `sensors` nor `times` is set: then `sensors` has become `[0]`. -/
theorem C158_data_exact (a : ND) (P : STP) (e : Err) (he : (setData a P).1 = .error e) :
    (setData a P).2 =
      if a.shape = [] ∧ P.sensors = none ∧ P.times = none then { P with sensors := some zero1 }
      else P := by
  have hrest : ∀ k D, Safe (PyM.get >>= fun P : STP => PyM.lift (layout k P.sensors P.times) >>=
      fun st => PyM.modify fun s =>
        { s with sensors := some st.1, times := some st.2, data := some D }) := fun k D =>
    safe_get fun _ => safe_bind_lift fun _ => safe_modify _
  unfold setData at he ⊢
  cases h1 : dataTable a with
  | error e' =>
    have : a.shape ≠ [] := by
      intro h; unfold dataTable at h1; rw [h] at h1; cases h1
    rw [if_neg (by simp [this])]; rfl
  | ok D =>
    rw [h1, PyM.lift_ok_bind] at he
    rw [PyM.lift_ok_bind]
    cases h2 : D.dim 1 with
    | ok k =>
      rw [dataCols_ok h2, PyM.lift_ok_bind] at he ⊢
      have hne : a.shape ≠ [] := by
        intro h; unfold dataTable at h1; rw [h] at h1; cases h1
        rw [ND.dim, h] at h2; cases h2
      rw [if_neg (by simp [hne])]
      exact hrest k D P e he
    | error e' =>
      have hnil : a.shape = [] := by
        by_contra hne
        have hlen : 2 ≤ D.shape.length := by
          rcases hs : a.shape with _ | ⟨n, _ | ⟨m, _ | ⟨k, _ | ⟨l, t⟩⟩⟩⟩
          · exact absurd hs hne
          · unfold dataTable at h1
            rw [hs] at h1
            cases h1
            rw [(asColumn_spec hs).1]; simp
          · unfold dataTable at h1
            rw [hs] at h1
            cases h1
            rw [hs]; simp
          · unfold dataTable at h1
            rw [hs] at h1
            dsimp only [reshapeRows] at h1
            split at h1
            · cases h1
            · by_cases hp : a.shape.prod = [n, a.data.length / n].prod
              · rw [reshape_ok hp] at h1
                cases h1
                simp
              · rw [reshape_err hp] at h1; cases h1
          · unfold dataTable at h1
            rw [hs] at h1
            cases h1
            rw [hs]; simp
        rw [ND.dim, List.getElem?_eq_getElem (by omega)] at h2
        cases h2
      have hd : dataCols D P = (.error e',
        if P.sensors.isNone && P.times.isNone then { P with sensors := some zero1 } else P) := by
        simp only [dataCols, h2]
      rw [PyM.bind_run, hd]
      simp [hnil]

/-- **C158**, the full claim. -/
def C158_claim : Prop := ∀ (f : String) (v : Val) (P : STP) (e : Err),
  (setAttr f v P).1 = .error e → (setAttr f v P).2 = P

theorem C158_claim_refuted : ¬ C158_claim := by
  intro h
  have := h "data" (.arr (num0 3)) {} .indexError rfl
  cases this

/-- **C158**: `measurements_from_reference` that raises has stored the reference and the standard
deviation it was given, and nothing else. -/
theorem C158_measurements {σ : Type} (G : Rng σ) (ref : Option ND) (sd : Option ℝ) (seed : Option ℕ)
    (P : STP) (st : σ) (e : Err)
    (he : (measurementsFromReference G ref sd seed (P, st)).1 = .error e) :
    (measurementsFromReference G ref sd seed (P, st)).2.1 =
      { P with trueVals := ref.or P.trueVals, stdDev := sd.or P.stdDev } := by
  have key : ∀ Q : STP, (measurementsFromReference G none none seed (Q, st)).1 = .error e →
      (measurementsFromReference G none none seed (Q, st)).2.1 = Q := by
    intro Q he
    unfold measurementsFromReference at he ⊢
    dsimp only at he ⊢
    cases h1 : Q.trueVals with
    | none => rfl
    | some t =>
    cases h2 : Q.stdDev with
    | none => rfl
    | some d =>
    rw [h1, h2] at he
    dsimp only at he ⊢
    rcases h3 : addNoise G t.ravel d seed st with ⟨r, st'⟩
    rw [h3] at he
    cases r with
    | error e' => rfl
    | ok noisy =>
      dsimp only at he ⊢
      cases h4 : noisy.reshape t.shape with
      | error e' => rfl
      | ok m =>
        rw [h4] at he
        dsimp only at he ⊢
        exact safe_setMeasurements m Q e he
  have e1 : measurementsFromReference G ref sd seed (P, st) =
      measurementsFromReference G none none seed
        ({ P with trueVals := ref.or P.trueVals, stdDev := sd.or P.stdDev }, st) := by
    cases ref <;> cases sd <;> rfl
  rw [e1] at he ⊢
  exact key _ he

/-- The object after a failed `measurements_from_reference` differs: the data are refused (there is
no layout), the reference stays. -/
example {σ : Type} (G : Rng σ) (st : σ) :
    (measurementsFromReference G (some (num0 3)) none none ({}, st)).1 = .error .attributeError ∧
    (measurementsFromReference G (some (num0 3)) none none ({}, st)).2.1 =
      { trueVals := some (num0 3) } := ⟨rfl, rfl⟩

/-! ### Loading -/

/-- What a failed loop of assignments leaves: the fields before the failing one have been assigned. -/
theorem setAll_failed (ds : DataSet) (fs : DataSet) : ∀ (P : STP) (e : Err),
    (setAll ds fs P).1 = .error e → ∃ pre f v post Q, fs = pre ++ (f, v) :: post ∧
      setAll ds pre P = (.ok (), Q) ∧ (getSetVal ds f v Q).1 = .error e ∧
      (setAll ds fs P).2 = (getSetVal ds f v Q).2 := by
  induction fs with
  | nil => intro P e h; cases h
  | cons x fs ih =>
    obtain ⟨f, v⟩ := x
    intro P e h
    have e1 : setAll ds ((f, v) :: fs) P = match getSetVal ds f v P with
        | (.ok _, Q) => setAll ds fs Q
        | (.error e, Q) => (.error e, Q) := by
      rw [setAll, PyM.bind_run]
      rcases getSetVal ds f v P with ⟨r, Q⟩
      cases r <;> rfl
    rw [e1] at h ⊢
    rcases h1 : getSetVal ds f v P with ⟨r, Q⟩
    rw [h1] at h
    cases r with
    | error e' =>
      cases h
      exact ⟨[], f, v, fs, P, rfl, rfl, by rw [h1], by rw [h1]⟩
    | ok u =>
      obtain ⟨pre, f', v', post, Q', h2, h3, h4, h5⟩ := ih Q e h
      refine ⟨(f, v) :: pre, f', v', post, Q', by rw [h2]; rfl, ?_, h4, h5⟩
      rw [setAll, bind_of_ok h1]; exact h3

theorem setAll_append (ds : DataSet) (a b : DataSet) : ∀ P : STP,
    setAll ds (a ++ b) P = (setAll ds a >>= fun _ => setAll ds b) P := by
  induction a with
  | nil => intro P; rfl
  | cons x a ih =>
    obtain ⟨f, v⟩ := x
    intro P
    rw [List.cons_append, setAll, setAll]
    rcases h1 : getSetVal ds f v P with ⟨r, Q⟩
    cases r with
    | error e => rw [bind_of_error h1, bind_of_error (bind_of_error h1)]
    | ok u =>
      rw [bind_of_ok h1, ih Q, PyM.bind_run, PyM.bind_run, bind_of_ok h1]

/-- The assignments of `load`, in order. -/
def loadFields (lam data : Val) (kwargs : DataSet) : DataSet :=
  kwargs.foldl (fun d e => dictSet d e.1 e.2) fieldNames ++ [("lam", lam), ("data", data)]

theorem loadDs_fields (ds : DataSet) (lam data : Val) (kwargs : DataSet) (P : STP) :
    loadDs ds lam data kwargs P = setAll ds (loadFields lam data kwargs) P := by
  have e1 : ∀ Q, setAll ds [("lam", lam), ("data", data)] Q =
      (getSetVal ds "lam" lam >>= fun _ => getSetVal ds "data" data) Q := by
    intro Q
    rw [setAll]
    rcases h1 : getSetVal ds "lam" lam Q with ⟨r, Q'⟩
    cases r with
    | error e => rw [bind_of_error h1, bind_of_error h1]
    | ok u =>
      rw [bind_of_ok h1, bind_of_ok h1, setAll]
      rcases h2 : getSetVal ds "data" data Q' with ⟨r, Q''⟩
      cases r with
      | error e => rw [bind_of_error h2]
      | ok u => rw [bind_of_ok h2]; rfl
  rw [loadFields, setAll_append, loadDs]
  rcases h1 : setAll ds (kwargs.foldl (fun d e => dictSet d e.1 e.2) fieldNames) P with ⟨r, Q⟩
  cases r with
  | error e => rw [bind_of_error h1, bind_of_error h1]
  | ok u => rw [bind_of_ok h1, bind_of_ok h1, e1]

theorem safe_getSetVal (ds : DataSet) {f : String} (hf : f ≠ "data") (v : Val) :
    Safe (getSetVal ds f v) := by
  have hs : ∀ x, Safe (setAttr f x) := fun x P e he => C158_assign_partial f x hf P e he
  unfold getSetVal
  split
  · exact safe_bind_lift fun x => hs x
  · split
    · exact safe_pure _
    · exact safe_pure _
    · exact hs _

/-- **C159**: a `load` that raises stops at one attribute; the object is the one after assigning
the attributes before it - the failing assignment itself has no effect (if it is not that of `data`,
for which see C158). -/
theorem C159_failed_load (ds : DataSet) (lam data : Val) (kwargs : DataSet) (P : STP) (e : Err)
    (he : (loadDs ds lam data kwargs P).1 = .error e) :
    ∃ pre f v post Q, loadFields lam data kwargs = pre ++ (f, v) :: post ∧
      setAll ds pre P = (.ok (), Q) ∧ (getSetVal ds f v Q).1 = .error e ∧
      (f ≠ "data" → (loadDs ds lam data kwargs P).2 = Q) := by
  rw [loadDs_fields] at he ⊢
  obtain ⟨pre, f, v, post, Q, h1, h2, h3, h4⟩ := setAll_failed ds _ P e he
  exact ⟨pre, f, v, post, Q, h1, h2, h3, fun hf => h4.trans (safe_getSetVal ds hf v Q e h3)⟩

/-- **C159**, the full claim: a `load` that raises leaves the object as it was. -/
def C159_claim : Prop := ∀ (ds : DataSet) (P : STP) (e : Err),
  (loadDs ds (.str "lam") (.str "data") [] P).1 = .error e →
    (loadDs ds (.str "lam") (.str "data") [] P).2 = P

/-- **C159** is false of the code: measurements without a layout are refused, after the domain has
been assigned. -/
theorem C159_claim_refuted : ¬ C159_claim := by
  intro h
  have hd : ∀ m : ND, loadDs [("domain", .arr (ndOfNats [1, 2] [0, 1] rfl)), ("measurements", .arr m)]
      (.str "lam") (.str "data") [] {} =
      (.error .attributeError, { domain := some (ndOfNats [1, 2] [0, 1] rfl) }) := by
    intro m
    rw [C57_defaults, loadSpec_defaults]
    rw [assignWanted_none rfl, assignWanted_some (x := .arr (ndOfNats [1, 2] [0, 1] rfl)) rfl,
      assignWanted_none rfl, assignWanted_none rfl, assignWanted_none rfl, assignWanted_none rfl,
      assignWanted_none rfl, assignWanted_some (x := .arr m) rfl]
    simp only [PyM.pure_bind']
    have e2 : setAttr "domain" (.arr (ndOfNats [1, 2] [0, 1] rfl)) {} =
        (.ok (), { domain := some (ndOfNats [1, 2] [0, 1] rfl) }) := by
      rcases setDomain_none (P := {}) rfl (ndOfNats [1, 2] [0, 1] rfl) with ⟨D, hD, h⟩ | h
      · have : D = ndOfNats [1, 2] [0, 1] rfl := by
          cases hD; rfl
        rw [this] at h; exact h
      · cases h
    rw [bind_of_ok e2]
    rfl
  have := h _ {} _ (by rw [hd zero1])
  rw [hd zero1] at this
  cases this

/-! ### Loading into an object in use -/

/-- **C160**: loading a complete data set into an object that has samples already: refused, without
effect, when one of the old samples lies outside the new domain; otherwise everything in the data
set replaces what was there, and the attributes that are not in the data set stay. -/
theorem C160_load_exact (ds : DataSet) {n p S T n₀ : ℕ}
    {dom sensors times meas lam data L₀ D₀ : ND} {sd : ℝ} {P : STP}
    (hL : P.lam = some L₀) (hLs : L₀.shape = [n₀, p]) (hn₀ : n₀ ≠ 0) (hD₀ : P.domain = some D₀)
    (hD₀s : D₀.shape = [p, 2])
    (h1 : ds.lookup "sample_dist" = none) (h2 : ds.lookup "domain" = some (.arr dom))
    (h3 : ds.lookup "sensors" = some (.arr sensors)) (h4 : ds.lookup "times" = some (.arr times))
    (h5 : ds.lookup "lam_ref" = none) (h6 : ds.lookup "std_dev" = some (.num sd))
    (h7 : ds.lookup "true_vals" = none) (h8 : ds.lookup "measurements" = some (.arr meas))
    (h9 : ds.lookup "lam" = some (.arr lam)) (h10 : ds.lookup "data" = some (.arr data))
    (hdom : dom.data.length = 2 * p) (hS : HasLen sensors S) (hT : HasLen times T)
    (hmeas : meas.data.length = S * T) (hlam : lam.shape = [n, p])
    (hdata : data.shape = [n, S * T]) :
    ∃ D M, D.shape = [p, 2] ∧ D.data = dom.data ∧ M.shape = [S * T, 1] ∧ M.data = meas.data ∧
      ((∀ i < n₀, ∀ j < p, D.get [j, 0] ≤ L₀.get [i, j] ∧ L₀.get [i, j] ≤ D.get [j, 1]) →
        loadDs ds (.str "lam") (.str "data") [] P = (.ok (),
          { P with domain := some D
                   sensors := some sensors
                   times := some times
                   stdDev := some sd
                   measurements := some M
                   lam := some lam
                   sampleDist := some (P.sampleDist.getD "u")
                   data := some data })) ∧
      ((¬ ∀ i < n₀, ∀ j < p, D.get [j, 0] ≤ L₀.get [i, j] ∧ L₀.get [i, j] ≤ D.get [j, 1]) →
        loadDs ds (.str "lam") (.str "data") [] P = (.error .valueError, P)) := by
  obtain ⟨D, hDs, hDd, hin, hout⟩ := C51_set_domain_exact hL hLs hn₀ hD₀ hD₀s hdom
  obtain ⟨M, hM, hMs, hMd⟩ := setMeasurements_ok
    (P := { P with domain := some D
                   sensors := some sensors
                   times := some times
                   stdDev := some sd }) rfl hS rfl hT hmeas
  have e : loadDs ds (.str "lam") (.str "data") [] P =
      (setDomain dom >>= fun _ => setAttr "sensors" (.arr sensors) >>= fun _ =>
        setAttr "times" (.arr times) >>= fun _ => setAttr "std_dev" (.num sd) >>= fun _ =>
        setMeasurements meas >>= fun _ => setLam lam >>= fun _ => setData data) P := by
    rw [C57_defaults, loadSpec_defaults]
    rw [assignWanted_none h1, assignWanted_some h2, assignWanted_some h3, assignWanted_some h4,
      assignWanted_none h5, assignWanted_some h6, assignWanted_none h7, assignWanted_some h8,
      assignWanted_some h9, assignWanted_some h10]
    rfl
  refine ⟨D, M, hDs, hDd, hMs, hMd, fun hc => ?_, fun hc => ?_⟩
  · rw [e, bind_of_ok (hin hc)]
    rw [bind_of_ok (x := setAttr "sensors" (.arr sensors)) (a := ()) rfl]
    rw [bind_of_ok (x := setAttr "times" (.arr times)) (a := ()) rfl]
    rw [bind_of_ok (x := setAttr "std_dev" (.num sd)) (a := ()) rfl]
    rw [bind_of_ok hM]
    have hl : asColumn lam = lam := asColumn_of_ne fun k hk => by rw [hlam] at hk; cases hk
    have e9 : setLam lam { P with domain := some D
                                  sensors := some sensors
                                  times := some times
                                  stdDev := some sd
                                  measurements := some M } = (.ok (),
        { P with domain := some D
                 sensors := some sensors
                 times := some times
                 stdDev := some sd
                 measurements := some M
                 lam := some lam
                 sampleDist := some (P.sampleDist.getD "u") }) := by
      unfold setLam
      rw [hl, PyM.get_bind_run]
      have d1 : lam.dim 1 = .ok p := by simp [ND.dim, hlam]
      have d2 : D.dim 0 = .ok p := by simp [ND.dim, hDs]
      simp only [lamDomain]
      rw [d1, d2]
      simp only [PyM.lift_ok_bind]
      rw [raiseIf_false (by simp), PyM.lift_ok_bind, PyM.get_bind_run]
      cases hsd : P.sampleDist <;> rfl
    rw [bind_of_ok e9]
    have ht : dataTable data = .ok data := by
      unfold dataTable
      rw [hdata]
    have hd1 : data.dim 1 = .ok (S * T) := by simp [ND.dim, hdata]
    have hly : layout (S * T) (some sensors) (some times) = .ok (sensors, times) := by
      simp only [layout, Py.pure_eq, Py.ok_bind, hT.dim, hS.dim]
      rw [raiseIf_false (by simp [mul_comm])]
      rfl
    unfold setData
    rw [ht, PyM.lift_ok_bind, STP.dataCols_ok hd1, PyM.lift_ok_bind, PyM.get_bind_run, hly,
      PyM.lift_ok_bind]
    rfl
  · rw [e, bind_of_error (hout hc)]

/-- **C160**, the full claim: loading a data set a second time changes nothing. -/
def C160_claim : Prop := ∀ (ds : DataSet) (P : STP),
  loadDs ds (.str "lam") (.str "data") [] {} = (.ok (), P) →
    loadDs ds (.str "lam") (.str "data") [] P = (.ok (), P)

/-- **C160**: for a complete data set with samples, the claim holds if the samples lie in the domain
of the data set; if one does not, the second `load` raises `ValueError` (and changes nothing),
although the first one succeeded. -/
theorem C160_reload_exact (ds : DataSet) {n p S T : ℕ} {dom sensors times meas lam data : ND} {sd : ℝ}
    (h1 : ds.lookup "sample_dist" = none) (h2 : ds.lookup "domain" = some (.arr dom))
    (h3 : ds.lookup "sensors" = some (.arr sensors)) (h4 : ds.lookup "times" = some (.arr times))
    (h5 : ds.lookup "lam_ref" = none) (h6 : ds.lookup "std_dev" = some (.num sd))
    (h7 : ds.lookup "true_vals" = none) (h8 : ds.lookup "measurements" = some (.arr meas))
    (h9 : ds.lookup "lam" = some (.arr lam)) (h10 : ds.lookup "data" = some (.arr data))
    (hdom : dom.data.length = 2 * p) (hS : HasLen sensors S) (hT : HasLen times T)
    (hmeas : meas.data.length = S * T) (hlam : lam.shape = [n, p]) (hn : n ≠ 0)
    (hdata : data.shape = [n, S * T]) :
    ∃ P, loadDs ds (.str "lam") (.str "data") [] {} = (.ok (), P) ∧
      ((∀ i < n, ∀ j < p, dom.data.getD (2 * j) 0 ≤ lam.get [i, j] ∧
          lam.get [i, j] ≤ dom.data.getD (2 * j + 1) 0) →
        loadDs ds (.str "lam") (.str "data") [] P = (.ok (), P)) ∧
      ((¬ ∀ i < n, ∀ j < p, dom.data.getD (2 * j) 0 ≤ lam.get [i, j] ∧
          lam.get [i, j] ≤ dom.data.getD (2 * j + 1) 0) →
        loadDs ds (.str "lam") (.str "data") [] P = (.error .valueError, P)) := by
  obtain ⟨P, D, M, hP, hR, hM, hsd, hD, hDs, hDd, hu⟩ :=
    C75_load_ready ds h1 h2 h3 h4 h5 h6 h7 h8 h9 h10 hdom hS hT hmeas hlam hdata
  obtain ⟨D', M', hDs', hDd', hMs', hMd', hin, hout⟩ := C160_load_exact ds hR.lam_eq hlam hn hD hDs
    h1 h2 h3 h4 h5 h6 h7 h8 h9 h10 hdom hS hT hmeas hlam hdata
  have nd_ext : ∀ A B : ND, A.shape = B.shape → A.data = B.data → A = B := by
    rintro ⟨a, b, c⟩ ⟨a', b', c'⟩ h h'; cases h; cases h'; rfl
  obtain rfl : D = D' := nd_ext _ _ (hDs.trans hDs'.symm) (hDd.trans hDd'.symm)
  have hMs := hR.meas_shape M rfl
  obtain rfl : M = M' := nd_ext _ _ (hMs.trans hMs'.symm) (hM.trans hMd'.symm)
  have hget : ∀ j, D.get [j, 0] = dom.data.getD (2 * j) 0 ∧ D.get [j, 1] = dom.data.getD (2 * j + 1) 0 := by
    intro j
    unfold ND.get
    rw [hDs, hDd]
    simp [offset, mul_comm]
  simp only [fun j => (hget j).1, fun j => (hget j).2] at hin hout
  refine ⟨P, hP, fun hc => ?_, hout⟩
  rw [hin hc, hu]
  have h := hR
  obtain ⟨a1, -, a2, -, a3, -, a4, -, a5, -⟩ := h
  obtain ⟨pd, pl, pr, pda, pm, pt, ps, pse, pti, pst⟩ := P
  dsimp only at a1 a2 a3 a4 a5 hu hsd hD
  subst a1 a2 a3 a4 a5 hu hsd hD
  rfl

/-- One sample `x` of one parameter in the domain `[0, 1]`, one sensor, one time. -/
noncomputable def tinyDs (x : ℕ) : DataSet :=
  [("domain", .arr (ndOfNats [1, 2] [0, 1] rfl)), ("sensors", .arr (ndOfNats [1, 2] [0, 0] rfl)),
   ("times", .arr (ndOfNats [1] [0] rfl)), ("std_dev", .num 1),
   ("measurements", .arr (ndOfNats [1] [3] rfl)), ("lam", .arr (ndOfNats [1, 1] [x] rfl)),
   ("data", .arr (ndOfNats [1, 1] [2] rfl))]

theorem tiny_reload (x : ℕ) : ∃ P, loadDs (tinyDs x) (.str "lam") (.str "data") [] {} = (.ok (), P) ∧
    (x ≤ 1 → loadDs (tinyDs x) (.str "lam") (.str "data") [] P = (.ok (), P)) ∧
    (¬ x ≤ 1 → loadDs (tinyDs x) (.str "lam") (.str "data") [] P = (.error .valueError, P)) := by
  obtain ⟨P, h1, h2, h3⟩ := C160_reload_exact (tinyDs x) (n := 1) (p := 1) (S := 1) (T := 1)
    rfl rfl rfl rfl rfl rfl rfl rfl rfl rfl rfl rfl rfl rfl rfl one_ne_zero rfl
  have hx : (∀ i < 1, ∀ j < 1, (ndOfNats [1, 2] [0, 1] rfl).data.getD (2 * j) 0 ≤
      (ndOfNats [1, 1] [x] rfl).get [i, j] ∧ (ndOfNats [1, 1] [x] rfl).get [i, j] ≤
      (ndOfNats [1, 2] [0, 1] rfl).data.getD (2 * j + 1) 0) ↔ x ≤ 1 := by
    simp [ndOfNats, ND.get, offset]
  exact ⟨P, h1, fun h => h2 (hx.2 h), fun h => h3 fun hc => h (hx.1 hc)⟩

/-- **C160** is false of the code: a sample outside the domain is loaded once, not twice. -/
theorem C160_claim_refuted : ¬ C160_claim := by
  intro h
  obtain ⟨P, h1, -, h3⟩ := tiny_reload 5
  have := h _ P h1
  rw [h3 (by norm_num)] at this
  cases this

/-- The case in which it holds is met too. -/
example : ∃ P, loadDs (tinyDs 1) (.str "lam") (.str "data") [] {} = (.ok (), P) ∧
    loadDs (tinyDs 1) (.str "lam") (.str "data") [] P = (.ok (), P) := by
  obtain ⟨P, h1, h2, -⟩ := tiny_reload 1
  exact ⟨P, h1, h2 le_rfl⟩

end Verif
