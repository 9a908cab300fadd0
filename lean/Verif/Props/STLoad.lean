import Verif.Props.SpatioTemporal

/-!
# C57, C72: `SpatioTemporalProblem.load`
-/

namespace Verif

open ND SpecST STP

namespace SpecST

/-- The value that field mapping value `v` stands for: a string is a key of the data set (absent
keys mean "skip"), `None` means "skip", anything else is the value itself. -/
def Wanted (ds : DataSet) : Val → Option Val
  | .str k => ds.lookup k
  | .none => none
  | v => some v

/-- Assign field `f` as mapped. -/
noncomputable def assignWanted (ds : DataSet) (f : String) (v : Val) : PyM STP Unit :=
  match Wanted ds v with
  | some x => setAttr f x
  | none => pure ()

/-- The names of the optional fields, in the order in which they are assigned. -/
def optionalFields : List String :=
  ["sample_dist", "domain", "sensors", "times", "lam_ref", "std_dev", "true_vals", "measurements"]

/-- The whole mapping: each optional field is mapped to its keyword argument if one is given and to
the key of its own name otherwise; further keyword arguments come after. -/
def mapping (kwargs : DataSet) : DataSet :=
  optionalFields.map (fun f => (f, (kwargs.lookup f).getD (.str f))) ++
    kwargs.filter fun e => e.1 ∉ optionalFields

/-- What `load` should do: assign every mapped field, then `lam`, then `data`. -/
noncomputable def loadSpec (ds : DataSet) (lam data : Val) (kwargs : DataSet) : PyM STP Unit := do
  (mapping kwargs).forM fun e => assignWanted ds e.1 e.2
  assignWanted ds "lam" lam
  assignWanted ds "data" data

/-- The mappings that `load` handles as documented: a field that is mapped to a key is present
under its own name exactly when the key is, and a field whose value is given directly is not
present in the data set. -/
def Handled (ds : DataSet) (f : String) : Val → Prop
  | .str k => (ds.lookup f).isSome = (ds.lookup k).isSome
  | _ => ds.lookup f = none

end SpecST

/-- C57 as stated (keyword arguments have distinct names). -/
def C57_claim : Prop :=
  ∀ (ds : DataSet) (lam data : Val) (kwargs : DataSet) (P : STP), (kwargs.map Prod.fst).Nodup →
    loadDs ds lam data kwargs P = loadSpec ds lam data kwargs P

theorem getSetVal_handled {ds : DataSet} {f : String} {v : Val} (h : Handled ds f v) :
    getSetVal ds f v = assignWanted ds f v := by
  unfold getSetVal assignWanted
  cases v with
  | str k =>
    simp only [Handled] at h
    rcases hk : ds.lookup k with _ | x
    · rw [hk] at h
      rw [h]
      simp [Wanted, hk]
    · rw [hk] at h
      rw [h]
      simp [Wanted, hk, dsGet, need]
  | none => simp only [Handled] at h; rw [h]; rfl
  | num x => simp only [Handled] at h; rw [h]; rfl
  | arr a => simp only [Handled] at h; rw [h]; rfl

theorem lookup_isSome_iff (d : DataSet) (k : String) :
    (d.lookup k).isSome ↔ k ∈ d.map Prod.fst := by
  induction d with
  | nil => simp
  | cons e d ih =>
    obtain ⟨a, v⟩ := e
    rw [List.lookup_cons]
    by_cases h : k = a
    · subst h; simp
    · have : (k == a) = false := by simpa using h
      rw [this]
      simp [ih, h]

/-- `dict.update` with distinct names: existing entries keep their place and get the new value,
new ones are appended in order. -/
theorem update_eq (kwargs : DataSet) : ∀ (d : DataSet), (kwargs.map Prod.fst).Nodup →
    (d.map Prod.fst).Nodup →
    kwargs.foldl (fun d e => dictSet d e.1 e.2) d =
      d.map (fun e => (e.1, (kwargs.lookup e.1).getD e.2)) ++
        kwargs.filter fun e => e.1 ∉ d.map Prod.fst := by
  induction kwargs with
  | nil => intro d _ _; simp
  | cons e kw ih =>
    intro d hk hd
    obtain ⟨f, v⟩ := e
    rw [List.map_cons, List.nodup_cons] at hk
    rw [List.foldl_cons]
    have hf : kw.lookup f = none := by
      by_contra hc
      exact hk.1 ((lookup_isSome_iff kw f).1 (Option.isSome_iff_ne_none.2 hc))
    by_cases hfd : f ∈ d.map Prod.fst
    · have hs : dictSet d f v = d.map fun e => if e.1 = f then (f, v) else e := by
        unfold dictSet
        rw [if_pos ((lookup_isSome_iff d f).2 hfd)]
      have hm : (dictSet d f v).map Prod.fst = d.map Prod.fst := by
        rw [hs, List.map_map]
        refine List.map_congr_left fun e _ => ?_
        simp only [Function.comp]
        split
        · next h => rw [h]
        · rfl
      rw [ih _ hk.2 (by rw [hm]; exact hd), hm, List.filter_cons_of_neg (by simpa using hfd)]
      congr 1
      rw [hs, List.map_map]
      refine List.map_congr_left fun e _ => ?_
      simp only [Function.comp]
      by_cases he : e.1 = f
      · rw [if_pos he, he]
        simp [hf]
      · rw [if_neg he, List.lookup_cons]
        have : (e.1 == f) = false := by simpa using he
        rw [this]
    · have hs : dictSet d f v = d ++ [(f, v)] := by
        unfold dictSet
        rw [if_neg (by rw [lookup_isSome_iff]; exact hfd)]
      have hm : (dictSet d f v).map Prod.fst = d.map Prod.fst ++ [f] := by rw [hs]; simp
      have hnd : ((dictSet d f v).map Prod.fst).Nodup := by
        rw [hm, List.nodup_append]
        refine ⟨hd, by simp, fun a ha b hb hab => ?_⟩
        rw [List.mem_singleton] at hb
        exact hfd (hb ▸ hab ▸ ha)
      rw [ih _ hk.2 hnd, hm, List.filter_cons_of_pos (by simpa using hfd), hs, List.map_append]
      have h1 : d.map (fun e => (e.1, (kw.lookup e.1).getD e.2)) =
          d.map fun e => (e.1, (List.lookup e.1 ((f, v) :: kw)).getD e.2) := by
        refine List.map_congr_left fun e he => ?_
        rw [List.lookup_cons]
        have : (e.1 == f) = false := by
          simp only [beq_eq_false_iff_ne]
          rintro rfl
          exact hfd (List.mem_map_of_mem he)
        rw [this]
      rw [h1, List.append_assoc]
      congr 1
      simp only [List.map_cons, List.map_nil, hf, Option.getD_none, List.singleton_append]
      congr 1
      refine List.filter_congr fun e he => ?_
      have : e.1 ≠ f := by
        intro h
        rw [← h] at hk
        exact hk.1 (show e.1 ∈ kw.map Prod.fst from List.mem_map_of_mem he)
      simp [this]

theorem mapping_eq {kwargs : DataSet} (hk : (kwargs.map Prod.fst).Nodup) :
    kwargs.foldl (fun d e => dictSet d e.1 e.2) fieldNames = mapping kwargs := by
  rw [update_eq kwargs fieldNames hk (by decide)]
  rfl

theorem setAll_handled {ds : DataSet} : ∀ {l : DataSet}, (∀ e ∈ l, Handled ds e.1 e.2) →
    setAll ds l = l.forM fun e => assignWanted ds e.1 e.2
  | [], _ => rfl
  | (f, v) :: l, h => by
    show _ = (assignWanted ds f v >>= fun _ => List.forM l fun e => assignWanted ds e.1 e.2)
    rw [setAll, getSetVal_handled (h _ (List.mem_cons_self ..)),
      setAll_handled fun e he => h e (List.mem_cons_of_mem _ he)]

/-- **C57 for mappings that are handled**: `load(ds, lam, data, **kwargs)` does exactly what
`loadSpec` says. In particular (`C57_defaults`) every call without keyword arguments. -/
theorem C57_load_partial (ds : DataSet) (lam data : Val) (kwargs : DataSet)
    (hk : (kwargs.map Prod.fst).Nodup) (hkw : ∀ e ∈ kwargs, Handled ds e.1 e.2)
    (hl : Handled ds "lam" lam) (hd : Handled ds "data" data) :
    loadDs ds lam data kwargs = loadSpec ds lam data kwargs := by
  unfold loadDs loadSpec
  rw [mapping_eq hk, getSetVal_handled hl, getSetVal_handled hd, setAll_handled]
  intro e he
  unfold mapping at he
  rw [List.mem_append] at he
  rcases he with he | he
  · obtain ⟨f, -, rfl⟩ := List.mem_map.1 he
    rcases hf : kwargs.lookup f with _ | v
    · rfl
    · obtain ⟨l₁, l₂, rfl, -⟩ := List.lookup_eq_some_iff.1 hf
      exact hkw (f, v) (by simp)
  · exact hkw e (List.mem_filter.1 he).1

/-- Loading with the default names. -/
theorem C57_defaults (ds : DataSet) :
    loadDs ds (.str "lam") (.str "data") [] = loadSpec ds (.str "lam") (.str "data") [] :=
  C57_load_partial ds _ _ _ (by simp) (by simp) rfl rfl

/-- A field mapped to an existing key of another name is skipped unless the data set also has an
entry under the field's own name. -/
theorem C57_renamed_skipped {ds : DataSet} {f k : String} (hf : ds.lookup f = none) :
    getSetVal ds f (.str k) = pure () := by
  unfold getSetVal; rw [hf]; rfl

/-- A field present under its own name but mapped to an absent key raises `KeyError`. -/
theorem C57_key_error {ds : DataSet} {f k : String} (hf : (ds.lookup f).isSome)
    (hk : ds.lookup k = none) (P : STP) : getSetVal ds f (.str k) P = (.error .keyError, P) := by
  unfold getSetVal
  rw [if_pos hf]
  simp only [dsGet, hk, need]
  rfl

/-- A field present under its own name whose value is given directly raises an exception
(`TypeError` for an array, `KeyError` otherwise). -/
theorem C57_direct_error {ds : DataSet} {f : String} {v : Val} (hf : (ds.lookup f).isSome)
    (hv : ∀ k, v ≠ .str k) (P : STP) :
    getSetVal ds f v P = (.error .keyError, P) ∨ getSetVal ds f v P = (.error .typeError, P) := by
  unfold getSetVal
  rw [if_pos hf]
  cases v with
  | str k => exact absurd rfl (hv k)
  | none => exact .inl rfl
  | num x => exact .inl rfl
  | arr a => exact .inr rfl

/-- **C57 is false of the code**: with `load({"my_sd": 1}, std_dev="my_sd")` the standard deviation
is not read. -/
theorem C57_claim_refuted : ¬ C57_claim := by
  intro h
  have h := h [("my_sd", .num 1)] .none .none [("std_dev", .str "my_sd")] {} (by simp)
  have h1 : (loadDs [("my_sd", .num 1)] .none .none [("std_dev", .str "my_sd")] {}).2.stdDev =
      none := by
    rfl
  have h2 : (loadSpec [("my_sd", .num 1)] .none .none [("std_dev", .str "my_sd")] {}).2.stdDev =
      some 1 := by
    rfl
  rw [h, h2] at h1
  cases h1

/-! ### C72 -/

/-- C72 as stated. -/
def C72_claim : Prop :=
  ∀ (E : FileEnv) (path : String),
    (E.file path = none → E.read path = .error .fileNotFoundError) ∧
    (∀ ds, E.file path = some (.netcdf ds) → E.xarray = true → endsNc path = true →
      E.read path = .ok ds) ∧
    (∀ ds, E.file path = some (.pickle ds) → (E.xarray = false ∨ endsNc path = false) →
      E.read path = .ok ds)

/-- **C72 without xarray, or for paths not ending in `nc`**: the file is unpickled and a missing
file raises `FileNotFoundError`. -/
theorem C72_pickle_partial (E : FileEnv) (path : String)
    (h : E.xarray = false ∨ endsNc path = false) :
    (E.file path = none → E.read path = .error .fileNotFoundError) ∧
    ∀ ds, E.file path = some (.pickle ds) → E.read path = .ok ds := by
  have e : E.useXr path = .ok false := by
    unfold FileEnv.useXr
    rcases h with h | h
    · unfold FileEnv.xrAvail
      rw [h]; split <;> rfl
    · rw [h]; rfl
  unfold FileEnv.read
  rw [e]
  refine ⟨fun hf => ?_, fun ds hf => ?_⟩
  · simp only [Py.ok_bind, hf]
  · simp only [Py.ok_bind, hf]
    rfl

/-- With xarray installed every path ending in `nc` raises `NameError` (the import block misspells
the flag), whether or not the file exists, and the object is left unchanged. -/
theorem C72_name_error (E : FileEnv) (path : String) (hx : E.xarray = true)
    (hp : endsNc path = true) (lam data : Val) (kwargs : DataSet) (P : STP) :
    loadFile E path lam data kwargs P = (.error .nameError, P) := by
  unfold loadFile FileEnv.read FileEnv.useXr FileEnv.xrAvail
  rw [hp, hx]
  rfl

theorem C72_claim_refuted : ¬ C72_claim := by
  intro h
  have := (h ⟨true, fun _ => none⟩ "a.nc").1 rfl
  have h2 := C72_name_error ⟨true, fun _ => none⟩ "a.nc" rfl (by decide) .none .none [] {}
  unfold loadFile at h2
  rw [this] at h2
  cases h2

/-! ### Cases meeting the hypotheses -/

/-- A measurement vector of two entries stored under its own name. -/
def measDs : DataSet := [("lam", .arr ⟨[2], [1, 2], rfl⟩), ("data", .arr ⟨[2], [3, 4], rfl⟩),
  ("std_dev", .num 1), ("sd2", .num 2)]

/-- `load(ds, std_dev="sd2", true_vals=None)`: the renamed field also has an entry under its own name. -/
example : loadDs measDs (.str "lam") (.str "data") [("std_dev", .str "sd2"), ("true_vals", .none)] =
    loadSpec measDs (.str "lam") (.str "data") [("std_dev", .str "sd2"), ("true_vals", .none)] :=
  C57_load_partial _ _ _ _ (by simp) (by simp [Handled, measDs, List.lookup]) rfl rfl

/-- `std_dev="sd3"` raises `KeyError`, `domain="sd2"` is skipped, `std_dev=5` raises `KeyError`. -/
example (P : STP) : getSetVal measDs "std_dev" (.str "sd3") P = (.error .keyError, P) ∧
    getSetVal measDs "domain" (.str "sd2") P = (.ok (), P) ∧
    (getSetVal measDs "std_dev" (.num 5) P = (.error .keyError, P) ∨
      getSetVal measDs "std_dev" (.num 5) P = (.error .typeError, P)) :=
  ⟨C57_key_error rfl rfl P, by rw [C57_renamed_skipped (by rfl)]; rfl,
    C57_direct_error rfl (fun _ h => by cases h) P⟩

/-- A pickled file with xarray installed, and a `.nc` path without it. -/
example : (⟨true, fun _ => some (.pickle measDs)⟩ : FileEnv).read "a.pkl" = .ok measDs ∧
    (⟨false, fun _ => none⟩ : FileEnv).read "a.nc" = .error .fileNotFoundError :=
  ⟨(C72_pickle_partial _ _ (.inr (by decide))).2 _ rfl, (C72_pickle_partial _ _ (.inl rfl)).1 rfl⟩

end Verif
