import Verif.Model.Numpy

/-!
# Model of `LinearGaussianProblem` (`/repo/src/mud/base.py:977-1315`) and of the
functions built on it in `/repo/src/mud/funs.py:50-211`.
-/

open Matrix

namespace Verif

/-- The attributes of a `LinearGaussianProblem` object (`base.py:1046-1072` and the
attributes assigned by `solve`, `base.py:1155-1173`).  `none` = attribute not set.
The attribute `sol`, which is `None` from construction on, carries no information
and is answered directly in `LGP.attr`. -/
structure LGP where
  A : Arr2
  b : Arr2
  y : Arr2
  mean_i : Arr2
  cov_i : Arr2
  cov_o : Arr2
  alpha : ℝ
  mud : Option Arr2 := none
  mud_alt : Option Arr2 := none
  up_cov : Option Arr2 := none
  map : Option Arr2 := none
  cov_p : Option Arr2 := none
  ls : Option Arr2 := none

/-- What `solve` can return: an array, the triple of `'all'`, `None`, a number, or a
bound method (`solve` ends with `self.__getattribute__(method)`). For `base.py:1131-1180`. -/
inductive SolveRes
  | arr (x : Arr2)
  | triple (mud map ls : Arr2)
  | pyNone
  | num (x : ℝ)
  | boundMethod (name : String)

/-- `LinearGaussianProblem.__init__` (`base.py:1036-1072`).
Simplifications: `A` has at most two dimensions and `cov_i`, `cov_o` are 2-D arrays
(1-D or scalar covariances are accepted by the constructor but every `solve` on them
fails). -/
def LGP.new (A : NArr) (b y mean_i : Option NArr := none) (cov_i cov_o : Option Arr2 := none)
    (alpha : Option ℝ := some 1) : Py LGP := do
  let A := A.toRow2
  let ns := A.r
  let di := A.c
  let b := match b with | none => Arr2.zeros ns 1 | some b => b.toCol
  let y := match y with | none => Arr2.zeros ns 1 | some y => y.toCol
  let mean_i := match mean_i with | none => Arr2.zeros di 1 | some m => m.toCol
  let cov_i := match cov_i with | none => Arr2.eye di | some c => c
  let cov_o := match cov_o with | none => Arr2.eye ns | some c => c
  let alpha := match alpha with | none => 1 | some a => a
  let n_data := y.r
  raiseIf (ns ≠ n_data) .valueError
  return { A, b, y, mean_i, cov_i, cov_o, alpha }

/-- The default of the constructor argument `A`: `np.array([1, 1]).reshape(-1, 1)`
(`base.py:1038`). -/
def LGP.defaultA : NArr := .mat (Arr2.col ![1, 1])

/-- Properties `n_params`, `n_features`, `n_samples` (`base.py:1074-1084`). -/
def LGP.n_params (P : LGP) : ℕ := P.A.c
/-- `LGP.n_features`. For `base.py:1079-1080`. -/
def LGP.n_features (P : LGP) : ℕ := P.y.c
/-- `LGP.n_samples`. For `base.py:1083-1084`. -/
def LGP.n_samples (P : LGP) : ℕ := P.y.r

/-- The inner helper `ip(X, mat)` of `compute_functionals` (`base.py:1096-1097`):
`np.sum(X * (np.linalg.inv(mat) @ X), axis=0)`. -/
noncomputable def LGP.ip (X mat : Arr2) : Py NArr := do
  let i ← mat.inv
  let iX ← i.matmul X
  let h ← X.hmul iX
  return .vec h.c h.colSums

/-- `+`/`-` of two 1-D arrays (NumPy broadcasting of length-1 arrays included); used in
`base.py:1117-1126`. Other ranks do not occur there. -/
def NArr.zip1 (f : ℝ → ℝ → ℝ) : NArr → NArr → Py NArr
  | .vec n v, .vec k w =>
    match Arr2.bdim n k with
    | some l => .ok (.vec l fun i => f ((Arr2.row v).bget 0 i) ((Arr2.row w).bget 0 i))
    | none => .error .valueError
  | _, _ => .error .unmodelled

/-- `alpha * v` for a 1-D array. For `base.py:1086-1129`. -/
def NArr.smul1 (a : ℝ) : NArr → NArr
  | .scal x => .scal (a * x)
  | .vec n v => .vec n (fun i => a * v i)
  | .mat A => .mat (A.smul a)

/-- What `compute_functionals` returns: one array or the 5-tuple
`(data_term, reg_term, dc_term, bayes_fun, dc_fun)`. For `base.py:1086-1129`. -/
inductive FunRes
  | one (v : NArr)
  | five (data reg dc_term bayes dc : NArr)

/-- `LinearGaussianProblem.compute_functionals` (`base.py:1086-1129`), for 2-D `X`. -/
noncomputable def LGP.compute_functionals (P : LGP) (X : Arr2) (terms : String) : Py FunRes := do
  let mean_o ← P.y.sub P.b
  let AX ← P.A.matmul X.T
  let AXb ← AX.add P.b
  let r ← AXb.sub mean_o.T
  let data_term ← LGP.ip r P.cov_o
  if terms = "data" then return .one data_term
  let dX ← X.sub P.mean_i.T
  let q ← LGP.ip dX.T P.cov_i
  let reg_term := q.smul1 P.alpha
  if terms = "reg" then return .one reg_term
  let AdX ← P.A.matmul dX.T
  let AC ← P.A.matmul P.cov_i
  let ACA ← AC.matmul P.A.T
  let q' ← LGP.ip AdX ACA
  let dc_term := q'.smul1 P.alpha
  if terms = "dc_term" then return .one dc_term
  let reg_m ← reg_term.zip1 (· - ·) dc_term
  if terms = "reg_m" then return .one reg_m
  let bayes ← data_term.zip1 (· + ·) reg_term
  if terms = "bayes" then return .one bayes
  let dc ← bayes.zip1 (· - ·) dc_term
  if terms = "dc" then return .one dc
  return .five data_term reg_term dc_term bayes dc

/-- The common body of `LinearGaussianProblem.updated_cov` (`base.py:1226-1235`) and
`funs.updated_cov` (`funs.py:87-97`). -/
noncomputable def updatedCovBody (X init_cov data_cov : Arr2) : Py Arr2 := do
  let XS ← X.matmul init_cov
  let pred_cov ← XS.matmul X.T
  let inv_pred_cov := pred_cov.pinv
  let SXt ← init_cov.matmul X.T
  let K ← SXt.matmul inv_pred_cov
  let D ← pred_cov.sub data_cov
  let KD ← K.matmul D
  let KDK ← KD.matmul K.T
  init_cov.sub KDK

/-- `LinearGaussianProblem.updated_cov` (`base.py:1182-1237`). -/
noncomputable def LGP.updated_cov (P : LGP) (A init_cov data_cov : Option Arr2 := none) :
    Py Arr2 := do
  let X := match A with | some A => A | none => P.A
  let S ← match init_cov with
    | none => pure P.cov_i
    | some S => do pyAssert (X.c = S.c); pure S
  let C ← match data_cov with
    | none => pure P.cov_o
    | some C => do pyAssert (X.r = C.c); pure C
  updatedCovBody X S C

/-- `funs.updated_cov` (`funs.py:50-97`). -/
noncomputable def funsUpdatedCov (X : Arr2) (init_cov data_cov : Option Arr2 := none) :
    Py Arr2 := do
  let S ← match init_cov with
    | none => pure (Arr2.eye X.c)
    | some S => do pyAssert (X.c = S.c); pure S
  let C ← match data_cov with
    | none => pure (Arr2.eye X.r)
    | some C => do pyAssert (X.r = C.c); pure C
  updatedCovBody X S C

/-- The local variables of `solve` before any attribute is assigned
(`base.py:1136-1152`). -/
structure LGP.Locals where
  A : Arr2
  b : Arr2
  y : Arr2
  cov_o : Arr2
  mean_o : Arr2
  z : Arr2
  a_cov_i : Arr2

/-- First part of `solve`: slicing to `output_dim`, residual, scaled covariance
(`base.py:1136-1152`). -/
noncomputable def LGP.locals (P : LGP) (output_dim : Option ℤ) : Py LGP.Locals := do
  let od : ℤ := match output_dim with | none => P.A.r | some k => k
  let A := P.A.takeRows od
  let b := P.b.takeRows od
  let y := P.y.takeRows od
  let cov_o := P.cov_o.takeBlock od
  let mean_o ← y.sub b
  let Am ← A.matmul P.mean_i
  let z ← mean_o.sub Am
  return { A, b, y, cov_o, mean_o, z, a_cov_i := P.cov_i.smul P.alpha }

/-- The `mud` branch of `solve` (`base.py:1155-1158`). -/
noncomputable def LGP.mudBranch (P : LGP) (w : LGP.Locals) : Py Arr2 := do
  let AS ← w.A.matmul w.a_cov_i
  let ASA ← AS.matmul w.A.T
  let inv_pred_cov := ASA.pinv
  let SAt ← w.a_cov_i.matmul w.A.T
  let update ← SAt.matmul inv_pred_cov
  let uz ← update.matmul w.z
  P.mean_i.add uz

/-- The `mud_alt` branch of `solve` (`base.py:1160-1164`): the point and `up_cov`. -/
noncomputable def LGP.mudAltBranch (P : LGP) (w : LGP.Locals) : Py (Arr2 × Arr2) := do
  let up_cov ← P.updated_cov (some w.A) (some w.a_cov_i) (some w.cov_o)
  let U ← up_cov.matmul w.A.T
  let Ci ← w.cov_o.inv
  let update ← U.matmul Ci
  let uz ← update.matmul w.z
  let x ← P.mean_i.add uz
  return (x, up_cov)

/-- The `map` branch of `solve` (`base.py:1166-1171`): the point and `cov_p`. -/
noncomputable def LGP.mapBranch (P : LGP) (w : LGP.Locals) : Py (Arr2 × Arr2) := do
  let co_inv ← w.cov_o.inv
  let AtC ← w.A.T.matmul co_inv
  let AtCA ← AtC.matmul w.A
  let Si ← w.a_cov_i.inv
  let H ← AtCA.add Si
  let cov_p ← H.inv
  let pA ← cov_p.matmul w.A.T
  let update ← pA.matmul co_inv
  let uz ← update.matmul w.z
  let x ← P.mean_i.add uz
  return (x, cov_p)

/-- The `ls` branch of `solve` (`base.py:1173-1175`). -/
noncomputable def LGP.lsBranch (_P : LGP) (w : LGP.Locals) : Py Arr2 :=
  w.A.pinv.matmul w.mean_o

/-- `x` if the attribute is set, `AttributeError` otherwise. For `base.py:1180`. -/
def ofAttr (x : Option Arr2) : Py SolveRes :=
  match x with
  | some x => .ok (.arr x)
  | none => .error .attributeError

/-- Names of the methods of the class (`base.py:977-1315`), reachable through
`__getattribute__`. -/
def LGP.methods : List String :=
  ["compute_functionals", "solve", "updated_cov", "plot_sol", "plot_contours", "plot_fun_contours"]

/-- `self.__getattribute__(name)` (`base.py:1180`).
Simplification: attributes inherited from `object` (`__class__`, ...) are not listed. -/
def LGP.attr (P : LGP) (name : String) : Py SolveRes :=
  if name = "mud" then ofAttr P.mud
  else if name = "mud_alt" then ofAttr P.mud_alt
  else if name = "map" then ofAttr P.map
  else if name = "ls" then ofAttr P.ls
  else if name = "up_cov" then ofAttr P.up_cov
  else if name = "cov_p" then ofAttr P.cov_p
  else if name = "A" then .ok (.arr P.A)
  else if name = "b" then .ok (.arr P.b)
  else if name = "y" then .ok (.arr P.y)
  else if name = "mean_i" then .ok (.arr P.mean_i)
  else if name = "cov_i" then .ok (.arr P.cov_i)
  else if name = "cov_o" then .ok (.arr P.cov_o)
  else if name = "alpha" then .ok (.num P.alpha)
  else if name = "sol" then .ok .pyNone
  else if name = "n_params" then .ok (.num P.n_params)
  else if name = "n_features" then .ok (.num P.n_features)
  else if name = "n_samples" then .ok (.num P.n_samples)
  else if name ∈ LGP.methods then .ok (.boundMethod name)
  else .error .attributeError

/-- The tuple `(self.mud, self.map, self.ls)` returned by `solve('all')` (`base.py:1178`). -/
def LGP.allRes (P : LGP) : Py SolveRes :=
  match P.mud, P.map, P.ls with
  | some x, some y, some z => .ok (.triple x y z)
  | _, _, _ => .error .attributeError

/-- `LinearGaussianProblem.solve` (`base.py:1131-1180`). -/
noncomputable def LGP.solve (method : String) (output_dim : Option ℤ := none) :
    PyM LGP SolveRes := do
  let P ← PyM.get
  let w ← PyM.lift (P.locals output_dim)
  if method = "mud" ∨ method = "all" then
    let x ← PyM.lift (P.mudBranch w)
    PyM.modify fun s => { s with mud := some x }
  if method = "mud_alt" ∨ method = "all" then
    let x ← PyM.lift (P.mudAltBranch w)
    PyM.modify fun s => { s with mud_alt := some x.1, up_cov := some x.2 }
  if method = "map" ∨ method = "all" then
    let x ← PyM.lift (P.mapBranch w)
    PyM.modify fun s => { s with map := some x.1, cov_p := some x.2 }
  if method = "ls" ∨ method = "all" then
    let x ← PyM.lift (P.lsBranch w)
    PyM.modify fun s => { s with ls := some x }
  let Q ← PyM.get
  if method = "all" then PyM.lift Q.allRes else PyM.lift (Q.attr method)

/-- `ndarray.ravel()` of a 2-D array. For `funs.py:124`. -/
def Arr2.ravel (A : Arr2) : NArr :=
  .vec (A.r * A.c) fun k => A.m (finProdFinEquiv.symm k).1 (finProdFinEquiv.symm k).2

/-- `np.array(x).ndim` with `np.array(None).ndim = 0`. For `funs.py:124`. -/
def ndimOpt : Option NArr → ℕ
  | none => 0
  | some (.scal _) => 0
  | some (.vec _ _) => 1
  | some (.mat _) => 2

/-- `pt if np.array(y).ndim > 1 else pt.ravel()` (`funs.py:124`). -/
def ravelUnless2 (y : Option NArr) (x : Arr2) : NArr :=
  if ndimOpt y > 1 then .mat x else x.ravel

/-- The value of `lp.solve(method=...)` when it is an array. For `funs.py:116-139`. -/
noncomputable def LGP.solveArr (P : LGP) (method : String) : Py (Arr2 × LGP) :=
  match LGP.solve method none P with
  | (.ok (.arr x), Q) => .ok (x, Q)
  | (.ok _, _) => .error .typeError
  | (.error e, _) => .error e

/-- `funs.lin_prob` (`funs.py:100-113`). -/
def linProb (A : NArr) (b y mean : Option NArr) (cov data_cov : Option Arr2)
    (alpha : Option ℝ := none) : Py LGP :=
  LGP.new A b y mean cov data_cov alpha

/-- `funs.mud_sol` (`funs.py:116-126`). -/
noncomputable def mudSol (A : NArr) (b y mean : Option NArr := none)
    (cov data_cov : Option Arr2 := none) : Py NArr := do
  let lp ← linProb A b y mean cov data_cov
  let r ← lp.solveArr "mud"
  return ravelUnless2 y r.1

/-- An attribute read that raises `AttributeError` when unset. For `funs.py:129-139`. -/
def getAttr (x : Option Arr2) : Py Arr2 :=
  match x with
  | some x => .ok x
  | none => .error .attributeError

/-- `funs.mud_sol_with_cov` (`funs.py:129-139`). -/
noncomputable def mudSolWithCov (A : NArr) (b y mean : Option NArr := none)
    (cov data_cov : Option Arr2 := none) : Py (NArr × Arr2) := do
  let lp ← linProb A b y mean cov data_cov
  let r ← lp.solveArr "mud_alt"
  let c ← getAttr r.2.up_cov
  return (ravelUnless2 y r.1, c)

/-- `funs.map_sol` (`funs.py:142-148`). -/
noncomputable def mapSol (A : NArr) (b y mean : Option NArr := none)
    (cov data_cov : Option Arr2 := none) (w : ℝ := 1) : Py NArr := do
  let lp ← linProb A b y mean cov data_cov (some w)
  let r ← lp.solveArr "map"
  return ravelUnless2 y r.1

/-- `funs.map_sol_with_cov` (`funs.py:151-157`). -/
noncomputable def mapSolWithCov (A : NArr) (b y mean : Option NArr := none)
    (cov data_cov : Option Arr2 := none) (w : ℝ := 1) : Py (NArr × Arr2) := do
  let lp ← linProb A b y mean cov data_cov (some w)
  let r ← lp.solveArr "map"
  let c ← getAttr r.2.cov_p
  return (ravelUnless2 y r.1, c)

/-- Python's normalisation of an index into an axis of length `n`. For `funs.py:196-202`. -/
def pyIndex (n : ℕ) (i : ℤ) : Py (Fin n) :=
  let k := if i < 0 then i + n else i
  if h : 0 ≤ k ∧ k < n then .ok ⟨k.toNat, by omega⟩ else .error .indexError

/-- `x[i]` for an array of one or two dimensions (a row of a 2-D array);
indexing a 0-d array is an `IndexError`. For `funs.py:196-202`. -/
def NArr.index (x : NArr) (i : ℤ) : Py NArr :=
  match x with
  | .scal _ => .error .indexError
  | .vec n v => do let k ← pyIndex n i; return .scal (v k)
  | .mat A => do let k ← pyIndex A.r i; return .vec A.c (fun j => A.m k j)

/-- The loop of `performEpoch` (`funs.py:196-202`): entries appended to the chain after
`_mean`. -/
noncomputable def epochLoop (A : Arr2) (b y : NArr) (cov : Option Arr2) :
    NArr → List ℤ → Py (List NArr)
  | _, [] => .ok []
  | mean, i :: is => do
    let k ← pyIndex A.r i
    let bi ← b.index i
    let yi ← y.index i
    let x ← mudSol (.mat (Arr2.row fun j => A.m k j)) (some bi) (some yi) (some mean) cov none
    let rest ← epochLoop A b y cov x is
    return x :: rest

/-- `funs.performEpoch` (`funs.py:188-203`).  The argument `data_cov` is accepted and
ignored (`data_cov=None` is passed on), so it is omitted here. `idx=None` means
`range(A.shape[0])`. -/
noncomputable def performEpoch (A : Arr2) (b y initial_mean : NArr) (initial_cov : Option Arr2)
    (idx : Option (List ℤ) := none) : Py (List NArr) := do
  let idx := match idx with | none => (List.range A.r).map Int.ofNat | some l => l
  let rest ← epochLoop A b y initial_cov initial_mean idx
  return initial_mean :: rest

/-- `chain[-1]`; the chain is never empty. For `funs.py:208-209`. -/
def lastOr (chain : List NArr) (d : NArr) : NArr := chain.getLastD d

/-- The epochs after the first one in `iterate` (`funs.py:208-209`). -/
noncomputable def iterateMore (A : Arr2) (b y m : NArr) (cov : Option Arr2)
    (idx : Option (List ℤ)) : ℕ → List NArr → Py (List NArr)
  | 0, chain => .ok chain
  | k + 1, chain => do
    let e ← performEpoch A b y (lastOr chain m) cov idx
    iterateMore A b y m cov idx k (chain ++ e)

/-- `funs.iterate` (`funs.py:206-211`); `range(1, num_epochs)` has `num_epochs - 1`
elements (none for `num_epochs ≤ 1`). -/
noncomputable def iterate (A : Arr2) (b y initial_mean : NArr) (initial_cov : Option Arr2)
    (num_epochs : ℤ := 1) (idx : Option (List ℤ) := none) : Py (List NArr) := do
  let chain ← performEpoch A b y initial_mean initial_cov idx
  iterateMore A b y initial_mean initial_cov idx (num_epochs - 1).toNat chain

end Verif
