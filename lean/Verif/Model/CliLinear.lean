import Verif.Model.Paper

/-!
# The commands `comparison`, `contours`, `wme_covariance`, `high_dim_linear` and `poisson_generate`

Models `/repo/src/mud/examples/examples.py:89-350, 534-681`: what `click` makes of the command line, the group's
callback, and the calls of the example runs modelled elsewhere. Left out: creating the directory of
`--save-path`, `plt.show`, `dpi` and `--latex-labels` (which the run ignores).
-/

namespace Verif

namespace Cli

variable {σ : Type}

/-- The text of an option's value: a text accepted by Python's `int` (hence by `float`), one accepted by `float`
only, or another one. For `examples.py:110-350`. -/
inductive Tok
  | int (z : ℤ)
  | dec (x : ℝ)
  | word (s : String)

/-- How a command ends when it does not return: click's usage message (exit code 2), or an exception.
For `examples.py:110-120`. -/
inductive Exit
  | usage
  | raised (e : Err)

/-- The option type click infers from a default that is an `int` or a list of them. For `examples.py:110-164`. -/
def asInt : Tok → Except Exit ℤ
  | .int z => .ok z
  | _ => .error .usage

/-- The option type click infers from a default that is a `float`. For `examples.py:110-164`. -/
def asFloat : Tok → Except Exit ℝ
  | .int z => .ok z
  | .dec x => .ok x
  | .word _ => .error .usage

/-- An option without `multiple`: the last value given counts, without one the default. For `examples.py:110-164`. -/
def single {α : Type} (conv : Tok → Except Exit α) (dflt : α) (given : List Tok) : Except Exit α :=
  match given.getLast? with
  | none => .ok dflt
  | some t => conv t

/-- An option with `multiple=True`: all values given, without any the default. For `examples.py:110-164`. -/
def several {α : Type} (conv : Tok → Except Exit α) (dflt : List α) (given : List Tok) : Except Exit (List α) :=
  if given.isEmpty then .ok dflt else given.mapM conv

/-- `np.random.seed(seed)` accepts 0 to 2³² - 1. For `examples.py:110-120`. -/
def seedOf : Option ℤ → Py (Option ℕ)
  | none => .ok none
  | some z => if 0 ≤ z ∧ z < 2 ^ 32 then .ok (some z.toNat) else .error .valueError

/-- A command of the group: the group's callback (`examples.py:110-120`) seeds NumPy's generator, then
click converts the command's options, then the body runs. -/
def command {α β : Type} (G : Gen σ) (seed : Option ℤ) (options : Except Exit β)
    (body : Option ℕ → β → PyM σ α) (s : σ) : Except Exit α × σ :=
  match seedOf seed with
  | .error e => (.error (.raised e), s)
  | .ok k =>
    match options with
    | .error e => (.error e, (G.normal.reseed k s).2)
    | .ok o =>
      match body k o (G.normal.reseed k s).2 with
      | (.ok a, t) => (.ok a, t)
      | (.error e, t) => (.error (.raised e), t)

/-- The values given for the options of `comparison`, in the order of the command line. For `examples.py:124-164`. -/
structure ComparisonLine where
  power : List Tok := []
  num_samples : List Tok := []
  mu : List Tok := []
  sigma : List Tok := []
  domain : List Tok := []
  n_vals : List Tok := []

/-- The values `comparison` is called with. For `examples.py:124-164`. -/
structure ComparisonArgs where
  power : ℤ
  num_samples : ℤ
  mu : ℝ
  sigma : ℝ
  domain : List ℤ
  n_vals : List ℤ

/-- The options of `comparison` (`examples.py:124-164`). -/
noncomputable def comparisonOptions (l : ComparisonLine) : Except Exit ComparisonArgs := do
  let power ← single asInt 5 l.power
  let num_samples ← single asInt 1000 l.num_samples
  let mu ← single asFloat 0.25 l.mu
  let sigma ← single asFloat 0.1 l.sigma
  let domain ← several asInt [-1, 1] l.domain
  let n_vals ← several asInt [1, 5, 10, 20] l.n_vals
  return ⟨power, num_samples, mu, sigma, domain, n_vals⟩

/-- One pass of the loop of `run_comparison_example` for arbitrary integers: `np.reshape(domain, (1, 2))`
(`simple.py:84`) and negative sizes of the draws raise `ValueError`. Simplifications: a negative power is `unmodelled`; numbers drawn before a `ValueError` for a
negative size are not. -/
noncomputable def comparisonPass (env : Env) (pe : PlotEnv) (G : Gen σ) (a : ComparisonArgs) (N : ℤ) :
    PyM σ (List CompOut) := do
  PyM.lift (raiseIf (a.power < 0) .unmodelled)
  PyM.lift (raiseIf (a.domain.length ≠ 2) .valueError)
  PyM.lift (raiseIf (a.num_samples < 0 ∨ N < 0) .valueError)
  runComparison env pe G a.power.toNat a.num_samples.toNat a.mu a.sigma (a.domain.getD 0 0 : ℤ)
    (a.domain.getD 1 0 : ℤ) true [N.toNat]

/-- `run_comparison_example(N_vals, ...)` (`comparison.py:181-229`). -/
noncomputable def comparisonLoop (env : Env) (pe : PlotEnv) (G : Gen σ) (a : ComparisonArgs) :
    List ℤ → PyM σ (List CompOut)
  | [] => pure []
  | N :: Ns => do
    let o ← comparisonPass env pe G a N
    let os ← comparisonLoop env pe G a Ns
    return o ++ os

/-- `examples --seed ... --save-path ... comparison ...` (`examples.py:166-199`): the results and the image
files written. -/
noncomputable def comparison (env : Env) (pe : PlotEnv) (G : Gen σ) (save_path : String) (seed : Option ℤ)
    (l : ComparisonLine) : σ → Except Exit (List CompOut × List String) × σ :=
  command G seed (comparisonOptions l) fun _ a => do
    let os ← comparisonLoop env pe G a a.n_vals
    return (os, (a.n_vals.flatMap fun N => Paper.compFiles N.toNat).map (Paper.join save_path))

/-- `np.random.randn(n, ...)`: a negative size raises `ValueError`. For `examples.py:310-350`. -/
def size (n : ℤ) : Py ℕ := if n < 0 then .error .valueError else .ok n.toNat

/-- `high_dim_linear -i ... -o ...` (`examples.py:310-350`): the seed of the group, `None` included, replaces the
default 21 of `run_high_dim_linear`. -/
noncomputable def highDimLinear (G : Gen σ) (svd : (A : Arr2) → SvdOut A.r A.c) (seed : Option ℤ)
    (dim_input dim_output : List Tok) :
    σ → Except Exit (List (List (List F)) × List (List (List F))) × σ :=
  command G seed (do
      let di ← single asInt 100 dim_input
      let dO ← single asInt 100 dim_output
      return (di, dO)) fun k d => do
    let di ← PyM.lift (size d.1)
    let dO ← PyM.lift (size d.2)
    runHighDim G svd di dO k

/-- A number of data. Simplification: negative ones, for which the slices of `run_wme_covariance` count from the
end, are `unmodelled`. For `examples.py:243-307`. -/
def dataSize (n : ℤ) : Py ℕ := if n < 0 then .error .unmodelled else .ok n.toNat

/-- `wme_covariance -i ... -o ... -s ... -n ...` (`examples.py:243-307`). -/
noncomputable def wmeCovariance (G : Gen σ) (seed : Option ℤ) (dim_input dim_output sigma num_data : List Tok) :
    σ → Except Exit (LGP × List Arr2) × σ :=
  command G seed (do
      let di ← single asInt 20 dim_input
      let dO ← single asInt 5 dim_output
      let sd ← single asFloat 0.1 sigma
      let n ← several asInt [10, 100, 1000, 10000] num_data
      return (di, dO, sd, n)) fun k a => do
    let di ← PyM.lift (size a.1)
    let dO ← PyM.lift (size a.2.1)
    let Ns ← PyM.lift (a.2.2.2.mapM dataSize)
    runWmeCovariance G di dO a.2.2.1 Ns k

/-- A value of the JSON file. Simplification: numbers, lists of numbers and lists of such lists.
For `examples.py:229-230`. -/
inductive JVal
  | num (x : ℝ)
  | list (l : List ℝ)
  | table (l : List (List ℝ))

/-- `np.array(v)` (`examples.py:229-230`): rows of different lengths raise `ValueError` (NumPy 1.24 or later). -/
def JVal.toArray : JVal → Py NArr
  | .num x => .ok (.scal x)
  | .list l => .ok (.vec l.length l.get)
  | .table l =>
    if ∀ r ∈ l, r.length = (l.headD []).length then
      .ok (.mat ⟨l.length, (l.headD []).length, .of fun i j => (l.getD i []).getD j 0⟩)
    else .error .valueError

/-- The keyword arguments read from the file: `covO` also holds a `cov_o` that is not a 2-D array.
For `examples.py:223-240`. -/
structure JArgs where
  kw : Contours.Args := {}
  covO : Option NArr := none

/-- The keyword arguments `run_contours` accepts besides those the command passes: `close_fig`, and those of the linear
problem. For `examples.py:223-240`. -/
def jsonKeys : List String := ["A", "b", "y", "mean_i", "cov_i", "cov_o", "alpha", "close_fig"]

/-- `cov_i`. Simplification: other arrays than 2-D ones are `unmodelled`. For `examples.py:223-240`. -/
def toTable : Option NArr → Py (Option Arr2)
  | none => .ok none
  | some (.mat C) => .ok (some C)
  | some _ => .error .unmodelled

/-- `alpha`. Simplification: other arrays than 0-d ones are `unmodelled`. For `examples.py:223-240`. -/
def toNumber : Option NArr → Py (Option ℝ)
  | none => .ok none
  | some (.scal x) => .ok (some x)
  | some _ => .error .unmodelled

/-- The keyword arguments: an unknown one, or one that the command passes as well, raises `TypeError`. Simplification:
the keys of the object in the file are different (else the last one counts). For `examples.py:223-240`. -/
def jsonArgs (l : List (String × NArr)) : Py JArgs := do
  raiseIf (∃ p ∈ l, p.1 ∉ jsonKeys) .typeError
  let C ← toTable (l.lookup "cov_i")
  let x ← toNumber (l.lookup "alpha")
  return ⟨{ A := l.lookup "A", b := l.lookup "b", y := l.lookup "y", mean_i := l.lookup "mean_i", cov_i := C,
            alpha := x }, l.lookup "cov_o"⟩

/-- `lin_prob[k] = np.array(lin_prob[k])` for one item of the dictionary. For `examples.py:223-240`. -/
def entry (p : String × JVal) : Py (String × NArr) := do
  let v ← p.2.toArray
  return (p.1, v)

/-- `run_contours(plot_fig, save_path, **lin_prob)`: with a `cov_o` that is not a 2-D array the constructor
succeeds, and `self.cov_o[:od, :od]` (`base.py:1141`) in the first `solve` raises `IndexError`. -/
noncomputable def contoursRun (svd1 : (Fin 2 → ℝ) → SvdOut 1 2) (plot_fig : List String) (save : Bool)
    (a : JArgs) : Py Contours.Out :=
  match a.covO with
  | none => Contours.runContours svd1 (some (.names plot_fig)) save a.kw
  | some (.mat C) => Contours.runContours svd1 (some (.names plot_fig)) save { a.kw with cov_o := some C }
  | some _ => do
    let _ ← Contours.newProblem a.kw
    .error .indexError

/-- The body of `contours` (`examples.py:223-240`). `file` is what `json.load` reads from a path: the items of the
dictionary, in the order of their last assignment. -/
noncomputable def contoursBody (svd1 : (Fin 2 → ℝ) → SvdOut 1 2) (file : String → Py (List (String × JVal)))
    (save_path : String) (lin_prob_file : Option String) (plot_fig : List String) : Py Contours.Out := do
  let items ← match lin_prob_file with
    | none => .ok []
    | some f => file f
  let args ← items.mapM entry
  let a ← jsonArgs args
  contoursRun svd1 plot_fig (decide (save_path ≠ "")) a

/-- `contours -f ... -p ...` (`examples.py:202-240`): click passes the names of figures as a tuple, `["all"]` if none
is given. -/
noncomputable def contours (G : Gen σ) (svd1 : (Fin 2 → ℝ) → SvdOut 1 2) (file : String → Py (List (String × JVal)))
    (save_path : String) (seed : Option ℤ) (lin_prob_file plot_fig : List String) :
    σ → Except Exit Contours.Out × σ :=
  command G seed (.ok (lin_prob_file.getLast?, if plot_fig.isEmpty then ["all"] else plot_fig)) fun _ o =>
    PyM.lift (contoursBody svd1 file save_path o.1 o.2)

/-- What `poisson_generate` prints: the path of the file, or that FEniCS is missing. For `examples.py:663-679`. -/
inductive Printed
  | path (p : Option String)
  | unable

/-- `Path(save_path).mkdir(exist_ok=True)` of the group's callback (`examples.py:116-117`). Simplification: the parent
directory exists and no file has this name. -/
def mkdir (K : Fenics.Disk) (d : String) : Fenics.Disk := { K with dir := fun q => decide (q = d) || K.dir q }

/-- `try: ... except ModuleNotFoundError` (`examples.py:663-679`). -/
noncomputable def generateBody (D : Fenics.Dolfin) (G : Gen σ) (K : Fenics.Disk) (save_path : String) (seed : Option ℕ)
    (n m : ℕ) (mins maxs low high : List ℝ) (gamma : ℤ) : PyM σ (Printed × Fenics.Disk) := fun s =>
  match Fenics.runFenics D G K n m mins maxs low high gamma (some save_path) seed s with
  | (.ok o, t) => (.ok (.path o.path, o.disk), t)
  | (.error .moduleNotFoundError, t) => (.ok (.unable, K), t)
  | (.error e, t) => (.error e, t)

/-- `poisson_generate NUM_SAMPLES NUM_SENSORS --mins ... --maxs ... --sensor_low ... --sensor_high ... -g ...`
(`examples.py:534-681`); the limits of the axes are not used. Negative numbers raise `ValueError` when the numbers are
drawn. Simplification: they do so first. -/
noncomputable def poissonGenerate (D : Fenics.Dolfin) (G : Gen σ) (K : Fenics.Disk) (save_path : String)
    (seed : Option ℤ) (num_samples num_sensors : Tok) (mins maxs sensor_low sensor_high gamma : List Tok) :
    σ → Except Exit (Printed × Fenics.Disk) × σ :=
  command G seed (do
      let n ← asInt num_samples
      let m ← asInt num_sensors
      let a ← several asFloat [-4, -4] mins
      let b ← several asFloat [0, 0] maxs
      let l ← several asFloat [0, 0] sensor_low
      let h ← several asFloat [1, 1] sensor_high
      let g ← single asInt (-3) gamma
      return ((n, m), (a, b), (l, h), g)) fun k o => do
    let n ← PyM.lift (size o.1.1)
    let m ← PyM.lift (size o.1.2)
    generateBody D G (mkdir K save_path) save_path k n m o.2.1.1 o.2.1.2 o.2.2.1.1 o.2.2.1.2 o.2.2.2

end Cli

end Verif
