import Verif.Model.Numpy

/-!
# Figures, files and settings of `mud.plot`

Models the import of `/repo/src/mud/plot.py` (`_check_latex` and the settings, lines 22-68), `save_figure`
(lines 71-97) and `plot_1D_vecs` (lines 147-164).

The state is what these functions share with the rest of the session: matplotlib's settings, the open figures and
the files.  Rendering is an external function (`Mpl`) that may raise anything.
-/

namespace Verif
namespace PlotIo

/-- A value of `plt.rcParams`. For `plot.py:53-67`. -/
inductive Rc
  | bool (b : Bool)
  | num (n : ℕ)
  | str (s : String)
  deriving DecidableEq

/-- What one drawing call leaves on a set of axes. For `plot.py:71-97`. -/
structure Artist where
  kind : String
  x : List ℝ
  y : List ℝ
  label : Option String := none
  opts : List (String × String) := []

/-- A set of axes. For `plot.py:71-97`. -/
structure Axes where
  artists : List Artist := []
  xlabel : String := ""
  ylabel : String := ""
  legend : Bool := false

/-- The session: settings, open figures (the current one first; a figure is the list of its axes, the current ones
first), the axes objects, and the files with their contents. For `plot.py:71-97`. -/
structure Session where
  rc : String → Rc
  figs : List (List ℕ)
  axes : ℕ → Axes
  next : ℕ
  files : String → Option String

/-- Library code outside the model: does `plt.plot` raise; what a figure is rendered to, or the exception and what the
file then holds; does `Path.unlink` raise. For `plot.py:71-97`. -/
structure Mpl where
  plotErr : Session → Option Err
  render : String → List (String × String) → (String → Rc) → List Axes → Except (Err × Option String) String
  unlinkErr : Session → Option Err

/-- `raise` if there is something to raise. For `plot.py:71-97`. -/
def raiseSome : Option Err → PyM Session Unit
  | none => pure ()
  | some e => PyM.throw e

/-- `d[k] = v` for a dictionary. For `plot.py:155-156`. -/
def dset (d : List (String × String)) (k v : String) : List (String × String) :=
  (k, v) :: d.filter fun e => e.1 ≠ k

/-! ## Paths -/

/-- A parsed `PurePosixPath`. For `plot.py:93`. -/
structure PPath where
  root : List Char
  parts : List (List Char)

/-- The root of a path: `//` for exactly two leading slashes. For `plot.py:93`. -/
def rootOf (s : List Char) : List Char :=
  let k := (s.takeWhile (· = '/')).length
  if k = 0 then [] else if k = 2 then ['/', '/'] else ['/']

/-- `Path(s)`: empty and `.` components are dropped. For `plot.py:93`. -/
def parsePath (s : String) : PPath :=
  ⟨rootOf s.toList, (s.toList.splitOn '/').filter fun c => c ≠ [] ∧ c ≠ ['.']⟩

/-- `a / b`: an absolute `b` replaces `a`. For `plot.py:93`. -/
def PPath.join (a b : PPath) : PPath := if b.root ≠ [] then b else ⟨a.root, a.parts ++ b.parts⟩

/-- `str(p)`. For `plot.py:93`. -/
def PPath.str (p : PPath) : String :=
  if p.root = [] ∧ p.parts = [] then "." else String.ofList (p.root ++ List.intercalate ['/'] p.parts)

/-- `str(Path(a) / Path(b))` (`plot.py:93`). -/
def joinPath (a b : String) : String := ((parsePath a).join (parsePath b)).str

/-- `os.path.splitext(p)[1]`. For `plot.py:71-97`. -/
def splitExt (p : List Char) : List Char :=
  let name := (p.reverse.takeWhile (· ≠ '/')).reverse
  let ext := (name.reverse.takeWhile (· ≠ '.')).reverse
  let stem := ((name.reverse.dropWhile (· ≠ '.')).drop 1).reverse
  if stem.any (· ≠ '.') then '.' :: ext else []

/-- The file `plt.savefig(fname, **kwargs)` writes: without a `format` and without an extension, the default format is
appended to the name. For `plot.py:71-97`. -/
def target (rc : String → Rc) (kwargs : List (String × String)) (fname : String) : String :=
  if (kwargs.lookup "format").isSome ∨ (splitExt fname.toList).drop 1 ≠ [] then fname
  else match rc "savefig.format" with
    | .str f => String.ofList ((fname.toList.reverse.dropWhile (· = '.')).reverse ++ '.' :: f.toList)
    | _ => fname

/-! ## pyplot -/

/-- `plt.figure()`. For `plot.py:150-152`. -/
def figure : PyM Session Unit := PyM.modify fun s => { s with figs := [] :: s.figs }

/-- `plt.gcf()`: the current figure, a new one if there is none. For `plot.py:154-157`. -/
def gcf : PyM Session Unit := PyM.modify fun s => { s with figs := if s.figs = [] then [[]] else s.figs }

/-- `fig.add_subplot(1, 1, 1)` on the current figure. For `plot.py:150-152`. -/
def addAxes : PyM Session ℕ := fun s =>
  (.ok s.next, { s with
    figs := (s.next :: s.figs.headD []) :: s.figs.tail
    axes := Function.update s.axes s.next {}
    next := s.next + 1 })

/-- The current axes of a figure, if it has any. For `plot.py:154-157`. -/
def axesOf (f : List ℕ) : PyM Session ℕ :=
  match f with
  | [] => addAxes
  | a :: _ => pure a

/-- `plt.gca()`. For `plot.py:154-157`. -/
def gca : PyM Session ℕ := do
  gcf
  let s ← PyM.get
  axesOf (s.figs.headD [])

/-- Change a set of axes. For `plot.py:147-164`. -/
def onAxes (a : ℕ) (f : Axes → Axes) : PyM Session Unit :=
  PyM.modify fun s => { s with axes := Function.update s.axes a (f (s.axes a)) }

/-- `plt.plot(...)`, `plt.scatter(...)`: on the current axes. For `plot.py:154-157`. -/
def draw (A : Artist) : PyM Session Unit := do
  let a ← gca
  onAxes a fun X => { X with artists := X.artists ++ [A] }

/-- The contents of the current figure, the axes in the order of their creation. For `plot.py:71-97`. -/
def current (s : Session) : List Axes := (s.figs.headD []).reverse.map s.axes

/-- What a rendering leaves in the file. For `plot.py:71-97`. -/
def fileAfter : Except (Err × Option String) String → Option String
  | .ok pic => some pic
  | .error (_, left) => left

/-- What a rendering raises. For `plot.py:71-97`. -/
def raised : Except (Err × Option String) String → Option Err
  | .ok _ => none
  | .error (e, _) => some e

/-- `plt.savefig(fname, **kwargs)`. For `plot.py:71-97`. -/
def savefig (E : Mpl) (fname : String) (kwargs : List (String × String)) : PyM Session Unit := do
  gcf
  let s ← PyM.get
  let p := target s.rc kwargs fname
  let r := E.render p kwargs s.rc (current s)
  PyM.modify fun s => { s with files := Function.update s.files p (fileAfter r) }
  raiseSome (raised r)

/-- `plt.close()`. For `plot.py:71-97`. -/
def close : PyM Session Unit := PyM.modify fun s => { s with figs := s.figs.tail }

/-- `plt.close("all")`. For `plot.py:42`. -/
def closeAll : PyM Session Unit := PyM.modify fun s => { s with figs := [] }

/-- `plt.rcParams.update(d)`. For `plot.py:28-36`. -/
def rcUpdate (d : List (String × Rc)) : PyM Session Unit :=
  PyM.modify fun s => { s with rc := fun k => (d.lookup k).getD (s.rc k) }

/-! ## `mud.plot` -/

/-- `save_figure(fname, save_path, close_fig, **kwargs)` (`plot.py:71-97`). -/
def saveFigure (E : Mpl) (fname : String) (save_path : String := "figures") (close_fig : Bool := true)
    (kwargs : List (String × String) := []) : PyM Session Unit := do
  savefig E (joinPath save_path fname) kwargs
  PyM.when close_fig close

/-- `except classes: return v`. For `plot.py:23-42`. -/
def tryExcept {α : Type} (m : PyM Session α) (classes : List Err) (v : α) : PyM Session α := fun s =>
  match m s with
  | (.error e, s') => if e ∈ classes then (.ok v, s') else (.error e, s')
  | r => r

/-- `finally: f`, for an `f` that does not raise. For `plot.py:23-42`. -/
def tryFinally {α : Type} (m : PyM Session α) (f : Session → Session) : PyM Session α := fun s =>
  ((m s).1, f (m s).2)

/-- `if path.exists(): path.unlink()` (`plot.py:33-34`). -/
def unlinkIfExists (E : Mpl) (path : String) : PyM Session Unit := fun s =>
  if (s.files path).isSome then
    match E.unlinkErr s with
    | some e => (.error e, s)
    | none => (.ok (), { s with files := Function.update s.files path none })
  else (.ok (), s)

/-- `plt.plot(x, y, label=label)`, which may raise. For `plot.py:28-36`. -/
def plot (E : Mpl) (x y : List ℝ) (label : String) : PyM Session Unit := do
  let s ← PyM.get
  raiseSome (E.plotErr s)
  draw { kind := "plot", x := x, y := y, label := some label }

/-- The `try` block of `_check_latex` (`plot.py:28-36`). -/
def tryLatex (E : Mpl) (path : String) : PyM Session Bool := do
  rcUpdate [("text.usetex", .bool true)]
  plot E [0] [1] "$a_\\text{foo} = \\lambda$"
  plot E [0, 1] [1, 2] "Something"
  savefig E path [("bbox_inches", "tight")]
  unlinkIfExists E path
  return true

/-- `_check_latex()` (`plot.py:23-42`) in the working directory `cwd`. -/
def checkLatex (E : Mpl) (cwd : String) : PyM Session Bool := fun s =>
  tryFinally (tryExcept (tryLatex E (joinPath cwd ".test_fig.png")) [.runtimeError, .fileNotFoundError] false)
    (fun s' => { s' with rc := s.rc, figs := [] }) s

/-- `PREAMBLE` (`plot.py:47-51`). -/
def preamble (latex : Bool) : String :=
  if latex then "\\usepackage{bm} \\usepackage{amsfonts} \\usepackage{amsmath}" else ""

/-- `mud_plot_params` (`plot.py:53-67`). -/
def mudPlotParams (latex : Bool) : List (String × Rc) :=
  [("mathtext.fontset", .str "stix"), ("font.family", .str "STIXGeneral"), ("axes.labelsize", .num 14),
   ("axes.titlesize", .num 26), ("legend.fontsize", .num 16), ("xtick.labelsize", .num 14),
   ("ytick.labelsize", .num 14), ("axes.titlepad", .num 1), ("axes.labelpad", .num 1), ("font.size", .num 16),
   ("savefig.facecolor", .str "white"), ("text.usetex", .bool latex), ("text.latex.preamble", .str (preamble latex))]

/-- `import mud.plot` (`plot.py:46-68`): the value of `HAS_LATEX`. -/
def importPlot (E : Mpl) (cwd : String) : PyM Session Bool := do
  let latex ← checkLatex E cwd
  rcUpdate (mudPlotParams latex)
  return latex

/-- `if ax is None: ...` (`plot.py:150-152`). -/
def axesFor (ax : Option ℕ) : PyM Session ℕ :=
  match ax with
  | some a => pure a
  | none => do
    figure
    addAxes

/-- `kwargs` of the `i`-th call (`plot.py:155-156`): `IndexError` if there is no `i`-th marker. -/
def vecOpts (markers : Option (List String)) (kwargs : List (String × String)) (i : ℕ) :
    Py (List (String × String)) :=
  match markers with
  | none => .ok kwargs
  | some ms => match ms[i]? with
    | none => .error .indexError
    | some m => .ok (dset kwargs "marker" m)

/-- The loop (`plot.py:154-157`), from the `i`-th vector on. The option set in one round is overwritten in the next. -/
def plotVecs (markers : Option (List String)) : ℕ → List (String × String) → List (List ℝ) → PyM Session Unit
  | _, _, [] => pure ()
  | i, kwargs, v :: vs => do
    let o ← PyM.lift (vecOpts markers kwargs i)
    draw { kind := "scatter", x := (List.range v.length).map (fun k : ℕ => (k : ℝ)), y := v
           label := some ("$p^{(" ++ toString (i + 1) ++ ")}$"), opts := o }
    plotVecs markers (i + 1) o vs

/-- `plot_1D_vecs(vecs, markers, ax, label, **kwargs)` (`plot.py:147-164`). -/
def plot1DVecs (vecs : List (List ℝ)) (markers : Option (List String) := none) (ax : Option ℕ := none)
    (label : Bool := true) (kwargs : List (String × String) := []) : PyM Session ℕ := do
  let a ← axesFor ax
  plotVecs markers 0 kwargs vecs
  PyM.when label (onAxes a fun X => { X with xlabel := "i", ylabel := "$p^{{(l)}}_i$", legend := true })
  return a

end PlotIo
end Verif
