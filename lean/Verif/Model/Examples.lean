import Verif.Model.Numpy

/-!
# Helpers of the example problems

Models `print_res` (`/repo/src/mud/examples/examples.py:25-88`) and `piecewise_eval_from_vector`
(`/repo/src/mud/examples/fenics.py:30-50`).
-/

namespace Verif

namespace PrintRes

/-- A value in a record: a string, or anything else (identified by a number). For `examples.py:77-86`. -/
inductive Cell
  | str (s : String)
  | other (k : ℕ)
  deriving DecidableEq

/-- A dictionary. For `examples.py:80-81`. -/
abbrev Rec := List (String × Cell)

/-- `r[f]`. For `examples.py:80-81`. -/
def item (r : Rec) (f : String) : Py Cell :=
  match r.lookup f with
  | some c => .ok c
  | none => .error .keyError

/-- `re.search(match, x) is not None`: `TypeError` unless `x` is a string. For `examples.py:80-81`. -/
def searchIn (re : String → Bool) : Cell → Py Bool
  | .str s => .ok (re s)
  | .other _ => .error .typeError

/-- `r = filter_fun(r)` if a filter function is given. For `examples.py:77-86`. -/
def applyFilter : Option (Rec → Py Rec) → Rec → Py Rec
  | none, r => .ok r
  | some f, r => f r

/-- Is the record listed (`examples.py:80-81`)? -/
def wanted (re : String → Bool) (r : Rec) : Option String → Py Bool
  | none => .ok true
  | some s => do searchIn re (← item r s)

/-- The loop (`examples.py:77-86`); `rows` is the table built so far. -/
def loop (re : String → Bool) (fields : List String) (search : Option String)
    (filterFun : Option (Rec → Py Rec)) : List Rec → List (List Cell) → Py (List (List Cell))
  | [], rows => .ok rows
  | r :: rest, rows => do
    let r ← applyFilter filterFun r
    let b ← wanted re r search
    if b then do
      let row ← fields.mapM (item r)
      loop re fields search filterFun rest (rows ++ [row])
    else loop re fields search filterFun rest rows

/-- `print_res(res, fields, search, match, filter_fun)` (`examples.py:25-88`): the header and the
rows of the table that is printed. `re s` says whether the regular expression `match` is found in
`s`. `PrettyTable` refuses repeated field names (`ValueError`). Simplification: the drawing of the
table (`str(x)`) is not modelled. -/
def printRes (re : String → Bool) (res : List Rec) (fields : List String)
    (search : Option String := none) (filterFun : Option (Rec → Py Rec) := none) :
    Py (List String × List (List Cell)) := do
  raiseIf (¬ fields.Nodup) .valueError
  let rows ← loop re fields search filterFun res []
  return (fields, rows)

end PrintRes

namespace Piecewise

/-- Tokens of the C++ expression. Simplification: numbers are exact; white space is dropped. For `fenics.py:44-48`. -/
inductive Tok
  | num (r : ℝ)
  | x (d : ℕ)
  | lp | rp | ge | lt | and | mul | div | plus | minus

/-- The text appended for one interval (`fenics.py:44-48`):
`((x[d] >= start) && (x[d] < end))*(y0*((x[d]-end)/diff) + (1 - ((x[d]-end)/diff))*y1 ) +`. -/
def piece (d : ℕ) (start stop y0 y1 : ℝ) : List Tok :=
  let diff := start - stop
  [.lp, .lp, .x d, .ge, .num start, .rp, .and, .lp, .x d, .lt, .num stop, .rp, .rp, .mul] ++
  [.lp, .num y0, .mul, .lp, .lp, .x d, .minus, .num stop, .rp, .div, .num diff, .rp, .plus] ++
  [.lp, .num 1, .minus, .lp, .lp, .x d, .minus, .num stop, .rp, .div, .num diff, .rp, .rp, .mul,
    .num y1, .rp, .plus]

/-- `xvals[i]` (`fenics.py:38`). -/
noncomputable def xval (n i : ℕ) : ℝ := i * (1 / ((n : ℝ) + 1))

/-- `yvals` (`fenics.py:39`). -/
def yvals (u : List ℝ) : List ℝ := [0] ++ u ++ [1]

/-- `piecewise_eval_from_vector(u, d)` (`fenics.py:30-50`): the loop over `range(1, n + 2)`, then
`s[1:-1]`, which drops the leading blank and the trailing `+`. -/
noncomputable def evalFromVector (u : List ℝ) (d : ℕ := 1) : List Tok :=
  ((List.range' 1 (u.length + 1)).flatMap fun i =>
    piece d (xval u.length (i - 1)) (xval u.length i) ((yvals u).getD (i - 1) 0)
      ((yvals u).getD i 0)).dropLast

end Piecewise

end Verif
