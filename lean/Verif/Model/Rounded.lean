import Verif.Model.Wme
import Verif.Model.Density
import Mathlib.Data.Int.Log

/-!
# The arithmetic of `wme`, `DensityProblem` and `BayesProblem` in floating point

The other model files compute with exact reals.  Here every arithmetic operation of `funs.wme`
(`/repo/src/mud/funs.py:23-47`), of `DensityProblem.fit`, `mud_point`, `expected_ratio`
(`/repo/src/mud/base.py:311-422`) and of `BayesProblem.fit`, `map_point` (`base.py:816-839`) is rounded, and sums are
taken in any order NumPy may choose.

Simplification: the exponent range is unbounded (no underflow, no overflow of finite values).
-/

namespace Verif

/-- A floating-point arithmetic: the rounding function, a bound for its relative error, and `np.sum`.
For `funs.py:40-47`, `base.py:311-422`. -/
structure Arith where
  fl : ℝ → ℝ
  u : ℝ
  sum : List ℝ → ℝ

/-- `s` comes out when the numbers in the collection are added in some order and with some bracketing, each addition
rounded by `fl`. For `funs.py:40-47`, `base.py:311-422`. -/
inductive FlSum (fl : ℝ → ℝ) : Multiset ℝ → ℝ → Prop
  | single (x : ℝ) : FlSum fl {x} x
  | add {a b : Multiset ℝ} {s t : ℝ} : FlSum fl a s → FlSum fl b t → FlSum fl (a + b) (fl (s + t))

/-- The standard model of floating-point arithmetic: every operation returns the exact result up to a relative error
of at most `u < 1`, and a sum is a sequence of rounded additions. For `funs.py:40-47`, `base.py:311-422`. -/
structure Arith.Standard (R : Arith) : Prop where
  u0 : 0 ≤ R.u
  u1 : R.u < 1
  err : ∀ x, |R.fl x - x| ≤ R.u * |x|
  sum_nil : R.sum [] = 0
  sum_cons : ∀ l ≠ [], FlSum R.fl l (R.sum l)

/-- The nearest number with `p` binary digits (ties towards +∞). For `funs.py:40-47`, `base.py:311-422`. -/
noncomputable def roundTo (p : ℕ) (x : ℝ) : ℝ :=
  round (x / (2 : ℝ) ^ (Int.log 2 |x| + 1 - p)) * (2 : ℝ) ^ (Int.log 2 |x| + 1 - p)

/-- Pairwise summation, the scheme of `np.sum` (with blocks of one number). For `funs.py:40-47`, `base.py:311-422`. -/
def pairSum (fl : ℝ → ℝ) : ℕ → List ℝ → ℝ
  | _, [] => 0
  | _, [x] => x
  | 0, x :: l => l.foldl (fun s y => fl (s + y)) x
  | k + 1, l => fl (pairSum fl k (l.take (l.length / 2)) + pairSum fl k (l.drop (l.length / 2)))

/-- Arithmetic with `p` binary digits; double precision is `binary 53`. For `funs.py:40-47`, `base.py:311-422`. -/
noncomputable def binary (p : ℕ) : Arith :=
  ⟨roundTo p, 1 / 2 ^ p, fun l => pairSum (roundTo p) l.length l⟩

/-- Rounding of a float: infinities and `nan` stay. For `funs.py:40-47`, `base.py:311-422`. -/
def F.rnd (fl : ℝ → ℝ) : F → F
  | .fin x => .fin (fl x)
  | a => a

/-- The number in a finite float. For `funs.py:40-47`, `base.py:311-422`. -/
def F.val : F → ℝ
  | .fin x => x
  | _ => 0

open Classical in
/-- `np.sum` of a 1-D array: with an infinity or a `nan` among the entries the order does not matter.
For `funs.py:40-47`, `base.py:311-422`. -/
noncomputable def Arith.sumF (R : Arith) (l : List F) : F :=
  if ∀ a ∈ l, ∃ x, a = .fin x then .fin (R.sum (l.map F.val)) else l.sum

/-- `funs.wme(predictions, data, sd)` (`funs.py:40-47`) with rounding, for a given nonzero `sd`. -/
noncomputable def wmeFl (R : Arith) (predictions data : NArr) (sd : ℝ) : Py (List ℝ) := do
  let predictions ← match predictions with
    | .scal _ => .error .indexError
    | .vec _ v => pure (Arr2.row v)
    | .mat A => pure A
  let N := predictions.c
  let n ← data.len
  raiseIf (N ≠ n) .valueError
  let diff ← predictions.sub data.bcast2
  let c : ℝ := R.fl (1 / R.fl (sd * R.fl (Real.sqrt N)))
  return List.ofFn fun i : Fin diff.r => R.sum (List.ofFn fun j => R.fl (c * R.fl (diff.m i j)))

namespace DP

/-- `DensityProblem.fit` (`base.py:311-352`) with rounding. -/
noncomputable def fitFl (R : Arith) (env : Env) (d : Option Dist := none) (bw : ℕ := 0)
    (weights : Option NArr := none) : PyM DP Unit := do
  let P ← PyM.get
  PyM.when P.init.isNone (setInitial none)
  let P ← PyM.get
  PyM.when P.pr.isNone (setPredicted env d bw weights)
  let P ← PyM.get
  PyM.when P.ob.isNone (setObserved none)
  let P ← PyM.get
  let ob ← PyM.lift (theAttr P.ob)
  let pr ← PyM.lift (theAttr P.pr)
  let ini ← PyM.lift (theAttr P.init)
  let r ← PyM.lift (bzip1 (fun a b => (a / b).rnd R.fl) ob pr)
  PyM.modify fun s => { s with r := some r }
  let iw ← PyM.lift (bzip1 (fun a b => (a * b).rnd R.fl) ini P.weights)
  let u ← PyM.lift (bzip1 (fun a b => (a * b).rnd R.fl) iw r)
  PyM.modify fun s => { s with up := some u }

/-- `DensityProblem.mud_point` (`base.py:354-379`) with rounding. -/
noncomputable def mudPointFl (R : Arith) (env : Env) : PyM DP (List ℝ) := do
  let P ← PyM.get
  PyM.when P.up.isNone (fitFl R env)
  let P ← PyM.get
  let u ← PyM.lift (theAttr P.up)
  let m ← PyM.lift (npArgmax u)
  PyM.lift (P.X.rowAt m)

open Classical in
/-- `np.average(a, weights=w)` with rounding. For `funs.py:40-47`, `base.py:311-422`. -/
noncomputable def npAverageFl (R : Arith) (a w : List F) : Py F := do
  raiseIf (a.length ≠ w.length) .typeError
  raiseIf (R.sumF w = .fin 0) .zeroDivisionError
  return (R.sumF (List.zipWith (fun x y => (x * y).rnd R.fl) a w) / R.sumF w).rnd R.fl

/-- `DensityProblem.expected_ratio` (`base.py:397-422`) with rounding. -/
noncomputable def expectedRatioFl (R : Arith) (env : Env) : PyM DP F := do
  let P ← PyM.get
  PyM.when P.up.isNone (fitFl R env)
  let P ← PyM.get
  let r ← PyM.lift (theAttr P.r)
  PyM.lift (npAverageFl R r P.weights)

end DP

namespace BP

open Classical in
/-- `BayesProblem.fit` (`base.py:816-830`) with rounding. -/
noncomputable def fitFl (R : Arith) : PyM BP Unit := do
  let P ← PyM.get
  PyM.when P.pr.isNone (setPrior none)
  let P ← PyM.get
  PyM.when P.ll.isNone (PyM.throw .typeError)
  let pr ← PyM.lift (DP.theAttr P.pr)
  let ll ← PyM.lift (DP.theAttr P.ll)
  let ps ← PyM.lift (if P.log
    then bzip1 (fun a b => (a + b).rnd R.fl) (pr.map fun a => a.log.rnd R.fl) ll
    else bzip1 (fun a b => (a * b).rnd R.fl) pr ll)
  PyM.lift (pyAssert (ps.length = P.X.r))
  PyM.lift (raiseIf (R.sumF ps = .fin 0) .valueError)
  PyM.modify fun s => { s with ps := some ps }

/-- `BayesProblem.map_point` (`base.py:832-839`) with rounding. -/
noncomputable def mapPointFl (R : Arith) : PyM BP (List ℝ) := do
  let P ← PyM.get
  PyM.when P.ps.isNone (fitFl R)
  let P ← PyM.get
  let u ← PyM.lift (DP.theAttr P.ps)
  let m ← PyM.lift (npArgmax u)
  PyM.lift (P.X.rowAt m)

end BP

end Verif
