import Verif.Model.SpatioTemporal

/-!
# Specification vocabulary for `SpatioTemporalProblem`

Small definitions used to state C47-C59, C72; independent of how the model computes.
-/

namespace Verif.SpecST

open ND

/-- `sel` is the list of positions that an index/mask selects on an axis of length `n`, in result
order (no mask selects everything). -/
def Picks (n : ℕ) : Option Mask → List ℕ → Prop
  | none, sel => sel = List.range n
  | some (.ints l), sel =>
    List.Forall₂ (fun (k : ℤ) (i : ℕ) => i < n ∧ ((i : ℤ) = k ∨ (i : ℤ) = k + n)) l sel
  | some (.bools l), sel =>
    l.length = n ∧ sel.Pairwise (· < ·) ∧ ∀ i, i ∈ sel ↔ l[i]? = some true
  | some (.slice a b), sel =>
    sel.Pairwise (· < ·) ∧ ∀ i, i ∈ sel ↔ i < n ∧
      (∀ k ∈ a, (if k < 0 then k + n else k) ≤ i) ∧ (∀ k ∈ b, (i : ℤ) < if k < 0 then k + n else k)
  | some (.int k), sel => ∃ i : ℕ, sel = [i] ∧ i < n ∧ ((i : ℤ) = k ∨ (i : ℤ) = k + n)

/-- A problem that is ready for inversion: `n` samples of `p` parameters, `n × (S·T)` data for `S`
sensors and `T` times, and, if there are measurements, `S·T` of them. -/
structure Ready (P : STP) (n p S T : ℕ) (lam data sensors times : ND) (meas : Option ND) :
    Prop where
  lam_eq : P.lam = some lam
  lam_shape : lam.shape = [n, p]
  data_eq : P.data = some data
  data_shape : data.shape = [n, S * T]
  sensors_eq : P.sensors = some sensors
  sensors_shape : sensors.shape.head? = some S
  times_eq : P.times = some times
  times_shape : times.shape.head? = some T
  meas_eq : P.measurements = meas
  meas_shape : ∀ m ∈ meas, m.shape = [S * T, 1]

end Verif.SpecST

namespace Verif.SpecST

open ND

/-- `D` is the `(n, k)` table of the data array `a`, which is 2-D, a 1-D array (one column) or a
3-D array `(n, s, t)` flattened with the last axis (time) fastest. -/
def TableOf (a D : ND) (n k : ℕ) : Prop :=
  D.shape = [n, k] ∧
    ((a.shape = [n, k] ∧ D = a) ∨
     (a.shape = [n] ∧ k = 1 ∧ ∀ i < n, D.get [i, 0] = a.get [i]) ∨
     ∃ s t, a.shape = [n, s, t] ∧ k = s * t ∧
       ∀ i < n, ∀ x < s, ∀ y < t, D.get [i, x * t + y] = a.get [i, x, y])

/-- Number of entries along the first axis of an array that has one. -/
def HasLen (a : ND) (n : ℕ) : Prop := a.shape.head? = some n

/-- The data column count `k` contradicts the sensors and times already set. -/
def Mismatch (k : ℕ) : Option ND → Option ND → Prop
  | some s, some t => ¬ ∃ S T, HasLen s S ∧ HasLen t T ∧ S * T = k
  | some s, none => ¬ HasLen s k
  | none, some t => ¬ HasLen t k
  | none, none => False

/-- The layout after assigning data with `k` columns. -/
def Completed (k : ℕ) : Option ND → Option ND → ND → ND → Prop
  | some s, some t, s', t' => s' = s ∧ t' = t
  | some s, none, s', t' => s' = s ∧ t'.shape = [1] ∧ t'.data = [0]
  | none, some t, s', t' => s'.shape = [1] ∧ s'.data = [0] ∧ t' = t
  | none, none, s', t' =>
    s'.shape = [1] ∧ s'.data = [0] ∧ t'.shape = [k] ∧ t'.data = (List.range k).map fun i : ℕ => (i : ℝ)

/-- The domain has one row per parameter and contains every sample. -/
def Compatible (P : STP) : Prop :=
  ∀ lam ∈ P.lam, ∃ D ∈ P.domain, ∃ n p, lam.shape = [n, p] ∧ D.shape = [p, 2] ∧
    ∀ i < n, ∀ j < p, D.get [j, 0] ≤ lam.get [i, j] ∧ lam.get [i, j] ≤ D.get [j, 1]

/-- Assignments to `domain` and `lam`. -/
inductive Assign
  | domain (a : ND)
  | lam (a : ND)

/-- Euclidean distance between data row `i` and the vector `m` over the columns `cols`. -/
noncomputable def rowDist (data : ND) (m : ℕ → ℝ) (cols : List ℕ) (i : ℕ) : ℝ :=
  Real.sqrt ((cols.map fun k => (data.get [i, k] - m k) ^ 2).sum)

/-- `i` is the first position `< n` at which `f` is smallest. -/
def FirstMin (n : ℕ) (f : ℕ → ℝ) (i : ℕ) : Prop :=
  i < n ∧ (∀ j < n, f i ≤ f j) ∧ ∀ j < i, f i < f j

end Verif.SpecST
