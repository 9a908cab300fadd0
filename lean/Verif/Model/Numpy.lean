import Verif.Lemmas.Pinv

/-!
# NumPy vocabulary used by the linear-algebra part of `mud`

Two-dimensional arrays carry their shape; every operation checks shapes at run
time and raises what NumPy raises.  This file models the *library* the code in
`/repo/src/mud` calls, not the code itself; each definition names the NumPy
operation and a place in `/repo` that uses it.

Simplification (everywhere): entries are exact reals instead of binary64.
-/

open Matrix

namespace Verif

/-- Python exception classes raised by (or through) the code in `/repo/src/mud`.
`unmodelled` marks the few places where the code would go on with values outside
the model (for instance a `nan` in a purely real computation). For `base.py:1036-1360`. -/
inductive Err
  | valueError | assertionError | linAlgError | typeError | attributeError
  | indexError | keyError | nameError | unboundLocalError | zeroDivisionError
  | fileNotFoundError | moduleNotFoundError | runtimeError | osError | keyboardInterrupt | unmodelled
  deriving DecidableEq, Repr

/-- Result of a Python computation: a value or a raised exception. For `base.py:1036-1360`. -/
abbrev Py := Except Err

theorem Py.bind_eq_ok {α β} {x : Py α} {f : α → Py β} {b : β} :
    (x >>= f) = .ok b ↔ ∃ a, x = .ok a ∧ f a = .ok b := by
  cases x with
  | error e => exact ⟨fun h => by (cases h), fun ⟨_, h, _⟩ => by cases h⟩
  | ok a => exact ⟨fun h => ⟨a, rfl, h⟩, fun ⟨_, h, h'⟩ => by cases h; exact h'⟩
@[simp] theorem Py.ok_bind {α β} (a : α) (f : α → Py β) : (Except.ok a >>= f) = f a := rfl
@[simp] theorem Py.error_bind {α β} (e : Err) (f : α → Py β) :
    ((Except.error e : Py α) >>= f) = Except.error e := rfl
@[simp] theorem Py.pure_eq {α} (a : α) : (pure a : Py α) = Except.ok a := rfl
@[simp] theorem Py.ok_map {α β} (a : α) (f : α → β) : (f <$> (Except.ok a : Py α)) = Except.ok (f a) := rfl
@[simp] theorem Py.error_map {α β} (e : Err) (f : α → β) :
    (f <$> (Except.error e : Py α)) = Except.error e := rfl

/-- `assert cond` (e.g. `src/mud/base.py:1216`). -/
def pyAssert (p : Prop) [Decidable p] : Py Unit :=
  if p then .ok () else .error .assertionError

/-- `if cond: raise ValueError` (e.g. `src/mud/base.py:1064`). -/
def raiseIf (p : Prop) [Decidable p] (e : Err) : Py Unit :=
  if p then .error e else .ok ()

@[simp] theorem pyAssert_true {p : Prop} [Decidable p] (h : p) : pyAssert p = .ok () := if_pos h
@[simp] theorem pyAssert_false {p : Prop} [Decidable p] (h : ¬ p) :
    pyAssert p = .error .assertionError := if_neg h
@[simp] theorem raiseIf_false {p : Prop} [Decidable p] (h : ¬ p) (e : Err) :
    raiseIf p e = .ok () := if_neg h
@[simp] theorem raiseIf_true {p : Prop} [Decidable p] (h : p) (e : Err) :
    raiseIf p e = .error e := if_pos h

/-- A stateful Python method: mutations performed before an exception persist. For `base.py:1036-1360`. -/
def PyM (σ α : Type) := σ → Py α × σ

namespace PyM
variable {σ α β : Type}

/-- `pure`. For `base.py:1036-1360`. -/
protected def pure (a : α) : PyM σ α := fun s => (.ok a, s)
/-- `bind`. For `base.py:1036-1360`. -/
protected def bind (x : PyM σ α) (f : α → PyM σ β) : PyM σ β := fun s =>
  match x s with
  | (.ok a, s') => f a s'
  | (.error e, s') => (.error e, s')

/-- The notation. For `base.py:1036-1360`. -/
instance : Monad (PyM σ) where
  pure := PyM.pure
  bind := PyM.bind

/-- A computation that does not touch the state. For `base.py:1036-1360`. -/
def lift (x : Py α) : PyM σ α := fun s => (x, s)
/-- Read `self`. For `base.py:1036-1360`. -/
def get : PyM σ σ := fun s => (.ok s, s)
/-- Assign to attributes of `self`. For `base.py:1036-1360`. -/
def modify (f : σ → σ) : PyM σ Unit := fun s => (.ok (), f s)
/-- `raise`. For `base.py:1036-1360`. -/
def throw (e : Err) : PyM σ α := fun s => (.error e, s)

/-- `if b: x`. For `base.py:1036-1360`. -/
def when (b : Bool) (x : PyM σ Unit) : PyM σ Unit := if b then x else PyM.pure ()

@[simp] theorem when_true (x : PyM σ Unit) : when true x = x := rfl
@[simp] theorem when_false (x : PyM σ Unit) : when false x = pure () := rfl
@[simp] theorem pure_run (a : α) (s : σ) : (pure a : PyM σ α) s = (.ok a, s) := rfl
theorem bind_run (x : PyM σ α) (f : α → PyM σ β) (s : σ) :
    (x >>= f) s = match x s with
      | (.ok a, s') => f a s'
      | (.error e, s') => (.error e, s') := rfl
@[simp] theorem lift_run (x : Py α) (s : σ) : lift x s = (x, s) := rfl
@[simp] theorem get_run (s : σ) : (get : PyM σ σ) s = (.ok s, s) := rfl
@[simp] theorem modify_run (f : σ → σ) (s : σ) : modify f s = (.ok (), f s) := rfl
@[simp] theorem throw_run (e : Err) (s : σ) : (throw e : PyM σ α) s = (.error e, s) := rfl
@[simp] theorem lift_ok_bind (a : α) (f : α → PyM σ β) : (lift (.ok a) >>= f) = f a := rfl
@[simp] theorem lift_error_bind (e : Err) (f : α → PyM σ β) :
    ((lift (.error e) : PyM σ α) >>= f) = throw e := rfl
@[simp] theorem get_bind_run (f : σ → PyM σ β) (s : σ) : (get >>= f) s = f s s := rfl
@[simp] theorem modify_bind_run (g : σ → σ) (f : Unit → PyM σ β) (s : σ) :
    (modify g >>= f) s = f () (g s) := rfl
@[simp] theorem throw_bind (e : Err) (f : α → PyM σ β) : (throw e >>= f) = throw e := rfl
@[simp] theorem pure_bind' (a : α) (f : α → PyM σ β) : (pure a >>= f) = f a := rfl

end PyM

/-- A two-dimensional `np.ndarray` of floats with its shape `(r, c)`. For `base.py:1036-1360`. -/
structure Arr2 where
  r : ℕ
  c : ℕ
  m : Matrix (Fin r) (Fin c) ℝ

/-- Array inputs as users pass them: `np.array(x)` of 0, 1 or 2 dimensions. For `base.py:1036-1360`. -/
inductive NArr
  | scal (x : ℝ)
  | vec (n : ℕ) (v : Fin n → ℝ)
  | mat (A : Arr2)

namespace Arr2

/-- Entry by natural-number index; `0` outside (only ever used inside the bounds). For `base.py:1036-1360`. -/
def get (A : Arr2) (i j : ℕ) : ℝ :=
  if h : i < A.r ∧ j < A.c then A.m ⟨i, h.1⟩ ⟨j, h.2⟩ else 0

theorem ext_get {A B : Arr2} (hr : A.r = B.r) (hc : A.c = B.c)
    (h : ∀ i j, i < A.r → j < A.c → A.get i j = B.get i j) : A = B := by
  obtain ⟨r, c, M⟩ := A
  obtain ⟨r', c', M'⟩ := B
  obtain rfl : r = r' := hr
  obtain rfl : c = c' := hc
  congr 1
  ext i j
  simpa [get] using h i j i.2 j.2

@[simp] theorem get_mk {r c : ℕ} (M : Matrix (Fin r) (Fin c) ℝ) (i : Fin r) (j : Fin c) :
    (Arr2.mk r c M).get i j = M i j := by simp [get]

theorem get_mk' {r c : ℕ} (M : Matrix (Fin r) (Fin c) ℝ) {i j : ℕ} (hi : i < r) (hj : j < c) :
    (Arr2.mk r c M).get i j = M ⟨i, hi⟩ ⟨j, hj⟩ := by simp [get, hi, hj]

@[simp] theorem mk_inj {r c : ℕ} {M N : Matrix (Fin r) (Fin c) ℝ} :
    Arr2.mk r c M = Arr2.mk r c N ↔ M = N := by
  constructor
  · intro h; injection h
  · rintro rfl; rfl

/-- A column vector, shape `(n, 1)`. For `base.py:1036-1360`. -/
def col {n : ℕ} (v : Fin n → ℝ) : Arr2 := ⟨n, 1, .of fun i _ => v i⟩

/-- A single row, shape `(1, n)`. For `base.py:1036-1360`. -/
def row {n : ℕ} (v : Fin n → ℝ) : Arr2 := ⟨1, n, .of fun _ j => v j⟩

@[simp] theorem col_inj {n : ℕ} {v w : Fin n → ℝ} : col v = col w ↔ v = w := by
  unfold col
  rw [mk_inj]
  constructor
  · intro h; funext i; simpa using congrFun (congrFun h i) 0
  · rintro rfl; rfl

/-- `np.zeros((r, c))` (`base.py:1051`). -/
def zeros (r c : ℕ) : Arr2 := ⟨r, c, 0⟩

/-- `np.eye(n)` (`base.py:1056`). -/
def eye (n : ℕ) : Arr2 := ⟨n, n, 1⟩

/-- `X.T`. For `base.py:1036-1360`. -/
def T (A : Arr2) : Arr2 := ⟨A.c, A.r, A.mᵀ⟩

/-- `c * X` for a scalar `c`. For `base.py:1036-1360`. -/
def smul (c : ℝ) (A : Arr2) : Arr2 := ⟨A.r, A.c, c • A.m⟩

/-- `X @ Y` for 2-D arrays; `ValueError` if the inner dimensions differ. For `base.py:1036-1360`. -/
noncomputable def matmul (A B : Arr2) : Py Arr2 :=
  if h : A.c = B.r then .ok ⟨A.r, B.c, A.m * B.m.submatrix (Fin.cast h) id⟩
  else .error .valueError

/-- NumPy broadcasting of one axis length against another. For `base.py:1036-1360`. -/
def bdim (a b : ℕ) : Option ℕ :=
  if a = b then some a else if a = 1 then some b else if b = 1 then some a else none

/-- Entry of a broadcast array: an axis of length 1 is repeated. For `base.py:1036-1360`. -/
def bget (A : Arr2) (i j : ℕ) : ℝ :=
  A.get (if A.r = 1 then 0 else i) (if A.c = 1 then 0 else j)

/-- Elementwise binary operation with broadcasting; `ValueError` if the shapes
cannot be broadcast (`+`, `-`, `*` on 2-D arrays). For `base.py:1036-1360`. -/
def zipB (f : ℝ → ℝ → ℝ) (A B : Arr2) : Py Arr2 :=
  match bdim A.r B.r, bdim A.c B.c with
  | some r, some c => .ok ⟨r, c, .of fun i j => f (A.bget i j) (B.bget i j)⟩
  | _, _ => .error .valueError

/-- `X + Y`. For `base.py:1036-1360`. -/
def add := zipB (· + ·)
/-- `X - Y`. For `base.py:1036-1360`. -/
def sub := zipB (· - ·)
/-- `X * Y` (elementwise). For `base.py:1036-1360`. -/
def hmul := zipB (· * ·)

/-- `np.sum(X, axis=0)`: column sums, a 1-D array with one entry per column. For `base.py:1036-1360`. -/
def colSums (A : Arr2) : Fin A.c → ℝ := fun j => ∑ i, A.m i j

/-- `np.linalg.inv`: `LinAlgError` unless square and non-singular. For `base.py:1036-1360`. -/
noncomputable def inv (A : Arr2) : Py Arr2 :=
  if h : A.r = A.c then
    let M : Matrix (Fin A.r) (Fin A.r) ℝ := A.m.submatrix id (Fin.cast h)
    if M.det = 0 then .error .linAlgError else .ok ⟨A.r, A.r, M⁻¹⟩
  else .error .linAlgError

/-- `np.linalg.pinv`: the Moore–Penrose inverse (existence is proved in
`Lemmas/Pinv.lean`).  Simplification: NumPy additionally treats singular values
below `rcond * max` (`rcond = 1e-15`) as zero; in exact arithmetic we do not. For `base.py:1036-1360`. -/
noncomputable def pinv (A : Arr2) : Arr2 := ⟨A.c, A.r, mpinv A.m⟩

/-- Python's normalisation of the slice bound `[:k]` on an axis of length `n`. For `base.py:1036-1360`. -/
def pyStop (n : ℕ) (k : ℤ) : ℕ := if k < 0 then (n + k).toNat else min k.toNat n

theorem pyStop_le (n : ℕ) (k : ℤ) : pyStop n k ≤ n := by
  unfold pyStop; split <;> omega

/-- `X[:k, :]`. For `base.py:1036-1360`. -/
def takeRows (A : Arr2) (k : ℤ) : Arr2 :=
  ⟨pyStop A.r k, A.c, A.m.submatrix (Fin.castLE (pyStop_le _ _)) id⟩

/-- `X[:k, :k]`. For `base.py:1036-1360`. -/
def takeBlock (A : Arr2) (k : ℤ) : Arr2 :=
  ⟨pyStop A.r k, pyStop A.c k, 
    A.m.submatrix (Fin.castLE (pyStop_le _ _)) (Fin.castLE (pyStop_le _ _))⟩

/-- `X.reshape(-1, 1)` of a 2-D array (row-major order). For `base.py:1036-1360`. -/
def ravelCol (A : Arr2) : Arr2 :=
  ⟨A.r * A.c, 1, .of fun k _ => A.m (finProdFinEquiv.symm k).1 (finProdFinEquiv.symm k).2⟩

/-- `np.vstack((X, Y))`; `ValueError` if the column counts differ. For `base.py:1036-1360`. -/
def vstack (A B : Arr2) : Py Arr2 :=
  if h : A.c = B.c then
    .ok ⟨A.r + B.r, A.c, .of fun i j => Fin.addCases (fun a => A.m a j) (fun b => B.m b (Fin.cast h j)) i⟩
  else .error .valueError

/-! ### Behaviour on well-shaped arguments -/

section simpLemmas
variable {r c k : ℕ}

@[simp] theorem T_mk (A : Matrix (Fin r) (Fin c) ℝ) : T ⟨r, c, A⟩ = ⟨c, r, Aᵀ⟩ := rfl
@[simp] theorem smul_mk (a : ℝ) (A : Matrix (Fin r) (Fin c) ℝ) : smul a ⟨r, c, A⟩ = ⟨r, c, a • A⟩ := rfl
@[simp] theorem pinv_mk (A : Matrix (Fin r) (Fin c) ℝ) : pinv ⟨r, c, A⟩ = ⟨c, r, mpinv A⟩ := rfl

@[simp] theorem matmul_mk (A : Matrix (Fin r) (Fin c) ℝ) (B : Matrix (Fin c) (Fin k) ℝ) :
    matmul ⟨r, c, A⟩ ⟨c, k, B⟩ = .ok ⟨r, k, A * B⟩ := by
  simp [matmul]

@[simp] theorem bdim_self (a : ℕ) : bdim a a = some a := by simp [bdim]

theorem bget_mk (A : Matrix (Fin r) (Fin c) ℝ) (i : Fin r) (j : Fin c) :
    bget ⟨r, c, A⟩ i j = A i j := by
  have hi : (if r = 1 then 0 else (i : ℕ)) = i := by
    split
    · have := i.2; omega
    · rfl
  have hj : (if c = 1 then 0 else (j : ℕ)) = j := by
    split
    · have := j.2; omega
    · rfl
  simp [bget, hi, hj]

@[simp] theorem zipB_mk (f : ℝ → ℝ → ℝ) (A B : Matrix (Fin r) (Fin c) ℝ) :
    zipB f ⟨r, c, A⟩ ⟨r, c, B⟩ = .ok ⟨r, c, .of fun i j => f (A i j) (B i j)⟩ := by
  simp [zipB, bget_mk]

@[simp] theorem add_mk (A B : Matrix (Fin r) (Fin c) ℝ) :
    add ⟨r, c, A⟩ ⟨r, c, B⟩ = .ok ⟨r, c, A + B⟩ := by
  rw [add, zipB_mk]; rfl

@[simp] theorem sub_mk (A B : Matrix (Fin r) (Fin c) ℝ) :
    sub ⟨r, c, A⟩ ⟨r, c, B⟩ = .ok ⟨r, c, A - B⟩ := by
  rw [sub, zipB_mk]; rfl

@[simp] theorem inv_mk (A : Matrix (Fin r) (Fin r) ℝ) :
    inv ⟨r, r, A⟩ = if A.det = 0 then .error .linAlgError else .ok ⟨r, r, A⁻¹⟩ := by
  simp [inv]

theorem inv_mk_of_ne {A : Matrix (Fin r) (Fin r) ℝ} (h : A.det ≠ 0) :
    inv ⟨r, r, A⟩ = .ok ⟨r, r, A⁻¹⟩ := by simp [h]

@[simp] theorem pyStop_self (n : ℕ) : pyStop n (n : ℤ) = n := by
  unfold pyStop; simp

theorem takeRows_full (A : Arr2) {k : ℤ} (h : (A.r : ℤ) ≤ k) : takeRows A k = A := by
  have hk : pyStop A.r k = A.r := by
    unfold pyStop
    rw [if_neg (by omega)]; omega
  refine ext_get hk rfl fun i j hi hj => ?_
  have hi' : i < A.r := hk ▸ hi
  have hj' : j < A.c := hj
  simp [takeRows, get, hi', hj', hk]
  rfl

theorem takeBlock_full (A : Arr2) {k : ℤ} (h : (A.r : ℤ) ≤ k) (h' : (A.c : ℤ) ≤ k) :
    takeBlock A k = A := by
  have hk : pyStop A.r k = A.r := by
    unfold pyStop
    rw [if_neg (by omega)]; omega
  have hk' : pyStop A.c k = A.c := by
    unfold pyStop
    rw [if_neg (by omega)]; omega
  refine ext_get hk hk' fun i j hi hj => ?_
  have hi' : i < A.r := hk ▸ hi
  have hj' : j < A.c := hk' ▸ hj
  simp [takeBlock, get, hi', hj', hk, hk']
  rfl

@[simp] theorem takeRows_mk (A : Matrix (Fin r) (Fin c) ℝ) : takeRows ⟨r, c, A⟩ r = ⟨r, c, A⟩ :=
  takeRows_full _ le_rfl
@[simp] theorem takeBlock_mk (A : Matrix (Fin r) (Fin r) ℝ) : takeBlock ⟨r, r, A⟩ r = ⟨r, r, A⟩ :=
  takeBlock_full _ le_rfl le_rfl

@[simp] theorem ravelCol_col {n : ℕ} (v : Fin n → ℝ) : ravelCol (col v) = col v := by
  refine ext_get (by simp [ravelCol, col]) rfl fun i j hi hj => ?_
  have hi' : i < n := by simpa [ravelCol, col] using hi
  have hj' : j = 0 := by simpa [ravelCol] using hj
  subst hj'
  simp [ravelCol, col, get, hi', finProdFinEquiv, Fin.divNat]

@[simp] theorem vstack_mk (A : Matrix (Fin r) (Fin c) ℝ) (B : Matrix (Fin k) (Fin c) ℝ) :
    vstack ⟨r, c, A⟩ ⟨k, c, B⟩ =
      .ok ⟨r + k, c, .of fun i j => Fin.addCases (fun a => A a j) (fun b => B b j) i⟩ := by
  simp [vstack]

end simpLemmas
end Arr2

namespace NArr

/-- `np.array(x).reshape(-1, 1)`. For `base.py:1036-1360`. -/
def toCol : NArr → Arr2
  | scal x => ⟨1, 1, .of fun _ _ => x⟩
  | vec _ v => Arr2.col v
  | mat A => A.ravelCol

/-- `A if A.ndim == 2 else A.reshape(1, -1)` (`base.py:1048`). -/
def toRow2 : NArr → Arr2
  | scal x => ⟨1, 1, .of fun _ _ => x⟩
  | vec _ v => Arr2.row v
  | mat A => A

end NArr

end Verif
