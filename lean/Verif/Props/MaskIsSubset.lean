import Verif.Props.SensorOrder

/-!
# C174: a selection is the same as having measured only that

`/repo/src/mud/base.py:1844`, `1976-2030`.
-/

namespace Verif

open Matrix ND SpecST STP Prep
open scoped Matrix

variable {user : ℕ → ℝ → ℕ → ℝ}

/-- `lam'`, `data'`, `meas'` hold the entries of `lam`, `data`, `meas` for the samples `a`, times `b`
and sensors `c`; the whole has `T` times and a sample has `p` parameters. -/
structure Holds (p T : ℕ) (a b c : List ℕ) (lam data meas lam' data' meas' : ND) : Prop where
  lam : ∀ (i : Fin a.length) (j : Fin p), lam'.get [i, j] = lam.get [a[i], j]
  data : ∀ (i : Fin a.length) (s : Fin c.length) (t : Fin b.length),
    data'.get [i, s * b.length + t] = data.get [a[i], c[s] * T + b[t]]
  meas : ∀ (s : Fin c.length) (t : Fin b.length),
    meas'.get [s * b.length + t, 0] = meas.get [c[s] * T + b[t], 0]

/-- The residuals of the problem that holds the selected entries only. -/
theorem selResid_holds {p T : ℕ} {a b c : List ℕ} {lam data meas lam' data' meas' : ND}
    (h : Holds p T a b c lam data meas lam' data' meas') (sd : ℝ) :
    resTab a.length (c.length * b.length) data' (fun j => meas'.get [j, 0]) sd =
      ⟨a.length, c.length * b.length, selResid T a b c data meas sd⟩ := by
  unfold resTab selResid
  congr 1
  ext i j
  obtain ⟨⟨s, t⟩, rfl⟩ := finProdFinEquiv.surjective j
  have hst : ((finProdFinEquiv (s, t) : Fin (c.length * b.length)) : ℕ) = s * b.length + t := by
    simp [finProdFinEquiv, Nat.add_comm, Nat.mul_comm]
  simp only [of_apply, Equiv.symm_apply_apply]
  rw [hst, h.meas, h.data]

/-- **C174.** Let `P` be a spatio-temporal problem with measurements and `P'` a problem with the same
noise level and domain that holds only the samples `a`, times `b` and sensors `c` of `P` (in that
order). Building a density problem from `P` with masks that select `a`, `b` and `c` gives exactly the
result of building it from the whole of `P'`: the same density problem or the same error, for every
map of the data, number of components and sample weights. -/
theorem C174_selection (ext : Decomp) {P P' : STP} {n p S T : ℕ} {lam data sensors times meas D : ND}
    {lam' data' sensors' times' meas' : ND}
    (h : Ready P n p S T lam data sensors times (some meas))
    {ms mt mx : Option Mask} (hms : ListLike ms) (hmt : ListLike mt) (hmx : ListLike mx)
    {a b c : List ℕ} (ha : Picks n ms a) (hb : Picks T mt b) (hc : Picks S mx c)
    (hb0 : b ≠ []) (hc0 : c ≠ [])
    (htd : times.data.length = T) (hs2 : mx ≠ none → sensors.shape = [S, 2])
    {sd : ℝ} (hsd : P.stdDev = some sd) (h0 : sd ≠ 0) (hD : P.domain = some D)
    (h' : Ready P' a.length p c.length b.length lam' data' sensors' times' (some meas'))
    (hsd' : P'.stdDev = some sd) (hD' : P'.domain = some D)
    (hh : Holds p T a b c lam data meas lam' data' meas')
    (method : String) (sw : Option NArr) (nc : ℕ) :
    P.mudProblem ext method none sw nc ms mt mx = P'.mudProblem ext method none sw nc := by
  have hk : c.length * b.length ≠ 0 :=
    mul_ne_zero (by simpa using hc0) (by simpa using hb0)
  rw [mudProblem_masked ext h hms hmt hmx ha hb hc hb0 hc0 htd hs2 hsd h0 hD method sw nc,
    mudProblem_whole ext h' hk hsd' h0 method none sw nc, selResid_holds hh sd, hD',
    toNArr_two h'.lam_shape]
  have hX : (Matrix.of fun (i : Fin a.length) (j : Fin p) => lam'.get [(i : ℕ), (j : ℕ)]) =
      .of fun i j => lam.get [a[i], j] := by ext i j; exact hh.lam i j
  rw [hX]
  rfl

/-- Hence every history of operations on the two density problems gives the same estimate. -/
theorem C174_estimates (ext : Decomp) {P P' : STP} {n p S T : ℕ}
    {lam data sensors times meas D : ND} {lam' data' sensors' times' meas' : ND}
    (h : Ready P n p S T lam data sensors times (some meas))
    {ms mt mx : Option Mask} (hms : ListLike ms) (hmt : ListLike mt) (hmx : ListLike mx)
    {a b c : List ℕ} (ha : Picks n ms a) (hb : Picks T mt b) (hc : Picks S mx c)
    (hb0 : b ≠ []) (hc0 : c ≠ [])
    (htd : times.data.length = T) (hs2 : mx ≠ none → sensors.shape = [S, 2])
    {sd : ℝ} (hsd : P.stdDev = some sd) (h0 : sd ≠ 0) (hD : P.domain = some D)
    (h' : Ready P' a.length p c.length b.length lam' data' sensors' times' (some meas'))
    (hsd' : P'.stdDev = some sd) (hD' : P'.domain = some D)
    (hh : Holds p T a b c lam data meas lam' data' meas')
    {method : String} {sw : Option NArr} {nc : ℕ} {Q Q' : DP}
    (hQ : P.mudProblem ext method none sw nc ms mt mx = .ok Q)
    (hQ' : P'.mudProblem ext method none sw nc = .ok Q') (E : Env) (ops : List DOp) :
    (DP.mudPoint E (Q.after E ops)).1 = (DP.mudPoint E (Q'.after E ops)).1 ∧
      (DP.expectedRatio E (Q.after E ops)).1 = (DP.expectedRatio E (Q'.after E ops)).1 := by
  rw [C174_selection ext h hms hmt hmx ha hb hc hb0 hc0 htd hs2 hsd h0 hD h' hsd' hD' hh, hQ'] at hQ
  cases hQ
  exact ⟨rfl, rfl⟩

/-! ### Concrete case: one of two sensors -/

/-- The second sensor of `pairST`, and the second sample only. -/
def secondST : STP where
  domain := some (ndOfNats [1, 2] [0, 9] rfl)
  lam := some (ndOfNats [1, 1] [2] rfl)
  data := some (ndOfNats [1, 1] [3] rfl)
  sensors := some (ndOfNats [1, 2] [1, 1] rfl)
  times := some (STP.arange 1)
  measurements := some (ndOfNats [1, 1] [5] rfl)
  stdDev := some 1

/-- C174: selecting the second sample and the second sensor of `pairST` is `secondST`, whatever the
map of the data. -/
example (ext : Decomp) (method : String) :
    pairST.mudProblem ext method none none 1 (some (.ints [-1])) none
      (some (.bools [false, true])) = secondST.mudProblem ext method none none 1 := by
  have hl : ListLike none := fun _ h => by cases h
  refine C174_selection ext pairST_ready (fun _ h => by cases h) hl (fun _ h => by cases h)
    (a := [1]) (b := [0]) (c := [1]) (resolve_ok.1 rfl) rfl (resolve_ok.1 rfl) (by simp) (by simp)
    rfl (fun _ => rfl) rfl one_ne_zero rfl
    ⟨rfl, rfl, rfl, rfl, rfl, rfl, rfl, rfl, rfl, fun _ h => by cases h; rfl⟩ rfl rfl
    ⟨fun i j => ?_, fun i s t => ?_, fun s t => ?_⟩ method none 1
  · change Fin 1 at i
    fin_cases i; fin_cases j; rfl
  · change Fin 1 at i s t
    fin_cases i; fin_cases s; fin_cases t; rfl
  · change Fin 1 at s t
    fin_cases s; fin_cases t; rfl

end Verif
