import Verif.Props.MaskIsSubset

/-!
# C176: the units of the measurements, sensors and times do not matter

`/repo/src/mud/base.py:1716-1733`, `1844-1903`, `1976-2030`.
-/

namespace Verif

open Matrix ND SpecST STP Prep
open scoped Matrix

/-- The data and measurements `data'`, `meas'` are `data`, `meas` in another unit: `n` samples and `k` observations,
multiplied by `c` and shifted by `o j` for observation `j`. -/
structure InUnit (n k : ℕ) (c : ℝ) (o : ℕ → ℝ) (data meas data' meas' : ND) : Prop where
  data : ∀ i < n, ∀ j < k, data'.get [i, j] = c * data.get [i, j] + o j
  meas : ∀ j < k, meas'.get [j, 0] = c * meas.get [j, 0] + o j

theorem col_lt {S T s t : ℕ} (hs : s < S) (ht : t < T) : s * T + t < S * T :=
  calc s * T + t < s * T + T := by omega
    _ = (s + 1) * T := by ring
    _ ≤ S * T := Nat.mul_le_mul_right _ hs

variable {P P' : STP} {n p S T : ℕ} {lam data sensors times meas sensors' times' data' meas' : ND}

/-- **C176.** If the data, measurements and noise level of a problem are expressed in another unit (a non-zero factor and
an offset for each observation), and the sensors and times in any other units, then `mud_problem` gives the same density
problem or the same error: for every selection, map of the data, number of components, and all weights. -/
theorem C176_mud_problem (ext : Decomp) (h : Ready P n p S T lam data sensors times (some meas))
    (h' : Ready P' n p S T lam data' sensors' times' (some meas'))
    {ms mt mx : Option Mask} (hms : ListLike ms) (hmt : ListLike mt) (hmx : ListLike mx)
    {a b c : List ℕ} (ha : Picks n ms a) (hb : Picks T mt b) (hc : Picks S mx c)
    (hb0 : b ≠ []) (hc0 : c ≠ [])
    (htd : times.data.length = T) (htd' : times'.data.length = T)
    (hs2 : mx ≠ none → sensors.shape = [S, 2]) (hs2' : mx ≠ none → sensors'.shape = [S, 2])
    {sd u : ℝ} {o : ℕ → ℝ} (h0 : sd ≠ 0) (hu : u ≠ 0) (hsd : P.stdDev = some sd) (hsd' : P'.stdDev = some (u * sd))
    (hU : InUnit n (S * T) u o data meas data' meas') (hD : P'.domain = P.domain)
    (method : String) (dw : Option ND) (sw : Option NArr) (nc : ℕ) :
    P'.mudProblem ext method dw sw nc ms mt mx = P.mudProblem ext method dw sw nc ms mt mx := by
  obtain ⟨r, hr, hl, hlg, hd, hdg, -, -, -, hm1, hm2⟩ := C48_masks h hms hmt hmx ha hb hc hb0 hc0 htd hs2
  obtain ⟨r', hr', hl', hlg', hd', hdg', -, -, -, hm1', hm2'⟩ :=
    C48_masks h' hms hmt hmx ha hb hc hb0 hc0 htd' hs2'
  obtain ⟨m, hm⟩ : ∃ m, r.meas = some m := Option.isSome_iff_exists.1 (by rw [hm1]; rfl)
  obtain ⟨m', hm'⟩ : ∃ m, r'.meas = some m := Option.isSome_iff_exists.1 (by rw [hm1']; rfl)
  obtain ⟨hms1, hmg⟩ := hm2 m hm meas rfl
  obtain ⟨hms1', hmg'⟩ := hm2' m' hm' meas' rfl
  rw [mudProblem_eq ext method dw sw nc hr' hd' hm' hms1' hsd' (mul_ne_zero hu h0) h'.nData,
    mudProblem_eq ext method dw sw nc hr hd hm hms1 hsd h0 h.nData, hD, toNArr_two hl, toNArr_two hl']
  have hX : (Matrix.of fun (i : Fin a.length) (j : Fin p) => r'.lam.get [(i : ℕ), (j : ℕ)]) =
      .of fun (i : Fin a.length) (j : Fin p) => r.lam.get [(i : ℕ), (j : ℕ)] := by
    ext i j; exact (hlg' i j).trans (hlg i j).symm
  have hR : resTab a.length (c.length * b.length) r'.data (fun j => m'.get [j]) (u * sd) =
      resTab a.length (c.length * b.length) r.data (fun j => m.get [j]) sd := by
    unfold resTab
    congr 1
    ext i j
    obtain ⟨⟨s, t⟩, rfl⟩ := finProdFinEquiv.surjective j
    have hst : ((finProdFinEquiv (s, t) : Fin (c.length * b.length)) : ℕ) = s * b.length + t := by
      simp [finProdFinEquiv, Nat.add_comm, Nat.mul_comm]
    have hlt : c[s] * T + b[t] < S * T :=
      col_lt (Picks.lt hc _ (List.getElem_mem _)) (Picks.lt hb _ (List.getElem_mem _))
    have hai : a[i] < n := Picks.lt ha _ (List.getElem_mem _)
    simp only [of_apply]
    rw [hst, hmg', hdg', hmg, hdg, hU.data _ hai _ hlt, hU.meas _ hlt]
    field_simp
    ring
  rw [hX, hR]

/-- The distances of the samples to the measurements scale. -/
theorem rowDist_units {u : ℝ} {o : ℕ → ℝ} (hU : InUnit n (S * T) u o data meas data' meas') {cols : List ℕ}
    (hc : ∀ k ∈ cols, k < S * T) {i : ℕ} (hi : i < n) :
    rowDist data' (fun col => meas'.get [col, 0]) cols i =
      |u| * rowDist data (fun col => meas.get [col, 0]) cols i := by
  unfold rowDist
  rw [← Real.sqrt_sq_eq_abs, ← Real.sqrt_mul (sq_nonneg u), ← List.sum_map_mul_left]
  congr 2
  refine List.map_congr_left fun k hk => ?_
  simp only []
  rw [hU.data i hi k (hc k hk), hU.meas k (hc k hk)]
  ring

theorem firstMin_unique {k : ℕ} {f : ℕ → ℝ} {i j : ℕ} (hi : FirstMin k f i) (hj : FirstMin k f j) : i = j := by
  rcases lt_trichotomy i j with h | h | h
  · exact absurd (hi.2.1 j hj.1) (not_le.2 (hj.2.2 i h))
  · exact h
  · exact absurd (hj.2.1 i hi.1) (not_le.2 (hi.2.2 j h))

/-- Nor do they matter for the sample closest to the measurements. -/
theorem C176_closest (h : Ready P n p S T lam data sensors times (some meas))
    (h' : Ready P' n p S T lam data' sensors' times' (some meas'))
    {ms mt mx : Option Mask} (hms : ListLike ms) (hmt : ListLike mt) (hmx : ListLike mx)
    {a b c : List ℕ} (ha : Picks n ms a) (hb : Picks T mt b) (hc : Picks S mx c)
    (ha0 : a ≠ []) (hb0 : b ≠ []) (hc0 : c ≠ [])
    (htd : times.data.length = T) (htd' : times'.data.length = T)
    (hs2 : mx ≠ none → sensors.shape = [S, 2]) (hs2' : mx ≠ none → sensors'.shape = [S, 2])
    {u : ℝ} {o : ℕ → ℝ} (hu : u ≠ 0) (hU : InUnit n (S * T) u o data meas data' meas') :
    ∃ x, P'.closestToMeasurements ms mt mx = .ok x ∧ P.closestToMeasurements ms mt mx = .ok x := by
  obtain ⟨i, hi, hmin⟩ := C53_measurements h hms hmt hmx ha hb hc ha0 hb0 hc0 htd hs2
  obtain ⟨i', hi', hmin'⟩ := C53_measurements h' hms hmt hmx ha hb hc ha0 hb0 hc0 htd' hs2'
  have hcols : ∀ k ∈ selCols T c b, k < S * T := by
    intro k hk
    obtain ⟨s, hs, hk⟩ := List.mem_flatMap.1 hk
    obtain ⟨t, ht, rfl⟩ := List.mem_map.1 hk
    exact col_lt (Picks.lt hc _ hs) (Picks.lt hb _ ht)
  have hrow : ∀ k < a.length, a.getD k 0 < n := fun k hk => by
    rw [List.getD_eq_getElem _ _ hk]; exact Picks.lt ha _ (List.getElem_mem _)
  have hpos := abs_pos.2 hu
  have key : FirstMin a.length (fun k => rowDist data' (fun col => meas'.get [col, 0]) (selCols T c b) (a.getD k 0)) i := by
    obtain ⟨h1, h2, h3⟩ := hmin
    refine ⟨h1, fun j hj => ?_, fun j hj => ?_⟩
    · simp only []
      rw [rowDist_units hU hcols (hrow _ h1), rowDist_units hU hcols (hrow _ hj)]
      exact mul_le_mul_of_nonneg_left (h2 j hj) hpos.le
    · simp only []
      rw [rowDist_units hU hcols (hrow _ h1), rowDist_units hU hcols (hrow _ (hj.trans h1))]
      exact mul_lt_mul_of_pos_left (h3 j hj) hpos
  have e := Fin.ext (firstMin_unique key hmin')
  subst e
  exact ⟨_, hi', hi⟩

/-! ### Concrete case -/

/-- `pairST` with the outputs multiplied by two and shifted by one, other sensor coordinates. -/
def pairUnitST : STP where
  domain := some (ndOfNats [1, 2] [0, 9] rfl)
  lam := some (ndOfNats [2, 1] [1, 2] rfl)
  data := some (ndOfNats [2, 2] [1, 3, 5, 7] rfl)
  sensors := some (ndOfNats [2, 2] [0, 0, 7, 8] rfl)
  times := some (STP.arange 1)
  measurements := some (ndOfNats [2, 1] [3, 11] rfl)
  stdDev := some (2 * 1)

theorem pairUnit_ready : Ready pairUnitST 2 1 2 1 (ndOfNats [2, 1] [1, 2] rfl)
    (ndOfNats [2, 2] [1, 3, 5, 7] rfl) (ndOfNats [2, 2] [0, 0, 7, 8] rfl) (STP.arange 1)
    (some (ndOfNats [2, 1] [3, 11] rfl)) :=
  ⟨rfl, rfl, rfl, rfl, rfl, rfl, rfl, rfl, rfl, fun _ h => by cases h; rfl⟩

theorem pairUnit : InUnit 2 (2 * 1) 2 (fun _ => 1) (ndOfNats [2, 2] [0, 1, 2, 3] rfl) (ndOfNats [2, 1] [1, 5] rfl)
    (ndOfNats [2, 2] [1, 3, 5, 7] rfl) (ndOfNats [2, 1] [3, 11] rfl) := by
  constructor
  · intro i hi j hj
    interval_cases i <;> interval_cases j <;> simp [ND.get, offset, ndOfNats] <;> norm_num
  · intro j hj
    interval_cases j <;> simp [ND.get, offset, ndOfNats] <;> norm_num

/-- C176 on it, with the second sensor only. -/
example (ext : Decomp) (method : String) :
    pairUnitST.mudProblem ext method none none 1 none none (some (.ints [1])) =
      pairST.mudProblem ext method none none 1 none none (some (.ints [1])) ∧
    ∃ x, pairUnitST.closestToMeasurements none none (some (.ints [1])) = .ok x ∧
      pairST.closestToMeasurements none none (some (.ints [1])) = .ok x := by
  have hl : ListLike none := fun _ h => by cases h
  have ha : Picks 2 none [0, 1] := rfl
  have hb : Picks 1 none [0] := rfl
  have hc : Picks 2 (some (.ints [1])) [1] := resolve_ok.1 rfl
  exact ⟨C176_mud_problem ext pairST_ready pairUnit_ready hl hl (fun _ h => by cases h) ha hb hc (by simp) (by simp)
      rfl rfl (fun _ => rfl) (fun _ => rfl) one_ne_zero two_ne_zero rfl rfl pairUnit rfl method none none 1,
    C176_closest pairST_ready pairUnit_ready hl hl (fun _ h => by cases h) ha hb hc (by simp) (by simp) (by simp)
      rfl rfl (fun _ => rfl) (fun _ => rfl) two_ne_zero pairUnit⟩

end Verif
