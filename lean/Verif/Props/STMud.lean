import Verif.Props.SpatioTemporal
import Verif.Props.Wme

/-!
# C54-C56: the quantity of interest built by `SpatioTemporalProblem.mud_problem`
-/

namespace Verif

open ND SpecST STP

variable {P : STP} {n p S T : ℕ} {lam data sensors times D : ND} {meas : ND}

/-- The residual table `(m_j - d_ij) / sd`. -/
noncomputable def resTab (n k : ℕ) (data : ND) (m : ℕ → ℝ) (sd : ℝ) : Arr2 :=
  ⟨n, k, .of fun i j => (m j - data.get [i, j]) / sd⟩

theorem residuals_eq {d m : ND} {k : ℕ} {sd : ℝ} (hd : d.shape = [n, k]) (hm : m.shape = [k])
    (hsd : sd ≠ 0) : residuals d m sd = .ok (resTab n k d (fun j => m.get [j]) sd) := by
  have h1 : d.toArr2 = ⟨n, k, .of fun i j => d.get [i, j]⟩ := by
    unfold toArr2
    refine Arr2.ext_get (by simp [hd]) (by simp [hd]) fun i j hi hj => ?_
    have hi' : i < n := by simpa [hd] using hi
    have hj' : j < k := by simpa [hd] using hj
    rw [Arr2.get_mk' _ hi hj, Arr2.get_mk' _ hi' hj']
    rfl
  have h2 : (Arr2.row fun j : Fin (m.shape.getD 0 0) => m.get [j]) =
      Arr2.row fun j : Fin k => m.get [j] := by
    rw [hm]; rfl
  unfold residuals
  rw [h1, h2]
  have h3 : (Arr2.row fun j : Fin k => m.get [j]).sub ⟨n, k, .of fun i j => d.get [i, j]⟩ =
      .ok ⟨n, k, .of fun i j => m.get [j] - d.get [i, j]⟩ := by
    have hb : Arr2.bdim 1 n = some n := by
      unfold Arr2.bdim
      split
      · next h => rw [h]
      · rfl
    simp only [Arr2.sub, Arr2.zipB, Arr2.row, hb, Arr2.bdim_self]
    congr 2
    ext i j
    simp only [Matrix.of_apply]
    rw [Arr2.bget_mk]
    have : Arr2.bget ⟨1, k, .of fun (_ : Fin 1) (j : Fin k) => m.get [(j : ℕ)]⟩ i j = m.get [(j : ℕ)] := by
      unfold Arr2.bget
      have hj : (if k = 1 then 0 else (j : ℕ)) = j := by
        split
        · have := j.2; omega
        · rfl
      simp [hj, Arr2.get]
    rw [this]
    rfl
  dsimp only
  rw [h3]
  simp only [Py.ok_bind]
  rw [raiseIf_false hsd]
  simp only [Py.ok_bind, Py.pure_eq, Arr2.smul_mk, resTab]
  congr 2
  ext i j
  simp only [Matrix.smul_apply, Matrix.of_apply, smul_eq_mul]
  ring

theorem toNArr_two {a : ND} {r c : ℕ} (h : a.shape = [r, c]) :
    toNArr a = .mat ⟨r, c, .of fun i j => a.get [i, j]⟩ := by
  unfold toNArr
  rw [h]
  simp only
  congr 1
  unfold toArr2
  refine Arr2.ext_get (by simp [h]) (by simp [h]) fun i j hi hj => ?_
  have hi' : i < r := by simpa [h] using hi
  have hj' : j < c := by simpa [h] using hj
  rw [Arr2.get_mk' _ hi hj, Arr2.get_mk' _ hi' hj']
  rfl

theorem toArr2_two {a : ND} {r c : ℕ} (h : a.shape = [r, c]) :
    a.toArr2 = ⟨r, c, .of fun i j => a.get [i, j]⟩ := by
  have := toNArr_two h
  unfold toNArr at this
  rw [h] at this
  simpa using this

theorem SpecST.Ready.nData {m : Option ND} (h : Ready P n p S T lam data sensors times m) :
    P.nData = .ok (S * T) := by
  unfold STP.nData
  rw [h.nSensors, h.nTs]; rfl

/-- The steps of `mud_problem` once the sampled arrays are known. -/
theorem mudProblem_eq (ext : Decomp) (method : String) (w : Option ND) (sw : Option NArr) (nc : ℕ)
    {ms mt mx : Option Mask} {r : Sampled} {a k K : ℕ} {m : ND} {sd : ℝ}
    (hs : P.sampleData ms mt mx = .ok r) (hd : r.data.shape = [a, k])
    (hm : r.meas = some m) (hms : m.shape = [k]) (hsd : P.stdDev = some sd) (h0 : sd ≠ 0)
    (hK : P.nData = .ok K) :
    P.mudProblem ext method w sw nc ms mt mx =
      (weighResiduals K (resTab a k r.data (fun j => m.get [j]) sd) w >>= fun R =>
        qoiOf ext method nc a R >>= fun q =>
          DP.new (toNArr r.lam) q (P.domain.map fun D => .mat D.toArr2) sw) := by
  unfold STP.mudProblem
  rw [hs, Py.ok_bind, hm, show need (some m) Err.typeError = .ok m from rfl, Py.ok_bind, hsd,
    show need (some sd) Err.typeError = .ok sd from rfl, Py.ok_bind, residuals_eq hd hms h0,
    Py.ok_bind, hK, Py.ok_bind]
  rfl

theorem dpNew_eq {a : ND} {r c : ℕ} (h : a.shape = [r, c]) {y : NArr} (hD : D.shape = [c, 2]) :
    DP.new (toNArr a) y (some (.mat D.toArr2)) none = .ok
      { X := ⟨r, c, .of fun i j => a.get [i, j]⟩
        y := y.shapeCol
        domain := ⟨c, 2, .of fun i j => D.get [i, j]⟩
        domInt := false
        weights := List.replicate r (.fin 1) } := by
  rw [toNArr_two h, toArr2_two hD]
  unfold DP.new
  simp only [NArr.shapeRow]
  rw [pyAssert_true trivial]
  rfl

/-! ### C54 -/

/-- **C54, what is computed.** On a ready problem with measurements, a non-zero `std_dev` and a
domain with one row per parameter, `mud_problem("wme")` restricted to the selected samples `a`,
times `b` and sensors `c` is the density problem over the selected parameter rows whose quantity of
interest at the `i`-th selected sample is the sum over the selected observations of
`(measurement - datum) / std_dev`, divided by the square root of the number of *samples*. -/
theorem C54_exact (ext : Decomp) (h : Ready P n p S T lam data sensors times (some meas))
    {ms mt mx : Option Mask} (hms : ListLike ms) (hmt : ListLike mt) (hmx : ListLike mx)
    {a b c : List ℕ} (ha : Picks n ms a) (hb : Picks T mt b) (hc : Picks S mx c)
    (hb0 : b ≠ []) (hc0 : c ≠ [])
    (htd : times.data.length = T) (hs2 : mx ≠ none → sensors.shape = [S, 2])
    {sd : ℝ} (hsd : P.stdDev = some sd) (h0 : sd ≠ 0)
    (hD : P.domain = some D) (hDs : D.shape = [p, 2]) (nc : ℕ) :
    P.mudProblem ext "wme" none none nc ms mt mx = .ok
      { X := ⟨a.length, p, .of fun i j => lam.get [a[i], j]⟩
        y := Arr2.col fun i : Fin a.length =>
          (∑ s : Fin c.length, ∑ t : Fin b.length,
            (meas.get [c[s] * T + b[t], 0] - data.get [a[i], c[s] * T + b[t]]) / sd) /
              Real.sqrt a.length
        domain := ⟨p, 2, .of fun i j => D.get [i, j]⟩
        domInt := false
        weights := List.replicate a.length (.fin 1) } := by
  obtain ⟨r, hr, hl, hlg, hd, hdg, -, -, -, hm1, hm2⟩ :=
    C48_masks h hms hmt hmx ha hb hc hb0 hc0 htd hs2
  obtain ⟨m', hm'⟩ : ∃ m', r.meas = some m' := Option.isSome_iff_exists.1 (by rw [hm1]; rfl)
  obtain ⟨hms', hmg⟩ := hm2 m' hm' meas rfl
  rw [mudProblem_eq ext "wme" none none nc hr hd hm' hms' hsd h0 h.nData]
  simp only [weighResiduals, Py.ok_bind, qoiOf, if_true, hD, Option.map_some, resTab,
    Matrix.of_apply]
  rw [dpNew_eq hl hDs]
  have hX : (Matrix.of fun (i : Fin a.length) (j : Fin p) => r.lam.get [(i : ℕ), (j : ℕ)]) =
      .of fun i j => lam.get [a[i], j] := by ext i j; exact hlg i j
  rw [hX]
  congr 2
  · show Arr2.col (n := a.length) _ = _
    rw [Arr2.col_inj]
    funext i
    congr 1
    rw [← finProdFinEquiv.sum_comp, Fintype.sum_prod_type]
    refine Finset.sum_congr rfl fun s _ => Finset.sum_congr rfl fun t _ => ?_
    have hst : ((finProdFinEquiv (s, t) : Fin (c.length * b.length)) : ℕ) =
        s * b.length + t := by
      simp [finProdFinEquiv, Nat.add_comm, Nat.mul_comm]
    rw [hst, hmg, hdg]

theorem ravel_col {m : ND} {k : ℕ} (hm : m.shape = [k, 1]) :
    m.ravel.shape = [k] ∧ ∀ j, m.ravel.get [j] = m.get [j, 0] := by
  have hl : m.data.length = k := by rw [m.size_eq, hm]; simp
  refine ⟨by simp [ND.ravel, hl], fun j => ?_⟩
  simp only [ND.get, ND.ravel, hm, offset]
  simp

/-- Without selections. -/
theorem mudProblem_whole (ext : Decomp) (h : Ready P n p S T lam data sensors times (some meas))
    (hk : S * T ≠ 0) {sd : ℝ} (hsd : P.stdDev = some sd) (h0 : sd ≠ 0) (method : String)
    (w : Option ND) (sw : Option NArr) (nc : ℕ) :
    P.mudProblem ext method w sw nc = (weighResiduals (S * T)
      (resTab n (S * T) data (fun j => meas.get [j, 0]) sd) w >>= fun R =>
        qoiOf ext method nc n R >>= fun q =>
          DP.new (toNArr lam) q (P.domain.map fun D => .mat D.toArr2) sw) := by
  obtain ⟨h1, h2⟩ := ravel_col (h.meas_shape _ rfl)
  rw [mudProblem_eq ext method w sw nc (C47_identity h hk) h.data_shape rfl h1 hsd h0 h.nData]
  simp only [h2]

/-- The weighted mean errors of the whole data set against the measurements. -/
noncomputable def wmeOf (n k : ℕ) (data meas : ND) (sd : ℝ) : Py (List F) :=
  wme (.mat ⟨n, k, .of fun i j => data.get [i, j]⟩) (.vec k fun j => meas.get [j, 0]) (some sd)

/-- C54 as stated: up to a sign, the quantity of interest is the weighted mean error. -/
def C54_claim : Prop :=
  ∀ (ext : Decomp) (P : STP) (n p S T : ℕ) (lam data sensors times D meas : ND) (sd : ℝ) (nc : ℕ),
    Ready P n p S T lam data sensors times (some meas) → S * T ≠ 0 → P.stdDev = some sd → sd ≠ 0 →
    P.domain = some D → D.shape = [p, 2] →
    ∃ Q ws, P.mudProblem ext "wme" none none nc = .ok Q ∧ wmeOf n (S * T) data meas sd = .ok ws ∧
      ((∀ i < n, ws[i]? = some (.fin (Q.y.get i 0))) ∨
        ∀ i < n, ws[i]? = some (.fin (-Q.y.get i 0)))

/-- The relation that does hold: the quantity of interest is `-√(k/n)` times the weighted mean
error, for `n` samples and `k` observations. -/
theorem C54_rescaled (ext : Decomp) (h : Ready P n p S T lam data sensors times (some meas))
    (hk : S * T ≠ 0) {sd : ℝ} (hsd : P.stdDev = some sd) (h0 : sd ≠ 0)
    (hD : P.domain = some D) (hDs : D.shape = [p, 2]) (nc : ℕ) :
    ∃ Q ws, P.mudProblem ext "wme" none none nc = .ok Q ∧ wmeOf n (S * T) data meas sd = .ok ws ∧
      Q.X.r = n ∧ Q.y.r = n ∧ Q.y.c = 1 ∧
      ∀ i < n, ∃ x : ℝ, ws[i]? = some (.fin x) ∧
        Q.y.get i 0 = -Real.sqrt ((S * T : ℕ) / n) * x := by
  have hk' : 0 < S * T := Nat.pos_of_ne_zero hk
  have e := mudProblem_whole ext h hk hsd h0 "wme" none none nc
  simp only [weighResiduals, Py.ok_bind, qoiOf, if_true, hD, Option.map_some, resTab] at e
  rw [dpNew_eq h.lam_shape hDs] at e
  refine ⟨_, _, e, C21_formula _ _ _ h0 hk', rfl, rfl, rfl, fun i hi =>
    ⟨1 / (sd * Real.sqrt (S * T : ℕ)) *
      ∑ j : Fin (S * T), (data.get [i, (j : ℕ)] - meas.get [(j : ℕ), 0]), ?_, ?_⟩⟩
  · exact (List.getElem?_ofFn ..).trans (dif_pos hi)
  · simp only [NArr.shapeCol, Arr2.col]
    rw [Arr2.get_mk' _ hi one_pos]
    simp only [Matrix.of_apply]
    have hkp : (0 : ℝ) < (S * T : ℕ) := by exact_mod_cast hk'
    have hnp : (0 : ℝ) < n := by exact_mod_cast (by omega : 0 < n)
    have hk2 := (Real.sqrt_pos.2 hkp).ne'
    have hn2 := (Real.sqrt_pos.2 hnp).ne'
    have : ∑ j : Fin (S * T), (data.get [i, (j : ℕ)] - meas.get [(j : ℕ), 0]) =
        -∑ j : Fin (S * T), (meas.get [(j : ℕ), 0] - data.get [i, (j : ℕ)]) := by
      rw [← Finset.sum_neg_distrib]
      exact Finset.sum_congr rfl fun _ _ => by ring
    rw [Real.sqrt_div hkp.le, ← Finset.sum_div, this]
    field_simp

/-- **C54 when there are as many samples as observations** (the code divides by the square root of
the wrong one of the two numbers). -/
theorem C54_equal_counts_partial (ext : Decomp)
    (h : Ready P n p S T lam data sensors times (some meas))
    (hk : S * T ≠ 0) {sd : ℝ} (hsd : P.stdDev = some sd) (h0 : sd ≠ 0)
    (hD : P.domain = some D) (hDs : D.shape = [p, 2]) (nc : ℕ) (hn : n = S * T) :
    ∃ Q ws, P.mudProblem ext "wme" none none nc = .ok Q ∧ wmeOf n (S * T) data meas sd = .ok ws ∧
      ∀ i < n, ws[i]? = some (.fin (-Q.y.get i 0)) := by
  obtain ⟨Q, ws, h1, h2, -, -, -, h3⟩ := C54_rescaled ext h hk hsd h0 hD hDs nc
  refine ⟨Q, ws, h1, h2, fun i hi => ?_⟩
  obtain ⟨x, hx, hy⟩ := h3 i hi
  rw [hx, hy, ← hn, div_self (by exact_mod_cast (by omega : n ≠ 0))]
  simp

/-- **C54 is false of the code**: three samples, six observations. -/
theorem C54_claim_refuted : ¬ C54_claim := by
  intro hcl
  let ext : Decomp := ⟨fun _ _ => .error .unmodelled, fun _ => .error .unmodelled⟩
  obtain ⟨Q, ws, h1, h2, h3⟩ := hcl ext demoST 3 2 2 3 _ _ _ _ _ _ 2 2 demoST_ready (by norm_num)
    rfl two_ne_zero rfl rfl
  obtain ⟨Q', ws', h1', h2', -, -, -, h3'⟩ := C54_rescaled ext demoST_ready (by norm_num) (sd := 2)
    rfl two_ne_zero (D := ndOfNats [2, 2] [0, 9, 0, 9] rfl) rfl rfl 2
  rw [h1] at h1'; cases h1'
  rw [h2] at h2'; cases h2'
  obtain ⟨x, hx, hy⟩ := h3' 0 (by norm_num)
  have hx0 : x ≠ 0 := by
    unfold wmeOf at h2
    rw [C21_formula _ _ _ two_ne_zero (by norm_num)] at h2
    cases h2
    rw [List.getElem?_ofFn, dif_pos (by norm_num)] at hx
    have hx := F.fin.inj (Option.some.inj hx)
    rw [← hx]
    refine mul_ne_zero (by positivity) ?_
    simp only [Matrix.of_apply]
    rw [show (2 * 3 : ℕ) = 6 from rfl]
    simp [Fin.sum_univ_succ, ND.get, offset, ndOfNats]
    norm_num
  have hs : Real.sqrt ((2 * 3 : ℕ) / (3 : ℕ)) = Real.sqrt 2 := by norm_num
  have hsq : Real.sqrt 2 * Real.sqrt 2 = 2 := Real.mul_self_sqrt (by norm_num)
  rw [hs] at hy
  have hcase : Q.y.get 0 0 = x ∨ -Q.y.get 0 0 = x := by
    rcases h3 with h3 | h3
    · left
      have := h3 0 (by norm_num)
      rw [hx] at this
      exact (F.fin.inj (Option.some.inj this)).symm
    · right
      have := h3 0 (by norm_num)
      rw [hx] at this
      exact (F.fin.inj (Option.some.inj this)).symm
  have : x * x = 2 * (x * x) := by
    rcases hcase with h | h
    · calc x * x = Q.y.get 0 0 * Q.y.get 0 0 := by rw [h]
        _ = (Real.sqrt 2 * Real.sqrt 2) * (x * x) := by rw [hy]; ring
        _ = _ := by rw [hsq]
    · calc x * x = Q.y.get 0 0 * Q.y.get 0 0 := by rw [← h]; ring
        _ = (Real.sqrt 2 * Real.sqrt 2) * (x * x) := by rw [hy]; ring
        _ = _ := by rw [hsq]
  have : x * x = 0 := by linarith
  exact hx0 (mul_self_eq_zero.1 this)

/-! ### C55 -/

/-- C55 as stated. -/
def C55_claim : Prop :=
  ∀ (ext : Decomp) (P : STP) (n p S T : ℕ) (lam data sensors times meas : ND) (sd : ℝ),
    Ready P n p S T lam data sensors times (some meas) → S * T ≠ 0 → P.stdDev = some sd → sd ≠ 0 →
    ∀ (method : String) (nc : ℕ), method ∉ ["wme", "pca", "svd"] →
      P.mudProblem ext method none none nc = .error .valueError

/-- **C55, the part that holds**: no problem is ever returned for an unknown method, whatever the
state and the other arguments. -/
theorem C55_rejected_partial (ext : Decomp) (P : STP) (method : String) (w : Option ND)
    (sw : Option NArr) (nc : ℕ) (ms mt mx : Option Mask) (hm : method ∉ ["wme", "pca", "svd"]) :
    ∀ Q, P.mudProblem ext method w sw nc ms mt mx ≠ .ok Q := by
  intro Q hQ
  simp only [List.mem_cons, List.not_mem_nil, or_false, not_or] at hm
  unfold STP.mudProblem at hQ
  obtain ⟨_, -, hQ⟩ := Py.bind_eq_ok.1 hQ
  obtain ⟨_, -, hQ⟩ := Py.bind_eq_ok.1 hQ
  obtain ⟨_, -, hQ⟩ := Py.bind_eq_ok.1 hQ
  obtain ⟨_, -, hQ⟩ := Py.bind_eq_ok.1 hQ
  obtain ⟨_, -, hQ⟩ := Py.bind_eq_ok.1 hQ
  obtain ⟨_, -, hQ⟩ := Py.bind_eq_ok.1 hQ
  obtain ⟨_, hq, -⟩ := Py.bind_eq_ok.1 hQ
  rw [qoiOf, if_neg hm.1, if_neg hm.2.1, if_neg hm.2.2] at hq
  cases hq

/-- The exception that is raised on a ready problem is `UnboundLocalError`, not `ValueError`. -/
theorem C55_exact (ext : Decomp) (h : Ready P n p S T lam data sensors times (some meas))
    (hk : S * T ≠ 0) {sd : ℝ} (hsd : P.stdDev = some sd) (h0 : sd ≠ 0) (method : String) (nc : ℕ)
    (sw : Option NArr) (hm : method ∉ ["wme", "pca", "svd"]) :
    P.mudProblem ext method none sw nc = .error .unboundLocalError := by
  simp only [List.mem_cons, List.not_mem_nil, or_false, not_or] at hm
  rw [mudProblem_whole ext h hk hsd h0]
  simp only [weighResiduals, Py.ok_bind, qoiOf, if_neg hm.1, if_neg hm.2.1, if_neg hm.2.2,
    Py.error_bind]

theorem C55_claim_refuted : ¬ C55_claim := by
  intro h
  let ext : Decomp := ⟨fun _ _ => .error .unmodelled, fun _ => .error .unmodelled⟩
  have := h ext demoST 3 2 2 3 _ _ _ _ _ 2 demoST_ready (by norm_num) rfl two_ne_zero "mean" 2
    (by decide)
  rw [C55_exact ext demoST_ready (by norm_num) (sd := 2) rfl two_ne_zero "mean" 2 none
    (by decide)] at this
  cases this

/-! ### C56 -/

/-- The quantity of interest with observation weights `w`, normalised to unit length. -/
noncomputable def weightedQoi (n k : ℕ) (data meas w : ND) (sd : ℝ) (i : ℕ) : ℝ :=
  (∑ j : Fin k, w.data.getD j 0 / DP.norm2 w.data *
    ((meas.get [(j : ℕ), 0] - data.get [i, (j : ℕ)]) / sd)) / Real.sqrt n

/-- C56 as stated, for the WME map. -/
def C56_claim : Prop :=
  ∀ (ext : Decomp) (P : STP) (n p S T : ℕ) (lam data sensors times D meas w : ND) (sd : ℝ) (nc : ℕ),
    Ready P n p S T lam data sensors times (some meas) → S * T ≠ 0 → P.stdDev = some sd → sd ≠ 0 →
    P.domain = some D → D.shape = [p, 2] → w.data.length = S * T → DP.norm2 w.data ≠ 0 →
    ∃ Q, P.mudProblem ext "wme" (some w) none nc = .ok Q ∧
      Q.y = Arr2.col fun i : Fin n => weightedQoi n (S * T) data meas w sd i

/-- Weight vectors of the wrong length are rejected with `ValueError`. -/
theorem C56_wrong_length (ext : Decomp) (h : Ready P n p S T lam data sensors times (some meas))
    (hk : S * T ≠ 0) {sd : ℝ} (hsd : P.stdDev = some sd) (h0 : sd ≠ 0) (method : String) (nc : ℕ)
    (sw : Option NArr) {w : ND} (hw : w.data.length ≠ S * T) :
    P.mudProblem ext method (some w) sw nc = .error .valueError := by
  rw [mudProblem_whole ext h hk hsd h0]
  simp only [weighResiduals]
  rw [raiseIf_true hw]; rfl

/-- With `n` samples and `k` observations, `n ≠ k`, `n ≠ 1`, `k ≠ 1`, every use of `data_weights`
raises `ValueError`. -/
theorem C56_raises (ext : Decomp) (h : Ready P n p S T lam data sensors times (some meas))
    (hk : S * T ≠ 0) {sd : ℝ} (hsd : P.stdDev = some sd) (h0 : sd ≠ 0) (method : String) (nc : ℕ)
    (sw : Option NArr) {w : ND} (hw0 : DP.norm2 w.data ≠ 0)
    (h1 : n ≠ S * T) (h2 : n ≠ 1) (h3 : S * T ≠ 1) :
    P.mudProblem ext method (some w) sw nc = .error .valueError := by
  by_cases hw : w.data.length = S * T
  · rw [mudProblem_whole ext h hk hsd h0]
    simp only [weighResiduals]
    rw [raiseIf_false (by simpa using hw), Py.ok_bind, raiseIf_false hw0, Py.ok_bind]
    have : Arr2.bdim w.data.length n = none := by
      unfold Arr2.bdim
      rw [if_neg (by omega), if_neg (by omega), if_neg h2]
    simp only [Arr2.hmul, Arr2.zipB, Arr2.col, resTab, this]
    rfl
  · exact C56_wrong_length ext h hk hsd h0 method nc sw hw

theorem col_hmul {m k : ℕ} (v : Fin m → ℝ) (A : Matrix (Fin m) (Fin k) ℝ) :
    (Arr2.col v).hmul ⟨m, k, A⟩ = .ok ⟨m, k, .of fun i j => v i * A i j⟩ := by
  have hb : Arr2.bdim 1 k = some k := by
    unfold Arr2.bdim
    split
    · next h => rw [h]
    · rfl
  simp only [Arr2.hmul, Arr2.zipB, Arr2.col, hb, Arr2.bdim_self]
  congr 2
  ext i j
  simp only [Matrix.of_apply]
  rw [Arr2.bget_mk]
  congr 1
  unfold Arr2.bget
  have hi : (if m = 1 then 0 else (i : ℕ)) = i := by
    split
    · have := i.2; omega
    · rfl
  simp [hi, Arr2.get]

/-- With as many samples as observations the code multiplies by the weights, but sample `i`, not
observation `i`, is multiplied by `w_i/|w|`. -/
theorem C56_square (ext : Decomp) (h : Ready P n p S T lam data sensors times (some meas))
    (hk : S * T ≠ 0) {sd : ℝ} (hsd : P.stdDev = some sd) (h0 : sd ≠ 0)
    (hD : P.domain = some D) (hDs : D.shape = [p, 2]) (nc : ℕ)
    {w : ND} (hw : w.data.length = S * T) (hw0 : DP.norm2 w.data ≠ 0) (hn : n = S * T) :
    ∃ Q, P.mudProblem ext "wme" (some w) none nc = .ok Q ∧
      Q.y = Arr2.col fun i : Fin n => w.data.getD i 0 / DP.norm2 w.data *
        ((∑ j : Fin (S * T), (meas.get [(j : ℕ), 0] - data.get [(i : ℕ), (j : ℕ)]) / sd) /
          Real.sqrt n) := by
  have e : weighResiduals (S * T) (resTab n (S * T) data (fun j => meas.get [j, 0]) sd) (some w) =
      .ok ⟨n, S * T, .of fun i j => w.data.getD i 0 / DP.norm2 w.data *
        ((meas.get [(j : ℕ), 0] - data.get [(i : ℕ), (j : ℕ)]) / sd)⟩ := by
    have hwn : w.data.length = n := hw.trans hn.symm
    simp only [weighResiduals]
    rw [raiseIf_false (by simpa using hw), Py.ok_bind, raiseIf_false hw0, Py.ok_bind]
    rw [show (Arr2.col fun i : Fin w.data.length => w.data.getD i 0 / DP.norm2 w.data) =
      Arr2.col fun i : Fin n => w.data.getD i 0 / DP.norm2 w.data by rw [hwn]]
    simp only [resTab, col_hmul, Matrix.of_apply]
  have e' := mudProblem_whole ext h hk hsd h0 "wme" (some w) none nc
  rw [e] at e'
  simp only [Py.ok_bind, qoiOf, if_true, hD, Option.map_some] at e'
  rw [dpNew_eq h.lam_shape hDs] at e'
  refine ⟨_, e', ?_⟩
  · show Arr2.col (n := n) _ = _
    rw [Arr2.col_inj]
    funext i
    simp only [Matrix.of_apply]
    rw [← Finset.mul_sum, mul_div_assoc]

/-- **C56 where it holds**: as many samples as observations and all weights equal. -/
theorem C56_constant_partial (ext : Decomp) (h : Ready P n p S T lam data sensors times (some meas))
    (hk : S * T ≠ 0) {sd : ℝ} (hsd : P.stdDev = some sd) (h0 : sd ≠ 0)
    (hD : P.domain = some D) (hDs : D.shape = [p, 2]) (nc : ℕ)
    {w : ND} (hw : w.data.length = S * T) (hw0 : DP.norm2 w.data ≠ 0) (hn : n = S * T)
    {x : ℝ} (hx : ∀ j < S * T, w.data.getD j 0 = x) :
    ∃ Q, P.mudProblem ext "wme" (some w) none nc = .ok Q ∧
      Q.y = Arr2.col fun i : Fin n => weightedQoi n (S * T) data meas w sd i := by
  obtain ⟨Q, h1, h2⟩ := C56_square ext h hk hsd h0 hD hDs nc hw hw0 hn
  refine ⟨Q, h1, h2.trans ?_⟩
  rw [Arr2.col_inj]
  funext i
  rw [hx i (by omega), weightedQoi, ← mul_div_assoc, Finset.mul_sum]
  congr 1
  exact Finset.sum_congr rfl fun j _ => by rw [hx j j.2]

/-- **C56, what the code does in every remaining case** (as many samples as observations, or one sample, or one
observation; in all other cases it raises, `C56_raises`): the problem gets `max(n, k)` rows, row `i` is the sum of the
residuals of sample `i` (of the only sample, if there is one) times weight `i` (the only weight, if there is one). -/
theorem C56_exact (ext : Decomp) (h : Ready P n p S T lam data sensors times (some meas))
    (hk : S * T ≠ 0) {sd : ℝ} (hsd : P.stdDev = some sd) (h0 : sd ≠ 0)
    (hD : P.domain = some D) (hDs : D.shape = [p, 2]) (nc : ℕ)
    {w : ND} (hw : w.data.length = S * T) (hw0 : DP.norm2 w.data ≠ 0) (hn : n = S * T ∨ n = 1 ∨ S * T = 1) :
    ∃ Q, P.mudProblem ext "wme" (some w) none nc = .ok Q ∧ Q.X.r = n ∧
      Q.y = Arr2.col fun i : Fin (if n = 1 then S * T else n) =>
        w.data.getD (if S * T = 1 then 0 else (i : ℕ)) 0 / DP.norm2 w.data *
        ((∑ j : Fin (S * T), (meas.get [(j : ℕ), 0] - data.get [if n = 1 then 0 else (i : ℕ), (j : ℕ)]) / sd) /
          Real.sqrt n) := by
  generalize hkk : S * T = k at *
  have hb : Arr2.bdim k n = some (if n = 1 then k else n) := by
    unfold Arr2.bdim
    split_ifs <;> first | rfl | exact congrArg some (by omega) | (exfalso; omega)
  have hb1 : Arr2.bdim 1 k = some k := by
    unfold Arr2.bdim
    split
    · next h => rw [h]
    · rfl
  have e : weighResiduals k (resTab n k data (fun j => meas.get [j, 0]) sd) (some w) =
      .ok ⟨if n = 1 then k else n, k, .of fun i j => w.data.getD (if k = 1 then 0 else (i : ℕ)) 0 / DP.norm2 w.data *
        ((meas.get [(j : ℕ), 0] - data.get [if n = 1 then 0 else (i : ℕ), (j : ℕ)]) / sd)⟩ := by
    simp only [weighResiduals]
    rw [raiseIf_false (by simpa using hw), Py.ok_bind, raiseIf_false hw0, Py.ok_bind]
    rw [show (Arr2.col fun i : Fin w.data.length => w.data.getD i 0 / DP.norm2 w.data) =
      Arr2.col fun i : Fin k => w.data.getD i 0 / DP.norm2 w.data by rw [hw]]
    simp only [resTab, Arr2.hmul, Arr2.zipB, Arr2.col, hb, hb1]
    congr 2
    ext i j
    simp only [Matrix.of_apply, Arr2.bget, if_true]
    have hi := i.2
    have hj := j.2
    have g1 : (if k = 1 then 0 else (i : ℕ)) < k := by
      split_ifs at hi ⊢ <;> omega
    have g2 : (if n = 1 then 0 else (i : ℕ)) < n := by
      split_ifs at hi ⊢ <;> omega
    have g3 : (if k = 1 then 0 else (j : ℕ)) = j := by
      split_ifs <;> omega
    rw [Arr2.get, dif_pos ⟨g1, Nat.zero_lt_one⟩, Arr2.get, dif_pos ⟨g2, by rw [g3]; exact hj⟩]
    simp only [Matrix.of_apply, g3]
  have e' := mudProblem_whole ext h (by rw [hkk]; exact hk) hsd h0 "wme" (some w) none nc
  rw [hkk, e] at e'
  simp only [Py.ok_bind, qoiOf, if_true, hD, Option.map_some] at e'
  rw [dpNew_eq h.lam_shape hDs] at e'
  refine ⟨_, e', rfl, ?_⟩
  show Arr2.col (n := if n = 1 then k else n) _ = _
  rw [Arr2.col_inj]
  funext i
  simp only [Matrix.of_apply]
  rw [← Finset.mul_sum, mul_div_assoc]

/-- **C56 where it holds, one observation**, whatever the number of samples. -/
theorem C56_one_observation_partial (ext : Decomp) (h : Ready P n p S T lam data sensors times (some meas))
    (hk : S * T = 1) {sd : ℝ} (hsd : P.stdDev = some sd) (h0 : sd ≠ 0)
    (hD : P.domain = some D) (hDs : D.shape = [p, 2]) (nc : ℕ)
    {w : ND} (hw : w.data.length = S * T) (hw0 : DP.norm2 w.data ≠ 0) :
    ∃ Q, P.mudProblem ext "wme" (some w) none nc = .ok Q ∧
      Q.y = Arr2.col fun i : Fin n => weightedQoi n (S * T) data meas w sd i := by
  obtain ⟨Q, h1, -, h2⟩ := C56_exact ext h (by omega) hsd h0 hD hDs nc hw hw0 (.inr (.inr hk))
  refine ⟨Q, h1, h2.trans ?_⟩
  clear h1 h2 h
  have hc : ∀ (m : ℕ) (f g : ℕ → ℝ), m = n → (∀ i < n, f i = g i) → 
      Arr2.col (fun i : Fin m => f i) = Arr2.col fun i : Fin n => g i := by
    rintro m f g rfl hfg
    congr 1
    funext i
    exact hfg i i.2
  refine hc _ (fun i => w.data.getD (if S * T = 1 then 0 else i) 0 / DP.norm2 w.data *
        ((∑ j : Fin (S * T), (meas.get [(j : ℕ), 0] - data.get [if n = 1 then 0 else i, (j : ℕ)]) / sd) /
          Real.sqrt n)) _ (by split_ifs <;> omega) fun i hi => ?_
  have hi' : (if n = 1 then 0 else i) = i := by split_ifs <;> omega
  rw [hi', if_pos hk, weightedQoi, ← mul_div_assoc, Finset.mul_sum]
  congr 1
  refine Finset.sum_congr rfl fun j _ => ?_
  have hj : (j : ℕ) = 0 := by have := j.2; omega
  rw [hj]

/-- **C56 is false of the code**: three samples of six observations. -/
theorem C56_claim_refuted : ¬ C56_claim := by
  intro h
  let ext : Decomp := ⟨fun _ _ => .error .unmodelled, fun _ => .error .unmodelled⟩
  have hw0 : DP.norm2 (ndOfNats [6] [1, 1, 1, 1, 1, 1] rfl).data ≠ 0 := by
    simp only [DP.norm2, ndOfNats]
    exact (Real.sqrt_pos.2 (by norm_num)).ne'
  obtain ⟨Q, hQ, -⟩ := h ext demoST 3 2 2 3 _ _ _ _ _ _ (ndOfNats [6] [1, 1, 1, 1, 1, 1] rfl) 2 2
    demoST_ready (by norm_num) rfl two_ne_zero rfl rfl rfl hw0
  rw [C56_raises ext demoST_ready (by norm_num) (sd := 2) rfl two_ne_zero "wme" 2 none hw0
    (by norm_num) (by norm_num) (by norm_num)] at hQ
  cases hQ

/-! ### Concrete cases -/

/-- Two samples of two observations. -/
def squareST : STP where
  domain := some (ndOfNats [1, 2] [0, 9] rfl)
  lam := some (ndOfNats [2, 1] [1, 2] rfl)
  data := some (ndOfNats [2, 2] [0, 1, 2, 3] rfl)
  sensors := some STP.zero1
  times := some (STP.arange 2)
  measurements := some (ndOfNats [2, 1] [1, 5] rfl)
  stdDev := some 1

theorem squareST_ready : Ready squareST 2 1 1 2 (ndOfNats [2, 1] [1, 2] rfl)
    (ndOfNats [2, 2] [0, 1, 2, 3] rfl) STP.zero1 (STP.arange 2)
    (some (ndOfNats [2, 1] [1, 5] rfl)) :=
  ⟨rfl, rfl, rfl, rfl, rfl, rfl, rfl, rfl, rfl, fun _ h => by cases h; rfl⟩

/-- C54 on a problem with as many samples as observations. -/
example (ext : Decomp) : ∃ Q ws, squareST.mudProblem ext "wme" = .ok Q ∧
    wmeOf 2 (1 * 2) (ndOfNats [2, 2] [0, 1, 2, 3] rfl) (ndOfNats [2, 1] [1, 5] rfl) 1 = .ok ws ∧
    ∀ i < 2, ws[i]? = some (.fin (-Q.y.get i 0)) :=
  C54_equal_counts_partial ext squareST_ready (by norm_num) rfl one_ne_zero rfl rfl 2 rfl

/-- C56: sample `0` is multiplied by `3/5`, sample `1` by `4/5`. -/
example (ext : Decomp) : ∃ Q, squareST.mudProblem ext "wme" (some (ndOfNats [2] [3, 4] rfl)) = .ok Q ∧
    Q.y.get 0 0 = 3 / 5 * (5 / Real.sqrt 2) := by
  have hn : DP.norm2 (ndOfNats [2] [3, 4] rfl).data = 5 := by
    simp only [DP.norm2, ndOfNats]
    rw [show (5 : ℝ) = Real.sqrt (5 ^ 2) by rw [Real.sqrt_sq (by norm_num)]]
    congr 1
    norm_num
  obtain ⟨Q, h1, h2⟩ := C56_square ext squareST_ready (by norm_num) (sd := 1) rfl one_ne_zero
    (D := ndOfNats [1, 2] [0, 9] rfl) rfl rfl 2 (w := ndOfNats [2] [3, 4] rfl) rfl
    (by rw [hn]; norm_num) rfl
  refine ⟨Q, h1, ?_⟩
  rw [h2, hn]
  simp only [Arr2.col]
  rw [Arr2.get_mk' _ two_pos one_pos]
  simp only [Matrix.of_apply]
  rw [show (1 * 2 : ℕ) = 2 from rfl]
  simp [Fin.sum_univ_succ, ND.get, offset, ndOfNats]

/-- C54 with selections: samples `2, 0`, times `0, 2`, sensor `1`. -/
example (ext : Decomp) : ∃ Q, demoST.mudProblem ext "wme" none none 2 (some (.ints [-1, 0]))
    (some (.bools [true, false, true])) (some (.ints [1])) = .ok Q ∧ Q.X.r = 2 ∧
    Q.y.get 1 0 = 21 / 2 / Real.sqrt 2 := by
  have ha : Picks 3 (some (.ints [-1, 0])) [2, 0] := resolve_ok.1 rfl
  have hb : Picks 3 (some (.bools [true, false, true])) [0, 2] := resolve_ok.1 rfl
  have hc : Picks 2 (some (.ints [1])) [1] := resolve_ok.1 rfl
  refine ⟨_, C54_exact ext demoST_ready (fun _ h => by cases h) (fun _ h => by cases h)
    (fun _ h => by cases h) ha hb hc (by simp) (by simp) rfl (fun _ => rfl) (sd := 2) rfl
    two_ne_zero (D := ndOfNats [2, 2] [0, 9, 0, 9] rfl) rfl rfl 2, rfl, ?_⟩
  simp only [Arr2.col]
  rw [Arr2.get_mk' _ (by norm_num) one_pos]
  simp [Fin.sum_univ_succ, ND.get, offset, ndOfNats]
  norm_num

/-! ### Further cases meeting the hypotheses -/

example (ext : Decomp) (Q : DP) : demoST.mudProblem ext "lda" none none 2 none none none ≠ .ok Q :=
  C55_rejected_partial ext demoST "lda" none none 2 none none none (by simp) Q

example (ext : Decomp) : demoST.mudProblem ext "wme" (some (ndOfNats [2] [3, 4] rfl)) none 2 = .error .valueError :=
  C56_wrong_length ext demoST_ready (by norm_num) (sd := 2) rfl two_ne_zero "wme" 2 none (by simp [ndOfNats])

example (ext : Decomp) : ∃ Q, squareST.mudProblem ext "wme" (some (ndOfNats [2] [3, 3] rfl)) none 2 = .ok Q := by
  obtain ⟨Q, h, -⟩ := C56_constant_partial ext squareST_ready (by norm_num) (sd := 1) rfl one_ne_zero
    (D := ndOfNats [1, 2] [0, 9] rfl) rfl rfl 2 (w := ndOfNats [2] [3, 3] rfl) rfl
    (by
      simp only [DP.norm2, ndOfNats]
      refine (Real.sqrt_pos.2 ?_).ne'
      norm_num) rfl (x := 3)
    (fun j hj => by
      have : j = 0 ∨ j = 1 := by omega
      rcases this with rfl | rfl <;> simp [ndOfNats])
  exact ⟨Q, h⟩

/-- Three samples of one observation; one sample of two observations. -/
def oneObsST : STP where
  domain := some (ndOfNats [1, 2] [0, 9] rfl)
  lam := some (ndOfNats [3, 1] [1, 2, 3] rfl)
  data := some (ndOfNats [3, 1] [0, 1, 2] rfl)
  sensors := some STP.zero1
  times := some (STP.arange 1)
  measurements := some (ndOfNats [1, 1] [5] rfl)
  stdDev := some 1

@[inherit_doc oneObsST]
def oneSampleST : STP where
  domain := some (ndOfNats [1, 2] [0, 9] rfl)
  lam := some (ndOfNats [1, 1] [1] rfl)
  data := some (ndOfNats [1, 2] [0, 1] rfl)
  sensors := some STP.zero1
  times := some (STP.arange 2)
  measurements := some (ndOfNats [2, 1] [1, 5] rfl)
  stdDev := some 1

/-- C56 with one observation, and with one sample: the latter gives a problem with one sample and two rows of data. -/
example (ext : Decomp) :
    (∃ Q, oneObsST.mudProblem ext "wme" (some (ndOfNats [1] [3] rfl)) none 2 = .ok Q ∧ Q.y.r = 3) ∧
    ∃ Q, oneSampleST.mudProblem ext "wme" (some (ndOfNats [2] [3, 4] rfl)) none 2 = .ok Q ∧ Q.X.r = 1 ∧ Q.y.r = 2 := by
  constructor
  · obtain ⟨Q, h, h'⟩ := C56_one_observation_partial ext (P := oneObsST) (n := 3) (p := 1) (S := 1) (T := 1)
      (lam := ndOfNats [3, 1] [1, 2, 3] rfl) (data := ndOfNats [3, 1] [0, 1, 2] rfl)
      (sensors := STP.zero1) (times := STP.arange 1) (meas := ndOfNats [1, 1] [5] rfl)
      ⟨rfl, rfl, rfl, rfl, rfl, rfl, rfl, rfl, rfl, fun _ h => by cases h; rfl⟩ rfl (sd := 1) rfl one_ne_zero
      (D := ndOfNats [1, 2] [0, 9] rfl) rfl rfl 2 (w := ndOfNats [1] [3] rfl) rfl
      (by
        simp only [DP.norm2, ndOfNats]
        refine (Real.sqrt_pos.2 ?_).ne'
        norm_num)
    exact ⟨Q, h, by rw [h']; rfl⟩
  · obtain ⟨Q, h, h', h''⟩ := C56_exact ext (P := oneSampleST) (n := 1) (p := 1) (S := 1) (T := 2)
      (lam := ndOfNats [1, 1] [1] rfl) (data := ndOfNats [1, 2] [0, 1] rfl)
      (sensors := STP.zero1) (times := STP.arange 2) (meas := ndOfNats [2, 1] [1, 5] rfl)
      ⟨rfl, rfl, rfl, rfl, rfl, rfl, rfl, rfl, rfl, fun _ h => by cases h; rfl⟩ (by norm_num) (sd := 1) rfl one_ne_zero
      (D := ndOfNats [1, 2] [0, 9] rfl) rfl rfl 2 (w := ndOfNats [2] [3, 4] rfl) rfl
      (by
        simp only [DP.norm2, ndOfNats]
        refine (Real.sqrt_pos.2 ?_).ne'
        norm_num) (.inr (.inl rfl))
    exact ⟨Q, h, h', by rw [h'']; rfl⟩

end Verif
