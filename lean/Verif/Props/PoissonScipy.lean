import Verif.Props.PoissonSol
import Verif.Props.DensityDefault

/-!
# C112, C113 with `scipy`'s kernel density estimate

`/repo/src/mud/examples/poisson.py:219-469`.
-/

namespace Verif

namespace Poisson

open Matrix ND SpecST STP Prep

variable {σ ρ : Type} {env : Env} {pe : PlotEnv} {user : ℕ → ℝ → ℕ → ℝ}

theorem sum_one (g : Fin (List.range 1).length → ℝ) : ∑ b, g b = g ⟨0, by simp⟩ :=
  Fin.sum_univ_one (f := g)

/-- **C112 (density estimate).** For samples whose data at the selected sensors satisfy no affine relation
(so there are more samples than sensors), `scipy`'s kernel density estimate of the two components exists. -/
theorem C112_kde (E : Ext) (hE : E.Correct) {P : STP} {n p S : ℕ} {lam data sensors M D : ND}
    (h : Ready P n p S 1 lam data sensors ⟨[1], [0], rfl⟩ (some M)) (hs2 : sensors.shape = [S, 2])
    {sd : ℝ} (hsd : P.stdDev = some sd) (h0 : sd ≠ 0) (hD : P.domain = some D) (hDs : D.shape = [p, 2])
    (hn : 2 ≤ n) {sel : List ℕ} (hsel : ∀ i ∈ sel, i < S) (hlen : 2 ≤ sel.length)
    (hind : ∀ u : Fin sel.length → ℝ,
      (∃ c : ℝ, ∀ i < n, ∑ j, u j * data.get [i, sel[j]] = c) → u = 0) {Q : DP}
    (hQ : P.mudProblem (decomp E) "pca" none none 2 none none (some (asMask sel)) = .ok Q) :
    ∃ c, (scipyEnv user).kde Q.y 0 Q.weights = .ok c ∧ c.length = n := by
  have hpk : Picks S (some (asMask sel)) sel := by
    change List.Forall₂ _ (List.map (fun k : ℕ => (k : ℤ)) sel) sel
    rw [List.forall₂_map_left_iff, List.forall₂_same]
    exact fun i hi => ⟨hsel i hi, .inl rfl⟩
  have hm := mudProblem_masked (decomp E) h (ms := none) (mt := none)
    (mx := some (asMask sel)) (noInt (.inl rfl)) (noInt (.inl rfl)) (noInt (.inr ⟨_, rfl⟩))
    (a := List.range n) (b := List.range 1) rfl rfl hpk (by simp)
    (by rintro rfl; simp at hlen) rfl (fun _ => hs2) hsd h0 hD "pca" none 2
  have hK : 2 ≤ sel.length * (List.range 1).length := by simpa using hlen
  rw [qoi_pca E _ (by simp; omega) (by omega) (by simp; omega) hK, Py.ok_bind, toArr2_two hDs, hQ] at hm
  obtain ⟨-, hy, hw⟩ := new_fields hm.symm
  have hw' : Q.weights = List.ofFn fun _ : Fin (List.range n).length => F.fin 1 := by
    rw [List.ofFn_const]
    exact (Except.ok.inj hw).symm
  set R := selResid 1 (List.range n) (List.range 1) sel data M sd with hR
  set V := (E.pcaSvd (standardize R)).vh with hV
  have hVo : V * Vᵀ = 1 := (hE.pcaSvd (standardize R)).vh_orth
  have hnl : (List.range n).length = n := List.length_range
  have hr : (((List.range n).length : ℕ) : ℝ) = n := by rw [hnl]
  have hn0 : (0 : ℝ) < n := by
    have : 0 < n := by omega
    exact_mod_cast this
  have hn1 : (1 : ℝ) < n := by
    have : 1 < n := by omega
    exact_mod_cast this
  have hsq : ∑ _i : Fin (List.range n).length, ((1 : ℝ) / ∑ _l : Fin (List.range n).length, 1) ^ 2 < 1 := by
    simp only [Finset.sum_const, Finset.card_univ, Fintype.card_fin, nsmul_eq_mul, hr, mul_one]
    rw [div_pow, one_pow, mul_one_div, div_lt_one (by positivity)]
    nlinarith
  have hex : ∃ v, (scipyEnv user).kde Q.y 0 Q.weights = .ok v := by
    rw [← setPredicted_kde_iff, setPredicted_returns_iff (w := fun _ => 1) hy hw' 0]
    refine ⟨by rw [hnl]; omega, ?_, ?_, hsq, ?_⟩
    · simp only [Finset.sum_const, Finset.card_univ, Fintype.card_fin, nsmul_eq_mul, hr]
      positivity
    · intro i
      positivity
    · refine kdeCov_posDef _ (fun i => ?_) hsq ?_
      · simp only [Finset.sum_const, Finset.card_univ, Fintype.card_fin, nsmul_eq_mul, hr]
        positivity
      · rintro u ⟨c, hc⟩
        set sg := E.sign (E.pcaSvd (standardize R)) with hsg
        let z : Fin (sel.length * (List.range 1).length) → ℝ := fun j =>
          ∑ a, u a * sg a * V (Fin.castLE hK a) j
        have hz : ∀ i, ∑ j, z j * R i j = c := by
          intro i
          rw [← hc i]
          simp only [dotProduct, of_apply, z, Finset.mul_sum, Finset.sum_mul]
          rw [Finset.sum_comm]
          refine Finset.sum_congr rfl fun a _ => Finset.sum_congr rfl fun j _ => ?_
          ring
        have hz0 : (fun k : Fin sel.length => z (finProdFinEquiv (k, ⟨0, by simp⟩))) = 0 := by
          refine hind _ ⟨(∑ k : Fin sel.length, z (finProdFinEquiv (k, ⟨0, by simp⟩)) *
            M.get [sel[k] * 1 + 0, 0]) - c * sd, fun i hi => ?_⟩
          have hi' := hz ⟨i, by simpa using hi⟩
          rw [← finProdFinEquiv.sum_comp, Fintype.sum_prod_type] at hi'
          simp only [sum_one] at hi'
          have e : ∀ k : Fin sel.length, R ⟨i, by simpa using hi⟩ (finProdFinEquiv (k, ⟨0, by simp⟩)) =
              (M.get [sel[k] * 1 + 0, 0] - data.get [i, sel[k]]) / sd := by
            intro k
            rw [hR]
            unfold selResid
            rw [of_apply]
            simp only [Equiv.symm_apply_apply]
            simp
          simp only [e] at hi'
          rw [← hi', Finset.sum_mul, ← Finset.sum_sub_distrib]
          refine Finset.sum_congr rfl fun k _ => ?_
          field_simp
          ring
        have hzz : ∀ j, z j = 0 := by
          intro j
          have h1 := congrFun hz0 (finProdFinEquiv.symm j).1
          have h2 : (finProdFinEquiv ((finProdFinEquiv.symm j).1, (⟨0, by simp⟩ : Fin (List.range 1).length)))
              = j := by
            have : (⟨0, by simp⟩ : Fin (List.range 1).length) = (finProdFinEquiv.symm j).2 :=
              Subsingleton.elim (α := Fin 1) _ _
            rw [this]
            exact finProdFinEquiv.apply_symm_apply j
          rw [h2] at h1
          exact h1
        ext a'
        have h3 : ∑ j, z j * V (Fin.castLE hK a') j = u a' * sg a' := by
          simp only [z, Finset.sum_mul]
          rw [Finset.sum_comm]
          have h4 : ∀ a : Fin 2, ∑ j, u a * sg a * V (Fin.castLE hK a) j * V (Fin.castLE hK a') j =
              u a * sg a * if a = a' then 1 else 0 := by
            intro a
            have := congrFun (congrFun hVo (Fin.castLE hK a)) (Fin.castLE hK a')
            simp only [mul_apply, transpose_apply, one_apply] at this
            simp only [mul_assoc, ← Finset.mul_sum]
            rw [this]
            by_cases haa : a = a'
            · rw [if_pos haa, if_pos (by rw [haa])]
            · rw [if_neg haa, if_neg (by
                intro hh
                exact haa (Fin.castLE_injective hK hh))]
          simp only [h4]
          simp
        have h5 : u a' * sg a' = 0 := by
          rw [← h3]
          exact Finset.sum_eq_zero fun j _ => by rw [hzz j, zero_mul]
        rcases hE.sign (E.pcaSvd (standardize R)) a' with e | e
        · have : sg a' = 1 := e
          rw [this, mul_one] at h5
          exact h5
        · have : sg a' = -1 := e
          rw [this] at h5
          simpa using h5
  obtain ⟨v, hv⟩ := hex
  obtain ⟨ρ, -, hv'⟩ := kde_density (bw := 0) (by norm_num) hv
  refine ⟨v, hv, ?_⟩
  rw [hv', List.length_ofFn, hy]
  exact hnl

/-- Data without affine relation: no combination of sensors has the same value for all samples, except the
trivial one. -/
def Independent (n S : ℕ) (data : ND) : Prop :=
  ∀ u : Fin S → ℝ, (∃ c : ℝ, ∀ i < n, ∑ j : Fin S, u j * data.get [i, j] = c) → u = 0

theorem Independent.sel {n S : ℕ} {data : ND} (h : Independent n S data) {sel : List ℕ}
    (hsel : ∀ i ∈ sel, i < S) (hnd : sel.Nodup) (u : Fin sel.length → ℝ)
    (hu : ∃ c : ℝ, ∀ i < n, ∑ j, u j * data.get [i, sel[j]] = c) : u = 0 := by
  classical
  obtain ⟨c, hc⟩ := hu
  let f : Fin sel.length → Fin S := fun k => ⟨sel[k], hsel _ (List.getElem_mem _)⟩
  have hf : Function.Injective f := by
    intro a b hab
    have : sel[a] = sel[b] := congrArg Fin.val hab
    exact Fin.ext ((List.Nodup.getElem_inj_iff hnd).1 this)
  have h0 := h (fun j => ∑ k, if f k = j then u k else 0) ⟨c, fun i hi => by
    rw [← hc i hi]
    simp only [Finset.sum_mul]
    rw [Finset.sum_comm]
    refine Finset.sum_congr rfl fun k _ => ?_
    simp only [ite_mul, zero_mul]
    rw [Finset.sum_ite_eq]
    simp [f]⟩
  ext k
  have h1 := congrFun h0 (f k)
  simp only [hf.eq_iff] at h1
  simpa using h1

section
variable {E : FileEnv} {G : Rng σ} {R : PyRandom ρ} {path : String} {ds : DataSet} {n p S : ℕ}
  {dom sensors tv lam data : ND}

/-- **C112 (it returns, with `scipy`).** On a file of the example with at least two parameters and sensors,
a proper domain and independent data, `run_2d_poisson_trials` returns for any order, seed and numbers
`N ≥ 2`. -/
theorem C112_returns_scipy (hread : E.read path = .ok ds)
    (hf : PoissonFile ds n p S dom sensors tv lam data)
    (hR : ∀ n s, 0 < n → (R.below n s).1 < n) (X : Ext) (hX : X.Correct) {closest : List ℝ}
    (hdom : ∀ j < p, dom.data.getD (2 * j) 0 < dom.data.getD (2 * j + 1) 0)
    (hn : 2 ≤ n) (hp : 2 ≤ p) (hS : 2 ≤ S) (hc : 2 ≤ closest.length)
    (hdraw : ∀ a c R i n, pe.draw a c R i n = .ok ()) (hind : Independent n S data)
    (x_range : Arr2) {Ns : List ℕ} (hNs : ∀ N ∈ Ns, 2 ≤ N) (order : String) (ann1 ann2 : Bool)
    (sigma : ℝ) (seed : Option ℕ) (s : σ × ρ) :
    ∃ r s', runTrials E G R (decomp X) (scipyEnv user) pe closest x_range path
      (Ns.map fun N : ℕ => (N : ℤ)) order ann1 ann2 sigma seed s = (.ok r, s') := by
  obtain ⟨P, M, D, idx, s', hr, hD, hDs, hDd, hsd, hM, ho, e⟩ := runTrials_eq (G := G)
    (env := scipyEnv user) (pe := pe) hread hf hR (decomp X) closest x_range
    (Ns.map fun N : ℕ => (N : ℤ)) order ann1 ann2 sigma seed s
  have hl : idx.length = S := by simpa using ho.1.length_eq
  have hnd : idx.Nodup := ho.1.nodup_iff.2 List.nodup_range
  obtain ⟨ts, hts⟩ := mapM_exists (f := trial (decomp X) (scipyEnv user) pe x_range closest ann1 ann2 P idx)
    (l := Ns.map fun N : ℕ => (N : ℤ)) (by
      intro a ha
      obtain ⟨N, hN, rfl⟩ := List.mem_map.1 ha
      have hm : ∀ i ∈ idx.take N, i < S := fun i hi =>
        List.mem_range.1 (ho.1.mem_iff.1 (List.mem_of_mem_take hi))
      exact C112_trial_returns X hr hf.sensors_shape hsd (by norm_num) hD hDs
        (domain_order hDs hDd hdom) hn hp hS ho.1
        (hNs N hN) hdraw (fun Q hQ => C112_kde X hX hr hf.sensors_shape hsd (by norm_num) hD hDs hn hm
          (by have := hNs N hN; simp [hl]; omega)
          (fun u hu => hind.sel hm (hnd.sublist (List.take_sublist _ _)) u hu) hQ) hc x_range ann1 ann2)
  rw [e, hts]
  exact ⟨_, _, rfl⟩

/-- **C113 (it returns, with `scipy`).** -/
theorem C113_returns_scipy (hread : E.read path = .ok ds)
    (hf : PoissonFile ds n p S dom sensors tv lam data)
    (hR : ∀ n s, 0 < n → (R.below n s).1 < n) (X : Ext) (hX : X.Correct) (closest : List ℝ)
    (hdom : ∀ j < p, dom.data.getD (2 * j) 0 < dom.data.getD (2 * j + 1) 0)
    (hn : 2 ≤ n) (hp : 2 ≤ p) (hS : 2 ≤ S)
    (hdraw : ∀ a c R i n, pe.draw a c R i n = .ok ()) (hind : Independent n S data)
    (sigma : ℝ) (seed : Option ℕ) (plot_fig : List String) (order : String) {gs : List (ℤ × ℤ)}
    {styles : ℕ} (hgs : gs.length ≤ styles) (s : σ × ρ) :
    ∃ out s', runSol E G R (decomp X) (scipyEnv user) pe closest path sigma seed plot_fig order gs styles s =
      (.ok out, s') := by
  obtain ⟨P, M, D, idx, s', -, hr, hD, hDs, hDd, hsd, hM, -, ho, e⟩ := runSol_eq (G := G)
    (env := scipyEnv user) (pe := pe) hread hf hR (decomp X) closest sigma seed plot_fig order gs styles s
  have hl : idx.length = S := by simpa using ho.1.length_eq
  have hnd : idx.Nodup := ho.1.nodup_iff.2 List.nodup_range
  have hm : ∀ i ∈ idx, i < S := fun i hi => List.mem_range.1 (ho.1.mem_iff.1 hi)
  obtain ⟨out, hout⟩ := C113_returns X hr hf.sensors_shape hsd (by norm_num) hD hDs
    (domain_order hDs hDd hdom) hn hp hS ho.1 hdraw
    (fun Q hQ => C112_kde (user := user) X hX hr hf.sensors_shape hsd (by norm_num) hD hDs hn hm (by omega)
      (fun u hu => hind.sel hm hnd u hu) hQ) closest plot_fig hgs
  rw [e, hout]
  exact ⟨_, _, rfl⟩

/-! ## A concrete case: six samples, two parameters, two sensors -/

/-- The singular values of a matrix with two columns that are not orthogonal are distinct. -/
theorem svd_distinct {m : ℕ} (hm : 2 ≤ m) {A : Matrix (Fin m) (Fin 2) ℝ} {o : SvdOut m 2} (ho : IsSvd A o)
    (hA : ∑ i, A i 0 * A i 1 ≠ 0) : o.s.getD 0 0 ≠ o.s.getD 1 0 := by
  intro he
  have h1 : (diagOf m 2 o.s)ᵀ * diagOf m 2 o.s = (o.s.getD 0 0 ^ 2) • (1 : Matrix (Fin 2) (Fin 2) ℝ) := by
    ext j k
    have hj : (j : ℕ) < m := by have := j.2; omega
    rw [mul_apply, Finset.sum_eq_single (⟨j, hj⟩ : Fin m)]
    · have hs : o.s.getD j 0 = o.s.getD 0 0 := by
        rcases j with ⟨j, hj2⟩
        interval_cases j
        · rfl
        · exact he.symm
      simp only [diagOf, transpose_apply, of_apply, if_true, Matrix.smul_apply, one_apply, Fin.ext_iff]
      by_cases hjk : (j : ℕ) = k
      · rw [if_pos hjk, if_pos hjk, hs, smul_eq_mul]
        ring
      · rw [if_neg hjk, if_neg hjk]
        simp
    · intro i _ hij
      have : (i : ℕ) ≠ j := fun h => hij (Fin.ext h)
      simp [diagOf, this]
    · simp
  have h2 : Aᵀ * A = (o.s.getD 0 0 ^ 2) • (1 : Matrix (Fin 2) (Fin 2) ℝ) := by
    have hv : o.vhᵀ * o.vh = 1 := mul_eq_one_comm.1 ho.vh_orth
    calc Aᵀ * A = o.vhᵀ * ((diagOf m 2 o.s)ᵀ * (o.uᵀ * o.u) * diagOf m 2 o.s) * o.vh := by
          conv_lhs => rw [ho.factor]
          simp only [transpose_mul, Matrix.mul_assoc]
      _ = _ := by
          rw [ho.u_orth, Matrix.mul_one, h1, Matrix.mul_smul, Matrix.mul_one, smul_mul, hv]
  apply hA
  have h3 := congrFun (congrFun h2 0) 1
  simpa [mul_apply] using h3

/-- Six samples. -/
def sixData : ND := ndOfNats [6, 2] [2, 2, 2, 2, 0, 0, 0, 0, 2, 0, 0, 2] rfl

/-- A file with six samples of two parameters at two sensors. -/
def sixDs : DataSet :=
  [("domain", .arr (ndOfNats [2, 2] [0, 1, 0, 1] rfl)), ("sensors", .arr (ndOfNats [2, 2] [0, 0, 1, 1] rfl)),
   ("true_vals", .arr (ndOfNats [2] [1, 1] rfl)),
   ("lam", .arr (ndOfNats [6, 2] [0, 0, 0, 1, 1, 0, 1, 1, 0, 0, 1, 1] rfl)),
   ("data", .arr sixData)]

/-- The file system with this file. -/
def sixFiles : FileEnv := ⟨false, fun _ => some (.pickle sixDs)⟩

theorem sixDs_file : PoissonFile sixDs 6 2 2 (ndOfNats [2, 2] [0, 1, 0, 1] rfl)
    (ndOfNats [2, 2] [0, 0, 1, 1] rfl) (ndOfNats [2] [1, 1] rfl)
    (ndOfNats [6, 2] [0, 0, 0, 1, 1, 0, 1, 1, 0, 0, 1, 1] rfl) sixData :=
  ⟨rfl, rfl, rfl, rfl, rfl, rfl, rfl, rfl, rfl, rfl, rfl, rfl, rfl, rfl, rfl⟩

theorem six_indep : Independent 6 2 sixData := by
  rintro u ⟨c, hc⟩
  have h0 := hc 0 (by norm_num)
  have h2 := hc 2 (by norm_num)
  have h4 := hc 4 (by norm_num)
  simp [Fin.sum_univ_two, sixData, ND.get, offset, ndOfNats] at h0 h2 h4
  ext j
  fin_cases j
  · show u 0 = 0
    linarith
  · show u 1 = 0
    linarith

/-- The standardised residuals. -/
def sixY : Matrix (Fin 6) (Fin 2) ℝ := !![-1, -1; -1, -1; 1, 1; 1, 1; -1, 1; 1, -1]

theorem selResid_all {n S : ℕ} (data M : ND) (sd : ℝ) (i : Fin (List.range n).length)
    (j : Fin ((List.range S).length * (List.range 1).length)) :
    selResid 1 (List.range n) (List.range 1) (List.range S) data M sd i j =
      (M.get [(j : ℕ), 0] - data.get [(i : ℕ), (j : ℕ)]) / sd := by
  have h := congrArg Fin.val (finProdFinEquiv.apply_symm_apply j)
  rw [finProdFinEquiv_apply_val] at h
  have h' : ((finProdFinEquiv.symm j).1 : ℕ) * 1 + ((finProdFinEquiv.symm j).2 : ℕ) = j := by
    rw [← h]
    simp only [List.length_range]
    ring
  unfold selResid
  rw [of_apply]
  simp only [Fin.getElem_fin, List.getElem_range, h']

theorem six_std {M : ND} (hM : ∀ j < 2, M.get [j, 0] = 1) :
    standardize (selResid 1 (List.range 6) (List.range 1) (List.range 2) sixData M 0.05) = sixY := by
  have e : ∀ (i : Fin 6) (j : Fin 2), selResid 1 (List.range 6) (List.range 1) (List.range 2) sixData M 0.05 i j =
      20 * sixY i j := by
    intro i j
    refine (selResid_all (n := 6) (S := 2) sixData M 0.05 i j).trans ?_
    rw [hM j j.2]
    fin_cases i <;> fin_cases j <;> simp [sixY, sixData, ND.get, offset, ndOfNats] <;> norm_num
  have hs := standardize_isStd (n := 6) (by norm_num)
    (selResid 1 (List.range 6) (List.range 1) (List.range 2) sixData M 0.05)
  have h2 : IsStd (n := 6) (d := 2) (selResid 1 (List.range 6) (List.range 1) (List.range 2) sixData M 0.05)
      sixY := by
    intro j
    refine ⟨⟨0, 20, by norm_num, fun i => ?_⟩, ?_, .inl ?_⟩
    · rw [e]
      ring
    · fin_cases j <;> simp [sixY, Fin.sum_univ_succ]
    · fin_cases j <;> simp [sixY, Fin.sum_univ_succ] <;> norm_num
  exact (isStd_unique (by norm_num) hs h2 fun _ => ⟨1, 0, one_pos, fun _ => by ring⟩).symm

/-- The hypotheses of C112 on this file, for the random order from any state: the trials with `2`, `3` and
`500` sensors return; each is what it should be; and another state of the generator, hence possibly another
order, gives the same estimates from all sensors. -/
example (t : ℕ) (R : Arr2) : ∃ X : Ext, X.Correct ∧ ∃ P ts s', runTrials sixFiles solG solR (decomp X)
      (scipyEnv user) solPe [0, 0] R "p.pkl" ([2, 3, 500].map fun N : ℕ => (N : ℤ)) "random" true true 0.05
      none (0, t) = (.ok (P, ts), s') ∧
    (∃ idx, OrderOf "random" (ndOfNats [2, 2] [0, 0, 1, 1] rfl) 2 idx ∧
      List.Forall₂ (fun N t => TrialOf (decomp X) (scipyEnv user) [0, 0] true true P (idx.take N) t)
        [2, 3, 500] ts) ∧
    ∀ (idx idx' : List ℕ) (N N' : ℕ) (u u' : Trial), idx.Perm (List.range 2) → idx'.Perm (List.range 2) →
      2 ≤ N → 2 ≤ N' →
      trial (decomp X) (scipyEnv user) solPe R [0, 0] true true P idx N = .ok u →
      trial (decomp X) (scipyEnv user) solPe R [0, 0] true true P idx' N' = .ok u' →
      (DPD.mudPoint (scipyEnv user) u.2).1 = (DPD.mudPoint (scipyEnv user) u'.2).1 := by
  obtain ⟨X, hX⟩ := ext_exists
  refine ⟨X, hX, ?_⟩
  obtain ⟨⟨P, ts⟩, s', h⟩ := C112_returns_scipy (user := user) (E := sixFiles) (G := solG) (R := solR)
    (path := "p.pkl") (pe := solPe) rfl sixDs_file solR_lt X hX (closest := [0, 0])
    (by
      intro j hj
      interval_cases j <;> simp [ndOfNats]) (by norm_num) le_rfl le_rfl le_rfl (fun _ _ _ _ _ => rfl)
    six_indep R (Ns := [2, 3, 500]) (by simp) "random" true true 0.05 none (0, t)
  refine ⟨P, ts, s', h, ?_, ?_⟩
  · obtain ⟨M, idx, -, -, ho, hF⟩ := C112_trials (G := solG) (E := sixFiles) (path := "p.pkl") rfl sixDs_file
      solR_lt h
    exact ⟨idx, ho, hF⟩
  · intro idx idx' N N' u u' hi hi' hN hN' hu hu'
    obtain ⟨P', M, D, idx0, s0, hr, hD, hDs, hDd, hsd, hM, ho, e⟩ := runTrials_eq (G := solG)
      (E := sixFiles) (path := "p.pkl") (env := scipyEnv user) (pe := solPe) rfl sixDs_file solR_lt
      (decomp X) [0, 0] R ([2, 3, 500].map fun N : ℕ => (N : ℤ)) "random" true true 0.05 none (0, t)
    rw [h] at e
    obtain ⟨ts', -, hP⟩ := Py.bind_eq_ok.1 (Prod.mk.inj e).1.symm
    cases hP
    have hM1 : ∀ j < 2, M.get [j, 0] = 1 := by
      intro j hj
      rw [hM j hj]
      have : nthDraw solG (startState solG none 0) j = 0 := rfl
      rw [this]
      interval_cases j <;> simp [ndOfNats]
    obtain ⟨o, hIs⟩ := exists_isSvd sixY
    have hd := svd_distinct (by norm_num) hIs (by simp [sixY, Fin.sum_univ_succ])
    exact (C112_all_sensors X hX hr rfl hsd (by norm_num) hD hDs (by norm_num) le_rfl (o := o)
      (by rw [six_std hM1]; exact hIs)
      (by
        intro i hi j hj hji
        interval_cases i <;> interval_cases j
        · exact absurd rfl hji
        · exact hd.symm
        · exact hd
        · exact absurd rfl hji) hi hi' hN hN' hu hu').1

/-- The hypotheses of C113 on this file. -/
example (t : ℕ) : ∃ X : Ext, X.Correct ∧ ∃ out s' M idx, runSol sixFiles solG solR (decomp X)
      (scipyEnv user) solPe [0, 0] "p.pkl" 0.05 none ["all"] "random" [(0, 5), (5, 50), (50, -1)] 3 (0, t) =
      (.ok out, s') ∧ out.prob.measurements = some M ∧
    SolOf (decomp X) (scipyEnv user) ["all"] [0, 0] [(0, 5), (5, 50), (50, -1)] 6 2
      (ndOfNats [6, 2] [0, 0, 0, 1, 1, 0, 1, 1, 0, 0, 1, 1] rfl)
      (ndOfNats [2, 2] [0, 0, 1, 1] rfl) out.prob idx out := by
  obtain ⟨X, hX⟩ := ext_exists
  refine ⟨X, hX, ?_⟩
  obtain ⟨out, s', h⟩ := C113_returns_scipy (user := user) (E := sixFiles) (G := solG) (R := solR)
    (path := "p.pkl") (pe := solPe) rfl sixDs_file solR_lt X hX [0, 0]
    (by
      intro j hj
      interval_cases j <;> simp [ndOfNats]) (by norm_num) le_rfl le_rfl (fun _ _ _ _ _ => rfl)
    six_indep 0.05 none ["all"] "random" (gs := [(0, 5), (5, 50), (50, -1)]) (styles := 3) le_rfl (0, t)
  obtain ⟨M, idx, hr, -, -, hs⟩ := C113_sol (G := solG) (E := sixFiles) (path := "p.pkl") rfl sixDs_file
    solR_lt h
  exact ⟨out, s', M, idx, h, hr.meas_eq, hs⟩

end

/-! ### Further cases meeting the hypotheses -/

/-- C112: any order of the two sensors of `sixDs`. -/
example (t : ℕ) : ∃ idx t', sensorOrder solR "random" { sensors := some (ndOfNats [2, 2] [0, 0, 1, 1] rfl) } t =
    (.ok idx, t') ∧ OrderOf "random" (ndOfNats [2, 2] [0, 0, 1, 1] rfl) 2 idx := by
  obtain ⟨idx, t', h, h1, -⟩ := C112_order solR_lt (P := { sensors := some (ndOfNats [2, 2] [0, 0, 1, 1] rfl) }) (S := 2)
    rfl rfl "random" t
  exact ⟨idx, t', h, h1⟩

/-- C113: with the order `"dist"` a seed fixes everything. -/
example (X : Ext) (s s' : ℕ × ℕ) : (runSol sixFiles solG solR (decomp X) (scipyEnv user) solPe [0, 0] "p.pkl" 0.05 (some 3)
      ["all"] "dist" [(0, 5)] 3 s).1 =
    (runSol sixFiles solG solR (decomp X) (scipyEnv user) solPe [0, 0] "p.pkl" 0.05 (some 3) ["all"] "dist" [(0, 5)] 3 s').1 :=
  C113_seeded_partial sixFiles solG solR (decomp X) [0, 0] "p.pkl" 0.05 3 ["all"] (by decide) [(0, 5)] 3 s s'

/-- C113: sixty sensors, of which the last one is not shown. -/
example (sensors : ND) (fig : ResponseFig)
    (h : fig.groups = [((0 : ℤ), (5 : ℤ)), (5, 50), (50, -1)].map fun g =>
      (groupOf (List.range 60) g).map (sensorAt sensors)) :
    fig.groups.flatten = (List.range 59).map (sensorAt sensors) := by
  rw [C113_default_groups (S := 60) (List.Perm.refl _) h, if_neg (by norm_num)]
  rfl

end Poisson

end Verif
