import Verif.Props.AdcircRun
import Verif.Props.PoissonScipy

/-!
# C116, C117 with `scipy`'s kernel density estimate

`/repo/src/mud/examples/adcirc.py:150-290`, `/repo/src/mud/examples/examples.py:736-848`.
-/

namespace Verif

namespace Adcirc

open Matrix ND SpecST STP Prep Poisson

variable {σ : Type} {pe : PlotEnv} {user : ℕ → ℝ → ℕ → ℝ}

/-- The kernel density estimate of the principal components of residuals without affine relation exists. -/
theorem kde_pca (E : Ext) (hE : E.Correct) {n K k : ℕ} (R : Matrix (Fin n) (Fin K) ℝ) (hn : 2 ≤ n)
    (hk0 : 0 < k) (h2 : k ≤ K) (hind : ∀ z : Fin K → ℝ, (∃ c : ℝ, ∀ i, ∑ j, z j * R i j = c) → z = 0) {Q : DP}
    (hy : Q.y = ⟨n, k, .of fun i a => E.sign (E.pcaSvd (standardize R)) a *
      ∑ j, R i j * (E.pcaSvd (standardize R)).vh (Fin.castLE h2 a) j⟩)
    (hw : Q.weights = List.ofFn fun _ : Fin n => F.fin 1) :
    ∃ c, (scipyEnv user).kde Q.y 0 Q.weights = .ok c ∧ c.length = n := by
  set V := (E.pcaSvd (standardize R)).vh with hV
  have hVo : V * Vᵀ = 1 := (hE.pcaSvd (standardize R)).vh_orth
  have hn0 : (0 : ℝ) < n := by
    have : 0 < n := by omega
    exact_mod_cast this
  have hn1 : (1 : ℝ) < n := by
    have : 1 < n := by omega
    exact_mod_cast this
  have hsq : ∑ _i : Fin n, ((1 : ℝ) / ∑ _l : Fin n, 1) ^ 2 < 1 := by
    simp only [Finset.sum_const, Finset.card_univ, Fintype.card_fin, nsmul_eq_mul, mul_one]
    rw [div_pow, one_pow, mul_one_div, div_lt_one (by positivity)]
    nlinarith
  have hex : ∃ v, (scipyEnv user).kde Q.y 0 Q.weights = .ok v := by
    rw [← setPredicted_kde_iff, setPredicted_returns_iff (w := fun _ => 1) hy hw 0]
    refine ⟨lt_of_lt_of_le (by omega : 1 < n) (Nat.le_mul_of_pos_right n hk0), ?_, ?_, hsq, ?_⟩
    · simp only [Finset.sum_const, Finset.card_univ, Fintype.card_fin, nsmul_eq_mul]
      positivity
    · intro i
      positivity
    · refine kdeCov_posDef _ (fun i => ?_) hsq ?_
      · simp only [Finset.sum_const, Finset.card_univ, Fintype.card_fin, nsmul_eq_mul]
        positivity
      · rintro u ⟨c, hc⟩
        set sg := E.sign (E.pcaSvd (standardize R)) with hsg
        let z : Fin K → ℝ := fun j => ∑ a, u a * sg a * V (Fin.castLE h2 a) j
        have hz : ∀ i, ∑ j, z j * R i j = c := by
          intro i
          rw [← hc i]
          simp only [dotProduct, of_apply, z, Finset.mul_sum, Finset.sum_mul]
          rw [Finset.sum_comm]
          refine Finset.sum_congr rfl fun a _ => Finset.sum_congr rfl fun j _ => ?_
          ring
        have hz0 := hind z ⟨c, hz⟩
        ext a'
        have h3 : ∑ j, z j * V (Fin.castLE h2 a') j = u a' * sg a' := by
          simp only [z, Finset.sum_mul]
          rw [Finset.sum_comm]
          have h4 : ∀ a : Fin k, ∑ j, u a * sg a * V (Fin.castLE h2 a) j * V (Fin.castLE h2 a') j =
              u a * sg a * if a = a' then 1 else 0 := by
            intro a
            have := congrFun (congrFun hVo (Fin.castLE h2 a)) (Fin.castLE h2 a')
            simp only [mul_apply, transpose_apply, one_apply] at this
            simp only [mul_assoc, ← Finset.mul_sum]
            rw [this]
            by_cases haa : a = a'
            · rw [if_pos haa, if_pos (by rw [haa])]
            · rw [if_neg haa, if_neg (by
                intro hh
                exact haa (Fin.castLE_injective h2 hh))]
          simp only [h4]
          simp
        have h5 : u a' * sg a' = 0 := by
          rw [← h3, hz0]
          simp
        rcases hE.sign (E.pcaSvd (standardize R)) a' with e | e
        · have : sg a' = 1 := e
          rw [this, mul_one] at h5
          exact h5
        · have : sg a' = -1 := e
          rw [this] at h5
          simpa using h5
  obtain ⟨v, hv⟩ := hex
  obtain ⟨ρ, -, hv'⟩ := kde_density (bw := 0) (by norm_num) hv
  refine ⟨v, hv, ?_⟩
  rw [hv', List.length_ofFn, hy]

/-- **C116 (density estimate).** For samples whose data at the instants of the window satisfy no affine
relation, `scipy`'s kernel density estimate of the components exists. -/
theorem C116_kde (E : Ext) (hE : E.Correct) {P : STP} {n p T : ℕ} {lam data sensors times M D : ND}
    (h : Ready P n p 1 T lam data sensors times (some M)) (htd : times.data.length = T)
    {sd : ℝ} (hsd : P.stdDev = some sd) (h0 : sd ≠ 0) (hD : P.domain = some D) (hDs : D.shape = [p, 2])
    (hn : 2 ≤ n) {b : List ℕ} (hb : ∀ t ∈ b, t < T) {k : ℕ} (hk0 : 0 < k) (hkn : k ≤ n) (hkb : k ≤ b.length)
    (hind : ∀ u : Fin b.length → ℝ,
      (∃ c : ℝ, ∀ i < n, ∑ j, u j * data.get [i, b[j]] = c) → u = 0) {Q : DP}
    (hQ : P.mudProblem (decomp E) "pca" none none k none
      (some (.ints (b.map fun t : ℕ => (t : ℤ)))) none = .ok Q) :
    ∃ c, (scipyEnv user).kde Q.y 0 Q.weights = .ok c ∧ c.length = n := by
  have hb0 : b ≠ [] := by rintro rfl; simp at hkb; omega
  have hm := mudProblem_masked (decomp E) h (ms := none) (mx := none) listLike_none (listLike_ints _)
    listLike_none (a := List.range n) rfl (ints_picks hb) (c := List.range 1) rfl hb0 (by simp) htd
    (fun h => absurd rfl h) hsd h0 hD "pca" none k
  have hK : k ≤ (List.range 1).length * b.length := by simpa using hkb
  rw [qoi_pca E _ (by simp; omega) (by omega) (by simp; omega) hK, Py.ok_bind, toArr2_two hDs, hQ] at hm
  obtain ⟨-, hy, hw⟩ := new_fields hm.symm
  have hw' : Q.weights = List.ofFn fun _ : Fin (List.range n).length => F.fin 1 := by
    rw [List.ofFn_const]
    exact (Except.ok.inj hw).symm
  suffices hI : ∀ z : Fin ((List.range 1).length * b.length) → ℝ,
      (∃ c : ℝ, ∀ i, ∑ j, z j * selResid T (List.range n) b (List.range 1) data M sd i j = c) → z = 0 by
    obtain ⟨c, h1, h2⟩ := kde_pca (user := user) E hE _ (by simpa using hn) hk0 hK hI hy hw'
    exact ⟨c, h1, h2.trans List.length_range⟩
  rintro z ⟨c, hz⟩
  have hz0 : (fun k : Fin b.length => z (finProdFinEquiv (⟨0, by simp⟩, k))) = 0 := by
    refine hind _ ⟨(∑ k : Fin b.length, z (finProdFinEquiv (⟨0, by simp⟩, k)) *
      M.get [0 * T + b[k], 0]) - c * sd, fun i hi => ?_⟩
    have hi' := hz ⟨i, by simpa using hi⟩
    rw [← finProdFinEquiv.sum_comp, Fintype.sum_prod_type, sum_one] at hi'
    have e : ∀ k : Fin b.length, selResid T (List.range n) b (List.range 1) data M sd
        ⟨i, by simpa using hi⟩ (finProdFinEquiv (⟨0, by simp⟩, k)) =
        (M.get [0 * T + b[k], 0] - data.get [i, b[k]]) / sd := by
      intro k
      unfold selResid
      rw [of_apply]
      simp only [Equiv.symm_apply_apply]
      simp
    simp only [e] at hi'
    rw [← hi', Finset.sum_mul, ← Finset.sum_sub_distrib]
    refine Finset.sum_congr rfl fun k _ => ?_
    field_simp
    ring
  ext j
  have h1 := congrFun hz0 (finProdFinEquiv.symm j).2
  have h2 : (finProdFinEquiv ((⟨0, by simp⟩ : Fin (List.range 1).length), (finProdFinEquiv.symm j).2)) = j := by
    have : (⟨0, by simp⟩ : Fin (List.range 1).length) = (finProdFinEquiv.symm j).1 :=
      Subsingleton.elim (α := Fin 1) _ _
    rw [this]
    exact finProdFinEquiv.apply_symm_apply j
  rw [h2] at h1
  exact h1

/-- The data at the instants of a window satisfy no affine relation: no combination of instants has the same
value for all samples, except the trivial one. -/
def WindowIndep (n T : ℕ) (data times : ND) (w : ℝ × ℝ) : Prop :=
  ∀ u : Fin (inside times T w).length → ℝ,
    (∃ c : ℝ, ∀ i < n, ∑ j, u j * data.get [i, (inside times T w)[j]] = c) → u = 0

/-- **C116 (it returns, with `scipy`).** For a complete problem of one sensor with a reference value, two or
more parameters and a proper domain, `adcirc_time_window` with one or two components and at least as many
times strictly inside the window returns, for any figures, title, number of lines and history, provided
drawing does not raise, limits are given for every parameter or for none, and the data in the window satisfy
no affine relation. -/
theorem C116_returns_scipy {P : STP} {n p T : ℕ} {lam data sensors times M D : ND} (X : Ext) (hX : X.Correct)
    (choice : ℕ → ℕ → List ℕ) (hch : ∀ n k, (choice n k).length = k)
    (h : Ready P n p 1 T lam data sensors times (some M)) (hs : times.shape = [T])
    (hs2 : sensors.shape = [1, 2]) {sd : ℝ} (hsd : P.stdDev = some sd) (h0 : sd ≠ 0)
    (hD : P.domain = some D) (hDs : D.shape = [p, 2]) (hord : ∀ j < p, D.get [j, 0] < D.get [j, 1])
    (hn : 2 ≤ n) (hp : 2 ≤ p) {ref : ND} (href : P.lamRef = some ref) (hrl : p ≤ ref.data.length)
    {w : ℝ × ℝ} {k : ℕ} (hk0 : 0 < k) (hk : k ≤ 2) (hkb : k ≤ (inside times T w).length)
    (hdraw : ∀ a c R i n, pe.draw a c R i n = .ok ()) (hind : WindowIndep n T data times w)
    (pca0 : Option Arr2) (mp : ℕ) {yl : Option ℕ} (hyl : ∀ m ∈ yl, p ≤ m) (title save : Bool)
    (figs : List String) :
    ∃ out, timeWindow (decomp X) (scipyEnv user) pe choice P pca0 w "pca" k mp yl title save figs = .ok out :=
  C116_returns X choice hch h hs hs2 hsd h0 hD hDs hord hp href hrl hk0 hk (by omega) hkb hdraw
    (fun _ hQ _ => C116_kde X hX h (by rw [times.size_eq, hs]; simp) hsd h0 hD hDs hn
      (fun t ht => (mem_inside.1 ht).1) hk0 (by omega) hkb hind hQ) pca0 mp hyl title save figs

variable {E : FileEnv} {G : Rng σ} {path : String} {ds : DataSet} {n p T : ℕ}
  {dom times tv lam data ref : ND}

/-- **C117 (it returns, with `scipy`).** -/
theorem C117_returns_scipy (hread : E.read path = .ok ds)
    (hf : AdcircFile ds n p T dom times tv lam data ref) (X : Ext) (hX : X.Correct)
    (choice : ℕ → ℕ → List ℕ) (hch : ∀ n k, (choice n k).length = k) {grid : Grid} {k : ℕ} {t1 t2 : List ℝ}
    (p1 p2 : List ℝ) (sigma : ℝ) {mv : String} {cutoff : ℝ} (save : Bool) (figs : List String)
    (seed : Option ℕ) (s : σ)
    (hdom : ∀ j < p, dom.data.getD (2 * j) 0 < dom.data.getD (2 * j + 1) 0) (hT : 0 < T)
    (hn : 2 ≤ n) (hp : p = 2) (hk0 : 0 < k) (hk : k ≤ 2)
    (hw : ∀ w ∈ t1.zip t2, k ≤ (inside times T w).length ∧ WindowIndep n T data times w)
    (hnw : (t1.zip t2).length ≤ 3)
    (hdraw : ∀ a c R i n, pe.draw a c R i n = .ok ()) (hmesh : ∃ v, meshValues grid mv cutoff = .ok v) :
    ∃ out s', adcircSolve E G (decomp X) (scipyEnv user) pe choice grid path k t1 t2 p1 p2 sigma mv cutoff save
      figs seed s = (.ok out, s') :=
  C117_returns hread hf X choice hch p1 p2 sigma save figs seed s hdom hT hp hk0 hk (by omega)
    (fun w h => (hw w h).1) hnw hdraw hmesh
    (fun P M D w Q hw' hr hsd hD hDs hQ _ => C116_kde X hX hr (by rw [times.size_eq, hf.times_shape]; simp)
      hsd (by norm_num) hD hDs hn (fun t ht => (mem_inside.1 ht).1) hk0 (by omega) (hw w hw').1 (hw w hw').2 hQ)

/-! ## A concrete case: three samples of two parameters, four times -/

/-- The water levels. -/
def gulfData : ND := ndOfNats [3, 4] [0, 0, 0, 0, 1, 0, 1, 0, 0, 1, 0, 1] rfl

/-- The data set. -/
def gulfDs : DataSet :=
  [("domain", .arr (ndOfNats [2, 2] [0, 2, 0, 2] rfl)), ("times", .arr (ndOfNats [4] [1, 2, 3, 4] rfl)),
   ("lam_ref", .arr (ndOfNats [2] [1, 1] rfl)), ("true_vals", .arr (ndOfNats [4] [3, 4, 5, 6] rfl)),
   ("lam", .arr (ndOfNats [3, 2] [0, 0, 1, 1, 0, 1] rfl)), ("data", .arr gulfData)]

theorem gulfDs_file : AdcircFile gulfDs 3 2 4 (ndOfNats [2, 2] [0, 2, 0, 2] rfl)
    (ndOfNats [4] [1, 2, 3, 4] rfl) (ndOfNats [4] [3, 4, 5, 6] rfl) (ndOfNats [3, 2] [0, 0, 1, 1, 0, 1] rfl)
    gulfData (ndOfNats [2] [1, 1] rfl) where
  no_dist := rfl
  has_domain := rfl
  no_sensors := rfl
  has_times := rfl
  has_ref := rfl
  no_sd := rfl
  has_tv := rfl
  no_meas := rfl
  has_lam := rfl
  has_data := rfl
  dom_len := rfl
  times_shape := rfl
  tv_len := rfl
  lam_shape := rfl
  data_shape := rfl
  ref_len := rfl
  ref_in := by
    intro j hj
    have : j < 2 := hj
    interval_cases j <;> simp [ndOfNats]

/-- A window with two instants whose data differ in the second and in the third sample only. -/
theorem indep_pair {l : List ℕ} {a b : ℕ} {data : ND} (hl : l = [a, b]) (h0a : data.get [0, a] = 0)
    (h0b : data.get [0, b] = 0)
    (h : (data.get [1, a] = 1 ∧ data.get [1, b] = 0 ∧ data.get [2, a] = 0 ∧ data.get [2, b] = 1) ∨
      (data.get [1, a] = 0 ∧ data.get [1, b] = 1 ∧ data.get [2, a] = 1 ∧ data.get [2, b] = 0))
    (u : Fin l.length → ℝ) (hu : ∃ c : ℝ, ∀ i < 3, ∑ j, u j * data.get [i, l[j]] = c) : u = 0 := by
  subst hl
  obtain ⟨c, hc⟩ := hu
  have e : ∀ i < 3, u (0 : Fin 2) * data.get [i, a] + u (1 : Fin 2) * data.get [i, b] = c := by
    intro i hi
    rw [← hc i hi]
    exact (Fin.sum_univ_two (fun j : Fin 2 => u j * data.get [i, [a, b][j]])).symm
  have e0 := e 0 (by norm_num)
  have e1 := e 1 (by norm_num)
  have e2 := e 2 (by norm_num)
  have h01 : u (0 : Fin 2) = 0 ∧ u (1 : Fin 2) = 0 := by
    rcases h with ⟨a1, a2, a3, a4⟩ | ⟨a1, a2, a3, a4⟩
    all_goals
      rw [h0a, h0b] at e0
      rw [a1, a2] at e1
      rw [a3, a4] at e2
      constructor <;> linarith
  have : ∀ j : Fin 2, u j = 0 := by
    rw [Fin.forall_fin_two]
    exact h01
  ext j
  exact this j

/-- Three windows of the example and the positions of the two instants in each. -/
theorem gulf_inside (w : ℝ × ℝ) (hw : w ∈ [((0 : ℝ), (2.5 : ℝ)), (2.5, 5), (1.5, 3.5)]) :
    ∃ a b, inside (ndOfNats [4] [1, 2, 3, 4] rfl) 4 w = [a, b] ∧ ((a = 0 ∧ b = 1) ∨ (a = 2 ∧ b = 3) ∨
      (a = 1 ∧ b = 2)) := by
  have h : w = (0, 2.5) ∨ w = (2.5, 5) ∨ w = (1.5, 3.5) := by simpa using hw
  rcases h with rfl | rfl | rfl
  · refine ⟨0, 1, tide_inside (l := [0, 1]) 0 2.5 (fun t => ⟨fun h => ?_, ?_⟩) (by simp), by simp⟩
    · have : t = 0 ∨ t = 1 := by simpa using h
      rcases this with rfl | rfl <;> norm_num
    · rintro ⟨h1, h2, h3⟩
      interval_cases t <;> first | (norm_num at h3; done) | norm_num
  · refine ⟨2, 3, tide_inside (l := [2, 3]) 2.5 5 (fun t => ⟨fun h => ?_, ?_⟩) (by simp), by simp⟩
    · have : t = 2 ∨ t = 3 := by simpa using h
      rcases this with rfl | rfl <;> norm_num
    · rintro ⟨h1, h2, h3⟩
      interval_cases t <;> first | (norm_num at h2; done) | norm_num
  · refine ⟨1, 2, tide_inside (l := [1, 2]) 1.5 3.5 (fun t => ⟨fun h => ?_, ?_⟩) (by simp), by simp⟩
    · have : t = 1 ∨ t = 2 := by simpa using h
      rcases this with rfl | rfl <;> norm_num
    · rintro ⟨h1, h2, h3⟩
      interval_cases t <;> first | (norm_num at h2; done) | (norm_num at h3; done) | norm_num

/-- The windows of the example meet the hypotheses. -/
theorem gulf_windows (w : ℝ × ℝ) (hw : w ∈ [((0 : ℝ), (2.5 : ℝ)), (2.5, 5), (1.5, 3.5)]) :
    2 ≤ (inside (ndOfNats [4] [1, 2, 3, 4] rfl) 4 w).length ∧
      WindowIndep 3 4 gulfData (ndOfNats [4] [1, 2, 3, 4] rfl) w := by
  obtain ⟨a, b, h, hab⟩ := gulf_inside w hw
  refine ⟨by rw [h]; simp, ?_⟩
  unfold WindowIndep
  rcases hab with ⟨rfl, rfl⟩ | ⟨rfl, rfl⟩ | ⟨rfl, rfl⟩ <;> intro u hu
  · exact indep_pair h (by simp [gulfData, ND.get, offset, ndOfNats]) (by simp [gulfData, ND.get, offset, ndOfNats])
      (.inl (by simp [gulfData, ND.get, offset, ndOfNats])) u hu
  · exact indep_pair h (by simp [gulfData, ND.get, offset, ndOfNats]) (by simp [gulfData, ND.get, offset, ndOfNats])
      (.inl (by simp [gulfData, ND.get, offset, ndOfNats])) u hu
  · exact indep_pair h (by simp [gulfData, ND.get, offset, ndOfNats]) (by simp [gulfData, ND.get, offset, ndOfNats])
      (.inr (by simp [gulfData, ND.get, offset, ndOfNats])) u hu

/-- The hypotheses are met: two components, three windows. -/
example (X : Ext) (hX : X.Correct) : ∃ out s', adcircSolve ⟨false, fun _ => some (.pickle gulfDs)⟩ solG
    (decomp X) (scipyEnv user) solPe (fun _ k => List.replicate k 0) [("wind_speed_mult_0", [1])] "a.pkl" 2
    [0, 2.5, 1.5] [2.5, 5, 3.5] [] [] 0.05 "wind_speed_mult_0" (-10) true ["all"] none 0 = (.ok out, s') :=
  C117_returns_scipy (n := 3) (T := 4) (by rfl) gulfDs_file X hX _ (by simp) [] [] 0.05 true ["all"] none 0
    (by
      intro j hj
      interval_cases j <;> simp [ndOfNats])
    (by norm_num) (by norm_num) rfl (by norm_num) le_rfl gulf_windows (by simp) (fun _ _ _ _ _ => rfl) ⟨[1], rfl⟩

end Adcirc

end Verif
