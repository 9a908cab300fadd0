import Verif.Props.KdeUnits

/-!
# C81: a sample of weight zero is a sample left out
-/

open Matrix

namespace Verif

variable {user : ℕ → ℝ → ℕ → ℝ} {n n' p d : ℕ} {e : Fin n' → Fin n}

theorem sum_sub (he : Function.Injective e) {f : Fin n → ℝ} (hf : ∀ i, (∀ k, e k ≠ i) → f i = 0) :
    ∑ k, f (e k) = ∑ i, f i :=
  Fintype.sum_of_injective e he _ f (fun i hi => hf i fun k hk => hi ⟨k, hk⟩) fun _ => rfl

theorem kdeCov_sub (he : Function.Injective e) (N : Matrix (Fin n) (Fin d) ℝ) {v : Fin n → ℝ}
    (hv : ∀ i, (∀ k, e k ≠ i) → v i = 0) : kdeCov (N.submatrix e id) (v ∘ e) = kdeCov N v := by
  ext j k
  simp only [kdeCov, Matrix.of_apply, Function.comp, Matrix.submatrix_apply, id]
  rw [sum_sub he (f := fun i => v i ^ 2) fun i hi => by simp [hv i hi],
    sum_sub he (f := fun l => v l * N l j) fun i hi => by simp [hv i hi],
    sum_sub he (f := fun l => v l * N l k) fun i hi => by simp [hv i hi],
    sum_sub he (f := fun i => v i * ((N i j - ∑ l, v l * N l j) * (N i k - ∑ l, v l * N l k)))
      fun i hi => by simp [hv i hi]]

theorem kdeAt_sub (he : Function.Injective e) (N : Matrix (Fin n) (Fin d) ℝ) {v : Fin n → ℝ}
    (hv : ∀ i, (∀ k, e k ≠ i) → v i = 0) (h : ℝ) (x : Fin d → ℝ) :
    kdeAt (N.submatrix e id) (v ∘ e) h x = kdeAt N v h x := by
  unfold kdeAt
  rw [kdeCov_sub he N hv]
  exact sum_sub he (f := fun i => v i * normalPdf (h ^ 2 • kdeCov N v) fun j => x j - N i j)
    fun i hi => by simp [hv i hi]

/-- Normalised weights of a list of numbers. -/
theorem kdeWeights_fin (w : Fin n → ℝ) :
    kdeWeights n (List.ofFn fun i => F.fin (w i)) = fun i => w i / ∑ l, w l := by
  funext i; rw [kdeWeights_ofFn]; rfl

/-- The value of scipy's estimate for finite weights. -/
theorem gaussianKde_val {N : Matrix (Fin n) (Fin d) ℝ} {w : Fin n → ℝ} {bw : ℕ}
    (h : kdeCheck ⟨n, d, N⟩ (List.ofFn fun i => F.fin (w i)) = .ok ()) :
    gaussianKde user ⟨n, d, N⟩ bw (List.ofFn fun i => F.fin (w i)) =
      .ok (List.ofFn fun i => F.fin (kdeAt N (fun i => w i / ∑ l, w l)
        (kdeFactor user bw (kdeNeff fun i => w i / ∑ l, w l) d) (N i))) := by
  unfold gaussianKde
  rw [h]
  simp only [kdeWeights_fin, Py.ok_bind]
  rfl

theorem kdeCheck_fin {N : Matrix (Fin n) (Fin d) ℝ} {w : Fin n → ℝ} :
    kdeCheck ⟨n, d, N⟩ (List.ofFn fun i => F.fin (w i)) = .ok () ↔
      1 < n * d ∧ ∑ i, w i ≠ 0 ∧ (∀ i, 0 ≤ w i / ∑ l, w l) ∧
      ∑ i, (w i / ∑ l, w l) ^ 2 < 1 ∧ (kdeCov N fun i => w i / ∑ l, w l).PosDef := by
  rw [← gaussianKde_iff (user := fun _ _ _ => 1) (bw := 0)]
  exact (setPredicted_kde_iff (env := scipyEnv fun _ _ _ => 1)
    (Q := ⟨⟨n, d, N⟩, ⟨n, d, N⟩, ⟨n, d, N⟩, false, List.ofFn fun i => F.fin (w i), none, none, none, none,
      none⟩) 0).symm.trans (setPredicted_returns_iff rfl rfl 0)

/-- With and without the samples of weight zero: scipy computes an estimate in both cases or in
neither (at least two samples kept). -/
theorem kdeCheck_sub (he : Function.Injective e) (N : Matrix (Fin n) (Fin d) ℝ) {w : Fin n → ℝ}
    (hw : ∀ i, (∀ k, e k ≠ i) → w i = 0) :
    kdeCheck ⟨n', d, N.submatrix e id⟩ (List.ofFn fun k => F.fin (w (e k))) = .ok () ↔
      kdeCheck ⟨n, d, N⟩ (List.ofFn fun i => F.fin (w i)) = .ok () := by
  have hle : n' ≤ n := by simpa using Fintype.card_le_of_injective e he
  have hv : ∀ i, (∀ k, e k ≠ i) → w i / ∑ l, w l = 0 := fun i hi => by rw [hw i hi, zero_div]
  have hcov := kdeCov_sub he N hv
  have hsq := sum_sub he (f := fun i => (w i / ∑ l, w l) ^ 2) fun i hi => by
    rw [hv i hi]; norm_num
  rw [kdeCheck_fin, kdeCheck_fin, sum_sub he hw, hsq]
  change _ ∧ _ ∧ _ ∧ _ ∧ (kdeCov (N.submatrix e id) ((fun i => w i / ∑ l, w l) ∘ e)).PosDef ↔ _
  rw [hcov]
  constructor
  · rintro ⟨h1, h2, h3, h4, h5⟩
    refine ⟨lt_of_lt_of_le h1 (Nat.mul_le_mul_right d hle), h2, fun i => ?_, h4, h5⟩
    by_cases hi : ∃ k, e k = i
    · obtain ⟨k, rfl⟩ := hi; exact h3 k
    · rw [hv i fun k hk => hi ⟨k, hk⟩]
  · rintro ⟨h1, h2, h3, h4, h5⟩
    refine ⟨?_, h2, fun k => h3 _, h4, h5⟩
    by_contra hcon
    have hd : 0 < d := by
      rcases Nat.eq_zero_or_pos d with h | h
      · subst h; simp at h1
      · exact h
    have hn' : n' ≤ 1 := by
      by_contra h
      have : 2 * 1 ≤ n' * d := Nat.mul_le_mul (by omega) hd
      omega
    have h6 : ∑ i, w i / ∑ l, w l = 1 := by rw [← Finset.sum_div, div_self h2]
    rw [← sum_sub he hv] at h6
    rw [← hsq] at h4
    rcases Nat.le_one_iff_eq_zero_or_eq_one.1 hn' with h | h
    · subst h; simp at h6
    · subst h
      simp only [Finset.univ_unique, Finset.sum_singleton] at h6 h4
      rw [h6] at h4
      norm_num at h4

/-- The expected ratio with a kernel density estimate that returns non-zero numbers. -/
theorem expectedRatio_kde {env : Env} (Q : DP) (di do_ : Dist)
    (a w b c : Fin n → ℝ) (hw : Q.weights = List.ofFn fun k => F.fin (w k))
    (ha : densAt di Q.X = .ok (List.ofFn fun k => F.fin (a k)))
    (hb : densAt do_ Q.y = .ok (List.ofFn fun k => F.fin (b k))) {bw : ℕ}
    (hv : env.kde Q.y bw Q.weights = .ok (List.ofFn fun k => F.fin (c k))) (hc0 : ∀ k, c k ≠ 0)
    (hs : ∑ i, w i ≠ 0) :
    (DP.expectedRatio env (Q.after env [.setInitial (some di), .setObserved (some do_),
      .setPredicted none bw none])).1 = .ok (F.fin ((∑ k, b k / c k * w k) / ∑ k, w k)) := by
  obtain ⟨o1, ho1, ho1'⟩ := Py.bind_eq_ok.1 ha
  obtain ⟨o2, ho2, ho2'⟩ := Py.bind_eq_ok.1 hb
  have e : Q.after env [.setInitial (some di), .setObserved (some do_),
      .setPredicted none bw none] =
      { Q with
        init := some (List.ofFn fun k => F.fin (a k)), ob := some (List.ofFn fun k => F.fin (b k))
        pr := some (List.ofFn fun k => F.fin (c k)), up := none } := by
    simp only [DP.after, List.foldl_cons, List.foldl_nil, DOp.run, DP.setInitial, DP.setObserved,
      PyM.get_bind_run, Option.getD_some, ho1, ho2,
      PyM.lift_ok_bind, ho1', ho2', PyM.modify_run]
    exact congrArg Prod.snd (setPredicted_kde (env := env) (Q := { Q with
      init := some (List.ofFn fun k => F.fin (a k)), ob := some (List.ofFn fun k => F.fin (b k))
      pr := none, up := none }) bw hv)
  rw [e]
  have hfit := DP.fit_set (env := env) none 0 none
    { Q with
      init := some (List.ofFn fun k => F.fin (a k)), ob := some (List.ofFn fun k => F.fin (b k))
      pr := some (List.ofFn fun k => F.fin (c k)), up := none }
    (fun k => F.fin (a k)) (fun k => F.fin (w k)) (fun k => F.fin (b k)) (fun k => F.fin (c k))
    hw rfl rfl rfl
  unfold DP.expectedRatio
  rw [PyM.get_bind_run, Option.isNone_none, PyM.when_true, PyM.bind_run, hfit]
  simp only [PyM.get_bind_run, DP.theAttr, PyM.lift_ok_bind, PyM.lift_run, hw]
  classical
  unfold DP.npAverage
  have z : List.zipWith (· * ·) (List.ofFn fun k => F.fin (b k) / F.fin (c k))
      (List.ofFn fun k => F.fin (w k)) = List.ofFn fun k => F.fin (b k / c k * w k) := by
    apply List.ext_getElem
    · simp
    · intro i h1 h2; simp [F.fin_div_of_ne _ (hc0 _)]
  rw [raiseIf_false (by simp), Py.ok_bind, z, List.sum_ofFn, List.sum_ofFn, F.sum_fin, F.sum_fin,
    raiseIf_false (by simpa using hs), Py.ok_bind, F.fin_div_of_ne _ hs]
  rfl

/-- First maximum of a list of numbers and of the sublist that keeps every positive entry. -/
theorem argmax_sub (he : StrictMono e) {u : Fin n → ℝ} (hu : ∀ i, (∀ k, e k ≠ i) → u i = 0)
    (hpos : ∃ i, 0 < u i) {m : Fin n} (h1 : ∀ k, u k ≤ u m) (h2 : ∀ k, k < m → u k < u m)
    {m' : Fin n'} (h1' : ∀ k, u (e k) ≤ u (e m')) (h2' : ∀ k, k < m' → u (e k) < u (e m')) :
    m = e m' := by
  obtain ⟨i, hi⟩ := hpos
  have hm : 0 < u m := lt_of_lt_of_le hi (h1 i)
  obtain ⟨k, rfl⟩ : ∃ k, e k = m := by
    by_contra hc
    rw [hu m fun k hk => hc ⟨k, hk⟩] at hm
    exact lt_irrefl _ hm
  congr 1
  rcases lt_trichotomy k m' with h | h | h
  · exact absurd (h1 (e m')) (not_le.2 (h2' k h))
  · exact h
  · exact absurd (h1' k) (not_le.2 (h2 _ (he h)))

theorem densAt_sub {q : Dist} (hq : RowWise q) (M : Matrix (Fin n) (Fin p) ℝ) {a : Fin n → ℝ}
    (ha : densAt q ⟨n, p, M⟩ = .ok (List.ofFn fun k => F.fin (a k))) :
    densAt q ⟨n', p, M.submatrix e id⟩ = .ok (List.ofFn fun k => F.fin (a (e k))) := by
  obtain ⟨f, -, hf⟩ := hq
  have h1 : ∀ (m : ℕ) (A : Matrix (Fin m) (Fin p) ℝ),
      densAt q ⟨m, p, A⟩ = .ok (List.ofFn fun i => (f (List.ofFn (A i))).prod) := by
    intro m A
    unfold densAt
    rw [hf]
    simp only [FOut.prodRows, Py.ok_bind, List.map_ofFn]
    rfl
  rw [h1] at ha ⊢
  have h2 : (fun i => (f (List.ofFn (M i))).prod) = fun k => F.fin (a k) := by
    have : Except.ok (ε := Err) (List.ofFn fun i => (f (List.ofFn (M i))).prod) =
      .ok (List.ofFn fun k => F.fin (a k)) := ha
    injection this with this
    exact List.ofFn_injective this
  congr 2
  funext k
  exact congrFun h2 (e k)

/-- **C81.** A problem `Q` in which some samples have weight zero, and the problem `Q'` without
(some of) these samples, otherwise in the same order and with the same weights: whenever scipy can
estimate the predicted density of the reduced problem and some sample has a positive updated
density, the two give the same MUD point and the same expected ratio. -/
theorem C81_zero_weight_left_out (he : StrictMono e) {Q Q' : DP} {M : Matrix (Fin n) (Fin p) ℝ}
    {N : Matrix (Fin n) (Fin d) ℝ} {w : Fin n → ℝ} (hw0 : ∀ i, (∀ k, e k ≠ i) → w i = 0)
    (hX : Q.X = ⟨n, p, M⟩) (hX' : Q'.X = ⟨n', p, M.submatrix e id⟩)
    (hy : Q.y = ⟨n, d, N⟩) (hy' : Q'.y = ⟨n', d, N.submatrix e id⟩)
    (hw : Q.weights = List.ofFn fun k => F.fin (w k))
    (hw' : Q'.weights = List.ofFn fun k => F.fin (w (e k))) {di do_ : Dist} (hdi : RowWise di)
    (hdo : RowWise do_) {a b : Fin n → ℝ}
    (ha : densAt di Q.X = .ok (List.ofFn fun k => F.fin (a k)))
    (hb : densAt do_ Q.y = .ok (List.ofFn fun k => F.fin (b k))) {bw : ℕ} (hbw : bw < 2)
    (hpos : ∃ i, 0 < a i * w i * b i)
    (hk : (DP.setPredicted (scipyEnv user) none bw none Q').1 = .ok ()) :
    (DP.mudPoint (scipyEnv user) (Q'.after (scipyEnv user) [.setInitial (some di),
        .setObserved (some do_), .setPredicted none bw none])).1 =
      (DP.mudPoint (scipyEnv user) (Q.after (scipyEnv user) [.setInitial (some di),
        .setObserved (some do_), .setPredicted none bw none])).1 ∧
    (DP.expectedRatio (scipyEnv user) (Q'.after (scipyEnv user) [.setInitial (some di),
        .setObserved (some do_), .setPredicted none bw none])).1 =
      (DP.expectedRatio (scipyEnv user) (Q.after (scipyEnv user) [.setInitial (some di),
        .setObserved (some do_), .setPredicted none bw none])).1 := by
  have hinj := he.injective
  have hck' : kdeCheck ⟨n', d, N.submatrix e id⟩ (List.ofFn fun k => F.fin (w (e k))) = .ok () := by
    have := gaussianKde_iff.1 ((setPredicted_kde_iff bw).1 hk)
    rwa [hy', hw'] at this
  have hck := (kdeCheck_sub hinj N hw0).1 hck'
  obtain ⟨-, hs, hv0, hsq, hC⟩ := kdeCheck_fin.1 hck
  have hs1 : ∑ i, w i / ∑ l, w l = 1 := by rw [← Finset.sum_div, div_self hs]
  set v : Fin n → ℝ := fun i => w i / ∑ l, w l with hvdef
  set h := kdeFactor user bw (kdeNeff v) d with hh
  have hhpos : 0 < h := kdeFactor_pos hbw (lt_trans one_pos (kdeNeff_gt_one hs1 hsq)) d
  have hvz : ∀ i, (∀ k, e k ≠ i) → v i = 0 := fun i hi => by simp [hvdef, hw0 i hi]
  set c : Fin n → ℝ := fun i => kdeAt N v h (N i) with hc
  have hc0 : ∀ k, 0 < c k := fun k => kdeAt_pos hv0 hs1 hhpos hC _
  have hv : (scipyEnv user).kde Q.y bw Q.weights = .ok (List.ofFn fun k => F.fin (c k)) := by
    rw [hy, hw]; exact gaussianKde_val hck
  have hv' : (scipyEnv user).kde Q'.y bw Q'.weights = .ok (List.ofFn fun k => F.fin (c (e k))) := by
    rw [hy', hw']
    refine (gaussianKde_val (user := user) (bw := bw) hck').trans ?_
    have e1 : (fun k => w (e k) / ∑ l, w (e l)) = v ∘ e := by
      funext k
      rw [sum_sub hinj hw0]
      rfl
    have e2 : kdeNeff (v ∘ e) = kdeNeff v := by
      unfold kdeNeff
      rw [← sum_sub hinj (f := fun i => v i ^ 2) fun i hi => by simp [hvz i hi]]
      rfl
    rw [e1, e2]
    congr 2
    funext k
    rw [kdeAt_sub hinj N hvz]
    rfl
  have ha' : densAt di Q'.X = .ok (List.ofFn fun k => F.fin (a (e k))) := by
    rw [hX']; exact densAt_sub hdi M (by rw [← hX]; exact ha)
  have hb' : densAt do_ Q'.y = .ok (List.ofFn fun k => F.fin (b (e k))) := by
    rw [hy']; exact densAt_sub hdo N (by rw [← hy]; exact hb)
  obtain ⟨i0, hi0⟩ := hpos
  have hn : 0 < n := lt_of_le_of_lt (Nat.zero_le _) i0.2
  have hn' : 0 < n' := by
    by_contra h0
    obtain rfl : n' = 0 := by omega
    have := hw0 i0 fun k => k.elim0
    simp [this] at hi0
  constructor
  · obtain ⟨m, g1, g2, g3⟩ := mudPoint_kde Q di do_ hn (by rw [hX]) a w b c hw ha hb hv
      fun k => (hc0 k).ne'
    obtain ⟨m', g1', g2', g3'⟩ := mudPoint_kde Q' di do_ hn' (by rw [hX']) _ _ _ _ hw' ha' hb' hv'
      fun k => (hc0 _).ne'
    rw [g3, g3']
    have hm : m = e m' := by
      refine argmax_sub (u := fun i => a i * w i * (b i / c i)) he (fun i hi => by simp [hw0 i hi])
        ⟨i0, ?_⟩ g1 g2 g1' g2'
      rw [← mul_div_assoc]
      exact div_pos hi0 (hc0 _)
    rw [hX, hX', hm]
    simp [Arr2.get]
  · rw [expectedRatio_kde Q di do_ a w b c hw ha hb hv (fun k => (hc0 k).ne') hs,
      expectedRatio_kde Q' di do_ _ _ _ _ hw' ha' hb' hv' (fun k => (hc0 _).ne')
        (by rw [sum_sub hinj hw0]; exact hs),
      sum_sub hinj hw0,
      sum_sub hinj (f := fun i => b i / c i * w i) fun i hi => by simp [hw0 i hi]]

/-- The hypotheses are met: samples 0, 5, 1 with weights 1, 0, 1, against samples 0, 1 (the concrete
problem `demoP`). -/
example := C81_zero_weight_left_out (user := user) (e := ![(0 : Fin 3), 2]) (n := 3) (n' := 2)
  (by intro i j h; fin_cases i <;> fin_cases j <;> simp_all)
  (Q := { demoP with
    X := ⟨3, 1, !![(0 : ℝ); 5; 1]⟩
    y := ⟨3, 1, !![(0 : ℝ); 5; 1]⟩
    weights := [.fin 1, .fin 0, .fin 1] })
  (Q' := demoP) (M := !![(0 : ℝ); 5; 1]) (N := !![(0 : ℝ); 5; 1]) (w := ![1, 0, 1])
  (by
    intro i hi
    fin_cases i
    · exact absurd rfl (hi 0)
    · rfl
    · exact absurd rfl (hi 1))
  rfl (by simp only [demoP]; congr 1; ext i j; fin_cases i <;> fin_cases j <;> rfl) rfl
  (by simp only [demoP]; congr 1; ext i j; fin_cases i <;> fin_cases j <;> rfl)
  (by simp [List.ofFn_succ]) (by simp [demoP])
  (rowWise_distOf fun _ => 1) (rowWise_distOf fun x => 2 + x) (a := ![1, 1, 1]) (b := ![2, 7, 3])
  (by simp [densAt, distOf, FOut.prodRows, rowsOf, List.ofFn_succ])
  (by simp [densAt, distOf, FOut.prodRows, rowsOf, List.ofFn_succ]; norm_num) (bw := 0) (by norm_num)
  ⟨0, by simp⟩ demo_kde

/-- **C32** with the default predicted density: no condition on the predicted values is left. -/
theorem C32_zero_weight_kde (Q : DP) (di do_ : Dist) {n : ℕ} (hX : Q.X.r = n)
    (hy : Q.y.r = n) (a w b : Fin n → ℝ) (hw : Q.weights = List.ofFn fun k => F.fin (w k))
    (ha : densAt di Q.X = .ok (List.ofFn fun k => F.fin (a k)))
    (hb : densAt do_ Q.y = .ok (List.ofFn fun k => F.fin (b k))) {bw : ℕ} (hbw : bw < 2)
    (h : (DP.setPredicted (scipyEnv user) none bw none Q).1 = .ok ())
    (hpos : ∃ k, 0 < a k * w k * b k) :
    ∃ m : Fin n, w m ≠ 0 ∧ a m ≠ 0 ∧ b m ≠ 0 ∧
      (DP.mudPoint (scipyEnv user) (Q.after (scipyEnv user) [.setInitial (some di),
        .setObserved (some do_), .setPredicted none bw none])).1 =
        .ok (List.ofFn fun j : Fin Q.X.c => Q.X.get m j) := by
  obtain ⟨k, hk⟩ := hpos
  have hy' : ∃ d, ∃ D : Matrix (Fin n) (Fin d) ℝ, Q.y = ⟨n, d, D⟩ := by
    subst hy
    exact ⟨_, _, rfl⟩
  obtain ⟨d, D, hy'⟩ := hy'
  obtain ⟨ρ, hρ, c, hc, m, h1, -, h2⟩ := C79_mud_point (user := user) Q di do_
    (lt_of_le_of_lt (Nat.zero_le _) k.2) hX hy' a w b hw ha hb hbw h
  have hck : 0 < c k := by rw [hc]; exact hρ.pos _
  have : 0 < a m * w m * (b m / c m) := by
    refine lt_of_lt_of_le ?_ (h1 k)
    rw [← mul_div_assoc]
    exact div_pos hk hck
  refine ⟨m, fun h => ?_, fun h => ?_, fun h => ?_, by rw [h2]⟩ <;> simp [h] at this

/-! ### C32 on the concrete problem -/

example {user : ℕ → ℝ → ℕ → ℝ} := C32_zero_weight_kde (user := user) demoP (distOf fun _ => 1)
  (distOf fun x => x) (n := 2) rfl rfl ![1, 1] ![1, 1] ![0, 1] (by simp [demoP]) ((demo_densAt _).trans (by simp))
  ((demo_densAt _).trans (by simp)) (bw := 0) (by norm_num) (demo_kde (user := user)) ⟨1, by norm_num⟩

end Verif
