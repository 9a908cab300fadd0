import Verif.Props.Preprocessing
import Verif.Props.KdeUnits
import Verif.Props.DensityDefault
import Verif.Props.STMud

/-!
# C111: the order of the sensors and times does not matter

`/repo/src/mud/base.py:1976-2030`, with the orders of `/repo/src/mud/examples/poisson.py:264-276`,
`403-419`.
-/

namespace Verif

open Matrix ND SpecST STP Prep ProbabilityTheory
open scoped Matrix

variable {user : ℕ → ℝ → ℕ → ℝ}

/-- A problem with the outputs of some quantities of interest negated. -/
def flipSigns {n k : ℕ} (ε : Fin k → ℝ) (N : Matrix (Fin n) (Fin k) ℝ) : Matrix (Fin n) (Fin k) ℝ :=
  .of fun i a => ε a * N i a

theorem perm_equiv {α : Type} [DecidableEq α] {l l' : List α} (h : l.Perm l') :
    ∃ e : Fin l.length ≃ Fin l'.length, ∀ i, l'[(e i : ℕ)] = l[(i : ℕ)] :=
  ⟨⟨h.idxBij, h.symm.idxBij, h.idxBij_symm_leftInverse_idxBij, h.idxBij_leftInverse_idxBij_symm⟩,
    fun i => h.getElem_idxBij_eq_getElem i⟩

/-- Permuting the columns of the matrix permutes the columns of the third factor. -/
theorem isSvd_perm {n K : ℕ} {Y : Matrix (Fin n) (Fin K) ℝ} {o : SvdOut n K} (h : IsSvd Y o)
    (e : Fin K ≃ Fin K) :
    IsSvd (.of fun i j => Y i (e j)) ⟨o.u, o.s, .of fun i j => o.vh i (e j)⟩ where
  u_orth := h.u_orth
  vh_orth := by
    rw [← h.vh_orth]
    ext i j
    simp only [mul_apply, transpose_apply, of_apply]
    exact e.sum_comp fun x => o.vh i x * o.vh j x
  s_len := h.s_len
  s_nonneg := h.s_nonneg
  s_desc := h.s_desc
  factor := by
    ext i j
    rw [of_apply, h.factor]
    simp only [mul_apply, of_apply]

theorem standardize_perm {n K : ℕ} (hn : 0 < n) (R : Matrix (Fin n) (Fin K) ℝ) (e : Fin K ≃ Fin K) :
    standardize (.of fun i j => R i (e j)) = .of fun i j => standardize R i (e j) := by
  refine isStd_unique hn (X := .of fun i j => R i (e j)) (fun j => ?_) (standardize_isStd hn _)
    fun _ => ⟨1, 0, one_pos, fun _ => by ring⟩
  exact standardize_isStd hn R (e j)

/-- One direction, from two decompositions of matrices with permuted columns. -/
theorem coord_perm {n K : ℕ} (hn : 0 < n) (R : Matrix (Fin n) (Fin K) ℝ) (e : Fin K ≃ Fin K)
    {o o' : SvdOut n K} (ho : IsSvd (standardize R) o)
    (ho' : IsSvd (standardize (.of fun i j => R i (e j))) o') (a : Fin K)
    (hs : ∀ j : Fin K, j ≠ a → o.s.getD j 0 ≠ o.s.getD a 0) :
    ∃ ε : ℝ, (ε = 1 ∨ ε = -1) ∧
      ∀ i, ∑ j, R i (e j) * o'.vh a j = ε * ∑ j, R i j * o.vh a j := by
  rw [standardize_perm hn] at ho'
  have hp := isSvd_perm ho e
  have key := hp.vh_unique ho' a hs
  simp only [of_apply] at key
  rcases key with key | key
  · refine ⟨1, .inl rfl, fun i => ?_⟩
    rw [one_mul, ← e.sum_comp fun j => R i j * o.vh a j]
    exact Finset.sum_congr rfl fun j _ => by rw [key]
  · refine ⟨-1, .inr rfl, fun i => ?_⟩
    rw [← e.sum_comp fun j => R i j * o.vh a j, Finset.mul_sum]
    exact Finset.sum_congr rfl fun j _ => by rw [key]; ring

/-- The residuals of the selected samples, sensors and times, a row per sample. -/
noncomputable def selResid (T : ℕ) (a b c : List ℕ) (data meas : ND) (sd : ℝ) :
    Matrix (Fin a.length) (Fin (c.length * b.length)) ℝ :=
  .of fun i j => (meas.get [c[(finProdFinEquiv.symm j).1] * T + b[(finProdFinEquiv.symm j).2], 0] -
    data.get [a[i], c[(finProdFinEquiv.symm j).1] * T + b[(finProdFinEquiv.symm j).2]]) / sd

variable {P : STP} {n p S T : ℕ} {lam data sensors times D : ND} {meas : ND}

/-- `mud_problem` with selections, up to the choice of the quantity of interest. -/
theorem mudProblem_masked (ext : Decomp) (h : Ready P n p S T lam data sensors times (some meas))
    {ms mt mx : Option Mask} (hms : ListLike ms) (hmt : ListLike mt) (hmx : ListLike mx)
    {a b c : List ℕ} (ha : Picks n ms a) (hb : Picks T mt b) (hc : Picks S mx c)
    (hb0 : b ≠ []) (hc0 : c ≠ [])
    (htd : times.data.length = T) (hs2 : mx ≠ none → sensors.shape = [S, 2])
    {sd : ℝ} (hsd : P.stdDev = some sd) (h0 : sd ≠ 0)
    (hD : P.domain = some D) (method : String) (sw : Option NArr) (nc : ℕ) :
    P.mudProblem ext method none sw nc ms mt mx =
      (qoiOf ext method nc a.length ⟨a.length, c.length * b.length, selResid T a b c data meas sd⟩
        >>= fun q => DP.new (.mat ⟨a.length, p, .of fun i j => lam.get [a[i], j]⟩) q
          (some (.mat D.toArr2)) sw) := by
  obtain ⟨r, hr, hl, hlg, hd, hdg, -, -, -, hm1, hm2⟩ :=
    C48_masks h hms hmt hmx ha hb hc hb0 hc0 htd hs2
  obtain ⟨m', hm'⟩ : ∃ m', r.meas = some m' := Option.isSome_iff_exists.1 (by rw [hm1]; rfl)
  obtain ⟨hms', hmg⟩ := hm2 m' hm' meas rfl
  rw [mudProblem_eq ext method none sw nc hr hd hm' hms' hsd h0 h.nData]
  have hX : (Matrix.of fun (i : Fin a.length) (j : Fin p) => r.lam.get [(i : ℕ), (j : ℕ)]) =
      .of fun i j => lam.get [a[i], j] := by ext i j; exact hlg i j
  have hR : resTab a.length (c.length * b.length) r.data (fun j => m'.get [j]) sd =
      ⟨a.length, c.length * b.length, selResid T a b c data meas sd⟩ := by
    unfold resTab selResid
    congr 1
    ext i j
    obtain ⟨⟨s, t⟩, rfl⟩ := finProdFinEquiv.surjective j
    have hst : ((finProdFinEquiv (s, t) : Fin (c.length * b.length)) : ℕ) =
        s * b.length + t := by
      simp [finProdFinEquiv, Nat.add_comm, Nat.mul_comm]
    simp only [of_apply, Equiv.symm_apply_apply]
    rw [hst, hmg, hdg]
  rw [toNArr_two hl, hX, hR, hD]
  rfl

/-- The selections in another order: the same residuals, columns permuted. -/
theorem selResid_perm {a b c b' c' : List ℕ} (hb : b.Perm b') (hc : c.Perm c') (sd : ℝ) :
    ∃ e : Fin (c.length * b.length) ≃ Fin (c'.length * b'.length), ∀ i j,
      selResid T a b' c' data meas sd i (e j) = selResid T a b c data meas sd i j := by
  obtain ⟨f, hf⟩ := perm_equiv hb
  obtain ⟨g, hg⟩ := perm_equiv hc
  refine ⟨finProdFinEquiv.symm.trans ((g.prodCongr f).trans finProdFinEquiv), fun i j => ?_⟩
  obtain ⟨⟨s, t⟩, rfl⟩ := finProdFinEquiv.surjective j
  simp only [selResid, of_apply, Equiv.trans_apply, Equiv.symm_apply_apply, Equiv.prodCongr_apply,
    Prod.map_apply]
  have h1 : c'[(g s)] = c[s] := hg s
  have h2 : b'[(f t)] = b[t] := hf t
  rw [h1, h2]

/-! ## The quantities of interest -/

theorem qoi_pca (E : Ext) {n K k : ℕ} (R : Matrix (Fin n) (Fin K) ℝ) (hn : 0 < n) (hK : 0 < K)
    (h1 : k ≤ n) (h2 : k ≤ K) :
    qoiOf (decomp E) "pca" k n ⟨n, K, R⟩ = .ok (.mat ⟨n, k, .of fun i a =>
      E.sign (E.pcaSvd (standardize R)) a *
        ∑ j, R i j * (E.pcaSvd (standardize R)).vh (Fin.castLE h2 a) j⟩) := by
  unfold qoiOf
  rw [if_neg (by decide), if_pos rfl, decomp_pca E R hn hK h1 h2, Py.ok_bind]
  set C : Matrix (Fin k) (Fin K) ℝ := .of fun i j =>
    E.sign (E.pcaSvd (standardize R)) i * (E.pcaSvd (standardize R)).vh (Fin.castLE h2 i) j with hC
  show (do let x ← Arr2.matmul ⟨n, K, R⟩ ⟨K, k, Cᵀ⟩; pure (NArr.mat x)) = _
  rw [Arr2.matmul_mk]
  have : R * Cᵀ = .of fun i a => E.sign (E.pcaSvd (standardize R)) a *
      ∑ j, R i j * (E.pcaSvd (standardize R)).vh (Fin.castLE h2 a) j := by
    ext i a
    rw [mul_apply, of_apply, Finset.mul_sum]
    refine Finset.sum_congr rfl fun j _ => ?_
    simp only [transpose_apply, hC, of_apply]
    ring
  rw [this]
  rfl

theorem qoi_svd (E : Ext) {n K k : ℕ} (R : Matrix (Fin n) (Fin K) ℝ) (hn : 0 < n) (hK : 0 < K)
    (h2 : k ≤ K) :
    qoiOf (decomp E) "svd" k n ⟨n, K, R⟩ = .ok (.mat ⟨n, k, .of fun i a =>
      ∑ j, R i j * (E.svd (standardize R)).vh (Fin.castLE h2 a) j⟩) := by
  unfold qoiOf
  rw [if_neg (by decide), if_neg (by decide), if_pos rfl, decomp_svd E R hn hK, Py.ok_bind,
    takeRowsN_mk _ h2]
  set V' : Matrix (Fin k) (Fin K) ℝ := .of fun i j => (E.svd (standardize R)).vh (Fin.castLE h2 i) j
  show (do let x ← Arr2.matmul ⟨n, K, R⟩ ⟨K, k, V'ᵀ⟩; pure (NArr.mat x)) = _
  rw [Arr2.matmul_mk]
  rfl

/-- The columns in another order: the same quantities of interest up to their signs. -/
theorem qoi_perm (E : Ext) (hE : E.Correct) {n K K' k : ℕ} (hn : 0 < n) (hK : 0 < K)
    {R : Matrix (Fin n) (Fin K) ℝ} {R' : Matrix (Fin n) (Fin K') ℝ} (e : Fin K ≃ Fin K')
    (hR : ∀ i j, R' i (e j) = R i j) {method : String} (hm : method = "pca" ∧ k ≤ n ∨ method = "svd")
    (h2 : k ≤ K)
    {o : SvdOut n K} (ho : IsSvd (standardize R) o)
    (hs : ∀ i < k, ∀ j < K, j ≠ i → o.s.getD j 0 ≠ o.s.getD i 0) :
    ∃ (N : Matrix (Fin n) (Fin k) ℝ) (ε : Fin k → ℝ), (∀ a, ε a = 1 ∨ ε a = -1) ∧
      qoiOf (decomp E) method k n ⟨n, K, R⟩ = .ok (.mat ⟨n, k, N⟩) ∧
      qoiOf (decomp E) method k n ⟨n, K', R'⟩ = .ok (.mat ⟨n, k, flipSigns ε N⟩) := by
  have hKK : K = K' := by simpa using Fintype.card_congr e
  subst hKK
  have hR' : R = .of fun i j => R' i (e j) := by ext i j; rw [of_apply, hR]
  have key : ∀ {o1 o2 : SvdOut n K}, IsSvd (standardize R') o1 → IsSvd (standardize R) o2 →
      ∀ a : Fin k, ∃ ε : ℝ, (ε = 1 ∨ ε = -1) ∧ ∀ i,
        ∑ j, R i j * o2.vh (Fin.castLE h2 a) j = ε * ∑ j, R' i j * o1.vh (Fin.castLE h2 a) j := by
    intro o1 o2 h1' h2' a
    have hsv : ∀ j : Fin K, o1.s.getD j 0 = o.s.getD j 0 := by
      have h3 := isSvd_perm h1' e
      rw [← standardize_perm hn, ← hR'] at h3
      intro j
      exact h3.s_unique ho j
    subst hR'
    refine coord_perm hn R' e h1' h2' (Fin.castLE h2 a) fun j hj => ?_
    rw [hsv, hsv]
    exact hs a a.2 j j.2 fun e => hj (Fin.ext e)
  have inv : ∀ {ε x y : ℝ}, (ε = 1 ∨ ε = -1) → x = ε * y → y = ε * x := by
    rintro ε x y (rfl | rfl) rfl <;> ring
  rcases hm with ⟨rfl, h1⟩ | rfl
  · have := fun a => key (hE.pcaSvd (standardize R')) (hE.pcaSvd (standardize R)) a
    choose ε hε hεv using this
    have s1 := fun a => hE.sign (E.pcaSvd (standardize R)) a
    have s2 := fun a => hE.sign (E.pcaSvd (standardize R')) a
    refine ⟨_, fun a => ε a * E.sign (E.pcaSvd (standardize R)) a * E.sign (E.pcaSvd (standardize R')) a,
      fun a => ?_, qoi_pca E R hn hK h1 h2, ?_⟩
    · dsimp only
      rcases hε a with e | e <;> rcases s1 a with e1 | e1 <;> rcases s2 a with e2 | e2 <;>
        rw [e, e1, e2] <;> norm_num
    · rw [qoi_pca E R' hn hK h1 h2]
      congr 3
      ext i a
      simp only [flipSigns, of_apply]
      rw [inv (hε a) (hεv a i)]
      rcases s1 a with e1 | e1 <;> rw [e1] <;> ring
  · have := fun a => key (hE.svd (standardize R')) (hE.svd (standardize R)) a
    choose ε hε hεv using this
    refine ⟨_, ε, hε, qoi_svd E R hn hK h2, ?_⟩
    rw [qoi_svd E R' hn hK h2]
    congr 3
    ext i a
    simp only [flipSigns, of_apply]
    exact inv (hε a) (hεv a i)

/-! ## The estimates -/

/-- Calls that give no observed or predicted distribution of their own. -/
def Plain : DOp → Prop
  | .setObserved d => d = none
  | .setPredicted d _ _ => d = none
  | .fit d _ _ => d = none
  | _ => True

theorem new_flip {n q k : ℕ} {X : Matrix (Fin n) (Fin q) ℝ} {N N' : Matrix (Fin n) (Fin k) ℝ}
    {dom w : Option NArr} {Q : DP} (h : DP.new (.mat ⟨n, q, X⟩) (.mat ⟨n, k, N⟩) dom w = .ok Q) :
    DP.new (.mat ⟨n, q, X⟩) (.mat ⟨n, k, N'⟩) dom w = .ok { Q with y := ⟨n, k, N'⟩ } := by
  unfold DP.new at h ⊢
  dsimp only at h ⊢
  cases dom with
  | none =>
    obtain ⟨dm, h1, h⟩ := Py.bind_eq_ok.1 h
    obtain ⟨dn, h2, h⟩ := Py.bind_eq_ok.1 h
    obtain ⟨v, h3, h⟩ := Py.bind_eq_ok.1 h
    cases h
    refine Py.bind_eq_ok.2 ⟨dm, h1, Py.bind_eq_ok.2 ⟨dn, h2, Py.bind_eq_ok.2 ⟨v, h3, rfl⟩⟩⟩
  | some d =>
    obtain ⟨dm, h1, h⟩ := Py.bind_eq_ok.1 h
    obtain ⟨dn, h2, h⟩ := Py.bind_eq_ok.1 h
    obtain ⟨v, h3, h⟩ := Py.bind_eq_ok.1 h
    cases h
    refine Py.bind_eq_ok.2 ⟨dm, h1, Py.bind_eq_ok.2 ⟨dn, h2, Py.bind_eq_ok.2 ⟨v, h3, rfl⟩⟩⟩

theorem affineRows_flip {n k : ℕ} (ε : Fin k → ℝ) (N : Matrix (Fin n) (Fin k) ℝ) :
    affineRows (diagonal ε) 0 N = flipSigns ε N := by
  ext i a
  simp [affineRows, flipSigns, mulVec_diagonal]

theorem det_flip {k : ℕ} {ε : Fin k → ℝ} (hε : ∀ a, ε a = 1 ∨ ε a = -1) :
    |(diagonal ε).det| = 1 := by
  rw [det_diagonal, Finset.abs_prod]
  refine Finset.prod_eq_one fun a _ => ?_
  rcases hε a with e | e <;> rw [e] <;> norm_num

/-- **The signs of the quantities of interest do not matter**: two problems that differ in them, after
the same calls (without observed or predicted distributions of the user's own), have the same MUD point
and expected ratio, or raise the same exception. -/
theorem flip_estimates {n q k : ℕ} {X : Matrix (Fin n) (Fin q) ℝ} {N : Matrix (Fin n) (Fin k) ℝ}
    {ε : Fin k → ℝ} (hε : ∀ a, ε a = 1 ∨ ε a = -1) {dom w : Option NArr} {Q : DP}
    (h : DP.new (.mat ⟨n, q, X⟩) (.mat ⟨n, k, N⟩) dom w = .ok Q) {ops : List DOp}
    (hops : ∀ op ∈ ops, Plain op) :
    let Q' : DP := { Q with y := ⟨n, k, flipSigns ε N⟩ }
    (DP.mudPoint (scipyEnv user) (Q'.after (scipyEnv user) ops)).1 =
      (DP.mudPoint (scipyEnv user) (Q.after (scipyEnv user) ops)).1 ∧
    (DP.expectedRatio (scipyEnv user) (Q'.after (scipyEnv user) ops)).1 =
      (DP.expectedRatio (scipyEnv user) (Q.after (scipyEnv user) ops)).1 := by
  intro Q'
  have h' : DP.new (.mat ⟨n, q, X⟩) (.mat ⟨n, k, flipSigns ε N⟩) dom w = .ok Q' := new_flip h
  obtain ⟨e1, e2, e3⟩ := new_fields h
  obtain ⟨e1', e2', e3'⟩ := new_fields h'
  have hT : IsUnit (diagonal ε).det := by
    have := det_flip hε
    refine isUnit_iff_ne_zero.2 fun h0 => ?_
    rw [h0] at this
    norm_num at this
  have hD : Q.data = unitD X N Q.domain := by unfold DP.data unitD; rw [e1, e2]; rfl
  have hD' : Q'.data = unitD X (affineRows (diagonal ε) 0 N) Q.domain := by
    unfold DP.data unitD
    rw [e1', e2', affineRows_flip]
    rfl
  have hI : ∀ d : Option Dist, SameInitial X X Q.domain Q.domain d d := fun d =>
    ⟨1, one_pos, PyRel.of_eq rfl fun l => by simp [TimesC, ← F.one_def]⟩
  have hO : SameObserved (diagonal ε) 0 N none none := by
    refine ⟨_, C28_default_observed N, ?_⟩
    rw [affineRows_flip, Option.getD_none, C28_default_observed, det_flip hε]
    congr 1
    rw [List.map_ofFn]
    congr 1
    funext i
    simp only [Function.comp, div_one, F.fin_mul, one_mul, flipSigns, of_apply, F.fin_inj]
    refine Finset.prod_congr rfl fun a _ => ?_
    rcases hε a with e | e <;> rw [e]
    · rw [one_mul]
    · unfold gaussianPDFReal
      congr 2
      ring
  have H := unit_setRel (user := user) (T := diagonal ε) (c := 0) (N := N) hT (hI none)
  rw [(C29_exact h _).1, (C29_exact h _).2, (C29_exact h' _).1, (C29_exact h' _).2, hD, hD']
  have hst : StRel (UnitS (diagonal ε) 0 X X N Q.domain Q.domain) Q.start Q'.start :=
    ⟨⟨rfl, rfl, rfl, hI none, hO, trivial, rfl⟩, .none, .none⟩
  have hW : ∀ w : Option NArr, OptW (· = ·) w w := by
    rintro (_ | w)
    · trivial
    · rfl
  have hops' : List.Forall₂ (OpRelG (SameInitial X X Q.domain Q.domain)
      (SamePredicted (diagonal ε) 0 N) (SameObserved (diagonal ε) 0 N) (· = ·)) ops ops := by
    refine List.forall₂_same.2 fun op hop => ?_
    have := hops op hop
    cases op with
    | setWeights w n => exact .setWeights rfl
    | setObserved d => cases (show d = none from this); exact .setObserved hO
    | setInitial d => exact .setInitial (hI d)
    | setPredicted d bw w => cases (show d = none from this); exact .setPredicted trivial (hW w)
    | fit d bw w => cases (show d = none from this); exact .fit trivial (hW w)
    | estimate => exact .estimate
    | expectedRatio => exact .expectedRatio
  have hr := lock_after H hops' hst
  constructor
  · rcases lock_estimate H hr with ⟨er, h1, h2⟩ | ⟨s, s', hs, hfit, h1, h2⟩
    · rw [h1, h2]
    · rw [h1, h2]
      have := unit_best (user := user) hT hs
      revert this
      generalize s.best _ _ = x
      generalize s'.best _ _ = x'
      intro hx
      cases x with
      | error e => cases x' with
        | error e' => exact congrArg _ (show e = e' from hx).symm
        | ok v => exact hx.elim
      | ok u => cases x' with
        | error e' => exact hx.elim
        | ok v =>
          obtain ⟨i, a1, a2⟩ := (show ∃ i, u = List.ofFn (X i) ∧ v = List.ofFn (X i) from hx)
          rw [a1, a2]
  · rcases lock_expectedRatio H hr with ⟨er, h1, h2⟩ | ⟨s, s', t, t', hs, ht, h1, h2⟩
    · rw [h1, h2]
    · rw [h1, h2, (unit_ratio hT hs).eq, ht.w]

/-! ## The theorems -/

/-- **C111 (WME).** The sensors and times selected in another order give the same problem. -/
theorem C111_wme (ext : Decomp) (h : Ready P n p S T lam data sensors times (some meas))
    {ms mt mx mt' mx' : Option Mask} (hms : ListLike ms) (hmt : ListLike mt) (hmx : ListLike mx)
    (hmt' : ListLike mt') (hmx' : ListLike mx')
    {a b c b' c' : List ℕ} (ha : Picks n ms a) (hb : Picks T mt b) (hc : Picks S mx c)
    (hb' : Picks T mt' b') (hc' : Picks S mx' c') (hbb : b.Perm b') (hcc : c.Perm c')
    (hb0 : b ≠ []) (hc0 : c ≠ [])
    (htd : times.data.length = T) (hs2 : sensors.shape = [S, 2])
    {sd : ℝ} (hsd : P.stdDev = some sd) (h0 : sd ≠ 0) (hD : P.domain = some D)
    (sw : Option NArr) (nc : ℕ) :
    P.mudProblem ext "wme" none sw nc ms mt' mx' = P.mudProblem ext "wme" none sw nc ms mt mx := by
  have hb0' : b' ≠ [] := fun e => hb0 (List.Perm.eq_nil (e ▸ hbb))
  have hc0' : c' ≠ [] := fun e => hc0 (List.Perm.eq_nil (e ▸ hcc))
  rw [mudProblem_masked ext h hms hmt hmx ha hb hc hb0 hc0 htd (fun _ => hs2) hsd h0 hD,
    mudProblem_masked ext h hms hmt' hmx' ha hb' hc' hb0' hc0' htd (fun _ => hs2) hsd h0 hD]
  obtain ⟨e, he⟩ := selResid_perm (T := T) (a := a) (data := data) (meas := meas) hbb hcc sd
  unfold qoiOf
  rw [if_pos rfl, if_pos rfl]
  congr 1
  congr 2
  funext i
  congr 1
  refine (e.sum_comp _).symm.trans (Finset.sum_congr rfl fun j _ => ?_)
  exact he i j

/-- **C111 (PCA and SVD).** The sensors and times selected in another order give the same problem up to
the signs of the quantities of interest, if the `k` largest singular values of the standardised residuals
are simple, and then the same MUD point and expected ratio (or exception) after any history of calls
without distributions of the user's own for the output. -/
theorem C111_reduced (E : Ext) (hE : E.Correct)
    (h : Ready P n p S T lam data sensors times (some meas))
    {ms mt mx mt' mx' : Option Mask} (hms : ListLike ms) (hmt : ListLike mt) (hmx : ListLike mx)
    (hmt' : ListLike mt') (hmx' : ListLike mx')
    {a b c b' c' : List ℕ} (ha : Picks n ms a) (hb : Picks T mt b) (hc : Picks S mx c)
    (hb' : Picks T mt' b') (hc' : Picks S mx' c') (hbb : b.Perm b') (hcc : c.Perm c')
    (ha0 : a ≠ []) (hb0 : b ≠ []) (hc0 : c ≠ [])
    (htd : times.data.length = T) (hs2 : sensors.shape = [S, 2])
    {sd : ℝ} (hsd : P.stdDev = some sd) (h0 : sd ≠ 0) (hD : P.domain = some D)
    (hDs : D.shape = [p, 2])
    {method : String} {k : ℕ} (hm : method = "pca" ∧ k ≤ a.length ∨ method = "svd")
    (hk : k ≤ c.length * b.length)
    {o : SvdOut a.length (c.length * b.length)}
    (ho : IsSvd (standardize (selResid T a b c data meas sd)) o)
    (hs : ∀ i < k, ∀ j < c.length * b.length, j ≠ i → o.s.getD j 0 ≠ o.s.getD i 0) :
    ∃ (N : Matrix (Fin a.length) (Fin k) ℝ) (ε : Fin k → ℝ) (Q Q' : DP),
      P.mudProblem (decomp E) method none none k ms mt mx = .ok Q ∧
      P.mudProblem (decomp E) method none none k ms mt' mx' = .ok Q' ∧
      (∀ j, ε j = 1 ∨ ε j = -1) ∧ Q.y = ⟨a.length, k, N⟩ ∧
      Q' = { Q with y := ⟨a.length, k, .of fun i j => ε j * N i j⟩ } ∧
      ∀ ops : List DOp, (∀ op ∈ ops, Plain op) →
        (DP.mudPoint (scipyEnv user) (Q'.after (scipyEnv user) ops)).1 =
          (DP.mudPoint (scipyEnv user) (Q.after (scipyEnv user) ops)).1 ∧
        (DP.expectedRatio (scipyEnv user) (Q'.after (scipyEnv user) ops)).1 =
          (DP.expectedRatio (scipyEnv user) (Q.after (scipyEnv user) ops)).1 := by
  have hb0' : b' ≠ [] := fun e => hb0 (List.Perm.eq_nil (e ▸ hbb))
  have hc0' : c' ≠ [] := fun e => hc0 (List.Perm.eq_nil (e ▸ hcc))
  rw [mudProblem_masked (decomp E) h hms hmt hmx ha hb hc hb0 hc0 htd (fun _ => hs2) hsd h0 hD,
    mudProblem_masked (decomp E) h hms hmt' hmx' ha hb' hc' hb0' hc0' htd (fun _ => hs2) hsd h0 hD]
  obtain ⟨e, he⟩ := selResid_perm (T := T) (a := a) (data := data) (meas := meas) hbb hcc sd
  have hn : 0 < a.length := List.length_pos_iff.2 ha0
  have hK : 0 < c.length * b.length :=
    Nat.mul_pos (List.length_pos_iff.2 hc0) (List.length_pos_iff.2 hb0)
  obtain ⟨N, ε, hε, q1, q2⟩ := qoi_perm E hE hn hK e he hm hk ho hs
  rw [q1, q2, Py.ok_bind, Py.ok_bind]
  obtain ⟨Q, hQ⟩ : ∃ Q, DP.new (.mat ⟨a.length, p, .of fun i j => lam.get [a[i], j]⟩)
      (.mat ⟨a.length, k, N⟩) (some (.mat D.toArr2)) none = .ok Q := by
    rw [toArr2_two hDs]
    exact ⟨_, Py.bind_eq_ok.2 ⟨(), pyAssert_true rfl, rfl⟩⟩
  refine ⟨N, ε, Q, _, hQ, new_flip hQ, hε, (new_fields hQ).2.1, rfl, fun ops hops => ?_⟩
  exact flip_estimates hε hQ hops

/-! ### Concrete case: two samples, two sensors, one time -/

/-- Two samples of one observation at each of two sensors. -/
def pairST : STP where
  domain := some (ndOfNats [1, 2] [0, 9] rfl)
  lam := some (ndOfNats [2, 1] [1, 2] rfl)
  data := some (ndOfNats [2, 2] [0, 1, 2, 3] rfl)
  sensors := some (ndOfNats [2, 2] [0, 0, 1, 1] rfl)
  times := some (STP.arange 1)
  measurements := some (ndOfNats [2, 1] [1, 5] rfl)
  stdDev := some 1

theorem pairST_ready : Ready pairST 2 1 2 1 (ndOfNats [2, 1] [1, 2] rfl)
    (ndOfNats [2, 2] [0, 1, 2, 3] rfl) (ndOfNats [2, 2] [0, 0, 1, 1] rfl) (STP.arange 1)
    (some (ndOfNats [2, 1] [1, 5] rfl)) :=
  ⟨rfl, rfl, rfl, rfl, rfl, rfl, rfl, rfl, rfl, fun _ h => by cases h; rfl⟩

theorem pair_std : standardize (selResid 1 [0, 1] [0] [0, 1] (ndOfNats [2, 2] [0, 1, 2, 3] rfl)
    (ndOfNats [2, 1] [1, 5] rfl) 1) = (sqY : Matrix (Fin 2) (Fin 2) ℝ) := by
  have e : (selResid 1 [0, 1] [0] [0, 1] (ndOfNats [2, 2] [0, 1, 2, 3] rfl)
      (ndOfNats [2, 1] [1, 5] rfl) 1) = (resid 2 (1 * 2) (ndOfNats [2, 2] [0, 1, 2, 3] rfl)
      (ndOfNats [2, 1] [1, 5] rfl) 1) := by
    ext i j
    change Fin 2 at i j
    fin_cases i <;> fin_cases j <;>
      simp [selResid, resid, ND.get, offset, ndOfNats, finProdFinEquiv, Fin.divNat, Fin.modNat]
  have h := standardize_isStd (n := 2) two_pos (resid 2 (1 * 2)
    (ndOfNats [2, 2] [0, 1, 2, 3] rfl) (ndOfNats [2, 1] [1, 5] rfl) 1)
  refine Eq.trans (congrArg standardize e) ?_
  exact (isStd_unique two_pos h sqY_std fun _ => ⟨1, 0, one_pos, fun _ => by ring⟩).symm

/-- C111 on it: the sensors in the two orders. -/
example (ops : List DOp) (hp : ∀ op ∈ ops, Plain op) : ∃ E : Ext, E.Correct ∧ ∃ Q Q' : DP,
    pairST.mudProblem (decomp E) "pca" none none 1 none none (some (.ints [0, 1])) = .ok Q ∧
    pairST.mudProblem (decomp E) "pca" none none 1 none none (some (.ints [1, 0])) = .ok Q' ∧
    (DP.mudPoint (scipyEnv user) (Q'.after (scipyEnv user) ops)).1 =
      (DP.mudPoint (scipyEnv user) (Q.after (scipyEnv user) ops)).1 := by
  obtain ⟨E, hE⟩ := ext_exists
  have ha : Picks 2 none [0, 1] := rfl
  have hb : Picks 1 none [0] := rfl
  have hc : Picks 2 (some (.ints [0, 1])) [0, 1] := resolve_ok.1 rfl
  have hc' : Picks 2 (some (.ints [1, 0])) [1, 0] := resolve_ok.1 rfl
  have hl : ListLike none := fun _ h => by cases h
  obtain ⟨N, ε, Q, Q', h1, h2, -, -, -, h3⟩ := C111_reduced (user := user) E hE pairST_ready
    hl hl (fun _ h => by cases h) hl (fun _ h => by cases h)
    ha hb hc hb hc' (List.Perm.refl _) (List.Perm.swap 1 0 []) (by simp) (by simp) (by simp) rfl rfl
    (sd := 1) rfl one_ne_zero (D := ndOfNats [1, 2] [0, 9] rfl) rfl rfl (method := "pca") (k := 1)
    (.inl ⟨rfl, by simp⟩) (by simp) (o := sqSvd) (by rw [pair_std]; exact sqSvd_isSvd)
    (fun i hi j hj hji => by
      simp only [List.length_cons, List.length_nil] at hj
      obtain rfl : i = 0 := by omega
      obtain rfl : j = 1 := by omega
      simp [sqSvd])
  exact ⟨E, hE, Q, Q', h1, h2, (h3 ops hp).1⟩

/-- C111 for the WME quantity of interest. -/
example (ext : Decomp) :
    pairST.mudProblem ext "wme" none none 2 none none (some (.ints [1, 0])) =
      pairST.mudProblem ext "wme" none none 2 none none (some (.ints [0, 1])) := by
  have hl : ListLike none := fun _ h => by cases h
  exact C111_wme ext pairST_ready hl hl (fun _ h => by cases h) hl (fun _ h => by cases h)
    (a := [0, 1]) (b := [0]) (c := [0, 1]) (b' := [0]) (c' := [1, 0])
    rfl rfl (resolve_ok.1 rfl) rfl (resolve_ok.1 rfl)
    (List.Perm.refl _) (List.Perm.swap 1 0 []) (by simp) (by simp) rfl rfl (sd := 1) rfl
    one_ne_zero (D := ndOfNats [1, 2] [0, 9] rfl) rfl none 2

end Verif
