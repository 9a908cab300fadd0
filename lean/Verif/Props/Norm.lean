import Verif.Model.Norm
import Verif.Props.Functionals

/-!
# `mud.norm`: C44-C46
-/

open Matrix

namespace Verif

variable {d p N : ℕ}

/-! ## C44 -/

theorem ip_eq (X mat : Arr2) : innerProduct (.mat X) mat = LGP.ip X mat := rfl

/-- **C44.** One number per column of `X`: `xᵀ C⁻¹ x`; non-negative for positive definite `C`, and
zero only for the zero column. -/
theorem C44_formula {M N : ℕ} (X : Matrix (Fin M) (Fin N) ℝ) (C : Matrix (Fin M) (Fin M) ℝ)
    (hC : C.PosDef) :
    ∃ z : Fin N → ℝ, innerProduct (.mat ⟨M, N, X⟩) ⟨M, M, C⟩ = .ok (.vec N z) ∧
      (∀ j, z j = (fun i => X i j) ⬝ᵥ (C⁻¹ *ᵥ fun i => X i j)) ∧
      (∀ j, 0 ≤ z j) ∧ ∀ j, z j = 0 ↔ ∀ i, X i j = 0 := by
  refine ⟨_, (ip_eq _ _).trans (ip_mk X C (posDef_det_ne hC)), fun j => rfl,
    fun j => quad_nonneg hC.inv.posSemidef _, fun j => ⟨fun h => ?_, fun h => ?_⟩⟩
  · by_contra hne
    have hx : (fun i => X i j) ≠ 0 := fun h0 => hne fun i => congrFun h0 i
    exact (quad_pos hC.inv hx).ne' h
  · have : (fun i => X i j) = 0 := funext h
    rw [this, zero_dotProduct]

/-- **C44**, a single 1-D vector. -/
theorem C44_vector {M : ℕ} (x : Fin M → ℝ) (C : Matrix (Fin M) (Fin M) ℝ) (hC : C.PosDef) :
    innerProduct (.vec M x) ⟨M, M, C⟩ = .ok (.scal (x ⬝ᵥ (C⁻¹ *ᵥ x))) := by
  unfold innerProduct
  rw [Arr2.inv_mk_of_ne (posDef_det_ne hC), Py.ok_bind]
  simp only [Arr2.col, Arr2.matmul_mk, Py.ok_bind, Arr2.hmul, Arr2.zipB_mk, Py.pure_eq]
  congr 2
  refine Finset.sum_congr rfl fun k _ => ?_
  have := Arr2.get_mk (.of fun (i : Fin M) (j : Fin 1) =>
    (Matrix.of fun i (_ : Fin 1) => x i) i j * (C⁻¹ * Matrix.of fun i (_ : Fin 1) => x i) i j) k 0
  simp only [Fin.val_zero] at this
  rw [this]
  rfl

/-- **C44**: a singular (or non-square) `C` raises `LinAlgError`. -/
theorem C44_singular (X : NArr) {M : ℕ} (C : Matrix (Fin M) (Fin M) ℝ) (hC : C.det = 0) :
    innerProduct X ⟨M, M, C⟩ = .error .linAlgError ∧
    ∀ B : Arr2, B.r ≠ B.c → innerProduct X B = .error .linAlgError := by
  constructor
  · unfold innerProduct
    rw [Arr2.inv_mk, if_pos hC]; rfl
  · intro B hB
    unfold innerProduct Arr2.inv
    rw [dif_neg hB]; rfl

/-- `C44_formula` on a `2 × 2` identity. -/
example := C44_formula !![(1 : ℝ), 2; 3, 4] 1 PosDef.one

/-! ## C45 -/

/-- The argument stands for the covariance `S`: the matrix itself, or the number `c` for `c I`. -/
def IsCov {n : ℕ} (arg : CovArg) (S : Matrix (Fin n) (Fin n) ℝ) : Prop :=
  arg = .mat ⟨n, n, S⟩ ∨ ∃ c : ℝ, arg = .num c ∧ S = c • 1

/-- The data argument stands for the vector `b` (column of shape `(d, 1)`; for a single observation
also a 1-D array). -/
def IsData (arg : NArr) (b : Fin d → ℝ) : Prop :=
  arg = .mat (Arr2.col b) ∨ (d = 1 ∧ arg = .vec d b)

/-- The observed mean stands for the vector `y` (row of shape `(1, d)`; for a single observation
also a 1-D array or a column). -/
def IsObs (arg : NArr) (y : Fin d → ℝ) : Prop :=
  arg = .mat (Arr2.row y) ∨ (d = 1 ∧ (arg = .vec d y ∨ arg = .mat (Arr2.col y)))

theorem row_eq_col {y : Fin d → ℝ} (h : d = 1) : Arr2.row y = Arr2.col y := by
  subst h
  unfold Arr2.row Arr2.col
  rw [Arr2.mk_inj]
  ext i j
  fin_cases i; fin_cases j; rfl

theorem col_T (y : Fin d → ℝ) : (Arr2.col y).T = Arr2.row y := rfl
theorem row_T (y : Fin d → ℝ) : (Arr2.row y).T = Arr2.col y := rfl

theorem IsData.asRow {arg : NArr} {b : Fin d → ℝ} (h : IsData arg b) :
    arg.asRow = Arr2.col b ∧ arg.len = .ok d := by
  rcases h with rfl | ⟨hd, rfl⟩
  · exact ⟨rfl, rfl⟩
  · exact ⟨row_eq_col hd, rfl⟩

theorem IsObs.asRow {arg : NArr} {y : Fin d → ℝ} (h : IsObs arg y) : arg.T.asRow = Arr2.col y := by
  rcases h with rfl | ⟨hd, rfl | rfl⟩
  · rfl
  · exact row_eq_col hd
  · exact row_eq_col hd

theorem IsVec.asRow {arg : NArr} {m : Fin p → ℝ} (h : IsVec arg m) :
    arg.T.asRow = (Arr2.col m).T ∧ arg.len = .ok p := by
  rcases h with rfl | rfl
  · exact ⟨rfl, rfl⟩
  · exact ⟨rfl, rfl⟩

theorem IsCov.expand {n : ℕ} {arg : CovArg} {S : Matrix (Fin n) (Fin n) ℝ} (h : IsCov arg S)
    {x : NArr} (hx : x.len = .ok n) : arg.expand x = .ok ⟨n, n, S⟩ := by
  rcases h with rfl | ⟨c, rfl, rfl⟩
  · rfl
  · simp only [CovArg.expand, hx, Py.ok_bind, Py.pure_eq]; rfl

theorem sub_bcol (M : Matrix (Fin d) (Fin N) ℝ) (b : Fin d → ℝ) :
    Arr2.sub ⟨d, N, M⟩ (Arr2.col b) = .ok ⟨d, N, .of fun i j => M i j - b i⟩ := by
  have hN : Arr2.bdim N 1 = some N := by
    unfold Arr2.bdim; split <;> simp_all
  simp only [Arr2.sub, Arr2.zipB, Arr2.col, Arr2.bdim_self, hN]
  congr 2
  ext i j
  simp only [of_apply]
  rw [Arr2.bget_mk]
  have := Arr2.bget_mk (.of fun (i : Fin d) (_ : Fin 1) => b i) i 0
  simp only [of_apply] at this
  rw [← this]
  simp [Arr2.bget]

section
variable {A : Matrix (Fin d) (Fin p) ℝ} {b y : Fin d → ℝ} {m : Fin p → ℝ}
  {S : Matrix (Fin p) (Fin p) ℝ} {C : Matrix (Fin d) (Fin d) ℝ} {X : Matrix (Fin N) (Fin p) ℝ}
  {mean data obs : NArr} {covI covO : CovArg}

theorem normInput_eval (hm : IsVec mean m) (hS : IsCov covI S) (hS0 : S.det ≠ 0) :
    normInput ⟨N, p, X⟩ mean covI = .ok (.vec N fun j => mahal S (X j) m) := by
  unfold normInput
  rw [hS.expand hm.asRow.2, Py.ok_bind, hm.asRow.1, sub_mrow, Py.ok_bind, ip_eq]
  exact ip_mk _ _ hS0

theorem normData_eval (hb : IsData data b) (hy : IsObs obs y) (hC : IsCov covO C)
    (hC0 : C.det ≠ 0) :
    normData ⟨d, p, A⟩ ⟨N, p, X⟩ data (.arr obs) covO =
      .ok (.vec N fun j => mahal C (A *ᵥ X j + b) y) := by
  unfold normData
  rw [hC.expand hb.asRow.2, Py.ok_bind, Arr2.T_mk, Arr2.matmul_mk, Py.ok_bind, hb.asRow.1, add_bcol,
    Py.ok_bind]
  simp only [MeanArg.T, Py.ok_bind, hy.asRow, sub_bcol]
  rw [ip_eq, ip_mk _ _ hC0]
  rfl

theorem normPredicted_eval (hm : IsVec mean m) (hS : IsCov covI S) (hP : (A * S * Aᵀ).det ≠ 0) :
    normPredicted ⟨d, p, A⟩ ⟨N, p, X⟩ mean covI =
      .ok (.vec N fun j => mahal (A * S * Aᵀ) (A *ᵥ X j) (A *ᵥ m)) := by
  unfold normPredicted
  rw [hS.expand hm.asRow.2, Py.ok_bind, Arr2.matmul_mk, Py.ok_bind, Arr2.T_mk, Arr2.matmul_mk,
    Py.ok_bind, hm.asRow.1, sub_mrow, Py.ok_bind, Arr2.T_mk, Arr2.matmul_mk, Py.ok_bind, ip_eq,
    ip_mk _ _ hP]
  congr 2
  funext j
  have : (fun i => (A * (Matrix.of fun i j => X i j - m j)ᵀ) i j) = A *ᵥ X j - A *ᵥ m := by
    rw [← mulVec_sub]; rfl
  rw [this]; rfl

theorem mahal_zero_iff {n : ℕ} {S : Matrix (Fin n) (Fin n) ℝ} (hS : S.PosDef) (x m : Fin n → ℝ) :
    mahal S x m = 0 ↔ x = m := by
  constructor
  · intro h
    by_contra hne
    exact (quad_pos hS.inv (sub_ne_zero.2 hne)).ne' h
  · rintro rfl; simp [mahal]

/-- **C45.** One value per sample (row of `inputs`):
`|x - m|²_S + |A x + b - y|²_C - |A x - A m|²_{A S Aᵀ}`, where a number `c` given as covariance
means `c I`. It is non-negative, and zero exactly at the MUD point: where `A x + b = y` and `x`
differs from the initial mean `m` only in the data-informed direction; in particular at `m` if `m`
reproduces the data. -/
theorem C45_full_functional (hA : FullRowRank A) (hS : S.PosDef) (hC : C.PosDef)
    (hm : IsVec mean m) (hb : IsData data b) (hy : IsObs obs y)
    (hcI : IsCov covI S) (hcO : IsCov covO C) :
    ∃ J : Fin N → ℝ,
      fullFunctional ⟨d, p, A⟩ ⟨N, p, X⟩ data mean covI (.arr obs) covO = .ok (.vec N J) ∧
      (∀ j, J j = mahal S (X j) m + mahal C (A *ᵥ X j + b) y
        - mahal (A * S * Aᵀ) (A *ᵥ X j) (A *ᵥ m)) ∧
      (∀ j, 0 ≤ J j) ∧
      (∀ j, J j = 0 ↔ A *ᵥ X j + b = y ∧
        X j = m + (S * Aᵀ * (A * S * Aᵀ)⁻¹) *ᵥ (y - b - A *ᵥ m)) ∧
      ∀ j, X j = m → A *ᵥ m + b = y → J j = 0 := by
  have hP := posDef_conj hS A hA.inj
  have hsplit := fun j => mahal_split A hS (posDef_det_ne hP) (X j) m
  have hJ : ∀ j, mahal S (X j) m + mahal C (A *ᵥ X j + b) y
      - mahal (A * S * Aᵀ) (A *ᵥ X j) (A *ᵥ m) =
      mahal S (X j) (m + (S * Aᵀ * (A * S * Aᵀ)⁻¹) *ᵥ (A *ᵥ (X j - m)))
        + mahal C (A *ᵥ X j + b) y := by
    intro j
    rw [hsplit j]; ring
  have h0 : ∀ j, mahal S (X j) m + mahal C (A *ᵥ X j + b) y
      - mahal (A * S * Aᵀ) (A *ᵥ X j) (A *ᵥ m) = 0 ↔ A *ᵥ X j + b = y ∧
        X j = m + (S * Aᵀ * (A * S * Aᵀ)⁻¹) *ᵥ (y - b - A *ᵥ m) := by
    intro j
    rw [hJ j, add_eq_zero_iff_of_nonneg (mahal_nonneg hS _ _) (mahal_nonneg hC _ _),
      mahal_zero_iff hS, mahal_zero_iff hC, and_comm]
    refine and_congr_right fun h => ?_
    have : A *ᵥ (X j - m) = y - b - A *ᵥ m := by rw [mulVec_sub, ← h]; abel
    rw [this]
  refine ⟨fun j => mahal S (X j) m + mahal C (A *ᵥ X j + b) y
      - mahal (A * S * Aᵀ) (A *ᵥ X j) (A *ᵥ m), ?_, fun j => rfl, fun j => ?_, h0,
      fun j h1 h2 => (h0 j).2 ⟨?_, ?_⟩⟩
  · unfold fullFunctional
    rw [normInput_eval hm hcI (posDef_det_ne hS), Py.ok_bind,
      normData_eval hb hy hcO (posDef_det_ne hC), Py.ok_bind, zip1_mk, Py.ok_bind,
      normPredicted_eval hm hcI (posDef_det_ne hP), Py.ok_bind, zip1_mk]
  · change 0 ≤ mahal S (X j) m + mahal C (A *ᵥ X j + b) y
      - mahal (A * S * Aᵀ) (A *ᵥ X j) (A *ᵥ m)
    rw [hJ j]
    exact add_nonneg (mahal_nonneg hS _ _) (mahal_nonneg hC _ _)
  · rw [h1]; exact h2
  · rw [h1, ← h2]; simp

end

/-- The hypotheses of `C45_full_functional` are met: one observation of two parameters, numbers as
covariances, everything 1-D (as in the unit tests). -/
example := C45_full_functional (A := !![(1 : ℝ), 2]) (N := 3) (X := !![(1 : ℝ), 0; 0, 1; 2, 2])
  (S := (2 : ℝ) • 1) (C := (3 : ℝ) • 1) (m := ![0, 0]) (b := ![0]) (y := ![1])
  (mean := .vec 2 ![0, 0]) (data := .vec 1 ![0]) (obs := .vec 1 ![1]) (covI := .num 2)
  (covO := .num 3)
  (fun y => ⟨![y 0, 0], by funext i; fin_cases i; simp [mulVec, dotProduct]⟩)
  (PosDef.one.smul (by norm_num)) (PosDef.one.smul (by norm_num)) (Or.inl rfl)
  (Or.inr ⟨rfl, rfl⟩) (Or.inr ⟨rfl, Or.inl rfl⟩) (Or.inr ⟨2, rfl, rfl⟩) (Or.inr ⟨3, rfl, rfl⟩)

/-! ## C73: 1-D data -/

/-- The full claim C73, for 1-D data and 1-D observed mean: the initial mean reproduces the data, so one
zero comes back for the one sample equal to it. -/
def C73_claim : Prop := ∀ (d p : ℕ) (A : Matrix (Fin d) (Fin p) ℝ) (b y : Fin d → ℝ)
  (m : Fin p → ℝ), FullRowRank A → A *ᵥ m + b = y →
  fullFunctional ⟨d, p, A⟩ (Arr2.row m) (.vec d b) (.vec p m) (.num 1) (.arr (.vec d y)) (.num 1) =
    .ok (.vec 1 fun _ => 0)

/-- **C73, true part**: a single observation. -/
theorem C73_single_partial (A : Matrix (Fin 1) (Fin p) ℝ) (b y : Fin 1 → ℝ) (m : Fin p → ℝ)
    (hA : FullRowRank A) (h : A *ᵥ m + b = y) :
    fullFunctional ⟨1, p, A⟩ (Arr2.row m) (.vec 1 b) (.vec p m) (.num 1) (.arr (.vec 1 y)) (.num 1) =
      .ok (.vec 1 fun _ => 0) := by
  obtain ⟨J, h1, -, -, -, h2⟩ := C45_full_functional (A := A) (N := 1) (X := .of fun _ j => m j)
    (S := 1) (C := 1) (m := m) (b := b) (y := y)
    (mean := .vec p m) (data := .vec 1 b) (obs := .vec 1 y) (covI := .num 1) (covO := .num 1)
    hA PosDef.one PosDef.one (Or.inl rfl) (Or.inr ⟨rfl, rfl⟩) (Or.inr ⟨rfl, Or.inl rfl⟩)
    (Or.inr ⟨1, rfl, by simp⟩) (Or.inr ⟨1, rfl, by simp⟩)
  refine h1.trans ?_
  congr 2
  funext j
  exact h2 j rfl h

/-- **C73 is false of the code.** 1-D data with several observations are broadcast along the wrong axis: for two observations
and one sample *two* numbers come back. -/
theorem C73_claim_refuted : ¬ C73_claim := by
  intro h
  have h1 := h 2 2 1 0 ![1, 0] ![1, 0] (fun y => ⟨y, by simp⟩) (by simp)
  have hlen : ∃ v : Fin 2 → ℝ, fullFunctional ⟨2, 2, 1⟩ (Arr2.row ![1, 0]) (.vec 2 0) (.vec 2 ![1, 0])
      (.num 1) (.arr (.vec 2 ![1, 0])) (.num 1) = .ok (.vec 2 v) := by
    have hI : IsCov (n := 2) (.num 1) 1 := Or.inr ⟨1, rfl, by simp⟩
    have hV : IsVec (.vec 2 ![1, 0]) (![1, 0] : Fin 2 → ℝ) := Or.inl rfl
    have hN : ∃ v, normData ⟨2, 2, 1⟩ (Arr2.row ![1, 0]) (.vec 2 0) (.arr (.vec 2 ![1, 0])) (.num 1) =
        .ok (.vec 2 v) := by
      unfold normData
      rw [hI.expand (x := .vec 2 0) rfl, Py.ok_bind]
      simp only [Arr2.row, Arr2.T_mk, Arr2.matmul_mk, Py.ok_bind, Arr2.add, Arr2.sub, Arr2.zipB,
        NArr.asRow, MeanArg.T, NArr.T, Arr2.bdim]
      simp only [OfNat.ofNat_ne_one, if_false, if_true, OfNat.one_ne_ofNat, Py.ok_bind]
      rw [ip_eq, ip_mk _ _ (by simp)]
      exact ⟨_, rfl⟩
    obtain ⟨v, hv⟩ := hN
    have e1 := normInput_eval (N := 1) (X := .of fun _ j => ![1, 0] j) hV hI (by simp)
    have e2 := normPredicted_eval (N := 1) (A := (1 : Matrix (Fin 2) (Fin 2) ℝ))
      (X := .of fun _ j => ![1, 0] j) hV hI (by simp [transpose_one])
    unfold fullFunctional
    rw [show normInput (Arr2.row ![1, 0]) (.vec 2 ![1, 0]) (.num 1) = _ from e1, Py.ok_bind, hv,
      Py.ok_bind, show normPredicted ⟨2, 2, 1⟩ (Arr2.row ![1, 0]) (.vec 2 ![1, 0]) (.num 1) = _ from e2]
    simp only [NArr.zip1, Arr2.bdim, OfNat.one_ne_ofNat, if_false, if_true, Py.ok_bind]
    exact ⟨_, rfl⟩
  obtain ⟨v, hv⟩ := hlen
  rw [hv] at h1
  injection h1 with h1
  injection h1 with h1
  omega

/-! ## C46: the default observed mean -/

/-- The full claim C46: `full_functional` can be called without `observed_mean`. -/
def C46_claim : Prop := ∀ (d p N : ℕ) (A : Matrix (Fin d) (Fin p) ℝ) (X : Matrix (Fin N) (Fin p) ℝ)
  (b : Fin d → ℝ) (m : Fin p → ℝ), ∃ J,
  fullFunctional ⟨d, p, A⟩ ⟨N, p, X⟩ (.mat (Arr2.col b)) (.vec p m) (.num 1) = .ok J

/-- **C46, what the code does**: without `observed_mean` every well-shaped call raises
`AttributeError`. -/
theorem C46_always_raises {A : Matrix (Fin d) (Fin p) ℝ} {X : Matrix (Fin N) (Fin p) ℝ}
    {b : Fin d → ℝ} {m : Fin p → ℝ} {S : Matrix (Fin p) (Fin p) ℝ} {mean data : NArr}
    {covI covO : CovArg} {C : Matrix (Fin d) (Fin d) ℝ} (hm : IsVec mean m) (hb : IsData data b)
    (hcI : IsCov covI S) (hS : S.det ≠ 0) (hcO : IsCov covO C) (c : ℝ) :
    fullFunctional ⟨d, p, A⟩ ⟨N, p, X⟩ data mean covI (.num c) covO = .error .attributeError := by
  unfold fullFunctional
  rw [normInput_eval hm hcI hS, Py.ok_bind]
  unfold normData
  rw [hcO.expand hb.asRow.2, Py.ok_bind, Arr2.T_mk, Arr2.matmul_mk, Py.ok_bind, hb.asRow.1, add_bcol]
  rfl

/-- **C46, true part**: it works when the zero is passed as an array. -/
theorem C46_explicit_zero_partial {A : Matrix (Fin d) (Fin p) ℝ} {X : Matrix (Fin N) (Fin p) ℝ}
    {b : Fin d → ℝ} {m : Fin p → ℝ} {S : Matrix (Fin p) (Fin p) ℝ} {mean data : NArr} {covI : CovArg}
    (hA : FullRowRank A) (hS : S.PosDef) (hm : IsVec mean m) (hb : IsData data b)
    (hcI : IsCov covI S) :
    ∃ J : Fin N → ℝ, fullFunctional ⟨d, p, A⟩ ⟨N, p, X⟩ data mean covI
        (.arr (.mat (Arr2.row (0 : Fin d → ℝ)))) (.num 1) = .ok (.vec N J) ∧
      ∀ j, J j = mahal S (X j) m + sqDist (A *ᵥ X j + b) 0
        - mahal (A * S * Aᵀ) (A *ᵥ X j) (A *ᵥ m) := by
  obtain ⟨J, h1, h2, -⟩ := C45_full_functional (N := N) (X := X) (y := 0) (C := 1) (covO := .num 1)
    hA hS PosDef.one hm hb (Or.inl rfl) hcI (Or.inr ⟨1, rfl, by simp⟩)
  refine ⟨J, h1, fun j => ?_⟩
  rw [h2 j]
  congr 2
  simp [mahal, sqDist, dotProduct, pow_two]

/-- **C46 is false of the code.** -/
theorem C46_claim_refuted : ¬ C46_claim := by
  intro h
  obtain ⟨J, hJ⟩ := h 1 1 1 1 1 0 0
  rw [C46_always_raises (S := 1) (C := 1) (b := 0) (m := 0) (Or.inl rfl) (Or.inl rfl)
    (Or.inr ⟨1, rfl, by simp⟩) (by simp) (Or.inr ⟨1, rfl, by simp⟩)] at hJ
  cases hJ

/-! ### Further cases meeting the hypotheses -/

example := C44_vector ![1, 2] !![2, 1; 1, 3] (posDef_fin_two (by norm_num) (by norm_num))

example := C44_singular (.vec 2 ![1, 2]) !![1, 2; 2, 4] (by simp [Matrix.det_fin_two]; norm_num)

example := C46_explicit_zero_partial (A := !![1, 2]) (X := !![1, 2; 3, 4; 5, 6]) (b := ![3]) (m := ![1, 1])
  (S := !![2, 1; 1, 3]) (mean := .vec 2 ![1, 1]) (data := .vec 1 ![3]) (covI := .mat ⟨2, 2, !![2, 1; 1, 3]⟩)
  (fun y => ⟨![y 0, 0], by ext i; fin_cases i; simp⟩) (posDef_fin_two (by norm_num) (by norm_num)) (.inl rfl)
  (.inr ⟨rfl, rfl⟩) (.inl rfl)

example := C73_single_partial !![1, 2] ![3] ![6] ![1, 1]
  (fun y => ⟨![y 0, 0], by ext i; fin_cases i; simp⟩) (by ext i; fin_cases i; simp; norm_num)

end Verif
