import Verif.Props.Norm

/-!
# What `full_functional` does with 1-D data (C73)
-/

open Matrix

namespace Verif

variable {d p N : ℕ}

theorem zip1_bcast (f : ℝ → ℝ → ℝ) (v : Fin N → ℝ) (w : Fin d → ℝ) (σ : Fin d → Fin N)
    (hσ : (N = d ∧ ∀ j, (σ j : ℕ) = j) ∨ N = 1) :
    NArr.zip1 f (.vec N v) (.vec d w) = .ok (.vec d fun i => f (v (σ i)) (w i)) ∧
    NArr.zip1 f (.vec d w) (.vec N v) = .ok (.vec d fun i => f (w i) (v (σ i))) := by
  rcases hσ with ⟨rfl, h⟩ | rfl
  · have : σ = id := by funext j; exact Fin.ext (h j)
    subst this
    exact ⟨zip1_mk f v w, zip1_mk f w v⟩
  · have h1 : Arr2.bdim 1 d = some d := by unfold Arr2.bdim; split <;> simp_all
    have h2 : Arr2.bdim d 1 = some d := by unfold Arr2.bdim; split <;> simp_all
    have hw : ∀ i : Fin d, (Arr2.row w).bget 0 (i : ℕ) = w i := by
      intro i
      exact Arr2.bget_mk (.of fun (_ : Fin 1) (j : Fin d) => w j) 0 i
    have hv : ∀ i : Fin d, (Arr2.row v).bget 0 (i : ℕ) = v (σ i) := by
      intro i
      have : σ i = 0 := Subsingleton.elim _ _
      rw [this]
      simp [Arr2.bget, Arr2.row, Arr2.get]
    simp only [NArr.zip1, h1, h2]
    constructor
    · congr 2
      funext i
      rw [hw, hv]
    · congr 2
      funext i
      rw [hw, hv]

section
variable {A : Matrix (Fin d) (Fin p) ℝ} {b y : Fin d → ℝ} {m : Fin p → ℝ}
  {S : Matrix (Fin p) (Fin p) ℝ} {C : Matrix (Fin d) (Fin d) ℝ} {X : Matrix (Fin N) (Fin p) ℝ}
  {mean : NArr} {covI covO : CovArg}

theorem zipB_row (f : ℝ → ℝ → ℝ) (M : Matrix (Fin d) (Fin N) ℝ) (b : Fin d → ℝ) (σ : Fin d → Fin N)
    (hσ : (N = d ∧ ∀ j, (σ j : ℕ) = j) ∨ N = 1) :
    Arr2.zipB f ⟨d, N, M⟩ (Arr2.row b) = .ok ⟨d, d, .of fun i j => f (M i (σ j)) (b j)⟩ := by
  have h1 : Arr2.bdim d 1 = some d := by unfold Arr2.bdim; split <;> simp_all
  have h2 : Arr2.bdim N d = some d := by
    unfold Arr2.bdim
    rcases hσ with ⟨rfl, -⟩ | rfl
    · simp
    · split <;> simp_all
  simp only [Arr2.zipB, Arr2.row, h1, h2]
  congr 2
  ext i j
  simp only [of_apply]
  have hi : (if d = 1 then 0 else (i : ℕ)) = i := by split_ifs <;> omega
  have hj : (if d = 1 then 0 else (j : ℕ)) = j := by split_ifs <;> omega
  have hs : (if N = 1 then 0 else (j : ℕ)) = (σ j : ℕ) := by
    have := (σ j).2
    rcases hσ with ⟨h, hσ⟩ | h
    · rw [hσ j]; split_ifs <;> omega
    · rw [if_pos h]; omega
  congr 1
  · simp only [Arr2.bget, hi, hs]
    rw [Arr2.get, dif_pos ⟨i.2, (σ j).2⟩]
  · simp only [Arr2.bget, hj, if_true]
    rw [Arr2.get, dif_pos ⟨Nat.zero_lt_one, j.2⟩]
    rfl

/-- **C73, what the code does** for `d` observations given as 1-D arrays and one sample, or as many samples as
observations: `d` numbers come back; in number `j` *all* the predictions of sample `j` (of the only sample) are compared
with observation `j`. -/
theorem C73_exact (hA : FullRowRank A) (hS : S.PosDef) (hC : C.PosDef) (hm : IsVec mean m)
    (hcI : IsCov covI S) (hcO : IsCov covO C) (σ : Fin d → Fin N)
    (hσ : (N = d ∧ ∀ j, (σ j : ℕ) = j) ∨ N = 1) :
    fullFunctional ⟨d, p, A⟩ ⟨N, p, X⟩ (.vec d b) mean covI (.arr (.vec d y)) covO = .ok (.vec d fun j =>
      mahal S (X (σ j)) m + mahal C (A *ᵥ X (σ j) + fun _ => b j) (fun _ => y j)
        - mahal (A * S * Aᵀ) (A *ᵥ X (σ j)) (A *ᵥ m)) := by
  have hP := posDef_conj hS A hA.inj
  have hd : normData ⟨d, p, A⟩ ⟨N, p, X⟩ (.vec d b) (.arr (.vec d y)) covO =
      .ok (.vec d fun j => mahal C (A *ᵥ X (σ j) + fun _ => b j) fun _ => y j) := by
    unfold normData
    rw [hcO.expand (x := .vec d b) rfl, Py.ok_bind, Arr2.T_mk, Arr2.matmul_mk, Py.ok_bind]
    simp only [NArr.asRow, Arr2.add, zipB_row _ _ _ σ hσ, Py.ok_bind, MeanArg.T, NArr.T, Arr2.sub]
    rw [zipB_row _ _ _ id (.inl ⟨rfl, fun _ => rfl⟩), Py.ok_bind, ip_eq, ip_mk _ _ (posDef_det_ne hC)]
    rfl
  unfold fullFunctional
  rw [normInput_eval hm hcI (posDef_det_ne hS), Py.ok_bind, hd, Py.ok_bind, (zip1_bcast _ _ _ σ hσ).1, Py.ok_bind,
    normPredicted_eval hm hcI (posDef_det_ne hP), Py.ok_bind, (zip1_bcast _ _ _ σ hσ).2]

/-- ... and for any other number of samples (two or more observations) it raises `ValueError`. -/
theorem C73_raises (hS : S.PosDef) (hm : IsVec mean m)
    (hcI : IsCov covI S) (hcO : IsCov covO C) (h1 : N ≠ 1) (h2 : N ≠ d) (h3 : d ≠ 1) :
    fullFunctional ⟨d, p, A⟩ ⟨N, p, X⟩ (.vec d b) mean covI (.arr (.vec d y)) covO = .error .valueError := by
  unfold fullFunctional
  rw [normInput_eval hm hcI (posDef_det_ne hS), Py.ok_bind]
  unfold normData
  rw [hcO.expand (x := .vec d b) rfl, Py.ok_bind, Arr2.T_mk, Arr2.matmul_mk, Py.ok_bind]
  have hb : Arr2.bdim N d = none := by
    unfold Arr2.bdim
    rw [if_neg h2, if_neg h1, if_neg h3]
  have hb' : Arr2.bdim d 1 = some d := by unfold Arr2.bdim; split <;> simp_all
  simp only [NArr.asRow, Arr2.add, Arr2.zipB, Arr2.row, hb, hb']
  rfl

/-- **C73, true part in general**: with one observation the 1-D arrays mean what they should, for any number of
samples. -/
theorem C73_one_observation_partial {A : Matrix (Fin 1) (Fin p) ℝ} {b y : Fin 1 → ℝ} {C : Matrix (Fin 1) (Fin 1) ℝ}
    (hA : FullRowRank A) (hS : S.PosDef) (hC : C.PosDef) (hm : IsVec mean m) (hcI : IsCov covI S) (hcO : IsCov covO C) :
    ∃ J : Fin N → ℝ,
      fullFunctional ⟨1, p, A⟩ ⟨N, p, X⟩ (.vec 1 b) mean covI (.arr (.vec 1 y)) covO = .ok (.vec N J) ∧
      (∀ j, J j = mahal S (X j) m + mahal C (A *ᵥ X j + b) y - mahal (A * S * Aᵀ) (A *ᵥ X j) (A *ᵥ m)) ∧
      ∀ j, X j = m → A *ᵥ m + b = y → J j = 0 := by
  obtain ⟨J, h1, h2, -, -, h3⟩ := C45_full_functional (X := X) (b := b) (y := y) (data := .vec 1 b) (obs := .vec 1 y)
    hA hS hC hm (.inr ⟨rfl, rfl⟩) (.inr ⟨rfl, .inl rfl⟩) hcI hcO
  exact ⟨J, h1, h2, h3⟩

end

/-- Two observations, two samples; and two observations, three samples. -/
example : (∃ J : Fin 2 → ℝ, fullFunctional ⟨2, 2, 1⟩ ⟨2, 2, !![1, 0; 0, 1]⟩ (.vec 2 ![0, 0]) (.vec 2 ![1, 0]) (.num 1)
      (.arr (.vec 2 ![1, 0])) (.num 1) = .ok (.vec 2 J) ∧ J 0 = 1 ∧ J 1 = 1) ∧
    fullFunctional ⟨2, 2, 1⟩ ⟨3, 2, !![1, 0; 0, 1; 1, 1]⟩ (.vec 2 ![0, 0]) (.vec 2 ![1, 0]) (.num 1)
      (.arr (.vec 2 ![1, 0])) (.num 1) = .error .valueError := by
  have hI : IsCov (n := 2) (.num 1) 1 := Or.inr ⟨1, rfl, by simp⟩
  constructor
  · refine ⟨_, C73_exact (A := 1) (m := ![1, 0]) (S := 1) (C := 1) (X := !![1, 0; 0, 1]) (fun y => ⟨y, by simp⟩) PosDef.one PosDef.one (.inl rfl) hI hI id
      (.inl ⟨rfl, fun _ => rfl⟩), ?_, ?_⟩ <;>
    simp [mahal, transpose_one, dotProduct, Fin.sum_univ_two]
  · exact C73_raises (A := 1) (m := ![1, 0]) (S := 1) (C := 1) (X := !![1, 0; 0, 1; 1, 1]) PosDef.one (.inl rfl) hI hI (by norm_num) (by norm_num) (by norm_num)

end Verif
