import Verif.Props.Iterate

/-!
# C171: units in `iterate`

Neither the units of the observations nor those of the parameters matter, nor the scale of the covariance.
-/

open Matrix

namespace Verif

variable {d p q : ℕ}

/-- Points of a chain under a map that commutes with every update. -/
theorem iterPts_map {e : ℕ} {S : Matrix (Fin p) (Fin p) ℝ} {A : Matrix (Fin d) (Fin p) ℝ} {c : Fin d → ℝ}
    {S' : Matrix (Fin q) (Fin q) ℝ} {A' : Matrix (Fin e) (Fin q) ℝ} {c' : Fin e → ℝ} (g : Fin e → Fin d)
    (φ : (Fin q → ℝ) → Fin p → ℝ)
    (hφ : ∀ k z, kstep S (A (g k)) (c (g k)) (φ z) = φ (kstep S' (A' k) (c' k) z)) (ks : List (Fin e)) (n : ℕ)
    (z : Fin q → ℝ) : iterPts S A c (ks.map g) n (φ z) = (iterPts S' A' c' ks n z).map φ := by
  have h : ∀ (ks : List (Fin e)) (z : Fin q → ℝ),
      epochPts S A c (φ z) (ks.map g) = (epochPts S' A' c' z ks).map φ := by
    intro ks
    induction ks with
    | nil => intro z; rfl
    | cons k ks ih => intro z; rw [List.map_cons, epochPts, epochPts, hφ, ih, List.map_cons]
  have h' : ∀ z, epochEnd S A c (ks.map g) (φ z) = φ (epochEnd S' A' c' ks z) := by
    intro z
    rw [epochEnd, epochEnd, h, List.getLastD_eq_getLast?, List.getLastD_eq_getLast?, List.getLast?_map]
    cases (epochPts S' A' c' z ks).getLast? <;> rfl
  induction n generalizing z with
  | zero => rfl
  | succ n ih => rw [iterPts, iterPts, h, h', ih, List.map_append, List.map_cons]

/-- **C171**, units of the observations: multiplying rows, offsets and data by non-zero factors does not change the
chain. -/
theorem C171_rows (A : Matrix (Fin d) (Fin p) ℝ) (S : Matrix (Fin p) (Fin p) ℝ) (β η : Fin d → ℝ) (m : Fin p → ℝ)
    (u : Fin d → ℝ) (hu : ∀ k, u k ≠ 0) {idx : Option (List ℤ)} {ks : List (Fin d)} (h : Visits d idx ks) (n : ℤ) :
    ∃ pts : List (Fin p → ℝ),
      iterate ⟨d, p, A⟩ (.vec d β) (.vec d η) (.vec p m) (some ⟨p, p, S⟩) n idx = .ok (pts.map (NArr.vec p)) ∧
      iterate ⟨d, p, .of fun k i => u k * A k i⟩ (.vec d fun k => u k * β k) (.vec d fun k => u k * η k) (.vec p m)
        (some ⟨p, p, S⟩) n idx = .ok (pts.map (NArr.vec p)) := by
  refine ⟨_, iterate_eval_vec S A (Or.inl rfl) (Or.inl rfl) h m n, ?_⟩
  rw [iterate_eval_vec S _ (Or.inl rfl) (Or.inl rfl) h m n]
  congr 2
  have := iterPts_map (S := S) (A := .of fun k i => u k * A k i)
    (c := (fun k => u k * η k) - fun k => u k * β k) (S' := S) (A' := A) (c' := η - β) id id ?_ ks
    (max n 1).toNat m
  · simpa using this
  · intro k z
    have e : (Matrix.of fun k i => u k * A k i) k = u k • A k := rfl
    simp only [id_eq, e, kstep, Pi.sub_apply, smul_dotProduct, mulVec_smul, dotProduct_smul, smul_eq_mul, smul_smul]
    congr 2
    have := hu k
    by_cases ha : A k ⬝ᵥ (S *ᵥ A k) = 0
    · simp [ha]
    · field_simp

/-- **C171**, scale of the covariance. -/
theorem C171_covariance (A : Matrix (Fin d) (Fin p) ℝ) (S : Matrix (Fin p) (Fin p) ℝ) (β η : Fin d → ℝ)
    (m : Fin p → ℝ) {t : ℝ} (ht : t ≠ 0) {idx : Option (List ℤ)} {ks : List (Fin d)} (h : Visits d idx ks) (n : ℤ) :
    ∃ pts : List (Fin p → ℝ),
      iterate ⟨d, p, A⟩ (.vec d β) (.vec d η) (.vec p m) (some ⟨p, p, S⟩) n idx = .ok (pts.map (NArr.vec p)) ∧
      iterate ⟨d, p, A⟩ (.vec d β) (.vec d η) (.vec p m) (some ⟨p, p, t • S⟩) n idx =
        .ok (pts.map (NArr.vec p)) := by
  refine ⟨_, iterate_eval_vec S A (Or.inl rfl) (Or.inl rfl) h m n, ?_⟩
  rw [iterate_eval_vec (t • S) _ (Or.inl rfl) (Or.inl rfl) h m n]
  congr 2
  have := iterPts_map (S := t • S) (A := A) (c := η - β) (S' := S) (A' := A) (c' := η - β) id id ?_ ks
    (max n 1).toNat m
  · simpa using this
  · intro k z
    simp only [id_eq, kstep, smul_mulVec, dotProduct_smul, smul_eq_mul, smul_smul]
    congr 2
    by_cases ha : A k ⬝ᵥ (S *ᵥ A k) = 0
    · simp [ha]
    · field_simp

/-- **C171**, units and origin of the parameters: for `x = T z + t`, the chain of the problem in `x` is the image of
the chain of the problem in `z`. `T` need not be invertible, nor square. -/
theorem C171_parameters (A : Matrix (Fin d) (Fin p) ℝ) (T : Matrix (Fin p) (Fin q) ℝ) (t : Fin p → ℝ)
    (S : Matrix (Fin q) (Fin q) ℝ) (β η : Fin d → ℝ) (m : Fin q → ℝ) {idx : Option (List ℤ)} {ks : List (Fin d)}
    (h : Visits d idx ks) (n : ℤ) :
    ∃ pts : List (Fin q → ℝ),
      iterate ⟨d, q, A * T⟩ (.vec d (β + A *ᵥ t)) (.vec d η) (.vec q m) (some ⟨q, q, S⟩) n idx =
        .ok (pts.map (NArr.vec q)) ∧
      iterate ⟨d, p, A⟩ (.vec d β) (.vec d η) (.vec p (T *ᵥ m + t)) (some ⟨p, p, T * S * Tᵀ⟩) n idx =
        .ok ((pts.map fun z => T *ᵥ z + t).map (NArr.vec p)) := by
  refine ⟨_, iterate_eval_vec S (A * T) (Or.inl rfl) (Or.inl rfl) h m n, ?_⟩
  rw [iterate_eval_vec (T * S * Tᵀ) _ (Or.inl rfl) (Or.inl rfl) h _ n]
  congr 2
  have := iterPts_map (S := T * S * Tᵀ) (A := A) (c := η - β) (S' := S) (A' := A * T) (c' := η - (β + A *ᵥ t)) id
    (fun z => T *ᵥ z + t) ?_ ks (max n 1).toNat m
  · simpa using this
  · intro k z
    have e : (A * T) k = Tᵀ *ᵥ A k := by
      funext j
      simp [Matrix.mul_apply, mulVec, dotProduct, mul_comm]
    have e1 : (T * S * Tᵀ) *ᵥ A k = T *ᵥ (S *ᵥ (Tᵀ *ᵥ A k)) := by
      rw [mulVec_mulVec, mulVec_mulVec, Matrix.mul_assoc]
    have e2 : ∀ v : Fin q → ℝ, A k ⬝ᵥ (T *ᵥ v) = (Tᵀ *ᵥ A k) ⬝ᵥ v := by
      intro v
      rw [dot_mulVec_transpose]
    have e3 : (A *ᵥ t) k = A k ⬝ᵥ t := rfl
    simp only [id_eq, kstep, e, e1, e2, Pi.sub_apply, Pi.add_apply, e3, mulVec_add, mulVec_smul, dotProduct_add]
    rw [show η k - β k - ((Tᵀ *ᵥ A k) ⬝ᵥ z + A k ⬝ᵥ t) = η k - (β k + A k ⬝ᵥ t) - (Tᵀ *ᵥ A k) ⬝ᵥ z by ring]
    abel

/-- **C171**, only the difference of data and offset matters. -/
theorem C171_offset (A : Matrix (Fin d) (Fin p) ℝ) (S : Matrix (Fin p) (Fin p) ℝ) (β η s : Fin d → ℝ)
    (m : Fin p → ℝ) {idx : Option (List ℤ)} {ks : List (Fin d)} (h : Visits d idx ks) (n : ℤ) :
    ∃ pts : List (Fin p → ℝ),
      iterate ⟨d, p, A⟩ (.vec d β) (.vec d η) (.vec p m) (some ⟨p, p, S⟩) n idx = .ok (pts.map (NArr.vec p)) ∧
      iterate ⟨d, p, A⟩ (.vec d (β + s)) (.vec d (η + s)) (.vec p m) (some ⟨p, p, S⟩) n idx =
        .ok (pts.map (NArr.vec p)) := by
  refine ⟨_, iterate_eval_vec S A (Or.inl rfl) (Or.inl rfl) h m n, ?_⟩
  rw [iterate_eval_vec S A (Or.inl rfl) (Or.inl rfl) h m n, add_sub_add_right_eq_sub]

/-- **C171**, numbering of the observations: permuting (or repeating) the rows and renumbering `idx_order` accordingly
gives the same chain. -/
theorem C171_numbering {e : ℕ} (A : Matrix (Fin d) (Fin p) ℝ) (S : Matrix (Fin p) (Fin p) ℝ) (β η : Fin d → ℝ)
    (m : Fin p → ℝ) (g : Fin e → Fin d) (ks : List (Fin e)) (n : ℤ) :
    ∃ pts : List (Fin p → ℝ),
      iterate ⟨d, p, A⟩ (.vec d β) (.vec d η) (.vec p m) (some ⟨p, p, S⟩) n (some (ks.map fun k : Fin e => ((g k : ℕ) : ℤ))) =
        .ok (pts.map (NArr.vec p)) ∧
      iterate ⟨e, p, .of fun k => A (g k)⟩ (.vec e fun k => β (g k)) (.vec e fun k => η (g k)) (.vec p m)
        (some ⟨p, p, S⟩) n (some (ks.map fun k : Fin e => ((k : ℕ) : ℤ))) = .ok (pts.map (NArr.vec p)) := by
  have h1 : Visits d (some (ks.map fun k : Fin e => ((g k : ℕ) : ℤ))) (ks.map g) := by
    simp only [Visits, List.forall₂_map_left_iff, List.forall₂_map_right_iff]
    exact List.forall₂_same.2 fun _ _ => Or.inl rfl
  have h2 : Visits e (some (ks.map fun k : Fin e => ((k : ℕ) : ℤ))) ks := by
    simp only [Visits, List.forall₂_map_left_iff]
    exact List.forall₂_same.2 fun _ _ => Or.inl rfl
  refine ⟨_, iterate_eval_vec S A (Or.inl rfl) (Or.inl rfl) h1 m n, ?_⟩
  rw [iterate_eval_vec S _ (Or.inl rfl) (Or.inl rfl) h2 m n]
  congr 2
  have := iterPts_map (S := S) (A := A) (c := η - β) (S' := S) (A' := .of fun k => A (g k))
    (c' := (fun k => η (g k)) - fun k => β (g k)) g id (fun _ _ => rfl) ks (max n 1).toNat m
  simpa using this.symm

/-- C171 on a concrete problem: the first measurement in hundredths, two parameters of which the first is counted in
thousands from 5. -/
example : Visits 2 (some [1, 0, -1]) [1, 0, 1] ∧ (∀ k : Fin 2, (![100, 1] : Fin 2 → ℝ) k ≠ 0) ∧
    (!![1000, 0; 0, 1] : Matrix (Fin 2) (Fin 2) ℝ) *ᵥ ![2, 3] + ![5, 0] = ![2005, 3] := by
  refine ⟨by simp [Visits], fun k => by fin_cases k <;> norm_num, ?_⟩
  ext i
  fin_cases i <;> (simp [vecHead, vecTail]; try norm_num)

end Verif
