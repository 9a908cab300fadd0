import Verif.Model.Density

/-!
# `np.argmax`: specification and uniqueness
-/

namespace Verif

/-- `m` is the index `np.argmax` documents: the first `nan` if there is one; otherwise the first
index at which the maximum is attained. -/
def IsArgmax (l : List F) (m : ℕ) : Prop :=
  ∃ h : m < l.length,
    (∀ (k : ℕ) (hk : k < m), l[k] ≠ F.nan ∧ (l[m] = F.nan ∨ (l[k]).lt l[m])) ∧
    (l[m] ≠ F.nan → ∀ (k : ℕ) (hk : k < l.length), l[k] ≠ F.nan ∧ ¬ (l[m]).lt l[k])

theorem argmaxGo_spec (vs : List F) : ∀ (p : List F) (bi : ℕ) (h : bi < p.length), IsArgmax p bi →
    IsArgmax (p ++ vs) (argmaxGo bi p[bi] p.length vs) := by
  induction vs with
  | nil => intro p bi h hp; simpa [argmaxGo] using hp
  | cons v vs ih =>
    intro p bi h hp
    obtain ⟨_, h1, h2⟩ := hp
    rw [argmaxGo]
    by_cases hb : p[bi] = F.nan
    · rw [if_pos hb]
      refine ⟨by simp; omega, fun k hk => ?_, fun hne => ?_⟩
      · rw [List.getElem_append_left (by omega), List.getElem_append_left h]
        exact h1 k hk
      · rw [List.getElem_append_left h] at hne
        exact absurd hb hne
    · rw [if_neg hb]
      by_cases hv : v = F.nan ∨ (p[bi]).lt v
      · rw [if_pos hv]
        have key : IsArgmax (p ++ [v]) p.length := by
          refine ⟨by simp, fun k hk => ?_, fun hne k hk => ?_⟩
          · have e : (p ++ [v])[p.length]'(by simp) = v := by simp
            rw [e, List.getElem_append_left hk]
            obtain ⟨h3, h4⟩ := h2 hb k hk
            refine ⟨h3, ?_⟩
            rcases hv with hv | hv
            · exact Or.inl hv
            · right
              rcases F.lt_total h3 hb with h5 | h5 | h5
              · exact F.lt_trans h5 hv
              · rw [h5]; exact hv
              · exact absurd h5 h4
          · have e : (p ++ [v])[p.length]'(by simp) = v := by simp
            rw [e] at hne ⊢
            have hv' := hv.resolve_left hne
            have hk' : k < p.length + 1 := by simpa using hk
            rcases Nat.lt_succ_iff_lt_or_eq.1 hk' with hk2 | rfl
            · rw [List.getElem_append_left hk2]
              obtain ⟨h3, h4⟩ := h2 hb k hk2
              refine ⟨h3, fun h5 => h4 (F.lt_trans hv' h5)⟩
            · rw [e]; exact ⟨hne, F.lt_irrefl v⟩
        have := ih (p ++ [v]) p.length (by simp) key
        simpa using this
      · rw [if_neg hv]
        have hv1 : v ≠ F.nan := fun h => hv (Or.inl h)
        have hv2 : ¬ (p[bi]).lt v := fun h => hv (Or.inr h)
        have key : IsArgmax (p ++ [v]) bi := by
          refine ⟨by simp; omega, fun k hk => ?_, fun _ k hk => ?_⟩
          · rw [List.getElem_append_left (by omega), List.getElem_append_left h]
            exact h1 k hk
          · rw [List.getElem_append_left h]
            have hk' : k < p.length + 1 := by simpa using hk
            rcases Nat.lt_succ_iff_lt_or_eq.1 hk' with hk2 | rfl
            · rw [List.getElem_append_left hk2]
              exact h2 hb k hk2
            · have e : (p ++ [v])[p.length]'(by simp) = v := by simp
              rw [e]
              exact ⟨hv1, hv2⟩
        have := ih (p ++ [v]) bi (by simp; omega) key
        rw [List.getElem_append_left h] at this
        simpa using this

/-- `np.argmax` returns the documented index on non-empty input. -/
theorem npArgmax_spec {l : List F} (h : l ≠ []) : ∃ m, npArgmax l = .ok m ∧ IsArgmax l m := by
  cases l with
  | nil => exact absurd rfl h
  | cons v vs =>
    refine ⟨_, rfl, ?_⟩
    have h0 : IsArgmax [v] 0 := by
      refine ⟨by simp, fun k hk => absurd hk (Nat.not_lt_zero _), fun hne k hk => ?_⟩
      have : k = 0 := by simpa using hk
      subst this
      exact ⟨hne, F.lt_irrefl _⟩
    exact argmaxGo_spec vs [v] 0 (by simp) h0

theorem IsArgmax.unique {l : List F} {m m' : ℕ} (h : IsArgmax l m) (h' : IsArgmax l m') :
    m = m' := by
  have aux : ∀ {m m' : ℕ}, IsArgmax l m → IsArgmax l m' → ¬ m < m' := by
    intro m m' h h' hlt
    obtain ⟨hm, h1, h2⟩ := h
    obtain ⟨hm', h1', h2'⟩ := h'
    obtain ⟨h3, h4⟩ := h1' m hlt
    obtain ⟨h5, h6⟩ := h2 h3 m' hm'
    exact h6 (h4.resolve_left h5)
  exact le_antisymm (not_lt.1 (aux h' h)) (not_lt.1 (aux h h'))

theorem npArgmax_eq {l : List F} {m : ℕ} (h : IsArgmax l m) : npArgmax l = .ok m := by
  have hne : l ≠ [] := by
    rintro rfl
    obtain ⟨h, -⟩ := h
    simp at h
  obtain ⟨m', h1, h2⟩ := npArgmax_spec hne
  rw [h1, h.unique h2]

/-- On finite values: the first index of the maximum. -/
theorem isArgmax_fin {l : List ℝ} {m : ℕ} :
    IsArgmax (l.map F.fin) m ↔ ∃ h : m < l.length, (∀ (k : ℕ) (hk : k < m), l[k] < l[m]) ∧
      ∀ (k : ℕ) (hk : k < l.length), l[k] ≤ l[m] := by
  constructor
  · rintro ⟨h, h1, h2⟩
    have h' : m < l.length := by simpa using h
    refine ⟨h', fun k hk => ?_, fun k hk => ?_⟩
    · obtain ⟨-, h3⟩ := h1 k hk
      simpa [F.lt] using h3
    · obtain ⟨-, h3⟩ := h2 (by simp) k (by simpa using hk)
      simpa [F.lt] using h3
  · rintro ⟨h, h1, h2⟩
    refine ⟨by simpa using h, fun k hk => ?_, fun _ k hk => ?_⟩
    · simpa [F.lt] using h1 k hk
    · simpa [F.lt] using h2 k (by simpa using hk)

end Verif
