import Verif.Lemmas.GaussMeasure
import Verif.Props.Util
import Mathlib.Probability.HasLaw
import Mathlib.Probability.Independence.CharacteristicFunction
import Mathlib.Probability.Independence.InfinitePi

/-!
# Random generators with a law

`White G P`: the state of the generator is random with law `P`, and its draws are then independent and
standard normal. `Iid G P`: independent and identically distributed draws.
-/

open Matrix MeasureTheory ProbabilityTheory Complex

namespace Verif

open SpecST

variable {d p n : ℕ} {σ Ω : Type} [MeasurableSpace σ] [MeasurableSpace Ω]

/-- The draws of the generator are independent and identically distributed if its state has law `P`. -/
structure Iid (G : Rng σ) (P : Measure σ) : Prop where
  indep : iIndepFun (fun (k : ℕ) s => nthDraw G s k) P
  ident : ∀ k, IdentDistrib (fun s => nthDraw G s k) (fun s => nthDraw G s 0) P P

/-- The draws of the generator are independent and standard normal if its state has law `P`. -/
structure White (G : Rng σ) (P : Measure σ) : Prop where
  indep : iIndepFun (fun (k : ℕ) s => nthDraw G s k) P
  law : ∀ k, HasLaw (fun s => nthDraw G s k) (gaussianReal 0 1) P

/-- A random vector with independent standard normal entries. -/
theorem hasLaw_std {P : Measure Ω} {X : Fin n → Ω → ℝ} (hi : iIndepFun X P)
    (hX : ∀ k, HasLaw (X k) (gaussianReal 0 1) P) :
    HasLaw (fun ω k => X k ω) (normalLaw 0 (1 : Matrix (Fin n) (Fin n) ℝ)) P := by
  have hP := hi.isProbabilityMeasure
  have hm : AEMeasurable (fun ω k => X k ω) P := aemeasurable_pi_lambda _ fun k => (hX k).aemeasurable
  refine ⟨hm, ?_⟩
  have hpr : IsProbabilityMeasure (P.map fun ω k => X k ω) := Measure.isProbabilityMeasure_map hm
  refine ext_of_cf fun t => ?_
  rw [cf_normalLaw _ PosSemidef.one, cf, integral_map hm (Continuous.aestronglyMeasurable (by
    have : Continuous fun x : Fin n → ℝ => t ⬝ᵥ x := by unfold dotProduct; fun_prop
    fun_prop))]
  have hmt : ∀ k, AEMeasurable (fun ω => t k * X k ω) P := fun k => (hX k).aemeasurable.const_mul _
  have hs := (hi.comp (fun k (x : ℝ) => t k * x) fun k => measurable_const_mul _).charFun_map_fun_sum_eq_prod
    (fun k => hmt k)
  have h1 := congrFun hs 1
  rw [charFun_apply, integral_map (Finset.aemeasurable_fun_sum _ fun k _ => hmt k) (by fun_prop), Finset.prod_apply] at h1
  refine Eq.trans ?_ (h1.trans ?_)
  · refine integral_congr_ae (.of_forall fun ω => ?_)
    simp [dotProduct]
  · have e : ∀ k, charFun (P.map fun ω => t k * X k ω) 1 = cexp (-(t k ^ 2 : ℝ) / 2) := by
      intro k
      have := (gaussianReal_const_mul (hX k) (t k)).map_eq
      rw [this, charFun_gaussianReal]
      congr 1
      simp
      ring
    rw [Finset.prod_congr rfl fun k _ => e k, ← Complex.exp_sum]
    congr 1
    rw [dotProduct_zero, one_mulVec]
    simp [dotProduct, ← Finset.sum_div, neg_div, sq]

theorem White.draws {G : Rng σ} {P : Measure σ} (h : White G P) (a n : ℕ) :
    HasLaw (fun s (k : Fin n) => nthDraw G s (a + k)) (normalLaw 0 (1 : Matrix (Fin n) (Fin n) ℝ)) P :=
  hasLaw_std (X := fun (k : Fin n) s => nthDraw G s (a + k))
    (h.indep.precomp (g := fun k : Fin n => a + (k : ℕ)) fun i j hij => Fin.ext (by simpa using hij))
    fun k => h.law (a + k)

/-- A linear functional of a normal vector is normal. -/
theorem hasLaw_dot {P : Measure Ω} {X : Ω → Fin d → ℝ} {m : Fin d → ℝ} {S : Matrix (Fin d) (Fin d) ℝ}
    (hS : S.PosSemidef) (hX : HasLaw X (normalLaw m S) P) (a : Fin d → ℝ) (c : ℝ) :
    HasLaw (fun ω => a ⬝ᵥ X ω + c) (gaussianReal (a ⬝ᵥ m + c) (a ⬝ᵥ S *ᵥ a).toNNReal) P := by
  have hdot : Measurable fun x : Fin d → ℝ => a ⬝ᵥ x + c := by unfold dotProduct; fun_prop
  suffices h : HasLaw (fun x => a ⬝ᵥ x + c) (gaussianReal (a ⬝ᵥ m + c) (a ⬝ᵥ S *ᵥ a).toNNReal) (normalLaw m S) from
    h.comp hX
  refine ⟨hdot.aemeasurable, ?_⟩
  have : IsProbabilityMeasure ((normalLaw m S).map fun x => a ⬝ᵥ x + c) :=
    Measure.isProbabilityMeasure_map hdot.aemeasurable
  apply Measure.ext_of_charFun
  funext t
  rw [charFun_apply, integral_map hdot.aemeasurable (by fun_prop), charFun_gaussianReal]
  have h1 := cf_normalLaw m hS (t • a)
  rw [cf] at h1
  have h2 : ∀ x : Fin d → ℝ, cexp (((inner ℝ (a ⬝ᵥ x + c) t : ℝ) : ℂ) * I) =
      cexp ((t * c : ℝ) * I) * cexp ((((t • a) ⬝ᵥ x : ℝ) : ℂ) * I) := by
    intro x
    rw [← Complex.exp_add]
    congr 1
    rw [smul_dotProduct]
    simp
    ring
  simp only [h2]
  rw [integral_const_mul, h1, ← Complex.exp_add]
  congr 1
  have hq : 0 ≤ a ⬝ᵥ S *ᵥ a := quad_nonneg hS a
  rw [Real.coe_toNNReal _ hq, mulVec_smul, smul_dotProduct, dotProduct_smul, smul_dotProduct]
  push_cast
  simp
  ring

/-! ## There is a generator with this law -/

/-- The generator whose state is the stream of the numbers it will draw. -/
def tapeRng : Rng (ℕ → ℝ) := ⟨fun _ _ => 0, fun s => (s 0, fun k => s (k + 1))⟩

theorem tape_nthDraw (s : ℕ → ℝ) (k : ℕ) : nthDraw tapeRng s k = s k := by
  have h : ∀ k i, stateAfter tapeRng s k i = s (i + k) := by
    intro k
    induction k with
    | zero => intro i; rfl
    | succ k ih =>
      intro i
      show stateAfter tapeRng s k (i + 1) = _
      rw [ih]; congr 1; omega
  have := h k 0
  rw [zero_add] at this
  exact this

theorem white_tape : White tapeRng (Measure.infinitePi fun _ : ℕ => gaussianReal 0 1) where
  indep := by
    simp only [tape_nthDraw]
    exact iIndepFun_infinitePi (X := fun _ x => x) fun _ => measurable_id
  law k := by
    simp only [tape_nthDraw]
    exact (measurePreserving_eval_infinitePi (fun _ : ℕ => gaussianReal 0 1) k).hasLaw

theorem iid_tape (μ : Measure ℝ) [IsProbabilityMeasure μ] : Iid tapeRng (Measure.infinitePi fun _ : ℕ => μ) where
  indep := by
    simp only [tape_nthDraw]
    exact iIndepFun_infinitePi (X := fun _ x => x) fun _ => measurable_id
  ident k := by
    simp only [tape_nthDraw]
    have h : ∀ k : ℕ, HasLaw (fun s : ℕ → ℝ => s k) μ (Measure.infinitePi fun _ : ℕ => μ) := fun k =>
      (measurePreserving_eval_infinitePi (fun _ : ℕ => μ) k).hasLaw
    exact ⟨(h k).aemeasurable, (h 0).aemeasurable, by rw [(h k).map_eq, (h 0).map_eq]⟩

theorem integral_tape (μ : Measure ℝ) [IsProbabilityMeasure μ] (g : ℝ → ℝ) (hg : Measurable g) (k : ℕ) :
    ∫ s, g (nthDraw tapeRng s k) ∂(Measure.infinitePi fun _ : ℕ => μ) = ∫ x, g x ∂μ := by
  simp only [tape_nthDraw]
  have h := (measurePreserving_eval_infinitePi (fun _ : ℕ => μ) k)
  conv_rhs => rw [← h.map_eq]
  rw [integral_map h.measurable.aemeasurable hg.aestronglyMeasurable]

/-- A fair coin with the values 1 and -1. -/
noncomputable def coin : Measure ℝ := (1 / 2 : ENNReal) • Measure.dirac 1 + (1 / 2 : ENNReal) • Measure.dirac (-1)

instance : IsProbabilityMeasure coin := ⟨by simp [coin, ENNReal.inv_two_add_inv_two]⟩

theorem integral_coin (g : ℝ → ℝ) (hg : Measurable g) : ∫ x, g x ∂coin = (g 1 + g (-1)) / 2 := by
  have hi : ∀ a : ℝ, Integrable g ((1 / 2 : ENNReal) • Measure.dirac a) := fun a =>
    (integrable_dirac' hg.stronglyMeasurable (by simp)).smul_measure (by simp)
  rw [coin, integral_add_measure (hi 1) (hi (-1)), integral_smul_measure, integral_smul_measure,
    integral_dirac' _ _ hg.stronglyMeasurable, integral_dirac' _ _ hg.stronglyMeasurable]
  simp
  ring

theorem White.iid {G : Rng σ} {P : Measure σ} (h : White G P) : Iid G P :=
  ⟨h.indep, fun k => ⟨(h.law k).aemeasurable, (h.law 0).aemeasurable, by rw [(h.law k).map_eq, (h.law 0).map_eq]⟩⟩

end Verif
