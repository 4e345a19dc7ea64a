import Mathlib.Analysis.Calculus.Deriv.Prod
import Mathlib.Analysis.Calculus.ParametricIntervalIntegral
import Mathlib.Analysis.Calculus.ContDiff.RCLike
import Mathlib.Analysis.SpecialFunctions.Sqrt
import Mathlib.Analysis.SpecialFunctions.Trigonometric.InverseDeriv
import Mathlib.MeasureTheory.Integral.IntervalIntegral.IntegrationByParts
import Mathlib.MeasureTheory.Integral.IntervalIntegral.FundThmCalculus
import Verif.Spec.Kerr

/-!
# Derivatives of the action integrals

`∮ p_r dr` and `∮ p_θ dθ` are differentiated along a family of orbits.  With `r = m - d cos χ` and
`cos θ = z cos χ` the integrands are smooth in the parameters of the family and in `χ`, also for circular and
equatorial orbits; the contribution of the moving turning points is a total derivative in `χ`.
-/

namespace KGP

open Real MeasureTheory Set Filter Topology intervalIntegral

namespace Action

/-- Uniform Lipschitz bound near a compact set of a function that is continuously differentiable there. -/
lemma unif_lip {V : Type*} [NormedAddCommGroup V] [NormedSpace ℝ V] {f : V × ℝ → ℝ} {v₀ : V} {k : Set ℝ}
    (hk : IsCompact k) (hf : ∀ χ ∈ k, ContDiffAt ℝ 1 f (v₀, χ)) :
    ∃ C : ℝ, 0 ≤ C ∧ ∀ᶠ w in 𝓝 v₀, ∀ χ ∈ k, |f (w, χ) - f (v₀, χ)| ≤ C * ‖w - v₀‖ := by
  refine hk.induction_on (p := fun t => ∃ C : ℝ, 0 ≤ C ∧ ∀ᶠ w in 𝓝 v₀, ∀ χ ∈ t, |f (w, χ) - f (v₀, χ)| ≤ C * ‖w - v₀‖)
    ⟨0, le_rfl, by simp⟩ ?_ ?_ ?_
  · rintro s t hst ⟨C, h0, h⟩
    exact ⟨C, h0, h.mono fun w hw χ hχ => hw χ (hst hχ)⟩
  · rintro s t ⟨C, h0, h⟩ ⟨C', h0', h'⟩
    refine ⟨max C C', le_max_of_le_left h0, (h.and h').mono fun w hw χ hχ => ?_⟩
    rcases hχ with hχ | hχ
    · exact (hw.1 χ hχ).trans (mul_le_mul_of_nonneg_right (le_max_left _ _) (norm_nonneg _))
    · exact (hw.2 χ hχ).trans (mul_le_mul_of_nonneg_right (le_max_right _ _) (norm_nonneg _))
  · intro χ hχ
    obtain ⟨K, t, ht, hK⟩ := (hf χ hχ).exists_lipschitzOnWith
    rw [nhds_prod_eq, mem_prod_iff] at ht
    obtain ⟨U, hU, W, hW, hUW⟩ := ht
    refine ⟨W, mem_nhdsWithin_of_mem_nhds hW, K, K.2, ?_⟩
    filter_upwards [hU] with w hw χ' hχ'
    have := hK.norm_sub_le (hUW (show (w, χ') ∈ U ×ˢ W from ⟨hw, hχ'⟩))
      (hUW (show (v₀, χ') ∈ U ×ˢ W from ⟨mem_of_mem_nhds hU, hχ'⟩))
    rw [Prod.mk_sub_mk, sub_self, Prod.norm_mk, norm_zero, max_eq_left (norm_nonneg _)] at this
    exact this

/-- Differentiation under the integral sign along a differentiable family of parameters. -/
lemma hasDerivAt_param {V : Type*} [NormedAddCommGroup V] [NormedSpace ℝ V] {f : V × ℝ → ℝ} {v : ℝ → V} {v' : V}
    {s₀ : ℝ} {F' : ℝ → ℝ} (hv : HasDerivAt v v' s₀) (hf : ∀ χ ∈ Icc 0 π, ContDiffAt ℝ 1 f (v s₀, χ))
    (hmeas : ∀ w, Measurable fun χ => f (w, χ))
    (hF' : ∀ χ ∈ Icc 0 π, HasDerivAt (fun s => f (v s, χ)) (F' χ) s₀) (hF'm : Measurable F') :
    HasDerivAt (fun s => ∫ χ in (0:ℝ)..π, f (v s, χ)) (∫ χ in (0:ℝ)..π, F' χ) s₀ := by
  obtain ⟨C, hC0, hC⟩ := unif_lip isCompact_Icc hf
  obtain ⟨c, hc⟩ := hv.isBigO_sub.bound
  have hev := hv.continuousAt.eventually hC
  have hcont : ContinuousOn (fun χ => f (v s₀, χ)) (Icc 0 π) := fun χ hχ =>
    ((hf χ hχ).continuousAt.comp (Continuous.prodMk_right (v s₀)).continuousAt).continuousWithinAt
  have hsub : Ioc (0:ℝ) π ⊆ Icc 0 π := Ioc_subset_Icc_self
  simp only [intervalIntegral.integral_of_le pi_pos.le]
  have key := hasFDerivAt_integral_of_dominated_loc_of_lip' (𝕜 := ℝ) (μ := volume.restrict (Ioc 0 π))
    (F := fun s χ => f (v s, χ)) (F' := fun χ => ContinuousLinearMap.toSpanSingleton ℝ (F' χ)) (x₀ := s₀)
    (bound := fun _ => C * |c|) (s := {s | (∀ χ ∈ Icc 0 π, |f (v s, χ) - f (v s₀, χ)| ≤ C * ‖v s - v s₀‖)
      ∧ ‖v s - v s₀‖ ≤ c * ‖s - s₀‖}) (hev.and hc) (fun s _ => (hmeas _).aestronglyMeasurable)
    ((hcont.integrableOn_Icc).mono_set Ioc_subset_Icc_self) ?_ ?_ (integrable_const _) ?_
  · have h2 := key.2.hasDerivAt
    have : (∫ χ in Ioc 0 π, ContinuousLinearMap.toSpanSingleton ℝ (F' χ)) 1 = ∫ χ in Ioc 0 π, F' χ := by
      rw [ContinuousLinearMap.integral_apply key.1]
      simp
    rw [this] at h2
    exact h2
  · exact ((ContinuousLinearMap.toSpanSingletonCLE (𝕜 := ℝ) (E := ℝ)).continuous.measurable.comp hF'm).aestronglyMeasurable
  · rw [ae_restrict_iff' measurableSet_Ioc]
    refine ae_of_all _ fun χ hχ s hs => ?_
    rw [Real.norm_eq_abs]
    refine (hs.1 χ (hsub hχ)).trans ?_
    rw [mul_assoc]
    exact mul_le_mul_of_nonneg_left (hs.2.trans (mul_le_mul_of_nonneg_right (le_abs_self c) (norm_nonneg _))) hC0
  · rw [ae_restrict_iff' measurableSet_Ioc]
    exact ae_of_all _ fun χ hχ => (hF' χ (hsub hχ)).hasFDerivAt

/-! ## The radial action -/

/-- `β r² - b r + c`, the factor of the radial potential that does not vanish on the orbit -/
def X (β b c r : ℝ) : ℝ := β * r ^ 2 - b * r + c

/-- integrand of the radial action; the parameters are `m, d, β, b, c` -/
noncomputable def fr (a : ℝ) (z : (Fin 5 → ℝ) × ℝ) : ℝ :=
  z.1 1 ^ 2 * sin z.2 ^ 2 * √(X (z.1 2) (z.1 3) (z.1 4) (z.1 0 - z.1 1 * cos z.2))
    / Spec.Delta a (z.1 0 - z.1 1 * cos z.2)

lemma fr_contDiffAt {a : ℝ} {z : (Fin 5 → ℝ) × ℝ} (hX : 0 < X (z.1 2) (z.1 3) (z.1 4) (z.1 0 - z.1 1 * cos z.2))
    (hD : 0 < Spec.Delta a (z.1 0 - z.1 1 * cos z.2)) : ContDiffAt ℝ 1 (fr a) z := by
  have h : ∀ i, ContDiffAt ℝ 1 (fun z : (Fin 5 → ℝ) × ℝ => z.1 i) z := fun i => by fun_prop
  have hr : ContDiffAt ℝ 1 (fun z : (Fin 5 → ℝ) × ℝ => z.1 0 - z.1 1 * cos z.2) z := by fun_prop
  unfold fr
  refine ContDiffAt.div (ContDiffAt.mul (by fun_prop) (ContDiffAt.sqrt ?_ hX.ne')) ?_ hD.ne'
  · unfold X
    exact ((h 2).mul (hr.pow 2)).sub ((h 3).mul hr) |>.add (h 4)
  · unfold Spec.Delta
    exact ((hr.pow 2).sub (contDiffAt_const.mul hr)).add contDiffAt_const

section radial
variable {a s₀ : ℝ} {m d β b c : ℝ → ℝ} {m' d' β' b' c' : ℝ} (hm : HasDerivAt m m' s₀) (hd : HasDerivAt d d' s₀)
  (hβ : HasDerivAt β β' s₀) (hb : HasDerivAt b b' s₀) (hc : HasDerivAt c c' s₀)
  (hX : ∀ χ, 0 < X (β s₀) (b s₀) (c s₀) (m s₀ - d s₀ * cos χ)) (hD : ∀ χ, 0 < Spec.Delta a (m s₀ - d s₀ * cos χ))
include hm hd hβ hb hc hX hD

/-- The derivative of the integrand is `K + dB/dχ`. -/
lemma fr_deriv (χ : ℝ) :
    HasDerivAt (fun s => fr a (![m s, d s, β s, b s, c s], χ))
      ((d s₀ * (d' - cos χ * m') * X (β s₀) (b s₀) (c s₀) (m s₀ - d s₀ * cos χ)
          + d s₀ ^ 2 * sin χ ^ 2 * X β' b' c' (m s₀ - d s₀ * cos χ) / 2)
          / (Spec.Delta a (m s₀ - d s₀ * cos χ) * √(X (β s₀) (b s₀) (c s₀) (m s₀ - d s₀ * cos χ)))
        + deriv (fun χ => d s₀ * sin χ * √(X (β s₀) (b s₀) (c s₀) (m s₀ - d s₀ * cos χ)) * (m' - d' * cos χ)
            / Spec.Delta a (m s₀ - d s₀ * cos χ)) χ) s₀
    ∧ DifferentiableAt ℝ (fun χ => d s₀ * sin χ * √(X (β s₀) (b s₀) (c s₀) (m s₀ - d s₀ * cos χ)) * (m' - d' * cos χ)
            / Spec.Delta a (m s₀ - d s₀ * cos χ)) χ := by
  have hX0 := hX χ
  have hD0 := hD χ
  have hq := Real.sqrt_pos.mpr hX0
  have hq2 := Real.sq_sqrt hX0.le
  -- in `s`
  have r1 : HasDerivAt (fun s => m s - d s * cos χ) (m' - d' * cos χ) s₀ := hm.sub (hd.mul_const _)
  have x1 : HasDerivAt (fun s => X (β s) (b s) (c s) (m s - d s * cos χ))
      (X β' b' c' (m s₀ - d s₀ * cos χ) + (2 * β s₀ * (m s₀ - d s₀ * cos χ) - b s₀) * (m' - d' * cos χ)) s₀ := by
    unfold X
    exact (((hβ.mul (r1.fun_pow 2)).sub (hb.mul r1)).add hc).congr_deriv (by simp; ring)
  have e1 : HasDerivAt (fun s => Spec.Delta a (m s - d s * cos χ))
      ((2 * (m s₀ - d s₀ * cos χ) - 2) * (m' - d' * cos χ)) s₀ := by
    unfold Spec.Delta
    exact (((r1.fun_pow 2).sub (r1.const_mul 2)).add_const _).congr_deriv (by simp; ring)
  have F1 := ((((hd.fun_pow 2).mul_const (sin χ ^ 2)).mul (x1.sqrt hX0.ne')).div e1 hD0.ne')
  -- in `χ`
  have r2 : HasDerivAt (fun χ => m s₀ - d s₀ * cos χ) (d s₀ * sin χ) χ :=
    (((Real.hasDerivAt_cos χ).const_mul (d s₀)).const_sub (m s₀)).congr_deriv (by ring)
  have x2 : HasDerivAt (fun χ => X (β s₀) (b s₀) (c s₀) (m s₀ - d s₀ * cos χ))
      ((2 * β s₀ * (m s₀ - d s₀ * cos χ) - b s₀) * (d s₀ * sin χ)) χ := by
    unfold X
    exact ((((r2.fun_pow 2).const_mul _).sub (r2.const_mul _)).add_const _).congr_deriv (by simp; ring)
  have e2 : HasDerivAt (fun χ => Spec.Delta a (m s₀ - d s₀ * cos χ))
      ((2 * (m s₀ - d s₀ * cos χ) - 2) * (d s₀ * sin χ)) χ := by
    unfold Spec.Delta
    exact (((r2.fun_pow 2).sub (r2.const_mul 2)).add_const _).congr_deriv (by simp; ring)
  have F2 := (((((Real.hasDerivAt_sin χ).const_mul (d s₀)).mul (x2.sqrt hX0.ne')).mul
    (((Real.hasDerivAt_cos χ).const_mul d').const_sub m')).div e2 hD0.ne')
  refine ⟨?_, F2.differentiableAt⟩
  have F2' := F2.deriv
  rw [show (deriv (fun χ => d s₀ * sin χ * √(X (β s₀) (b s₀) (c s₀) (m s₀ - d s₀ * cos χ)) * (m' - d' * cos χ)
            / Spec.Delta a (m s₀ - d s₀ * cos χ)) χ) = _ from F2']
  refine (F1.congr_deriv ?_).congr_of_eventuallyEq (Eventually.of_forall fun s => ?_)
  · have hs := Real.sin_sq χ
    simp only [Pi.mul_apply]
    generalize X (β s₀) (b s₀) (c s₀) (m s₀ - d s₀ * cos χ) = Y at *
    generalize X β' b' c' (m s₀ - d s₀ * cos χ) = Y' at *
    generalize 2 * β s₀ * (m s₀ - d s₀ * cos χ) - b s₀ = Z at *
    generalize Spec.Delta a (m s₀ - d s₀ * cos χ) = D at *
    generalize 2 * (m s₀ - d s₀ * cos χ) - 2 = W at *
    generalize √Y = q at *
    subst hq2
    generalize sin χ = σ at *
    generalize cos χ = k at *
    generalize d s₀ = d at *
    field_simp
    push_cast
    linear_combination (2 * d * d' * q ^ 2 * D) * hs
  · simp [fr]

/-- Derivative of the radial action. `R s` is the potential along the family. -/
lemma radial_action {R : ℝ → ℝ → ℝ} {R' : ℝ → ℝ} (hR' : ∀ r, HasDerivAt (fun s => R s r) (R' r) s₀)
    (hR : ∀ᶠ s in 𝓝 s₀, 0 ≤ d s ∧ (∀ r ∈ Icc (m s - d s) (m s + d s), 0 < Spec.Delta a r)
      ∧ ∀ r, R s r = (d s ^ 2 - (r - m s) ^ 2) * X (β s) (b s) (c s) r) :
    HasDerivAt (fun s => ∫ r in (m s - d s)..(m s + d s), √(R s r) / Spec.Delta a r)
      (∫ χ in (0:ℝ)..π, R' (m s₀ - d s₀ * cos χ) / (2 * Spec.Delta a (m s₀ - d s₀ * cos χ)
        * √(X (β s₀) (b s₀) (c s₀) (m s₀ - d s₀ * cos χ)))) s₀ := by
  -- the substitution
  have hsub : ∀ᶠ s in 𝓝 s₀, (∫ r in (m s - d s)..(m s + d s), √(R s r) / Spec.Delta a r)
      = ∫ χ in (0:ℝ)..π, fr a (![m s, d s, β s, b s, c s], χ) := by
    filter_upwards [hR] with s hs
    obtain ⟨h0, hΔ, hf⟩ := hs
    have hmem : ∀ χ, m s - d s * cos χ ∈ Icc (m s - d s) (m s + d s) := fun χ => by
      constructor <;> nlinarith [Real.cos_le_one χ, Real.neg_one_le_cos χ]
    have h := integral_comp_mul_deriv' (a := 0) (b := π) (f := fun χ => m s - d s * cos χ) (f' := fun χ => d s * sin χ)
      (g := fun r => √(R s r) / Spec.Delta a r)
      (fun χ _ => (((Real.hasDerivAt_cos χ).const_mul (d s)).const_sub (m s)).congr_deriv (by ring))
      (by fun_prop) (by
        rw [show R s = fun r => (d s ^ 2 - (r - m s) ^ 2) * X (β s) (b s) (c s) r from funext hf]
        refine ContinuousOn.div (Continuous.continuousOn (by unfold X; fun_prop))
          (Continuous.continuousOn (by unfold Spec.Delta; fun_prop)) ?_
        rintro _ ⟨χ, -, rfl⟩
        exact (hΔ _ (hmem χ)).ne')
    simp only [Real.cos_zero, Real.cos_pi, mul_one, mul_neg, sub_neg_eq_add] at h
    rw [← h]
    refine integral_congr fun χ hχ => ?_
    rw [uIcc_of_le pi_pos.le] at hχ
    have hs := Real.sin_nonneg_of_mem_Icc hχ
    simp only [Function.comp, hf]
    rw [show d s ^ 2 - (m s - d s * cos χ - m s) ^ 2 = (d s * sin χ) ^ 2 by
      rw [mul_pow, Real.sin_sq]; ring, Real.sqrt_mul (sq_nonneg _), Real.sqrt_sq (mul_nonneg h0 hs)]
    simp only [fr, Matrix.cons_val]
    ring
  refine HasDerivAt.congr_of_eventuallyEq ?_ hsub
  have hv : HasDerivAt (fun s => ![m s, d s, β s, b s, c s]) ![m', d', β', b', c'] s₀ := by
    rw [hasDerivAt_pi]
    intro i
    fin_cases i <;> simpa
  have hB : ContDiff ℝ 1 (fun χ => d s₀ * sin χ * √(X (β s₀) (b s₀) (c s₀) (m s₀ - d s₀ * cos χ)) * (m' - d' * cos χ)
            / Spec.Delta a (m s₀ - d s₀ * cos χ)) := by
    refine ContDiff.div (((ContDiff.mul (by fun_prop) (ContDiff.sqrt (by unfold X; fun_prop) fun χ => (hX χ).ne'))).mul
      (by fun_prop)) (by unfold Spec.Delta; fun_prop) fun χ => (hD χ).ne'
  have hK : Continuous (fun χ => (d s₀ * (d' - cos χ * m') * X (β s₀) (b s₀) (c s₀) (m s₀ - d s₀ * cos χ)
          + d s₀ ^ 2 * sin χ ^ 2 * X β' b' c' (m s₀ - d s₀ * cos χ) / 2)
          / (Spec.Delta a (m s₀ - d s₀ * cos χ) * √(X (β s₀) (b s₀) (c s₀) (m s₀ - d s₀ * cos χ)))) :=
    Continuous.div (by unfold X; fun_prop) (by unfold X Spec.Delta; fun_prop)
      fun χ => (mul_pos (hD χ) (Real.sqrt_pos.mpr (hX χ))).ne'
  have hdB := hB.continuous_deriv le_rfl
  have key := hasDerivAt_param (f := fr a) hv (fun χ _ => fr_contDiffAt (by simpa using hX χ) (by simpa using hD χ))
    (fun w => by unfold fr X Spec.Delta; fun_prop)
    (fun χ _ => (fr_deriv hm hd hβ hb hc hX hD χ).1) (hK.add hdB).measurable
  refine key.congr_deriv ?_
  rw [integral_add (hK.intervalIntegrable _ _) (hdB.intervalIntegrable _ _),
    integral_deriv_eq_sub (fun χ _ => (fr_deriv hm hd hβ hb hc hX hD χ).2) (hdB.intervalIntegrable _ _)]
  simp only [Real.sin_zero, Real.sin_pi, mul_zero, zero_mul, zero_div, sub_zero, add_zero]
  refine integral_congr fun χ _ => ?_
  -- the potential's derivative
  obtain ⟨r, hr⟩ : ∃ r, r = m s₀ - d s₀ * cos χ := ⟨_, rfl⟩
  have h1 : HasDerivAt (fun s => (d s ^ 2 - (r - m s) ^ 2) * X (β s) (b s) (c s) r)
      ((2 * d s₀ * d' + 2 * (r - m s₀) * m') * X (β s₀) (b s₀) (c s₀) r
        + (d s₀ ^ 2 - (r - m s₀) ^ 2) * X β' b' c' r) s₀ := by
    have hx : HasDerivAt (fun s => X (β s) (b s) (c s) r) (X β' b' c' r) s₀ := by
      unfold X
      exact ((hβ.mul_const _).sub (hb.mul_const _)).add hc
    exact (((hd.fun_pow 2).sub ((hm.const_sub r).fun_pow 2)).mul hx).congr_deriv (by simp)
  have h2 : R' r = _ := (hR' r).unique (h1.congr_of_eventuallyEq (hR.mono fun s hs => hs.2.2 r))
  beta_reduce
  rw [← hr, h2, show r - m s₀ = -(d s₀ * cos χ) by rw [hr]; ring]
  have hs := Real.sin_sq χ
  have hX0 := Real.sqrt_pos.mpr (hX χ)
  have hD0 := hD χ
  rw [← hr] at hX0 hD0
  generalize √(X (β s₀) (b s₀) (c s₀) r) = q at *
  generalize X (β s₀) (b s₀) (c s₀) r = Y at *
  generalize X β' b' c' r = Y' at *
  generalize Spec.Delta a r = D at *
  field_simp
  rw [hs]
  ring

end radial

/-! ## The polar action -/

/-- integrand of the polar action; the parameters are `w, g, h` -/
noncomputable def ft (z : (Fin 3 → ℝ) × ℝ) : ℝ :=
  z.1 0 * sin z.2 ^ 2 * √(z.1 1 - z.1 2 * (z.1 0 * cos z.2 ^ 2)) / (1 - z.1 0 * cos z.2 ^ 2)

lemma ft_contDiffAt {z : (Fin 3 → ℝ) × ℝ} (hX : 0 < z.1 1 - z.1 2 * (z.1 0 * cos z.2 ^ 2))
    (hD : 0 < 1 - z.1 0 * cos z.2 ^ 2) : ContDiffAt ℝ 1 ft z := by
  unfold ft
  exact ContDiffAt.div (ContDiffAt.mul (by fun_prop) (ContDiffAt.sqrt (by fun_prop) hX.ne')) (by fun_prop) hD.ne'

section polar
variable {s₀ : ℝ} {w g h : ℝ → ℝ} {w' g' h' : ℝ} (hw : HasDerivAt w w' s₀) (hg : HasDerivAt g g' s₀)
  (hh : HasDerivAt h h' s₀) (hX : ∀ χ, 0 < g s₀ - h s₀ * (w s₀ * cos χ ^ 2)) (hD : ∀ χ, 0 < 1 - w s₀ * cos χ ^ 2)
include hw hg hh hX hD

lemma ft_deriv (χ : ℝ) :
    HasDerivAt (fun s => ft (![w s, g s, h s], χ))
      ((w' * (g s₀ - h s₀ * (w s₀ * cos χ ^ 2)) + w s₀ * sin χ ^ 2 * (g' - h' * (w s₀ * cos χ ^ 2)))
          / (2 * (1 - w s₀ * cos χ ^ 2) * √(g s₀ - h s₀ * (w s₀ * cos χ ^ 2)))
        + deriv (fun χ => -(w' / 2) * (sin χ * cos χ) * √(g s₀ - h s₀ * (w s₀ * cos χ ^ 2)) / (1 - w s₀ * cos χ ^ 2)) χ) s₀
    ∧ DifferentiableAt ℝ (fun χ => -(w' / 2) * (sin χ * cos χ) * √(g s₀ - h s₀ * (w s₀ * cos χ ^ 2))
        / (1 - w s₀ * cos χ ^ 2)) χ := by
  have hX0 := hX χ
  have hD0 := hD χ
  have hq := Real.sqrt_pos.mpr hX0
  have hq2 := Real.sq_sqrt hX0.le
  -- in `s`
  have v1 : HasDerivAt (fun s => w s * cos χ ^ 2) (w' * cos χ ^ 2) s₀ := hw.mul_const _
  have x1 := hg.sub (hh.mul v1)
  have e1 := v1.const_sub 1
  have F1 := ((hw.mul_const (sin χ ^ 2)).mul (x1.sqrt hX0.ne')).div e1 hD0.ne'
  -- in `χ`
  have v2 : HasDerivAt (fun χ => w s₀ * cos χ ^ 2) (-2 * w s₀ * (sin χ * cos χ)) χ :=
    (((Real.hasDerivAt_cos χ).fun_pow 2).const_mul (w s₀)).congr_deriv (by simp; ring)
  have x2 := (v2.const_mul (h s₀)).const_sub (g s₀)
  have e2 := v2.const_sub 1
  have F2 := ((((Real.hasDerivAt_sin χ).mul (Real.hasDerivAt_cos χ)).const_mul (-(w' / 2))).mul
    (x2.sqrt hX0.ne')).div e2 hD0.ne'
  refine ⟨?_, F2.differentiableAt⟩
  rw [show (deriv (fun χ => -(w' / 2) * (sin χ * cos χ) * √(g s₀ - h s₀ * (w s₀ * cos χ ^ 2)) / (1 - w s₀ * cos χ ^ 2)) χ)
    = _ from F2.deriv]
  refine (F1.congr_deriv ?_).congr_of_eventuallyEq (Eventually.of_forall fun s => ?_)
  · have hs := Real.sin_sq χ
    simp only [Pi.mul_apply, Pi.sub_apply]
    clear F1 F2 e1 e2 x1 x2 v1 v2
    have hqq : g s₀ = √(g s₀ - h s₀ * (w s₀ * cos χ ^ 2)) ^ 2 + h s₀ * (w s₀ * cos χ ^ 2) := by rw [hq2]; ring
    generalize √(g s₀ - h s₀ * (w s₀ * cos χ ^ 2)) = q at *
    rw [hqq]
    have hD1 := hD0.ne'
    generalize 1 - w s₀ * cos χ ^ 2 = D at *
    generalize sin χ = σ at *
    generalize cos χ = k at *
    generalize w s₀ = w at *
    field_simp
    linear_combination (w' * q ^ 2 * D) * hs
  · simp [ft]

/-- Derivative of the polar action. -/
lemma polar_action {Th : ℝ → ℝ → ℝ} {Th' : ℝ → ℝ} (hT' : ∀ θ, 0 < sin θ → HasDerivAt (fun s => Th s θ) (Th' θ) s₀)
    (hT : ∀ᶠ s in 𝓝 s₀, (0 ≤ w s ∧ w s < 1)
      ∧ ∀ θ, 0 < sin θ → Th s θ = (w s - cos θ ^ 2) * (g s - h s * cos θ ^ 2) / sin θ ^ 2) :
    HasDerivAt (fun s => ∫ θ in (arccos √(w s))..(π - arccos √(w s)), √(Th s θ))
      (∫ χ in (0:ℝ)..π, Th' (arccos (√(w s₀) * cos χ)) / (2 * √(g s₀ - h s₀ * (w s₀ * cos χ ^ 2)))) s₀ := by
  have hlt : ∀ s, 0 ≤ w s → w s < 1 → ∀ χ, -1 < √(w s) * cos χ ∧ √(w s) * cos χ < 1
      ∧ (√(w s) * cos χ) ^ 2 = w s * cos χ ^ 2 := by
    intro s h0 h1 χ
    have hz0 := Real.sqrt_nonneg (w s)
    have hz1 : √(w s) < 1 := by rw [Real.sqrt_lt' one_pos]; linarith
    have := Real.cos_le_one χ
    have := Real.neg_one_le_cos χ
    exact ⟨by nlinarith, by nlinarith, by rw [mul_pow, Real.sq_sqrt h0]⟩
  have hsin : ∀ s, 0 ≤ w s → w s < 1 → ∀ χ, 0 < sin (arccos (√(w s) * cos χ))
      ∧ sin (arccos (√(w s) * cos χ)) ^ 2 = 1 - w s * cos χ ^ 2
      ∧ cos (arccos (√(w s) * cos χ)) ^ 2 = w s * cos χ ^ 2 := by
    intro s h0 h1 χ
    obtain ⟨l, u, q⟩ := hlt s h0 h1 χ
    have hp : 0 < 1 - (√(w s) * cos χ) ^ 2 := by nlinarith
    rw [Real.sin_arccos, Real.sq_sqrt hp.le, Real.cos_arccos l.le u.le, q]
    refine ⟨Real.sqrt_pos.mpr (by rw [← q]; exact hp), rfl, rfl⟩
  -- the substitution
  have hsub : ∀ᶠ s in 𝓝 s₀, (∫ θ in (arccos √(w s))..(π - arccos √(w s)), √(Th s θ))
      = ∫ χ in (0:ℝ)..π, ft (![w s, g s, h s], χ) := by
    filter_upwards [hT] with s hs
    obtain ⟨⟨h0, h1⟩, hf⟩ := hs
    have hI := integral_comp_mul_deriv' (a := 0) (b := π) (f := fun χ => arccos (√(w s) * cos χ))
      (f' := fun χ => √(w s) * sin χ / √(1 - (√(w s) * cos χ) ^ 2))
      (g := fun θ => √(Th s θ))
      (fun χ _ => by
        obtain ⟨l, u, -⟩ := hlt s h0 h1 χ
        have := (Real.hasDerivAt_arccos l.ne' u.ne).comp χ ((Real.hasDerivAt_cos χ).const_mul (√(w s)))
        refine this.congr_deriv ?_
        ring)
      (by
        refine ContinuousOn.div (by fun_prop) (by fun_prop) fun χ _ => ?_
        obtain ⟨l, u, -⟩ := hlt s h0 h1 χ
        exact (Real.sqrt_pos.mpr (by nlinarith)).ne')
      (by
        refine ContinuousOn.sqrt (ContinuousOn.congr (f := fun θ => (w s - cos θ ^ 2) * (g s - h s * cos θ ^ 2) / sin θ ^ 2)
          (ContinuousOn.div (by fun_prop) (by fun_prop) ?_) ?_)
        · rintro _ ⟨χ, -, rfl⟩
          exact (pow_pos (hsin s h0 h1 χ).1 2).ne'
        · rintro _ ⟨χ, -, rfl⟩
          exact hf _ (hsin s h0 h1 χ).1)
    simp only [Real.cos_zero, Real.cos_pi, mul_one, mul_neg, Real.arccos_neg] at hI
    rw [← hI]
    refine integral_congr fun χ hχ => ?_
    rw [uIcc_of_le pi_pos.le] at hχ
    have hs := Real.sin_nonneg_of_mem_Icc hχ
    obtain ⟨-, -, q⟩ := hlt s h0 h1 χ
    obtain ⟨k1, k2, k3⟩ := hsin s h0 h1 χ
    simp only [Function.comp, hf _ k1]
    rw [k2, k3, q]
    have hp : 0 < 1 - w s * cos χ ^ 2 := by rw [← k2]; positivity
    rw [show w s - w s * cos χ ^ 2 = w s * sin χ ^ 2 by rw [Real.sin_sq]; ring, mul_div_assoc, Real.sqrt_mul (by positivity),
      Real.sqrt_mul h0, Real.sqrt_sq hs, Real.sqrt_div' _ hp.le]
    simp only [ft, Matrix.cons_val]
    have e1 := Real.sq_sqrt h0
    have e2 := Real.sq_sqrt hp.le
    have e3 := Real.sqrt_pos.mpr hp
    generalize √(g s - h s * (w s * cos χ ^ 2)) = X at *
    generalize √(1 - w s * cos χ ^ 2) = D at *
    rw [← e2]
    generalize √(w s) = z at *
    rw [← e1]
    field_simp
  refine HasDerivAt.congr_of_eventuallyEq ?_ hsub
  have hv : HasDerivAt (fun s => ![w s, g s, h s]) ![w', g', h'] s₀ := by
    rw [hasDerivAt_pi]
    intro i
    fin_cases i <;> simpa
  have hB : ContDiff ℝ 1 (fun χ => -(w' / 2) * (sin χ * cos χ) * √(g s₀ - h s₀ * (w s₀ * cos χ ^ 2))
      / (1 - w s₀ * cos χ ^ 2)) :=
    ContDiff.div ((ContDiff.mul (by fun_prop) (ContDiff.sqrt (by fun_prop) fun χ => (hX χ).ne'))) (by fun_prop)
      fun χ => (hD χ).ne'
  have hK : Continuous (fun χ => (w' * (g s₀ - h s₀ * (w s₀ * cos χ ^ 2))
          + w s₀ * sin χ ^ 2 * (g' - h' * (w s₀ * cos χ ^ 2)))
          / (2 * (1 - w s₀ * cos χ ^ 2) * √(g s₀ - h s₀ * (w s₀ * cos χ ^ 2)))) :=
    Continuous.div (by fun_prop) (by fun_prop)
      fun χ => (mul_pos (mul_pos two_pos (hD χ)) (Real.sqrt_pos.mpr (hX χ))).ne'
  have hdB := hB.continuous_deriv le_rfl
  have key := hasDerivAt_param (f := ft) hv (fun χ _ => ft_contDiffAt (by simpa using hX χ) (by simpa using hD χ))
    (fun w => by unfold ft; fun_prop)
    (fun χ _ => (ft_deriv hw hg hh hX hD χ).1) (hK.add hdB).measurable
  refine key.congr_deriv ?_
  rw [integral_add (hK.intervalIntegrable _ _) (hdB.intervalIntegrable _ _),
    integral_deriv_eq_sub (fun χ _ => (ft_deriv hw hg hh hX hD χ).2) (hdB.intervalIntegrable _ _)]
  simp only [Real.sin_zero, Real.sin_pi, mul_zero, zero_mul, zero_div, sub_zero, add_zero]
  refine integral_congr fun χ _ => ?_
  -- the potential's derivative
  obtain ⟨h0, h1⟩ := hT.self_of_nhds.1
  obtain ⟨k1, k2, k3⟩ := hsin s₀ h0 h1 χ
  obtain ⟨θ, hθ⟩ : ∃ θ, θ = arccos (√(w s₀) * cos χ) := ⟨_, rfl⟩
  rw [← hθ] at k1 k2 k3
  have d1 : HasDerivAt (fun s => (w s - cos θ ^ 2) * (g s - h s * cos θ ^ 2) / sin θ ^ 2)
      ((w' * (g s₀ - h s₀ * cos θ ^ 2) + (w s₀ - cos θ ^ 2) * (g' - h' * cos θ ^ 2)) / sin θ ^ 2) s₀ :=
    ((hw.sub_const _).mul (hg.sub (hh.mul_const _))).div_const _
  have h2 : Th' θ = _ := (hT' θ k1).unique (d1.congr_of_eventuallyEq (hT.mono fun s hs => hs.2 θ k1))
  beta_reduce
  rw [← hθ, h2, k2, k3, div_div, show w s₀ - w s₀ * cos χ ^ 2 = w s₀ * sin χ ^ 2 by rw [Real.sin_sq]; ring]
  congr 1
  ring

end polar

/-! ## Averages -/

/-- The substitution that turns the mean over a half period of an oscillation between `m - d` and `m + d` into an
integral over `χ`. -/
lemma average {m d τ : ℝ} {r S f : ℝ → ℝ} (hd : 0 < d) (hτ : 0 < τ) (hr : Continuous r) (h0 : r 0 = m - d)
    (h1 : r τ = m + d) (hin : ∀ t ∈ Ioo 0 τ, m - d < r t ∧ r t < m + d)
    (hmem : ∀ t, m - d ≤ r t ∧ r t ≤ m + d)
    (hr' : ∀ t ∈ Ioo 0 τ, HasDerivAt r (√(d ^ 2 - (r t - m) ^ 2) * S (r t)) t)
    (hS : ContinuousOn S (Icc (m - d) (m + d))) (hS0 : ∀ y ∈ Icc (m - d) (m + d), 0 < S y)
    (hf : ContinuousOn f (Icc (m - d) (m + d))) :
    ∫ t in (0:ℝ)..τ, f (r t) = ∫ χ in (0:ℝ)..π, f (m - d * cos χ) / S (m - d * cos χ) := by
  have hrc : ∀ t, m - d * cos (arccos ((m - r t) / d)) = r t := fun t => by
    have h1 := (hmem t).1
    have h2 := (hmem t).2
    rw [Real.cos_arccos (by rw [le_div_iff₀ hd]; linarith) (by rw [div_le_iff₀ hd]; linarith)]
    field_simp
    ring
  have hcm : ∀ χ, m - d * cos χ ∈ Icc (m - d) (m + d) := fun χ => by
    constructor <;> nlinarith [Real.cos_le_one χ, Real.neg_one_le_cos χ]
  have h := integral_comp_mul_deriv'' (a := 0) (b := τ) (f := fun t => arccos ((m - r t) / d))
    (f' := fun t => S (r t)) (g := fun χ => f (m - d * cos χ) / S (m - d * cos χ))
    (Continuous.continuousOn (Real.continuous_arccos.comp (by fun_prop))) ?_
    (hS.comp hr.continuousOn fun t _ => hmem t)
    (ContinuousOn.div (hf.comp (by fun_prop) fun χ _ => hcm χ) (hS.comp (by fun_prop) fun χ _ => hcm χ)
      fun χ _ => (hS0 _ (hcm χ)).ne')
  · rw [h0, h1, show (m - (m - d)) / d = 1 by field_simp; ring, show (m - (m + d)) / d = -1 by field_simp; ring,
      Real.arccos_one, Real.arccos_neg_one] at h
    rw [← h]
    refine integral_congr fun t _ => ?_
    simp only [Function.comp, hrc]
    have := (hS0 _ ⟨(hmem t).1, (hmem t).2⟩).ne'
    field_simp
  · rw [min_eq_left hτ.le, max_eq_right hτ.le]
    intro t ht
    obtain ⟨l, u⟩ := hin t ht
    have hl : -1 < (m - r t) / d := by rw [lt_div_iff₀ hd]; linarith
    have hu : (m - r t) / d < 1 := by rw [div_lt_iff₀ hd]; linarith
    refine (((Real.hasDerivAt_arccos hl.ne' hu.ne).comp t (((hr' t ht).const_sub m).div_const d)).congr_deriv
      ?_).hasDerivWithinAt
    have e : √(d ^ 2 - (r t - m) ^ 2) = d * √(1 - ((m - r t) / d) ^ 2) := by
      rw [show d ^ 2 - (r t - m) ^ 2 = d ^ 2 * (1 - ((m - r t) / d) ^ 2) by field_simp; ring,
        Real.sqrt_mul (sq_nonneg _), Real.sqrt_sq hd.le]
    rw [e]
    have hq : 0 < √(1 - ((m - r t) / d) ^ 2) := Real.sqrt_pos.mpr (by nlinarith)
    generalize √(1 - ((m - r t) / d) ^ 2) = q at *
    field_simp
    

end Action

end KGP
