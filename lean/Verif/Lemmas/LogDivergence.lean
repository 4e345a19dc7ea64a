import Verif.Spec.Kerr
import Mathlib.Analysis.SpecialFunctions.Log.Deriv
import Mathlib.Analysis.Calculus.Deriv.MeanValue
import Mathlib.Analysis.Calculus.Deriv.Slope
import Mathlib.Analysis.Calculus.Deriv.Inverse

/-!
# Logarithmic divergence at a simple pole of the derivative
-/

namespace KGP

open Real Filter Topology

lemma log_div_right {f f' : ℝ → ℝ} {l0 c : ℝ} (hc : c < 0) (hf : ∀ᶠ l in 𝓝[>] l0, HasDerivAt f (f' l) l)
    (hl : Tendsto (fun l => f' l * (l - l0)) (𝓝[>] l0) (𝓝 c)) : Tendsto f (𝓝[>] l0) atTop := by
  have h1 : ∀ᶠ l in 𝓝[>] l0, f' l * (l - l0) < c / 2 := hl.eventually (Iio_mem_nhds (by linarith))
  obtain ⟨u, hu, hu2⟩ := mem_nhdsGT_iff_exists_Ioo_subset.mp (hf.and h1)
  have hu : l0 < u := hu
  obtain ⟨b, hb⟩ : ∃ b, b = (l0 + u) / 2 := ⟨_, rfl⟩
  have hb1 : l0 < b := by linarith
  have hb2 : b < u := by linarith
  -- `f - (c/2) log (l - l0)` decreases
  have key : ∀ l, l0 < l → l < b → f b - c / 2 * log (b - l0) + c / 2 * log (l - l0) ≤ f l := by
    intro l h1 h2
    have hd : ∀ y ∈ Set.Icc l b, HasDerivAt (fun y => f y - c / 2 * log (y - l0)) (f' y - c / 2 * (1 / (y - l0))) y := by
      intro y hy
      obtain ⟨k1, -⟩ := hu2 (show y ∈ Set.Ioo l0 u from ⟨by linarith [hy.1], by linarith [hy.2]⟩)
      have hy0 : y - l0 ≠ 0 := by linarith [hy.1]
      have := ((hasDerivAt_id y).sub_const l0).log hy0
      exact k1.sub (this.const_mul (c / 2))
    have hanti : AntitoneOn (fun y => f y - c / 2 * log (y - l0)) (Set.Icc l b) := by
      refine antitoneOn_of_deriv_nonpos (convex_Icc l b) (fun y hy => (hd y hy).continuousAt.continuousWithinAt)
        (fun y hy => (hd y (interior_subset hy)).differentiableAt.differentiableWithinAt) fun y hy => ?_
      have hy' := interior_subset hy
      rw [(hd y hy').deriv]
      obtain ⟨-, k2⟩ := hu2 (show y ∈ Set.Ioo l0 u from ⟨by linarith [hy'.1], by linarith [hy'.2]⟩)
      have hy0 : 0 < y - l0 := by linarith [hy'.1]
      have : f' y < c / 2 * (1 / (y - l0)) := by
        rw [mul_one_div, lt_div_iff₀ hy0]; exact k2
      linarith
    have := hanti (Set.left_mem_Icc.mpr h2.le) (Set.right_mem_Icc.mpr h2.le) h2.le
    simp only at this
    linarith
  have hlog : Tendsto (fun l => log (l - l0)) (𝓝[>] l0) atBot := by
    refine Real.tendsto_log_nhdsGT_zero.comp ?_
    refine tendsto_nhdsWithin_iff.mpr ⟨?_, ?_⟩
    · have : Tendsto (fun l => l - l0) (𝓝 l0) (𝓝 (l0 - l0)) := (continuous_id.sub continuous_const).tendsto l0
      rw [sub_self] at this
      exact this.mono_left nhdsWithin_le_nhds
    · filter_upwards [self_mem_nhdsWithin] with l hl
      have : l0 < l := hl
      show 0 < l - l0
      linarith
  refine tendsto_atTop_mono' _ ?_ (tendsto_atTop_add_const_left _ (f b - c / 2 * log (b - l0))
    (hlog.const_mul_atBot_of_neg (show c / 2 < 0 by linarith)))
  filter_upwards [Ioo_mem_nhdsGT hb1] with l hl
  exact key l hl.1 hl.2

/-- If `f'(l) (l - l0)` tends to a negative number, `f` tends to `+∞` on both sides. -/
lemma log_div {f f' : ℝ → ℝ} {l0 c : ℝ} (hc : c < 0) (hf : ∀ᶠ l in 𝓝[≠] l0, HasDerivAt f (f' l) l)
    (hl : Tendsto (fun l => f' l * (l - l0)) (𝓝[≠] l0) (𝓝 c)) : Tendsto f (𝓝[≠] l0) atTop := by
  rw [punctured_nhds_eq_nhdsWithin_sup_nhdsWithin] at *
  rw [tendsto_sup] at *
  rw [eventually_sup] at hf
  refine ⟨?_, log_div_right hc hf.2 hl.2⟩
  have refl : Tendsto (fun l => 2 * l0 - l) (𝓝[>] l0) (𝓝[<] l0) := by
    refine tendsto_nhdsWithin_iff.mpr ⟨?_, ?_⟩
    · have : Tendsto (fun l => 2 * l0 - l) (𝓝 l0) (𝓝 (2 * l0 - l0)) := (continuous_const.sub continuous_id).tendsto l0
      rw [show 2 * l0 - l0 = l0 by ring] at this
      exact this.mono_left nhdsWithin_le_nhds
    · filter_upwards [self_mem_nhdsWithin] with l hl
      have : l0 < l := hl
      show 2 * l0 - l < l0
      linarith
  have refl' : Tendsto (fun l => 2 * l0 - l) (𝓝[<] l0) (𝓝[>] l0) := by
    refine tendsto_nhdsWithin_iff.mpr ⟨?_, ?_⟩
    · have : Tendsto (fun l => 2 * l0 - l) (𝓝 l0) (𝓝 (2 * l0 - l0)) := (continuous_const.sub continuous_id).tendsto l0
      rw [show 2 * l0 - l0 = l0 by ring] at this
      exact this.mono_left nhdsWithin_le_nhds
    · filter_upwards [self_mem_nhdsWithin] with l hl
      have : l < l0 := hl
      show l0 < 2 * l0 - l
      linarith
  have h := log_div_right (f := fun l => f (2 * l0 - l)) (f' := fun l => -f' (2 * l0 - l)) (l0 := l0) hc ?_ ?_
  · refine (h.comp refl').congr fun l => ?_
    simp only [Function.comp_apply]
    congr 1; ring
  · filter_upwards [refl.eventually hf.1] with l hl
    have := hl.comp l ((hasDerivAt_id l).const_sub (2 * l0))
    exact this.congr_deriv (by ring)
  · refine (hl.1.comp refl).congr fun l => ?_
    simp only [Function.comp_apply]
    ring

/-- ... and to `-∞` if it is positive. -/
lemma log_div_neg {f f' : ℝ → ℝ} {l0 c : ℝ} (hc : 0 < c) (hf : ∀ᶠ l in 𝓝[≠] l0, HasDerivAt f (f' l) l)
    (hl : Tendsto (fun l => f' l * (l - l0)) (𝓝[≠] l0) (𝓝 c)) : Tendsto f (𝓝[≠] l0) atBot := by
  have := log_div (f := fun l => -f l) (f' := fun l => -f' l) (neg_lt_zero.mpr hc)
    (hf.mono fun l h => h.neg) (by simpa only [neg_mul] using hl.neg)
  exact (tendsto_neg_atTop_atBot.comp this).congr fun l => by simp

/-- Residues of `dt/dλ` and `dφ/dλ` where a curve crosses a horizon. -/
lemma residues {a E L h d l0 : ℝ} {r θ : ℝ → ℝ} (ha1 : a ^ 2 < 1) (hD : Spec.Delta a h = 0) (hr0 : r l0 = h)
    (hd : HasDerivAt r d l0) (hd0 : d ≠ 0) (hθ : ContinuousAt θ l0) (hs : sin (θ l0) ≠ 0) :
    Tendsto (fun l => Spec.dtdlam a E L (r l) (θ l) * (l - l0)) (𝓝[≠] l0)
      (𝓝 ((h ^ 2 + a ^ 2) * (E * (h ^ 2 + a ^ 2) - a * L) / (2 * (d * (h - 1)))))
    ∧ Tendsto (fun l => Spec.dphidlam a E L (r l) (θ l) * (l - l0)) (𝓝[≠] l0)
      (𝓝 (a * (E * (h ^ 2 + a ^ 2) - a * L) / (2 * (d * (h - 1))))) := by
  have hh1 : h - 1 ≠ 0 := by
    intro hh
    have : h = 1 := by linarith
    rw [this] at hD
    unfold Spec.Delta at hD
    nlinarith
  have hcr : ContinuousAt r l0 := hd.continuousAt
  have hlim : Tendsto (fun l => (l - l0) / Spec.Delta a (r l)) (𝓝[≠] l0) (𝓝 (1 / (d * (2 * (h - 1))))) := by
    have hslope := hasDerivAt_iff_tendsto_slope.mp hd
    have h2 : Tendsto (fun l => r l - (2 - h)) (𝓝[≠] l0) (𝓝 (2 * (h - 1))) := by
      have : Tendsto (fun l => r l - (2 - h)) (𝓝 l0) (𝓝 (r l0 - (2 - h))) := (hcr.sub continuousAt_const).tendsto
      rw [hr0, show h - (2 - h) = 2 * (h - 1) by ring] at this
      exact this.mono_left nhdsWithin_le_nhds
    have h3 := (hslope.mul h2).inv₀ (mul_ne_zero hd0 (mul_ne_zero two_ne_zero hh1))
    rw [← one_div] at h3
    refine h3.congr' ?_
    filter_upwards [self_mem_nhdsWithin] with l hl
    have hl' : l - l0 ≠ 0 := sub_ne_zero.mpr hl
    have e1 : Spec.Delta a (r l) = (r l - h) * (r l - (2 - h)) := by
      unfold Spec.Delta at *; linear_combination hD
    rw [slope_def_field, hr0, e1]
    rw [div_mul_eq_mul_div, inv_div]
  have hz : Tendsto (fun l : ℝ => l - l0) (𝓝[≠] l0) (𝓝 0) := by
    have : Tendsto (fun l : ℝ => l - l0) (𝓝 l0) (𝓝 (l0 - l0)) := (continuous_id.sub continuous_const).tendsto l0
    rw [sub_self] at this
    exact this.mono_left nhdsWithin_le_nhds
  have cr : ∀ {g : ℝ → ℝ}, ContinuousAt g l0 → Tendsto g (𝓝[≠] l0) (𝓝 (g l0)) := fun hg =>
    hg.tendsto.mono_left nhdsWithin_le_nhds
  have cs : ContinuousAt (fun l => sin (θ l)) l0 := Real.continuous_sin.continuousAt.comp hθ
  constructor
  · have t1 := cr (g := fun l => (r l ^ 2 + a ^ 2) * (E * (r l ^ 2 + a ^ 2) - a * L)) (by fun_prop)
    have t2 := cr (g := fun l => a * (a * E * sin (θ l) ^ 2 - L)) (by fun_prop)
    have := (t1.mul hlim).sub (t2.mul hz)
    simp only [hr0, mul_zero, sub_zero] at this
    rw [mul_one_div, show d * (2 * (h - 1)) = 2 * (d * (h - 1)) by ring] at this
    refine this.congr fun l => ?_
    unfold Spec.dtdlam
    ring
  · have t1 := cr (g := fun l => a * (E * (r l ^ 2 + a ^ 2) - a * L)) (by fun_prop)
    have t2 := cr (g := fun l => a * E - L / sin (θ l) ^ 2)
      (continuousAt_const.sub (continuousAt_const.div (cs.pow 2) (pow_ne_zero 2 hs)))
    have := (t1.mul hlim).sub (t2.mul hz)
    simp only [hr0, mul_zero, sub_zero] at this
    rw [mul_one_div, show d * (2 * (h - 1)) = 2 * (d * (h - 1)) by ring] at this
    refine this.congr fun l => ?_
    unfold Spec.dphidlam
    ring

end KGP
