import Mathlib.Analysis.Calculus.Deriv.Pow
import Mathlib.Analysis.Calculus.FDeriv.Extend
import Mathlib.Analysis.SpecialFunctions.Sqrt
import Mathlib.Analysis.SpecialFunctions.Trigonometric.Deriv
import Mathlib.Data.Real.Sign

/-!
# From a first integral to the second-order equation

If `f' = v` and `v² = P(f)` then `v' = P'(f)/2`, also at the turning points, provided these are isolated.
-/

namespace KGP

open Real Filter Topology

section
variable {f v P P' : ℝ → ℝ} (hP : ∀ l, HasDerivAt P (P' (f l)) (f l)) (hf : ∀ l, HasDerivAt f (v l) l)
  (hv2 : ∀ l, v l ^ 2 = P (f l)) (hvc : Continuous v)
include hP hf hv2 hvc

lemma hasDerivAt_of_sq_ne {l : ℝ} (h0 : v l ≠ 0) : HasDerivAt v (P' (f l) / 2) l := by
  have hPf : HasDerivAt (fun y => P (f y)) (P' (f l) * v l) l := (hP l).comp l (hf l)
  have hpos : 0 < v l ^ 2 := by positivity
  have hne : P (f l) ≠ 0 := by rw [← hv2]; exact hpos.ne'
  have hs := hPf.sqrt hne
  have hsq : √(P (f l)) = |v l| := by rw [← hv2, Real.sqrt_sq_eq_abs]
  rcases lt_or_gt_of_ne h0 with h | h
  · have hev : ∀ᶠ y in 𝓝 l, v y < 0 := hvc.continuousAt.eventually_lt continuousAt_const h
    have : v =ᶠ[𝓝 l] fun y => -√(P (f y)) := by
      filter_upwards [hev] with y hy
      rw [← hv2, Real.sqrt_sq_eq_abs, abs_of_neg hy, neg_neg]
    refine (hs.neg.congr_of_eventuallyEq this).congr_deriv ?_
    rw [hsq, abs_of_neg h]; field_simp
  · have hev : ∀ᶠ y in 𝓝 l, 0 < v y := continuousAt_const.eventually_lt hvc.continuousAt h
    have : v =ᶠ[𝓝 l] fun y => √(P (f y)) := by
      filter_upwards [hev] with y hy
      rw [← hv2, Real.sqrt_sq_eq_abs, abs_of_pos hy]
    refine (hs.congr_of_eventuallyEq this).congr_deriv ?_
    rw [hsq, abs_of_pos h]; field_simp

lemma hasDerivAt_of_sq (hP' : ∀ l, ContinuousAt P' (f l))
    (hz : (∀ l, v l = 0 ∧ P' (f l) = 0) ∨ ∀ l, ∀ᶠ y in 𝓝[≠] l, v y ≠ 0) (l : ℝ) :
    HasDerivAt v (P' (f l) / 2) l := by
  rcases hz with hz | hz
  · have : v = fun _ => 0 := funext fun y => (hz y).1
    rw [(hz l).2, this]
    simpa using hasDerivAt_const l (0:ℝ)
  · by_cases h0 : v l = 0
    · have hev := hz l
      have hcont : ContinuousAt (fun y => P' (f y) / 2) l :=
        ((hP' l).comp (f := f) (hf l).continuousAt).div_const 2
      have hd : ∀ᶠ y in 𝓝[≠] l, HasDerivAt v (P' (f y) / 2) y := by
        filter_upwards [hev] with y hy using hasDerivAt_of_sq_ne hP hf hv2 hvc hy
      have hlim : Tendsto (deriv v) (𝓝[≠] l) (𝓝 (P' (f l) / 2)) := by
        refine (hcont.tendsto.mono_left nhdsWithin_le_nhds).congr' ?_
        filter_upwards [hd] with y hy using hy.deriv.symm
      have hgt : 𝓝[>] l ≤ 𝓝[≠] l := nhdsWithin_mono _ fun y hy => ne_of_gt hy
      have hlt : 𝓝[<] l ≤ 𝓝[≠] l := nhdsWithin_mono _ fun y hy => ne_of_lt hy
      have h1 := hasDerivWithinAt_Ici_of_tendsto_deriv (f := v) (a := l) (e := P' (f l) / 2)
        (s := {y | HasDerivAt v (P' (f y) / 2) y})
        (fun y hy => hy.differentiableAt.differentiableWithinAt)
        hvc.continuousAt.continuousWithinAt (hd.filter_mono hgt) (hlim.mono_left hgt)
      have h2 := hasDerivWithinAt_Iic_of_tendsto_deriv (f := v) (a := l) (e := P' (f l) / 2)
        (s := {y | HasDerivAt v (P' (f y) / 2) y})
        (fun y hy => hy.differentiableAt.differentiableWithinAt)
        hvc.continuousAt.continuousWithinAt (hd.filter_mono hlt) (hlim.mono_left hlt)
      have := h2.union h1
      rwa [Set.Iic_union_Ici, hasDerivWithinAt_univ] at this
    · exact hasDerivAt_of_sq_ne hP hf hv2 hvc h0

end

/-- Zeros of a sine of a non-constant affine function are isolated. -/
lemma eventually_sin_ne {u q : ℝ} (hu : u ≠ 0) (l : ℝ) : ∀ᶠ y in 𝓝[≠] l, sin (u * y + q) ≠ 0 := by
  have hd : HasDerivAt (fun y => sin (u * y + q)) (cos (u * l + q) * u) l := by
    have : HasDerivAt (fun y => u * y + q) u l := by
      simpa using ((hasDerivAt_id l).const_mul u).add_const q
    exact this.sin
  by_cases h : sin (u * l + q) = 0
  · have hc : cos (u * l + q) ≠ 0 := by
      intro hc
      have := Real.sin_sq_add_cos_sq (u * l + q)
      rw [h, hc] at this; norm_num at this
    have := hd.eventually_ne (c := (0:ℝ)) (mul_ne_zero hc hu)
    exact this
  · exact (hd.continuousAt.eventually_ne h).filter_mono nhdsWithin_le_nhds

section
variable {f P P' : ℝ → ℝ} {u q : ℝ} (hu : u ≠ 0)
  (hf : ∀ l, HasDerivAt f (Real.sign (sin (u * l + q)) * √(P (f l))) l)
  (hpos : ∀ l, 0 ≤ P (f l)) (hturn : ∀ l, sin (u * l + q) = 0 → P (f l) = 0)
  (hP : ∀ l, HasDerivAt P (P' (f l)) (f l))
include hf hpos hturn hP

omit hf hP in
lemma velocity_sq (l : ℝ) : (Real.sign (sin (u * l + q)) * √(P (f l))) ^ 2 = P (f l) := by
  rw [mul_pow, Real.sq_sqrt (hpos l)]
  rcases lt_trichotomy (sin (u * l + q)) 0 with h | h | h
  · rw [Real.sign_of_neg h]; ring
  · rw [hturn l h]; ring
  · rw [Real.sign_of_pos h]; ring

omit hpos in
lemma velocity_continuous : Continuous fun l => Real.sign (sin (u * l + q)) * √(P (f l)) := by
  have hc : Continuous fun l => √(P (f l)) := by
    refine continuous_iff_continuousAt.mpr fun l => ?_
    exact (((hP l).continuousAt).comp (f := f) (hf l).continuousAt).sqrt
  have hs : Continuous fun l => sin (u * l + q) := by fun_prop
  refine continuous_iff_continuousAt.mpr fun l => ?_
  rcases lt_trichotomy (sin (u * l + q)) 0 with h | h | h
  · have : (fun l => Real.sign (sin (u * l + q)) * √(P (f l))) =ᶠ[𝓝 l] fun l => -√(P (f l)) := by
      filter_upwards [hs.continuousAt.eventually_lt continuousAt_const h] with y hy
      rw [Real.sign_of_neg hy]; ring
    exact (hc.neg.continuousAt).congr this.symm
  · have h0 : √(P (f l)) = 0 := by rw [hturn l h, Real.sqrt_zero]
    have : Tendsto (fun l => √(P (f l))) (𝓝 l) (𝓝 0) := by
      have := hc.continuousAt (x := l); rwa [ContinuousAt, h0] at this
    have hb : Tendsto (fun l => Real.sign (sin (u * l + q)) * √(P (f l))) (𝓝 l) (𝓝 0) := by
      refine squeeze_zero_norm (fun y => ?_) this
      rw [norm_mul, Real.norm_eq_abs, Real.norm_eq_abs, abs_of_nonneg (Real.sqrt_nonneg _)]
      have : |Real.sign (sin (u * y + q))| ≤ 1 := by
        rcases Real.sign_apply_eq (sin (u * y + q)) with h | h | h <;> rw [h] <;> norm_num
      exact mul_le_of_le_one_left (Real.sqrt_nonneg _) this
    rw [ContinuousAt, h0, mul_zero]; exact hb
  · have : (fun l => Real.sign (sin (u * l + q)) * √(P (f l))) =ᶠ[𝓝 l] fun l => √(P (f l)) := by
      filter_upwards [continuousAt_const.eventually_lt hs.continuousAt h] with y hy
      rw [Real.sign_of_pos hy]; ring
    exact hc.continuousAt.congr this.symm

include hu in
/-- The velocity has derivative `P'(f)/2`: either the motion is at an equilibrium, or `P > 0` away from
the turning points. -/
lemma velocity_deriv (hP' : ∀ l, ContinuousAt P' (f l))
    (hz : (∀ l, P (f l) = 0 ∧ P' (f l) = 0) ∨ ∀ l, sin (u * l + q) ≠ 0 → P (f l) ≠ 0) (l : ℝ) :
    HasDerivAt (fun l => Real.sign (sin (u * l + q)) * √(P (f l))) (P' (f l) / 2) l := by
  refine hasDerivAt_of_sq hP hf (velocity_sq hpos hturn) (velocity_continuous hf hturn hP) hP' ?_ l
  rcases hz with hz | hz
  · left; intro y; rw [(hz y).1]; simp [(hz y).2]
  · right; intro y
    filter_upwards [eventually_sin_ne (q := q) hu y] with s hs
    have h1 : 0 < P (f s) := lt_of_le_of_ne (hpos s) (hz s hs).symm
    exact mul_ne_zero (by simpa [Real.sign_eq_zero_iff] using hs) (Real.sqrt_pos.mpr h1).ne'

end

end KGP
