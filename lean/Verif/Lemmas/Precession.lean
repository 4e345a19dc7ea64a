import Verif.Props.Future

/-!
# Inequalities between the frequencies of a bound orbit
-/

namespace KGP

open Classical Real

/-! ## complete elliptic integrals -/

lemma cont_K {m : ℝ} (hm : m < 1) : Continuous fun t => 1 / √(1 - m * sin t ^ 2) := by
  refine Continuous.div continuous_const (by fun_prop) fun t => ?_
  exact (Real.sqrt_pos.mpr (one_sub_mul_sin_sq_pos hm t)).ne'

lemma cont_Pi {n m : ℝ} (hn : n < 1) (hm : m < 1) :
    Continuous fun t => 1 / ((1 - n * sin t ^ 2) * √(1 - m * sin t ^ 2)) := by
  refine Continuous.div continuous_const (by fun_prop) fun t => ?_
  exact mul_ne_zero (one_sub_mul_sin_sq_pos hn t).ne' (Real.sqrt_pos.mpr (one_sub_mul_sin_sq_pos hm t)).ne'

lemma ellipk_ge {m : ℝ} (h0 : 0 ≤ m) (hm : m < 1) : π / 2 ≤ ellipk m := by
  have h : ∫ _ in (0:ℝ)..(π / 2), (1:ℝ) ≤ ellipk m := by
    unfold ellipk
    refine intervalIntegral.integral_mono_on (by positivity) (by simp) ((cont_K hm).intervalIntegrable _ _) fun t _ => ?_
    have h1 := one_sub_mul_sin_sq_pos hm t
    rw [le_div_iff₀ (Real.sqrt_pos.mpr h1), one_mul]
    refine Real.sqrt_le_one.mpr ?_
    have : 0 ≤ m * sin t ^ 2 := by positivity
    linarith
  simpa using h

lemma ellipk_le {m : ℝ} (h0 : 0 ≤ m) (hm : m < 1) : ellipk m * √(1 - m) ≤ π / 2 := by
  have hs : 0 < √(1 - m) := Real.sqrt_pos.mpr (by linarith)
  have h : ellipk m ≤ ∫ _ in (0:ℝ)..(π / 2), 1 / √(1 - m) := by
    unfold ellipk
    refine intervalIntegral.integral_mono_on (by positivity) ((cont_K hm).intervalIntegrable _ _) (by simp) fun t _ => ?_
    refine one_div_le_one_div_of_le hs (Real.sqrt_le_sqrt ?_)
    nlinarith [Real.sin_sq_le_one t]
  rw [intervalIntegral.integral_const, smul_eq_mul, sub_zero] at h
  calc ellipk m * √(1 - m) ≤ π / 2 * (1 / √(1 - m)) * √(1 - m) := by gcongr
    _ = π / 2 := by field_simp

/-- Upper and lower bounds of the complete integral of the third kind with `m = n u`. -/
lemma pi_bounds {n u : ℝ} (n0 : 0 ≤ n) (n1 : n < 1) (u0 : 0 ≤ u) (u1 : u < 1) :
    √(1 - u) * ellippiK n (n * u) ≤ π / (2 * √(1 - n))
    ∧ π / (2 * √(1 - n)) - √(1 - u) * ellippiK n (n * u) ≤ u / ((2 - u) * √(1 - n * u)) * ellipk (n * u) := by
  have hm : n * u < 1 := by nlinarith
  have hsu : 0 < √(1 - u) := Real.sqrt_pos.mpr (by linarith)
  have hsu2 : √(1 - u) ^ 2 = 1 - u := Real.sq_sqrt (by linarith)
  have hsu1 : 1 - u ≤ √(1 - u) := by
    refine Real.le_sqrt_of_sq_le ?_
    nlinarith
  have e0 : π / (2 * √(1 - n)) = ∫ t in (0:ℝ)..(π / 2), 1 / (1 - n * sin t ^ 2) := by
    rw [← ellippiK_zero n1, ellippiK_eq n1 zero_lt_one]
    unfold Spec.Pi
    simp
  have e1 : √(1 - u) * ellippiK n (n * u)
      = ∫ t in (0:ℝ)..(π / 2), √(1 - u) * (1 / ((1 - n * sin t ^ 2) * √(1 - n * u * sin t ^ 2))) := by
    rw [ellippiK_eq n1 hm, intervalIntegral.integral_const_mul]; rfl
  have c0 : Continuous fun t => 1 / (1 - n * sin t ^ 2) :=
    Continuous.div continuous_const (by fun_prop) fun t => (one_sub_mul_sin_sq_pos n1 t).ne'
  have c1 := (cont_Pi n1 hm).const_mul (√(1 - u))
  have key : ∀ t, √(1 - u) ≤ √(1 - n * u * sin t ^ 2) := fun t => Real.sqrt_le_sqrt (by
    have h1 : n * sin t ^ 2 ≤ 1 := by nlinarith [Real.sin_sq_le_one t, sq_nonneg (sin t)]
    nlinarith)
  constructor
  · rw [e0, e1]
    refine intervalIntegral.integral_mono_on (by positivity) (c1.intervalIntegrable _ _) (c0.intervalIntegrable _ _)
      fun t _ => ?_
    have h1 := one_sub_mul_sin_sq_pos n1 t
    have h2 := Real.sqrt_pos.mpr (one_sub_mul_sin_sq_pos hm t)
    have h3 := key t
    rw [mul_one_div, div_le_div_iff₀ (by positivity) h1]
    nlinarith
  · rw [e0, e1, ← intervalIntegral.integral_sub (c0.intervalIntegrable _ _) (c1.intervalIntegrable _ _)]
    unfold ellipk
    rw [← intervalIntegral.integral_const_mul]
    refine intervalIntegral.integral_mono_on (by positivity) ((c0.sub c1).intervalIntegrable _ _)
      (((cont_K hm).const_mul _).intervalIntegrable _ _) fun t _ => ?_
    have h1 := one_sub_mul_sin_sq_pos n1 t
    have h2 := Real.sqrt_pos.mpr (one_sub_mul_sin_sq_pos hm t)
    have h2s : √(1 - n * u * sin t ^ 2) ^ 2 = 1 - n * u * sin t ^ 2 := Real.sq_sqrt (one_sub_mul_sin_sq_pos hm t).le
    have h3 := key t
    have h4 : √(1 - n * u) ≤ √(1 - n * u * sin t ^ 2) := Real.sqrt_le_sqrt (by
      have : 0 ≤ n * u := by positivity
      nlinarith [Real.sin_sq_le_one t])
    have h5 : 0 < √(1 - n * u) := Real.sqrt_pos.mpr (by linarith)
    have h6 : √(1 - n * u * sin t ^ 2) ≤ 1 := Real.sqrt_le_one.mpr (by
      have : 0 ≤ n * u * sin t ^ 2 := by positivity
      linarith)
    have h7 : (√(1 - n * u * sin t ^ 2) - √(1 - u)) * (√(1 - n * u * sin t ^ 2) + √(1 - u))
        = u * (1 - n * sin t ^ 2) := by linear_combination h2s - hsu2
    generalize √(1 - n * u * sin t ^ 2) = d at *
    generalize √(1 - n * u) = d1 at *
    generalize √(1 - u) = v at *
    generalize 1 - n * sin t ^ 2 = w at *
    have hden : 0 < d + v := by positivity
    have e : 1 / w - v * (1 / (w * d)) = u / ((d + v) * d) := by
      have : w ≠ 0 := h1.ne'
      field_simp
      linear_combination h7
    have e' : u / ((2 - u) * d1) * (1 / d) = u / (((2 - u) * d1) * d) := by
      field_simp
    rw [e, e']
    have h2u : 0 < 2 - u := by linarith
    gcongr
    -- (2 - u) d1 ≤ d + v
    nlinarith

/-- A function with bounded oscillation whose velocity is `g - c` with `g ≥ k` has `c ≥ k`. -/
lemma mean_ge {f g : ℝ → ℝ} {c k B : ℝ} (hB : ∀ l, |f l| ≤ B) (hd : ∀ l, HasDerivAt f (g l - c) l)
    (hg : ∀ l, k ≤ g l) : k ≤ c := by
  by_contra hcon
  push Not at hcon
  have hB0 : 0 ≤ B := le_trans (abs_nonneg _) (hB 0)
  obtain ⟨s, hs⟩ : ∃ s, s = k - c := ⟨_, rfl⟩
  have hs0 : 0 < s := by linarith
  have hlam : 0 < (2 * B + 1) / s := by positivity
  have hdiff : Differentiable ℝ f := fun l => (hd l).differentiableAt
  have hmv := Convex.mul_sub_le_image_sub_of_le_deriv (D := Set.univ) convex_univ hdiff.continuous.continuousOn
      (by rw [interior_univ]; exact hdiff.differentiableOn) (fun y _ => by
        rw [(hd y).deriv]
        show s ≤ _
        linarith [hg y])
      0 (Set.mem_univ _) ((2 * B + 1) / s) (Set.mem_univ _) hlam.le
  have h1 := abs_le.mp (hB ((2 * B + 1) / s))
  have h2 := abs_le.mp (hB 0)
  have h3 : s * ((2 * B + 1) / s) = 2 * B + 1 := by field_simp
  rw [sub_zero, h3] at hmv
  linarith

end KGP
