import Verif.Props.ClosedForms

/-!
# C22: the hypothesis `E (r₊² + a²) ≠ a L` cannot be dropped
-/

namespace KGP

open Classical Real

/-- **C22 (violated on isolated orbits).** For every spin `0 < a ≤ 3/4` there is an accepted, stable, prograde circular
equatorial orbit with `p > 12` for which the third radial root is exactly the outer horizon radius.
`phi_frequency`, `gamma` and `radial_solutions` divide by `r3 - r₊` (and multiply by `E(r₊²+a²) - aL`), so for it they compute `0/0`. -/
theorem C22_horizon_root_violation (rs : RootScalar) (a : ℝ) (ha : 0 < a) (ha1 : a ≤ 3 / 4) :
    ∃ p E L r3 r4, 12 < p ∧ Spec.BoundOrbit rs a p 0 1 ∧ constantsOfMotion rs a p 0 1 = .ok (E, L, 0)
      ∧ stableRadialRoots rs a p 0 1 = .ok (p, p, r3, r4)
      ∧ E * ((1 + √(1 - a ^ 2)) ^ 2 + a ^ 2) - a * L = 0 ∧ r3 - (1 + √(1 - a ^ 2)) = 0
      ∧ (mkStableOrbit rs a p 0 1).Returns := by
  have hs2 : √(1 - a ^ 2) ^ 2 = 1 - a ^ 2 := Real.sq_sqrt (by nlinarith)
  have hs0 : 33 / 50 ≤ √(1 - a ^ 2) := by
    apply Real.le_sqrt_of_sq_le
    nlinarith
  have hs1 : √(1 - a ^ 2) ≤ 1 := by
    rw [Real.sqrt_le_one]
    nlinarith
  generalize hsq : √(1 - a ^ 2) = s at *
  obtain ⟨g, hg⟩ : ∃ g : ℝ → ℝ, g = fun w => 2 * (1 + s) * (w ^ 4 - 2 * w ^ 2 + a * w) - a * w * (w ^ 4 - 2 * a * w + a ^ 2) :=
    ⟨_, rfl⟩
  have hcont : Continuous g := by rw [hg]; fun_prop
  have h13 : (18 / 5 : ℝ) ≤ 10 / a := by rw [le_div_iff₀ ha]; linarith
  have hlo : 0 ≤ g (18 / 5) := by
    rw [hg]
    nlinarith [mul_pos ha ha, mul_nonneg ha.le (by linarith : 0 ≤ 3 / 4 - a), mul_nonneg (mul_pos ha ha).le (by linarith : 0 ≤ 3 / 4 - a)]
  have hhi : g (10 / a) ≤ 0 := by
    have hw : a * (10 / a) = 10 := by field_simp
    rw [hg]
    generalize 10 / a = w at *
    have e : 2 * (1 + s) * (w ^ 4 - 2 * w ^ 2 + a * w) - a * w * (w ^ 4 - 2 * a * w + a ^ 2)
        = 2 * (1 + s) * (w ^ 4 - 2 * w ^ 2 + 10) - 10 * (w ^ 4 - 20 + a ^ 2) := by
      linear_combination (2 * (1 + s) - w ^ 4 + 2 * (a * w + 10) - a ^ 2) * hw
    simp only [e]
    have h1 : 0 ≤ w ^ 2 - 9 := by nlinarith
    have h2 : 0 ≤ (1 - s) * (w ^ 4 - 2 * w ^ 2 + 10) :=
      mul_nonneg (by linarith) (by nlinarith [sq_nonneg (w ^ 2 - 1)])
    nlinarith [mul_nonneg h1 h1, sq_nonneg a]
  obtain ⟨w, ⟨hw1, hw2⟩, hgw⟩ : ∃ w ∈ Set.Icc (18 / 5 : ℝ) (10 / a), g w = 0 := by
    have := intermediate_value_Icc' h13 hcont.continuousOn
    obtain ⟨w, hw, h0⟩ := this ⟨hhi, hlo⟩
    exact ⟨w, hw, h0⟩
  have hp : 12 < w ^ 2 := by nlinarith
  have hB : Spec.BoundOrbit rs a (w ^ 2) 0 1 :=
    C11_accepts_wide rs _ _ _ _ (by rw [abs_of_pos ha]; linarith) le_rfl zero_le_one (by norm_num) hp
  have hdiv : (1:ℝ) = 1 → w ^ 2 ≠ 2 ∧ w ^ 2 * (w ^ 2 - 3) ^ 2 ≠ 4 * a ^ 2 := by
    intro _
    refine ⟨by linarith, ?_⟩
    have h1 : 81 ≤ (w ^ 2 - 3) ^ 2 := by nlinarith
    have h2 : 12 * 81 ≤ w ^ 2 * (w ^ 2 - 3) ^ 2 := mul_le_mul hp.le h1 (by norm_num) (by positivity)
    have : a ^ 2 < 1 := by nlinarith
    linarith
  obtain ⟨hc, hN⟩ := C51_circular_constants rs a (w ^ 2) 1 (.inl rfl) ha.le hB hdiv
  obtain ⟨E, L, r3, r4, hc', hr, hR, hL, hP, hp1, hD, -⟩ := circular_data (.inl rfl) ha.le hB hdiv
  have hEL := Except.ok.inj (hc.symm.trans hc')
  simp only [Prod.mk.injEq] at hEL
  have hsw : √(w ^ 2) = w := Real.sqrt_sq (by linarith)
  have hzero : E * ((1 + s) ^ 2 + a ^ 2) - a * L = 0 := by
    rw [← hEL.1, ← hEL.2.1]
    unfold Spec.circularE Spec.circularL
    rw [hsw] at hN ⊢
    have hden : w ^ 2 * √((w ^ 2) ^ 2 - 3 * w ^ 2 + 2 * 1 * a * w) ≠ 0 :=
      mul_ne_zero (by positivity) (Real.sqrt_pos.mpr hN).ne'
    have hgw' : 2 * (1 + s) * (w ^ 4 - 2 * w ^ 2 + a * w) - a * w * (w ^ 4 - 2 * a * w + a ^ 2) = 0 := by
      rw [hg] at hgw; exact hgw
    generalize w ^ 2 * √((w ^ 2) ^ 2 - 3 * w ^ 2 + 2 * 1 * a * w) = d at *
    field_simp
    linear_combination hgw' + ((w ^ 2) ^ 2 - 2 * w ^ 2 + 1 * a * w) * hs2
  have hE1 : E ^ 2 < 1 := by
    rw [← hEL.1]
    unfold Spec.circularE
    rw [hsw] at hN ⊢
    rw [div_pow, mul_pow, Real.sq_sqrt hN.le, div_lt_one (mul_pos (by positivity) hN)]
    have h1 : 0 < w ^ 2 - 12 := by linarith
    have h2 : 0 < w ^ 2 * (w ^ 4 - 4 * w ^ 2 + 4 * a * w - a ^ 2) := by
      apply mul_pos (by positivity)
      have : 0 < a * w := by positivity
      nlinarith
    nlinarith
  have hr4 : r4 = 0 := by
    unfold stableRadialRoots constantsOr at hr
    simp only [hc', bind_ok] at hr
    unfold stableRadialRootsCore at hr
    have h := Except.ok.inj hr
    simp only [Prod.mk.injEq] at h
    rw [← h.2.2.2]
    simp
  have h0 : Spec.R a E L 0 (1 + s) = 0 := by
    have hΔ : Spec.Delta a (1 + s) = 0 := by unfold Spec.Delta; linear_combination hs2
    unfold Spec.R
    rw [hΔ, show E * ((1 + s) ^ 2 + a ^ 2) - a * L = 0 from hzero]
    ring
  refine ⟨w ^ 2, E, L, r3, r4, hp, hB, hc', hr, hzero, ?_, ?_⟩
  · rw [hR (1 + s), hr4] at h0
    have k1 : w ^ 2 - (1 + s) ≠ 0 := by linarith
    have k2 : (1 + s) - 0 ≠ 0 := by linarith
    have k3 : 1 - E ^ 2 ≠ 0 := by linarith
    have k4 : (1 + s) - r3 = 0 := by
      by_contra hc
      refine absurd h0 ?_
      have k5 : (1 + s) - w ^ 2 ≠ 0 := by linarith
      have k6 : E ^ 2 - 1 ≠ 0 := by linarith
      simp only [mul_ne_zero_iff, ne_eq]
      tauto
    linarith
  · exact (C41_constructible rs a (w ^ 2) 0 1 _ none none).mpr ⟨hB, by norm_num, by norm_num⟩

end KGP
