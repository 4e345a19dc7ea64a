import Verif.Props.GeodesicApi
import Verif.Lemmas.SchmidtBound

/-!
# C04: the constants of a Kerr orbit put its turning points at `p/(1-e)` and `p/(1+e)`

`constants_of_motion` eliminates `L` between two quadratic equations and keeps one root of the
resulting quadratic for `E²` and one root of a quadratic for `L`.  The theorems say that both choices
are right for every accepted orbit with `p > 4`; every accepted retrograde orbit has `p > 5`.
-/

namespace KGP

open Classical Real

/-- Accepted retrograde orbits have `p > 5`. -/
lemma retrograde_bound {rs : RootScalar} {a p e x : ℝ} (h : Spec.BoundOrbit rs a p e x)
    (hx : Spec.signedX a x < 0) : 5 < p := by
  obtain ⟨ha, ⟨he, he1⟩, hx1, s, hs, hsp⟩ := h
  have hX : |Spec.signedX a x| ≤ 1 := by
    unfold Spec.signedX; split_ifs
    · rw [abs_neg]; exact hx1
    · exact hx1
  obtain ⟨s', hs', hv⟩ := C15_separatrix_returns rs |a| e (Spec.signedX a x) (abs_nonneg a) ha he he1
    (abs_le.mp hX).1 (abs_le.mp hX).2
  obtain rfl : s = s' := Except.ok.inj (hs.symm.trans hs')
  by_cases h0 : |a| = 0
  · have := hv.zero h0; linarith
  · have h2 := polarLo_bounds.1
    unfold polarLo at h2
    rcases eq_or_lt_of_le (abs_le.mp hX).1 with h1 | h1
    · have := hv.retrograde h0 h1.symm; linarith [this.2.1]
    · obtain ⟨pp, -, h3, h4, -⟩ := hv.generic_retrograde h0 h1 hx
      linarith

/-- The exactness lemma at the API. -/
lemma constants_exact {rs : RootScalar} {a p e x : ℝ} (h : Spec.BoundOrbit rs a p e x)
    (ha : a ≠ 0) (he1 : e ≠ 1) (hx0 : x ≠ 0) (hp : 4 < p) :
    ∃ E L, constantsOfMotion rs a p e x = .ok (E, L, carterFormula |a| (Spec.signedX a x) E L)
      ∧ Schmidt.Exact |a| p e (Spec.signedX a x) E L := by
  have hc := constantsOfMotion_of_bound h
  obtain ⟨hal, ⟨he, hel⟩, hx, -⟩ := h
  have hsx : sx a x ≠ 0 := sx_ne_zero.mpr hx0
  have hx2 : sx a x ^ 2 ≤ 1 := by rw [sx_sq, ← sq_abs]; nlinarith [abs_nonneg x]
  have := Schmidt.exact_kerr (E := energyFormula (sa a) p e (sx a x))
    (L := angularMomentumFormula (sa a) p e (sx a x) (energyFormula (sa a) p e (sx a x)))
    (abs_pos.mpr ha) hal.le hp he (lt_of_le_of_ne hel he1) hsx hx2 rfl rfl
  rw [← sx_eq]
  refine ⟨_, _, ?_, this⟩
  rw [hc, pureConsts, if_neg hsx]
  rfl

/-- **C04.** Every accepted Kerr orbit with `0 ≤ e < 1`, `x ≠ 0` and `p > 4`: `constants_of_motion`
returns constants for which `p/(1-e)` and `p/(1+e)` are zeros of the radial potential (a double zero
for `e = 0`), `E > 0`, `L` has the sign of the (standardised) inclination, and `1 - x²` is a zero of
the polar potential. -/
theorem C04_turning_points (rs : RootScalar) (a p e x : ℝ) (h : Spec.BoundOrbit rs a p e x)
    (ha : a ≠ 0) (he1 : e ≠ 1) (hx0 : x ≠ 0) (hp : 4 < p) :
    ∃ E L Q, constantsOfMotion rs a p e x = .ok (E, L, Q) ∧ 0 < E
      ∧ (0 < Spec.signedX a x → 0 < L) ∧ (Spec.signedX a x < 0 → L < 0)
      ∧ Spec.TurningPoints |a| E L Q p e ∧ Spec.Zpol a E L Q (1 - x ^ 2) = 0 := by
  obtain ⟨E, L, hc, hX⟩ := constants_exact h ha he1 hx0 hp
  refine ⟨E, L, _, hc, hX.energy_pos, ?_, ?_, hX.turning, C05_inclination_root rs a p e x E L _ hx0 hc⟩
  · intro hs
    have := hX.sign
    rwa [Real.sign_of_pos hs, one_mul] at this
  · intro hs
    have := hX.sign
    rw [Real.sign_of_neg hs] at this
    linarith

/-- **C04.** For retrograde orbits nothing else is needed: every accepted one is exact. -/
theorem C04_retrograde (rs : RootScalar) (a p e x : ℝ) (h : Spec.BoundOrbit rs a p e x)
    (ha : a ≠ 0) (he1 : e ≠ 1) (hx : Spec.signedX a x < 0) :
    ∃ E L Q, constantsOfMotion rs a p e x = .ok (E, L, Q) ∧ 0 < E ∧ L < 0
      ∧ Spec.TurningPoints |a| E L Q p e ∧ Spec.Zpol a E L Q (1 - x ^ 2) = 0 := by
  have hx0 : x ≠ 0 := by
    rintro rfl
    have : Spec.signedX a 0 = 0 := by rw [signedX_eq_zero]
    linarith
  obtain ⟨E, L, Q, hc, h1, -, h3, h4⟩ := C04_turning_points rs a p e x h ha he1 hx0
    (by linarith [retrograde_bound h hx])
  exact ⟨E, L, Q, hc, h1, h3 hx, h4⟩

/-- The potential at the horizon. -/
lemma R_horizon {a E L Q : ℝ} (ha : a ^ 2 ≤ 1) :
    Spec.R a E L Q (1 + √(1 - a ^ 2)) = (E * ((1 + √(1 - a ^ 2)) ^ 2 + a ^ 2) - a * L) ^ 2 := by
  have hs := Real.sq_sqrt (show 0 ≤ 1 - a ^ 2 by linarith)
  have : Spec.Delta a (1 + √(1 - a ^ 2)) = 0 := by
    unfold Spec.Delta; linear_combination hs
  unfold Spec.R
  rw [this]
  ring

/-- Acceptance of circular equatorial prograde orbits from the separatrix formula. -/
lemma accepts_circular {rs : RootScalar} {a p : ℝ} (ha : 0 < a) (ha1 : a < 1)
    (h : ∀ t, 0 ≤ t → t ≤ 1 → a ^ 2 = (1 - t) ^ 2 * (1 + 2 * t + 3 * t ^ 2) → 1 + 2 * t + 3 * t ^ 2 < p) :
    Spec.BoundOrbit rs a p 0 1 := by
  have habs : |a| = a := abs_of_pos ha
  have hsx : Spec.signedX a 1 = 1 := by unfold Spec.signedX; rw [if_neg (by linarith)]
  obtain ⟨s, hs, hv⟩ := C15_separatrix_returns rs a 0 1 ha.le ha1 le_rfl zero_le_one (by norm_num) le_rfl
  refine ⟨by rwa [habs], by norm_num, by norm_num, s, by rw [habs, hsx]; exact hs, ?_⟩
  obtain ⟨hz, h1, h2⟩ := hv.prograde ha.ne' rfl
  obtain ⟨t, ht0, ht1, hp, hat⟩ := prograde_param a s 0 (by nlinarith) le_rfl zero_le_one h1 h2 hz
  have e1 : s = 1 + 2 * t + 3 * t ^ 2 := by rw [hp]; ring
  rw [e1]
  exact h t ht0 ht1 (by rw [e1] at hat; linarith)

/-- **C04 (violated at isolated radii), 1.** Inside the ergosphere the formula for `L` can divide by
zero: `angular_momentum` accepts the stable circular equatorial orbit `a = 19/20`, `p = 2`, but the
coefficient `h` by which it divides is zero there (whatever the energy). -/
theorem C04_ergosphere_violation (rs : RootScalar) :
    Spec.BoundOrbit rs (19 / 20) 2 0 1 ∧ (angularMomentum rs (19 / 20) 2 0 1).Returns
      ∧ (coefficients (2 / (1 - 0)) (19 / 20) 1).h = 0 := by
  have hb : Spec.BoundOrbit rs (19 / 20) 2 0 1 := by
    refine accepts_circular (by norm_num) (by norm_num) fun t h0 h1 ht => ?_
    by_contra hcon
    have h2 : 1 / 3 ≤ t := by nlinarith [not_lt.mp hcon]
    have h3 : 0 ≤ (t - 1 / 3) * (1 - t) := mul_nonneg (by linarith) (by linarith)
    have h4 : (1 - t) ^ 2 * (1 + 2 * t + 3 * t ^ 2) ≤ 8 / 9 := by
      nlinarith [mul_nonneg h3 (sq_nonneg t), mul_nonneg h3 h0, sq_nonneg (t - 1/3), mul_nonneg (sq_nonneg (t - 1 / 3)) (sq_nonneg t),
        mul_nonneg (sq_nonneg (t-1/3)) h0]
    norm_num at ht
    linarith
  refine ⟨hb, ?_, ?_⟩
  · rw [angularMomentum_eq, (constantsGuard_iff rs _ _ _ _).mpr hb]
    exact ⟨_, rfl⟩
  · norm_num [coefficients]

/-- **C04 (violated at isolated radii), 2.** The energy formula is `0/0` for the prograde circular
equatorial orbit at the radius of the retrograde photon orbit, `√p³ - 3√p = 2a`, which is accepted
(and stable) for `√p = s ∈ [39/20, 2)`. -/
theorem C04_photon_radius_violation (rs : RootScalar) (s : ℝ) (hs : 39 / 20 ≤ s) (hs2 : s < 2) :
    let a := s * (s ^ 2 - 3) / 2
    let c1 := coefficients (s ^ 2) a 1
    let c2 := coefficientsDerivative (s ^ 2) a 1
    Spec.BoundOrbit rs a (s ^ 2) 0 1 ∧ (energy rs a (s ^ 2) 0 1).Returns
      ∧ (c1.f * c2.h - c1.h * c2.f) ^ 2
          + 4 * (c1.f * c2.g - c1.g * c2.f) * (c1.g * c2.h - c1.h * c2.g) = 0
      ∧ (c1.d * c2.h - c1.h * c2.d) * (c1.f * c2.h - c1.h * c2.f)
          + 2 * (c1.d * c2.g - c1.g * c2.d) * (c1.g * c2.h - c1.h * c2.g)
          - Real.sign 1 * 2 * √((c1.g * c2.h - c1.h * c2.g)
            * ((c1.g * c2.h - c1.h * c2.g) * (c1.d * c2.g - c1.g * c2.d) ^ 2
              + (c1.f * c2.h - c1.h * c2.f) * (c1.d * c2.g - c1.g * c2.d) * (c1.d * c2.h - c1.h * c2.d)
              - (c1.f * c2.g - c1.g * c2.f) * (c1.d * c2.h - c1.h * c2.d) ^ 2)) = 0 := by
  intro a c1 c2
  have had : a = s * (s ^ 2 - 3) / 2 := rfl
  have ha0 : 78 / 100 ≤ a := by rw [had]; nlinarith
  have ha1 : a < 1 := by rw [had]; nlinarith [mul_pos (show 0 < 2 - s by linarith) (show 0 < 2 - s by linarith)]
  have hb : Spec.BoundOrbit rs a (s ^ 2) 0 1 := by
    refine accepts_circular (by linarith) ha1 fun t h0 h1 ht => ?_
    by_contra hcon
    have hp : 38 / 10 ≤ s ^ 2 := by nlinarith
    have h2 : 68 / 100 ≤ t := by nlinarith [not_lt.mp hcon]
    have h3 : (1 - t) ^ 2 ≤ (32 / 100) ^ 2 := by
      have := mul_nonneg (show 0 ≤ 32 / 100 - (1 - t) by linarith) (show 0 ≤ 32 / 100 + (1 - t) by linarith)
      linarith
    have h4 : (1 - t) ^ 2 * (1 + 2 * t + 3 * t ^ 2) ≤ (32 / 100) ^ 2 * 6 :=
      mul_le_mul h3 (by nlinarith) (by positivity) (by norm_num)
    have : a ^ 2 ≥ (78 / 100) ^ 2 := by nlinarith
    norm_num at h4 this
    have h5 : (1 - t) ^ 2 * (1 + 2 * t + 3 * t ^ 2) ≤ 1 / 2 := by
      refine le_trans (mul_le_mul (c := 1 + 2 * t + 3 * t ^ 2) h3 le_rfl (by positivity) (by norm_num)) ?_
      nlinarith
    linarith
  refine ⟨hb, ?_, ?_, ?_⟩
  · rw [energy_eq]
    have : constantsGuard rs (sa a) (s ^ 2) 0 (sx a 1) = .ok () := (constantsGuard_iff rs _ _ _ _).mpr hb
    rw [this]
    exact ⟨_, rfl⟩
  · simp only [c1, c2, coefficients, coefficientsDerivative, had]
    norm_num
    ring
  · rw [Real.sign_of_pos one_pos]
    have key : ∀ u w y : ℝ, 0 ≤ w → u = 2 * w → y = w ^ 2 → u - 1 * 2 * √y = 0 := by
      intro u w y hw hu hy
      rw [hy, Real.sqrt_sq hw, hu]; ring
    refine key _ (s ^ 14 * (s ^ 2 - 1) ^ 2 * (s ^ 2 - 3) / 2) _ ?_ ?_ ?_
    · have : 0 ≤ s ^ 2 - 3 := by nlinarith
      positivity
    · simp only [c1, c2, coefficients, coefficientsDerivative, had]
      norm_num
      ring
    · simp only [c1, c2, coefficients, coefficientsDerivative, had]
      norm_num
      ring

end KGP
