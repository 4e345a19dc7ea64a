import Verif.Lemmas.Roots
import Verif.Spec.Orbits
import Mathlib.Analysis.Calculus.Deriv.Pow
import Mathlib.Tactic.Positivity
import Mathlib.Tactic.NormNum

/-! # The radial potential: factorisations and signs -/

namespace KGP

open Classical Real

lemma R_expand (a E L Q r : ℝ) : Spec.R a E L Q r =
    -(a ^ 2) * Q + (2 * L ^ 2 + 2 * Q + 2 * a ^ 2 * E ^ 2 - 4 * a * E * L) * r
      + (a ^ 2 * E ^ 2 - L ^ 2 - Q - a ^ 2) * r ^ 2 + 2 * r ^ 3 + (E ^ 2 - 1) * r ^ 4 := by
  simp only [Spec.R, Spec.Delta]; ring

lemma hasDerivAt_R (a E L Q r : ℝ) : HasDerivAt (Spec.R a E L Q)
    ((2 * L ^ 2 + 2 * Q + 2 * a ^ 2 * E ^ 2 - 4 * a * E * L)
      + 2 * (a ^ 2 * E ^ 2 - L ^ 2 - Q - a ^ 2) * r + 6 * r ^ 2 + 4 * (E ^ 2 - 1) * r ^ 3) r := by
  have h : Spec.R a E L Q = fun r =>
      -(a ^ 2) * Q + (2 * L ^ 2 + 2 * Q + 2 * a ^ 2 * E ^ 2 - 4 * a * E * L) * r
      + (a ^ 2 * E ^ 2 - L ^ 2 - Q - a ^ 2) * r ^ 2 + 2 * r ^ 3 + (E ^ 2 - 1) * r ^ 4 := by
    funext r; exact R_expand a E L Q r
  rw [h]
  have h1 := hasDerivAt_id r
  have := ((((hasDerivAt_const r (-(a ^ 2) * Q)).add
    (h1.const_mul (2 * L ^ 2 + 2 * Q + 2 * a ^ 2 * E ^ 2 - 4 * a * E * L))).add
    ((h1.pow 2).const_mul (a ^ 2 * E ^ 2 - L ^ 2 - Q - a ^ 2))).add
    ((h1.pow 3).const_mul 2)).add ((h1.pow 4).const_mul (E ^ 2 - 1))
  refine this.congr_deriv ?_
  simp
  ring

/-- The quadratic cofactor of the two known turning points. -/
lemma R_cofactor {a E L Q p e : ℝ} (hE : E ^ 2 ≠ 1) (hp : p ≠ 0) (he1 : e ≠ 1) (he2 : e ≠ -1)
    (h : Spec.TurningPoints a E L Q p e) (r : ℝ) :
    Spec.R a E L Q r = (1 - E ^ 2) * (p / (1 - e) - r) * (r - p / (1 + e)) *
      (r ^ 2 - (2 / (1 - E ^ 2) - p / (1 - e) - p / (1 + e)) * r
        + a ^ 2 * Q / (p / (1 - e) * (p / (1 + e)) * (1 - E ^ 2))) := by
  obtain ⟨h1, h2, h3⟩ := h
  have hb : (1 - E ^ 2) ≠ 0 := sub_ne_zero.mpr (Ne.symm hE)
  have hm : (1 - e) ≠ 0 := sub_ne_zero.mpr (Ne.symm he1)
  have hpl : (1 + e) ≠ 0 := fun h => he2 (by linarith)
  generalize hr1 : p / (1 - e) = r1 at *
  generalize hr2 : p / (1 + e) = r2 at *
  have hr1' : r1 ≠ 0 := hr1 ▸ div_ne_zero hp hm
  have hr2' : r2 ≠ 0 := hr2 ▸ div_ne_zero hp hpl
  set b := 1 - E ^ 2 with hbdef
  obtain ⟨S, hS⟩ : ∃ S, S = 2 / b - r1 - r2 := ⟨_, rfl⟩
  rw [← hS]
  obtain ⟨P, hP⟩ : ∃ P, P = a ^ 2 * Q / (r1 * r2 * b) := ⟨_, rfl⟩
  rw [← hP]
  have hbS : b * S = 2 - b * r1 - b * r2 := by rw [hS]; field_simp
  have hbP : b * (r1 * r2) * P = a ^ 2 * Q := by rw [hP]; field_simp
  -- the difference is c1 r + c2 r²
  obtain ⟨c1, c2, hD⟩ : ∃ c1 c2 : ℝ, ∀ r, Spec.R a E L Q r
      - b * (r1 - r) * (r - r2) * (r ^ 2 - S * r + P) = c1 * r + c2 * r ^ 2 := by
    refine ⟨(2 * L ^ 2 + 2 * Q + 2 * a ^ 2 * E ^ 2 - 4 * a * E * L) - (b * (r1 + r2) * P
      + b * (r1 * r2) * S), (a ^ 2 * E ^ 2 - L ^ 2 - Q - a ^ 2)
      - (-b * P - b * (r1 + r2) * S - b * (r1 * r2)), fun r => ?_⟩
    rw [R_expand]
    linear_combination (-1 : ℝ) * r ^ 3 * hbS + hbP + r ^ 4 * hbdef
  have hc : c1 = 0 ∧ c2 = 0 := by
    have e1 := hD r1
    have e2 := hD r2
    rw [h1] at e1; rw [h2] at e2
    have e1' : c1 + c2 * r1 = 0 := by
      have : r1 * (c1 + c2 * r1) = 0 := by linear_combination -e1
      exact (mul_eq_zero.mp this).resolve_left hr1'
    have e2' : c1 + c2 * r2 = 0 := by
      have : r2 * (c1 + c2 * r2) = 0 := by linear_combination -e2
      exact (mul_eq_zero.mp this).resolve_left hr2'
    have hc2 : c2 = 0 := by
      by_cases he : e = 0
      · have hd := h3 he
        have hr1p : r1 = p := by rw [← hr1, he]; simp
        have hr2p : r2 = p := by rw [← hr2, he]; simp
        -- derivative of the difference at p
        have hder := hasDerivAt_R a E L Q p
        rw [hder.deriv] at hd
        have hx : ∀ r, Spec.R a E L Q r - b * (r1 - r) * (r - r2) * (r ^ 2 - S * r + P)
          = c1 * r + c2 * r ^ 2 := hD
        -- compare coefficients through four evaluations
        have k0 := hx 1
        have k1 := hx (-1)
        have k2 := hx 2
        simp only [R_expand] at k0 k1 k2
        have t1 : (2 * L ^ 2 + 2 * Q + 2 * a ^ 2 * E ^ 2 - 4 * a * E * L) - (b * (r1 + r2) * P
            + b * (r1 * r2) * S) = c1 := by
          linear_combination (1 / 2) * k0 - (1 / 2) * k1 + 1 * hbS
        have t2 : (a ^ 2 * E ^ 2 - L ^ 2 - Q - a ^ 2)
            - (-b * P - b * (r1 + r2) * S - b * (r1 * r2)) = c2 := by
          linear_combination (1 / 2) * k0 + (1 / 2) * k1 - hbP + - hbdef
        have : c1 + 2 * c2 * p = 0 := by
          rw [hr1p, hr2p] at hbS hbP t1 t2
          linear_combination hd - t1 - 2 * p * t2 + 3 * p ^ 2 * hbS + 4 * p ^ 3 * hbdef
        rw [hr1p] at e1'
        have : c2 * p = 0 := by linarith
        exact (mul_eq_zero.mp this).resolve_right hp
      · have hne : r1 - r2 ≠ 0 := by
          rw [← hr1, ← hr2]
          have : p / (1 - e) - p / (1 + e) = 2 * p * e / ((1 - e) * (1 + e)) := by
            field_simp; ring
          rw [this]
          positivity
        have : c2 * (r1 - r2) = 0 := by linarith
        exact (mul_eq_zero.mp this).resolve_right hne
    exact ⟨by rw [hc2] at e1'; linarith, hc2⟩
  have := hD r
  rw [hc.1, hc.2] at this
  linarith

/-- On a horizon the radial potential is a square. -/
lemma R_horizon_nonneg {a E L Q rh : ℝ} (h : Spec.Delta a rh = 0) : 0 ≤ Spec.R a E L Q rh := by
  rw [Spec.R, h]; nlinarith [sq_nonneg (E * (rh ^ 2 + a ^ 2) - a * L)]

lemma Delta_rPlus {a : ℝ} (ha : a ^ 2 ≤ 1) : Spec.Delta a (1 + √(1 - a ^ 2)) = 0 := by
  have := Real.sq_sqrt (show 0 ≤ 1 - a ^ 2 by linarith)
  simp only [Spec.Delta]; linear_combination this

lemma Delta_rMinus {a : ℝ} (ha : a ^ 2 ≤ 1) : Spec.Delta a (1 - √(1 - a ^ 2)) = 0 := by
  have := Real.sq_sqrt (show 0 ≤ 1 - a ^ 2 by linarith)
  simp only [Spec.Delta]; linear_combination this

end KGP
