import Verif.Lemmas.SchmidtKerr

/-!
# Uniqueness: the constants of an orbit with given turning points
-/

namespace KGP.Schmidt

open Classical Real

/-- Elimination between the two turning-point equations. -/
lemma relations {c a x u v E L : ℝ} {c1 c2 : Coeffs} (hc : c ≠ 0) (ha : a ≠ 0) (hx0 : x ≠ 0)
    (D : Dets c a (x ^ 2) u v (1 - x ^ 2) c1 c2)
    (q1 : c1.f * E ^ 2 - 2 * c1.g * E * L - c1.h * L ^ 2 - c1.d = 0)
    (q2 : c2.f * E ^ 2 - 2 * c2.g * E * L - c2.h * L ^ 2 - c2.d = 0) :
    rhoH u v (a ^ 2) (1 - x ^ 2) * E ^ 2 + 4 * a * TH v (a ^ 2) (1 - x ^ 2) * (E * L)
      - kapH u v (a ^ 2) (1 - x ^ 2) = 0
    ∧ x ^ 2 * (etaH u v (a ^ 2) (1 - x ^ 2) * E ^ 2 - epsH u v (a ^ 2) (1 - x ^ 2))
      = 2 * TH v (a ^ 2) (1 - x ^ 2) * L ^ 2 := by
  obtain ⟨d1, d2, d3, d4, d5⟩ := D
  generalize kapH u v (a ^ 2) (1 - x ^ 2) = κ at *
  generalize rhoH u v (a ^ 2) (1 - x ^ 2) = ρ at *
  generalize epsH u v (a ^ 2) (1 - x ^ 2) = ε at *
  generalize etaH u v (a ^ 2) (1 - x ^ 2) = η at *
  generalize TH v (a ^ 2) (1 - x ^ 2) = T at *
  have hX : x ^ 2 ≠ 0 := pow_ne_zero 2 hx0
  have k1 : c * (ρ * E ^ 2 + 4 * a * T * (E * L) - κ) / x ^ 2 = 0 := by
    have : c * (ρ * E ^ 2 + 4 * a * T * (E * L) - κ) / x ^ 2
        = c * ρ / x ^ 2 * E ^ 2 - 2 * (c * a * (-2 * T) / x ^ 2) * (E * L) - c * κ / x ^ 2 := by ring
    rw [this, ← d1, ← d2, ← d3]
    linear_combination c2.h * q1 - c1.h * q2
  have k2 : c * a * (x ^ 2 * (η * E ^ 2 - ε) - 2 * T * L ^ 2) / x ^ 2 = 0 := by
    have : c * a * (x ^ 2 * (η * E ^ 2 - ε) - 2 * T * L ^ 2) / x ^ 2
        = c * a * η * E ^ 2 + (c * a * (-2 * T) / x ^ 2) * L ^ 2 - c * a * ε := by
      field_simp; ring
    rw [this, ← d3, ← d4, ← d5]
    linear_combination c2.g * q1 - c1.g * q2
  constructor
  · rcases div_eq_zero_iff.mp k1 with h | h
    · exact (mul_eq_zero.mp h).resolve_left hc
    · exact absurd h hX
  · rcases div_eq_zero_iff.mp k2 with h | h
    · linarith [(mul_eq_zero.mp h).resolve_left (mul_ne_zero hc ha)]
    · exact absurd h hX

/-- The relations at the level of `(p, e)`. -/
lemma relations_pe {a p e x E L : ℝ} (ha : a ≠ 0) (hp : p ≠ 0) (he : 0 ≤ e) (he1 : e < 1)
    (hx0 : x ≠ 0) (hx : x ^ 2 ≤ 1)
    (h : Spec.TurningPoints a E L (carterFormula a x E L) p e) :
    rhoH (2 * p / (1 - e ^ 2)) (p ^ 2 / (1 - e ^ 2)) (a ^ 2) (1 - x ^ 2) * E ^ 2
      + 4 * a * TH (p ^ 2 / (1 - e ^ 2)) (a ^ 2) (1 - x ^ 2) * (E * L)
      - kapH (2 * p / (1 - e ^ 2)) (p ^ 2 / (1 - e ^ 2)) (a ^ 2) (1 - x ^ 2) = 0
    ∧ x ^ 2 * (etaH (2 * p / (1 - e ^ 2)) (p ^ 2 / (1 - e ^ 2)) (a ^ 2) (1 - x ^ 2) * E ^ 2
        - epsH (2 * p / (1 - e ^ 2)) (p ^ 2 / (1 - e ^ 2)) (a ^ 2) (1 - x ^ 2))
      = 2 * TH (p ^ 2 / (1 - e ^ 2)) (a ^ 2) (1 - x ^ 2) * L ^ 2 := by
  have hm : 0 < 1 - e := by linarith
  have hpl : 0 < 1 + e := by linarith
  obtain ⟨t1, t2, t3⟩ := h
  by_cases h0 : e = 0
  · subst h0
    have t3 := t3 rfl
    rw [sub_zero, div_one] at t1
    obtain ⟨D1, D2, D3, D4⟩ := C45_derivatives a x p hx0 hx
    have hfun : Spec.R a E L (carterFormula a x E L) = fun r => (coefficients r a x).f * E ^ 2
        - 2 * (coefficients r a x).g * E * L - (coefficients r a x).h * L ^ 2 - (coefficients r a x).d := by
      funext r'
      exact C45_quadratic_form a x r' E L hx0 hx
    have hder := (((D1.mul_const (E ^ 2)).sub (((D2.const_mul 2).mul_const E).mul_const L)).sub
      (D3.mul_const (L ^ 2))).sub D4
    rw [hfun] at t3
    have t3' := (show deriv (fun r => (coefficients r a x).f * E ^ 2
      - 2 * (coefficients r a x).g * E * L - (coefficients r a x).h * L ^ 2 - (coefficients r a x).d) p = _
      from hder.deriv).symm.trans t3
    rw [C45_quadratic_form a x p E L hx0 hx] at t1
    have := relations (c := -1) (by norm_num) ha hx0 (dets_circular p a x hx0 hx) t1 t3'
    rw [show (2 * p / (1 - (0:ℝ) ^ 2)) = p + p by norm_num; ring,
      show (p ^ 2 / (1 - (0:ℝ) ^ 2)) = p * p by norm_num; ring]
    exact this
  · have hu : p / (1 - e) + p / (1 + e) = 2 * p / (1 - e ^ 2) := by
      have : (1 - e ^ 2) = (1 - e) * (1 + e) := by ring
      rw [this]; field_simp; ring
    have hv : p / (1 - e) * (p / (1 + e)) = p ^ 2 / (1 - e ^ 2) := by
      have : (1 - e ^ 2) = (1 - e) * (1 + e) := by ring
      rw [this]; field_simp
    have hne : p / (1 - e) - p / (1 + e) ≠ 0 := by
      have : p / (1 - e) - p / (1 + e) = 2 * e * p / ((1 - e) * (1 + e)) := by field_simp; ring
      rw [this]; positivity
    rw [C45_quadratic_form a x _ E L hx0 hx] at t1 t2
    rw [← hu, ← hv]
    exact relations hne ha hx0 (dets_two _ _ a x hx0 hx) t1 t2

/-- At most one root of the quadratic lies on each side. -/
lemma unique_abs {A X T κ ρ ε η θ W N g t1 t2 : ℝ} (hA : 0 < A) (hX : 0 < X) (hT : 0 < T) (hκ : 0 < κ)
    (hθ : 0 < θ) (hth : κ * η - ε * ρ = 2 * T * θ)
    (hWd : W = ρ ^ 2 - 8 * A * X * η * T) (hNd : N = κ * ρ - 4 * A * X * ε * T)
    (hg : g = 1 ∨ g = -1) (hW : 0 < W)
    (h1 : W * t1 ^ 2 - 2 * N * t1 + κ ^ 2 = 0) (h2 : W * t2 ^ 2 - 2 * N * t2 + κ ^ 2 = 0)
    (s1 : 0 < g * (κ - ρ * t1)) (s2 : 0 < g * (κ - ρ * t2)) : t1 = t2 := by
  by_contra hne
  have hN : W * (t1 + t2) = 2 * N := by
    have : (t1 - t2) * (W * (t1 + t2) - 2 * N) = 0 := by linear_combination h1 - h2
    linarith [(mul_eq_zero.mp this).resolve_left (sub_ne_zero.mpr hne)]
  have hP : W * (t1 * t2) = κ ^ 2 := by
    linear_combination -h1 + t1 * hN
  have hF : W * κ ^ 2 - 2 * N * κ * ρ + κ ^ 2 * ρ ^ 2 = W * ((κ - ρ * t1) * (κ - ρ * t2)) := by
    linear_combination κ * ρ * hN - ρ ^ 2 * hP
  have hF2 : W * κ ^ 2 - 2 * N * κ * ρ + κ ^ 2 * ρ ^ 2 = -(16 * A * X * T ^ 2 * κ * θ) := by
    rw [hWd, hNd]; linear_combination -8 * A * X * T * κ * hth
  have hpos : 0 < (κ - ρ * t1) * (κ - ρ * t2) := by
    have := mul_pos s1 s2
    rcases hg with h | h <;> rw [h] at this <;> linarith
  have := mul_pos hW hpos
  have : 0 < 16 * A * X * T ^ 2 * κ * θ := by positivity
  linarith

/-- Two orbits with the same turning points, inclination and orientation have the same `E`, `L`. -/
lemma unique {a p e x E L E' L' : ℝ} (ha : 0 < a) (ha1 : a ≤ 1) (hp : 4 < p) (he : 0 ≤ e) (he1 : e < 1)
    (hx0 : x ≠ 0) (hx : x ^ 2 ≤ 1)
    (hE : 0 < E) (hL : 0 < Real.sign x * L)
    (h : Spec.TurningPoints a E L (carterFormula a x E L) p e)
    (hE' : 0 < E') (hL' : 0 < Real.sign x * L')
    (h' : Spec.TurningPoints a E' L' (carterFormula a x E' L') p e) : E = E' ∧ L = L' := by
  have hp0 : p ≠ 0 := by linarith
  have hA : 0 ≤ a ^ 2 := sq_nonneg a
  have hA1 : a ^ 2 ≤ 1 := by nlinarith
  have hw : 0 ≤ 1 - x ^ 2 := by linarith
  have hw1 : 1 - x ^ 2 ≤ 1 := by linarith [sq_nonneg x]
  have hl : 0 < 1 - e ^ 2 := by nlinarith
  have hl1 : 1 - e ^ 2 ≤ 1 := by linarith [sq_nonneg e]
  obtain ⟨r1, r2⟩ := relations_pe ha.ne' hp0 he he1 hx0 hx h
  obtain ⟨r1', r2'⟩ := relations_pe ha.ne' hp0 he he1 hx0 hx h'
  obtain ⟨s1, s2, s3, s4, s5, s6, s7, s8⟩ := scale (p := p) (A := a ^ 2) (w := 1 - x ^ 2) hl.ne'
  have k1 := kapS_pos hp hl hl1 hA hA1 hw hw1
  have k2 := rhoS_pos hp hl hl1 hA hA1 hw hw1
  have k3 := thetaS_pos hp hl hl1 hA hA1 hw hw1
  have k4 := (TS_pos hp hl hl1 hA hA1 hw hw1).1
  have k5 := WS_pos hp hl hl1 hA hA1 hw hw1
  have m1 : 0 < kapH (2 * p / (1 - e ^ 2)) (p ^ 2 / (1 - e ^ 2)) (a ^ 2) (1 - x ^ 2) := by
    rw [s1]; positivity
  have m2 : 0 < rhoH (2 * p / (1 - e ^ 2)) (p ^ 2 / (1 - e ^ 2)) (a ^ 2) (1 - x ^ 2) := by
    rw [s2]; positivity
  have m3 : 0 < thetaH (2 * p / (1 - e ^ 2)) (p ^ 2 / (1 - e ^ 2)) (a ^ 2) (1 - x ^ 2) := by
    rw [s5]; positivity
  have m4 : 0 < TH (p ^ 2 / (1 - e ^ 2)) (a ^ 2) (1 - x ^ 2) := by rw [s6]; positivity
  have m5 : 0 < WH (2 * p / (1 - e ^ 2)) (p ^ 2 / (1 - e ^ 2)) (a ^ 2) (1 - x ^ 2) := by
    rw [s7]; positivity
  have hth := theta_eq (2 * p / (1 - e ^ 2)) (p ^ 2 / (1 - e ^ 2)) (a ^ 2) (1 - x ^ 2)
  have hX1 : 1 - (1 - x ^ 2) = x ^ 2 := by ring
  unfold WH at m5
  rw [hX1] at m5
  clear s1 s2 s3 s4 s5 s6 s7 s8 k1 k2 k3 k4 k5
  generalize thetaH (2 * p / (1 - e ^ 2)) (p ^ 2 / (1 - e ^ 2)) (a ^ 2) (1 - x ^ 2) = θ at *
  generalize kapH (2 * p / (1 - e ^ 2)) (p ^ 2 / (1 - e ^ 2)) (a ^ 2) (1 - x ^ 2) = κ at *
  generalize rhoH (2 * p / (1 - e ^ 2)) (p ^ 2 / (1 - e ^ 2)) (a ^ 2) (1 - x ^ 2) = ρ at *
  generalize epsH (2 * p / (1 - e ^ 2)) (p ^ 2 / (1 - e ^ 2)) (a ^ 2) (1 - x ^ 2) = ε at *
  generalize etaH (2 * p / (1 - e ^ 2)) (p ^ 2 / (1 - e ^ 2)) (a ^ 2) (1 - x ^ 2) = η at *
  generalize TH (p ^ 2 / (1 - e ^ 2)) (a ^ 2) (1 - x ^ 2) = T at *
  have hX : 0 < x ^ 2 := by positivity
  have hg : Real.sign x = 1 ∨ Real.sign x = -1 := by
    rcases lt_or_gt_of_ne hx0 with h | h
    · right; exact Real.sign_of_neg h
    · left; exact Real.sign_of_pos h
  have side : ∀ E L : ℝ, 0 < E → 0 < Real.sign x * L → ρ * E ^ 2 + 4 * a * T * (E * L) - κ = 0 →
      0 < Real.sign x * (κ - ρ * E ^ 2) := by
    intro E L hE hL h
    have : Real.sign x * (κ - ρ * E ^ 2) = 4 * a * T * E * (Real.sign x * L) := by
      linear_combination -(Real.sign x) * h
    rw [this]; positivity
  have quad : ∀ E L : ℝ, ρ * E ^ 2 + 4 * a * T * (E * L) - κ = 0 →
      x ^ 2 * (η * E ^ 2 - ε) = 2 * T * L ^ 2 →
      (ρ ^ 2 - 8 * a ^ 2 * x ^ 2 * η * T) * (E ^ 2) ^ 2 - 2 * (κ * ρ - 4 * a ^ 2 * x ^ 2 * ε * T) * E ^ 2
        + κ ^ 2 = 0 := by
    intro E L h1 h2
    linear_combination (ρ * E ^ 2 - 4 * a * T * (E * L) - κ) * h1 - 8 * a ^ 2 * T * E ^ 2 * h2
  have hEE : E ^ 2 = E' ^ 2 := by
    refine unique_abs (A := a ^ 2) (X := x ^ 2) (W := ρ ^ 2 - 8 * a ^ 2 * x ^ 2 * η * T)
      (by positivity) hX m4 m1 m3 hth rfl rfl hg ?_ (quad E L r1 r2) (quad E' L' r1' r2')
      (side E L hE hL r1) (side E' L' hE' hL' r1')
    linarith
  have hE2 : E = E' := by
    have := abs_eq_abs.mpr (sq_eq_sq_iff_eq_or_eq_neg.mp hEE)
    rwa [abs_of_pos hE, abs_of_pos hE'] at this
  subst hE2
  refine ⟨rfl, ?_⟩
  have : 4 * a * T * E * (L - L') = 0 := by linear_combination r1 - r1'
  have hne : 4 * a * T * E ≠ 0 := by positivity
  linarith [(mul_eq_zero.mp this).resolve_left hne]

end KGP.Schmidt
