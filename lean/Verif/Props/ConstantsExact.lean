import Verif.Props.Trajectory

/-!
# C06, C07, C45: exactness of the constants of motion in closed-form cases
-/

namespace KGP

open Classical Real

/-! ## C45 -/

/-- **C45.** `_coefficients_derivative` returns the derivatives with respect to `r` of the four functions
returned by `_coefficients`. -/
theorem C45_derivatives (a x r : ℝ) (hx0 : x ≠ 0) (hx : x ^ 2 ≤ 1) :
    HasDerivAt (fun r => (coefficients r a x).f) (coefficientsDerivative r a x).f r
    ∧ HasDerivAt (fun r => (coefficients r a x).g) (coefficientsDerivative r a x).g r
    ∧ HasDerivAt (fun r => (coefficients r a x).h) (coefficientsDerivative r a x).h r
    ∧ HasDerivAt (fun r => (coefficients r a x).d) (coefficientsDerivative r a x).d r := by
  have hz : √(1 - x ^ 2) ^ 2 = 1 - x ^ 2 := Real.sq_sqrt (by linarith)
  simp only [coefficients, coefficientsDerivative, hz]
  have h1 := hasDerivAt_id' r
  have hpoly : ∀ c0 c1 c2 c3 c4 : ℝ, HasDerivAt (fun r : ℝ => c0 + c1 * r + c2 * r ^ 2 + c3 * r ^ 3
      + c4 * r ^ 4) (c1 + 2 * c2 * r + 3 * c3 * r ^ 2 + 4 * c4 * r ^ 3) r := by
    intro c0 c1 c2 c3 c4
    have := ((((hasDerivAt_const r c0).add (h1.const_mul c1)).add ((h1.pow 2).const_mul c2)).add
      ((h1.pow 3).const_mul c3)).add ((h1.pow 4).const_mul c4)
    refine this.congr_deriv ?_
    simp
    ring
  have key : ∀ (F : ℝ → ℝ) (F' c0 c1 c2 c3 c4 : ℝ), (∀ y, F y = c0 + c1 * y + c2 * y ^ 2 + c3 * y ^ 3
      + c4 * y ^ 4) → F' = c1 + 2 * c2 * r + 3 * c3 * r ^ 2 + 4 * c4 * r ^ 3 → HasDerivAt F F' r := by
    intro F F' c0 c1 c2 c3 c4 hF hF'
    rw [hF', show F = _ from funext hF]
    exact hpoly c0 c1 c2 c3 c4
  refine ⟨?_, ?_, ?_, ?_⟩
  · exact key _ _ (a ^ 4 * (1 - x ^ 2)) (2 * a ^ 2 - 2 * a ^ 2 * (1 - x ^ 2))
      (a ^ 2 + a ^ 2 * (1 - x ^ 2)) 0 1 (fun y => by ring) (by ring)
  · exact key _ _ 0 (2 * a) 0 0 0 (fun y => by ring) (by ring)
  · have hxx : 1 - (1 - x ^ 2) = x ^ 2 := by ring
    rw [hxx]
    exact key _ _ ((1 - x ^ 2) / x ^ 2 * a ^ 2) (-2 / x ^ 2) (1 / x ^ 2) 0 0
      (fun y => by field_simp; ring) (by field_simp; ring)
  · exact key _ _ (a ^ 4 * (1 - x ^ 2)) (-2 * a ^ 2 * (1 - x ^ 2)) (a ^ 2 + a ^ 2 * (1 - x ^ 2)) (-2) 1
      (fun y => by ring) (by ring)

/-- **C45.** With the Carter constant of the inclination substituted, the radial potential is the
quadratic form `f E² - 2 g E L - h L² - d` in `(E, L)`. -/
theorem C45_quadratic_form (a x r E L : ℝ) (hx0 : x ≠ 0) (hx : x ^ 2 ≤ 1) :
    let c := coefficients r a x
    Spec.R a E L (carterFormula a x E L) r
      = c.f * E ^ 2 - 2 * c.g * E * L - c.h * L ^ 2 - c.d := by
  have hz : √(1 - x ^ 2) ^ 2 = 1 - x ^ 2 := Real.sq_sqrt (by linarith)
  simp only [carterFormula, coefficients, hz, Spec.R, Spec.Delta]
  field_simp
  ring

example : (1 / 2 : ℝ) ≠ 0 ∧ (1 / 2 : ℝ) ^ 2 ≤ 1 := by norm_num

/-! ## C06 -/

/-- The square of the polar-orbit energy. -/
lemma polar_turning {a p e E2 Q : ℝ} (hp : p ≠ 0) (he1 : e ≠ 1) (he2 : e ≠ -1)
    (hD : polarDenominator a p e ≠ 0)
    (hE : E2 = -((p * (a ^ 4 * (-1 + e ^ 2) ^ 2 + (-4 * e ^ 2 + (-2 + p) ^ 2) * p ^ 2
          + 2 * a ^ 2 * p * (-2 + p + e ^ 2 * (2 + p)))) / polarDenominator a p e))
    (hQ : Q = carterPolarFormula a p e) (E : ℝ) (hE2 : E ^ 2 = E2) :
    Spec.TurningPoints a E 0 Q p e := by
  have hm : (1 - e) ≠ 0 := sub_ne_zero.mpr (Ne.symm he1)
  have hpl : (1 + e) ≠ 0 := fun h => he2 (by linarith)
  rw [hE] at hE2
  rw [carterPolarFormula] at hQ
  generalize hDd : polarDenominator a p e = D at *
  have hEE : D * E ^ 2 = -(p * (a ^ 4 * (-1 + e ^ 2) ^ 2 + (-4 * e ^ 2 + (-2 + p) ^ 2) * p ^ 2
          + 2 * a ^ 2 * p * (-2 + p + e ^ 2 * (2 + p)))) := by
    rw [hE2]; field_simp
  have hQQ : D * Q = -(p ^ 2 * (a ^ 4 * (-1 + e ^ 2) ^ 2 + p ^ 4
      + 2 * a ^ 2 * p * (-2 + p + e ^ 2 * (2 + p)))) := by
    rw [hQ]; field_simp
  have hR : ∀ r, D * Spec.R a E 0 Q r = -(a ^ 2) * (D * Q) + (2 * (D * Q) + 2 * a ^ 2 * (D * E ^ 2)) * r
      + (a ^ 2 * (D * E ^ 2) - D * Q - D * a ^ 2) * r ^ 2 + 2 * D * r ^ 3 + (D * E ^ 2 - D) * r ^ 4 := by
    intro r; rw [R_expand]; ring
  refine ⟨?_, ?_, ?_⟩
  · refine (mul_eq_zero.mp (?_ : D * _ = 0)).resolve_left hD
    rw [hR, hEE, hQQ, ← hDd, polarDenominator]
    field_simp
    ring
  · refine (mul_eq_zero.mp (?_ : D * _ = 0)).resolve_left hD
    rw [hR, hEE, hQQ, ← hDd, polarDenominator]
    field_simp
    ring
  · intro he
    rw [(hasDerivAt_R a E 0 Q p).deriv]
    refine (mul_eq_zero.mp (?_ : D * _ = 0)).resolve_left hD
    have : D * (2 * (0:ℝ) ^ 2 + 2 * Q + 2 * a ^ 2 * E ^ 2 - 4 * a * E * 0
        + 2 * (a ^ 2 * E ^ 2 - 0 ^ 2 - Q - a ^ 2) * p + 6 * p ^ 2 + 4 * (E ^ 2 - 1) * p ^ 3)
        = (2 * (D * Q) + 2 * a ^ 2 * (D * E ^ 2)) + 2 * (a ^ 2 * (D * E ^ 2) - D * Q - D * a ^ 2) * p
          + 6 * D * p ^ 2 + 4 * (D * E ^ 2 - D) * p ^ 3 := by ring
    rw [this, hEE, hQQ, ← hDd, polarDenominator, he]
    ring

lemma polar_bound {rs : RootScalar} {a p e : ℝ} (h : Spec.BoundOrbit rs a p e 0) : 5 < p := by
  obtain ⟨ha, ⟨he, he1⟩, -, s, hs, hsp⟩ := h
  have hx0 : Spec.signedX a 0 = 0 := by rw [signedX_eq_zero]
  rw [hx0] at hs
  obtain ⟨s', hs', hv⟩ := C15_separatrix_returns rs |a| e 0 (abs_nonneg a) ha he he1 (by norm_num)
    (by norm_num)
  obtain rfl : s = s' := Except.ok.inj (hs.symm.trans hs')
  by_cases h0 : |a| = 0
  · have := hv.zero h0; linarith
  · have h1 := (hv.polar h0 rfl).2.1
    have h2 := polarLo_bounds.1
    unfold polarLo at h2
    linarith

lemma constantsOfMotion_of_bound {rs : RootScalar} {a p e x : ℝ} (h : Spec.BoundOrbit rs a p e x) :
    constantsOfMotion rs a p e x = .ok (pureConsts (sa a) p e (sx a x)) := by
  rw [constantsOfMotion_eq, (constantsGuard_iff rs a p e x).mpr h, bind_ok]

lemma polarDenominator_neg {a p e : ℝ} (hp : 5 < p) (he : 0 ≤ e) (he1 : e ≤ 1) :
    polarDenominator a p e < 0 := by
  have hee : e ^ 2 ≤ 1 := by nlinarith
  have he4 : e ^ 4 ≤ 1 := by nlinarith
  have h1 : (3 + e ^ 2 - p) * p ^ 4 < 0 := mul_neg_of_neg_of_pos (by linarith) (by positivity)
  have h2 : a ^ 4 * (-1 + e ^ 2) ^ 2 * (-1 + e ^ 2 - p) ≤ 0 :=
    mul_nonpos_of_nonneg_of_nonpos (by positivity) (by linarith)
  have h3 : 0 ≤ 2 * a ^ 2 * p ^ 2 * (-1 - e ^ 4 + p + e ^ 2 * (2 + p)) := by
    have : 0 ≤ e ^ 2 * (2 + p) := by positivity
    exact mul_nonneg (by positivity) (by linarith)
  unfold polarDenominator
  linarith

/-- **C06.** For every bound polar orbit the constants are those of the geodesic with the requested
turning points: `L = 0`, `0 < E < 1`, `Q > 0` and the radial potential of `(E, 0, Q)` vanishes at
`p/(1-e)` and `p/(1+e)` (doubly at `p` when `e = 0`). -/
theorem C06_polar_exact (rs : RootScalar) (a p e : ℝ) (h : Spec.BoundOrbit rs a p e 0)
    (he1 : e ≠ 1) :
    ∃ E Q, constantsOfMotion rs a p e 0 = .ok (E, 0, Q) ∧ 0 < E ∧ E < 1 ∧ 0 < Q
      ∧ Spec.TurningPoints a E 0 Q p e := by
  have hp := polar_bound h
  have hc := constantsOfMotion_of_bound h
  obtain ⟨ha, ⟨he, hel⟩, -, -⟩ := h
  have hlt : e < 1 := lt_of_le_of_ne hel he1
  have hx : sx a 0 = 0 := by simp [sx]
  have hD := polarDenominator_neg (a := sa a) hp he hel
  have hA : (sa a) ^ 2 = a ^ 2 := sq_abs a
  have hA4 : (sa a) ^ 4 = a ^ 4 := by
    rw [show (sa a) ^ 4 = ((sa a) ^ 2) ^ 2 by ring, hA]; ring
  have hDD : polarDenominator (sa a) p e = polarDenominator a p e := by
    unfold polarDenominator; rw [hA, hA4]
  have hee : e ^ 2 < 1 := by nlinarith
  have hp0 : 0 < p := by linarith
  obtain ⟨N, hN⟩ : ∃ N, N = p * (a ^ 4 * (-1 + e ^ 2) ^ 2 + (-4 * e ^ 2 + (-2 + p) ^ 2) * p ^ 2
          + 2 * a ^ 2 * p * (-2 + p + e ^ 2 * (2 + p))) := ⟨_, rfl⟩
  have hNpos : 0 < N := by
    rw [hN]
    have h1 : 0 < (-4 * e ^ 2 + (-2 + p) ^ 2) * p ^ 2 := mul_pos (by nlinarith) (by positivity)
    have h2 : 0 ≤ 2 * a ^ 2 * p * (-2 + p + e ^ 2 * (2 + p)) := by
      have : 0 ≤ e ^ 2 * (2 + p) := by positivity
      exact mul_nonneg (by positivity) (by linarith)
    have h3 : 0 ≤ a ^ 4 * (-1 + e ^ 2) ^ 2 := by positivity
    exact mul_pos hp0 (by linarith)
  have hlt1 : N < -polarDenominator a p e := by
    have : -polarDenominator a p e - N = (1 - e ^ 2) * p ^ 3 * (p - 4) + 2 * a ^ 2 * p ^ 2 * (1 - e ^ 2) * (1 + e ^ 2)
        + a ^ 4 * (1 - e ^ 2) ^ 3 := by
      rw [hN]; unfold polarDenominator; ring
    have h1 : 0 < (1 - e ^ 2) * p ^ 3 * (p - 4) :=
      mul_pos (mul_pos (by linarith) (by positivity)) (by linarith)
    have h2 : 0 ≤ 2 * a ^ 2 * p ^ 2 * (1 - e ^ 2) * (1 + e ^ 2) :=
      mul_nonneg (mul_nonneg (by positivity) (by linarith)) (by positivity)
    have h3 : 0 ≤ a ^ 4 * (1 - e ^ 2) ^ 3 :=
      mul_nonneg (by positivity) (pow_nonneg (by linarith) 3)
    linarith
  rw [hDD] at hD
  have hE2 : 0 < -(N / polarDenominator a p e) := by
    rw [← div_neg]; exact div_pos hNpos (by linarith)
  have hE21 : -(N / polarDenominator a p e) < 1 := by
    rw [← div_neg, div_lt_one (by linarith)]; exact hlt1
  refine ⟨√(-(N / polarDenominator a p e)), carterPolarFormula a p e, ?_, Real.sqrt_pos.mpr hE2, ?_, ?_, ?_⟩
  · rw [hc, hx]
    simp only [pureConsts, energyFormula, angularMomentumFormula, if_true, if_neg he1, hA, hA4, hDD, hN,
      carterPolarFormula]
  · rw [show (1:ℝ) = √1 by simp]; exact Real.sqrt_lt_sqrt hE2.le hE21
  · unfold carterPolarFormula
    rw [← div_neg]
    refine div_pos ?_ (by linarith)
    have h2 : 0 ≤ 2 * a ^ 2 * p * (-2 + p + e ^ 2 * (2 + p)) := by
      have : 0 ≤ e ^ 2 * (2 + p) := by positivity
      exact mul_nonneg (by positivity) (by linarith)
    have h3 : 0 ≤ a ^ 4 * (-1 + e ^ 2) ^ 2 := by positivity
    have h4 : 0 < p ^ 4 := by positivity
    exact mul_pos (by positivity) (by linarith)
  · refine polar_turning hp0.ne' he1 (by linarith) hD.ne rfl rfl _ ?_
    rw [Real.sq_sqrt hE2.le, hN]

/-- **C06.** The marginally bound polar orbit (`e = 1`): the code returns `E = 1`, `L = 0` and a Carter
constant for which `p/2` is a turning point. -/
theorem C06_polar_marginal (rs : RootScalar) (a p : ℝ) (h : Spec.BoundOrbit rs a p 1 0) :
    ∃ Q, constantsOfMotion rs a p 1 0 = .ok (1, 0, Q) ∧ 0 < Q ∧ Spec.R a 1 0 Q (p / 2) = 0 := by
  have hp := polar_bound h
  have hc := constantsOfMotion_of_bound h
  have hx : sx a 0 = 0 := by simp [sx]
  have hD := polarDenominator_neg (a := a) hp zero_le_one le_rfl
  have hA : (sa a) ^ 2 = a ^ 2 := sq_abs a
  have hA4 : (sa a) ^ 4 = a ^ 4 := by
    rw [show (sa a) ^ 4 = ((sa a) ^ 2) ^ 2 by ring, hA]; ring
  have hDD : polarDenominator (sa a) p 1 = polarDenominator a p 1 := by
    unfold polarDenominator; rw [hA, hA4]
  refine ⟨carterPolarFormula a p 1, ?_, ?_, ?_⟩
  · rw [hc, hx]
    simp only [pureConsts, energyFormula, angularMomentumFormula, if_true, hA, hA4, hDD,
      carterPolarFormula]
  · unfold carterPolarFormula
    rw [← div_neg]
    refine div_pos ?_ (by linarith)
    have h2 : 0 ≤ 2 * a ^ 2 * p * (-2 + p + 1 ^ 2 * (2 + p)) := mul_nonneg (by positivity) (by linarith)
    have h4 : 0 < p ^ 4 := by positivity
    have h3 : 0 ≤ a ^ 4 * (-1 + 1 ^ 2) ^ 2 := by positivity
    exact mul_pos (by positivity) (by linarith)
  · have hQQ : polarDenominator a p 1 * carterPolarFormula a p 1 = -(p ^ 2 * (a ^ 4 * (-1 + 1 ^ 2) ^ 2 + p ^ 4
      + 2 * a ^ 2 * p * (-2 + p + 1 ^ 2 * (2 + p)))) := by
      unfold carterPolarFormula; field_simp [hD.ne]
    refine (mul_eq_zero.mp (?_ : polarDenominator a p 1 * _ = 0)).resolve_left hD.ne
    rw [R_expand]
    generalize carterPolarFormula a p 1 = Q at hQQ
    unfold polarDenominator at *
    linear_combination (-(a ^ 2) + 2 * (p / 2) - (p / 2) ^ 2) * hQQ

/-! ## C07 -/

lemma schwarzschild_bound {rs : RootScalar} {p e x : ℝ} (h : Spec.BoundOrbit rs 0 p e x) :
    (0 ≤ e ∧ e ≤ 1) ∧ |x| ≤ 1 ∧ 6 + 2 * e < p := by
  obtain ⟨-, he, hx, s, hs, hsp⟩ := h
  have hx1 : Spec.signedX 0 x = x := by simp [Spec.signedX]
  rw [hx1, abs_zero] at hs
  obtain ⟨s', hs', hv⟩ := C15_separatrix_returns rs 0 e x le_rfl one_pos he.1 he.2 (abs_le.mp hx).1
    (abs_le.mp hx).2
  obtain rfl : s = s' := Except.ok.inj (hs.symm.trans hs')
  exact ⟨he, hx, by rw [← hv.zero rfl]; exact hsp⟩

lemma coefficients_zero (r x : ℝ) (hx0 : x ≠ 0) (hx : x ^ 2 ≤ 1) :
    coefficients r 0 x = ⟨r ^ 4, 0, r * (r - 2) / x ^ 2, r ^ 3 * (r - 2)⟩ := by
  have hz : √(1 - x ^ 2) ^ 2 = 1 - x ^ 2 := Real.sq_sqrt (by linarith)
  simp only [coefficients, hz, Coeffs.mk.injEq]
  refine ⟨by ring, by ring, ?_, by ring⟩
  field_simp; ring

lemma coefficientsDerivative_zero (r x : ℝ) (hx0 : x ≠ 0) (hx : x ^ 2 ≤ 1) :
    coefficientsDerivative r 0 x = ⟨4 * r ^ 3, 0, 2 * (r - 1) / x ^ 2, 2 * (2 * r - 3) * r ^ 2⟩ := by
  have hz : √(1 - x ^ 2) ^ 2 = 1 - x ^ 2 := Real.sq_sqrt (by linarith)
  simp only [coefficientsDerivative, hz, Coeffs.mk.injEq]
  refine ⟨by ring, by ring, ?_, by ring⟩
  field_simp; ring

/-- The energy of a Schwarzschild orbit. -/
lemma schwarzschild_energy {p e x : ℝ} (he : 0 ≤ e) (he1 : e ≤ 1) (hx : x ^ 2 ≤ 1)
    (hp : 6 + 2 * e < p) :
    energyFormula 0 p e x = √(((p - 2) ^ 2 - 4 * e ^ 2) / (p * (p - 3 - e ^ 2))) := by
  have hee : e ^ 2 ≤ 1 := by nlinarith
  have hp0 : p ≠ 0 := by linarith
  have hp3 : p - 3 - e ^ 2 ≠ 0 := by nlinarith
  unfold energyFormula
  split_ifs with h1 h2 h3
  · subst h1
    rw [show ((p - 2) ^ 2 - 4 * 1 ^ 2) / (p * (p - 3 - 1 ^ 2)) = 1 by
      rw [div_eq_one_iff_eq (mul_ne_zero hp0 hp3)]; ring, Real.sqrt_one]
  · congr 1
    rw [← div_neg]
    unfold polarDenominator
    have : -((0:ℝ) ^ 4 * (-1 + e ^ 2) ^ 2 * (-1 + e ^ 2 - p) + (3 + e ^ 2 - p) * p ^ 4
        - 2 * 0 ^ 2 * p ^ 2 * (-1 - e ^ 4 + p + e ^ 2 * (2 + p))) = (p - 3 - e ^ 2) * p ^ 4 := by ring
    rw [this]
    field_simp
    ring
  · subst h3
    rw [coefficients_zero p x h2 hx, coefficientsDerivative_zero p x h2 hx]
    simp only [schmidtEnergy]
    simp only [mul_zero, zero_mul, sub_zero, add_zero, Real.sqrt_zero]
    congr 1
    have h4 : p ^ 4 * (2 * (p - 1) / x ^ 2) - p * (p - 2) / x ^ 2 * (4 * p ^ 3)
        = -2 * p ^ 4 * (p - 3) / x ^ 2 := by field_simp; ring
    rw [h4]
    have hp3' : p - 3 ≠ 0 := by linarith
    field_simp
    ring
  · have hm : 1 - e ≠ 0 := sub_ne_zero.mpr (Ne.symm h1)
    have hpl : 1 + e ≠ 0 := by linarith
    rw [coefficients_zero _ x h2 hx, coefficients_zero _ x h2 hx]
    simp only [schmidtEnergy]
    simp only [mul_zero, zero_mul, sub_zero, add_zero, Real.sqrt_zero]
    congr 1
    have h4 : (p / (1 - e)) ^ 4 * (p / (1 + e) * (p / (1 + e) - 2) / x ^ 2)
        - p / (1 - e) * (p / (1 - e) - 2) / x ^ 2 * (p / (1 + e)) ^ 4
        = 4 * e * p ^ 5 * (p - 3 - e ^ 2) / ((1 - e) ^ 4 * (1 + e) ^ 4 * x ^ 2) := by
      field_simp; ring
    have h5 : (p / (1 - e)) ^ 3 * (p / (1 - e) - 2) * (p / (1 + e) * (p / (1 + e) - 2) / x ^ 2)
        - p / (1 - e) * (p / (1 - e) - 2) / x ^ 2 * ((p / (1 + e)) ^ 3 * (p / (1 + e) - 2))
        = 4 * e * p ^ 4 * ((p - 2) ^ 2 - 4 * e ^ 2) / ((1 - e) ^ 4 * (1 + e) ^ 4 * x ^ 2) := by
      field_simp; ring
    rw [h4, h5]
    field_simp

lemma schwarzschild_L {p e x r E : ℝ} (hx0 : x ≠ 0) (hx : x ^ 2 ≤ 1) (hr : 2 < r)
    (hp3 : 0 < p - 3 - e ^ 2)
    (hE : r ^ 2 * (E ^ 2 * r - (r - 2)) * (p - 3 - e ^ 2) = p ^ 2 * (r - 2)) (hp : 0 < p) :
    solveL x E (coefficients r 0 x) = x * p / √(p - 3 - e ^ 2) := by
  rw [coefficients_zero r x hx0 hx]
  unfold solveL
  simp only
  have hr2 : r - 2 ≠ 0 := by linarith
  have hr2' : 0 < r - 2 := by linarith
  have hr0 : r ≠ 0 := by linarith
  have hr0' : 0 < r := by linarith
  have hkey : -(r ^ 3 * (r - 2)) * (r * (r - 2) / x ^ 2) + E ^ 2 * (0 ^ 2 + r ^ 4 * (r * (r - 2) / x ^ 2))
      = (r * (r - 2) * p / (|x| * √(p - 3 - e ^ 2))) ^ 2 := by
    have hs := Real.sq_sqrt hp3.le
    have hs0 : √(p - 3 - e ^ 2) ≠ 0 := (Real.sqrt_pos.mpr hp3).ne'
    rw [div_pow, mul_pow |x|, sq_abs, hs]
    have h3 := hp3.ne'
    field_simp
    linear_combination r ^ 2 * (r - 2) * hE
  rw [hkey, Real.sqrt_sq (by positivity)]
  have hs0 : √(p - 3 - e ^ 2) ≠ 0 := (Real.sqrt_pos.mpr hp3).ne'
  have hsg : Real.sign x / |x| = 1 / x := by
    rcases lt_or_gt_of_ne hx0 with h | h
    · rw [Real.sign_of_neg h, abs_of_neg h, neg_div_neg_eq]
    · rw [Real.sign_of_pos h, abs_of_pos h]
  have hax : |x| ≠ 0 := abs_ne_zero.mpr hx0
  calc (-E * 0 + Real.sign x * (r * (r - 2) * p / (|x| * √(p - 3 - e ^ 2)))) / (r * (r - 2) / x ^ 2)
      = (Real.sign x / |x|) * (x ^ 2 * p / √(p - 3 - e ^ 2)) := by field_simp; ring
    _ = _ := by rw [hsg]; field_simp

/-- **C07.** Around a non-rotating hole the constants of every bound orbit are the closed forms of
Schwarzschild: `E² = ((p-2)²-4e²)/(p(p-3-e²))`, `L = x p/√(p-3-e²)`, `Q = (1-x²) p²/(p-3-e²)`. -/
theorem C07_constants (rs : RootScalar) (p e x : ℝ) (h : Spec.BoundOrbit rs 0 p e x) :
    constantsOfMotion rs 0 p e x = .ok (√(((p - 2) ^ 2 - 4 * e ^ 2) / (p * (p - 3 - e ^ 2))),
      x * p / √(p - 3 - e ^ 2), (1 - x ^ 2) * p ^ 2 / (p - 3 - e ^ 2)) := by
  rw [constantsOfMotion_of_bound h]
  obtain ⟨⟨he, he1⟩, hx, hp⟩ := schwarzschild_bound h
  have hx2 : x ^ 2 ≤ 1 := (sq_le_one_iff_abs_le_one x).mpr hx
  have hee : e ^ 2 ≤ 1 := by nlinarith
  have hp0 : 0 < p := by linarith
  have hp3 : 0 < p - 3 - e ^ 2 := by nlinarith
  have h0 : sa 0 = 0 := abs_zero
  have hsx : sx 0 x = x := by simp [sx, copysign1]
  rw [h0, hsx]
  have hE := schwarzschild_energy he he1 hx2 hp
  have hE2 : energyFormula 0 p e x ^ 2 = ((p - 2) ^ 2 - 4 * e ^ 2) / (p * (p - 3 - e ^ 2)) := by
    rw [hE, Real.sq_sqrt]
    exact div_nonneg (by nlinarith) (by positivity)
  have hz : √(1 - x ^ 2) ^ 2 = 1 - x ^ 2 := Real.sq_sqrt (by linarith)
  have hs := Real.sq_sqrt hp3.le
  have hs0 : √(p - 3 - e ^ 2) ≠ 0 := (Real.sqrt_pos.mpr hp3).ne'
  have hL : angularMomentumFormula 0 p e x (energyFormula 0 p e x) = x * p / √(p - 3 - e ^ 2) := by
    unfold angularMomentumFormula
    split_ifs with h1 h2
    · rw [h1]; simp
    · subst h2
      refine schwarzschild_L h1 hx2 (by linarith) hp3 ?_ hp0
      rw [hE2]
      have hp4 : p - 4 ≠ 0 := by linarith
      have hp0' := hp0.ne'
      rw [show p - 3 - (1:ℝ) ^ 2 = p - 4 by ring]
      field_simp; ring
    · have hm : 0 < 1 - e := by rcases lt_or_eq_of_le he1 with h | h; linarith; exact absurd h h2
      have hm' := hm.ne'
      have hp3' := hp3.ne'
      refine schwarzschild_L h1 hx2 ?_ hp3 ?_ hp0
      · rw [lt_div_iff₀ hm]; nlinarith
      · rw [hE2]; field_simp; ring
  unfold pureConsts
  simp only [hL]
  rw [hE]
  congr 3
  split_ifs with h1
  · subst h1
    unfold carterPolarFormula polarDenominator
    rw [← div_neg]
    have : -((0:ℝ) ^ 4 * (-1 + e ^ 2) ^ 2 * (-1 + e ^ 2 - p) + (3 + e ^ 2 - p) * p ^ 4
        - 2 * 0 ^ 2 * p ^ 2 * (-1 - e ^ 4 + p + e ^ 2 * (2 + p))) = (p - 3 - e ^ 2) * p ^ 4 := by ring
    rw [this]
    field_simp
    ring
  · unfold carterFormula
    simp only [hz]
    rw [div_pow, hs]
    field_simp
    ring

/-- **C07.** For `e < 1` these constants satisfy `0 < E < 1` and have the requested turning points. -/
theorem C07_turning (rs : RootScalar) (p e x : ℝ) (h : Spec.BoundOrbit rs 0 p e x) (he1 : e ≠ 1) :
    ∃ E L Q, constantsOfMotion rs 0 p e x = .ok (E, L, Q) ∧ 0 < E ∧ E < 1
      ∧ (0 < x → 0 < L) ∧ (x < 0 → L < 0) ∧ 0 ≤ Q ∧ Spec.TurningPoints 0 E L Q p e := by
  obtain ⟨⟨he, hel⟩, hx, hp⟩ := schwarzschild_bound h
  have hlt : e < 1 := lt_of_le_of_ne hel he1
  have hx2 : x ^ 2 ≤ 1 := (sq_le_one_iff_abs_le_one x).mpr hx
  have hee : e ^ 2 < 1 := by nlinarith
  have hp0 : 0 < p := by linarith
  have hp3 : 0 < p - 3 - e ^ 2 := by nlinarith
  have hpos : 0 < ((p - 2) ^ 2 - 4 * e ^ 2) / (p * (p - 3 - e ^ 2)) :=
    div_pos (by nlinarith) (by positivity)
  have hs := Real.sq_sqrt hp3.le
  have hs0 := Real.sqrt_pos.mpr hp3
  refine ⟨_, _, _, C07_constants rs p e x h, Real.sqrt_pos.mpr hpos, ?_, ?_, ?_, ?_, ?_⟩
  · rw [show (1:ℝ) = √1 by simp]
    refine Real.sqrt_lt_sqrt hpos.le ?_
    rw [div_lt_one (by positivity)]
    nlinarith
  · intro hx; positivity
  · intro hx; exact div_neg_of_neg_of_pos (by nlinarith) hs0
  · exact div_nonneg (mul_nonneg (by linarith) (by positivity)) hp3.le
  · have hE2 := Real.sq_sqrt hpos.le
    generalize √(((p - 2) ^ 2 - 4 * e ^ 2) / (p * (p - 3 - e ^ 2))) = E at hE2 ⊢
    have hm : 1 - e ≠ 0 := by linarith
    have hpl : 1 + e ≠ 0 := by linarith
    have hp3' := hp3.ne'
    have hR : ∀ r, Spec.R 0 E (x * p / √(p - 3 - e ^ 2)) ((1 - x ^ 2) * p ^ 2 / (p - 3 - e ^ 2)) r
        = r ^ 4 * E ^ 2 - (r ^ 2 - 2 * r) * (r ^ 2 + p ^ 2 / (p - 3 - e ^ 2)) := by
      intro r
      simp only [Spec.R, Spec.Delta]
      have : (x * p / √(p - 3 - e ^ 2) - 0 * E) ^ 2 = x ^ 2 * p ^ 2 / (p - 3 - e ^ 2) := by
        rw [zero_mul, sub_zero, div_pow, hs]; ring
      rw [this]; field_simp; ring
    refine ⟨?_, ?_, ?_⟩
    · rw [hR, hE2]; field_simp; ring
    · rw [hR, hE2]; field_simp; ring
    · rintro rfl
      rw [show Spec.R 0 E (x * p / √(p - 3 - 0 ^ 2)) ((1 - x ^ 2) * p ^ 2 / (p - 3 - 0 ^ 2)) = _ from
        funext hR]
      have h1 := hasDerivAt_id' p
      have := ((h1.pow 4).mul_const (E ^ 2)).sub (((h1.pow 2).sub (h1.const_mul 2)).mul
        ((h1.pow 2).add_const (p ^ 2 / (p - 3 - 0 ^ 2))))
      refine (this.congr_deriv ?_).deriv
      simp only [Pi.pow_apply, Pi.sub_apply]
      rw [hE2]
      have : p - 3 ≠ 0 := by linarith
      field_simp
      ring

/-- **C07.** The polar and azimuthal Mino frequencies of a Schwarzschild orbit have equal magnitude,
the magnitude `√(L² + Q)` of the total angular momentum of the constants it returns. -/
theorem C07_frequencies (rs : RootScalar) (p e x : ℝ) (m : MinoFreqs) (E L Q : ℝ)
    (hm : minoFrequencies rs 0 p e x = .ok m)
    (hc : constantsOfMotion rs 0 p e x = .ok (E, L, Q)) :
    m.upsilonTheta = √(L ^ 2 + Q) ∧ |m.upsilonPhi| = √(L ^ 2 + Q)
      ∧ (0 < x → 0 < m.upsilonPhi) ∧ (x < 0 → m.upsilonPhi < 0) := by
  rw [minoFrequencies_eq] at hm
  obtain ⟨u, hg, hm⟩ := bind_eq_ok.mp hm
  have hfg := (minoGuard_ok_iff _ _ _ _ _).mp hg
  obtain ⟨hcg, hx0, he1⟩ := (frequencyGuard_ok_iff _ _ _ _ _).mp hfg
  have h := (constantsGuard_iff rs 0 p e x).mp hcg
  have hcc := C07_constants rs p e x h
  rw [hc] at hcc
  have hcc := Except.ok.inj hcc
  simp only [Prod.mk.injEq] at hcc
  obtain ⟨-, hL, hQ⟩ := hcc
  obtain ⟨⟨he, hel⟩, hx, hp⟩ := schwarzschild_bound h
  have h0 : sa 0 = 0 := abs_zero
  have hsx : sx 0 x = x := by simp [sx, copysign1]
  rw [hsx] at hx0
  rw [h0, hsx] at hm
  have hm := Except.ok.inj hm
  have hee : e ^ 2 ≤ 1 := by nlinarith
  have hp0 : 0 < p := by linarith
  have hp3 : 0 < p - 3 - e ^ 2 := by nlinarith
  have hs := Real.sq_sqrt hp3.le
  have hs0 := Real.sqrt_pos.mpr hp3
  have hT : √(L ^ 2 + Q) = p / √(p - 3 - e ^ 2) := by
    rw [hL, hQ, show (x * p / √(p - 3 - e ^ 2)) ^ 2 + (1 - x ^ 2) * p ^ 2 / (p - 3 - e ^ 2)
      = (p / √(p - 3 - e ^ 2)) ^ 2 by rw [div_pow, div_pow, hs]; ring]
    exact Real.sqrt_sq (by positivity)
  have hT0 : 0 < p / √(p - 3 - e ^ 2) := by positivity
  have heq : (-3 - e ^ 2 + p) = p - 3 - e ^ 2 := by ring
  rw [← hm, hT]
  simp only [pureMino, pureTheta, purePhi, if_true, heq]
  refine ⟨?_, ?_, ?_, ?_⟩
  · split_ifs with h1
    · rcases lt_or_gt_of_ne hx0 with h | h
      · rw [Real.sign_of_neg h, mul_neg_one, abs_neg, abs_of_pos hT0]
      · rw [Real.sign_of_pos h, mul_one, abs_of_pos hT0]
    · rw [mul_one, abs_of_pos hT0]
  · rw [mul_div_assoc, abs_mul]
    rcases lt_or_gt_of_ne hx0 with h | h
    · rw [Real.sign_of_neg h, abs_neg, abs_one, one_mul, abs_of_pos hT0]
    · rw [Real.sign_of_pos h, abs_one, one_mul, abs_of_pos hT0]
  · intro h; rw [Real.sign_of_pos h, one_mul]; exact hT0
  · intro h; rw [Real.sign_of_neg h, mul_div_assoc]; linarith

/-- Bound orbits as in C06 and C07 exist. -/
example : Spec.BoundOrbit exampleRS (9 / 10) 13 (1 / 2) 0 ∧ Spec.BoundOrbit exampleRS (-9 / 10) 13 0 0
    ∧ Spec.BoundOrbit exampleRS (9 / 10) 13 1 0 ∧ Spec.BoundOrbit exampleRS 0 13 (1 / 2) (-1 / 2) := by
  refine ⟨?_, ?_, ?_, ?_⟩ <;>
    exact C11_accepts_wide _ _ _ _ _ (by rw [abs_lt]; norm_num) (by norm_num) (by norm_num)
      (by rw [abs_le]; norm_num) (by norm_num)

end KGP
