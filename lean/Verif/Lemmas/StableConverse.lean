import Verif.Lemmas.SchmidtInner
import Verif.Lemmas.SepInner

/-!
# A prograde bound orbit is on the decreasing branch

The Jacobian of the two turning-point conditions with respect to `(E, L)` has a definite sign for a
prograde bound orbit along which `E (r² + a²) - a L` keeps its sign.  Hence the quadratic for `E²` is
decreasing at such an orbit, and no two of them share their turning points.
-/

namespace KGP.Schmidt

open Classical Real SepCert

/-- the Jacobian at two radii -/
lemma jac_two {a i y E X k1 k2 P1 P2 D1 D2 A1 A2 : ℝ} (hX : X * i = 1)
    (hP1 : P1 = E * k1 + a * y) (hP2 : P2 = E * k2 + a * y) (hA1 : A1 = k1 + a ^ 2 * X)
    (hA2 : A2 = k2 + a ^ 2 * X) (h1 : P1 ^ 2 = D1 * (k1 + y ^ 2 * i)) (h2 : P2 ^ 2 = D2 * (k2 + y ^ 2 * i)) :
    (k1 + y ^ 2 * i) * (k2 + y ^ 2 * i)
        * ((A1 * P1 - a * D1 * y) * (a * P2 - D2 * y * i) - (a * P1 - D1 * y * i) * (A2 * P2 - a * D2 * y))
      = P1 * P2 * (k1 - k2) * (k1 * k2) * (a - E * y * i) := by
  have e1 : (A1 * P1 - a * D1 * y) * (a * P2 - D2 * y * i) - (a * P1 - D1 * y * i) * (A2 * P2 - a * D2 * y)
      = a * P1 * P2 * (k1 - k2) - y * i * k1 * P1 * D2 + y * i * k2 * P2 * D1 := by
    rw [hA1, hA2]
    linear_combination (-(a ^ 2 * y * P1 * D2) + a ^ 2 * y * P2 * D1) * hX
  rw [e1]
  have e2 : (k1 + y ^ 2 * i) * (k2 + y ^ 2 * i)
      * (a * P1 * P2 * (k1 - k2) - y * i * k1 * P1 * D2 + y * i * k2 * P2 * D1)
      = P1 * P2 * ((k1 + y ^ 2 * i) * (k2 + y ^ 2 * i) * a * (k1 - k2)
        - y * i * k1 * (k1 + y ^ 2 * i) * P2 + y * i * k2 * (k2 + y ^ 2 * i) * P1) := by
    linear_combination (y * i * k1 * P1 * (k1 + y ^ 2 * i)) * h2 - (y * i * k2 * P2 * (k2 + y ^ 2 * i)) * h1
  rw [e2]
  have e3 : (k1 + y ^ 2 * i) * (k2 + y ^ 2 * i) * a * (k1 - k2)
        - y * i * k1 * (k1 + y ^ 2 * i) * P2 + y * i * k2 * (k2 + y ^ 2 * i) * P1
      = (k1 - k2) * (k1 * k2) * (a - E * y * i) := by
    rw [hP1, hP2]; ring
  rw [e3]; ring

/-- the Jacobian at a double root -/
lemma jac_one {a i y E X k P r Δ Δ' A : ℝ} (hX : X * i = 1)
    (hP : P = E * k + a * y) (hA : A = k + a ^ 2 * X) (h1 : P ^ 2 = Δ * (k + y ^ 2 * i))
    (h2 : 2 * P * (2 * r * E) = Δ' * (k + y ^ 2 * i) + Δ * (2 * r)) :
    (k + y ^ 2 * i) ^ 2
        * ((A * P - a * Δ * y) * (a * (2 * r * E) - Δ' * y * i)
          - (a * P - Δ * y * i) * (2 * r * P + A * (2 * r * E) - a * Δ' * y))
      = -(2 * r * P ^ 2 * k ^ 2 * (a - E * y * i)) := by
  have e1 : (A * P - a * Δ * y) * (a * (2 * r * E) - Δ' * y * i)
          - (a * P - Δ * y * i) * (2 * r * P + A * (2 * r * E) - a * Δ' * y)
      = -(y * i * k) * Δ' * P + y * i * k * Δ * (2 * r * E) - 2 * r * a * P ^ 2 + 2 * r * Δ * y * i * P := by
    rw [hA]
    linear_combination (-(a ^ 2 * y * P * Δ') + a ^ 2 * y * Δ * (2 * r * E)) * hX
  rw [e1]
  have e2 : (k + y ^ 2 * i) ^ 2 * (-(y * i * k) * Δ' * P + y * i * k * Δ * (2 * r * E) - 2 * r * a * P ^ 2
        + 2 * r * Δ * y * i * P)
      = 2 * r * P ^ 2 * (-(y * i * k * E * (k + y ^ 2 * i)) + y * i * k * P - a * (k + y ^ 2 * i) ^ 2
        + y * i * P * (k + y ^ 2 * i)) := by
    linear_combination (y * i * k * P * (k + y ^ 2 * i)) * h2
      - (2 * r * y * i * k * E * (k + y ^ 2 * i) + 2 * r * y * i * P * (k + y ^ 2 * i)
          + 2 * r * y * i * k * P) * h1
  rw [e2]
  have e3 : -(y * i * k * E * (k + y ^ 2 * i)) + y * i * k * P - a * (k + y ^ 2 * i) ^ 2
        + y * i * P * (k + y ^ 2 * i) = -(k ^ 2 * (a - E * y * i)) := by
    rw [hP]; ring
  rw [e3]; ring

lemma alpha_beta {a x r E L : ℝ} (hx0 : x ≠ 0) (hx : x ^ 2 ≤ 1) :
    (coefficients r a x).f * E - (coefficients r a x).g * L
        = (r ^ 2 + a ^ 2) * (E * (r ^ 2 + a ^ 2) - a * L) - a * (r ^ 2 - 2 * r + a ^ 2) * (a * E * x ^ 2 - L)
    ∧ (coefficients r a x).g * E + (coefficients r a x).h * L
        = a * (E * (r ^ 2 + a ^ 2) - a * L)
          - (r ^ 2 - 2 * r + a ^ 2) * (a * E * x ^ 2 - L) * (x ^ 2)⁻¹ := by
  have hz : √(1 - x ^ 2) ^ 2 = 1 - x ^ 2 := Real.sq_sqrt (by linarith)
  constructor
  · simp only [coefficients, hz]; ring
  · simp only [coefficients, hz, show 1 - (1 - x ^ 2) = x ^ 2 by ring]; field_simp; ring

lemma alpha_beta' {a x r E L : ℝ} (hx0 : x ≠ 0) (hx : x ^ 2 ≤ 1) :
    (coefficientsDerivative r a x).f * E - (coefficientsDerivative r a x).g * L
        = 2 * r * (E * (r ^ 2 + a ^ 2) - a * L) + (r ^ 2 + a ^ 2) * (2 * r * E)
          - a * (2 * r - 2) * (a * E * x ^ 2 - L)
    ∧ (coefficientsDerivative r a x).g * E + (coefficientsDerivative r a x).h * L
        = a * (2 * r * E) - (2 * r - 2) * (a * E * x ^ 2 - L) * (x ^ 2)⁻¹ := by
  have hz : √(1 - x ^ 2) ^ 2 = 1 - x ^ 2 := Real.sq_sqrt (by linarith)
  constructor
  · simp only [coefficientsDerivative, hz]; ring
  · simp only [coefficientsDerivative, hz, show 1 - (1 - x ^ 2) = x ^ 2 by ring]; field_simp; ring

/-- The potential as `P² - Δ K`. -/
lemma R_form {a x E L : ℝ} (hx0 : x ≠ 0) (hx : x ^ 2 ≤ 1) (t : ℝ) :
    Spec.R a E L (carterFormula a x E L) t = (E * (t ^ 2 + a ^ 2) - a * L) ^ 2
      - (t ^ 2 - 2 * t + a ^ 2)
        * (t ^ 2 + (1 - x ^ 2) * a ^ 2 + (a * E * x ^ 2 - L) ^ 2 * (x ^ 2)⁻¹) := by
  rw [carterFormula_eq hx]
  unfold Spec.R Spec.Delta
  field_simp
  ring

/-- The bracket `a η x² E² + ρ E L + 2 a T L²` from the Jacobian. -/
lemma bracket_of_dets {c a x u v E L : ℝ} {c1 c2 : Coeffs} (hx0 : x ≠ 0)
    (D : Dets c a (x ^ 2) u v (1 - x ^ 2) c1 c2) :
    c * (a * etaH u v (a ^ 2) (1 - x ^ 2) * (x ^ 2 * E ^ 2) + rhoH u v (a ^ 2) (1 - x ^ 2) * (E * L)
        + 2 * a * TH v (a ^ 2) (1 - x ^ 2) * L ^ 2)
      = x ^ 2 * ((c1.f * E - c1.g * L) * (c2.g * E + c2.h * L)
        - (c1.g * E + c1.h * L) * (c2.f * E - c2.g * L)) := by
  obtain ⟨-, d2, d3, -, d5⟩ := D
  have hX : x ^ 2 ≠ 0 := pow_ne_zero 2 hx0
  have e1 : (c1.f * E - c1.g * L) * (c2.g * E + c2.h * L) - (c1.g * E + c1.h * L) * (c2.f * E - c2.g * L)
      = (c1.f * c2.g - c1.g * c2.f) * E ^ 2 + (c1.f * c2.h - c1.h * c2.f) * (E * L)
        - (c1.g * c2.h - c1.h * c2.g) * L ^ 2 := by ring
  rw [e1, d2, d3, d5]
  field_simp
  ring

lemma pos_of_mul_eq {c b j : ℝ} (hc : 0 < c) (h : c * b = j) (hj : 0 < j) : 0 < b := by
  rw [← h] at hj
  exact (pos_iff_pos_of_mul_pos hj).mp hc

lemma jac_comb {K c B X J M : ℝ} (key : c * B = X * J) (j : K * J = M) : K * c * B = X * M := by
  linear_combination K * key + X * j

lemma jac_comb' {K B X J M : ℝ} (key : -1 * B = X * J) (j : K * J = -M) : K * B = X * M := by
  linear_combination -K * key - X * j

/-- The sign of the Jacobian. -/
lemma bracket_pos {a p e x E L : ℝ} (ha : 0 < a) (hp : 0 < p) (he : 0 ≤ e) (he1 : e < 1) (hx0 : 0 < x)
    (hx : x ^ 2 ≤ 1) (hE : 0 < E) (hE1 : E ^ 2 ≤ 1) (hL : 0 < L)
    (hT : Spec.TurningPoints a E L (carterFormula a x E L) p e)
    (hPP : 0 < (E * ((p / (1 - e)) ^ 2 + a ^ 2) - a * L) * (E * ((p / (1 + e)) ^ 2 + a ^ 2) - a * L)) :
    0 < a * etaH (2 * p / (1 - e ^ 2)) (p ^ 2 / (1 - e ^ 2)) (a ^ 2) (1 - x ^ 2) * (x ^ 2 * E ^ 2)
      + rhoH (2 * p / (1 - e ^ 2)) (p ^ 2 / (1 - e ^ 2)) (a ^ 2) (1 - x ^ 2) * (E * L)
      + 2 * a * TH (p ^ 2 / (1 - e ^ 2)) (a ^ 2) (1 - x ^ 2) * L ^ 2 := by
  have hm : 0 < 1 - e := by linarith
  have hpl : 0 < 1 + e := by linarith
  have hX : 0 < x ^ 2 := by positivity
  have hXi : x ^ 2 * (x ^ 2)⁻¹ = 1 := mul_inv_cancel₀ hX.ne'
  have hw : 0 ≤ (1 - x ^ 2) * a ^ 2 := mul_nonneg (by linarith) (sq_nonneg a)
  have hfac : 0 < a - E * (a * E * x ^ 2 - L) * (x ^ 2)⁻¹ := by
    have : a - E * (a * E * x ^ 2 - L) * (x ^ 2)⁻¹ = a * (1 - E ^ 2) + E * L * (x ^ 2)⁻¹ := by
      linear_combination -(a * E ^ 2) * hXi
    rw [this]
    have : 0 ≤ a * (1 - E ^ 2) := mul_nonneg ha.le (by linarith)
    positivity
  have hK : ∀ r : ℝ, 0 < r →
      0 < r ^ 2 + (1 - x ^ 2) * a ^ 2 + (a * E * x ^ 2 - L) ^ 2 * (x ^ 2)⁻¹ := fun r hr => by positivity
  have hk : ∀ r : ℝ, 0 < r → 0 < r ^ 2 + (1 - x ^ 2) * a ^ 2 := fun r hr => by positivity
  obtain ⟨t1, t2, t3⟩ := hT
  by_cases h0 : e = 0
  · subst h0
    rw [sub_zero, div_one] at t1 hPP
    rw [show (2 * p / (1 - (0:ℝ) ^ 2)) = p + p by norm_num; ring,
      show (p ^ 2 / (1 - (0:ℝ) ^ 2)) = p * p by norm_num; ring]
    have t3 := t3 rfl
    have key := bracket_of_dets (E := E) (L := L) hx0.ne' (dets_circular p a x hx0.ne' hx)
    obtain ⟨α, β⟩ := alpha_beta (a := a) (r := p) (E := E) (L := L) hx0.ne' hx
    obtain ⟨α', β'⟩ := alpha_beta' (a := a) (r := p) (E := E) (L := L) hx0.ne' hx
    rw [α, β, α', β'] at key
    rw [R_form hx0.ne' hx] at t1
    -- the derivative of the potential
    have hd : HasDerivAt (Spec.R a E L (carterFormula a x E L))
        (2 * (E * (p ^ 2 + a ^ 2) - a * L) * (2 * p * E)
          - ((2 * p - 2) * (p ^ 2 + (1 - x ^ 2) * a ^ 2 + (a * E * x ^ 2 - L) ^ 2 * (x ^ 2)⁻¹)
            + (p ^ 2 - 2 * p + a ^ 2) * (2 * p))) p := by
      have e1 : Spec.R a E L (carterFormula a x E L) = fun t => (E * (t ^ 2 + a ^ 2) - a * L) ^ 2
        - (t ^ 2 - 2 * t + a ^ 2)
          * (t ^ 2 + (1 - x ^ 2) * a ^ 2 + (a * E * x ^ 2 - L) ^ 2 * (x ^ 2)⁻¹) := by
        funext t; exact R_form hx0.ne' hx t
      rw [e1]
      have hsq : HasDerivAt (fun t : ℝ => t ^ 2) (2 * p) p := by simpa using hasDerivAt_pow 2 p
      have d1 := (((hsq.add_const (a ^ 2)).const_mul E).sub_const (a * L)).pow 2
      have d2 := (hsq.sub ((hasDerivAt_id p).const_mul 2)).add_const (a ^ 2)
      have d3 := (hsq.add_const ((1 - x ^ 2) * a ^ 2)).add_const ((a * E * x ^ 2 - L) ^ 2 * (x ^ 2)⁻¹)
      refine ((d1.sub (d2.mul d3)).congr_deriv ?_)
      simp only [Pi.sub_apply, id]
      push_cast
      ring
    rw [hd.deriv] at t3
    have j := jac_one (a := a) (i := (x ^ 2)⁻¹) (y := a * E * x ^ 2 - L) (E := E) (X := x ^ 2)
      (k := p ^ 2 + (1 - x ^ 2) * a ^ 2) (P := E * (p ^ 2 + a ^ 2) - a * L) (r := p)
      (Δ := p ^ 2 - 2 * p + a ^ 2) (Δ' := 2 * p - 2) (A := p ^ 2 + a ^ 2) hXi (by ring) (by ring)
      (by linarith) (by linarith)
    have hP0 : E * (p ^ 2 + a ^ 2) - a * L ≠ 0 := by
      intro h
      rw [h, zero_mul] at hPP; exact lt_irrefl _ hPP
    have := hK p hp
    have := hk p hp
    refine pos_of_mul_eq ?_ (jac_comb' key j) ?_ <;> positivity
  · obtain ⟨r, er⟩ : ∃ r, r = p / (1 - e) := ⟨_, rfl⟩
    obtain ⟨s, es⟩ : ∃ s, s = p / (1 + e) := ⟨_, rfl⟩
    have hu : r + s = 2 * p / (1 - e ^ 2) := by
      have : (1 - e ^ 2) = (1 - e) * (1 + e) := by ring
      rw [er, es, this]; field_simp; ring
    have hv : r * s = p ^ 2 / (1 - e ^ 2) := by
      have : (1 - e ^ 2) = (1 - e) * (1 + e) := by ring
      rw [er, es, this]; field_simp
    have hne : 0 < r - s := by
      have he0 : 0 < e := lt_of_le_of_ne he (Ne.symm h0)
      have : r - s = 2 * e * p / ((1 - e) * (1 + e)) := by rw [er, es]; field_simp; ring
      rw [this]; positivity
    have hr : 0 < r := by rw [er]; positivity
    have hs : 0 < s := by rw [es]; positivity
    rw [← er] at t1 hPP
    rw [← es] at t2 hPP
    rw [← hu, ← hv]
    have key := bracket_of_dets (E := E) (L := L) hx0.ne' (dets_two r s a x hx0.ne' hx)
    obtain ⟨α, β⟩ := alpha_beta (a := a) (r := r) (E := E) (L := L) hx0.ne' hx
    obtain ⟨α', β'⟩ := alpha_beta (a := a) (r := s) (E := E) (L := L) hx0.ne' hx
    rw [α, β, α', β'] at key
    rw [R_form hx0.ne' hx] at t1 t2
    have j := jac_two (a := a) (i := (x ^ 2)⁻¹) (y := a * E * x ^ 2 - L) (E := E) (X := x ^ 2)
      (k1 := r ^ 2 + (1 - x ^ 2) * a ^ 2) (k2 := s ^ 2 + (1 - x ^ 2) * a ^ 2)
      (P1 := E * (r ^ 2 + a ^ 2) - a * L) (P2 := E * (s ^ 2 + a ^ 2) - a * L)
      (D1 := r ^ 2 - 2 * r + a ^ 2) (D2 := s ^ 2 - 2 * s + a ^ 2) (A1 := r ^ 2 + a ^ 2)
      (A2 := s ^ 2 + a ^ 2) hXi (by ring) (by ring) (by ring) (by ring) (by linarith) (by linarith)
    have := hK r hr
    have := hk r hr
    have := hK s hs
    have := hk s hs
    refine pos_of_mul_eq ?_ (jac_comb key j) ?_
    · positivity
    · have hkk : r ^ 2 + (1 - x ^ 2) * a ^ 2 - (s ^ 2 + (1 - x ^ 2) * a ^ 2) = (r - s) * (r + s) := by ring
      rw [hkk]
      positivity

/-- The quadratic for `E²` is decreasing at a prograde bound orbit. -/
lemma slope_neg {a p e x E L : ℝ} (ha : 0 < a) (ha1 : a < 1) (hp : 1 + e ≤ p) (he : 0 ≤ e) (he1 : e < 1)
    (hx0 : 0 < x) (hx : x ^ 2 ≤ 1) (hE : 0 < E) (hE1 : E ^ 2 ≤ 1) (hL : 0 < L)
    (hT : Spec.TurningPoints a E L (carterFormula a x E L) p e)
    (hPP : 0 < (E * ((p / (1 - e)) ^ 2 + a ^ 2) - a * L) * (E * ((p / (1 + e)) ^ 2 + a ^ 2) - a * L)) :
    WS p (1 - e ^ 2) (a ^ 2) (1 - x ^ 2) * E ^ 2 < NS p (1 - e ^ 2) (a ^ 2) (1 - x ^ 2) := by
  have hA : 0 < a ^ 2 := by positivity
  have hA1 : a ^ 2 < 1 := by nlinarith
  have hw : 0 ≤ 1 - x ^ 2 := by linarith
  have hw1 : 1 - x ^ 2 ≤ 1 := by linarith [sq_nonneg x]
  have hl : 0 < 1 - e ^ 2 := by nlinarith
  have hp0 : 0 < p := by linarith
  have hX1 : 1 - (1 - x ^ 2) = x ^ 2 := by ring
  have hb := bracket_pos ha hp0 he he1 hx0 hx hE hE1 hL hT hPP
  obtain ⟨r1, r2⟩ := relations_pe ha.ne' hp0.ne' he he1 hx0.ne' hx hT
  obtain ⟨s1, s2, s3, s4, s5, s6, s7, s8⟩ := scale (p := p) (A := a ^ 2) (w := 1 - x ^ 2) hl.ne'
  have k4 := (TS_pos_inner hA hA1 he he1 hw hw1 hp).1
  have hTH : 0 < TH (p ^ 2 / (1 - e ^ 2)) (a ^ 2) (1 - x ^ 2) := by rw [s6]; positivity
  have l6 : 0 < 4 / (1 - e ^ 2) ^ 6 := by positivity
  have key : WH (2 * p / (1 - e ^ 2)) (p ^ 2 / (1 - e ^ 2)) (a ^ 2) (1 - x ^ 2) * E ^ 2
      < NH (2 * p / (1 - e ^ 2)) (p ^ 2 / (1 - e ^ 2)) (a ^ 2) (1 - x ^ 2) := by
    clear s1 s2 s3 s4 s5 s6 s7 s8
    unfold WH NH
    rw [hX1]
    generalize kapH (2 * p / (1 - e ^ 2)) (p ^ 2 / (1 - e ^ 2)) (a ^ 2) (1 - x ^ 2) = κ at *
    generalize rhoH (2 * p / (1 - e ^ 2)) (p ^ 2 / (1 - e ^ 2)) (a ^ 2) (1 - x ^ 2) = ρ at *
    generalize epsH (2 * p / (1 - e ^ 2)) (p ^ 2 / (1 - e ^ 2)) (a ^ 2) (1 - x ^ 2) = ε at *
    generalize etaH (2 * p / (1 - e ^ 2)) (p ^ 2 / (1 - e ^ 2)) (a ^ 2) (1 - x ^ 2) = η at *
    generalize TH (p ^ 2 / (1 - e ^ 2)) (a ^ 2) (1 - x ^ 2) = T at *
    have h1 : 0 < 4 * a * T * (a * η * (x ^ 2 * E ^ 2) + ρ * (E * L) + 2 * a * T * L ^ 2) := by positivity
    have h2 : 4 * a * T * (a * η * (x ^ 2 * E ^ 2) + ρ * (E * L) + 2 * a * T * L ^ 2)
        = (κ * ρ - 4 * a ^ 2 * x ^ 2 * ε * T) - (ρ ^ 2 - 8 * a ^ 2 * x ^ 2 * η * T) * E ^ 2 := by
      linear_combination ρ * r1 - 4 * a ^ 2 * T * r2
    linarith
  rw [s7, s8, mul_assoc] at key
  exact lt_of_mul_lt_mul_left key l6.le

/-- `P = E (r² + a²) - a L` does not change sign where the potential is not negative. -/
lemma same_sign {a x r s E L : ℝ} (hx0 : 0 < x) (hx : x ^ 2 ≤ 1) (hE : 0 < E) (hs : 1 ≤ s) (hsr : s ≤ r)
    (hds : 0 < s * (s - 2) + a ^ 2)
    (hnn : ∀ t, s ≤ t → t ≤ r → 0 ≤ Spec.R a E L (carterFormula a x E L) t) :
    0 < (E * (r ^ 2 + a ^ 2) - a * L) * (E * (s ^ 2 + a ^ 2) - a * L) := by
  have hX : 0 < x ^ 2 := by positivity
  have hw0 : 0 ≤ 1 - x ^ 2 := by linarith
  have hPt : ∀ t, s ≤ t → t ≤ r → E * (t ^ 2 + a ^ 2) - a * L ≠ 0 := by
    intro t h1 h2 h0
    have := hnn t h1 h2
    rw [R_form hx0.ne' hx, h0] at this
    have ht : 0 < t := by linarith
    have k1 : 0 < t ^ 2 + (1 - x ^ 2) * a ^ 2 + (a * E * x ^ 2 - L) ^ 2 * (x ^ 2)⁻¹ := by positivity
    have k2 : 0 < t ^ 2 - 2 * t + a ^ 2 := by
      have : 0 ≤ (t - s) * (t + s - 2) := mul_nonneg (by linarith) (by linarith)
      linarith
    have := mul_pos k2 k1
    linarith
  by_contra hcon
  have hmono : E * (s ^ 2 + a ^ 2) - a * L ≤ E * (r ^ 2 + a ^ 2) - a * L := by
    have : s ^ 2 ≤ r ^ 2 := by nlinarith
    have := mul_le_mul_of_nonneg_left this hE.le
    linarith
  have hPr := hPt r hsr le_rfl
  have hPs := hPt s le_rfl hsr
  have h1 : E * (s ^ 2 + a ^ 2) - a * L ≤ 0 := by
    by_contra h
    exact hcon (mul_pos (by linarith) (by linarith))
  have h2 : 0 ≤ E * (r ^ 2 + a ^ 2) - a * L := by
    by_contra h
    exact hcon (mul_pos_of_neg_of_neg (by linarith) (by linarith))
  have hcont : ContinuousOn (fun t : ℝ => E * (t ^ 2 + a ^ 2) - a * L) (Set.Icc s r) := by fun_prop
  obtain ⟨t, ⟨ht1, ht2⟩, ht⟩ := intermediate_value_Icc hsr hcont (Set.mem_Icc.mpr ⟨h1, h2⟩)
  exact hPt t ht1 ht2 ht

/-- `D > 0` for an orbit whose four roots are ordered. -/
lemma D_of_roots {r1 r2 r3 r4 u : ℝ} (hu : 0 ≤ u) (hu1 : u < 1) (h21 : r2 ≤ r1) (h32 : r3 < r2) (h3 : 1 ≤ r3)
    (h4 : 0 ≤ r4) (h41 : r4 ≤ 1)
    (hm : r3 * r4 * (r1 * r2 - u) = u * (r1 * r2 + (r1 + r2) * (r3 + r4) - u)) :
    0 < r1 * r2 ^ 2 - u * (r1 + 2 * r2) := by
  by_contra hcon
  have hr2 : 0 < r2 := by linarith
  have hr1 : 0 < r1 := by linarith
  have hr3 : 0 < r3 := by linarith
  have h5 : r1 * r2 ^ 2 ≤ u * (r1 + 2 * r2) := by linarith
  -- `u ≥ r2²/3`
  have h6 : r2 ^ 2 ≤ 3 * u := by
    have : u * (r1 + 2 * r2) ≤ u * (3 * r1) := mul_le_mul_of_nonneg_left (by linarith) hu
    have : r1 * (r2 ^ 2) ≤ r1 * (3 * u) := by linarith
    exact le_of_mul_le_mul_left this hr1
  have hu0 : 0 < u := by nlinarith
  -- `r1 r2 r3 r4 > u r1 (r2 + r3 + r4 ...)`
  have h7 : r1 * (r2 * (r3 * r4)) = u * (r1 * r2 + r1 * r3 + r1 * r4) + u * (r2 * r3 - u) + u * (r2 * r4 + r3 * r4) := by
    linarith
  have h8 : 0 < u * (r2 * r3 - u) := mul_pos hu0 (by nlinarith)
  have h9 : 0 ≤ u * (r2 * r4 + r3 * r4) := by positivity
  have h10 : r1 * (u * (r2 + r3 + r4)) < r1 * (r2 * (r3 * r4)) := by linarith
  have h11 : u * (r2 + r3 + r4) < r2 * (r3 * r4) := lt_of_mul_lt_mul_left h10 hr1.le
  have h12 : r2 * (r3 * r4) ≤ r2 * r3 := by
    have := mul_le_mul_of_nonneg_left h41 (mul_pos hr2 hr3).le
    linarith
  have h13 : r2 ^ 2 * (r2 + r3 + r4) ≤ 3 * u * (r2 + r3 + r4) :=
    mul_le_mul_of_nonneg_right h6 (by linarith)
  -- `r2 (r2 + r3 + r4) < 3 r3 r4`
  have h14 : r2 * (r2 * (r2 + r3 + r4)) < r2 * (3 * (r3 * r4)) := by linarith
  have h15 := lt_of_mul_lt_mul_left h14 hr2.le
  have h16 : r3 * r4 ≤ r2 * r4 := mul_le_mul_of_nonneg_right h32.le h4
  have h17 : r3 * r4 ≤ r3 := by nlinarith
  have h18 : r3 ≤ r2 * r3 := by nlinarith
  have h19 : r2 * r3 ≤ r2 * r2 := mul_le_mul_of_nonneg_left h32.le hr2.le
  linarith

/-- A second root on the decreasing side would have to be beyond the first. -/
lemma other_root {W N κ t m d : ℝ} (hd : 0 < d)
    (hq : W * t ^ 2 - 2 * N * t + κ ^ 2 = 0) (hs : W * t < N) (htm : t * d < m)
    (hS : 0 ≤ W * m ^ 2 - 2 * N * m * d + κ ^ 2 * d ^ 2) :
    ∃ t', t < t' ∧ t' * d ≤ m ∧ W * t' ^ 2 - 2 * N * t' + κ ^ 2 = 0 ∧ N < W * t' := by
  have h1 : W * m ^ 2 - 2 * N * m * d + κ ^ 2 * d ^ 2 = (m - t * d) * (W * (m + t * d) - 2 * N * d) := by
    linear_combination d ^ 2 * hq
  rw [h1] at hS
  have h2 : 0 ≤ W * (m + t * d) - 2 * N * d := nonneg_of_mul_nonneg_right hS (by linarith)
  have hW : 0 < W := by
    by_contra hcon
    have h3 : W * (m - t * d) ≤ 0 := mul_nonpos_of_nonpos_of_nonneg (not_lt.mp hcon) (by linarith)
    have h4 := mul_lt_mul_of_pos_right hs hd
    linarith
  refine ⟨2 * N / W - t, ?_, ?_, ?_, ?_⟩
  · rw [lt_sub_iff_add_lt, lt_div_iff₀ hW]; linarith
  · have : (2 * N / W - t) * d = (2 * N * d - W * (t * d)) / W := by field_simp
    rw [this, div_le_iff₀ hW]; linarith
  · field_simp; linear_combination W * hq
  · have : W * (2 * N / W - t) = 2 * N - W * t := by field_simp
    rw [this]; linarith

/-- The quadratic for `E²`. -/
lemma quad_of_turning {a p e x E L : ℝ} (ha : 0 < a) (hp0 : 0 < p) (he : 0 ≤ e)
    (he1 : e < 1) (hx0 : 0 < x) (hx : x ^ 2 ≤ 1)
    (hT : Spec.TurningPoints a E L (carterFormula a x E L) p e) :
    WS p (1 - e ^ 2) (a ^ 2) (1 - x ^ 2) * (E ^ 2) ^ 2
        - 2 * NS p (1 - e ^ 2) (a ^ 2) (1 - x ^ 2) * E ^ 2
        + kapS p (1 - e ^ 2) (a ^ 2) (1 - x ^ 2) ^ 2 = 0 := by
  have hl : 0 < 1 - e ^ 2 := by nlinarith
  have hX1 : 1 - (1 - x ^ 2) = x ^ 2 := by ring
  obtain ⟨h1, h2⟩ := relations_pe ha.ne' hp0.ne' he he1 hx0.ne' hx hT
  obtain ⟨s1, s2, s3, s4, s5, s6, s7, s8⟩ := scale (p := p) (A := a ^ 2) (w := 1 - x ^ 2) hl.ne'
  have l6 : 0 < 4 / (1 - e ^ 2) ^ 6 := by positivity
  have e36 : (2 / (1 - e ^ 2) ^ 3) ^ 2 = 4 / (1 - e ^ 2) ^ 6 := by
    rw [div_pow, ← pow_mul]; norm_num
  have h3 : WH (2 * p / (1 - e ^ 2)) (p ^ 2 / (1 - e ^ 2)) (a ^ 2) (1 - x ^ 2) * (E ^ 2) ^ 2
      - 2 * NH (2 * p / (1 - e ^ 2)) (p ^ 2 / (1 - e ^ 2)) (a ^ 2) (1 - x ^ 2) * E ^ 2
      + kapH (2 * p / (1 - e ^ 2)) (p ^ 2 / (1 - e ^ 2)) (a ^ 2) (1 - x ^ 2) ^ 2 = 0 := by
    clear s1 s2 s3 s4 s5 s6 s7 s8
    unfold WH NH
    rw [hX1]
    generalize kapH (2 * p / (1 - e ^ 2)) (p ^ 2 / (1 - e ^ 2)) (a ^ 2) (1 - x ^ 2) = κ at *
    generalize rhoH (2 * p / (1 - e ^ 2)) (p ^ 2 / (1 - e ^ 2)) (a ^ 2) (1 - x ^ 2) = ρ at *
    generalize epsH (2 * p / (1 - e ^ 2)) (p ^ 2 / (1 - e ^ 2)) (a ^ 2) (1 - x ^ 2) = ε at *
    generalize etaH (2 * p / (1 - e ^ 2)) (p ^ 2 / (1 - e ^ 2)) (a ^ 2) (1 - x ^ 2) = η at *
    generalize TH (p ^ 2 / (1 - e ^ 2)) (a ^ 2) (1 - x ^ 2) = T at *
    linear_combination (ρ * E ^ 2 - 4 * a * T * (E * L) - κ) * h1 - 8 * a ^ 2 * T * E ^ 2 * h2
  rw [s1, s7, s8] at h3
  have : 4 / (1 - e ^ 2) ^ 6 * (WS p (1 - e ^ 2) (a ^ 2) (1 - x ^ 2) * (E ^ 2) ^ 2
      - 2 * NS p (1 - e ^ 2) (a ^ 2) (1 - x ^ 2) * E ^ 2
      + kapS p (1 - e ^ 2) (a ^ 2) (1 - x ^ 2) ^ 2) = 0 := by
    linear_combination h3 - kapS p (1 - e ^ 2) (a ^ 2) (1 - x ^ 2) ^ 2 * e36
  exact (mul_eq_zero.mp this).resolve_left l6.ne'

/-- No bound orbit with `p ≤ 4` has `a L ≤ 0`. -/
lemma four_lt_of_retro {r1 r2 r3 r4 b A E L Q al : ℝ} (hb : 0 < b) (hA : 0 ≤ A) (hA1 : A < 1) (hE : E ^ 2 = 1 - b)
    (hE0 : 0 ≤ E) (hal : al ≤ 0)
    (h21 : r2 ≤ r1) (h32 : r3 < r2) (h3 : 1 ≤ r3) (h4 : 0 ≤ r4) (h41 : r4 ≤ 1)
    (v1 : b * (r1 + r2 + r3 + r4) = 2)
    (v2 : b * (r1 * r2 + (r1 + r2) * (r3 + r4) + r3 * r4) = A * b + L ^ 2 + Q)
    (v3 : b * (r1 * r2 * (r3 + r4) + r3 * r4 * (r1 + r2)) = 2 * (A * E ^ 2 - 2 * al * E + L ^ 2 + Q)) :
    2 * (r1 + r2) < r1 * r2 := by
  by_contra hcon
  have hcon := not_lt.mp hcon
  have hr2 : 1 < r2 := by linarith
  have hr1 : 1 < r1 := by linarith
  have k1 : 0 ≤ -(al * E) := by
    have := mul_nonneg (neg_nonneg.mpr hal) hE0
    linarith
  have k2 : 0 ≤ b * (r1 * r2 * (r3 + r4) + r3 * r4 * (r1 + r2)
      - 2 * (r1 * r2 + (r1 + r2) * (r3 + r4) + r3 * r4) + 4 * A - A * (r1 + r2 + r3 + r4)) := by
    have : b * (r1 * r2 * (r3 + r4) + r3 * r4 * (r1 + r2)
      - 2 * (r1 * r2 + (r1 + r2) * (r3 + r4) + r3 * r4) + 4 * A - A * (r1 + r2 + r3 + r4)) = -(4 * (al * E)) := by
      linear_combination v3 - 2 * v2 - A * v1 + 2 * A * hE
    rw [this]; linarith
  have k3 := nonneg_of_mul_nonneg_right k2 hb
  have k4 : r1 * r2 * (r3 + r4) ≤ 2 * (r1 + r2) * (r3 + r4) :=
    mul_le_mul_of_nonneg_right hcon (by linarith)
  have k5 : r3 * r1 ≤ r2 * r1 := mul_le_mul_of_nonneg_right h32.le (by linarith)
  have k6 : r3 * r2 ≤ r1 * r2 := mul_le_mul_of_nonneg_right (by linarith) (by linarith)
  have k7 : r4 * (r3 * (r1 + r2)) ≤ r4 * (2 * (r1 * r2)) := mul_le_mul_of_nonneg_left (by linarith) h4
  have k8 : 1 < r1 * r2 := by nlinarith
  have k9 : 0 ≤ (1 - r4) * (r1 * r2 - 1) := mul_nonneg (by linarith) (by linarith)
  -- `A (4 - σ₁) < 2 (1 - r4)` unless `r4 = 1`
  have k10 : A * (4 - (r1 + r2 + r3 + r4)) ≤ A * (1 - r4) := mul_le_mul_of_nonneg_left (by linarith) hA
  have k11 : A * (1 - r4) ≤ 1 * (1 - r4) := mul_le_mul_of_nonneg_right hA1.le (by linarith)
  have k12 : 0 ≤ r3 * r4 := by positivity
  have k13 : r4 ≤ r3 * r4 := le_mul_of_one_le_left h4 h3
  linarith

end KGP.Schmidt
