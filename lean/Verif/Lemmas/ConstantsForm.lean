import Verif.Props.ConstantsKerr

/-!
# One formula for the constants of motion

The code has separate formulas for polar, circular, parabolic and generic orbits.  They are all values of the same
expressions `formE`, `formY`.
-/

namespace KGP

open Classical Real Schmidt

namespace Form

def DDS (p l A : ℝ) : ℝ :=
  p ^ 4 - 4 * p ^ 3 + A * (4 * p ^ 2 - 2 * p ^ 2 * l) + 4 * p ^ 2 * l - 4 * A * p * l + A ^ 2 * l ^ 2
def SSS (p l A w : ℝ) : ℝ := p ^ 4 + A * w * (4 * p ^ 2 - 2 * p ^ 2 * l) + A ^ 2 * w ^ 2 * l ^ 2

noncomputable def E2 (a p e x : ℝ) : ℝ :=
  (NS p (1 - e ^ 2) (a ^ 2) (1 - x ^ 2) - 2 * (a * x) * (1 - e ^ 2) ^ 2
    * √(TS p (1 - e ^ 2) (a ^ 2) (1 - x ^ 2) ^ 3 * p * DDS p (1 - e ^ 2) (a ^ 2)
      * SSS p (1 - e ^ 2) (a ^ 2) (1 - x ^ 2))) / WS p (1 - e ^ 2) (a ^ 2) (1 - x ^ 2)

def H (r a x : ℝ) : ℝ := r * (r - 2) + a ^ 2 * (1 - x ^ 2)
def f (r a x : ℝ) : ℝ := r ^ 4 + a ^ 2 * (r * (r + 2) + (1 - x ^ 2) * (r ^ 2 - 2 * r + a ^ 2))
def d (r a x : ℝ) : ℝ := (r ^ 2 + a ^ 2 * (1 - x ^ 2)) * (r ^ 2 - 2 * r + a ^ 2)

/-- `L / x`, from the potential at one turning point `r`. -/
noncomputable def Y (r a x E : ℝ) : ℝ :=
  (-(2 * a * r * E * x) + √(-d r a x * H r a x + E ^ 2 * (4 * a ^ 2 * r ^ 2 * x ^ 2 + f r a x * H r a x)))
    / H r a x

/-- `(E, L, Q)` from `E²` and `Y = L/x`. -/
noncomputable def consts (a x E Y : ℝ) : Consts := (E, x * Y, (1 - x ^ 2) * (a ^ 2 * (1 - E ^ 2) + Y ^ 2))

lemma energy_generic {a p e x : ℝ} (ha : 0 ≤ a) (hp : 0 < p) (he : 0 ≤ e) (he1 : e < 1) (hx0 : x ≠ 0) (hx : x ^ 2 ≤ 1) :
    energyFormula a p e x = √(E2 a p e x) := by
  have hl : 0 < 1 - e ^ 2 := by nlinarith
  have hm : 0 < 1 - e := by linarith
  have hpl : 0 < 1 + e := by linarith
  obtain ⟨r, er⟩ : ∃ r, r = p / (1 - e) := ⟨_, rfl⟩
  obtain ⟨s, es⟩ : ∃ s, s = p / (1 + e) := ⟨_, rfl⟩
  have hu : r + s = 2 * p / (1 - e ^ 2) := by
    have : (1 - e ^ 2) = (1 - e) * (1 + e) := by ring
    rw [er, es, this]; field_simp; ring
  have hv : r * s = p ^ 2 / (1 - e ^ 2) := by
    have : (1 - e ^ 2) = (1 - e) * (1 + e) := by ring
    rw [er, es, this]; field_simp
  obtain ⟨s1, s2, s3, s4, s5, s6, s7, s8⟩ := scale (p := p) (A := a ^ 2) (w := 1 - x ^ 2) hl.ne'
  rw [(formulas_eq hp he he1 hx0 hx er es).1, hu, hv, s7, s8]
  unfold E2
  have hY : √(Y2H (2 * p / (1 - e ^ 2)) (p ^ 2 / (1 - e ^ 2)) (a ^ 2) (1 - x ^ 2))
      = 4 / (1 - e ^ 2) ^ 6 * (a * |x| * (1 - e ^ 2) ^ 2 * √(TS p (1 - e ^ 2) (a ^ 2) (1 - x ^ 2) ^ 3 * p
        * DDS p (1 - e ^ 2) (a ^ 2) * SSS p (1 - e ^ 2) (a ^ 2) (1 - x ^ 2))) := by
    have h1 : Y2H (2 * p / (1 - e ^ 2)) (p ^ 2 / (1 - e ^ 2)) (a ^ 2) (1 - x ^ 2)
        = (4 / (1 - e ^ 2) ^ 6 * (a * x * (1 - e ^ 2) ^ 2)) ^ 2 * (TS p (1 - e ^ 2) (a ^ 2) (1 - x ^ 2) ^ 3 * p
        * DDS p (1 - e ^ 2) (a ^ 2) * SSS p (1 - e ^ 2) (a ^ 2) (1 - x ^ 2)) := by
      unfold Y2H
      rw [s6]
      have hD : DDH (2 * p / (1 - e ^ 2)) (p ^ 2 / (1 - e ^ 2)) (a ^ 2)
          = DDS p (1 - e ^ 2) (a ^ 2) / (1 - e ^ 2) ^ 2 := by
        generalize 1 - e ^ 2 = l at *
        unfold DDH DDS; field_simp; ring
      have hS : SSH (2 * p / (1 - e ^ 2)) (p ^ 2 / (1 - e ^ 2)) (a ^ 2) (1 - x ^ 2)
          = SSS p (1 - e ^ 2) (a ^ 2) (1 - x ^ 2) / (1 - e ^ 2) ^ 2 := by
        generalize 1 - e ^ 2 = l at *
        unfold SSH SSS; field_simp; ring
      rw [hD, hS]
      generalize TS p (1 - e ^ 2) (a ^ 2) (1 - x ^ 2) = T
      generalize DDS p (1 - e ^ 2) (a ^ 2) = D
      generalize SSS p (1 - e ^ 2) (a ^ 2) (1 - x ^ 2) = S
      generalize 1 - e ^ 2 = l at *
      field_simp
      ring
    rw [h1, Real.sqrt_mul (sq_nonneg _), Real.sqrt_sq_eq_abs, abs_mul, abs_mul, abs_mul, abs_of_nonneg ha,
      abs_of_pos (show 0 < 4 / (1 - e ^ 2) ^ 6 by positivity), abs_of_pos (show 0 < (1 - e ^ 2) ^ 2 by positivity)]
    ring
  rw [hY]
  have hsx : Real.sign x * |x| = x := by
    rcases lt_or_gt_of_ne hx0 with h | h
    · rw [Real.sign_of_neg h, abs_of_neg h]; ring
    · rw [Real.sign_of_pos h, abs_of_pos h]; ring
  generalize √(TS p (1 - e ^ 2) (a ^ 2) (1 - x ^ 2) ^ 3 * p
        * DDS p (1 - e ^ 2) (a ^ 2) * SSS p (1 - e ^ 2) (a ^ 2) (1 - x ^ 2)) = q
  generalize NS p (1 - e ^ 2) (a ^ 2) (1 - x ^ 2) = N
  generalize WS p (1 - e ^ 2) (a ^ 2) (1 - x ^ 2) = W
  generalize 1 - e ^ 2 = l at *
  congr 1
  have : N - 2 * (a * x) * l ^ 2 * q = N - Real.sign x * 2 * (a * |x| * l ^ 2 * q) := by
    linear_combination (-2 * a * l ^ 2 * q) * hsx.symm
  rw [this]
  have h4 : 4 / l ^ 6 ≠ 0 := by positivity
  rw [show 4 / l ^ 6 * N - Real.sign x * 2 * (4 / l ^ 6 * (a * |x| * l ^ 2 * q))
    = 4 / l ^ 6 * (N - Real.sign x * 2 * (a * |x| * l ^ 2 * q)) by ring, mul_div_mul_left _ _ h4]

/-- If `a x = 0` then `E² = κ/ρ`. -/
lemma E2_special {a p e x : ℝ} (h : a * x = 0) (hρ : rhoS p (1 - e ^ 2) (a ^ 2) (1 - x ^ 2) ≠ 0) :
    E2 a p e x = kapS p (1 - e ^ 2) (a ^ 2) (1 - x ^ 2) / rhoS p (1 - e ^ 2) (a ^ 2) (1 - x ^ 2) := by
  have h2 : a ^ 2 * (1 - (1 - x ^ 2)) = 0 := by
    rw [show a ^ 2 * (1 - (1 - x ^ 2)) = (a * x) ^ 2 by ring, h]; ring
  unfold E2 NS WS
  rw [h]
  generalize etaS p (1 - e ^ 2) (a ^ 2) (1 - x ^ 2) = η
  generalize epsS p (1 - e ^ 2) (a ^ 2) (1 - x ^ 2) = ε
  generalize TS p (1 - e ^ 2) (a ^ 2) (1 - x ^ 2) = T
  generalize kapS p (1 - e ^ 2) (a ^ 2) (1 - x ^ 2) = κ
  generalize rhoS p (1 - e ^ 2) (a ^ 2) (1 - x ^ 2) = ρ at *
  rw [show κ * ρ - 2 * a ^ 2 * (1 - (1 - x ^ 2)) * ε * T * (1 - e ^ 2) ^ 2
    - 2 * 0 * (1 - e ^ 2) ^ 2 * √(T ^ 3 * p * DDS p (1 - e ^ 2) (a ^ 2) * SSS p (1 - e ^ 2) (a ^ 2) (1 - x ^ 2))
    = κ * ρ by linear_combination (-2 * ε * T * (1 - e ^ 2) ^ 2) * h2,
    show ρ ^ 2 - 4 * a ^ 2 * (1 - (1 - x ^ 2)) * η * T * (1 - e ^ 2) ^ 2 = ρ * ρ by
      linear_combination (-4 * η * T * (1 - e ^ 2) ^ 2) * h2]
  field_simp

lemma E2_parabolic {a p x : ℝ} (hρ : rhoS p (1 - 1 ^ 2) (a ^ 2) (1 - x ^ 2) ≠ 0) : E2 a p 1 x = 1 := by
  have h1 : kapS p (1 - 1 ^ 2) (a ^ 2) (1 - x ^ 2) = rhoS p (1 - 1 ^ 2) (a ^ 2) (1 - x ^ 2) := by
    unfold kapS rhoS; ring
  unfold E2 NS WS
  rw [h1]
  generalize rhoS p (1 - 1 ^ 2) (a ^ 2) (1 - x ^ 2) = ρ at *
  norm_num
  rw [← pow_two]
  exact div_self (by positivity)

lemma rho_polar (a p e : ℝ) : rhoS p (1 - e ^ 2) (a ^ 2) (1 - 0 ^ 2) = -polarDenominator a p e := by
  unfold rhoS polarDenominator; ring

lemma energy_polar {a p e : ℝ} (he1 : e ≠ 1) (hρ : rhoS p (1 - e ^ 2) (a ^ 2) (1 - 0 ^ 2) ≠ 0) :
    energyFormula a p e 0 = √(E2 a p e 0) := by
  rw [E2_special (by ring) hρ]
  unfold energyFormula
  rw [if_neg he1, if_pos rfl]
  congr 1
  rw [rho_polar] at *
  have : kapS p (1 - e ^ 2) (a ^ 2) (1 - 0 ^ 2) = p * (a ^ 4 * (-1 + e ^ 2) ^ 2 + (-4 * e ^ 2 + (-2 + p) ^ 2) * p ^ 2
          + 2 * a ^ 2 * p * (-2 + p + e ^ 2 * (2 + p))) := by
    unfold kapS; ring
  rw [this, div_neg]

/-- The potential at a turning point, for `E² = κ/ρ`. -/
lemma turning_special (a p e x r : ℝ) (hr : r * (1 - e) = p ∨ r * (1 + e) = p) :
    f r a x * kapS p (1 - e ^ 2) (a ^ 2) (1 - x ^ 2) - d r a x * rhoS p (1 - e ^ 2) (a ^ 2) (1 - x ^ 2)
      = H r a x * thetaS p (1 - e ^ 2) (a ^ 2) (1 - x ^ 2) := by
  rcases hr with rfl | rfl <;> (unfold f d H kapS rhoS thetaS; ring)

lemma Y_special {a p e x r : ℝ} (h : a * x = 0) (hρ : 0 < rhoS p (1 - e ^ 2) (a ^ 2) (1 - x ^ 2))
    (hκ : 0 < kapS p (1 - e ^ 2) (a ^ 2) (1 - x ^ 2)) (hH : 0 < H r a x)
    (hr : r * (1 - e) = p ∨ r * (1 + e) = p) :
    Y r a x √(E2 a p e x)
      = √(thetaS p (1 - e ^ 2) (a ^ 2) (1 - x ^ 2) / rhoS p (1 - e ^ 2) (a ^ 2) (1 - x ^ 2)) := by
  have ht := turning_special a p e x r hr
  unfold Y
  rw [E2_special h hρ.ne']
  generalize kapS p (1 - e ^ 2) (a ^ 2) (1 - x ^ 2) = κ at *
  generalize rhoS p (1 - e ^ 2) (a ^ 2) (1 - x ^ 2) = ρ at *
  generalize thetaS p (1 - e ^ 2) (a ^ 2) (1 - x ^ 2) = θ at *
  rw [Real.sq_sqrt (by positivity)]
  have e1 : -d r a x * H r a x + κ / ρ * (4 * a ^ 2 * r ^ 2 * x ^ 2 + f r a x * H r a x) = (H r a x) ^ 2 * (θ / ρ) := by
    generalize f r a x = F at *
    generalize d r a x = D at *
    generalize H r a x = K at *
    have h2 : a ^ 2 * x ^ 2 = 0 := by rw [← mul_pow, h]; ring
    field_simp
    linear_combination K * ht + κ * 4 * r ^ 2 * h2
  rw [e1, Real.sqrt_mul (sq_nonneg _), Real.sqrt_sq hH.le]
  rw [show 2 * a * r * √(κ / ρ) * x = 0 by linear_combination (2 * r * √(κ / ρ)) * h]
  field_simp
  ring

lemma carter_polar {a p e : ℝ} (hρ : 0 < rhoS p (1 - e ^ 2) (a ^ 2) (1 - 0 ^ 2))
    (hκ : 0 < kapS p (1 - e ^ 2) (a ^ 2) (1 - 0 ^ 2)) (hθ : 0 < thetaS p (1 - e ^ 2) (a ^ 2) (1 - 0 ^ 2)) :
    carterPolarFormula a p e = (1 - 0 ^ 2) * (a ^ 2 * (1 - √(E2 a p e 0) ^ 2)
      + √(thetaS p (1 - e ^ 2) (a ^ 2) (1 - 0 ^ 2) / rhoS p (1 - e ^ 2) (a ^ 2) (1 - 0 ^ 2)) ^ 2) := by
  rw [E2_special (by ring) hρ.ne', Real.sq_sqrt (by positivity), Real.sq_sqrt (by positivity)]
  have h1 : a ^ 2 * (rhoS p (1 - e ^ 2) (a ^ 2) (1 - 0 ^ 2) - kapS p (1 - e ^ 2) (a ^ 2) (1 - 0 ^ 2))
      + thetaS p (1 - e ^ 2) (a ^ 2) (1 - 0 ^ 2)
      = p ^ 2 * (a ^ 4 * (-1 + e ^ 2) ^ 2 + p ^ 4 + 2 * a ^ 2 * p * (-2 + p + e ^ 2 * (2 + p))) := by
    unfold kapS rhoS thetaS; ring
  unfold carterPolarFormula
  rw [← h1, show polarDenominator a p e = -rhoS p (1 - e ^ 2) (a ^ 2) (1 - 0 ^ 2) by rw [rho_polar]; ring]
  generalize kapS p (1 - e ^ 2) (a ^ 2) (1 - 0 ^ 2) = κ at *
  generalize rhoS p (1 - e ^ 2) (a ^ 2) (1 - 0 ^ 2) = ρ at *
  generalize thetaS p (1 - e ^ 2) (a ^ 2) (1 - 0 ^ 2) = θ at *
  field_simp
  ring

lemma coeff_h {r a x : ℝ} (hx : x ^ 2 ≤ 1) (hx0 : x ≠ 0) : (coefficients r a x).h = H r a x / x ^ 2 := by
  have hz : √(1 - x ^ 2) ^ 2 = 1 - x ^ 2 := Real.sq_sqrt (by linarith)
  simp only [coefficients, hz, H, show 1 - (1 - x ^ 2) = x ^ 2 by ring]
  field_simp
  ring

lemma solveL_form {r a x E : ℝ} (hx : x ^ 2 ≤ 1) (hx0 : x ≠ 0) :
    solveL x E (coefficients r a x) = x * Y r a x E := by
  have hz : √(1 - x ^ 2) ^ 2 = 1 - x ^ 2 := Real.sq_sqrt (by linarith)
  have hsx : Real.sign x * |x| = x := by
    rcases lt_or_gt_of_ne hx0 with h | h
    · rw [Real.sign_of_neg h, abs_of_neg h]; ring
    · rw [Real.sign_of_pos h, abs_of_pos h]; ring
  have ef : (coefficients r a x).f = f r a x := by simp only [coefficients, hz, f]
  have ed : (coefficients r a x).d = d r a x := by simp only [coefficients, hz, d]
  have eg : (coefficients r a x).g = 2 * a * r := rfl
  unfold solveL Y
  rw [coeff_h hx hx0, ef, ed, eg]
  have e1 : -d r a x * (H r a x / x ^ 2) + E ^ 2 * ((2 * a * r) ^ 2 + f r a x * (H r a x / x ^ 2))
      = (x⁻¹) ^ 2 * (-d r a x * H r a x + E ^ 2 * (4 * a ^ 2 * r ^ 2 * x ^ 2 + f r a x * H r a x)) := by
    generalize f r a x = F at *
    generalize d r a x = D at *
    generalize H r a x = K at *
    field_simp
    ring
  rw [e1, Real.sqrt_mul (sq_nonneg _), Real.sqrt_sq_eq_abs, abs_inv]
  generalize √(-d r a x * H r a x + E ^ 2 * (4 * a ^ 2 * r ^ 2 * x ^ 2 + f r a x * H r a x)) = q
  generalize H r a x = K at *
  have h3 : Real.sign x * |x|⁻¹ = x⁻¹ := by
    rcases lt_or_gt_of_ne hx0 with h | h
    · rw [Real.sign_of_neg h, abs_of_neg h, inv_neg]; ring
    · rw [Real.sign_of_pos h, abs_of_pos h]; ring
  rw [show -E * (2 * a * r) + Real.sign x * (|x|⁻¹ * q) = -(2 * a * r * E) + x⁻¹ * q by rw [← h3]; ring]
  by_cases hK : K = 0
  · simp [hK]
  · field_simp

lemma carter_form {a x E Y : ℝ} (hx : x ^ 2 ≤ 1) (hx0 : x ≠ 0) :
    carterFormula a x E (x * Y) = (1 - x ^ 2) * (a ^ 2 * (1 - E ^ 2) + Y ^ 2) := by
  have hz : √(1 - x ^ 2) ^ 2 = 1 - x ^ 2 := Real.sq_sqrt (by linarith)
  simp only [carterFormula, hz, show 1 - (1 - x ^ 2) = x ^ 2 by ring]
  field_simp

/-- The code's values for `e < 1`. -/
lemma pure_generic {a p e x : ℝ} (ha : 0 ≤ a) (hp : 0 < p) (he : 0 ≤ e) (he1 : e < 1) (hx0 : x ≠ 0) (hx : x ^ 2 ≤ 1) :
    pureConsts a p e x = consts a x √(E2 a p e x) (Y (p / (1 - e)) a x √(E2 a p e x)) := by
  have hE := energy_generic ha hp he he1 hx0 hx
  have hL : angularMomentumFormula a p e x √(E2 a p e x) = x * Y (p / (1 - e)) a x √(E2 a p e x) := by
    unfold angularMomentumFormula
    rw [if_neg hx0, if_neg he1.ne, solveL_form hx hx0]
  unfold pureConsts consts
  simp only [hE, hL, if_neg hx0, carter_form hx hx0]

lemma rhoS_pos' {a p e x : ℝ} (hp : 4 < p) (ha1 : a ^ 2 ≤ 1) (he : 0 ≤ e) (he1 : e ≤ 1) (hx : x ^ 2 ≤ 1) :
    0 < rhoS p (1 - e ^ 2) (a ^ 2) (1 - x ^ 2) ∧ 0 < kapS p (1 - e ^ 2) (a ^ 2) (1 - x ^ 2)
    ∧ 0 < thetaS p (1 - e ^ 2) (a ^ 2) (1 - x ^ 2) ∧ 0 < WS p (1 - e ^ 2) (a ^ 2) (1 - x ^ 2) := by
  have hw : 0 ≤ 1 - x ^ 2 := by linarith
  have hw1 : 1 - x ^ 2 ≤ 1 := by linarith [sq_nonneg x]
  rcases eq_or_lt_of_le he1 with rfl | he1
  · have k : 0 < p ^ 4 * (p - 4) := by
      have : 0 < p - 4 := by linarith
      positivity
    have e1 : rhoS p (1 - 1 ^ 2) (a ^ 2) (1 - x ^ 2) = p ^ 4 * (p - 4) + 4 * p ^ 3 * (a ^ 2 * (1 - x ^ 2)) := by
      unfold rhoS; ring
    have e2 : kapS p (1 - 1 ^ 2) (a ^ 2) (1 - x ^ 2) = p ^ 4 * (p - 4) + 4 * p ^ 3 * (a ^ 2 * (1 - x ^ 2)) := by
      unfold kapS; ring
    have e3 : thetaS p (1 - 1 ^ 2) (a ^ 2) (1 - x ^ 2) = p ^ 6 + 4 * a ^ 2 * p ^ 4 := by
      unfold thetaS; ring
    have e4 : WS p (1 - 1 ^ 2) (a ^ 2) (1 - x ^ 2) = (p ^ 4 * (p - 4) + 4 * p ^ 3 * (a ^ 2 * (1 - x ^ 2))) ^ 2 := by
      unfold WS; rw [e1]; ring
    rw [e1, e2, e3, e4]
    have hp0 : 0 < p := by linarith
    refine ⟨by positivity, by positivity, by positivity, by positivity⟩
  · have hl : 0 < 1 - e ^ 2 := by nlinarith
    have hl1 : 1 - e ^ 2 ≤ 1 := by linarith [sq_nonneg e]
    exact ⟨rhoS_pos hp hl hl1 (sq_nonneg a) ha1 hw hw1, kapS_pos hp hl hl1 (sq_nonneg a) ha1 hw hw1,
      thetaS_pos hp hl hl1 (sq_nonneg a) ha1 hw hw1, WS_pos hp hl hl1 (sq_nonneg a) ha1 hw hw1⟩

lemma H_pos {r a x : ℝ} (hr : 2 < r) (hx : x ^ 2 ≤ 1) : 0 < H r a x := by
  have h1 : 0 < r - 2 := by linarith
  have h2 : 0 < r := by linarith
  have h3 : 0 ≤ 1 - x ^ 2 := by linarith
  unfold H; positivity

/-- The code's values for `e < 1`, polar orbits included. -/
lemma pure_polar {a p e : ℝ} (hp : 4 < p) (ha1 : a ^ 2 ≤ 1) (he : 0 ≤ e) (he1 : e < 1) :
    pureConsts a p e 0 = consts a 0 √(E2 a p e 0) (Y (p / (1 - e)) a 0 √(E2 a p e 0)) := by
  obtain ⟨h1, h2, h3, -⟩ := rhoS_pos' (a := a) (x := 0) hp ha1 he he1.le (by norm_num)
  have hm : 0 < 1 - e := by linarith
  have hE := energy_polar (a := a) he1.ne h1.ne'
  have hr : 2 < p / (1 - e) := by rw [lt_div_iff₀ hm]; linarith
  have hL : angularMomentumFormula a p e 0 √(E2 a p e 0) = 0 := by
    unfold angularMomentumFormula; rw [if_pos rfl]
  unfold pureConsts consts
  rw [Y_special (by ring) h1 h2 (H_pos hr (by norm_num)) (.inl (by field_simp)), ← carter_polar h1 h2 h3]
  simp only [hE, hL, if_true, zero_mul]

/-- The code's values for `p > 4` up to `e = 1`, from the potential at the inner turning point, as soon as the energy
there is large enough. -/
lemma pure_inner {a p e x : ℝ} (ha : 0 ≤ a) (ha1 : a < 1) (hp : 4 < p) (he : 0 ≤ e) (he1 : e ≤ 1) (hx : x ^ 2 ≤ 1)
    (hfd : d (p / (1 + e)) a x < f (p / (1 + e)) a x * √(E2 a p e x) ^ 2) :
    pureConsts a p e x = consts a x √(E2 a p e x) (Y (p / (1 + e)) a x √(E2 a p e x)) := by
  have hA1 : a ^ 2 ≤ 1 := by nlinarith
  obtain ⟨h1, h2, h3, h4⟩ := rhoS_pos' (a := a) (x := x) hp hA1 he he1 hx
  have hpl : 0 < 1 + e := by linarith
  have hs : 2 < p / (1 + e) := by rw [lt_div_iff₀ hpl]; linarith
  have hse : p / (1 + e) * (1 + e) = p := by field_simp
  rcases eq_or_lt_of_le he1 with rfl | he1
  · have hE : E2 a p 1 x = 1 := E2_parabolic h1.ne'
    rw [hE, Real.sqrt_one]
    by_cases hx0 : x = 0
    · subst hx0
      have hY := Y_special (r := p / (1 + 1)) (by ring) h1 h2 (H_pos hs (by norm_num)) (.inr hse)
      have hQ := carter_polar h1 h2 h3
      rw [← hY] at hQ
      rw [hE, Real.sqrt_one] at hQ
      unfold pureConsts consts energyFormula angularMomentumFormula
      simp only [if_true, zero_mul, hQ]
    · unfold pureConsts consts energyFormula angularMomentumFormula
      simp only [if_true, if_neg hx0, solveL_form hx hx0, carter_form hx hx0]
  · have hm : 0 < 1 - e := by linarith
    have hr : 2 < p / (1 - e) := by rw [lt_div_iff₀ hm]; linarith
    have hre : p / (1 - e) * (1 - e) = p := by field_simp
    by_cases hax : a * x = 0
    · have : Y (p / (1 - e)) a x √(E2 a p e x) = Y (p / (1 + e)) a x √(E2 a p e x) := by
        rw [Y_special hax h1 h2 (H_pos hr hx) (.inl hre), Y_special hax h1 h2 (H_pos hs hx) (.inr hse)]
      rw [← this]
      by_cases hx0 : x = 0
      · subst hx0; exact pure_polar hp hA1 he he1
      · exact pure_generic ha (by linarith) he he1 hx0 hx
    · obtain ⟨ha0, hx0⟩ := mul_ne_zero_iff.mp hax
      have hE := energy_generic ha (show 0 < p by linarith) he he1 hx0 hx
      have hX := exact_kerr (lt_of_le_of_ne ha ha0.symm) ha1.le hp he he1 hx0 hx rfl rfl
      rw [hE] at hX
      have hL : angularMomentumFormula a p e x √(E2 a p e x) = x * Y (p / (1 - e)) a x √(E2 a p e x) := by
        unfold angularMomentumFormula
        rw [if_neg hx0, if_neg he1.ne, solveL_form hx hx0]
      rw [pure_generic ha (by linarith) he he1 hx0 hx]
      have : x * Y (p / (1 - e)) a x √(E2 a p e x) = x * Y (p / (1 + e)) a x √(E2 a p e x) := by
        rw [← hL, ← solveL_form hx hx0]
        symm
        have hz : √(1 - x ^ 2) ^ 2 = 1 - x ^ 2 := Real.sq_sqrt (by linarith)
        have ef : (coefficients (p / (1 + e)) a x).f = f (p / (1 + e)) a x := by simp only [coefficients, hz, f]
        have ed : (coefficients (p / (1 + e)) a x).d = d (p / (1 + e)) a x := by simp only [coefficients, hz, d]
        have eg : (coefficients (p / (1 + e)) a x).g = 2 * a * (p / (1 + e)) := rfl
        have eh := coeff_h (r := p / (1 + e)) (a := a) hx hx0
        have hH : 0 < (coefficients (p / (1 + e)) a x).h := by
          rw [eh]; exact div_pos (H_pos hs hx) (by positivity)
        have hq : (coefficients (p / (1 + e)) a x).f * √(E2 a p e x) ^ 2
            - 2 * (coefficients (p / (1 + e)) a x).g * √(E2 a p e x) * angularMomentumFormula a p e x √(E2 a p e x)
            - (coefficients (p / (1 + e)) a x).h * angularMomentumFormula a p e x √(E2 a p e x) ^ 2
            - (coefficients (p / (1 + e)) a x).d = 0 := by
          have ht := hX.turning.2.1
          rw [carterFormula_eq hx] at ht
          rw [ef, ed, eg, eh]
          unfold f d H
          unfold Spec.R Spec.Delta at ht
          generalize p / (1 + e) = s at *
          generalize √(E2 a p e x) = E at *
          generalize angularMomentumFormula a p e x E = L at *
          field_simp at ht ⊢
          linear_combination ht
        refine solveL_eq hH.ne' hq ?_ hx0
        rw [ef, ed] at hq
        have hg : 0 ≤ (coefficients (p / (1 + e)) a x).g := by rw [eg]; positivity
        have hEp := hX.energy_pos
        have hLs := hX.sign
        generalize (coefficients (p / (1 + e)) a x).g = g at *
        generalize (coefficients (p / (1 + e)) a x).h = h at *
        generalize f (p / (1 + e)) a x = F at *
        generalize d (p / (1 + e)) a x = D at *
        generalize √(E2 a p e x) = E at *
        generalize angularMomentumFormula a p e x E = L at *
        have hpos : 0 < L * (h * L + 2 * g * E) := by nlinarith
        rcases lt_or_gt_of_ne hx0 with hx' | hx'
        · rw [Real.sign_of_neg hx'] at hLs ⊢
          have hL0 : L < 0 := by linarith
          have := neg_of_mul_pos_right hpos hL0.le
          have := mul_nonneg hg hEp.le
          linarith
        · rw [Real.sign_of_pos hx'] at hLs ⊢
          have hL0 : 0 < L := by linarith
          have := mul_nonneg hg hEp.le
          have := mul_pos hH hL0
          linarith
      have hY := mul_left_cancel₀ hx0 this
      rw [hY]

end Form

end KGP
