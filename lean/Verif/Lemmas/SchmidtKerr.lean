import Verif.Lemmas.SchmidtCode

/-!
# Schmidt's formula: exactness for every `p > 4`
-/

namespace KGP.Schmidt

open Classical Real

/-- What the formulas of constants.py:254-351 give. -/
structure Exact (a p e x E L : ℝ) : Prop where
  energy_pos : 0 < E
  sign : 0 < Real.sign x * L
  turning : Spec.TurningPoints a E L (carterFormula a x E L) p e
  quad : WS p (1 - e ^ 2) (a ^ 2) (1 - x ^ 2) * (E ^ 2) ^ 2
    - 2 * NS p (1 - e ^ 2) (a ^ 2) (1 - x ^ 2) * E ^ 2 + kapS p (1 - e ^ 2) (a ^ 2) (1 - x ^ 2) ^ 2 = 0
  side : 0 < Real.sign x * (kapS p (1 - e ^ 2) (a ^ 2) (1 - x ^ 2)
    - rhoS p (1 - e ^ 2) (a ^ 2) (1 - x ^ 2) * E ^ 2)

lemma radii_ne {p e r s : ℝ} (hp : 0 < p) (he : 0 ≤ e) (he1 : e < 1) (h0 : e ≠ 0) (er : r = p / (1 - e))
    (es : s = p / (1 + e)) : r - s ≠ 0 := by
  have hm : 0 < 1 - e := by linarith
  have hpl : 0 < 1 + e := by linarith
  have hs : 0 < s := by rw [es]; positivity
  intro h
  have : r * (1 - e) = s * (1 + e) := by
    rw [er, es, div_mul_cancel₀ _ hm.ne', div_mul_cancel₀ _ hpl.ne']
  have hrs : r = s := by linarith
  rw [hrs] at this
  have h2 : 2 * s * e = 0 := by linarith
  have : s * e > 0 := mul_pos (by linarith) (lt_of_le_of_ne he (Ne.symm h0))
  linarith

/-- The quantities by which `energy` (constants.py:292-297) and `angular_momentum` (constants.py:351)
divide, for a standardised orbit. -/
def Regular (a p e x : ℝ) : Prop :=
  let c1 := coefficients (p / (1 - e)) a x
  let c2 := if e = 0 then coefficientsDerivative p a x else coefficients (p / (1 + e)) a x
  (c1.f * c2.h - c1.h * c2.f) ^ 2 + 4 * (c1.f * c2.g - c1.g * c2.f) * (c1.g * c2.h - c1.h * c2.g) ≠ 0
    ∧ c1.h ≠ 0

lemma regular_iff {c a x u v : ℝ} {c1 c2 : Coeffs} (hc : c ≠ 0) (hx0 : x ≠ 0)
    (D : Dets c a (x ^ 2) u v (1 - x ^ 2) c1 c2) :
    (c1.f * c2.h - c1.h * c2.f) ^ 2 + 4 * (c1.f * c2.g - c1.g * c2.f) * (c1.g * c2.h - c1.h * c2.g) ≠ 0
      ↔ WH u v (a ^ 2) (1 - x ^ 2) ≠ 0 := by
  have hX : x ^ 2 ≠ 0 := pow_ne_zero 2 hx0
  rw [D.rho, D.eta, D.sig]
  unfold WH
  generalize rhoH u v (a ^ 2) (1 - x ^ 2) = ρ
  generalize etaH u v (a ^ 2) (1 - x ^ 2) = η
  generalize TH v (a ^ 2) (1 - x ^ 2) = T
  have e3 : (c * ρ / x ^ 2) ^ 2 + 4 * (c * a * η) * (c * a * (-2 * T) / x ^ 2)
      = c ^ 2 / (x ^ 2) ^ 2 * (ρ ^ 2 - 8 * a ^ 2 * (1 - (1 - x ^ 2)) * η * T) := by
    field_simp; ring
  have hne : c ^ 2 / (x ^ 2) ^ 2 ≠ 0 := by positivity
  rw [e3, mul_ne_zero_iff, and_iff_right hne]

/-- The formulas of the code in terms of the two radii. -/
lemma formulas_eq {a p e x : ℝ} (hp : 0 < p) (he : 0 ≤ e) (he1 : e < 1) (hx0 : x ≠ 0) (hx : x ^ 2 ≤ 1)
    {r s : ℝ} (er : r = p / (1 - e)) (es : s = p / (1 + e)) :
    energyFormula a p e x = √((NH (r + s) (r * s) (a ^ 2) (1 - x ^ 2)
      - Real.sign x * 2 * √(Y2H (r + s) (r * s) (a ^ 2) (1 - x ^ 2))) / WH (r + s) (r * s) (a ^ 2) (1 - x ^ 2))
    ∧ (∀ E, angularMomentumFormula a p e x E = solveL x E (coefficients r a x))
    ∧ (Regular a p e x ↔ WH (r + s) (r * s) (a ^ 2) (1 - x ^ 2) ≠ 0 ∧ (coefficients r a x).h ≠ 0) := by
  have hm : 0 < 1 - e := by linarith
  have hpl : 0 < 1 + e := by linarith
  have hx1 : e ≠ 1 := he1.ne
  refine ⟨?_, ?_, ?_⟩
  · unfold energyFormula
    rw [if_neg hx1, if_neg hx0]
    split_ifs with h0
    · have e1 : r = p := by rw [er, h0]; simp
      have e2 : s = p := by rw [es, h0]; simp
      rw [e1, e2]
      exact schmidtEnergy_eq (by norm_num) hx0 (dets_circular p a x hx0 hx)
    · rw [← er, ← es]
      exact schmidtEnergy_eq (c := r - s) (radii_ne hp he he1 h0 er es) hx0 (dets_two r s a x hx0 hx)
  · intro E
    unfold angularMomentumFormula
    rw [if_neg hx0, if_neg hx1, er]
  · unfold Regular
    simp only
    rw [← er]
    refine and_congr_left' ?_
    split_ifs with h0
    · have e1 : r = p := by rw [er, h0]; simp
      have e2 : s = p := by rw [es, h0]; simp
      rw [e1, e2]
      exact regular_iff (by norm_num) hx0 (dets_circular p a x hx0 hx)
    · rw [← es]
      exact regular_iff (c := r - s) (radii_ne hp he he1 h0 er es) hx0 (dets_two r s a x hx0 hx)

lemma exact_kerr {a p e x E L : ℝ} (ha : 0 < a) (ha1 : a ≤ 1) (hp : 4 < p) (he : 0 ≤ e) (he1 : e < 1)
    (hx0 : x ≠ 0) (hx : x ^ 2 ≤ 1) (hE : E = energyFormula a p e x)
    (hL : L = angularMomentumFormula a p e x E) : Exact a p e x E L := by
  have hA : 0 ≤ a ^ 2 := sq_nonneg a
  have hA1 : a ^ 2 ≤ 1 := by nlinarith
  have hw : 0 ≤ 1 - x ^ 2 := by linarith
  have hw1 : 1 - x ^ 2 ≤ 1 := by linarith [sq_nonneg x]
  have hl : 0 < 1 - e ^ 2 := by nlinarith
  have hl1 : 1 - e ^ 2 ≤ 1 := by linarith [sq_nonneg e]
  have hm : 0 < 1 - e := by linarith
  have hpl : 0 < 1 + e := by linarith
  have hr : 2 < p / (1 - e) := by rw [lt_div_iff₀ hm]; linarith
  have hs : 2 < p / (1 + e) := by rw [lt_div_iff₀ hpl]; linarith
  obtain ⟨r, er⟩ : ∃ r, r = p / (1 - e) := ⟨_, rfl⟩
  obtain ⟨s, es⟩ : ∃ s, s = p / (1 + e) := ⟨_, rfl⟩
  have hu : r + s = 2 * p / (1 - e ^ 2) := by
    have : (1 - e ^ 2) = (1 - e) * (1 + e) := by ring
    rw [er, es, this]; field_simp; ring
  have hv : r * s = p ^ 2 / (1 - e ^ 2) := by
    have : (1 - e ^ 2) = (1 - e) * (1 + e) := by ring
    rw [er, es, this]; field_simp
  obtain ⟨s1, s2, s3, s4, s5, s6, s7, s8⟩ := scale (p := p) (A := a ^ 2) (w := 1 - x ^ 2) hl.ne'
  rw [← hu, ← hv] at s1 s2 s3 s4 s5 s7 s8
  rw [← hv] at s6
  rw [← er] at hr
  rw [← es] at hs
  obtain ⟨f1, f2, -⟩ := formulas_eq (a := a) (by linarith : 0 < p) he he1 hx0 hx er es
  have hEf := hE.trans f1
  have hLf := hL.trans (f2 E)
  have k1 := kapS_pos hp hl hl1 hA hA1 hw hw1
  have k2 := rhoS_pos hp hl hl1 hA hA1 hw hw1
  have k3 := thetaS_pos hp hl hl1 hA hA1 hw hw1
  have k4 := (TS_pos hp hl hl1 hA hA1 hw hw1).1
  have k5 := WS_pos hp hl hl1 hA hA1 hw hw1
  have k6 := NS_pos hp hl hl1 hA hA1 hw hw1
  have hDD : 0 ≤ DDH (r + s) (r * s) (a ^ 2) := by
    have e1 : DDH (r + s) (r * s) (a ^ 2) = (r * (r - 2) + a ^ 2) * (s * (s - 2) + a ^ 2) := by
      unfold DDH; ring
    have h1 : 0 < r - 2 := by linarith
    have h2 : 0 < s - 2 := by linarith
    have h3 : 0 < r := by linarith
    have h4 : 0 < s := by linarith
    rw [e1]; positivity
  have l3 : 0 < 2 / (1 - e ^ 2) ^ 3 := by positivity
  have l6 : 0 < 4 / (1 - e ^ 2) ^ 6 := by positivity
  obtain ⟨q1, q2, q3, q4, q5, q6, q7⟩ := exact_of_signs ha hx0 hx hr (by linarith)
    (by rw [s1]; positivity) (by rw [s2]; positivity) (by rw [s5]; positivity)
    (by rw [s6]; positivity) (by rw [s7]; positivity) (by rw [s8]; positivity) hDD hEf hLf
  refine ⟨q1, q2, ⟨by rw [← er]; exact q3, by rw [← es]; exact q4, ?_⟩, ?_, ?_⟩
  · intro h0
    have e1 : r = p := by rw [er, h0]; simp
    have e2 : s = p := by rw [es, h0]; simp
    rw [← e1]; exact q5 (by rw [e1, e2])
  · rw [s1, s7, s8] at q6
    have : 4 / (1 - e ^ 2) ^ 6 * (WS p (1 - e ^ 2) (a ^ 2) (1 - x ^ 2) * (E ^ 2) ^ 2
      - 2 * NS p (1 - e ^ 2) (a ^ 2) (1 - x ^ 2) * E ^ 2
      + kapS p (1 - e ^ 2) (a ^ 2) (1 - x ^ 2) ^ 2) = 0 := by
      have e1 : (2 / (1 - e ^ 2) ^ 3) ^ 2 = 4 / (1 - e ^ 2) ^ 6 := by
        rw [div_pow, ← pow_mul]; norm_num
      linear_combination q6 - kapS p (1 - e ^ 2) (a ^ 2) (1 - x ^ 2) ^ 2 * e1
    exact (mul_eq_zero.mp this).resolve_left l6.ne'
  · rw [s1, s2] at q7
    have : Real.sign x * (2 / (1 - e ^ 2) ^ 3 * kapS p (1 - e ^ 2) (a ^ 2) (1 - x ^ 2)
        - 2 / (1 - e ^ 2) ^ 3 * rhoS p (1 - e ^ 2) (a ^ 2) (1 - x ^ 2) * E ^ 2)
      = 2 / (1 - e ^ 2) ^ 3 * (Real.sign x * (kapS p (1 - e ^ 2) (a ^ 2) (1 - x ^ 2)
        - rhoS p (1 - e ^ 2) (a ^ 2) (1 - x ^ 2) * E ^ 2)) := by ring
    rw [this] at q7
    exact pos_of_mul_pos_right q7 l3.le

end KGP.Schmidt
