import Verif.Lemmas.FiniteSolutions
import Verif.Lemmas.ZoomWhirl
import Verif.Props.ConstantsExact

/-!
# C76: the constants of motion and the roots
-/

namespace KGP

open Classical Real

/-- A coefficient tuple of numbers. -/
def Coeffs.toN (c : Coeffs) : CoeffsN := ⟨.fin c.f, .fin c.g, .fin c.h, .fin c.d⟩

section
variable {a p e x r E L : ℝ} {vr vE vL : Fl}

lemma coefficientsN_fin (hr : vr = .fin r) (hx0 : x ≠ 0) (hx : x ^ 2 ≤ 1) :
    coefficientsN vr a x = (coefficients r a x).toN := by
  have h1 : 0 ≤ 1 - x ^ 2 := by linarith
  have hz : √(1 - x ^ 2) ^ 2 = 1 - x ^ 2 := Real.sq_sqrt h1
  have h2 : 1 - √(1 - x ^ 2) ^ 2 ≠ 0 := by
    rw [hz, sub_sub_cancel]; exact pow_ne_zero 2 hx0
  simp only [coefficientsN, Coeffs.toN, coefficients, CoeffsN.mk.injEq]
  refine ⟨?_, ?_, ?_, ?_⟩ <;> fl

lemma coefficientsDerivativeN_fin (hr : vr = .fin r) (hx0 : x ≠ 0) (hx : x ^ 2 ≤ 1) :
    coefficientsDerivativeN vr a x = (coefficientsDerivative r a x).toN := by
  have h1 : 0 ≤ 1 - x ^ 2 := by linarith
  have hz : √(1 - x ^ 2) ^ 2 = 1 - x ^ 2 := Real.sq_sqrt h1
  have h2 : 1 - √(1 - x ^ 2) ^ 2 ≠ 0 := by
    rw [hz, sub_sub_cancel]; exact pow_ne_zero 2 hx0
  have h3 : (3 : Fl) = .fin 3 := rfl
  simp only [coefficientsDerivativeN, Coeffs.toN, coefficientsDerivative, CoeffsN.mk.injEq]
  refine ⟨?_, ?_, ?_, ?_⟩ <;> fl

/-- The argument of the inner square root of `energy` is a square. -/
lemma schmidt_square {f1 g1 h1 d1 f2 g2 h2 d2 E L : ℝ}
    (q1 : f1 * E ^ 2 - 2 * g1 * E * L - h1 * L ^ 2 - d1 = 0)
    (q2 : f2 * E ^ 2 - 2 * g2 * E * L - h2 * L ^ 2 - d2 = 0) :
    let κ := d1 * h2 - h1 * d2
    let ρ := f1 * h2 - h1 * f2
    let σ := g1 * h2 - h1 * g2
    let ε := d1 * g2 - g1 * d2
    let η := f1 * g2 - g1 * f2
    0 ≤ σ * (σ * ε ^ 2 + ρ * ε * κ - η * κ ^ 2) := by
  intro κ ρ σ ε η
  have c1 : ρ * E ^ 2 - 2 * σ * (E * L) - κ = 0 := by
    simp only [κ, ρ, σ]; linear_combination h2 * q1 - h1 * q2
  have c2 : η * E ^ 2 + σ * L ^ 2 - ε = 0 := by
    simp only [η, σ, ε]; linear_combination g2 * q1 - g1 * q2
  have hq : (ρ ^ 2 + 4 * η * σ) * (E ^ 2) ^ 2 - 2 * (ρ * κ + 2 * σ * ε) * E ^ 2 + κ ^ 2 = 0 := by
    linear_combination (ρ * E ^ 2 - κ + 2 * σ * (E * L)) * c1 + 4 * σ * E ^ 2 * c2
  have : 4 * (σ * (σ * ε ^ 2 + ρ * ε * κ - η * κ ^ 2))
      = ((ρ ^ 2 + 4 * η * σ) * E ^ 2 - (ρ * κ + 2 * σ * ε)) ^ 2 := by
    linear_combination (-(ρ ^ 2 + 4 * η * σ)) * hq
  have := sq_nonneg ((ρ ^ 2 + 4 * η * σ) * E ^ 2 - (ρ * κ + 2 * σ * ε))
  linarith

lemma schmidtEnergyN_fin {c1 c2 : Coeffs} {n1 n2 : CoeffsN} (h1 : n1 = c1.toN) (h2 : n2 = c2.toN)
    (q1 : c1.f * E ^ 2 - 2 * c1.g * E * L - c1.h * L ^ 2 - c1.d = 0)
    (q2 : c2.f * E ^ 2 - 2 * c2.g * E * L - c2.h * L ^ 2 - c2.d = 0)
    (hW : (c1.f * c2.h - c1.h * c2.f) ^ 2 + 4 * (c1.f * c2.g - c1.g * c2.f) * (c1.g * c2.h - c1.h * c2.g) ≠ 0)
    (hE : 0 < schmidtEnergy x c1 c2) : schmidtEnergyN x n1 n2 = .fin (schmidtEnergy x c1 c2) := by
  subst h1; subst h2
  have hs := schmidt_square q1 q2
  unfold schmidtEnergy at hE ⊢
  simp only at hs hE ⊢
  have hA := (Real.sqrt_pos.mp hE).le
  simp only [schmidtEnergyN, Coeffs.toN]
  fl

lemma solveLN_fin {c : Coeffs} {n : CoeffsN} (hn : n = c.toN) (hE : vE = .fin E)
    (q : c.f * E ^ 2 - 2 * c.g * E * L - c.h * L ^ 2 - c.d = 0) (hh : c.h ≠ 0) :
    solveLN x vE n = .fin (solveL x E c) := by
  subst hn
  have h1 : 0 ≤ -c.d * c.h + E ^ 2 * (c.g ^ 2 + c.f * c.h) := by
    have : -c.d * c.h + E ^ 2 * (c.g ^ 2 + c.f * c.h) = (c.h * L + c.g * E) ^ 2 := by
      linear_combination c.h * q
    rw [this]; positivity
  simp only [solveLN, Coeffs.toN, solveL]
  fl

lemma carterFormulaN_fin (hx0 : x ≠ 0) (hx : x ^ 2 ≤ 1) (hE : vE = .fin E) (hL : vL = .fin L) :
    carterFormulaN a x vE vL = .fin (carterFormula a x E L) := by
  have h1 : 0 ≤ 1 - x ^ 2 := by linarith
  have hz : √(1 - x ^ 2) ^ 2 = 1 - x ^ 2 := Real.sq_sqrt h1
  have h2 : 1 - √(1 - x ^ 2) ^ 2 ≠ 0 := by
    rw [hz, sub_sub_cancel]; exact pow_ne_zero 2 hx0
  simp only [carterFormulaN, carterFormula]
  fl

/-- The second quadratic relation of a circular orbit. -/
lemma circular_quadratic (hx0 : x ≠ 0) (hx : x ^ 2 ≤ 1)
    (hd : deriv (Spec.R a E L (carterFormula a x E L)) p = 0) :
    let c := coefficientsDerivative p a x
    c.f * E ^ 2 - 2 * c.g * E * L - c.h * L ^ 2 - c.d = 0 := by
  intro c
  obtain ⟨hf, hg, hh, hdd⟩ := C45_derivatives a x p hx0 hx
  have e1 : Spec.R a E L (carterFormula a x E L) = fun r => (coefficients r a x).f * E ^ 2
      - 2 * (coefficients r a x).g * E * L - (coefficients r a x).h * L ^ 2 - (coefficients r a x).d := by
    funext r; exact C45_quadratic_form a x r E L hx0 hx
  have := (((hf.mul_const (E ^ 2)).sub (((hg.const_mul 2).mul_const E).mul_const L)).sub
    (hh.mul_const (L ^ 2))).sub hdd
  rw [e1] at hd
  exact this.deriv.symm.trans hd

/-- The constants of motion are numbers when the turning points are right and the divisors do not vanish. -/
lemma constants_fin (hx0 : x ≠ 0) (hx : x ^ 2 ≤ 1) (he0 : 0 ≤ e) (he1 : e ≠ 1)
    (hreg : Schmidt.Regular a p e x) (hE : 0 < energyFormula a p e x)
    (hT : Spec.TurningPoints a (energyFormula a p e x) (angularMomentumFormula a p e x (energyFormula a p e x))
      (carterFormula a x (energyFormula a p e x)
        (angularMomentumFormula a p e x (energyFormula a p e x))) p e) :
    energyFormulaN a p e x = .fin (energyFormula a p e x)
    ∧ angularMomentumFormulaN a p e x (energyFormulaN a p e x)
      = .fin (angularMomentumFormula a p e x (energyFormula a p e x))
    ∧ carterFormulaN a x (energyFormulaN a p e x)
        (angularMomentumFormulaN a p e x (energyFormulaN a p e x))
      = .fin (carterFormula a x (energyFormula a p e x)
        (angularMomentumFormula a p e x (energyFormula a p e x))) := by
  obtain ⟨t1, t2, t3⟩ := hT
  have hm : 1 - e ≠ 0 := sub_ne_zero.mpr (Ne.symm he1)
  have hpl : 1 + e ≠ 0 := by intro h; linarith
  have v1 : ((p : Fl) / (1 - (e : Fl))) = .fin (p / (1 - e)) := by fl
  have v2 : ((p : Fl) / (1 + (e : Fl))) = .fin (p / (1 + e)) := by fl
  have q1 := t1
  rw [C45_quadratic_form a x _ _ _ hx0 hx] at q1
  unfold Schmidt.Regular at hreg
  simp only at hreg
  obtain ⟨w1, w2⟩ := hreg
  have hEN : energyFormulaN a p e x = .fin (energyFormula a p e x) := by
    unfold energyFormulaN
    rw [if_neg he1, if_neg hx0]
    by_cases h0 : e = 0
    · have q2 := circular_quadratic hx0 hx (t3 h0)
      simp only at q2
      have hp : p / (1 - e) = p := by rw [h0]; simp
      rw [hp] at q1 w1 w2
      rw [if_pos h0] at w1 ⊢
      have ee : energyFormula a p e x = schmidtEnergy x (coefficients p a x) (coefficientsDerivative p a x) := by
        unfold energyFormula; rw [if_neg he1, if_neg hx0, if_pos h0]
      have hE' : 0 < schmidtEnergy x (coefficients p a x) (coefficientsDerivative p a x) := ee ▸ hE
      refine (schmidtEnergyN_fin (coefficientsN_fin rfl hx0 hx) (coefficientsDerivativeN_fin rfl hx0 hx)
        q1 q2 w1 hE').trans ?_
      rw [ee]
    · have q2 := t2
      rw [C45_quadratic_form a x _ _ _ hx0 hx] at q2
      rw [if_neg h0] at w1 ⊢
      have ee : energyFormula a p e x
          = schmidtEnergy x (coefficients (p / (1 - e)) a x) (coefficients (p / (1 + e)) a x) := by
        unfold energyFormula; rw [if_neg he1, if_neg hx0, if_neg h0]
      have hE' : 0 < schmidtEnergy x (coefficients (p / (1 - e)) a x) (coefficients (p / (1 + e)) a x) := ee ▸ hE
      refine (schmidtEnergyN_fin (coefficientsN_fin v1 hx0 hx) (coefficientsN_fin v2 hx0 hx)
        q1 q2 w1 hE').trans ?_
      rw [ee]
  have hLN : angularMomentumFormulaN a p e x (energyFormulaN a p e x)
      = .fin (angularMomentumFormula a p e x (energyFormula a p e x)) := by
    unfold angularMomentumFormulaN
    rw [if_neg hx0, if_neg he1]
    refine (solveLN_fin (coefficientsN_fin v1 hx0 hx) hEN q1 w2).trans ?_
    congr 1
    conv_rhs => unfold angularMomentumFormula
    rw [if_neg hx0, if_neg he1]
  exact ⟨hEN, hLN, carterFormulaN_fin hx0 hx hEN hLN⟩

/-- The roots are numbers. -/
lemma stableRadialRootsN_fin {Q r1 r2 r3 r4 : ℝ} {vE vL vQ : Fl} (hE : vE = .fin E)
    (hQ : vQ = .fin Q) (he0 : 0 ≤ e) (he1 : e ≠ 1)
    (hr : stableRadialRootsCore a p e (E, L, Q) = (r1, r2, r3, r4))
    (hb : Spec.RadialRoots a E L Q r1 r2 r3 r4) (hE1 : E ^ 2 < 1) (h3 : 0 < r3) (h32 : r3 < r2) (h21 : r2 ≤ r1) :
    stableRadialRootsN a p e (vE, vL, vQ) = (.fin r1, .fin r2, .fin r3, .fin r4) := by
  obtain ⟨k1, k2, k3, k4⟩ := RadialRoots.vieta hb
  have hβ : 0 < 1 - E ^ 2 := by linarith
  have hm : 1 - e ≠ 0 := sub_ne_zero.mpr (Ne.symm he1)
  have hpl : 1 + e ≠ 0 := by intro h; linarith
  have hβ' := hβ.ne'
  have h12 : r1 * r2 * (1 - E ^ 2) ≠ 0 :=
    mul_ne_zero (mul_ne_zero (by linarith) (by linarith)) hβ'
  have h30 : r3 ≠ 0 := by linarith
  have hr' := hr
  simp only [stableRadialRootsCore, Prod.mk.injEq] at hr
  obtain ⟨e1, e2, e3, e4⟩ := hr
  rw [e1, e2] at e3 e4
  rw [e3] at e4
  have hAB : a ^ 2 * Q / (r1 * r2 * (1 - E ^ 2)) = r3 * r4 := by
    rw [← e4]; field_simp
  have hsum : 2 / (1 - E ^ 2) - r1 - r2 = r3 + r4 := by
    rw [sub_sub, sub_eq_iff_eq_add, div_eq_iff hβ']
    linarith
  have hdisc : 0 ≤ (2 / (1 - E ^ 2) - r1 - r2) ^ 2 - 4 * (a ^ 2 * Q / (r1 * r2 * (1 - E ^ 2))) := by
    rw [hAB, hsum]
    have := sq_nonneg (r3 - r4)
    linarith
  rw [← e1, ← e2] at h12 hdisc e3
  have h30' := h30
  have two : (2 : ℝ) ≠ 0 := two_ne_zero
  rw [← e3] at h30'
  have key : stableRadialRootsN a p e (vE, vL, vQ) = (.fin (stableRadialRootsCore a p e (E, L, Q)).1,
      .fin (stableRadialRootsCore a p e (E, L, Q)).2.1, .fin (stableRadialRootsCore a p e (E, L, Q)).2.2.1,
      .fin (stableRadialRootsCore a p e (E, L, Q)).2.2.2) := by
    simp only [stableRadialRootsN, stableRadialRootsCore, Prod.mk.injEq]
    refine ⟨?_, ?_, ?_, ?_⟩ <;> fl
  rw [key, hr']

lemma stablePolarRootsN_fin {vE vL vQ : Fl} (hE : vE = .fin E) (hL : vL = .fin L)
    (ha : a ≠ 0) (hx0 : x ≠ 0) (hE1 : E ^ 2 < 1) (hL0 : L ≠ 0) (Q : ℝ) :
    (stablePolarRootsN a x (vE, vL, vQ)).2 = .fin (stablePolarRootsCore a x (E, L, Q)).2
    ∧ 1 < (stablePolarRootsCore a x (E, L, Q)).2 := by
  have hL2 : L ^ 2 ≠ 0 := pow_ne_zero 2 hL0
  have h1 : a ^ 2 * (1 - E ^ 2) / L ^ 2 * (1 - (1 - x ^ 2)) ≠ 0 := by
    refine mul_ne_zero (div_ne_zero (mul_ne_zero (pow_ne_zero 2 ha) (by linarith)) hL2) ?_
    rw [sub_sub_cancel]; exact pow_ne_zero 2 hx0
  have h2 : 0 < a ^ 2 * (1 - E ^ 2) / L ^ 2 * (1 - (1 - x ^ 2)) := by
    rw [sub_sub_cancel]
    have : 0 < 1 - E ^ 2 := by linarith
    positivity
  simp only [stablePolarRootsN, stablePolarRootsCore, if_neg ha]
  refine ⟨by fl, ?_⟩
  have := one_div_pos.mpr h2
  linarith

lemma stablePolarRootsN_fst {vE vL vQ : Fl} : (stablePolarRootsN a x (vE, vL, vQ)).1 = .fin (1 - x ^ 2) := by
  simp only [stablePolarRootsN]
  fl

end

end KGP
