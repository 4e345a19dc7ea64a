import Verif.Lemmas.Schmidt
import Verif.Props.ConstantsExact

/-!
# Schmidt's formula: from the code to the reduced determinants
-/

namespace KGP.Schmidt

open Classical Real

/-- The five determinants computed by constants.py:280-290, in terms of the reduced ones. -/
structure Dets (c a X : ℝ) (u v w : ℝ) (c1 c2 : Coeffs) : Prop where
  kap : c1.d * c2.h - c1.h * c2.d = c * kapH u v (a ^ 2) w / X
  rho : c1.f * c2.h - c1.h * c2.f = c * rhoH u v (a ^ 2) w / X
  sig : c1.g * c2.h - c1.h * c2.g = c * a * (-2 * TH v (a ^ 2) w) / X
  eps : c1.d * c2.g - c1.g * c2.d = c * a * epsH u v (a ^ 2) w
  eta : c1.f * c2.g - c1.g * c2.f = c * a * etaH u v (a ^ 2) w

lemma dets_two (r s a x : ℝ) (hx0 : x ≠ 0) (hx : x ^ 2 ≤ 1) :
    Dets (r - s) a (x ^ 2) (r + s) (r * s) (1 - x ^ 2) (coefficients r a x) (coefficients s a x) := by
  have hz : √(1 - x ^ 2) ^ 2 = 1 - x ^ 2 := Real.sq_sqrt (by linarith)
  have h1 : 1 - (1 - x ^ 2) = x ^ 2 := by ring
  constructor <;> simp only [coefficients, hz, h1, kapH, rhoH, epsH, etaH, TH] <;> field_simp <;> ring

lemma dets_circular (r a x : ℝ) (hx0 : x ≠ 0) (hx : x ^ 2 ≤ 1) :
    Dets (-1) a (x ^ 2) (r + r) (r * r) (1 - x ^ 2) (coefficients r a x)
      (coefficientsDerivative r a x) := by
  have hz : √(1 - x ^ 2) ^ 2 = 1 - x ^ 2 := Real.sq_sqrt (by linarith)
  have h1 : 1 - (1 - x ^ 2) = x ^ 2 := by ring
  constructor <;>
    simp only [coefficients, coefficientsDerivative, hz, h1, kapH, rhoH, epsH, etaH, TH] <;>
    field_simp <;> ring

lemma schmidtEnergy_eq {c a x u v : ℝ} {c1 c2 : Coeffs} (hc : c ≠ 0) (hx0 : x ≠ 0)
    (D : Dets c a (x ^ 2) u v (1 - x ^ 2) c1 c2) :
    schmidtEnergy x c1 c2 = √((NH u v (a ^ 2) (1 - x ^ 2)
      - Real.sign x * 2 * √(Y2H u v (a ^ 2) (1 - x ^ 2))) / WH u v (a ^ 2) (1 - x ^ 2)) := by
  unfold schmidtEnergy
  simp only [D.kap, D.rho, D.sig, D.eps, D.eta]
  have hX : x ^ 2 ≠ 0 := pow_ne_zero 2 hx0
  have e1 : c * a * (-2 * TH v (a ^ 2) (1 - x ^ 2)) / x ^ 2
      * (c * a * (-2 * TH v (a ^ 2) (1 - x ^ 2)) / x ^ 2 * (c * a * epsH u v (a ^ 2) (1 - x ^ 2)) ^ 2
        + c * rhoH u v (a ^ 2) (1 - x ^ 2) / x ^ 2 * (c * a * epsH u v (a ^ 2) (1 - x ^ 2))
          * (c * kapH u v (a ^ 2) (1 - x ^ 2) / x ^ 2)
        - c * a * etaH u v (a ^ 2) (1 - x ^ 2) * (c * kapH u v (a ^ 2) (1 - x ^ 2) / x ^ 2) ^ 2)
      = (c ^ 2 / (x ^ 2) ^ 2) ^ 2 * Y2H u v (a ^ 2) (1 - x ^ 2) := by
    rw [Y2_eq]
    generalize kapH u v (a ^ 2) (1 - x ^ 2) = κ
    generalize rhoH u v (a ^ 2) (1 - x ^ 2) = ρ
    generalize epsH u v (a ^ 2) (1 - x ^ 2) = ε
    generalize etaH u v (a ^ 2) (1 - x ^ 2) = η
    generalize TH v (a ^ 2) (1 - x ^ 2) = T
    field_simp
    ring
  rw [e1, Real.sqrt_mul (by positivity), Real.sqrt_sq (by positivity)]
  congr 1
  unfold NH WH
  generalize √(Y2H u v (a ^ 2) (1 - x ^ 2)) = Y
  generalize kapH u v (a ^ 2) (1 - x ^ 2) = κ
  generalize rhoH u v (a ^ 2) (1 - x ^ 2) = ρ
  generalize epsH u v (a ^ 2) (1 - x ^ 2) = ε
  generalize etaH u v (a ^ 2) (1 - x ^ 2) = η
  generalize TH v (a ^ 2) (1 - x ^ 2) = T
  have e2 : c * κ / x ^ 2 * (c * ρ / x ^ 2) + 2 * (c * a * ε) * (c * a * (-2 * T) / x ^ 2)
      - Real.sign x * 2 * (c ^ 2 / (x ^ 2) ^ 2 * Y)
      = c ^ 2 / (x ^ 2) ^ 2 * (κ * ρ - 4 * a ^ 2 * (1 - (1 - x ^ 2)) * ε * T - Real.sign x * 2 * Y) := by
    field_simp; ring
  have e3 : (c * ρ / x ^ 2) ^ 2 + 4 * (c * a * η) * (c * a * (-2 * T) / x ^ 2)
      = c ^ 2 / (x ^ 2) ^ 2 * (ρ ^ 2 - 8 * a ^ 2 * (1 - (1 - x ^ 2)) * η * T) := by
    field_simp; ring
  rw [e2, e3, mul_div_mul_left]
  positivity

/-- The root selected by `angular_momentum`. -/
lemma solveL_eq {x E L : ℝ} {c : Coeffs} (hh : c.h ≠ 0)
    (h0 : c.f * E ^ 2 - 2 * c.g * E * L - c.h * L ^ 2 - c.d = 0)
    (hs : 0 < Real.sign x * (c.h * L + c.g * E)) (hx0 : x ≠ 0) : solveL x E c = L := by
  unfold solveL
  have h1 : -c.d * c.h + E ^ 2 * (c.g ^ 2 + c.f * c.h) = (c.h * L + c.g * E) ^ 2 := by
    linear_combination c.h * h0
  rw [h1, Real.sqrt_sq_eq_abs]
  rcases lt_or_gt_of_ne hx0 with h | h
  · rw [Real.sign_of_neg h] at hs ⊢
    rw [abs_of_neg (by linarith)]
    field_simp; ring
  · rw [Real.sign_of_pos h] at hs ⊢
    rw [abs_of_pos (by linarith)]
    field_simp; ring

/-- Turning points from the two linear combinations and a Plücker relation. -/
lemma quad_zero {a x T κ ρ ε η E L r' H f d : ℝ} (hx0 : x ≠ 0) (hx : x ^ 2 ≤ 1) (hT : 0 < T)
    (c1 : ρ * E ^ 2 + 4 * a * T * (E * L) - κ = 0) (c2 : x ^ 2 * (η * E ^ 2 - ε) = 2 * T * L ^ 2)
    (hf : f = r' ^ 4 + a ^ 2 * (r' * (r' + 2) + (1 - x ^ 2) * (r' ^ 2 - 2 * r' + a ^ 2)))
    (hd : d = (r' ^ 2 + a ^ 2 * (1 - x ^ 2)) * (r' ^ 2 - 2 * r' + a ^ 2))
    (hH : H = (1 - (1 - x ^ 2)) * (r' * (r' - 2)) + (1 - x ^ 2) * (r' ^ 2 - 2 * r' + a ^ 2))
    (q1 : d * (-2 * T) - 2 * r' * κ + H * ε = 0) (q2 : f * (-2 * T) - 2 * r' * ρ + H * η = 0) :
    Spec.R a E L (carterFormula a x E L) r' = 0 := by
  have hz : √(1 - x ^ 2) ^ 2 = 1 - x ^ 2 := Real.sq_sqrt (by linarith)
  have hX1 : 1 - (1 - x ^ 2) = x ^ 2 := by ring
  rw [C45_quadratic_form a x r' E L hx0 hx]
  simp only [coefficients, hz, hX1]
  obtain ⟨h, eh⟩ : ∃ h, h = r' * (r' - 2) + (1 - x ^ 2) / x ^ 2 * (r' ^ 2 - 2 * r' + a ^ 2) := ⟨_, rfl⟩
  have e1 : x ^ 2 * h = H := by rw [hH, eh]; field_simp; ring
  rw [← hf, ← hd, ← eh]
  clear hf hd hH eh
  have : -2 * T * x ^ 2 * (f * E ^ 2 - 2 * (2 * a * r') * E * L - h * L ^ 2 - d) = 0 := by
    linear_combination x ^ 2 * E ^ 2 * q2 - x ^ 2 * q1 + 2 * r' * x ^ 2 * c1
        - H * c2 + 2 * T * L ^ 2 * e1
  have hne : -2 * T * x ^ 2 ≠ 0 := by
    have : 0 < T * x ^ 2 := by positivity
    intro h; linarith
  exact (mul_eq_zero.mp this).resolve_left hne

/-- The two linear combinations give the turning points. -/
lemma turning_of_combos {a x r s E L' κ ρ ε η T : ℝ} (hx0 : x ≠ 0) (hx : x ^ 2 ≤ 1) (hT : 0 < T)
    (P : ∀ r', r' = r ∨ r' = s →
      let D := r' ^ 2 - 2 * r' + a ^ 2
      let H := (1 - (1 - x ^ 2)) * (r' * (r' - 2)) + (1 - x ^ 2) * D
      (r' ^ 2 + a ^ 2 * (1 - x ^ 2)) * D * (-2 * T) - 2 * r' * κ + H * ε = 0
      ∧ (r' ^ 4 + a ^ 2 * (r' * (r' + 2) + (1 - x ^ 2) * D)) * (-2 * T) - 2 * r' * ρ + H * η = 0)
    (P' : r = s →
      (2 * (2 * r - 3) * r ^ 2 + 2 * a ^ 2 * ((1 + (1 - x ^ 2)) * r - (1 - x ^ 2))) * (-2 * T)
        - 2 * κ + 2 * (r - 1) * ε = 0
      ∧ (4 * r ^ 3 + 2 * a ^ 2 * ((1 + (1 - x ^ 2)) * r + (1 - (1 - x ^ 2)))) * (-2 * T)
        - 2 * ρ + 2 * (r - 1) * η = 0)
    (c1 : ρ * E ^ 2 + 4 * a * T * (E * L') - κ = 0) (c2' : x ^ 2 * (η * E ^ 2 - ε) = 2 * T * L' ^ 2) :
    Spec.R a E L' (carterFormula a x E L') r = 0 ∧ Spec.R a E L' (carterFormula a x E L') s = 0
    ∧ (r = s → deriv (Spec.R a E L' (carterFormula a x E L')) r = 0) := by
  have hw0 : 0 ≤ 1 - x ^ 2 := by linarith
  have hX1 : 1 - (1 - x ^ 2) = x ^ 2 := by ring
  have hz : √(1 - x ^ 2) ^ 2 = 1 - x ^ 2 := Real.sq_sqrt hw0
  obtain ⟨P1, P2⟩ := P r (.inl rfl)
  obtain ⟨P3, P4⟩ := P s (.inr rfl)
  have hR1 := quad_zero hx0 hx hT c1 c2' rfl rfl rfl P1 P2
  have hR2 := quad_zero hx0 hx hT c1 c2' rfl rfl rfl P3 P4
  refine ⟨hR1, hR2, ?_⟩
  intro hrs
  obtain ⟨q1, q2⟩ := P' hrs
  have hD := C45_derivatives a x r hx0 hx
  obtain ⟨D1, D2, D3, D4⟩ := hD
  have hfun : Spec.R a E L' (carterFormula a x E L') = fun r => (coefficients r a x).f * E ^ 2
      - 2 * (coefficients r a x).g * E * L' - (coefficients r a x).h * L' ^ 2 - (coefficients r a x).d := by
    funext r'
    exact C45_quadratic_form a x r' E L' hx0 hx
  rw [hfun]
  have hder := (((D1.mul_const (E ^ 2)).sub (((D2.const_mul 2).mul_const E).mul_const L')).sub
    (D3.mul_const (L' ^ 2))).sub D4
  refine (show deriv (fun r => (coefficients r a x).f * E ^ 2
      - 2 * (coefficients r a x).g * E * L' - (coefficients r a x).h * L' ^ 2 - (coefficients r a x).d) r = _
    from hder.deriv).trans ?_
  simp only [coefficientsDerivative, hz, hX1]
  have : -2 * T * x ^ 2 * ((4 * r ^ 3 + 2 * a ^ 2 * ((1 + (1 - x ^ 2)) * r + x ^ 2)) * E ^ 2
      - 2 * (2 * a) * E * L' - 2 * (r - 1) / x ^ 2 * L' ^ 2
      - (2 * (2 * r - 3) * r ^ 2 + 2 * a ^ 2 * ((1 + (1 - x ^ 2)) * r - (1 - x ^ 2)))) = 0 := by
    have e1 : x ^ 2 * (2 * (r - 1) / x ^ 2) = 2 * (r - 1) := by field_simp
    rw [hX1] at q2
    linear_combination x ^ 2 * E ^ 2 * q2 - x ^ 2 * q1 + 2 * x ^ 2 * c1
        - (2 * (r - 1)) * c2' + 2 * T * L' ^ 2 * e1
  have hne : -2 * T * x ^ 2 ≠ 0 := by
    have : 0 < T * x ^ 2 := by positivity
    intro h; linarith
  exact (mul_eq_zero.mp this).resolve_left hne

/-- The end of the argument: the branch of `L` is right, hence the turning points are. -/
lemma exact_tail {a x r s E L L' κ ρ ε η T : ℝ} (hx0 : x ≠ 0) (hx : x ^ 2 ≤ 1) (hT : 0 < T)
    (P : ∀ r', r' = r ∨ r' = s →
      let D := r' ^ 2 - 2 * r' + a ^ 2
      let H := (1 - (1 - x ^ 2)) * (r' * (r' - 2)) + (1 - x ^ 2) * D
      (r' ^ 2 + a ^ 2 * (1 - x ^ 2)) * D * (-2 * T) - 2 * r' * κ + H * ε = 0
      ∧ (r' ^ 4 + a ^ 2 * (r' * (r' + 2) + (1 - x ^ 2) * D)) * (-2 * T) - 2 * r' * ρ + H * η = 0)
    (P' : r = s →
      (2 * (2 * r - 3) * r ^ 2 + 2 * a ^ 2 * ((1 + (1 - x ^ 2)) * r - (1 - x ^ 2))) * (-2 * T)
        - 2 * κ + 2 * (r - 1) * ε = 0
      ∧ (4 * r ^ 3 + 2 * a ^ 2 * ((1 + (1 - x ^ 2)) * r + (1 - (1 - x ^ 2)))) * (-2 * T)
        - 2 * ρ + 2 * (r - 1) * η = 0)
    (c1 : ρ * E ^ 2 + 4 * a * T * (E * L') - κ = 0) (c2' : x ^ 2 * (η * E ^ 2 - ε) = 2 * T * L' ^ 2)
    (hh : (coefficients r a x).h ≠ 0)
    (hbr : 0 < Real.sign x * ((coefficients r a x).h * L' + (coefficients r a x).g * E))
    (hL : L = solveL x E (coefficients r a x)) :
    L = L' ∧ Spec.R a E L (carterFormula a x E L) r = 0 ∧ Spec.R a E L (carterFormula a x E L) s = 0
    ∧ (r = s → deriv (Spec.R a E L (carterFormula a x E L)) r = 0) := by
  have hR := turning_of_combos hx0 hx hT P P' c1 c2'
  have hLeq : L = L' := by
    rw [hL]
    refine solveL_eq hh ?_ hbr hx0
    rw [← C45_quadratic_form a x r E L' hx0 hx]
    exact hR.1
  exact ⟨hLeq, by rw [hLeq]; exact hR⟩

/-- Everything for a pair of radii, the determinants being free variables. -/
lemma exact_abs {a x r s E L κ ρ ε η θ T W N Y : ℝ} (ha : 0 < a) (hx0 : x ≠ 0) (hx : x ^ 2 ≤ 1)
    (hr : 2 < r) (hκ : 0 < κ) (hρ : 0 < ρ) (hθ : 0 < θ) (hT : 0 < T) (hW : 0 < W) (hN : 0 < N)
    (hYn : 0 ≤ Y)
    (hYs : Y ^ 2 = -2 * a ^ 2 * x ^ 2 * T * (-2 * a ^ 2 * x ^ 2 * T * ε ^ 2 + ρ * ε * κ - η * κ ^ 2))
    (hWd : W = ρ ^ 2 - 8 * a ^ 2 * x ^ 2 * η * T) (hNd : N = κ * ρ - 4 * a ^ 2 * x ^ 2 * ε * T)
    (hth : κ * η - ε * ρ = 2 * T * θ)
    (P : ∀ r', r' = r ∨ r' = s →
      let D := r' ^ 2 - 2 * r' + a ^ 2
      let H := (1 - (1 - x ^ 2)) * (r' * (r' - 2)) + (1 - x ^ 2) * D
      (r' ^ 2 + a ^ 2 * (1 - x ^ 2)) * D * (-2 * T) - 2 * r' * κ + H * ε = 0
      ∧ (r' ^ 4 + a ^ 2 * (r' * (r' + 2) + (1 - x ^ 2) * D)) * (-2 * T) - 2 * r' * ρ + H * η = 0)
    (P' : r = s →
      (2 * (2 * r - 3) * r ^ 2 + 2 * a ^ 2 * ((1 + (1 - x ^ 2)) * r - (1 - x ^ 2))) * (-2 * T)
        - 2 * κ + 2 * (r - 1) * ε = 0
      ∧ (4 * r ^ 3 + 2 * a ^ 2 * ((1 + (1 - x ^ 2)) * r + (1 - (1 - x ^ 2)))) * (-2 * T)
        - 2 * ρ + 2 * (r - 1) * η = 0)
    (hE : E = √((N - Real.sign x * 2 * Y) / W)) (hL : L = solveL x E (coefficients r a x)) :
    0 < E ∧ 0 < Real.sign x * L
    ∧ Spec.R a E L (carterFormula a x E L) r = 0 ∧ Spec.R a E L (carterFormula a x E L) s = 0
    ∧ (r = s → deriv (Spec.R a E L (carterFormula a x E L)) r = 0)
    ∧ W * (E ^ 2) ^ 2 - 2 * N * E ^ 2 + κ ^ 2 = 0
    ∧ 0 < Real.sign x * (κ - ρ * E ^ 2) := by
  have hA : 0 < a ^ 2 := by positivity
  have hX : 0 < x ^ 2 := by positivity
  have hg : Real.sign x = 1 ∨ Real.sign x = -1 := by
    rcases lt_or_gt_of_ne hx0 with h | h
    · right; exact Real.sign_of_neg h
    · left; exact Real.sign_of_pos h
  have hw0 : 0 ≤ 1 - x ^ 2 := by linarith
  have hX1 : 1 - (1 - x ^ 2) = x ^ 2 := by ring
  obtain ⟨P1, P2⟩ := P r (.inl rfl)
  obtain ⟨ht, hq, hsg, htk, hNY⟩ := core hA hX hT hκ hρ hθ hW hN hYn hYs hWd hNd hth hg
  have hEpos : 0 < E := by rw [hE]; exact Real.sqrt_pos.mpr ht
  have hE2 : E ^ 2 = (N - Real.sign x * 2 * Y) / W := by rw [hE, Real.sq_sqrt ht.le]
  rw [← hE2] at hq hsg htk
  obtain ⟨L', hL'⟩ : ∃ L', L' = (κ - ρ * E ^ 2) / (4 * a * T * E) := ⟨_, rfl⟩
  obtain ⟨c1, c2⟩ := combos ha.ne' rfl hX.ne' hT.ne' hEpos.ne' hWd hNd hq hL'
  have hz : √(1 - x ^ 2) ^ 2 = 1 - x ^ 2 := Real.sq_sqrt hw0
  have c2' : x ^ 2 * (η * E ^ 2 - ε) = 2 * T * L' ^ 2 := by
    field_simp at c2; linear_combination c2
  -- sign of L'
  have hLs : 0 < Real.sign x * L' := by
    rw [hL', ← mul_div_assoc]; positivity
  -- the branch
  have hd1 : 0 < r ^ 2 - 2 * r + a ^ 2 := by
    have h1 : 0 < r * (r - 2) := mul_pos (by linarith) (by linarith)
    linarith
  have hH : 0 < (1 - (1 - x ^ 2)) * (r * (r - 2)) + (1 - x ^ 2) * (r ^ 2 - 2 * r + a ^ 2) := by
    rw [hX1]
    have : 0 < r - 2 := by linarith
    have h0 : 0 < r := by linarith
    positivity
  have hhc : (coefficients r a x).h = ((1 - (1 - x ^ 2)) * (r * (r - 2))
      + (1 - x ^ 2) * (r ^ 2 - 2 * r + a ^ 2)) / x ^ 2 := by
    simp only [coefficients, hz, hX1]; field_simp; try ring
  have hhpos : 0 < (coefficients r a x).h := by rw [hhc]; positivity
  have hgc : (coefficients r a x).g = 2 * a * r := rfl
  have hbr : 0 < Real.sign x * ((coefficients r a x).h * L' + (coefficients r a x).g * E) := by
    rcases hg with h | h
    · rw [h] at hLs ⊢
      have hL0 : 0 < L' := by linarith
      have : 0 < (coefficients r a x).g := by rw [hgc]; have : 0 < r := by linarith
                                              positivity
      have h1 := mul_pos hhpos hL0
      have h2 := mul_pos this hEpos
      linarith
    · rw [h]
      rw [hhc, hgc]
      obtain ⟨Hh, eH⟩ : ∃ Hh, Hh = (1 - (1 - x ^ 2)) * (r * (r - 2))
        + (1 - x ^ 2) * (r ^ 2 - 2 * r + a ^ 2) := ⟨_, rfl⟩
      rw [← eH] at P1 hH ⊢
      rw [h] at htk hNY
      have hLL : 4 * a * T * E * L' = κ - ρ * E ^ 2 := by linear_combination c1
      have hd : 0 < (r ^ 2 + a ^ 2 * (1 - x ^ 2)) * (r ^ 2 - 2 * r + a ^ 2) := by
        have : 0 < r := by linarith
        positivity
      have e1 : (N + -1 * 2 * Y) * (Hh * (κ - ρ * E ^ 2) + 8 * a ^ 2 * x ^ 2 * T * r * E ^ 2)
          = -(κ * (8 * a ^ 2 * x ^ 2 * T ^ 2 * ((r ^ 2 + a ^ 2 * (1 - x ^ 2)) * (r ^ 2 - 2 * r + a ^ 2))
            + 2 * Hh * Y)) := by
        linear_combination (-Hh * ρ + 8 * a ^ 2 * x ^ 2 * T * r) * htk + Hh * κ * hNd
          - 4 * a ^ 2 * x ^ 2 * T * κ * P1
      have h2 : 0 < κ * (8 * a ^ 2 * x ^ 2 * T ^ 2 * ((r ^ 2 + a ^ 2 * (1 - x ^ 2)) * (r ^ 2 - 2 * r + a ^ 2))
            + 2 * Hh * Y) := by positivity
      have h3 : Hh * (κ - ρ * E ^ 2) + 8 * a ^ 2 * x ^ 2 * T * r * E ^ 2 < 0 := by
        by_contra hcon
        have := mul_nonneg hNY.le (not_lt.mp hcon)
        linarith
      have h4 : 4 * a * T * E * x ^ 2 * (Hh / x ^ 2 * L' + 2 * a * r * E)
          = Hh * (κ - ρ * E ^ 2) + 8 * a ^ 2 * x ^ 2 * T * r * E ^ 2 := by
        rw [← hLL]; field_simp; try ring
      have h5 : 0 < 4 * a * T * E * x ^ 2 := by positivity
      have h6 : Hh / x ^ 2 * L' + 2 * a * r * E < 0 := by
        by_contra hcon
        have := mul_nonneg h5.le (not_lt.mp hcon)
        linarith
      linarith
  obtain ⟨hLeq, hR1, hR2, hR3⟩ := exact_tail hx0 hx hT P P' c1 c2' hhpos.ne' hbr hL
  exact ⟨hEpos, hLeq ▸ hLs, hR1, hR2, hR3, hq, hsg⟩

/-- Everything for a pair of radii. -/
lemma exact_of_signs {a x r s E L : ℝ} (ha : 0 < a) (hx0 : x ≠ 0) (hx : x ^ 2 ≤ 1)
    (hr : 2 < r) (hs : 0 < s)
    (hκ : 0 < kapH (r + s) (r * s) (a ^ 2) (1 - x ^ 2)) (hρ : 0 < rhoH (r + s) (r * s) (a ^ 2) (1 - x ^ 2))
    (hθ : 0 < thetaH (r + s) (r * s) (a ^ 2) (1 - x ^ 2)) (hT : 0 < TH (r * s) (a ^ 2) (1 - x ^ 2))
    (hW : 0 < WH (r + s) (r * s) (a ^ 2) (1 - x ^ 2)) (hN : 0 < NH (r + s) (r * s) (a ^ 2) (1 - x ^ 2))
    (hDD : 0 ≤ DDH (r + s) (r * s) (a ^ 2))
    (hE : E = √((NH (r + s) (r * s) (a ^ 2) (1 - x ^ 2)
      - Real.sign x * 2 * √(Y2H (r + s) (r * s) (a ^ 2) (1 - x ^ 2))) / WH (r + s) (r * s) (a ^ 2) (1 - x ^ 2)))
    (hL : L = solveL x E (coefficients r a x)) :
    0 < E ∧ 0 < Real.sign x * L
    ∧ Spec.R a E L (carterFormula a x E L) r = 0 ∧ Spec.R a E L (carterFormula a x E L) s = 0
    ∧ (r = s → deriv (Spec.R a E L (carterFormula a x E L)) r = 0)
    ∧ WH (r + s) (r * s) (a ^ 2) (1 - x ^ 2) * (E ^ 2) ^ 2
        - 2 * NH (r + s) (r * s) (a ^ 2) (1 - x ^ 2) * E ^ 2
        + kapH (r + s) (r * s) (a ^ 2) (1 - x ^ 2) ^ 2 = 0
    ∧ 0 < Real.sign x * (kapH (r + s) (r * s) (a ^ 2) (1 - x ^ 2)
        - rhoH (r + s) (r * s) (a ^ 2) (1 - x ^ 2) * E ^ 2) := by
  have hX1 : 1 - (1 - x ^ 2) = x ^ 2 := by ring
  have hw0 : 0 ≤ 1 - x ^ 2 := by linarith
  have hrs' : 0 < r * s := mul_pos (by linarith) hs
  have hSS : 0 ≤ SSH (r + s) (r * s) (a ^ 2) (1 - x ^ 2) := by
    unfold SSH
    have : 0 ≤ (r + s) ^ 2 - 2 * (r * s) := by nlinarith [sq_nonneg r, sq_nonneg s]
    positivity
  have hY2 : 0 ≤ Y2H (r + s) (r * s) (a ^ 2) (1 - x ^ 2) := by
    have : 0 < r + s := by linarith
    unfold Y2H; rw [hX1]; positivity
  have hYs := Real.sq_sqrt hY2
  have hYe := Y2_eq (r + s) (r * s) (a ^ 2) (1 - x ^ 2)
  rw [hX1] at hYe
  refine exact_abs ha hx0 hx hr hκ hρ hθ hT hW hN (Real.sqrt_nonneg _) (hYs.trans hYe)
    (by unfold WH; rw [hX1]) (by unfold NH; rw [hX1]) (theta_eq _ _ _ _) ?_ ?_ hE hL
  · rintro r' (rfl | rfl)
    · exact pluecker r' s (a ^ 2) (1 - x ^ 2)
    · have := pluecker r' r (a ^ 2) (1 - x ^ 2)
      rw [add_comm r' r, mul_comm r' r] at this
      exact this
  · rintro rfl
    exact pluecker' r (a ^ 2) (1 - x ^ 2)

end KGP.Schmidt
