import Verif.Lemmas.SepCertDefs
import Mathlib.Analysis.Calculus.Deriv.MeanValue
import Mathlib.Analysis.Calculus.Deriv.Pow
import Mathlib.Analysis.SpecialFunctions.Sqrt
import Mathlib.Analysis.Calculus.Deriv.Inv

/-!
# The marginal-stability ratio is strictly decreasing in `p` for `p ≥ 4`

`N / √(M1 M2)` (see `SepCert`) is strictly decreasing on `[4, ∞)`, so that the separatrix polynomial has
at most one prograde and one retrograde zero there.
-/

namespace KGP.SepCert

set_option linter.unusedSectionVars false

/-! ### Coefficients -/

lemma N_poly (p A e w : ℝ) : N p A e w = -p ^ 6 + (2 * (3 + e)) * p ^ 5
    + (A * (g e - 2 * w * (3 + 2 * e + e ^ 2))) * p ^ 4 + (-4 * K e * A) * p ^ 3
    + (A ^ 2 * w * (w * (3 + 4 * e - 2 * e ^ 2 - 4 * e ^ 3 - e ^ 4) - 2 * (3 + 4 * e + e ^ 4))) * p ^ 2
    + (2 * K e * g e * A ^ 2 * w * (2 - w)) * p + (-K e ^ 2 * A ^ 3 * w ^ 2) := by
  simp only [N, G, H, B, D, K, g]; ring

lemma M1_poly (p A e w : ℝ) : M1 p A e w = g e * p ^ 4 + (-2 * K e) * p ^ 3
    + (-A * w * ((1 + e) ^ 2 * (6 - 4 * e + 2 * e ^ 2))) * p ^ 2 + (2 * K e * g e * A * w) * p
    + (-K e ^ 2 * A ^ 2 * w ^ 2) := by
  simp only [M1, B, D, K, g]; ring

lemma M2_poly (p A e w : ℝ) : M2 p A e w = (3 + e) * p ^ 5 + (-K e * A * (1 + w)) * p ^ 3
    + (K e * g e * A ^ 2 * w) * p := by
  simp only [M2, B, D, K, g]; ring

/-- `p · d/dp` of `N` -/
def dN (p A e w : ℝ) : ℝ := -6 * p ^ 6 + 5 * (2 * (3 + e)) * p ^ 5
    + 4 * (A * (g e - 2 * w * (3 + 2 * e + e ^ 2))) * p ^ 4 + 3 * (-4 * K e * A) * p ^ 3
    + 2 * (A ^ 2 * w * (w * (3 + 4 * e - 2 * e ^ 2 - 4 * e ^ 3 - e ^ 4) - 2 * (3 + 4 * e + e ^ 4))) * p ^ 2
    + (2 * K e * g e * A ^ 2 * w * (2 - w)) * p

/-- `p · d/dp` of `M1` -/
def dM1 (p A e w : ℝ) : ℝ := 4 * g e * p ^ 4 + 3 * (-2 * K e) * p ^ 3
    + 2 * (-A * w * ((1 + e) ^ 2 * (6 - 4 * e + 2 * e ^ 2))) * p ^ 2 + (2 * K e * g e * A * w) * p

/-- `p · d/dp` of `M2` -/
def dM2 (p A e w : ℝ) : ℝ := 5 * (3 + e) * p ^ 5 + 3 * (-K e * A * (1 + w)) * p ^ 3
    + (K e * g e * A ^ 2 * w) * p

lemma hasDerivAt_poly6 (c6 c5 c4 c3 c2 c1 c0 p : ℝ) :
    HasDerivAt (fun p : ℝ => c6 * p ^ 6 + c5 * p ^ 5 + c4 * p ^ 4 + c3 * p ^ 3 + c2 * p ^ 2 + c1 * p + c0)
      (6 * c6 * p ^ 5 + 5 * c5 * p ^ 4 + 4 * c4 * p ^ 3 + 3 * c3 * p ^ 2 + 2 * c2 * p + c1) p := by
  have h := ((((((hasDerivAt_pow 6 p).const_mul c6).add ((hasDerivAt_pow 5 p).const_mul c5)).add
    ((hasDerivAt_pow 4 p).const_mul c4)).add ((hasDerivAt_pow 3 p).const_mul c3)).add
    ((hasDerivAt_pow 2 p).const_mul c2)).add ((hasDerivAt_id p).const_mul c1) |>.add_const c0
  refine (h.congr_deriv ?_)
  norm_num
  ring

lemma hasDerivAt_N (p A e w : ℝ) (hp : p ≠ 0) :
    HasDerivAt (fun p => N p A e w) (dN p A e w / p) p := by
  have h := hasDerivAt_poly6 (-1) (2 * (3 + e)) (A * (g e - 2 * w * (3 + 2 * e + e ^ 2)))
    (-4 * K e * A)
    (A ^ 2 * w * (w * (3 + 4 * e - 2 * e ^ 2 - 4 * e ^ 3 - e ^ 4) - 2 * (3 + 4 * e + e ^ 4)))
    (2 * K e * g e * A ^ 2 * w * (2 - w)) (-K e ^ 2 * A ^ 3 * w ^ 2) p
  have e1 : (fun p => N p A e w) = _ := funext fun p => N_poly p A e w
  rw [e1]
  refine (h.congr_deriv ?_).congr_of_eventuallyEq (Filter.Eventually.of_forall fun q => ?_)
  · unfold dN; field_simp
  · simp only; ring

lemma hasDerivAt_M1 (p A e w : ℝ) (hp : p ≠ 0) :
    HasDerivAt (fun p => M1 p A e w) (dM1 p A e w / p) p := by
  have h := hasDerivAt_poly6 0 0 (g e) (-2 * K e) (-A * w * ((1 + e) ^ 2 * (6 - 4 * e + 2 * e ^ 2)))
    (2 * K e * g e * A * w) (-K e ^ 2 * A ^ 2 * w ^ 2) p
  have e1 : (fun p => M1 p A e w) = _ := funext fun p => M1_poly p A e w
  rw [e1]
  refine (h.congr_deriv ?_).congr_of_eventuallyEq (Filter.Eventually.of_forall fun q => ?_)
  · unfold dM1; field_simp; ring
  · simp only; ring

lemma hasDerivAt_M2 (p A e w : ℝ) (hp : p ≠ 0) :
    HasDerivAt (fun p => M2 p A e w) (dM2 p A e w / p) p := by
  have h := hasDerivAt_poly6 0 (3 + e) 0 (-K e * A * (1 + w)) 0 (K e * g e * A ^ 2 * w) 0 p
  have e1 : (fun p => M2 p A e w) = _ := funext fun p => M2_poly p A e w
  rw [e1]
  refine (h.congr_deriv ?_).congr_of_eventuallyEq (Filter.Eventually.of_forall fun q => ?_)
  · unfold dM2; field_simp; ring
  · simp only; ring

/-! ### Elementary bounds in `e` -/

lemma K_nonneg {e : ℝ} (_he : 0 ≤ e) (he1 : e ≤ 1) : 0 ≤ K e := by
  have : 0 ≤ 1 - e := by linarith
  unfold K; positivity

lemma K_le {e : ℝ} (he : 0 ≤ e) (_he1 : e ≤ 1) : K e ≤ 6 / 5 := by
  unfold K
  have h : 0 ≤ (e - 1 / 3) ^ 2 * (e + 5 / 3) := by positivity
  nlinarith

lemma g_bounds {e : ℝ} (he : 0 ≤ e) (he1 : e ≤ 1) : 3 ≤ g e ∧ g e ≤ 4 := by
  unfold g; constructor <;> nlinarith [mul_nonneg he (sub_nonneg.mpr he1)]

lemma two_var_a {p e : ℝ} (hp : 4 ≤ p) (he : 0 ≤ e) (he1 : e ≤ 1) :
    1 ≤ p ^ 2 * (3 * p ^ 2 - 2 * (3 + e) * p) - (3 + 2 * e + 3 * e ^ 2) * p ^ 2 - 12 * K e * p
      - 10 * (3 + 4 * e + e ^ 4) := by
  obtain ⟨y, rfl⟩ : ∃ y, p = 4 + y := ⟨p - 4, by ring⟩
  have hy : 0 ≤ y := by linarith
  have hk := K_le he he1
  have h1 : 12 * K e * y ≤ 12 * (6 / 5) * y := by nlinarith
  have h4 : e ^ 4 ≤ e := by
    have : e ^ 3 ≤ 1 := pow_le_one₀ he he1
    nlinarith
  have h2 : e ^ 2 ≤ e := by nlinarith
  have h3 : 12 * K e * 4 ≤ 12 * (6 / 5) * 4 - 48 * (6 / 5) * 0 := by nlinarith
  have hky : 0 ≤ (1 - e) * y := mul_nonneg (by linarith) hy
  have hey : 0 ≤ e * y := mul_nonneg he hy
  have hy2 : 0 ≤ y ^ 2 := sq_nonneg y
  have hey2 : 0 ≤ (1 - e) * y ^ 2 := mul_nonneg (by linarith) hy2
  have hy3 : 0 ≤ y ^ 3 := by positivity
  have hey3 : 0 ≤ (1 - e) * y ^ 3 := mul_nonneg (by linarith) hy3
  have hy4 : 0 ≤ y ^ 4 := by positivity
  have he2y : e ^ 2 * y ≤ e * y := by nlinarith
  have he2y2 : e ^ 2 * y ^ 2 ≤ e * y ^ 2 := by nlinarith
  have hkk : K e ≤ 12 / 5 * (1 - e) + 1 / 5 := by
    unfold K
    nlinarith [mul_nonneg (sq_nonneg (e - 4 / 5)) he, sq_nonneg (e - 4 / 5), sq_nonneg (e - 7 / 10)]
  nlinarith

lemma two_var_b {p e : ℝ} (hp : 4 ≤ p) (he : 0 ≤ e) (he1 : e ≤ 1) :
    0 ≤ 2 * (3 + e) * p ^ 3 - 2 * (3 + 2 * e + 3 * e ^ 2) * p ^ 2 - 12 * K e * p
      - 8 * (3 + 4 * e + e ^ 4) := by
  obtain ⟨y, rfl⟩ : ∃ y, p = 4 + y := ⟨p - 4, by ring⟩
  have hy : 0 ≤ y := by linarith
  have hk := K_le he he1
  have h1 : 12 * K e * (4 + y) ≤ 12 * (6 / 5) * (4 + y) := by nlinarith
  have h4 : e ^ 4 ≤ e := by
    have : e ^ 3 ≤ 1 := pow_le_one₀ he he1
    nlinarith
  have h2 : e ^ 2 ≤ e := by nlinarith
  have h3 : 2 * (3 + 2 * e + 3 * e ^ 2) * (4 + y) ^ 2 ≤ 2 * (3 + 5 * e) * (4 + y) ^ 2 := by
    nlinarith [sq_nonneg (4 + y)]
  have hy3 : 0 ≤ y ^ 3 := by positivity
  have hey : 0 ≤ e * y := mul_nonneg he hy
  have hey2 : 0 ≤ e * y ^ 2 := by positivity
  have hey3 : 0 ≤ e * y ^ 3 := by positivity
  have hky : 0 ≤ (1 - e) * y := mul_nonneg (by linarith) hy
  have hky2 : 0 ≤ (1 - e) * y ^ 2 := mul_nonneg (by linarith) (sq_nonneg y)
  nlinarith

section
variable {p A e w : ℝ} (hp : 4 ≤ p) (hA : 0 ≤ A) (hA1 : A ≤ 1) (he : 0 ≤ e) (he1 : e ≤ 1)
  (hw : 0 ≤ w) (hw1 : w ≤ 1)
include hp hA hA1 he he1 hw hw1

/-- the terms of lowest order -/
lemma low_terms (c : ℝ) (hc : 6 ≤ c) :
    0 ≤ c * (K e * g e * A ^ 2 * w * (2 - w)) * p - 9 * K e ^ 2 * A ^ 3 * w ^ 2 := by
  have hK := K_nonneg he he1
  have hK1 := K_le he he1
  obtain ⟨hg, -⟩ := g_bounds he he1
  obtain ⟨k, hk⟩ : ∃ k, k = K e := ⟨_, rfl⟩
  obtain ⟨G, hG⟩ : ∃ k, k = g e := ⟨_, rfl⟩
  rw [← hk] at hK hK1 ⊢
  rw [← hG] at hg ⊢
  have h1 : 72 ≤ c * G * p := by
    have : 18 ≤ c * G := by nlinarith
    nlinarith
  have h2 : w ≤ 2 - w := by linarith
  have h3 : 0 ≤ k * A ^ 2 * w := by positivity
  have h4 : 9 * k * A * w ≤ 72 * w := by
    have : k * A ≤ 6 / 5 := by nlinarith
    nlinarith
  have h5 : 9 * k * A * w ≤ c * G * p * (2 - w) := by nlinarith
  have : c * (k * G * A ^ 2 * w * (2 - w)) * p - 9 * k ^ 2 * A ^ 3 * w ^ 2
      = k * A ^ 2 * w * (c * G * p * (2 - w) - 9 * k * A * w) := by ring
  rw [this]
  exact mul_nonneg h3 (by linarith)

omit hp in
lemma c1_nonneg : 0 ≤ A ^ 2 * w ^ 2 * (3 + 4 * e - 2 * e ^ 2 - 4 * e ^ 3 - e ^ 4) := by
  have : 0 ≤ 3 + 4 * e - 2 * e ^ 2 - 4 * e ^ 3 - e ^ 4 := by
    have h : 3 + 4 * e - 2 * e ^ 2 - 4 * e ^ 3 - e ^ 4 = (1 - e) * (1 + e) * (3 + 4 * e + e ^ 2) := by ring
    have h1 : 0 ≤ 1 - e := by linarith
    rw [h]; positivity
  positivity

/-- reduction of the middle terms to `A = w = 1` -/
lemma middle (a b : ℝ) (ha : 0 ≤ a) (hb : 0 ≤ b) :
    -(a * (3 + 2 * e + 3 * e ^ 2)) * p ^ 2 - 12 * K e * p - b * (3 + 4 * e + e ^ 4)
      ≤ a * (A * (g e - 2 * w * (3 + 2 * e + e ^ 2))) * p ^ 2 - 12 * K e * A * p
        - b * (A ^ 2 * w) * (3 + 4 * e + e ^ 4) := by
  have hK := K_nonneg he he1
  have h1 : -(3 + 2 * e + 3 * e ^ 2) ≤ A * (g e - 2 * w * (3 + 2 * e + e ^ 2)) := by
    have e1 : -(3 + 2 * e + 3 * e ^ 2) ≤ g e - 2 * w * (3 + 2 * e + e ^ 2) := by
      have : 0 ≤ (1 - w) * (3 + 2 * e + e ^ 2) := mul_nonneg (by linarith) (by positivity)
      unfold g; linarith
    have e2 : 0 ≤ 3 + 2 * e + 3 * e ^ 2 := by positivity
    nlinarith
  have h2 : K e * A * p ≤ K e * p := by
    have : K e * A ≤ K e := by nlinarith
    nlinarith
  have h3 : A ^ 2 * w ≤ 1 := by
    have : A ^ 2 ≤ 1 := by nlinarith
    nlinarith [sq_nonneg A]
  have h4 : b * (A ^ 2 * w) * (3 + 4 * e + e ^ 4) ≤ b * 1 * (3 + 4 * e + e ^ 4) := by
    apply mul_le_mul_of_nonneg_right _ (by positivity)
    exact mul_le_mul_of_nonneg_left h3 hb
  have h5 : -(a * (3 + 2 * e + 3 * e ^ 2)) * p ^ 2
      ≤ a * (A * (g e - 2 * w * (3 + 2 * e + e ^ 2))) * p ^ 2 := by
    apply mul_le_mul_of_nonneg_right _ (sq_nonneg p)
    rw [← mul_neg]
    exact mul_le_mul_of_nonneg_left h1 ha
  linarith

lemma nine_N : 0 < 9 * N p A e w - 2 * dN p A e w := by
  have h1 := two_var_a hp he he1
  have h2 := middle hp hA hA1 he he1 hw hw1 1 10 (by norm_num) (by norm_num)
  have h3 := low_terms hp hA hA1 he he1 hw hw1 14 (by norm_num)
  have h4 := c1_nonneg hA hA1 he he1 hw hw1
  have hp2 : 0 < p ^ 2 := by positivity
  have h5 := mul_pos hp2 (show (0:ℝ) < 1 by norm_num)
  rw [N_poly, dN]
  have h6 := mul_le_mul_of_nonneg_left (h1.trans (show _ ≤ p ^ 2 * (3 * p ^ 2 - 2 * (3 + e) * p)
      + 1 * (A * (g e - 2 * w * (3 + 2 * e + e ^ 2))) * p ^ 2 - 12 * K e * A * p
        - 10 * (A ^ 2 * w) * (3 + 4 * e + e ^ 4) by linarith)) hp2.le
  have h7 := mul_nonneg h4 hp2.le
  linarith

lemma six_N : 0 ≤ 6 * N p A e w - dN p A e w := by
  have h1 := two_var_b hp he he1
  have h2 := middle hp hA hA1 he he1 hw hw1 2 8 (by norm_num) (by norm_num)
  have h3 := low_terms hp hA hA1 he he1 hw hw1 10 (by norm_num)
  have h4 := c1_nonneg hA hA1 he he1 hw hw1
  have hp2 : 0 < p ^ 2 := by positivity
  rw [N_poly, dN]
  have h6 := mul_le_mul_of_nonneg_left (h1.trans (show _ ≤ 2 * (3 + e) * p ^ 3
      + 2 * (A * (g e - 2 * w * (3 + 2 * e + e ^ 2))) * p ^ 2 - 12 * K e * A * p
        - 8 * (A ^ 2 * w) * (3 + 4 * e + e ^ 4) by linarith)) hp2.le
  have h7 := mul_nonneg h4 hp2.le
  have h8 : 0 ≤ K e ^ 2 * A ^ 3 * w ^ 2 := by positivity
  linarith

lemma h_le : (1 + e) ^ 2 * (6 - 4 * e + 2 * e ^ 2) ≤ 6 + 10 * e := by
  nlinarith [mul_nonneg he (sub_nonneg.mpr he1), mul_nonneg (mul_nonneg he he) (sub_nonneg.mpr he1), mul_nonneg (mul_nonneg (mul_nonneg he he) he) (sub_nonneg.mpr he1)]

lemma KgM1 (c : ℝ) (hc : 2 ≤ c) : 0 ≤ c * (K e * g e * A * w) * p - 5 * K e ^ 2 * A ^ 2 * w ^ 2 := by
  have hK := K_nonneg he he1
  have hK1 := K_le he he1
  obtain ⟨hg, -⟩ := g_bounds he he1
  obtain ⟨k, hk⟩ : ∃ k, k = K e := ⟨_, rfl⟩
  obtain ⟨G, hG⟩ : ∃ k, k = g e := ⟨_, rfl⟩
  rw [← hk] at hK hK1 ⊢
  rw [← hG] at hg ⊢
  have h1 : 24 ≤ c * G * p := by
    have : 6 ≤ c * G := by nlinarith
    nlinarith
  have h4 : k * A * w ≤ 6 / 5 := by
    have : k * A ≤ 6 / 5 := by nlinarith
    nlinarith [mul_nonneg hK hA]
  have : c * (k * G * A * w) * p - 5 * k ^ 2 * A ^ 2 * w ^ 2
      = k * A * w * (c * G * p - 5 * (k * A * w)) := by ring
  rw [this]
  exact mul_nonneg (by positivity) (by linarith)

lemma M1_pos : 0 < M1 p A e w := by
  have hK := K_nonneg he he1
  have hK1 := K_le he he1
  have h1 := KgM1 hp hA hA1 he he1 hw hw1 2 le_rfl
  have h2 := h_le hp hA hA1 he he1 hw hw1
  have h3 : A * w * ((1 + e) ^ 2 * (6 - 4 * e + 2 * e ^ 2)) ≤ 6 + 10 * e := by
    have : A * w ≤ 1 := by nlinarith
    have h0 : 0 ≤ (1 + e) ^ 2 * (6 - 4 * e + 2 * e ^ 2) := by
      have : 0 ≤ 6 - 4 * e + 2 * e ^ 2 := by nlinarith
      positivity
    nlinarith
  have h4 : 0 < g e * p ^ 2 - 2 * K e * p - (6 + 10 * e) := by
    have e1 : 2 * K e * p ≤ 12 / 5 * p := by nlinarith
    have e2 : (3 + e) * p ^ 2 ≤ g e * p ^ 2 := by
      apply mul_le_mul_of_nonneg_right _ (sq_nonneg p)
      unfold g; nlinarith
    nlinarith [mul_nonneg he (show 0 ≤ p - 4 by linarith), mul_nonneg he (sq_nonneg (p - 4))]
  have hp2 : 0 < p ^ 2 := by positivity
  have h5 := mul_pos hp2 h4
  have h6 := mul_le_mul_of_nonneg_left h3 hp2.le
  have h8 : 0 ≤ K e ^ 2 * A ^ 2 * w ^ 2 := by positivity
  rw [M1_poly]
  linarith

lemma five_M1 : 0 ≤ 5 * M1 p A e w - dM1 p A e w := by
  have hK := K_nonneg he he1
  have hK1 := K_le he he1
  have h1 := KgM1 hp hA hA1 he he1 hw hw1 8 (by norm_num)
  have h0 : 0 ≤ 6 - 4 * e + 2 * e ^ 2 := by nlinarith
  have h3 : A * w * ((1 + e) ^ 2 * (6 - 4 * e + 2 * e ^ 2)) ≤ (1 + e) ^ 2 * (6 - 4 * e + 2 * e ^ 2) := by
    have : A * w ≤ 1 := by nlinarith
    have : 0 ≤ (1 + e) ^ 2 * (6 - 4 * e + 2 * e ^ 2) := by positivity
    nlinarith
  have h4 : 0 ≤ g e * p ^ 2 - 4 * K e * p - 3 * ((1 + e) ^ 2 * (6 - 4 * e + 2 * e ^ 2)) := by
    have e1 : 0 ≤ 14 - 22 * e + 22 * e ^ 2 - 6 * e ^ 3 := by
      nlinarith [mul_nonneg (sq_nonneg e) (sub_nonneg.mpr he1), sq_nonneg (e - 1 / 2)]
    have e2 : 0 ≤ (p - 4) * (g e * (p + 4) - 4 * K e) := by
      apply mul_nonneg (by linarith)
      have := (g_bounds he he1).1
      nlinarith
    have e3 : g e * p ^ 2 - 4 * K e * p - 3 * ((1 + e) ^ 2 * (6 - 4 * e + 2 * e ^ 2))
        = (p - 4) * (g e * (p + 4) - 4 * K e) + (1 + e) * (14 - 22 * e + 22 * e ^ 2 - 6 * e ^ 3) := by
      unfold g K; ring
    rw [e3]; positivity
  have hp2 : 0 < p ^ 2 := by positivity
  have h5 := mul_nonneg hp2.le h4
  have h6 := mul_le_mul_of_nonneg_left h3 hp2.le
  rw [M1_poly, dM1]
  linarith

lemma four_M1 : 0 ≤ dM1 p A e w - 4 * M1 p A e w := by
  have hK := K_nonneg he he1
  obtain ⟨hg0, hg⟩ := g_bounds he he1
  have h0 : 0 ≤ 6 - 4 * e + 2 * e ^ 2 := by nlinarith
  have hAw : A * w ≤ 1 := by nlinarith
  have h1 : 0 ≤ 2 * K e * p * (p ^ 2 - 3 * (A * w) * g e) := by
    apply mul_nonneg (by positivity)
    nlinarith [mul_nonneg (mul_nonneg hA hw) (show 0 ≤ 4 - g e by linarith)]
  have h2 : 0 ≤ 2 * (A * w * ((1 + e) ^ 2 * (6 - 4 * e + 2 * e ^ 2))) * p ^ 2 := by positivity
  have h3 : 0 ≤ 4 * K e ^ 2 * A ^ 2 * w ^ 2 := by positivity
  rw [M1_poly, dM1]
  linarith

lemma five_M2 : 0 ≤ dM2 p A e w - 5 * M2 p A e w := by
  have hK := K_nonneg he he1
  obtain ⟨hg0, hg⟩ := g_bounds he he1
  have h1 : 0 ≤ 2 * K e * A * p * ((1 + w) * p ^ 2 - 2 * A * w * g e) := by
    apply mul_nonneg (by positivity)
    have : A * w ≤ 1 := by nlinarith
    nlinarith [mul_nonneg (mul_nonneg hA hw) (show 0 ≤ 4 - g e by linarith), mul_nonneg hw (sq_nonneg p)]
  rw [M2_poly, dM2]
  linarith

lemma M2_aux (c : ℝ) (hc : c ≤ 3) (hc0 : 0 ≤ c) : 0 < (3 + e) * p ^ 5 - c * K e * A * (1 + w) * p ^ 3 := by
  have hK := K_nonneg he he1
  have hK1 := K_le he he1
  have h1 : c * K e * A * (1 + w) ≤ 36 / 5 := by
    have e1 : K e * A ≤ 6 / 5 := by nlinarith
    have e2 : c * (K e * A) ≤ 18 / 5 := by nlinarith [mul_nonneg hK hA]
    nlinarith [mul_nonneg hc0 (mul_nonneg hK hA)]
  have h2 : 0 < (3 + e) * p ^ 2 - c * K e * A * (1 + w) := by nlinarith [mul_nonneg he (sq_nonneg p)]
  have hp3 : 0 < p ^ 3 := by positivity
  have := mul_pos hp3 h2
  linarith

lemma M2_pos : 0 < M2 p A e w := by
  have hK := K_nonneg he he1
  obtain ⟨hg0, hg⟩ := g_bounds he he1
  have h1 := M2_aux hp hA hA1 he he1 hw hw1 1 (by norm_num) (by norm_num)
  have : 0 ≤ K e * g e * A ^ 2 * w * p := by positivity
  rw [M2_poly]; linarith

lemma six_M2 : 0 ≤ 6 * M2 p A e w - dM2 p A e w := by
  have hK := K_nonneg he he1
  obtain ⟨hg0, hg⟩ := g_bounds he he1
  have h1 := M2_aux hp hA hA1 he he1 hw hw1 3 (by norm_num) (by norm_num)
  have : 0 ≤ K e * g e * A ^ 2 * w * p := by positivity
  rw [M2_poly, dM2]; linarith

lemma D_pos : 0 < D p A e w := by
  obtain ⟨hg0, hg⟩ := g_bounds he he1
  unfold D
  have : A * w ≤ 1 := by nlinarith
  have h1 : 0 < p ^ 2 - A * w * g e := by nlinarith [mul_nonneg hA hw]
  have : 0 < p := by linarith
  positivity

/-- the Wronskian -/
lemma wronskian_neg :
    2 * dN p A e w * (M1 p A e w * M2 p A e w)
      - N p A e w * (dM1 p A e w * M2 p A e w + M1 p A e w * dM2 p A e w) < 0 := by
  have a1 := nine_N hp hA hA1 he he1 hw hw1
  have a2 := six_N hp hA hA1 he he1 hw hw1
  have a3 := five_M1 hp hA hA1 he he1 hw hw1
  have a4 := six_M2 hp hA hA1 he he1 hw hw1
  have a5 := four_M1 hp hA hA1 he he1 hw hw1
  have a6 := five_M2 hp hA hA1 he he1 hw hw1
  have a7 := M1_pos hp hA hA1 he he1 hw hw1
  have a8 := M2_pos hp hA hA1 he he1 hw hw1
  generalize N p A e w = n at *
  generalize dN p A e w = n' at *
  generalize M1 p A e w = m at *
  generalize dM1 p A e w = m' at *
  generalize M2 p A e w = k at *
  generalize dM2 p A e w = k' at *
  have hmk : 0 < m * k := mul_pos a7 a8
  rcases le_or_gt 0 n with h | h
  · have e1 : 0 ≤ n * ((m' - 4 * m) * k) := mul_nonneg h (mul_nonneg a5 a8.le)
    have e2 : 0 ≤ n * (m * (k' - 5 * k)) := mul_nonneg h (mul_nonneg a7.le a6)
    have e3 : 0 < (9 * n - 2 * n') * (m * k) := mul_pos a1 hmk
    linarith
  · have e1 : 0 ≤ (-n) * ((5 * m - m') * k) := mul_nonneg (by linarith) (mul_nonneg a3 a8.le)
    have e2 : 0 ≤ (-n) * (m * (6 * k - k')) := mul_nonneg (by linarith) (mul_nonneg a7.le a4)
    have e3 : 0 ≤ (6 * n - n') * (m * k) := mul_nonneg a2 hmk.le
    have e4 : 0 < (-n) * (m * k) := mul_pos (by linarith) hmk
    linarith

end

/-- the ratio -/
noncomputable def ratio (p A e w : ℝ) : ℝ := N p A e w / √(M1 p A e w * M2 p A e w)

/-- **The ratio is strictly decreasing.** -/
lemma ratio_strictAnti {A e w : ℝ} (hA : 0 ≤ A) (hA1 : A ≤ 1) (he : 0 ≤ e) (he1 : e ≤ 1)
    (hw : 0 ≤ w) (hw1 : w ≤ 1) : StrictAntiOn (fun p => ratio p A e w) (Set.Ici 4) := by
  have hd : ∀ p : ℝ, 4 ≤ p → HasDerivAt (fun p => ratio p A e w)
      ((dN p A e w / p * √(M1 p A e w * M2 p A e w) - N p A e w
        * ((dM1 p A e w / p * M2 p A e w + M1 p A e w * (dM2 p A e w / p))
          / (2 * √(M1 p A e w * M2 p A e w)))) / √(M1 p A e w * M2 p A e w) ^ 2) p := by
    intro p hp
    have hp0 : p ≠ 0 := by linarith
    have hmk := mul_pos (M1_pos hp hA hA1 he he1 hw hw1) (M2_pos hp hA hA1 he he1 hw hw1)
    exact (hasDerivAt_N p A e w hp0).div
      (((hasDerivAt_M1 p A e w hp0).mul (hasDerivAt_M2 p A e w hp0)).sqrt hmk.ne')
      (Real.sqrt_pos.mpr hmk).ne'
  refine strictAntiOn_of_deriv_neg (convex_Ici 4)
    (fun p hp => (hd p hp).continuousAt.continuousWithinAt) fun p hp => ?_
  rw [interior_Ici] at hp
  have hp4 : 4 ≤ p := le_of_lt hp
  rw [(hd p hp4).deriv]
  have hmk := mul_pos (M1_pos hp4 hA hA1 he he1 hw hw1) (M2_pos hp4 hA hA1 he he1 hw hw1)
  have hW := wronskian_neg hp4 hA hA1 he he1 hw hw1
  have hs := Real.sqrt_pos.mpr hmk
  have hss := Real.sq_sqrt hmk.le
  have hp0 : 0 < p := by linarith
  generalize N p A e w = n at *
  generalize dN p A e w = n' at *
  generalize M1 p A e w = m at *
  generalize dM1 p A e w = m' at *
  generalize M2 p A e w = k at *
  generalize dM2 p A e w = k' at *
  generalize √(m * k) = s at *
  have e1 : (n' / p * s - n * ((m' / p * k + m * (k' / p)) / (2 * s))) / s ^ 2
      = (2 * n' * s ^ 2 - n * (m' * k + m * k')) / (2 * p * s ^ 3) := by field_simp
  rw [e1, hss]
  exact div_neg_of_neg_of_pos hW (by positivity)

end KGP.SepCert
