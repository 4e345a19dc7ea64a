import Verif.Lemmas.SchmidtKerr

/-!
# Schmidt's energy is below one, and the order of the radial roots
-/

namespace KGP.Schmidt

open Classical Real

set_option linter.unusedSectionVars false

lemma rho_kap (p l A w : ℝ) : rhoS p l A w - kapS p l A w = l * US p l A w := by
  unfold rhoS kapS US; ring

lemma eta_eps (p l A w : ℝ) : etaS p l A w - epsS p l A w = 4 * p ^ 3 * l := by
  unfold etaS epsS; ring

/-- An energy squared `t` on the prograde branch is below `1 - l/m`. -/
lemma below_prograde {p l A w t m : ℝ} (hm : 0 < m) (hl : 0 < l) (hρ : 0 < rhoS p l A w)
    (hs : 0 < kapS p l A w - rhoS p l A w * t) (hg : 0 ≤ m * US p l A w - rhoS p l A w) :
    t < 1 - l / m := by
  have h := rho_kap p l A w
  generalize rhoS p l A w = ρ at *
  have h1 : ρ * (1 - l / m - t) > 0 := by
    have e1 : m * (ρ * (1 - l / m - t)) = m * (ρ - ρ * t) - l * ρ := by field_simp; ring
    have h3 : kapS p l A w = ρ - l * US p l A w := by linarith
    rw [h3] at hs
    have h2 : 0 < m * (ρ * (1 - l / m - t)) := by
      rw [e1]
      have h4 := mul_pos hm hs
      have h5 := mul_nonneg hl.le hg
      nlinarith
    exact pos_of_mul_pos_right h2 hm.le
  have := pos_of_mul_pos_right h1 hρ.le
  linarith

/-- Both branches: `t < 1 - l/m` when the quadratic is positive and increasing there. -/
lemma below_both {p l A w t m : ℝ} (hm : 0 < m) (hl : 0 < l) (hW : 0 < WS p l A w)
    (hq : WS p l A w * t ^ 2 - 2 * NS p l A w * t + kapS p l A w ^ 2 = 0)
    (hF : 4 * A * (1 - w) * TS p l A w * l * (m - l) * (4 * p ^ 3 * m - etaS p l A w)
      < (m * US p l A w - rhoS p l A w) ^ 2)
    (hD : 2 * A * (1 - w) * TS p l A w * l * (etaS p l A w * (m - 2 * l) + 4 * p ^ 3 * l * m)
      ≤ rhoS p l A w * (m * US p l A w - rhoS p l A w)) :
    t < 1 - l / m := by
  have h1 := rho_kap p l A w
  have h2 := eta_eps p l A w
  have hWd : WS p l A w = rhoS p l A w ^ 2 - 4 * A * (1 - w) * etaS p l A w * TS p l A w * l ^ 2 := rfl
  have hNd : NS p l A w = kapS p l A w * rhoS p l A w
    - 2 * A * (1 - w) * epsS p l A w * TS p l A w * l ^ 2 := rfl
  generalize WS p l A w = W at *
  generalize NS p l A w = N at *
  generalize rhoS p l A w = ρ at *
  generalize kapS p l A w = κ at *
  generalize epsS p l A w = ε at *
  generalize etaS p l A w = η at *
  generalize TS p l A w = T at *
  generalize US p l A w = U at *
  generalize 1 - w = X at *
  obtain ⟨t0, ht0⟩ : ∃ t0, t0 = 1 - l / m := ⟨_, rfl⟩
  rw [← ht0]
  have hmt : m * t0 = m - l := by rw [ht0]; field_simp
  have hκ : κ = ρ - l * U := by linarith
  have hε : ε = η - 4 * p ^ 3 * l := by linarith
  subst hκ hε hWd hNd
  obtain ⟨W, hWd⟩ : ∃ W, W = ρ ^ 2 - 4 * A * X * η * T * l ^ 2 := ⟨_, rfl⟩
  obtain ⟨N, hNd⟩ : ∃ N, N = (ρ - l * U) * ρ - 2 * A * X * (η - 4 * p ^ 3 * l) * T * l ^ 2 := ⟨_, rfl⟩
  rw [← hWd, ← hNd] at hq
  rw [← hWd] at hW
  have f1 : 0 < m ^ 2 * (W * t0 ^ 2 - 2 * N * t0 + (ρ - l * U) ^ 2) := by
    have e1 : m ^ 2 * (W * t0 ^ 2 - 2 * N * t0 + (ρ - l * U) ^ 2)
        = l ^ 2 * ((m * U - ρ) ^ 2 - 4 * A * X * T * l * (m - l) * (4 * p ^ 3 * m - η)) := by
      rw [show m ^ 2 * (W * t0 ^ 2 - 2 * N * t0 + (ρ - l * U) ^ 2)
        = W * (m * t0) ^ 2 - 2 * N * m * (m * t0) + m ^ 2 * (ρ - l * U) ^ 2 by ring, hmt, hWd, hNd]
      ring
    rw [e1]
    have : 0 < (m * U - ρ) ^ 2 - 4 * A * X * T * l * (m - l) * (4 * p ^ 3 * m - η) := by linarith
    positivity
  have f2 : 0 ≤ m * (W * t0 - N) := by
    have e1 : m * (W * t0 - N) = l * (ρ * (m * U - ρ)
        - 2 * A * X * T * l * (η * (m - 2 * l) + 4 * p ^ 3 * l * m)) := by
      rw [show m * (W * t0 - N) = W * (m * t0) - m * N by ring, hmt, hWd, hNd]
      ring
    rw [e1]
    exact mul_nonneg hl.le (by linarith)
  have g1 : 0 < W * t0 ^ 2 - 2 * N * t0 + (ρ - l * U) ^ 2 := pos_of_mul_pos_right f1 (by positivity)
  have g2 : 0 ≤ W * t0 - N := nonneg_of_mul_nonneg_right f2 hm
  by_contra hcon
  have hge : 0 ≤ t - t0 := by linarith [not_lt.mp hcon]
  have e1 : W * t ^ 2 - 2 * N * t + (ρ - l * U) ^ 2 = (W * t0 ^ 2 - 2 * N * t0 + (ρ - l * U) ^ 2)
      + 2 * (W * t0 - N) * (t - t0) + W * (t - t0) ^ 2 := by ring
  have h3 := mul_nonneg g2 hge
  have h4 : 0 ≤ W * (t - t0) ^ 2 := by positivity
  linarith

lemma aux_q {e : ℝ} (he : 0 ≤ e) (he1 : e < 1) : (1 - e ^ 2) * (1 + e) ≤ 2 := by
  have h1 : 1 - e ^ 2 ≤ 1 := by nlinarith
  have h2 : (1 - e ^ 2) * (1 + e) ≤ 1 * (1 + e) := mul_le_mul_of_nonneg_right h1 (by linarith)
  linarith
lemma aux_P {p e : ℝ} (he : 0 ≤ e) (hp : 9 ≤ p) : 81 * 3 ≤ p ^ 2 * (3 + e) := by
  have h1 : 81 ≤ p ^ 2 := by nlinarith
  nlinarith
lemma aux_m {p e : ℝ} (he : 0 ≤ e) (he1 : e < 1) (hp : 9 ≤ p) (c : ℝ) (_hc : 0 ≤ c) (hc4 : c ≤ 4) :
    0 ≤ p * (3 - e) - c * (1 - e ^ 2) := by
  have h1 : 9 * 2 ≤ p * (3 - e) := mul_le_mul hp (by linarith) (by norm_num) (by linarith)
  have h2 : 1 - e ^ 2 ≤ 1 := by nlinarith
  have h3 : c * (1 - e ^ 2) ≤ 4 * 1 := mul_le_mul hc4 h2 (by nlinarith) (by norm_num)
  linarith
lemma aux_13 {e : ℝ} : (1 + e) * (3 - e) ≤ 4 := by nlinarith [sq_nonneg (1 - e)]
lemma aux_AP {A P q : ℝ} (hA : 0 ≤ A) (hA1 : A ≤ 1) (hP : 81 * 3 ≤ P) (hq : q ≤ 2) :
    A * (P - A * q) ≤ P - q := by
  have h1 : q * (1 + A) ≤ 2 * (1 + A) := mul_le_mul_of_nonneg_right hq (by linarith)
  have : 0 ≤ (1 - A) * (P - q * (1 + A)) := mul_nonneg (by linarith) (by linarith)
  linarith
lemma aux_G0 {p e A : ℝ} (he : 0 ≤ e) (he1 : e < 1) (hA1 : A ≤ 1) (hp : 9 + 3 * e < p) :
    3 * p ^ 2 - 8 * p ≤ p ^ 2 * (p - 6 - 2 * e) - A * (1 + e) * (p * (3 - e) - 4 * (1 - e ^ 2)) := by
  have h4 : p ^ 2 * 3 ≤ p ^ 2 * (p - 6 - 2 * e) := mul_le_mul_of_nonneg_left (by linarith) (by positivity)
  have h2 : 0 ≤ p * (3 - e) - 4 * (1 - e ^ 2) := aux_m he he1 (by linarith) 4 (by norm_num) le_rfl
  have h3 : A * ((1 + e) * (p * (3 - e) - 4 * (1 - e ^ 2))) ≤ 1 * ((1 + e) * (p * (3 - e) - 4 * (1 - e ^ 2))) :=
    mul_le_mul_of_nonneg_right hA1 (by positivity)
  have h1 := mul_le_mul_of_nonneg_left (aux_13 (e := e)) (show 0 ≤ p by linarith)
  have h6 : 0 ≤ (1 + e) * (1 - e ^ 2) := mul_nonneg (by linarith) (by nlinarith)
  linarith

section
variable {p e A w : ℝ} (he : 0 ≤ e) (he1 : e < 1) (hA : 0 ≤ A) (hA1 : A ≤ 1)
  (hw : 0 ≤ w) (hw1 : w ≤ 1)
include he he1 hA hA1 hw hw1

/-- `g0` -/
lemma g_lower (hp : 4 < p) : p ^ 2 * (1 - e) / 2
    * (p ^ 2 * (p - 6 - 2 * e) - A * (1 + e) * (p * (3 - e) - 4 * (1 - e ^ 2)))
    ≤ p * (3 - e) / 2 * US p (1 - e ^ 2) A w - rhoS p (1 - e ^ 2) A w := by
  obtain ⟨l, hl⟩ : ∃ l, l = 1 - e ^ 2 := ⟨_, rfl⟩
  have hl0 : 0 < l := by nlinarith
  have hl1 : l ≤ 1 := by nlinarith
  have e1 : p * (3 - e) / 2 * US p (1 - e ^ 2) A w - rhoS p (1 - e ^ 2) A w
      - p ^ 2 * (1 - e) / 2
    * (p ^ 2 * (p - 6 - 2 * e) - A * (1 + e) * (p * (3 - e) - 4 * (1 - e ^ 2)))
      = A * w * ((1 - e) / 2 * p * (p ^ 2 * (4 - l) + A * l ^ 2)
        + l * (p ^ 3 + A * l * p * (1 - w) - A * l ^ 2 * (2 - w))) := by
    rw [hl]; unfold US rhoS; ring
  have h1 : 0 ≤ 4 - l := by linarith
  have h2 : 0 ≤ 1 - e := by linarith
  have h3 : 0 ≤ 1 - w := by linarith
  have h4 : A * l ^ 2 ≤ 1 := by
    have : l ^ 2 ≤ 1 := by nlinarith
    nlinarith
  have h40 : 0 ≤ A * l ^ 2 := by positivity
  have h5 : 0 ≤ p ^ 3 - A * l ^ 2 * (2 - w) := by
    have : p ^ 3 ≥ 64 := by nlinarith [mul_pos (show (0:ℝ) < p by linarith) (show (0:ℝ) < p by linarith)]
    nlinarith
  have h6 : 0 ≤ p ^ 3 + A * l * p * (1 - w) - A * l ^ 2 * (2 - w) := by
    have : 0 ≤ A * l * p * (1 - w) := by
      have : 0 < p := by linarith
      positivity
    linarith
  have : 0 ≤ A * w * ((1 - e) / 2 * p * (p ^ 2 * (4 - l) + A * l ^ 2)
        + l * (p ^ 3 + A * l * p * (1 - w) - A * l ^ 2 * (2 - w))) := by
    have : 0 < p := by linarith
    positivity
  linarith

lemma g0_prograde (hp : 13 / 2 + 2 * e ≤ p) :
    0 ≤ p ^ 2 * (p - 6 - 2 * e) - A * (1 + e) * (p * (3 - e) - 4 * (1 - e ^ 2)) := by
  have h1 : (1 + e) * (3 - e) ≤ 4 := by nlinarith [sq_nonneg (1 - e)]
  have h2 : 0 ≤ p * (3 - e) - 4 * (1 - e ^ 2) := by nlinarith
  have h3 : A * ((1 + e) * (p * (3 - e) - 4 * (1 - e ^ 2))) ≤ 1 * ((1 + e) * (p * (3 - e) - 4 * (1 - e ^ 2))) :=
    mul_le_mul_of_nonneg_right hA1 (by positivity)
  have h4 : p ^ 2 * (1 / 2) ≤ p ^ 2 * (p - 6 - 2 * e) := mul_le_mul_of_nonneg_left (by linarith) (by positivity)
  have h5 : (1 + e) * (p * (3 - e)) = p * ((1 + e) * (3 - e)) := by ring
  have h6 : 0 ≤ (1 + e) * (1 - e ^ 2) := mul_nonneg (by linarith) (by nlinarith)
  nlinarith

lemma g0_one (hp : 9 + 3 * e < p) :
    8 * (1 + e) * (p * (3 - e) - 2 * (1 - e ^ 2)) * (p ^ 2 * (3 + e) - (1 - e ^ 2) * (1 + e))
    < (p ^ 2 * (p - 6 - 2 * e) - (1 + e) * (p * (3 - e) - 4 * (1 - e ^ 2))) ^ 2 := by
  obtain ⟨y, hy⟩ : ∃ y, y = p - 9 - 3 * e := ⟨_, rfl⟩
  have hy0 : 0 < y := by linarith
  obtain rfl : p = 9 + 3 * e + y := by linarith
  have : 0 < (((9 + 3 * e + y) ^ 2 * ((9 + 3 * e + y) - 6 - 2 * e) - (1 + e) * ((9 + 3 * e + y) * (3 - e) - 4 * (1 - e ^ 2))) ^ 2
   - 8 * (1 + e) * ((9 + 3 * e + y) * (3 - e) - 2 * (1 - e ^ 2)) * ((9 + 3 * e + y) ^ 2 * (3 + e) - (1 - e ^ 2) * (1 + e))) := by
    ring_nf
    positivity
  linarith

lemma g0_wide (hp : 9 + 3 * e < p) :
    0 < p ^ 2 * (p - 6 - 2 * e) - A * (1 + e) * (p * (3 - e) - 4 * (1 - e ^ 2)) ∧
    8 * A * (1 + e) * (p * (3 - e) - 2 * (1 - e ^ 2)) * (p ^ 2 * (3 + e) - A * (1 - e ^ 2) * (1 + e))
    < (p ^ 2 * (p - 6 - 2 * e) - A * (1 + e) * (p * (3 - e) - 4 * (1 - e ^ 2))) ^ 2 := by
  have h1 := g0_one he he1 hA hA1 hw hw1 hp
  have hl0 : 0 < 1 - e ^ 2 := by nlinarith
  have h2 : 0 ≤ p * (3 - e) - 4 * (1 - e ^ 2) := aux_m he he1 (by linarith) 4 (by norm_num) le_rfl
  have h3 : A * ((1 + e) * (p * (3 - e) - 4 * (1 - e ^ 2))) ≤ 1 * ((1 + e) * (p * (3 - e) - 4 * (1 - e ^ 2))) :=
    mul_le_mul_of_nonneg_right hA1 (by positivity)
  have h4 : p ^ 2 * 3 ≤ p ^ 2 * (p - 6 - 2 * e) := mul_le_mul_of_nonneg_left (by linarith) (by positivity)
  have h5 : 0 < p ^ 2 * (p - 6 - 2 * e) - (1 + e) * (p * (3 - e) - 4 * (1 - e ^ 2)) := by
    have := aux_G0 he he1 (le_refl (1 : ℝ)) hp
    have h0 : 0 < p * (3 * p - 8) := mul_pos (by linarith) (by linarith)
    linarith
  have h6 : p ^ 2 * (p - 6 - 2 * e) - (1 + e) * (p * (3 - e) - 4 * (1 - e ^ 2))
      ≤ p ^ 2 * (p - 6 - 2 * e) - A * (1 + e) * (p * (3 - e) - 4 * (1 - e ^ 2)) := by linarith
  refine ⟨by linarith, ?_⟩
  have h7 := pow_le_pow_left₀ h5.le h6 2
  have h8 : A * (p ^ 2 * (3 + e) - A * ((1 - e ^ 2) * (1 + e)))
      ≤ p ^ 2 * (3 + e) - (1 - e ^ 2) * (1 + e) := by
    obtain ⟨q, hq⟩ : ∃ q, q = (1 - e ^ 2) * (1 + e) := ⟨_, rfl⟩
    obtain ⟨Pp, hP⟩ : ∃ Pp, Pp = p ^ 2 * (3 + e) := ⟨_, rfl⟩
    rw [← hq, ← hP]
    exact aux_AP hA hA1 (hP ▸ aux_P he (by linarith)) (hq ▸ aux_q he he1)
  have h9 : 0 ≤ 8 * (1 + e) * (p * (3 - e) - 2 * (1 - e ^ 2)) := by
    have : 0 ≤ p * (3 - e) - 2 * (1 - e ^ 2) := aux_m he he1 (by linarith) 2 (by norm_num) (by norm_num)
    positivity
  have h10 := mul_le_mul_of_nonneg_left h8 h9
  linarith

/-- Everything needed for `below_both` when `p > 9 + 3e`. -/
lemma wide_conditions (hp : 9 + 3 * e < p) :
    4 * A * (1 - w) * TS p (1 - e ^ 2) A w * (1 - e ^ 2) * (p * (3 - e) / 2 - (1 - e ^ 2))
        * (4 * p ^ 3 * (p * (3 - e) / 2) - etaS p (1 - e ^ 2) A w)
      < (p * (3 - e) / 2 * US p (1 - e ^ 2) A w - rhoS p (1 - e ^ 2) A w) ^ 2
    ∧ 2 * A * (1 - w) * TS p (1 - e ^ 2) A w * (1 - e ^ 2) * (etaS p (1 - e ^ 2) A w
        * (p * (3 - e) / 2 - 2 * (1 - e ^ 2)) + 4 * p ^ 3 * (1 - e ^ 2) * (p * (3 - e) / 2))
      ≤ rhoS p (1 - e ^ 2) A w * (p * (3 - e) / 2 * US p (1 - e ^ 2) A w - rhoS p (1 - e ^ 2) A w) := by
  have hp4 : 4 < p := by linarith
  have hl0 : 0 < 1 - e ^ 2 := by nlinarith
  have hl1 : 1 - e ^ 2 ≤ 1 := by nlinarith
  obtain ⟨g1, g2⟩ := g0_wide he he1 hA hA1 hw hw1 hp
  have hg := g_lower he he1 hA hA1 hw hw1 hp4
  have hT := TS_pos hp4 hl0 hl1 hA hA1 hw hw1
  have hη := etaS_pos hp4 hl0 hl1 hA hA1 hw hw1
  have hρ := rhoS_lower hp4 hl0 hl1 hA hA1 hw hw1
  have hρc := rho_core hp4 hl0 hl1 hA hA1 hw hw1
  have he1' : 0 < 1 - e := by linarith
  have hX : 0 ≤ 1 - w := by linarith
  have hfac : 1 - e ^ 2 = (1 - e) * (1 + e) := by ring
  have hG0 := aux_G0 he he1 hA1 hp
  obtain ⟨G0, hG0d⟩ : ∃ G0, G0 = p ^ 2 * (p - 6 - 2 * e) - A * (1 + e) * (p * (3 - e) - 4 * (1 - e ^ 2)) := ⟨_, rfl⟩
  rw [← hG0d] at g1 g2 hg hG0
  obtain ⟨g, hgd⟩ : ∃ g, g = p * (3 - e) / 2 * US p (1 - e ^ 2) A w - rhoS p (1 - e ^ 2) A w := ⟨_, rfl⟩
  rw [← hgd] at hg ⊢
  obtain ⟨ρ, hρd⟩ : ∃ ρ, ρ = rhoS p (1 - e ^ 2) A w := ⟨_, rfl⟩
  rw [← hρd] at hρ ⊢
  obtain ⟨T, hTd⟩ : ∃ T, T = TS p (1 - e ^ 2) A w := ⟨_, rfl⟩
  rw [← hTd] at hT ⊢
  have hp0 : 0 < p := by linarith
  have hAw : (1 - w) * T ≤ p ^ 2 := by
    have := mul_le_mul_of_nonneg_right (show 1 - w ≤ 1 by linarith) hT.1.le
    linarith [hT.2]
  have hAw0 : 0 ≤ (1 - w) * T := mul_nonneg hX hT.1.le
  have hglow : 0 ≤ p ^ 2 * (1 - e) / 2 * G0 := by positivity
  have hηe : etaS p (1 - e ^ 2) A w = p ^ 4 * (4 - (1 - e ^ 2)) + A * p ^ 2 * (1 - e ^ 2) ^ 2
      + A * w * (1 - e ^ 2) ^ 2 * (p ^ 2 - A * (1 - e ^ 2)) := by unfold etaS; ring
  have hAl : A * (1 - e ^ 2) ≤ 1 := by
    have := mul_le_mul hA1 hl1 hl0.le zero_le_one
    linarith
  have hp2 : 81 ≤ p ^ 2 := by
    have := pow_le_pow_left₀ (by norm_num) (show 9 ≤ p by linarith) 2
    linarith
  have hpA : 0 ≤ p ^ 2 - A * (1 - e ^ 2) := by linarith
  have hm : 0 ≤ p * (3 - e) / 2 - 2 * (1 - e ^ 2) := by
    have := aux_m he he1 (show 9 ≤ p by linarith) 4 (by norm_num) le_rfl
    linarith
  constructor
  · have hη2 : 4 * p ^ 3 * (p * (3 - e) / 2) - etaS p (1 - e ^ 2) A w
        ≤ p ^ 2 * (1 - e) * (p ^ 2 * (3 + e) - A * (1 - e ^ 2) * (1 + e)) := by
      have : 0 ≤ A * w * (1 - e ^ 2) ^ 2 * (p ^ 2 - A * (1 - e ^ 2)) := by positivity
      rw [hηe]; linarith
    have hm1 : 0 ≤ p * (3 - e) / 2 - (1 - e ^ 2) := by linarith
    have hB : 0 ≤ p ^ 2 * (1 - e) * (p ^ 2 * (3 + e) - A * (1 - e ^ 2) * (1 + e)) := by
      have : 0 ≤ p ^ 2 * (3 + e) - A * (1 - e ^ 2) * (1 + e) := by
        have b1 := aux_P he (show 9 ≤ p by linarith)
        have b2 := mul_le_mul_of_nonneg_right hAl (show 0 ≤ 1 + e by linarith)
        linarith
      positivity
    have k1 : 4 * A * (1 - w) * T * (1 - e ^ 2) * (p * (3 - e) / 2 - (1 - e ^ 2))
        * (4 * p ^ 3 * (p * (3 - e) / 2) - etaS p (1 - e ^ 2) A w)
        ≤ 4 * A * (1 - w) * T * (1 - e ^ 2) * (p * (3 - e) / 2 - (1 - e ^ 2))
        * (p ^ 2 * (1 - e) * (p ^ 2 * (3 + e) - A * (1 - e ^ 2) * (1 + e))) := by
      refine mul_le_mul_of_nonneg_left hη2 ?_
      have := hT.1
      positivity
    have k2 : 4 * A * (1 - w) * T * (1 - e ^ 2) * (p * (3 - e) / 2 - (1 - e ^ 2))
        * (p ^ 2 * (1 - e) * (p ^ 2 * (3 + e) - A * (1 - e ^ 2) * (1 + e)))
        ≤ 4 * A * p ^ 2 * (1 - e ^ 2) * (p * (3 - e) / 2 - (1 - e ^ 2))
        * (p ^ 2 * (1 - e) * (p ^ 2 * (3 + e) - A * (1 - e ^ 2) * (1 + e))) := by
      refine mul_le_mul_of_nonneg_right ?_ hB
      refine mul_le_mul_of_nonneg_right ?_ hm1
      refine mul_le_mul_of_nonneg_right ?_ hl0.le
      have := mul_le_mul_of_nonneg_left hAw (show 0 ≤ 4 * A by positivity)
      linarith
    have k3 : 4 * A * p ^ 2 * (1 - e ^ 2) * (p * (3 - e) / 2 - (1 - e ^ 2))
        * (p ^ 2 * (1 - e) * (p ^ 2 * (3 + e) - A * (1 - e ^ 2) * (1 + e)))
        = (p ^ 2 * (1 - e) / 2) ^ 2 * (8 * A * (1 + e) * (p * (3 - e) - 2 * (1 - e ^ 2))
          * (p ^ 2 * (3 + e) - A * (1 - e ^ 2) * (1 + e))) := by ring
    have k4 := mul_lt_mul_of_pos_left g2 (show 0 < (p ^ 2 * (1 - e) / 2) ^ 2 by positivity)
    have k5 := pow_le_pow_left₀ hglow hg 2
    have k6 : (p ^ 2 * (1 - e) / 2 * G0) ^ 2 = (p ^ 2 * (1 - e) / 2) ^ 2 * G0 ^ 2 := by ring
    linarith
  · have hη4 : etaS p (1 - e ^ 2) A w ≤ 4 * p ^ 4 := by
      have h1 : A * p ^ 2 * (1 - e ^ 2) ^ 2 ≤ p ^ 2 * (1 - e ^ 2) := by
        have : A * (1 - e ^ 2) * (p ^ 2 * (1 - e ^ 2)) ≤ 1 * (p ^ 2 * (1 - e ^ 2)) :=
          mul_le_mul_of_nonneg_right hAl (by positivity)
        linarith
      have h2 : A * w * (1 - e ^ 2) ^ 2 * (p ^ 2 - A * (1 - e ^ 2)) ≤ p ^ 2 * (1 - e ^ 2) := by
        have h3 : A * (1 - e ^ 2) * w ≤ 1 := by
          have := mul_le_mul hAl hw1 hw zero_le_one
          linarith
        have h4 : A * (1 - e ^ 2) * w * (1 - e ^ 2) ≤ 1 * (1 - e ^ 2) := mul_le_mul_of_nonneg_right h3 hl0.le
        have h5 : p ^ 2 - A * (1 - e ^ 2) ≤ p ^ 2 := by
          have : 0 ≤ A * (1 - e ^ 2) := by positivity
          linarith
        have h6 := mul_le_mul h4 h5 hpA (by positivity)
        linarith
      have h3 : 2 * (p ^ 2 * (1 - e ^ 2)) ≤ p ^ 4 * (1 - e ^ 2) := by
        have b0 := mul_le_mul_of_nonneg_right (show 2 ≤ p ^ 2 by linarith) (show 0 ≤ p ^ 2 * (1 - e ^ 2) by positivity)
        linarith
      rw [hηe]; linarith
    obtain ⟨m, hmd⟩ : ∃ m, m = p * (3 - e) / 2 := ⟨_, rfl⟩
    rw [← hmd] at hm ⊢
    have hm0 : 0 < m := by linarith
    have q1 : etaS p (1 - e ^ 2) A w * (m - 2 * (1 - e ^ 2)) + 4 * p ^ 3 * (1 - e ^ 2) * m
        ≤ 4 * p ^ 3 * m * (p + 1) := by
      have a1 : etaS p (1 - e ^ 2) A w * (m - 2 * (1 - e ^ 2)) ≤ 4 * p ^ 4 * m :=
        mul_le_mul hη4 (by linarith) hm (by positivity)
      have a2 : 4 * p ^ 3 * m * (1 - e ^ 2) ≤ 4 * p ^ 3 * m * 1 :=
        mul_le_mul_of_nonneg_left hl1 (by positivity)
      linarith
    have q0 : 0 ≤ etaS p (1 - e ^ 2) A w * (m - 2 * (1 - e ^ 2)) + 4 * p ^ 3 * (1 - e ^ 2) * m := by
      positivity
    have q2 : 2 * A * (1 - w) * T * (1 - e ^ 2) * (etaS p (1 - e ^ 2) A w
        * (m - 2 * (1 - e ^ 2)) + 4 * p ^ 3 * (1 - e ^ 2) * m)
        ≤ 2 * p ^ 2 * (1 - e ^ 2) * (4 * p ^ 3 * m * (p + 1)) := by
      refine mul_le_mul (mul_le_mul_of_nonneg_right ?_ hl0.le) q1 q0 (by positivity)
      have : A * ((1 - w) * T) ≤ 1 * p ^ 2 := mul_le_mul hA1 hAw hAw0 zero_le_one
      linarith
    have q3 : 2 * p ^ 2 * (1 - e ^ 2) * (4 * p ^ 3 * m * (p + 1))
        = (1 - e) * p ^ 6 * (4 * ((1 + e) * (3 - e)) * (p + 1)) := by rw [hmd]; ring
    have q4 : (1 + e) * (3 - e) ≤ 4 := aux_13
    have q5 : p ^ 4 * (p - 4) ≤ ρ := by
      have : 0 ≤ p ^ 2 * (p ^ 2 * (1 - e ^ 2) - 2 * A * (1 - e ^ 2) ^ 2) := by
        have := hρc.le
        positivity
      linarith
    have q6 : p ^ 4 * (p - 4) * (p ^ 2 * (1 - e) / 2 * G0) ≤ ρ * g :=
      mul_le_mul q5 hg hglow (le_trans (by have : 0 ≤ p - 4 := by linarith
                                           positivity) q5)
    have q7 : 4 * ((1 + e) * (3 - e)) * (p + 1) ≤ (p - 4) * G0 / 2 := by
      have b1 : 4 * ((1 + e) * (3 - e)) * (p + 1) ≤ 16 * (p + 1) :=
        mul_le_mul_of_nonneg_right (by linarith) (by linarith)
      have b0 : 0 ≤ 3 * p ^ 2 - 8 * p := by
        have : 0 ≤ p * (3 * p - 8) := mul_nonneg hp0.le (by linarith)
        linarith
      have b2 : 5 * (3 * p ^ 2 - 8 * p) ≤ (p - 4) * G0 :=
        mul_le_mul (by linarith) hG0 b0 (by linarith)
      have b3 := mul_le_mul_of_nonneg_right (show 9 ≤ p by linarith) hp0.le
      linarith
    have q8 := mul_le_mul_of_nonneg_left q7 (show 0 ≤ (1 - e) * p ^ 6 by positivity)
    linarith

end

/-- `E² < 1` and more precisely `E² < 1 - 2/(r1 + 2 r2)`, retrograde or prograde, `p > 9 + 3e`. -/
lemma energy_wide {a p e x E L : ℝ} (ha1 : a ^ 2 ≤ 1) (he : 0 ≤ e) (he1 : e < 1)
    (hx : x ^ 2 ≤ 1) (h : Exact a p e x E L) (hp : 9 + 3 * e < p) :
    E ^ 2 < 1 - (1 - e ^ 2) / (p * (3 - e) / 2) := by
  have hw : 0 ≤ 1 - x ^ 2 := by linarith
  have hw1 : 1 - x ^ 2 ≤ 1 := by linarith [sq_nonneg x]
  have hl0 : 0 < 1 - e ^ 2 := by nlinarith
  have hl1 : 1 - e ^ 2 ≤ 1 := by nlinarith
  obtain ⟨c1, c2⟩ := wide_conditions he he1 (sq_nonneg a) ha1 hw hw1 hp
  exact below_both (by have : 0 < 3 - e := by linarith
                       have : 0 < p := by linarith
                       positivity) hl0
    (WS_pos (by linarith) hl0 hl1 (sq_nonneg a) ha1 hw hw1) h.quad c1 c2

/-- The same on the prograde branch for `p ≥ 13/2 + 2e`. -/
lemma energy_prograde {a p e x E L : ℝ} (ha1 : a ^ 2 ≤ 1) (he : 0 ≤ e) (he1 : e < 1)
    (hx0 : 0 < x) (hx : x ^ 2 ≤ 1) (h : Exact a p e x E L) (hp : 13 / 2 + 2 * e ≤ p) :
    E ^ 2 < 1 - (1 - e ^ 2) / (p * (3 - e) / 2) := by
  have hw : 0 ≤ 1 - x ^ 2 := by linarith
  have hw1 : 1 - x ^ 2 ≤ 1 := by linarith [sq_nonneg x]
  have hl0 : 0 < 1 - e ^ 2 := by nlinarith
  have hl1 : 1 - e ^ 2 ≤ 1 := by nlinarith
  have hs := h.side
  rw [Real.sign_of_pos hx0, one_mul] at hs
  refine below_prograde (by have : 0 < 3 - e := by linarith
                            have : 0 < p := by linarith
                            positivity) hl0
    (rhoS_pos (by linarith) hl0 hl1 (sq_nonneg a) ha1 hw hw1) hs ?_
  have h1 := g_lower he he1 (sq_nonneg a) ha1 hw hw1 (show 4 < p by linarith)
  have h2 := g0_prograde he he1 (sq_nonneg a) ha1 hw hw1 hp
  refine le_trans (mul_nonneg ?_ h2) h1
  have : 0 ≤ 1 - e := by linarith
  positivity

lemma US_lower {p l A w : ℝ} (hl : 0 < l) (hl1 : l ≤ 1) (hA : 0 ≤ A) (hw : 0 ≤ w) :
    p ^ 2 * (p ^ 2 - 4 * p - A * l) ≤ US p l A w := by
  have h3 : 0 ≤ 4 - l := by linarith
  have : 0 ≤ A * w * p ^ 2 * (4 - l) + A ^ 2 * w * l ^ 2 := by positivity
  unfold US; linarith

/-- `E² < 1` on the prograde branch for `p ≥ 17/4`. -/
lemma energy_lt_one_prograde {a p e x E L : ℝ} (ha1 : a ^ 2 ≤ 1) (he : 0 ≤ e) (he1 : e < 1)
    (hx0 : 0 < x) (hx : x ^ 2 ≤ 1) (h : Exact a p e x E L) (hp : 17 / 4 ≤ p) : E ^ 2 < 1 := by
  have hw : 0 ≤ 1 - x ^ 2 := by linarith
  have hw1 : 1 - x ^ 2 ≤ 1 := by linarith [sq_nonneg x]
  have hl0 : 0 < 1 - e ^ 2 := by nlinarith
  have hl1 : 1 - e ^ 2 ≤ 1 := by nlinarith
  have hs := h.side
  rw [Real.sign_of_pos hx0, one_mul] at hs
  have hρ := rhoS_pos (p := p) (by linarith) hl0 hl1 (sq_nonneg a) ha1 hw hw1
  have hAl : a ^ 2 * (1 - e ^ 2) ≤ 1 := by
    have := mul_le_mul ha1 hl1 hl0.le zero_le_one
    linarith
  have hU := US_lower (p := p) hl0 hl1 (sq_nonneg a) hw
  have hU2 : 0 < p ^ 2 * (p ^ 2 - 4 * p - a ^ 2 * (1 - e ^ 2)) := by
    have : 0 < p ^ 2 - 4 * p - a ^ 2 * (1 - e ^ 2) := by nlinarith
    have : 0 < p := by linarith
    positivity
  have hk := rho_kap p (1 - e ^ 2) (a ^ 2) (1 - x ^ 2)
  have hlU := mul_pos hl0 (lt_of_lt_of_le hU2 hU)
  have : rhoS p (1 - e ^ 2) (a ^ 2) (1 - x ^ 2) * E ^ 2 < rhoS p (1 - e ^ 2) (a ^ 2) (1 - x ^ 2) * 1 := by
    linarith
  exact lt_of_mul_lt_mul_left this hρ.le

/-- `E² < 1` on either branch when the quadratic is positive and increasing at one. -/
lemma below_one {p l A w t : ℝ} (hl : 0 < l) (hW : 0 < WS p l A w)
    (hq : WS p l A w * t ^ 2 - 2 * NS p l A w * t + kapS p l A w ^ 2 = 0)
    (hF : 16 * A * (1 - w) * TS p l A w * l * p ^ 3 < US p l A w ^ 2)
    (hD : 2 * A * (1 - w) * TS p l A w * l * (etaS p l A w + 4 * p ^ 3 * l)
      ≤ rhoS p l A w * US p l A w) : t < 1 := by
  have h1 := rho_kap p l A w
  have h2 := eta_eps p l A w
  have hWd : WS p l A w = rhoS p l A w ^ 2 - 4 * A * (1 - w) * etaS p l A w * TS p l A w * l ^ 2 := rfl
  have hNd : NS p l A w = kapS p l A w * rhoS p l A w
    - 2 * A * (1 - w) * epsS p l A w * TS p l A w * l ^ 2 := rfl
  generalize WS p l A w = W at *
  generalize NS p l A w = N at *
  generalize rhoS p l A w = ρ at *
  generalize kapS p l A w = κ at *
  generalize epsS p l A w = ε at *
  generalize etaS p l A w = η at *
  generalize TS p l A w = T at *
  generalize US p l A w = U at *
  generalize 1 - w = X at *
  have hκ : κ = ρ - l * U := by linarith
  have hε : ε = η - 4 * p ^ 3 * l := by linarith
  have g1 : 0 < W - 2 * N + κ ^ 2 := by
    have e1 : W - 2 * N + κ ^ 2 = l ^ 2 * (U ^ 2 - 16 * A * X * T * l * p ^ 3) := by
      rw [hWd, hNd, hκ, hε]; ring
    rw [e1]
    have : 0 < U ^ 2 - 16 * A * X * T * l * p ^ 3 := by linarith
    positivity
  have g2 : 0 ≤ W - N := by
    have e1 : W - N = l * (ρ * U - 2 * A * X * T * l * (η + 4 * p ^ 3 * l)) := by
      rw [hWd, hNd, hκ, hε]; ring
    rw [e1]
    exact mul_nonneg hl.le (by linarith)
  by_contra hcon
  have hge : 0 ≤ t - 1 := by linarith [not_lt.mp hcon]
  have h3 := mul_nonneg g2 hge
  have h4 : 0 ≤ W * (t - 1) ^ 2 := by positivity
  linarith

/-- `E² < 1` on either branch for `p ≥ 6`. -/
lemma energy_lt_one {a p e x E L : ℝ} (ha1 : a ^ 2 ≤ 1) (he : 0 ≤ e) (he1 : e < 1)
    (hx : x ^ 2 ≤ 1) (h : Exact a p e x E L) (hp : 6 ≤ p) : E ^ 2 < 1 := by
  have hw : 0 ≤ 1 - x ^ 2 := by linarith
  have hw1 : 1 - x ^ 2 ≤ 1 := by linarith [sq_nonneg x]
  have hl0 : 0 < 1 - e ^ 2 := by nlinarith
  have hl1 : 1 - e ^ 2 ≤ 1 := by nlinarith
  have hA0 := sq_nonneg a
  have hq := h.quad
  have hW := WS_pos (p := p) (by linarith) hl0 hl1 hA0 ha1 hw hw1
  have hT := TS_pos (p := p) (by linarith) hl0 hl1 hA0 ha1 hw hw1
  have hη := etaT_le (p := p) (by linarith) hl0 hl1 hA0 ha1 hw hw1
  have hρ := rhoS_lower (p := p) (by linarith) hl0 hl1 hA0 ha1 hw hw1
  have hρc := rho_core (p := p) (by linarith) hl0 hl1 hA0 ha1 hw hw1
  have hU := US_lower (p := p) hl0 hl1 hA0 hw
  clear h
  have hAl : a ^ 2 * (1 - e ^ 2) ≤ 1 := by
    have := mul_le_mul ha1 hl1 hl0.le zero_le_one
    linarith
  have hAl0 : 0 ≤ a ^ 2 * (1 - e ^ 2) := by positivity
  refine below_one hl0 hW hq ?_ ?_
  all_goals clear hq hW
  all_goals
    generalize US p (1 - e ^ 2) (a ^ 2) (1 - x ^ 2) = U at *
    generalize TS p (1 - e ^ 2) (a ^ 2) (1 - x ^ 2) = T at *
    generalize rhoS p (1 - e ^ 2) (a ^ 2) (1 - x ^ 2) = ρ at *
    generalize etaS p (1 - e ^ 2) (a ^ 2) (1 - x ^ 2) = η at *
    generalize 1 - x ^ 2 = w at *
    generalize 1 - e ^ 2 = l at *
    generalize a ^ 2 = A at *
    clear hx he he1
  all_goals
    have hp0 : 0 < p := by linarith
    have hpp : 12 ≤ p ^ 2 - 4 * p := by nlinarith
    have hU1 : p ^ 2 * (p ^ 2 - 4 * p - 1) ≤ U := by
      have := mul_le_mul_of_nonneg_left hAl (sq_nonneg p)
      linarith
    have hU0 : 0 ≤ p ^ 2 * (p ^ 2 - 4 * p - 1) := mul_nonneg (sq_nonneg p) (by linarith)
    have hXT : (1 - w) * T ≤ p ^ 2 := by
      have := mul_le_mul_of_nonneg_right (show 1 - w ≤ 1 by linarith) hT.1.le
      linarith [hT.2]
    have hXT0 : 0 ≤ (1 - w) * T := mul_nonneg (by linarith) hT.1.le
  · have k1 := pow_le_pow_left₀ hU0 hU1 2
    have k2 : A * l * ((1 - w) * T) ≤ 1 * p ^ 2 := mul_le_mul hAl hXT hXT0 zero_le_one
    have k3 := mul_le_mul_of_nonneg_left k2 (show 0 ≤ 16 * p ^ 3 by positivity)
    have k4 : 16 * p < (p ^ 2 - 4 * p - 1) ^ 2 := by
      have b1 : 0 ≤ (p - 6) * (p ^ 2 - 4 * p - 12) := mul_nonneg (by linarith) (by linarith)
      have b2 : 11 * (2 * p - 1) ≤ (p ^ 2 - 4 * p - 1) * (p ^ 2 - 4 * p - 1) := by
        refine mul_le_mul (by linarith) (by nlinarith) (by linarith) (by linarith)
      nlinarith
    have k5 := mul_lt_mul_of_pos_left k4 (show 0 < p ^ 4 by positivity)
    linarith
  · have k1 : A * l * ((1 - w) * (η * T)) ≤ 1 * (4 * p ^ 6) := by
      have b1 : (1 - w) * (η * T) ≤ 4 * p ^ 6 := by
        have b2 : p ^ 4 * (p ^ 2 * (4 - l) + A * l ^ 2) ≤ 4 * p ^ 6 := by
          have b3 : A * l * l ≤ p ^ 2 * l := mul_le_mul_of_nonneg_right (by nlinarith) hl0.le
          have b4 := mul_le_mul_of_nonneg_left b3 (show 0 ≤ p ^ 4 by positivity)
          linarith
        by_cases hs : 0 ≤ η * T
        · have := mul_le_mul_of_nonneg_right (show 1 - w ≤ 1 by linarith) hs
          linarith
        · have := mul_nonneg (show 0 ≤ 1 - w by linarith) (show 0 ≤ -(η * T) by linarith [not_le.mp hs])
          have : 0 ≤ 4 * p ^ 6 := by positivity
          linarith
      refine le_trans (mul_le_mul_of_nonneg_left b1 hAl0) (mul_le_mul_of_nonneg_right hAl (by positivity))
    have k2 : A * l * ((1 - w) * T) ≤ 1 * p ^ 2 := mul_le_mul hAl hXT hXT0 zero_le_one
    have k3 : A * l * ((1 - w) * T) * l ≤ 1 * p ^ 2 * 1 := mul_le_mul k2 hl1 hl0.le (by positivity)
    have k4 := mul_le_mul_of_nonneg_left k3 (show 0 ≤ 8 * p ^ 3 by positivity)
    have q5 : p ^ 4 * (p - 4) ≤ ρ := by
      have : 0 ≤ p ^ 2 * (p ^ 2 * l - 2 * A * l ^ 2) := by
        have := hρc.le
        positivity
      linarith
    have q50 : 0 ≤ p ^ 4 * (p - 4) := mul_nonneg (by positivity) (by linarith)
    have q6 : p ^ 4 * (p - 4) * (p ^ 2 * (p ^ 2 - 4 * p - 1)) ≤ ρ * U :=
      mul_le_mul q5 hU1 hU0 (le_trans q50 q5)
    have q7 : 2 * 11 ≤ (p - 4) * (p ^ 2 - 4 * p - 1) := mul_le_mul (by linarith) (by linarith) (by norm_num) (by linarith)
    have q8 := mul_le_mul_of_nonneg_left q7 (show 0 ≤ p ^ 6 by positivity)
    have q9 : 8 * p ^ 5 ≤ 2 * p ^ 6 := by
      have := mul_le_mul_of_nonneg_left (show 4 ≤ p by linarith) (show 0 ≤ 2 * p ^ 5 by positivity)
      linarith
    have q10 : 0 ≤ p ^ 6 := by positivity
    linarith

end KGP.Schmidt
