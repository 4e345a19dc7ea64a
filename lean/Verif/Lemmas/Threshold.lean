import Verif.Lemmas.SepMono
import Verif.Lemmas.Separatrix
import Verif.Lemmas.SchmidtBound

/-!
# Stability of an orbit and the separatrix polynomial

For the constants of an orbit with turning points `p/(1-e)`, `p/(1+e)` the next root of the radial
potential lies below `p/(1+e)` iff `E² < M1 / (M1 + 2 K D)`, and at that value the quadratic equation
for `E²` is the separatrix polynomial, up to a positive factor.
-/

namespace KGP.Schmidt

open SepCert

set_option maxHeartbeats 2000000 in
lemma star_kappa (p A e w : ℝ) :
    kapS p (1 - e ^ 2) A w * (M1 p A e w + 2 * K e * D p A e w) - rhoS p (1 - e ^ 2) A w * M1 p A e w
      = (1 - e ^ 2) ^ 2 * TS p (1 - e ^ 2) A w * N p A e w := by
  simp only [kapS, rhoS, TS, N, M1, G, H, B, D, K, g]
  ring

set_option maxHeartbeats 2000000 in
lemma star_eta (p A e w : ℝ) :
    etaS p (1 - e ^ 2) A w * M1 p A e w - epsS p (1 - e ^ 2) A w * (M1 p A e w + 2 * K e * D p A e w)
      = 2 * (1 - e ^ 2) ^ 2 * TS p (1 - e ^ 2) A w * M2 p A e w := by
  simp only [etaS, epsS, TS, M1, M2, B, D, K, g]
  ring

/-- abstract comparison: `q(t) = (κ-ρt)² - c t (ηt-ε)` -/
lemma compare {κ ρ ε η c W t s m d n k : ℝ} (hd : 0 < d) (hs : 0 < s) (hρ : 0 < ρ)
    (hc : 0 ≤ c) (hκ : 0 < κ) (hθ : 0 < κ * η - ε * ρ) (hW : 0 < W) (hWd : W = ρ ^ 2 - c * η)
    (hq : (κ - ρ * t) ^ 2 - c * t * (η * t - ε) = 0)
    (h1 : κ * d - ρ * m = s * n) (h2 : η * m - ε * d = 2 * s * k) :
    (0 < κ - ρ * t → (t * d < m ↔ ¬ (0 ≤ n ∧ 0 ≤ s * n ^ 2 - 2 * c * m * k)))
      ∧ (κ - ρ * t < 0 → (t * d < m ↔ n < 0 ∧ 0 < s * n ^ 2 - 2 * c * m * k)) := by
  -- value of the quadratic at `m/d`
  have hv : (κ * d - ρ * m) ^ 2 - c * m * (η * m - ε * d) = s * (s * n ^ 2 - 2 * c * m * k) := by
    rw [h1, h2]; ring
  obtain ⟨S, hS⟩ : ∃ S, S = s * n ^ 2 - 2 * c * m * k := ⟨_, rfl⟩
  rw [← hS] at hv ⊢
  -- difference of the values at `m/d` and at `t`
  have hdiff : s * S = (m - t * d) * (W * (m + t * d) - (2 * κ * ρ - c * ε) * d) := by
    rw [← hv, hWd]; linear_combination d ^ 2 * hq
  have hc0 : (κ - ρ * t) ≠ 0 → 0 < c := fun h => lt_of_le_of_ne hc fun h0 => by
    rw [← h0] at hq
    exact h (pow_eq_zero_iff two_ne_zero |>.mp (by linarith))
  obtain ⟨b, hb⟩ : ∃ b, b = 2 * κ * ρ - c * ε := ⟨_, rfl⟩
  rw [← hb] at hdiff
  -- value at `κ/ρ`
  have hkr : (κ - ρ * t) * (W * (κ + ρ * t) - b * ρ) = -(c * κ * (κ * η - ε * ρ)) := by
    rw [hb, hWd]; linear_combination -ρ ^ 2 * hq
  constructor
  · intro hside
    have hc1 := hc0 hside.ne'
    have hneg : W * (κ + ρ * t) < b * ρ := by
      by_contra hcon
      have := mul_nonneg hside.le (sub_nonneg.mpr (not_lt.mp hcon))
      have h3 : 0 < c * κ * (κ * η - ε * ρ) := by positivity
      linarith
    constructor
    · rintro h ⟨hn, hS0⟩
      have e1 : 0 ≤ W * (m + t * d) - b * d := by
        by_contra hcon
        have := mul_neg_of_pos_of_neg (sub_pos.mpr h) (not_le.mp hcon)
        nlinarith [mul_nonneg hs.le hS0]
      have e2 : ρ * m ≤ κ * d := by nlinarith [mul_nonneg hs.le hn]
      have e3 : W * (ρ * m) ≤ W * (κ * d) := mul_le_mul_of_nonneg_left e2 hW.le
      have e4 := mul_lt_mul_of_pos_right hneg hd
      have e5 := mul_nonneg hρ.le e1
      linarith
    · intro h
      by_contra hcon
      have h3 := not_lt.mp hcon
      have h4 : 0 < s * n := by
        rw [← h1]
        have := mul_pos hd hside
        have := mul_le_mul_of_nonneg_left h3 hρ.le
        linarith
      have hn : 0 < n := by
        by_contra hh
        exact absurd h4 (not_lt.mpr (mul_nonpos_of_nonneg_of_nonpos hs.le (not_lt.mp hh)))
      have hS0 : S < 0 := not_le.mp fun hh => h ⟨hn.le, hh⟩
      have e1 : s * S < 0 := mul_neg_of_pos_of_neg hs hS0
      have e2 : 0 < W * (m + t * d) - b * d := by
        by_contra hh
        have := mul_nonneg_of_nonpos_of_nonpos (sub_nonpos.mpr h3) (not_lt.mp hh)
        linarith
      have e3 : W * m ≤ W * (t * d) := mul_le_mul_of_nonneg_left h3 hW.le
      have e4 := mul_lt_mul_of_pos_right hneg hd
      have e5 : 0 < W * ((κ - ρ * t) * d) := by positivity
      have e6 := mul_pos hρ e2
      have e7 := mul_le_mul_of_nonneg_left e3 hρ.le
      linarith
  · intro hside
    have hc1 := hc0 hside.ne
    have hpos : b * ρ < W * (κ + ρ * t) := by
      by_contra hcon
      have := mul_nonneg_of_nonpos_of_nonpos hside.le (sub_nonpos.mpr (not_lt.mp hcon))
      have h3 : 0 < c * κ * (κ * η - ε * ρ) := by positivity
      linarith
    have e4 := mul_lt_mul_of_pos_right hpos hd
    have e5 : 0 < W * ((ρ * t - κ) * d) := by
      have : 0 < ρ * t - κ := by linarith
      positivity
    constructor
    · intro h
      have hsn : s * n < 0 := by
        rw [← h1]
        have := mul_lt_mul_of_pos_left h hρ
        have h6 : 0 < (ρ * t - κ) * d := mul_pos (by linarith) hd
        linarith
      have e6 : W * (t * d) < W * m := mul_lt_mul_of_pos_left h hW
      have e7 : 0 < W * (m + t * d) - b * d := by
        by_contra hh
        have e8 := mul_nonpos_of_nonneg_of_nonpos hρ.le (not_lt.mp hh)
        have e9 := mul_lt_mul_of_pos_left e6 hρ
        linarith
      have e8 := mul_pos (sub_pos.mpr h) e7
      constructor
      · by_contra hh
        exact absurd hsn (not_lt.mpr (mul_nonneg hs.le (not_lt.mp hh)))
      · by_contra hh
        have := mul_nonpos_of_nonneg_of_nonpos hs.le (not_lt.mp hh)
        linarith
    · rintro ⟨hn, hS0⟩
      by_contra hcon
      have h3 := not_lt.mp hcon
      have e6 : 0 < s * S := mul_pos hs hS0
      have e7 : W * (m + t * d) - b * d < 0 := by
        by_contra hh
        have := mul_nonpos_of_nonpos_of_nonneg (sub_nonpos.mpr h3) (not_lt.mp hh)
        linarith
      have e8 : s * n < 0 := mul_neg_of_pos_of_neg hs hn
      have e9 : W * (κ * d) < W * (ρ * m) := mul_lt_mul_of_pos_left (by linarith) hW
      have e10 := mul_neg_of_pos_of_neg hρ e7
      linarith

/-- `N < 2√2 a x √(M1 M2)`, spelled out. -/
lemma lt_iff_pos {n m k a x : ℝ} (hm : 0 < m) (hk : 0 < k) (ha : 0 < a) (hx : 0 < x) :
    n / √(m * k) < 2 * √2 * a * x ↔ ¬ (0 ≤ n ∧ 0 ≤ n ^ 2 - 8 * a ^ 2 * x ^ 2 * m * k) := by
  have hs := Real.sqrt_pos.mpr (mul_pos hm hk)
  have hss := Real.sq_sqrt (mul_pos hm hk).le
  have h2 : √2 ^ 2 = (2:ℝ) := Real.sq_sqrt (by norm_num)
  have h20 : 0 < √(2:ℝ) := Real.sqrt_pos.mpr (by norm_num)
  rw [div_lt_iff₀ hs]
  generalize √(m * k) = r at *
  have e1 : 0 < 2 * √2 * a * x * r := by positivity
  have e2 : (2 * √2 * a * x * r) ^ 2 = 8 * a ^ 2 * x ^ 2 * m * k := by
    linear_combination 4 * a ^ 2 * x ^ 2 * r ^ 2 * h2 + 8 * a ^ 2 * x ^ 2 * hss
  rw [← e2]
  constructor
  · rintro h ⟨h3, h4⟩
    nlinarith
  · intro h
    by_contra hcon
    have h3 := not_lt.mp hcon
    exact h ⟨by linarith, by nlinarith⟩

lemma lt_iff_neg {n m k a x : ℝ} (hm : 0 < m) (hk : 0 < k) (ha : 0 < a) (hx : x < 0) :
    n / √(m * k) < 2 * √2 * a * x ↔ (n < 0 ∧ 0 < n ^ 2 - 8 * a ^ 2 * x ^ 2 * m * k) := by
  have hs := Real.sqrt_pos.mpr (mul_pos hm hk)
  have hss := Real.sq_sqrt (mul_pos hm hk).le
  have h2 : √2 ^ 2 = (2:ℝ) := Real.sq_sqrt (by norm_num)
  have h20 : 0 < √(2:ℝ) := Real.sqrt_pos.mpr (by norm_num)
  rw [div_lt_iff₀ hs]
  generalize √(m * k) = r at *
  have e1 : 0 < 2 * √2 * a * (-x) * r := by
    have : 0 < -x := by linarith
    positivity
  have e2 : (2 * √2 * a * x * r) ^ 2 = 8 * a ^ 2 * x ^ 2 * m * k := by
    linear_combination 4 * a ^ 2 * x ^ 2 * r ^ 2 * h2 + 8 * a ^ 2 * x ^ 2 * hss
  rw [← e2]
  constructor
  · intro h
    exact ⟨by linarith, by nlinarith⟩
  · rintro ⟨h3, h4⟩
    nlinarith

/-- **Stability threshold.** For the exact constants, `E²` is below the critical value iff the ratio is
below `2√2 a x`. -/
lemma below_star_iff {a p e x E L : ℝ} (ha : 0 < a) (ha1 : a ≤ 1) (hp : 4 < p) (he : 0 ≤ e)
    (he1 : e < 1) (hx0 : x ≠ 0) (hx : x ^ 2 ≤ 1) (h : Exact a p e x E L) :
    E ^ 2 * (M1 p (a ^ 2) e (1 - x ^ 2) + 2 * SepCert.K e * D p (a ^ 2) e (1 - x ^ 2))
        < M1 p (a ^ 2) e (1 - x ^ 2)
      ↔ ratio p (a ^ 2) e (1 - x ^ 2) < 2 * √2 * a * x := by
  have hA : 0 ≤ a ^ 2 := sq_nonneg a
  have hA1 : a ^ 2 ≤ 1 := by nlinarith
  have hw : 0 ≤ 1 - x ^ 2 := by linarith
  have hw1 : 1 - x ^ 2 ≤ 1 := by linarith [sq_nonneg x]
  have hl : 0 < 1 - e ^ 2 := by nlinarith
  have hl1 : 1 - e ^ 2 ≤ 1 := by linarith [sq_nonneg e]
  have k1 := kapS_pos hp hl hl1 hA hA1 hw hw1
  have k2 := rhoS_pos hp hl hl1 hA hA1 hw hw1
  have k3 := thetaS_pos hp hl hl1 hA hA1 hw hw1
  have k4 := (TS_pos hp hl hl1 hA hA1 hw hw1).1
  have k5 := WS_pos hp hl hl1 hA hA1 hw hw1
  have n1 := M1_pos hp.le hA hA1 he he1.le hw hw1
  have n2 := M2_pos hp.le hA hA1 he he1.le hw hw1
  have n3 := D_pos hp.le hA hA1 he he1.le hw hw1
  have n4 := SepCert.K_nonneg he he1.le
  have i1 := star_kappa p (a ^ 2) e (1 - x ^ 2)
  have i2 := star_eta p (a ^ 2) e (1 - x ^ 2)
  have hth : kapS p (1 - e ^ 2) (a ^ 2) (1 - x ^ 2) * etaS p (1 - e ^ 2) (a ^ 2) (1 - x ^ 2)
      - epsS p (1 - e ^ 2) (a ^ 2) (1 - x ^ 2) * rhoS p (1 - e ^ 2) (a ^ 2) (1 - x ^ 2)
      = (1 - e ^ 2) ^ 2 * TS p (1 - e ^ 2) (a ^ 2) (1 - x ^ 2) * thetaS p (1 - e ^ 2) (a ^ 2) (1 - x ^ 2) := by
    simp only [kapS, etaS, epsS, rhoS, TS, thetaS]; ring
  have hquad := h.quad
  have hside := h.side
  unfold ratio
  rw [NS] at hquad
  have hWS := k5
  rw [WS, show 1 - (1 - x ^ 2) = x ^ 2 by ring] at hWS hquad
  clear k5
  have hX : 0 < x ^ 2 := by positivity
  have ha2 : 0 < a ^ 2 := by positivity
  generalize kapS p (1 - e ^ 2) (a ^ 2) (1 - x ^ 2) = κ at *
  generalize rhoS p (1 - e ^ 2) (a ^ 2) (1 - x ^ 2) = ρ at *
  generalize etaS p (1 - e ^ 2) (a ^ 2) (1 - x ^ 2) = η at *
  generalize epsS p (1 - e ^ 2) (a ^ 2) (1 - x ^ 2) = ε at *
  generalize thetaS p (1 - e ^ 2) (a ^ 2) (1 - x ^ 2) = θ at *
  generalize TS p (1 - e ^ 2) (a ^ 2) (1 - x ^ 2) = T at *
  generalize M1 p (a ^ 2) e (1 - x ^ 2) = m at *
  generalize M2 p (a ^ 2) e (1 - x ^ 2) = k at *
  generalize D p (a ^ 2) e (1 - x ^ 2) = D' at *
  generalize SepCert.K e = K' at *
  generalize N p (a ^ 2) e (1 - x ^ 2) = n at *
  generalize 1 - e ^ 2 = l at *
  have hd : 0 < m + 2 * K' * D' := by positivity
  have hs : 0 < l ^ 2 * T := by positivity
  have hθ : 0 < κ * η - ε * ρ := by rw [hth]; positivity
  obtain ⟨c1, c2⟩ := compare (c := 4 * a ^ 2 * x ^ 2 * T * l ^ 2) (t := E ^ 2) hd hs k2 (by positivity)
    k1 hθ hWS (by ring) (by linear_combination hquad) i1 (k := k) (by linear_combination i2)
  have hS : l ^ 2 * T * n ^ 2 - 2 * (4 * a ^ 2 * x ^ 2 * T * l ^ 2) * m * k
      = l ^ 2 * T * (n ^ 2 - 8 * a ^ 2 * x ^ 2 * m * k) := by ring
  rw [hS] at c1 c2
  rcases lt_or_gt_of_ne hx0 with hneg | hpos
  · rw [Real.sign_of_neg hneg] at hside
    rw [c2 (by linarith), lt_iff_neg n1 n2 ha hneg, mul_pos_iff_of_pos_left hs]
  · rw [Real.sign_of_pos hpos] at hside
    rw [c1 (by linarith), lt_iff_pos n1 n2 ha hpos, mul_nonneg_iff_of_pos_left hs]

end KGP.Schmidt
