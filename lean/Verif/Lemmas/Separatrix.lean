import Verif.Lemmas.SepCert
import Verif.Lemmas.Guards
import Mathlib.Tactic.Continuity

/-! # The separatrix search never fails: signs at the ends of the brackets -/

namespace KGP

open Classical Real

lemma SFull_eq (p a e x : ℝ) : SFull p a e x =
    SepCert.N p (a ^ 2) e (1 - x ^ 2) ^ 2
      - 8 * a ^ 2 * x ^ 2 * SepCert.M1 p (a ^ 2) e (1 - x ^ 2)
        * SepCert.M2 p (a ^ 2) e (1 - x ^ 2) := by
  simp only [SFull, SepCert.N, SepCert.M1, SepCert.M2, SepCert.G, SepCert.H, SepCert.B,
    SepCert.D, SepCert.K, SepCert.g]
  ring

lemma SepN_polar (p a e : ℝ) : SepCert.N p (a ^ 2) e 1 = - SPolar p a e := by
  simp only [SPolar, SepCert.N, SepCert.G, SepCert.H, SepCert.B, SepCert.D, SepCert.K, SepCert.g]
  ring

lemma polarLo_bounds : 5274 / 1000 ≤ polarLo ∧ polarLo ≤ 5275 / 1000 := by
  have h1 : (1732 / 1000 : ℝ) ≤ √3 := Real.le_sqrt_of_sq_le (by norm_num)
  have h2 : √3 ≤ (17321 / 10000 : ℝ) := by
    rw [Real.sqrt_le_left (by norm_num)]; norm_num
  have h3 : (25424 / 10000 : ℝ) ≤ √(3 + 2 * √3) := by
    apply Real.le_sqrt_of_sq_le; linarith
  have h4 : √(3 + 2 * √3) ≤ (25425 / 10000 : ℝ) := by
    rw [Real.sqrt_le_left (by norm_num)]; linarith
  unfold polarLo
  constructor <;> linarith

lemma polarLo_quartic : polarLo ^ 4 - 4 * polarLo ^ 3 - 6 * polarLo ^ 2 - 4 * polarLo + 1 = 0 := by
  have h1 : √3 ^ 2 = 3 := Real.sq_sqrt (by norm_num)
  have h2 : √(3 + 2 * √3) ^ 2 = 3 + 2 * √3 := Real.sq_sqrt (by positivity)
  have h3 : polarLo ^ 2 - 2 * polarLo + 1 = 2 * √3 * polarLo := by
    unfold polarLo
    linear_combination h2 - h1
  have h4 : (polarLo ^ 2 - 2 * polarLo + 1) ^ 2 = 12 * polarLo ^ 2 := by
    rw [h3]; linear_combination 4 * polarLo ^ 2 * h1
  linear_combination h4

lemma SPolar_lo (a e : ℝ) (ha : a ^ 2 ≤ 1) (he : 0 ≤ e) (he1 : e ≤ 1) :
    SPolar polarLo a e ≤ 0 := by
  obtain ⟨hl, -⟩ := polarLo_bounds
  have h1 := SepCert.polar_at_one polarLo e he he1 (by linarith) polarLo_quartic
  obtain ⟨q, hq⟩ : ∃ q, q = polarLo := ⟨_, rfl⟩
  rw [← hq] at h1 hl ⊢
  have hA : 0 ≤ a ^ 2 := sq_nonneg a
  have hA2 : a ^ 4 ≤ 1 := by nlinarith
  have hA3 : a ^ 6 ≤ 1 := by nlinarith [mul_nonneg hA hA]
  have c1 : 0 ≤ q ^ 3 * (-4 * (-1 + e) * (1 + e) ^ 2 + (3 + e * (2 + 3 * e)) * q) := by
    have : 0 ≤ 1 - e := by linarith
    have h : -4 * (-1 + e) * (1 + e) ^ 2 + (3 + e * (2 + 3 * e)) * q
      = 4 * (1 - e) * (1 + e) ^ 2 + (3 + e * (2 + 3 * e)) * q := by ring
    rw [h]; positivity
  have c2 : 0 ≤ -(1 + e) ^ 2 * q * (6 + 2 * e ^ 3 + 2 * e * (-1 + q) - 3 * q - 3 * e ^ 2 * (2 + q)) := by
    have h : 0 ≤ -(6 + 2 * e ^ 3 + 2 * e * (-1 + q) - 3 * q - 3 * e ^ 2 * (2 + q)) := by
      obtain ⟨y, hy⟩ : ∃ y, q = 5 + y := ⟨q - 5, by ring⟩
      have hy0 : 0 ≤ y := by linarith
      have h3 : e ^ 3 ≤ e := by nlinarith [mul_nonneg he he]
      have h2 : e ^ 2 ≤ e := by nlinarith
      rw [hy]
      nlinarith [mul_nonneg hy0 (sq_nonneg (e - 1)), mul_nonneg hy0 (sq_nonneg e), mul_nonneg hy0 he]
    have : 0 ≤ (1 + e) ^ 2 * q := by positivity
    nlinarith [mul_nonneg this h]
  have c3 : 0 ≤ (-1 + e) ^ 2 * (1 + e) ^ 4 := by positivity
  have h : SPolar q a e = SepCert.polarOne q e
      - (1 - a ^ 2) * (q ^ 3 * (-4 * (-1 + e) * (1 + e) ^ 2 + (3 + e * (2 + 3 * e)) * q))
      - (1 - a ^ 4) * (-(1 + e) ^ 2 * q * (6 + 2 * e ^ 3 + 2 * e * (-1 + q) - 3 * q - 3 * e ^ 2 * (2 + q)))
      - (1 - a ^ 6) * ((-1 + e) ^ 2 * (1 + e) ^ 4) := by
    simp only [SPolar, SepCert.polarOne]; ring
  rw [h]
  have d1 := mul_nonneg (sub_nonneg.mpr ha) c1
  have d2 := mul_nonneg (sub_nonneg.mpr hA2) c2
  have d3 := mul_nonneg (sub_nonneg.mpr hA3) c3
  linarith

lemma SPolar_hi (a e : ℝ) (he : 0 ≤ e) (he1 : e ≤ 1) : 0 ≤ SPolar 8 a e := by
  obtain ⟨f, hf⟩ : ∃ f, f = 1 - e := ⟨_, rfl⟩
  have hf0 : 0 ≤ f := by linarith
  have h : SPolar 8 a e = 65536 * f + a ^ 2 * (512 * (4 * f * (1 + e) ^ 2 + (3 + e * (2 + 3 * e)) * 8))
      + a ^ 4 * ((1 + e) ^ 2 * (8 * (18 * f + 4 * e + 28 * e ^ 2 + 2 * e ^ 2 * f)))
      + a ^ 6 * (f ^ 2 * (1 + e) ^ 4) := by
    rw [hf]; simp only [SPolar]; ring_nf
  rw [h]; positivity

lemma SEq_mid (a e : ℝ) (ha : a ^ 2 ≤ 1) (he : 0 ≤ e) (he1 : e ≤ 1) :
    SEquatorial (6 + 2 * e) a e ≤ 0 := by
  have h : SEquatorial (6 + 2 * e) a e
      = -(a ^ 2 * (1 + e) * (128 * (3 + e) - a ^ 2 * (1 + e) * (3 - e) ^ 2)) := by
    simp only [SEquatorial]; ring
  have h2 : a ^ 2 * ((1 + e) * (3 - e) ^ 2) ≤ 1 * ((1 + e) * (3 - e) ^ 2) :=
    mul_le_mul_of_nonneg_right ha (by positivity)
  have h3 : (1 + e) * (3 - e) ^ 2 ≤ 128 * (3 + e) := by nlinarith [mul_nonneg he he]
  have : 0 ≤ a ^ 2 * (1 + e) * (128 * (3 + e) - a ^ 2 * (1 + e) * (3 - e) ^ 2) := by
    apply mul_nonneg (by positivity); linarith
  rw [h]; linarith

lemma SEq_lo (a e : ℝ) (ha : a ^ 2 ≤ 1) (he : 0 ≤ e) : 0 ≤ SEquatorial (1 + e) a e := by
  have h : SEquatorial (1 + e) a e
      = (1 + e) ^ 2 * (1 - a ^ 2) * ((5 + e) ^ 2 - a ^ 2 * (3 - e) ^ 2) := by
    simp only [SEquatorial]; ring
  have h2 : a ^ 2 * (3 - e) ^ 2 ≤ 1 * (3 - e) ^ 2 :=
    mul_le_mul_of_nonneg_right ha (by positivity)
  rw [h]
  apply mul_nonneg (mul_nonneg (by positivity) (by linarith))
  nlinarith

lemma SEq_hi (a e : ℝ) (ha : a ^ 2 ≤ 1) (he : 0 ≤ e) (he1 : e ≤ 1) :
    0 ≤ SEquatorial (5 + e + 4 * √(1 + e)) a e := by
  obtain ⟨s, hs⟩ : ∃ s, s = √(1 + e) := ⟨_, rfl⟩
  have hs2 : s ^ 2 = 1 + e := by rw [hs]; exact Real.sq_sqrt (by linarith)
  have hs0 : 1 ≤ s := by rw [hs]; exact Real.one_le_sqrt.mpr (by linarith)
  have hs3 : s ≤ 2 := by nlinarith
  have he' : e = s ^ 2 - 1 := by linarith
  rw [← hs, he']
  have h : SEquatorial (5 + (s ^ 2 - 1) + 4 * s) a (s ^ 2 - 1)
      = s ^ 2 * (s + 2) ^ 2 * (1 - a ^ 2)
        * (((s + 2) * (4 - s)) ^ 2 - a ^ 2 * (s * (2 - s)) ^ 2) := by
    simp only [SEquatorial]; ring
  rw [h]
  have h2 : a ^ 2 * (s * (2 - s)) ^ 2 ≤ 1 * (s * (2 - s)) ^ 2 :=
    mul_le_mul_of_nonneg_right ha (by positivity)
  have h3 : s * (2 - s) ≤ (s + 2) * (4 - s) := by nlinarith
  have h4 : 0 ≤ s * (2 - s) := mul_nonneg (by linarith) (by linarith)
  apply mul_nonneg (mul_nonneg (by positivity) (by linarith))
  nlinarith [pow_le_pow_left₀ h4 h3 2]

/-- a zero of the equatorial polynomial in the prograde bracket, in parametric form -/
lemma prograde_param (a p e : ℝ) (ha : a ^ 2 ≤ 1) (he : 0 ≤ e) (he1 : e ≤ 1)
    (hp : 1 + e ≤ p) (hp2 : p ≤ 6 + 2 * e) (hz : SEquatorial p a e = 0) :
    ∃ t, 0 ≤ t ∧ t ≤ 1 ∧ p = (1 + e) * (1 + 2 * t - t ^ 2) + 4 * t ^ 2
      ∧ (1 + e) * a ^ 2 = (1 - t) ^ 2 * p := by
  have hf : 0 < 3 - e := by linarith
  have hv2 : (1 + e) ^ 2 ≤ (3 - e) * p - 2 * (1 - e ^ 2) := by nlinarith
  have hv3 : (3 - e) * p - 2 * (1 - e ^ 2) ≤ 4 ^ 2 := by nlinarith
  obtain ⟨v, hv⟩ : ∃ v, v = √((3 - e) * p - 2 * (1 - e ^ 2)) := ⟨_, rfl⟩
  have hvs : v ^ 2 = (3 - e) * p - 2 * (1 - e ^ 2) := by
    rw [hv]; exact Real.sq_sqrt (le_trans (by positivity) hv2)
  have hv0 : 0 ≤ v := by rw [hv]; exact Real.sqrt_nonneg _
  have hvlo : 1 + e ≤ v := by rw [hv]; exact Real.le_sqrt_of_sq_le hv2
  have hvhi : v ≤ 4 := by rw [hv, Real.sqrt_le_left (by norm_num)]; exact hv3
  have hfac : ((3 - e) ^ 2 * (1 + e) * a ^ 2 - p * (4 - v) ^ 2)
      * ((3 - e) ^ 2 * (1 + e) * a ^ 2 - p * (4 + v) ^ 2) = 0 := by
    have : ((3 - e) ^ 2 * (1 + e) * a ^ 2 - p * (4 - v) ^ 2)
      * ((3 - e) ^ 2 * (1 + e) * a ^ 2 - p * (4 + v) ^ 2) = (3 - e) ^ 2 * SEquatorial p a e := by
      have e1 : ((3 - e) ^ 2 * (1 + e) * a ^ 2 - p * (4 - v) ^ 2)
        * ((3 - e) ^ 2 * (1 + e) * a ^ 2 - p * (4 + v) ^ 2)
        = ((3 - e) ^ 2 * (1 + e) * a ^ 2) ^ 2
          - 2 * p * (16 + v ^ 2) * ((3 - e) ^ 2 * (1 + e) * a ^ 2) + p ^ 2 * (16 - v ^ 2) ^ 2 := by ring
      rw [e1, hvs]; simp only [SEquatorial]; ring
    rw [this, hz, mul_zero]
  have hne : (3 - e) ^ 2 * (1 + e) * a ^ 2 - p * (4 + v) ^ 2 < 0 := by
    have h1 : (3 - e) ^ 2 * (1 + e) * a ^ 2 ≤ (3 - e) ^ 2 * (1 + e) * 1 :=
      mul_le_mul_of_nonneg_left ha (by positivity)
    have h2 : (1 + e) * (3 - e) ^ 2 < (1 + e) * (4 + v) ^ 2 := by
      apply mul_lt_mul_of_pos_left _ (by linarith)
      nlinarith
    have h3 : (1 + e) * (4 + v) ^ 2 ≤ p * (4 + v) ^ 2 :=
      mul_le_mul_of_nonneg_right hp (by positivity)
    linarith
  have hzero := (mul_eq_zero.mp hfac).resolve_right (ne_of_lt hne)
  refine ⟨(v - 1 - e) / (3 - e), div_nonneg (by linarith) hf.le,
    by rw [div_le_one hf]; linarith, ?_, ?_⟩
  · have hft : (3 - e) * ((v - 1 - e) / (3 - e)) = v - 1 - e := by field_simp
    obtain ⟨t, ht⟩ : ∃ t, t = (v - 1 - e) / (3 - e) := ⟨_, rfl⟩
    rw [← ht] at hft ⊢
    have hve : v = (3 - e) * t + 1 + e := by linarith
    have : (3 - e) * p = (3 - e) * ((1 + e) * (1 + 2 * t - t ^ 2) + 4 * t ^ 2) := by
      rw [hve] at hvs
      linear_combination -hvs
    exact mul_left_cancel₀ hf.ne' this
  · have hft : (3 - e) * (1 - (v - 1 - e) / (3 - e)) = 4 - v := by field_simp; ring
    obtain ⟨t, ht⟩ : ∃ t, t = (v - 1 - e) / (3 - e) := ⟨_, rfl⟩
    rw [← ht] at hft ⊢
    have : (3 - e) ^ 2 * ((1 + e) * a ^ 2) = (3 - e) ^ 2 * ((1 - t) ^ 2 * p) := by
      have : (4 - v) ^ 2 = (3 - e) ^ 2 * (1 - t) ^ 2 := by rw [← hft]; ring
      rw [this] at hzero
      linear_combination hzero
    exact mul_left_cancel₀ (by positivity) this

/-- the generic polynomial is non-negative at the equatorial prograde separatrix -/
lemma SFull_prograde (a p e x : ℝ) (ha : a ^ 2 ≤ 1) (he : 0 ≤ e) (he1 : e ≤ 1) (hx : x ^ 2 ≤ 1)
    (hp : 1 + e ≤ p) (hp2 : p ≤ 6 + 2 * e) (hz : SEquatorial p a e = 0) :
    0 ≤ SFull p a e x := by
  obtain ⟨t, ht, ht1, hpt, hat⟩ := prograde_param a p e ha he he1 hp hp2 hz
  have key := SepCert.prograde_core e t (1 - x ^ 2) he ht ht1 (by linarith)
    (by linarith [sq_nonneg x]) p hpt
  rw [SFull_eq]
  obtain ⟨A, hA⟩ : ∃ A, A = a ^ 2 := ⟨_, rfl⟩
  obtain ⟨w, hw⟩ : ∃ w, w = 1 - x ^ 2 := ⟨_, rfl⟩
  have hxw : x ^ 2 = 1 - w := by linarith
  rw [← hA] at hat ⊢
  rw [← hw] at key ⊢
  rw [hxw]
  obtain ⟨u, hu⟩ : ∃ u, u = 1 - t := ⟨_, rfl⟩
  rw [← hu] at key hat
  have hk : SepCert.K e * A = (1 - e) * (1 + e) * u ^ 2 * p := by
    simp only [SepCert.K]; linear_combination (1 - e) * (1 + e) * hat
  have hg : A * SepCert.g e = (3 - e) * u ^ 2 * p := by
    simp only [SepCert.g]; linear_combination (3 - e) * hat
  have hD : SepCert.D p A e w = p ^ 2 * (p - (3 - e) * u ^ 2 * w) := by
    simp only [SepCert.D]; linear_combination -p * w * hg
  have hB : SepCert.B p A e w = p * (p * (3 + e) - (1 - e) * (1 + e) * u ^ 2 * w) := by
    simp only [SepCert.B]; linear_combination -w * hk
  have hG : SepCert.G p A e = p * (2 * p * (3 + e) - 4 * ((1 - e) * (1 + e) * u ^ 2)
          + p * ((3 - e) * u ^ 2) - p ^ 2) := by
    simp only [SepCert.G, hk, hg]; ring
  have hH : SepCert.H p A e = p * (2 * ((3 - e) * (1 + e)) + (1 - e) * (1 + e) * u ^ 2
      - p * (3 + e)) := by
    simp only [SepCert.H, hk]; simp only [SepCert.g]; ring
  obtain ⟨Dh, hDh⟩ : ∃ Dh, Dh = p - (3 - e) * u ^ 2 * w := ⟨_, rfl⟩
  obtain ⟨Bh, hBh⟩ : ∃ Bh, Bh = p * (3 + e) - (1 - e) * (1 + e) * u ^ 2 * w := ⟨_, rfl⟩
  obtain ⟨Gh, hGh⟩ : ∃ Gh, Gh = 2 * p * (3 + e) - 4 * ((1 - e) * (1 + e) * u ^ 2)
          + p * ((3 - e) * u ^ 2) - p ^ 2 := ⟨_, rfl⟩
  obtain ⟨Hh, hHh⟩ : ∃ Hh, Hh = 2 * ((3 - e) * (1 + e)) + (1 - e) * (1 + e) * u ^ 2
      - p * (3 + e) := ⟨_, rfl⟩
  rw [← hDh] at hD key
  rw [← hBh] at hB key
  rw [← hGh] at hG key
  rw [← hHh] at hH key
  have hN : (1 + e) * SepCert.N p A e w
      = p ^ 3 * ((1 + e) * Gh * Dh + u ^ 2 * w * Bh * Hh) := by
    simp only [SepCert.N, hD, hB, hG, hH]
    linear_combination w * p ^ 2 * Bh * Hh * hat
  have hM1 : SepCert.M1 p A e w = (1 + e) * p ^ 2 *
      ((p * (3 - e) - 2 * (1 - e) * (1 + e)) * Dh + (1 - e) * u ^ 2 * w * Bh) := by
    simp only [SepCert.M1, hD, hB, hk]
    simp only [SepCert.K, SepCert.g]; ring
  have hM2 : SepCert.M2 p A e w = p ^ 3 * (p * Bh - (1 - e) * (1 + e) * u ^ 2 * Dh) := by
    simp only [SepCert.M2, hD, hB, hk]; ring
  have hfin : (1 + e) ^ 2 * (SepCert.N p A e w ^ 2
      - 8 * A * (1 - w) * SepCert.M1 p A e w * SepCert.M2 p A e w)
      = p ^ 6 * (((1 + e) * Gh * Dh + u ^ 2 * w * Bh * Hh) ^ 2
        - 8 * u ^ 2 * (1 + e) ^ 2 * (1 - w)
        * ((p * (3 - e) - 2 * (1 - e) * (1 + e)) * Dh + (1 - e) * u ^ 2 * w * Bh)
        * (p * Bh - (1 - e) * (1 + e) * u ^ 2 * Dh)) := by
    have e1 : (1 + e) ^ 2 * SepCert.N p A e w ^ 2 = ((1 + e) * SepCert.N p A e w) ^ 2 := by ring
    have e2 : (1 + e) ^ 2 * (8 * A * (1 - w) * SepCert.M1 p A e w * SepCert.M2 p A e w)
      = 8 * (1 + e) * ((1 + e) * A) * (1 - w) * SepCert.M1 p A e w * SepCert.M2 p A e w := by ring
    rw [mul_sub, e1, e2, hN, hM1, hM2, hat]
    ring
  have hpos : 0 ≤ (1 + e) ^ 2 * (SepCert.N p A e w ^ 2
      - 8 * A * (1 - w) * SepCert.M1 p A e w * SepCert.M2 p A e w) := by
    rw [hfin]; exact mul_nonneg (by positivity) key
  exact nonneg_of_mul_nonneg_right hpos (by positivity)

/-- the generic polynomial is non-positive at the polar separatrix -/
lemma SFull_polar (a p e x : ℝ) (ha : a ^ 2 ≤ 1) (he : 0 ≤ e) (he1 : e ≤ 1) (hx : x ^ 2 ≤ 1)
    (hp : polarLo ≤ p) (hz : SPolar p a e = 0) : SFull p a e x ≤ 0 := by
  obtain ⟨hl, -⟩ := polarLo_bounds
  obtain ⟨y, hy⟩ : ∃ y, y = p - 21 / 4 := ⟨_, rfl⟩
  have hp' : p = 21 / 4 + y := by linarith
  have hy0 : 0 ≤ y := by linarith
  have hA0 := sq_nonneg a
  have hw0 : 0 ≤ 1 - x ^ 2 := by linarith
  have hw1 : 1 - x ^ 2 ≤ 1 := by linarith [sq_nonneg x]
  have h1 := SepCert.m1_lower y (a ^ 2) e (1 - x ^ 2) hy0 hA0 ha he he1 hw0 hw1
  have h2 := SepCert.m2_lower y (a ^ 2) e (1 - x ^ 2) hy0 hA0 ha he he1 hw0 hw1
  have h3 := SepCert.nt_upper y (a ^ 2) e (1 - x ^ 2) hy0 hA0 ha he he1 hw0 hw1
  have h4 := SepCert.nt_nonneg y (a ^ 2) e (1 - x ^ 2) hy0 hA0 ha he he1 hw0 hw1
  rw [← hp'] at h1 h2 h3 h4
  rw [SFull_eq, SepCert.N_split, SepN_polar, hz]
  obtain ⟨n, hn⟩ : ∃ n, n = SepCert.nt p (a ^ 2) e (1 - x ^ 2) := ⟨_, rfl⟩
  obtain ⟨m1, hm1⟩ : ∃ n, n = SepCert.M1 p (a ^ 2) e (1 - x ^ 2) := ⟨_, rfl⟩
  obtain ⟨m2, hm2⟩ : ∃ n, n = SepCert.M2 p (a ^ 2) e (1 - x ^ 2) := ⟨_, rfl⟩
  rw [← hn] at h3 h4 ⊢
  rw [← hm1] at h1 ⊢
  rw [← hm2] at h2 ⊢
  have hppos : 0 ≤ p := by linarith
  have hq : 0 ≤ p ^ 8 := by positivity
  have hprod : (1 + e) * (3 / 2 * p ^ 4) * (p * (5 / 2 * p ^ 4)) ≤ m1 * m2 :=
    mul_le_mul h1 h2 (by positivity) (le_trans (by positivity) h1)
  have hn2 : n ^ 2 ≤ ((7 + 6 * e) * p ^ 4) ^ 2 := pow_le_pow_left₀ h4 h3 2
  have hc : ((7 + 6 * e) * p ^ 4) ^ 2 ≤ 8 * ((1 + e) * (3 / 2 * p ^ 4) * (p * (5 / 2 * p ^ 4))) := by
    have : (7 + 6 * e) ^ 2 ≤ 30 * (1 + e) * p := by nlinarith
    nlinarith [mul_le_mul_of_nonneg_left this hq]
  have hfin : a ^ 2 * x ^ 2 * n ^ 2 ≤ 8 * (m1 * m2) := by
    have : a ^ 2 * x ^ 2 ≤ 1 := by nlinarith [sq_nonneg x]
    have h5 : a ^ 2 * x ^ 2 * n ^ 2 ≤ 1 * n ^ 2 :=
      mul_le_mul_of_nonneg_right this (by positivity)
    linarith
  have h6 : 0 ≤ a ^ 2 * x ^ 2 * (8 * (m1 * m2) - a ^ 2 * x ^ 2 * n ^ 2) :=
    mul_nonneg (by positivity) (by linarith)
  nlinarith [h6]

lemma SFull_twelve (a e x : ℝ) (ha : a ^ 2 ≤ 1) (he1 : e ≤ 1) (hx : x ^ 2 ≤ 1) :
    0 ≤ SFull 12 a e x := by
  rw [SFull_eq]
  exact SepCert.twelve (a ^ 2) e (x ^ 2) (sq_nonneg a) ha he1 (sq_nonneg x) hx

lemma continuous_SPolar (a e : ℝ) : Continuous fun p => SPolar p a e := by
  unfold SPolar; fun_prop
lemma continuous_SEq (a e : ℝ) : Continuous fun p => SEquatorial p a e := by
  unfold SEquatorial; fun_prop
lemma continuous_SFull (a e x : ℝ) : Continuous fun p => SFull p a e x := by
  unfold SFull; fun_prop

end KGP
