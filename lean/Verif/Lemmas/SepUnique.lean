import Verif.Lemmas.SepMono
import Verif.Lemmas.Separatrix

/-!
# Uniqueness of the zeros of the separatrix polynomial beyond `p = 4`
-/

namespace KGP

open Classical Real SepCert

set_option linter.unusedSectionVars false

section
variable {a p e x : ℝ} (ha : 0 ≤ a) (ha1 : a ^ 2 ≤ 1) (he : 0 ≤ e) (he1 : e ≤ 1) (hx : x ^ 2 ≤ 1)
  (hp : 4 ≤ p)
include ha ha1 he he1 hx hp

/-- zeros of `SFull` are exactly the points where the ratio is `± 2√2 a x` -/
lemma ratio_sq_of_zero :
    SFull p a e x = 0 ↔ ratio p (a ^ 2) e (1 - x ^ 2) ^ 2 = (2 * √2 * a * x) ^ 2 := by
  have hw : 0 ≤ 1 - x ^ 2 := by linarith
  have hw1 : 1 - x ^ 2 ≤ 1 := by linarith [sq_nonneg x]
  have n1 := M1_pos hp (sq_nonneg a) ha1 he he1 hw hw1
  have n2 := M2_pos hp (sq_nonneg a) ha1 he he1 hw hw1
  have h2 : √2 ^ 2 = (2:ℝ) := Real.sq_sqrt (by norm_num)
  have hmk := mul_pos n1 n2
  rw [SFull_eq, ratio, div_pow, Real.sq_sqrt hmk.le, div_eq_iff hmk.ne']
  have : (2 * √2 * a * x) ^ 2 = 8 * a ^ 2 * x ^ 2 := by
    linear_combination 4 * a ^ 2 * x ^ 2 * h2
  rw [this]
  constructor <;> intro h <;> linarith

lemma ratio_sq_of_nonpos (h : SFull p a e x ≤ 0) :
    ratio p (a ^ 2) e (1 - x ^ 2) ^ 2 ≤ (2 * √2 * a * x) ^ 2 := by
  have hw : 0 ≤ 1 - x ^ 2 := by linarith
  have hw1 : 1 - x ^ 2 ≤ 1 := by linarith [sq_nonneg x]
  have n1 := M1_pos hp (sq_nonneg a) ha1 he he1 hw hw1
  have n2 := M2_pos hp (sq_nonneg a) ha1 he he1 hw hw1
  have h2 : √2 ^ 2 = (2:ℝ) := Real.sq_sqrt (by norm_num)
  have hmk := mul_pos n1 n2
  rw [SFull_eq] at h
  rw [ratio, div_pow, Real.sq_sqrt hmk.le, div_le_iff₀ hmk]
  have : (2 * √2 * a * x) ^ 2 = 8 * a ^ 2 * x ^ 2 := by
    linear_combination 4 * a ^ 2 * x ^ 2 * h2
  rw [this]
  linarith

lemma ratio_nonneg (h : 0 ≤ N p (a ^ 2) e (1 - x ^ 2)) : 0 ≤ ratio p (a ^ 2) e (1 - x ^ 2) :=
  div_nonneg h (Real.sqrt_nonneg _)

end

lemma N_equatorial_nonneg {A p e : ℝ} (hA : 0 ≤ A) (he : 0 ≤ e) (he1 : e ≤ 1) (hp : 4 ≤ p)
    (hp2 : p ≤ 6 + 2 * e) : 0 ≤ N p A e 0 := by
  have h1 : 0 ≤ g e * p - 4 * K e := by
    have := (g_bounds he he1).1
    have := K_le he he1
    nlinarith
  have : N p A e 0 = p ^ 3 * (p ^ 2 * (6 + 2 * e - p) + A * (g e * p - 4 * K e)) := by
    simp only [N, G, D]; ring
  rw [this]
  have h2 : 0 ≤ 6 + 2 * e - p := by linarith
  positivity

lemma N_polar_nonneg {a p e x : ℝ} (ha1 : a ^ 2 ≤ 1) (he : 0 ≤ e) (he1 : e ≤ 1) (hx : x ^ 2 ≤ 1)
    (hp : polarLo ≤ p) (hz : SPolar p a e = 0) : 0 ≤ N p (a ^ 2) e (1 - x ^ 2) := by
  obtain ⟨hl, -⟩ := polarLo_bounds
  obtain ⟨y, hy⟩ : ∃ y, y = p - 21 / 4 := ⟨_, rfl⟩
  have hp' : p = 21 / 4 + y := by linarith
  have h4 := SepCert.nt_nonneg y (a ^ 2) e (1 - x ^ 2) (by linarith) (sq_nonneg a) ha1 he he1
    (by linarith) (by linarith [sq_nonneg x])
  rw [← hp'] at h4
  rw [SepCert.N_split, SepN_polar, hz, show 1 - (1 - x ^ 2) = x ^ 2 by ring]
  have := mul_nonneg (mul_nonneg (sq_nonneg a) (sq_nonneg x)) h4
  linarith

/-- strict version of `SFull_polar` -/
lemma SFull_polar_neg {a p e x : ℝ} (ha : a ≠ 0) (ha1 : a ^ 2 ≤ 1) (he : 0 ≤ e) (he1 : e ≤ 1)
    (hx : x ^ 2 ≤ 1) (hx0 : x ≠ 0) (hp : polarLo ≤ p) (hz : SPolar p a e = 0) : SFull p a e x < 0 := by
  obtain ⟨hl, -⟩ := polarLo_bounds
  obtain ⟨y, hy⟩ : ∃ y, y = p - 21 / 4 := ⟨_, rfl⟩
  have hp' : p = 21 / 4 + y := by linarith
  have hy0 : 0 ≤ y := by linarith
  have hA0 := sq_nonneg a
  have hw0 : 0 ≤ 1 - x ^ 2 := by linarith
  have hw1 : 1 - x ^ 2 ≤ 1 := by linarith [sq_nonneg x]
  have h1 := SepCert.m1_lower y (a ^ 2) e (1 - x ^ 2) hy0 hA0 ha1 he he1 hw0 hw1
  have h2 := SepCert.m2_lower y (a ^ 2) e (1 - x ^ 2) hy0 hA0 ha1 he he1 hw0 hw1
  have h3 := SepCert.nt_upper y (a ^ 2) e (1 - x ^ 2) hy0 hA0 ha1 he he1 hw0 hw1
  have h4 := SepCert.nt_nonneg y (a ^ 2) e (1 - x ^ 2) hy0 hA0 ha1 he he1 hw0 hw1
  rw [← hp'] at h1 h2 h3 h4
  rw [SFull_eq, SepCert.N_split, SepN_polar, hz]
  obtain ⟨n, hn⟩ : ∃ n, n = SepCert.nt p (a ^ 2) e (1 - x ^ 2) := ⟨_, rfl⟩
  obtain ⟨m1, hm1⟩ : ∃ n, n = SepCert.M1 p (a ^ 2) e (1 - x ^ 2) := ⟨_, rfl⟩
  obtain ⟨m2, hm2⟩ : ∃ n, n = SepCert.M2 p (a ^ 2) e (1 - x ^ 2) := ⟨_, rfl⟩
  rw [← hn] at h3 h4 ⊢
  rw [← hm1] at h1 ⊢
  rw [← hm2] at h2 ⊢
  have hppos : 0 < p := by linarith
  have hq : 0 < p ^ 8 := by positivity
  have hprod : (1 + e) * (3 / 2 * p ^ 4) * (p * (5 / 2 * p ^ 4)) ≤ m1 * m2 :=
    mul_le_mul h1 h2 (by positivity) (le_trans (by positivity) h1)
  have hn2 : n ^ 2 ≤ ((7 + 6 * e) * p ^ 4) ^ 2 := pow_le_pow_left₀ h4 h3 2
  have hc : ((7 + 6 * e) * p ^ 4) ^ 2 < 8 * ((1 + e) * (3 / 2 * p ^ 4) * (p * (5 / 2 * p ^ 4))) := by
    have : (7 + 6 * e) ^ 2 < 30 * (1 + e) * p := by nlinarith
    nlinarith [mul_lt_mul_of_pos_left this hq]
  have hfin : a ^ 2 * x ^ 2 * n ^ 2 < 8 * (m1 * m2) := by
    have : a ^ 2 * x ^ 2 ≤ 1 := by nlinarith [sq_nonneg x]
    have h5 : a ^ 2 * x ^ 2 * n ^ 2 ≤ 1 * n ^ 2 :=
      mul_le_mul_of_nonneg_right this (by positivity)
    linarith
  have hax : 0 < a ^ 2 * x ^ 2 := by positivity
  have h6 : 0 < a ^ 2 * x ^ 2 * (8 * (m1 * m2) - a ^ 2 * x ^ 2 * n ^ 2) :=
    mul_pos hax (by linarith)
  linarith

/-- strict version of `SEq_mid` -/
lemma SEq_mid_neg {a e : ℝ} (ha0 : a ≠ 0) (ha : a ^ 2 ≤ 1) (he : 0 ≤ e) (he1 : e ≤ 1) :
    SEquatorial (6 + 2 * e) a e < 0 := by
  have h : SEquatorial (6 + 2 * e) a e
      = -(a ^ 2 * (1 + e) * (128 * (3 + e) - a ^ 2 * (1 + e) * (3 - e) ^ 2)) := by
    simp only [SEquatorial]; ring
  have h2 : a ^ 2 * ((1 + e) * (3 - e) ^ 2) ≤ 1 * ((1 + e) * (3 - e) ^ 2) :=
    mul_le_mul_of_nonneg_right ha (by positivity)
  have h3 : (1 + e) * (3 - e) ^ 2 < 128 * (3 + e) := by nlinarith [mul_nonneg he he]
  have : 0 < a ^ 2 * (1 + e) * (128 * (3 + e) - a ^ 2 * (1 + e) * (3 - e) ^ 2) := by
    apply mul_pos (by positivity); linarith
  rw [h]; linarith

lemma SFull_one (p a e : ℝ) : SFull p a e 1 = p ^ 8 * SEquatorial p a e := by
  simp only [SFull, SEquatorial]; ring
lemma SFull_neg_one (p a e : ℝ) : SFull p a e (-1) = p ^ 8 * SEquatorial p a e := by
  simp only [SFull, SEquatorial]; ring

/-- The equatorial prograde separatrix is below the polar one. -/
lemma equatorial_le_polar {a e pe pp : ℝ} (ha : 0 < a) (ha1 : a ^ 2 ≤ 1) (he : 0 ≤ e) (he1 : e ≤ 1)
    (hpe : pe ≤ 6 + 2 * e) (hze : SEquatorial pe a e = 0) (hpp : polarLo ≤ pp)
    (hzp : SPolar pp a e = 0) : pe ≤ pp := by
  by_contra hcon
  have hlt := not_le.mp hcon
  have hl := polarLo_bounds.1
  have hp4 : 4 ≤ pp := by linarith
  have hx1 : (1:ℝ) ^ 2 ≤ 1 := by norm_num
  have hanti := ratio_strictAnti (sq_nonneg a) ha1 he he1 (show (0:ℝ) ≤ 1 - 1 ^ 2 by norm_num)
    (show (1:ℝ) - 1 ^ 2 ≤ 1 by norm_num) (Set.mem_Ici.mpr hp4)
    (Set.mem_Ici.mpr (by linarith : (4:ℝ) ≤ pe)) hlt
  simp only at hanti
  have h1 := ratio_sq_of_nonpos ha.le ha1 he he1 hx1 hp4 (SFull_polar a pp e 1 ha1 he he1 hx1 hpp hzp)
  have h2 := (ratio_sq_of_zero ha.le ha1 he he1 hx1 (by linarith : (4:ℝ) ≤ pe)).mp
    (by rw [SFull_one, hze, mul_zero])
  have h3 : 0 ≤ ratio pe (a ^ 2) e (1 - 1 ^ 2) :=
    ratio_nonneg ha.le ha1 he he1 hx1 (by linarith)
      (by rw [show (1:ℝ) - 1 ^ 2 = 0 by norm_num]; exact N_equatorial_nonneg (sq_nonneg a) he he1 (by linarith) hpe)
  rw [← h2] at h1
  nlinarith

end KGP
