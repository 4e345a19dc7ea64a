import Verif.Lemmas.SepCertDefs
import Mathlib.Analysis.Calculus.Deriv.MeanValue
import Mathlib.Analysis.Calculus.Deriv.Inv
import Mathlib.Analysis.Calculus.Deriv.Pow
import Mathlib.Analysis.Real.Sqrt

/-!
# The separatrix polynomial at `e = 1`

With `p = 2 k²` and `u = a² (1 - x²)` the polynomial factors; the factor that vanishes outside the horizon
gives `a²` as a function of `k` and `u`.
-/

namespace KGP.SepParabola

open SepCert

/-- the numerator of the vanishing factor -/
def n (k u : ℝ) : ℝ := k ^ 6 * (k - 2) ^ 2 + u * k ^ 3 * (3 * k - 4)
/-- the other factor -/
def m (k u : ℝ) : ℝ := k ^ 6 * (k + 2) ^ 2 + u * k ^ 3 * (3 * k + 4)

lemma N_one (r A w : ℝ) : N (2 * r) A 1 w
    = -(64 * r ^ 2 * (r ^ 4 - 4 * r ^ 3 + (3 * (A * w) - A) * r ^ 2 + A * (A * w))) := by
  unfold N G D B H g K; ring

lemma M1_one (r A w : ℝ) : M1 (2 * r) A 1 w = 64 * r ^ 2 * (r ^ 2 - A * w) := by
  unfold M1 D B g K; ring

lemma M2_one (r A w : ℝ) : M2 (2 * r) A 1 w = 128 * r ^ 5 := by
  unfold M2 D B g K; ring

/-- The factorisation. -/
lemma S_one (k A w : ℝ) :
    N (2 * k ^ 2) A 1 w ^ 2 - 8 * A * (1 - w) * (M1 (2 * k ^ 2) A 1 w * M2 (2 * k ^ 2) A 1 w)
      = 4096 * k ^ 8 * ((A * (k ^ 4 - A * w) - n k (A * w)) * (A * (k ^ 4 - A * w) - m k (A * w))) := by
  rw [N_one, M1_one, M2_one]; unfold n m; ring

section
variable {A w k : ℝ} (hA : 0 < A) (hA1 : A < 1) (hw : 0 ≤ w) (hw1 : w ≤ 1) (hk : 1 ≤ k)
include hA hA1 hw hw1 hk

lemma u_bounds : 0 ≤ A * w ∧ A * w ≤ A ∧ 0 < k ^ 4 - A * w := by
  have h1 : 0 ≤ A * w := by positivity
  have h2 : A * w ≤ A := by nlinarith
  have h3 : 1 ≤ k ^ 4 := one_le_pow₀ hk
  exact ⟨h1, h2, by linarith⟩

lemma m_gt : A * (k ^ 4 - A * w) - m k (A * w) < 0 := by
  obtain ⟨h1, h2, h3⟩ := u_bounds hA hA1 hw hw1 hk
  have h4 : A * (k ^ 4 - A * w) ≤ k ^ 4 := by nlinarith
  have h5 : k ^ 4 ≤ k ^ 6 := pow_le_pow_right₀ hk (by norm_num)
  have h6 : 9 * k ^ 6 ≤ k ^ 6 * (k + 2) ^ 2 := by
    have h0 : 0 ≤ k ^ 6 := by positivity
    have h9 : 9 ≤ (k + 2) ^ 2 := by nlinarith
    nlinarith [mul_le_mul_of_nonneg_left h9 h0]
  have h7 : 0 ≤ A * w * k ^ 3 * (3 * k + 4) := by positivity
  have h8 : 0 < k ^ 6 := by positivity
  unfold m; linarith

lemma S_neg_iff : N (2 * k ^ 2) A 1 w ^ 2 - 8 * A * (1 - w) * (M1 (2 * k ^ 2) A 1 w * M2 (2 * k ^ 2) A 1 w) < 0
    ↔ n k (A * w) < A * (k ^ 4 - A * w) := by
  have h1 := m_gt hA hA1 hw hw1 hk
  rw [S_one]
  have hk8 : 0 < 4096 * k ^ 8 := by positivity
  constructor
  · intro h
    have h2 := neg_of_mul_neg_right h hk8.le
    by_contra hcon
    have := mul_nonneg_of_nonpos_of_nonpos (show A * (k ^ 4 - A * w) - n k (A * w) ≤ 0 by linarith) h1.le
    linarith
  · intro h
    exact mul_neg_of_pos_of_neg hk8 (mul_neg_of_pos_of_neg (by linarith) h1)

lemma S_zero_iff : N (2 * k ^ 2) A 1 w ^ 2 - 8 * A * (1 - w) * (M1 (2 * k ^ 2) A 1 w * M2 (2 * k ^ 2) A 1 w) = 0
    ↔ n k (A * w) = A * (k ^ 4 - A * w) := by
  have h1 := m_gt hA hA1 hw hw1 hk
  rw [S_one]
  have hk8 : 0 < 4096 * k ^ 8 := by positivity
  constructor
  · intro h
    have h2 := (mul_eq_zero.mp h).resolve_left hk8.ne'
    linarith [(mul_eq_zero.mp h2).resolve_right h1.ne]
  · intro h; rw [h]; ring

/-- Inside the admissible region `3 u < k⁴`. -/
lemma u_small (h : n k (A * w) ≤ A * (k ^ 4 - A * w)) : 3 * (A * w) < k ^ 4 := by
  obtain ⟨h1, h2, h3⟩ := u_bounds hA hA1 hw hw1 hk
  generalize A * w = u at *
  by_contra hcon
  have hu := not_lt.mp hcon
  have e1 : n k u - (k ^ 4 - u) = (u - k ^ 4 / 3) * ((k - 1) ^ 2 * (3 * k ^ 2 + 2 * k + 1))
      + 2 * k ^ 4 / 3 * ((k - 1) ^ 3 * (3 * k + 1)) := by
    unfold n; ring
  have k1 : 0 ≤ (u - k ^ 4 / 3) * ((k - 1) ^ 2 * (3 * k ^ 2 + 2 * k + 1)) :=
    mul_nonneg (by linarith) (by positivity)
  have k2 : 0 ≤ 2 * k ^ 4 / 3 * ((k - 1) ^ 3 * (3 * k + 1)) :=
    mul_nonneg (by positivity) (mul_nonneg (pow_nonneg (by linarith) 3) (by linarith))
  have k3 : A * (k ^ 4 - u) < k ^ 4 - u := by nlinarith
  linarith

/-- Where the polynomial is negative, `k²` is outside the horizon. -/
lemma horizon (h : n k (A * w) < A * (k ^ 4 - A * w)) : 2 * k ^ 2 < k ^ 4 + A := by
  obtain ⟨h1, h2, h3⟩ := u_bounds hA hA1 hw hw1 hk
  generalize A * w = u at *
  have e1 : n k u - (2 * k ^ 2 - k ^ 4) * (k ^ 4 - u) = 2 * (k - 1) ^ 2 * (k ^ 6 + u * k ^ 2) := by
    unfold n; ring
  have k1 : 0 ≤ 2 * (k - 1) ^ 2 * (k ^ 6 + u * k ^ 2) := by positivity
  have k2 : 0 < (A - (2 * k ^ 2 - k ^ 4)) * (k ^ 4 - u) := by linarith
  linarith [pos_of_mul_pos_left k2 h3.le]

end

lemma hasDerivAt_quot (u k : ℝ) (h : k ^ 4 - u ≠ 0) :
    HasDerivAt (fun k => n k u / (k ^ 4 - u))
      (4 * k ^ 2 * (k - 1) * ((k ^ 4 - 3 * u) * (k ^ 4 + u - 2 * k ^ 3)) / (k ^ 4 - u) ^ 2) k := by
  have h0 : HasDerivAt (fun k : ℝ => k) 1 k := hasDerivAt_id k
  have h1 : HasDerivAt (fun k => n k u)
      (6 * k ^ 5 * (k - 2) ^ 2 + k ^ 6 * (2 * (k - 2)) + (u * (3 * k ^ 2) * (3 * k - 4) + u * k ^ 3 * 3)) k := by
    unfold n
    refine ((((h0.pow 6).mul ((h0.sub_const 2).pow 2)).add
      (((h0.pow 3).const_mul u).mul ((h0.const_mul 3).sub_const 4)))).congr_deriv ?_
    simp
  have h2 : HasDerivAt (fun k : ℝ => k ^ 4 - u) (4 * k ^ 3) k := by
    refine ((h0.pow 4).sub_const u).congr_deriv ?_
    simp
  refine (h1.div h2 h).congr_deriv ?_
  congr 1
  unfold n; ring

/-- After a zero the polynomial is negative, up to `p = 4`. -/
lemma neg_after {A w k0 k1 : ℝ} (hA : 0 < A) (hA1 : A < 1) (hw : 0 ≤ w) (hw1 : w ≤ 1) (hk : 1 ≤ k0)
    (h01 : k0 < k1) (hk1 : k1 ^ 2 ≤ 2) (hz : n k0 (A * w) = A * (k0 ^ 4 - A * w)) :
    n k1 (A * w) < A * (k1 ^ 4 - A * w) := by
  have hu := u_small hA hA1 hw hw1 hk hz.le
  obtain ⟨u0, -, hd0⟩ := u_bounds hA hA1 hw hw1 hk
  obtain ⟨-, -, hd1⟩ := u_bounds hA hA1 hw hw1 (hk.trans h01.le)
  generalize A * w = u at *
  have hmono : ∀ k, k0 ≤ k → k0 ^ 4 ≤ k ^ 4 := fun k h => pow_le_pow_left₀ (by linarith) h 4
  have hanti : StrictAntiOn (fun k => n k u / (k ^ 4 - u)) (Set.Icc k0 k1) := by
    refine strictAntiOn_of_deriv_neg (convex_Icc _ _) ?_ ?_
    · intro k hk'
      have := hmono k hk'.1
      exact (hasDerivAt_quot u k (by linarith)).continuousAt.continuousWithinAt
    · intro k hk'
      rw [interior_Icc] at hk'
      have h4 := hmono k hk'.1.le
      have hkk : 1 < k := by linarith [hk'.1]
      have hk32 : k < 3 / 2 := by nlinarith [hk'.2]
      rw [(hasDerivAt_quot u k (by linarith)).deriv]
      refine div_neg_of_neg_of_pos ?_ (by have : 0 < k ^ 4 - u := by linarith
                                          positivity)
      refine mul_neg_of_pos_of_neg (mul_pos (by positivity) (by linarith)) ?_
      refine mul_neg_of_pos_of_neg (by linarith) ?_
      have h5 : 0 < k ^ 3 * (3 / 2 - k) := mul_pos (by positivity) (by linarith)
      have h6 : k ^ 4 = k ^ 3 * k := by ring
      nlinarith
  have := hanti (Set.left_mem_Icc.mpr h01.le) (Set.right_mem_Icc.mpr h01.le) h01
  simp only at this
  rw [hz, mul_div_assoc, div_self hd0.ne', mul_one, div_lt_iff₀ hd1] at this
  exact this

/-- The statements in terms of `p`. -/
lemma exists_k {p : ℝ} (hp : 2 ≤ p) : ∃ k, 1 ≤ k ∧ p = 2 * k ^ 2 := by
  refine ⟨√(p / 2), ?_, ?_⟩
  · rw [Real.one_le_sqrt]; linarith
  · rw [Real.sq_sqrt (by linarith)]; ring

lemma neg_after_zero {A w s p : ℝ} (hA : 0 < A) (hA1 : A < 1) (hw : 0 ≤ w)
    (hw1 : w ≤ 1) (hs : 2 ≤ s) (hsp : s < p) (hp : p ≤ 4)
    (hz : N s A 1 w ^ 2 - 8 * A * (1 - w) * (M1 s A 1 w * M2 s A 1 w) = 0) :
    N p A 1 w ^ 2 - 8 * A * (1 - w) * (M1 p A 1 w * M2 p A 1 w) < 0 := by
  obtain ⟨k0, h0, rfl⟩ := exists_k hs
  obtain ⟨k1, h1, rfl⟩ := exists_k (hs.trans hsp.le)
  rw [S_neg_iff hA hA1 hw hw1 h1]
  refine neg_after hA hA1 hw hw1 h0 ?_ (by linarith) ((S_zero_iff hA hA1 hw hw1 h0).mp hz)
  by_contra hcon
  nlinarith [not_lt.mp hcon]

lemma outside {A w p : ℝ} (hA : 0 < A) (hA1 : A < 1) (hw : 0 ≤ w) (hw1 : w ≤ 1) (hp : 2 ≤ p)
    (hS : N p A 1 w ^ 2 - 8 * A * (1 - w) * (M1 p A 1 w * M2 p A 1 w) < 0) :
    4 * p < p ^ 2 + 4 * A := by
  obtain ⟨k, h1, rfl⟩ := exists_k hp
  have := horizon hA hA1 hw hw1 h1 ((S_neg_iff hA hA1 hw hw1 h1).mp hS)
  nlinarith

end KGP.SepParabola
