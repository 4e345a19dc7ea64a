import Verif.Lemmas.Radial
import Mathlib.Analysis.Real.Sqrt
import Mathlib.Topology.Order.IntermediateValue
import Mathlib.Topology.Algebra.Polynomial

/-!
# Parabolic orbits (`E = 1`)

With `L = x y`, `Q = (1-x²) y²` the radial potential of a marginally bound orbit is
`2r³ - y² r² + 2(a² - 2 a x y + y²) r - a²(1-x²) y²`.
-/

namespace KGP.Parabolic

open KGP

/-- The radial potential in terms of `y`. -/
lemma R_y (a x y r : ℝ) : Spec.R a 1 (x * y) ((1 - x ^ 2) * y ^ 2) r
    = 2 * r * (r ^ 2 + a ^ 2) - 4 * a * x * r * y - (r ^ 2 - 2 * r + a ^ 2 * (1 - x ^ 2)) * y ^ 2 := by
  unfold Spec.R Spec.Delta; ring

/-- `L`, `Q` in terms of one number. -/
lemma exists_y {a x L Q : ℝ} (hx : x ^ 2 ≤ 1) (hs : Real.sign L = Real.sign x) (hQ : 0 ≤ Q)
    (hZ : Spec.Zpol a 1 L Q (1 - x ^ 2) = 0) :
    ∃ y, 0 ≤ y ∧ L = x * y ∧ Q = (1 - x ^ 2) * y ^ 2 := by
  have h0 : 0 ≤ L ^ 2 + Q := by positivity
  have hsq := Real.sq_sqrt h0
  have hn := Real.sqrt_nonneg (L ^ 2 + Q)
  have hz : L ^ 2 = x ^ 2 * (L ^ 2 + Q) := by unfold Spec.Zpol at hZ; linear_combination -hZ
  refine ⟨√(L ^ 2 + Q), hn, ?_, ?_⟩
  · have h1 : L ^ 2 = (x * √(L ^ 2 + Q)) ^ 2 := by rw [mul_pow, hsq]; exact hz
    rcases lt_trichotomy x 0 with h | h | h
    · rw [Real.sign_of_neg h] at hs
      have hL : L < 0 := by
        by_contra hc
        rcases eq_or_lt_of_le (not_lt.mp hc) with k | k
        · rw [← k, Real.sign_zero] at hs; norm_num at hs
        · rw [Real.sign_of_pos k] at hs; norm_num at hs
      have h2 : x * √(L ^ 2 + Q) ≤ 0 := mul_nonpos_of_nonpos_of_nonneg h.le hn
      rcases sq_eq_sq_iff_eq_or_eq_neg.mp h1 with k | k
      · exact k
      · linarith
    · subst h
      have : L ^ 2 = 0 := by rw [hz]; ring
      rw [pow_eq_zero_iff two_ne_zero] at this
      rw [this]; ring
    · rw [Real.sign_of_pos h] at hs
      have hL : 0 < L := by
        by_contra hc
        rcases eq_or_lt_of_le (not_lt.mp hc) with k | k
        · rw [k, Real.sign_zero] at hs; norm_num at hs
        · rw [Real.sign_of_neg k] at hs; norm_num at hs
      have h2 : 0 ≤ x * √(L ^ 2 + Q) := mul_nonneg h.le hn
      rcases sq_eq_sq_iff_eq_or_eq_neg.mp h1 with k | k
      · exact k
      · linarith
  · rw [hsq]; linear_combination -hz

lemma zpol_y (a x y : ℝ) : Spec.Zpol a 1 (x * y) ((1 - x ^ 2) * y ^ 2) (1 - x ^ 2) = 0 := by
  unfold Spec.Zpol; ring

lemma sign_y {x y : ℝ} (hy : 0 < y) : Real.sign (x * y) = Real.sign x := by
  rcases lt_trichotomy x 0 with h | h | h
  · rw [Real.sign_of_neg h, Real.sign_of_neg (mul_neg_of_neg_of_pos h hy)]
  · subst h; simp
  · rw [Real.sign_of_pos h, Real.sign_of_pos (mul_pos h hy)]

/-- From the factorisation of the potential to the condition on `y`. -/
lemma cond_of_roots {a x y r r3 r4 : ℝ} (hr : 0 < r) (hy : 0 ≤ y)
    (hR : ∀ t, Spec.R a 1 (x * y) ((1 - x ^ 2) * y ^ 2) t = 2 * (t - r) * (t - r3) * (t - r4))
    (h43 : r4 ≤ r3) (h32 : r3 < r) :
    0 < y ∧ (r ^ 2 - 2 * r + a ^ 2 * (1 - x ^ 2)) * y ^ 2 + 4 * a * x * r * y = 2 * r * (r ^ 2 + a ^ 2)
      ∧ y ^ 2 * (r ^ 2 - a ^ 2 * (1 - x ^ 2)) < 4 * r ^ 3 := by
  have h0 := hR 0
  have h1 := hR 1
  have h2 := hR (-1)
  have h3 := hR r
  rw [R_y] at h0 h1 h2 h3
  have e1 : (r ^ 2 - 2 * r + a ^ 2 * (1 - x ^ 2)) * y ^ 2 + 4 * a * x * r * y = 2 * r * (r ^ 2 + a ^ 2) := by
    linear_combination -h3
  refine ⟨lt_of_le_of_ne hy ?_, e1, ?_⟩
  · rintro rfl
    have : 0 < 2 * r * (r ^ 2 + a ^ 2) := by positivity
    linarith
  · have k : 0 < (r - r3) * (r - r4) := mul_pos (by linarith) (by linarith)
    have e2 : 4 * r ^ 3 - y ^ 2 * (r ^ 2 - a ^ 2 * (1 - x ^ 2)) = 2 * r * ((r - r3) * (r - r4)) := by
      linear_combination r ^ 2 / 2 * h1 + r ^ 2 / 2 * h2 - r ^ 2 * h0 - h0
    have : 0 < 2 * r * ((r - r3) * (r - r4)) := by positivity
    linarith

/-- From the condition on `y` to the factorisation of the potential. -/
lemma roots_of_cond {a x y r rp : ℝ} (hr : 0 < r) (hrp : rp < r) (hp : rp ^ 2 - 2 * rp + a ^ 2 = 0)
    (e1 : (r ^ 2 - 2 * r + a ^ 2 * (1 - x ^ 2)) * y ^ 2 + 4 * a * x * r * y = 2 * r * (r ^ 2 + a ^ 2))
    (e2 : y ^ 2 * (r ^ 2 - a ^ 2 * (1 - x ^ 2)) < 4 * r ^ 3) :
    ∃ r3 r4, (∀ t, Spec.R a 1 (x * y) ((1 - x ^ 2) * y ^ 2) t = 2 * (t - r) * (t - r3) * (t - r4))
      ∧ r4 ≤ rp ∧ rp ≤ r3 ∧ r3 < r := by
  obtain ⟨S, hS⟩ : ∃ S, S = y ^ 2 / 2 - r := ⟨_, rfl⟩
  obtain ⟨P, hP⟩ : ∃ P, P = a ^ 2 * (1 - x ^ 2) * y ^ 2 / (2 * r) := ⟨_, rfl⟩
  have hPr : 2 * r * P = a ^ 2 * (1 - x ^ 2) * y ^ 2 := by rw [hP]; field_simp
  have hfac : ∀ t, r * Spec.R a 1 (x * y) ((1 - x ^ 2) * y ^ 2) t
      = r * (2 * (t - r) * (t ^ 2 - S * t + P)) := by
    intro t
    rw [R_y, hS]
    linear_combination (-(t - r) * 1 + 0) * hPr - t * e1
  have hfac' : ∀ t, Spec.R a 1 (x * y) ((1 - x ^ 2) * y ^ 2) t = 2 * (t - r) * (t ^ 2 - S * t + P) :=
    fun t => mul_left_cancel₀ hr.ne' (hfac t)
  have hq1 : rp ^ 2 - S * rp + P ≤ 0 := by
    have h1 : 0 ≤ Spec.R a 1 (x * y) ((1 - x ^ 2) * y ^ 2) rp := by
      unfold Spec.R Spec.Delta; rw [hp]; nlinarith [sq_nonneg (1 * (rp ^ 2 + a ^ 2) - a * (x * y))]
    rw [hfac'] at h1
    by_contra hc
    have : 2 * (rp - r) * (rp ^ 2 - S * rp + P) < 0 :=
      mul_neg_of_neg_of_pos (by linarith) (not_le.mp hc)
    linarith
  have hq2 : 0 < r ^ 2 - S * r + P := by
    have : 0 < 2 * r * (r ^ 2 - S * r + P) := by rw [hS]; nlinarith
    exact pos_of_mul_pos_right this (by linarith)
  have hd : 0 ≤ S ^ 2 - 4 * P := by nlinarith [sq_nonneg (2 * rp - S)]
  have hsd := Real.sq_sqrt hd
  have hsn := Real.sqrt_nonneg (S ^ 2 - 4 * P)
  generalize √(S ^ 2 - 4 * P) = q at *
  have hab := abs_le_of_sq_le_sq' (show (2 * rp - S) ^ 2 ≤ q ^ 2 by nlinarith) hsn
  refine ⟨(S + q) / 2, (S - q) / 2, ?_, by linarith [hab.1], by linarith [hab.2], ?_⟩
  · intro t; rw [hfac']; linear_combination (t - r) / 2 * hsd
  · by_contra hc
    have h1 : 0 < r - (S - q) / 2 := by linarith [hab.1]
    have h2 : (r - (S + q) / 2) * (r - (S - q) / 2) ≤ 0 :=
      mul_nonpos_of_nonpos_of_nonneg (by linarith) h1.le
    nlinarith

set_option linter.unusedSectionVars false

section
variable {a x r t : ℝ} (ha : 0 ≤ a) (ha1 : a ^ 2 < 1) (hx : x ^ 2 ≤ 1) (hr : 1 ≤ r)
  (hΔ : 0 < r ^ 2 - 2 * r + a ^ 2) (ht : 0 < t) (htt : (r ^ 2 - a ^ 2 * (1 - x ^ 2)) * t ^ 2 = 4 * r ^ 3)
include ha1 hx hr

lemma D_pos : 0 < r ^ 2 - a ^ 2 * (1 - x ^ 2) := by
  have : a ^ 2 * (1 - x ^ 2) ≤ a ^ 2 := by nlinarith [sq_nonneg a, sq_nonneg x]
  nlinarith

include ha hΔ

/-- Inside the ergoregion the vertex of the quadratic is beyond the critical value. -/
lemma vertex {h u : ℝ} (hu : u = a ^ 2 * (1 - x ^ 2)) (hh : h = r ^ 2 - 2 * r + u) (hneg : h < 0) :
    r * h ^ 2 ≤ a ^ 2 * x ^ 2 * (r ^ 2 - u) := by
  have hD := D_pos ha1 hx hr
  rw [← hu] at hD
  have h1 : -h < a ^ 2 * x ^ 2 := by rw [hh, hu]; nlinarith
  have h2 : r * (-h) ≤ r ^ 2 - u := by
    have : 0 ≤ (r - 1) * (r ^ 2 + u) := mul_nonneg (by linarith) (by rw [hu]; nlinarith [sq_nonneg a, sq_nonneg r, mul_nonneg (sq_nonneg a) (by linarith : 0 ≤ 1 - x ^ 2)])
    rw [hh]; nlinarith
  have h3 : r * (-h) * (-h) ≤ (r ^ 2 - u) * (a ^ 2 * x ^ 2) :=
    mul_le_mul h2 h1.le (by linarith) hD.le
  nlinarith

include ht htt

/-- The quadratic at the critical value. -/
lemma crit_iff :
    (∃ y, 0 < y ∧ (r ^ 2 - 2 * r + a ^ 2 * (1 - x ^ 2)) * y ^ 2 + 4 * a * x * r * y = 2 * r * (r ^ 2 + a ^ 2)
      ∧ y ^ 2 * (r ^ 2 - a ^ 2 * (1 - x ^ 2)) < 4 * r ^ 3)
    ↔ 0 < (r ^ 4 - 4 * r ^ 3 + (3 * (a ^ 2 * (1 - x ^ 2)) - a ^ 2) * r ^ 2 + a ^ 2 * (a ^ 2 * (1 - x ^ 2)))
        + 2 * a * x * (r ^ 2 - a ^ 2 * (1 - x ^ 2)) * t := by
  have hD := D_pos ha1 hx hr
  have hv := vertex ha ha1 hx hr hΔ rfl rfl
  obtain ⟨u, hu⟩ : ∃ u, u = a ^ 2 * (1 - x ^ 2) := ⟨_, rfl⟩
  rw [← hu] at hD hv htt ⊢
  obtain ⟨h, hh⟩ : ∃ h, h = r ^ 2 - 2 * r + u := ⟨_, rfl⟩
  rw [← hh] at hv ⊢
  have key : (r ^ 2 - u) * (h * t ^ 2 + 4 * a * x * r * t - 2 * r * (r ^ 2 + a ^ 2))
      = 2 * r * ((r ^ 4 - 4 * r ^ 3 + (3 * u - a ^ 2) * r ^ 2 + a ^ 2 * u) + 2 * a * x * (r ^ 2 - u) * t) := by
    rw [hh]; linear_combination (r ^ 2 - 2 * r + u) * htt
  have hr0 : 0 < r := by linarith
  have hiff : 0 < (r ^ 4 - 4 * r ^ 3 + (3 * u - a ^ 2) * r ^ 2 + a ^ 2 * u) + 2 * a * x * (r ^ 2 - u) * t
      ↔ 0 < h * t ^ 2 + 4 * a * x * r * t - 2 * r * (r ^ 2 + a ^ 2) := by
    constructor
    · intro k
      have : 0 < (r ^ 2 - u) * (h * t ^ 2 + 4 * a * x * r * t - 2 * r * (r ^ 2 + a ^ 2)) := by
        rw [key]; positivity
      exact pos_of_mul_pos_right this hD.le
    · intro k
      have : 0 < (r ^ 2 - u) * (h * t ^ 2 + 4 * a * x * r * t - 2 * r * (r ^ 2 + a ^ 2)) := mul_pos hD k
      rw [key] at this
      exact pos_of_mul_pos_right this (by linarith)
  rw [hiff]
  have hc : 0 < 2 * r * (r ^ 2 + a ^ 2) := by positivity
  constructor
  · rintro ⟨y, hy, e1, e2⟩
    have hyt : y < t := by
      by_contra hcon
      have : t ^ 2 ≤ y ^ 2 := by nlinarith [not_lt.mp hcon]
      nlinarith
    have e3 : h * t ^ 2 + 4 * a * x * r * t - 2 * r * (r ^ 2 + a ^ 2)
        = (t - y) * (h * (t + y) + 4 * a * x * r) := by linear_combination e1
    have e4 : 0 < h * y + 4 * a * x * r := by
      have : 0 < y * (h * y + 4 * a * x * r) := by nlinarith
      exact pos_of_mul_pos_right this hy.le
    rw [e3]
    refine mul_pos (by linarith) ?_
    rcases le_or_gt 0 h with hp | hn
    · nlinarith [mul_nonneg hp ht.le]
    · have hv' := hv hn
      -- the vertex is not below `t`
      have hax : 0 < a * x := by
        have : 0 < 4 * r * (a * x) := by nlinarith
        exact pos_of_mul_pos_right this (by linarith)
      have hvt : (-h) * t ≤ 2 * (a * x) * r := by
        refine (abs_le_of_sq_le_sq' ?_ (by positivity)).2
        have : (r ^ 2 - u) * ((-h) * t) ^ 2 ≤ (r ^ 2 - u) * (2 * (a * x) * r) ^ 2 := by
          have e5 : (r ^ 2 - u) * ((-h) * t) ^ 2 = 4 * r ^ 2 * (r * h ^ 2) := by
            linear_combination h ^ 2 * htt
          rw [e5]
          nlinarith [mul_le_mul_of_nonneg_left hv' (by positivity : 0 ≤ 4 * r ^ 2)]
        exact le_of_mul_le_mul_left this hD
      nlinarith
  · intro hpos
    have hcont : Continuous fun y : ℝ => h * y ^ 2 + 4 * a * x * r * y - 2 * r * (r ^ 2 + a ^ 2) := by fun_prop
    obtain ⟨y, ⟨hy0, hyt⟩, hy⟩ := intermediate_value_Icc ht.le hcont.continuousOn
      (show (0:ℝ) ∈ Set.Icc _ _ from ⟨by nlinarith, hpos.le⟩)
    simp only at hy
    have hyp : 0 < y := by
      refine lt_of_le_of_ne hy0 ?_
      rintro rfl
      nlinarith
    have hylt : y < t := by
      refine lt_of_le_of_ne hyt ?_
      rintro rfl
      linarith
    refine ⟨y, hyp, by linarith, ?_⟩
    have : y ^ 2 < t ^ 2 := by nlinarith
    nlinarith

omit ht htt in
/-- The root the code takes. -/
lemma root_formula {y h s : ℝ} (hh : h = r ^ 2 - 2 * r + a ^ 2 * (1 - x ^ 2)) (h0 : h ≠ 0) (hy : 0 < y)
    (e1 : h * y ^ 2 + 4 * a * x * r * y = 2 * r * (r ^ 2 + a ^ 2))
    (e2 : y ^ 2 * (r ^ 2 - a ^ 2 * (1 - x ^ 2)) < 4 * r ^ 3) (hs : 0 ≤ s)
    (hss : s ^ 2 = 4 * a ^ 2 * x ^ 2 * r ^ 2 + 2 * r * (r ^ 2 + a ^ 2) * h) :
    y = (-(2 * a * x * r) + s) / h := by
  have hD := D_pos ha1 hx hr
  have hv := vertex ha ha1 hx hr hΔ rfl hh
  have hsq : s ^ 2 = (h * y + 2 * a * x * r) ^ 2 := by rw [hss]; linear_combination -h * e1
  have hc : 0 < 2 * r * (r ^ 2 + a ^ 2) := by
    have : 0 < r := by linarith
    positivity
  have hpos : 0 ≤ h * y + 2 * a * x * r := by
    rcases le_or_gt 0 h with hp | hn
    · by_contra hcon
      have : y * (h * y + 4 * a * x * r) < 0 := by
        refine mul_neg_of_pos_of_neg hy ?_
        have := mul_nonneg hp hy.le
        linarith
      nlinarith
    · have hv' := hv hn
      have hax : 0 < a * x := by
        have : 0 < y * (h * y + 4 * a * x * r) := by nlinarith
        have := pos_of_mul_pos_right this hy.le
        have : 0 < 4 * r * (a * x) := by nlinarith
        exact pos_of_mul_pos_right this (by linarith)
      have : (-h) * y ≤ 2 * (a * x) * r := by
        refine (abs_le_of_sq_le_sq' ?_ (by positivity)).2
        have : (r ^ 2 - a ^ 2 * (1 - x ^ 2)) * ((-h) * y) ^ 2
            ≤ (r ^ 2 - a ^ 2 * (1 - x ^ 2)) * (2 * (a * x) * r) ^ 2 := by
          have k1 : h ^ 2 * (y ^ 2 * (r ^ 2 - a ^ 2 * (1 - x ^ 2))) ≤ h ^ 2 * (4 * r ^ 3) :=
            mul_le_mul_of_nonneg_left e2.le (sq_nonneg h)
          have k2 := mul_le_mul_of_nonneg_left hv' (by positivity : 0 ≤ 4 * r ^ 2)
          nlinarith
        exact le_of_mul_le_mul_left this hD
      linarith
  have hse : s = h * y + 2 * a * x * r := by
    rcases sq_eq_sq_iff_eq_or_eq_neg.mp hsq with k | k
    · exact k
    · linarith
  rw [hse]; field_simp; ring

end

end KGP.Parabolic
