import Verif.Lemmas.Elliptic
import Verif.Model.Frequencies
import Mathlib.MeasureTheory.Function.Jacobian

/-! The Carlson symmetric forms used by `_ellippi`, `_ellippiinc`, `_ellipeinc`. -/

namespace KGP

open MeasureTheory Real Set

/-- change of variables `t = (sin φ / sin θ)² - 1`. -/
noncomputable def carT (φ θ : ℝ) : ℝ := sin φ ^ 2 / sin θ ^ 2 - 1

lemma carT_image {φ : ℝ} (h0 : 0 < φ) (h1 : φ ≤ π / 2) : carT φ '' Ioo 0 φ = Ioi 0 := by
  have hs : 0 < sin φ := sin_pos_of_pos_of_lt_pi h0 (by linarith [pi_pos])
  ext t
  constructor
  · rintro ⟨θ, ⟨h, h'⟩, rfl⟩
    have hθ : 0 < sin θ := sin_pos_of_pos_of_lt_pi h (by linarith [pi_pos])
    have hlt : sin θ < sin φ := sin_lt_sin_of_lt_of_le_pi_div_two (by linarith) h1 h'
    simp only [carT, mem_Ioi, sub_pos]
    rw [one_lt_div (by positivity)]
    exact pow_lt_pow_left₀ hlt hθ.le (by norm_num)
  · intro ht
    have ht : 0 < t := ht
    have hq : 0 < √(1 + t) := sqrt_pos.2 (by linarith)
    have hq1 : 1 < √(1 + t) := by
      rw [show (1:ℝ) = √1 by simp]; exact sqrt_lt_sqrt (by norm_num) (by simpa using ht)
    have hx0 : 0 < sin φ / √(1 + t) := by positivity
    have hx1 : sin φ / √(1 + t) < sin φ := div_lt_self hs hq1
    refine ⟨arcsin (sin φ / √(1 + t)), ⟨arcsin_pos.2 hx0, ?_⟩, ?_⟩
    · rw [arcsin_lt_iff_lt_sin' ⟨by linarith [pi_pos], h1⟩]; exact hx1
    · have hle : sin φ / √(1 + t) ≤ 1 := hx1.le.trans (sin_le_one _)
      rw [carT, sin_arcsin (by linarith) hle, div_pow, sq_sqrt (by linarith)]
      field_simp
      ring

lemma carT_hasDerivAt (φ : ℝ) {θ : ℝ} (hθ : sin θ ≠ 0) :
    HasDerivAt (carT φ) (-(2 * sin φ ^ 2 * cos θ / sin θ ^ 3)) θ := by
  have h := (((hasDerivAt_sin θ).pow 2).inv (pow_ne_zero 2 hθ)).const_mul (sin φ ^ 2)
  have h' := h.sub_const 1
  refine (h'.congr_deriv ?_).congr_of_eventuallyEq ?_
  · simp only [Pi.pow_apply]
    field_simp
    simp only [Nat.cast_ofNat]
    ring
  · filter_upwards with y
    simp [carT, div_eq_mul_inv]

lemma carT_injOn {φ : ℝ} (h0 : 0 < φ) (h1 : φ ≤ π / 2) : InjOn (carT φ) (Ioo 0 φ) := by
  have hs : 0 < sin φ := sin_pos_of_pos_of_lt_pi h0 (by linarith [pi_pos])
  intro x hx y hy hxy
  have hx' : 0 < sin x := sin_pos_of_pos_of_lt_pi hx.1 (by linarith [pi_pos, hx.2])
  have hy' : 0 < sin y := sin_pos_of_pos_of_lt_pi hy.1 (by linarith [pi_pos, hy.2])
  have : sin x = sin y := by
    simp only [carT, sub_left_inj] at hxy
    rw [div_eq_div_iff (by positivity) (by positivity)] at hxy
    have h2 : sin y ^ 2 = sin x ^ 2 := mul_left_cancel₀ (by positivity) hxy
    exact (pow_left_inj₀ hx'.le hy'.le two_ne_zero).1 h2.symm
  exact injOn_sin ⟨by linarith [hx.1, pi_pos], by linarith [hx.2]⟩
    ⟨by linarith [hy.1, pi_pos], by linarith [hy.2]⟩ this

lemma carlson_subst {φ : ℝ} (h0 : 0 < φ) (h1 : φ ≤ π / 2) (h : ℝ → ℝ) :
    ∫ t in Ioi (0:ℝ), h t
      = ∫ θ in Ioo 0 φ, (2 * sin φ ^ 2 * cos θ / sin θ ^ 3) * h (carT φ θ) := by
  have hs : 0 < sin φ := sin_pos_of_pos_of_lt_pi h0 (by linarith [pi_pos])
  rw [← carT_image h0 h1]
  rw [integral_image_eq_integral_abs_deriv_smul (s := Ioo 0 φ) (f := carT φ)
    (f' := fun θ => -(2 * sin φ ^ 2 * cos θ / sin θ ^ 3)) measurableSet_Ioo ?_
    (carT_injOn h0 h1) h]
  · apply setIntegral_congr_fun measurableSet_Ioo
    intro θ hθ
    have hθ' : 0 < sin θ := sin_pos_of_pos_of_lt_pi hθ.1 (by linarith [pi_pos, hθ.2])
    have hc : 0 < cos θ := cos_pos_of_mem_Ioo ⟨by linarith [hθ.1, pi_pos], by linarith [hθ.2]⟩
    simp only [smul_eq_mul, abs_neg]
    rw [abs_of_pos (by positivity)]
  · intro θ hθ
    have hθ' : 0 < sin θ := sin_pos_of_pos_of_lt_pi hθ.1 (by linarith [pi_pos, hθ.2])
    exact (carT_hasDerivAt φ hθ'.ne').hasDerivWithinAt

lemma setIntegral_Ioo_eq {φ : ℝ} (h0 : 0 ≤ φ) (g : ℝ → ℝ) :
    ∫ θ in Ioo 0 φ, g θ = ∫ θ in (0:ℝ)..φ, g θ := by
  rw [intervalIntegral.integral_of_le h0, integral_Ioc_eq_integral_Ioo]

/-- common radical after the substitution -/
lemma carlson_radical {φ θ m : ℝ} (hs : 0 < sin φ) (hθ : 0 < sin θ) (hc : 0 < cos θ)
    (hm : m < 1) :
    √((carT φ θ + cos φ ^ 2) * (carT φ θ + (1 - m * sin φ ^ 2)) * (carT φ θ + 1))
      = sin φ ^ 3 * cos θ * √(1 - m * sin θ ^ 2) / sin θ ^ 3 := by
  have hd := one_sub_mul_sin_sq_pos hm θ
  rw [sqrt_eq_iff_eq_sq]
  · rw [div_pow, mul_pow, mul_pow, sq_sqrt hd.le]
    simp only [carT]
    rw [cos_sq' φ, cos_sq' θ]
    field_simp
    ring
  · simp only [carT]
    rw [cos_sq' φ]
    have e1 : sin φ ^ 2 / sin θ ^ 2 - 1 + (1 - sin φ ^ 2)
        = sin φ ^ 2 * cos θ ^ 2 / sin θ ^ 2 := by rw [cos_sq' θ]; field_simp; ring
    have e2 : sin φ ^ 2 / sin θ ^ 2 - 1 + (1 - m * sin φ ^ 2)
        = sin φ ^ 2 * (1 - m * sin θ ^ 2) / sin θ ^ 2 := by field_simp; ring
    have e3 : sin φ ^ 2 / sin θ ^ 2 - 1 + 1 = sin φ ^ 2 / sin θ ^ 2 := by ring
    rw [e1, e2, e3]
    positivity
  · positivity

lemma sin_pos_Ioo {φ θ : ℝ} (h1 : φ ≤ π / 2) (hθ : θ ∈ Ioo 0 φ) : 0 < sin θ :=
  sin_pos_of_pos_of_lt_pi hθ.1 (by linarith [pi_pos, hθ.2])

lemma cos_pos_Ioo {φ θ : ℝ} (h1 : φ ≤ π / 2) (hθ : θ ∈ Ioo 0 φ) : 0 < cos θ :=
  cos_pos_of_mem_Ioo ⟨by linarith [hθ.1, pi_pos], by linarith [hθ.2]⟩

lemma carlson_F {φ m : ℝ} (h0 : 0 < φ) (h1 : φ ≤ π / 2) (hm : m < 1) :
    sin φ * elliprf (cos φ ^ 2) (1 - m * sin φ ^ 2) 1
      = ∫ θ in (0:ℝ)..φ, 1 / √(1 - m * sin θ ^ 2) := by
  have hs : 0 < sin φ := sin_pos_of_pos_of_lt_pi h0 (by linarith [pi_pos])
  rw [elliprf, carlson_subst h0 h1, ← mul_assoc, ← integral_const_mul, ← setIntegral_Ioo_eq h0.le]
  apply setIntegral_congr_fun measurableSet_Ioo
  intro θ hθ
  have hθ' := sin_pos_Ioo h1 hθ
  have hc := cos_pos_Ioo h1 hθ
  have hd := sqrt_pos.2 (one_sub_mul_sin_sq_pos hm θ)
  simp only
  rw [carlson_radical hs hθ' hc hm]
  generalize √(1 - m * sin θ ^ 2) = d at *
  field_simp

lemma carlson_D {φ m : ℝ} (h0 : 0 < φ) (h1 : φ ≤ π / 2) (hm : m < 1) :
    sin φ ^ 3 * elliprd (cos φ ^ 2) (1 - m * sin φ ^ 2) 1
      = 3 * ∫ θ in (0:ℝ)..φ, sin θ ^ 2 / √(1 - m * sin θ ^ 2) := by
  have hs : 0 < sin φ := sin_pos_of_pos_of_lt_pi h0 (by linarith [pi_pos])
  rw [elliprd, carlson_subst h0 h1, ← mul_assoc, ← integral_const_mul, ← setIntegral_Ioo_eq h0.le,
    ← integral_const_mul]
  apply setIntegral_congr_fun measurableSet_Ioo
  intro θ hθ
  have hθ' := sin_pos_Ioo h1 hθ
  have hc := cos_pos_Ioo h1 hθ
  have hd := sqrt_pos.2 (one_sub_mul_sin_sq_pos hm θ)
  simp only
  rw [carlson_radical hs hθ' hc hm]
  generalize √(1 - m * sin θ ^ 2) = d at *
  have e3 : carT φ θ + 1 = sin φ ^ 2 / sin θ ^ 2 := by simp [carT]
  rw [e3]
  field_simp

lemma carlson_J {φ n m : ℝ} (h0 : 0 < φ) (h1 : φ ≤ π / 2) (hn : n < 1) (hm : m < 1) :
    sin φ ^ 3 * elliprj (cos φ ^ 2) (1 - m * sin φ ^ 2) 1 (1 - n * sin φ ^ 2)
      = 3 * ∫ θ in (0:ℝ)..φ, sin θ ^ 2 / ((1 - n * sin θ ^ 2) * √(1 - m * sin θ ^ 2)) := by
  have hs : 0 < sin φ := sin_pos_of_pos_of_lt_pi h0 (by linarith [pi_pos])
  have hp : 0 < 1 - n * sin φ ^ 2 := one_sub_mul_sin_sq_pos hn φ
  rw [elliprj, if_pos hp, carlson_subst h0 h1, ← mul_assoc, ← integral_const_mul, ← setIntegral_Ioo_eq h0.le,
    ← integral_const_mul]
  apply setIntegral_congr_fun measurableSet_Ioo
  intro θ hθ
  have hθ' := sin_pos_Ioo h1 hθ
  have hc := cos_pos_Ioo h1 hθ
  have hd := sqrt_pos.2 (one_sub_mul_sin_sq_pos hm θ)
  have hn' := one_sub_mul_sin_sq_pos hn θ
  simp only
  rw [carlson_radical hs hθ' hc hm]
  generalize √(1 - m * sin θ ^ 2) = d at *
  have e3 : carT φ θ + (1 - n * sin φ ^ 2) = sin φ ^ 2 * (1 - n * sin θ ^ 2) / sin θ ^ 2 := by
    simp only [carT]; field_simp; ring
  rw [e3]
  generalize 1 - n * sin θ ^ 2 = w at *
  field_simp

lemma carlson_E {φ m : ℝ} (h0 : 0 ≤ φ) (h1 : φ ≤ π / 2) (hm : m < 1) :
    sin φ * elliprf (cos φ ^ 2) (1 - m * sin φ ^ 2) 1
      - 1 / 3 * m * sin φ ^ 3 * elliprd (cos φ ^ 2) (1 - m * sin φ ^ 2) 1
      = Spec.E φ m := by
  rcases h0.eq_or_lt with rfl | h0
  · simp [Spec.E]
  rw [carlson_F h0 h1 hm, mul_assoc (1 / 3 * m), carlson_D h0 h1 hm]
  have hF := (evenPer_F hm).intervalIntegrable 0 φ
  have hD : IntervalIntegrable (fun θ => sin θ ^ 2 / √(1 - m * sin θ ^ 2)) volume 0 φ := by
    apply Continuous.intervalIntegrable
    apply Continuous.div (by fun_prop) (by fun_prop)
    intro t
    exact (sqrt_pos.2 (one_sub_mul_sin_sq_pos hm t)).ne'
  rw [show 1 / 3 * m * (3 * ∫ θ in (0:ℝ)..φ, sin θ ^ 2 / √(1 - m * sin θ ^ 2))
      = m * ∫ θ in (0:ℝ)..φ, sin θ ^ 2 / √(1 - m * sin θ ^ 2) by ring,
    ← intervalIntegral.integral_const_mul, ← intervalIntegral.integral_sub hF (hD.const_mul m)]
  apply intervalIntegral.integral_congr
  intro θ _
  have hd' := one_sub_mul_sin_sq_pos hm θ
  have hd := sqrt_pos.2 hd'
  have hsq := sq_sqrt hd'.le
  simp only
  generalize √(1 - m * sin θ ^ 2) = d at *
  field_simp
  linarith

lemma carlson_Pi {φ n m : ℝ} (h0 : 0 ≤ φ) (h1 : φ ≤ π / 2) (hn : n < 1) (hm : m < 1) :
    sin φ * elliprf (cos φ ^ 2) (1 - m * sin φ ^ 2) 1
      + 1 / 3 * n * sin φ ^ 3
        * elliprj (cos φ ^ 2) (1 - m * sin φ ^ 2) 1 (1 - n * sin φ ^ 2)
      = Spec.Pi n φ m := by
  rcases h0.eq_or_lt with rfl | h0
  · simp [Spec.Pi]
  rw [carlson_F h0 h1 hm, mul_assoc (1 / 3 * n), carlson_J h0 h1 hn hm]
  have hF := (evenPer_F hm).intervalIntegrable 0 φ
  have hD : IntervalIntegrable
      (fun θ => sin θ ^ 2 / ((1 - n * sin θ ^ 2) * √(1 - m * sin θ ^ 2))) volume 0 φ := by
    apply Continuous.intervalIntegrable
    apply Continuous.div (by fun_prop) (by fun_prop)
    intro t
    exact mul_ne_zero (one_sub_mul_sin_sq_pos hn t).ne'
      (sqrt_pos.2 (one_sub_mul_sin_sq_pos hm t)).ne'
  rw [show 1 / 3 * n * (3 * ∫ θ in (0:ℝ)..φ,
        sin θ ^ 2 / ((1 - n * sin θ ^ 2) * √(1 - m * sin θ ^ 2)))
      = n * ∫ θ in (0:ℝ)..φ, sin θ ^ 2 / ((1 - n * sin θ ^ 2) * √(1 - m * sin θ ^ 2)) by ring,
    ← intervalIntegral.integral_const_mul, ← intervalIntegral.integral_add hF (hD.const_mul n)]
  apply intervalIntegral.integral_congr
  intro θ _
  have hd := sqrt_pos.2 (one_sub_mul_sin_sq_pos hm θ)
  have hn' := one_sub_mul_sin_sq_pos hn θ
  simp only
  generalize √(1 - m * sin θ ^ 2) = d at *
  have : (1 - n * sin θ ^ 2) ≠ 0 := hn'.ne'
  field_simp
  ring

lemma ellippiK_eq {n m : ℝ} (hn : n < 1) (hm : m < 1) : ellippiK n m = Spec.Pi n (π / 2) m := by
  rw [← carlson_Pi (by positivity) le_rfl hn hm]
  simp [ellippiK]

lemma ellippiincK_eq {n m : ℝ} (hn : n < 1) (hm : m < 1) (φ : ℝ) :
    ellippiincK φ n m = Spec.Pi n φ m := by
  have := halfPeriod_eq (evenPer_Pi hn hm)
    (fun ψ => sin ψ * elliprf (cos ψ ^ 2) (1 - m * sin ψ ^ 2) 1
      + 1 / 3 * n * sin ψ ^ 3 * elliprj (cos ψ ^ 2) (1 - m * sin ψ ^ 2) 1 (1 - n * sin ψ ^ 2))
    (ellippiK n m) (fun ψ h0 h1 => carlson_Pi h0 h1 hn hm) (ellippiK_eq hn hm) φ
  exact this

lemma ellipeincK_eq {m : ℝ} (hm : m < 1) (φ : ℝ) : ellipeincK φ m = Spec.E φ m := by
  have := halfPeriod_eq (evenPer_E m)
    (fun ψ => sin ψ * elliprf (cos ψ ^ 2) (1 - m * sin ψ ^ 2) 1
      - 1 / 3 * m * sin ψ ^ 3 * elliprd (cos ψ ^ 2) (1 - m * sin ψ ^ 2) 1)
    (ellipe m) (fun ψ h0 h1 => carlson_E h0 h1 hm) rfl φ
  exact this

end KGP
