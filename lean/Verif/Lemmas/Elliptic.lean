import Verif.Lemmas.HalfPeriod
import Verif.Spec.Elliptic
import Mathlib.Order.Interval.Set.OrdConnected
import Mathlib.Topology.Order.MonotoneContinuity
import Mathlib.Analysis.Calculus.Deriv.Inverse
import Mathlib.Analysis.Calculus.Deriv.MeanValue
import Mathlib.Analysis.SpecialFunctions.Sqrt

/-! Jacobi amplitude and derivative facts. -/

namespace KGP

open MeasureTheory Real intervalIntegral

lemma one_sub_mul_sin_sq_pos {m : ℝ} (hm : m < 1) (t : ℝ) : 0 < 1 - m * sin t ^ 2 := by
  have h1 := sin_sq_le_one t
  have h0 := sq_nonneg (sin t)
  by_cases h : m ≤ 0
  · nlinarith [mul_nonneg (neg_nonneg.2 h) h0]
  · push Not at h
    nlinarith [mul_le_mul_of_nonneg_left h1 h.le]

lemma evenPer_of_sin_sq (f : ℝ → ℝ) (hc : Continuous fun t => f (sin t ^ 2)) :
    EvenPer fun t => f (sin t ^ 2) where
  cont := hc
  per := fun t => by simp [sin_add_pi]
  even := fun t => by simp

lemma evenPer_F {m : ℝ} (hm : m < 1) : EvenPer fun t => 1 / √(1 - m * sin t ^ 2) := by
  apply evenPer_of_sin_sq (fun y => 1 / √(1 - m * y))
  apply Continuous.div continuous_const (by fun_prop)
  intro t
  exact (sqrt_pos.2 (one_sub_mul_sin_sq_pos hm t)).ne'

lemma evenPer_E (m : ℝ) : EvenPer fun t => √(1 - m * sin t ^ 2) := by
  apply evenPer_of_sin_sq (fun y => √(1 - m * y))
  fun_prop

lemma evenPer_Pi {n m : ℝ} (hn : n < 1) (hm : m < 1) :
    EvenPer fun t => 1 / ((1 - n * sin t ^ 2) * √(1 - m * sin t ^ 2)) := by
  apply evenPer_of_sin_sq (fun y => 1 / ((1 - n * y) * √(1 - m * y)))
  apply Continuous.div continuous_const (by fun_prop)
  intro t
  exact mul_ne_zero (one_sub_mul_sin_sq_pos hn t).ne'
    (sqrt_pos.2 (one_sub_mul_sin_sq_pos hm t)).ne'

lemma EvenPer.hasDerivAt {g : ℝ → ℝ} (hg : EvenPer g) (φ : ℝ) :
    HasDerivAt (fun φ => ∫ t in (0:ℝ)..φ, g t) (g φ) φ :=
  intervalIntegral.integral_hasDerivAt_right (hg.intervalIntegrable _ _)
    (hg.cont.stronglyMeasurableAtFilter _ _) hg.cont.continuousAt

section
variable {m : ℝ} (hm : m < 1)
include hm

lemma hasDerivAt_ellipkinc (φ : ℝ) :
    HasDerivAt (fun φ => ellipkinc φ m) (1 / √(1 - m * sin φ ^ 2)) φ :=
  (evenPer_F hm).hasDerivAt φ

lemma ellipkinc_strictMono : StrictMono fun φ => ellipkinc φ m := by
  apply strictMono_of_hasDerivAt_pos (f' := fun φ => 1 / √(1 - m * sin φ ^ 2))
  · exact hasDerivAt_ellipkinc hm
  · intro φ
    have := sqrt_pos.2 (one_sub_mul_sin_sq_pos hm φ)
    positivity

lemma ellipkinc_continuous : Continuous fun φ => ellipkinc φ m :=
  continuous_iff_continuousAt.2 fun φ => (hasDerivAt_ellipkinc hm φ).continuousAt

omit hm in
@[simp] lemma ellipkinc_zero : ellipkinc 0 m = 0 := by simp [ellipkinc]

omit hm in
lemma ellipkinc_half_pi : ellipkinc (π / 2) m = ellipk m := rfl

lemma ellipkinc_neg (φ : ℝ) : ellipkinc (-φ) m = -ellipkinc φ m := (evenPer_F hm).integral_neg' φ

lemma ellipkinc_add_pi (φ : ℝ) : ellipkinc (φ + π) m = ellipkinc φ m + 2 * ellipk m :=
  (evenPer_F hm).integral_add_pi φ

lemma ellipkinc_add_int_pi (φ : ℝ) (k : ℤ) :
    ellipkinc (φ + k * π) m = ellipkinc φ m + 2 * k * ellipk m :=
  (evenPer_F hm).integral_add_int_pi φ k

lemma ellipk_pos : 0 < ellipk m := by
  have := ellipkinc_strictMono hm (show (0:ℝ) < π / 2 by positivity)
  simpa [ellipkinc_half_pi] using this

lemma ellipkinc_surjective : Function.Surjective fun φ => ellipkinc φ m := by
  intro u
  have hK := ellipk_pos hm
  obtain ⟨N, hN⟩ := exists_nat_gt (|u| / (2 * ellipk m))
  rw [div_lt_iff₀ (by positivity)] at hN
  have hhi := ellipkinc_add_int_pi hm 0 N
  have hlo := ellipkinc_add_int_pi hm 0 (-N)
  simp only [zero_add, ellipkinc_zero, Int.cast_natCast, Int.cast_neg] at hhi hlo
  have hu := abs_lt.1 (show |u| < 2 * N * ellipk m by linarith)
  have : u ∈ Set.Icc (ellipkinc (-N * π) m) (ellipkinc (N * π) m) := by
    rw [hhi, hlo]; constructor <;> linarith [hu.1, hu.2]
  have hle : -(N:ℝ) * π ≤ N * π := by
    have := pi_pos; nlinarith [(Nat.cast_nonneg N : (0:ℝ) ≤ N)]
  obtain ⟨φ, -, h⟩ := intermediate_value_Icc hle
    (ellipkinc_continuous hm).continuousOn this
  exact ⟨φ, h⟩

lemma ellipkinc_am (u : ℝ) : ellipkinc (jacobiAm u m) m = u :=
  Function.rightInverse_invFun (ellipkinc_surjective hm) u

lemma am_ellipkinc (φ : ℝ) : jacobiAm (ellipkinc φ m) m = φ :=
  Function.leftInverse_invFun (ellipkinc_strictMono hm).injective φ

lemma am_eq_iff {u φ : ℝ} : jacobiAm u m = φ ↔ u = ellipkinc φ m := by
  constructor
  · rintro rfl; exact (ellipkinc_am hm u).symm
  · rintro rfl; exact am_ellipkinc hm φ

@[simp] lemma am_zero : jacobiAm 0 m = 0 := (am_eq_iff hm).2 (by simp)

lemma am_K : jacobiAm (ellipk m) m = π / 2 := (am_eq_iff hm).2 rfl

lemma am_neg (u : ℝ) : jacobiAm (-u) m = -jacobiAm u m := by
  rw [am_eq_iff hm, ellipkinc_neg hm, ellipkinc_am hm]

lemma am_add_two_K (u : ℝ) : jacobiAm (u + 2 * ellipk m) m = jacobiAm u m + π := by
  rw [am_eq_iff hm, ellipkinc_add_pi hm, ellipkinc_am hm]

lemma am_add_int (u : ℝ) (k : ℤ) :
    jacobiAm (u + 2 * k * ellipk m) m = jacobiAm u m + k * π := by
  rw [am_eq_iff hm, ellipkinc_add_int_pi hm, ellipkinc_am hm]

lemma am_int (k : ℤ) : jacobiAm (2 * k * ellipk m) m = k * π := by
  have := am_add_int hm 0 k; simpa [am_zero hm] using this

lemma am_two_K_sub (u : ℝ) : jacobiAm (2 * ellipk m - u) m = π - jacobiAm u m := by
  have := am_add_two_K hm (-u)
  rw [am_neg hm] at this
  rw [show 2 * ellipk m - u = -u + 2 * ellipk m by ring, this]; ring

lemma am_strictMono : StrictMono fun u => jacobiAm u m := by
  intro u v h
  by_contra hc
  push Not at hc
  have := (ellipkinc_strictMono hm).monotone hc
  simp only [ellipkinc_am hm] at this
  linarith

lemma am_continuous : Continuous fun u => jacobiAm u m :=
  (am_strictMono hm).monotone.continuous_of_surjective
    (fun φ => ⟨ellipkinc φ m, am_ellipkinc hm φ⟩)

lemma hasDerivAt_am (u : ℝ) :
    HasDerivAt (fun u => jacobiAm u m) (√(1 - m * sin (jacobiAm u m) ^ 2)) u := by
  have h := (hasDerivAt_ellipkinc hm (jacobiAm u m))
  have hpos := sqrt_pos.2 (one_sub_mul_sin_sq_pos hm (jacobiAm u m))
  have := HasDerivAt.of_local_left_inverse (f := fun φ => ellipkinc φ m)
    (g := fun u => jacobiAm u m) (a := u) (am_continuous hm).continuousAt h
    (by positivity) (Filter.Eventually.of_forall (ellipkinc_am hm))
  simpa using this

lemma dn_pos (u : ℝ) : 0 < √(1 - m * sin (jacobiAm u m) ^ 2) :=
  sqrt_pos.2 (one_sub_mul_sin_sq_pos hm _)

lemma hasDerivAt_sn (u : ℝ) :
    HasDerivAt (fun u => sin (jacobiAm u m))
      (cos (jacobiAm u m) * √(1 - m * sin (jacobiAm u m) ^ 2)) u :=
  (hasDerivAt_am hm u).sin

lemma hasDerivAt_cn (u : ℝ) :
    HasDerivAt (fun u => cos (jacobiAm u m))
      (-sin (jacobiAm u m) * √(1 - m * sin (jacobiAm u m) ^ 2)) u :=
  (hasDerivAt_am hm u).cos

lemma hasDerivAt_dn (u : ℝ) :
    HasDerivAt (fun u => √(1 - m * sin (jacobiAm u m) ^ 2))
      (-m * sin (jacobiAm u m) * cos (jacobiAm u m)) u := by
  have h := ((((hasDerivAt_sn hm u).pow 2).const_mul m).const_sub 1).sqrt
    (one_sub_mul_sin_sq_pos hm _).ne'
  have hp := dn_pos hm u
  refine h.congr_deriv ?_
  simp only [Pi.pow_apply]
  generalize √(1 - m * sin (jacobiAm u m) ^ 2) = d at *
  field_simp
  simp only [Nat.cast_ofNat]
  ring

lemma hasDerivAt_E_am (u : ℝ) :
    HasDerivAt (fun u => Spec.E (jacobiAm u m) m) (1 - m * sin (jacobiAm u m) ^ 2) u := by
  have h := ((evenPer_E m).hasDerivAt (jacobiAm u m)).comp u (hasDerivAt_am hm u)
  refine h.congr_deriv ?_
  exact mul_self_sqrt (one_sub_mul_sin_sq_pos hm _).le

lemma hasDerivAt_Pi_am {n : ℝ} (hn : n < 1) (u : ℝ) :
    HasDerivAt (fun u => Spec.Pi n (jacobiAm u m) m) (1 / (1 - n * sin (jacobiAm u m) ^ 2)) u := by
  have h := ((evenPer_Pi hn hm).hasDerivAt (jacobiAm u m)).comp u (hasDerivAt_am hm u)
  refine h.congr_deriv ?_
  have hp := dn_pos hm u
  have hn' := one_sub_mul_sin_sq_pos hn (jacobiAm u m)
  generalize √(1 - m * sin (jacobiAm u m) ^ 2) = d at *
  generalize 1 - n * sin (jacobiAm u m) ^ 2 = w at *
  field_simp

end

end KGP
