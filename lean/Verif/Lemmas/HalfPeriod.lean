import Verif.Model.Scipy
import Mathlib.MeasureTheory.Integral.IntervalIntegral.Periodic
import Mathlib.MeasureTheory.Integral.IntervalIntegral.FundThmCalculus
import Mathlib.Analysis.SpecialFunctions.Trigonometric.Inverse

/-! Integrals of even `π`-periodic functions and the half-period reduction. -/

namespace KGP

open MeasureTheory Real intervalIntegral

/-- An even, continuous, `π`-periodic integrand. -/
structure EvenPer (g : ℝ → ℝ) : Prop where
  cont : Continuous g
  per : Function.Periodic g π
  even : ∀ t, g (-t) = g t

namespace EvenPer
variable {g : ℝ → ℝ} (hg : EvenPer g)
include hg

lemma intervalIntegrable (a b : ℝ) : IntervalIntegrable g volume a b :=
  hg.cont.intervalIntegrable a b

lemma integral_neg' (φ : ℝ) : ∫ t in (0:ℝ)..(-φ), g t = -∫ t in (0:ℝ)..φ, g t := by
  have h := intervalIntegral.integral_comp_neg (a := 0) (b := φ) g
  simp only [hg.even, neg_zero] at h
  rw [h, intervalIntegral.integral_symm]

lemma integral_add_pi (φ : ℝ) :
    ∫ t in (0:ℝ)..(φ + π), g t = (∫ t in (0:ℝ)..φ, g t) + 2 * ∫ t in (0:ℝ)..(π/2), g t := by
  have h1 : ∫ t in (0:ℝ)..(φ + π), g t
      = (∫ t in (0:ℝ)..φ, g t) + ∫ t in φ..(φ + π), g t :=
    (integral_add_adjacent_intervals (hg.intervalIntegrable _ _) (hg.intervalIntegrable _ _)).symm
  have h2 : ∫ t in φ..(φ + π), g t = ∫ t in (-(π/2))..(-(π/2) + π), g t :=
    hg.per.intervalIntegral_add_eq _ _
  have h3 : -(π/2) + π = π/2 := by ring
  have h4 : ∫ t in (-(π/2))..(π/2), g t
      = (∫ t in (-(π/2))..0, g t) + ∫ t in (0:ℝ)..(π/2), g t :=
    (integral_add_adjacent_intervals (hg.intervalIntegrable _ _) (hg.intervalIntegrable _ _)).symm
  have h5 : ∫ t in (-(π/2))..0, g t = ∫ t in (0:ℝ)..(π/2), g t := by
    rw [intervalIntegral.integral_symm, hg.integral_neg']; ring
  rw [h1, h2, h3, h4, h5]; ring

lemma integral_add_int_pi (φ : ℝ) (k : ℤ) :
    ∫ t in (0:ℝ)..(φ + k * π), g t
      = (∫ t in (0:ℝ)..φ, g t) + 2 * k * ∫ t in (0:ℝ)..(π/2), g t := by
  induction k using Int.induction_on with
  | zero => simp
  | succ n ih =>
    have : φ + ((n + 1 : ℤ) : ℝ) * π = (φ + (n:ℤ) * π) + π := by push_cast; ring
    rw [this, hg.integral_add_pi, ih]; push_cast; ring
  | pred n ih =>
    have : φ + ((-n : ℤ) : ℝ) * π = (φ + ((-n - 1 : ℤ) : ℝ) * π) + π := by push_cast; ring
    rw [this, hg.integral_add_pi] at ih
    push_cast at ih ⊢
    linarith

end EvenPer

lemma floor_half_pi (φ : ℝ) :
    (⌊φ / (π/2)⌋ : ℝ) * (π/2) ≤ φ ∧ φ < ((⌊φ / (π/2)⌋ : ℝ) + 1) * (π/2) := by
  have hp : (0:ℝ) < π/2 := by positivity
  have h1 := Int.floor_le (φ / (π/2))
  have h2 := Int.lt_floor_add_one (φ / (π/2))
  rw [le_div_iff₀ hp] at h1
  rw [div_lt_iff₀ hp] at h2
  exact ⟨h1, h2⟩

/-- reduced amplitude on even half periods -/
lemma abs_arcsin_sin_even {φ : ℝ} {k : ℤ} (h1 : k * π ≤ φ) (h2 : φ ≤ k * π + π/2) :
    |arcsin (sin φ)| = φ - k * π := by
  have hs : sin φ = (-1)^k * sin (φ - k * π) := by
    rw [Real.sin_sub_int_mul_pi, ← mul_assoc, ← mul_zpow]; simp
  have h0 : arcsin (sin (φ - k * π)) = φ - k * π :=
    arcsin_sin (by linarith [pi_pos]) (by linarith)
  rcases Int.even_or_odd k with hk | hk
  · rw [hs, hk.neg_one_zpow, one_mul, h0, abs_of_nonneg (by linarith)]
  · rw [hs, hk.neg_one_zpow, neg_one_mul, arcsin_neg, h0, abs_neg, abs_of_nonneg (by linarith)]

/-- reduced amplitude on odd half periods -/
lemma abs_arcsin_sin_odd {φ : ℝ} {k : ℤ} (h1 : k * π + π/2 ≤ φ) (h2 : φ ≤ (k+1) * π) :
    |arcsin (sin φ)| = (k+1) * π - φ := by
  have e : ((k + 1 : ℤ) : ℝ) * π - φ = -(φ - ((k + 1 : ℤ) : ℝ) * π) := by ring
  have hs : sin φ = (-1)^(k+1) * sin (φ - ((k + 1 : ℤ) : ℝ) * π) := by
    rw [Real.sin_sub_int_mul_pi, ← mul_assoc, ← mul_zpow]; simp
  have h0 : arcsin (sin (φ - ((k + 1 : ℤ) : ℝ) * π)) = φ - ((k + 1 : ℤ) : ℝ) * π :=
    arcsin_sin (by push_cast; linarith [pi_pos]) (by push_cast; linarith [pi_pos])
  have hn : φ - ((k + 1 : ℤ) : ℝ) * π ≤ 0 := by push_cast; linarith
  have goal' : |arcsin (sin φ)| = -(φ - ((k + 1 : ℤ) : ℝ) * π) := by
    rcases Int.even_or_odd (k+1) with hk | hk
    · rw [hs, hk.neg_one_zpow, one_mul, h0, abs_of_nonpos hn]
    · rw [hs, hk.neg_one_zpow, neg_one_mul, arcsin_neg, h0, abs_neg, abs_of_nonpos hn]
  rw [goal']; push_cast; ring

/-- The half-period bookkeeping used by `_ellipeinc` and `_ellippiinc` reproduces the integral of
any even `π`-periodic integrand, provided `I` is right on `[0, π/2]`. -/
lemma halfPeriod_eq {g : ℝ → ℝ} (hg : EvenPer g) (I : ℝ → ℝ) (C : ℝ)
    (hI : ∀ ψ, 0 ≤ ψ → ψ ≤ π/2 → I ψ = ∫ t in (0:ℝ)..ψ, g t)
    (hC : C = ∫ t in (0:ℝ)..(π/2), g t) (φ : ℝ) :
    (if ⌊φ / (π/2)⌋ % 2 = 0 then (⌊φ / (π/2)⌋ : ℝ) * C + I |arcsin (sin φ)|
      else ((⌊φ / (π/2)⌋ : ℝ) + 1) * C - I |arcsin (sin φ)|) = ∫ t in (0:ℝ)..φ, g t := by
  obtain ⟨h1, h2⟩ := floor_half_pi φ
  have hI' : I |arcsin (sin φ)| = ∫ t in (0:ℝ)..|arcsin (sin φ)|, g t :=
    hI _ (abs_nonneg _) (abs_le.2 ⟨by linarith [neg_pi_div_two_le_arcsin (sin φ)],
      arcsin_le_pi_div_two _⟩)
  generalize hn : ⌊φ / (π/2)⌋ = n at *
  rcases Int.even_or_odd' n with ⟨k, hk | hk⟩
  · subst hk
    push_cast at h1 h2
    have ha : |arcsin (sin φ)| = φ - k * π :=
      abs_arcsin_sin_even (by linarith) (by linarith)
    have hs := hg.integral_add_int_pi (φ - k * π) k
    rw [if_pos (by omega), hI', ha, hC]
    rw [show φ - k * π + k * π = φ by ring] at hs
    rw [hs]; push_cast; ring
  · subst hk
    push_cast at h1 h2
    have ha : |arcsin (sin φ)| = (k+1) * π - φ :=
      abs_arcsin_sin_odd (by linarith) (by linarith)
    have hs := hg.integral_add_int_pi (-((k+1) * π - φ)) (k+1)
    rw [hg.integral_neg'] at hs
    rw [if_neg (by omega), hI', ha, hC]
    push_cast at hs
    rw [show -((k+1) * π - φ) + (k+1) * π = φ by ring] at hs
    rw [hs]; push_cast; ring

end KGP
