import Verif.Lemmas.PiPV

/-! # C17: the elliptic integrals of frequencies.py are the documented integrals -/

namespace KGP

open Real Filter Topology

/-- **C17** `_ellippi(n, m)` is the complete integral of the third kind. -/
theorem C17_ellippi (n m : ℝ) (hn : n < 1) (hm : m < 1) :
    ellippiK n m
      = ∫ θ in (0:ℝ)..(π / 2), 1 / ((1 - n * sin θ ^ 2) * √(1 - m * sin θ ^ 2)) :=
  ellippiK_eq hn hm

/-- **C17** `_ellippiinc(phi, n, m)` is the documented integral for every real amplitude. -/
theorem C17_ellippiinc (φ n m : ℝ) (hn : n < 1) (hm : m < 1) :
    ellippiincK φ n m
      = ∫ θ in (0:ℝ)..φ, 1 / ((1 - n * sin θ ^ 2) * √(1 - m * sin θ ^ 2)) :=
  ellippiincK_eq hn hm φ

/-- **C17** `_ellipeinc(phi, m)` is the documented integral for every real amplitude. -/
theorem C17_ellipeinc (φ m : ℝ) (hm : m < 1) :
    ellipeincK φ m = ∫ θ in (0:ℝ)..φ, √(1 - m * sin θ ^ 2) :=
  ellipeincK_eq hm φ

/-! For characteristic `n > 1` the integrand of the third kind has poles (`n sin²φ = 1`).  The three
theorems below characterise the value of `_ellippiinc` as the Cauchy principal value of the documented
integral: it vanishes at `0`, its derivative is the integrand off the poles, and it does not jump
across a pole. -/

/-- **C17** `_ellippiinc` above the poles: the derivative is the documented integrand. -/
theorem C17_ellippiinc_principal_deriv (φ n m : ℝ) (hn : 1 < n) (hm0 : 0 ≤ m) (hm : m < 1)
    (hne : n * sin φ ^ 2 ≠ 1) :
    HasDerivAt (fun φ => ellippiincK φ n m) (1 / ((1 - n * sin φ ^ 2) * √(1 - m * sin φ ^ 2))) φ :=
  hasDerivAt_ellippiincK_gt hn hm0 hm hne

theorem C17_ellippiinc_principal_zero (n m : ℝ) (hn : 1 < n) (hm0 : 0 ≤ m) (hm : m < 1) :
    ellippiincK 0 n m = 0 := by
  rw [ellippiincK_gt hn hm0 hm (by simp)]
  simp [pvTerm]

/-- **C17** across a pole the symmetric difference of `_ellippiinc` tends to zero. -/
theorem C17_ellippiinc_principal_pole (φ n m : ℝ) (hn : 1 < n) (hm0 : 0 ≤ m) (hm : m < 1)
    (hpole : n * sin φ ^ 2 = 1) :
    Tendsto (fun ε => ellippiincK (φ + ε) n m - ellippiincK (φ - ε) n m) (𝓝[>] 0) (𝓝 0) :=
  ellippiincK_pole hn hm0 hm hpole

/-- Non-vacuity: `n = 4/3` has a pole at `φ = π/3`. -/
example : Tendsto (fun ε => ellippiincK (π / 3 + ε) (4 / 3) (1 / 2) - ellippiincK (π / 3 - ε) (4 / 3) (1 / 2))
    (𝓝[>] 0) (𝓝 0) :=
  C17_ellippiinc_principal_pole _ _ _ (by norm_num) (by norm_num) (by norm_num) (by
    rw [Real.sin_pi_div_three, div_pow, Real.sq_sqrt (by norm_num)]; norm_num)

/-- Non-vacuity, and a value outside the first half period: `_ellipeinc(10, 0) = 10`. -/
example : ellipeincK 10 0 = 10 := by rw [C17_ellipeinc _ _ (by norm_num)]; simp

/-- Non-vacuity for the third kind: `_ellippiinc(-7, 0, 0) = -7`. -/
example : ellippiincK (-7) 0 0 = -7 := by
  rw [C17_ellippiinc _ _ _ (by norm_num) (by norm_num)]; simp

end KGP
