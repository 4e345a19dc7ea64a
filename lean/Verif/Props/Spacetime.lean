import Verif.Model.Orbit
import Verif.Spec.Kerr
import Mathlib.LinearAlgebra.Matrix.Determinant.Basic
import Mathlib.Tactic.LinearCombination
import Mathlib.Tactic.FinCases

/-! # C01, C02, C03: metric, analytic four-velocity and conserved quantities -/

namespace KGP

open Real Matrix

/-! ## C03 -/

/-- **C03** `KerrSpacetime.metric` is the Kerr metric: contracting it with any two vectors gives the
Boyer–Lindquist line element of the specification. -/
theorem C03_metric_is_kerr (a t r θ φ : ℝ) (hSig : Spec.Sigma a r θ ≠ 0)
    (u v : Fin 4 → ℝ) :
    u ⬝ᵥ (metric a t r θ φ *ᵥ v) = Spec.kerr a r θ u v := by
  have hc := Real.sin_sq_add_cos_sq θ
  have hS : r ^ 2 + a ^ 2 * cos θ ^ 2 ≠ 0 := hSig
  simp only [metric, Spec.kerr, Spec.Delta, Spec.Sigma, dotProduct, mulVec, Fin.sum_univ_four,
    Matrix.of_apply, Matrix.cons_val', Matrix.cons_val_zero, Matrix.cons_val_one,
    Matrix.cons_val, Matrix.empty_val', Matrix.cons_val_fin_one]
  generalize (r ^ 2 + a ^ 2 * cos θ ^ 2) / (r ^ 2 - 2 * r + a ^ 2) = k
  have h2 : sin θ ^ 2 = 1 - cos θ ^ 2 := by linarith
  rw [h2]
  generalize cos θ ^ 2 = c at *
  generalize hS' : r ^ 2 + a ^ 2 * c = S at *
  field_simp
  subst hS'
  ring

/-- **C03** the metric is symmetric. -/
theorem C03_metric_symm (a t r θ φ : ℝ) : (metric a t r θ φ).IsSymm := by
  ext i j
  fin_cases i <;> fin_cases j <;> simp [metric]

/-- **C03** determinant `-Σ² sin²θ`. -/
theorem C03_metric_det (a t r θ φ : ℝ) (hSig : Spec.Sigma a r θ ≠ 0)
    (hDel : Spec.Delta a r ≠ 0) :
    (metric a t r θ φ).det = -(Spec.Sigma a r θ ^ 2 * sin θ ^ 2) := by
  have hc := Real.sin_sq_add_cos_sq θ
  have hS : r ^ 2 + a ^ 2 * cos θ ^ 2 ≠ 0 := hSig
  have hD : r ^ 2 - 2 * r + a ^ 2 ≠ 0 := hDel
  simp only [metric, Spec.Sigma]
  rw [Matrix.det_succ_row_zero]
  simp [Fin.sum_univ_four, Matrix.det_fin_three, Fin.succAbove, Matrix.submatrix]
  have h2 : sin θ ^ 2 = 1 - cos θ ^ 2 := by linarith
  rw [h2]
  generalize cos θ ^ 2 = c at *
  generalize hS' : r ^ 2 + a ^ 2 * c = S at *
  generalize hD' : r ^ 2 - 2 * r + a ^ 2 = D at *
  field_simp
  subst hS' hD'
  ring

/-- **C03** for `|a| ≤ 1`, `Δ` vanishes exactly at the two horizon attributes. -/
theorem C03_horizons (a r : ℝ) (ha : |a| ≤ 1) :
    Spec.Delta a r = 0 ↔ r = innerHorizon a ∨ r = outerHorizon a := by
  have h : a ^ 2 ≤ 1 := by rw [← sq_abs]; exact pow_le_one₀ (abs_nonneg a) ha
  have hs := sq_sqrt (show (0:ℝ) ≤ 1 - a ^ 2 by linarith)
  have key : Spec.Delta a r = (r - innerHorizon a) * (r - outerHorizon a) := by
    simp only [Spec.Delta, innerHorizon, outerHorizon]; linear_combination hs
  rw [key, mul_eq_zero, sub_eq_zero, sub_eq_zero]

/-- **C03** `0 ≤ inner_horizon ≤ outer_horizon`, strictly for `|a| < 1`. -/
theorem C03_horizons_order (a : ℝ) (_ha : |a| ≤ 1) :
    0 ≤ innerHorizon a ∧ innerHorizon a ≤ outerHorizon a ∧
      (|a| < 1 → innerHorizon a < outerHorizon a) := by
  have h0 := sqrt_nonneg (1 - a ^ 2)
  have h1 : √(1 - a ^ 2) ≤ 1 := sqrt_le_one.2 (by nlinarith [sq_nonneg a])
  refine ⟨by simp only [innerHorizon]; linarith, by simp only [innerHorizon, outerHorizon]; linarith,
    fun h => ?_⟩
  have : a ^ 2 < 1 := by rw [← sq_abs]; exact pow_lt_one₀ (abs_nonneg a) h (by norm_num)
  have := sqrt_pos.2 (show (0:ℝ) < 1 - a ^ 2 by linarith)
  simp only [innerHorizon, outerHorizon]; linarith

/-- non-vacuity of the C03 hypotheses -/
example : Spec.Sigma (1 / 2) 3 (π / 2) ≠ 0 ∧ Spec.Delta (1 / 2) 3 ≠ 0 := by
  norm_num [Spec.Sigma, Spec.Delta]

/-! ## C01 -/

lemma copysign1_sq (x : ℝ) : copysign1 x ^ 2 = 1 := by
  unfold copysign1; split <;> norm_num

lemma fvR_eq (a E L Q r : ℝ) : fvR a E L Q r = Spec.R a E L Q r := by
  simp only [fvR, Spec.R, Spec.Delta]; ring

lemma fvZ_eq (a E L Q θ : ℝ) (hs : sin θ ≠ 0) :
    fvZ a E L Q (cos θ) = sin θ ^ 2 * Spec.Theta a E L Q θ := by
  have hc := Real.sin_sq_add_cos_sq θ
  simp only [fvZ, Spec.Theta]
  have h4 : cos θ ^ 4 = (cos θ ^ 2) ^ 2 := by ring
  have h2 : cos θ ^ 2 = 1 - sin θ ^ 2 := by linarith
  rw [h4, h2]
  field_simp
  ring

/-- **C01** the analytic four-velocity multiplied by `Σ` satisfies the four geodesic equations:
squared for `r` and `θ` (provided the potentials are non-negative there), exactly for `t`, `φ`. -/
theorem C01_components (a : ℝ) (T : Traj) (E L Q uR uTh lam : ℝ) (q : Phases)
    (hs : sin (T.theta lam) ≠ 0) (hS : Spec.Sigma a (T.r lam) (T.theta lam) ≠ 0)
    (hR : 0 ≤ Spec.R a E L Q (T.r lam)) (hT : 0 ≤ Spec.Theta a E L Q (T.theta lam)) :
    let U := fourVelocity a T (E, L, Q) uR uTh q
    let S := Spec.Sigma a (T.r lam) (T.theta lam)
    S * U.t lam = Spec.dtdlam a E L (T.r lam) (T.theta lam) ∧
    (S * U.r lam) ^ 2 = Spec.R a E L Q (T.r lam) ∧
    (S * U.theta lam) ^ 2 = Spec.Theta a E L Q (T.theta lam) ∧
    S * U.phi lam = Spec.dphidlam a E L (T.r lam) (T.theta lam) := by
  have hc := Real.sin_sq_add_cos_sq (T.theta lam)
  have h2 : 1 - cos (T.theta lam) ^ 2 = sin (T.theta lam) ^ 2 := by linarith
  have hS' : T.r lam ^ 2 + a ^ 2 * cos (T.theta lam) ^ 2 ≠ 0 := hS
  refine ⟨?_, ?_, ?_, ?_⟩
  · simp only [fourVelocity, Spec.Sigma, Spec.dtdlam, Spec.Delta]
    rw [h2]
    generalize (T.r lam ^ 2 + a ^ 2) / _ = w
    field_simp
    ring
  · simp only [fourVelocity, Spec.Sigma]
    rw [fvR_eq, abs_of_nonneg hR, ← mul_div_assoc, mul_div_cancel_left₀ _ hS', mul_pow,
      copysign1_sq, one_mul, sq_sqrt hR]
  · simp only [fourVelocity, Spec.Sigma]
    rw [fvZ_eq _ _ _ _ _ hs, abs_of_nonneg (by positivity), sqrt_mul (by positivity),
      sqrt_sq_eq_abs, ← mul_div_assoc, mul_div_mul_left _ _ hS', div_pow, mul_pow, mul_pow,
      copysign1_sq, one_mul, sq_abs, sq_sqrt hT]
    field_simp
  · simp only [fourVelocity, Spec.Sigma, Spec.dphidlam, Spec.Delta]
    rw [h2]
    generalize a / _ = w
    field_simp
    ring

/-- algebraic core of C01: a vector with the geodesic components has norm -1 -/
lemma kerr_norm_of_components {a r θ E L Q : ℝ} (hS : Spec.Sigma a r θ ≠ 0)
    (hD : Spec.Delta a r ≠ 0) (hs : sin θ ≠ 0) (u : Fin 4 → ℝ)
    (h0 : Spec.Sigma a r θ * u 0 = Spec.dtdlam a E L r θ)
    (h1 : (Spec.Sigma a r θ * u 1) ^ 2 = Spec.R a E L Q r)
    (h2 : (Spec.Sigma a r θ * u 2) ^ 2 = Spec.Theta a E L Q θ)
    (h3 : Spec.Sigma a r θ * u 3 = Spec.dphidlam a E L r θ) :
    Spec.kerr a r θ u u = -1 := by
  have hc := Real.sin_sq_add_cos_sq θ
  have e0 : u 0 = Spec.dtdlam a E L r θ / Spec.Sigma a r θ := by field_simp; linarith
  have e3 : u 3 = Spec.dphidlam a E L r θ / Spec.Sigma a r θ := by field_simp; linarith
  have e1 : u 1 * u 1 = Spec.R a E L Q r / Spec.Sigma a r θ ^ 2 := by
    rw [← h1]; field_simp
  have e2 : u 2 * u 2 = Spec.Theta a E L Q θ / Spec.Sigma a r θ ^ 2 := by
    rw [← h2]; field_simp
  have a1 : u 0 - a * sin θ ^ 2 * u 3 = (E * (r ^ 2 + a ^ 2) - a * L) / Spec.Delta a r := by
    rw [e0, e3]
    simp only [Spec.dtdlam, Spec.dphidlam]
    have hSc : Spec.Sigma a r θ = r ^ 2 + a ^ 2 - a ^ 2 * sin θ ^ 2 := by
      simp only [Spec.Sigma]; linear_combination a ^ 2 * hc
    generalize Spec.Delta a r = D at *
    field_simp
    rw [hSc]
    ring
  have a2 : (r ^ 2 + a ^ 2) * u 3 - a * u 0 = L / sin θ ^ 2 - a * E := by
    rw [e0, e3]
    simp only [Spec.dtdlam, Spec.dphidlam]
    have hSc : Spec.Sigma a r θ = r ^ 2 + a ^ 2 - a ^ 2 * sin θ ^ 2 := by
      simp only [Spec.Sigma]; linear_combination a ^ 2 * hc
    generalize Spec.Delta a r = D at *
    field_simp
    rw [hSc]
    ring
  simp only [Spec.kerr]
  rw [a1, a2, mul_assoc (Spec.Sigma a r θ / Spec.Delta a r), mul_assoc (Spec.Sigma a r θ) (u 2),
    e1, e2]
  simp only [Spec.R, Spec.Theta]
  have hSc : cos θ ^ 2 = 1 - sin θ ^ 2 := by linarith
  have hSc' : Spec.Sigma a r θ = r ^ 2 + a ^ 2 - a ^ 2 * sin θ ^ 2 := by
      simp only [Spec.Sigma]; linear_combination a ^ 2 * hc
  rw [hSc]
  generalize Spec.Delta a r = D at *
  generalize hSg : Spec.Sigma a r θ = S at *
  field_simp
  subst hSc'
  ring

/-- **C01** The four components returned by `KerrSpacetime.four_velocity`, fed to
`KerrSpacetime.norm`, give exactly `-1`, for every trajectory, all frequencies and phases. -/
theorem C01_norm (a : ℝ) (T : Traj) (E L Q uR uTh lam : ℝ) (q : Phases)
    (hs : sin (T.theta lam) ≠ 0) (hS : Spec.Sigma a (T.r lam) (T.theta lam) ≠ 0)
    (hD : Spec.Delta a (T.r lam) ≠ 0)
    (hR : 0 ≤ Spec.R a E L Q (T.r lam)) (hT : 0 ≤ Spec.Theta a E L Q (T.theta lam)) :
    norm4 a (T.t lam) (T.r lam) (T.theta lam) (T.phi lam)
      ((fourVelocity a T (E, L, Q) uR uTh q).at lam) = -1 := by
  obtain ⟨h0, h1, h2, h3⟩ := C01_components a T E L Q uR uTh lam q hs hS hR hT
  rw [norm4, C03_metric_is_kerr _ _ _ _ _ hS]
  exact kerr_norm_of_components hS hD hs _ h0 h1 h2 h3

/-- non-vacuity: spin 1/2, `E = 1`, `L = 2`, `Q = 3` at `r = 10`, `θ = π/2`. -/
example : 0 < Spec.R (1 / 2) 1 2 3 10 ∧ 0 < Spec.Theta (1 / 2) 1 2 3 (π / 2) ∧
    Spec.Delta (1 / 2) 10 ≠ 0 ∧ Spec.Sigma (1 / 2) 10 (π / 2) ≠ 0 ∧ sin (π / 2) ≠ 0 := by
  norm_num [Spec.R, Spec.Theta, Spec.Delta, Spec.Sigma]

/-! ## C02 -/

/-- The conserved quantities of a velocity, from the metric: `E = -u_t`, `L = u_φ` and the Carter
constant `Q = u_θ² + cos²θ (a²(1-E²) + L²/sin²θ)`. -/
structure IsConserved (a r θ : ℝ) (u : Fin 4 → ℝ) (E L Q : ℝ) : Prop where
  energy : E = -Spec.kerr a r θ ![1, 0, 0, 0] u
  angmom : L = Spec.kerr a r θ ![0, 0, 0, 1] u
  carter : Q = Spec.kerr a r θ ![0, 0, 1, 0] u ^ 2
    + cos θ ^ 2 * (a ^ 2 * (1 - E ^ 2) + L ^ 2 / sin θ ^ 2)

/-- the determinant of the 2×2 system -/
lemma ic_det {a r θ : ℝ} (hD : Spec.Delta a r ≠ 0) (hs : sin θ ≠ 0) :
    ((r ^ 2 + a ^ 2) ^ 2 / Spec.Delta a r - a ^ 2 * sin θ ^ 2)
        * (1 / sin θ ^ 2 - a ^ 2 / Spec.Delta a r)
      - (a - a * (r ^ 2 + a ^ 2) / Spec.Delta a r) * (a * (r ^ 2 + a ^ 2) / Spec.Delta a r - a)
      = Spec.Sigma a r θ ^ 2 / (Spec.Delta a r * sin θ ^ 2) := by
  have hc := Real.sin_sq_add_cos_sq θ
  have hSc : Spec.Sigma a r θ = r ^ 2 + a ^ 2 - a ^ 2 * sin θ ^ 2 := by
    simp only [Spec.Sigma]; linear_combination a ^ 2 * hc
  rw [hSc]
  generalize Spec.Delta a r = D at *
  field_simp
  ring

/-- **C02** off the horizon and off the axis `constants_from_initial_conditions` never meets a
singular matrix and returns the conserved quantities of the velocity. -/
theorem C02_conserved (a : ℝ) (pos vel : Vec4)
    (hS : Spec.Sigma a pos.r pos.theta ≠ 0) (hD : Spec.Delta a pos.r ≠ 0)
    (hs : sin pos.theta ≠ 0) :
    ∃ E L Q, constantsFromInitialConditions a pos vel = .ok (E, L, Q) ∧
      IsConserved a pos.r pos.theta vel.toVec E L Q := by
  have hc := Real.sin_sq_add_cos_sq pos.theta
  have h2 : 1 - cos pos.theta ^ 2 = sin pos.theta ^ 2 := by linarith
  have hdet := ic_det hD hs
  have hDD : pos.r ^ 2 - 2 * pos.r + a ^ 2 = Spec.Delta a pos.r := rfl
  have hSS : pos.r ^ 2 + a ^ 2 * cos pos.theta ^ 2 = Spec.Sigma a pos.r pos.theta := rfl
  have hSc : Spec.Sigma a pos.r pos.theta
      = pos.r ^ 2 + a ^ 2 - a ^ 2 * sin pos.theta ^ 2 := by
    simp only [Spec.Sigma]; linear_combination a ^ 2 * hc
  have hDc : Spec.Delta a pos.r = pos.r ^ 2 - 2 * pos.r + a ^ 2 := rfl
  simp only [constantsFromInitialConditions, linalgSolve2, hDD, hSS, h2, hdet]
  rw [if_neg (by positivity)]
  refine ⟨_, _, _, rfl, ?_, ?_, ?_⟩
  · simp [Spec.kerr, Vec4.toVec]
    generalize Spec.Delta a pos.r = D at *
    generalize Spec.Sigma a pos.r pos.theta = S at *
    field_simp
    subst hSc
    ring
  · simp [Spec.kerr, Vec4.toVec]
    generalize Spec.Delta a pos.r = D at *
    generalize Spec.Sigma a pos.r pos.theta = S at *
    field_simp
    subst hSc
    ring
  · have : Spec.kerr a pos.r pos.theta ![0, 0, 1, 0] vel.toVec
        = Spec.Sigma a pos.r pos.theta * vel.theta := by simp [Spec.kerr, Vec4.toVec]
    rw [this]
    generalize (Spec.Sigma a pos.r pos.theta * vel.t * _ - _) / _ = E
    generalize (_ - Spec.Sigma a pos.r pos.theta * vel.t * _) / _ = L
    field_simp

/-- **C02** round trip: a velocity built from `(E, L, Q)` by the geodesic equations (in particular
the one returned by `four_velocity`, see `C01_components`) gives back `(E, L, Q)`. -/
theorem C02_roundtrip (a E L Q : ℝ) (pos vel : Vec4)
    (hS : Spec.Sigma a pos.r pos.theta ≠ 0) (hD : Spec.Delta a pos.r ≠ 0)
    (hs : sin pos.theta ≠ 0)
    (h0 : Spec.Sigma a pos.r pos.theta * vel.t = Spec.dtdlam a E L pos.r pos.theta)
    (h2 : (Spec.Sigma a pos.r pos.theta * vel.theta) ^ 2 = Spec.Theta a E L Q pos.theta)
    (h3 : Spec.Sigma a pos.r pos.theta * vel.phi = Spec.dphidlam a E L pos.r pos.theta) :
    constantsFromInitialConditions a pos vel = .ok (E, L, Q) := by
  have hc := Real.sin_sq_add_cos_sq pos.theta
  have hc2 : 1 - cos pos.theta ^ 2 = sin pos.theta ^ 2 := by linarith
  have hdet := ic_det hD hs
  have hDD : pos.r ^ 2 - 2 * pos.r + a ^ 2 = Spec.Delta a pos.r := rfl
  have hSS : pos.r ^ 2 + a ^ 2 * cos pos.theta ^ 2 = Spec.Sigma a pos.r pos.theta := rfl
  have hSc : Spec.Sigma a pos.r pos.theta
      = pos.r ^ 2 + a ^ 2 - a ^ 2 * sin pos.theta ^ 2 := by
    simp only [Spec.Sigma]; linear_combination a ^ 2 * hc
  simp only [constantsFromInitialConditions, linalgSolve2, hDD, hSS, hc2, hdet, h0, h3]
  rw [if_neg (by positivity)]
  have eE : (Spec.dtdlam a E L pos.r pos.theta
        * (1 / sin pos.theta ^ 2 - a ^ 2 / Spec.Delta a pos.r)
      - (a - a * (pos.r ^ 2 + a ^ 2) / Spec.Delta a pos.r)
        * Spec.dphidlam a E L pos.r pos.theta)
      / (Spec.Sigma a pos.r pos.theta ^ 2 / (Spec.Delta a pos.r * sin pos.theta ^ 2)) = E := by
    simp only [Spec.dtdlam, Spec.dphidlam]
    generalize Spec.Delta a pos.r = D at *
    generalize Spec.Sigma a pos.r pos.theta = S at *
    field_simp
    subst hSc
    ring
  have eL : (((pos.r ^ 2 + a ^ 2) ^ 2 / Spec.Delta a pos.r - a ^ 2 * sin pos.theta ^ 2)
        * Spec.dphidlam a E L pos.r pos.theta
      - Spec.dtdlam a E L pos.r pos.theta
        * (a * (pos.r ^ 2 + a ^ 2) / Spec.Delta a pos.r - a))
      / (Spec.Sigma a pos.r pos.theta ^ 2 / (Spec.Delta a pos.r * sin pos.theta ^ 2)) = L := by
    simp only [Spec.dtdlam, Spec.dphidlam]
    generalize Spec.Delta a pos.r = D at *
    generalize Spec.Sigma a pos.r pos.theta = S at *
    field_simp
    subst hSc
    ring
  show Except.ok _ = _
  simp only [eE, eL]
  have eQ : ((Spec.Sigma a pos.r pos.theta * vel.theta * sin pos.theta) ^ 2
      + cos pos.theta ^ 2 * (a ^ 2 * (1 - E ^ 2) * sin pos.theta ^ 2 + L ^ 2))
      / sin pos.theta ^ 2 = Q := by
    rw [mul_pow, h2]
    simp only [Spec.Theta]
    field_simp
    ring
  rw [eQ]

/-- **C02** the four-velocity returned by `four_velocity` for the constants `(E, L, Q)` gives back
`(E, L, Q)`. -/
theorem C02_roundtrip_four_velocity (a : ℝ) (T : Traj) (E L Q uR uTh lam : ℝ) (q : Phases)
    (hs : sin (T.theta lam) ≠ 0) (hS : Spec.Sigma a (T.r lam) (T.theta lam) ≠ 0)
    (hD : Spec.Delta a (T.r lam) ≠ 0)
    (hR : 0 ≤ Spec.R a E L Q (T.r lam)) (hT : 0 ≤ Spec.Theta a E L Q (T.theta lam)) :
    constantsFromInitialConditions a (T.at lam) ((fourVelocity a T (E, L, Q) uR uTh q).at lam)
      = .ok (E, L, Q) := by
  obtain ⟨h0, -, h2, h3⟩ := C01_components a T E L Q uR uTh lam q hs hS hR hT
  exact C02_roundtrip a E L Q (T.at lam) _ hS hD hs h0 h2 h3

/-- **C02** if the velocity has norm -1 then the returned constants satisfy `(Σ u^r)² = R(r)` (and
`(Σ u^θ)² = Θ(θ)` always). -/
theorem C02_radial_equation (a : ℝ) (pos vel : Vec4)
    (hS : Spec.Sigma a pos.r pos.theta ≠ 0) (hD : Spec.Delta a pos.r ≠ 0)
    (hs : sin pos.theta ≠ 0) (E L Q : ℝ)
    (hok : constantsFromInitialConditions a pos vel = .ok (E, L, Q)) :
    (Spec.Sigma a pos.r pos.theta * vel.theta) ^ 2 = Spec.Theta a E L Q pos.theta ∧
    Spec.Sigma a pos.r pos.theta * vel.t = Spec.dtdlam a E L pos.r pos.theta ∧
    Spec.Sigma a pos.r pos.theta * vel.phi = Spec.dphidlam a E L pos.r pos.theta ∧
    (norm4 a pos.t pos.r pos.theta pos.phi vel = -1 →
      (Spec.Sigma a pos.r pos.theta * vel.r) ^ 2 = Spec.R a E L Q pos.r) := by
  obtain ⟨E', L', Q', h, hE, hL, hQ⟩ := C02_conserved a pos vel hS hD hs
  rw [h] at hok
  simp only [Except.ok.injEq, Prod.mk.injEq] at hok
  obtain ⟨rfl, rfl, rfl⟩ := hok
  have hc := Real.sin_sq_add_cos_sq pos.theta
  have hSc : Spec.Sigma a pos.r pos.theta
      = pos.r ^ 2 + a ^ 2 - a ^ 2 * sin pos.theta ^ 2 := by
    simp only [Spec.Sigma]; linear_combination a ^ 2 * hc
  have hthe : Spec.kerr a pos.r pos.theta ![0, 0, 1, 0] vel.toVec
      = Spec.Sigma a pos.r pos.theta * vel.theta := by simp [Spec.kerr, Vec4.toVec]
  have hth : (Spec.Sigma a pos.r pos.theta * vel.theta) ^ 2
      = Spec.Theta a E' L' Q' pos.theta := by
    rw [hthe] at hQ
    simp only [Spec.Theta]; linarith
  have hE2 : E' = Spec.Delta a pos.r / Spec.Sigma a pos.r pos.theta
        * (vel.t - a * sin pos.theta ^ 2 * vel.phi)
      + sin pos.theta ^ 2 / Spec.Sigma a pos.r pos.theta * a
        * ((pos.r ^ 2 + a ^ 2) * vel.phi - a * vel.t) := by
    rw [hE]; simp [Spec.kerr, Vec4.toVec]; ring
  have hL2 : L' = Spec.Delta a pos.r / Spec.Sigma a pos.r pos.theta * a * sin pos.theta ^ 2
        * (vel.t - a * sin pos.theta ^ 2 * vel.phi)
      + sin pos.theta ^ 2 / Spec.Sigma a pos.r pos.theta * (pos.r ^ 2 + a ^ 2)
        * ((pos.r ^ 2 + a ^ 2) * vel.phi - a * vel.t) := by
    rw [hL]; simp [Spec.kerr, Vec4.toVec]; left; ring
  -- the two standard combinations
  have c1 : E' * (pos.r ^ 2 + a ^ 2) - a * L'
      = Spec.Delta a pos.r * (vel.t - a * sin pos.theta ^ 2 * vel.phi) := by
    rw [hE2, hL2]
    generalize Spec.Delta a pos.r = D at *
    generalize Spec.Sigma a pos.r pos.theta = S at *
    field_simp
    subst hSc
    ring
  have c2 : L' / sin pos.theta ^ 2 - a * E'
      = (pos.r ^ 2 + a ^ 2) * vel.phi - a * vel.t := by
    rw [hE2, hL2]
    generalize Spec.Delta a pos.r = D at *
    generalize Spec.Sigma a pos.r pos.theta = S at *
    field_simp
    subst hSc
    ring
  have c2' : L' - a * E' * sin pos.theta ^ 2
      = sin pos.theta ^ 2 * ((pos.r ^ 2 + a ^ 2) * vel.phi - a * vel.t) := by
    rw [← c2]; field_simp
  refine ⟨hth, ?_, ?_, fun hn => ?_⟩
  · simp only [Spec.dtdlam]
    rw [c1, show a * (a * E' * sin pos.theta ^ 2 - L')
      = -a * (sin pos.theta ^ 2 * ((pos.r ^ 2 + a ^ 2) * vel.phi - a * vel.t)) by rw [← c2']; ring,
      hSc]
    generalize Spec.Delta a pos.r = D at *
    field_simp
    ring
  · simp only [Spec.dphidlam]
    rw [c1, show a * E' - L' / sin pos.theta ^ 2
      = -((pos.r ^ 2 + a ^ 2) * vel.phi - a * vel.t) by rw [← c2]; ring, hSc]
    generalize Spec.Delta a pos.r = D at *
    field_simp
    ring
  · rw [norm4, C03_metric_is_kerr _ _ _ _ _ hS] at hn
    simp only [Spec.kerr, Vec4.toVec, Matrix.cons_val_zero, Matrix.cons_val_one,
      Matrix.cons_val] at hn
    have b1 : vel.t - a * sin pos.theta ^ 2 * vel.phi
        = (E' * (pos.r ^ 2 + a ^ 2) - a * L') / Spec.Delta a pos.r := by
      rw [c1]; field_simp
    rw [b1, ← c2] at hn
    have b2 : vel.theta ^ 2 = Spec.Theta a E' L' Q' pos.theta / Spec.Sigma a pos.r pos.theta ^ 2 := by
      rw [← hth]; field_simp
    rw [mul_assoc (Spec.Sigma a pos.r pos.theta) vel.theta, ← pow_two vel.theta, b2] at hn
    simp only [Spec.R]
    simp only [Spec.Theta] at hn
    have hcc : cos pos.theta ^ 2 = 1 - sin pos.theta ^ 2 := by linarith
    rw [hcc] at hn
    have hr1 : Spec.Sigma a pos.r pos.theta / Spec.Delta a pos.r * vel.r * vel.r
        = (Spec.Sigma a pos.r pos.theta * vel.r) ^ 2
          / (Spec.Sigma a pos.r pos.theta * Spec.Delta a pos.r) := by
      field_simp
    rw [hr1] at hn
    generalize (Spec.Sigma a pos.r pos.theta * vel.r) ^ 2 = X at *
    generalize Spec.Delta a pos.r = D at *
    generalize hSg : Spec.Sigma a pos.r pos.theta = S at *
    field_simp at hn
    rw [← sub_eq_zero] at hn ⊢
    have : S = pos.r ^ 2 + a ^ 2 - a ^ 2 * sin pos.theta ^ 2 := hSc
    have hfac : sin pos.theta ^ 2 ≠ 0 := by positivity
    apply mul_left_cancel₀ hfac
    rw [mul_zero, ← hn, this]
    ring

end KGP
