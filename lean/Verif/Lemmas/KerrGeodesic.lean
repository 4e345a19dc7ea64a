import Verif.Model.Spacetime
import Verif.Spec.Kerr
import Verif.Spec.Geodesic
import Mathlib.Analysis.SpecialFunctions.Trigonometric.Deriv
import Mathlib.Analysis.Calculus.Deriv.Inv
import Mathlib.Tactic.FieldSimp

/-!
# The separated first-order equations imply the second-order geodesic equation of the Kerr metric
-/

namespace KGP

open Real Matrix Filter Topology

/-- The metric of the code as a function of a coordinate vector. -/
noncomputable def kerrMetric (a : ℝ) (X : Fin 4 → ℝ) : Matrix (Fin 4) (Fin 4) ℝ :=
  metric a (X 0) (X 1) (X 2) (X 3)

/-- A vector of the code as a coordinate vector function. -/
def Traj.toCurve (T : Traj) (s : ℝ) : Fin 4 → ℝ := ![T.t s, T.r s, T.theta s, T.phi s]

/-- `R'(r)` -/
def Rdot (a E L Q r : ℝ) : ℝ :=
  4 * E * r * (E * (r ^ 2 + a ^ 2) - a * L) - (2 * r - 2) * (r ^ 2 + (L - a * E) ^ 2 + Q)
    - 2 * r * Spec.Delta a r

/-- `Θ'(θ)` -/
noncomputable def Thetadot (a E L θ : ℝ) : ℝ :=
  2 * cos θ * sin θ * (a ^ 2 * (1 - E ^ 2)) + 2 * L ^ 2 * cos θ / sin θ ^ 3

lemma hasDerivAt_Rdot (a E L Q r : ℝ) : HasDerivAt (Spec.R a E L Q) (Rdot a E L Q r) r := by
  have h2 : HasDerivAt (fun r : ℝ => r ^ 2) (2 * r) r := by simpa using hasDerivAt_pow 2 r
  have hD : HasDerivAt (Spec.Delta a) (2 * r - 2) r := by
    exact ((h2.sub ((hasDerivAt_id r).const_mul 2)).add_const (a ^ 2)).congr_deriv (by ring)
  have hP : HasDerivAt (fun r => E * (r ^ 2 + a ^ 2) - a * L) (E * (2 * r)) r :=
    ((h2.add_const _).const_mul E).sub_const _
  have hK : HasDerivAt (fun r => r ^ 2 + (L - a * E) ^ 2 + Q) (2 * r) r := (h2.add_const _).add_const _
  have := (hP.pow 2).sub (hD.mul hK)
  refine this.congr_deriv ?_
  simp only [Rdot]
  push_cast
  ring

lemma hasDerivAt_Theta {a E L Q θ : ℝ} (hs : sin θ ≠ 0) :
    HasDerivAt (Spec.Theta a E L Q) (Thetadot a E L θ) θ := by
  have hc := (hasDerivAt_cos θ).pow 2
  have hsn := (hasDerivAt_sin θ).pow 2
  have hi := (hasDerivAt_const θ (L ^ 2)).div hsn (pow_ne_zero 2 hs)
  have := (hasDerivAt_const θ Q).sub (hc.mul (hi.const_add (a ^ 2 * (1 - E ^ 2))))
  refine this.congr_deriv ?_
  have e := Real.sin_sq_add_cos_sq θ
  simp only [Thetadot, Pi.pow_apply, Pi.div_apply, Nat.cast_ofNat]
  generalize cos θ = c at *
  generalize sin θ = s at *
  have hc2 : c ^ 2 = 1 - s ^ 2 := by linarith
  field_simp
  have : c ^ 3 = c * (1 - s ^ 2) := by rw [← hc2]; ring
  ring_nf
  rw [this]
  ring

lemma continuousAt_Rdot (a E L Q r : ℝ) : ContinuousAt (Rdot a E L Q) r := by
  unfold Rdot Spec.Delta; fun_prop

lemma continuousAt_Thetadot {a E L θ : ℝ} (hs : sin θ ≠ 0) : ContinuousAt (Thetadot a E L) θ := by
  unfold Thetadot
  exact ContinuousAt.add (by fun_prop) (ContinuousAt.div (by fun_prop) (by fun_prop) (pow_ne_zero 3 hs))

/-- Covariant components of the four-velocity with separated components. -/
lemma covariant {a E L r θ vr vθ : ℝ} (t φ : ℝ) (hS : Spec.Sigma a r θ ≠ 0) (hD : Spec.Delta a r ≠ 0)
    (hs : sin θ ≠ 0) :
    metric a t r θ φ *ᵥ ![Spec.dtdlam a E L r θ / Spec.Sigma a r θ, vr / Spec.Sigma a r θ,
      vθ / Spec.Sigma a r θ, Spec.dphidlam a E L r θ / Spec.Sigma a r θ] = ![-E, vr / Spec.Delta a r, vθ, L] := by
  have e := Real.sin_sq_add_cos_sq θ
  have hc2 : cos θ ^ 2 = 1 - sin θ ^ 2 := by linarith
  unfold Spec.Sigma at hS ⊢
  unfold Spec.dtdlam Spec.dphidlam
  unfold Spec.Delta at hD ⊢
  unfold metric
  rw [hc2] at hS ⊢
  generalize hSS : r ^ 2 + a ^ 2 * (1 - sin θ ^ 2) = S at *
  generalize hDD : r ^ 2 - 2 * r + a ^ 2 = D at *
  generalize sin θ = s at *
  funext i
  fin_cases i
  all_goals
    simp [Matrix.mulVec, dotProduct, Fin.sum_univ_four]
    field_simp
  · subst hSS; subst hDD; ring
  · subst hSS; subst hDD; ring

/-- `∂_r` of the metric components -/
noncomputable def metricDr (a r θ : ℝ) : Matrix (Fin 4) (Fin 4) ℝ :=
  let S := r ^ 2 + a ^ 2 * cos θ ^ 2
  let D := r ^ 2 - 2 * r + a ^ 2
  !![(2 * S - 4 * r ^ 2) / S ^ 2, 0, 0, -2 * a * sin θ ^ 2 * (S - 2 * r ^ 2) / S ^ 2;
     0, (2 * r * D - S * (2 * r - 2)) / D ^ 2, 0, 0;
     0, 0, 2 * r, 0;
     -2 * a * sin θ ^ 2 * (S - 2 * r ^ 2) / S ^ 2, 0, 0,
       sin θ ^ 2 * (2 * r + 2 * a ^ 2 * sin θ ^ 2 * (S - 2 * r ^ 2) / S ^ 2)]

/-- `∂_θ` of the metric components -/
noncomputable def metricDth (a r θ : ℝ) : Matrix (Fin 4) (Fin 4) ℝ :=
  let S := r ^ 2 + a ^ 2 * cos θ ^ 2
  let S' := -2 * a ^ 2 * cos θ * sin θ
  let D := r ^ 2 - 2 * r + a ^ 2
  let w := (2 * sin θ * cos θ * S - sin θ ^ 2 * S') / S ^ 2
  !![-2 * r * S' / S ^ 2, 0, 0, -2 * a * r * w;
     0, S' / D, 0, 0;
     0, 0, S', 0;
     -2 * a * r * w, 0, 0,
       2 * sin θ * cos θ * (r ^ 2 + a ^ 2 + 2 * a ^ 2 * r * sin θ ^ 2 / S) + sin θ ^ 2 * (2 * a ^ 2 * r * w)]

lemma hasDerivAt_metric_r {a r θ : ℝ} (t φ : ℝ) (hS : Spec.Sigma a r θ ≠ 0) (hD : Spec.Delta a r ≠ 0)
    (α β : Fin 4) : HasDerivAt (fun y => metric a t y θ φ α β) (metricDr a r θ α β) r := by
  unfold Spec.Sigma at hS
  unfold Spec.Delta at hD
  have h2 : HasDerivAt (fun r : ℝ => r ^ 2) (2 * r) r := by simpa using hasDerivAt_pow 2 r
  have hSd : HasDerivAt (fun r : ℝ => r ^ 2 + a ^ 2 * cos θ ^ 2) (2 * r) r := h2.add_const _
  have hDd : HasDerivAt (fun r : ℝ => r ^ 2 - 2 * r + a ^ 2) (2 * r - 2) r :=
    ((h2.sub ((hasDerivAt_id r).const_mul 2)).add_const (a ^ 2)).congr_deriv (by ring)
  have hid := hasDerivAt_id r
  have h00 : HasDerivAt (fun r : ℝ => -(1 - 2 * r / (r ^ 2 + a ^ 2 * cos θ ^ 2)))
      (metricDr a r θ 0 0) r := by
    refine ((((hid.const_mul 2).div hSd hS).const_sub 1).neg).congr_deriv ?_
    simp [metricDr]; ring
  have h03 : HasDerivAt (fun r : ℝ => -2 * a * r * sin θ ^ 2 / (r ^ 2 + a ^ 2 * cos θ ^ 2))
      (metricDr a r θ 0 3) r := by
    refine (((hid.const_mul (-2 * a)).mul_const (sin θ ^ 2)).div hSd hS).congr_deriv ?_
    simp [metricDr]; ring
  have h11 : HasDerivAt (fun r : ℝ => (r ^ 2 + a ^ 2 * cos θ ^ 2) / (r ^ 2 - 2 * r + a ^ 2))
      (metricDr a r θ 1 1) r := by
    refine (hSd.div hDd hD).congr_deriv ?_
    simp [metricDr]
  have h22 : HasDerivAt (fun r : ℝ => r ^ 2 + a ^ 2 * cos θ ^ 2) (metricDr a r θ 2 2) r := by
    refine hSd.congr_deriv ?_
    simp [metricDr]
  have h33 : HasDerivAt (fun r : ℝ => sin θ ^ 2 * (r ^ 2 + a ^ 2
      + 2 * a ^ 2 * r * sin θ ^ 2 / (r ^ 2 + a ^ 2 * cos θ ^ 2))) (metricDr a r θ 3 3) r := by
    refine (((h2.add_const (a ^ 2)).add (((hid.const_mul (2 * a ^ 2)).mul_const (sin θ ^ 2)).div hSd hS)).const_mul
      (sin θ ^ 2)).congr_deriv ?_
    simp [metricDr]; left; ring
  have h0 := hasDerivAt_const r (0:ℝ)
  fin_cases α <;> fin_cases β <;> first | exact h0 | exact h00 | exact h03 | exact h11 | exact h22 | exact h33

lemma hasDerivAt_metric_th {a r θ : ℝ} (t φ : ℝ) (hS : Spec.Sigma a r θ ≠ 0)
    (α β : Fin 4) : HasDerivAt (fun y => metric a t r y φ α β) (metricDth a r θ α β) θ := by
  unfold Spec.Sigma at hS
  have hc : HasDerivAt (fun y => cos y ^ 2) (-2 * cos θ * sin θ) θ :=
    ((hasDerivAt_cos θ).pow 2).congr_deriv (by push_cast; ring)
  have hs : HasDerivAt (fun y => sin y ^ 2) (2 * sin θ * cos θ) θ :=
    ((hasDerivAt_sin θ).pow 2).congr_deriv (by push_cast; ring)
  have hSd : HasDerivAt (fun y : ℝ => r ^ 2 + a ^ 2 * cos y ^ 2) (-2 * a ^ 2 * cos θ * sin θ) θ :=
    ((hc.const_mul (a ^ 2)).const_add (r ^ 2)).congr_deriv (by ring)
  have h00 : HasDerivAt (fun y : ℝ => -(1 - 2 * r / (r ^ 2 + a ^ 2 * cos y ^ 2)))
      (metricDth a r θ 0 0) θ := by
    refine ((((hasDerivAt_const θ (2 * r)).div hSd hS).const_sub 1).neg).congr_deriv ?_
    simp [metricDth]
  have h03 : HasDerivAt (fun y : ℝ => -2 * a * r * sin y ^ 2 / (r ^ 2 + a ^ 2 * cos y ^ 2))
      (metricDth a r θ 0 3) θ := by
    refine ((hs.const_mul (-2 * a * r)).div hSd hS).congr_deriv ?_
    simp [metricDth]; ring
  have h11 : HasDerivAt (fun y : ℝ => (r ^ 2 + a ^ 2 * cos y ^ 2) / (r ^ 2 - 2 * r + a ^ 2))
      (metricDth a r θ 1 1) θ := by
    refine (hSd.div_const _).congr_deriv ?_
    simp [metricDth]
  have h22 : HasDerivAt (fun y : ℝ => r ^ 2 + a ^ 2 * cos y ^ 2) (metricDth a r θ 2 2) θ := by
    refine hSd.congr_deriv ?_
    simp [metricDth]
  have h33 : HasDerivAt (fun y : ℝ => sin y ^ 2 * (r ^ 2 + a ^ 2
      + 2 * a ^ 2 * r * sin y ^ 2 / (r ^ 2 + a ^ 2 * cos y ^ 2))) (metricDth a r θ 3 3) θ := by
    refine (hs.mul (((hs.const_mul (2 * a ^ 2 * r)).div hSd hS).const_add (r ^ 2 + a ^ 2))).congr_deriv ?_
    simp [metricDth]; left; ring
  have h0 := hasDerivAt_const θ (0:ℝ)
  fin_cases α <;> fin_cases β <;> first | exact h0 | exact h00 | exact h03 | exact h11 | exact h22 | exact h33

set_option maxRecDepth 100000 in
set_option maxHeartbeats 1600000 in
/-- The radial Euler–Lagrange identity. -/
lemma radial_force {a E L Q r θ vr vθ : ℝ} (hS : Spec.Sigma a r θ ≠ 0) (hD : Spec.Delta a r ≠ 0)
    (hs : sin θ ≠ 0) (hr : vr ^ 2 = Spec.R a E L Q r) (hθ : vθ ^ 2 = Spec.Theta a E L Q θ) :
    ∑ α, ∑ β, metricDr a r θ α β
        * ![Spec.dtdlam a E L r θ / Spec.Sigma a r θ, vr / Spec.Sigma a r θ,
      vθ / Spec.Sigma a r θ, Spec.dphidlam a E L r θ / Spec.Sigma a r θ] α
        * ![Spec.dtdlam a E L r θ / Spec.Sigma a r θ, vr / Spec.Sigma a r θ,
      vθ / Spec.Sigma a r θ, Spec.dphidlam a E L r θ / Spec.Sigma a r θ] β
      = 2 / Spec.Sigma a r θ * (Rdot a E L Q r / 2 / Spec.Delta a r
        - vr * ((2 * r - 2) * vr) / Spec.Delta a r ^ 2) := by
  have e := Real.sin_sq_add_cos_sq θ
  have hc2 : cos θ ^ 2 = 1 - sin θ ^ 2 := by linarith
  simp [Fin.sum_univ_four, metricDr]
  unfold Spec.R at hr
  unfold Spec.Theta at hθ
  unfold Spec.dtdlam Spec.dphidlam Rdot
  unfold Spec.Sigma at hS ⊢
  unfold Spec.Delta at *
  rw [hc2] at hS hθ ⊢
  clear e hc2
  generalize sin θ = s at *
  have hr' : Q * (r ^ 2 - 2 * r + a ^ 2) = (E * (r ^ 2 + a ^ 2) - a * L) ^ 2 - vr ^ 2
    - (r ^ 2 - 2 * r + a ^ 2) * (r ^ 2 + (L - a * E) ^ 2) := by rw [hr]; ring
  have hq : Q = vθ ^ 2 + (1 - s ^ 2) * (a ^ 2 * (1 - E ^ 2) + L ^ 2 / s ^ 2) := by rw [hθ]; ring
  have hv : vr ^ 2 = (E * (r ^ 2 + a ^ 2) - a * L) ^ 2
    - (r ^ 2 - 2 * r + a ^ 2) * (r ^ 2 + (L - a * E) ^ 2
      + (vθ ^ 2 + (1 - s ^ 2) * (a ^ 2 * (1 - E ^ 2) + L ^ 2 / s ^ 2))) := by rw [hr, ← hq]
  rw [hq]
  clear hr hθ hr' hq
  generalize hSS : r ^ 2 + a ^ 2 * (1 - s ^ 2) = S at *
  generalize hDD : r ^ 2 - 2 * r + a ^ 2 = D at *
  have e1 : vr / S * (vr / S) = vr ^ 2 / S ^ 2 := by ring
  have e2 : vr * ((2 * r - 2) * vr) = (2 * r - 2) * vr ^ 2 := by ring
  have e3 : (2 * r * D - S * (2 * r - 2)) / D ^ 2 * (vr / S) * (vr / S)
    = (2 * r * D - S * (2 * r - 2)) / D ^ 2 * vr ^ 2 / S ^ 2 := by ring
  rw [e2, e3, hv]
  field_simp
  subst hSS; subst hDD
  ring

set_option maxRecDepth 100000 in
set_option maxHeartbeats 1600000 in
/-- The polar Euler–Lagrange identity. -/
lemma polar_force {a E L Q r θ vr vθ : ℝ} (hS : Spec.Sigma a r θ ≠ 0) (hD : Spec.Delta a r ≠ 0)
    (hs : sin θ ≠ 0) (hr : vr ^ 2 = Spec.R a E L Q r) (hθ : vθ ^ 2 = Spec.Theta a E L Q θ) :
    ∑ α, ∑ β, metricDth a r θ α β
        * ![Spec.dtdlam a E L r θ / Spec.Sigma a r θ, vr / Spec.Sigma a r θ,
      vθ / Spec.Sigma a r θ, Spec.dphidlam a E L r θ / Spec.Sigma a r θ] α
        * ![Spec.dtdlam a E L r θ / Spec.Sigma a r θ, vr / Spec.Sigma a r θ,
      vθ / Spec.Sigma a r θ, Spec.dphidlam a E L r θ / Spec.Sigma a r θ] β
      = 2 / Spec.Sigma a r θ * (Thetadot a E L θ / 2) := by
  have e := Real.sin_sq_add_cos_sq θ
  have hc2 : cos θ ^ 2 = 1 - sin θ ^ 2 := by linarith
  simp [Fin.sum_univ_four, metricDth]
  unfold Spec.R at hr
  unfold Spec.Theta at hθ
  unfold Spec.dtdlam Spec.dphidlam Thetadot
  unfold Spec.Sigma at hS ⊢
  unfold Spec.Delta at *
  rw [hc2] at hS hθ ⊢
  clear e hc2
  generalize sin θ = s at *
  generalize cos θ = c at *
  have hq : Q = vθ ^ 2 + (1 - s ^ 2) * (a ^ 2 * (1 - E ^ 2) + L ^ 2 / s ^ 2) := by rw [hθ]; ring
  have hv : vr ^ 2 = (E * (r ^ 2 + a ^ 2) - a * L) ^ 2
    - (r ^ 2 - 2 * r + a ^ 2) * (r ^ 2 + (L - a * E) ^ 2
      + (vθ ^ 2 + (1 - s ^ 2) * (a ^ 2 * (1 - E ^ 2) + L ^ 2 / s ^ 2))) := by rw [hr, ← hq]
  clear hr hθ hq
  generalize hSS : r ^ 2 + a ^ 2 * (1 - s ^ 2) = S at *
  generalize hDD : r ^ 2 - 2 * r + a ^ 2 = D at *
  have e3 : ∀ k, k * (vr / S) * (vr / S) = k * vr ^ 2 / S ^ 2 := fun k => by ring
  rw [e3, hv]
  field_simp
  subst hSS; subst hDD
  ring

section
variable {a E L Q : ℝ} {T : Traj} {vr vθ : ℝ → ℝ} {l : ℝ}

/-- The tangent vector with separated components. -/
noncomputable def sepTangent (a E L : ℝ) (T : Traj) (vr vθ : ℝ → ℝ) (s : ℝ) : Fin 4 → ℝ :=
  ![Spec.dtdlam a E L (T.r s) (T.theta s) / Spec.Sigma a (T.r s) (T.theta s),
    vr s / Spec.Sigma a (T.r s) (T.theta s), vθ s / Spec.Sigma a (T.r s) (T.theta s),
    Spec.dphidlam a E L (T.r s) (T.theta s) / Spec.Sigma a (T.r s) (T.theta s)]

/-- A curve with separated tangent whose radial and polar velocities satisfy the second-order separated
equations is a geodesic of the Kerr metric. -/
lemma geodesicAt_of_separated (hS : Spec.Sigma a (T.r l) (T.theta l) ≠ 0) (hD : Spec.Delta a (T.r l) ≠ 0)
    (hs : sin (T.theta l) ≠ 0)
    (ht : HasDerivAt T.t (Spec.dtdlam a E L (T.r l) (T.theta l)) l)
    (hr : HasDerivAt T.r (vr l) l) (hth : HasDerivAt T.theta (vθ l) l)
    (hphi : HasDerivAt T.phi (Spec.dphidlam a E L (T.r l) (T.theta l)) l)
    (hr2 : vr l ^ 2 = Spec.R a E L Q (T.r l)) (hth2 : vθ l ^ 2 = Spec.Theta a E L Q (T.theta l))
    (hvr : HasDerivAt vr (Rdot a E L Q (T.r l) / 2) l)
    (hvth : HasDerivAt vθ (Thetadot a E L (T.theta l) / 2) l) :
    Spec.GeodesicAt (kerrMetric a) T.toCurve (sepTangent a E L T vr vθ)
      (Spec.Sigma a (T.r l) (T.theta l)) l := by
  have hSd : ContinuousAt (fun y => Spec.Sigma a (T.r y) (T.theta y)) l := by
    unfold Spec.Sigma
    have h1 := hr.continuousAt
    have h2 := hth.continuousAt
    fun_prop
  have hDd : HasDerivAt (fun y => Spec.Delta a (T.r y)) ((2 * T.r l - 2) * vr l) l := by
    unfold Spec.Delta
    refine (((hr.pow 2).sub (hr.const_mul 2)).add_const (a ^ 2)).congr_deriv ?_
    push_cast; ring
  have hsd : ContinuousAt (fun y => sin (T.theta y)) l := by
    have h2 := hth.continuousAt
    fun_prop
  have hcov : (fun y => kerrMetric a (T.toCurve y) *ᵥ sepTangent a E L T vr vθ y) =ᶠ[𝓝 l]
      fun y => ![-E, vr y / Spec.Delta a (T.r y), vθ y, L] := by
    filter_upwards [hSd.eventually_ne hS, hDd.continuousAt.eventually_ne hD, hsd.eventually_ne hs] with y h1 h2 h3
    exact covariant (T.t y) (T.phi y) h1 h2 h3
  have hcov' : ∀ μ, (fun y => (kerrMetric a (T.toCurve y) *ᵥ sepTangent a E L T vr vθ y) μ) =ᶠ[𝓝 l]
      fun y => ![-E, vr y / Spec.Delta a (T.r y), vθ y, L] μ := fun μ => by
    filter_upwards [hcov] with y hy
    rw [hy]
  constructor
  · intro μ
    fin_cases μ
    · exact ht.congr_deriv (by simp [sepTangent]; field_simp)
    · exact hr.congr_deriv (by simp [sepTangent]; field_simp)
    · exact hth.congr_deriv (by simp [sepTangent]; field_simp)
    · exact hphi.congr_deriv (by simp [sepTangent]; field_simp)
  · intro μ
    fin_cases μ
    · refine ⟨fun _ _ => 0, fun α β => ?_, ?_⟩
      · have : (fun y => kerrMetric a (Function.update (T.toCurve l) (0 : Fin 4) y) α β)
            = fun _ => metric a 0 (T.r l) (T.theta l) (T.phi l) α β := by
          funext y; simp [kerrMetric, metric, Traj.toCurve, Function.update]
        exact (hasDerivAt_const _ _).congr_of_eventuallyEq (Eventually.of_forall fun y => congrFun this y)
      · refine ((hasDerivAt_const l (-E)).congr_of_eventuallyEq (hcov' 0)).congr_deriv (by simp)
    · refine ⟨fun α β => metricDr a (T.r l) (T.theta l) α β, fun α β => ?_, ?_⟩
      · exact hasDerivAt_metric_r (T.t l) (T.phi l) hS hD α β
      · refine ((hvr.div hDd hD).congr_of_eventuallyEq (hcov' 1)).congr_deriv ?_
        have key := radial_force hS hD hs hr2 hth2
        change _ = _ * (1 / 2 * ∑ α, ∑ β, _ * (![_, _, _, _] : Fin 4 → ℝ) α * (![_, _, _, _] : Fin 4 → ℝ) β)
        rw [key]
        field_simp
    · refine ⟨fun α β => metricDth a (T.r l) (T.theta l) α β, fun α β => ?_, ?_⟩
      · exact hasDerivAt_metric_th (T.t l) (T.phi l) hS α β
      · refine (hvth.congr_of_eventuallyEq (hcov' 2)).congr_deriv ?_
        have key := polar_force hS hD hs hr2 hth2
        change _ = _ * (1 / 2 * ∑ α, ∑ β, _ * (![_, _, _, _] : Fin 4 → ℝ) α * (![_, _, _, _] : Fin 4 → ℝ) β)
        rw [key]
        field_simp
    · refine ⟨fun _ _ => 0, fun α β => ?_, ?_⟩
      · have : (fun y => kerrMetric a (Function.update (T.toCurve l) (3 : Fin 4) y) α β)
            = fun _ => metric a (T.t l) (T.r l) (T.theta l) 0 α β := by
          funext y; simp [kerrMetric, metric, Traj.toCurve, Function.update]
        exact (hasDerivAt_const _ _).congr_of_eventuallyEq (Eventually.of_forall fun y => congrFun this y)
      · refine ((hasDerivAt_const l L).congr_of_eventuallyEq (hcov' 3)).congr_deriv (by simp)

end

end KGP
