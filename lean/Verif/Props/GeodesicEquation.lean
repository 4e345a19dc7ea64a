import Verif.Props.KerrOrbits
import Verif.Props.RealPlunge
import Verif.Lemmas.SecondOrder
import Verif.Lemmas.KerrGeodesic

/-!
# C53: the trajectories are geodesics of the metric (second-order equation, in proper time)
-/

namespace KGP

open Classical Real Matrix Filter Topology

/-! ## Proper time -/

/-- A continuous rate bounded below by a positive constant integrates to an increasing bijection of the line. -/
lemma exists_proper_time {σ : ℝ → ℝ} (hc : Continuous σ) {c : ℝ} (h0 : 0 < c) (hσ : ∀ l, c ≤ σ l) :
    ∃ tau mino : ℝ → ℝ, tau 0 = 0 ∧ StrictMono tau ∧ (∀ l, mino (tau l) = l) ∧ (∀ s, tau (mino s) = s)
      ∧ (∀ l, HasDerivAt tau (σ l) l) ∧ ∀ s, HasDerivAt mino (σ (mino s))⁻¹ s := by
  obtain ⟨tau, htau⟩ : ∃ tau : ℝ → ℝ, tau = fun l => ∫ y in (0:ℝ)..l, σ y := ⟨_, rfl⟩
  have hd : ∀ l, HasDerivAt tau (σ l) l := fun l => by
    rw [htau]
    exact intervalIntegral.integral_hasDerivAt_right (hc.intervalIntegrable _ _)
      (hc.stronglyMeasurableAtFilter _ _) hc.continuousAt
  have hz : tau 0 = 0 := by rw [htau]; simp
  have hmono : StrictMono tau := strictMono_of_deriv_pos fun l => by
    rw [(hd l).deriv]; linarith [hσ l]
  have hcont : Continuous tau := continuous_iff_continuousAt.mpr fun l => (hd l).continuousAt
  have hlin : Monotone fun l => tau l - c * l := by
    refine monotone_of_deriv_nonneg (fun l => ((hd l).sub ((hasDerivAt_id l).const_mul c)).differentiableAt)
      fun l => ?_
    have h1 : HasDerivAt (fun l => tau l - c * l) (σ l - c * 1) l := (hd l).sub ((hasDerivAt_id l).const_mul c)
    rw [h1.deriv]; linarith [hσ l]
  have htop : Tendsto tau atTop atTop := by
    refine tendsto_atTop_mono' _ (f₁ := fun l => c * l) ?_ (tendsto_id.const_mul_atTop h0)
    filter_upwards [eventually_ge_atTop 0] with l hl
    have := hlin hl
    simp only [hz] at this; linarith
  have hbot : Tendsto tau atBot atBot := by
    refine tendsto_atBot_mono' _ (f₁ := fun l => c * l) ?_ (tendsto_id.const_mul_atBot h0)
    filter_upwards [eventually_le_atBot 0] with l hl
    have := hlin hl
    simp only [hz] at this; linarith
  have hsurj : Function.Surjective tau := hcont.surjective htop hbot
  let iso := hmono.orderIsoOfSurjective tau hsurj
  have i1 : ∀ l, iso.symm (tau l) = l := fun l => iso.symm_apply_apply l
  have i2 : ∀ s, tau (iso.symm s) = s := fun s => iso.apply_symm_apply s
  refine ⟨tau, iso.symm, hz, hmono, i1, i2, hd, fun s => ?_⟩
  refine HasDerivAt.of_local_left_inverse (f := tau) iso.symm.continuous.continuousAt (hd _) ?_
    (Eventually.of_forall i2)
  linarith [hσ (iso.symm s)]

/-- Reparametrisation by the affine parameter. -/
lemma GeodesicAt.reparam {g : (Fin 4 → ℝ) → Matrix (Fin 4) (Fin 4) ℝ} {X U : ℝ → Fin 4 → ℝ} {mino : ℝ → ℝ}
    {σ s : ℝ} (h : Spec.GeodesicAt g X U σ (mino s)) (hσ : σ ≠ 0) (hm : HasDerivAt mino σ⁻¹ s) :
    Spec.GeodesicAt g (fun s => X (mino s)) (fun s => U (mino s)) 1 s := by
  refine ⟨fun μ => ?_, fun μ => ?_⟩
  · exact ((h.1 μ).comp s hm).congr_deriv (by field_simp)
  · obtain ⟨dg, h1, h2⟩ := h.2 μ
    exact ⟨dg, h1, (h2.comp s hm).congr_deriv (by field_simp)⟩

lemma toCurve_eq {a E L : ℝ} {T U : Traj} {vr vθ : ℝ → ℝ} {l : ℝ} (hS : Spec.Sigma a (T.r l) (T.theta l) ≠ 0)
    (h0 : Spec.Sigma a (T.r l) (T.theta l) * U.t l = Spec.dtdlam a E L (T.r l) (T.theta l))
    (h1 : Spec.Sigma a (T.r l) (T.theta l) * U.r l = vr l)
    (h2 : Spec.Sigma a (T.r l) (T.theta l) * U.theta l = vθ l)
    (h3 : Spec.Sigma a (T.r l) (T.theta l) * U.phi l = Spec.dphidlam a E L (T.r l) (T.theta l)) :
    U.toCurve l = sepTangent a E L T vr vθ l := by
  unfold sepTangent Traj.toCurve
  rw [← h0, ← h1, ← h2, ← h3]
  simp only [mul_div_cancel_left₀ _ hS]

lemma polar_strict {a E L Q zm zp : ℝ} (H : PolarConfig a E L Q zm zp) (hz : zm ≠ 0) {q : ℝ} (hq : sin q ≠ 0) :
    Spec.Zpol a E L Q (cos ((polarSolutionsCore a (E, L, Q) zm zp).pos q) ^ 2) ≠ 0 := by
  have hm := H.mT_lt
  have hsg := sign_neg_cn hm q
  rw [polar_pos_eq H, cos_sq_polar H.z0 H.z1, H.Z_factor, ← Real.cos_sq']
  have hc : cos (amT (mT a zm zp) q) ≠ 0 := by
    intro h
    change Real.sign (-cos (amT (mT a zm zp) q)) = _ at hsg
    rw [h, neg_zero, Real.sign_zero] at hsg
    exact hq (Real.sign_eq_zero_iff.mp hsg.symm)
  have h1 := one_sub_mul_sin_sq_pos hm (amT (mT a zm zp) q)
  have h2 := H.W_pos
  positivity

lemma Theta_eq_Zpol {a E L Q θ : ℝ} (hs : sin θ ≠ 0) :
    Spec.Theta a E L Q θ = Spec.Zpol a E L Q (cos θ ^ 2) / sin θ ^ 2 := by
  unfold Spec.Theta Spec.Zpol
  have h := Real.sin_sq_add_cos_sq θ
  rw [eq_div_iff (by positivity)]
  field_simp
  linear_combination (Q - a ^ 2 * (1 - E ^ 2) * cos θ ^ 2) * h

section
variable {rs : RootScalar} {a p e x : ℝ} {q : Phases} {T : Traj} {m : MinoFreqs}
  {E L Q r1 r2 r3 r4 : ℝ} (ha : 0 ≤ a) (hT : stableTrajectoryNat rs a p e x q = .ok T)
  (hm : minoFrequencies rs a p e x = .ok m)
  (hc : constantsOfMotion rs a p e x = .ok (E, L, Q))
  (hr : stableRadialRoots rs a p e x = .ok (r1, r2, r3, r4))
  (hb : Spec.BoundGeodesic a E L Q r1 r2 r3 r4)
include ha hT hm hc hr hb

lemma stable_second_order (lam : ℝ) :
    HasDerivAt (fun l => Real.sign (sin (m.upsilonR * l + q.qr)) * √(Spec.R a E L Q (T.r l)))
      (Rdot a E L Q (T.r lam) / 2) lam
    ∧ HasDerivAt (fun l => Real.sign (sin (m.upsilonTheta * l + q.qtheta)) * √(Spec.Theta a E L Q (T.theta l)))
      (Thetadot a E L (T.theta lam) / 2) lam := by
  obtain ⟨m', zm, zp, D⟩ := stableData_of ha hT hc hr
  obtain rfl := D.mino_eq hm
  obtain ⟨hbd, -, -, hU, -, hstrict⟩ := C20_radial ha hT hm hc hr hb
  obtain ⟨-, -, -, hUt, -⟩ := C20_polar ha hT hm hc hr hb
  have H := D.polar hb.energy hb.nonpolar
  have hd := C21_radial_polar ha hT hm hc hr hb
  have hsin : ∀ l, sin (T.theta l) ≠ 0 := fun l => (D.polarEq hb l).2.1.ne'
  obtain ⟨h1, h2⟩ := D.roots12
  have hE := hb.energy
  constructor
  · refine velocity_deriv hU.ne' (fun l => (hd l).1) (fun l => (hd l).2.2.1)
      (fun l h => (D.radial hb l).2.2 h) (fun l => hasDerivAt_Rdot a E L Q _) (fun l => continuousAt_Rdot _ _ _ _ _) ?_ lam
    by_cases he : e = 0
    · left
      intro l
      have hrl : T.r l = r1 := by
        have := hbd l
        rw [he] at this
        rw [h1, he]
        norm_num at this ⊢
        exact le_antisymm this.2 this.1
      have h12 : r1 = r2 := by rw [h1, h2, he]; norm_num
      rw [hrl]
      refine ⟨by rw [hb.roots]; ring, ?_⟩
      refine (hasDerivAt_Rdot a E L Q r1).unique ?_
      have : Spec.R a E L Q = fun r => (r - r1) ^ 2 * (-(1 - E ^ 2) * (r - r3) * (r - r4)) := by
        funext r; rw [hb.roots, ← h12]; ring
      rw [this]
      have hsq : HasDerivAt (fun r : ℝ => (r - r1) ^ 2) 0 r1 :=
        (((hasDerivAt_id r1).sub_const r1).pow 2).congr_deriv (by simp)
      have hg : DifferentiableAt ℝ (fun r : ℝ => -(1 - E ^ 2) * (r - r3) * (r - r4)) r1 := by fun_prop
      exact (hsq.mul hg.hasDerivAt).congr_deriv (by simp)
    · right
      intro l hs
      obtain ⟨g1, g2⟩ := hstrict he l hs
      rw [← h2] at g1
      rw [← h1] at g2
      have g3 := hb.r32
      have g4 := hb.r43
      rw [hb.roots]
      have k0 : 0 < 1 - E ^ 2 := by linarith
      have k1 : 0 < r1 - T.r l := by linarith
      have k2 : 0 < T.r l - r2 := by linarith
      have k3 : 0 < T.r l - r3 := by linarith
      have k4 : 0 < T.r l - r4 := by linarith
      positivity
  · refine velocity_deriv hUt.ne' (fun l => (hd l).2.1) (fun l => (hd l).2.2.2)
      (fun l h => ?_) (fun l => hasDerivAt_Theta (hsin l)) (fun l => continuousAt_Thetadot (hsin l)) ?_ lam
    · rw [Theta_eq_Zpol (hsin l), (D.polarEq hb l).2.2.2 h, zero_div]
    · have hpos : ∀ l, T.theta l = (polarSolutionsCore a (E, L, Q) zm zp).pos (m'.upsilonTheta * l + q.qtheta) := by
        intro l; rw [D.hT]; rfl
      by_cases hz : zm = 0
      · left
        intro l
        have hth : T.theta l = π / 2 := by
          rw [hpos, polar_pos_eq H, hz, Real.sqrt_zero, zero_mul, Real.arccos_zero]
        have hQ : Q = 0 := by
          have := H.root
          rw [hz] at this
          simpa [Spec.Zpol] using this
        rw [hth]
        simp [Spec.Theta, Thetadot, hQ]
      · right
        intro l hs
        rw [Theta_eq_Zpol (hsin l)]
        refine div_ne_zero ?_ (pow_ne_zero 2 (hsin l))
        rw [hpos]
        exact polar_strict H hz hs

/-- **C53.** Along every stable trajectory outside the horizon, at every Mino time (turning points included), the
four-velocity returned by `four_velocity` solves the second-order geodesic equation of the metric returned
by `metric`; the proper time runs at the rate `dτ/dλ = Σ`. -/
theorem C53_geodesic_equation (lam : ℝ) :
    let U := fourVelocity a T (E, L, Q) m.upsilonR m.upsilonTheta q
    Spec.GeodesicAt (kerrMetric a) T.toCurve U.toCurve (Spec.Sigma a (T.r lam) (T.theta lam)) lam := by
  intro U
  obtain ⟨m', zm, zp, D⟩ := stableData_of ha hT hc hr
  obtain rfl := D.mino_eq hm
  have hS : ∀ l, 0 < Spec.Sigma a (T.r l) (T.theta l) := fun l => by
    have := (D.outside hb l).2
    have : 0 < T.r l := by linarith [Real.sqrt_nonneg (1 - a ^ 2)]
    unfold Spec.Sigma; positivity
  have hd := C21_radial_polar ha hT hm hc hr hb
  have ht := C22_time_azimuth ha hT hm hc hr hb
  have hf := C22_four_velocity ha hT hm hc hr hb
  have hU : U.toCurve = sepTangent a E L T
      (fun l => Real.sign (sin (m'.upsilonR * l + q.qr)) * √(Spec.R a E L Q (T.r l)))
      (fun l => Real.sign (sin (m'.upsilonTheta * l + q.qtheta)) * √(Spec.Theta a E L Q (T.theta l))) := by
    funext l
    obtain ⟨f0, f1, f2, f3⟩ := hf l
    exact toCurve_eq (hS l).ne' (f0.unique (ht l).1) (f1.unique (hd l).1) (f2.unique (hd l).2.1) (f3.unique (ht l).2)
  rw [hU]
  obtain ⟨s1, s2⟩ := stable_second_order ha hT hm hc hr hb lam
  have hsin : sin (T.theta lam) ≠ 0 := (D.polarEq hb lam).2.1.ne'
  refine geodesicAt_of_separated (hS lam).ne' (D.outside hb lam).1.ne' hsin (ht lam).1 (hd lam).1 (hd lam).2.1
    (ht lam).2 ?_ ?_ s1 s2
  · exact velocity_sq (f := T.r) (P := Spec.R a E L Q) (fun l => (hd l).2.2.1) (fun l h => (D.radial hb l).2.2 h) lam
  · refine velocity_sq (f := T.theta) (P := Spec.Theta a E L Q) (fun l => (hd l).2.2.2) (fun l h => ?_) lam
    rw [Theta_eq_Zpol (D.polarEq hb l).2.1.ne', (D.polarEq hb l).2.2.2 h, zero_div]

/-- **C53 (proper time).** There is a proper time `τ(λ)` with `dτ/dλ = Σ`, increasing from `-∞` to `∞`, and in
this parameter the trajectory is a timelike geodesic of the metric, defined for all proper times, whose unit
tangent is the four-velocity returned by `four_velocity`. -/
theorem C53_proper_time :
    let U := fourVelocity a T (E, L, Q) m.upsilonR m.upsilonTheta q
    ∃ tau mino : ℝ → ℝ, tau 0 = 0 ∧ StrictMono tau ∧ (∀ l, mino (tau l) = l) ∧ (∀ s, tau (mino s) = s)
      ∧ (∀ l, HasDerivAt tau (Spec.Sigma a (T.r l) (T.theta l)) l)
      ∧ Spec.TimelikeGeodesic (kerrMetric a) (fun s => T.toCurve (mino s)) (fun s => U.toCurve (mino s)) := by
  intro U
  obtain ⟨m', zm, zp, D⟩ := stableData_of ha hT hc hr
  have hd := C21_radial_polar ha hT hm hc hr hb
  have hcont : Continuous fun l => Spec.Sigma a (T.r l) (T.theta l) := by
    have h1 : Continuous T.r := continuous_iff_continuousAt.mpr fun l => (hd l).1.continuousAt
    have h2 : Continuous T.theta := continuous_iff_continuousAt.mpr fun l => (hd l).2.1.continuousAt
    unfold Spec.Sigma; fun_prop
  have hS : ∀ l, 1 ≤ Spec.Sigma a (T.r l) (T.theta l) := fun l => by
    have := (D.outside hb l).2
    have : 1 ≤ T.r l := by linarith [Real.sqrt_nonneg (1 - a ^ 2)]
    have h2 : 1 ≤ T.r l ^ 2 := one_le_pow₀ this
    have h3 : 0 ≤ a ^ 2 * cos (T.theta l) ^ 2 := by positivity
    unfold Spec.Sigma; linarith
  obtain ⟨tau, mino, hz, hmono, i1, i2, htau, hmino⟩ := exists_proper_time hcont one_pos hS
  refine ⟨tau, mino, hz, hmono, i1, i2, htau, fun s => ⟨?_, ?_⟩⟩
  · refine GeodesicAt.reparam (C53_geodesic_equation ha hT hm hc hr hb (mino s)) ?_ (hmino s)
    linarith [hS (mino s)]
  · exact (C23_norm ha hT hm hc hr hb (mino s)).1

end

/-! ## Plunges -/

/-- `four_velocity` in separated form, wherever the potentials are non-negative. -/
lemma fourVelocity_toCurve {a E L Q uR uTheta l : ℝ} {T : Traj} {q : Phases} (hsin : 0 < sin (T.theta l))
    (hS : Spec.Sigma a (T.r l) (T.theta l) ≠ 0) (hR : 0 ≤ Spec.R a E L Q (T.r l))
    (hTh : 0 ≤ Spec.Theta a E L Q (T.theta l))
    (hr0 : sin (uR * l + q.qr) = 0 → Spec.R a E L Q (T.r l) = 0)
    (hth0 : sin (uTheta * l + q.qtheta) = 0 → Spec.Theta a E L Q (T.theta l) = 0) :
    (fourVelocity a T (E, L, Q) uR uTheta q).toCurve l = sepTangent a E L T
      (fun l => Real.sign (sin (uR * l + q.qr)) * √(Spec.R a E L Q (T.r l)))
      (fun l => Real.sign (sin (uTheta * l + q.qtheta)) * √(Spec.Theta a E L Q (T.theta l))) l := by
  obtain ⟨c0, -, -, c3⟩ := C01_components a T E L Q uR uTheta l q hsin.ne' hS hR hTh
  have hS' : T.r l ^ 2 + a ^ 2 * cos (T.theta l) ^ 2 ≠ 0 := hS
  refine toCurve_eq hS c0 ?_ ?_ c3
  · have hfv : fvR a E L Q (T.r l) = Spec.R a E L Q (T.r l) := by
      unfold fvR Spec.R Spec.Delta; ring
    simp only [fourVelocity, Spec.Sigma, hfv, abs_of_nonneg hR]
    rw [mul_div_cancel₀ _ hS']
    unfold copysign1
    rcases lt_trichotomy (sin (uR * l + q.qr)) 0 with h | h | h
    · rw [if_pos h, Real.sign_of_neg h]
    · rw [hr0 h]; simp
    · rw [if_neg (not_lt.mpr h.le), Real.sign_of_pos h]
  · have hZ : fvZ a E L Q (cos (T.theta l)) = sin (T.theta l) ^ 2 * Spec.Theta a E L Q (T.theta l) := by
      unfold fvZ Spec.Theta
      have h1 : cos (T.theta l) ^ 2 = 1 - sin (T.theta l) ^ 2 := by rw [Real.cos_sq']
      rw [show cos (T.theta l) ^ 4 = (cos (T.theta l) ^ 2) ^ 2 by ring, h1]
      field_simp
      ring
    simp only [fourVelocity, Spec.Sigma, hZ]
    rw [abs_of_nonneg (mul_nonneg (by positivity) hTh), Real.sqrt_mul (by positivity),
      Real.sqrt_sq hsin.le]
    have : copysign1 (sin (uTheta * l + q.qtheta)) * √(Spec.Theta a E L Q (T.theta l))
        = Real.sign (sin (uTheta * l + q.qtheta)) * √(Spec.Theta a E L Q (T.theta l)) := by
      unfold copysign1
      rcases lt_trichotomy (sin (uTheta * l + q.qtheta)) 0 with h | h | h
      · rw [if_pos h, Real.sign_of_neg h]
      · rw [hth0 h]; simp
      · rw [if_neg (not_lt.mpr h.le), Real.sign_of_pos h]
    rw [← this]
    have := hsin.ne'
    field_simp

lemma GeodesicAt.congr_tangent {g : (Fin 4 → ℝ) → Matrix (Fin 4) (Fin 4) ℝ} {X U V : ℝ → Fin 4 → ℝ}
    {σ s : ℝ} (h : Spec.GeodesicAt g X V σ s) (hUV : U =ᶠ[𝓝 s] V) : Spec.GeodesicAt g X U σ s := by
  have e := hUV.self_of_nhds
  refine ⟨fun μ => by rw [e]; exact h.1 μ, fun μ => ?_⟩
  obtain ⟨dg, h1, h2⟩ := h.2 μ
  refine ⟨dg, h1, ?_⟩
  rw [e]
  refine h2.congr_of_eventuallyEq ?_
  filter_upwards [hUV] with y hy
  rw [hy]

/-- The common core for plunges. -/
lemma plunge_core {a E L Q uR uTheta lam : ℝ} {T : Traj} {q : Phases} (hu : uR ≠ 0) (hut : uTheta ≠ 0)
    (hsin : ∀ l, 0 < sin (T.theta l)) (hR : ∀ l, 0 ≤ Spec.R a E L Q (T.r l))
    (hTh : ∀ l, 0 ≤ Spec.Theta a E L Q (T.theta l))
    (hr : ∀ l, HasDerivAt T.r (Real.sign (sin (uR * l + q.qr)) * √(Spec.R a E L Q (T.r l))) l)
    (hth : ∀ l, HasDerivAt T.theta
      (Real.sign (sin (uTheta * l + q.qtheta)) * √(Spec.Theta a E L Q (T.theta l))) l)
    (hr0 : ∀ l, sin (uR * l + q.qr) = 0 → Spec.R a E L Q (T.r l) = 0)
    (hth0 : ∀ l, sin (uTheta * l + q.qtheta) = 0 → Spec.Theta a E L Q (T.theta l) = 0)
    (hrs : ∀ l, sin (uR * l + q.qr) ≠ 0 → Spec.R a E L Q (T.r l) ≠ 0)
    (hths : (∀ l, T.theta l = π / 2 ∧ Q = 0) ∨
      ∀ l, sin (uTheta * l + q.qtheta) ≠ 0 → Spec.Theta a E L Q (T.theta l) ≠ 0)
    (hS : Spec.Sigma a (T.r lam) (T.theta lam) ≠ 0) (hD : Spec.Delta a (T.r lam) ≠ 0)
    (ht : HasDerivAt T.t (Spec.dtdlam a E L (T.r lam) (T.theta lam)) lam)
    (hphi : HasDerivAt T.phi (Spec.dphidlam a E L (T.r lam) (T.theta lam)) lam) :
    Spec.GeodesicAt (kerrMetric a) T.toCurve (fourVelocity a T (E, L, Q) uR uTheta q).toCurve
      (Spec.Sigma a (T.r lam) (T.theta lam)) lam := by
  have s1 := velocity_deriv hu hr hR hr0 (fun l => hasDerivAt_Rdot a E L Q _)
    (fun l => continuousAt_Rdot _ _ _ _ _) (.inr hrs) lam
  have s2 := velocity_deriv hut hth hTh hth0 (fun l => hasDerivAt_Theta (hsin l).ne')
    (fun l => continuousAt_Thetadot (hsin l).ne') (hths.imp_left fun h l => by
      rw [(h l).1]; simp [Spec.Theta, Thetadot, (h l).2]) lam
  refine GeodesicAt.congr_tangent (geodesicAt_of_separated hS hD (hsin lam).ne' ht (hr lam) (hth lam) hphi
    (velocity_sq hR hr0 lam) (velocity_sq hTh hth0 lam) s1 s2) ?_
  have hSc : ContinuousAt (fun l => Spec.Sigma a (T.r l) (T.theta l)) lam := by
    have h1 := (hr lam).continuousAt
    have h2 := (hth lam).continuousAt
    unfold Spec.Sigma; fun_prop
  filter_upwards [hSc.eventually_ne hS] with l hl
  exact fourVelocity_toCurve (hsin l) hl (hR l) (hTh l) (hr0 l) (hth0 l)

lemma radial_strict {a r1 r2 r3 r4 : ℝ} {cs : Consts} (H : RootsConfig r1 r2 r3 r4) (h21 : r2 < r1) {q : ℝ}
    (hs : sin q ≠ 0) : r2 < (radialSolutions a cs (r1, r2, r3, r4)).pos q
      ∧ (radialSolutions a cs (r1, r2, r3, r4)).pos q < r1 := by
  have hsn : sin (amR (mR r1 r2 r3 r4) q) ≠ 0 ∧ cos (amR (mR r1 r2 r3 r4) q) ≠ 0 := by
    have hsg := sign_sn_cn H.mR_lt q
    have : sin (2 * amR (mR r1 r2 r3 r4) q) ≠ 0 := by
      intro h0
      unfold amR at h0
      rw [h0, Real.sign_zero] at hsg
      exact hs (Real.sign_eq_zero_iff.mp hsg.symm)
    rw [Real.sin_two_mul] at this
    exact ⟨fun h => this (by rw [h]; ring), fun h => this (by rw [h]; ring)⟩
  have hr' : (radialSolutions a cs (r1, r2, r3, r4)).pos q
      = rOf r1 r2 r3 (sin (amR (mR r1 r2 r3 r4) q) ^ 2) := by
    rw [radial_pos_eq H]; rfl
  have hb' := H.r_mem (amR (mR r1 r2 r3 r4) q)
  rw [hr']
  generalize amR (mR r1 r2 r3 r4) q = w at *
  have hs1 : sin w ^ 2 ≤ 1 := Real.sin_sq_le_one w
  have hD := H.denom_ne (sin w) hs1
  have e1 := rOf_sub_r2 _ hD
  have e2 := r1_sub_rOf _ hD
  have n1 : rOf r1 r2 r3 (sin w ^ 2) - r2 ≠ 0 := by
    rw [e1]
    exact div_ne_zero (mul_ne_zero (mul_ne_zero (by linarith) H.ne23) (pow_ne_zero 2 hsn.1)) hD
  have n2 : r1 - rOf r1 r2 r3 (sin w ^ 2) ≠ 0 := by
    rw [e2, show 1 - sin w ^ 2 = cos w ^ 2 by linarith [Real.sin_sq_add_cos_sq w]]
    exact div_ne_zero (mul_ne_zero (mul_ne_zero (by linarith) H.ne13) (pow_ne_zero 2 hsn.2)) hD
  exact ⟨lt_of_le_of_ne hb'.1 fun h => n1 (by linarith), lt_of_le_of_ne hb'.2 fun h => n2 (by linarith)⟩

section
variable {a E L Q r1 r2 r3 r4 uR uTheta : ℝ} {q : Phases} {T : Traj}
  (ha : a ≠ 0) (ha1 : a ^ 2 < 1) (hE : E ^ 2 < 1) (hL : L ≠ 0)
  (hr : plungingRadialRoots a E L Q = .ok (.real r1 r2 r3 r4)) (hsep : r3 < r2 ∨ r1 < r4)
  (hu : plungingMinoFrequencies a E L Q = .ok (uR, uTheta))
  (hT : plungingTrajectoryNat a E L Q q = .ok T)
include ha ha1 hE hL hr hsep hu hT

/-- **C53 (plunges with four real roots).** At every Mino time at which the particle is not on a horizon, the
trajectory solves the second-order geodesic equation of the metric, with the four-velocity returned by
`four_velocity`. -/
theorem C53_real_plunge (hQ0 : 0 < Q)
    (hh : ∀ rh, Spec.Delta a rh = 0 → E * (rh ^ 2 + a ^ 2) ≠ a * L) (lam : ℝ)
    (hD : Spec.Delta a (T.r lam) ≠ 0) :
    let U := fourVelocity a T (E, L, Q) uR uTheta q
    Spec.GeodesicAt (kerrMetric a) T.toCurve U.toCurve (Spec.Sigma a (T.r lam) (T.theta lam)) lam := by
  intro U
  have hQ := hQ0.le
  obtain ⟨hU, -⟩ := C50_range ha hE hL hQ hr hsep hu hT
  have h := C50_radial_polar ha hE hL hQ hr hsep hu hT
  obtain ⟨hS, -⟩ := C50_four_velocity ha ha1 hE hL hQ hr hsep hu hT hQ0 hh lam hD
  obtain ⟨ht, hphi⟩ := C50_time_azimuth ha ha1 hE hL hQ hr hsep hu hT hh lam hD
  obtain ⟨o2, o1, o3⟩ := C50_horizons ha1 hE hQ hr hh
  have h21 : r2 < r1 := by linarith [Real.sqrt_nonneg (1 - a ^ 2)]
  have HR := realConfig_of hE hr hsep
  obtain ⟨hroots, -, h43, -⟩ := C30_real a E L Q r1 r2 r3 r4 hE.ne hr
  obtain ⟨zm, zp, HP, -, hUR, hUT, T', hT', hTr, hTth, -⟩ := real_calls ha hE hL hQ hr hu hT
  have er : ∀ l, T.r l = (radialSolutions a (E, L, Q) (r1, r2, r3, r4)).pos (uR * l + q.qr) := fun l => by
    rw [hTr, hT', hUR]; rfl
  have eth : ∀ l, T.theta l = (polarSolutionsCore a (E, L, Q) zm zp).pos (uTheta * l + q.qtheta) := fun l => by
    rw [hTth, hT', hUT, ← fromConstants_upsilonTheta (Q := Q) (r1 := r1) (r2 := r2) (r3 := r3) (r4 := r4) ha HP]
    rfl
  have hUt : 0 < uTheta := by
    rw [hUT]
    have := ellipk_pos HP.mT_lt
    have := HP.W_pos
    positivity
  have hz : zm ≠ 0 := by
    intro hz
    have := HP.root
    rw [hz] at this
    have : Q = 0 := by simpa [Spec.Zpol] using this
    linarith
  refine plunge_core hU.ne' hUt.ne' (fun l => (h l).2.2.2.1) (fun l => (h l).1) (fun l => (h l).2.2.2.2.1)
    (fun l => (h l).2.1) (fun l => (h l).2.2.2.2.2.1) (fun l => (h l).2.2.1) (fun l => (h l).2.2.2.2.2.2)
    (fun l hs => ?_) (.inr fun l hs => ?_) hS.ne' hD (ht hQ0.ne') hphi
  · obtain ⟨g1, g2⟩ := radial_strict (a := a) (cs := (E, L, Q)) HR h21 hs
    rw [← er] at g1 g2
    rw [hroots]
    have k0 : 1 - E ^ 2 ≠ 0 := by linarith
    have k1 : r1 - T.r l ≠ 0 := by linarith
    have k2 : T.r l - r2 ≠ 0 := by linarith
    have k3 : T.r l - r3 ≠ 0 := by
      intro h; rcases hsep with hs | hs <;> linarith
    have k4 : T.r l - r4 ≠ 0 := by
      intro h; rcases hsep with hs | hs <;> linarith
    positivity
  · have hsn := (h l).2.2.2.1.ne'
    rw [Theta_eq_Zpol hsn]
    refine div_ne_zero ?_ (pow_ne_zero 2 hsn)
    rw [eth]
    exact polar_strict HP hz hs

end

section
variable {a E L Q r1 r2 uR uTheta : ℝ} {r3 r4 : ℂ} {q : Phases} {T : Traj}
  (hE : E ^ 2 < 1)
  (hr : plungingRadialRoots a E L Q = .ok (.cplx r1 r2 r3 r4))
  (hu : plungingMinoFrequencies a E L Q = .ok (uR, uTheta))
  (hT : plungingTrajectoryNat a E L Q q = .ok T)
include hE hr hu hT

/-- **C53 (plunges with two complex roots).** At every Mino time at which the particle is not on a horizon
(or at one of the removable poles of the closed form, see C47), the trajectory solves the second-order
geodesic equation of the metric, with the four-velocity returned by `four_velocity`. -/
theorem C53_complex_plunge (ha : a ≠ 0) (ha1 : a ^ 2 < 1) (hQ : 0 ≤ Q)
    (hax : L ≠ 0 ∨ Q < a ^ 2 * (1 - E ^ 2))
    (hAB : r1 + r2 ≠ 2 * r3.re)
    (hh : ∀ rh, Spec.Delta a rh = 0 → E * (rh ^ 2 + a ^ 2) ≠ a * L) (lam : ℝ)
    (hsing : ∀ rh, Spec.Delta a rh = 0 → T.r lam ≠ rh ∧
      ((r2 - r3.re) ^ 2 + r4.im ^ 2) * (T.r lam - r1) * (rh - r1)
        ≠ ((r1 - r3.re) ^ 2 + r4.im ^ 2) * (r2 - T.r lam) * (r2 - rh))
    (hS : Spec.Sigma a (T.r lam) (T.theta lam) ≠ 0) :
    let U := fourVelocity a T (E, L, Q) uR uTheta q
    Spec.GeodesicAt (kerrMetric a) T.toCurve U.toCurve (Spec.Sigma a (T.r lam) (T.theta lam)) lam := by
  intro U
  have hD : Spec.Delta a (T.r lam) ≠ 0 := fun h => (hsing _ h).1 rfl
  have hrad := C31_radial_equation hE hr hu hT
  obtain ⟨hU, -⟩ := C31_period hE hr hu hT
  obtain ⟨hUt, zmx, -, -, -, -, hth⟩ := C32_polar_equation hE hr hu hT ha hQ hax
  obtain ⟨ht, hphi⟩ := C47_plunge_time_azimuth hE hr hu hT ha ha1 hQ hax hAB hh lam hsing
  have hR := (C30_complex a E L Q r1 r2 r3 r4 hE.ne hr).2.2.2
  have hr0 := C31_turning hE hr hu hT
  have hth0 := C32_turning hE hr hu hT ha hQ hax
  have H := cplxConfig_of hE hr
  have P : PlungePolar a E L Q := ⟨ha, hE, hQ, hax⟩
  have h12 : r1 < r2 := by
    have hsq : √(1 - a ^ 2) ^ 2 = 1 - a ^ 2 := Real.sq_sqrt (by linarith)
    have dp : Spec.Delta a (1 + √(1 - a ^ 2)) = 0 := by unfold Spec.Delta; linear_combination hsq
    have hne := hh _ dp
    have hRp := hR (1 + √(1 - a ^ 2))
    rw [show Spec.R a E L Q (1 + √(1 - a ^ 2))
      = (E * ((1 + √(1 - a ^ 2)) ^ 2 + a ^ 2) - a * L) ^ 2 by rw [Spec.R, dp]; ring] at hRp
    have hpos : 0 < (E * ((1 + √(1 - a ^ 2)) ^ 2 + a ^ 2) - a * L) ^ 2 := by
      have := sub_ne_zero.mpr hne
      positivity
    refine lt_of_le_of_ne H.h12 fun h => ?_
    rw [hRp, h] at hpos
    have k0 : 0 < 1 - E ^ 2 := by linarith
    generalize 1 + √(1 - a ^ 2) = y at *
    have : (1 - E ^ 2) * (r2 - y) * (y - r2) * ((y - r3.re) ^ 2 + r4.im ^ 2)
      = -((1 - E ^ 2) * (r2 - y) ^ 2 * ((y - r3.re) ^ 2 + r4.im ^ 2)) := by ring
    rw [this] at hpos
    have : 0 ≤ (1 - E ^ 2) * (r2 - y) ^ 2 * ((y - r3.re) ^ 2 + r4.im ^ 2) := by positivity
    linarith
  obtain ⟨h1, h2⟩ := cplx_calls q hr
  rw [h1, Except.ok.injEq, Prod.mk.injEq] at hu
  rw [h2, Except.ok.injEq] at hT
  obtain ⟨z0, z1, zp, hZ⟩ := P.roots
  have er : ∀ l, T.r l = rC r1 r2 r3.re r4.im (cos (amC (mC r1 r2 r3.re r4.im) (uR * l + q.qr))) := fun l => by
    rw [← hT, cplx_r H, hu.1]
  have eth : ∀ l, T.theta l = arccos (√(plungeZm a E L Q) * sin (amC (plungeKTheta a E L Q ^ 2)
        (uTheta * l + (q.qtheta + π / 2)))) := fun l => by
    rw [← hT, ← hu.2]; exact P.pos_eq _
  refine plunge_core hU.ne' hUt.ne' (fun l => (hth l).2.1) (fun l => (hrad l).2.2.1) (fun l => (hth l).2.2.1)
    (fun l => (hrad l).2.2.2) (fun l => (hth l).2.2.2) hr0 hth0 (fun l hs => ?_) ?_ hS hD ht hphi
  · have hsg := sign_amC H.mC_lt (uR * l + q.qr)
    have hsn : sin (amC (mC r1 r2 r3.re r4.im) (uR * l + q.qr)) ≠ 0 := by
      intro h0
      rw [h0, Real.sign_zero] at hsg
      exact hs (Real.sign_eq_zero_iff.mp hsg.symm)
    rw [hR, er]
    have hpot := H.pot (neg_one_le_cos (amC (mC r1 r2 r3.re r4.im) (uR * l + q.qr))) (cos_le_one _)
    have hDp := H.D_pos (neg_one_le_cos (amC (mC r1 r2 r3.re r4.im) (uR * l + q.qr))) (cos_le_one _)
    rw [show ∀ w k1 k2 k3 : ℝ, w * k1 * k2 * k3 = w * (k1 * k2 * k3) by intros; ring, hpot, ← Real.sin_sq]
    have h1 := one_sub_mul_sin_sq_pos H.mC_lt (amC (mC r1 r2 r3.re r4.im) (uR * l + q.qr))
    have hA := H.A_pos
    have hB := H.B_pos
    have k0 : 0 < 1 - E ^ 2 := by linarith
    have k1 : 0 < r2 - r1 := by linarith
    positivity
  · by_cases hz : plungeZm a E L Q = 0
    · left
      intro l
      refine ⟨by rw [eth, hz, Real.sqrt_zero, zero_mul, Real.arccos_zero], ?_⟩
      have := hZ 0
      rw [hz] at this
      simpa [Spec.Zpol] using this
    · right
      intro l hs
      rw [Theta_eq_Zpol (hth l).2.1.ne']
      refine div_ne_zero ?_ (pow_ne_zero 2 (hth l).2.1.ne')
      have hsg := sign_cos_amC P.k_bounds.2 (uTheta * l + (q.qtheta + π / 2))
      have hcs : cos (amC (plungeKTheta a E L Q ^ 2) (uTheta * l + (q.qtheta + π / 2))) ≠ 0 := by
        intro h0
        rw [h0, Real.sign_zero, ← add_assoc, Real.cos_add_pi_div_two] at hsg
        exact hs (neg_eq_zero.mp (Real.sign_eq_zero_iff.mp hsg.symm))
      rw [eth, cos_sq_polar z0 z1, hZ]
      have hc2 := Real.sin_sq_add_cos_sq (amC (plungeKTheta a E L Q ^ 2) (uTheta * l + (q.qtheta + π / 2)))
      have hc3 : 0 < cos (amC (plungeKTheta a E L Q ^ 2) (uTheta * l + (q.qtheta + π / 2))) ^ 2 := by positivity
      have hs0 := sq_nonneg (sin (amC (plungeKTheta a E L Q ^ 2) (uTheta * l + (q.qtheta + π / 2))))
      generalize sin (amC (plungeKTheta a E L Q ^ 2) (uTheta * l + (q.qtheta + π / 2))) ^ 2 = w at *
      have hzm : 0 < plungeZm a E L Q := lt_of_le_of_ne z0 (Ne.symm hz)
      have k1 : plungeZm a E L Q * w < plungeZm a E L Q := by nlinarith
      refine mul_ne_zero (mul_ne_zero P.c_pos.ne' ?_) ?_ <;> linarith

end

end KGP
