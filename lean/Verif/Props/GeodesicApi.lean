import Verif.Props.Geodesic
import Verif.Props.Objects

/-!
# C20–C25: the trajectory returned for a stable orbit is a geodesic (statements)

The hypotheses shared by the theorems: `stable_trajectory` returned `T` for a non-negative spin, and
the constants and radial roots returned for the same parameters are those of a bound geodesic outside
the horizon (`Spec.BoundGeodesic`).  `schwarzschild_boundGeodesic` shows that the latter holds for
every Schwarzschild orbit accepted by the API.
-/

namespace KGP

open Classical Real

lemma StableData.mino_eq {rs : RootScalar} {a p e x : ℝ} {q : Phases} {T : Traj} {m m' : MinoFreqs}
    {E L Q r1 r2 r3 r4 zm zp : ℝ} (D : StableData rs a p e x q T m' E L Q r1 r2 r3 r4 zm zp)
    (hm : minoFrequencies rs a p e x = .ok m) : m' = m :=
  Except.ok.inj (D.mino.symm.trans hm)

/-! ## all Schwarzschild orbits are instances -/

/-- For `a = 0` every accepted non-polar orbit satisfies the hypotheses of the theorems below. -/
theorem schwarzschild_boundGeodesic (rs : RootScalar) (p e x : ℝ) (h : Spec.BoundOrbit rs 0 p e x)
    (he1 : e ≠ 1) (hx0 : x ≠ 0) : ∃ E L Q r1 r2 r3 r4,
      constantsOfMotion rs 0 p e x = .ok (E, L, Q)
      ∧ stableRadialRoots rs 0 p e x = .ok (r1, r2, r3, r4)
      ∧ Spec.BoundGeodesic 0 E L Q r1 r2 r3 r4 := by
  obtain ⟨E, L, Q, hc, hE0, hE1, hLp, hLn, hQ, hTP⟩ := C07_turning rs p e x h he1
  obtain ⟨⟨he, hel⟩, hx, hp⟩ := schwarzschild_bound h
  have hlt : e < 1 := lt_of_le_of_ne hel he1
  have hE2 : E ^ 2 = ((p - 2) ^ 2 - 4 * e ^ 2) / (p * (p - 3 - e ^ 2)) := by
    have := C07_constants rs p e x h
    rw [hc] at this
    have := Except.ok.inj this
    simp only [Prod.mk.injEq] at this
    rw [this.1, Real.sq_sqrt]
    exact div_nonneg (by nlinarith) (mul_nonneg (by linarith) (by nlinarith))
  have hee : e ^ 2 < 1 := by nlinarith
  have hp3 : 0 < p - 3 - e ^ 2 := by nlinarith
  have hp0 : 0 < p := by linarith
  have hbeta : 1 - E ^ 2 = (1 - e ^ 2) * (p - 4) / (p * (p - 3 - e ^ 2)) := by
    rw [hE2]; field_simp; ring
  have h1e : 0 < 1 - e := by linarith
  have h1e' : 0 < 1 + e := by linarith
  have hp4 : 0 < p - 4 := by linarith
  have hS : 2 / (1 - E ^ 2) - p / (1 - e) - p / (1 + e) = 2 * p / (p - 4) := by
    rw [hbeta]
    have : (1 - e ^ 2) ≠ 0 := by linarith
    rw [show (1 - e ^ 2) = (1 - e) * (1 + e) by ring]
    field_simp
    ring
  have hroot : stableRadialRoots rs 0 p e x
      = .ok (p / (1 - e), p / (1 + e), 2 * p / (p - 4), 0) := by
    unfold stableRadialRoots
    simp only [constantsOr, hc, bind_ok]
    unfold stableRadialRootsCore
    have h3 : 0 < 2 * p / (p - 4) := by positivity
    have h0 : (0:ℝ) ^ 2 * Q / (p / (1 - e) * (p / (1 + e)) * (1 - E ^ 2)) = 0 := by simp
    simp only [hS, h0]
    have h4 : √((2 * p / (p - 4)) ^ 2 - 4 * 0) = 2 * p / (p - 4) := by
      rw [mul_zero, sub_zero, Real.sqrt_sq h3.le]
    rw [h4]
    simp only [zero_div]
    rw [show (2 * p / (p - 4) + 2 * p / (p - 4)) / 2 = 2 * p / (p - 4) by ring]
    rfl
  refine ⟨E, L, Q, _, _, _, _, hc, hroot, ?_⟩
  have hL : L ≠ 0 := by
    rcases lt_or_gt_of_ne hx0 with h | h
    · exact (hLn h).ne
    · exact (hLp h).ne'
  refine ⟨by nlinarith, hL, ?_, by positivity, ?_, ?_, ?_⟩
  · have hf := C08_factorisation rs 0 p e x E L Q (by nlinarith) hp0.ne' hlt.ne (by linarith) hTP
    have h3 : 0 < 2 * p / (p - 4) := by positivity
    have h0 : (0:ℝ) ^ 2 * Q / (p / (1 - e) * (p / (1 + e)) * (1 - E ^ 2)) = 0 := by simp
    simp only [hS, h0] at hf
    obtain ⟨r3, r4, hh, hR⟩ := hf (by nlinarith) (by have := Real.sqrt_nonneg ((2 * p / (p - 4)) ^ 2 - 4 * 0); linarith)
    have : stableRadialRoots rs 0 p e x (some (E, L, Q)) = stableRadialRoots rs 0 p e x := by
      unfold stableRadialRoots; simp only [constantsOr, hc]; rfl
    rw [this, hroot] at hh
    have := Except.ok.inj hh
    simp only [Prod.mk.injEq] at this
    obtain ⟨-, -, h5, h6⟩ := this
    subst h6
    rw [h5]; exact hR
  · rw [div_lt_div_iff₀ hp4 h1e']; nlinarith
  · exact div_le_div_of_nonneg_left hp0.le h1e (by linarith)
  · rw [show (1:ℝ) - 0 ^ 2 = 1 by ring, Real.sqrt_one, lt_div_iff₀ hp4]; linarith

section
variable {rs : RootScalar} {a p e x : ℝ} {q : Phases} {T : Traj} {m : MinoFreqs}
  {E L Q r1 r2 r3 r4 : ℝ}

/-! ## C20 -/

lemma radial_periodic {cs : Consts} (H : RootsConfig r1 r2 r3 r4) :
    Function.Periodic (radialSolutions a cs (r1, r2, r3, r4)).pos (2 * π) := by
  intro q
  rw [radial_pos_eq H, radial_pos_eq H]
  have := amR_add H.mR_lt q
  unfold amR at this
  rw [this, Real.sin_add_pi, neg_sq]

lemma radial_at_zero {cs : Consts} (H : RootsConfig r1 r2 r3 r4) :
    (radialSolutions a cs (r1, r2, r3, r4)).pos 0 = r2 := by
  rw [radial_pos_eq H]
  have := amR_zero H.mR_lt
  unfold amR at this
  rw [this, Real.sin_zero, zero_pow two_ne_zero, rOf_zero H.ne13]

lemma radial_at_pi {cs : Consts} (H : RootsConfig r1 r2 r3 r4) :
    (radialSolutions a cs (r1, r2, r3, r4)).pos π = r1 := by
  rw [radial_pos_eq H]
  have := amR_pi H.mR_lt
  unfold amR at this
  rw [this, Real.sin_pi_div_two, one_pow, rOf_one H.ne23]

lemma polar_periodic {zm zp : ℝ} (H : PolarConfig a E L Q zm zp) :
    Function.Periodic (polarSolutionsCore a (E, L, Q) zm zp).pos (2 * π) := by
  intro q
  rw [polar_pos_eq H, polar_pos_eq H, amT_add H.mT_lt, Real.sin_add_two_pi]

lemma polar_at_zero {zm zp : ℝ} (H : PolarConfig a E L Q zm zp) :
    (polarSolutionsCore a (E, L, Q) zm zp).pos 0 = arccos (√zm) := by
  rw [polar_pos_eq H, amT_zero H.mT_lt, Real.sin_pi_div_two, mul_one]

lemma polar_at_pi {zm zp : ℝ} (H : PolarConfig a E L Q zm zp) :
    (polarSolutionsCore a (E, L, Q) zm zp).pos π = π - arccos (√zm) := by
  rw [polar_pos_eq H, amT_pi H.mT_lt, show 3 * π / 2 = π / 2 + π by ring, Real.sin_add_pi,
    Real.sin_pi_div_two, mul_neg_one, Real.arccos_neg]

variable (ha : 0 ≤ a) (hT : stableTrajectoryNat rs a p e x q = .ok T)
  (hm : minoFrequencies rs a p e x = .ok m)
  (hc : constantsOfMotion rs a p e x = .ok (E, L, Q))
  (hr : stableRadialRoots rs a p e x = .ok (r1, r2, r3, r4))
  (hb : Spec.BoundGeodesic a E L Q r1 r2 r3 r4)
include ha hT hm hc hr hb

/-- **C20 (radial).** `r` stays between `p/(1+e)` and `p/(1-e)`, is at the former whenever the radial
phase is a multiple of `2π`, at the latter whenever it is an odd multiple of `π`, strictly between
otherwise, and is periodic with period `2π/Υ_r`, where `Υ_r > 0`. -/
theorem C20_radial :
    (∀ lam, p / (1 + e) ≤ T.r lam ∧ T.r lam ≤ p / (1 - e))
    ∧ (∀ lam (k : ℤ), m.upsilonR * lam + q.qr = k * (2 * π) → T.r lam = p / (1 + e))
    ∧ (∀ lam (k : ℤ), m.upsilonR * lam + q.qr = k * (2 * π) + π → T.r lam = p / (1 - e))
    ∧ 0 < m.upsilonR
    ∧ (∀ lam, T.r (lam + 2 * π / m.upsilonR) = T.r lam)
    ∧ (e ≠ 0 → ∀ lam, sin (m.upsilonR * lam + q.qr) ≠ 0 →
        p / (1 + e) < T.r lam ∧ T.r lam < p / (1 - e)) := by
  obtain ⟨m', zm, zp, D⟩ := stableData_of ha hT hc hr
  obtain rfl := D.mino_eq hm
  have H := BoundGeodesic.config hb
  obtain ⟨h1, h2⟩ := D.roots12
  rw [← h1, ← h2]
  have hU : 0 < m'.upsilonR := by
    rw [D.upsilonR, rFrequencyCore_eq H]
    have hK := ellipk_pos H.mR_lt
    have : 0 < (1 - E ^ 2) * (r1 - r3) * (r2 - r4) := by
      rw [mul_assoc]; exact mul_pos (by linarith [hb.energy]) H.pos13_24
    positivity
  have hpos : ∀ lam, T.r lam = (radialSolutions a (E, L, Q) (r1, r2, r3, r4)).pos
      (m'.upsilonR * lam + q.qr) := fun lam => by rw [D.hT]; rfl
  have hper := radial_periodic (a := a) (cs := (E, L, Q)) H
  refine ⟨fun lam => D.r_bounds hb lam, ?_, ?_, hU, ?_, ?_⟩
  · intro lam k hk
    have := hper.int_mul k 0
    rw [zero_add] at this
    rw [hpos, hk, this, radial_at_zero H]
  · intro lam k hk
    have := hper.int_mul k π
    rw [add_comm] at this
    rw [hpos, hk, this, radial_at_pi H]
  · intro lam
    rw [hpos, hpos, show m'.upsilonR * (lam + 2 * π / m'.upsilonR) + q.qr
      = (m'.upsilonR * lam + q.qr) + 2 * π by field_simp; ring, hper]
  · intro he lam hs
    obtain ⟨hR0, hd, -⟩ := D.radial hb lam
    have hne : r2 < r1 := by
      rw [h1, h2]
      have he' : 0 < e := lt_of_le_of_ne D.ecc.1 (Ne.symm he)
      have he1 := D.ecc.2
      have hp : 0 < p := by
        have hpp : 0 < p / (1 + e) := by
          rw [← h2]; linarith [hb.horizon, hb.r32, Real.sqrt_nonneg (1 - a ^ 2)]
        have := mul_pos hpp (show 0 < 1 + e by linarith)
        rwa [div_mul_cancel₀ _ (by linarith : (1 + e) ≠ 0)] at this
      exact div_lt_div_of_pos_left hp (by linarith) (by linarith)
    have hb' := D.r_bounds hb lam
    have hsn : sin (amR (mR r1 r2 r3 r4) (m'.upsilonR * lam + q.qr)) ≠ 0
        ∧ cos (amR (mR r1 r2 r3 r4) (m'.upsilonR * lam + q.qr)) ≠ 0 := by
      have hsg := sign_sn_cn H.mR_lt (m'.upsilonR * lam + q.qr)
      have : sin (2 * amR (mR r1 r2 r3 r4) (m'.upsilonR * lam + q.qr)) ≠ 0 := by
        intro h0
        unfold amR at h0
        rw [h0, Real.sign_zero] at hsg
        exact hs (Real.sign_eq_zero_iff.mp hsg.symm)
      rw [Real.sin_two_mul] at this
      exact ⟨fun h => this (by rw [h]; ring), fun h => this (by rw [h]; ring)⟩
    have hr' : T.r lam = rOf r1 r2 r3 (sin (amR (mR r1 r2 r3 r4) (m'.upsilonR * lam + q.qr)) ^ 2) := by
      rw [hpos, radial_pos_eq H]; rfl
    generalize amR (mR r1 r2 r3 r4) (m'.upsilonR * lam + q.qr) = w at *
    have hs1 : sin w ^ 2 ≤ 1 := Real.sin_sq_le_one w
    have hD := H.denom_ne (sin w) hs1
    have e1 := rOf_sub_r2 _ hD
    have e2 := r1_sub_rOf _ hD
    rw [← hr'] at e1 e2
    have n1 : T.r lam - r2 ≠ 0 := by
      rw [e1]
      exact div_ne_zero (mul_ne_zero (mul_ne_zero (by linarith) H.ne23) (pow_ne_zero 2 hsn.1)) hD
    have n2 : r1 - T.r lam ≠ 0 := by
      rw [e2, show 1 - sin w ^ 2 = cos w ^ 2 by linarith [Real.sin_sq_add_cos_sq w]]
      exact div_ne_zero (mul_ne_zero (mul_ne_zero (by linarith) H.ne13) (pow_ne_zero 2 hsn.2)) hD
    exact ⟨lt_of_le_of_ne hb'.1 fun h => n1 (by linarith), lt_of_le_of_ne hb'.2 fun h => n2 (by linarith)⟩

/-- **C20 (polar).** `theta` stays in `[θ_min, π - θ_min]` with `cos² θ_min = 1 - x²`, is at `θ_min`
whenever the polar phase is a multiple of `2π`, at `π - θ_min` when it is an odd multiple of `π`, and
is periodic with period `2π/Υ_θ`, where `Υ_θ > 0`. -/
theorem C20_polar :
    let thMin := arccos (√(1 - x ^ 2))
    (∀ lam, thMin ≤ T.theta lam ∧ T.theta lam ≤ π - thMin)
    ∧ (∀ lam (k : ℤ), m.upsilonTheta * lam + q.qtheta = k * (2 * π) → T.theta lam = thMin)
    ∧ (∀ lam (k : ℤ), m.upsilonTheta * lam + q.qtheta = k * (2 * π) + π → T.theta lam = π - thMin)
    ∧ 0 < m.upsilonTheta
    ∧ (∀ lam, T.theta (lam + 2 * π / m.upsilonTheta) = T.theta lam) := by
  obtain ⟨m', zm, zp, D⟩ := stableData_of ha hT hc hr
  obtain rfl := D.mino_eq hm
  have H := D.polar hb.energy hb.nonpolar
  intro thMin
  have hth : thMin = arccos (√zm) := by rw [D.zm_eq]
  rw [hth]
  have hU : 0 < m'.upsilonTheta := by
    rw [D.upsilonTheta hb.energy hb.nonpolar]
    have hK := ellipk_pos H.mT_lt
    have := H.W_pos
    positivity
  have hpos : ∀ lam, T.theta lam = (polarSolutionsCore a (E, L, Q) zm zp).pos
      (m'.upsilonTheta * lam + q.qtheta) := fun lam => by rw [D.hT]; rfl
  have hper := polar_periodic H
  refine ⟨fun lam => ?_, ?_, ?_, hU, ?_⟩
  · rw [hpos, polar_pos_eq H]; exact polar_mem _
  · intro lam k hk
    have := hper.int_mul k 0
    rw [zero_add] at this
    rw [hpos, hk, this, polar_at_zero H]
  · intro lam k hk
    have := hper.int_mul k π
    rw [add_comm] at this
    rw [hpos, hk, this, polar_at_pi H]
  · intro lam
    rw [hpos, hpos, show m'.upsilonTheta * (lam + 2 * π / m'.upsilonTheta) + q.qtheta
      = (m'.upsilonTheta * lam + q.qtheta) + 2 * π by field_simp; ring, hper]

/-! ## C21, C22 -/

/-- **C21.** `dr/dλ = ±√R(r)` and `dθ/dλ = ±√Θ(θ)` at every Mino time, with the sign of the sine of
the phase. -/
theorem C21_radial_polar (lam : ℝ) :
    HasDerivAt T.r (Real.sign (sin (m.upsilonR * lam + q.qr)) * √(Spec.R a E L Q (T.r lam))) lam
    ∧ HasDerivAt T.theta (Real.sign (sin (m.upsilonTheta * lam + q.qtheta))
        * √(Spec.Theta a E L Q (T.theta lam))) lam
    ∧ 0 ≤ Spec.R a E L Q (T.r lam) ∧ 0 ≤ Spec.Theta a E L Q (T.theta lam) := by
  obtain ⟨m', zm, zp, D⟩ := stableData_of ha hT hc hr
  obtain rfl := D.mino_eq hm
  obtain ⟨h1, h2, -⟩ := D.radial hb lam
  obtain ⟨h3, h4, h5, -⟩ := D.polarEq hb lam
  have hTh : Spec.Theta a E L Q (T.theta lam)
      = Spec.Zpol a E L Q (cos (T.theta lam) ^ 2) / sin (T.theta lam) ^ 2 := by
    unfold Spec.Theta Spec.Zpol
    have hs := Real.sin_sq_add_cos_sq (T.theta lam)
    rw [eq_div_iff (by positivity)]
    field_simp
    linear_combination (Q - a ^ 2 * (1 - E ^ 2) * cos (T.theta lam) ^ 2) * hs
  refine ⟨h2, ?_, h1, by rw [hTh]; positivity⟩
  rw [hTh, Real.sqrt_div h3, Real.sqrt_sq h4.le]
  convert h5 using 1
  ring

/-- **C22.** `dt/dλ` and `dφ/dλ` at every Mino time. -/
theorem C22_time_azimuth (lam : ℝ) :
    HasDerivAt T.t (Spec.dtdlam a E L (T.r lam) (T.theta lam)) lam
    ∧ HasDerivAt T.phi (Spec.dphidlam a E L (T.r lam) (T.theta lam)) lam := by
  obtain ⟨m', zm, zp, D⟩ := stableData_of ha hT hc hr
  exact D.timeEq hb lam

/-- **C21, C22.** The trajectory is the integral curve of the four-velocity returned by
`four_velocity`: all four derivatives are `Σ` times its components. -/
theorem C22_four_velocity (lam : ℝ) :
    let U := fourVelocity a T (E, L, Q) m.upsilonR m.upsilonTheta q
    let S := Spec.Sigma a (T.r lam) (T.theta lam)
    HasDerivAt T.t (S * U.t lam) lam ∧ HasDerivAt T.r (S * U.r lam) lam
    ∧ HasDerivAt T.theta (S * U.theta lam) lam ∧ HasDerivAt T.phi (S * U.phi lam) lam := by
  intro U S
  obtain ⟨hr1, hth1, hR, hTh⟩ := C21_radial_polar ha hT hm hc hr hb lam
  obtain ⟨ht1, hphi1⟩ := C22_time_azimuth ha hT hm hc hr hb lam
  obtain ⟨m', zm, zp, D⟩ := stableData_of ha hT hc hr
  obtain rfl := D.mino_eq hm
  obtain ⟨-, -, hR0⟩ := D.radial hb lam
  obtain ⟨hZ, hsin, hth2, hZ0⟩ := D.polarEq hb lam
  have hout := (D.outside hb lam).2
  have hS : 0 < Spec.Sigma a (T.r lam) (T.theta lam) := by
    have : 0 < T.r lam := by linarith [Real.sqrt_nonneg (1 - a ^ 2)]
    unfold Spec.Sigma; positivity
  obtain ⟨c0, -, -, c3⟩ := C01_components a T E L Q m'.upsilonR m'.upsilonTheta lam q hsin.ne' hS.ne'
    hR hTh
  refine ⟨by rw [c0]; exact ht1, hr1.congr_deriv ?_, hth2.congr_deriv ?_, by rw [c3]; exact hphi1⟩
  · have hS' : T.r lam ^ 2 + a ^ 2 * cos (T.theta lam) ^ 2 ≠ 0 := hS.ne'
    have hfv : fvR a E L Q (T.r lam) = Spec.R a E L Q (T.r lam) := by
      unfold fvR Spec.R Spec.Delta; ring
    have : S * U.r lam = copysign1 (sin (m'.upsilonR * lam + q.qr)) * √(Spec.R a E L Q (T.r lam)) := by
      simp only [U, S, fourVelocity, Spec.Sigma, hfv, abs_of_nonneg hR]
      field_simp
    rw [this]
    unfold copysign1
    rcases lt_trichotomy (sin (m'.upsilonR * lam + q.qr)) 0 with h | h | h
    · rw [if_pos h, Real.sign_of_neg h]
    · rw [hR0 h]; simp
    · rw [if_neg (not_lt.mpr h.le), Real.sign_of_pos h]
  · have hS' : T.r lam ^ 2 + a ^ 2 * cos (T.theta lam) ^ 2 ≠ 0 := hS.ne'
    have hfv : fvZ a E L Q (cos (T.theta lam)) = Spec.Zpol a E L Q (cos (T.theta lam) ^ 2) := by
      unfold fvZ Spec.Zpol; ring
    have : S * U.theta lam = copysign1 (sin (m'.upsilonTheta * lam + q.qtheta))
        * √(Spec.Zpol a E L Q (cos (T.theta lam) ^ 2)) / sin (T.theta lam) := by
      simp only [U, S, fourVelocity, Spec.Sigma, hfv, abs_of_nonneg hZ]
      field_simp
    rw [this]
    unfold copysign1
    rcases lt_trichotomy (sin (m'.upsilonTheta * lam + q.qtheta)) 0 with h | h | h
    · rw [if_pos h, Real.sign_of_neg h]
    · rw [hZ0 h]; simp
    · rw [if_neg (not_lt.mpr h.le), Real.sign_of_pos h]

/-! ## C23 -/

/-- **C23.** Along the whole trajectory the four-velocity has norm -1, the point is outside the
horizon and off the axis, and `constants_from_initial_conditions` recovers the constants of motion. -/
theorem C23_norm (lam : ℝ) :
    let U := fourVelocity a T (E, L, Q) m.upsilonR m.upsilonTheta q
    norm4 a (T.t lam) (T.r lam) (T.theta lam) (T.phi lam) (U.at lam) = -1
    ∧ outerHorizon a < T.r lam ∧ 0 < sin (T.theta lam)
    ∧ constantsFromInitialConditions a (T.at lam) (U.at lam) = .ok (E, L, Q) := by
  intro U
  obtain ⟨-, -, hR, hTh⟩ := C21_radial_polar ha hT hm hc hr hb lam
  obtain ⟨m', zm, zp, D⟩ := stableData_of ha hT hc hr
  obtain rfl := D.mino_eq hm
  obtain ⟨-, hsin, -, -⟩ := D.polarEq hb lam
  obtain ⟨hD, hout⟩ := D.outside hb lam
  have hS : 0 < Spec.Sigma a (T.r lam) (T.theta lam) := by
    have : 0 < T.r lam := by linarith [Real.sqrt_nonneg (1 - a ^ 2)]
    unfold Spec.Sigma; positivity
  exact ⟨C01_norm a T E L Q _ _ lam q hsin.ne' hS.ne' hD.ne' hR hTh, hout, hsin,
    C02_roundtrip_four_velocity a T E L Q _ _ lam q hsin.ne' hS.ne' hD.ne' hR hTh⟩

end

end KGP
