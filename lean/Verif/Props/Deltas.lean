import Verif.Props.GeodesicApi

/-!
# C24: the functions returned by `trajectory_deltas` of a stable orbit
-/

namespace KGP

open Classical Real

section
variable {n m : ℝ} (hn : n < 1) (hm : m < 1)

/-- the oscillating part of an incomplete integral of the third kind -/
noncomputable def piOsc (n m q : ℝ) : ℝ := ellippiincK (amR m q) n m - q / π * ellippiK n m
/-- the oscillating part of an incomplete integral of the second kind -/
noncomputable def eOsc (m q : ℝ) : ℝ := ellipeincK (amR m q) m - q / π * ellipe m

include hm in
lemma eOsc_add (q : ℝ) : eOsc m (q + 2 * π) = eOsc m q := by
  unfold eOsc
  have hpi := Real.pi_ne_zero
  rw [amR_add hm, ellipeincK_eq hm, ellipeincK_eq hm]
  have h := (evenPer_E m).integral_add_pi (amR m q)
  have h2 : ellipe m = ∫ t in (0:ℝ)..(π/2), √(1 - m * sin t ^ 2) := rfl
  unfold Spec.E
  rw [h, ← h2]; field_simp; ring

include hm in
lemma eOsc_neg (q : ℝ) : eOsc m (-q) = -eOsc m q := by
  unfold eOsc
  rw [amR_neg hm, ellipeincK_eq hm, ellipeincK_eq hm]
  have h := (evenPer_E m).integral_neg' (amR m q)
  unfold Spec.E
  rw [h]; ring

include hn hm in
lemma piOsc_add (q : ℝ) : piOsc n m (q + 2 * π) = piOsc n m q := by
  unfold piOsc
  have hpi := Real.pi_ne_zero
  rw [amR_add hm, ellippiincK_eq hn hm, ellippiincK_eq hn hm, ellippiK_eq hn hm]
  have h : Spec.Pi n (amR m q + π) m = Spec.Pi n (amR m q) m + 2 * Spec.Pi n (π / 2) m :=
    (evenPer_Pi hn hm).integral_add_pi (amR m q)
  rw [h]; field_simp; ring

include hn hm in
lemma piOsc_neg (q : ℝ) : piOsc n m (-q) = -piOsc n m q := by
  unfold piOsc
  rw [amR_neg hm, ellippiincK_eq hn hm, ellippiincK_eq hn hm]
  have h := (evenPer_Pi hn hm).integral_neg' (amR m q)
  unfold Spec.Pi
  rw [h]; ring

end

section
variable {a E L Q r1 r2 r3 r4 : ℝ} (H : RootsConfig r1 r2 r3 r4)
include H

lemma RootsConfig.hR_lt : (r1 - r2) / (r1 - r3) < 1 := by
  have h13 := H.ne13
  have : 1 - (r1 - r2) / (r1 - r3) = ((r1 - r3) * (r2 - r3)) / (r1 - r3) ^ 2 := by field_simp; ring
  have h2 : 0 < 1 - (r1 - r2) / (r1 - r3) := by
    rw [this]; have := H.pos13_23; positivity
  linarith

/-- the term with `sn cn dn` -/
noncomputable def gOsc (h m q : ℝ) : ℝ :=
  h * sin (amR m q) * cos (amR m q) * √(1 - m * sin (amR m q) ^ 2) / (h * sin (amR m q) ^ 2 - 1)

lemma RootsConfig.dt_eq (q : ℝ) : (radialSolutions a (E, L, Q) (r1, r2, r3, r4)).dt q =
    let m := mR r1 r2 r3 r4
    let hR := (r1 - r2) / (r1 - r3)
    let rp := 1 + √(1 - a ^ 2)
    let rm := 1 - √(1 - a ^ 2)
    2 / √((1 - E ^ 2) * (r1 - r3) * (r2 - r4))
      * (E / 2 * ((r2 - r3) * (r1 + r2 + r3 + r4) * piOsc hR m q
          + (r1 - r3) * (r2 - r4) * (eOsc m q + gOsc hR m q))
        + 2 * E * (r2 - r3) * piOsc hR m q
        - 2 / (rp - rm)
          * (((4 * E - a * L) * rp - 2 * a ^ 2 * E) * (r2 - r3) / ((r3 - rp) * (r2 - rp))
              * piOsc (hPM r1 r2 r3 rp) m q
            - ((4 * E - a * L) * rm - 2 * a ^ 2 * E) * (r2 - r3) / ((r3 - rm) * (r2 - rm))
              * piOsc (hPM r1 r2 r3 rm) m q)) := by
  simp only [radialSolutions, H.sq_k, ellipj, amR, hPM, piOsc, eOsc, gOsc]
  ring

lemma RootsConfig.dphi_eq (q : ℝ) : (radialSolutions a (E, L, Q) (r1, r2, r3, r4)).dphi q =
    let m := mR r1 r2 r3 r4
    let rp := 1 + √(1 - a ^ 2)
    let rm := 1 - √(1 - a ^ 2)
    (-2) * a / ((rp - rm) * √((1 - E ^ 2) * (r1 - r3) * (r2 - r4)))
        * ((2 * E * rp - a * L) * (r2 - r3) / ((r3 - rp) * (r2 - rp)) * piOsc (hPM r1 r2 r3 rp) m q
          - (2 * E * rm - a * L) * (r2 - r3) / ((r3 - rm) * (r2 - rm)) * piOsc (hPM r1 r2 r3 rm) m q) := by
  simp only [radialSolutions, H.sq_k, ellipj, amR, hPM, piOsc]

lemma RootsConfig.dt_dphi_osc (hp : 1 + √(1 - a ^ 2) < r2) :
    let R := radialSolutions a (E, L, Q) (r1, r2, r3, r4)
    Function.Periodic R.dt (2 * π) ∧ Function.Periodic R.dphi (2 * π)
    ∧ (∀ q, R.dt (-q) = -R.dt q) ∧ (∀ q, R.dphi (-q) = -R.dphi q) := by
  intro R
  have hm := H.mR_lt
  have h1 := H.hR_lt
  have h2 := H.hPM_lt hp
  have h3 := H.hPM_lt (show 1 - √(1 - a ^ 2) < r2 by linarith [Real.sqrt_nonneg (1 - a ^ 2)])
  have g1 : ∀ q, gOsc ((r1 - r2) / (r1 - r3)) (mR r1 r2 r3 r4) (q + 2 * π)
      = gOsc ((r1 - r2) / (r1 - r3)) (mR r1 r2 r3 r4) q := by
    intro q
    unfold gOsc
    rw [amR_add hm, Real.sin_add_pi, Real.cos_add_pi, neg_sq]; ring
  have g2 : ∀ q, gOsc ((r1 - r2) / (r1 - r3)) (mR r1 r2 r3 r4) (-q)
      = -gOsc ((r1 - r2) / (r1 - r3)) (mR r1 r2 r3 r4) q := by
    intro q
    unfold gOsc
    rw [amR_neg hm, Real.sin_neg, Real.cos_neg, neg_sq]; ring
  refine ⟨fun q => ?_, fun q => ?_, fun q => ?_, fun q => ?_⟩
  · simp only [R, H.dt_eq, piOsc_add h1 hm, piOsc_add h2 hm, piOsc_add h3 hm, eOsc_add hm, g1]
  · simp only [R, H.dphi_eq, piOsc_add h2 hm, piOsc_add h3 hm]
  · simp only [R, H.dt_eq, piOsc_neg h1 hm, piOsc_neg h2 hm, piOsc_neg h3 hm, eOsc_neg hm, g2]
    ring
  · simp only [R, H.dphi_eq, piOsc_neg h2 hm, piOsc_neg h3 hm]
    ring

end

lemma PolarConfig.dt_dphi_osc {a E L Q zm zp : ℝ} (H : PolarConfig a E L Q zm zp) :
    let P := polarSolutionsCore a (E, L, Q) zm zp
    Function.Periodic P.dt (2 * π) ∧ Function.Periodic P.dphi (2 * π) := by
  intro P
  have hm := H.mT_lt
  have hpi := Real.pi_ne_zero
  constructor
  · intro q
    have : ∀ q, P.dt q = Real.sign L * a2sqrtZpOverE0 a E L zm zp * E / L
        * (2 / π * ellipe (mT a zm zp) * (q + π / 2)
          - Spec.E (amT (mT a zm zp) q) (mT a zm zp)) := by
      intro q
      simp only [P, polarSolutionsCore, H.sq_k, ellipj, amT, ellipeincK_eq hm]
    rw [this, this, amT_add hm]
    have h := (evenPer_E (mT a zm zp)).integral_add_int_pi (amT (mT a zm zp) q) 2
    push_cast at h
    have h2 : ellipe (mT a zm zp) = ∫ t in (0:ℝ)..(π/2), √(1 - mT a zm zp * sin t ^ 2) := rfl
    unfold Spec.E
    rw [h, ← h2]; field_simp; ring
  · intro q
    have : ∀ q, P.dphi q = Real.sign L * 1 / √(e0zpOf a E L zm)
        * (Spec.Pi zm (amT (mT a zm zp) q) (mT a zm zp)
          - 2 / π * ellippiK zm (mT a zm zp) * (q + π / 2)) := by
      intro q
      simp only [P, polarSolutionsCore, H.sq_k, ellipj, amT, ellippiincK_eq H.z1 hm]
    rw [this, this, amT_add hm, ellippiK_eq H.z1 hm]
    have h : Spec.Pi zm (amT (mT a zm zp) q + (2 : ℤ) * π) (mT a zm zp)
        = Spec.Pi zm (amT (mT a zm zp) q) (mT a zm zp)
          + 2 * (2 : ℤ) * Spec.Pi zm (π / 2) (mT a zm zp) :=
      (evenPer_Pi H.z1 hm).integral_add_int_pi (amT (mT a zm zp) q) 2
    push_cast at h
    rw [h]; field_simp; ring

/-! ## objects -/

/-- What is known about a `StableOrbit` object and a trajectory obtained from it. -/
lemma stableOrbit_facts {rs : RootScalar} {a p e x : ℝ} {q q' : Phases} {M mu : Option ℝ}
    {o : OrbitObj} {pos vel : Vec4} (h : mkStableOrbit rs a p e x q M mu = .ok (o, pos, vel)) :
    0 ≤ o.a ∧ o.stable = true ∧ ∃ p' e' x', o.apex = (p', e', x') ∧
    constantsOfMotion rs o.a p' e' x' = .ok o.consts
    ∧ minoFrequencies rs o.a p' e' x' = .ok ⟨o.upsilonR, o.upsilonTheta, o.upsilonPhi, o.gamma⟩
    ∧ o.trajectoryNat rs (some q') = stableTrajectoryNat rs o.a p' e' x' q' := by
  obtain ⟨h1, h2, h3, -, -, -, h4, h5, -, -, -⟩ := C41_attributes rs a p e x q M mu o pos vel h
  refine ⟨by rw [h1]; exact abs_nonneg a, h3, _, _, _, h2, ?_, ?_, ?_⟩
  · rw [h1, ← sx_eq, ← h4]; exact constantsOfMotion_std rs a p e x
  · rw [h1, ← sx_eq, ← h5, minoFrequencies_eq, minoFrequencies_eq]
    rw [show |a| = sa a from rfl, sa_sa, sx_sa]
  · unfold OrbitObj.trajectoryNat
    simp only [h2, h3, Option.getD_some, if_true]

section
variable {rs : RootScalar} {a p e x : ℝ} {q : Phases} {M mu : Option ℝ}
  {o : OrbitObj} {pos vel : Vec4} (h : mkStableOrbit rs a p e x q M mu = .ok (o, pos, vel))
  {E L Q r1 r2 r3 r4 : ℝ} (hcs : o.consts = (E, L, Q))
  (hr : stableRadialRoots rs o.a o.apex.1 o.apex.2.1 o.apex.2.2 = .ok (r1, r2, r3, r4))
  (hb : Spec.BoundGeodesic o.a E L Q r1 r2 r3 r4)
include h hcs hr hb

/-- **C21, C22 (objects).** For a `StableOrbit`, spin of either sign and any phases, the derivatives of
`trajectory` are `Σ` times `four_velocity`. -/
theorem C22_object (q' : Phases) (T U : Traj) (hT : o.trajectoryNat rs (some q') = .ok T)
    (hU : o.fourVelocity rs (some q') = .ok U) (lam : ℝ) :
    let S := Spec.Sigma o.a (T.r lam) (T.theta lam)
    HasDerivAt T.t (S * U.t lam) lam ∧ HasDerivAt T.r (S * U.r lam) lam
    ∧ HasDerivAt T.theta (S * U.theta lam) lam ∧ HasDerivAt T.phi (S * U.phi lam) lam := by
  obtain ⟨h0, hs, p', e', x', hap, hc, hm, ht⟩ := stableOrbit_facts (q' := q') h
  simp only [hap] at hr
  have hU' := hU
  unfold OrbitObj.fourVelocity at hU'
  simp only [Option.getD_some, hT, bind_ok] at hU'
  rw [hcs] at hc hU'
  cases Except.ok.inj hU'
  exact C22_four_velocity h0 (ht ▸ hT) hm hc hr hb lam

/-- **C23 (objects).** `_four_velocity_norm` is the constant function -1. -/
theorem C23_object (q' : Phases) : ∃ f, o.fourVelocityNorm rs (some q') = .ok f ∧ ∀ lam, f lam = -1 := by
  obtain ⟨h0, hs, p', e', x', hap, hc, hm, ht⟩ := stableOrbit_facts (q' := q') h
  simp only [hap] at hr
  obtain ⟨T, hT⟩ : ∃ T, stableTrajectoryNat rs o.a p' e' x' q' = .ok T :=
    ⟨_, stableTrajectoryNat_of hm hc q'⟩
  refine ⟨fun time => norm4 o.a (T.t time) (T.r time) (T.theta time) (T.phi time)
    ((KGP.fourVelocity o.a T o.consts o.upsilonR o.upsilonTheta q').at time), ?_, fun lam => ?_⟩
  · unfold OrbitObj.fourVelocityNorm OrbitObj.fourVelocity
    simp only [Option.getD_some, ht, hT, bind_ok, pure, Except.pure]
  · have hc' : constantsOfMotion rs o.a p' e' x' = .ok (E, L, Q) := hcs ▸ hc
    have := (C23_norm h0 hT hm hc' hr hb lam).1
    simp only [hcs]
    exact this

/-- **C24.** The four functions returned by `trajectory_deltas` of a `StableOrbit` are `2π`-periodic;
`t_r` and `phi_r` are odd about radial phase zero. -/
theorem C24_deltas (q' : Phases) : ∃ D, o.trajectoryDeltas rs (some q') = .ok D
    ∧ (∀ y, D.dtR (y + 2 * π) = D.dtR y) ∧ (∀ y, D.dphiR (y + 2 * π) = D.dphiR y)
    ∧ (∀ y, D.dtTheta (y + 2 * π) = D.dtTheta y) ∧ (∀ y, D.dphiTheta (y + 2 * π) = D.dphiTheta y)
    ∧ (∀ y, D.dtR (-y - q'.qr) = -D.dtR (y - q'.qr))
    ∧ (∀ y, D.dphiR (-y - q'.qr) = -D.dphiR (y - q'.qr)) := by
  obtain ⟨h0, hs, p', e', x', hap, hc, hm, ht⟩ := stableOrbit_facts (q' := q') h
  simp only [hap] at hr
  rw [hcs] at hc
  obtain ⟨T, hT⟩ : ∃ T, stableTrajectoryNat rs o.a p' e' x' q' = .ok T :=
    ⟨_, stableTrajectoryNat_of hm hc q'⟩
  obtain ⟨m', zm, zp, D⟩ := stableData_of h0 hT hc hr
  have HP := D.polar hb.energy hb.nonpolar
  have HR := BoundGeodesic.config hb
  refine ⟨deltasOf (radialSolutions o.a (E, L, Q) (r1, r2, r3, r4))
    (polarSolutionsCore o.a (E, L, Q) zm zp) q'.qr q'.qtheta, ?_, ?_⟩
  · have h1 := D.hrr
    have h2 := D.hzz
    unfold OrbitObj.trajectoryDeltas
    simp only [hs, if_true, hap, hcs, Option.getD_some, stableRadialRoots, stablePolarRoots,
      constantsOr, pure_bind]
    rw [h1, h2]
    rfl
  · obtain ⟨a1, a2, a3, a4⟩ := HR.dt_dphi_osc (a := o.a) (E := E) (L := L) (Q := Q)
      (lt_trans hb.horizon hb.r32)
    obtain ⟨b1, b2⟩ := HP.dt_dphi_osc
    simp only [deltasOf]
    refine ⟨fun y => ?_, fun y => ?_, fun y => ?_, fun y => ?_, fun y => ?_, fun y => ?_⟩
    · rw [add_right_comm]; exact a1 _
    · rw [add_right_comm]; exact a2 _
    · rw [add_right_comm]; exact b1 _
    · rw [add_right_comm]; exact b2 _
    · rw [sub_add_cancel, sub_add_cancel]; exact a3 y
    · rw [sub_add_cancel, sub_add_cancel]; exact a4 y

end

/-- Non-vacuity: a Schwarzschild orbit of either orientation and any phases meets the hypotheses of
C20–C24. -/
example (rs : RootScalar) (q : Phases) : ∃ T m E L Q r1 r2 r3 r4,
    stableTrajectoryNat rs 0 10 (1 / 2) (-3 / 5) q = .ok T
    ∧ minoFrequencies rs 0 10 (1 / 2) (-3 / 5) = .ok m
    ∧ constantsOfMotion rs 0 10 (1 / 2) (-3 / 5) = .ok (E, L, Q)
    ∧ stableRadialRoots rs 0 10 (1 / 2) (-3 / 5) = .ok (r1, r2, r3, r4)
    ∧ Spec.BoundGeodesic 0 E L Q r1 r2 r3 r4 := by
  have hb : Spec.BoundOrbit rs 0 10 (1 / 2) (-3 / 5) := by
    obtain ⟨s, hs, hv⟩ := C15_separatrix_returns rs 0 (1 / 2) (-3 / 5) le_rfl one_pos (by norm_num)
      (by norm_num) (by norm_num) (by norm_num)
    refine ⟨by norm_num, by norm_num, by norm_num [abs_le], s, ?_, ?_⟩
    · simpa [Spec.signedX] using hs
    · rw [hv.zero rfl]; norm_num
  obtain ⟨E, L, Q, r1, r2, r3, r4, h1, h2, h3⟩ := schwarzschild_boundGeodesic rs 10 (1 / 2) (-3 / 5) hb
    (by norm_num) (by norm_num)
  obtain ⟨m, hm⟩ := (C12_frequency_contract rs 0 10 (1 / 2) (-3 / 5) none none none).2.2.2.2.1.1.mpr
    ⟨hb, by norm_num, by norm_num⟩
  exact ⟨_, m, E, L, Q, r1, r2, r3, r4, stableTrajectoryNat_of hm h1 q, hm, h1, h2, h3⟩

end KGP
