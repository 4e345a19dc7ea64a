import Verif.Props.RoundTrip

/-!
# C49: an orbit can be restarted from any of its own points
-/

namespace KGP

open Classical Real

lemma amR_add_int {m : ℝ} (hm : m < 1) (q : ℝ) (k : ℤ) : amR m (q + k * (2 * π)) = amR m q + k * π := by
  unfold amR
  have := am_add_int hm (ellipk m * q / π) k
  rw [show ellipk m * (q + k * (2 * π)) / π = ellipk m * q / π + 2 * k * ellipk m by
    have := Real.pi_ne_zero; field_simp, this]

lemma amT_add_int {m : ℝ} (hm : m < 1) (q : ℝ) (k : ℤ) :
    amT m (q + k * (2 * π)) = amT m q + k * (2 * π) := by
  unfold amT
  have := am_add_int hm (2 / π * ellipk m * (q + π / 2)) (2 * k)
  push_cast at this
  rw [show 2 / π * ellipk m * (q + k * (2 * π) + π / 2)
    = 2 / π * ellipk m * (q + π / 2) + 2 * (2 * k) * ellipk m by
      have := Real.pi_ne_zero; field_simp; ring, this]
  ring

lemma amT_neg {m : ℝ} (hm : m < 1) (q : ℝ) : amT m (-q) = π - amT m q := by
  unfold amT
  rw [show 2 / π * ellipk m * (-q + π / 2) = 2 * ellipk m - 2 / π * ellipk m * (q + π / 2) by
      have := Real.pi_ne_zero; field_simp; ring, am_two_K_sub hm]

lemma amR_injective {m : ℝ} (hm : m < 1) : Function.Injective (amR m) := by
  intro y z h
  have h1 := (am_strictMono hm).injective h
  have hK := (ellipk_pos hm).ne'
  have := Real.pi_ne_zero
  field_simp at h1
  exact h1

lemma amT_injective {m : ℝ} (hm : m < 1) : Function.Injective (amT m) := by
  intro y z h
  have h1 := (am_strictMono hm).injective h
  have hK := (ellipk_pos hm).ne'
  have := Real.pi_ne_zero
  have h2 : y + π / 2 = z + π / 2 := mul_left_cancel₀ (by positivity) h1
  linarith

/-- Two phases that agree up to sign and a whole number of turns agree up to turns, if their sines do not
have opposite signs. -/
lemma turns_of_sign {q1 q2 : ℝ} {k : ℤ} (h : q2 = -q1 + k * (2 * π)) (hs : 0 ≤ sin q1 * sin q2) :
    ∃ j : ℤ, q2 = q1 + j * (2 * π) := by
  have h1 : sin q2 = -sin q1 := by rw [h, Real.sin_add_int_mul_two_pi, Real.sin_neg]
  have h2 : sin q1 = 0 := by
    rw [h1] at hs
    nlinarith [sq_nonneg (sin q1)]
  obtain ⟨n, hn⟩ := Real.sin_eq_zero_iff.mp h2
  refine ⟨k - n, ?_⟩
  rw [h, ← hn]; push_cast; ring

/-- The radial phase is determined, up to turns, by the position and the direction of motion. -/
lemma radial_phase_unique {m q1 q2 : ℝ} (hm : m < 1) (h : sin (amR m q1) ^ 2 = sin (amR m q2) ^ 2)
    (hs : 0 ≤ sin q1 * sin q2) : ∃ k : ℤ, q2 = q1 + k * (2 * π) := by
  have h1 : cos (2 * amR m q1) = cos (2 * amR m q2) := by
    rw [Real.cos_two_mul, Real.cos_two_mul, Real.cos_sq', Real.cos_sq', h]
  obtain ⟨k, hk | hk⟩ := Real.cos_eq_cos_iff.mp h1
  · refine ⟨k, amR_injective hm ?_⟩
    rw [amR_add_int hm]; linarith
  · refine turns_of_sign (k := k) (amR_injective hm ?_) hs
    rw [amR_add_int hm, amR_neg hm]; linarith

/-- The polar phase is determined, up to turns, by the position and the direction of motion. -/
lemma polar_phase_unique {m q1 q2 : ℝ} (hm : m < 1) (h : sin (amT m q1) = sin (amT m q2))
    (hs : 0 ≤ sin q1 * sin q2) : ∃ k : ℤ, q2 = q1 + k * (2 * π) := by
  have h1 : cos (amT m q1 - π / 2) = cos (amT m q2 - π / 2) := by
    rw [Real.cos_sub_pi_div_two, Real.cos_sub_pi_div_two, h]
  obtain ⟨k, hk | hk⟩ := Real.cos_eq_cos_iff.mp h1
  · refine ⟨k, amT_injective hm ?_⟩
    rw [amT_add_int hm]; linarith
  · refine turns_of_sign (k := k) (amT_injective hm ?_) hs
    rw [amT_add_int hm, amT_neg hm]; linarith

/-- Equal signed magnitudes: if the magnitude is not zero the two sines do not have opposite signs. -/
lemma sines_of_copysign {s1 s2 A B : ℝ} (hA : A ≠ 0) (hB : B ≠ 0)
    (h : copysign1 s1 * A / B = copysign1 s2 * A / B) : 0 ≤ s1 * s2 := by
  have h1 : copysign1 s1 = copysign1 s2 := by
    field_simp at h; exact h
  unfold copysign1 at h1
  split_ifs at h1 with k1 k2 k2
  · exact (mul_pos_of_neg_of_neg k1 k2).le
  · norm_num at h1
  · norm_num at h1
  · push Not at k1 k2; positivity

lemma rOf_injective {r1 r2 r3 r4 : ℝ} (H : RootsConfig r1 r2 r3 r4) (h12 : r2 < r1) {w v : ℝ}
    (h : rOf r1 r2 r3 (sin w ^ 2) = rOf r1 r2 r3 (sin v ^ 2)) : sin w ^ 2 = sin v ^ 2 := by
  have d1 := H.denom_ne (sin w) (Real.sin_sq_le_one w)
  have d2 := H.denom_ne (sin v) (Real.sin_sq_le_one v)
  have h1 : (r1 - r2) * (r2 - r3) * sin w ^ 2 / ((r1 - r3) - (r1 - r2) * sin w ^ 2)
      = (r1 - r2) * (r2 - r3) * sin v ^ 2 / ((r1 - r3) - (r1 - r2) * sin v ^ 2) := by
    rw [← rOf_sub_r2 _ d1, ← rOf_sub_r2 _ d2, h]
  rw [div_eq_div_iff d1 d2] at h1
  have h2 : (r1 - r2) * (r2 - r3) * (r1 - r3) * (sin w ^ 2 - sin v ^ 2) = 0 := by linear_combination h1
  have h3 := sub_pos.mpr h12
  rcases mul_eq_zero.mp h2 with h | h
  · exact absurd h (mul_ne_zero (mul_ne_zero h3.ne' H.ne23) H.ne13)
  · linarith

section
variable {rs : RootScalar} {a p e x E L Q r1 r2 r3 r4 : ℝ} {q q' : Phases} {T T' : Traj} {m : MinoFreqs}
  (ha : 0 ≤ a) (hT : stableTrajectoryNat rs a p e x q = .ok T)
  (hT' : stableTrajectoryNat rs a p e x q' = .ok T')
  (hm : minoFrequencies rs a p e x = .ok m)
  (hc : constantsOfMotion rs a p e x = .ok (E, L, Q))
  (hr : stableRadialRoots rs a p e x = .ok (r1, r2, r3, r4))
  (hb : Spec.BoundGeodesic a E L Q r1 r2 r3 r4)
include ha hT hT' hm hc hr hb

/-- A stable trajectory is determined by its position and four-velocity at one Mino time. -/
lemma trajectory_unique (l0 : ℝ) (hpos : T'.at 0 = T.at l0)
    (hvel : (fourVelocity a T' (E, L, Q) m.upsilonR m.upsilonTheta q').at 0
      = (fourVelocity a T (E, L, Q) m.upsilonR m.upsilonTheta q).at l0) :
    ∀ l, T'.at l = T.at (l0 + l) := by
  obtain ⟨m1, zm, zp, D⟩ := stableData_of ha hT hc hr
  obtain rfl : m1 = m := D.mino_eq hm
  obtain ⟨m2, zm', zp', D'⟩ := stableData_of ha hT' hc hr
  obtain rfl : m2 = m1 := D'.mino_eq hm
  obtain ⟨rfl, rfl⟩ : zm = zm' ∧ zp = zp' := by
    have := D.hzz.symm.trans D'.hzz
    simpa using this
  have HR := BoundGeodesic.config hb
  have HP := D.polar hb.energy hb.nonpolar
  simp only [Traj.at, Vec4.mk.injEq] at hpos hvel
  obtain ⟨pt, pr, pth, pphi⟩ := hpos
  obtain ⟨-, vr, vth, -⟩ := hvel
  obtain ⟨rb, -, -, -, -, rs1⟩ := C20_radial ha hT hm hc hr hb
  obtain ⟨rb', -, -, -, -, rs2⟩ := C20_radial ha hT' hm hc hr hb
  obtain ⟨tb, -, -, -, -⟩ := C20_polar ha hT hm hc hr hb
  obtain ⟨tb', -, -, -, -⟩ := C20_polar ha hT' hm hc hr hb
  obtain ⟨-, ho, hsin, -⟩ := C23_norm ha hT hm hc hr hb l0
  obtain ⟨e1, e2⟩ := D.roots12
  have hSig : T.r l0 ^ 2 + a ^ 2 * cos (T.theta l0) ^ 2 ≠ 0 := by
    have : 0 < T.r l0 := by
      unfold outerHorizon at ho
      linarith [Real.sqrt_nonneg (1 - a ^ 2)]
    positivity
  have hrT : ∀ l, T.r l = (radialSolutions a (E, L, Q) (r1, r2, r3, r4)).pos (m2.upsilonR * l + q.qr) := by
    intro l; rw [D.hT]; rfl
  have hrT' : ∀ l, T'.r l
      = (radialSolutions a (E, L, Q) (r1, r2, r3, r4)).pos (m2.upsilonR * l + q'.qr) := by
    intro l; rw [D'.hT]; rfl
  have htT : ∀ l, T.theta l = (polarSolutionsCore a (E, L, Q) zm zp).pos (m2.upsilonTheta * l + q.qtheta) := by
    intro l; rw [D.hT]; rfl
  have htT' : ∀ l, T'.theta l
      = (polarSolutionsCore a (E, L, Q) zm zp).pos (m2.upsilonTheta * l + q'.qtheta) := by
    intro l; rw [D'.hT]; rfl
  -- the radial motion
  have hR : ∀ l, T'.r l = T.r (l0 + l) := by
    by_cases he : e = 0
    · intro l
      have h1 := rb (l0 + l)
      have h2 := rb' l
      rw [he] at h1 h2
      norm_num at h1 h2
      linarith
    · have h12 : r2 < r1 := by
        rw [e1, e2]
        obtain ⟨k0, k1⟩ := D.ecc
        have : 0 < e := lt_of_le_of_ne k0 (Ne.symm he)
        have hp0 : 0 < p := by
          have h2 : 0 < r2 := by
            linarith [hb.horizon, hb.r32, Real.sqrt_nonneg (1 - a ^ 2)]
          rw [e2] at h2
          have := mul_pos h2 (by linarith : 0 < 1 + e)
          rwa [div_mul_cancel₀ _ (by linarith)] at this
        exact div_lt_div_of_pos_left hp0 (by linarith) (by linarith)
      have hs : 0 ≤ sin (m2.upsilonR * l0 + q.qr) * sin (m2.upsilonR * 0 + q'.qr) := by
        simp only [fourVelocity, pr, pth] at vr
        by_cases hz : √|fvR a E L Q (T.r l0)| = 0
        · by_contra hneg
          have h1 : sin (m2.upsilonR * l0 + q.qr) ≠ 0 := by
            intro h; rw [h, zero_mul] at hneg; exact hneg le_rfl
          obtain ⟨k1, k2⟩ := rs1 he l0 h1
          rw [← e1] at k2
          rw [← e2] at k1
          rw [Real.sqrt_eq_zero (abs_nonneg _), abs_eq_zero, fvR_eq, hb.roots] at hz
          have hE : 0 < 1 - E ^ 2 := by linarith [hb.energy]
          have h32 := hb.r32
          have h43 := hb.r43
          have : 0 < (1 - E ^ 2) * (r1 - T.r l0) * (T.r l0 - r2) * (T.r l0 - r3) * (T.r l0 - r4) := by
            have := sub_pos.mpr k1
            have := sub_pos.mpr k2
            have : 0 < T.r l0 - r3 := by linarith
            have : 0 < T.r l0 - r4 := by linarith
            positivity
          linarith
        · have := sines_of_copysign hz hSig vr
          linarith [mul_comm (sin (m2.upsilonR * l0 + q.qr)) (sin (m2.upsilonR * 0 + q'.qr))]
      have hS : sin (amR (mR r1 r2 r3 r4) (m2.upsilonR * l0 + q.qr)) ^ 2
          = sin (amR (mR r1 r2 r3 r4) (m2.upsilonR * 0 + q'.qr)) ^ 2 := by
        rw [hrT', hrT, radial_pos_eq HR, radial_pos_eq HR] at pr
        exact rOf_injective HR h12 pr.symm
      obtain ⟨k, hk⟩ := radial_phase_unique HR.mR_lt hS hs
      intro l
      rw [hrT, hrT', show m2.upsilonR * l + q'.qr = m2.upsilonR * (l0 + l) + q.qr + k * (2 * π) by
        linear_combination hk]
      exact (radial_periodic HR).int_mul k _
  have hTh : ∀ l, T'.theta l = T.theta (l0 + l) := by
    by_cases hz : zm = 0
    · intro l
      have h1 := tb (l0 + l)
      have h2 := tb' l
      rw [← D.zm_eq, hz, Real.sqrt_zero, Real.arccos_zero] at h1 h2
      linarith
    · have hz0 : 0 < zm := lt_of_le_of_ne HP.z0 (Ne.symm hz)
      have hsz : 0 < √zm := Real.sqrt_pos.mpr hz0
      have hs : 0 ≤ sin (m2.upsilonTheta * l0 + q.qtheta) * sin (m2.upsilonTheta * 0 + q'.qtheta) := by
        simp only [fourVelocity, pr, pth] at vth
        by_cases hzz : √|fvZ a E L Q (cos (T.theta l0))| = 0
        · have : sin (m2.upsilonTheta * l0 + q.qtheta) = 0 := by
            rw [Real.sqrt_eq_zero (abs_nonneg _), abs_eq_zero] at hzz
            have hz2 : Spec.Zpol a E L Q (cos (T.theta l0) ^ 2) = 0 := by
              rw [← hzz]; unfold Spec.Zpol fvZ; ring
            rw [htT, polar_pos_eq HP, cos_sq_polar HP.z0 HP.z1, HP.Z_factor] at hz2
            have hW := HP.W_pos
            have hmT := HP.mT_lt
            have hmT0 := HP.mT_nonneg
            set w := amT (mT a zm zp) (m2.upsilonTheta * l0 + q.qtheta) with hw
            have hS1 : sin w ^ 2 ≤ 1 := Real.sin_sq_le_one w
            have h1 : 0 < 1 - mT a zm zp * sin w ^ 2 := by nlinarith [sq_nonneg (sin w)]
            have h2 : 1 - sin w ^ 2 = 0 := by
              rcases mul_eq_zero.mp hz2 with h | h
              · rcases mul_eq_zero.mp h with h | h
                · exact absurd h (by positivity)
                · exact h
              · exact absurd h h1.ne'
            have h3 : cos w = 0 := by
              have := Real.sin_sq_add_cos_sq w
              exact pow_eq_zero_iff two_ne_zero |>.mp (by linarith)
            have := sign_neg_cn HP.mT_lt (m2.upsilonTheta * l0 + q.qtheta)
            unfold amT at hw
            rw [← hw, h3, neg_zero, Real.sign_zero] at this
            exact Real.sign_eq_zero_iff.mp this.symm
          rw [this, zero_mul]
        · have := sines_of_copysign hzz (mul_ne_zero hSig hsin.ne') vth
          linarith [mul_comm (sin (m2.upsilonTheta * l0 + q.qtheta))
            (sin (m2.upsilonTheta * 0 + q'.qtheta))]
      have hS : sin (amT (mT a zm zp) (m2.upsilonTheta * l0 + q.qtheta))
          = sin (amT (mT a zm zp) (m2.upsilonTheta * 0 + q'.qtheta)) := by
        rw [htT', htT, polar_pos_eq HP, polar_pos_eq HP] at pth
        have := congrArg cos pth
        rw [cos_polar HP.z0 HP.z1, cos_polar HP.z0 HP.z1] at this
        exact (mul_left_cancel₀ hsz.ne' this).symm
      obtain ⟨k, hk⟩ := polar_phase_unique HP.mT_lt hS hs
      intro l
      rw [htT, htT', show m2.upsilonTheta * l + q'.qtheta
          = m2.upsilonTheta * (l0 + l) + q.qtheta + k * (2 * π) by linear_combination hk]
      exact (polar_periodic HP).int_mul k _
  -- time and azimuth have the same derivatives
  have key : ∀ f g : ℝ → ℝ, ∀ d : ℝ → ℝ, (∀ l, HasDerivAt f (d l) l) → (∀ l, HasDerivAt g (d l) l) →
      f 0 = g 0 → f = g := by
    intro f g d hf hg h0
    have hd : ∀ l, HasDerivAt (fun l => f l - g l) 0 l := fun l => by
      have := (hf l).sub (hg l); rw [sub_self] at this; exact this
    have hdiff : Differentiable ℝ (fun l => f l - g l) := fun l => (hd l).differentiableAt
    funext l
    have := is_const_of_deriv_eq_zero hdiff (fun l => (hd l).deriv) l 0
    simp only [h0, sub_self] at this
    linarith
  have hshift : ∀ f d : ℝ → ℝ, (∀ l, HasDerivAt f (d l) l) →
      ∀ l, HasDerivAt (fun l => f (l0 + l)) (d (l0 + l)) l := by
    intro f d hf l
    have := (hf (l0 + l)).comp_const_add l0 l
    simpa using this
  have ht := key T'.t (fun l => T.t (l0 + l)) (fun l => Spec.dtdlam a E L (T.r (l0 + l)) (T.theta (l0 + l)))
    (fun l => by rw [← hR, ← hTh]; exact (C22_time_azimuth ha hT' hm hc hr hb l).1)
    (hshift T.t (fun l => Spec.dtdlam a E L (T.r l) (T.theta l))
      (fun l => (C22_time_azimuth ha hT hm hc hr hb l).1)) (by simpa using pt)
  have hphi := key T'.phi (fun l => T.phi (l0 + l))
    (fun l => Spec.dphidlam a E L (T.r (l0 + l)) (T.theta (l0 + l)))
    (fun l => by rw [← hR, ← hTh]; exact (C22_time_azimuth ha hT' hm hc hr hb l).2)
    (hshift T.phi (fun l => Spec.dphidlam a E L (T.r l) (T.theta l))
      (fun l => (C22_time_azimuth ha hT hm hc hr hb l).2)) (by simpa using pphi)
  intro l
  simp only [Traj.at, hR, hTh, ht, hphi]

end

/-- **C49.** Restarting a stable orbit.  Take any `StableOrbit`, any of its points and the four-velocity there
(`r` and `θ` exactly at a turning point or at least the classification tolerance `1e-4` away from it).  `Orbit`
built from that position and velocity is accepted as stable, has the same constants, parameters and
frequencies, and its trajectory and four-velocity at every Mino time are those of the original orbit, shifted
by the Mino time of the chosen point. -/
theorem C49_restart (rs : RootScalar) (a p e x : ℝ) (q : Phases) (M mu : Option ℝ)
    (h : Spec.BoundOrbit rs a p e x) (ha : 0 < a) (he1 : e ≠ 1) (hx0 : x ≠ 0)
    (hp : 0 < x → p ≤ 4 → Spec.DivisorsNonzero a p e x)
    (hne : x < 0 ∨ ∀ E L Q, constantsOfMotion rs a p e x = .ok (E, L, Q) →
      E * ((1 + √(1 - a ^ 2)) ^ 2 + a ^ 2) ≠ a * L)
    (o : OrbitObj) (pos0 vel0 : Vec4) (ho : mkStableOrbit rs a p e x q M mu = .ok (o, pos0, vel0))
    (T U : Traj) (hT : o.trajectoryNat rs = .ok T) (hU : o.fourVelocity rs = .ok U) (l0 : ℝ)
    (c1 : Spec.ClearOf 1e-4 (T.r l0) (p / (1 - e))) (c2 : Spec.ClearOf 1e-4 (T.r l0) (p / (1 + e)))
    (c3 : Spec.ClearOf 1e-4 (T.theta l0) (arccos (√(1 - x ^ 2))))
    (c4 : Spec.ClearOf 1e-4 (T.theta l0) (π - arccos (√(1 - x ^ 2)))) :
    ∃ o' T' U', mkOrbit rs a (T.at l0) (U.at l0) M mu = .ok o'
      ∧ o'.stable = true ∧ o'.a = o.a ∧ o'.consts = o.consts ∧ o'.apex = o.apex
      ∧ o'.upsilonR = o.upsilonR ∧ o'.upsilonTheta = o.upsilonTheta
      ∧ o'.trajectoryNat rs = .ok T' ∧ o'.fourVelocity rs = .ok U'
      ∧ ∀ l, T'.at l = T.at (l0 + l) ∧ U'.at l = U.at (l0 + l) := by
  obtain ⟨T1, m, E, L, Q, r1, r2, r3, r4, hT1, hm, hc, hr, hb, hE, hE1, hL, hQ, hf, hr2, e2⟩ :=
    kerr_hyps q h ha he1 hx0 hp hne
  obtain ⟨k1, k2, k3, -, -, k6, k7, k8, -, -⟩ := C41_attributes rs a p e x q M mu o pos0 vel0 ho
  rw [abs_of_pos ha] at k1
  have hsx : Spec.signedX a x = x := by unfold Spec.signedX; rw [if_neg (not_lt.mpr ha.le)]
  rw [hsx] at k2
  have hcs : o.consts = (E, L, Q) := Except.ok.inj (k7.symm.trans hc)
  have hmm := Except.ok.inj (k8.symm.trans hm)
  have u1 : o.upsilonR = m.upsilonR := by rw [← hmm]
  have u2 : o.upsilonTheta = m.upsilonTheta := by rw [← hmm]
  have hTo : ∀ q', o.trajectoryNat rs (some q') = stableTrajectoryNat rs a p e x q' := by
    intro q'
    unfold OrbitObj.trajectoryNat
    simp only [Option.getD_some, k3, if_true, k1, k2]
  have hT2 : o.trajectoryNat rs = o.trajectoryNat rs (some q) := by
    unfold OrbitObj.trajectoryNat
    simp only [Option.getD_some, Option.getD_none, k6]
  obtain rfl : T1 = T := by
    rw [hT2, hTo] at hT
    exact Except.ok.inj (hT1.symm.trans hT)
  obtain rfl : fourVelocity a T1 (E, L, Q) m.upsilonR m.upsilonTheta q = U := by
    unfold OrbitObj.fourVelocity at hU
    simp only [Option.getD_none, k6, hTo, hT1, bind_ok, pure, Except.pure, k1, hcs, u1, u2] at hU
    exact Except.ok.inj hU
  obtain ⟨n1, n2, n3, n4⟩ := C23_norm ha.le hT1 hm hc hr hb l0
  obtain ⟨m', zm, zp, D⟩ := stableData_of ha.le hT1 hc hr
  obtain ⟨b1, b2⟩ := D.r_bounds hb l0
  obtain ⟨d1, d2⟩ := D.roots12
  have ha1 := D.spin.2
  obtain ⟨o', x', h1, h2, h3, h4, h5, h6, h7⟩ := C34_stable_accepted rs M mu ha ha1 n4 n1 n3.ne' hE hE1
    hb.nonpolar hb.roots hb.r43 hb.r32 hb.r21 (by linarith [hb.horizon, hb.r32]) b1 b2
  obtain ⟨E', L', Q', p', e', x'', m'', g1, g2, g3, g4, g5, g6, g7, g8, g9⟩ := mkOrbit_stable h1 h2
  obtain ⟨E2, L2, Q2, f1, f2⟩ := C09_roundtrip rs a p e x h ha he1 hx0 hp
  have t1 := Except.ok.inj (f1.symm.trans hc)
  simp only [Prod.mk.injEq] at t1
  obtain ⟨rfl, rfl, rfl⟩ := t1
  have t2 := Except.ok.inj (g1.symm.trans n4)
  simp only [Prod.mk.injEq] at t2
  obtain ⟨rfl, rfl, rfl⟩ := t2
  have t3 := Except.ok.inj (g2.symm.trans f2)
  simp only [Prod.mk.injEq, true_and] at t3
  obtain ⟨rfl, rfl, rfl⟩ := t3
  obtain rfl : m'' = m := Except.ok.inj (g3.symm.trans hm)
  have hth := C20_polar ha.le hT1 hm hc hr hb
  have hth0 : 0 < T1.theta l0 ∧ T1.theta l0 < π := by
    obtain ⟨w, -⟩ := hth
    obtain ⟨w1, w2⟩ := w l0
    have w0 := Real.arccos_nonneg (√(1 - x'' ^ 2))
    refine ⟨lt_of_le_of_ne (by linarith) ?_, lt_of_le_of_ne (by linarith) ?_⟩
    · intro hh; rw [← hh, Real.sin_zero] at n3; exact lt_irrefl _ n3
    · intro hh; rw [hh, Real.sin_pi] at n3; exact lt_irrefl _ n3
  obtain ⟨T', hT', s1, s2, -, -, s5, s6⟩ := C34_position ha h1 h2 h3 g6 hb hc b1 b2 hth0.1 hth0.2
  obtain ⟨U', hU', hU0⟩ := C35_velocity ha h1 h2 h3 g6 hb hc b1 b2 hth0.1 hth0.2 n1
    (by rw [d1]; exact c1) (by rw [d2]; exact c2) c3 c4
  have hT1' : stableTrajectoryNat rs a p' e' x'' o'.phases = .ok T' := by
    rw [← hT']
    unfold OrbitObj.trajectoryNat
    simp only [Option.getD_none, h2, if_true, g5, g6]
  have hUe : fourVelocity a T' (E', L', Q') m''.upsilonR m''.upsilonTheta o'.phases = U' := by
    have hT3 : o'.trajectoryNat rs (some o'.phases) = .ok T' := by rw [← hT']; rfl
    unfold OrbitObj.fourVelocity at hU'
    simp only [Option.getD_none, hT3, bind_ok, pure, Except.pure, g5, h3, g8, g9] at hU'
    exact Except.ok.inj hU'
  have hpos : T'.at 0 = T1.at l0 := by
    have := s5 (by rw [d1]; exact c1) (by rw [d2]; exact c2)
    have := s6 c3 c4
    simp only [Traj.at, Vec4.mk.injEq] at *
    exact ⟨s1, by assumption, by assumption, s2⟩
  have key := trajectory_unique ha.le hT1 hT1' hm hc hr hb l0 hpos (by rw [hUe]; exact hU0)
  refine ⟨o', T', U', h1, h2, by rw [g5, k1], by rw [h3, hcs], by rw [g6, k2], by rw [g8, u1],
    by rw [g9, u2], hT', hU', fun l => ⟨key l, ?_⟩⟩
  obtain ⟨v1, v2, v3, v4⟩ := C22_four_velocity ha.le hT1 hm hc hr hb (l0 + l)
  obtain ⟨w1, w2, w3, w4⟩ := C22_four_velocity ha.le hT1' hm hc hr hb l
  rw [hUe] at w1 w2 w3 w4
  have kt : T'.t = fun l => T1.t (l0 + l) := funext fun l => congrArg Vec4.t (key l)
  have kr : T'.r = fun l => T1.r (l0 + l) := funext fun l => congrArg Vec4.r (key l)
  have kth : T'.theta = fun l => T1.theta (l0 + l) := funext fun l => congrArg Vec4.theta (key l)
  have kphi : T'.phi = fun l => T1.phi (l0 + l) := funext fun l => congrArg Vec4.phi (key l)
  have hS : Spec.Sigma a (T1.r (l0 + l)) (T1.theta (l0 + l)) ≠ 0 := by
    have h0 := (D.r_bounds hb (l0 + l)).1
    have : 0 < T1.r (l0 + l) := by linarith
    unfold Spec.Sigma; positivity
  rw [kr, kth] at w1 w4
  have hu : ∀ (f : ℝ → ℝ) (d d' : ℝ), HasDerivAt f d (l0 + l) → HasDerivAt (fun l => f (l0 + l)) d' l →
      d' = d := fun f d d' hf hg => hg.unique (by simpa using hf.comp_const_add l0 l)
  simp only [Traj.at, Vec4.mk.injEq]
  refine ⟨mul_left_cancel₀ hS ?_, mul_left_cancel₀ hS ?_, mul_left_cancel₀ hS ?_, mul_left_cancel₀ hS ?_⟩
  · exact hu _ _ _ v1 (kt ▸ w1)
  · have := hu T1.r _ _ v2 (kr ▸ w2)
    rw [kth] at this; exact this
  · have := hu T1.theta _ _ v3 (kth ▸ w3)
    rw [kr] at this; exact this
  · exact hu _ _ _ v4 (kphi ▸ w4)

/-- Non-vacuity of C49: a retrograde inclined eccentric orbit restarted at apoapsis, where it crosses the
equatorial plane. -/
example (rs : RootScalar) : ∃ o pos0 vel0 T U o' T' U',
    mkStableOrbit rs (9 / 10) 13 (1 / 2) (-1 / 2) ⟨1, π, π / 2, 2⟩ = .ok (o, pos0, vel0)
    ∧ o.trajectoryNat rs = .ok T ∧ o.fourVelocity rs = .ok U
    ∧ mkOrbit rs (9 / 10) (T.at 0) (U.at 0) = .ok o' ∧ o'.trajectoryNat rs = .ok T'
    ∧ o'.fourVelocity rs = .ok U' ∧ T.r 0 = 26 ∧ T.theta 0 = π / 2
    ∧ ∀ l, T'.at l = T.at l ∧ U'.at l = U.at l := by
  have hB : Spec.BoundOrbit rs (9 / 10) 13 (1 / 2) (-1 / 2) :=
    C11_accepts_wide rs _ _ _ _ (by norm_num [abs_lt]) (by norm_num) (by norm_num)
      (by norm_num [abs_le]) (by norm_num)
  have hneg : (-1 / 2 : ℝ) < 0 := by norm_num
  obtain ⟨⟨o, pos0, vel0⟩, ho⟩ := (C41_constructible rs (9 / 10) 13 (1 / 2) (-1 / 2) ⟨1, π, π / 2, 2⟩ none none).mpr
    ⟨hB, by norm_num, by norm_num⟩
  obtain ⟨-, -, -, -, -, -, -, -, -, ⟨T, U, hT, hU, -, -, -, hTs⟩, -⟩ :=
    C41_attributes rs (9 / 10) 13 (1 / 2) (-1 / 2) ⟨1, π, π / 2, 2⟩ none none o pos0 vel0 ho
  rw [abs_of_pos (by norm_num), show Spec.signedX (9 / 10) (-1 / 2) = -1 / 2 by
    unfold Spec.signedX; norm_num] at hTs
  obtain ⟨T1, m, E, L, Q, r1, r2, r3, r4, hT1, hm, hc, hr, hb, -⟩ :=
    kerr_hyps ⟨1, π, π / 2, 2⟩ hB (by norm_num) (by norm_num) (by norm_num)
      (fun h => absurd h (by norm_num)) (.inl hneg)
  obtain rfl : T = T1 := Except.ok.inj (hTs.symm.trans hT1)
  obtain ⟨-, -, hapo, -⟩ := C20_radial (by norm_num) hT1 hm hc hr hb
  have hr26 : T.r 0 = 26 := by
    rw [hapo 0 0 (by simp)]; norm_num
  obtain ⟨m', zm, zp, D⟩ := stableData_of (by norm_num) hT1 hc hr
  have HP := D.polar hb.energy hb.nonpolar
  have hth : T.theta 0 = π / 2 := by
    have h1 : T.theta 0 = (polarSolutionsCore (9 / 10) (E, L, Q) zm zp).pos
        (m'.upsilonTheta * 0 + π / 2) := by rw [D.hT]; rfl
    have h2 : amT (mT (9 / 10) zm zp) (π / 2) = π := by
      have := am_int HP.mT_lt 1
      unfold amT
      rw [show 2 / π * ellipk (mT (9 / 10) zm zp) * (π / 2 + π / 2)
        = 2 * ((1 : ℤ) : ℝ) * ellipk (mT (9 / 10) zm zp) by
          have := Real.pi_ne_zero; field_simp; push_cast; ring, this]
      push_cast; ring
    rw [h1, mul_zero, zero_add, polar_pos_eq HP, h2, Real.sin_pi, mul_zero, Real.arccos_zero]
  have h6 : √(1 - (-1 / 2) ^ 2) = cos (π / 6) := by
    rw [Real.cos_pi_div_six, show (1 - (-1 / 2) ^ 2 : ℝ) = 3 / 2 ^ 2 by norm_num,
      Real.sqrt_div (by norm_num), Real.sqrt_sq (by norm_num)]
  have hpi := Real.two_le_pi
  have h7 : arccos (√(1 - (-1 / 2) ^ 2)) = π / 6 := by
    rw [h6, Real.arccos_cos (by positivity) (by linarith)]
  obtain ⟨o', T', U', k1, -, -, -, -, -, -, k2, k3, k4⟩ :=
    C49_restart rs (9 / 10) 13 (1 / 2) (-1 / 2) ⟨1, π, π / 2, 2⟩ none none hB (by norm_num) (by norm_num)
      (by norm_num) (fun h => absurd h (by norm_num)) (.inl hneg) o pos0 vel0 ho T U hT hU 0
      (.inl (by rw [hr26]; norm_num)) (.inr (by rw [hr26]; norm_num [abs_of_pos]))
      (.inr (by rw [hth, h7, abs_of_pos (by linarith)]; norm_num; linarith))
      (.inr (by rw [hth, h7, abs_of_neg (by linarith)]; norm_num; linarith))
  exact ⟨o, pos0, vel0, T, U, o', T', U', ho, hT, hU, k1, k2, k3, hr26, hth, fun l => by
    have := k4 l; rwa [zero_add] at this⟩

end KGP
