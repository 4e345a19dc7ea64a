import Verif.Props.Classify
import Verif.Lemmas.PiPV

/-!
# C50: plunging trajectories with four real radial roots are timelike geodesics
-/

namespace KGP

open Classical Real

/-! ### frequencies computed from the constants of motion (frequencies.py:527-794) -/

section
variable {a E L Q r1 r2 r3 r4 zm zp : ℝ} (ha : a ≠ 0) (HR : RootsConfig r1 r2 r3 r4)
  (H : PolarConfig a E L Q zm zp)
include ha H

lemma fromConstants_upsilonTheta :
    (minoFrequenciesFromConstants a (E, L, Q) (r1, r2, r3, r4) (zm, zp)).upsilonTheta
      = π * polarW a E L zm / (2 * ellipk (mT a zm zp)) := by
  have hK := ellipk_pos H.mT_lt
  simp only [minoFrequenciesFromConstants, thetaFrequencyFromConstants, if_neg ha, thetaFrequencyCore,
    H.sq_k' ha]
  rw [abs_div, abs_of_pos (show 0 < 2 * ellipk (mT a zm zp) by positivity), abs_mul, abs_mul,
    abs_of_pos Real.pi_pos, abs_of_nonneg (Real.sqrt_nonneg _), mul_assoc]
  rfl

include HR

lemma fromConstants_gamma (hg : ¬ gammaIsInf (r1, r2, r3, r4)) :
    (minoFrequenciesFromConstants a (E, L, Q) (r1, r2, r3, r4) (zm, zp)).gamma
      = 4 * E + gammaT a E L zm zp + gammaR a E L r1 r2 r3 r4 := by
  have hKT := (ellipk_pos H.mT_lt).ne'
  have hKR := (ellipk_pos HR.mR_lt).ne'
  have hL := H.hL
  have hpi := Real.pi_ne_zero
  have hc0 : √((1 - E ^ 2) * (r1 - r3) * (r2 - r4)) ≠ 0 := by
    refine (Real.sqrt_pos.mpr ?_).ne'
    rw [mul_assoc]; exact mul_pos H.hE HR.pos13_24
  simp only [minoFrequenciesFromConstants, thetaFrequencyFromConstants, gammaFromConstants, if_neg ha,
    if_neg hg]
  simp only [gammaCore, kR, HR.sq_k, H.sq_k, rFrequencyCore_eq HR]
  have e1 : 2 * (π * √((1 - E ^ 2) * (r1 - r3) * (r2 - r4)) / (2 * ellipk (mR r1 r2 r3 r4)))
      / (π * √((1 - E ^ 2) * (r1 - r3) * (r2 - r4))) = 1 / ellipk (mR r1 r2 r3 r4) := by
    field_simp
  rw [e1]
  congr 1
  congr 1
  simp only [thetaFrequencyCore, H.sq_k' ha, gammaT]
  field_simp

lemma fromConstants_upsilonPhi (ha1 : a ^ 2 < 1) :
    (minoFrequenciesFromConstants a (E, L, Q) (r1, r2, r3, r4) (zm, zp)).upsilonPhi
      = phiT a L zm zp + phiR a E L r1 r2 r3 r4 := by
  have hKT := (ellipk_pos H.mT_lt).ne'
  have hKR := (ellipk_pos HR.mR_lt).ne'
  have hL := H.hL
  have hpi := Real.pi_ne_zero
  have hc0 : √((1 - E ^ 2) * (r1 - r3) * (r2 - r4)) ≠ 0 := by
    refine (Real.sqrt_pos.mpr ?_).ne'
    rw [mul_assoc]; exact mul_pos H.hE HR.pos13_24
  simp only [minoFrequenciesFromConstants, thetaFrequencyFromConstants, phiFrequencyFromConstants, if_neg ha]
  simp only [phiFrequencyCore, kR, HR.sq_k, H.sq_k' ha, rFrequencyCore_eq HR, thetaFrequencyCore, phiT, phiR]
  have hE0 : √(e0zpOf a E L zm) ≠ 0 := (Real.sqrt_pos.mpr H.e0zp_pos).ne'
  congr 1
  · field_simp
  · change _ * (_ * (_ - _ * ellippiK (hPM r1 r2 r3 (1 + √(1 - a ^ 2))) _)
      - _ * (_ - _ * ellippiK (hPM r1 r2 r3 (1 - √(1 - a ^ 2))) _)) = _
    congr 1
    have ha2 : 0 < 1 - a ^ 2 := by linarith
    have hs := (Real.sqrt_pos.mpr ha2).ne'
    have hne : 1 + √(1 - a ^ 2) - (1 - √(1 - a ^ 2)) ≠ 0 := by
      intro h; apply hs; linarith
    field_simp

end

/-- Inside the range of motion the characteristic is greater than one (a principal-value integral). -/
lemma RootsConfig.hPM_gt {r1 r2 r3 r4 : ℝ} (H : RootsConfig r1 r2 r3 r4) {y : ℝ}
    (h2 : r2 < y) (h1 : y < r1) : 1 < hPM r1 r2 r3 y := by
  have h13 := H.ne13
  have h2' : r2 - y ≠ 0 := by linarith
  have : hPM r1 r2 r3 y - 1 = (r1 - y) * ((r1 - r3) * (r2 - r3)) / ((r1 - r3) ^ 2 * (y - r2)) := by
    have h2'' : y - r2 ≠ 0 := by linarith
    have e : hPM r1 r2 r3 y = -((r1 - r2) * (r3 - y)) / ((r1 - r3) * (y - r2)) := by
      unfold hPM
      rw [show r2 - y = -(y - r2) by ring, mul_neg, div_neg, neg_div]
    rw [e]; field_simp; ring
  have hpos : 0 < hPM r1 r2 r3 y - 1 := by
    rw [this]
    have h1 := H.pos13_23
    have h3 : 0 < r1 - y := by linarith
    have h4 : 0 < y - r2 := by linarith
    positivity
  linarith

section
variable {a E L Q r1 r2 r3 r4 : ℝ} (ha : a ≠ 0) (ha1 : a ^ 2 < 1) (hE : E ^ 2 < 1) (hQ : 0 ≤ Q)
  (hr : plungingRadialRoots a E L Q = .ok (.real r1 r2 r3 r4))
  (hh : ∀ rh, Spec.Delta a rh = 0 → E * (rh ^ 2 + a ^ 2) ≠ a * L)
include ha1 hE hQ hr hh

/-- **C50.** The range `[r2, r1]` of a real-root plunge contains both horizons in its interior and the
other pair of roots is outside of the horizons. -/
theorem C50_horizons : r2 < 1 - √(1 - a ^ 2) ∧ 1 + √(1 - a ^ 2) < r1 ∧
    (r3 < 1 - √(1 - a ^ 2) ∨ 1 + √(1 - a ^ 2) < r3) := by
  obtain ⟨hR, h21, h43, hlab⟩ := C30_real a E L Q r1 r2 r3 r4 hE.ne hr
  obtain ⟨h0, -, -, -, -⟩ := horizon_facts ha1
  rcases hlab with ⟨h32, h3⟩ | ⟨h14, h1⟩
  · rcases horizons_side ha1 hE hQ hR h43 h32 h21 hh with ⟨-, g⟩ | ⟨g, g'⟩
    · linarith
    · exact ⟨g, g', .inl (by linarith)⟩
  · have hR' : Spec.RadialRoots a E L Q r3 r4 r1 r2 := fun r => by rw [hR]; ring
    rcases horizons_side ha1 hE hQ hR' h21 h14 h43 hh with ⟨g, g'⟩ | ⟨g, -⟩
    · exact ⟨g, g', .inr (by linarith)⟩
    · linarith

end

section
variable {a E L Q r1 r2 r3 r4 uR uTheta : ℝ} {q : Phases} {T : Traj}
  (ha : a ≠ 0) (ha1 : a ^ 2 < 1) (hE : E ^ 2 < 1) (hL : L ≠ 0) (hQ : 0 ≤ Q)
  (hr : plungingRadialRoots a E L Q = .ok (.real r1 r2 r3 r4)) (hsep : r3 < r2 ∨ r1 < r4)
  (hu : plungingMinoFrequencies a E L Q = .ok (uR, uTheta))
  (hT : plungingTrajectoryNat a E L Q q = .ok T)

include hE hr hsep in
lemma realConfig_of : RootsConfig r1 r2 r3 r4 := by
  obtain ⟨hR, h21, h43, hlab⟩ := C30_real a E L Q r1 r2 r3 r4 hE.ne hr
  exact ⟨h21, h43, hsep⟩

include ha hE hL hQ hr hu hT

/-- What the calls computed. -/
lemma real_calls : ∃ zm zp, PolarConfig a E L Q zm zp
    ∧ (∀ z, Spec.Zpol a E L Q z = a ^ 2 * (1 - E ^ 2) * ((z - zm) * (z - zp)))
    ∧ uR = rFrequencyCore E (r1, r2, r3, r4)
    ∧ uTheta = π * polarW a E L zm / (2 * ellipk (mT a zm zp))
    ∧ ∃ T', T' = assembleTrajectory (radialSolutions a (E, L, Q) (r1, r2, r3, r4))
        (polarSolutionsCore a (E, L, Q) zm zp)
        (minoFrequenciesFromConstants a (E, L, Q) (r1, r2, r3, r4) (zm, zp)) q
      ∧ T.r = T'.r ∧ T.theta = T'.theta ∧ T.phi = T'.phi
      ∧ (¬ gammaIsInf (r1, r2, r3, r4) → T.t = T'.t) := by
  have hb : 0 < 1 - E ^ 2 := by linarith
  obtain ⟨zm, zp, hz, hz1, hzp, hf⟩ := polarRootsNumpy_real (Q := Q) ha hb hL
  have hzm : 0 ≤ zm := by
    have h0 := hf 0
    rw [show Spec.Zpol a E L Q 0 = Q by rw [Spec.Zpol]; ring] at h0
    by_contra h
    push Not at h
    have hpos : 0 < a ^ 2 * (1 - E ^ 2) := by positivity
    have h1 : (0 - zm) * (0 - zp) < 0 := mul_neg_of_pos_of_neg (by linarith) (by linarith)
    have := mul_neg_of_pos_of_neg hpos h1
    linarith
  have HP := polarConfig_of hb hL hzm hz1 hf
  refine ⟨zm, zp, HP, hf, ?_, ?_, _, rfl, ?_⟩
  · unfold plungingMinoFrequencies at hu
    simp only [hr, bind_ok, plungingMinoFrequenciesOf, hz] at hu
    have := Except.ok.inj hu
    simp only [Prod.mk.injEq] at this
    rw [← this.1]; rfl
  · unfold plungingMinoFrequencies at hu
    simp only [hr, bind_ok, plungingMinoFrequenciesOf, hz] at hu
    have := Except.ok.inj hu
    simp only [Prod.mk.injEq] at this
    rw [← this.2]
    exact fromConstants_upsilonTheta ha HP
  · unfold plungingTrajectoryNat at hT
    simp only [hr, bind_ok, realPlungeTrajectoryNat, hz, polarSolutions] at hT
    have hT := Except.ok.inj hT
    by_cases hg : gammaIsInf (r1, r2, r3, r4)
    · rw [if_pos hg] at hT
      rw [← hT]
      exact ⟨rfl, rfl, rfl, fun h => absurd hg h⟩
    · rw [if_neg hg] at hT
      rw [← hT]
      exact ⟨rfl, rfl, rfl, fun _ => rfl⟩

include hsep

/-- **C50.** `r` stays between the two radial roots `r2` and `r1`, oscillates between them with Mino period
`2π/Υ_r` (`Υ_r > 0`): it is at `r2` at radial phase `0` and at `r1` at phase `π`. -/
theorem C50_range : 0 < uR ∧ (∀ lam, r2 ≤ T.r lam ∧ T.r lam ≤ r1) ∧
    (∀ lam, T.r (lam + 2 * π / uR) = T.r lam) ∧
    (∀ lam, uR * lam + q.qr = 0 → T.r lam = r2) ∧ (∀ lam, uR * lam + q.qr = π → T.r lam = r1) := by
  have HR := realConfig_of hE hr hsep
  obtain ⟨zm, zp, HP, -, hUR, hUT, T', hT', hTr, -⟩ := real_calls ha hE hL hQ hr hu hT
  have hm := HR.mR_lt
  have hU : 0 < uR := by
    rw [hUR, rFrequencyCore_eq HR]
    have := ellipk_pos hm
    have : 0 < √((1 - E ^ 2) * (r1 - r3) * (r2 - r4)) := Real.sqrt_pos.mpr (by
      rw [mul_assoc]; exact mul_pos HP.hE HR.pos13_24)
    positivity
  have hpos : ∀ lam, T.r lam = rOf r1 r2 r3 (sin (amR (mR r1 r2 r3 r4) (uR * lam + q.qr)) ^ 2) := by
    intro lam
    rw [hTr, hT', hUR]
    exact radial_pos_eq (a := a) (cs := (E, L, Q)) HR _
  refine ⟨hU, fun lam => ?_, fun lam => ?_, fun lam h => ?_, fun lam h => ?_⟩
  · rw [hpos]; exact HR.r_mem _
  · rw [hpos, hpos, show uR * (lam + 2 * π / uR) + q.qr = (uR * lam + q.qr) + 2 * π by
      field_simp; ring, amR_add hm, Real.sin_add_pi, neg_sq]
  · rw [hpos, h, amR_zero hm, Real.sin_zero, zero_pow two_ne_zero, rOf_zero HR.ne13]
  · rw [hpos, h, amR_pi hm, Real.sin_pi_div_two, one_pow, rOf_one HR.ne23]

/-- **C50.** First-order radial and polar equations at every Mino time, with the signs. -/
theorem C50_radial_polar (lam : ℝ) :
    0 ≤ Spec.R a E L Q (T.r lam)
    ∧ HasDerivAt T.r (Real.sign (sin (uR * lam + q.qr)) * √(Spec.R a E L Q (T.r lam))) lam
    ∧ (sin (uR * lam + q.qr) = 0 → Spec.R a E L Q (T.r lam) = 0)
    ∧ 0 < sin (T.theta lam) ∧ 0 ≤ Spec.Theta a E L Q (T.theta lam)
    ∧ HasDerivAt T.theta (Real.sign (sin (uTheta * lam + q.qtheta))
        * √(Spec.Theta a E L Q (T.theta lam))) lam
    ∧ (sin (uTheta * lam + q.qtheta) = 0 → Spec.Theta a E L Q (T.theta lam) = 0) := by
  have HR := realConfig_of hE hr hsep
  obtain ⟨zm, zp, HP, -, hUR, hUT, T', hT', hTr, hTth, -⟩ := real_calls ha hE hL hQ hr hu hT
  have hroots := (C30_real a E L Q r1 r2 r3 r4 hE.ne hr).1
  have h1 := radial_equation (a := a) (cs := (E, L, Q)) HR HP.hE.le q.qr lam
  have h2 := polar_equation HP uTheta hUT q.qtheta lam
  have er : T.r = fun lam => (radialSolutions a (E, L, Q) (r1, r2, r3, r4)).pos
      (rFrequencyCore E (r1, r2, r3, r4) * lam + q.qr) := by
    rw [hTr, hT']; rfl
  have eth : T.theta = fun lam => (polarSolutionsCore a (E, L, Q) zm zp).pos
      (uTheta * lam + q.qtheta) := by
    rw [hTth, hT', hUT, ← fromConstants_upsilonTheta (Q := Q) (r1 := r1) (r2 := r2) (r3 := r3) (r4 := r4) ha HP]
    rfl
  rw [← hUR] at er h1
  simp only at h1 h2
  rw [show (fun lam => (radialSolutions a (E, L, Q) (r1, r2, r3, r4)).pos (uR * lam + q.qr)) = T.r
    from er.symm, show (radialSolutions a (E, L, Q) (r1, r2, r3, r4)).pos (uR * lam + q.qr) = T.r lam
    from (congrFun er lam).symm] at h1
  rw [show (fun lam => (polarSolutionsCore a (E, L, Q) zm zp).pos (uTheta * lam + q.qtheta)) = T.theta
    from eth.symm, show (polarSolutionsCore a (E, L, Q) zm zp).pos (uTheta * lam + q.qtheta) = T.theta lam
    from (congrFun eth lam).symm] at h2
  rw [← hroots] at h1
  obtain ⟨g1, g2, g3⟩ := h1
  obtain ⟨k1, k2, k3, k4⟩ := h2
  have hZ : Spec.Zpol a E L Q (cos (T.theta lam) ^ 2)
      = sin (T.theta lam) ^ 2 * Spec.Theta a E L Q (T.theta lam) := by
    unfold Spec.Zpol Spec.Theta
    have h1 : cos (T.theta lam) ^ 2 = 1 - sin (T.theta lam) ^ 2 := by rw [Real.cos_sq']
    have := k2.ne'
    rw [h1]
    field_simp
    ring
  have hTh : 0 ≤ Spec.Theta a E L Q (T.theta lam) := by
    rw [hZ] at k1
    exact nonneg_of_mul_nonneg_right k1 (by positivity)
  refine ⟨g1, g2, g3, k2, hTh, k3.congr_deriv ?_, fun h => ?_⟩
  · rw [hZ, Real.sqrt_mul (by positivity), Real.sqrt_sq k2.le]
    have := k2.ne'
    field_simp
  · have := k4 h
    rw [hZ] at this
    rcases mul_eq_zero.mp this with h | h
    · exact absurd h (by positivity)
    · exact h

include ha1

/-- **C50.** The equations for the azimuth and, off the equatorial plane, for the time, at every Mino time
at which the particle is not on a horizon (where both diverge).  The condition `E(r±²+a²) ≠ aL` excludes
divisions by zero in the code. -/
theorem C50_time_azimuth (hh : ∀ rh, Spec.Delta a rh = 0 → E * (rh ^ 2 + a ^ 2) ≠ a * L) (lam : ℝ)
    (hD : Spec.Delta a (T.r lam) ≠ 0) :
    (Q ≠ 0 → HasDerivAt T.t (Spec.dtdlam a E L (T.r lam) (T.theta lam)) lam) ∧
    HasDerivAt T.phi (Spec.dphidlam a E L (T.r lam) (T.theta lam)) lam := by
  have HR := realConfig_of hE hr hsep
  obtain ⟨zm, zp, HP, -, hUR, hUT, T', hT', hTr, hTth, hTphi, hTt⟩ := real_calls ha hE hL hQ hr hu hT
  obtain ⟨o2, o1, o3⟩ := C50_horizons ha1 hE hQ hr hh
  have hsin := (C50_radial_polar ha hE hL hQ hr hsep hu hT lam).2.2.2.1
  have ha2 : 0 < 1 - a ^ 2 := by linarith
  have hs1 := Real.sqrt_pos.mpr ha2
  have hs2 := Real.sq_sqrt ha2.le
  have hfac : Spec.Delta a (T.r lam) = (T.r lam - (1 + √(1 - a ^ 2))) * (T.r lam - (1 - √(1 - a ^ 2))) := by
    unfold Spec.Delta; linear_combination hs2
  have k1 : T.r lam - (1 + √(1 - a ^ 2)) ≠ 0 := fun h => hD (by rw [hfac, h, zero_mul])
  have k2 : T.r lam - (1 - √(1 - a ^ 2)) ≠ 0 := fun h => hD (by rw [hfac, h, mul_zero])
  have hpos : T.r lam = rOf r1 r2 r3 (sin (amR (mR r1 r2 r3 r4)
      (rFrequencyCore E (r1, r2, r3, r4) * lam + q.qr)) ^ 2) := by
    rw [hTr, hT']
    exact radial_pos_eq (a := a) (cs := (E, L, Q)) HR _
  have reg : ∀ y, r2 < y → y < r1 → T.r lam - y ≠ 0 → PiRegular (hPM r1 r2 r3 y) (mR r1 r2 r3 r4)
      (amR (mR r1 r2 r3 r4) (rFrequencyCore E (r1, r2, r3, r4) * lam + q.qr)) := by
    intro y h2 h1 hy
    have hne := HR.no_pole (show r2 - y ≠ 0 by linarith)
      (amR (mR r1 r2 r3 r4) (rFrequencyCore E (r1, r2, r3, r4) * lam + q.qr))
      (by rw [← hpos]; exact sub_ne_zero.mp hy)
    exact ⟨hasDerivAt_ellippiincK_gt (HR.hPM_gt h2 h1) HR.mR_nonneg HR.mR_lt hne, hne⟩
  have n3p : r3 ≠ 1 + √(1 - a ^ 2) := by rcases o3 with h | h <;> intro h' <;> linarith
  have n3m : r3 ≠ 1 - √(1 - a ^ 2) := by rcases o3 with h | h <;> intro h' <;> linarith
  obtain ⟨d1, d2⟩ := radial_dt_gen (Q := Q) (L := L) HR HP.hE (a := a)
    (by linarith : r2 < 1 + √(1 - a ^ 2)).ne o2.ne n3p n3m q.qr lam
    (reg _ (by linarith) o1 k1) (reg _ o2 (by linarith) k2)
  obtain ⟨d3, d4⟩ := polar_dt HP uTheta hUT q.qtheta lam
  have hr' : (radialSolutions a (E, L, Q) (r1, r2, r3, r4)).pos
      (rFrequencyCore E (r1, r2, r3, r4) * lam + q.qr) = T.r lam := by
    rw [hTr, hT']; rfl
  have eUT := fromConstants_upsilonTheta (Q := Q) (r1 := r1) (r2 := r2) (r3 := r3) (r4 := r4) ha HP
  rw [← hUT] at eUT
  have hth : (polarSolutionsCore a (E, L, Q) zm zp).pos (uTheta * lam + q.qtheta) = T.theta lam := by
    rw [hTth, hT', ← eUT]; rfl
  rw [hr'] at d1 d2
  rw [hth] at d3 d4
  have hcos := Real.sin_sq_add_cos_sq (T.theta lam)
  obtain ⟨S, hS⟩ : ∃ S, S = √(1 - a ^ 2) := ⟨_, rfl⟩
  rw [← hS] at hfac hs2 hs1 d1 d2 k1 k2
  have k4 : sin (T.theta lam) ≠ 0 := hsin.ne'
  constructor
  · intro hQ0
    have hg := finite_gamma ha hE.ne hQ0 hr
    have hG := fromConstants_gamma (Q := Q) ha HR HP hg
    have ht : T.t = fun lam => q.qt
        + (minoFrequenciesFromConstants a (E, L, Q) (r1, r2, r3, r4) (zm, zp)).gamma * lam
        + (radialSolutions a (E, L, Q) (r1, r2, r3, r4)).dt (rFrequencyCore E (r1, r2, r3, r4) * lam + q.qr)
        + (polarSolutionsCore a (E, L, Q) zm zp).dt (uTheta * lam + q.qtheta)
        - ((radialSolutions a (E, L, Q) (r1, r2, r3, r4)).dt q.qr
          + (polarSolutionsCore a (E, L, Q) zm zp).dt q.qtheta) := by
      rw [hTt hg, hT', ← eUT]; rfl
    have d0 := ((((hasDerivAt_id' lam).const_mul
      (minoFrequenciesFromConstants a (E, L, Q) (r1, r2, r3, r4) (zm, zp)).gamma).const_add q.qt).add d1).add d3
    rw [ht]
    refine (d0.sub_const _).congr_deriv ?_
    rw [hG]
    unfold Spec.dtdlam
    rw [hfac]
    have := dt_algebra (E := E) (l := a * L) (b := a ^ 2) (S := S) (r := T.r lam)
      (s := sin (T.theta lam) ^ 2) (c := cos (T.theta lam) ^ 2) (by linarith) hs1.ne' (by linarith) k1 k2
    linear_combination this
  · have hP := fromConstants_upsilonPhi (Q := Q) ha HR HP ha1
    have hphi : T.phi = fun lam => q.qphi
        + (minoFrequenciesFromConstants a (E, L, Q) (r1, r2, r3, r4) (zm, zp)).upsilonPhi * lam
        + (radialSolutions a (E, L, Q) (r1, r2, r3, r4)).dphi (rFrequencyCore E (r1, r2, r3, r4) * lam + q.qr)
        + (polarSolutionsCore a (E, L, Q) zm zp).dphi (uTheta * lam + q.qtheta)
        - ((radialSolutions a (E, L, Q) (r1, r2, r3, r4)).dphi q.qr
          + (polarSolutionsCore a (E, L, Q) zm zp).dphi q.qtheta) := by
      rw [hTphi, hT', ← eUT]; rfl
    have d0 := ((((hasDerivAt_id' lam).const_mul
      (minoFrequenciesFromConstants a (E, L, Q) (r1, r2, r3, r4) (zm, zp)).upsilonPhi).const_add
        q.qphi).add d2).add d4
    rw [hphi]
    refine (d0.sub_const _).congr_deriv ?_
    rw [hP]
    unfold Spec.dphidlam
    rw [hfac]
    have := dphi_algebra (E := E) (l := a * L) (b := a ^ 2) (S := S) (r := T.r lam)
      (by linarith) hs1.ne' k1 k2
    linear_combination a * this

/-- **C50.** A real-root plunge off the equatorial plane is the integral curve of the four-velocity
returned by `four_velocity` (all four components, including the signs of `u^r` and `u^θ`), its norm is -1
and `constants_from_initial_conditions` recovers `(E, L, Q)` from every point that is not on a horizon. -/
theorem C50_four_velocity (hQ0 : 0 < Q)
    (hh : ∀ rh, Spec.Delta a rh = 0 → E * (rh ^ 2 + a ^ 2) ≠ a * L) (lam : ℝ)
    (hD : Spec.Delta a (T.r lam) ≠ 0) :
    let U := fourVelocity a T (E, L, Q) uR uTheta q
    let S := Spec.Sigma a (T.r lam) (T.theta lam)
    0 < S ∧ HasDerivAt T.t (S * U.t lam) lam ∧ HasDerivAt T.r (S * U.r lam) lam
    ∧ HasDerivAt T.theta (S * U.theta lam) lam ∧ HasDerivAt T.phi (S * U.phi lam) lam
    ∧ norm4 a (T.t lam) (T.r lam) (T.theta lam) (T.phi lam) (U.at lam) = -1
    ∧ constantsFromInitialConditions a (T.at lam) (U.at lam) = .ok (E, L, Q) := by
  intro U S
  obtain ⟨hR, hr1, hr0, hsin, hTh, hth1, hth0⟩ := C50_radial_polar ha hE hL hQ hr hsep hu hT lam
  obtain ⟨ht1, hphi1⟩ := C50_time_azimuth ha ha1 hE hL hQ hr hsep hu hT hh lam hD
  have hrne : T.r lam ≠ 0 := by
    intro h0
    rw [h0] at hR
    have : Spec.R a E L Q 0 = -(a ^ 2 * Q) := by unfold Spec.R Spec.Delta; ring
    rw [this] at hR
    have : 0 < a ^ 2 * Q := by positivity
    linarith
  have hSpos : 0 < S := by
    simp only [S, Spec.Sigma]; positivity
  have hS := hSpos.ne'
  obtain ⟨c0, -, -, c3⟩ := C01_components a T E L Q uR uTheta lam q hsin.ne' hS hR hTh
  refine ⟨hSpos, by rw [c0]; exact ht1 hQ0.ne', hr1.congr_deriv ?_, hth1.congr_deriv ?_,
    by rw [c3]; exact hphi1,
    C01_norm a T E L Q _ _ lam q hsin.ne' hS hD hR hTh,
    C02_roundtrip_four_velocity a T E L Q _ _ lam q hsin.ne' hS hD hR hTh⟩
  · have hS' : T.r lam ^ 2 + a ^ 2 * cos (T.theta lam) ^ 2 ≠ 0 := hS
    have hfv : fvR a E L Q (T.r lam) = Spec.R a E L Q (T.r lam) := by
      unfold fvR Spec.R Spec.Delta; ring
    have : S * U.r lam = copysign1 (sin (uR * lam + q.qr)) * √(Spec.R a E L Q (T.r lam)) := by
      simp only [U, S, fourVelocity, Spec.Sigma, hfv, abs_of_nonneg hR]
      field_simp
    rw [this]
    unfold copysign1
    rcases lt_trichotomy (sin (uR * lam + q.qr)) 0 with h | h | h
    · rw [if_pos h, Real.sign_of_neg h]
    · rw [hr0 h]; simp
    · rw [if_neg (not_lt.mpr h.le), Real.sign_of_pos h]
  · have hS' : T.r lam ^ 2 + a ^ 2 * cos (T.theta lam) ^ 2 ≠ 0 := hS
    have hZ : fvZ a E L Q (cos (T.theta lam)) = sin (T.theta lam) ^ 2 * Spec.Theta a E L Q (T.theta lam) := by
      unfold fvZ Spec.Theta
      have h1 : cos (T.theta lam) ^ 2 = 1 - sin (T.theta lam) ^ 2 := by rw [Real.cos_sq']
      rw [show cos (T.theta lam) ^ 4 = (cos (T.theta lam) ^ 2) ^ 2 by ring, h1]
      field_simp
      ring
    have : S * U.theta lam = copysign1 (sin (uTheta * lam + q.qtheta))
        * √(Spec.Theta a E L Q (T.theta lam)) := by
      simp only [U, S, fourVelocity, Spec.Sigma, hZ]
      rw [abs_of_nonneg (mul_nonneg (by positivity) hTh), Real.sqrt_mul (by positivity),
        Real.sqrt_sq hsin.le]
      field_simp
    rw [this]
    unfold copysign1
    rcases lt_trichotomy (sin (uTheta * lam + q.qtheta)) 0 with h | h | h
    · rw [if_pos h, Real.sign_of_neg h]
    · rw [hth0 h]; simp
    · rw [if_neg (not_lt.mpr h.le), Real.sign_of_pos h]

end

/-- **C50.** Such calls return: for `a ≠ 0`, `E² < 1`, `L ≠ 0` and four real radial roots,
`plunging_trajectory` and `plunging_mino_frequencies` return. -/
theorem C50_returns {a E L Q r1 r2 r3 r4 : ℝ} (ha : a ≠ 0) (hE : E ^ 2 < 1) (hL : L ≠ 0)
    (hr : plungingRadialRoots a E L Q = .ok (.real r1 r2 r3 r4)) (q : Phases) :
    (∃ uR uT, plungingMinoFrequencies a E L Q = .ok (uR, uT))
      ∧ ∃ T, plungingTrajectoryNat a E L Q q = .ok T := by
  obtain ⟨zm, zp, hz, -⟩ := polarRootsNumpy_real (Q := Q) ha (by linarith : 0 < 1 - E ^ 2) hL
  constructor
  · unfold plungingMinoFrequencies
    simp only [hr, bind_ok, plungingMinoFrequenciesOf, hz]
    exact ⟨_, _, rfl⟩
  · unfold plungingTrajectoryNat
    simp only [hr, bind_ok, realPlungeTrajectoryNat, hz, polarSolutions]
    exact ⟨_, rfl⟩

/-- The hypotheses are met: the plunge with `a = 12/13`, `L = 12E/13`, `Q = 8294400/679439`, whose range
`[576/955, 2880/1369]` contains the horizons `8/13` and `18/13`, is a geodesic off the horizons. -/
example (q : Phases) : ∃ T uR uT, plungingTrajectoryNat (12 / 13) exE (12 / 13 * exE) (8294400 / 679439) q = .ok T
    ∧ (∀ lam, 576 / 955 ≤ T.r lam ∧ T.r lam ≤ 2880 / 1369)
    ∧ ∀ lam, Spec.Delta (12 / 13) (T.r lam) ≠ 0 →
      norm4 (12 / 13) (T.t lam) (T.r lam) (T.theta lam) (T.phi lam)
        ((fourVelocity (12 / 13) T (exE, 12 / 13 * exE, 8294400 / 679439) uR uT q).at lam) = -1
      ∧ HasDerivAt T.t (Spec.dtdlam (12 / 13) exE (12 / 13 * exE) (T.r lam) (T.theta lam)) lam := by
  have hE : exE ^ 2 < 1 := by rw [exE_sq]; norm_num
  have hE0 := exE_pos
  have hL : (12 / 13 * exE : ℝ) ≠ 0 := by positivity
  obtain ⟨⟨uR, uT, hu⟩, T, hT⟩ := C50_returns (by norm_num) hE hL exPlungeLabels q
  have hh : ∀ rh, Spec.Delta (12 / 13) rh = 0 → exE * (rh ^ 2 + (12 / 13) ^ 2) ≠ 12 / 13 * (12 / 13 * exE) := by
    intro rh hrh h
    have h1 : exE * rh ^ 2 = 0 := by linarith
    have h2 : rh = 0 := by
      rcases mul_eq_zero.mp h1 with h | h
      · exact absurd h hE0.ne'
      · exact pow_eq_zero_iff two_ne_zero |>.mp h
    rw [h2] at hrh
    unfold Spec.Delta at hrh
    norm_num at hrh
  refine ⟨T, uR, uT, hT, (C50_range (by norm_num) hE hL (by norm_num) exPlungeLabels (.inr (by norm_num))
    hu hT).2.1, fun lam hD => ⟨?_, ?_⟩⟩
  · exact (C50_four_velocity (by norm_num) (by norm_num) hE hL (by norm_num) exPlungeLabels
      (.inr (by norm_num)) hu hT (by norm_num) hh lam hD).2.2.2.2.2.1
  · exact (C50_time_azimuth (by norm_num) (by norm_num) hE hL (by norm_num) exPlungeLabels
      (.inr (by norm_num)) hu hT hh lam hD).1 (by norm_num)

end KGP
