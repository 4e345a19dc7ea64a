import Verif.Props.PlungeSymmetry
import Verif.Props.Restart

/-!
# C49: a plunge can be restarted from any of its own points outside the horizons
-/

namespace KGP

open Classical Real

lemma amC_injective {m : ℝ} (hm : m < 1) : Function.Injective (amC m) := by
  intro y z h
  have h1 := (am_strictMono hm).injective h
  have hK := (ellipk_pos hm).ne'
  have := Real.pi_ne_zero
  field_simp at h1
  exact h1

lemma amC_add_int {m : ℝ} (hm : m < 1) (q : ℝ) (k : ℤ) : amC m (q + k * (2 * π)) = amC m q + k * (2 * π) := by
  unfold amC
  have := am_add_int hm (2 * ellipk m * q / π) (2 * k)
  push_cast at this
  rw [show 2 * ellipk m * (q + k * (2 * π)) / π = 2 * ellipk m * q / π + 2 * (2 * k) * ellipk m by
    have := Real.pi_ne_zero; field_simp, this]
  ring

/-- The radial phase of a plunge with complex roots is determined, up to turns, by `r` and the direction. -/
lemma cplx_phase_unique {m q1 q2 : ℝ} (hm : m < 1) (h : cos (amC m q1) = cos (amC m q2))
    (hs : 0 ≤ sin q1 * sin q2) : ∃ k : ℤ, q2 = q1 + k * (2 * π) := by
  obtain ⟨k, hk | hk⟩ := Real.cos_eq_cos_iff.mp h
  · refine ⟨k, amC_injective hm ?_⟩
    rw [amC_add_int hm]; linarith
  · refine turns_of_sign (k := k) (amC_injective hm ?_) hs
    rw [amC_add_int hm, amC_neg hm]; linarith

lemma rC_injective {r1 r2 u v c d : ℝ} (H : CplxConfig r1 r2 u v) (h12 : r1 < r2) (hc : |c| ≤ 1) (hd : |d| ≤ 1)
    (h : rC r1 r2 u v c = rC r1 r2 u v d) : c = d := by
  have hA := H.A_pos
  have hB := H.B_pos
  have d1 := H.D_pos (abs_le.mp hc).1 (abs_le.mp hc).2
  have d2 := H.D_pos (abs_le.mp hd).1 (abs_le.mp hd).2
  unfold rC at h
  rw [div_eq_div_iff d1.ne' d2.ne'] at h
  have h2 : 2 * (plungeA r2 u v * plungeB r1 u v) * (r2 - r1) * (d - c) = 0 := by linear_combination h
  have h3 : 0 < 2 * (plungeA r2 u v * plungeB r1 u v) * (r2 - r1) := by
    have := sub_pos.mpr h12
    positivity
  rcases mul_eq_zero.mp h2 with h4 | h4
  · exact absurd h4 h3.ne'
  · linarith

/-- If the phase of a point is determined by position and direction, then at a turning point the sine of the phase vanishes. -/
lemma sin_zero_of_turn {y z : ℝ} {k : ℤ} (h : z = y + k * (2 * π)) (hz : sin z = 0) : sin y = 0 := by
  rw [h, Real.sin_add_int_mul_two_pi] at hz; exact hz

/-- At a polar turning point the sine of the polar phase vanishes. -/
lemma polar_turn_sine {m c zm zp y : ℝ} (hm : m < 1) (hc : c ≠ 0) (h0 : 0 < zm) (h1 : zm < 1) (hp : 1 ≤ zp)
    (h : c * (zm * sin (amT m y) ^ 2 - zm) * (zm * sin (amT m y) ^ 2 - zp) = 0) : sin y = 0 := by
  have hS1 := Real.sin_sq_le_one (amT m y)
  have h2 : zm * sin (amT m y) ^ 2 - zp ≠ 0 := by nlinarith
  have h3 : sin (amT m y) ^ 2 = 1 := by
    rcases mul_eq_zero.mp h with h | h
    · rcases mul_eq_zero.mp h with h | h
      · exact absurd h hc
      · have : zm * (sin (amT m y) ^ 2 - 1) = 0 := by linarith
        rcases mul_eq_zero.mp this with h | h
        · exact absurd h h0.ne'
        · linarith
    · exact absurd h h2
  have h4 : cos (amT m y) = 0 := by
    have := Real.sin_sq_add_cos_sq (amT m y)
    exact pow_eq_zero_iff two_ne_zero |>.mp (by linarith)
  have h5 := sign_neg_cn hm y
  unfold amT at h4
  rw [h4, neg_zero, Real.sign_zero] at h5
  exact Real.sign_eq_zero_iff.mp h5.symm

section
variable {a E L Q uR uTheta : ℝ} {pr : PlungeRoots} {q q' : Phases} {T T' : Traj}

/-- The phases of a plunge with complex roots are determined, up to turns, by position and direction. -/
lemma cplx_phases {r1 r2 : ℝ} {r3 r4 : ℂ} (ha : a ≠ 0) (ha1 : a ^ 2 < 1) (hE : E ^ 2 < 1) (hQ : 0 < Q)
    (hax : L ≠ 0 ∨ Q < a ^ 2 * (1 - E ^ 2))
    (hr : plungingRadialRoots a E L Q = .ok (.cplx r1 r2 r3 r4))
    (hu : plungingMinoFrequencies a E L Q = .ok (uR, uTheta))
    (hT : plungingTrajectoryNat a E L Q q = .ok T) (hT' : plungingTrajectoryNat a E L Q q' = .ok T') (l l' : ℝ)
    (hpr : T'.r l' = T.r l) (hpth : T'.theta l' = T.theta l)
    (hsr : Spec.R a E L Q (T.r l) ≠ 0 → 0 ≤ sin (uR * l + q.qr) * sin (uR * l' + q'.qr))
    (hsth : Spec.Theta a E L Q (T.theta l) ≠ 0 → 0 ≤ sin (uTheta * l + q.qtheta) * sin (uTheta * l' + q'.qtheta)) :
    ∃ k j : ℤ, uR * l' + q'.qr = uR * l + q.qr + k * (2 * π)
      ∧ uTheta * l' + q'.qtheta = uTheta * l + q.qtheta + j * (2 * π) := by
  have H := cplxConfig_of hE hr
  have h12 := cplx_outer_lt ha1 hE hr
  have P : PlungePolar a E L Q := ⟨ha, hE, hQ.le, hax⟩
  have hR := (C30_complex a E L Q r1 r2 r3 r4 hE.ne hr).2.2.2
  obtain ⟨-, _, -, -, -, -, hth⟩ := C32_polar_equation hE hr hu hT ha hQ.le hax
  have hrng := C31_radial_equation hE hr hu hT l
  obtain ⟨-, hsin, -⟩ := hth l
  obtain ⟨h1, h2⟩ := cplx_calls q hr
  have h3 := (cplx_calls q' hr).2
  rw [h1, Except.ok.injEq, Prod.mk.injEq] at hu
  obtain ⟨rfl, rfl⟩ := hu
  have er : ∀ (q : Phases) (T : Traj), plungingTrajectoryNat a E L Q q = .ok T → ∀ l, T.r l
      = rC r1 r2 r3.re r4.im (cos (amC (mC r1 r2 r3.re r4.im) (plungeUpsilonRComplex E r1 r2 r3.re r4.im * l + q.qr))) := by
    intro q T hT l
    rw [(cplx_calls q hr).2, Except.ok.injEq] at hT
    rw [← hT]
    exact cplx_r H _ _ _ _ _ _
  have eth : ∀ (q : Phases) (T : Traj), plungingTrajectoryNat a E L Q q = .ok T → ∀ l, T.theta l
      = arccos (√(plungeZm a E L Q) * sin (amT (plungeKTheta a E L Q ^ 2) (plungeUpsilonThetaComplex a E L Q * l + q.qtheta))) := by
    intro q T hT l
    rw [(cplx_calls q hr).2, Except.ok.injEq] at hT
    rw [← hT, ← amC_shift, ← P.pos_eq]
    simp only [assemblePlunge]
    rw [add_assoc]
  have hm := H.mC_lt
  have inj : ∀ y z, rC r1 r2 r3.re r4.im (cos (amC (mC r1 r2 r3.re r4.im) y))
      = rC r1 r2 r3.re r4.im (cos (amC (mC r1 r2 r3.re r4.im) z)) → 0 ≤ sin y * sin z → ∃ k : ℤ, z = y + k * (2 * π) :=
    fun y z h hs => cplx_phase_unique hm (rC_injective H h12 (Real.abs_cos_le_one _) (Real.abs_cos_le_one _) h) hs
  obtain ⟨z0, z1, zp, hZ⟩ := P.roots
  have hz : 0 < plungeZm a E L Q := by
    refine lt_of_le_of_ne z0 fun h => ?_
    have := hZ 0
    rw [← h, sub_self, mul_zero, zero_mul] at this
    simp [Spec.Zpol] at this
    linarith
  have hk := P.k_bounds.2
  have injT : ∀ y z, arccos (√(plungeZm a E L Q) * sin (amT (plungeKTheta a E L Q ^ 2) y))
      = arccos (√(plungeZm a E L Q) * sin (amT (plungeKTheta a E L Q ^ 2) z)) → 0 ≤ sin y * sin z →
      ∃ k : ℤ, z = y + k * (2 * π) := by
    intro y z h hs
    have h4 := congrArg cos h
    rw [cos_polar z0 z1, cos_polar z0 z1] at h4
    exact polar_phase_unique hk (mul_left_cancel₀ (Real.sqrt_pos.mpr hz).ne' h4) hs
  have hpr' := hpr
  have hpth' := hpth
  rw [er q' T' hT', er q T hT] at hpr'
  rw [eth q' T' hT', eth q T hT] at hpth'
  obtain ⟨k, hk'⟩ := inj _ _ hpr'.symm (by
    by_cases h0 : Spec.R a E L Q (T.r l) = 0
    · have h5 : T.r l = r2 ∨ T.r l = r1 := by
        rw [hR] at h0
        have hv : r4.im ≠ 0 := H.hv
        have hp : (T.r l - r3.re) ^ 2 + r4.im ^ 2 ≠ 0 := by positivity
        have hb : 1 - E ^ 2 ≠ 0 := by linarith
        rcases mul_eq_zero.mp h0 with h | h
        · rcases mul_eq_zero.mp h with h | h
          · rcases mul_eq_zero.mp h with h | h
            · exact absurd h hb
            · left; linarith
          · right; linarith
        · exact absurd h hp
      have h6 : sin (plungeUpsilonRComplex E r1 r2 r3.re r4.im * l + q.qr) = 0 := by
        have hA := H.A_pos.ne'
        have hB := H.B_pos.ne'
        rcases h5 with h5 | h5
        · rw [er q T hT] at h5
          obtain ⟨k, hk⟩ := inj _ π (h5.trans (by rw [amC_pi hm, Real.cos_pi]; unfold rC; field_simp; ring)) (by simp)
          exact sin_zero_of_turn hk Real.sin_pi
        · rw [er q T hT] at h5
          obtain ⟨k, hk⟩ := inj _ 0 (h5.trans (by rw [amC_zero hm, Real.cos_zero]; unfold rC; field_simp; ring)) (by simp)
          exact sin_zero_of_turn hk Real.sin_zero
      rw [h6, zero_mul]
    · exact hsr h0)
  obtain ⟨j, hj'⟩ := injT _ _ hpth'.symm (by
    by_cases h0 : Spec.Theta a E L Q (T.theta l) = 0
    · have h5 := zpol_of_theta a E L Q hsin.ne'
      rw [h0, mul_zero, eth q T hT, cos_sq_polar z0 z1, hZ] at h5
      rw [polar_turn_sine hk P.c_pos.ne' hz z1 zp h5, zero_mul]
    · exact hsth h0)
  exact ⟨k, j, hk', hj'⟩

/-- The phases of a plunge with four real roots are determined, up to turns, by position and direction. -/
lemma real_phases {r1 r2 r3 r4 : ℝ} (ha : a ≠ 0) (hE : E ^ 2 < 1) (hQ : 0 < Q) (hL : L ≠ 0)
    (hr : plungingRadialRoots a E L Q = .ok (.real r1 r2 r3 r4)) (hsep : r3 < r2 ∨ r1 < r4) (h21 : r2 < r1)
    (hu : plungingMinoFrequencies a E L Q = .ok (uR, uTheta))
    (hT : plungingTrajectoryNat a E L Q q = .ok T) (hT' : plungingTrajectoryNat a E L Q q' = .ok T') (l l' : ℝ)
    (hpr : T'.r l' = T.r l) (hpth : T'.theta l' = T.theta l)
    (hsr : Spec.R a E L Q (T.r l) ≠ 0 → 0 ≤ sin (uR * l + q.qr) * sin (uR * l' + q'.qr))
    (hsth : Spec.Theta a E L Q (T.theta l) ≠ 0 → 0 ≤ sin (uTheta * l + q.qtheta) * sin (uTheta * l' + q'.qtheta)) :
    ∃ k j : ℤ, uR * l' + q'.qr = uR * l + q.qr + k * (2 * π)
      ∧ uTheta * l' + q'.qtheta = uTheta * l + q.qtheta + j * (2 * π) := by
  have HR := realConfig_of hE hr hsep
  obtain ⟨hR, -, h43, -⟩ := C30_real a E L Q r1 r2 r3 r4 hE.ne hr
  obtain ⟨hU, hrng, -, htu0, htu1⟩ := C50_range ha hE hL hQ.le hr hsep hu hT
  obtain ⟨-, -, -, hsin, -⟩ := C50_radial_polar ha hE hL hQ.le hr hsep hu hT l
  obtain ⟨zm, zp, HP, hf, hUR, hUT, T1, hT1, hTr, hTth, -⟩ := real_calls ha hE hL hQ.le hr hu hT
  obtain ⟨zm', zp', HP', hf', -, -, T2, hT2, hTr', hTth', -⟩ := real_calls ha hE hL hQ.le hr hu hT'
  have hc : 0 < a ^ 2 * (1 - E ^ 2) := by have : 0 < 1 - E ^ 2 := by linarith
                                          positivity
  have zp1 : ∀ zm zp, PolarConfig a E L Q zm zp → 1 ≤ zp := by
    intro zm zp H
    rw [H.zp_eq ha]
    have := sub_pos.mpr H.z1
    have : 0 ≤ L ^ 2 / (a ^ 2 * (1 - E ^ 2) * (1 - zm)) := by positivity
    linarith
  have hp := zp1 _ _ HP
  obtain rfl : zm' = zm := by
    have h := hf zm'
    rw [HP'.root] at h
    rcases mul_eq_zero.mp h.symm with h | h
    · exact absurd h hc.ne'
    · rcases mul_eq_zero.mp h with h | h
      · linarith
      · have := HP'.z1; linarith
  obtain rfl : zp' = zp := by rw [HP.zp_eq ha, HP'.zp_eq ha]
  have hz : 0 < zm' := by
    refine lt_of_le_of_ne HP.z0 fun h => ?_
    have := hf 0
    rw [← h, sub_self, zero_mul, mul_zero] at this
    simp [Spec.Zpol] at this
    linarith
  have hm := HR.mR_lt
  have hmT := HP.mT_lt
  have er : ∀ l, T.r l = rOf r1 r2 r3 (sin (amR (mR r1 r2 r3 r4) (uR * l + q.qr)) ^ 2) := by
    intro l
    rw [hTr, hT1, hUR]
    exact radial_pos_eq (a := a) (cs := (E, L, Q)) HR _
  have er' : ∀ l, T'.r l = rOf r1 r2 r3 (sin (amR (mR r1 r2 r3 r4) (uR * l + q'.qr)) ^ 2) := by
    intro l
    rw [hTr', hT2, hUR]
    exact radial_pos_eq (a := a) (cs := (E, L, Q)) HR _
  have eth : ∀ l, T.theta l = arccos (√zm' * sin (amT (mT a zm' zp') (uTheta * l + q.qtheta))) := by
    intro l
    rw [hTth, hT1, hUT, ← fromConstants_upsilonTheta (Q := Q) (r1 := r1) (r2 := r2) (r3 := r3) (r4 := r4) ha HP]
    exact polar_pos_eq HP _
  have eth' : ∀ l, T'.theta l = arccos (√zm' * sin (amT (mT a zm' zp') (uTheta * l + q'.qtheta))) := by
    intro l
    rw [hTth', hT2, hUT, ← fromConstants_upsilonTheta (Q := Q) (r1 := r1) (r2 := r2) (r3 := r3) (r4 := r4) ha HP]
    exact polar_pos_eq HP _
  have inj : ∀ y z, rOf r1 r2 r3 (sin (amR (mR r1 r2 r3 r4) y) ^ 2) = rOf r1 r2 r3 (sin (amR (mR r1 r2 r3 r4) z) ^ 2) →
      0 ≤ sin y * sin z → ∃ k : ℤ, z = y + k * (2 * π) :=
    fun y z h hs => radial_phase_unique hm (rOf_injective HR h21 h) hs
  have injT : ∀ y z, arccos (√zm' * sin (amT (mT a zm' zp') y)) = arccos (√zm' * sin (amT (mT a zm' zp') z)) →
      0 ≤ sin y * sin z → ∃ k : ℤ, z = y + k * (2 * π) := by
    intro y z h hs
    have h4 := congrArg cos h
    rw [cos_polar HP.z0 HP.z1, cos_polar HP.z0 HP.z1] at h4
    exact polar_phase_unique hmT (mul_left_cancel₀ (Real.sqrt_pos.mpr hz).ne' h4) hs
  have hpr' := hpr
  have hpth' := hpth
  rw [er', er] at hpr'
  rw [eth', eth] at hpth'
  obtain ⟨k, hk'⟩ := inj _ _ hpr'.symm (by
    by_cases h0 : Spec.R a E L Q (T.r l) = 0
    · have h5 : T.r l = r1 ∨ T.r l = r2 := by
        obtain ⟨g2, g1⟩ := hrng l
        rw [hR] at h0
        have hb : 1 - E ^ 2 ≠ 0 := by linarith
        have n3 : T.r l - r3 ≠ 0 := by rcases hsep with h | h <;> intro h' <;> linarith
        have n4 : T.r l - r4 ≠ 0 := by rcases hsep with h | h <;> intro h' <;> linarith
        simp only [mul_eq_zero, hb, n3, n4, or_false, false_or] at h0
        rcases h0 with h | h
        · left; linarith
        · right; linarith
      have h6 : sin (uR * l + q.qr) = 0 := by
        rcases h5 with h5 | h5
        · have h7 := htu1 ((π - q.qr) / uR) (by field_simp; ring)
          rw [er, show uR * ((π - q.qr) / uR) + q.qr = π by field_simp; ring] at h7
          rw [er] at h5
          obtain ⟨k, hk⟩ := inj _ π (h5.trans h7.symm) (by simp)
          exact sin_zero_of_turn hk Real.sin_pi
        · have h7 := htu0 ((0 - q.qr) / uR) (by field_simp; ring)
          rw [er, show uR * ((0 - q.qr) / uR) + q.qr = 0 by field_simp; ring] at h7
          rw [er] at h5
          obtain ⟨k, hk⟩ := inj _ 0 (h5.trans h7.symm) (by simp)
          exact sin_zero_of_turn hk Real.sin_zero
      rw [h6, zero_mul]
    · exact hsr h0)
  obtain ⟨j, hj'⟩ := injT _ _ hpth'.symm (by
    by_cases h0 : Spec.Theta a E L Q (T.theta l) = 0
    · have h5 := zpol_of_theta a E L Q hsin.ne'
      rw [h0, mul_zero, eth, cos_sq_polar HP.z0 HP.z1, hf, ← mul_assoc] at h5
      rw [polar_turn_sine hmT hc.ne' hz HP.z1 hp h5, zero_mul]
    · exact hsth h0)
  exact ⟨k, j, hk', hj'⟩

/-- Equal radial and polar velocities: the sines of the phases do not have opposite signs, except at turning points. -/
lemma same_directions {uR uT : ℝ} (l0 : ℝ) (hpos : T'.at 0 = T.at l0) (hS : Spec.Sigma a (T.r l0) (T.theta l0) ≠ 0)
    (hsin : sin (T.theta l0) ≠ 0)
    (hvel : (fourVelocity a T' (E, L, Q) uR uT q').at 0 = (fourVelocity a T (E, L, Q) uR uT q).at l0) :
    (Spec.R a E L Q (T.r l0) ≠ 0 → 0 ≤ sin (uR * l0 + q.qr) * sin (uR * 0 + q'.qr))
    ∧ (Spec.Theta a E L Q (T.theta l0) ≠ 0 → 0 ≤ sin (uT * l0 + q.qtheta) * sin (uT * 0 + q'.qtheta)) := by
  simp only [Traj.at, Vec4.mk.injEq] at hpos hvel
  obtain ⟨-, pr, pth, -⟩ := hpos
  obtain ⟨-, vr, vth, -⟩ := hvel
  simp only [fourVelocity, pr, pth] at vr vth
  have hS' : T.r l0 ^ 2 + a ^ 2 * cos (T.theta l0) ^ 2 ≠ 0 := hS
  constructor
  · intro h
    have h1 : √|fvR a E L Q (T.r l0)| ≠ 0 := by
      rw [fvR_eq]; exact (Real.sqrt_pos.mpr (abs_pos.mpr h)).ne'
    exact sines_of_copysign h1 hS' vr.symm
  · intro h
    have h2 : fvZ a E L Q (cos (T.theta l0)) = Spec.Zpol a E L Q (cos (T.theta l0) ^ 2) := by
      unfold Spec.Zpol fvZ; ring
    have h1 : √|fvZ a E L Q (cos (T.theta l0))| ≠ 0 := by
      rw [h2, zpol_of_theta a E L Q hsin]
      exact (Real.sqrt_pos.mpr (abs_pos.mpr (mul_ne_zero (by positivity) h))).ne'
    exact sines_of_copysign h1 (mul_ne_zero hS' hsin) vth.symm

/-- Trajectories whose phases differ by the phases of a point and whole turns are shifts of each other, and so are the
four-velocities. -/
lemma plunge_shifted {uR uT : ℝ} (ha : a ≠ 0) (hE : E ^ 2 < 1) (hQ : 0 < Q)
    (hsep : ∀ r1 r2 r3 r4, plungingRadialRoots a E L Q = .ok (.real r1 r2 r3 r4) → L ≠ 0 ∧ (r3 < r2 ∨ r1 < r4))
    (hax : L ≠ 0 ∨ Q < a ^ 2 * (1 - E ^ 2)) (hu : plungingMinoFrequencies a E L Q = .ok (uR, uT))
    (hT : plungingTrajectoryNat a E L Q q = .ok T) (hT' : plungingTrajectoryNat a E L Q q' = .ok T') (l0 : ℝ)
    (hpos : T'.at 0 = T.at l0) {k j : ℤ} (hk : uR * 0 + q'.qr = uR * l0 + q.qr + k * (2 * π))
    (hj : uT * 0 + q'.qtheta = uT * l0 + q.qtheta + j * (2 * π)) (l : ℝ) :
    T'.at l = T.at (l0 + l)
    ∧ (fourVelocity a T' (E, L, Q) uR uT q').at l = (fourVelocity a T (E, L, Q) uR uT q).at (l0 + l) := by
  have h0 : T'.t 0 = q'.qt ∧ T'.phi 0 = q'.qphi := by
    cases hpr : plungingRadialRoots a E L Q with
    | error e => simp [plungingTrajectoryNat, hpr, bind, Except.bind] at hT
    | ok pr =>
      obtain ⟨R, P, u1, u2, s, g, w, inf, -, hSh, hinf, -⟩ := plunge_shape ha hE hQ.le hsep hax hpr
      rw [hSh, Except.ok.injEq] at hT'
      have hi : ¬ inf := fun h => hQ.ne' (hinf h).1
      rw [← hT']
      simp only [plungeShape, hi, if_false, mul_zero, zero_add]
      constructor <;> ring
  have hpos' := hpos
  simp only [Traj.at, Vec4.mk.injEq] at hpos'
  obtain ⟨pt, -, -, pphi⟩ := hpos'
  obtain ⟨T2, hT2, hs2⟩ := C19_plunging a E L Q q T uR uT l0 ha hE.ne (fun h => absurd h hQ.ne') hT hu
  have hq : q' = ⟨T.t l0, (q.qr + uR * l0) + k * (2 * π), (q.qtheta + uT * l0) + j * (2 * π), T.phi l0⟩ := by
    obtain ⟨a1, a2, a3, a4⟩ := q'
    simp only [Phases.mk.injEq]
    simp only [] at hk hj h0
    refine ⟨?_, ?_, ?_, ?_⟩ <;> linarith
  have hturn := C52_plunge_turns (a := a) (E := E) (L := L) (Q := Q)
    ⟨T.t l0, q.qr + uR * l0, q.qtheta + uT * l0, T.phi l0⟩ ha hE hQ.le hsep hax k j
  simp only [← hq] at hturn
  rw [hT', hT2, Except.ok.injEq] at hturn
  have hT3 : ∀ l, T'.at l = T.at (l0 + l) := fun l => by rw [hturn]; exact hs2 l
  refine ⟨hT3 l, ?_⟩
  have h3 := hT3 l
  simp only [Traj.at, Vec4.mk.injEq] at h3 ⊢
  obtain ⟨-, er, eth, -⟩ := h3
  have e1 : sin (uR * l + q'.qr) = sin (uR * (l0 + l) + q.qr) := by
    rw [show uR * l + q'.qr = uR * (l0 + l) + q.qr + k * (2 * π) by linarith, Real.sin_add_int_mul_two_pi]
  have e2 : sin (uT * l + q'.qtheta) = sin (uT * (l0 + l) + q.qtheta) := by
    rw [show uT * l + q'.qtheta = uT * (l0 + l) + q.qtheta + j * (2 * π) by linarith, Real.sin_add_int_mul_two_pi]
  simp only [fourVelocity, er, eth, e1, e2, and_self]

end

lemma theta_between {θ c : ℝ} (h : θ = arccos c) (hs : 0 < sin θ) : 0 < θ ∧ θ < π := by
  have h1 := Real.arccos_nonneg c
  have h2 := Real.arccos_le_pi c
  rw [← h] at h1 h2
  refine ⟨lt_of_le_of_ne h1 ?_, lt_of_le_of_ne h2 ?_⟩
  · rintro rfl; rw [Real.sin_zero] at hs; exact lt_irrefl _ hs
  · rintro rfl; rw [Real.sin_pi] at hs; exact lt_irrefl _ hs

lemma mkPlungingOrbit_data {rs : RootScalar} {a E L Q : ℝ} {q : Phases} {M mu : Option ℝ} {o : OrbitObj} {pos0 vel0 : Vec4}
    (ho : mkPlungingOrbit rs a E L Q q M mu = .ok (o, pos0, vel0)) :
    a ≠ 0 ∧ ∃ uR uT, plungingMinoFrequencies a E L Q = .ok (uR, uT) ∧ o.a = a ∧ o.stable = false ∧ o.consts = (E, L, Q)
      ∧ o.upsilonR = uR ∧ o.upsilonTheta = uT ∧ o.phases = q := by
  unfold mkPlungingOrbit at ho
  obtain ⟨_, hg, ho⟩ := bind_eq_ok.mp ho
  have ha : a ≠ 0 := by
    intro h0
    rw [raiseIf, if_pos h0] at hg
    cases hg
  obtain ⟨⟨uR, uT⟩, hu, ho⟩ := bind_eq_ok.mp ho
  obtain ⟨U, -, ho⟩ := bind_eq_ok.mp ho
  obtain ⟨T, -, ho⟩ := bind_eq_ok.mp ho
  have := Except.ok.inj ho
  simp only [Prod.mk.injEq] at this
  obtain ⟨rfl, -, -⟩ := this
  exact ⟨ha, uR, uT, hu, rfl, rfl, rfl, rfl, rfl, rfl⟩

/-- The restart for the functions called by `Orbit` and `PlungingOrbit`. -/
lemma plunge_restart_core (rs : RootScalar) {a E L Q uR uT : ℝ} {q : Phases} (M mu : Option ℝ) {T : Traj}
    (ha : a ≠ 0) (ha1 : a ^ 2 < 1) (hE : E ^ 2 < 1) (hQ : 0 < Q) (hax : L ≠ 0 ∨ Q < a ^ 2 * (1 - E ^ 2))
    (hu : plungingMinoFrequencies a E L Q = .ok (uR, uT)) (hT : plungingTrajectoryNat a E L Q q = .ok T) (l0 : ℝ)
    (hD : Spec.Delta a (T.r l0) ≠ 0) (hS : Spec.Sigma a (T.r l0) (T.theta l0) ≠ 0)
    (hreal : ∀ r1 r2 r3 r4, plungingRadialRoots a E L Q = .ok (.real r1 r2 r3 r4) →
      L ≠ 0 ∧ (r3 < r2 ∨ r1 + 1e-4 < r4) ∧ (∀ rh, Spec.Delta a rh = 0 → E * (rh ^ 2 + a ^ 2) ≠ a * L)
      ∧ Spec.ClearOf 1e-4 (T.r l0) r1 ∧ Spec.ClearOf 1e-4 (T.r l0) r2
      ∧ ∀ zm, 0 ≤ zm → zm < 1 → Spec.Zpol a E L Q zm = 0 →
        Spec.ClearOf 1e-4 (T.theta l0) (arccos (√zm)) ∧ Spec.ClearOf 1e-4 (T.theta l0) (π - arccos (√zm))) :
    ∃ o' T' U', mkOrbit rs a (T.at l0) ((fourVelocity a T (E, L, Q) uR uT q).at l0) M mu = .ok o'
      ∧ o'.stable = false ∧ o'.a = a ∧ o'.consts = (E, L, Q) ∧ o'.upsilonR = uR ∧ o'.upsilonTheta = uT
      ∧ o'.trajectoryNat rs = .ok T' ∧ o'.fourVelocity rs = .ok U'
      ∧ ∀ l, T'.at l = T.at (l0 + l) ∧ U'.at l = (fourVelocity a T (E, L, Q) uR uT q).at (l0 + l) := by
  have hsep : ∀ r1 r2 r3 r4, plungingRadialRoots a E L Q = .ok (.real r1 r2 r3 r4) → L ≠ 0 ∧ (r3 < r2 ∨ r1 < r4) :=
    fun r1 r2 r3 r4 h => by
      obtain ⟨g1, g2, -⟩ := hreal r1 r2 r3 r4 h
      exact ⟨g1, g2.imp id fun h => by norm_num at h; linarith⟩
  -- what the new object computes
  have finish : ∀ o', mkOrbit rs a (T.at l0) ((fourVelocity a T (E, L, Q) uR uT q).at l0) M mu = .ok o' →
      o'.stable = false → o'.consts = (E, L, Q) → ∀ T' U', o'.trajectoryNat rs = .ok T' →
      o'.fourVelocity rs = .ok U' → T'.at 0 = T.at l0 → U'.at 0 = (fourVelocity a T (E, L, Q) uR uT q).at l0 →
      sin (T.theta l0) ≠ 0 →
      (∀ q', plungingTrajectoryNat a E L Q q' = .ok T' →
        (Spec.R a E L Q (T.r l0) ≠ 0 → 0 ≤ sin (uR * l0 + q.qr) * sin (uR * 0 + q'.qr)) →
        (Spec.Theta a E L Q (T.theta l0) ≠ 0 → 0 ≤ sin (uT * l0 + q.qtheta) * sin (uT * 0 + q'.qtheta)) →
        ∃ k j : ℤ, uR * 0 + q'.qr = uR * l0 + q.qr + k * (2 * π)
          ∧ uT * 0 + q'.qtheta = uT * l0 + q.qtheta + j * (2 * π)) →
      o'.a = a ∧ o'.upsilonR = uR ∧ o'.upsilonTheta = uT
        ∧ ∀ l, T'.at l = T.at (l0 + l) ∧ U'.at l = (fourVelocity a T (E, L, Q) uR uT q).at (l0 + l) := by
    intro o' ho hst hcs T' U' hT' hU' hpos hvel hsin hph
    obtain ⟨E', L', Q', u1, u2, -, -, g1, -, g2, g3, g4, g5⟩ := mkOrbit_plunge ho hst
    obtain ⟨rfl, rfl, rfl⟩ : E' = E ∧ L' = L ∧ Q' = Q := by
      rw [g3] at hcs; simpa using hcs
    have := Except.ok.inj (g1.symm.trans hu)
    simp only [Prod.mk.injEq] at this
    obtain ⟨rfl, rfl⟩ := this
    have hTn : plungingTrajectoryNat a E' L' Q' o'.phases = .ok T' := by
      rw [← hT']
      unfold OrbitObj.trajectoryNat
      simp only [Option.getD_none, hst, g2, g3, Bool.false_eq_true, if_false]
    have hUe : fourVelocity a T' (E', L', Q') u1 u2 o'.phases = U' := by
      have hT3 : o'.trajectoryNat rs (some o'.phases) = .ok T' := by rw [← hT']; rfl
      unfold OrbitObj.fourVelocity at hU'
      simp only [Option.getD_none, hT3, bind_ok, pure, Except.pure, g2, g3, g4, g5] at hU'
      exact Except.ok.inj hU'
    obtain ⟨d1, d2⟩ := same_directions (q := q) l0 hpos hS hsin (by rw [hUe]; exact hvel)
    obtain ⟨k, j, hk, hj⟩ := hph _ hTn d1 d2
    refine ⟨g2, g4, g5, fun l => ?_⟩
    rw [← hUe]
    exact plunge_shifted ha hE hQ hsep hax hu hT hTn l0 hpos hk hj l
  cases hpr : plungingRadialRoots a E L Q with
  | error e => simp [plungingTrajectoryNat, hpr, bind, Except.bind] at hT
  | ok pr =>
    cases pr with
    | cplx r1 r2 r3 r4 =>
      obtain ⟨-, -, hR0, -⟩ := C31_radial_equation hE hpr hu hT l0
      obtain ⟨-, _, -, -, -, -, hth⟩ := C32_polar_equation hE hpr hu hT ha hQ.le hax
      obtain ⟨-, hsin, hTh0, -⟩ := hth l0
      have hn := C01_norm a T E L Q uR uT l0 q hsin.ne' hS hD hR0 hTh0
      have hc := C02_roundtrip_four_velocity a T E L Q uR uT l0 q hsin.ne' hS hD hR0 hTh0
      have hthr : 0 < T.theta l0 ∧ T.theta l0 < π := by
        have P : PlungePolar a E L Q := ⟨ha, hE, hQ.le, hax⟩
        have h := (cplx_calls q hpr).2
        rw [hT, Except.ok.injEq] at h
        have h1 : T.theta l0 = (plungingPolarSolutionsCore a E L Q (plungeUpsilonThetaComplex a E L Q)).pos
            (plungeUpsilonThetaComplex a E L Q * l0 + (q.qtheta + π / 2)) := by rw [h]; rfl
        exact theta_between (h1.trans (P.pos_eq _)) hsin
      obtain ⟨o', ho, hst, hcs⟩ := C44_constructible rs M mu ha hc hn hE hpr
      obtain ⟨T', U', hT', hpos, hU', hvel⟩ := C44_velocity ho hst hcs hE hpr hS hD hQ.ne' hax (cplx_outer_lt ha1 hE hpr)
        hthr.1 hthr.2 hn
      have hp := hpos
      simp only [Traj.at, Vec4.mk.injEq] at hp
      obtain ⟨f1, f2, f3, f4⟩ := finish o' ho hst hcs T' U' hT' hU' hpos hvel hsin.ne'
        (fun q' hq' => cplx_phases ha ha1 hE hQ hax hpr hu hT hq' l0 0 hp.2.1 hp.2.2.1)
      exact ⟨o', T', U', ho, hst, f1, hcs, f2, f3, hT', hU', f4⟩
    | real r1 r2 r3 r4 =>
      obtain ⟨hL, hsp, hh, c1, c2, c3⟩ := hreal _ _ _ _ hpr
      have hsp' := (hsep _ _ _ _ hpr).2
      obtain ⟨hR0, -, -, hsin, hTh0, -⟩ := C50_radial_polar ha hE hL hQ.le hpr hsp' hu hT l0
      obtain ⟨-, hrng, -⟩ := C50_range ha hE hL hQ.le hpr hsp' hu hT
      obtain ⟨b2, b1⟩ := hrng l0
      have hn := C01_norm a T E L Q uR uT l0 q hsin.ne' hS hD hR0 hTh0
      have hc := C02_roundtrip_four_velocity a T E L Q uR uT l0 q hsin.ne' hS hD hR0 hTh0
      have hthr : 0 < T.theta l0 ∧ T.theta l0 < π := by
        obtain ⟨zm, zp, HP, -, -, -, T1, hT1, -, hTth, -⟩ := real_calls ha hE hL hQ.le hpr hu hT
        have h1 : T.theta l0 = (polarSolutionsCore a (E, L, Q) zm zp).pos
            ((minoFrequenciesFromConstants a (E, L, Q) (r1, r2, r3, r4) (zm, zp)).upsilonTheta * l0 + q.qtheta) := by
          rw [hTth, hT1]; rfl
        exact theta_between (h1.trans (polar_pos_eq HP _)) hsin
      obtain ⟨k2, k1, -⟩ := C50_horizons ha1 hE hQ.le hpr hh
      have hs0 := Real.sqrt_nonneg (1 - a ^ 2)
      obtain ⟨hR, h21, h43, hlab⟩ := C30_real a E L Q r1 r2 r3 r4 hE.ne hpr
      have hcl : icIsStable a (T.at l0) ((fourVelocity a T (E, L, Q) uR uT q).at l0) (some (E, L, Q)) = .ok false := by
        rcases hlab with ⟨h32, h3⟩ | ⟨h14, h1⟩
        · refine (C36_four_real a E L Q 1e-4 r1 r2 r3 r4 _ _ hE.ne hR h43 h32 h21).2.1 ⟨k2, ?_, ?_⟩ <;>
            simp only [Traj.at] <;> norm_num <;> linarith
        · have hR' : Spec.RadialRoots a E L Q r3 r4 r1 r2 := fun r => by rw [hR]; ring
          have h14' : r1 + 1e-4 < r4 := by
            rcases hsp with h | h
            · linarith
            · exact h
          refine (C36_four_real a E L Q 1e-4 r3 r4 r1 r2 _ _ hE.ne hR' h21 h14 h43).2.2.1 ⟨by linarith, fun h => ?_, ?_, ?_⟩
          · have := h.1
            simp only [Traj.at] at this
            linarith
          · simp only [Traj.at]; norm_num; linarith
          · simp only [Traj.at]; norm_num; linarith
      obtain ⟨o', ho, hst, hcs⟩ := C34_real_constructible rs M mu ha hc hn hE hL hpr hcl
      obtain ⟨T', U', hT', hpos, hU', hvel⟩ := C35_real_plunge ho hst hcs hE hL hpr hsp' hQ.ne' hS hD hthr.1 hthr.2
        b2 b1 hn c1 c2 c3
      have hp := hpos
      simp only [Traj.at, Vec4.mk.injEq] at hp
      obtain ⟨f1, f2, f3, f4⟩ := finish o' ho hst hcs T' U' hT' hU' hpos hvel hsin.ne'
        (fun q' hq' => real_phases ha hE hQ hL hpr hsp' (by linarith) hu hT hq' l0 0 hp.2.1 hp.2.2.1)
      exact ⟨o', T', U', ho, hst, f1, hcs, f2, f3, hT', hU', f4⟩

/-- **C49 (plunges).** Take any `PlungingOrbit` off the equatorial plane, any point of it that is not on a horizon
(with four real roots: `r` and `θ` exactly at a turning point or at least the classification tolerance `1e-4` away from
it), and the four-velocity there.  `Orbit` built from that position and velocity is accepted, is a plunge with the same
constants and frequencies, and its trajectory and four-velocity at every Mino time — before, between and after the horizon
crossings — are those of the original orbit, shifted by the Mino time of the chosen point. -/
theorem C49_plunge (rs : RootScalar) {a E L Q : ℝ} (q : Phases) (M mu : Option ℝ)
    (ha1 : a ^ 2 < 1) (hE : E ^ 2 < 1) (hQ : 0 < Q) (hax : L ≠ 0 ∨ Q < a ^ 2 * (1 - E ^ 2))
    (o : OrbitObj) (pos0 vel0 : Vec4) (ho : mkPlungingOrbit rs a E L Q q M mu = .ok (o, pos0, vel0))
    (T U : Traj) (hT : o.trajectoryNat rs = .ok T) (hU : o.fourVelocity rs = .ok U) (l0 : ℝ)
    (hD : Spec.Delta a (T.r l0) ≠ 0) (hS : Spec.Sigma a (T.r l0) (T.theta l0) ≠ 0)
    (hreal : ∀ r1 r2 r3 r4, plungingRadialRoots a E L Q = .ok (.real r1 r2 r3 r4) →
      L ≠ 0 ∧ (r3 < r2 ∨ r1 + 1e-4 < r4) ∧ (∀ rh, Spec.Delta a rh = 0 → E * (rh ^ 2 + a ^ 2) ≠ a * L)
      ∧ Spec.ClearOf 1e-4 (T.r l0) r1 ∧ Spec.ClearOf 1e-4 (T.r l0) r2
      ∧ ∀ zm, 0 ≤ zm → zm < 1 → Spec.Zpol a E L Q zm = 0 →
        Spec.ClearOf 1e-4 (T.theta l0) (arccos (√zm)) ∧ Spec.ClearOf 1e-4 (T.theta l0) (π - arccos (√zm))) :
    ∃ o' T' U', mkOrbit rs a (T.at l0) (U.at l0) M mu = .ok o'
      ∧ o'.stable = false ∧ o'.a = o.a ∧ o'.consts = o.consts ∧ o'.upsilonR = o.upsilonR
      ∧ o'.upsilonTheta = o.upsilonTheta ∧ o'.trajectoryNat rs = .ok T' ∧ o'.fourVelocity rs = .ok U'
      ∧ ∀ l, T'.at l = T.at (l0 + l) ∧ U'.at l = U.at (l0 + l) := by
  obtain ⟨ha, uR, uT, hu, k1, k2, k3, k4, k5, k6⟩ := mkPlungingOrbit_data ho
  have hTn : plungingTrajectoryNat a E L Q q = .ok T := by
    rw [← hT]
    unfold OrbitObj.trajectoryNat
    simp only [Option.getD_none, k2, k1, k3, k6, Bool.false_eq_true, if_false]
  obtain rfl : fourVelocity a T (E, L, Q) uR uT q = U := by
    have hT3 : o.trajectoryNat rs (some q) = .ok T := by
      rw [← hT]; unfold OrbitObj.trajectoryNat; simp only [Option.getD_none, Option.getD_some, k6]
    unfold OrbitObj.fourVelocity at hU
    simp only [Option.getD_none, k6, hT3, bind_ok, pure, Except.pure, k1, k3, k4, k5] at hU
    exact Except.ok.inj hU
  rw [k1, k3, k4, k5]
  exact plunge_restart_core rs M mu ha ha1 hE hQ hax hu hTn l0 hD hS hreal

/-- **C49 (plunges).** The same for an `Orbit` that was itself built from a position and a velocity. -/
theorem C49_plunge_again (rs : RootScalar) {a E L Q : ℝ} (M mu : Option ℝ)
    (ha1 : a ^ 2 < 1) (hE : E ^ 2 < 1) (hQ : 0 < Q) (hax : L ≠ 0 ∨ Q < a ^ 2 * (1 - E ^ 2))
    (o : OrbitObj) (pos0 vel0 : Vec4) (ho : mkOrbit rs a pos0 vel0 M mu = .ok o) (hst : o.stable = false)
    (hcs : o.consts = (E, L, Q))
    (T U : Traj) (hT : o.trajectoryNat rs = .ok T) (hU : o.fourVelocity rs = .ok U) (l0 : ℝ)
    (hD : Spec.Delta a (T.r l0) ≠ 0) (hS : Spec.Sigma a (T.r l0) (T.theta l0) ≠ 0)
    (hreal : ∀ r1 r2 r3 r4, plungingRadialRoots a E L Q = .ok (.real r1 r2 r3 r4) →
      L ≠ 0 ∧ (r3 < r2 ∨ r1 + 1e-4 < r4) ∧ (∀ rh, Spec.Delta a rh = 0 → E * (rh ^ 2 + a ^ 2) ≠ a * L)
      ∧ Spec.ClearOf 1e-4 (T.r l0) r1 ∧ Spec.ClearOf 1e-4 (T.r l0) r2
      ∧ ∀ zm, 0 ≤ zm → zm < 1 → Spec.Zpol a E L Q zm = 0 →
        Spec.ClearOf 1e-4 (T.theta l0) (arccos (√zm)) ∧ Spec.ClearOf 1e-4 (T.theta l0) (π - arccos (√zm))) :
    ∃ o' T' U', mkOrbit rs a (T.at l0) (U.at l0) M mu = .ok o'
      ∧ o'.stable = false ∧ o'.a = o.a ∧ o'.consts = o.consts ∧ o'.upsilonR = o.upsilonR
      ∧ o'.upsilonTheta = o.upsilonTheta ∧ o'.trajectoryNat rs = .ok T' ∧ o'.fourVelocity rs = .ok U'
      ∧ ∀ l, T'.at l = T.at (l0 + l) ∧ U'.at l = U.at (l0 + l) := by
  obtain ⟨E', L', Q', uR, uT, -, ha, hu, -, k1, k3, k4, k5⟩ := mkOrbit_plunge ho hst
  obtain ⟨rfl, rfl, rfl⟩ : E' = E ∧ L' = L ∧ Q' = Q := by
    rw [k3] at hcs; simpa using hcs
  have hTn : plungingTrajectoryNat a E' L' Q' o.phases = .ok T := by
    rw [← hT]
    unfold OrbitObj.trajectoryNat
    simp only [Option.getD_none, hst, k1, k3, Bool.false_eq_true, if_false]
  obtain rfl : fourVelocity a T (E', L', Q') uR uT o.phases = U := by
    have hT3 : o.trajectoryNat rs (some o.phases) = .ok T := by rw [← hT]; rfl
    unfold OrbitObj.fourVelocity at hU
    simp only [Option.getD_none, hT3, bind_ok, pure, Except.pure, k1, k3, k4, k5] at hU
    exact Except.ok.inj hU
  rw [k1, k3, k4, k5]
  exact plunge_restart_core rs M mu ha ha1 hE hQ hax hu hTn l0 hD hS hreal

lemma mkPlungingOrbit_of (rs : RootScalar) {a E L Q uR uT : ℝ} {q : Phases} {T : Traj} (M mu : Option ℝ) (ha : a ≠ 0)
    (hu : plungingMinoFrequencies a E L Q = .ok (uR, uT)) (hT : plungingTrajectoryNat a E L Q q = .ok T) :
    ∃ o pos0 vel0, mkPlungingOrbit rs a E L Q q M mu = .ok (o, pos0, vel0) ∧ o.trajectoryNat rs = .ok T
      ∧ o.fourVelocity rs = .ok (fourVelocity a T (E, L, Q) uR uT q) := by
  unfold mkPlungingOrbit
  simp only [raiseIf, if_neg ha, bind_ok, hu, OrbitObj.fourVelocity, OrbitObj.trajectoryNat, Option.getD_none,
    Option.getD_some, Bool.false_eq_true, if_false, hT, pure, Except.pure]
  refine ⟨_, _, _, rfl, ?_, ?_⟩
  · simp only [hT, Bool.false_eq_true, if_false]
  · simp only [hT, Bool.false_eq_true, if_false, bind_ok]

/-- Non-vacuity of C49 for plunges with complex roots: the plunge restarted at its largest radius. -/
example (rs : RootScalar) : ∃ o pos0 vel0 T U o' T' U',
    mkPlungingOrbit rs (4 / 5) (√(66825 / 91777)) (4 / 5 * √(66825 / 91777)) (98 / 1873) ⟨1, π, 1, 2⟩ = .ok (o, pos0, vel0)
    ∧ o.trajectoryNat rs = .ok T ∧ o.fourVelocity rs = .ok U ∧ T.r 0 = 7
    ∧ mkOrbit rs (4 / 5) (T.at 0) (U.at 0) = .ok o' ∧ o'.trajectoryNat rs = .ok T' ∧ o'.fourVelocity rs = .ok U'
    ∧ ∀ l, T'.at l = T.at l ∧ U'.at l = U.at l := by
  obtain ⟨r3, r4, hr, h3⟩ := exPlunge_roots
  have hE : √(66825 / 91777) ^ 2 < (1 : ℝ) := by rw [Real.sq_sqrt (by norm_num)]; norm_num
  have hL : (4 / 5 * √(66825 / 91777) : ℝ) ≠ 0 := by positivity
  obtain ⟨hu, hT⟩ := cplx_calls ⟨1, π, 1, 2⟩ hr
  obtain ⟨T, hTe⟩ : ∃ T, T = assemblePlunge
      (plungingRadialSolutionsCore (4 / 5) (√(66825 / 91777)) (4 / 5 * √(66825 / 91777)) (7 / 20) 7 r3.re r4.im
        (plungeUpsilonRComplex (√(66825 / 91777)) (7 / 20) 7 r3.re r4.im))
      (plungingPolarSolutionsCore (4 / 5) (√(66825 / 91777)) (4 / 5 * √(66825 / 91777)) (98 / 1873)
        (plungeUpsilonThetaComplex (4 / 5) (√(66825 / 91777)) (4 / 5 * √(66825 / 91777)) (98 / 1873)))
      (plungeUpsilonRComplex (√(66825 / 91777)) (7 / 20) 7 r3.re r4.im)
      (plungeUpsilonThetaComplex (4 / 5) (√(66825 / 91777)) (4 / 5 * √(66825 / 91777)) (98 / 1873)) ⟨1, π, 1, 2⟩ := ⟨_, rfl⟩
  rw [← hTe] at hT
  obtain ⟨o, pos0, vel0, ho, h1, h2⟩ := mkPlungingOrbit_of rs none none (by norm_num) hu hT
  have h7 : T.r 0 = 7 := (C31_period hE hr hu hT).2.2.2 0 (by simp)
  obtain ⟨o', T', U', k1, -, -, -, -, -, k2, k3, k4⟩ := C49_plunge rs ⟨1, π, 1, 2⟩ none none (by norm_num) hE (by norm_num)
    (.inl hL) o pos0 vel0 ho T _ h1 h2 0 (by rw [h7]; norm_num [Spec.Delta]) (by rw [h7]; unfold Spec.Sigma; positivity)
    (fun s1 s2 s3 s4 h => by rw [hr] at h; simp at h)
  exact ⟨o, pos0, vel0, T, _, o', T', U', ho, h1, h2, h7, k1, k2, k3, fun l => by have := k4 l; rwa [zero_add] at this⟩

/-- Non-vacuity of C49 for plunges with four real roots, restarted at the largest radius in the equatorial plane. -/
example (rs : RootScalar) : ∃ o pos0 vel0 T U o' T' U',
    mkPlungingOrbit rs (12 / 13) exE (12 / 13 * exE) (8294400 / 679439) ⟨1, π, π / 2, 2⟩ = .ok (o, pos0, vel0)
    ∧ o.trajectoryNat rs = .ok T ∧ o.fourVelocity rs = .ok U ∧ T.r 0 = 2880 / 1369 ∧ T.theta 0 = π / 2
    ∧ mkOrbit rs (12 / 13) (T.at 0) (U.at 0) = .ok o' ∧ o'.trajectoryNat rs = .ok T' ∧ o'.fourVelocity rs = .ok U'
    ∧ ∀ l, T'.at l = T.at l ∧ U'.at l = U.at l := by
  have hpi := Real.pi_pos
  have hE0 := exE_pos
  have hE2 := exE_sq
  have hE : exE ^ 2 < 1 := by rw [hE2]; norm_num
  have hL : 12 / 13 * exE ≠ 0 := by positivity
  obtain ⟨⟨uR, uT, hu⟩, T, hT⟩ := C50_returns (by norm_num) hE hL exPlungeLabels ⟨1, π, π / 2, 2⟩
  obtain ⟨o, pos0, vel0, ho, h1, h2⟩ := mkPlungingOrbit_of rs none none (by norm_num) hu hT
  have h7 : T.r 0 = 2880 / 1369 :=
    (C50_range (by norm_num) hE hL (by norm_num) exPlungeLabels (.inr (by norm_num)) hu hT).2.2.2.2 0 (by simp)
  have hth : T.theta 0 = π / 2 := by
    obtain ⟨zm, zp, HP, -, -, -, T1, hT1, -, hTth, -⟩ := real_calls (by norm_num) hE hL (by norm_num) exPlungeLabels hu hT
    have h3 : T.theta 0 = (polarSolutionsCore (12 / 13) (exE, 12 / 13 * exE, 8294400 / 679439) zm zp).pos (π / 2) := by
      rw [hTth, hT1]; simp only [assembleTrajectory, mul_zero, zero_add]
    have h4 : amT (mT (12 / 13) zm zp) (π / 2) = π := by
      have := am_int HP.mT_lt 1
      unfold amT
      rw [show 2 / π * ellipk (mT (12 / 13) zm zp) * (π / 2 + π / 2)
        = 2 * ((1 : ℤ) : ℝ) * ellipk (mT (12 / 13) zm zp) by
          have := Real.pi_ne_zero; field_simp; push_cast; ring, this]
      push_cast; ring
    rw [h3, polar_pos_eq HP, h4, Real.sin_pi, mul_zero, Real.arccos_zero]
  have hh : ∀ rh, Spec.Delta (12 / 13) rh = 0 → exE * (rh ^ 2 + (12 / 13) ^ 2) ≠ 12 / 13 * (12 / 13 * exE) := by
    intro rh hrh h
    have h1 : exE * rh ^ 2 = 0 := by linarith
    have h2 : rh = 0 := by
      rcases mul_eq_zero.mp h1 with h | h
      · exact absurd h hE0.ne'
      · exact pow_eq_zero_iff two_ne_zero |>.mp h
    rw [h2] at hrh
    unfold Spec.Delta at hrh
    norm_num at hrh
  obtain ⟨o', T', U', k1, -, -, -, -, -, k2, k3, k4⟩ := C49_plunge rs ⟨1, π, π / 2, 2⟩ none none (by norm_num) hE
    (by norm_num) (.inl hL) o pos0 vel0 ho T _ h1 h2 0 (by rw [h7]; norm_num [Spec.Delta])
    (by rw [h7]; unfold Spec.Sigma; positivity) (by
      intro s1 s2 s3 s4 h
      rw [exPlungeLabels, Except.ok.injEq, PlungeRoots.real.injEq] at h
      obtain ⟨rfl, rfl, rfl, rfl⟩ := h
      refine ⟨hL, .inr (by norm_num), hh, .inl h7, .inr (by rw [h7]; norm_num [abs_of_pos]), ?_⟩
      intro zm h0 h1 hz
      have hz' : 1 / 4 ≤ zm := by
        unfold Spec.Zpol at hz
        rw [mul_pow, hE2] at hz
        nlinarith
      have hs : 1 / 2 ≤ √zm := by
        rw [show (1 / 2 : ℝ) = √(1 / 4) by
          rw [show (1 / 4 : ℝ) = (1 / 2) ^ 2 by norm_num, Real.sqrt_sq (by norm_num)]]
        exact Real.sqrt_le_sqrt hz'
      have hs1 : √zm ≤ 1 := Real.sqrt_le_one.mpr h1.le
      have h2 : 1 / 2 ≤ arcsin (√zm) := by
        have h3 : 0 ≤ arcsin (√zm) := Real.arcsin_nonneg.mpr (Real.sqrt_nonneg _)
        have := Real.sin_le h3
        rw [Real.sin_arcsin (by linarith) hs1] at this
        linarith
      rw [Real.arccos, hth]
      constructor
      · right
        rw [abs_of_nonneg (by linarith)]
        norm_num; linarith
      · right
        rw [abs_of_nonpos (by linarith)]
        norm_num; linarith)
  exact ⟨o, pos0, vel0, T, _, o', T', U', ho, h1, h2, h7, hth, k1, k2, k3,
    fun l => by have := k4 l; rwa [zero_add] at this⟩

end KGP
