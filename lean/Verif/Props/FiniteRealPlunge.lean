import Verif.Lemmas.FiniteRealPlunge

/-!
# C78: exactly where the trajectory of a real-root plunge is a number
-/

namespace KGP

open Classical Real

section
variable {a E L Q r1 r2 r3 r4 uR uTheta : ℝ} {q : Phases} {T : Traj}
  (ha : a ≠ 0) (ha1 : a ^ 2 < 1) (hE : E ^ 2 < 1) (hL : L ≠ 0) (hQ : 0 ≤ Q)
  (hr : plungingRadialRoots a E L Q = .ok (.real r1 r2 r3 r4)) (hsep : r3 < r2 ∨ r1 < r4)

include hE hr in
/-- A horizon that is a root of none of the two factors is off the roots. -/
lemma offRoots_of_regular {rh : ℝ} (hrh : Spec.Delta a rh = 0) (hh : E * (rh ^ 2 + a ^ 2) ≠ a * L) :
    OffRoots r1 r2 r3 rh := by
  have hR := (C30_real a E L Q r1 r2 r3 r4 hE.ne hr).1
  have h0 : Spec.R a E L Q rh ≠ 0 := by
    unfold Spec.R
    rw [hrh, zero_mul, sub_zero]
    exact pow_ne_zero 2 (sub_ne_zero.mpr hh)
  constructor <;> rintro rfl <;> exact h0 (by rw [hR]; ring)

include ha1 hE hQ hr hsep in
/-- Conversely a horizon that is a root of the radial potential is one of `r1`, `r2`, `r3`. -/
lemma not_offRoots_of_singular {rh : ℝ} (hrh : Spec.Delta a rh = 0) (hh : E * (rh ^ 2 + a ^ 2) = a * L) :
    ¬ OffRoots r1 r2 r3 rh := by
  rintro ⟨n1, n2, n3⟩
  obtain ⟨hR, h21, h43, hlab⟩ := C30_real a E L Q r1 r2 r3 r4 hE.ne hr
  have h0 : Spec.R a E L Q rh = 0 := by
    unfold Spec.R
    rw [hrh, hh]; ring
  have hb : 0 < 1 - E ^ 2 := by linarith
  rw [hR] at h0
  have n4 : rh = r4 := by
    by_contra n4
    have := mul_ne_zero (mul_ne_zero (mul_ne_zero (mul_ne_zero hb.ne' (sub_ne_zero.mpr (Ne.symm n1))) (sub_ne_zero.mpr n2))
      (sub_ne_zero.mpr n3)) (sub_ne_zero.mpr n4)
    exact this h0
  have hs : 0 < √(1 - a ^ 2) := Real.sqrt_pos.mpr (by linarith)
  have hs1 : √(1 - a ^ 2) ≤ 1 := Real.sqrt_le_one.mpr (by nlinarith [sq_nonneg a])
  have hsq : √(1 - a ^ 2) ^ 2 = 1 - a ^ 2 := Real.sq_sqrt (by linarith)
  have hor := (delta_zero_iff ha1).mp hrh
  rcases hlab with ⟨k1, k2⟩ | ⟨k1, k2⟩
  · apply n3
    rcases hor with h | h <;> linarith
  · have hp : rh = 1 + √(1 - a ^ 2) := by
      rcases hor with h | h
      · exact h
      · linarith
    have h14 : r1 < r4 := by
      rcases hsep with h | h
      · linarith
      · exact h
    have e1 : 0 < (r1 + r4) / 2 - (1 - √(1 - a ^ 2)) := by linarith
    have e2 : 0 < (1 + √(1 - a ^ 2)) - (r1 + r4) / 2 := by linarith
    have hx : 0 < (r1 + r4) / 2 := by linarith
    generalize hy : (r1 + r4) / 2 = y at *
    have hD : Spec.Delta a y < 0 := by
      have := mul_pos e1 e2
      unfold Spec.Delta
      nlinarith
    have hpos : 0 < Spec.R a E L Q y := by
      unfold Spec.R
      have h1 : 0 < y ^ 2 := by positivity
      have h2 := sq_nonneg (L - a * E)
      have h3 := sq_nonneg (E * (y ^ 2 + a ^ 2) - a * L)
      nlinarith [mul_pos (neg_pos.mpr hD) (by linarith : 0 < y ^ 2 + (L - a * E) ^ 2 + Q)]
    rw [hR] at hpos
    have i1 : 0 < y - r1 := by linarith
    have i2 : 0 < y - r2 := by linarith
    have i3 : 0 < r3 - y := by linarith
    have i4 : 0 < r4 - y := by linarith
    have : 0 < (1 - E ^ 2) * (y - r1) * (y - r2) * (r3 - y) * (r4 - y) := by positivity
    nlinarith

include hE hr in
lemma real_r1_pos : 0 < r1 := by
  obtain ⟨hR, h21, h43, hlab⟩ := C30_real a E L Q r1 r2 r3 r4 hE.ne hr
  have hb : 0 < 1 - E ^ 2 := by linarith
  have hs1 : √(1 - a ^ 2) ≤ 1 := Real.sqrt_le_one.mpr (by nlinarith [sq_nonneg a])
  rcases hlab with ⟨k1, -⟩ | ⟨-, k2⟩
  · -- the sum of the roots is `2 / (1 - E²)`
    have h1 := hR 1
    have h2 := hR (-1)
    have h3 := hR 2
    have h4 := hR (-2)
    simp only [Spec.R, Spec.Delta] at h1 h2 h3 h4
    have hsum : (1 - E ^ 2) * (r1 + r2 + r3 + r4) = 2 := by linarith
    by_contra h
    push Not at h
    have : (1 - E ^ 2) * (r1 + r2 + r3 + r4) ≤ 0 := mul_nonpos_of_nonneg_of_nonpos hb.le (by linarith)
    linarith
  · linarith

include ha ha1 hE hL hQ hr hsep in
/-- **C78.** A plunge with four real radial roots: the frequencies `Υ_r`, `Υ_θ`, `r` and `θ` are numbers at every Mino time;
`φ` is a number at a Mino time `λ` exactly when no horizon is a root of the radial potential and neither `r(λ)` nor the
initial radius `r(0)` is a horizon; `t` if moreover the inner turning point is not `r = 0` (which takes `Q = 0`).  Where they
are numbers they are those of `plunging_trajectory` in real arithmetic. -/
theorem C78_plunge (hu : plungingMinoFrequencies a E L Q = .ok (uR, uTheta))
    (hT : plungingTrajectoryNat a E L Q q = .ok T) :
    ∃ mN TN, realPlungeTrajectoryN a E L Q q = .ok (mN, TN) ∧ mN.upsilonR = .fin uR ∧ mN.upsilonTheta = .fin uTheta ∧
      (Q ≠ 0 → r2 ≠ 0) ∧ ∀ lam, TN.r lam = .fin (T.r lam) ∧ TN.theta lam = .fin (T.theta lam) ∧
      (let ok := ∀ rh, Spec.Delta a rh = 0 → E * (rh ^ 2 + a ^ 2) ≠ a * L ∧ T.r 0 ≠ rh ∧ T.r lam ≠ rh
      TN.phi lam = (if ok then .fin (T.phi lam) else .exc) ∧
      TN.t lam = (if ok ∧ r2 ≠ 0 then .fin (T.t lam) else .exc)) := by
  have hb : 0 < 1 - E ^ 2 := by linarith
  have HR := realConfig_of hE hr hsep
  have hR := (C30_real a E L Q r1 r2 r3 r4 hE.ne hr).1
  have h10 := real_r1_pos hE hr
  obtain ⟨zm, zp, hz, hz1, hzp, hf⟩ := polarRootsNumpy_real (Q := Q) ha hb hL
  have hzm : 0 ≤ zm := by
    have h0 := hf 0
    rw [show Spec.Zpol a E L Q 0 = Q by rw [Spec.Zpol]; ring] at h0
    by_contra h
    push Not at h
    have hpos : 0 < a ^ 2 * (1 - E ^ 2) := by positivity
    have h1 : (0 - zm) * (0 - zp) < 0 := mul_neg_of_pos_of_neg (by linarith) (by linarith)
    have := mul_neg_of_pos_of_neg hpos h1
    linarith
  have P : PolarConfig a E L Q zm zp := polarConfig_of hb hL hzm hz1 hf
  set m := minoFrequenciesFromConstants a (E, L, Q) (r1, r2, r3, r4) (zm, zp) with hm
  have hU : uR = m.upsilonR ∧ uTheta = m.upsilonTheta := by
    unfold plungingMinoFrequencies at hu
    simp only [hr, bind_ok, plungingMinoFrequenciesOf, hz] at hu
    have := Except.ok.inj hu
    simp only [Prod.mk.injEq] at this
    exact ⟨this.1.symm, this.2.symm⟩
  obtain ⟨rfl, rfl⟩ := hU
  have hT' : T = if gammaIsInf (r1, r2, r3, r4) then { assembleTrajectory (radialSolutions a (E, L, Q) (r1, r2, r3, r4))
        (polarSolutionsCore a (E, L, Q) zm zp) m q with t := pyInfTimes }
      else assembleTrajectory (radialSolutions a (E, L, Q) (r1, r2, r3, r4)) (polarSolutionsCore a (E, L, Q) zm zp) m q := by
    unfold plungingTrajectoryNat at hT
    simp only [hr, bind_ok, realPlungeTrajectoryNat, hz, polarSolutions] at hT
    exact (Except.ok.inj hT).symm
  have hginf : gammaIsInf (r1, r2, r3, r4) ↔ r2 = 0 := by
    simp only [gammaIsInf]
    constructor
    · intro h
      have hne : r1 + r2 ≠ 0 := by
        intro h0
        rw [h0, div_zero] at h
        exact zero_ne_one h
      rw [div_eq_one_iff_eq hne] at h
      linarith
    · rintro rfl
      rw [sub_zero, add_zero, div_self h10.ne']
  obtain ⟨mN, hMN⟩ : ∃ mN, minoFrequenciesFromConstantsN a (.fin E, .fin L, .fin Q) (.fin r1, .fin r2, .fin r3, .fin r4) (.fin zm, .fin zp) = mN := ⟨_, rfl⟩
  obtain ⟨TN, hTN⟩ : ∃ TN, TN = assembleTrajectoryN
    (radialSolutionsN a (.fin E, .fin L, .fin Q) (.fin r1, .fin r2, .fin r3, .fin r4))
    (polarSolutionsN a (.fin E, .fin L, .fin Q) (.fin zm, .fin zp)) mN q := ⟨_, rfl⟩
  have hUR : mN.upsilonR = .fin m.upsilonR := by rw [← hMN]; exact HR.rFrequencyN_fin hE
  have hUT : mN.upsilonTheta = .fin m.upsilonTheta := by
    rw [← hMN]; exact Fl.abs' (thetaFromConstantsN_fin P ha ha1)
  refine ⟨mN, TN, ?_, hUR, hUT, ?_, fun lam => ?_⟩
  · simp only [realPlungeTrajectoryN, hr, bind_ok, hz, hMN]
    rw [hTN]
    rfl
  · rintro hQ0 rfl
    have := hR 0
    unfold Spec.R Spec.Delta at this
    exact hQ0 (by
      have h : a ^ 2 * Q = 0 := by linear_combination -this
      exact (mul_eq_zero.mp h).resolve_left (pow_ne_zero 2 ha))
  -- the phases
  have hr0 : T.r 0 = (radialSolutions a (E, L, Q) (r1, r2, r3, r4)).pos q.qr := by
    rw [hT']
    split_ifs <;> simp only [assembleTrajectory, mul_zero, zero_add]
  have hrl : T.r lam = (radialSolutions a (E, L, Q) (r1, r2, r3, r4)).pos (m.upsilonR * lam + q.qr) := by
    rw [hT']
    split_ifs <;> rfl
  have hthl : T.theta lam = (polarSolutionsCore a (E, L, Q) zm zp).pos (m.upsilonTheta * lam + q.qtheta) := by
    rw [hT']
    split_ifs <;> rfl
  have hphl : T.phi lam = q.qphi + m.upsilonPhi * lam
      + (radialSolutions a (E, L, Q) (r1, r2, r3, r4)).dphi (m.upsilonR * lam + q.qr)
      + (polarSolutionsCore a (E, L, Q) zm zp).dphi (m.upsilonTheta * lam + q.qtheta)
      - ((radialSolutions a (E, L, Q) (r1, r2, r3, r4)).dphi q.qr + (polarSolutionsCore a (E, L, Q) zm zp).dphi q.qtheta) := by
    rw [hT']
    split_ifs <;> rfl
  have hqr : mN.upsilonR * (lam : Fl) + (q.qr : Fl) = .fin (m.upsilonR * lam + q.qr) := by fl
  have hqt : mN.upsilonTheta * (lam : Fl) + (q.qtheta : Fl) = .fin (m.upsilonTheta * lam + q.qtheta) := by fl
  have hPS := (P.finGeo ha ha1).polarSolutionsN_fin (Q := Q) (vE := .fin E) (vL := .fin L) (vQ := .fin Q) (vm := .fin zm)
    (vp := .fin zp) rfl rfl rfl (fun _ => rfl)
  have dp : Spec.Delta a (1 + √(1 - a ^ 2)) = 0 := (delta_zero_iff ha1).mpr (Or.inl rfl)
  have dm : Spec.Delta a (1 - √(1 - a ^ 2)) = 0 := (delta_zero_iff ha1).mpr (Or.inr rfl)
  have hpos := HR.posN_fin (a := a) (E := E) (L := L) (Q := Q) hqr
  refine ⟨by rw [hrl, hTN]; exact hpos, by rw [hthl, hTN]; exact hPS.pos _ _ hqt, ?_⟩
  intro ok
  have nok : (¬ ∀ rh, Spec.Delta a rh = 0 → E * (rh ^ 2 + a ^ 2) ≠ a * L ∧ T.r 0 ≠ rh ∧ T.r lam ≠ rh) →
      TN.phi lam = .exc ∧ TN.t lam = .exc := by
    intro hc
    push Not at hc
    obtain ⟨rh, hrh, hc⟩ := hc
    by_cases h1 : E * (rh ^ 2 + a ^ 2) = a * L
    · obtain ⟨x1, x2⟩ := radialN_exc_real (E := E) (L := L) (Q := Q) HR ha1 (vq := .fin q.qr) rfl hrh
        (Or.inl (not_offRoots_of_singular ha1 hE hQ hr hsep hrh h1))
      simp only [hTN, assembleTrajectoryN, x1, x2, Fl.add_exc_left, Fl.sub_exc_right, and_self]
    by_cases h2 : T.r 0 = rh
    · rw [hr0] at h2
      obtain ⟨x1, x2⟩ := radialN_exc_real (E := E) (L := L) (Q := Q) HR ha1 (vq := .fin q.qr) rfl hrh (Or.inr h2)
      simp only [hTN, assembleTrajectoryN, x1, x2, Fl.add_exc_left, Fl.sub_exc_right, and_self]
    · have h3 := hc h1 h2
      rw [hrl] at h3
      obtain ⟨x1, x2⟩ := radialN_exc_real (E := E) (L := L) (Q := Q) HR ha1 hqr hrh (Or.inr h3)
      simp only [hTN, assembleTrajectoryN, x1, x2, Fl.add_exc_left, Fl.add_exc_right, Fl.sub_exc_left, and_self]
  by_cases hok : ok
  swap
  · obtain ⟨n1, n2⟩ := nok hok
    rw [if_neg hok, if_neg fun h => hok h.1]
    exact ⟨n1, n2⟩
  have op := offRoots_of_regular hE hr dp (hok _ dp).1
  have om := offRoots_of_regular hE hr dm (hok _ dm).1
  obtain ⟨t0, p0⟩ := radialN_fin_real (L := L) (Q := Q) HR hE ha1 (vq := .fin q.qr) rfl op om
    (fun rh k => by rw [← hr0]; exact (hok rh k).2.1)
  obtain ⟨t1, p1⟩ := radialN_fin_real (L := L) (Q := Q) HR hE ha1 hqr op om (fun rh k => by rw [← hrl]; exact (hok rh k).2.2)
  have hUP : mN.upsilonPhi = .fin m.upsilonPhi := by
    rw [← hMN]
    exact phiFromConstantsN_fin HR P ha ha1 op om (HR.rFrequencyN_fin hE) (thetaFromConstantsN_fin P ha ha1)
  have s1 := hPS.dt _ _ hqt
  have s2 := hPS.dt _ q.qtheta rfl
  have s3 := hPS.dphi _ _ hqt
  have s4 := hPS.dphi _ q.qtheta rfl
  rw [if_pos hok]
  constructor
  · rw [hphl]
    simp only [hTN, assembleTrajectoryN, p0, p1, s3, s4, hUP]
    fl
  · by_cases h20 : r2 = 0
    · rw [if_neg fun h => h.2 h20]
      have : (Fl.fin r1 - Fl.fin r2) / (Fl.fin r1 + Fl.fin r2) = .fin 1 := by
        have h := hginf.mpr h20
        simp only [gammaIsInf] at h
        rw [← h]
        have : r1 + r2 ≠ 0 := by rw [h20, add_zero]; exact h10.ne'
        fl
      have hG : mN.gamma = .exc := by
        rw [← hMN]
        simp only [minoFrequenciesFromConstantsN, gammaFromConstantsN, if_pos this]
      simp only [hTN, assembleTrajectoryN, hG, Fl.mul_exc_left, Fl.add_exc_right, Fl.add_exc_left, Fl.sub_exc_left]
    · rw [if_pos ⟨hok, h20⟩]
      have hni : ¬ gammaIsInf (r1, r2, r3, r4) := fun h => h20 (hginf.mp h)
      have hne : (Fl.fin r1 - Fl.fin r2) / (Fl.fin r1 + Fl.fin r2) ≠ .fin 1 := by
        by_cases hs : r1 + r2 = 0
        · have : Fl.fin r1 + Fl.fin r2 = .fin 0 := by rw [← hs]; fl
          rw [Fl.div_zero this]
          exact Fl.noConfusion
        · have : (Fl.fin r1 - Fl.fin r2) / (Fl.fin r1 + Fl.fin r2) = .fin ((r1 - r2) / (r1 + r2)) := by fl
          rw [this]
          intro h
          exact hni (Fl.fin.inj h)
      have hG : mN.gamma = .fin m.gamma := by
        rw [← hMN, hm]
        simp only [minoFrequenciesFromConstantsN, gammaFromConstantsN, if_neg hne, minoFrequenciesFromConstants,
          gammaFromConstants, if_neg hni]
        exact gammaN_fin_real HR P ha ha1 op om (HR.rFrequencyN_fin hE) (thetaFromConstantsN_fin P ha ha1)
      have htl : T.t lam = q.qt + m.gamma * lam
          + (radialSolutions a (E, L, Q) (r1, r2, r3, r4)).dt (m.upsilonR * lam + q.qr)
          + (polarSolutionsCore a (E, L, Q) zm zp).dt (m.upsilonTheta * lam + q.qtheta)
          - ((radialSolutions a (E, L, Q) (r1, r2, r3, r4)).dt q.qr
            + (polarSolutionsCore a (E, L, Q) zm zp).dt q.qtheta) := by
        rw [hT', if_neg hni]
        rfl
      rw [htl]
      simp only [hTN, assembleTrajectoryN, t0, t1, s1, s2, hG]
      fl

include ha ha1 hE hL hQ hr hsep in
/-- **C78 (geodesic).** Where `t` and `φ` are numbers they are so in a neighbourhood, and `φ` (and `t`, for `Q ≠ 0`) are
differentiable with the derivatives of the geodesic: C50 is there a statement about the values the program returns. -/
theorem C78_geodesic (hu : plungingMinoFrequencies a E L Q = .ok (uR, uTheta))
    (hT : plungingTrajectoryNat a E L Q q = .ok T) {mN : MinoFreqsN} {TN : TrajN}
    (hTN : realPlungeTrajectoryN a E L Q q = .ok (mN, TN)) (lam : ℝ) (hfin : TN.t lam ≠ .exc) :
    (∀ᶠ l in nhds lam, TN.t l = .fin (T.t l) ∧ TN.r l = .fin (T.r l) ∧ TN.theta l = .fin (T.theta l)
      ∧ TN.phi l = .fin (T.phi l)) ∧
    (Q ≠ 0 → HasDerivAt T.t (Spec.dtdlam a E L (T.r lam) (T.theta lam)) lam) ∧
    HasDerivAt T.phi (Spec.dphidlam a E L (T.r lam) (T.theta lam)) lam := by
  obtain ⟨mN', TN', hTN', -, -, -, h⟩ := C78_plunge ha ha1 hE hL hQ hr hsep hu hT
  have e := Except.ok.inj (hTN'.symm.trans hTN)
  simp only [Prod.mk.injEq] at e
  obtain ⟨-, rfl⟩ := e
  have hk : (∀ rh, Spec.Delta a rh = 0 → E * (rh ^ 2 + a ^ 2) ≠ a * L ∧ T.r 0 ≠ rh ∧ T.r lam ≠ rh) ∧ r2 ≠ 0 := by
    by_contra hc
    apply hfin
    rw [(h lam).2.2.2, if_neg hc]
  obtain ⟨k, k2⟩ := hk
  refine ⟨?_, ?_⟩
  · have hcont : ContinuousAt T.r lam := (C50_radial_polar ha hE hL hQ hr hsep hu hT lam).2.1.continuousAt
    have e1 := hcont.eventually_ne (k _ ((delta_zero_iff ha1).mpr (Or.inl rfl))).2.2
    have e2 := hcont.eventually_ne (k _ ((delta_zero_iff ha1).mpr (Or.inr rfl))).2.2
    filter_upwards [e1, e2] with l l1 l2
    have kl : ∀ rh, Spec.Delta a rh = 0 → E * (rh ^ 2 + a ^ 2) ≠ a * L ∧ T.r 0 ≠ rh ∧ T.r l ≠ rh := by
      intro rh hrh
      refine ⟨(k rh hrh).1, (k rh hrh).2.1, ?_⟩
      rcases (delta_zero_iff ha1).mp hrh with rfl | rfl
      · exact l1
      · exact l2
    obtain ⟨m1, m2, m3, m4⟩ := h l
    exact ⟨by rw [m4, if_pos ⟨kl, k2⟩], m1, m2, by rw [m3, if_pos kl]⟩
  · exact C50_time_azimuth ha ha1 hE hL hQ hr hsep hu hT (fun rh hrh => (k rh hrh).1) lam fun hD => (k _ hD).2.2 rfl

include ha ha1 hE hL hQ hr hsep in
/-- **C78 (four-velocity).** Along such a plunge the analytic four-velocity is a number at every Mino time except on the
horizons (`t`, `φ` components) and on the ring singularity `Σ = 0` (all components). -/
theorem C78_four_velocity (hu : plungingMinoFrequencies a E L Q = .ok (uR, uTheta))
    (hT : plungingTrajectoryNat a E L Q q = .ok T) :
    ∃ mN TN, realPlungeTrajectoryN a E L Q q = .ok (mN, TN) ∧ ∀ lam,
      let V := fourVelocity a T (E, L, Q) uR uTheta q
      let VN := fourVelocityN a TN (.fin E, .fin L, .fin Q) mN.upsilonR mN.upsilonTheta q
      let S := Spec.Sigma a (T.r lam) (T.theta lam)
      let D := Spec.Delta a (T.r lam)
      VN.t lam = (if S ≠ 0 ∧ D ≠ 0 then .fin (V.t lam) else .exc)
        ∧ VN.r lam = (if S ≠ 0 then .fin (V.r lam) else .exc)
        ∧ VN.theta lam = (if S ≠ 0 then .fin (V.theta lam) else .exc)
        ∧ VN.phi lam = (if S ≠ 0 ∧ D ≠ 0 then .fin (V.phi lam) else .exc) := by
  obtain ⟨mN, TN, h1, h2, h3, -, h4⟩ := C78_plunge ha ha1 hE hL hQ hr hsep hu hT
  refine ⟨mN, TN, h1, fun lam => ?_⟩
  obtain ⟨k1, k2, -⟩ := h4 lam
  exact fourVelocityN_ite k1 k2 h2 h3 (C50_radial_polar ha hE hL hQ hr hsep hu hT lam).2.2.2.1.ne'

end

/-- The hypotheses and the conditions hold for the plunge of `Verif.Props.Classify`: started at the inner turning point
`576/955`, all four coordinates are numbers at the outer one, `2880/1369`, and in a neighbourhood. -/
example : ∃ (mN : MinoFreqsN) (TN : TrajN) (uR t r theta phi : ℝ),
    realPlungeTrajectoryN (12 / 13) exE (12 / 13 * exE) (8294400 / 679439) ⟨0, 0, 0, 0⟩ = .ok (mN, TN) ∧
    mN.upsilonR = .fin uR ∧ TN.t (π / uR) = .fin t ∧ TN.r (π / uR) = .fin r ∧ r = 2880 / 1369 ∧
    TN.theta (π / uR) = .fin theta ∧ TN.phi (π / uR) = .fin phi := by
  have hE : exE ^ 2 < 1 := by rw [exE_sq]; norm_num
  have hE0 := exE_pos
  have hL : (12 / 13 * exE : ℝ) ≠ 0 := by positivity
  obtain ⟨⟨uR, uT, hu⟩, T, hT⟩ := C50_returns (by norm_num) hE hL exPlungeLabels ⟨0, 0, 0, 0⟩
  obtain ⟨hu0, -, -, h0, h1⟩ := C50_range (by norm_num) hE hL (by norm_num) exPlungeLabels (.inr (by norm_num)) hu hT
  obtain ⟨mN, TN, hTN, k1, -, -, h⟩ := C78_plunge (by norm_num) (by norm_num) hE hL (by norm_num) exPlungeLabels
    (.inr (by norm_num)) hu hT
  have e0 := h0 0 (by simp)
  have e1 := h1 (π / uR) (by field_simp; simp)
  obtain ⟨m1, m2, m3, m4⟩ := h (π / uR)
  have hok : ∀ rh, Spec.Delta (12 / 13) rh = 0 → exE * (rh ^ 2 + (12 / 13) ^ 2) ≠ 12 / 13 * (12 / 13 * exE)
      ∧ T.r 0 ≠ rh ∧ T.r (π / uR) ≠ rh := by
    intro rh hrh
    rw [e0, e1]
    refine ⟨fun hc => ?_, ?_, ?_⟩
    · have h1 : exE * rh ^ 2 = 0 := by linarith
      have h2 : rh = 0 := by
        rcases mul_eq_zero.mp h1 with h | h
        · exact absurd h hE0.ne'
        · exact pow_eq_zero_iff two_ne_zero |>.mp h
      rw [h2] at hrh
      unfold Spec.Delta at hrh
      norm_num at hrh
    · rintro rfl
      unfold Spec.Delta at hrh
      norm_num at hrh
    · rintro rfl
      unfold Spec.Delta at hrh
      norm_num at hrh
  rw [if_pos hok] at m3
  rw [if_pos ⟨hok, by norm_num⟩] at m4
  exact ⟨mN, TN, uR, _, _, _, _, hTN, k1, m4, m1, e1, m2, m3⟩

end KGP
