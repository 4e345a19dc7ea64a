import Verif.Lemmas.PlungeHorizon
import Verif.Props.Roots
import Verif.Props.Spacetime
import Verif.Model.Orbit

/-!
# C31, C32, C47: plunging orbits with two complex radial roots

All statements are about the trajectory returned by `plunging_trajectory` (natural units), the
frequencies returned by `plunging_mino_frequencies` and the roots returned by
`plunging_radial_roots`.
-/

namespace KGP

open Real

/-- what the calls return for two complex roots -/
lemma cplx_calls {a E L Q r1 r2 : ℝ} {r3 r4 : ℂ} (q : Phases)
    (hr : plungingRadialRoots a E L Q = .ok (.cplx r1 r2 r3 r4)) :
    plungingMinoFrequencies a E L Q
      = .ok (plungeUpsilonRComplex E r1 r2 r3.re r4.im, plungeUpsilonThetaComplex a E L Q) ∧
    plungingTrajectoryNat a E L Q q
      = .ok (assemblePlunge
        (plungingRadialSolutionsCore a E L r1 r2 r3.re r4.im (plungeUpsilonRComplex E r1 r2 r3.re r4.im))
        (plungingPolarSolutionsCore a E L Q (plungeUpsilonThetaComplex a E L Q))
        (plungeUpsilonRComplex E r1 r2 r3.re r4.im) (plungeUpsilonThetaComplex a E L Q) q) := by
  have hf : plungingMinoFrequencies a E L Q
      = .ok (plungeUpsilonRComplex E r1 r2 r3.re r4.im, plungeUpsilonThetaComplex a E L Q) := by
    simp only [plungingMinoFrequencies, hr, bind, Except.bind, plungingMinoFrequenciesOf]
  refine ⟨hf, ?_⟩
  simp only [plungingTrajectoryNat, complexPlungeTrajectoryNat, plungingRadialSolutionsComplex,
    plungingPolarSolutions, hr, hf, bind, Except.bind, pure, Except.pure]

/-- **C31/C32 (the calls succeed).** Whenever `plunging_radial_roots` finds two real and two complex
roots, `plunging_trajectory` and `plunging_mino_frequencies` return. -/
theorem C31_returns (a E L Q r1 r2 : ℝ) (r3 r4 : ℂ) (q : Phases)
    (hr : plungingRadialRoots a E L Q = .ok (.cplx r1 r2 r3 r4)) :
    (∃ T, plungingTrajectoryNat a E L Q q = .ok T)
    ∧ ∃ u, plungingMinoFrequencies a E L Q = .ok u :=
  ⟨⟨_, (cplx_calls q hr).2⟩, ⟨_, (cplx_calls q hr).1⟩⟩

lemma cplx_r {a E L r1 r2 u v : ℝ} (H : CplxConfig r1 r2 u v) (U uR uTheta : ℝ) (P : PhaseSols)
    (q : Phases) (l : ℝ) : (assemblePlunge (plungingRadialSolutionsCore a E L r1 r2 u v U) P
      uR uTheta q).r l = rC r1 r2 u v (cos (amC (mC r1 r2 u v) (uR * l + q.qr))) :=
  cplx_pos_eq (a := a) (E := E) (L := L) H U _

section
variable {a E L Q r1 r2 uR uTheta : ℝ} {r3 r4 : ℂ} {q : Phases} {T : Traj}
  (hE : E ^ 2 < 1)
  (hr : plungingRadialRoots a E L Q = .ok (.cplx r1 r2 r3 r4))
  (hu : plungingMinoFrequencies a E L Q = .ok (uR, uTheta))
  (hT : plungingTrajectoryNat a E L Q q = .ok T)

include hE hr in
lemma cplxConfig_of : CplxConfig r1 r2 r3.re r4.im := by
  obtain ⟨h12, hv, h4, -⟩ := C30_complex a E L Q r1 r2 r3 r4 hE.ne hr
  refine ⟨h12, ?_⟩
  rw [h4, Complex.conj_im]
  linarith

include hE hr hu hT

/-- **C31.** `r` stays between the two real roots and satisfies `dr/dλ = ±√R(r)` at every Mino time,
the sign being that of `sin` of the radial phase (outwards on the first half of the cycle). -/
theorem C31_radial_equation (lam : ℝ) :
    r1 ≤ T.r lam ∧ T.r lam ≤ r2 ∧ 0 ≤ Spec.R a E L Q (T.r lam) ∧
    HasDerivAt T.r (Real.sign (sin (uR * lam + q.qr)) * √(Spec.R a E L Q (T.r lam))) lam := by
  have H := cplxConfig_of hE hr
  obtain ⟨h1, h2⟩ := cplx_calls q hr
  rw [h1, Except.ok.injEq, Prod.mk.injEq] at hu
  rw [h2, Except.ok.injEq] at hT
  obtain ⟨rfl, rfl⟩ := hu
  subst hT
  have hR := (C30_complex a E L Q r1 r2 r3 r4 hE.ne hr).2.2.2
  have hq := cplx_radial_equation (a := a) (L := L) H (by linarith : 0 ≤ 1 - E ^ 2)
    (plungeUpsilonRComplex E r1 r2 r3.re r4.im) q.qr lam
  simp only [← hR] at hq
  have hm := H.rC_mem (neg_one_le_cos (amC (mC r1 r2 r3.re r4.im)
    (plungeUpsilonRComplex E r1 r2 r3.re r4.im * lam + q.qr))) (cos_le_one _)
  rw [← cplx_pos_eq (a := a) (E := E) (L := L) H (plungeUpsilonRComplex E r1 r2 r3.re r4.im)] at hm
  exact ⟨hm.1, hm.2, hq⟩

/-- **C31.** In particular the square of the velocity is the radial potential. -/
theorem C31_radial_squared (lam : ℝ) : ∃ v, HasDerivAt T.r v lam ∧ v ^ 2 = Spec.R a E L Q (T.r lam) := by
  obtain ⟨-, -, h0, hd⟩ := C31_radial_equation hE hr hu hT lam
  refine ⟨_, hd, ?_⟩
  rw [mul_pow, Real.sq_sqrt h0]
  rcases lt_trichotomy (sin (uR * lam + q.qr)) 0 with h | h | h
  · rw [Real.sign_of_neg h]; ring
  · -- a turning point
    have H := cplxConfig_of hE hr
    obtain ⟨h1, h2⟩ := cplx_calls q hr
    rw [h1, Except.ok.injEq, Prod.mk.injEq] at hu
    rw [h2, Except.ok.injEq] at hT
    obtain ⟨rfl, rfl⟩ := hu
    subst hT
    have hR := (C30_complex a E L Q r1 r2 r3 r4 hE.ne hr).2.2.2
    have hs : sin (amC (mC r1 r2 r3.re r4.im)
        (plungeUpsilonRComplex E r1 r2 r3.re r4.im * lam + q.qr)) = 0 := by
      have := sign_amC H.mC_lt (plungeUpsilonRComplex E r1 r2 r3.re r4.im * lam + q.qr)
      rw [h, Real.sign_zero, Real.sign_eq_zero_iff] at this
      exact this
    have hp := H.pot (neg_one_le_cos (amC (mC r1 r2 r3.re r4.im)
      (plungeUpsilonRComplex E r1 r2 r3.re r4.im * lam + q.qr))) (cos_le_one _)
    rw [show ∀ w, 1 - cos w ^ 2 = sin w ^ 2 from fun w => by rw [Real.sin_sq], hs] at hp
    have hz : Spec.R a E L Q ((assemblePlunge
        (plungingRadialSolutionsCore a E L r1 r2 r3.re r4.im (plungeUpsilonRComplex E r1 r2 r3.re r4.im))
        (plungingPolarSolutionsCore a E L Q (plungeUpsilonThetaComplex a E L Q))
        (plungeUpsilonRComplex E r1 r2 r3.re r4.im) (plungeUpsilonThetaComplex a E L Q) q).r lam) = 0 := by
      rw [hR, cplx_r H]
      linear_combination (1 - E ^ 2) * hp
    rw [hz, mul_zero]
  · rw [Real.sign_of_pos h]; ring

/-- **C31.** `Υ_r > 0`, and `r` is periodic with Mino period `2π/Υ_r`; it is at the smaller root at
radial phase `0` and at the larger one at phase `π`. -/
theorem C31_period : 0 < uR ∧ (∀ lam, T.r (lam + 2 * π / uR) = T.r lam) ∧
    (∀ lam, uR * lam + q.qr = 0 → T.r lam = r1) ∧ (∀ lam, uR * lam + q.qr = π → T.r lam = r2) := by
  have H := cplxConfig_of hE hr
  obtain ⟨h1, h2⟩ := cplx_calls q hr
  rw [h1, Except.ok.injEq, Prod.mk.injEq] at hu
  rw [h2, Except.ok.injEq] at hT
  obtain ⟨rfl, rfl⟩ := hu
  subst hT
  have hU := H.upsilon_pos (E := E) (by linarith)
  have hA := H.A_pos.ne'
  have hB := H.B_pos.ne'
  refine ⟨hU, fun lam => ?_, fun lam h => ?_, fun lam h => ?_⟩
  · rw [cplx_r H, cplx_r H]
    rw [show plungeUpsilonRComplex E r1 r2 r3.re r4.im
        * (lam + 2 * π / plungeUpsilonRComplex E r1 r2 r3.re r4.im) + q.qr
      = (plungeUpsilonRComplex E r1 r2 r3.re r4.im * lam + q.qr) + 2 * π by field_simp; ring,
      amC_add H.mC_lt, Real.cos_add_two_pi]
  · rw [cplx_r H, h, amC_zero H.mC_lt, Real.cos_zero]
    unfold rC
    field_simp
    ring
  · rw [cplx_r H, h, amC_pi H.mC_lt, Real.cos_pi]
    unfold rC
    field_simp
    ring

/-- **C32.** The polar motion: `cos²θ` never exceeds the smaller root `z₋` of the polar potential
(`z₋ < 1`: the orbit stays off the axis), `dθ/dλ = ±√Θ(θ)` at every Mino time with the sign of
`sin` of the polar phase, and `Υ_θ > 0`. -/
theorem C32_polar_equation (ha : a ≠ 0) (hQ : 0 ≤ Q) (hax : L ≠ 0 ∨ Q < a ^ 2 * (1 - E ^ 2)) :
    0 < uTheta ∧ ∃ zm < 1, 0 ≤ zm ∧ Spec.Zpol a E L Q zm = 0 ∧
    (∀ z, 0 ≤ z → z < zm → 0 < Spec.Zpol a E L Q z) ∧ ∀ lam,
      cos (T.theta lam) ^ 2 ≤ zm ∧ 0 < sin (T.theta lam) ∧ 0 ≤ Spec.Theta a E L Q (T.theta lam) ∧
      HasDerivAt T.theta (Real.sign (sin (uTheta * lam + q.qtheta))
        * √(Spec.Theta a E L Q (T.theta lam))) lam := by
  have P : PlungePolar a E L Q := ⟨ha, hE, hQ, hax⟩
  obtain ⟨h1, h2⟩ := cplx_calls q hr
  rw [h1, Except.ok.injEq, Prod.mk.injEq] at hu
  rw [h2, Except.ok.injEq] at hT
  obtain ⟨rfl, rfl⟩ := hu
  subst hT
  obtain ⟨z0, z1, zp, hZ⟩ := P.roots
  have hc := P.c_pos
  refine ⟨P.upsilon_pos, plungeZm a E L Q, z1, z0, by rw [hZ]; ring, fun z hz0 hz => ?_, fun lam => ?_⟩
  · rw [hZ, mul_assoc]
    exact mul_pos hc (mul_pos_of_neg_of_neg (by linarith) (by linarith))
  obtain ⟨hz, hs, hd⟩ := P.polar_equation (q.qtheta + π / 2) lam
  have hth : (assemblePlunge
        (plungingRadialSolutionsCore a E L r1 r2 r3.re r4.im (plungeUpsilonRComplex E r1 r2 r3.re r4.im))
        (plungingPolarSolutionsCore a E L Q (plungeUpsilonThetaComplex a E L Q))
        (plungeUpsilonRComplex E r1 r2 r3.re r4.im) (plungeUpsilonThetaComplex a E L Q) q).theta
      = fun l => (plungingPolarSolutionsCore a E L Q (plungeUpsilonThetaComplex a E L Q)).pos
        (plungeUpsilonThetaComplex a E L Q * l + (q.qtheta + π / 2)) := rfl
  rw [← hth] at hd
  have hTheta : ∀ θ, 0 < sin θ → Spec.Theta a E L Q θ = Spec.Zpol a E L Q (cos θ ^ 2) / sin θ ^ 2 := by
    intro θ hθ
    have h1 : cos θ ^ 2 = 1 - sin θ ^ 2 := by rw [Real.cos_sq']
    unfold Spec.Theta Spec.Zpol
    rw [h1]
    field_simp
    ring
  have hs' : 0 < sin ((assemblePlunge
        (plungingRadialSolutionsCore a E L r1 r2 r3.re r4.im (plungeUpsilonRComplex E r1 r2 r3.re r4.im))
        (plungingPolarSolutionsCore a E L Q (plungeUpsilonThetaComplex a E L Q))
        (plungeUpsilonRComplex E r1 r2 r3.re r4.im) (plungeUpsilonThetaComplex a E L Q) q).theta lam) := hs
  refine ⟨?_, hs', ?_, hd.congr_deriv ?_⟩
  · rw [hth]
    simp only []
    rw [P.pos_eq]
    have hb : |√(plungeZm a E L Q) * sin (amC (plungeKTheta a E L Q ^ 2)
        (plungeUpsilonThetaComplex a E L Q * lam + (q.qtheta + π / 2)))| ≤ 1 := by
      rw [abs_mul]
      have h3 : |√(plungeZm a E L Q)| ≤ 1 := by
        rw [abs_of_nonneg (Real.sqrt_nonneg _)]
        exact Real.sqrt_le_one.mpr z1.le
      exact mul_le_one₀ h3 (abs_nonneg _) (Real.abs_sin_le_one _)
    rw [Real.cos_arccos (abs_le.mp hb).1 (abs_le.mp hb).2, mul_pow, Real.sq_sqrt z0]
    have := Real.sin_sq_le_one (amC (plungeKTheta a E L Q ^ 2)
        (plungeUpsilonThetaComplex a E L Q * lam + (q.qtheta + π / 2)))
    nlinarith
  · rw [hTheta _ hs']
    exact div_nonneg hz (by positivity)
  · have hz' : 0 ≤ Spec.Zpol a E L Q (cos ((assemblePlunge
        (plungingRadialSolutionsCore a E L r1 r2 r3.re r4.im (plungeUpsilonRComplex E r1 r2 r3.re r4.im))
        (plungingPolarSolutionsCore a E L Q (plungeUpsilonThetaComplex a E L Q))
        (plungeUpsilonRComplex E r1 r2 r3.re r4.im) (plungeUpsilonThetaComplex a E L Q) q).theta lam) ^ 2) := hz
    rw [hTheta _ hs', Real.sqrt_div hz', Real.sqrt_sq hs'.le, ← add_assoc, Real.cos_add_pi_div_two,
      Real.sign_neg, neg_neg, mul_div_assoc]

omit hu hT in
/-- The horizons lie strictly between the two real roots unless `R` vanishes on one of them. -/
lemma horizons_between {rh : ℝ} (hrh : Spec.Delta a rh = 0)
    (hne : E * (rh ^ 2 + a ^ 2) ≠ a * L) : r1 < rh ∧ rh < r2 := by
  obtain ⟨h12, hv, h4, hR⟩ := C30_complex a E L Q r1 r2 r3 r4 hE.ne hr
  have hpos : 0 < Spec.R a E L Q rh := by
    unfold Spec.R
    rw [hrh, zero_mul, sub_zero]
    have : E * (rh ^ 2 + a ^ 2) - a * L ≠ 0 := sub_ne_zero.mpr hne
    positivity
  rw [hR] at hpos
  have hb : 0 < 1 - E ^ 2 := by linarith
  have hq : 0 ≤ (rh - r3.re) ^ 2 + r4.im ^ 2 := by positivity
  have h5 : 0 < (r2 - rh) * (rh - r1) := by
    by_contra h
    have h6 : (r2 - rh) * (rh - r1) ≤ 0 := not_lt.mp h
    have h7 : (1 - E ^ 2) * ((r2 - rh) * (rh - r1)) * ((rh - r3.re) ^ 2 + r4.im ^ 2) ≤ 0 :=
      mul_nonpos_of_nonpos_of_nonneg (mul_nonpos_of_nonneg_of_nonpos hb.le h6) hq
    linarith
  rcases lt_or_ge r1 rh with h6 | h6
  · refine ⟨h6, ?_⟩
    by_contra h7
    nlinarith
  · exfalso
    nlinarith

omit hu hT hr hE in
lemma cplx_partialFractions {a E L r rp rm : ℝ} (hs : rp + rm = 2) (hp : rp * rm = a ^ 2) (hne : rm ≠ rp)
    (h1 : r - rp ≠ 0) (h2 : r - rm ≠ 0) (θ : ℝ) :
    E * (rp ^ 2 + rm ^ 2 + rp * rm + 2 * a ^ 2) + E * (r ^ 2 + r * (rm + rp))
      + ((rm ^ 2 + a ^ 2) * (E * (rm ^ 2 + a ^ 2) - a * L) / (rm - rp) * (1 / (r - rm))
        + (rp ^ 2 + a ^ 2) * (E * (rp ^ 2 + a ^ 2) - a * L) / (rp - rm) * (1 / (r - rp)))
      + -(a ^ 2 * E * sin θ ^ 2) = Spec.dtdlam a E L r θ ∧
    a * ((E * (rm ^ 2 + a ^ 2) - a * L) / (rm - rp) * (1 / (r - rm))
        + (E * (rp ^ 2 + a ^ 2) - a * L) / (rp - rm) * (1 / (r - rp))) + L / sin θ ^ 2
      = Spec.dphidlam a E L r θ := by
  have hD : Spec.Delta a r = (r - rp) * (r - rm) := by
    unfold Spec.Delta
    linear_combination r * hs - hp
  have hne1 : rm - rp ≠ 0 := sub_ne_zero.mpr hne
  have hne2 : rp - rm ≠ 0 := sub_ne_zero.mpr (Ne.symm hne)
  unfold Spec.dtdlam Spec.dphidlam
  rw [hD]
  have hrm : rm = 2 - rp := by linarith
  have hL : ∀ X Y P M : ℝ, P ≠ 0 → M ≠ 0 → X / (rm - rp) * (1 / M) + Y / (rp - rm) * (1 / P)
      = (Y * M - X * P) / ((rp - rm) * (P * M)) := by
    intro X Y P M hP hM
    rw [show rm - rp = -(rp - rm) by ring]
    field_simp
    ring
  rw [hL _ _ _ _ h1 h2, hL _ _ _ _ h1 h2]
  have e1 : (rp ^ 2 + a ^ 2) * (E * (rp ^ 2 + a ^ 2) - a * L) * (r - rm)
      - (rm ^ 2 + a ^ 2) * (E * (rm ^ 2 + a ^ 2) - a * L) * (r - rp)
      = (rp - rm) * ((r ^ 2 + a ^ 2) * (E * (r ^ 2 + a ^ 2) - a * L)
        - (r - rp) * (r - rm) * (E * (rp ^ 2 + rm ^ 2 + rp * rm + 2 * a ^ 2)
          + E * (r ^ 2 + r * (rm + rp)) - a * L)) := by
    ring
  have e2 : (E * (rp ^ 2 + a ^ 2) - a * L) * (r - rm) - (E * (rm ^ 2 + a ^ 2) - a * L) * (r - rp)
      = (rp - rm) * ((E * (r ^ 2 + a ^ 2) - a * L) - (r - rp) * (r - rm) * E) := by
    ring
  rw [e1, e2]
  have hP : (r - rp) * (r - rm) ≠ 0 := mul_ne_zero h1 h2
  generalize (r - rp) * (r - rm) = P at *
  constructor
  · field_simp
    ring
  · generalize L / sin θ ^ 2 = W
    field_simp
    ring

/-- **C47.** Time and azimuth of a complex-root plunge: `dt/dλ` and `dφ/dλ` are those of a Kerr
geodesic with the given constants, at every Mino time outside the singular points of the code's
formula: the two horizon crossings `r = r±` and, for each horizon, the mirror radius at which two
logarithmic infinities of the code's expression cancel (the points with
`((r2-u)²+v²)(r-r1)(r±-r1) = ((r1-u)²+v²)(r2-r)(r2-r±)`, `u ± iv` the complex roots).
The hypotheses `r1 + r2 ≠ 2u` and `E(r±²+a²) ≠ aL` exclude divisions by zero in the code. -/
theorem C47_plunge_time_azimuth (ha : a ≠ 0) (ha1 : a ^ 2 < 1) (hQ : 0 ≤ Q)
    (hax : L ≠ 0 ∨ Q < a ^ 2 * (1 - E ^ 2))
    (hAB : r1 + r2 ≠ 2 * r3.re)
    (hh : ∀ rh, Spec.Delta a rh = 0 → E * (rh ^ 2 + a ^ 2) ≠ a * L) (lam : ℝ)
    (hsing : ∀ rh, Spec.Delta a rh = 0 → T.r lam ≠ rh ∧
      ((r2 - r3.re) ^ 2 + r4.im ^ 2) * (T.r lam - r1) * (rh - r1)
        ≠ ((r1 - r3.re) ^ 2 + r4.im ^ 2) * (r2 - T.r lam) * (r2 - rh)) :
    HasDerivAt T.t (Spec.dtdlam a E L (T.r lam) (T.theta lam)) lam ∧
    HasDerivAt T.phi (Spec.dphidlam a E L (T.r lam) (T.theta lam)) lam := by
  have H := cplxConfig_of hE hr
  have P : PlungePolar a E L Q := ⟨ha, hE, hQ, hax⟩
  have hb : 0 < 1 - E ^ 2 := by linarith
  have hsq : 0 < √(1 - a ^ 2) := Real.sqrt_pos.mpr (by linarith)
  have hsq2 : √(1 - a ^ 2) ^ 2 = 1 - a ^ 2 := Real.sq_sqrt (by linarith)
  obtain ⟨rp, hrp⟩ : ∃ rp, rp = 1 + √(1 - a ^ 2) := ⟨_, rfl⟩
  obtain ⟨rm, hrm⟩ : ∃ rm, rm = 1 - √(1 - a ^ 2) := ⟨_, rfl⟩
  have dp : Spec.Delta a rp = 0 := by unfold Spec.Delta; rw [hrp]; linear_combination hsq2
  have dm : Spec.Delta a rm = 0 := by unfold Spec.Delta; rw [hrm]; linear_combination hsq2
  obtain ⟨bp1, bp2⟩ := horizons_between hE hr dp (hh rp dp)
  obtain ⟨bm1, bm2⟩ := horizons_between hE hr dm (hh rm dm)
  obtain ⟨sp1, sp2⟩ := hsing rp dp
  obtain ⟨sm1, sm2⟩ := hsing rm dm
  obtain ⟨h1, h2⟩ := cplx_calls q hr
  rw [h1, Except.ok.injEq, Prod.mk.injEq] at hu
  rw [h2, Except.ok.injEq] at hT
  obtain ⟨rfl, rfl⟩ := hu
  subst hT
  have hABne : plungeA r2 r3.re r4.im ≠ plungeB r1 r3.re r4.im := by
    intro h
    have h3 := congrArg (· ^ 2) h
    simp only [plungeA_sq, plungeB_sq] at h3
    have h4 : (r2 - r1) * (r1 + r2 - 2 * r3.re) = 0 := by linear_combination h3
    rcases mul_eq_zero.mp h4 with h5 | h5
    · linarith
    · exact hAB (by linarith)
  obtain ⟨U, hU⟩ : ∃ U, U = plungeUpsilonRComplex E r1 r2 r3.re r4.im := ⟨_, rfl⟩
  have hUpos : 0 < U := by rw [hU]; exact H.upsilon_pos hb
  rw [cplx_r H] at sp1 sp2 sm1 sm2 ⊢
  have key : ∀ rh, r1 < rh → rh < r2 →
      rC r1 r2 r3.re r4.im (cos (amC (mC r1 r2 r3.re r4.im)
        (plungeUpsilonRComplex E r1 r2 r3.re r4.im * lam + q.qr))) ≠ rh →
      ((r2 - r3.re) ^ 2 + r4.im ^ 2) * (rC r1 r2 r3.re r4.im (cos (amC (mC r1 r2 r3.re r4.im)
        (plungeUpsilonRComplex E r1 r2 r3.re r4.im * lam + q.qr))) - r1) * (rh - r1)
        ≠ ((r1 - r3.re) ^ 2 + r4.im ^ 2) * (r2 - rC r1 r2 r3.re r4.im (cos (amC (mC r1 r2 r3.re r4.im)
        (plungeUpsilonRComplex E r1 r2 r3.re r4.im * lam + q.qr)))) * (r2 - rh) →
      sin (amC (mC r1 r2 r3.re r4.im) (plungeUpsilonRComplex E r1 r2 r3.re r4.im * lam + q.qr)) ^ 2
        ≠ plungeD (plungeA r2 r3.re r4.im) (plungeB r1 r3.re r4.im) r1 r2 rh ^ 2 := by
    intro rh hh1 hh2 hn1 hn2 hcon
    generalize amC (mC r1 r2 r3.re r4.im) (plungeUpsilonRComplex E r1 r2 r3.re r4.im * lam + q.qr) = w at *
    rw [H.D_sq hh1 hh2, Real.sin_sq] at hcon
    have hcl := cos_le_one w
    have hcg := neg_one_le_cos w
    have hDp := H.D_pos hcg hcl
    have hS := H.S_pos hh1 hh2
    have e0 := H.rC_sub hcg hcl rh
    have e1 := H.rC_sub hcg hcl r1
    have e2 := H.rC_sub hcg hcl r2
    rw [← plungeA_sq, ← plungeB_sq] at hn2
    have hA := H.A_pos
    have hB := H.B_pos
    generalize rC r1 r2 r3.re r4.im (cos w) = r at *
    generalize plungeA r2 r3.re r4.im = A at *
    generalize plungeB r1 r3.re r4.im = B at *
    generalize cos w = c at *
    rw [eq_div_iff (by positivity)] at hcon
    have e3 : (A * (1 + c) * (r1 - rh) + B * (1 - c) * (r2 - rh))
        * (A * (1 - c) * (r1 - rh) + B * (1 + c) * (r2 - rh)) = 0 := by
      linear_combination hcon
    rcases mul_eq_zero.mp e3 with h | h
    · rw [h, zero_div] at e0
      exact hn1 (by linarith)
    · apply hn2
      rw [show r2 - r = -(r - r2) by ring, e1, e2]
      rw [show ∀ X Y Z W V : ℝ, X * (Y / Z) * W = X * Y * W / Z from fun X Y Z W V => by ring,
        show ∀ X Y Z W : ℝ, X * (-(Y / Z)) * W = -(X * Y * W) / Z from fun X Y Z W => by ring]
      · congr 1
        linear_combination (-(A * B) * (r2 - r1)) * h
      · exact 0
  have dI := H.hasDerivAt_Ir (a := a) hb hABne q.qr lam
  have dI2 := H.hasDerivAt_Ir2 (a := a) hb hABne q.qr lam
  have dIp := H.hasDerivAt_Irh bp1 bp2 hb q.qr lam (key rp bp1 bp2 sp1 sp2)
  have dIm := H.hasDerivAt_Irh bm1 bm2 hb q.qr lam (key rm bm1 bm2 sm1 sm2)
  obtain ⟨dPt, dPphi⟩ := P.polar_dt (q.qtheta + π / 2) lam
  simp only [] at dI dI2 dIp dIm dPt dPphi
  have d1 : HasDerivAt (fun l => (plungeUpsilonRComplex E r1 r2 r3.re r4.im * l + q.qr)
      / plungeUpsilonRComplex E r1 r2 r3.re r4.im) 1 lam := by
    rw [← hU]
    refine ((((hasDerivAt_id' lam).const_mul U).add_const q.qr).div_const U).congr_deriv ?_
    field_simp
  have hpf := fun r h1 h2 θ => cplx_partialFractions (a := a) (E := E) (L := L) (r := r) (rp := rp) (rm := rm)
    (by rw [hrp, hrm]; ring) (by rw [hrp, hrm]; linear_combination -hsq2) (by rw [hrp, hrm]; linarith) h1 h2 θ
  obtain ⟨pf1, pf2⟩ := hpf _ (sub_ne_zero.mpr sp1) (sub_ne_zero.mpr sm1) _
  constructor
  · have dRt := ((d1.const_mul (E * (rp ^ 2 + rm ^ 2 + rp * rm + 2 * a ^ 2))).add
      ((dI2.add (dI.mul_const (rm + rp))).const_mul E)).add
      ((dIm.const_mul ((rm ^ 2 + a ^ 2) * (E * (rm ^ 2 + a ^ 2) - a * L) / (rm - rp))).add
        (dIp.const_mul ((rp ^ 2 + a ^ 2) * (E * (rp ^ 2 + a ^ 2) - a * L) / (rp - rm))))
    have := ((dRt.add dPt).sub_const ((plungingRadialSolutionsCore a E L r1 r2 r3.re r4.im
        (plungeUpsilonRComplex E r1 r2 r3.re r4.im)).dt q.qr
      + (plungingPolarSolutionsCore a E L Q (plungeUpsilonThetaComplex a E L Q)).dt
        (q.qtheta + π / 2))).add_const q.qt
    refine HasDerivAt.congr_deriv (HasDerivAt.congr_of_eventuallyEq this
      (Filter.Eventually.of_forall fun l => ?_)) (Eq.trans ?_ pf1)
    · subst hrp hrm
      rfl
    · rw [mul_one]; rfl
  · have dRt := ((dIm.const_mul ((E * (rm ^ 2 + a ^ 2) - a * L) / (rm - rp))).add
        (dIp.const_mul ((E * (rp ^ 2 + a ^ 2) - a * L) / (rp - rm)))).const_mul a
    have := ((dRt.add dPphi).sub_const ((plungingRadialSolutionsCore a E L r1 r2 r3.re r4.im
        (plungeUpsilonRComplex E r1 r2 r3.re r4.im)).dphi q.qr
      + (plungingPolarSolutionsCore a E L Q (plungeUpsilonThetaComplex a E L Q)).dphi
        (q.qtheta + π / 2))).add_const q.qphi
    refine HasDerivAt.congr_deriv (HasDerivAt.congr_of_eventuallyEq this
      (Filter.Eventually.of_forall fun l => ?_)) (Eq.trans ?_ pf2)
    · subst hrp hrm
      rfl
    · rfl

/-- **C31.** `R` vanishes whenever the sine of the radial phase does (turning points). -/
theorem C31_turning (lam : ℝ) (h : sin (uR * lam + q.qr) = 0) : Spec.R a E L Q (T.r lam) = 0 := by
  obtain ⟨-, -, -, hd⟩ := C31_radial_equation hE hr hu hT lam
  obtain ⟨v, hv, hv2⟩ := C31_radial_squared hE hr hu hT lam
  rw [← hv2, hv.unique hd, h]
  simp

/-- **C32.** `Θ` vanishes whenever the sine of the polar phase does. -/
theorem C32_turning (ha : a ≠ 0) (hQ : 0 ≤ Q) (hax : L ≠ 0 ∨ Q < a ^ 2 * (1 - E ^ 2)) (lam : ℝ)
    (h : sin (uTheta * lam + q.qtheta) = 0) : Spec.Theta a E L Q (T.theta lam) = 0 := by
  have P : PlungePolar a E L Q := ⟨ha, hE, hQ, hax⟩
  obtain ⟨-, zmx, -, -, -, -, hth⟩ := C32_polar_equation hE hr hu hT ha hQ hax
  obtain ⟨-, hs, -, -⟩ := hth lam
  obtain ⟨h1, h2⟩ := cplx_calls q hr
  rw [h1, Except.ok.injEq, Prod.mk.injEq] at hu
  rw [h2, Except.ok.injEq] at hT
  obtain ⟨rfl, rfl⟩ := hu
  subst hT
  obtain ⟨z0, z1, zp, hZ⟩ := P.roots
  have hpos : (assemblePlunge
        (plungingRadialSolutionsCore a E L r1 r2 r3.re r4.im (plungeUpsilonRComplex E r1 r2 r3.re r4.im))
        (plungingPolarSolutionsCore a E L Q (plungeUpsilonThetaComplex a E L Q))
        (plungeUpsilonRComplex E r1 r2 r3.re r4.im) (plungeUpsilonThetaComplex a E L Q) q).theta lam
      = arccos (√(plungeZm a E L Q) * sin (amC (plungeKTheta a E L Q ^ 2)
        (plungeUpsilonThetaComplex a E L Q * lam + (q.qtheta + π / 2)))) := P.pos_eq _
  have hcos : cos (amC (plungeKTheta a E L Q ^ 2)
      (plungeUpsilonThetaComplex a E L Q * lam + (q.qtheta + π / 2))) = 0 := by
    have := sign_cos_amC P.k_bounds.2 (plungeUpsilonThetaComplex a E L Q * lam + (q.qtheta + π / 2))
    rw [← add_assoc, Real.cos_add_pi_div_two, h, neg_zero, Real.sign_zero, Real.sign_eq_zero_iff] at this
    rw [← add_assoc]; exact this
  have hsin2 : sin (amC (plungeKTheta a E L Q ^ 2)
      (plungeUpsilonThetaComplex a E L Q * lam + (q.qtheta + π / 2))) ^ 2 = 1 := by
    rw [Real.sin_sq, hcos]; ring
  have hb : |√(plungeZm a E L Q) * sin (amC (plungeKTheta a E L Q ^ 2)
        (plungeUpsilonThetaComplex a E L Q * lam + (q.qtheta + π / 2)))| ≤ 1 := by
    rw [abs_mul]
    have h3 : |√(plungeZm a E L Q)| ≤ 1 := by
      rw [abs_of_nonneg (Real.sqrt_nonneg _)]
      exact Real.sqrt_le_one.mpr z1.le
    exact mul_le_one₀ h3 (abs_nonneg _) (Real.abs_sin_le_one _)
  rw [hpos] at hs ⊢
  have hc2 : cos (arccos (√(plungeZm a E L Q) * sin (amC (plungeKTheta a E L Q ^ 2)
        (plungeUpsilonThetaComplex a E L Q * lam + (q.qtheta + π / 2))))) ^ 2 = plungeZm a E L Q := by
    rw [Real.cos_arccos (abs_le.mp hb).1 (abs_le.mp hb).2, mul_pow, Real.sq_sqrt z0, hsin2, mul_one]
  have hzm := hZ (plungeZm a E L Q)
  rw [sub_self, mul_zero, zero_mul] at hzm
  have hs2 := Real.sin_sq_add_cos_sq (arccos (√(plungeZm a E L Q) * sin (amC (plungeKTheta a E L Q ^ 2)
        (plungeUpsilonThetaComplex a E L Q * lam + (q.qtheta + π / 2)))))
  unfold Spec.Theta
  rw [hc2] at hs2 ⊢
  have hs2' : sin (arccos (√(plungeZm a E L Q) * sin (amC (plungeKTheta a E L Q ^ 2)
        (plungeUpsilonThetaComplex a E L Q * lam + (q.qtheta + π / 2))))) ^ 2 = 1 - plungeZm a E L Q := by
    linarith
  rw [hs2']
  have : 1 - plungeZm a E L Q ≠ 0 := by linarith
  unfold Spec.Zpol at hzm
  field_simp
  linarith

/-- **C47.** A complex-root plunge is the integral curve of the four-velocity returned by
`four_velocity` (all four components, including the signs of `u^r` and `u^θ`), its norm is -1 and
`constants_from_initial_conditions` recovers `(E, L, Q)` from every point. -/
theorem C47_four_velocity (ha : a ≠ 0) (ha1 : a ^ 2 < 1) (hQ : 0 ≤ Q)
    (hax : L ≠ 0 ∨ Q < a ^ 2 * (1 - E ^ 2))
    (hAB : r1 + r2 ≠ 2 * r3.re)
    (hh : ∀ rh, Spec.Delta a rh = 0 → E * (rh ^ 2 + a ^ 2) ≠ a * L) (lam : ℝ)
    (hsing : ∀ rh, Spec.Delta a rh = 0 → T.r lam ≠ rh ∧
      ((r2 - r3.re) ^ 2 + r4.im ^ 2) * (T.r lam - r1) * (rh - r1)
        ≠ ((r1 - r3.re) ^ 2 + r4.im ^ 2) * (r2 - T.r lam) * (r2 - rh))
    (hS : Spec.Sigma a (T.r lam) (T.theta lam) ≠ 0) :
    let U := fourVelocity a T (E, L, Q) uR uTheta q
    let S := Spec.Sigma a (T.r lam) (T.theta lam)
    HasDerivAt T.t (S * U.t lam) lam ∧ HasDerivAt T.r (S * U.r lam) lam
    ∧ HasDerivAt T.theta (S * U.theta lam) lam ∧ HasDerivAt T.phi (S * U.phi lam) lam
    ∧ norm4 a (T.t lam) (T.r lam) (T.theta lam) (T.phi lam) (U.at lam) = -1
    ∧ constantsFromInitialConditions a (T.at lam) (U.at lam) = .ok (E, L, Q) := by
  intro U S
  obtain ⟨-, -, hR, hr1⟩ := C31_radial_equation hE hr hu hT lam
  obtain ⟨-, zmx, -, -, -, -, hth⟩ := C32_polar_equation hE hr hu hT ha hQ hax
  obtain ⟨-, hsin, hTh, hth1⟩ := hth lam
  obtain ⟨ht1, hphi1⟩ := C47_plunge_time_azimuth hE hr hu hT ha ha1 hQ hax hAB hh lam hsing
  have hD : Spec.Delta a (T.r lam) ≠ 0 := fun h => (hsing _ h).1 rfl
  obtain ⟨c0, -, -, c3⟩ := C01_components a T E L Q uR uTheta lam q hsin.ne' hS hR hTh
  refine ⟨by rw [c0]; exact ht1, hr1.congr_deriv ?_, hth1.congr_deriv ?_, by rw [c3]; exact hphi1,
    C01_norm a T E L Q _ _ lam q hsin.ne' hS hD hR hTh,
    C02_roundtrip_four_velocity a T E L Q _ _ lam q hsin.ne' hS hD hR hTh⟩
  · have hS' : T.r lam ^ 2 + a ^ 2 * cos (T.theta lam) ^ 2 ≠ 0 := hS
    have hfv : fvR a E L Q (T.r lam) = Spec.R a E L Q (T.r lam) := by
      unfold fvR Spec.R Spec.Delta; ring
    have : S * U.r lam = copysign1 (sin (uR * lam + q.qr)) * √(Spec.R a E L Q (T.r lam)) := by
      simp only [U, S, fourVelocity, Spec.Sigma, hfv, abs_of_nonneg hR]
      field_simp
    rw [this]
    unfold copysign1
    rcases lt_trichotomy (sin (uR * lam + q.qr)) 0 with h | h | h
    · rw [if_pos h, Real.sign_of_neg h]
    · rw [C31_turning hE hr hu hT lam h]; simp
    · rw [if_neg (not_lt.mpr h.le), Real.sign_of_pos h]
  · have hS' : T.r lam ^ 2 + a ^ 2 * cos (T.theta lam) ^ 2 ≠ 0 := hS
    have hZ : fvZ a E L Q (cos (T.theta lam)) = sin (T.theta lam) ^ 2 * Spec.Theta a E L Q (T.theta lam) := by
      unfold fvZ Spec.Theta
      have h1 : cos (T.theta lam) ^ 2 = 1 - sin (T.theta lam) ^ 2 := by rw [Real.cos_sq']
      rw [show cos (T.theta lam) ^ 4 = (cos (T.theta lam) ^ 2) ^ 2 by ring, h1]
      field_simp
      ring
    have : S * U.theta lam = copysign1 (sin (uTheta * lam + q.qtheta))
        * √(Spec.Theta a E L Q (T.theta lam)) := by
      simp only [U, S, fourVelocity, Spec.Sigma, hZ]
      rw [abs_of_nonneg (mul_nonneg (by positivity) hTh), Real.sqrt_mul (by positivity),
        Real.sqrt_sq hsin.le]
      field_simp
    rw [this]
    unfold copysign1
    rcases lt_trichotomy (sin (uTheta * lam + q.qtheta)) 0 with h | h | h
    · rw [if_pos h, Real.sign_of_neg h]
    · rw [C32_turning hE hr hu hT ha hQ hax lam h]; simp
    · rw [if_neg (not_lt.mpr h.le), Real.sign_of_pos h]

end

/-! ### A concrete plunge: `a = 4/5`, `E² = 66825/91777`, `L = 4E/5`, `Q = 98/1873`, with real roots
`7/20` and `7`. -/

lemma exPlungeE : √(66825 / 91777) ^ 2 = (66825 / 91777 : ℝ) := Real.sq_sqrt (by norm_num)

lemma exPlunge_R (r : ℝ) : Spec.R (4 / 5) (√(66825 / 91777)) (4 / 5 * √(66825 / 91777)) (98 / 1873) r
    = (1 - √(66825 / 91777) ^ 2) * (7 - r) * (r - 7 / 20)
      * ((r - 49 / 15595) ^ 2 + √(784 / 15595 - (49 / 15595) ^ 2) ^ 2) := by
  rw [Real.sq_sqrt (by norm_num : (0:ℝ) ≤ 784 / 15595 - (49 / 15595) ^ 2), exPlungeE]
  have hE := exPlungeE
  generalize √(66825 / 91777) = E at *
  unfold Spec.R Spec.Delta
  linear_combination ((r ^ 2 + (4 / 5) ^ 2 - 4 / 5 * (4 / 5)) ^ 2) * hE

lemma exPlunge_roots : ∃ r3 r4 : ℂ, plungingRadialRoots (4 / 5) (√(66825 / 91777))
      (4 / 5 * √(66825 / 91777)) (98 / 1873) = .ok (.cplx (7 / 20) 7 r3 r4)
      ∧ r3.re = 49 / 15595 := by
  have hE : √(66825 / 91777) ^ 2 - 1 ≠ (0 : ℝ) := by rw [exPlungeE]; norm_num
  obtain ⟨e1, e2⟩ := npRoots_radial_cplx hE (s0 := 7 / 20) (s1 := 7) (u := 49 / 15595)
    (v := √(784 / 15595 - (49 / 15595) ^ 2))
    (fun r => by rw [exPlunge_R]; ring) (by norm_num) (Real.sqrt_pos.mpr (by norm_num))
  rw [plungingRadialRoots, labelPlungeRoots]
  simp only [e1, e2]
  exact ⟨_, _, rfl, rfl⟩

/-- All hypotheses of C31, C32 and C47 hold for it, at the Mino time of the outer turning point. -/
example : ∃ (T : Traj) (uR uTheta : ℝ),
    plungingMinoFrequencies (4 / 5) (√(66825 / 91777)) (4 / 5 * √(66825 / 91777)) (98 / 1873)
      = .ok (uR, uTheta) ∧
    plungingTrajectoryNat (4 / 5) (√(66825 / 91777)) (4 / 5 * √(66825 / 91777)) (98 / 1873)
      ⟨0, 0, 0, 0⟩ = .ok T ∧ T.r 0 = 7 / 20 ∧ T.r (π / uR) = 7 ∧
    HasDerivAt T.t (Spec.dtdlam (4 / 5) (√(66825 / 91777)) (4 / 5 * √(66825 / 91777)) 7
      (T.theta (π / uR))) (π / uR) := by
  obtain ⟨r3, r4, hr, h3⟩ := exPlunge_roots
  obtain ⟨h1, h2⟩ := cplx_calls ⟨0, 0, 0, 0⟩ hr
  have hE : √(66825 / 91777) ^ 2 < (1 : ℝ) := by rw [exPlungeE]; norm_num
  have hE0 : 0 < √(66825 / 91777 : ℝ) := Real.sqrt_pos.mpr (by norm_num)
  obtain ⟨hu, -, hp0, hp1⟩ := C31_period hE hr h1 h2
  refine ⟨_, _, _, h1, h2, hp0 0 (by simp), ?_⟩
  have h7 := hp1 (π / plungeUpsilonRComplex (√(66825 / 91777)) (7 / 20) 7 r3.re r4.im)
    (by field_simp; simp)
  refine ⟨h7, ?_⟩
  have := (C47_plunge_time_azimuth hE hr h1 h2 (by norm_num) (by norm_num) (by norm_num)
    (Or.inl (by positivity)) (by rw [h3]; norm_num) ?_
    (π / plungeUpsilonRComplex (√(66825 / 91777)) (7 / 20) 7 r3.re r4.im) ?_).1
  · rw [h7] at this
    exact this
  · intro rh hrh h
    have h5 : rh = 0 := by
      have : √(66825 / 91777) * rh ^ 2 = 0 := by linarith
      rcases mul_eq_zero.mp this with h | h
      · exact absurd h hE0.ne'
      · exact pow_eq_zero_iff (two_ne_zero) |>.mp h
    rw [h5] at hrh
    norm_num [Spec.Delta] at hrh
  · intro rh hrh
    rw [h7]
    have h6 : (rh - 2 / 5) * (rh - 8 / 5) = 0 := by
      unfold Spec.Delta at hrh
      linear_combination hrh
    have hr3 : 0 < ((7:ℝ) - r3.re) ^ 2 + r4.im ^ 2 := by
      rw [h3]; positivity
    rcases mul_eq_zero.mp h6 with h | h
    · have : rh = 2 / 5 := by linarith
      subst this
      refine ⟨by norm_num, ?_⟩
      rw [sub_self, mul_zero, zero_mul]
      positivity
    · have : rh = 8 / 5 := by linarith
      subst this
      refine ⟨by norm_num, ?_⟩
      rw [sub_self, mul_zero, zero_mul]
      positivity

end KGP
