import Verif.Lemmas.PolarSol
import Verif.Props.ConstantsExact
import Verif.Props.Spacetime

/-!
# C20–C25: the trajectory returned for a stable orbit is a geodesic
-/

namespace KGP

open Classical Real

lemma sa_of_nonneg {a : ℝ} (ha : 0 ≤ a) : sa a = a := abs_of_nonneg ha
lemma sx_of_nonneg {a : ℝ} (ha : 0 ≤ a) (x : ℝ) : sx a x = x := by
  simp [sx, copysign1, not_lt.mpr ha]

lemma BoundGeodesic.config {a E L Q r1 r2 r3 r4 : ℝ} (h : Spec.BoundGeodesic a E L Q r1 r2 r3 r4) :
    RootsConfig r1 r2 r3 r4 := ⟨h.r21, h.r43, .inl h.r32⟩

/-- Everything a successful `stable_trajectory` call computed, for a non-negative spin. -/
structure StableData (rs : RootScalar) (a p e x : ℝ) (q : Phases) (T : Traj) (m : MinoFreqs)
    (E L Q r1 r2 r3 r4 zm zp : ℝ) : Prop where
  spin : 0 ≤ a ∧ a < 1
  ecc : 0 ≤ e ∧ e < 1
  incl : x ≠ 0 ∧ x ^ 2 ≤ 1
  bound : Spec.BoundOrbit rs a p e x
  mino : minoFrequencies rs a p e x = .ok m
  consts : constantsOfMotion rs a p e x = .ok (E, L, Q)
  hm : m = pureMino a p e x
  hcs : (E, L, Q) = pureConsts a p e x
  hrr : stableRadialRootsCore a p e (E, L, Q) = (r1, r2, r3, r4)
  hzz : stablePolarRootsCore a x (E, L, Q) = (zm, zp)
  hT : T = assembleTrajectory (radialSolutions a (E, L, Q) (r1, r2, r3, r4))
          (polarSolutionsCore a (E, L, Q) zm zp) m q

lemma stableData_of {rs : RootScalar} {a p e x : ℝ} {q : Phases} {T : Traj} (ha : 0 ≤ a)
    (hT : stableTrajectoryNat rs a p e x q = .ok T) {E L Q r1 r2 r3 r4 : ℝ}
    (hc : constantsOfMotion rs a p e x = .ok (E, L, Q))
    (hr : stableRadialRoots rs a p e x = .ok (r1, r2, r3, r4)) :
    ∃ m zm zp, StableData rs a p e x q T m E L Q r1 r2 r3 r4 zm zp := by
  obtain ⟨m, cs, zz, hm, hcs, hz, rfl⟩ := stableTrajectoryNat_ok hT
  obtain rfl : (E, L, Q) = cs := Except.ok.inj (hc.symm.trans hcs)
  have hrr : stableRadialRootsCore a p e (E, L, Q) = (r1, r2, r3, r4) := by
    unfold stableRadialRoots at hr
    simp only [constantsOr, hc, bind_ok] at hr
    exact Except.ok.inj hr
  have hm' := hm
  rw [minoFrequencies_eq, guard_bind_ok_iff] at hm'
  obtain ⟨hg, hmm⟩ := hm'
  rw [sa_of_nonneg ha, sx_of_nonneg ha] at hmm
  have hf := (minoGuard_ok_iff rs (sa a) p e (sx a x)).mp hg
  obtain ⟨hcg, hx0, he1⟩ := (frequencyGuard_ok_iff _ _ _ _ _).mp hf
  rw [sx_of_nonneg ha] at hx0
  have hb := (constantsGuard_iff rs a p e x).mp hcg
  have hcc := constantsOfMotion_of_bound hb
  rw [hc, sa_of_nonneg ha, sx_of_nonneg ha] at hcc
  refine ⟨m, zz.1, zz.2, ⟨⟨ha, ?_⟩, ⟨hb.2.1.1, lt_of_le_of_ne hb.2.1.2 he1⟩, ⟨hx0, ?_⟩, hb, hm, hc, hmm.symm,
    Except.ok.inj hcc, hrr, hz.symm, by rw [hrr]⟩⟩
  · have := hb.1; rwa [abs_of_nonneg ha] at this
  · exact (sq_le_one_iff_abs_le_one x).mpr hb.2.2.1

lemma dt_algebra {E l b S r s c : ℝ} (hb : b = 1 - S ^ 2) (hS : S ≠ 0) (hs : s = 1 - c)
    (k1 : r - (1 + S) ≠ 0) (k2 : r - (1 - S) ≠ 0) :
    4 * E + E * r ^ 2 + 2 * E * r + 2 / ((1 + S) - (1 - S)) * (((4 * E - l) * (1 + S) - 2 * b * E)
        / (r - (1 + S)) - ((4 * E - l) * (1 - S) - 2 * b * E) / (r - (1 - S))) + b * E * c
      = (r ^ 2 + b) / ((r - (1 + S)) * (r - (1 - S))) * (E * (r ^ 2 + b) - l) - b * E * s + l := by
  have k3 : (1 + S) - (1 - S) ≠ 0 := by intro h; apply hS; linarith
  subst hs hb
  field_simp
  ring

lemma dphi_algebra {E l b S r : ℝ} (hb : b = 1 - S ^ 2) (hS : S ≠ 0)
    (k1 : r - (1 + S) ≠ 0) (k2 : r - (1 - S) ≠ 0) :
    1 / ((1 + S) - (1 - S)) * ((2 * E * (1 + S) - l)
        / (r - (1 + S)) - (2 * E * (1 - S) - l) / (r - (1 - S)))
      = (E * (r ^ 2 + b) - l) / ((r - (1 + S)) * (r - (1 - S))) - E := by
  have k3 : (1 + S) - (1 - S) ≠ 0 := by intro h; apply hS; linarith
  subst hb
  field_simp
  ring

section
variable {rs : RootScalar} {a p e x : ℝ} {q : Phases} {T : Traj} {m : MinoFreqs}
  {E L Q r1 r2 r3 r4 zm zp : ℝ} (D : StableData rs a p e x q T m E L Q r1 r2 r3 r4 zm zp)
include D

lemma StableData.roots12 : r1 = p / (1 - e) ∧ r2 = p / (1 + e) := by
  have := D.hrr
  simp only [stableRadialRootsCore, Prod.mk.injEq] at this
  exact ⟨this.1.symm, this.2.1.symm⟩

lemma StableData.zm_eq : zm = 1 - x ^ 2 := by
  have := D.hzz
  simp only [stablePolarRootsCore, Prod.mk.injEq] at this
  exact this.1.symm

lemma StableData.polar (hE : E ^ 2 < 1) (hL : L ≠ 0) : PolarConfig a E L Q zm zp := by
  have hx := D.incl.2
  have hx0 : 0 < x ^ 2 := by have := D.incl.1; positivity
  refine ⟨by rw [D.zm_eq]; linarith, by rw [D.zm_eq]; linarith, hL, by linarith, ?_, ?_⟩
  · rw [D.zm_eq]; exact C05_inclination_root rs a p e x E L Q D.incl.1 D.consts
  · intro ha
    have := D.hzz
    simp only [stablePolarRootsCore, Prod.mk.injEq, if_neg ha] at this
    rw [← this.2, D.zm_eq]
    have hb : 1 - E ^ 2 ≠ 0 := by linarith
    have hxx : 1 - (1 - x ^ 2) = x ^ 2 := by ring
    rw [hxx]
    field_simp

lemma StableData.cores : pureConsts a p e x = (E, L, Q) ∧
    stableRadialRootsCore a p e (pureConsts a p e x) = (r1, r2, r3, r4) ∧
    stablePolarRootsCore a x (pureConsts a p e x) = (zm, zp) := by
  refine ⟨D.hcs.symm, ?_, ?_⟩
  · rw [← D.hcs]; exact D.hrr
  · rw [← D.hcs]; exact D.hzz

lemma StableData.upsilonR : m.upsilonR = rFrequencyCore E (r1, r2, r3, r4) := by
  obtain ⟨h1, h2, h3⟩ := D.cores
  rw [D.hm]
  simp only [pureMino, pureR, h2]
  rw [h1]

/-- Schwarzschild values -/
lemma StableData.schwarzschild (ha : a = 0) : L = x * p / √(p - 3 - e ^ 2) ∧ 0 < p
    ∧ 0 < p - 3 - e ^ 2 := by
  subst ha
  have h := C07_constants rs p e x D.bound
  rw [D.consts] at h
  have h := Except.ok.inj h
  simp only [Prod.mk.injEq] at h
  obtain ⟨⟨he, he1⟩, hx, hp⟩ := schwarzschild_bound D.bound
  refine ⟨h.2.1, by linarith, by nlinarith⟩

lemma StableData.upsilonTheta (hE : E ^ 2 < 1) (hL : L ≠ 0) :
    m.upsilonTheta = π * polarW a E L zm / (2 * ellipk (mT a zm zp)) := by
  have H := D.polar hE hL
  obtain ⟨h1, h2, h3⟩ := D.cores
  have hK := ellipk_pos H.mT_lt
  rw [D.hm]
  simp only [pureMino, pureTheta, h3]
  rw [h1]
  by_cases ha : a = 0
  · rw [if_pos ha]
    obtain ⟨hLL, hp, hp3⟩ := D.schwarzschild ha
    have hx0 : 0 < x ^ 2 := by have := D.incl.1; positivity
    have hs0 := Real.sqrt_pos.mpr hp3
    have hW : polarW a E L zm = p / √(p - 3 - e ^ 2) := by
      unfold polarW e0zpOf
      rw [D.zm_eq, ha, show ((0:ℝ) ^ 2 * (1 - E ^ 2) * (1 - (1 - x ^ 2)) + L ^ 2) / (L ^ 2 * (1 - (1 - x ^ 2)))
        = (1 / |x|) ^ 2 by
          rw [div_pow, sq_abs]
          have := D.incl.1
          field_simp; ring, Real.sqrt_sq (by positivity), hLL, abs_div, abs_mul, abs_of_pos hp,
        abs_of_pos hs0]
      have : |x| ≠ 0 := abs_ne_zero.mpr D.incl.1
      field_simp
    rw [hW]
    simp only [mT, if_pos ha, ellipk_zero]
    rw [show -3 - e ^ 2 + p = p - 3 - e ^ 2 by ring]
    have hpos : 0 < p / √(p - 3 - e ^ 2) := by positivity
    have hpi := Real.pi_ne_zero
    rw [show π * (p / √(p - 3 - e ^ 2)) / (2 * (π / 2)) = p / √(p - 3 - e ^ 2) by field_simp]
    split_ifs
    · rw [abs_mul, abs_of_pos hpos]
      rcases lt_or_gt_of_ne D.incl.1 with h | h
      · rw [Real.sign_of_neg h]; simp
      · rw [Real.sign_of_pos h]; simp
    · rw [mul_one, abs_of_pos hpos]
  · rw [if_neg ha]
    simp only [thetaFrequencyCore, H.sq_k' ha]
    rw [abs_div, abs_of_pos (show 0 < 2 * ellipk (mT a zm zp) by positivity), abs_mul, abs_mul,
      abs_of_pos Real.pi_pos, abs_of_nonneg (Real.sqrt_nonneg _), mul_assoc]
    rfl

lemma StableData.gamma (hb : Spec.BoundGeodesic a E L Q r1 r2 r3 r4) :
    m.gamma = 4 * E + gammaT a E L zm zp + gammaR a E L r1 r2 r3 r4 := by
  have H := D.polar hb.energy hb.nonpolar
  have HR := BoundGeodesic.config hb
  obtain ⟨h1, h2, h3⟩ := D.cores
  have hKT := (ellipk_pos H.mT_lt).ne'
  have hKR := (ellipk_pos HR.mR_lt).ne'
  have hL := hb.nonpolar
  have hpi := Real.pi_ne_zero
  have hc0 : √((1 - E ^ 2) * (r1 - r3) * (r2 - r4)) ≠ 0 := by
    refine (Real.sqrt_pos.mpr ?_).ne'
    rw [mul_assoc]; exact mul_pos (by linarith [hb.energy]) HR.pos13_24
  rw [D.hm]
  simp only [pureMino, pureGamma, pureR, pureTheta, h2, h3]
  rw [h1]
  simp only [gammaCore, kR, HR.sq_k, H.sq_k, rFrequencyCore_eq HR]
  have e1 : 2 * (π * √((1 - E ^ 2) * (r1 - r3) * (r2 - r4)) / (2 * ellipk (mR r1 r2 r3 r4)))
      / (π * √((1 - E ^ 2) * (r1 - r3) * (r2 - r4))) = 1 / ellipk (mR r1 r2 r3 r4) := by
    field_simp
  rw [e1]
  congr 1
  congr 1
  by_cases ha : a = 0
  · rw [if_pos ha]
    simp only [gammaT, mT, if_pos ha, ellipk_zero, ellipe_zero, sub_self, mul_zero, zero_div]
  · rw [if_neg ha]
    simp only [thetaFrequencyCore, H.sq_k' ha, gammaT]
    field_simp

lemma StableData.upsilonPhi (hb : Spec.BoundGeodesic a E L Q r1 r2 r3 r4) :
    m.upsilonPhi = phiT a L zm zp + phiR a E L r1 r2 r3 r4 := by
  have H := D.polar hb.energy hb.nonpolar
  have HR := BoundGeodesic.config hb
  obtain ⟨h1, h2, h3⟩ := D.cores
  have hKT := (ellipk_pos H.mT_lt).ne'
  have hKR := (ellipk_pos HR.mR_lt).ne'
  have hL := hb.nonpolar
  have hpi := Real.pi_ne_zero
  have hc0 : √((1 - E ^ 2) * (r1 - r3) * (r2 - r4)) ≠ 0 := by
    refine (Real.sqrt_pos.mpr ?_).ne'
    rw [mul_assoc]; exact mul_pos (by linarith [hb.energy]) HR.pos13_24
  rw [D.hm]
  simp only [pureMino, purePhi, pureR, pureTheta, h2, h3]
  rw [h1]
  by_cases ha : a = 0
  · rw [if_pos ha]
    obtain ⟨hLL, hp, hp3⟩ := D.schwarzschild ha
    have hs0 := Real.sqrt_pos.mpr hp3
    have hz1 : zm < 1 := H.z1
    have hmT : mT a zm zp = 0 := by simp [mT, ha]
    have hphi : phiR a E L r1 r2 r3 r4 = 0 := by simp [phiR, ha]
    simp only [phiT, hmT, ellipk_zero, ellippiK_zero hz1, hphi, add_zero]
    rw [D.zm_eq, show 1 - (1 - x ^ 2) = x ^ 2 by ring, Real.sqrt_sq_eq_abs, hLL,
      show -3 - e ^ 2 + p = p - 3 - e ^ 2 by ring]
    have hx := D.incl.1
    rcases lt_or_gt_of_ne hx with h | h
    · rw [Real.sign_of_neg h, abs_of_neg h]; field_simp
    · rw [Real.sign_of_pos h, abs_of_pos h]; field_simp
  · rw [if_neg ha, if_neg ha]
    simp only [phiFrequencyCore, kR, HR.sq_k, H.sq_k' ha, rFrequencyCore_eq HR, thetaFrequencyCore, phiT, phiR]
    have hE0 : √(e0zpOf a E L zm) ≠ 0 := (Real.sqrt_pos.mpr H.e0zp_pos).ne'
    congr 1
    · field_simp
    · change _ * (_ * (_ - _ * ellippiK (hPM r1 r2 r3 (1 + √(1 - a ^ 2))) _)
        - _ * (_ - _ * ellippiK (hPM r1 r2 r3 (1 - √(1 - a ^ 2))) _)) = _
      congr 1
      have ha2 : 0 < 1 - a ^ 2 := by nlinarith [D.spin.1, D.spin.2]
      have hs := (Real.sqrt_pos.mpr ha2).ne'
      have hne : 1 + √(1 - a ^ 2) - (1 - √(1 - a ^ 2)) ≠ 0 := by
        intro h; apply hs; linarith
      field_simp

/-! ### first-order equations -/

lemma StableData.radial (hb : Spec.BoundGeodesic a E L Q r1 r2 r3 r4) (lam : ℝ) :
    0 ≤ Spec.R a E L Q (T.r lam) ∧
    HasDerivAt T.r (Real.sign (sin (m.upsilonR * lam + q.qr)) * √(Spec.R a E L Q (T.r lam))) lam ∧
    (sin (m.upsilonR * lam + q.qr) = 0 → Spec.R a E L Q (T.r lam) = 0) := by
  have HR := BoundGeodesic.config hb
  have h := radial_equation (a := a) (cs := (E, L, Q)) HR (show 0 ≤ 1 - E ^ 2 by linarith [hb.energy])
    q.qr lam
  have hr : T.r = fun lam => (radialSolutions a (E, L, Q) (r1, r2, r3, r4)).pos
      (rFrequencyCore E (r1, r2, r3, r4) * lam + q.qr) := by
    rw [D.hT, ← D.upsilonR]; rfl
  rw [hb.roots, D.upsilonR, hr]
  exact h

lemma StableData.polarEq (hb : Spec.BoundGeodesic a E L Q r1 r2 r3 r4) (lam : ℝ) :
    0 ≤ Spec.Zpol a E L Q (cos (T.theta lam) ^ 2) ∧ 0 < sin (T.theta lam) ∧
    HasDerivAt T.theta (Real.sign (sin (m.upsilonTheta * lam + q.qtheta))
      * √(Spec.Zpol a E L Q (cos (T.theta lam) ^ 2)) / sin (T.theta lam)) lam ∧
    (sin (m.upsilonTheta * lam + q.qtheta) = 0 → Spec.Zpol a E L Q (cos (T.theta lam) ^ 2) = 0) := by
  have H := D.polar hb.energy hb.nonpolar
  have h := polar_equation H m.upsilonTheta (D.upsilonTheta hb.energy hb.nonpolar) q.qtheta lam
  have hr : T.theta = fun lam => (polarSolutionsCore a (E, L, Q) zm zp).pos
      (m.upsilonTheta * lam + q.qtheta) := by
    rw [D.hT]; rfl
  rw [hr]
  exact h

lemma StableData.r_bounds (hb : Spec.BoundGeodesic a E L Q r1 r2 r3 r4) (lam : ℝ) :
    r2 ≤ T.r lam ∧ T.r lam ≤ r1 := by
  have HR := BoundGeodesic.config hb
  have hr : T.r lam = (radialSolutions a (E, L, Q) (r1, r2, r3, r4)).pos
      (m.upsilonR * lam + q.qr) := by
    rw [D.hT]; rfl
  rw [hr, radial_pos_eq HR]
  exact HR.r_mem _

lemma StableData.outside (hb : Spec.BoundGeodesic a E L Q r1 r2 r3 r4) (lam : ℝ) :
    0 < Spec.Delta a (T.r lam) ∧ 1 + √(1 - a ^ 2) < T.r lam := by
  have h1 := (D.r_bounds hb lam).1
  have h2 := hb.r32
  have h3 := hb.horizon
  have h4 := Real.sqrt_nonneg (1 - a ^ 2)
  have h5 := Real.sq_sqrt (show 0 ≤ 1 - a ^ 2 by nlinarith [D.spin.1, D.spin.2])
  refine ⟨?_, by linarith⟩
  have : Spec.Delta a (T.r lam) = (T.r lam - 1 - √(1 - a ^ 2)) * (T.r lam - 1 + √(1 - a ^ 2)) := by
    unfold Spec.Delta; linear_combination h5
  rw [this]; exact mul_pos (by linarith) (by linarith)

lemma StableData.timeEq (hb : Spec.BoundGeodesic a E L Q r1 r2 r3 r4) (lam : ℝ) :
    HasDerivAt T.t (Spec.dtdlam a E L (T.r lam) (T.theta lam)) lam ∧
    HasDerivAt T.phi (Spec.dphidlam a E L (T.r lam) (T.theta lam)) lam := by
  have H := D.polar hb.energy hb.nonpolar
  have HR := BoundGeodesic.config hb
  have hs0 := Real.sqrt_nonneg (1 - a ^ 2)
  have ha2 : 0 < 1 - a ^ 2 := by nlinarith [D.spin.1, D.spin.2]
  have hs1 := Real.sqrt_pos.mpr ha2
  have hs2 := Real.sq_sqrt ha2.le
  obtain ⟨d1, d2⟩ := radial_dt (Q := Q) HR (show 0 < 1 - E ^ 2 by linarith [hb.energy])
    (a := a) (L := L) (lt_trans hb.horizon hb.r32) hb.horizon.ne'
    (by linarith [hb.horizon] : (1 - √(1 - a ^ 2)) < r3).ne' q.qr lam
  obtain ⟨d3, d4⟩ := polar_dt H m.upsilonTheta (D.upsilonTheta hb.energy hb.nonpolar) q.qtheta lam
  rw [← D.upsilonR] at d1 d2
  have hr : (radialSolutions a (E, L, Q) (r1, r2, r3, r4)).pos (m.upsilonR * lam + q.qr) = T.r lam := by
    rw [D.hT]; rfl
  have hth : (polarSolutionsCore a (E, L, Q) zm zp).pos (m.upsilonTheta * lam + q.qtheta)
      = T.theta lam := by
    rw [D.hT]; rfl
  rw [hr] at d1 d2
  rw [hth] at d3 d4
  obtain ⟨hD, hout⟩ := D.outside hb lam
  have hsin := (D.polarEq hb lam).2.1
  have ht : T.t = fun lam => q.qt + m.gamma * lam
      + (radialSolutions a (E, L, Q) (r1, r2, r3, r4)).dt (m.upsilonR * lam + q.qr)
      + (polarSolutionsCore a (E, L, Q) zm zp).dt (m.upsilonTheta * lam + q.qtheta)
      - ((radialSolutions a (E, L, Q) (r1, r2, r3, r4)).dt q.qr
        + (polarSolutionsCore a (E, L, Q) zm zp).dt q.qtheta) := by
    rw [D.hT]; rfl
  have hphi : T.phi = fun lam => q.qphi + m.upsilonPhi * lam
      + (radialSolutions a (E, L, Q) (r1, r2, r3, r4)).dphi (m.upsilonR * lam + q.qr)
      + (polarSolutionsCore a (E, L, Q) zm zp).dphi (m.upsilonTheta * lam + q.qtheta)
      - ((radialSolutions a (E, L, Q) (r1, r2, r3, r4)).dphi q.qr
        + (polarSolutionsCore a (E, L, Q) zm zp).dphi q.qtheta) := by
    rw [D.hT]; rfl
  have hcos := Real.sin_sq_add_cos_sq (T.theta lam)
  have hfac : Spec.Delta a (T.r lam) = (T.r lam - (1 + √(1 - a ^ 2))) * (T.r lam - (1 - √(1 - a ^ 2))) := by
    unfold Spec.Delta; linear_combination hs2
  have hg := D.gamma hb
  have hph := D.upsilonPhi hb
  obtain ⟨S, hS⟩ : ∃ S, S = √(1 - a ^ 2) := ⟨_, rfl⟩
  rw [← hS] at hfac hs2 hs1 hout d1 d2
  have k1 : T.r lam - (1 + S) ≠ 0 := by linarith
  have k2 : T.r lam - (1 - S) ≠ 0 := by linarith
  have k3 : (1 + S) - (1 - S) ≠ 0 := by linarith
  have k4 : sin (T.theta lam) ≠ 0 := hsin.ne'
  constructor
  · have d0 := ((((hasDerivAt_id' lam).const_mul m.gamma).const_add q.qt).add d1).add d3
    rw [ht]
    refine (d0.sub_const _).congr_deriv ?_
    rw [hg]
    unfold Spec.dtdlam
    rw [hfac]
    have := dt_algebra (E := E) (l := a * L) (b := a ^ 2) (S := S) (r := T.r lam)
      (s := sin (T.theta lam) ^ 2) (c := cos (T.theta lam) ^ 2) (by linarith) hs1.ne' (by linarith) k1 k2
    linear_combination this
  · have d0 := ((((hasDerivAt_id' lam).const_mul m.upsilonPhi).const_add q.qphi).add d2).add d4
    rw [hphi]
    refine (d0.sub_const _).congr_deriv ?_
    rw [hph]
    unfold Spec.dphidlam
    rw [hfac]
    have := dphi_algebra (E := E) (l := a * L) (b := a ^ 2) (S := S) (r := T.r lam)
      (by linarith) hs1.ne' k1 k2
    linear_combination a * this

end
end KGP
