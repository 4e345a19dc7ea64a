import Verif.Lemmas.FiniteConstants
import Verif.Props.KerrOrbits

/-!
# C76: the orbit in the arithmetic with failing operations
-/

namespace KGP

open Classical Real

section
variable {rs : RootScalar} {a p e x : ℝ} {q : Phases} {T : Traj} {m : MinoFreqs}
  {E L Q r1 r2 r3 r4 zm zp : ℝ}

/-- The divisors are not zero. -/
lemma regular_of_bound (h : Spec.BoundOrbit rs a p e x) (ha : 0 ≤ a) (he1 : e ≠ 1) (hx0 : x ≠ 0)
    (hp : 0 < x → p ≤ 4 → Spec.DivisorsNonzero a p e x) : Schmidt.Regular a p e x := by
  rcases eq_or_lt_of_le ha with h0 | h0
  · subst h0
    obtain ⟨⟨he, he2⟩, hx, hpp⟩ := schwarzschild_bound h
    exact regular_of_four_lt (by norm_num) (by linarith) he (lt_of_le_of_ne he2 he1) hx0
      ((sq_le_one_iff_abs_le_one x).mpr hx)
  · obtain ⟨hal, he, hlt, hl, hr, habs, hsx, s, hv, hsp⟩ := bound_value h h0 he1
    have hx : x ^ 2 ≤ 1 := (sq_le_one_iff_abs_le_one x).mpr (abs_le.mpr ⟨hl, hr⟩)
    have hA : a ^ 2 ≤ 1 := by nlinarith
    rcases accepted_cases h0 hal he hlt hx0 hl hr hv hsp with h4 | ⟨hpos, h4, -⟩
    · exact regular_of_four_lt hA h4 he hlt hx0 hx
    · have := (divisors_iff a p e x).mp (hp hpos h4)
      rwa [habs, hsx] at this

/-- The turning points belong to the roots. -/
lemma turning_of_roots (hr : Spec.RadialRoots a E L Q (p / (1 - e)) (p / (1 + e)) r3 r4) :
    Spec.TurningPoints a E L Q p e := by
  refine ⟨by rw [hr]; ring, by rw [hr]; ring, fun h0 => ?_⟩
  subst h0
  have e1 : Spec.R a E L Q = fun r => (1 - E ^ 2) * (p - r) * (r - p) * (r - r3) * (r - r4) := by
    funext r; rw [hr]; norm_num
  have h1 := hasDerivAt_id' p
  have := (((((h1.const_sub p).const_mul (1 - E ^ 2)).mul (h1.sub_const p)).mul (h1.sub_const r3)).mul
    (h1.sub_const r4)).deriv
  rw [e1]
  refine this.trans ?_
  simp

lemma constantsOfMotionN_fin (h : Spec.BoundOrbit rs a p e x) (ha : 0 ≤ a) (he1 : e ≠ 1) (hx0 : x ≠ 0)
    (hp : 0 < x → p ≤ 4 → Spec.DivisorsNonzero a p e x)
    (hc : constantsOfMotion rs a p e x = .ok (E, L, Q)) (hE : 0 < E)
    (hT : Spec.TurningPoints a E L Q p e) :
    constantsOfMotionN rs a p e x = .ok (.fin E, .fin L, .fin Q) := by
  have hcc := constantsOfMotion_of_bound h
  rw [hc, sa_of_nonneg ha, sx_of_nonneg ha] at hcc
  have hcc := Except.ok.inj hcc
  simp only [pureConsts, if_neg hx0, Prod.mk.injEq] at hcc
  obtain ⟨rfl, rfl, rfl⟩ := hcc
  have hx : x ^ 2 ≤ 1 := (sq_le_one_iff_abs_le_one x).mpr h.2.2.1
  obtain ⟨f1, f2, f3⟩ := constants_fin hx0 hx h.2.1.1 he1 (regular_of_bound h ha he1 hx0 hp) hE hT
  have hg := (constantsGuard_iff rs a p e x).mpr h
  rw [sa_of_nonneg ha, sx_of_nonneg ha] at hg
  have hs : standardizeParams a x = (a, x) := by
    rw [standardize_eq, sa_of_nonneg ha, sx_of_nonneg ha]
  simp only [constantsOfMotionN, hs, hg, bind_ok, if_neg hx0]
  rw [f3, f2, f1]
  rfl

lemma StableData.geo (D : StableData rs a p e x q T m E L Q r1 r2 r3 r4 zm zp)
    (hb : Spec.BoundGeodesic a E L Q r1 r2 r3 r4) : FinGeo a E L r1 r2 r3 r4 zm zp := by
  have H := D.polar hb.energy hb.nonpolar
  have hx0 : 0 < x ^ 2 := by have := D.incl.1; positivity
  refine ⟨by nlinarith [D.spin.1, D.spin.2], hb.energy, hb.nonpolar, hb.r43, hb.r32, hb.r21, hb.horizon,
    by rw [D.zm_eq]; linarith [D.incl.2], by rw [D.zm_eq]; linarith, fun ha => ?_⟩
  have := (stablePolarRootsN_fin (x := x) (E := E) (L := L) rfl rfl ha D.incl.1 hb.energy hb.nonpolar Q
    (vQ := .fin Q)).2
  rwa [D.hzz] at this

/-- What the code computes, in the arithmetic with failing operations, are the numbers of the model. -/
lemma StableData.finite (D : StableData rs a p e x q T m E L Q r1 r2 r3 r4 zm zp)
    (hb : Spec.BoundGeodesic a E L Q r1 r2 r3 r4)
    (hcN : constantsOfMotionN rs a p e x = .ok (.fin E, .fin L, .fin Q)) :
    minoFrequenciesN rs a p e x
        = .ok ⟨.fin m.upsilonR, .fin m.upsilonTheta, .fin m.upsilonPhi, .fin m.gamma⟩
    ∧ ∃ TN, stableTrajectoryN rs a p e x q = .ok TN
      ∧ ∀ lam, TN.t lam = .fin (T.t lam) ∧ TN.r lam = .fin (T.r lam) ∧ TN.theta lam = .fin (T.theta lam)
        ∧ TN.phi lam = .fin (T.phi lam) := by
  have G := D.geo hb
  have ha := D.spin.1
  have hrN : stableRadialRootsN a p e (.fin E, .fin L, .fin Q) = (.fin r1, .fin r2, .fin r3, .fin r4) :=
    stableRadialRootsN_fin rfl rfl D.ecc.1 D.ecc.2.ne D.hrr hb.roots hb.energy
      (by linarith [hb.horizon, Real.sqrt_nonneg (1 - a ^ 2)]) hb.r32 hb.r21
  obtain ⟨vp, hzN, hvp⟩ : ∃ vp, stablePolarRootsN a x (.fin E, .fin L, .fin Q) = (.fin zm, vp)
      ∧ (a ≠ 0 → vp = .fin zp) := by
    refine ⟨(stablePolarRootsN a x (.fin E, .fin L, .fin Q)).2, ?_, fun h0 => ?_⟩
    · rw [D.zm_eq]
      exact Prod.ext stablePolarRootsN_fst rfl
    · have := (stablePolarRootsN_fin (x := x) (E := E) (L := L) rfl rfl h0 D.incl.1 hb.energy hb.nonpolar Q
        (vQ := .fin Q)).1
      rwa [D.hzz] at this
  obtain ⟨c1, c2, c3⟩ := D.cores
  have V : FinVals E L Q r1 r2 r3 r4 (.fin E) (.fin L) (.fin Q) (.fin r1) (.fin r2) (.fin r3) (.fin r4) :=
    ⟨rfl, rfl, rfl, rfl, rfl, rfl, rfl⟩
  have uR := G.rFrequencyN_fin (vE := .fin E) rfl rfl rfl rfl rfl
  -- the polar and azimuthal frequencies
  have uT : thetaFrequencyN a p e x (.fin E, .fin L, .fin Q) (.fin zm, vp)
      = .fin (pureTheta a p e x (E, L, Q)) := by
    by_cases h0 : a = 0
    · obtain ⟨-, -, hpos⟩ := D.schwarzschild h0
      have k1 : 0 ≤ -3 - e ^ 2 + p := by linarith
      have k2 : √(-3 - e ^ 2 + p) ≠ 0 := (Real.sqrt_pos.mpr (by linarith)).ne'
      simp only [thetaFrequencyN, pureTheta, if_pos h0]
      have h3 : (-3 : Fl) = .fin (-3) := rfl
      by_cases he : e = 0
      · simp only [if_pos he]; fl
      · simp only [if_neg he]; fl
    · rw [G.thetaFrequencyN_fin h0 p e x rfl rfl rfl (hvp h0)]
      simp only [pureTheta, if_neg h0]
      rw [D.hzz]
  have uP : phiFrequencyN a p e x (.fin E, .fin L, .fin Q) (.fin r1, .fin r2, .fin r3, .fin r4) (.fin zm, vp)
      (.fin (rFrequencyCore E (r1, r2, r3, r4))) (.fin (pureTheta a p e x (E, L, Q)))
      = .fin (purePhi a p e x (E, L, Q) (rFrequencyCore E (r1, r2, r3, r4)) (pureTheta a p e x (E, L, Q))) := by
    by_cases h0 : a = 0
    · obtain ⟨-, -, hpos⟩ := D.schwarzschild h0
      have k1 : 0 ≤ -3 - e ^ 2 + p := by linarith
      have k2 : √(-3 - e ^ 2 + p) ≠ 0 := (Real.sqrt_pos.mpr (by linarith)).ne'
      simp only [phiFrequencyN, purePhi, if_pos h0]
      have h3 : (-3 : Fl) = .fin (-3) := rfl
      fl
    · rw [G.phiFrequencyN_fin h0 p e x V rfl (hvp h0) rfl rfl]
      simp only [purePhi, if_neg h0]
      rw [D.hrr, D.hzz]
  have uG := G.gammaN_fin V rfl hvp (uR := rFrequencyCore E (r1, r2, r3, r4))
    (uT := pureTheta a p e x (E, L, Q)) rfl rfl
  have hmN : minoN a p e x (.fin E, .fin L, .fin Q) (.fin r1, .fin r2, .fin r3, .fin r4) (.fin zm, vp)
      = ⟨.fin m.upsilonR, .fin m.upsilonTheta, .fin m.upsilonPhi, .fin m.gamma⟩ := by
    rw [D.hm]
    simp only [minoN, pureMino, c1, pureR, pureGamma]
    rw [uR, uT, uP, uG, D.hrr, D.hzz]
    rfl
  have hm := D.mino
  rw [minoFrequencies_eq, guard_bind_ok_iff] at hm
  have hfg := (minoGuard_ok_iff rs (sa a) p e (sx a x)).mp hm.1
  rw [sa_of_nonneg ha, sx_of_nonneg ha] at hfg
  have hs : standardizeParams a x = (a, x) := by
    rw [standardize_eq, sa_of_nonneg ha, sx_of_nonneg ha]
  have hM : minoFrequenciesN rs a p e x
      = .ok ⟨.fin m.upsilonR, .fin m.upsilonTheta, .fin m.upsilonPhi, .fin m.gamma⟩ := by
    simp only [minoFrequenciesN, hcN, bind_ok, hs, hfg, hrN, hzN, hmN]
    rfl
  refine ⟨hM, assembleTrajectoryN
      (radialSolutionsN a (.fin E, .fin L, .fin Q) (.fin r1, .fin r2, .fin r3, .fin r4))
      (polarSolutionsN a (.fin E, .fin L, .fin Q) (.fin zm, vp))
      ⟨.fin m.upsilonR, .fin m.upsilonTheta, .fin m.upsilonPhi, .fin m.gamma⟩ q, ?_, ?_⟩
  · simp only [stableTrajectoryN, hM, hcN, bind_ok, hrN, hzN]
    rfl
  · have SR := G.radialSolutionsN_fin V
    have SP := G.polarSolutionsN_fin (Q := Q) (vE := .fin E) (vL := .fin L) (vQ := .fin Q) rfl rfl rfl hvp
    rw [D.hT]
    intro lam
    have kr : Fl.fin m.upsilonR * (lam : Fl) + (q.qr : Fl) = .fin (m.upsilonR * lam + q.qr) := by fl
    have kt : Fl.fin m.upsilonTheta * (lam : Fl) + (q.qtheta : Fl) = .fin (m.upsilonTheta * lam + q.qtheta) := by fl
    have s1 := SR.dt _ _ kr
    have s2 := SP.dt _ _ kt
    have s3 := SR.dt (q.qr : Fl) q.qr rfl
    have s4 := SP.dt (q.qtheta : Fl) q.qtheta rfl
    have s5 := SR.dphi _ _ kr
    have s6 := SP.dphi _ _ kt
    have s7 := SR.dphi (q.qr : Fl) q.qr rfl
    have s8 := SP.dphi (q.qtheta : Fl) q.qtheta rfl
    refine ⟨?_, SR.pos _ _ kr, SP.pos _ _ kt, ?_⟩
    · simp only [assembleTrajectoryN, assembleTrajectory]
      fl
    · simp only [assembleTrajectoryN, assembleTrajectory]
      fl

/-- The four-velocity. -/
lemma fourVelocityN_fin {TN : TrajN} {lam uR uTheta : ℝ} {vR vTheta : Fl} (hr : TN.r lam = .fin (T.r lam))
    (ht : TN.theta lam = .fin (T.theta lam)) (hR : vR = .fin uR) (hTh : vTheta = .fin uTheta)
    (h0 : 0 < T.r lam) (hd : 0 < T.r lam ^ 2 - 2 * T.r lam + a ^ 2) (hs : sin (T.theta lam) ≠ 0) :
    let V := fourVelocity a T (E, L, Q) uR uTheta q
    let VN := fourVelocityN a TN (.fin E, .fin L, .fin Q) vR vTheta q
    VN.t lam = .fin (V.t lam) ∧ VN.r lam = .fin (V.r lam) ∧ VN.theta lam = .fin (V.theta lam)
      ∧ VN.phi lam = .fin (V.phi lam) := by
  intro V VN
  have k1 : T.r lam ^ 2 + a ^ 2 * cos (T.theta lam) ^ 2 ≠ 0 := by positivity
  have k2 := hd.ne'
  have k3 : 1 - cos (T.theta lam) ^ 2 ≠ 0 := by
    rw [← Real.sin_sq]; exact pow_ne_zero 2 hs
  have k4 : (T.r lam ^ 2 + a ^ 2 * cos (T.theta lam) ^ 2) * sin (T.theta lam) ≠ 0 := mul_ne_zero k1 hs
  have k5 : ∀ y : ℝ, 0 ≤ |y| := abs_nonneg
  refine ⟨?_, ?_, ?_, ?_⟩
  · simp only [V, VN, fourVelocityN, fourVelocity]
    fl
  · simp only [V, VN, fourVelocityN, fourVelocity, fvR]
    fl
    all_goals exact k5 _
  · simp only [V, VN, fourVelocityN, fourVelocity, fvZ]
    fl
    all_goals exact k5 _
  · simp only [V, VN, fourVelocityN, fourVelocity]
    fl

end

end KGP
