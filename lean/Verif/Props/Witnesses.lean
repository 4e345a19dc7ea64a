import Verif.Props.Restart
import Verif.Props.SchwarzschildOrbit
import Verif.Props.RealPlunge
import Verif.Props.Units

/-!
# Concrete instances of the hypotheses

Most files end with an example that meets the hypotheses of their theorems.  The instances that need results of later
files are collected here.
-/

namespace KGP

open Classical Real

lemma exOrbit (rs : RootScalar) : Spec.BoundOrbit rs (9 / 10) 13 (1 / 2) (-1 / 2) :=
  C11_accepts_wide _ _ _ _ _ (by norm_num [abs_lt]) (by norm_num) (by norm_num)
    (by norm_num [abs_le]) (by norm_num)

lemma exOrbit_neg (rs : RootScalar) : Spec.BoundOrbit rs (-9 / 10) 13 (1 / 2) (1 / 2) :=
  C11_accepts_wide _ _ _ _ _ (by norm_num [abs_lt]) (by norm_num) (by norm_num)
    (by norm_num [abs_le]) (by norm_num)

/-- C20–C25, C46: a retrograde inclined eccentric orbit around a rotating hole. -/
lemma exOrbit_hyps (rs : RootScalar) (q : Phases) : ∃ T m E L Q r1 r2 r3 r4,
    stableTrajectoryNat rs (9 / 10) 13 (1 / 2) (-1 / 2) q = .ok T
    ∧ minoFrequencies rs (9 / 10) 13 (1 / 2) (-1 / 2) = .ok m
    ∧ constantsOfMotion rs (9 / 10) 13 (1 / 2) (-1 / 2) = .ok (E, L, Q)
    ∧ stableRadialRoots rs (9 / 10) 13 (1 / 2) (-1 / 2) = .ok (r1, r2, r3, r4)
    ∧ Spec.BoundGeodesic (9 / 10) E L Q r1 r2 r3 r4 ∧ 0 < E ∧ E < 1 ∧ L < 0 ∧ 0 ≤ Q
    ∧ 9 / 10 * L < E * (r2 ^ 2 + (9 / 10) ^ 2) ∧ (2:ℝ) ≤ 13 / (1 + 1 / 2) := by
  obtain ⟨T, m, E, L, Q, r1, r2, r3, r4, h1, h2, h3, h4, h5, h6, h7, h8, h9, h10, -⟩ :=
    orbit_hyps q (exOrbit rs) (by norm_num) (by norm_num) (by norm_num) (fun h => absurd h (by norm_num))
      (.inl (by norm_num))
  rw [Real.sign_of_neg (by norm_num)] at h8
  exact ⟨T, m, E, L, Q, r1, r2, r3, r4, h1, h2, h3, h4, h5, h6, h7, by linarith, h9, h10, by norm_num⟩

/-- C20–C25, C46 applied to it. -/
example (rs : RootScalar) (q : Phases) : ∃ T m E L Q,
    stableTrajectoryNat rs (9 / 10) 13 (1 / 2) (-1 / 2) q = .ok T
    ∧ minoFrequencies rs (9 / 10) 13 (1 / 2) (-1 / 2) = .ok m
    ∧ (∀ lam, 13 / (1 + 1 / 2) ≤ T.r lam ∧ T.r lam ≤ 13 / (1 - 1 / 2))
    ∧ (∀ lam, HasDerivAt T.t (Spec.dtdlam (9 / 10) E L (T.r lam) (T.theta lam)) lam)
    ∧ (∀ lam, HasDerivAt T.r
        (Real.sign (sin (m.upsilonR * lam + q.qr)) * √(Spec.R (9 / 10) E L Q (T.r lam))) lam)
    ∧ (13 / (1 + 1 / 2)) ^ 2 ≤ m.gamma
    ∧ ∃ B, ∀ lam, |T.t lam - (q.qt + m.gamma * lam)| ≤ B ∧ |T.phi lam - (q.qphi + m.upsilonPhi * lam)| ≤ B := by
  obtain ⟨T, m, E, L, Q, r1, r2, r3, r4, hT, hm, hc, hr, hb, hE, -, -, hQ, -, h2⟩ := exOrbit_hyps rs q
  have ha : (0:ℝ) ≤ 9 / 10 := by norm_num
  exact ⟨T, m, E, L, Q, hT, hm, (C20_radial ha hT hm hc hr hb).1,
    fun lam => (C22_time_azimuth ha hT hm hc hr hb lam).1,
    fun lam => (C21_radial_polar ha hT hm hc hr hb lam).1,
    (C46_future_outside ha hT hm hc hr hb hE hQ h2).2.2.1, C25_secular ha hT hm hc hr hb⟩

/-- C22_object, C23_object, C24: a `StableOrbit` given with negative spin. -/
example (rs : RootScalar) (q q' : Phases) (M mu : Option ℝ) : ∃ o pos vel f D,
    mkStableOrbit rs (-9 / 10) 13 (1 / 2) (1 / 2) q M mu = .ok (o, pos, vel)
    ∧ o.fourVelocityNorm rs (some q') = .ok f ∧ (∀ lam, f lam = -1)
    ∧ o.trajectoryDeltas rs (some q') = .ok D ∧ ∀ y, D.dtR (y + 2 * π) = D.dtR y := by
  obtain ⟨⟨o, pos, vel⟩, ho⟩ := (C41_constructible rs (-9 / 10) 13 (1 / 2) (1 / 2) q M mu).mpr
    ⟨exOrbit_neg rs, by norm_num, by norm_num⟩
  obtain ⟨h1, h2, -, -, -, -, h4, -⟩ := C41_attributes rs _ _ _ _ q M mu o pos vel ho
  obtain ⟨T, m, E, L, Q, r1, r2, r3, r4, hT, hm, hc, hr, hb, -⟩ := exOrbit_hyps rs q
  have ha : o.a = 9 / 10 := by rw [h1]; norm_num [abs_of_neg]
  have hx : Spec.signedX (-9 / 10) (1 / 2) = -1 / 2 := by
    unfold Spec.signedX; norm_num
  have hcs : o.consts = (E, L, Q) := by
    have := (C10_sign_flip rs (9 / 10) 13 (1 / 2) (-1 / 2) (by norm_num) none none none none none).2.2.2.1
    rw [show (-(9 / 10) : ℝ) = -9 / 10 by norm_num, show (-(-1 / 2) : ℝ) = 1 / 2 by norm_num, h4, hc] at this
    exact Except.ok.inj this
  have hr' : stableRadialRoots rs o.a o.apex.1 o.apex.2.1 o.apex.2.2 = .ok (r1, r2, r3, r4) := by
    rw [ha, h2, hx]; exact hr
  have hb' : Spec.BoundGeodesic o.a E L Q r1 r2 r3 r4 := by rw [ha]; exact hb
  obtain ⟨f, hf, hf1⟩ := C23_object ho hcs hr' hb' q'
  obtain ⟨D, hD, hD1, -⟩ := C24_deltas ho hcs hr' hb' q'
  exact ⟨o, pos, vel, f, D, ho, hf, hf1, hD, hD1⟩

/-- C25_units, C26: a `StableOrbit` with both masses. -/
example (rs : RootScalar) (q : Phases) : ∃ o pos vel E L Q,
    mkStableOrbit rs (9 / 10) 13 (1 / 2) (-1 / 2) q (some 1000000) (some 10) = .ok (o, pos, vel)
    ∧ o.constantsOfMotion "mks" = .ok (E, L, Q)
    ∧ L = Units.solarMass * (o.consts.2.1
        * (Units.G * Units.massInKg 10 * Units.massInKg 1000000 / Units.c))
    ∧ ¬ ∃ E Q, o.constantsOfMotion "mks" = .ok
      (E, o.consts.2.1 * (Units.G * Units.massInKg 10 * Units.massInKg 1000000 / Units.c), Q) := by
  obtain ⟨⟨o, pos, vel⟩, ho⟩ := (C41_constructible rs (9 / 10) 13 (1 / 2) (-1 / 2) q (some 1000000)
    (some 10)).mpr ⟨exOrbit rs, by norm_num, by norm_num⟩
  obtain ⟨-, -, -, hM, hmu, -, h4, -⟩ := C41_attributes rs _ _ _ _ q _ _ o pos vel ho
  obtain ⟨T, m, E, L, Q, r1, r2, r3, r4, -, -, hc, -, -, -, -, hL, -⟩ := exOrbit_hyps rs q
  have hcs : o.consts = (E, L, Q) := Except.ok.inj (h4.symm.trans hc)
  obtain ⟨E', L', Q', k1, k2, -⟩ := C26_extra_solar_mass o 1000000 10 hM hmu (by norm_num)
  exact ⟨o, pos, vel, E', L', Q', ho, k1, k2, C26_violated o 1000000 10 hM hmu (by norm_num) (by norm_num)
    (by rw [hcs]; exact hL.ne)⟩

/-- C28: without masses the same orbit has a trajectory in natural units only. -/
example (rs : RootScalar) (q : Phases) : ∃ o pos vel,
    mkStableOrbit rs (9 / 10) 13 (1 / 2) (-1 / 2) q none none = .ok (o, pos, vel)
    ∧ (o.trajectory rs none "natural" "mks").IsValueError ∧ (o.constantsOfMotion "mks").IsValueError := by
  obtain ⟨⟨o, pos, vel⟩, ho⟩ := (C41_constructible rs (9 / 10) 13 (1 / 2) (-1 / 2) q none none).mpr
    ⟨exOrbit rs, by norm_num, by norm_num⟩
  obtain ⟨-, -, hst, hM, -⟩ := C41_attributes rs _ _ _ _ q _ _ o pos vel ho
  obtain ⟨k1, k2⟩ := C28_missing_mass rs o hM none "natural" "mks" (.inr (by decide)) hst
  exact ⟨o, pos, vel, ho, k1, (k2 "mks" (by decide)).2.2⟩

/-- C30_none, C36_four_complex: constants of motion without radial root (`E = 2`, `Q = -1`). -/
example (pos vel : Vec4) : plungingRadialRoots (1 / 2) 2 0 (-1) = .error (.unboundLocal "r1")
    ∧ (icIsStable (1 / 2) pos vel (some (2, 0, -1))).IsValueError := by
  have h : ∀ r, Spec.R (1 / 2) 2 0 (-1) r ≠ 0 := by
    intro r
    have : Spec.R (1 / 2) 2 0 (-1) r = r ^ 2 * (2 * r ^ 2 + (r + 1) ^ 2 + 3 / 4) + 1 / 4 := by
      unfold Spec.R Spec.Delta; ring
    rw [this]
    positivity
  exact ⟨C30_none _ _ _ _ (by norm_num) h, C36_four_complex _ _ _ _ _ _ _ (by norm_num) h⟩

/-- C18, C19 (plunges): the complex-root plunge of C31, for all phases. -/
example (q : Phases) (l0 : ℝ) : ∃ T uR uT T',
    plungingTrajectoryNat (4 / 5) (√(66825 / 91777)) (4 / 5 * √(66825 / 91777)) (98 / 1873) q = .ok T
    ∧ plungingTrajectoryNat (4 / 5) (√(66825 / 91777)) (4 / 5 * √(66825 / 91777)) (98 / 1873)
      ⟨T.t l0, q.qr + uR * l0, q.qtheta + uT * l0, T.phi l0⟩ = .ok T'
    ∧ ∀ l, T'.at l = T.at (l0 + l) := by
  obtain ⟨r3, r4, hr, -⟩ := exPlunge_roots
  obtain ⟨⟨T, hT⟩, ⟨uR, uT⟩, hu⟩ := C31_returns _ _ _ _ _ _ _ _ q hr
  obtain ⟨T', h1, h2⟩ := C19_plunging _ _ _ _ q T uR uT l0 (by norm_num) (by rw [exPlungeE]; norm_num)
    (fun h => absurd h (by norm_num)) hT hu
  exact ⟨T, uR, uT, T', hT, h1, h2⟩

/-- C33 (complex roots): the deltas of that plunge. -/
example (rs : RootScalar) (q : Phases) : ∃ o pos vel D,
    mkPlungingOrbit rs (4 / 5) (√(66825 / 91777)) (4 / 5 * √(66825 / 91777)) (98 / 1873) q none none
      = .ok (o, pos, vel) ∧ o.trajectoryDeltas rs (some q) = .ok D := by
  obtain ⟨r3, r4, hr, -⟩ := exPlunge_roots
  obtain ⟨⟨T, hT⟩, u, hu⟩ := C31_returns _ _ _ _ _ _ _ _ q hr
  obtain ⟨o, pos, vel, ho, h1, h2, h3⟩ : ∃ o pos vel,
      mkPlungingOrbit rs (4 / 5) (√(66825 / 91777)) (4 / 5 * √(66825 / 91777)) (98 / 1873) q none none
        = .ok (o, pos, vel) ∧ o.stable = false ∧ o.a = 4 / 5
        ∧ o.consts = (√(66825 / 91777), 4 / 5 * √(66825 / 91777), 98 / 1873) := by
    unfold mkPlungingOrbit
    simp only [raiseIf, show ¬ ((4:ℝ) / 5 = 0) by norm_num, if_false, hu, bind_ok,
      OrbitObj.fourVelocity, OrbitObj.trajectoryNat, Option.getD_none, Option.getD_some,
      Bool.false_eq_true, hT]
    exact ⟨_, _, _, rfl, rfl, rfl, rfl⟩
  obtain ⟨-, -, D, -, -, hD, -⟩ := C33_complex_roots_return rs o q h1 (7 / 20) 7 r3 r4 (by rw [h2, h3]; exact hr)
  exact ⟨o, pos, vel, D, ho, hD⟩

/-- The horizons of the examples are not roots of their potentials. -/
lemma ex_no_root {a E : ℝ} (ha : a ≠ 0) (hE : E ≠ 0) :
    ∀ rh, Spec.Delta a rh = 0 → E * (rh ^ 2 + a ^ 2) ≠ a * (a * E) := by
  intro rh hrh h
  have h1 : E * rh ^ 2 = 0 := by linear_combination h
  have h2 : rh = 0 := by
    rcases mul_eq_zero.mp h1 with h | h
    · exact absurd h hE
    · exact pow_eq_zero_iff two_ne_zero |>.mp h
  rw [h2] at hrh
  unfold Spec.Delta at hrh
  have : a ^ 2 = 0 := by linear_combination hrh
  exact ha (pow_eq_zero_iff two_ne_zero |>.mp this)

/-- C48: the same constants of motion (four real roots `45/4, 8, 2880/1369, 576/955`) give a stable orbit from `r = 10`
and a plunge from `r = 2`. -/
example (rs : RootScalar) : ∃ vel o vel' o',
    mkOrbit rs (12 / 13) ⟨1, 10, π / 2, 3⟩ vel none none = .ok o ∧ o.stable = true
    ∧ mkOrbit rs (12 / 13) ⟨1, 2, π / 2, 3⟩ vel' none none = .ok o' ∧ o'.stable = false
    ∧ o.consts = o'.consts
    ∧ 1 + √(1 - (12 / 13 : ℝ) ^ 2) < 2880 / 1369 ∧ (576 / 955 : ℝ) < 1 - √(1 - (12 / 13) ^ 2) := by
  have hE0 := exE_pos
  have hE2 := exE_sq
  have hE : exE ^ 2 < 1 := by rw [hE2]; norm_num
  have hE1 : exE < 1 := by nlinarith
  have hL : 12 / 13 * exE ≠ 0 := by positivity
  have hT : Spec.Theta (12 / 13) exE (12 / 13 * exE) (8294400 / 679439) (π / 2) = 8294400 / 679439 := by
    simp [Spec.Theta]
  have data : ∀ r, 2 ≤ r → 0 ≤ Spec.R (12 / 13) exE (12 / 13 * exE) (8294400 / 679439) r →
      Spec.Sigma (12 / 13) r (π / 2) ≠ 0 ∧ Spec.Delta (12 / 13) r ≠ 0 := by
    intro r hr _
    constructor
    · simp [Spec.Sigma]; linarith
    · unfold Spec.Delta; nlinarith
  have R10 : 0 ≤ Spec.R (12 / 13) exE (12 / 13 * exE) (8294400 / 679439) 10 := by
    rw [exReal_roots, hE2]; norm_num
  have R2 : 0 ≤ Spec.R (12 / 13) exE (12 / 13 * exE) (8294400 / 679439) 2 := by
    rw [exReal_roots, hE2]; norm_num
  obtain ⟨S1, D1⟩ := data 10 (by norm_num) R10
  obtain ⟨S2, D2⟩ := data 2 (by norm_num) R2
  obtain ⟨hc, hn⟩ := velocityOf_ok (a := 12 / 13) (E := exE) (L := 12 / 13 * exE)
    (Q := 8294400 / 679439) (sr := -1) (sθ := 1) (pos := ⟨1, 10, π / 2, 3⟩) (by norm_num) (by norm_num)
    S1 D1 (by simp) R10 (by simp only [hT]; norm_num)
  obtain ⟨hc', hn'⟩ := velocityOf_ok (a := 12 / 13) (E := exE) (L := 12 / 13 * exE)
    (Q := 8294400 / 679439) (sr := -1) (sθ := 1) (pos := ⟨1, 2, π / 2, 3⟩) (by norm_num) (by norm_num)
    S2 D2 (by simp) R2 (by simp only [hT]; norm_num)
  obtain ⟨o, x, ho, hst, hcs, -⟩ := C34_stable_accepted rs none none (by norm_num)
    (by norm_num) hc hn (by simp) hE0 hE1 hL exReal_roots (by norm_num) (by norm_num) (by norm_num)
    (by rw [exHorizon]; norm_num) (by norm_num) (by norm_num)
  obtain ⟨-, -, c3, -⟩ := C36_four_real (12 / 13) exE (12 / 13 * exE) (8294400 / 679439) 1e-4
    (45 / 4) 8 (2880 / 1369) (576 / 955) ⟨1, 2, π / 2, 3⟩
    (Spec.velocityOf (12 / 13) exE (12 / 13 * exE) (8294400 / 679439) ⟨1, 2, π / 2, 3⟩ (-1) 1) hE.ne
    exReal_roots (by norm_num) (by norm_num) (by norm_num)
  obtain ⟨o', ho', hst', hcs'⟩ := C34_real_constructible rs none none (by norm_num) hc' hn' hE hL
    exPlungeLabels (c3 (by rw [exHorizon]; norm_num))
  have k := (C48_four_real ho (by norm_num) hcs hE S1 D1 (by simp) hn (ex_no_root (by norm_num) hE0.ne')
    exReal_roots (by norm_num) (by norm_num) (by norm_num)).1 hst
  have k' := C48_plunge_labels ho' hst' hcs' hE exPlungeLabels (by norm_num) S2 D2
    (by simp) hn' (ex_no_root (by norm_num) hE0.ne') (.inr (by norm_num))
  exact ⟨_, o, _, o', ho, hst, ho', hst', by rw [hcs, hcs'], k.2.2.1, k'.2.2.1⟩

/-- C34_schwarzschild: an ordinary bound Schwarzschild orbit (turning points `20` and `20/3`, inclination `3/5`)
started at `r = 10` on the equator; its polar phase is not a number. -/
example (rs : RootScalar) : ∃ vel o T, mkOrbit rs 0 ⟨1, 10, π / 2, 3⟩ vel none none = .ok o ∧ o.stable = true
    ∧ o.trajectoryNat rs = .ok T ∧ T.r 0 = 10
    ∧ ∃ lam, o.phases.qtheta = π / 2 - lam * (0 / npSqrt (-4)) := by
  have hE2 : √(14 / 15) ^ 2 = (14 / 15 : ℝ) := Real.sq_sqrt (by norm_num)
  have hL2 : √(16 / 3) ^ 2 = (16 / 3 : ℝ) := Real.sq_sqrt (by norm_num)
  have hE0 : 0 < √(14 / 15 : ℝ) := Real.sqrt_pos.mpr (by norm_num)
  have hL0 : 0 < √(16 / 3 : ℝ) := Real.sqrt_pos.mpr (by norm_num)
  have hE1 : √(14 / 15 : ℝ) < 1 := by nlinarith
  have hR : Spec.RadialRoots 0 (√(14 / 15)) (√(16 / 3)) (256 / 27) 20 (20 / 3) (10 / 3) 0 := by
    intro r
    unfold Spec.R Spec.Delta
    generalize √(14 / 15 : ℝ) = E at *
    generalize √(16 / 3 : ℝ) = L at *
    linear_combination (r ^ 4 - r * (r - 10 / 3) * (20 - r) * (20 / 3 - r)) * hE2
      + (- r ^ 2 + 2 * r) * hL2
  have hS : Spec.Sigma 0 10 (π / 2) = 100 := by simp [Spec.Sigma]; norm_num
  have hD : Spec.Delta 0 10 ≠ 0 := by norm_num [Spec.Delta]
  have hT : Spec.Theta 0 (√(14 / 15)) (√(16 / 3)) (256 / 27) (π / 2) = 256 / 27 := by simp [Spec.Theta]
  have hR10 : 0 ≤ Spec.R 0 (√(14 / 15)) (√(16 / 3)) (256 / 27) 10 := by rw [hR, hE2]; norm_num
  obtain ⟨hc, hn⟩ := velocityOf_ok (a := 0) (E := √(14 / 15)) (L := √(16 / 3)) (Q := 256 / 27) (sr := -1) (sθ := 1)
    (pos := ⟨1, 10, π / 2, 3⟩) (by norm_num) (by norm_num) (by simp only [hS]; norm_num) hD (by simp) hR10
    (by simp only [hT]; norm_num)
  have hpi := Real.pi_pos
  obtain ⟨o, p, e, x, T, ho, hst, -, -, -, -, -, hx, -, hT', -, hr, -, hth⟩ :=
    C34_schwarzschild rs none none hc hn (by simp only []; positivity) (by simp only []; linarith) hE0 hE1 hL0.ne'
      hR (by norm_num) (by norm_num) (by norm_num) (by norm_num) (by norm_num) (by norm_num)
  have hx2 : √(1 - x ^ 2) = 4 / 5 := by
    rw [hL2] at hx
    have : 1 - x ^ 2 = (4 / 5) ^ 2 := by linarith
    rw [this, Real.sqrt_sq (by norm_num)]
  have h2 : 4 / 5 ≤ arcsin (4 / 5) := by
    have h3 : 0 ≤ arcsin (4 / 5) := Real.arcsin_nonneg.mpr (by norm_num)
    have := Real.sin_le h3
    rwa [Real.sin_arcsin (by norm_num) (by norm_num)] at this
  refine ⟨_, o, T, ho, hst, hT', ?_, ?_⟩
  · exact hr (.inr (by norm_num [abs_of_neg])) (.inr (by norm_num [abs_of_pos]))
  · obtain ⟨lam, hl⟩ := hth (by
        rw [hx2, Real.arccos, abs_of_nonneg (by simp only []; linarith)]
        simp only []
        norm_num; linarith) (by
        rw [hx2, Real.arccos, abs_of_nonpos (by simp only []; linarith)]
        simp only []
        norm_num; linarith)
    refine ⟨lam, ?_⟩
    rw [hl, if_neg]
    simp only [Spec.velocityOf, hS, hT, not_lt]
    positivity

end KGP
