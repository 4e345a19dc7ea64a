import Verif.Props.Trajectory
import Verif.Props.Roots

/-!
# C33, C37, C41: orbit objects
-/

namespace KGP

open Classical Real

lemma stableTrajectoryNat_std {rs : RootScalar} {a p e x : ℝ}
    (h : Spec.BoundOrbit rs a p e x ∧ x ≠ 0 ∧ e ≠ 1) (q : Phases) :
    ∃ cs m, constantsOfMotion rs (sa a) p e (sx a x) = .ok cs
      ∧ minoFrequencies rs (sa a) p e (sx a x) = .ok m
      ∧ fundamentalFrequencies rs (sa a) p e (sx a x)
        = .ok (m.upsilonR / m.gamma, m.upsilonTheta / m.gamma, m.upsilonPhi / m.gamma)
      ∧ (stableTrajectoryNat rs (sa a) p e (sx a x) q).Returns := by
  obtain ⟨m, hm⟩ := (C12_frequency_contract rs a p e x none none none).2.2.2.2.1.1.mpr h
  obtain ⟨cs, hcs⟩ := (C11_constants_contract rs a p e x none none).2.2.2.1.mpr h.1
  have hm' : minoFrequencies rs (sa a) p e (sx a x) = .ok m := by
    rw [← hm, minoFrequencies_eq, minoFrequencies_eq, sa_sa, sx_sa]
  have hcs' : constantsOfMotion rs (sa a) p e (sx a x) = .ok cs := by
    rw [constantsOfMotion_std, hcs]
  exact ⟨cs, m, hcs', hm', (C25_fundamental rs _ p e _ m hm').1,
    ⟨_, stableTrajectoryNat_of hm' hcs' q⟩⟩

/-- **C41.** `StableOrbit(a, p, e, x, phases)` can be built exactly for the parameters accepted by the
frequency functions, whatever the phases and masses. -/
theorem C41_constructible (rs : RootScalar) (a p e x : ℝ) (q : Phases) (M mu : Option ℝ) :
    (mkStableOrbit rs a p e x q M mu).Returns ↔ Spec.BoundOrbit rs a p e x ∧ x ≠ 0 ∧ e ≠ 1 := by
  constructor
  · rintro ⟨v, h⟩
    unfold mkStableOrbit at h
    rw [standardize_eq] at h
    obtain ⟨cs, -, h⟩ := bind_eq_ok.mp h
    obtain ⟨m, hm, h⟩ := bind_eq_ok.mp h
    rw [← (C12_frequency_contract rs a p e x none none none).2.2.2.2.1.1]
    exact ⟨m, by rw [← hm, minoFrequencies_eq, minoFrequencies_eq, sa_sa, sx_sa]⟩
  · intro h
    obtain ⟨cs, m, h1, h2, h3, T, hT⟩ := stableTrajectoryNat_std h q
    unfold mkStableOrbit
    rw [standardize_eq]
    simp only [h1, h2, h3, bind_ok, OrbitObj.fourVelocity, OrbitObj.trajectoryNat, Option.getD_none,
      Option.getD_some, if_true, hT]
    exact ⟨_, rfl⟩

/-- **C41.** The attributes of a `StableOrbit` are mutually consistent: the spin is `|a|` and the
inclination carries its sign; constants and frequencies are what the module functions return for the
constructor arguments; the initial position and velocity are `trajectory()` and `four_velocity()` at
Mino time zero; and leaving `initial_phases` out uses the stored phases. -/
theorem C41_attributes (rs : RootScalar) (a p e x : ℝ) (q : Phases) (M mu : Option ℝ) (o : OrbitObj)
    (pos vel : Vec4) (h : mkStableOrbit rs a p e x q M mu = .ok (o, pos, vel)) :
    o.a = |a| ∧ o.apex = (p, e, Spec.signedX a x) ∧ o.stable = true
    ∧ o.M = M ∧ o.mu = mu ∧ o.phases = q
    ∧ constantsOfMotion rs a p e x = .ok o.consts
    ∧ minoFrequencies rs a p e x = .ok ⟨o.upsilonR, o.upsilonTheta, o.upsilonPhi, o.gamma⟩
    ∧ fundamentalFrequencies rs a p e x = .ok o.omega
    ∧ (∃ T U, o.trajectoryNat rs = .ok T ∧ o.fourVelocity rs = .ok U ∧ T.at 0 = pos ∧ U.at 0 = vel
        ∧ o.trajectoryNat rs (some q) = .ok T
        ∧ stableTrajectoryNat rs |a| p e (Spec.signedX a x) q = .ok T)
    ∧ pos.t = q.qt ∧ pos.phi = q.qphi := by
  have hret := (C41_constructible rs a p e x q M mu).mp ⟨_, h⟩
  obtain ⟨cs, m, h1, h2, h3, T, hT⟩ := stableTrajectoryNat_std hret q
  unfold mkStableOrbit at h
  rw [standardize_eq] at h
  simp only [h1, h2, h3, bind_ok, OrbitObj.fourVelocity, OrbitObj.trajectoryNat, Option.getD_none,
      Option.getD_some, if_true, hT] at h
  have h' := Except.ok.inj h
  simp only [Prod.mk.injEq] at h'
  obtain ⟨rfl, rfl, rfl⟩ := h'
  have e1 : constantsOfMotion rs a p e x = .ok cs := by rw [← constantsOfMotion_std, h1]
  have e2 : minoFrequencies rs a p e x = .ok m := by
    rw [← h2, minoFrequencies_eq, minoFrequencies_eq, sa_sa, sx_sa]
  refine ⟨rfl, by rw [← sx_eq], rfl, rfl, rfl, rfl, e1, e2, (C25_fundamental rs a p e x m e2).1,
    ⟨T, _, ?_, ?_, rfl, rfl, ?_, ?_⟩, ?_⟩
  · simp only [OrbitObj.trajectoryNat, Option.getD_none, if_true, hT]
  · simp only [OrbitObj.fourVelocity, OrbitObj.trajectoryNat, Option.getD_none, Option.getD_some,
      if_true, hT, bind_ok]
    rfl
  · simp only [OrbitObj.trajectoryNat, Option.getD_some, if_true, hT]
  · rw [← sx_eq]; exact hT
  · obtain ⟨m', cs', zz, -, -, -, rfl⟩ := stableTrajectoryNat_ok hT
    exact assembleTrajectory_zero _ _ _ _

/-- Non-vacuity of C41, with a negative spin and non-zero phases. -/
example (rs : RootScalar) :
    (mkStableOrbit rs (-9 / 10) 13 (1 / 2) (3 / 10) ⟨1, 2, 3, 4⟩ (some 10) none).Returns :=
  (C41_constructible rs _ _ _ _ _ _ _).mpr
    ⟨C11_accepts_wide _ _ _ _ _ (by norm_num [abs_lt]) (by norm_num) (by norm_num)
      (by norm_num [abs_le]) (by norm_num), by norm_num, by norm_num⟩

/-! ## C33 -/

/-- **C33 (violated).** For every plunging orbit with four real radial roots `trajectory_deltas` raises
`ValueError`: the four radial roots are passed where two polar roots are unpacked. -/
theorem C33_real_roots_fail (rs : RootScalar) (o : OrbitObj) (q : Option Phases)
    (hs : o.stable = false) (r1 r2 r3 r4 : ℝ)
    (h : plungingRadialRoots o.a o.consts.1 o.consts.2.1 o.consts.2.2 = .ok (.real r1 r2 r3 r4)) :
    (o.trajectoryDeltas rs q).IsValueError := by
  refine ⟨"unpack", ?_⟩
  unfold OrbitObj.trajectoryDeltas
  simp only [hs, Bool.false_eq_true, if_false, h, bind_ok, polarSolutions, bind_error]

/-- **C33 (complex roots).** With two complex roots `trajectory_deltas` does return four functions:
the phase-dependent parts of the plunging solutions, shifted by the initial phases. -/
theorem C33_complex_roots_return (rs : RootScalar) (o : OrbitObj) (q : Phases)
    (hs : o.stable = false) (r1 r2 : ℝ) (r3 r4 : ℂ)
    (h : plungingRadialRoots o.a o.consts.1 o.consts.2.1 o.consts.2.2 = .ok (.cplx r1 r2 r3 r4)) :
    ∃ R P D, plungingRadialSolutionsComplex o.a o.consts.1 o.consts.2.1 o.consts.2.2 = .ok R
      ∧ plungingPolarSolutions o.a o.consts.1 o.consts.2.1 o.consts.2.2 = .ok P
      ∧ o.trajectoryDeltas rs (some q) = .ok D
      ∧ (∀ u, D.dtR u = R.dt (u + q.qr)) ∧ (∀ u, D.dphiR u = R.dphi (u + q.qr))
      ∧ (∀ u, D.dtTheta u = P.dt (u + (q.qtheta + π / 2)))
      ∧ (∀ u, D.dphiTheta u = P.dphi (u + (q.qtheta + π / 2))) := by
  have hm : plungingMinoFrequencies o.a o.consts.1 o.consts.2.1 o.consts.2.2
      = .ok (plungeUpsilonRComplex o.consts.1 r1 r2 r3.re r4.im,
          plungeUpsilonThetaComplex o.a o.consts.1 o.consts.2.1 o.consts.2.2) := by
    unfold plungingMinoFrequencies; rw [h]; rfl
  have hR : plungingRadialSolutionsComplex o.a o.consts.1 o.consts.2.1 o.consts.2.2 = .ok
      (plungingRadialSolutionsCore o.a o.consts.1 o.consts.2.1 r1 r2 r3.re r4.im
        (plungeUpsilonRComplex o.consts.1 r1 r2 r3.re r4.im)) := by
    unfold plungingRadialSolutionsComplex; rw [h, bind_ok]; simp only [hm, bind_ok]; rfl
  have hP : plungingPolarSolutions o.a o.consts.1 o.consts.2.1 o.consts.2.2 = .ok
      (plungingPolarSolutionsCore o.a o.consts.1 o.consts.2.1 o.consts.2.2
        (plungeUpsilonThetaComplex o.a o.consts.1 o.consts.2.1 o.consts.2.2)) := by
    unfold plungingPolarSolutions; rw [hm]; rfl
  generalize plungingRadialSolutionsCore o.a o.consts.1 o.consts.2.1 r1 r2 r3.re r4.im
    (plungeUpsilonRComplex o.consts.1 r1 r2 r3.re r4.im) = R at hR
  generalize plungingPolarSolutionsCore o.a o.consts.1 o.consts.2.1 o.consts.2.2
    (plungeUpsilonThetaComplex o.a o.consts.1 o.consts.2.1 o.consts.2.2) = P at hP
  have hD : o.trajectoryDeltas rs (some q) = .ok (deltasOf R P q.qr (q.qtheta + π / 2)) := by
    unfold OrbitObj.trajectoryDeltas
    simp only [hs, Bool.false_eq_true, if_false, h, bind_ok, hR, hP, Option.getD_some]
    rfl
  exact ⟨R, P, _, hR, hP, hD, fun u => rfl, fun u => rfl, fun u => rfl, fun u => rfl⟩

/-- **C33 (stable).** On a stable orbit it returns the phase-dependent parts of the stable solutions. -/
theorem C33_stable_return (rs : RootScalar) (o : OrbitObj) (q : Phases) (hs : o.stable = true) :
    ∃ R P D, R = radialSolutions o.a o.consts (stableRadialRootsCore o.a o.apex.1 o.apex.2.1 o.consts)
      ∧ polarSolutions o.a o.consts [(stablePolarRootsCore o.a o.apex.2.2 o.consts).1,
          (stablePolarRootsCore o.a o.apex.2.2 o.consts).2] = .ok P
      ∧ o.trajectoryDeltas rs (some q) = .ok D
      ∧ (∀ u, D.dtR u = R.dt (u + q.qr)) ∧ (∀ u, D.dphiR u = R.dphi (u + q.qr))
      ∧ (∀ u, D.dtTheta u = P.dt (u + q.qtheta)) ∧ (∀ u, D.dphiTheta u = P.dphi (u + q.qtheta)) := by
  obtain ⟨R, hR⟩ : ∃ R, R = radialSolutions o.a o.consts
    (stableRadialRootsCore o.a o.apex.1 o.apex.2.1 o.consts) := ⟨_, rfl⟩
  obtain ⟨P, hP⟩ : ∃ P, polarSolutions o.a o.consts
    [(stablePolarRootsCore o.a o.apex.2.2 o.consts).1,
      (stablePolarRootsCore o.a o.apex.2.2 o.consts).2] = .ok P := ⟨_, rfl⟩
  have hD : o.trajectoryDeltas rs (some q) = .ok (deltasOf R P q.qr q.qtheta) := by
    unfold OrbitObj.trajectoryDeltas
    simp only [hs, if_true, stableRadialRoots, stablePolarRoots, constantsOr]
    rw [hR]
    cases Except.ok.inj hP
    rfl
  exact ⟨R, P, _, hR, hP, hD, fun u => rfl, fun u => rfl, fun u => rfl, fun u => rfl⟩

/-- **C33 (PlungingOrbit).** In particular on every `PlungingOrbit` that could be built with four real
radial roots. -/
theorem C33_plunging_orbit (rs : RootScalar) (a E L Q : ℝ) (q : Phases) (M mu : Option ℝ)
    (o : OrbitObj) (pos vel : Vec4) (r1 r2 r3 r4 : ℝ)
    (ho : mkPlungingOrbit rs a E L Q q M mu = .ok (o, pos, vel))
    (h : plungingRadialRoots a E L Q = .ok (.real r1 r2 r3 r4)) (q' : Option Phases) :
    (o.trajectoryDeltas rs q').IsValueError := by
  unfold mkPlungingOrbit at ho
  obtain ⟨-, -, ho⟩ := bind_eq_ok.mp ho
  obtain ⟨⟨uR, uT⟩, -, ho⟩ := bind_eq_ok.mp ho
  obtain ⟨U, -, ho⟩ := bind_eq_ok.mp ho
  obtain ⟨T, -, ho⟩ := bind_eq_ok.mp ho
  have ho' := Except.ok.inj ho
  simp only [Prod.mk.injEq] at ho'
  obtain ⟨rfl, -, -⟩ := ho'
  exact C33_real_roots_fail rs _ q' rfl r1 r2 r3 r4 h

lemma examplePolar : polarRootsNumpy (2 / 3) (√(35 / 38)) 0 (150 / 11)
    = .ok (1, 150 / 11 / ((2 / 3) ^ 2 * (1 - 35 / 38))) := by
  have hE : √(35 / 38) ^ 2 = (35 / 38 : ℝ) := Real.sq_sqrt (by norm_num)
  have hr : npRoots (polarPoly (2 / 3) (√(35 / 38)) 0 (150 / 11))
      = [((1 : ℝ) : ℂ), ((150 / 11 / ((2 / 3) ^ 2 * (1 - 35 / 38)) : ℝ) : ℂ)] := by
    apply npRoots_polar_real (lead := (2 / 3) ^ 2 * (1 - √(35 / 38) ^ 2))
    · rw [hE]; norm_num
    · intro z; rw [Spec.Zpol, hE]; norm_num; ring
    · norm_num
  rw [polarRootsNumpy, hr]
  simp [-Complex.ofReal_div, -Complex.ofReal_mul]

/-- Non-vacuity of C33: a `PlungingOrbit` with four real roots exists, and its deltas are unusable. -/
example (rs : RootScalar) : ∃ v, mkPlungingOrbit rs (2 / 3) (√(35 / 38)) 0 (150 / 11) = .ok v
    ∧ (v.1.trajectoryDeltas rs none).IsValueError := by
  have hT : ∀ q, ∃ T, plungingTrajectoryNat (2 / 3) (√(35 / 38)) 0 (150 / 11) q = .ok T := by
    intro q
    unfold plungingTrajectoryNat
    rw [examplePlungeReal, bind_ok]
    simp only [realPlungeTrajectoryNat, examplePolar, bind_ok]
    exact ⟨_, rfl⟩
  obtain ⟨T, hT⟩ := hT ⟨0, 0, 0, 0⟩
  have hm : ∃ u, plungingMinoFrequencies (2 / 3) (√(35 / 38)) 0 (150 / 11) = .ok u := by
    unfold plungingMinoFrequencies
    rw [examplePlungeReal, bind_ok]
    simp only [plungingMinoFrequenciesOf, examplePolar, bind_ok]
    exact ⟨_, rfl⟩
  obtain ⟨u, hm⟩ := hm
  have h : ∃ v, mkPlungingOrbit rs (2 / 3) (√(35 / 38)) 0 (150 / 11) = .ok v := by
    unfold mkPlungingOrbit
    simp only [raiseIf, show ¬ ((2:ℝ) / 3 = 0) by norm_num, if_false, hm, bind_ok,
      OrbitObj.fourVelocity, OrbitObj.trajectoryNat, Option.getD_none, Option.getD_some,
      Bool.false_eq_true, hT]
    exact ⟨_, rfl⟩
  obtain ⟨⟨o, pos, vel⟩, h⟩ := h
  exact ⟨_, h, C33_plunging_orbit rs _ _ _ _ _ _ _ o pos vel _ _ _ _ h examplePlungeReal none⟩

/-! ## C37 -/

/-- The two messages with which `Orbit` rejects the initial velocity. -/
def Spec.VelocityError (e : PyErr) : Prop :=
  e = .valueError "Initial velocity is not timelike" ∨
  e = .valueError "Initial velocity is not normalized"

/-- A computation that never raises one of them. -/
def Clean {α : Type} (x : Py α) : Prop := ∀ e, x = .error e → ¬ Spec.VelocityError e

lemma clean_ok {α : Type} (v : α) : Clean (.ok v : Py α) := by intro e h; cases h

lemma clean_pure {α : Type} (v : α) : Clean (pure v : Py α) := clean_ok v

lemma clean_error {α : Type} {e : PyErr} (h : ¬ Spec.VelocityError e) :
    Clean (.error e : Py α) := by intro e' h'; cases h'; exact h

lemma clean_bind {α β : Type} {x : Py α} {f : α → Py β} (hx : Clean x) (hf : ∀ v, Clean (f v)) :
    Clean (x >>= f) := by
  cases x with
  | error e => exact clean_error (hx e rfl)
  | ok v => exact hf v

lemma clean_raiseIf {c : Prop} {e : PyErr} (h : ¬ Spec.VelocityError e) : Clean (raiseIf c e) := by
  unfold raiseIf; split_ifs
  · exact clean_error h
  · exact clean_ok _

lemma clean_separatrix (rs : RootScalar) (a e x : ℝ) : Clean (separatrix rs a e x) := by
  by_cases h1 : a = 1
  · unfold separatrix raiseIf
    simp only [h1, if_true, bind_error]
    exact clean_error (by simp [Spec.VelocityError, errExtreme])
  · by_cases hv : validParams a e x
    · obtain ⟨s, hs, -⟩ := C15_separatrix_returns rs a e x hv.1.1 (lt_of_le_of_ne hv.1.2 h1)
        hv.2.1.1 hv.2.1.2 hv.2.2.1 hv.2.2.2
      rw [hs]; exact clean_ok _
    · unfold separatrix raiseIf
      simp only [h1, hv, not_false_eq_true, if_true, if_false, bind_error, bind_ok]
      exact clean_error (by simp [Spec.VelocityError, errParams])

lemma clean_constantsGuard (rs : RootScalar) (a p e x : ℝ) : Clean (constantsGuard rs a p e x) := by
  unfold constantsGuard
  refine clean_bind (clean_raiseIf (by simp [Spec.VelocityError, errExtreme])) fun _ => ?_
  refine clean_bind (clean_raiseIf (by simp [Spec.VelocityError, errParams])) fun _ => ?_
  rw [isStable_eq]
  refine clean_bind (clean_bind (clean_separatrix _ _ _ _) fun _ => clean_ok _) fun _ => ?_
  exact clean_raiseIf (by simp [Spec.VelocityError, errUnstable])

lemma clean_frequencyGuard (rs : RootScalar) (a p e x : ℝ) : Clean (frequencyGuard rs a p e x) := by
  unfold frequencyGuard
  refine clean_bind (clean_raiseIf (by simp [Spec.VelocityError, errExtreme])) fun _ => ?_
  refine clean_bind (clean_raiseIf (by simp [Spec.VelocityError])) fun _ => ?_
  refine clean_bind (clean_raiseIf (by simp [Spec.VelocityError])) fun _ => ?_
  refine clean_bind (clean_raiseIf (by simp [Spec.VelocityError, errParams])) fun _ => ?_
  rw [isStable_eq]
  refine clean_bind (clean_bind (clean_separatrix _ _ _ _) fun _ => clean_ok _) fun _ => ?_
  exact clean_raiseIf (by simp [Spec.VelocityError, errUnstable])

lemma clean_minoGuard (rs : RootScalar) (a p e x : ℝ) : Clean (minoGuard rs a p e x) :=
  clean_bind (clean_constantsGuard _ _ _ _ _) fun _ => clean_frequencyGuard _ _ _ _ _

lemma clean_polarRootsNumpy (a E L Q : ℝ) : Clean (polarRootsNumpy a E L Q) := by
  unfold polarRootsNumpy
  dsimp only
  split_ifs
  · split
    · exact clean_error (by simp [Spec.VelocityError])
    · split_ifs
      · exact clean_ok _
      · exact clean_error (by simp [Spec.VelocityError])
  · split
    · split_ifs
      · exact clean_ok _
      · exact clean_error (by simp [Spec.VelocityError])
    · exact clean_error (by simp [Spec.VelocityError])

lemma clean_radialRootsNumpy (a E L Q : ℝ) : Clean (radialRootsNumpy a E L Q) := by
  unfold radialRootsNumpy
  split
  · split_ifs
    · exact clean_ok _
    · exact clean_error (by simp [Spec.VelocityError])
  · exact clean_error (by simp [Spec.VelocityError])

lemma clean_plungingRadialRoots (a E L Q : ℝ) : Clean (plungingRadialRoots a E L Q) := by
  unfold plungingRadialRoots labelPlungeRoots
  dsimp only
  split
  · split_ifs <;> exact clean_ok _
  · split
    · exact clean_ok _
    · exact clean_error (by simp [Spec.VelocityError])
  · exact clean_error (by simp [Spec.VelocityError])

lemma clean_plungingMinoFrequencies (a E L Q : ℝ) : Clean (plungingMinoFrequencies a E L Q) := by
  unfold plungingMinoFrequencies
  refine clean_bind (clean_plungingRadialRoots _ _ _ _) fun pr => ?_
  cases pr with
  | cplx r1 r2 r3 r4 => exact clean_ok _
  | real r1 r2 r3 r4 =>
    exact clean_bind (clean_polarRootsNumpy _ _ _ _) fun _ => clean_pure _

lemma clean_ic (a : ℝ) (pos vel : Vec4) : Clean (constantsFromInitialConditions a pos vel) := by
  unfold constantsFromInitialConditions linalgSolve2
  refine clean_bind ?_ fun _ => clean_pure _
  dsimp only
  split_ifs
  · exact clean_error (by simp [Spec.VelocityError])
  · exact clean_ok _

lemma clean_icOr (a : ℝ) (pos vel : Vec4) (cs : Option Consts) :
    Clean (icConstantsOr a pos vel cs) := by
  cases cs with
  | none => exact clean_ic a pos vel
  | some cs => exact clean_pure _

lemma clean_stableOrbitInitialPhases (a : ℝ) (pos vel : Vec4) (cs : Option Consts)
    (rr : Option Roots4) (uR uT : Option ℝ) (tol : ℝ) :
    Clean (stableOrbitInitialPhases a pos vel cs rr uR uT tol) := by
  unfold stableOrbitInitialPhases
  refine clean_bind (clean_icOr _ _ _ _) fun _ => ?_
  refine clean_bind (clean_polarRootsNumpy _ _ _ _) fun _ => ?_
  cases rr with
  | none =>
    exact clean_bind (clean_radialRootsNumpy _ _ _ _) fun _ =>
      clean_bind (clean_pure _) fun _ => clean_pure _
  | some rr => exact clean_bind (clean_pure _) fun _ => clean_pure _

lemma clean_plungingOrbitInitialPhases (a : ℝ) (pos vel : Vec4) (cs : Option Consts) (tol : ℝ) :
    Clean (plungingOrbitInitialPhases a pos vel cs tol) := by
  unfold plungingOrbitInitialPhases
  refine clean_bind (clean_icOr _ _ _ _) fun c => ?_
  refine clean_bind (clean_plungingRadialRoots _ _ _ _) fun pr => ?_
  cases pr with
  | cplx r1 r2 r3 r4 =>
    exact clean_bind (clean_plungingMinoFrequencies _ _ _ _) fun _ => clean_pure _
  | real r1 r2 r3 r4 => exact clean_stableOrbitInitialPhases _ _ _ _ _ _ _ _

lemma clean_icIsStable (a : ℝ) (pos vel : Vec4) (cs : Option Consts) (tol : ℝ) :
    Clean (icIsStable a pos vel cs tol) := by
  unfold icIsStable
  refine clean_bind (clean_icOr _ _ _ _) fun c => ?_
  unfold classifyRoots
  dsimp only
  split_ifs
  · exact clean_error (by simp [Spec.VelocityError])
  · exact clean_ok _
  · split
    · split_ifs
      · exact clean_ok _
      · exact clean_ok _
      · exact clean_ok _
      · exact clean_error (by simp [Spec.VelocityError])
    · exact clean_error (by simp [Spec.VelocityError])

lemma clean_apex (a E L Q : ℝ) : Clean (apexFromConstants a E L Q) := by
  unfold apexFromConstants
  refine clean_bind (clean_radialRootsNumpy _ _ _ _) fun _ => ?_
  exact clean_bind (clean_polarRootsNumpy _ _ _ _) fun _ => clean_pure _

/-- `Orbit.__init__` after the check of the velocity. -/
lemma mkOrbit_split (rs : RootScalar) (a : ℝ) (pos vel : Vec4) (M mu : Option ℝ) :
    ∃ rest : Py OrbitObj, Clean rest ∧
      mkOrbit rs a pos vel M mu = (orbitNormGuard a pos vel >>= fun _ => rest) := by
  refine ⟨_, ?_, rfl⟩
  refine clean_bind (clean_ic _ _ _) fun c => ?_
  refine clean_bind (clean_icIsStable _ _ _ _ _) fun st => ?_
  split_ifs
  · refine clean_bind (clean_apex _ _ _ _) fun _ => ?_
    refine clean_bind ?_ fun _ => ?_
    · rw [minoFrequencies_eq]; exact clean_bind (clean_minoGuard _ _ _ _ _) fun _ => clean_ok _
    refine clean_bind ?_ fun _ => ?_
    · rw [fundamentalFrequencies_eq]
      exact clean_bind (clean_minoGuard _ _ _ _ _) fun _ => clean_ok _
    exact clean_bind (clean_stableOrbitInitialPhases _ _ _ _ _ _ _ _) fun _ => clean_pure _
  · refine clean_bind (clean_raiseIf (by simp [Spec.VelocityError])) fun _ => ?_
    refine clean_bind (clean_plungingMinoFrequencies _ _ _ _) fun _ => ?_
    exact clean_bind (clean_plungingOrbitInitialPhases _ _ _ _ _) fun _ => clean_pure _

/-- **C37.** `Orbit(a, position, velocity)` raises "not timelike" exactly when the velocity returned by
`KerrSpacetime.norm` is non-negative, "not normalized" exactly when it is negative but more than `1e-6`
away from `-1`, and whenever it builds an object the velocity has passed both tests. -/
theorem C37_validation (rs : RootScalar) (a : ℝ) (pos vel : Vec4) (M mu : Option ℝ) :
    let N := norm4 a pos.t pos.r pos.theta pos.phi vel
    (mkOrbit rs a pos vel M mu = .error (.valueError "Initial velocity is not timelike") ↔ 0 ≤ N)
    ∧ (mkOrbit rs a pos vel M mu = .error (.valueError "Initial velocity is not normalized")
        ↔ N < 0 ∧ 1e-6 < |N + 1|)
    ∧ ((mkOrbit rs a pos vel M mu).Returns → N < 0 ∧ |N + 1| ≤ 1e-6) := by
  intro N
  obtain ⟨rest, hc, h⟩ := mkOrbit_split rs a pos vel M mu
  have hc1 : rest ≠ .error (.valueError "Initial velocity is not timelike") :=
    fun h => hc _ h (.inl rfl)
  have hc2 : rest ≠ .error (.valueError "Initial velocity is not normalized") :=
    fun h => hc _ h (.inr rfl)
  by_cases h1 : 0 ≤ N
  · have hg : orbitNormGuard a pos vel
        = .error (.valueError "Initial velocity is not timelike") := by
      unfold orbitNormGuard raiseIf
      dsimp only
      rw [if_pos h1, bind_error]
    rw [h, hg, bind_error]
    refine ⟨iff_of_true rfl h1, iff_of_false (by simp) fun h => absurd h.1 (not_lt.mpr h1), ?_⟩
    rintro ⟨v, hv⟩; cases hv
  · by_cases h2 : 1e-6 < |N + 1|
    · have hg : orbitNormGuard a pos vel
          = .error (.valueError "Initial velocity is not normalized") := by
        unfold orbitNormGuard raiseIf
        dsimp only
        rw [if_neg h1, bind_ok, if_pos h2]
      rw [h, hg, bind_error]
      refine ⟨iff_of_false (by simp) h1, iff_of_true rfl ⟨not_le.mp h1, h2⟩, ?_⟩
      rintro ⟨v, hv⟩; cases hv
    · have hg : orbitNormGuard a pos vel = .ok () := by
        unfold orbitNormGuard raiseIf
        dsimp only
        rw [if_neg h1, bind_ok, if_neg h2]
      rw [h, hg, bind_ok]
      exact ⟨iff_of_false hc1 h1, iff_of_false hc2 fun h => h2 h.2,
        fun _ => ⟨not_le.mp h1, not_lt.mp h2⟩⟩

/-- **C37.** Schwarzschild plunges are rejected by `PlungingOrbit` whatever the constants, and `Orbit`
never builds a plunging object for `a = 0`. -/
theorem C37_schwarzschild (rs : RootScalar) (M mu : Option ℝ) :
    (∀ E L Q q, mkPlungingOrbit rs 0 E L Q q M mu
      = .error (.valueError "Schwarzschild plunges are not currently supported"))
    ∧ ∀ pos vel o, mkOrbit rs 0 pos vel M mu = .ok o → o.stable = true := by
  constructor
  · intro E L Q q
    unfold mkPlungingOrbit raiseIf
    simp only [if_true, bind_error]
  · intro pos vel o h
    unfold mkOrbit at h
    obtain ⟨-, -, h⟩ := bind_eq_ok.mp h
    obtain ⟨c, -, h⟩ := bind_eq_ok.mp h
    obtain ⟨st, -, h⟩ := bind_eq_ok.mp h
    dsimp only at h
    split_ifs at h with hst
    · obtain ⟨_, -, h⟩ := bind_eq_ok.mp h
      obtain ⟨_, -, h⟩ := bind_eq_ok.mp h
      obtain ⟨_, -, h⟩ := bind_eq_ok.mp h
      obtain ⟨_, -, h⟩ := bind_eq_ok.mp h
      cases Except.ok.inj h
      rfl
    · simp only [raiseIf, if_true, bind_error] at h
      cases h

end KGP
