import Verif.Model.InitialConditions

/-!
# kerrgeopy/orbit.py, and the classes of stable.py and plunge.py
-/

namespace KGP

open Classical Real

/-- The class of an orbit object: `Orbit`, `StableOrbit` or `PlungingOrbit`. -/
inductive OrbitClass where
  | orbit
  | stableOrbit
  | plungingOrbit
  deriving DecidableEq

/-- Attributes of an orbit object.  `apex = some (p, e, x)` and `freqs`, `omegas` are only set on
stable orbits. -/
structure OrbitObj where
  cls : OrbitClass
  a : ℝ
  stable : Bool
  apex : ℝ × ℝ × ℝ
  consts : Consts
  upsilonR : ℝ
  upsilonTheta : ℝ
  upsilonPhi : ℝ
  gamma : ℝ
  omega : ℝ × ℝ × ℝ
  phases : Phases
  M : Option ℝ
  mu : Option ℝ

/-- orbit.py:71-76: validation of the initial velocity. -/
noncomputable def orbitNormGuard (a : ℝ) (pos vel : Vec4) : Py Unit := do
  let initialNorm := norm4 a pos.t pos.r pos.theta pos.phi vel
  raiseIf (initialNorm ≥ 0) (.valueError "Initial velocity is not timelike")
  raiseIf (|initialNorm + 1| > 1e-6) (.valueError "Initial velocity is not normalized")

/-- orbit.py:61-106 (`Orbit.__init__`).  The attributes `initial_position`, `initial_velocity` are
the arguments.  On plunging orbits the unset attributes hold `pyNan`. -/
noncomputable def mkOrbit (rs : RootScalar) (a : ℝ) (pos vel : Vec4) (M mu : Option ℝ := none) :
    Py OrbitObj := do
  orbitNormGuard a pos vel
  let (E, L, Q) ← constantsFromInitialConditions a pos vel
  let st ← icIsStable a pos vel
  if st = true then
    let (a, p, e, x) ← apexFromConstants a E L Q
    let m ← minoFrequencies rs a p e x
    let om ← fundamentalFrequencies rs a p e x
    let q ← stableOrbitInitialPhases a pos vel
    return { cls := .orbit, a := a, stable := true, apex := (p, e, x), consts := (E, L, Q)
             upsilonR := m.upsilonR, upsilonTheta := m.upsilonTheta, upsilonPhi := m.upsilonPhi
             gamma := m.gamma, omega := om, phases := q, M := M, mu := mu }
  else do
    raiseIf (a = 0) (.valueError "Schwarzschild plunges are not currently supported")
    let (uR, uTheta) ← plungingMinoFrequencies a E L Q
    let q ← plungingOrbitInitialPhases a pos vel
    return { cls := .orbit, a := a, stable := false, apex := (pyNan, pyNan, pyNan)
             consts := (E, L, Q), upsilonR := uR, upsilonTheta := uTheta, upsilonPhi := pyNan
             gamma := pyNan, omega := (pyNan, pyNan, pyNan), phases := q, M := M, mu := mu }

/-- orbit.py:170-222, stable.py:241-269, plunge.py:121-147 (`trajectory`) in natural units. -/
noncomputable def OrbitObj.trajectoryNat (rs : RootScalar) (o : OrbitObj)
    (initialPhases : Option Phases := none) : Py Traj :=
  let q := initialPhases.getD o.phases
  let (p, e, x) := o.apex
  let (E, L, Q) := o.consts
  if o.stable then stableTrajectoryNat rs o.a p e x q
  else plungingTrajectoryNat o.a E L Q q

/-- orbit.py:170-222, stable.py:241-269, plunge.py:121-147 (`trajectory`). -/
noncomputable def OrbitObj.trajectory (rs : RootScalar) (o : OrbitObj)
    (initialPhases : Option Phases := none) (distanceUnits : String := "natural")
    (timeUnits : String := "natural") : Py TrajPy :=
  let q := initialPhases.getD o.phases
  let (p, e, x) := o.apex
  let (E, L, Q) := o.consts
  if o.stable then stableTrajectory rs o.a p e x q o.M distanceUnits timeUnits
  else plungingTrajectory o.a E L Q q o.M distanceUnits timeUnits

/-- orbit.py:267-298 (`four_velocity`) -/
noncomputable def OrbitObj.fourVelocity (rs : RootScalar) (o : OrbitObj)
    (initialPhases : Option Phases := none) : Py Traj := do
  let q := initialPhases.getD o.phases
  let T ← o.trajectoryNat rs (some q)
  return KGP.fourVelocity o.a T o.consts o.upsilonR o.upsilonTheta q

/-- A tuple of four functions evaluated at one Mino time. -/
def Traj.at (T : Traj) (lam : ℝ) : Vec4 := ⟨T.t lam, T.r lam, T.theta lam, T.phi lam⟩

/-- orbit.py:300-327 (`_four_velocity_norm`) -/
noncomputable def OrbitObj.fourVelocityNorm (rs : RootScalar) (o : OrbitObj)
    (initialPhases : Option Phases := none) : Py (ℝ → ℝ) := do
  let q := initialPhases.getD o.phases
  let T ← o.trajectoryNat rs (some q)
  let U ← o.fourVelocity rs (some q)
  return fun time => norm4 o.a (T.t time) (T.r time) (T.theta time) (T.phi time) (U.at time)

/-- orbit.py:383-388: the five-point stencil divided by `Sigma`. -/
noncomputable def fivePoint (f : ℝ → ℝ) (sigma : ℝ → ℝ) (dx : ℝ) (lam : ℝ) : ℝ :=
  (-f (lam + 2 * dx) + 8 * f (lam + dx) - 8 * f (lam - dx) + f (lam - 2 * dx))
    / (12 * dx * sigma lam)

/-- orbit.py:358-417 for a given natural-units trajectory. -/
noncomputable def numericalFourVelocityOf (a : ℝ) (T : Traj) (dx : ℝ) : Traj :=
  let sigma := fun lam => T.r lam ^ 2 + a ^ 2 * cos (T.theta lam) ^ 2
  { t := fivePoint T.t sigma dx
    r := fivePoint T.r sigma dx
    theta := fivePoint T.theta sigma dx
    phi := fivePoint T.phi sigma dx }

/-- orbit.py:358-417 (`numerical_four_velocity`) -/
noncomputable def OrbitObj.numericalFourVelocity (rs : RootScalar) (o : OrbitObj)
    (dx : ℝ := 1e-6) (initialPhases : Option Phases := none) : Py Traj := do
  let q := initialPhases.getD o.phases
  let T ← o.trajectoryNat rs (some q)
  return numericalFourVelocityOf o.a T dx

/-- orbit.py:224-265 (`constants_of_motion`) -/
noncomputable def OrbitObj.constantsOfMotion (o : OrbitObj) (units : String := "natural") :
    Py Consts :=
  if units = "natural" then .ok o.consts
  else
    match o.M, o.mu with
    | some M, some mu =>
      if units = "mks" then
        let c := scaleConstants o.consts 1 (mu / M)
        .ok (Units.energyInJoules c.1 M, Units.angularMomentumInMks c.2.1 M,
          Units.carterConstantInMks c.2.2 M)
      else if units = "cgs" then
        let c := scaleConstants o.consts 1 (mu / M)
        .ok (Units.energyInErgs c.1 M, Units.angularMomentumInCgs c.2.1 M,
          Units.carterConstantInCgs c.2.2 M)
      else .error (.valueError "units must be one of 'natural', 'mks', or 'cgs'")
    | _, _ => .error (.valueError
        "M and mu must be specified to convert constants of motion to physical units")

/-- The four functions returned by `trajectory_deltas`. -/
structure Deltas where
  dtR : ℝ → ℝ
  dtTheta : ℝ → ℝ
  dphiR : ℝ → ℝ
  dphiTheta : ℝ → ℝ

/-- orbit.py:163-168 (also stable.py:234-239, plunge.py:114-119) -/
def deltasOf (R P : PhaseSols) (qr0 qtheta0 : ℝ) : Deltas :=
  { dtR := fun q => R.dt (q + qr0)
    dtTheta := fun q => P.dt (q + qtheta0)
    dphiR := fun q => R.dphi (q + qr0)
    dphiTheta := fun q => P.dphi (q + qtheta0) }

/-- orbit.py:108-168, stable.py:208-239, plunge.py:83-119 (`trajectory_deltas`; the override of
`StableOrbit` is the stable branch, the one of `PlungingOrbit` the plunging branch).  In the
real-root plunging branch `polar_solutions` is called with the four *radial* roots
(orbit.py:159-161, plunge.py:112). -/
noncomputable def OrbitObj.trajectoryDeltas (rs : RootScalar) (o : OrbitObj)
    (initialPhases : Option Phases := none) : Py Deltas := do
  let q := initialPhases.getD o.phases
  let (p, e, x) := o.apex
  let (E, L, Q) := o.consts
  if o.stable then
    let rr ← stableRadialRoots rs o.a p e x (some o.consts)
    let (zMinus, zPlus) ← stablePolarRoots rs o.a p e x (some o.consts)
    let R := radialSolutions o.a o.consts rr
    let P ← polarSolutions o.a o.consts [zMinus, zPlus]
    return deltasOf R P q.qr q.qtheta
  else
    let pr ← plungingRadialRoots o.a E L Q
    match pr with
    | .cplx _ _ _ _ => do
      let R ← plungingRadialSolutionsComplex o.a E L Q
      let P ← plungingPolarSolutions o.a E L Q
      return deltasOf R P q.qr (q.qtheta + π / 2)
    | .real r1 r2 r3 r4 => do
      let R := radialSolutions o.a o.consts (r1, r2, r3, r4)
      let P ← polarSolutions o.a o.consts [r1, r2, r3, r4]
      return deltasOf R P q.qr q.qtheta

/-- stable.py:78-101 (`StableOrbit.__init__`): the object together with the attributes
`initial_position` and `initial_velocity`. -/
noncomputable def mkStableOrbit (rs : RootScalar) (a p e x : ℝ) (q : Phases := ⟨0, 0, 0, 0⟩)
    (M mu : Option ℝ := none) : Py (OrbitObj × Vec4 × Vec4) := do
  let (a, x) := standardizeParams a x
  let cs ← KGP.constantsOfMotion rs a p e x
  let m ← minoFrequencies rs a p e x
  let om ← fundamentalFrequencies rs a p e x
  let o : OrbitObj :=
    { cls := .stableOrbit, a := a, stable := true, apex := (p, e, x), consts := cs
      upsilonR := m.upsilonR, upsilonTheta := m.upsilonTheta, upsilonPhi := m.upsilonPhi
      gamma := m.gamma, omega := om, phases := q, M := M, mu := mu }
  let U ← o.fourVelocity rs
  let T ← o.trajectoryNat rs
  return (o, T.at 0, U.at 0)

/-- stable.py:103-124 (`StableOrbit.from_constants`) -/
noncomputable def stableOrbitFromConstants (rs : RootScalar) (a E L Q : ℝ)
    (q : Phases := ⟨0, 0, 0, 0⟩) (M mu : Option ℝ := none) : Py (OrbitObj × Vec4 × Vec4) := do
  let (a, p, e, x) ← apexFromConstants a E L Q
  mkStableOrbit rs a p e x q M mu

/-- plunge.py:61-81 (`PlungingOrbit.__init__`) -/
noncomputable def mkPlungingOrbit (rs : RootScalar) (a E L Q : ℝ) (q : Phases := ⟨0, 0, 0, 0⟩)
    (M mu : Option ℝ := none) : Py (OrbitObj × Vec4 × Vec4) := do
  raiseIf (a = 0) (.valueError "Schwarzschild plunges are not currently supported")
  let (uR, uTheta) ← plungingMinoFrequencies a E L Q
  let o : OrbitObj :=
    { cls := .plungingOrbit, a := a, stable := false, apex := (pyNan, pyNan, pyNan)
      consts := (E, L, Q), upsilonR := uR, upsilonTheta := uTheta, upsilonPhi := pyNan
      gamma := pyNan, omega := (pyNan, pyNan, pyNan), phases := q, M := M, mu := mu }
  let U ← o.fourVelocity rs
  let T ← o.trajectoryNat rs
  return (o, T.at 0, U.at 0)

/-- stable.py:126-163 (`StableOrbit.mino_frequencies`) -/
noncomputable def OrbitObj.minoFrequencies (o : OrbitObj) (units : String := "natural") :
    Py MinoFreqs :=
  if units = "natural" then .ok ⟨o.upsilonR, o.upsilonTheta, o.upsilonPhi, o.gamma⟩
  else
    match o.M with
    | none => .error (.valueError
        "M must be specified to convert frequencies to physical units")
    | some M =>
      if units = "mks" ∨ units = "cgs" then
        .ok ⟨Units.timeInSeconds o.upsilonR M, Units.timeInSeconds o.upsilonTheta M,
          Units.timeInSeconds o.upsilonPhi M, Units.time2InSeconds2 o.gamma M⟩
      else .error (.valueError "units must be one of 'natural', 'mks', or 'cgs'")

/-- stable.py:165-206 (`StableOrbit.fundamental_frequencies`) -/
noncomputable def OrbitObj.fundamentalFrequencies (o : OrbitObj) (units : String := "natural") :
    Py (ℝ × ℝ × ℝ) :=
  if units = "natural" then
    .ok (o.upsilonR / o.gamma, o.upsilonTheta / o.gamma, o.upsilonPhi / o.gamma)
  else
    match o.M with
    | none => .error (.valueError
        "M must be specified to convert frequencies to physical units")
    | some M =>
      if units = "mks" ∨ units = "cgs" then
        .ok (Units.frequencyInHz (o.upsilonR / o.gamma) M,
          Units.frequencyInHz (o.upsilonTheta / o.gamma) M,
          Units.frequencyInHz (o.upsilonPhi / o.gamma) M)
      else if units = "mHz" then
        .ok (Units.frequencyInMHz (o.upsilonR / o.gamma) M,
          Units.frequencyInMHz (o.upsilonTheta / o.gamma) M,
          Units.frequencyInMHz (o.upsilonPhi / o.gamma) M)
      else .error (.valueError "units must be one of 'natural', 'mks', 'cgs', or 'mHz'")

/-! ### Plotting helpers -/

/-- A cartesian point. -/
structure Pt where
  x : ℝ
  y : ℝ
  z : ℝ

/-- `np.dot` of two cartesian vectors -/
def Pt.dot (u v : Pt) : ℝ := u.x * v.x + u.y * v.y + u.z * v.z

/-- orbit.py:567-576: the normal of the viewing plane (angles in degrees). -/
noncomputable def viewNormal (elevation azimuth : ℝ) : Pt :=
  let el := elevation * π / 180
  let az := azimuth * π / 180
  ⟨cos el * cos az, cos el * sin az, sin el⟩

/-- orbit.py:579-583: one row of `projection`. -/
def projectPt (n p : Pt) : Pt :=
  ⟨p.x - p.dot n * n.x, p.y - p.dot n * n.y, p.z - p.dot n * n.z⟩

/-- `np.linalg.norm(points)` without `axis`: the Frobenius norm of the whole array
(orbit.py:588). -/
noncomputable def frobenius (pts : List Pt) : ℝ := √((pts.map fun p => p.dot p).sum)

/-- orbit.py:544-588 (`is_visible`): one Boolean per point. -/
noncomputable def isVisible (a : ℝ) (pts : List Pt) (elevation azimuth : ℝ) : List Prop :=
  let eventHorizon := 1 + √(1 - a ^ 2)
  let n := viewNormal elevation azimuth
  pts.map fun p =>
    (p.dot n ≥ 0 ∨ √((projectPt n p).dot (projectPt n p)) > eventHorizon)
      ∧ frobenius pts > eventHorizon

/-- Integer bookkeeping of `animate`, orbit.py:665-670 and 796-797.  `tailLength` is an integer
(the default 5); a fractional tail length makes the slice `[j0:j]` fail in Python. -/
noncomputable def animNumPts (lambda0 lambda1 : ℝ) : ℤ := pyInt ((lambda1 - lambda0) * 240)
/-- orbit.py:669 -/
noncomputable def animSpeedMultiplier (speed : ℝ) : ℤ := pyInt (speed * 8)
/-- orbit.py:670.  `num_pts / 0` raises `ZeroDivisionError`. -/
noncomputable def animNumFrames (lambda0 lambda1 speed : ℝ) : Py ℤ :=
  if animSpeedMultiplier speed = 0 then .error .zeroDivision
  else .ok (pyInt ((animNumPts lambda0 lambda1 : ℝ) / (animSpeedMultiplier speed : ℝ)))
/-- orbit.py:796 -/
noncomputable def animIndex (speed : ℝ) (i : ℤ) : ℤ := animSpeedMultiplier speed * i
/-- orbit.py:797 -/
noncomputable def animTailStart (speed : ℝ) (tailLength : ℤ) (i : ℤ) : ℤ :=
  max 0 (animIndex speed i - tailLength * 240)

/-- Length of the numpy slice `arr[-k:]` of an array of length `n` (`k ≥ 0`): `arr[-0:]` is the whole
array. -/
def negSliceLen (n k : ℤ) : ℤ := if k = 0 then n else min k n

/-- orbit.py:845: number of entries of `decay[-(j - j0):]`, the alpha values of the tail. -/
noncomputable def animAlphaLen (lambda0 lambda1 speed : ℝ) (tailLength : ℤ) (i : ℤ) : ℤ :=
  negSliceLen (animNumPts lambda0 lambda1) (animIndex speed i - animTailStart speed tailLength i)

/-- orbit.py:668 (also 472): `time[j]`. -/
noncomputable def animTime (lambda0 lambda1 : ℝ) (j : ℤ) : ℝ :=
  linspace lambda0 lambda1 (animNumPts lambda0 lambda1).toNat j.toNat

/-- orbit.py:477-480 (also 717-720): one row of `trajectory`. -/
noncomputable def cartesian (T : Traj) (lam : ℝ) : Pt :=
  ⟨T.r lam * sin (T.theta lam) * cos (T.phi lam), T.r lam * sin (T.theta lam) * sin (T.phi lam),
    T.r lam * cos (T.theta lam)⟩

end KGP
