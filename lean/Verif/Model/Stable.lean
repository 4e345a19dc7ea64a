import Verif.Model.Frequencies
import Verif.Model.Spacetime

/-!
# kerrgeopy/stable.py (functions; the class `StableOrbit` is in `Verif.Model.Orbit`)
-/

namespace KGP

open Classical Real

/-- `(r, t_r, phi_r)` or `(theta, t_theta, phi_theta)`: functions of a phase. -/
structure PhaseSols where
  pos : ℝ → ℝ
  dt : ℝ → ℝ
  dphi : ℝ → ℝ

/-- stable.py:272-385 -/
noncomputable def radialSolutions (a : ℝ) (cs : Consts) (rr : Roots4) : PhaseSols :=
  let (E, L, _Q) := cs
  let (r1, r2, r3, r4) := rr
  let rPlus := 1 + √(1 - a ^ 2)
  let rMinus := 1 - √(1 - a ^ 2)
  let hR := (r1 - r2) / (r1 - r3)
  let hPlus := (r1 - r2) * (r3 - rPlus) / ((r1 - r3) * (r2 - rPlus))
  let hMinus := (r1 - r2) * (r3 - rMinus) / ((r1 - r3) * (r2 - rMinus))
  let k := √((r1 - r2) * (r3 - r4) / ((r1 - r3) * (r2 - r4)))
  { pos := fun q =>
      let uR := ellipk (k ^ 2) * q / π
      let J := ellipj uR (k ^ 2)
      (r3 * (r1 - r2) * J.sn ^ 2 - r2 * (r1 - r3)) / ((r1 - r2) * J.sn ^ 2 - (r1 - r3))
    dt := fun q =>
      let uR := ellipk (k ^ 2) * q / π
      let J := ellipj uR (k ^ 2)
      2 / √((1 - E ^ 2) * (r1 - r3) * (r2 - r4))
        * (E / 2
            * ((r2 - r3) * (r1 + r2 + r3 + r4)
                * (ellippiincK J.ph hR (k ^ 2) - q / π * ellippiK hR (k ^ 2))
              + (r1 - r3) * (r2 - r4)
                * (ellipeincK J.ph (k ^ 2)
                  + hR * J.sn * J.cn * √(1 - k ^ 2 * J.sn ^ 2) / (hR * J.sn ^ 2 - 1)
                  - q / π * ellipe (k ^ 2)))
          + 2 * E * (r2 - r3) * (ellippiincK J.ph hR (k ^ 2) - q / π * ellippiK hR (k ^ 2))
          - 2 / (rPlus - rMinus)
            * (((4 * E - a * L) * rPlus - 2 * a ^ 2 * E) * (r2 - r3)
                / ((r3 - rPlus) * (r2 - rPlus))
                * (ellippiincK J.ph hPlus (k ^ 2) - q / π * ellippiK hPlus (k ^ 2))
              - ((4 * E - a * L) * rMinus - 2 * a ^ 2 * E) * (r2 - r3)
                / ((r3 - rMinus) * (r2 - rMinus))
                * (ellippiincK J.ph hMinus (k ^ 2) - q / π * ellippiK hMinus (k ^ 2))))
    dphi := fun q =>
      let uR := ellipk (k ^ 2) * q / π
      let J := ellipj uR (k ^ 2)
      (-2) * a / ((rPlus - rMinus) * √((1 - E ^ 2) * (r1 - r3) * (r2 - r4)))
        * ((2 * E * rPlus - a * L) * (r2 - r3) / ((r3 - rPlus) * (r2 - rPlus))
            * (ellippiincK J.ph hPlus (k ^ 2) - q / π * ellippiK hPlus (k ^ 2))
          - (2 * E * rMinus - a * L) * (r2 - r3) / ((r3 - rMinus) * (r2 - rMinus))
            * (ellippiincK J.ph hMinus (k ^ 2) - q / π * ellippiK hMinus (k ^ 2))) }

/-- stable.py:410-461: `polar_solutions` after `z_minus, z_plus = polar_roots`. -/
noncomputable def polarSolutionsCore (a : ℝ) (cs : Consts) (zMinus zPlus : ℝ) : PhaseSols :=
  let (E, L, _Q) := cs
  let e0zp := e0zpOf a E L zMinus
  let a2s := a2sqrtZpOverE0 a E L zMinus zPlus
  let k := kThetaOf a zMinus zPlus
  { pos := fun q =>
      let u := 2 / π * ellipk (k ^ 2) * (q + π / 2)
      arccos (√zMinus * (ellipj u (k ^ 2)).sn)
    dt := fun q =>
      let u := 2 / π * ellipk (k ^ 2) * (q + π / 2)
      Real.sign L * a2s * E / L
        * (2 / π * ellipe (k ^ 2) * (q + π / 2) - ellipeincK (ellipj u (k ^ 2)).ph (k ^ 2))
    dphi := fun q =>
      let u := 2 / π * ellipk (k ^ 2) * (q + π / 2)
      Real.sign L * 1 / √e0zp
        * (ellippiincK (ellipj u (k ^ 2)).ph zMinus (k ^ 2)
          - 2 / π * ellippiK zMinus (k ^ 2) * (q + π / 2)) }

/-- stable.py:388-461.  The argument is a Python sequence; unpacking it into two variables raises
`ValueError` unless it has exactly two entries. -/
noncomputable def polarSolutions (a : ℝ) (cs : Consts) (polarRoots : List ℝ) : Py PhaseSols :=
  match polarRoots with
  | [zMinus, zPlus] => .ok (polarSolutionsCore a cs zMinus zPlus)
  | _ => .error (.valueError "unpack")

/-- stable.py:526-557 (also plunge.py:682-711): assembling a trajectory from the phase solutions and
the frequencies, in natural units. -/
noncomputable def assembleTrajectory (R P : PhaseSols) (m : MinoFreqs) (q : Phases) : Traj :=
  let Ct := R.dt q.qr + P.dt q.qtheta
  let Cphi := R.dphi q.qr + P.dphi q.qtheta
  { t := fun lam => q.qt + m.gamma * lam + R.dt (m.upsilonR * lam + q.qr)
      + P.dt (m.upsilonTheta * lam + q.qtheta) - Ct
    r := fun lam => R.pos (m.upsilonR * lam + q.qr)
    theta := fun lam => P.pos (m.upsilonTheta * lam + q.qtheta)
    phi := fun lam => q.qphi + m.upsilonPhi * lam + R.dphi (m.upsilonR * lam + q.qr)
      + P.dphi (m.upsilonTheta * lam + q.qtheta) - Cphi }

/-- A trajectory as returned by the API: `t` and `r` go through a unit-conversion dictionary whose
lookup can raise `KeyError` when the function is called. -/
structure TrajPy where
  t : ℝ → Py ℝ
  r : ℝ → Py ℝ
  theta : ℝ → ℝ
  phi : ℝ → ℝ

/-- Calling a conversion function `f(x, M)`; `M is None` inside the arithmetic is a `TypeError`. -/
noncomputable def withM (f : ℝ → ℝ → ℝ) (x : ℝ) (M : Option ℝ) : Py ℝ :=
  match M with
  | none => .error .typeError
  | some M => .ok (f x M)

/-- stable.py:512-518 and 542 (also plunge.py:567-573,598 and 668-674,698) -/
noncomputable def convDistance (units : String) (M : Option ℝ) (x : ℝ) : Py ℝ :=
  if units = "natural" then .ok x
  else if units = "mks" then withM Units.distanceInMeters x M
  else if units = "cgs" then withM Units.distanceInCm x M
  else if units = "au" then withM Units.distanceInAu x M
  else if units = "km" then withM Units.distanceInKm x M
  else .error (.keyError units)

/-- stable.py:519-524 and 532 (also plunge.py:574-579,589 and 675-680,688) -/
noncomputable def convTime (units : String) (M : Option ℝ) (x : ℝ) : Py ℝ :=
  if units = "natural" then .ok x
  else if units = "mks" then withM Units.timeInSeconds x M
  else if units = "cgs" then withM Units.timeInSeconds x M
  else if units = "days" then withM Units.timeInDays x M
  else .error (.keyError units)

/-- Wrapping a natural-units trajectory with the conversion dictionaries. -/
noncomputable def Traj.withUnits (T : Traj) (M : Option ℝ) (distanceUnits timeUnits : String) :
    TrajPy :=
  { t := fun lam => convTime timeUnits M (T.t lam)
    r := fun lam => convDistance distanceUnits M (T.r lam)
    theta := T.theta
    phi := T.phi }

/-- stable.py:500-501 (also plunge.py:559-560, 649-650) -/
noncomputable def unitsGuard (M : Option ℝ) (distanceUnits timeUnits : String) : Py Unit :=
  raiseIf ((distanceUnits ≠ "natural" ∨ timeUnits ≠ "natural") ∧ M = none)
    (.valueError "M must be specified to convert to physical units")

/-- stable.py:503-559 in natural units. -/
noncomputable def stableTrajectoryNat (rs : RootScalar) (a p e x : ℝ) (q : Phases) : Py Traj := do
  let m ← minoFrequencies rs a p e x
  let cs ← constantsOfMotion rs a p e x
  let rr ← stableRadialRoots rs a p e x (some cs)
  let (zMinus, zPlus) ← stablePolarRoots rs a p e x (some cs)
  let R := radialSolutions a cs rr
  let P ← polarSolutions a cs [zMinus, zPlus]
  return assembleTrajectory R P m q

/-- stable.py:464-559 -/
noncomputable def stableTrajectory (rs : RootScalar) (a p e x : ℝ) (q : Phases)
    (M : Option ℝ := none) (distanceUnits : String := "natural")
    (timeUnits : String := "natural") : Py TrajPy := do
  unitsGuard M distanceUnits timeUnits
  let T ← stableTrajectoryNat rs a p e x q
  return T.withUnits M distanceUnits timeUnits

end KGP
