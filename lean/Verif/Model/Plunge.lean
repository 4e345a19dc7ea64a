import Verif.Model.Stable
import Mathlib.Analysis.SpecialFunctions.Complex.Arctan
import Mathlib.Analysis.SpecialFunctions.Log.Basic

/-!
# kerrgeopy/plunge.py (functions; the class `PlungingOrbit` is in `Verif.Model.Orbit`)
-/

namespace KGP

open Classical Real

/-- `numpy.arctan2(y, x)`, plunge.py:230. -/
noncomputable def arctan2 (y x : ℝ) : ℝ := Complex.arg ⟨x, y⟩

/-- `k_r` of equation 42, plunge.py:185,354 (also initial_conditions.py:347). -/
noncomputable def plungeKR (r1 r2 A B : ℝ) : ℝ := √(((r2 - r1) ^ 2 - (A - B) ^ 2) / (4 * A * B))

/-- equation 48, plunge.py:190-195 -/
noncomputable def plungeD (A B r1 r2 rh : ℝ) : ℝ :=
  √(4 * A * B * (r2 - rh) * (rh - r1)) / (A * (rh - r1) + B * (r2 - rh))

/-- equation 48, plunge.py:235-273 (`rh = r_plus`) and 275-313 (`rh = r_minus`). -/
noncomputable def plungeIrh (E A B r1 r2 upsilonR rh : ℝ) (q : ℝ) : ℝ :=
  let k := plungeKR r1 r2 A B
  let D := plungeD A B r1 r2 rh
  let J := ellipj (2 * ellipk (k ^ 2) * q / π) (k ^ 2)
  let minoTime := q / upsilonR
  (A - B) * minoTime / (A * (r1 - rh) - B * (r2 - rh))
    + (r2 - r1) * (A * (r1 - rh) + B * (r2 - rh))
      / (2 * √(A * B * (1 - E ^ 2)) * (rh - r1) * (r2 - rh) * (A * (r1 - rh) - B * (r2 - rh)))
      * ellippiincK J.ph (1 / D ^ 2) (k ^ 2)
    - √(r2 - r1)
      * Real.log (((D * √(1 - D ^ 2 * k ^ 2) + J.dn * J.sn) ^ 2 + (k * (D ^ 2 - J.sn ^ 2)) ^ 2)
        / ((D * √(1 - D ^ 2 * k ^ 2) - J.dn * J.sn) ^ 2 + (k * (D ^ 2 - J.sn ^ 2)) ^ 2))
      / (4 * √((1 - E ^ 2) * (r2 - rh) * (rh - r1))
        * √(A ^ 2 * (rh - r1) - (r2 - rh) * (r1 ^ 2 - B ^ 2 + r2 * rh - r1 * (r2 + rh))))

/-- The four functions returned by `plunging_radial_integrals`. -/
structure PlungeIntegrals where
  Ir : ℝ → ℝ
  Ir2 : ℝ → ℝ
  IrPlus : ℝ → ℝ
  IrMinus : ℝ → ℝ

/-- plunge.py:174-315: `plunging_radial_integrals` for two complex roots
(`rho_r = real(r3)`, `rho_i = imag(r4)`). -/
noncomputable def plungingRadialIntegralsCore (a E r1 r2 rhoR rhoI upsilonR : ℝ) :
    PlungeIntegrals :=
  let rPlus := 1 + √(1 - a ^ 2)
  let rMinus := 1 - √(1 - a ^ 2)
  let A := plungeA r2 rhoR rhoI
  let B := plungeB r1 rhoR rhoI
  let f := 4 * A * B / (A - B) ^ 2
  let k := plungeKR r1 r2 A B
  { Ir := fun q =>
      let J := ellipj (2 * ellipk (k ^ 2) * q / π) (k ^ 2)
      let minoTime := q / upsilonR
      (A * r1 - B * r2) / (A - B) * minoTime
        - 1 / √(1 - E ^ 2) * arctan ((r2 - r1) * J.sn / (2 * √(A * B) * J.dn))
        + (A + B) * (r2 - r1) / (2 * (A - B) * √(A * B * (1 - E ^ 2)))
          * ellippiincK J.ph (-1 / f) (k ^ 2)
    Ir2 := fun q =>
      let J := ellipj (2 * ellipk (k ^ 2) * q / π) (k ^ 2)
      let minoTime := q / upsilonR
      (A * r1 ^ 2 - B * r2 ^ 2) / (A - B) * minoTime
        + √(A * B) / √(1 - E ^ 2) * ellipeinc J.ph (k ^ 2)
        - (A + B) * (A ^ 2 + 2 * r1 ^ 2 - B ^ 2 - 2 * r2 ^ 2)
          / (4 * (A - B) * √((1 - E ^ 2) * A * B)) * ellippiincK J.ph (-1 / f) (k ^ 2)
        - √(A * B) * (A + B - (A - B) * J.cn) * J.sn * J.dn
          / ((A - B) * √(1 - E ^ 2) * (f + J.sn ^ 2))
        + (A ^ 2 + 2 * r1 ^ 2 - B ^ 2 - 2 * r2 ^ 2) / (4 * (r2 - r1) * √(1 - E ^ 2))
          * arctan2 (2 * J.sn * J.dn * √(f * (1 + f * k ^ 2)))
            (f - (1 + 2 * f * k ^ 2) * J.sn ^ 2)
    IrPlus := plungeIrh E A B r1 r2 upsilonR rPlus
    IrMinus := plungeIrh E A B r1 r2 upsilonR rMinus }

/-- plunge.py:343-396: `plunging_radial_solutions_complex` after the check on the roots. -/
noncomputable def plungingRadialSolutionsCore (a E L r1 r2 rhoR rhoI upsilonR : ℝ) : PhaseSols :=
  let rPlus := 1 + √(1 - a ^ 2)
  let rMinus := 1 - √(1 - a ^ 2)
  let A := plungeA r2 rhoR rhoI
  let B := plungeB r1 rhoR rhoI
  let k := plungeKR r1 r2 A B
  let I := plungingRadialIntegralsCore a E r1 r2 rhoR rhoI upsilonR
  { pos := fun q =>
      let J := ellipj (2 * ellipk (k ^ 2) * q / π) (k ^ 2)
      ((A - B) * (A * r1 - B * r2) * J.sn ^ 2 + 2 * A * B * (r1 + r2)
        - 2 * A * B * (r2 - r1) * J.cn) / (4 * A * B + (A - B) ^ 2 * J.sn ^ 2)
    dt := fun q =>
      let minoTime := q / upsilonR
      E * (rPlus ^ 2 + rMinus ^ 2 + rPlus * rMinus + 2 * a ^ 2) * minoTime
        + E * (I.Ir2 q + I.Ir q * (rMinus + rPlus))
        + ((rMinus ^ 2 + a ^ 2) * (E * (rMinus ^ 2 + a ^ 2) - a * L) / (rMinus - rPlus)
            * I.IrMinus q
          + (rPlus ^ 2 + a ^ 2) * (E * (rPlus ^ 2 + a ^ 2) - a * L) / (rPlus - rMinus)
            * I.IrPlus q)
    dphi := fun q =>
      a * ((E * (rMinus ^ 2 + a ^ 2) - a * L) / (rMinus - rPlus) * I.IrMinus q
        + (E * (rPlus ^ 2 + a ^ 2) - a * L) / (rPlus - rMinus) * I.IrPlus q) }

/-- plunge.py:318-396.  `np.iscomplex(roots).sum() != 2` holds exactly for four real roots. -/
noncomputable def plungingRadialSolutionsComplex (a E L Q : ℝ) : Py PhaseSols := do
  let pr ← plungingRadialRoots a E L Q
  match pr with
  | .real _ _ _ _ => .error (.valueError "There should be two complex roots")
  | .cplx r1 r2 r3 r4 => do
    let (uR, _uTheta) ← plungingMinoFrequencies a E L Q
    return plungingRadialSolutionsCore a E L r1 r2 r3.re r4.im uR

/-- plunge.py:421-476: `plunging_polar_solutions` for a known polar frequency. -/
noncomputable def plungingPolarSolutionsCore (a E L Q upsilonTheta : ℝ) : PhaseSols :=
  let z1 := plungeZ1 a E L Q
  let z2 := plungeZ2 a E L Q
  let k := plungeKTheta a E L Q
  { pos := fun q =>
      let minoTime := q / upsilonTheta
      arccos (z1 * (ellipj (z2 * minoTime) (k ^ 2)).sn)
    dt := fun q =>
      let minoTime := q / upsilonTheta
      E / (1 - E ^ 2) * ((z2 ^ 2 - a ^ 2 * (1 - E ^ 2)) * minoTime
        - z2 * ellipeinc (ellipj (z2 * minoTime) (k ^ 2)).ph (k ^ 2))
    dphi := fun q =>
      let minoTime := q / upsilonTheta
      L / z2 * ellippiincK (ellipj (z2 * minoTime) (k ^ 2)).ph (z1 ^ 2) (k ^ 2) }

/-- plunge.py:399-476 -/
noncomputable def plungingPolarSolutions (a E L Q : ℝ) : Py PhaseSols := do
  let (_uR, uTheta) ← plungingMinoFrequencies a E L Q
  return plungingPolarSolutionsCore a E L Q uTheta

/-- plunge.py:581-609: assembling a complex-root plunge in natural units
(`q_theta0` is shifted by `pi/2`). -/
noncomputable def assemblePlunge (R P : PhaseSols) (uR uTheta : ℝ) (q : Phases) : Traj :=
  let qth := q.qtheta + π / 2
  let Ct := R.dt q.qr + P.dt qth
  let Cphi := R.dphi q.qr + P.dphi qth
  { t := fun lam => R.dt (uR * lam + q.qr) + P.dt (uTheta * lam + qth) - Ct + q.qt
    r := fun lam => R.pos (uR * lam + q.qr)
    theta := fun lam => P.pos (uTheta * lam + qth)
    phi := fun lam => R.dphi (uR * lam + q.qr) + P.dphi (uTheta * lam + qth) - Cphi + q.qphi }

/-- plunge.py:562-611 in natural units -/
noncomputable def complexPlungeTrajectoryNat (a E L Q : ℝ) (q : Phases) : Py Traj := do
  let (uR, uTheta) ← plungingMinoFrequencies a E L Q
  let R ← plungingRadialSolutionsComplex a E L Q
  let P ← plungingPolarSolutions a E L Q
  return assemblePlunge R P uR uTheta q

/-- plunge.py:652-713 in natural units, for the roots returned by `plunging_radial_roots`.
It is only called when the roots are real (plunge.py:516-521).  When `gamma` is infinite the time
coordinate `q_t0 + gamma*mino_time + ...` (plunge.py:688-695) is `inf` or `nan` at every Mino time. -/
noncomputable def realPlungeTrajectoryNat (a E L Q : ℝ) (rr : Roots4) (q : Phases) : Py Traj := do
  let (zMinus, zPlus) ← polarRootsNumpy a E L Q
  let m := minoFrequenciesFromConstants a (E, L, Q) rr (zMinus, zPlus)
  let R := radialSolutions a (E, L, Q) rr
  let P ← polarSolutions a (E, L, Q) [zMinus, zPlus]
  let T := assembleTrajectory R P m q
  return if gammaIsInf rr then { T with t := pyInfTimes } else T

/-- plunge.py:479-521 in natural units -/
noncomputable def plungingTrajectoryNat (a E L Q : ℝ) (q : Phases) : Py Traj := do
  let pr ← plungingRadialRoots a E L Q
  match pr with
  | .cplx _ _ _ _ => complexPlungeTrajectoryNat a E L Q q
  | .real r1 r2 r3 r4 => realPlungeTrajectoryNat a E L Q (r1, r2, r3, r4) q

/-- plunge.py:479-713.  The units guard of the two helper functions (559-560, 649-650) runs after
`plunging_radial_roots`. -/
noncomputable def plungingTrajectory (a E L Q : ℝ) (q : Phases)
    (M : Option ℝ := none) (distanceUnits : String := "natural")
    (timeUnits : String := "natural") : Py TrajPy := do
  let _ ← plungingRadialRoots a E L Q
  unitsGuard M distanceUnits timeUnits
  let T ← plungingTrajectoryNat a E L Q q
  return T.withUnits M distanceUnits timeUnits

end KGP
