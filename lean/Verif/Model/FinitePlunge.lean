import Verif.Model.Finite
import Verif.Model.Plunge

/-!
# Plunges with two complex radial roots in arithmetic with failing operations

As in `Verif.Model.Finite`: the functions of `Verif.Model.Plunge` over `Fl`.  The constants and the radial roots are
numbers (the coefficients handed to numpy's root finder are, and its leading coefficient `E² - 1` is not zero).
-/

namespace KGP

open Classical Real

namespace Fl

/-- `numpy.log`: `-inf` at zero, `nan` below -/
noncomputable def log : Fl → Fl := part (0 < ·) Real.log
noncomputable def arctan : Fl → Fl := map Real.arctan
noncomputable def arctan2 : Fl → Fl → Fl := part2 (fun _ _ => True) KGP.arctan2
/-- third component of `scipy.special.ellipj(u, m)` -/
noncomputable def ellipjDn : Fl → Fl → Fl := part2 (fun _ m => 0 ≤ m ∧ m ≤ 1) (fun u m => (KGP.ellipj u m).dn)
/-- `scipy.special.ellipeinc(phi, m)`: `nan` above `m = 1` -/
noncomputable def ellipeinc : Fl → Fl → Fl := part2 (fun _ m => m ≤ 1) KGP.ellipeinc

end Fl

/-- frequencies.py:476-477, plunge.py:182-183 -/
noncomputable def plungeAN (r2 rhoR rhoI : ℝ) : Fl := Fl.sqrt (((r2 : Fl) - rhoR) ^ 2 + (rhoI : Fl) ^ 2)
noncomputable def plungeBN (r1 rhoR rhoI : ℝ) : Fl := Fl.sqrt (((r1 : Fl) - rhoR) ^ 2 + (rhoI : Fl) ^ 2)

/-- plunge.py:185,354 -/
noncomputable def plungeKRN (r1 r2 : ℝ) (A B : Fl) : Fl :=
  Fl.sqrt ((((r2 : Fl) - r1) ^ 2 - (A - B) ^ 2) / (4 * A * B))

/-- frequencies.py:484-495, plunge.py:421-431 -/
noncomputable def plungeZ1N (a E L Q : ℝ) : Fl :=
  Fl.sqrt (1 / 2 * (1 + ((L : Fl) ^ 2 + Q) / ((a : Fl) ^ 2 * (1 - (E : Fl) ^ 2))
    - Fl.sqrt ((1 + ((L : Fl) ^ 2 + Q) / ((a : Fl) ^ 2 * (1 - (E : Fl) ^ 2))) ^ 2
      - 4 * Q / ((a : Fl) ^ 2 * (1 - (E : Fl) ^ 2)))))

/-- frequencies.py:496-508, plunge.py:432-443 -/
noncomputable def plungeZ2N (a E L Q : ℝ) : Fl :=
  Fl.sqrt ((a : Fl) ^ 2 * (1 - (E : Fl) ^ 2) / 2 * (1 + ((L : Fl) ^ 2 + Q) / ((a : Fl) ^ 2 * (1 - (E : Fl) ^ 2))
    + Fl.sqrt ((1 + ((L : Fl) ^ 2 + Q) / ((a : Fl) ^ 2 * (1 - (E : Fl) ^ 2))) ^ 2
      - 4 * Q / ((a : Fl) ^ 2 * (1 - (E : Fl) ^ 2)))))

/-- frequencies.py:509, plunge.py:444 -/
noncomputable def plungeKThetaN (a E L Q : ℝ) : Fl :=
  (a : Fl) * Fl.sqrt (1 - (E : Fl) ^ 2) * plungeZ1N a E L Q / plungeZ2N a E L Q

/-- frequencies.py:476-481 -/
noncomputable def plungeUpsilonRN (E r1 r2 rhoR rhoI : ℝ) : Fl :=
  let A := plungeAN r2 rhoR rhoI
  let B := plungeBN r1 rhoR rhoI
  let k := Fl.sqrt (Fl.abs ((((r2 : Fl) - r1) ^ 2 - (A - B) ^ 2) / (4 * A * B)))
  (π : Fl) * Fl.sqrt (A * B * (1 - (E : Fl) ^ 2)) / (2 * Fl.ellipk (k ^ 2))

/-- frequencies.py:512 -/
noncomputable def plungeUpsilonThetaN (a E L Q : ℝ) : Fl :=
  (π : Fl) / 2 * plungeZ2N a E L Q / Fl.ellipk (plungeKThetaN a E L Q ^ 2)

/-- plunge.py:190-195 -/
noncomputable def plungeDN (r1 r2 : ℝ) (A B rh : Fl) : Fl :=
  Fl.sqrt (4 * A * B * (r2 - rh) * (rh - r1)) / (A * (rh - r1) + B * (r2 - rh))

/-- plunge.py:235-313 -/
noncomputable def plungeIrhN (E r1 r2 : ℝ) (A B upsilonR rh q : Fl) : Fl :=
  let k := plungeKRN r1 r2 A B
  let D := plungeDN r1 r2 A B rh
  let u := 2 * Fl.ellipk (k ^ 2) * q / (π : Fl)
  let sn := Fl.ellipjSn u (k ^ 2)
  let dn := Fl.ellipjDn u (k ^ 2)
  let ph := Fl.ellipjPh u (k ^ 2)
  let minoTime := q / upsilonR
  (A - B) * minoTime / (A * (r1 - rh) - B * (r2 - rh))
    + ((r2 : Fl) - r1) * (A * (r1 - rh) + B * (r2 - rh))
      / (2 * Fl.sqrt (A * B * (1 - (E : Fl) ^ 2)) * (rh - r1) * (r2 - rh) * (A * (r1 - rh) - B * (r2 - rh)))
      * ellippiincN ph (1 / D ^ 2) (k ^ 2)
    - Fl.sqrt ((r2 : Fl) - r1)
      * Fl.log (((D * Fl.sqrt (1 - D ^ 2 * k ^ 2) + dn * sn) ^ 2 + (k * (D ^ 2 - sn ^ 2)) ^ 2)
        / ((D * Fl.sqrt (1 - D ^ 2 * k ^ 2) - dn * sn) ^ 2 + (k * (D ^ 2 - sn ^ 2)) ^ 2))
      / (4 * Fl.sqrt ((1 - (E : Fl) ^ 2) * (r2 - rh) * (rh - r1))
        * Fl.sqrt (A ^ 2 * (rh - r1)
          - (r2 - rh) * ((r1 : Fl) ^ 2 - B ^ 2 + r2 * rh - r1 * (r2 + rh))))

/-- plunge.py:197-208 -/
noncomputable def plungeIrN (E r1 r2 : ℝ) (A B upsilonR q : Fl) : Fl :=
  let f := 4 * A * B / (A - B) ^ 2
  let k := plungeKRN r1 r2 A B
  let u := 2 * Fl.ellipk (k ^ 2) * q / (π : Fl)
  let sn := Fl.ellipjSn u (k ^ 2)
  let dn := Fl.ellipjDn u (k ^ 2)
  let ph := Fl.ellipjPh u (k ^ 2)
  let minoTime := q / upsilonR
  (A * r1 - B * r2) / (A - B) * minoTime
    - 1 / Fl.sqrt (1 - (E : Fl) ^ 2) * Fl.arctan (((r2 : Fl) - r1) * sn / (2 * Fl.sqrt (A * B) * dn))
    + (A + B) * ((r2 : Fl) - r1) / (2 * (A - B) * Fl.sqrt (A * B * (1 - (E : Fl) ^ 2)))
      * ellippiincN ph (-1 / f) (k ^ 2)

/-- plunge.py:211-233 -/
noncomputable def plungeIr2N (E r1 r2 : ℝ) (A B upsilonR q : Fl) : Fl :=
  let f := 4 * A * B / (A - B) ^ 2
  let k := plungeKRN r1 r2 A B
  let u := 2 * Fl.ellipk (k ^ 2) * q / (π : Fl)
  let sn := Fl.ellipjSn u (k ^ 2)
  let cn := Fl.ellipjCn u (k ^ 2)
  let dn := Fl.ellipjDn u (k ^ 2)
  let ph := Fl.ellipjPh u (k ^ 2)
  let minoTime := q / upsilonR
  (A * (r1 : Fl) ^ 2 - B * (r2 : Fl) ^ 2) / (A - B) * minoTime
    + Fl.sqrt (A * B) / Fl.sqrt (1 - (E : Fl) ^ 2) * Fl.ellipeinc ph (k ^ 2)
    - (A + B) * (A ^ 2 + 2 * (r1 : Fl) ^ 2 - B ^ 2 - 2 * (r2 : Fl) ^ 2)
      / (4 * (A - B) * Fl.sqrt ((1 - (E : Fl) ^ 2) * A * B)) * ellippiincN ph (-1 / f) (k ^ 2)
    - Fl.sqrt (A * B) * (A + B - (A - B) * cn) * sn * dn
      / ((A - B) * Fl.sqrt (1 - (E : Fl) ^ 2) * (f + sn ^ 2))
    + (A ^ 2 + 2 * (r1 : Fl) ^ 2 - B ^ 2 - 2 * (r2 : Fl) ^ 2) / (4 * ((r2 : Fl) - r1) * Fl.sqrt (1 - (E : Fl) ^ 2))
      * Fl.arctan2 (2 * sn * dn * Fl.sqrt (f * (1 + f * k ^ 2)))
        (f - (1 + 2 * f * k ^ 2) * sn ^ 2)

/-- plunge.py:343-396 with 173-195 -/
noncomputable def plungingRadialSolutionsN (a E L r1 r2 rhoR rhoI : ℝ) (upsilonR : Fl) : PhaseSolsN :=
  let rPlus := 1 + Fl.sqrt (1 - (a : Fl) ^ 2)
  let rMinus := 1 - Fl.sqrt (1 - (a : Fl) ^ 2)
  let A := plungeAN r2 rhoR rhoI
  let B := plungeBN r1 rhoR rhoI
  let k := plungeKRN r1 r2 A B
  { pos := fun q =>
      let u := 2 * Fl.ellipk (k ^ 2) * q / (π : Fl)
      let sn := Fl.ellipjSn u (k ^ 2)
      let cn := Fl.ellipjCn u (k ^ 2)
      ((A - B) * (A * r1 - B * r2) * sn ^ 2 + 2 * A * B * ((r1 : Fl) + r2)
        - 2 * A * B * ((r2 : Fl) - r1) * cn) / (4 * A * B + (A - B) ^ 2 * sn ^ 2)
    dt := fun q =>
      let minoTime := q / upsilonR
      (E : Fl) * (rPlus ^ 2 + rMinus ^ 2 + rPlus * rMinus + 2 * (a : Fl) ^ 2) * minoTime
        + (E : Fl) * (plungeIr2N E r1 r2 A B upsilonR q + plungeIrN E r1 r2 A B upsilonR q * (rMinus + rPlus))
        + ((rMinus ^ 2 + (a : Fl) ^ 2) * (E * (rMinus ^ 2 + (a : Fl) ^ 2) - (a : Fl) * L) / (rMinus - rPlus)
            * plungeIrhN E r1 r2 A B upsilonR rMinus q
          + (rPlus ^ 2 + (a : Fl) ^ 2) * (E * (rPlus ^ 2 + (a : Fl) ^ 2) - (a : Fl) * L) / (rPlus - rMinus)
            * plungeIrhN E r1 r2 A B upsilonR rPlus q)
    dphi := fun q =>
      (a : Fl) * ((E * (rMinus ^ 2 + (a : Fl) ^ 2) - (a : Fl) * L) / (rMinus - rPlus)
          * plungeIrhN E r1 r2 A B upsilonR rMinus q
        + (E * (rPlus ^ 2 + (a : Fl) ^ 2) - (a : Fl) * L) / (rPlus - rMinus)
          * plungeIrhN E r1 r2 A B upsilonR rPlus q) }

/-- plunge.py:421-476 -/
noncomputable def plungingPolarSolutionsN (a E L Q : ℝ) (upsilonTheta : Fl) : PhaseSolsN :=
  let z1 := plungeZ1N a E L Q
  let z2 := plungeZ2N a E L Q
  let k := plungeKThetaN a E L Q
  { pos := fun q =>
      let minoTime := q / upsilonTheta
      Fl.arccos (z1 * Fl.ellipjSn (z2 * minoTime) (k ^ 2))
    dt := fun q =>
      let minoTime := q / upsilonTheta
      (E : Fl) / (1 - (E : Fl) ^ 2) * ((z2 ^ 2 - (a : Fl) ^ 2 * (1 - (E : Fl) ^ 2)) * minoTime
        - z2 * Fl.ellipeinc (Fl.ellipjPh (z2 * minoTime) (k ^ 2)) (k ^ 2))
    dphi := fun q =>
      let minoTime := q / upsilonTheta
      (L : Fl) / z2 * ellippiincN (Fl.ellipjPh (z2 * minoTime) (k ^ 2)) (z1 ^ 2) (k ^ 2) }

/-- plunge.py:581-609 -/
noncomputable def assemblePlungeN (R P : PhaseSolsN) (uR uTheta : Fl) (q : Phases) : TrajN :=
  let qth := (q.qtheta : Fl) + (π : Fl) / 2
  let Ct := R.dt q.qr + P.dt qth
  let Cphi := R.dphi q.qr + P.dphi qth
  { t := fun lam => R.dt (uR * lam + q.qr) + P.dt (uTheta * lam + qth) - Ct + q.qt
    r := fun lam => R.pos (uR * lam + q.qr)
    theta := fun lam => P.pos (uTheta * lam + qth)
    phi := fun lam => R.dphi (uR * lam + q.qr) + P.dphi (uTheta * lam + qth) - Cphi + q.qphi }

/-- plunge.py:479-611 in natural units for two complex roots, with frequencies.py:449-512 -/
noncomputable def complexPlungeTrajectoryN (a E L Q : ℝ) (q : Phases) : Py TrajN := do
  let pr ← plungingRadialRoots a E L Q
  match pr with
  | .real _ _ _ _ => .error (.valueError "There should be two complex roots")
  | .cplx r1 r2 r3 r4 =>
    let uR := plungeUpsilonRN E r1 r2 r3.re r4.im
    let uTheta := plungeUpsilonThetaN a E L Q
    return assemblePlungeN (plungingRadialSolutionsN a E L r1 r2 r3.re r4.im uR)
      (plungingPolarSolutionsN a E L Q uTheta) uR uTheta q

end KGP
