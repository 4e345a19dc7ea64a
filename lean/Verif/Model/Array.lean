import Verif.Model.Orbit

/-!
# The functions of a phase or of Mino time on numpy arrays

The closures returned by `radial_solutions`, `polar_solutions`, `stable_trajectory`, `plunging_trajectory`,
`Orbit.four_velocity`, `Orbit.numerical_four_velocity` are written with numpy operations and are called with arrays
(e.g. orbit.py:472-480).  This file models them on arrays of any shape; the other files of the model describe them on
numbers.

Simplifications: dtypes are not modelled; two arrays of different shapes are never combined by this code, and the general
broadcasting rule is replaced by an exception for them.
-/

namespace KGP

open Classical Real Matrix

/-- What such a function is called with or returns: a number (Python float or numpy scalar), an array (shape and entries in
row-major order; shape `()` is a zero-dimensional array), or an exception. -/
inductive Val where
  | num (x : ℝ)
  | arr (shape : List ℕ) (data : List ℝ)
  | bad

namespace Val

/-- numpy operations turn results of shape `()` into scalars. -/
def ofShape (shape : List ℕ) (data : List ℝ) : Val :=
  if shape = [] then
    match data with
    | [x] => .num x
    | _ => .bad
  else .arr shape data

/-- A numpy function of one argument applied to a value. -/
def ufunc1 (f : ℝ → ℝ) : Val → Val
  | .num x => .num (f x)
  | .arr sh d => ofShape sh (d.map f)
  | .bad => .bad

/-- A numpy function of two arguments applied to two values (a scalar is combined with every entry of an array). -/
def ufunc2 (f : ℝ → ℝ → ℝ) : Val → Val → Val
  | .num x, .num y => .num (f x y)
  | .num x, .arr sh d => ofShape sh (d.map fun y => f x y)
  | .arr sh d, .num y => ofShape sh (d.map fun x => f x y)
  | .arr sh d, .arr sh' d' => if sh = sh' then ofShape sh (List.zipWith f d d') else .bad
  | _, _ => .bad

instance : Coe ℝ Val := ⟨.num⟩
instance (n : ℕ) [n.AtLeastTwo] : OfNat Val n := ⟨.num (OfNat.ofNat n)⟩
instance : OfNat Val 0 := ⟨.num 0⟩
instance : OfNat Val 1 := ⟨.num 1⟩
noncomputable instance : Add Val := ⟨ufunc2 (· + ·)⟩
noncomputable instance : Sub Val := ⟨ufunc2 (· - ·)⟩
noncomputable instance : Mul Val := ⟨ufunc2 (· * ·)⟩
noncomputable instance : Div Val := ⟨ufunc2 (· / ·)⟩
noncomputable instance : Neg Val := ⟨ufunc1 (- ·)⟩
noncomputable instance : HPow Val ℕ Val := ⟨fun v n => ufunc1 (· ^ n) v⟩

/-- `numpy.sin`, `cos`, … applied entrywise. -/
noncomputable def vsin : Val → Val := ufunc1 sin
noncomputable def vcos : Val → Val := ufunc1 cos
noncomputable def varcsin : Val → Val := ufunc1 arcsin
noncomputable def varccos : Val → Val := ufunc1 arccos
noncomputable def varctan : Val → Val := ufunc1 arctan
noncomputable def varctan2 : Val → Val → Val := ufunc2 arctan2
noncomputable def vsqrt : Val → Val := ufunc1 (fun x => √x)
noncomputable def vabs : Val → Val := ufunc1 (fun x => |x|)
noncomputable def vlog : Val → Val := ufunc1 Real.log
noncomputable def vfloor : Val → Val := ufunc1 (fun x => (⌊x⌋ : ℝ))
noncomputable def vcopysign1 : Val → Val := ufunc1 copysign1

/-- `scipy.special` functions of an array and scalar parameters. -/
noncomputable def velliprf (x y : Val) (z : ℝ) : Val := ufunc2 (fun x y => elliprf x y z) x y
noncomputable def velliprd (x y : Val) (z : ℝ) : Val := ufunc2 (fun x y => elliprd x y z) x y
noncomputable def vellipeinc (phi : Val) (m : ℝ) : Val := ufunc1 (fun x => ellipeinc x m) phi

/-- A numpy function of three array arguments. -/
noncomputable def ufunc3 (f : ℝ → ℝ → ℝ → ℝ) : Val → Val → Val → Val
  | .num x, .num y, .num z => .num (f x y z)
  | .arr sh d, .arr sh' d', .arr sh'' d'' =>
      if sh = sh' ∧ sh = sh'' then ofShape sh (List.zipWith (fun x yz => f x yz.1 yz.2) d (d'.zip d'')) else .bad
  | _, _, _ => .bad

/-- `elliprj(x, y, 1, p)` with arrays `x`, `y`, `p`. -/
noncomputable def velliprj (x y : Val) (z : ℝ) (p : Val) : Val := ufunc3 (fun x y p => elliprj x y z p) x y p

/-- The four arrays returned by `scipy.special.ellipj(u, m)`. -/
structure EllipJV where
  sn : Val
  cn : Val
  dn : Val
  ph : Val

noncomputable def vellipj (u : Val) (m : ℝ) : EllipJV where
  sn := ufunc1 (fun x => (ellipj x m).sn) u
  cn := ufunc1 (fun x => (ellipj x m).cn) u
  dn := ufunc1 (fun x => (ellipj x m).dn) u
  ph := ufunc1 (fun x => (ellipj x m).ph) u

/-- The test `n % 2 == 0` on floats (1 for true, 0 for false); `%` is Python's, `n - 2*floor(n/2)`. -/
noncomputable def evenTest : Val → Val := ufunc1 fun n => if n - 2 * (⌊n / 2⌋ : ℝ) = 0 then 1 else 0

/-- `numpy.where(cond, x, y)`: it always returns an array, of shape `()` when all arguments are scalars. -/
noncomputable def npWhere (c x y : Val) : Val :=
  match ufunc3 (fun c x y => if c = 1 then x else y) c x y with
  | .num r => .arr [] [r]
  | v => v

/-- `numpy.isscalar` -/
def isScalar : Val → Bool
  | .num _ => true
  | _ => false

/-- `result.item()`: an array with one entry becomes a scalar, others raise `ValueError`. -/
def item : Val → Val
  | .arr _ [x] => .num x
  | _ => .bad

end Val

open Val

/-- frequencies.py:10-40 on arrays -/
noncomputable def ellipeincV (phi : Val) (m : ℝ) : Val :=
  let numCycles := vfloor (phi / (π / 2 : ℝ))
  let phi := vabs (varcsin (vsin phi))
  let integral := vsin phi * velliprf (vcos phi ^ 2) (1 - m * vsin phi ^ 2) 1
    - 1 / 3 * m * vsin phi ^ 3 * velliprd (vcos phi ^ 2) (1 - m * vsin phi ^ 2) 1
  let result := npWhere (evenTest numCycles) (numCycles * (ellipe m : ℝ) + integral)
    ((numCycles + 1) * (ellipe m : ℝ) - integral)
  if isScalar phi then item result else result

/-- frequencies.py:62-94 on arrays -/
noncomputable def ellippiincV (phi : Val) (n m : ℝ) : Val :=
  let numCycles := vfloor (phi / (π / 2 : ℝ))
  let phi := vabs (varcsin (vsin phi))
  let integral := vsin phi * velliprf (vcos phi ^ 2) (1 - m * vsin phi ^ 2) 1
    + 1 / 3 * n * vsin phi ^ 3
      * velliprj (vcos phi ^ 2) (1 - m * vsin phi ^ 2) 1 (1 - n * vsin phi ^ 2)
  let result := npWhere (evenTest numCycles) (numCycles * (ellippiK n m : ℝ) + integral)
    ((numCycles + 1) * (ellippiK n m : ℝ) - integral)
  if isScalar phi then item result else result

/-- `PhaseSols` on arrays. -/
structure PhaseSolsV where
  pos : Val → Val
  dt : Val → Val
  dphi : Val → Val

/-- stable.py:272-385 on arrays -/
noncomputable def radialSolutionsV (a : ℝ) (cs : Consts) (rr : Roots4) : PhaseSolsV :=
  let (E, L, _Q) := cs
  let (r1, r2, r3, r4) := rr
  let rPlus := 1 + √(1 - a ^ 2)
  let rMinus := 1 - √(1 - a ^ 2)
  let hR := (r1 - r2) / (r1 - r3)
  let hPlus := (r1 - r2) * (r3 - rPlus) / ((r1 - r3) * (r2 - rPlus))
  let hMinus := (r1 - r2) * (r3 - rMinus) / ((r1 - r3) * (r2 - rMinus))
  let k := √((r1 - r2) * (r3 - r4) / ((r1 - r3) * (r2 - r4)))
  { pos := fun q =>
      let uR := (ellipk (k ^ 2) : ℝ) * q / (π : ℝ)
      let J := vellipj uR (k ^ 2)
      (r3 * (r1 - r2) * J.sn ^ 2 - r2 * (r1 - r3)) / ((r1 - r2) * J.sn ^ 2 - (r1 - r3))
    dt := fun q =>
      let uR := (ellipk (k ^ 2) : ℝ) * q / (π : ℝ)
      let J := vellipj uR (k ^ 2)
      2 / (√((1 - E ^ 2) * (r1 - r3) * (r2 - r4)) : ℝ)
        * (E / 2
            * ((r2 - r3) * (r1 + r2 + r3 + r4)
                * (ellippiincV J.ph hR (k ^ 2) - q / (π : ℝ) * (ellippiK hR (k ^ 2) : ℝ))
              + (r1 - r3) * (r2 - r4)
                * (ellipeincV J.ph (k ^ 2)
                  + hR * J.sn * J.cn * vsqrt (1 - (k ^ 2 : ℝ) * J.sn ^ 2) / (hR * J.sn ^ 2 - 1)
                  - q / (π : ℝ) * (ellipe (k ^ 2) : ℝ)))
          + 2 * E * (r2 - r3) * (ellippiincV J.ph hR (k ^ 2) - q / (π : ℝ) * (ellippiK hR (k ^ 2) : ℝ))
          - 2 / (rPlus - rMinus)
            * ((((4 * E - a * L) * rPlus - 2 * a ^ 2 * E : ℝ)) * (r2 - r3)
                / ((r3 - rPlus) * (r2 - rPlus))
                * (ellippiincV J.ph hPlus (k ^ 2) - q / (π : ℝ) * (ellippiK hPlus (k ^ 2) : ℝ))
              - (((4 * E - a * L) * rMinus - 2 * a ^ 2 * E : ℝ)) * (r2 - r3)
                / ((r3 - rMinus) * (r2 - rMinus))
                * (ellippiincV J.ph hMinus (k ^ 2) - q / (π : ℝ) * (ellippiK hMinus (k ^ 2) : ℝ))))
    dphi := fun q =>
      let uR := (ellipk (k ^ 2) : ℝ) * q / (π : ℝ)
      let J := vellipj uR (k ^ 2)
      ((-2) * a / ((rPlus - rMinus) * √((1 - E ^ 2) * (r1 - r3) * (r2 - r4))) : ℝ)
        * ((2 * E * rPlus - a * L) * (r2 - r3) / ((r3 - rPlus) * (r2 - rPlus))
            * (ellippiincV J.ph hPlus (k ^ 2) - q / (π : ℝ) * (ellippiK hPlus (k ^ 2) : ℝ))
          - (2 * E * rMinus - a * L) * (r2 - r3) / ((r3 - rMinus) * (r2 - rMinus))
            * (ellippiincV J.ph hMinus (k ^ 2) - q / (π : ℝ) * (ellippiK hMinus (k ^ 2) : ℝ))) }

/-- stable.py:410-461 on arrays -/
noncomputable def polarSolutionsCoreV (a : ℝ) (cs : Consts) (zMinus zPlus : ℝ) : PhaseSolsV :=
  let (E, L, _Q) := cs
  let e0zp := e0zpOf a E L zMinus
  let a2s := a2sqrtZpOverE0 a E L zMinus zPlus
  let k := kThetaOf a zMinus zPlus
  { pos := fun q =>
      let u := (2 / π * ellipk (k ^ 2) : ℝ) * (q + (π / 2 : ℝ))
      varccos ((√zMinus : ℝ) * (vellipj u (k ^ 2)).sn)
    dt := fun q =>
      let u := (2 / π * ellipk (k ^ 2) : ℝ) * (q + (π / 2 : ℝ))
      (Real.sign L * a2s * E / L : ℝ)
        * ((2 / π * ellipe (k ^ 2) : ℝ) * (q + (π / 2 : ℝ)) - ellipeincV (vellipj u (k ^ 2)).ph (k ^ 2))
    dphi := fun q =>
      let u := (2 / π * ellipk (k ^ 2) : ℝ) * (q + (π / 2 : ℝ))
      (Real.sign L * 1 / √e0zp : ℝ)
        * (ellippiincV (vellipj u (k ^ 2)).ph zMinus (k ^ 2)
          - (2 / π * ellippiK zMinus (k ^ 2) : ℝ) * (q + (π / 2 : ℝ))) }

/-- `Traj` on arrays. -/
structure TrajV where
  t : Val → Val
  r : Val → Val
  theta : Val → Val
  phi : Val → Val

/-- stable.py:526-557 (also plunge.py:682-711) on arrays.  The phases are scalars. -/
noncomputable def assembleTrajectoryV (R P : PhaseSolsV) (m : MinoFreqs) (q : Phases) : TrajV :=
  let Ct := R.dt q.qr + P.dt q.qtheta
  let Cphi := R.dphi q.qr + P.dphi q.qtheta
  { t := fun lam => q.qt + m.gamma * lam + R.dt (m.upsilonR * lam + q.qr)
      + P.dt (m.upsilonTheta * lam + q.qtheta) - Ct
    r := fun lam => R.pos (m.upsilonR * lam + q.qr)
    theta := fun lam => P.pos (m.upsilonTheta * lam + q.qtheta)
    phi := fun lam => q.qphi + m.upsilonPhi * lam + R.dphi (m.upsilonR * lam + q.qr)
      + P.dphi (m.upsilonTheta * lam + q.qtheta) - Cphi }

/-- stable.py:503-559 in natural units, the returned functions on arrays. -/
noncomputable def stableTrajectoryNatV (rs : RootScalar) (a p e x : ℝ) (q : Phases) : Py TrajV := do
  let m ← minoFrequencies rs a p e x
  let cs ← constantsOfMotion rs a p e x
  let rr ← stableRadialRoots rs a p e x (some cs)
  let (zMinus, zPlus) ← stablePolarRoots rs a p e x (some cs)
  return assembleTrajectoryV (radialSolutionsV a cs rr) (polarSolutionsCoreV a cs zMinus zPlus) m q

/-- plunge.py:235-313 on arrays -/
noncomputable def plungeIrhV (E A B r1 r2 upsilonR rh : ℝ) (q : Val) : Val :=
  let k := plungeKR r1 r2 A B
  let D := plungeD A B r1 r2 rh
  let J := vellipj ((2 * ellipk (k ^ 2) : ℝ) * q / (π : ℝ)) (k ^ 2)
  let minoTime := q / (upsilonR : ℝ)
  (A - B) * minoTime / (A * (r1 - rh) - B * (r2 - rh))
    + ((r2 - r1) * (A * (r1 - rh) + B * (r2 - rh))
      / (2 * √(A * B * (1 - E ^ 2)) * (rh - r1) * (r2 - rh) * (A * (r1 - rh) - B * (r2 - rh))) : ℝ)
      * ellippiincV J.ph (1 / D ^ 2) (k ^ 2)
    - (√(r2 - r1) : ℝ)
      * vlog ((((D * √(1 - D ^ 2 * k ^ 2) : ℝ) + J.dn * J.sn) ^ 2 + (k * ((D ^ 2 : ℝ) - J.sn ^ 2)) ^ 2)
        / (((D * √(1 - D ^ 2 * k ^ 2) : ℝ) - J.dn * J.sn) ^ 2 + (k * ((D ^ 2 : ℝ) - J.sn ^ 2)) ^ 2))
      / (4 * √((1 - E ^ 2) * (r2 - rh) * (rh - r1))
        * √(A ^ 2 * (rh - r1) - (r2 - rh) * (r1 ^ 2 - B ^ 2 + r2 * rh - r1 * (r2 + rh))) : ℝ)

/-- `PlungeIntegrals` on arrays. -/
structure PlungeIntegralsV where
  Ir : Val → Val
  Ir2 : Val → Val
  IrPlus : Val → Val
  IrMinus : Val → Val

/-- plunge.py:174-315 on arrays -/
noncomputable def plungingRadialIntegralsCoreV (a E r1 r2 rhoR rhoI upsilonR : ℝ) : PlungeIntegralsV :=
  let rPlus := 1 + √(1 - a ^ 2)
  let rMinus := 1 - √(1 - a ^ 2)
  let A := plungeA r2 rhoR rhoI
  let B := plungeB r1 rhoR rhoI
  let f := 4 * A * B / (A - B) ^ 2
  let k := plungeKR r1 r2 A B
  { Ir := fun q =>
      let J := vellipj ((2 * ellipk (k ^ 2) : ℝ) * q / (π : ℝ)) (k ^ 2)
      let minoTime := q / (upsilonR : ℝ)
      ((A * r1 - B * r2) / (A - B) : ℝ) * minoTime
        - (1 / √(1 - E ^ 2) : ℝ) * varctan ((r2 - r1) * J.sn / ((2 * √(A * B) : ℝ) * J.dn))
        + ((A + B) * (r2 - r1) / (2 * (A - B) * √(A * B * (1 - E ^ 2))) : ℝ)
          * ellippiincV J.ph (-1 / f) (k ^ 2)
    Ir2 := fun q =>
      let J := vellipj ((2 * ellipk (k ^ 2) : ℝ) * q / (π : ℝ)) (k ^ 2)
      let minoTime := q / (upsilonR : ℝ)
      ((A * r1 ^ 2 - B * r2 ^ 2) / (A - B) : ℝ) * minoTime
        + (√(A * B) / √(1 - E ^ 2) : ℝ) * vellipeinc J.ph (k ^ 2)
        - ((A + B) * (A ^ 2 + 2 * r1 ^ 2 - B ^ 2 - 2 * r2 ^ 2)
          / (4 * (A - B) * √((1 - E ^ 2) * A * B)) : ℝ) * ellippiincV J.ph (-1 / f) (k ^ 2)
        - (√(A * B) : ℝ) * (A + B - (A - B) * J.cn) * J.sn * J.dn
          / (((A - B) * √(1 - E ^ 2) : ℝ) * (f + J.sn ^ 2))
        + ((A ^ 2 + 2 * r1 ^ 2 - B ^ 2 - 2 * r2 ^ 2) / (4 * (r2 - r1) * √(1 - E ^ 2)) : ℝ)
          * varctan2 (2 * J.sn * J.dn * (√(f * (1 + f * k ^ 2)) : ℝ))
            (f - (1 + 2 * f * k ^ 2 : ℝ) * J.sn ^ 2)
    IrPlus := plungeIrhV E A B r1 r2 upsilonR rPlus
    IrMinus := plungeIrhV E A B r1 r2 upsilonR rMinus }

/-- plunge.py:343-396 on arrays -/
noncomputable def plungingRadialSolutionsCoreV (a E L r1 r2 rhoR rhoI upsilonR : ℝ) : PhaseSolsV :=
  let rPlus := 1 + √(1 - a ^ 2)
  let rMinus := 1 - √(1 - a ^ 2)
  let A := plungeA r2 rhoR rhoI
  let B := plungeB r1 rhoR rhoI
  let k := plungeKR r1 r2 A B
  let I := plungingRadialIntegralsCoreV a E r1 r2 rhoR rhoI upsilonR
  { pos := fun q =>
      let J := vellipj ((2 * ellipk (k ^ 2) : ℝ) * q / (π : ℝ)) (k ^ 2)
      (((A - B) * (A * r1 - B * r2) : ℝ) * J.sn ^ 2 + 2 * A * B * (r1 + r2)
        - 2 * A * B * (r2 - r1) * J.cn) / (4 * A * B + ((A - B) ^ 2 : ℝ) * J.sn ^ 2)
    dt := fun q =>
      let minoTime := q / (upsilonR : ℝ)
      (E * (rPlus ^ 2 + rMinus ^ 2 + rPlus * rMinus + 2 * a ^ 2) : ℝ) * minoTime
        + E * (I.Ir2 q + I.Ir q * (rMinus + rPlus))
        + (((rMinus ^ 2 + a ^ 2) * (E * (rMinus ^ 2 + a ^ 2) - a * L) / (rMinus - rPlus) : ℝ)
            * I.IrMinus q
          + ((rPlus ^ 2 + a ^ 2) * (E * (rPlus ^ 2 + a ^ 2) - a * L) / (rPlus - rMinus) : ℝ)
            * I.IrPlus q)
    dphi := fun q =>
      a * (((E * (rMinus ^ 2 + a ^ 2) - a * L) / (rMinus - rPlus) : ℝ) * I.IrMinus q
        + ((E * (rPlus ^ 2 + a ^ 2) - a * L) / (rPlus - rMinus) : ℝ) * I.IrPlus q) }

/-- plunge.py:421-476 on arrays -/
noncomputable def plungingPolarSolutionsCoreV (a E L Q upsilonTheta : ℝ) : PhaseSolsV :=
  let z1 := plungeZ1 a E L Q
  let z2 := plungeZ2 a E L Q
  let k := plungeKTheta a E L Q
  { pos := fun q =>
      let minoTime := q / (upsilonTheta : ℝ)
      varccos (z1 * (vellipj (z2 * minoTime) (k ^ 2)).sn)
    dt := fun q =>
      let minoTime := q / (upsilonTheta : ℝ)
      (E / (1 - E ^ 2) : ℝ) * ((z2 ^ 2 - a ^ 2 * (1 - E ^ 2) : ℝ) * minoTime
        - z2 * vellipeinc (vellipj (z2 * minoTime) (k ^ 2)).ph (k ^ 2))
    dphi := fun q =>
      let minoTime := q / (upsilonTheta : ℝ)
      (L / z2 : ℝ) * ellippiincV (vellipj (z2 * minoTime) (k ^ 2)).ph (z1 ^ 2) (k ^ 2) }

/-- plunge.py:581-609 on arrays -/
noncomputable def assemblePlungeV (R P : PhaseSolsV) (uR uTheta : ℝ) (q : Phases) : TrajV :=
  let qth : ℝ := q.qtheta + π / 2
  let Ct := R.dt q.qr + P.dt qth
  let Cphi := R.dphi q.qr + P.dphi qth
  { t := fun lam => R.dt (uR * lam + q.qr) + P.dt (uTheta * lam + qth) - Ct + q.qt
    r := fun lam => R.pos (uR * lam + q.qr)
    theta := fun lam => P.pos (uTheta * lam + qth)
    phi := fun lam => R.dphi (uR * lam + q.qr) + P.dphi (uTheta * lam + qth) - Cphi + q.qphi }

/-- plunge.py:479-713 in natural units, the returned functions on arrays.  When `gamma` is infinite (see
`realPlungeTrajectoryNat`) so is the time coordinate, entry by entry. -/
noncomputable def plungingTrajectoryNatV (a E L Q : ℝ) (q : Phases) : Py TrajV := do
  let pr ← plungingRadialRoots a E L Q
  match pr with
  | .cplx r1 r2 r3 r4 => do
    let (uR, uTheta) ← plungingMinoFrequencies a E L Q
    return assemblePlungeV (plungingRadialSolutionsCoreV a E L r1 r2 r3.re r4.im uR)
      (plungingPolarSolutionsCoreV a E L Q uTheta) uR uTheta q
  | .real r1 r2 r3 r4 => do
    let (zMinus, zPlus) ← polarRootsNumpy a E L Q
    let rr := (r1, r2, r3, r4)
    let m := minoFrequenciesFromConstants a (E, L, Q) rr (zMinus, zPlus)
    let T := assembleTrajectoryV (radialSolutionsV a (E, L, Q) rr) (polarSolutionsCoreV a (E, L, Q) zMinus zPlus) m q
    return if gammaIsInf rr then { T with t := ufunc1 pyInfTimes } else T

/-- orbit.py:170-222 in natural units, the returned functions on arrays. -/
noncomputable def OrbitObj.trajectoryNatV (rs : RootScalar) (o : OrbitObj)
    (initialPhases : Option Phases := none) : Py TrajV :=
  let q := initialPhases.getD o.phases
  let (p, e, x) := o.apex
  let (E, L, Q) := o.consts
  if o.stable then stableTrajectoryNatV rs o.a p e x q
  else plungingTrajectoryNatV o.a E L Q q

/-- units.py:25-40, 43-58, 61-74, 95-110 on arrays -/
noncomputable def distanceInMetersV (d : Val) (M : ℝ) : Val :=
  d * (Units.G : ℝ) / (Units.c ^ 2 : ℝ) * (Units.massInKg M : ℝ)
/-- units.py:113-128 on arrays -/
noncomputable def timeInSecondsV (t : Val) (M : ℝ) : Val :=
  t * (Units.G : ℝ) / (Units.c ^ 3 : ℝ) * (Units.massInKg M : ℝ)

/-- Calling a conversion function `f(x, M)` on arrays, see `withM`. -/
noncomputable def withMV (f : Val → ℝ → Val) (x : Val) (M : Option ℝ) : Py Val :=
  match M with
  | none => .error .typeError
  | some M => .ok (f x M)

/-- stable.py:512-518 and 542 on arrays -/
noncomputable def convDistanceV (units : String) (M : Option ℝ) (x : Val) : Py Val :=
  if units = "natural" then .ok x
  else if units = "mks" then withMV distanceInMetersV x M
  else if units = "cgs" then withMV (fun d M => distanceInMetersV d M * (100 : ℝ)) x M
  else if units = "au" then withMV (fun d M => distanceInMetersV d M / (1.496e11 : ℝ)) x M
  else if units = "km" then withMV (fun d M => distanceInMetersV d M / (1000 : ℝ)) x M
  else .error (.keyError units)

/-- stable.py:519-524 and 532 on arrays -/
noncomputable def convTimeV (units : String) (M : Option ℝ) (x : Val) : Py Val :=
  if units = "natural" then .ok x
  else if units = "mks" then withMV timeInSecondsV x M
  else if units = "cgs" then withMV timeInSecondsV x M
  else if units = "days" then withMV (fun t M => timeInSecondsV t M / (86400 : ℝ)) x M
  else .error (.keyError units)

/-- `TrajPy` on arrays. -/
structure TrajPyV where
  t : Val → Py Val
  r : Val → Py Val
  theta : Val → Val
  phi : Val → Val

/-- orbit.py:170-222, stable.py:464-559, plunge.py:479-713: `trajectory` with unit conversions, the returned functions on
arrays. -/
noncomputable def OrbitObj.trajectoryV (rs : RootScalar) (o : OrbitObj)
    (initialPhases : Option Phases := none) (distanceUnits : String := "natural")
    (timeUnits : String := "natural") : Py TrajPyV := do
  let (E, L, Q) := o.consts
  if o.stable then unitsGuard o.M distanceUnits timeUnits
  else do
    let _ ← plungingRadialRoots o.a E L Q
    unitsGuard o.M distanceUnits timeUnits
  let T ← o.trajectoryNatV rs initialPhases
  return { t := fun lam => convTimeV timeUnits o.M (T.t lam)
           r := fun lam => convDistanceV distanceUnits o.M (T.r lam)
           theta := T.theta
           phi := T.phi }

/-- spacetime.py:125-210 on arrays -/
noncomputable def fourVelocityV (a : ℝ) (x : TrajV) (cs : Consts) (upsilonR upsilonTheta : ℝ)
    (q : Phases) : TrajV :=
  let (E, L, Q) := cs
  let R := fun r : Val => (E * (r ^ 2 + (a ^ 2 : ℝ)) - (a * L : ℝ)) ^ 2
    - (r ^ 2 - 2 * r + (a ^ 2 : ℝ)) * (r ^ 2 + ((a * E - L) ^ 2 : ℝ) + Q)
  let Z := fun z : Val => Q - (Q + a ^ 2 * (1 - E ^ 2) + L ^ 2 : ℝ) * z ^ 2 + (a ^ 2 * (1 - E ^ 2) : ℝ) * z ^ 4
  { t := fun time =>
      let delta := x.r time ^ 2 - 2 * x.r time + (a ^ 2 : ℝ)
      let sigma := x.r time ^ 2 + (a ^ 2 : ℝ) * vcos (x.theta time) ^ 2
      1 / sigma * ((x.r time ^ 2 + (a ^ 2 : ℝ)) / delta * (E * (x.r time ^ 2 + (a ^ 2 : ℝ)) - (a * L : ℝ))
        - (a ^ 2 * E : ℝ) * (1 - vcos (x.theta time) ^ 2) + (a * L : ℝ))
    r := fun time =>
      let qr := upsilonR * time + q.qr
      let sigma := x.r time ^ 2 + (a ^ 2 : ℝ) * vcos (x.theta time) ^ 2
      vcopysign1 (vsin qr) * vsqrt (vabs (R (x.r time))) / sigma
    theta := fun time =>
      let qtheta := upsilonTheta * time + q.qtheta
      let sigma := x.r time ^ 2 + (a ^ 2 : ℝ) * vcos (x.theta time) ^ 2
      vcopysign1 (vsin qtheta) * vsqrt (vabs (Z (vcos (x.theta time))))
        / (sigma * vsin (x.theta time))
    phi := fun time =>
      let sigma := x.r time ^ 2 + (a ^ 2 : ℝ) * vcos (x.theta time) ^ 2
      let delta := x.r time ^ 2 - 2 * x.r time + (a ^ 2 : ℝ)
      1 / sigma * (a / delta * (E * (x.r time ^ 2 + (a ^ 2 : ℝ)) - (a * L : ℝ))
        + L / (1 - vcos (x.theta time) ^ 2) - (a * E : ℝ)) }

/-- orbit.py:267-298 (`four_velocity`), the returned functions on arrays. -/
noncomputable def OrbitObj.fourVelocityV (rs : RootScalar) (o : OrbitObj)
    (initialPhases : Option Phases := none) : Py TrajV := do
  let q := initialPhases.getD o.phases
  let T ← o.trajectoryNatV rs (some q)
  return KGP.fourVelocityV o.a T o.consts o.upsilonR o.upsilonTheta q

/-- orbit.py:383-388 on arrays -/
noncomputable def fivePointV (f : Val → Val) (sigma : Val → Val) (dx : ℝ) (lam : Val) : Val :=
  (-f (lam + (2 * dx : ℝ)) + 8 * f (lam + dx) - 8 * f (lam - dx) + f (lam - (2 * dx : ℝ)))
    / ((12 * dx : ℝ) * sigma lam)

/-- orbit.py:358-417 (`numerical_four_velocity`), the returned functions on arrays. -/
noncomputable def OrbitObj.numericalFourVelocityV (rs : RootScalar) (o : OrbitObj)
    (dx : ℝ := 1e-6) (initialPhases : Option Phases := none) : Py TrajV := do
  let q := initialPhases.getD o.phases
  let T ← o.trajectoryNatV rs (some q)
  let sigma := fun lam => T.r lam ^ 2 + (o.a ^ 2 : ℝ) * vcos (T.theta lam) ^ 2
  return { t := fivePointV T.t sigma dx
           r := fivePointV T.r sigma dx
           theta := fivePointV T.theta sigma dx
           phi := fivePointV T.phi sigma dx }

/-- `DeltasV`: the four functions returned by `trajectory_deltas` on arrays. -/
structure DeltasV where
  dtR : Val → Val
  dtTheta : Val → Val
  dphiR : Val → Val
  dphiTheta : Val → Val

/-- orbit.py:163-168 on arrays -/
noncomputable def deltasOfV (R P : PhaseSolsV) (qr0 qtheta0 : ℝ) : DeltasV :=
  { dtR := fun q => R.dt (q + qr0)
    dtTheta := fun q => P.dt (q + qtheta0)
    dphiR := fun q => R.dphi (q + qr0)
    dphiTheta := fun q => P.dphi (q + qtheta0) }

/-- orbit.py:108-168 (`trajectory_deltas`), the returned functions on arrays. -/
noncomputable def OrbitObj.trajectoryDeltasV (rs : RootScalar) (o : OrbitObj)
    (initialPhases : Option Phases := none) : Py DeltasV := do
  let q := initialPhases.getD o.phases
  let (p, e, x) := o.apex
  let (E, L, Q) := o.consts
  if o.stable then
    let rr ← stableRadialRoots rs o.a p e x (some o.consts)
    let (zMinus, zPlus) ← stablePolarRoots rs o.a p e x (some o.consts)
    return deltasOfV (radialSolutionsV o.a o.consts rr) (polarSolutionsCoreV o.a o.consts zMinus zPlus) q.qr q.qtheta
  else
    let pr ← plungingRadialRoots o.a E L Q
    match pr with
    | .cplx r1 r2 r3 r4 => do
      let (uR, uTheta) ← plungingMinoFrequencies o.a E L Q
      return deltasOfV (plungingRadialSolutionsCoreV o.a E L r1 r2 r3.re r4.im uR)
        (plungingPolarSolutionsCoreV o.a E L Q uTheta) q.qr (q.qtheta + π / 2)
    | .real _ _ _ _ => .error (.valueError "unpack")

/-- `np.array(rows)` of a nested list of 16 entries (spacetime.py:90-98) for `np.dot`: numbers give a matrix; a mixture of
numbers and arrays is inhomogeneous and raises `ValueError` (numpy ≥ 1.24).  The entries `0` are always numbers. -/
noncomputable def npMatrix (rows : Fin 4 → Fin 4 → Val) : Py (Matrix (Fin 4) (Fin 4) ℝ) :=
  if h : ∀ i j, ∃ x, rows i j = .num x then .ok (Matrix.of fun i j => (h i j).choose)
  else .error (.valueError "setting an array element with a sequence")

/-- spacetime.py:69-98 (`metric`) on arrays -/
noncomputable def metricV (a : ℝ) (r theta : Val) : Py (Matrix (Fin 4) (Fin 4) ℝ) :=
  let sigma := r ^ 2 + (a ^ 2 : ℝ) * vcos theta ^ 2
  let delta := r ^ 2 - 2 * r + (a ^ 2 : ℝ)
  npMatrix
    ![![-(1 - 2 * r / sigma), 0, 0, (-2 * a : ℝ) * r * vsin theta ^ 2 / sigma],
      ![0, sigma / delta, 0, 0],
      ![0, 0, sigma, 0],
      ![(-2 * a : ℝ) * r * vsin theta ^ 2 / sigma, 0, 0,
        vsin theta ^ 2 * (r ^ 2 + (a ^ 2 : ℝ) + (2 * a ^ 2 : ℝ) * r * vsin theta ^ 2 / sigma)]]

/-- spacetime.py:101-123 (`norm`) on arrays: the metric is built first; the two products with `v` are only reached, and only
modelled, for numbers. -/
noncomputable def normV (a : ℝ) (r theta : Val) (v : Fin 4 → Val) : Py Val := do
  let g ← metricV a r theta
  if h : ∀ i, ∃ x, v i = .num x then
    let w : Fin 4 → ℝ := fun i => (h i).choose
    return .num (w ⬝ᵥ (g *ᵥ w))
  else .error (.valueError "shapes not aligned")

/-- orbit.py:300-327 (`_four_velocity_norm`), the returned function on arrays. -/
noncomputable def OrbitObj.fourVelocityNormV (rs : RootScalar) (o : OrbitObj)
    (initialPhases : Option Phases := none) : Py (Val → Py Val) := do
  let q := initialPhases.getD o.phases
  let T ← o.trajectoryNatV rs (some q)
  let U ← o.fourVelocityV rs (some q)
  return fun time => normV o.a (T.r time) (T.theta time) ![U.t time, U.r time, U.theta time, U.phi time]

/-- orbit.py:477-480 (also 717-720): the three columns of `trajectory`, from the array of times. -/
noncomputable def cartesianV (T : TrajV) (time : Val) : Val × Val × Val :=
  (T.r time * vsin (T.theta time) * vcos (T.phi time), T.r time * vsin (T.theta time) * vsin (T.phi time),
    T.r time * vcos (T.theta time))

end KGP
