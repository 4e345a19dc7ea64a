import Verif.Model.Plunge
import Mathlib.LinearAlgebra.Matrix.Determinant.Basic

/-!
# kerrgeopy/initial_conditions.py
-/

namespace KGP

open Classical Real

/-- `E, L = np.linalg.solve(A, b)` for a 2x2 system, initial_conditions.py:50.  Contract of the
external library: `LinAlgError` (a `ValueError`) for a singular matrix, otherwise the solution
(given here by Cramer's rule). -/
noncomputable def linalgSolve2 (a11 a12 a21 a22 b1 b2 : ℝ) : Py (ℝ × ℝ) :=
  let det := a11 * a22 - a12 * a21
  if det = 0 then .error (.valueError "Singular matrix")
  else .ok ((b1 * a22 - a12 * b2) / det, (a11 * b2 - b1 * a21) / det)

/-- initial_conditions.py:14-58 -/
noncomputable def constantsFromInitialConditions (a : ℝ) (pos vel : Vec4) : Py Consts := do
  let r0 := pos.r
  let theta0 := pos.theta
  let sigma := r0 ^ 2 + a ^ 2 * cos theta0 ^ 2
  let delta := r0 ^ 2 - 2 * r0 + a ^ 2
  let (E, L) ← linalgSolve2
    ((r0 ^ 2 + a ^ 2) ^ 2 / delta - a ^ 2 * (1 - cos theta0 ^ 2))
    (a - a * (r0 ^ 2 + a ^ 2) / delta)
    (a * (r0 ^ 2 + a ^ 2) / delta - a)
    (1 / (1 - cos theta0 ^ 2) - a ^ 2 / delta)
    (sigma * vel.t) (sigma * vel.phi)
  let Q := ((sigma * vel.theta * sin theta0) ^ 2
    + cos theta0 ^ 2 * (a ^ 2 * (1 - E ^ 2) * (1 - cos theta0 ^ 2) + L ^ 2))
    / (1 - cos theta0 ^ 2)
  return (E, L, Q)

/-- initial_conditions.py:104-127: the classification of `is_stable` once the roots are known.
Simplification: the bitwise `&` of the Python code is the conjunction. -/
noncomputable def classifyRoots (a r0 tol : ℝ) (roots : List ℂ) : Py Bool :=
  let rMinus := 1 - √(1 - a ^ 2)
  if (complexRoots roots).length = 4 then .error (.valueError "Not a physical orbit")
  else if (complexRoots roots).length = 2 then .ok false
  else
    match realRoots roots with
    | [r4, r3, r2, r1] =>
      if r2 < rMinus ∧ r0 ≤ r1 + tol ∧ r0 ≥ r2 - tol then .ok false
      else if r2 > rMinus ∧ r0 ≤ r1 + tol ∧ r0 ≥ r2 - tol then .ok true
      else if r2 > rMinus ∧ r0 ≤ r3 + tol ∧ r0 ≥ r4 - tol then .ok false
      else .error (.valueError "Not a physical orbit")
    | _ => .error (.valueError "unpack")

/-- `if constants is None: constants = constants_from_initial_conditions(...)`,
initial_conditions.py:87-88,179-180,305-306. -/
noncomputable def icConstantsOr (a : ℝ) (pos vel : Vec4) (cs : Option Consts) : Py Consts :=
  match cs with
  | none => constantsFromInitialConditions a pos vel
  | some cs => pure cs

/-- initial_conditions.py:61-127 -/
noncomputable def icIsStable (a : ℝ) (pos vel : Vec4) (cs : Option Consts := none)
    (tol : ℝ := 1e-4) : Py Bool := do
  let (E, L, Q) ← icConstantsOr a pos vel cs
  classifyRoots a pos.r tol (npRoots (radialPoly a E L Q))

/-- initial_conditions.py:207-230: the radial phase.  `passed` is the value of the variable
`radial_roots` handed to `_r_frequency_from_constants` (the ascending numpy array when the roots
are recomputed, the caller's tuple otherwise); `(r1, r2, r3, r4)` are the unpacked roots. -/
noncomputable def initialPhaseR (cs : Consts) (passed rr : Roots4) (r0 dr0 tol : ℝ)
    (upsilonR : Option ℝ) : ℝ :=
  let (E, _L, _Q) := cs
  let (r1, r2, r3, r4) := rr
  if |r0 - r2| < tol then 0
  else if |r0 - r1| < tol then π
  else
    let uR := match upsilonR with
      | none => rFrequencyCore E passed
      | some u => u
    let k := √((r1 - r2) * (r3 - r4) / ((r1 - r3) * (r2 - r4)))
    let y := √((r1 - r3) * (r0 - r2) / ((r1 - r2) * (r0 - r3)))
    let lam := 1 / √(1 - E ^ 2) * 2 / √((r1 - r3) * (r2 - r4)) * ellipkinc (arcsin y) (k ^ 2)
    if dr0 > 0 then lam * uR else 2 * π - lam * uR

/-- initial_conditions.py:255-261 (also 365-370): the three consecutive `if`s; the second one is
always overwritten by the third. -/
noncomputable def initialPhaseThetaBranch (theta0 dtheta0 lam uTheta : ℝ) : ℝ :=
  let q0 : ℝ := if dtheta0 < 0 then lam * uTheta + 3 * π / 2 else pyNan
  let q1 : ℝ := if dtheta0 = 0 ∧ theta0 = π / 2 then 0 else q0
  if dtheta0 ≥ 0 then π / 2 - lam * uTheta else q1

/-- initial_conditions.py:232-261: the polar phase. -/
noncomputable def initialPhaseTheta (a : ℝ) (cs : Consts) (passed : Roots4) (zz : ℝ × ℝ)
    (theta0 dtheta0 tol : ℝ) (upsilonTheta : Option ℝ) : ℝ :=
  let (E, L, _Q) := cs
  let (zMinus, zPlus) := zz
  let thetaMin := arccos (√zMinus)
  let thetaMax := π - thetaMin
  if |theta0 - thetaMin| < tol then 0
  else if |theta0 - thetaMax| < tol then π
  else
    let uTheta := match upsilonTheta with
      | none => thetaFrequencyFromConstants a cs passed zz
      | some u => u
    let k := √(zMinus / zPlus)
    let y := cos theta0 / √zMinus
    let e0zp := e0zpOf a E L zMinus
    let lam := 1 / (L * √e0zp) * ellipkinc (arcsin y) (k ^ 2)
    initialPhaseThetaBranch theta0 dtheta0 lam uTheta

/-- initial_conditions.py:130-266 -/
noncomputable def stableOrbitInitialPhases (a : ℝ) (pos vel : Vec4) (cs : Option Consts := none)
    (radialRoots : Option Roots4 := none) (upsilonR : Option ℝ := none)
    (upsilonTheta : Option ℝ := none) (tol : ℝ := 1e-4) : Py Phases := do
  let (E, L, Q) ← icConstantsOr a pos vel cs
  let zz ← polarRootsNumpy a E L Q
  let (passed, rr) ← match radialRoots with
    | none => do
      let (r4, r3, r2, r1) ← radialRootsNumpy a E L Q
      pure (((r4, r3, r2, r1) : Roots4), ((r1, r2, r3, r4) : Roots4))
    | some rr => pure (rr, rr)
  return { qt := pos.t
           qr := initialPhaseR (E, L, Q) passed rr pos.r vel.r tol upsilonR
           qtheta := initialPhaseTheta a (E, L, Q) passed zz pos.theta vel.theta tol upsilonTheta
           qphi := pos.phi }

/-- initial_conditions.py:314-374: complex-root plunge. -/
noncomputable def complexPlungeInitialPhases (a E L Q r1 r2 rhoR rhoI : ℝ) (pos vel : Vec4)
    (upsilonR upsilonTheta : ℝ) : Phases :=
  let z1 := plungeZ1 a E L Q
  let z2 := plungeZ2 a E L Q
  let kTheta := plungeKTheta a E L Q
  let A := plungeA r2 rhoR rhoI
  let B := plungeB r1 rhoR rhoI
  let k := plungeKR r1 r2 A B
  let lamR := (-1) / √((1 - E ^ 2) * A * B)
    * ellipkinc (π / 2 - arcsin ((B * (r2 - pos.r) - A * (pos.r - r1))
        / (B * (r2 - pos.r) + A * (pos.r - r1)))) (k ^ 2)
  let lamTheta := 1 / z2 * ellipkinc (arcsin (cos pos.theta / z1)) (kTheta ^ 2)
  { qt := pos.t
    qr := if vel.r > 0 then -lamR * upsilonR else 2 * π + lamR * upsilonR
    qtheta := initialPhaseThetaBranch pos.theta vel.theta lamTheta upsilonTheta
    qphi := pos.phi }

/-- initial_conditions.py:269-383.  For `radial_roots` passed by the caller see the simplification:
only the recomputed-roots call of `Orbit` is modelled. -/
noncomputable def plungingOrbitInitialPhases (a : ℝ) (pos vel : Vec4) (cs : Option Consts := none)
    (tol : ℝ := 1e-4) : Py Phases := do
  let (E, L, Q) ← icConstantsOr a pos vel cs
  let pr ← plungingRadialRoots a E L Q
  match pr with
  | .cplx r1 r2 r3 r4 => do
    let (uR, uTheta) ← plungingMinoFrequencies a E L Q
    return complexPlungeInitialPhases a E L Q r1 r2 r3.re r4.im pos vel uR uTheta
  | .real r1 r2 r3 r4 =>
    stableOrbitInitialPhases a pos vel (some (E, L, Q)) (some (r1, r2, r3, r4)) none none tol

end KGP
