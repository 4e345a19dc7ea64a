import Verif.Model.Constants
import Mathlib.Analysis.SpecialFunctions.Trigonometric.Inverse

/-!
# kerrgeopy/frequencies.py
-/

namespace KGP

open Classical Real

/-- frequencies.py:10-40.  Simplification: scalar argument only (the array case applies the same
formula elementwise); `num_cycles`, a float in Python, is an integer here. -/
noncomputable def ellipeincK (phi m : ℝ) : ℝ :=
  let numCycles : ℤ := ⌊phi / (π / 2)⌋
  let phi := |arcsin (sin phi)|
  let integral := sin phi * elliprf (cos phi ^ 2) (1 - m * sin phi ^ 2) 1
    - 1 / 3 * m * sin phi ^ 3 * elliprd (cos phi ^ 2) (1 - m * sin phi ^ 2) 1
  if numCycles % 2 = 0 then (numCycles : ℝ) * ellipe m + integral
  else ((numCycles : ℝ) + 1) * ellipe m - integral

/-- frequencies.py:43-59 -/
noncomputable def ellippiK (n m : ℝ) : ℝ :=
  elliprf 0 (1 - m) 1 + 1 / 3 * n * elliprj 0 (1 - m) 1 (1 - n)

/-- frequencies.py:62-94.  Same simplification as `ellipeincK`. -/
noncomputable def ellippiincK (phi n m : ℝ) : ℝ :=
  let numCycles : ℤ := ⌊phi / (π / 2)⌋
  let phi := |arcsin (sin phi)|
  let integral := sin phi * elliprf (cos phi ^ 2) (1 - m * sin phi ^ 2) 1
    + 1 / 3 * n * sin phi ^ 3
      * elliprj (cos phi ^ 2) (1 - m * sin phi ^ 2) 1 (1 - n * sin phi ^ 2)
  if numCycles % 2 = 0 then (numCycles : ℝ) * ellippiK n m + integral
  else ((numCycles : ℝ) + 1) * ellippiK n m - integral

/-- frequencies.py:120-129 (also 167-176, 226-235, 311-320): guards of the frequency functions. -/
noncomputable def frequencyGuard (rs : RootScalar) (a p e x : ℝ) : Py Unit := do
  raiseIf (a = 1) errExtreme
  raiseIf (x = 0) (.valueError "Polar orbits not supported")
  raiseIf (e = 1) (.valueError "Marginally bound orbits not supported")
  raiseIf (¬ validParams a e x) errParams
  let st ← isStable rs a p e x
  raiseIf (st = false) errUnstable

/-- `k_r`, frequencies.py:138 (also 265, 355, 547, 648, 726, stable.py:306,
initial_conditions.py:218). -/
noncomputable def kR (rr : Roots4) : ℝ :=
  let (r1, r2, r3, r4) := rr
  √((r1 - r2) * (r3 - r4) / ((r1 - r3) * (r2 - r4)))

/-- frequencies.py:136-140 and 545-549. -/
noncomputable def rFrequencyCore (E : ℝ) (rr : Roots4) : ℝ :=
  let (r1, r2, r3, r4) := rr
  π * √((1 - E ^ 2) * (r1 - r3) * (r2 - r4)) / (2 * ellipk (kR rr ^ 2))

/-- simplified `epsilon0*z_plus`, frequencies.py:191 (also 255, 586, 638, stable.py:414,
initial_conditions.py:250). -/
noncomputable def e0zpOf (a E L zMinus : ℝ) : ℝ :=
  (a ^ 2 * (1 - E ^ 2) * (1 - zMinus) + L ^ 2) / (L ^ 2 * (1 - zMinus))

/-- frequencies.py:188-194 and 583-589 (`a ≠ 0`). -/
noncomputable def thetaFrequencyCore (a E L zMinus zPlus : ℝ) : ℝ :=
  let kTheta := √(zMinus / zPlus)
  π * L * √(e0zpOf a E L zMinus) / (2 * ellipk (kTheta ^ 2))

/-- frequencies.py:254-279 and 637-662 (`a ≠ 0`). -/
noncomputable def phiFrequencyCore (a : ℝ) (cs : Consts) (rr : Roots4) (zz : ℝ × ℝ)
    (upsilonR upsilonTheta : ℝ) : ℝ :=
  let (E, L, _Q) := cs
  let (r1, r2, r3, r4) := rr
  let (zMinus, zPlus) := zz
  let e0zp := e0zpOf a E L zMinus
  let rPlus := 1 + √(1 - a ^ 2)
  let rMinus := 1 - √(1 - a ^ 2)
  let hPlus := (r1 - r2) * (r3 - rPlus) / ((r1 - r3) * (r2 - rPlus))
  let hMinus := (r1 - r2) * (r3 - rMinus) / ((r1 - r3) * (r2 - rMinus))
  let kTheta := √(zMinus / zPlus)
  let k := kR rr
  2 * upsilonTheta / (π * √e0zp) * ellippiK zMinus (kTheta ^ 2)
    + 2 * a * upsilonR / (π * (rPlus - rMinus) * √((1 - E ^ 2) * (r1 - r3) * (r2 - r4)))
      * ((2 * E * rPlus - a * L) / (r3 - rPlus)
          * (ellipk (k ^ 2) - (r2 - r3) / (r2 - rPlus) * ellippiK hPlus (k ^ 2))
        - (2 * E * rMinus - a * L) / (r3 - rMinus)
          * (ellipk (k ^ 2) - (r2 - r3) / (r2 - rMinus) * ellippiK hMinus (k ^ 2)))

/-- simplified `a**2*sqrt(z_plus/epsilon0)`, frequencies.py:332-338 (also 703-709,
stable.py:412-420). -/
noncomputable def a2sqrtZpOverE0 (a E L zMinus zPlus : ℝ) : ℝ :=
  let epsilon0 := a ^ 2 * (1 - E ^ 2) / L ^ 2
  if a = 0 then L ^ 2 / ((1 - E ^ 2) * √(1 - zMinus))
  else a ^ 2 * zPlus / √(epsilon0 * zPlus)

/-- `k_theta = 0 if a == 0 else sqrt(z_minus / z_plus)`, frequencies.py:354,725, stable.py:423. -/
noncomputable def kThetaOf (a zMinus zPlus : ℝ) : ℝ := if a = 0 then 0 else √(zMinus / zPlus)

/-- frequencies.py:332-389 and 703-760. -/
noncomputable def gammaCore (a : ℝ) (cs : Consts) (rr : Roots4) (zz : ℝ × ℝ)
    (upsilonR upsilonTheta : ℝ) : ℝ :=
  let (E, L, _Q) := cs
  let (r1, r2, r3, r4) := rr
  let (zMinus, zPlus) := zz
  let rPlus := 1 + √(1 - a ^ 2)
  let rMinus := 1 - √(1 - a ^ 2)
  let hR := (r1 - r2) / (r1 - r3)
  let hPlus := (r1 - r2) * (r3 - rPlus) / ((r1 - r3) * (r2 - rPlus))
  let hMinus := (r1 - r2) * (r3 - rMinus) / ((r1 - r3) * (r2 - rMinus))
  let kTheta := kThetaOf a zMinus zPlus
  let k := kR rr
  4 * E
    + 2 * a2sqrtZpOverE0 a E L zMinus zPlus * E * upsilonTheta
      * (ellipk (kTheta ^ 2) - ellipe (kTheta ^ 2)) / (π * L)
    + 2 * upsilonR / (π * √((1 - E ^ 2) * (r1 - r3) * (r2 - r4)))
      * (E / 2
          * ((r3 * (r1 + r2 + r3) - r1 * r2) * ellipk (k ^ 2)
            + (r2 - r3) * (r1 + r2 + r3 + r4) * ellippiK hR (k ^ 2)
            + (r1 - r3) * (r2 - r4) * ellipe (k ^ 2))
        + 2 * E * (r3 * ellipk (k ^ 2) + (r2 - r3) * ellippiK hR (k ^ 2))
        + 2 / (rPlus - rMinus)
          * (((4 * E - a * L) * rPlus - 2 * a ^ 2 * E) / (r3 - rPlus)
              * (ellipk (k ^ 2) - (r2 - r3) / (r2 - rPlus) * ellippiK hPlus (k ^ 2))
            - ((4 * E - a * L) * rMinus - 2 * a ^ 2 * E) / (r3 - rMinus)
              * (ellipk (k ^ 2) - (r2 - r3) / (r2 - rMinus) * ellippiK hMinus (k ^ 2))))

/-- frequencies.py:97-140 -/
noncomputable def rFrequency (rs : RootScalar) (a p e x : ℝ) (cs : Option Consts := none) :
    Py ℝ := do
  let (a, x) := standardizeParams a x
  frequencyGuard rs a p e x
  let cs ← constantsOr rs a p e x cs
  let rr ← stableRadialRoots rs a p e x (some cs)
  return rFrequencyCore cs.1 rr

/-- frequencies.py:143-194 -/
noncomputable def thetaFrequency (rs : RootScalar) (a p e x : ℝ) (cs : Option Consts := none) :
    Py ℝ := do
  let (a, x) := standardizeParams a x
  frequencyGuard rs a p e x
  if a = 0 then
    return p / √(-3 - e ^ 2 + p) * (if e = 0 then Real.sign x else 1)
  else
    let cs ← constantsOr rs a p e x cs
    let (zMinus, zPlus) ← stablePolarRoots rs a p e x (some cs)
    return thetaFrequencyCore a cs.1 cs.2.1 zMinus zPlus

/-- frequencies.py:197-279 -/
noncomputable def phiFrequency (rs : RootScalar) (a p e x : ℝ) (cs : Option Consts := none)
    (upsilonR : Option ℝ := none) (upsilonTheta : Option ℝ := none) : Py ℝ := do
  let (a, x) := standardizeParams a x
  frequencyGuard rs a p e x
  if a = 0 then
    return Real.sign x * p / √(-3 - e ^ 2 + p)
  else
    let cs ← constantsOr rs a p e x cs
    let rr ← stableRadialRoots rs a p e x (some cs)
    let zz ← stablePolarRoots rs a p e x (some cs)
    let uR ← match upsilonR with
      | none => rFrequency rs a p e x (some cs)
      | some u => pure u
    let uTheta ← match upsilonTheta with
      | none => thetaFrequency rs a p e x (some cs)
      | some u => pure u
    return phiFrequencyCore a cs rr zz uR uTheta

/-- frequencies.py:282-389.  The branch `if e == 1: return inf` (323-324) is unreachable: the guard
at 315 already rejected `e == 1`. -/
noncomputable def gamma (rs : RootScalar) (a p e x : ℝ) (cs : Option Consts := none)
    (upsilonR : Option ℝ := none) (upsilonTheta : Option ℝ := none) : Py ℝ := do
  let (a, x) := standardizeParams a x
  frequencyGuard rs a p e x
  if e = 1 then
    return pyInf
  else
    let cs ← constantsOr rs a p e x cs
    let rr ← stableRadialRoots rs a p e x (some cs)
    let zz ← stablePolarRoots rs a p e x (some cs)
    let uR ← match upsilonR with
      | none => rFrequency rs a p e x (some cs)
      | some u => pure u
    let uTheta ← match upsilonTheta with
      | none => thetaFrequency rs a p e x (some cs)
      | some u => pure u
    return gammaCore a cs rr zz uR uTheta

/-- `(upsilon_r, upsilon_theta, upsilon_phi, Gamma)` -/
structure MinoFreqs where
  upsilonR : ℝ
  upsilonTheta : ℝ
  upsilonPhi : ℝ
  gamma : ℝ

/-- frequencies.py:392-418 -/
noncomputable def minoFrequencies (rs : RootScalar) (a p e x : ℝ) : Py MinoFreqs := do
  let cs ← constantsOfMotion rs a p e x
  let uR ← rFrequency rs a p e x (some cs)
  let uTheta ← thetaFrequency rs a p e x (some cs)
  let uPhi ← phiFrequency rs a p e x (some cs) (some uR) (some uTheta)
  let G ← gamma rs a p e x (some cs) (some uR) (some uTheta)
  return ⟨uR, |uTheta|, uPhi, G⟩

/-- frequencies.py:421-446 -/
noncomputable def fundamentalFrequencies (rs : RootScalar) (a p e x : ℝ) : Py (ℝ × ℝ × ℝ) := do
  let cs ← constantsOfMotion rs a p e x
  let uR ← rFrequency rs a p e x (some cs)
  let uTheta ← thetaFrequency rs a p e x (some cs)
  let uPhi ← phiFrequency rs a p e x (some cs) (some uR) (some uTheta)
  let G ← gamma rs a p e x (some cs) (some uR) (some uTheta)
  return (uR / G, |uTheta| / G, uPhi / G)

/-- frequencies.py:552-589 -/
noncomputable def thetaFrequencyFromConstants (a : ℝ) (cs : Consts) (rr : Roots4) (zz : ℝ × ℝ) :
    ℝ :=
  let (r1, r2, _r3, _r4) := rr
  let (E, L, _Q) := cs
  if a = 0 then
    let p := 2 * r1 * r2 / (r1 + r2)
    let e := (r1 - r2) / (r1 + r2)
    p / npSqrt (-3 - e ^ 2 + p) * (if e = 0 then Real.sign L else 1)
  else thetaFrequencyCore a E L zz.1 zz.2

/-- frequencies.py:592-662, with both frequencies passed in (the only way the code calls it). -/
noncomputable def phiFrequencyFromConstants (a : ℝ) (cs : Consts) (rr : Roots4) (zz : ℝ × ℝ)
    (uR uTheta : ℝ) : ℝ :=
  let (r1, r2, _r3, _r4) := rr
  if a = 0 then
    let p := 2 * r1 * r2 / (r1 + r2)
    let e := (r1 - r2) / (r1 + r2)
    Real.sign cs.2.1 * p / √(-3 - e ^ 2 + p)
  else phiFrequencyCore a cs rr zz uR uTheta

/-- frequencies.py:695-699: `_gamma_from_constants` takes orbits with `e == 1` for marginally bound ones
and returns `inf`. -/
def gammaIsInf (rr : Roots4) : Prop := (rr.1 - rr.2.1) / (rr.1 + rr.2.1) = 1

/-- frequencies.py:665-760, with both frequencies passed in (the only way the code calls it). -/
noncomputable def gammaFromConstants (a : ℝ) (cs : Consts) (rr : Roots4) (zz : ℝ × ℝ)
    (uR uTheta : ℝ) : ℝ :=
  if gammaIsInf rr then pyInf else gammaCore a cs rr zz uR uTheta

/-- frequencies.py:763-794 -/
noncomputable def minoFrequenciesFromConstants (a : ℝ) (cs : Consts) (rr : Roots4) (zz : ℝ × ℝ) :
    MinoFreqs :=
  let uR := rFrequencyCore cs.1 rr
  let uTheta := thetaFrequencyFromConstants a cs rr zz
  let uPhi := phiFrequencyFromConstants a cs rr zz uR uTheta
  let G := gammaFromConstants a cs rr zz uR uTheta
  ⟨uR, |uTheta|, uPhi, G⟩

/-- frequencies.py:797-828 -/
noncomputable def fundamentalFrequenciesFromConstants (a : ℝ) (cs : Consts) (rr : Roots4)
    (zz : ℝ × ℝ) : ℝ × ℝ × ℝ :=
  let uR := rFrequencyCore cs.1 rr
  let uTheta := thetaFrequencyFromConstants a cs rr zz
  let uPhi := phiFrequencyFromConstants a cs rr zz uR uTheta
  let G := gammaFromConstants a cs rr zz uR uTheta
  (uR / G, |uTheta| / G, uPhi / G)

/-- `A`, `B` of equation 42: frequencies.py:476-477 (also plunge.py:182-183,352-353,
initial_conditions.py:345-346), with `rho_r = real(r3)`, `rho_i = imag(r4)`. -/
noncomputable def plungeA (r2 rhoR rhoI : ℝ) : ℝ := √((r2 - rhoR) ^ 2 + rhoI ^ 2)
noncomputable def plungeB (r1 rhoR rhoI : ℝ) : ℝ := √((r1 - rhoR) ^ 2 + rhoI ^ 2)

/-- equation 14, frequencies.py:484-495 (also initial_conditions.py:315-326, plunge.py:421-431). -/
noncomputable def plungeZ1 (a E L Q : ℝ) : ℝ :=
  √(1 / 2 * (1 + (L ^ 2 + Q) / (a ^ 2 * (1 - E ^ 2))
    - √((1 + (L ^ 2 + Q) / (a ^ 2 * (1 - E ^ 2))) ^ 2 - 4 * Q / (a ^ 2 * (1 - E ^ 2)))))

/-- equation 14, frequencies.py:496-508 (also initial_conditions.py:327-339, plunge.py:432-443). -/
noncomputable def plungeZ2 (a E L Q : ℝ) : ℝ :=
  √(a ^ 2 * (1 - E ^ 2) / 2 * (1 + (L ^ 2 + Q) / (a ^ 2 * (1 - E ^ 2))
    + √((1 + (L ^ 2 + Q) / (a ^ 2 * (1 - E ^ 2))) ^ 2 - 4 * Q / (a ^ 2 * (1 - E ^ 2)))))

/-- frequencies.py:509 (also initial_conditions.py:340, plunge.py:444). -/
noncomputable def plungeKTheta (a E L Q : ℝ) : ℝ :=
  a * √(1 - E ^ 2) * plungeZ1 a E L Q / plungeZ2 a E L Q

/-- frequencies.py:476-481: radial frequency of a complex-root plunge. -/
noncomputable def plungeUpsilonRComplex (E r1 r2 rhoR rhoI : ℝ) : ℝ :=
  let A := plungeA r2 rhoR rhoI
  let B := plungeB r1 rhoR rhoI
  let k := √(|((r2 - r1) ^ 2 - (A - B) ^ 2) / (4 * A * B)|)
  π * √(A * B * (1 - E ^ 2)) / (2 * ellipk (k ^ 2))

/-- frequencies.py:512: polar frequency of a complex-root plunge. -/
noncomputable def plungeUpsilonThetaComplex (a E L Q : ℝ) : ℝ :=
  π / 2 * plungeZ2 a E L Q / ellipk (plungeKTheta a E L Q ^ 2)

/-- frequencies.py:449-524.  `plungingMinoFrequenciesOf` is the part after
`plunging_radial_roots`. -/
noncomputable def plungingMinoFrequenciesOf (a E L Q : ℝ) (pr : PlungeRoots) : Py (ℝ × ℝ) :=
  match pr with
  | .cplx r1 r2 r3 r4 =>
    .ok (plungeUpsilonRComplex E r1 r2 r3.re r4.im, plungeUpsilonThetaComplex a E L Q)
  | .real r1 r2 r3 r4 => do
    let zz ← polarRootsNumpy a E L Q
    let m := minoFrequenciesFromConstants a (E, L, Q) (r1, r2, r3, r4) zz
    return (m.upsilonR, m.upsilonTheta)

/-- frequencies.py:449-524 -/
noncomputable def plungingMinoFrequencies (a E L Q : ℝ) : Py (ℝ × ℝ) := do
  let pr ← plungingRadialRoots a E L Q
  plungingMinoFrequenciesOf a E L Q pr

end KGP
