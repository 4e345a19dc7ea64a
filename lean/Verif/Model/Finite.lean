import Verif.Model.Stable

/-!
# The same functions in arithmetic with failing operations

The other model files compute in `ℝ`, where `x / 0 = 0` and `√x = 0` for `x < 0`.  Here the functions that
lead from `(a, p, e, x)` to the trajectory are written a second time, with the same structure, over `Fl`: a
number, or `exc` for everything that is not a finite real number in exact arithmetic (`inf`, `nan`,
`ZeroDivisionError`), which every later operation passes on.  Rounding and overflow are not modelled.
-/

namespace KGP

open Classical Real

/-- A finite real number or an exceptional value. -/
inductive Fl where
  | fin (x : ℝ)
  | exc

namespace Fl

/-- a total function -/
noncomputable def map (f : ℝ → ℝ) : Fl → Fl
  | fin x => fin (f x)
  | exc => exc

/-- a function with domain `P` -/
noncomputable def part (P : ℝ → Prop) (f : ℝ → ℝ) : Fl → Fl
  | fin x => if P x then fin (f x) else exc
  | exc => exc

/-- a function of two arguments with domain `P` -/
noncomputable def part2 (P : ℝ → ℝ → Prop) (f : ℝ → ℝ → ℝ) : Fl → Fl → Fl
  | fin x, fin y => if P x y then fin (f x y) else exc
  | _, _ => exc

instance : Coe ℝ Fl := ⟨fin⟩
instance {n : ℕ} [OfNat ℝ n] : OfNat Fl n := ⟨fin (OfNat.ofNat n)⟩
noncomputable instance : Add Fl := ⟨part2 (fun _ _ => True) (· + ·)⟩
noncomputable instance : Sub Fl := ⟨part2 (fun _ _ => True) (· - ·)⟩
noncomputable instance : Mul Fl := ⟨part2 (fun _ _ => True) (· * ·)⟩
noncomputable instance : Neg Fl := ⟨map (- ·)⟩
noncomputable instance : HPow Fl ℕ Fl := ⟨fun u n => u.map (· ^ n)⟩
/-- division: `x / 0` is `inf`, `nan` or a `ZeroDivisionError` -/
noncomputable instance : Div Fl := ⟨part2 (fun _ y => y ≠ 0) (· / ·)⟩

/-- `numpy.sqrt`: `nan` below zero -/
noncomputable def sqrt : Fl → Fl := part (0 ≤ ·) Real.sqrt
/-- `numpy.sin`, `numpy.cos`, `numpy.sign`, `abs` -/
noncomputable def sin : Fl → Fl := map Real.sin
noncomputable def cos : Fl → Fl := map Real.cos
noncomputable def sign : Fl → Fl := map Real.sign
noncomputable def abs : Fl → Fl := map (fun x => |x|)
/-- `numpy.arcsin`, `numpy.arccos`: `nan` outside `[-1, 1]` -/
noncomputable def arcsin : Fl → Fl := part (fun x => -1 ≤ x ∧ x ≤ 1) Real.arcsin
noncomputable def arccos : Fl → Fl := part (fun x => -1 ≤ x ∧ x ≤ 1) Real.arccos
/-- `numpy.floor` -/
noncomputable def floor : Fl → Fl := map (fun x => (⌊x⌋ : ℝ))
/-- `scipy.special.ellipk`: `inf` at 1, `nan` above -/
noncomputable def ellipk : Fl → Fl := part (· < 1) KGP.ellipk
/-- `scipy.special.ellipe`: `nan` above 1 -/
noncomputable def ellipe : Fl → Fl := part (· ≤ 1) KGP.ellipe
/-- Carlson's integrals: non-negative arguments of which at most one vanishes (here `z = 1` always), and
`p ≠ 0`; otherwise `scipy` returns `inf` or `nan`. -/
noncomputable def elliprf1 : Fl → Fl → Fl :=
  part2 (fun x y => 0 ≤ x ∧ 0 ≤ y ∧ 0 < x + y) (fun x y => KGP.elliprf x y 1)
noncomputable def elliprd1 : Fl → Fl → Fl :=
  part2 (fun x y => 0 ≤ x ∧ 0 ≤ y ∧ 0 < x + y) (fun x y => KGP.elliprd x y 1)
noncomputable def elliprj1 (u v : Fl) : Fl → Fl
  | fin p => part2 (fun x y => 0 ≤ x ∧ 0 ≤ y ∧ 0 < x + y ∧ p ≠ 0) (fun x y => KGP.elliprj x y 1 p) u v
  | exc => exc
/-- `scipy.special.ellipj(u, m)`: `nan` unless `0 ≤ m ≤ 1`; the components `sn`, `cn`, `ph` -/
noncomputable def ellipjSn : Fl → Fl → Fl := part2 (fun _ m => 0 ≤ m ∧ m ≤ 1) (fun u m => (KGP.ellipj u m).sn)
noncomputable def ellipjCn : Fl → Fl → Fl := part2 (fun _ m => 0 ≤ m ∧ m ≤ 1) (fun u m => (KGP.ellipj u m).cn)
noncomputable def ellipjPh : Fl → Fl → Fl := part2 (fun _ m => 0 ≤ m ∧ m ≤ 1) (fun u m => (KGP.ellipj u m).ph)

end Fl

open Fl

/-! ## constants.py -/

/-- `(f, g, h, d)` -/
structure CoeffsN where
  f : Fl
  g : Fl
  h : Fl
  d : Fl

/-- constants.py:145-169 -/
noncomputable def coefficientsN (r : Fl) (a x : ℝ) : CoeffsN :=
  let z := Fl.sqrt (1 - (x : Fl) ^ 2)
  let delta := r ^ 2 - 2 * r + (a : Fl) ^ 2
  { f := r ^ 4 + (a : Fl) ^ 2 * (r * (r + 2) + z ^ 2 * delta)
    g := 2 * (a : Fl) * r
    h := r * (r - 2) + z ^ 2 / (1 - z ^ 2) * delta
    d := (r ^ 2 + (a : Fl) ^ 2 * z ^ 2) * delta }

/-- constants.py:172-195 -/
noncomputable def coefficientsDerivativeN (r : Fl) (a x : ℝ) : CoeffsN :=
  let z := Fl.sqrt (1 - (x : Fl) ^ 2)
  { f := 4 * r ^ 3 + 2 * (a : Fl) ^ 2 * ((1 + z ^ 2) * r + (1 - z ^ 2))
    g := 2 * (a : Fl)
    h := 2 * (r - 1) / (1 - z ^ 2)
    d := 2 * (2 * r - 3) * r ^ 2 + 2 * (a : Fl) ^ 2 * ((1 + z ^ 2) * r - z ^ 2) }

/-- constants.py:280-297 -/
noncomputable def schmidtEnergyN (x : ℝ) (c1 c2 : CoeffsN) : Fl :=
  let kappa := c1.d * c2.h - c1.h * c2.d
  let rho := c1.f * c2.h - c1.h * c2.f
  let sigma := c1.g * c2.h - c1.h * c2.g
  let epsilon := c1.d * c2.g - c1.g * c2.d
  let eta := c1.f * c2.g - c1.g * c2.f
  Fl.sqrt ((kappa * rho + 2 * epsilon * sigma
      - (Real.sign x : Fl) * 2
        * Fl.sqrt (sigma * (sigma * epsilon ^ 2 + rho * epsilon * kappa - eta * kappa ^ 2)))
    / (rho ^ 2 + 4 * eta * sigma))

/-- constants.py:261-263 and 401-403 -/
noncomputable def polarDenominatorN (a p e : ℝ) : Fl :=
  (a : Fl) ^ 4 * (-1 + (e : Fl) ^ 2) ^ 2 * (-1 + (e : Fl) ^ 2 - p) + (3 + (e : Fl) ^ 2 - p) * (p : Fl) ^ 4
    - 2 * (a : Fl) ^ 2 * (p : Fl) ^ 2 * (-1 - (e : Fl) ^ 4 + p + (e : Fl) ^ 2 * (2 + p))

/-- constants.py:243-297 -/
noncomputable def energyFormulaN (a p e x : ℝ) : Fl :=
  if e = 1 then 1
  else if x = 0 then
    Fl.sqrt (-(((p : Fl) * ((a : Fl) ^ 4 * (-1 + (e : Fl) ^ 2) ^ 2
          + (-4 * (e : Fl) ^ 2 + (-2 + (p : Fl)) ^ 2) * (p : Fl) ^ 2
          + 2 * (a : Fl) ^ 2 * p * (-2 + (p : Fl) + (e : Fl) ^ 2 * (2 + (p : Fl)))))
        / polarDenominatorN a p e))
  else if e = 0 then
    schmidtEnergyN x (coefficientsN p a x) (coefficientsDerivativeN p a x)
  else
    schmidtEnergyN x (coefficientsN ((p : Fl) / (1 - (e : Fl))) a x) (coefficientsN ((p : Fl) / (1 + (e : Fl))) a x)

/-- constants.py:344,351 -/
noncomputable def solveLN (x : ℝ) (E : Fl) (c : CoeffsN) : Fl :=
  (-E * c.g + (Real.sign x : Fl) * Fl.sqrt (-c.d * c.h + E ^ 2 * (c.g ^ 2 + c.f * c.h))) / c.h

/-- constants.py:335-351 -/
noncomputable def angularMomentumFormulaN (a p e x : ℝ) (E : Fl) : Fl :=
  if x = 0 then 0
  else if e = 1 then solveLN x E (coefficientsN ((p : Fl) / (1 + (e : Fl))) a x)
  else solveLN x E (coefficientsN ((p : Fl) / (1 - (e : Fl))) a x)

/-- constants.py:391-405 -/
noncomputable def carterPolarFormulaN (a p e : ℝ) : Fl :=
  -(((p : Fl) ^ 2 * ((a : Fl) ^ 4 * (-1 + (e : Fl) ^ 2) ^ 2 + (p : Fl) ^ 4
      + 2 * (a : Fl) ^ 2 * p * (-2 + (p : Fl) + (e : Fl) ^ 2 * (2 + (p : Fl)))))
    / polarDenominatorN a p e)

/-- constants.py:407,414 -/
noncomputable def carterFormulaN (a x : ℝ) (E L : Fl) : Fl :=
  let z := Fl.sqrt (1 - (x : Fl) ^ 2)
  z ^ 2 * ((a : Fl) ^ 2 * (1 - E ^ 2) + L ^ 2 / (1 - z ^ 2))

/-- `(E, L, Q)` -/
abbrev ConstsN := Fl × Fl × Fl
/-- `(r1, r2, r3, r4)` -/
abbrev Roots4N := Fl × Fl × Fl × Fl

/-- constants.py:417-440 with the functions it calls (constants.py:216-414); the checks, made three times by
the Python code with the same outcome (C11), are made once here. -/
noncomputable def constantsOfMotionN (rs : RootScalar) (a p e x : ℝ) : Py ConstsN := do
  let (a, x) := standardizeParams a x
  constantsGuard rs a p e x
  let E := energyFormulaN a p e x
  let L := angularMomentumFormulaN a p e x E
  return (E, L, if x = 0 then carterPolarFormulaN a p e else carterFormulaN a x E L)

/-- constants.py:39-48 -/
noncomputable def stableRadialRootsN (a p e : ℝ) (cs : ConstsN) : Roots4N :=
  let (E, _L, Q) := cs
  let r1 := (p : Fl) / (1 - (e : Fl))
  let r2 := (p : Fl) / (1 + (e : Fl))
  let AplusB := 2 / (1 - E ^ 2) - r1 - r2
  let AB := (a : Fl) ^ 2 * Q / (r1 * r2 * (1 - E ^ 2))
  let r3 := (AplusB + Fl.sqrt (AplusB ^ 2 - 4 * AB)) / 2
  let r4 := AB / r3
  (r1, r2, r3, r4)

/-- constants.py:135-142; for `a = 0` Python stores `nan` in `z_plus` on purpose -/
noncomputable def stablePolarRootsN (a x : ℝ) (cs : ConstsN) : Fl × Fl :=
  let (E, L, _Q) := cs
  let epsilon0 := (a : Fl) ^ 2 * (1 - E ^ 2) / L ^ 2
  let zMinus := 1 - (x : Fl) ^ 2
  let zPlus := if a = 0 then .exc else 1 + 1 / (epsilon0 * (1 - zMinus))
  (zMinus, zPlus)

/-! ## frequencies.py -/

/-- frequencies.py:10-40 -/
noncomputable def ellipeincN (phi m : Fl) : Fl :=
  let numCycles := Fl.floor (phi / ((π : Fl) / 2))
  let phi := Fl.abs (Fl.arcsin (Fl.sin phi))
  let integral := Fl.sin phi * Fl.elliprf1 (Fl.cos phi ^ 2) (1 - m * Fl.sin phi ^ 2)
    - 1 / 3 * m * Fl.sin phi ^ 3 * Fl.elliprd1 (Fl.cos phi ^ 2) (1 - m * Fl.sin phi ^ 2)
  match numCycles with
  | .exc => .exc
  | .fin n => if ⌊n⌋ % 2 = 0 then (n : Fl) * Fl.ellipe m + integral else ((n : Fl) + 1) * Fl.ellipe m - integral

/-- frequencies.py:43-59 -/
noncomputable def ellippiN (n m : Fl) : Fl :=
  Fl.elliprf1 0 (1 - m) + 1 / 3 * n * Fl.elliprj1 0 (1 - m) (1 - n)

/-- frequencies.py:62-94 -/
noncomputable def ellippiincN (phi n m : Fl) : Fl :=
  let numCycles := Fl.floor (phi / ((π : Fl) / 2))
  let phi := Fl.abs (Fl.arcsin (Fl.sin phi))
  let integral := Fl.sin phi * Fl.elliprf1 (Fl.cos phi ^ 2) (1 - m * Fl.sin phi ^ 2)
    + 1 / 3 * n * Fl.sin phi ^ 3
      * Fl.elliprj1 (Fl.cos phi ^ 2) (1 - m * Fl.sin phi ^ 2) (1 - n * Fl.sin phi ^ 2)
  match numCycles with
  | .exc => .exc
  | .fin k => if ⌊k⌋ % 2 = 0 then (k : Fl) * ellippiN n m + integral else ((k : Fl) + 1) * ellippiN n m - integral

/-- frequencies.py:138 -/
noncomputable def kRN (rr : Roots4N) : Fl :=
  let (r1, r2, r3, r4) := rr
  Fl.sqrt ((r1 - r2) * (r3 - r4) / ((r1 - r3) * (r2 - r4)))

/-- frequencies.py:136-140 -/
noncomputable def rFrequencyN (E : Fl) (rr : Roots4N) : Fl :=
  let (r1, r2, r3, r4) := rr
  (π : Fl) * Fl.sqrt ((1 - E ^ 2) * (r1 - r3) * (r2 - r4)) / (2 * Fl.ellipk (kRN rr ^ 2))

/-- frequencies.py:191 -/
noncomputable def e0zpN (a : ℝ) (E L zMinus : Fl) : Fl :=
  ((a : Fl) ^ 2 * (1 - E ^ 2) * (1 - zMinus) + L ^ 2) / (L ^ 2 * (1 - zMinus))

/-- frequencies.py:178-194 -/
noncomputable def thetaFrequencyN (a p e x : ℝ) (cs : ConstsN) (zz : Fl × Fl) : Fl :=
  if a = 0 then (p : Fl) / Fl.sqrt (-3 - (e : Fl) ^ 2 + p) * (if e = 0 then (Real.sign x : Fl) else 1)
  else
    let (E, L, _Q) := cs
    let (zMinus, zPlus) := zz
    let kTheta := Fl.sqrt (zMinus / zPlus)
    (π : Fl) * L * Fl.sqrt (e0zpN a E L zMinus) / (2 * Fl.ellipk (kTheta ^ 2))

/-- frequencies.py:237-279 -/
noncomputable def phiFrequencyN (a p e x : ℝ) (cs : ConstsN) (rr : Roots4N) (zz : Fl × Fl)
    (upsilonR upsilonTheta : Fl) : Fl :=
  if a = 0 then (Real.sign x : Fl) * p / Fl.sqrt (-3 - (e : Fl) ^ 2 + p)
  else
  let (E, L, _Q) := cs
  let (r1, r2, r3, r4) := rr
  let (zMinus, zPlus) := zz
  let e0zp := e0zpN a E L zMinus
  let rPlus := 1 + Fl.sqrt (1 - (a : Fl) ^ 2)
  let rMinus := 1 - Fl.sqrt (1 - (a : Fl) ^ 2)
  let hPlus := (r1 - r2) * (r3 - rPlus) / ((r1 - r3) * (r2 - rPlus))
  let hMinus := (r1 - r2) * (r3 - rMinus) / ((r1 - r3) * (r2 - rMinus))
  let kTheta := Fl.sqrt (zMinus / zPlus)
  let k := kRN rr
  2 * upsilonTheta / ((π : Fl) * Fl.sqrt e0zp) * ellippiN zMinus (kTheta ^ 2)
    + 2 * (a : Fl) * upsilonR / ((π : Fl) * (rPlus - rMinus) * Fl.sqrt ((1 - E ^ 2) * (r1 - r3) * (r2 - r4)))
      * ((2 * E * rPlus - (a : Fl) * L) / (r3 - rPlus)
          * (Fl.ellipk (k ^ 2) - (r2 - r3) / (r2 - rPlus) * ellippiN hPlus (k ^ 2))
        - (2 * E * rMinus - (a : Fl) * L) / (r3 - rMinus)
          * (Fl.ellipk (k ^ 2) - (r2 - r3) / (r2 - rMinus) * ellippiN hMinus (k ^ 2)))

/-- frequencies.py:332-338 -/
noncomputable def a2sqrtZpOverE0N (a : ℝ) (E L zMinus zPlus : Fl) : Fl :=
  let epsilon0 := (a : Fl) ^ 2 * (1 - E ^ 2) / L ^ 2
  if a = 0 then L ^ 2 / ((1 - E ^ 2) * Fl.sqrt (1 - zMinus))
  else (a : Fl) ^ 2 * zPlus / Fl.sqrt (epsilon0 * zPlus)

/-- frequencies.py:354 -/
noncomputable def kThetaN (a : ℝ) (zMinus zPlus : Fl) : Fl := if a = 0 then 0 else Fl.sqrt (zMinus / zPlus)

/-- frequencies.py:332-389 -/
noncomputable def gammaN (a : ℝ) (cs : ConstsN) (rr : Roots4N) (zz : Fl × Fl)
    (upsilonR upsilonTheta : Fl) : Fl :=
  let (E, L, _Q) := cs
  let (r1, r2, r3, r4) := rr
  let (zMinus, zPlus) := zz
  let rPlus := 1 + Fl.sqrt (1 - (a : Fl) ^ 2)
  let rMinus := 1 - Fl.sqrt (1 - (a : Fl) ^ 2)
  let hR := (r1 - r2) / (r1 - r3)
  let hPlus := (r1 - r2) * (r3 - rPlus) / ((r1 - r3) * (r2 - rPlus))
  let hMinus := (r1 - r2) * (r3 - rMinus) / ((r1 - r3) * (r2 - rMinus))
  let kTheta := kThetaN a zMinus zPlus
  let k := kRN rr
  4 * E
    + 2 * a2sqrtZpOverE0N a E L zMinus zPlus * E * upsilonTheta
      * (Fl.ellipk (kTheta ^ 2) - Fl.ellipe (kTheta ^ 2)) / ((π : Fl) * L)
    + 2 * upsilonR / ((π : Fl) * Fl.sqrt ((1 - E ^ 2) * (r1 - r3) * (r2 - r4)))
      * (E / 2
          * ((r3 * (r1 + r2 + r3) - r1 * r2) * Fl.ellipk (k ^ 2)
            + (r2 - r3) * (r1 + r2 + r3 + r4) * ellippiN hR (k ^ 2)
            + (r1 - r3) * (r2 - r4) * Fl.ellipe (k ^ 2))
        + 2 * E * (r3 * Fl.ellipk (k ^ 2) + (r2 - r3) * ellippiN hR (k ^ 2))
        + 2 / (rPlus - rMinus)
          * (((4 * E - (a : Fl) * L) * rPlus - 2 * (a : Fl) ^ 2 * E) / (r3 - rPlus)
              * (Fl.ellipk (k ^ 2) - (r2 - r3) / (r2 - rPlus) * ellippiN hPlus (k ^ 2))
            - ((4 * E - (a : Fl) * L) * rMinus - 2 * (a : Fl) ^ 2 * E) / (r3 - rMinus)
              * (Fl.ellipk (k ^ 2) - (r2 - r3) / (r2 - rMinus) * ellippiN hMinus (k ^ 2))))

/-- `(upsilon_r, upsilon_theta, upsilon_phi, Gamma)` -/
structure MinoFreqsN where
  upsilonR : Fl
  upsilonTheta : Fl
  upsilonPhi : Fl
  gamma : Fl

/-- frequencies.py:392-418 after the checks -/
noncomputable def minoN (a p e x : ℝ) (cs : ConstsN) (rr : Roots4N) (zz : Fl × Fl) : MinoFreqsN :=
  let uR := rFrequencyN cs.1 rr
  let uTheta := thetaFrequencyN a p e x cs zz
  let uPhi := phiFrequencyN a p e x cs rr zz uR uTheta
  let G := gammaN a cs rr zz uR uTheta
  ⟨uR, Fl.abs uTheta, uPhi, G⟩

/-- frequencies.py:392-418, with the frequency functions it calls.  The Python code calls
`constants_of_motion` with the given `a`, `x` and the frequency functions standardise them again. -/
noncomputable def minoFrequenciesN (rs : RootScalar) (a p e x : ℝ) : Py MinoFreqsN := do
  let cs ← constantsOfMotionN rs a p e x
  let (a, x) := standardizeParams a x
  frequencyGuard rs a p e x
  return minoN a p e x cs (stableRadialRootsN a p e cs) (stablePolarRootsN a x cs)

/-- frequencies.py:421-446 -/
noncomputable def fundamentalFrequenciesN (rs : RootScalar) (a p e x : ℝ) : Py (Fl × Fl × Fl) := do
  let m ← minoFrequenciesN rs a p e x
  return (m.upsilonR / m.gamma, m.upsilonTheta / m.gamma, m.upsilonPhi / m.gamma)

/-! ## stable.py -/

/-- functions of a phase -/
structure PhaseSolsN where
  pos : Fl → Fl
  dt : Fl → Fl
  dphi : Fl → Fl

/-- stable.py:272-385 -/
noncomputable def radialSolutionsN (a : ℝ) (cs : ConstsN) (rr : Roots4N) : PhaseSolsN :=
  let (E, L, _Q) := cs
  let (r1, r2, r3, r4) := rr
  let rPlus := 1 + Fl.sqrt (1 - (a : Fl) ^ 2)
  let rMinus := 1 - Fl.sqrt (1 - (a : Fl) ^ 2)
  let hR := (r1 - r2) / (r1 - r3)
  let hPlus := (r1 - r2) * (r3 - rPlus) / ((r1 - r3) * (r2 - rPlus))
  let hMinus := (r1 - r2) * (r3 - rMinus) / ((r1 - r3) * (r2 - rMinus))
  let k := Fl.sqrt ((r1 - r2) * (r3 - r4) / ((r1 - r3) * (r2 - r4)))
  { pos := fun q =>
      let uR := Fl.ellipk (k ^ 2) * q / (π : Fl)
      let sn := Fl.ellipjSn uR (k ^ 2)
      (r3 * (r1 - r2) * sn ^ 2 - r2 * (r1 - r3)) / ((r1 - r2) * sn ^ 2 - (r1 - r3))
    dt := fun q =>
      let uR := Fl.ellipk (k ^ 2) * q / (π : Fl)
      let sn := Fl.ellipjSn uR (k ^ 2)
      let cn := Fl.ellipjCn uR (k ^ 2)
      let ph := Fl.ellipjPh uR (k ^ 2)
      2 / Fl.sqrt ((1 - E ^ 2) * (r1 - r3) * (r2 - r4))
        * (E / 2
            * ((r2 - r3) * (r1 + r2 + r3 + r4)
                * (ellippiincN ph hR (k ^ 2) - q / (π : Fl) * ellippiN hR (k ^ 2))
              + (r1 - r3) * (r2 - r4)
                * (ellipeincN ph (k ^ 2)
                  + hR * sn * cn * Fl.sqrt (1 - k ^ 2 * sn ^ 2) / (hR * sn ^ 2 - 1)
                  - q / (π : Fl) * Fl.ellipe (k ^ 2)))
          + 2 * E * (r2 - r3) * (ellippiincN ph hR (k ^ 2) - q / (π : Fl) * ellippiN hR (k ^ 2))
          - 2 / (rPlus - rMinus)
            * (((4 * E - (a : Fl) * L) * rPlus - 2 * (a : Fl) ^ 2 * E) * (r2 - r3)
                / ((r3 - rPlus) * (r2 - rPlus))
                * (ellippiincN ph hPlus (k ^ 2) - q / (π : Fl) * ellippiN hPlus (k ^ 2))
              - ((4 * E - (a : Fl) * L) * rMinus - 2 * (a : Fl) ^ 2 * E) * (r2 - r3)
                / ((r3 - rMinus) * (r2 - rMinus))
                * (ellippiincN ph hMinus (k ^ 2) - q / (π : Fl) * ellippiN hMinus (k ^ 2))))
    dphi := fun q =>
      let uR := Fl.ellipk (k ^ 2) * q / (π : Fl)
      let ph := Fl.ellipjPh uR (k ^ 2)
      (-2) * (a : Fl) / ((rPlus - rMinus) * Fl.sqrt ((1 - E ^ 2) * (r1 - r3) * (r2 - r4)))
        * ((2 * E * rPlus - (a : Fl) * L) * (r2 - r3) / ((r3 - rPlus) * (r2 - rPlus))
            * (ellippiincN ph hPlus (k ^ 2) - q / (π : Fl) * ellippiN hPlus (k ^ 2))
          - (2 * E * rMinus - (a : Fl) * L) * (r2 - r3) / ((r3 - rMinus) * (r2 - rMinus))
            * (ellippiincN ph hMinus (k ^ 2) - q / (π : Fl) * ellippiN hMinus (k ^ 2))) }

/-- stable.py:410-461 -/
noncomputable def polarSolutionsN (a : ℝ) (cs : ConstsN) (zz : Fl × Fl) : PhaseSolsN :=
  let (E, L, _Q) := cs
  let (zMinus, zPlus) := zz
  let e0zp := e0zpN a E L zMinus
  let a2s := a2sqrtZpOverE0N a E L zMinus zPlus
  let k := kThetaN a zMinus zPlus
  { pos := fun q =>
      let u := 2 / (π : Fl) * Fl.ellipk (k ^ 2) * (q + (π : Fl) / 2)
      Fl.arccos (Fl.sqrt zMinus * Fl.ellipjSn u (k ^ 2))
    dt := fun q =>
      let u := 2 / (π : Fl) * Fl.ellipk (k ^ 2) * (q + (π : Fl) / 2)
      Fl.sign L * a2s * E / L
        * (2 / (π : Fl) * Fl.ellipe (k ^ 2) * (q + (π : Fl) / 2) - ellipeincN (Fl.ellipjPh u (k ^ 2)) (k ^ 2))
    dphi := fun q =>
      let u := 2 / (π : Fl) * Fl.ellipk (k ^ 2) * (q + (π : Fl) / 2)
      Fl.sign L * 1 / Fl.sqrt e0zp
        * (ellippiincN (Fl.ellipjPh u (k ^ 2)) zMinus (k ^ 2)
          - 2 / (π : Fl) * ellippiN zMinus (k ^ 2) * (q + (π : Fl) / 2)) }

/-- A trajectory: functions of Mino time. -/
structure TrajN where
  t : ℝ → Fl
  r : ℝ → Fl
  theta : ℝ → Fl
  phi : ℝ → Fl

/-- stable.py:526-557 -/
noncomputable def assembleTrajectoryN (R P : PhaseSolsN) (m : MinoFreqsN) (q : Phases) : TrajN :=
  let Ct := R.dt q.qr + P.dt q.qtheta
  let Cphi := R.dphi q.qr + P.dphi q.qtheta
  { t := fun lam => (q.qt : Fl) + m.gamma * lam + R.dt (m.upsilonR * lam + q.qr)
      + P.dt (m.upsilonTheta * lam + q.qtheta) - Ct
    r := fun lam => R.pos (m.upsilonR * lam + q.qr)
    theta := fun lam => P.pos (m.upsilonTheta * lam + q.qtheta)
    phi := fun lam => (q.qphi : Fl) + m.upsilonPhi * lam + R.dphi (m.upsilonR * lam + q.qr)
      + P.dphi (m.upsilonTheta * lam + q.qtheta) - Cphi }

/-- stable.py:503-559 in natural units; `radial_solutions`, `polar_solutions` and the roots get the `a`, `x`
of the caller. -/
noncomputable def stableTrajectoryN (rs : RootScalar) (a p e x : ℝ) (q : Phases) : Py TrajN := do
  let m ← minoFrequenciesN rs a p e x
  let cs ← constantsOfMotionN rs a p e x
  return assembleTrajectoryN (radialSolutionsN a cs (stableRadialRootsN a p e cs))
    (polarSolutionsN a cs (stablePolarRootsN a x cs)) m q

/-- spacetime.py:125-210 -/
noncomputable def fourVelocityN (a : ℝ) (T : TrajN) (cs : ConstsN) (upsilonR upsilonTheta : Fl)
    (q : Phases) : TrajN :=
  let (E, L, Q) := cs
  { t := fun lam =>
      let r := T.r lam
      let z := Fl.cos (T.theta lam)
      let delta := r ^ 2 - 2 * r + (a : Fl) ^ 2
      let sigma := r ^ 2 + (a : Fl) ^ 2 * z ^ 2
      1 / sigma * ((r ^ 2 + (a : Fl) ^ 2) / delta * (E * (r ^ 2 + (a : Fl) ^ 2) - (a : Fl) * L)
        - (a : Fl) ^ 2 * E * (1 - z ^ 2) + (a : Fl) * L)
    r := fun lam =>
      let r := T.r lam
      let sigma := r ^ 2 + (a : Fl) ^ 2 * Fl.cos (T.theta lam) ^ 2
      let R := (E * (r ^ 2 + (a : Fl) ^ 2) - (a : Fl) * L) ^ 2
        - (r ^ 2 - 2 * r + (a : Fl) ^ 2) * (r ^ 2 + ((a : Fl) * E - L) ^ 2 + Q)
      Fl.map copysign1 (Fl.sin (upsilonR * lam + q.qr)) * Fl.sqrt (Fl.abs R) / sigma
    theta := fun lam =>
      let r := T.r lam
      let z := Fl.cos (T.theta lam)
      let sigma := r ^ 2 + (a : Fl) ^ 2 * z ^ 2
      let Z := Q - (Q + (a : Fl) ^ 2 * (1 - E ^ 2) + L ^ 2) * z ^ 2 + (a : Fl) ^ 2 * (1 - E ^ 2) * z ^ 4
      Fl.map copysign1 (Fl.sin (upsilonTheta * lam + q.qtheta)) * Fl.sqrt (Fl.abs Z)
        / (sigma * Fl.sin (T.theta lam))
    phi := fun lam =>
      let r := T.r lam
      let z := Fl.cos (T.theta lam)
      let sigma := r ^ 2 + (a : Fl) ^ 2 * z ^ 2
      let delta := r ^ 2 - 2 * r + (a : Fl) ^ 2
      1 / sigma * ((a : Fl) / delta * (E * (r ^ 2 + (a : Fl) ^ 2) - (a : Fl) * L)
        + L / (1 - z ^ 2) - (a : Fl) * E) }

end KGP
