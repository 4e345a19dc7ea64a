import Verif.Model.FinitePlunge

/-!
# Plunges with four real radial roots in arithmetic with failing operations

As in `Verif.Model.Finite`.  The radial and polar roots are those returned by numpy (the coefficients of both polynomials are
numbers, and the leading ones, `E² - 1` and `a²(1 - E²)`, are not zero).
-/

namespace KGP

open Classical Real

/-- frequencies.py:573-590.  For `a ≠ 0` this is the formula of `theta_frequency` (frequencies.py:185-194) letter for letter,
for which `thetaFrequencyN` stands here; its arguments `p`, `e`, `x` are only read when `a = 0`. -/
noncomputable def thetaFrequencyFromConstantsN (a : ℝ) (cs : ConstsN) (rr : Roots4N) (zz : Fl × Fl) : Fl :=
  let (r1, r2, _r3, _r4) := rr
  if a = 0 then
    let p := 2 * r1 * r2 / (r1 + r2)
    let e := (r1 - r2) / (r1 + r2)
    p / Fl.sqrt (-3 - e ^ 2 + p) * (if e = .fin 0 then Fl.sign cs.2.1 else 1)
  else thetaFrequencyN a 0 0 0 cs zz

/-- frequencies.py:621-662 with both frequencies passed in; for `a ≠ 0` the formula of `phi_frequency`
(frequencies.py:243-279) letter for letter. -/
noncomputable def phiFrequencyFromConstantsN (a : ℝ) (cs : ConstsN) (rr : Roots4N) (zz : Fl × Fl)
    (upsilonR upsilonTheta : Fl) : Fl :=
  let (r1, r2, _r3, _r4) := rr
  if a = 0 then
    let p := 2 * r1 * r2 / (r1 + r2)
    let e := (r1 - r2) / (r1 + r2)
    Fl.sign cs.2.1 * p / Fl.sqrt (-3 - e ^ 2 + p)
  else phiFrequencyN a 0 0 0 cs rr zz upsilonR upsilonTheta

/-- frequencies.py:692-760 with both frequencies passed in: `inf` when the computed eccentricity is one, otherwise the formula
of `gamma` (frequencies.py:332-389). -/
noncomputable def gammaFromConstantsN (a : ℝ) (cs : ConstsN) (rr : Roots4N) (zz : Fl × Fl)
    (upsilonR upsilonTheta : Fl) : Fl :=
  let (r1, r2, _r3, _r4) := rr
  if (r1 - r2) / (r1 + r2) = .fin 1 then .exc else gammaN a cs rr zz upsilonR upsilonTheta

/-- frequencies.py:785-794 -/
noncomputable def minoFrequenciesFromConstantsN (a : ℝ) (cs : ConstsN) (rr : Roots4N) (zz : Fl × Fl) : MinoFreqsN :=
  let uR := rFrequencyN cs.1 rr
  let uTheta := thetaFrequencyFromConstantsN a cs rr zz
  let uPhi := phiFrequencyFromConstantsN a cs rr zz uR uTheta
  let G := gammaFromConstantsN a cs rr zz uR uTheta
  ⟨uR, Fl.abs uTheta, uPhi, G⟩

/-- plunge.py:614-713 in natural units, for four real radial roots: the trajectory and the frequencies it uses (which are
those of `plunging_mino_frequencies`, frequencies.py:513-524). -/
noncomputable def realPlungeTrajectoryN (a E L Q : ℝ) (q : Phases) : Py (MinoFreqsN × TrajN) := do
  let pr ← plungingRadialRoots a E L Q
  match pr with
  | .cplx _ _ _ _ => .error (.valueError "There should be four real roots")
  | .real r1 r2 r3 r4 =>
    let (zMinus, zPlus) ← polarRootsNumpy a E L Q
    let cs : ConstsN := (.fin E, .fin L, .fin Q)
    let rr : Roots4N := (.fin r1, .fin r2, .fin r3, .fin r4)
    let zz : Fl × Fl := (.fin zMinus, .fin zPlus)
    let m := minoFrequenciesFromConstantsN a cs rr zz
    return (m, assembleTrajectoryN (radialSolutionsN a cs rr) (polarSolutionsN a cs zz) m q)

end KGP
