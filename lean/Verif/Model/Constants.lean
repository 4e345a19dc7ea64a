import Verif.Model.Numpy
import Verif.Model.Scipy
import Verif.Model.Units

/-!
# kerrgeopy/constants.py

Every function that the Python code guards with `raise ValueError` is modelled by a guard chain in
`Py` followed by a *pure formula* (the part after the guards).  The parameter `rs` is the bracketing
root finder `scipy.optimize.root_scalar`, used by `separatrix`.
-/

namespace KGP

open Classical Real

/-- `(E, L, Q)` -/
abbrev Consts := ℝ × ℝ × ℝ
/-- `(r1, r2, r3, r4)` for real roots -/
abbrev Roots4 := ℝ × ℝ × ℝ × ℝ

/-- Coefficient list of the radial polynomial, constants.py:74-82 (also 464-472,
initial_conditions.py:92-100,192-200). -/
def radialPoly (a E L Q : ℝ) : List ℝ :=
  [-(a ^ 2) * Q,
   2 * L ^ 2 + 2 * Q + 2 * a ^ 2 * E ^ 2 - 4 * a * E * L,
   a ^ 2 * E ^ 2 - L ^ 2 - Q - a ^ 2,
   2,
   E ^ 2 - 1]

/-- Coefficient list of the polar polynomial in `z = cos²θ`, constants.py:478
(also frequencies.py:515, initial_conditions.py:184, plunge.py:656). -/
def polarPoly (a E L Q : ℝ) : List ℝ :=
  [Q, -(Q + a ^ 2 * (1 - E ^ 2) + L ^ 2), a ^ 2 * (1 - E ^ 2)]

/-- constants.py:39-48, the part of `stable_radial_roots` after the constants are known. -/
noncomputable def stableRadialRootsCore (a p e : ℝ) (cs : Consts) : Roots4 :=
  let (E, _L, Q) := cs
  let r1 := p / (1 - e)
  let r2 := p / (1 + e)
  let AplusB := 2 / (1 - E ^ 2) - r1 - r2
  let AB := a ^ 2 * Q / (r1 * r2 * (1 - E ^ 2))
  let r3 := (AplusB + √(AplusB ^ 2 - 4 * AB)) / 2
  let r4 := AB / r3
  (r1, r2, r3, r4)

/-- Result of `plunging_radial_roots`: four real numbers, or two real ones and two complex ones. -/
inductive PlungeRoots where
  | real (r1 r2 r3 r4 : ℝ)
  | cplx (r1 r2 : ℝ) (r3 r4 : ℂ)

/-- constants.py:85-107, `plunging_radial_roots` after `roots = R.roots()`.  With any number of real
roots other than 2 or 4 the variables `r1..r4` are never assigned (`UnboundLocalError`). -/
noncomputable def labelPlungeRoots (a : ℝ) (roots : List ℂ) : Py PlungeRoots :=
  let rMinus := 1 - √(1 - a ^ 2)
  match realRoots roots with
  | [x0, x1, x2, x3] =>
    if x1 > rMinus then .ok (.real x1 x0 x3 x2) else .ok (.real x3 x2 x1 x0)
  | [x0, x1] =>
    match complexRoots roots with
    | [w0, w1] => .ok (.cplx x0 x1 w0 w1)
    | _ => .error (.valueError "unpack")
  | _ => .error (.unboundLocal "r1")

/-- constants.py:51-107 -/
noncomputable def plungingRadialRoots (a E L Q : ℝ) : Py PlungeRoots :=
  labelPlungeRoots a (npRoots (radialPoly a E L Q))

/-- constants.py:135-142, the part of `stable_polar_roots` after the constants are known. -/
noncomputable def stablePolarRootsCore (a x : ℝ) (cs : Consts) : ℝ × ℝ :=
  let (E, L, _Q) := cs
  let epsilon0 := a ^ 2 * (1 - E ^ 2) / L ^ 2
  let zMinus := 1 - x ^ 2
  let zPlus := if a = 0 then pyNan else 1 + 1 / (epsilon0 * (1 - zMinus))
  (zMinus, zPlus)

/-- The tuple `(f, g, h, d)` of constants.py:145-195. -/
structure Coeffs where
  f : ℝ
  g : ℝ
  h : ℝ
  d : ℝ

/-- constants.py:145-169 -/
noncomputable def coefficients (r a x : ℝ) : Coeffs :=
  let z := √(1 - x ^ 2)
  let delta := r ^ 2 - 2 * r + a ^ 2
  { f := r ^ 4 + a ^ 2 * (r * (r + 2) + z ^ 2 * delta)
    g := 2 * a * r
    h := r * (r - 2) + z ^ 2 / (1 - z ^ 2) * delta
    d := (r ^ 2 + a ^ 2 * z ^ 2) * delta }

/-- constants.py:172-195 -/
noncomputable def coefficientsDerivative (r a x : ℝ) : Coeffs :=
  let z := √(1 - x ^ 2)
  { f := 4 * r ^ 3 + 2 * a ^ 2 * ((1 + z ^ 2) * r + (1 - z ^ 2))
    g := 2 * a
    h := 2 * (r - 1) / (1 - z ^ 2)
    d := 2 * (2 * r - 3) * r ^ 2 + 2 * a ^ 2 * ((1 + z ^ 2) * r - z ^ 2) }

/-- constants.py:198-213 -/
noncomputable def standardizeParams (a x : ℝ) : ℝ × ℝ := (|a|, x * copysign1 a)

/-- constants.py:708-726 -/
def validParams (a e x : ℝ) : Prop := (0 ≤ a ∧ a ≤ 1) ∧ (0 ≤ e ∧ e ≤ 1) ∧ (-1 ≤ x ∧ x ≤ 1)

/-- constants.py:491-516 -/
def SPolar (p a e : ℝ) : ℝ :=
  p ^ 5 * (-6 - 2 * e + p)
    + a ^ 2 * p ^ 3 * (-4 * (-1 + e) * (1 + e) ^ 2 + (3 + e * (2 + 3 * e)) * p)
    - a ^ 4 * (1 + e) ^ 2 * p * (6 + 2 * e ^ 3 + 2 * e * (-1 + p) - 3 * p - 3 * e ^ 2 * (2 + p))
    + a ^ 6 * (-1 + e) ^ 2 * (1 + e) ^ 4

/-- constants.py:519-540 -/
def SEquatorial (p a e : ℝ) : ℝ :=
  a ^ 4 * (-3 - 2 * e + e ^ 2) ^ 2
    + p ^ 2 * (-6 - 2 * e + p) ^ 2
    - 2 * a ^ 2 * (1 + e) * p * (14 + 2 * e ^ 2 + 3 * p - e * p)

/-- constants.py:543-588 -/
def SFull (p a e x : ℝ) : ℝ :=
  -4*(3 + e)*p^11 + p^12 +
       a^12*(-1 + e)^4*(1 + e)^8*(-1 + x)^4*(1 + x)^4 -
       4*a^10*(-3 + e)*(-1 + e)^3*(1 + e)^7*p*(-1 + x^2)^4 -
       4*a^8*(-1 + e)*(1 + e)^5*p^3*(-1 + x)^3*(1 + x)^3*
        (7 - 7*x^2 - e^2*(-13 + x^2) + e^3*(-5 + x^2) + 7*e*(-1 + x^2)) +
       8*a^6*(-1 + e)*(1 + e)^3*p^5*(-1 + x^2)^2*
        (3 + e + 12*x^2 + 4*e*x^2 + e^3*(-5 + 2*x^2) + e^2*(1 + 2*x^2)) -
       8*a^4*(1 + e)^2*p^7*(-1 + x)*(1 + x)*
        (-3 + e + 15*x^2 - 5*e*x^2 + e^3*(-5 + 3*x^2) + e^2*(-1 + 3*x^2))
        + 4*a^2*p^9*(-7 - 7*e + e^3*(-5 + 4*x^2) + e^2*(-13 + 12*x^2)) +
       2*a^8*(-1 + e)^2*(1 + e)^6*p^2*(-1 + x^2)^3*
        (2*(-3 + e)^2*(-1 + x^2) +
          a^2*(e^2*(-3 + x^2) - 3*(1 + x^2) + 2*e*(1 + x^2))) -
       2*p^10*(-2*(3 + e)^2 + a^2*
           (-3 + 6*x^2 + e^2*(-3 + 2*x^2) + e*(-2 + 4*x^2))) +
       a^6*(1 + e)^4*p^4*(-1 + x^2)^2*
        (-16*(-1 + e)^2*(-3 - 2*e + e^2)*(-1 + x^2) +
          a^2*(15 + 6*x^2 + 9*x^4 + e^2*(26 + 20*x^2 - 2*x^4) +
             e^4*(15 - 10*x^2 + x^4) + 4*e^3*(-5 - 2*x^2 + x^4) -
             4*e*(5 + 2*x^2 + 3*x^4))) -
       4*a^4*(1 + e)^2*p^6*(-1 + x)*(1 + x)*
        (-2*(11 - 14*e^2 + 3*e^4)*(-1 + x^2) +
          a^2*(5 - 5*x^2 - 9*x^4 + 4*e^3*x^2*(-2 + x^2) +
             e^4*(5 - 5*x^2 + x^4) + e^2*(6 - 6*x^2 + 4*x^4))) +
       a^2*p^8*(-16*(1 + e)^2*(-3 + 2*e + e^2)*(-1 + x^2) +
          a^2*(15 - 36*x^2 + 30*x^4 + e^4*(15 - 20*x^2 + 6*x^4) +
             4*e^3*(5 - 12*x^2 + 6*x^4) + 4*e*(5 - 12*x^2 + 10*x^4) +
             e^2*(26 - 72*x^2 + 44*x^4)))

/-- Lower end of the polar bracket, constants.py:619. -/
noncomputable def polarLo : ℝ := 1 + √3 + √(3 + 2 * √3)

/-- constants.py:592-646.  The final `if x < 0` is always reached with `x < 0`. -/
noncomputable def separatrix (rs : RootScalar) (a e x : ℝ) : Py ℝ := do
  raiseIf (a = 1) errExtreme
  raiseIf (¬ validParams a e x) errParams
  if a = 0 then
    return 6 + 2 * e
  else
    let pPolar ← rs.solve (fun p => SPolar p a e) polarLo 8
    if x = 0 then
      return pPolar
    else
      let pEquatorialPrograde ← rs.solve (fun p => SEquatorial p a e) (1 + e) (6 + 2 * e)
      if x = 1 then
        return pEquatorialPrograde
      else if x = -1 then
        rs.solve (fun p => SEquatorial p a e) (6 + 2 * e) (5 + e + 4 * √(1 + e))
      else if x > 0 then
        rs.solve (fun p => SFull p a e x) pEquatorialPrograde pPolar
      else
        rs.solve (fun p => SFull p a e x) pPolar 12

/-- constants.py:685-705 -/
noncomputable def isStable (rs : RootScalar) (a p e x : ℝ) : Py Bool := do
  let s ← separatrix rs a e x
  if p > s then return true else return false

/-- constants.py:236-241 (also 324-329, 381-386): the guards shared by `energy`,
`angular_momentum` and `carter_constant`. -/
noncomputable def constantsGuard (rs : RootScalar) (a p e x : ℝ) : Py Unit := do
  raiseIf (a = 1) errExtreme
  raiseIf (¬ validParams a e x) errParams
  let st ← isStable rs a p e x
  raiseIf (st = false) errUnstable

/-- The denominator shared by the polar-orbit formulas, constants.py:261-263 and 401-403. -/
def polarDenominator (a p e : ℝ) : ℝ :=
  a ^ 4 * (-1 + e ^ 2) ^ 2 * (-1 + e ^ 2 - p) + (3 + e ^ 2 - p) * p ^ 4
    - 2 * a ^ 2 * p ^ 2 * (-1 - e ^ 4 + p + e ^ 2 * (2 + p))

/-- constants.py:280-297: Schmidt's formula for the energy from the coefficients at two radii
(or the coefficients and their derivatives at one radius). -/
noncomputable def schmidtEnergy (x : ℝ) (c1 c2 : Coeffs) : ℝ :=
  let kappa := c1.d * c2.h - c1.h * c2.d
  let rho := c1.f * c2.h - c1.h * c2.f
  let sigma := c1.g * c2.h - c1.h * c2.g
  let epsilon := c1.d * c2.g - c1.g * c2.d
  let eta := c1.f * c2.g - c1.g * c2.f
  √((kappa * rho + 2 * epsilon * sigma
      - Real.sign x * 2
        * √(sigma * (sigma * epsilon ^ 2 + rho * epsilon * kappa - eta * kappa ^ 2)))
    / (rho ^ 2 + 4 * eta * sigma))

/-- constants.py:243-297: `energy` after the guards (for standardised `a`, `x`). -/
noncomputable def energyFormula (a p e x : ℝ) : ℝ :=
  if e = 1 then 1
  else if x = 0 then
    √(-((p * (a ^ 4 * (-1 + e ^ 2) ^ 2 + (-4 * e ^ 2 + (-2 + p) ^ 2) * p ^ 2
          + 2 * a ^ 2 * p * (-2 + p + e ^ 2 * (2 + p))))
        / polarDenominator a p e))
  else if e = 0 then
    schmidtEnergy x (coefficients p a x) (coefficientsDerivative p a x)
  else
    schmidtEnergy x (coefficients (p / (1 - e)) a x) (coefficients (p / (1 + e)) a x)

/-- constants.py:216-297 -/
noncomputable def energy (rs : RootScalar) (a p e x : ℝ) : Py ℝ := do
  let (a, x) := standardizeParams a x
  constantsGuard rs a p e x
  return energyFormula a p e x

/-- constants.py:344,351: solution of equation B.17 for `L`. -/
noncomputable def solveL (x E : ℝ) (c : Coeffs) : ℝ :=
  (-E * c.g + Real.sign x * √(-c.d * c.h + E ^ 2 * (c.g ^ 2 + c.f * c.h))) / c.h

/-- constants.py:335-351: `angular_momentum` after the guards, for a known energy. -/
noncomputable def angularMomentumFormula (a p e x E : ℝ) : ℝ :=
  if x = 0 then 0
  else if e = 1 then solveL x E (coefficients (p / (1 + e)) a x)
  else solveL x E (coefficients (p / (1 - e)) a x)

/-- constants.py:300-351 -/
noncomputable def angularMomentum (rs : RootScalar) (a p e x : ℝ) (E : Option ℝ := none) :
    Py ℝ := do
  let (a, x) := standardizeParams a x
  constantsGuard rs a p e x
  let E ← match E with
    | none => energy rs a p e x
    | some E => pure E
  return angularMomentumFormula a p e x E

/-- constants.py:391-405: the polar-orbit Carter constant. -/
noncomputable def carterPolarFormula (a p e : ℝ) : ℝ :=
  -((p ^ 2 * (a ^ 4 * (-1 + e ^ 2) ^ 2 + p ^ 4 + 2 * a ^ 2 * p * (-2 + p + e ^ 2 * (2 + p))))
    / polarDenominator a p e)

/-- constants.py:407,414: equation B.4. -/
noncomputable def carterFormula (a x E L : ℝ) : ℝ :=
  let z := √(1 - x ^ 2)
  z ^ 2 * (a ^ 2 * (1 - E ^ 2) + L ^ 2 / (1 - z ^ 2))

/-- constants.py:354-414 -/
noncomputable def carterConstant (rs : RootScalar) (a p e x : ℝ) (E : Option ℝ := none)
    (L : Option ℝ := none) : Py ℝ := do
  let (a, x) := standardizeParams a x
  constantsGuard rs a p e x
  if x = 0 then
    return carterPolarFormula a p e
  else
    let E ← match E with
      | none => energy rs a p e x
      | some E => pure E
    let L ← match L with
      | none => angularMomentum rs a p e x (some E)
      | some L => pure L
    return carterFormula a x E L

/-- constants.py:417-440 -/
noncomputable def constantsOfMotion (rs : RootScalar) (a p e x : ℝ) : Py Consts := do
  let E ← energy rs a p e x
  let L ← angularMomentum rs a p e x (some E)
  let Q ← carterConstant rs a p e x (some E) (some L)
  return (E, L, Q)

/-- constants.py:35-37,133-135, frequencies.py:132-133: `if constants is None: ...`. -/
noncomputable def constantsOr (rs : RootScalar) (a p e x : ℝ) (cs : Option Consts) : Py Consts :=
  match cs with
  | none => constantsOfMotion rs a p e x
  | some cs => pure cs

/-- constants.py:12-48 -/
noncomputable def stableRadialRoots (rs : RootScalar) (a p e x : ℝ)
    (cs : Option Consts := none) : Py Roots4 := do
  let cs ← constantsOr rs a p e x cs
  return stableRadialRootsCore a p e cs

/-- constants.py:110-142 -/
noncomputable def stablePolarRoots (rs : RootScalar) (a p e x : ℝ)
    (cs : Option Consts := none) : Py (ℝ × ℝ) := do
  let cs ← constantsOr rs a p e x cs
  return stablePolarRootsCore a x cs

/-- `z_minus, z_plus = Z.roots()` with the `a == 0` special case: constants.py:478-482
(also frequencies.py:515-518, initial_conditions.py:184-188, plunge.py:656-659).
Complex polar roots are not modelled (`complexResult`). -/
noncomputable def polarRootsNumpy (a E L Q : ℝ) : Py (ℝ × ℝ) :=
  let roots := npRoots (polarPoly a E L Q)
  if a = 0 then
    match roots with
    | [] => .error .indexError
    | z :: _ => if z.im = 0 then .ok (z.re, z.re) else .error .complexResult
  else
    match roots with
    | [z, w] => if z.im = 0 ∧ w.im = 0 then .ok (z.re, w.re) else .error .complexResult
    | _ => .error (.valueError "unpack")

/-- `r4, r3, r2, r1 = R.roots()`: constants.py:464-475 (also initial_conditions.py:192-203).
Returned here in the order `(r4, r3, r2, r1)`.  Complex values are not modelled. -/
noncomputable def radialRootsNumpy (a E L Q : ℝ) : Py (ℝ × ℝ × ℝ × ℝ) :=
  match npRoots (radialPoly a E L Q) with
  | [w4, w3, w2, w1] =>
    if w4.im = 0 ∧ w3.im = 0 ∧ w2.im = 0 ∧ w1.im = 0 then .ok (w4.re, w3.re, w2.re, w1.re)
    else .error .complexResult
  | _ => .error (.valueError "unpack")

/-- constants.py:443-488.  Where Python would return complex numbers the model stops with
`complexResult`. -/
noncomputable def apexFromConstants (a E L Q : ℝ) : Py (ℝ × ℝ × ℝ × ℝ) := do
  let (_r4, _r3, r2, r1) ← radialRootsNumpy a E L Q
  let (zMinus, _zPlus) ← polarRootsNumpy a E L Q
  let p := 2 * r1 * r2 / (r1 + r2)
  let e := (r1 - r2) / (r1 + r2)
  let x := Real.sign L * √(1 - zMinus)
  return (a, p, e, x)

/-- constants.py:649-682: the table `P` handed to `RectBivariateSpline`, together with its shape and
the two axes.  The spline itself is not modelled; the loop order only decides which exception is
raised first, and is modelled by `List.mapM` over `i` then `j`. -/
structure SepTable where
  numE : ℕ
  numX : ℕ
  eAxis : ℕ → ℝ
  xAxis : ℕ → ℝ
  table : List (List ℝ)

/-- constants.py:666-680.  `E, X = np.meshgrid(e, x)` has `E[j,i] = e[i]`, `X[j,i] = x[j]`. -/
noncomputable def fastSeparatrixTable (rs : RootScalar) (a gridSpacing : ℝ) : Py SepTable := do
  let numE := (pyInt (1 / gridSpacing)).toNat
  let numX := (pyInt (2 / gridSpacing)).toNat
  let e := linspace 0 1 numE
  let x := linspace (-1) 1 numX
  let meshE : ℕ → ℕ → ℝ := fun _j i => e i
  let meshX : ℕ → ℕ → ℝ := fun j _i => x j
  let P ← (List.range numE).mapM fun i =>
    (List.range numX).mapM fun j => separatrix rs a (meshE j i) (meshX j i)
  return { numE := numE, numX := numX, eAxis := e, xAxis := x, table := P }

/-- constants.py:729-746 -/
noncomputable def scaleConstants (cs : Consts) (M mu : ℝ) : Consts :=
  let M := Units.massInKg M
  (cs.1 * mu, cs.2.1 * mu * M, cs.2.2 * mu ^ 2 * M ^ 2)

end KGP
