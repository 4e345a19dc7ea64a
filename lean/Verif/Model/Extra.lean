import Verif.Model.Orbit

/-!
# Remaining small functions: `fast_separatrix` with its interpolator, `_numerical_four_velocity_norm`
and the wrappers of `KerrSpacetime`
-/

namespace KGP

open Classical Real

/-- Contract of `scipy.interpolate.RectBivariateSpline(x, y, z)` with the default degrees 3 and smoothing 0
(constants.py:680): on a strictly increasing grid of at least four points in each direction it returns a function
that passes through the data.  Nothing is assumed about its values between the grid points. -/
structure SplineLib where
  interp : (nx ny : ℕ) → (x y : ℕ → ℝ) → (z : List (List ℝ)) → ℝ → ℝ → ℝ
  exact : ∀ (nx ny : ℕ) (x y : ℕ → ℝ) (z : List (List ℝ)), 4 ≤ nx → 4 ≤ ny →
    (∀ i j, i < j → j < nx → x i < x j) → (∀ i j, i < j → j < ny → y i < y j) →
    ∀ (i j : ℕ) (row : List ℝ) (v : ℝ), i < nx → j < ny → z[i]? = some row → row[j]? = some v →
      interp nx ny x y z (x i) (y j) = v

/-- constants.py:649-682 (`fast_separatrix`).  With fewer than four points in a direction (`grid_spacing > 1/4`) FITPACK
rejects the data; the kind of the exception is not claimed. -/
noncomputable def fastSeparatrix (rs : RootScalar) (lib : SplineLib) (a : ℝ) (gridSpacing : ℝ := 0.01) :
    Py (ℝ → ℝ → ℝ) := do
  let t ← fastSeparatrixTable rs a gridSpacing
  raiseIf (t.numE < 4 ∨ t.numX < 4) (.valueError "not enough data points")
  return lib.interp t.numE t.numX t.eAxis t.xAxis t.table

/-- orbit.py:329-356 (`_numerical_four_velocity_norm`) -/
noncomputable def OrbitObj.numericalFourVelocityNorm (rs : RootScalar) (o : OrbitObj)
    (dx : ℝ := 1e-6) (initialPhases : Option Phases := none) : Py (ℝ → ℝ) := do
  let q := initialPhases.getD o.phases
  let T ← o.trajectoryNat rs (some q)
  let U ← o.numericalFourVelocity rs dx (some q)
  return fun time => norm4 o.a (T.t time) (T.r time) (T.theta time) (T.phi time) (U.at time)

/-- spacetime.py:30-33 (`KerrSpacetime.__init__`) -/
structure KerrSpacetimeObj where
  a : ℝ
  M : Option ℝ
  innerHorizon : ℝ
  outerHorizon : ℝ

/-- spacetime.py:30-33.  For `|a| > 1` numpy's square root is `nan`. -/
noncomputable def mkKerrSpacetime (a : ℝ) (M : Option ℝ := none) : KerrSpacetimeObj :=
  { a := a, M := M, innerHorizon := 1 - npSqrt (1 - a ^ 2), outerHorizon := 1 + npSqrt (1 - a ^ 2) }

/-- spacetime.py:35-49 (`KerrSpacetime.separatrix`) -/
noncomputable def KerrSpacetimeObj.separatrix (rs : RootScalar) (s : KerrSpacetimeObj) (e x : ℝ) : Py ℝ :=
  KGP.separatrix rs s.a e x

/-- spacetime.py:51-67 (`KerrSpacetime.is_stable`) -/
noncomputable def KerrSpacetimeObj.isStable (rs : RootScalar) (s : KerrSpacetimeObj) (p e x : ℝ) : Py Bool :=
  KGP.isStable rs s.a p e x

end KGP
