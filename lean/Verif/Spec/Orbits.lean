import Verif.Spec.Kerr
import Mathlib.Analysis.Calculus.Deriv.Basic
import Mathlib.Analysis.Real.Sqrt

/-!
# Specification: bound orbits, in terms of the potentials of `Verif.Spec.Kerr`
-/

namespace KGP.Spec

/-- `p/(1-e)` and `p/(1+e)` are turning points of the radial motion; when `e = 0` they coincide and
the common value is a double root. -/
def TurningPoints (a E L Q p e : ℝ) : Prop :=
  R a E L Q (p / (1 - e)) = 0 ∧ R a E L Q (p / (1 + e)) = 0 ∧
    (e = 0 → deriv (R a E L Q) p = 0)

/-- `R` factors over the given four numbers: they are its roots with multiplicity. -/
def RadialRoots (a E L Q r1 r2 r3 r4 : ℝ) : Prop :=
  ∀ r, R a E L Q r = (1 - E ^ 2) * (r1 - r) * (r - r2) * (r - r3) * (r - r4)

/-- The polar potential factors over the given two numbers. -/
def PolarRoots (a E L Q z1 z2 : ℝ) : Prop :=
  ∀ z, Zpol a E L Q z = a ^ 2 * (1 - E ^ 2) * (z - z1) * (z - z2)

/-- `(E, L, Q)` are the constants of a non-polar bound geodesic outside the horizon whose radial
potential has the roots `r4 ≤ r3 < r2 ≤ r1`: the motion is in `[r2, r1]`. -/
structure BoundGeodesic (a E L Q r1 r2 r3 r4 : ℝ) : Prop where
  energy : E ^ 2 < 1
  nonpolar : L ≠ 0
  roots : RadialRoots a E L Q r1 r2 r3 r4
  r43 : r4 ≤ r3
  r32 : r3 < r2
  r21 : r2 ≤ r1
  horizon : 1 + √(1 - a ^ 2) < r3

end KGP.Spec
