import Mathlib.MeasureTheory.Integral.IntervalIntegral.Basic
import Mathlib.Analysis.SpecialFunctions.Integrals.Basic

/-!
# Specification: the elliptic integrals named in the docstrings of `_ellipeinc`, `_ellippi`,
`_ellippiinc` (frequencies.py:11-22, 44-55, 63-75)
-/

namespace KGP.Spec

open Real

/-- incomplete elliptic integral of the second kind `E(φ|m)` -/
noncomputable def E (φ m : ℝ) : ℝ := ∫ θ in (0:ℝ)..φ, √(1 - m * sin θ ^ 2)

/-- incomplete elliptic integral of the third kind `Π(n;φ|m)` -/
noncomputable def Pi (n φ m : ℝ) : ℝ :=
  ∫ θ in (0:ℝ)..φ, 1 / ((1 - n * sin θ ^ 2) * √(1 - m * sin θ ^ 2))

end KGP.Spec
