import Mathlib.Analysis.SpecialFunctions.Trigonometric.Basic
import Mathlib.Analysis.Real.Sqrt

/-!
# Specification: the Kerr spacetime in Boyer–Lindquist coordinates (`M = 1`) and its geodesics

Written from the textbook formulas, independently of the model of the code.
-/

namespace KGP.Spec

open Real

/-- `Δ = r² - 2r + a²` -/
def Delta (a r : ℝ) : ℝ := r ^ 2 - 2 * r + a ^ 2

/-- `Σ = r² + a² cos²θ` -/
noncomputable def Sigma (a r θ : ℝ) : ℝ := r ^ 2 + a ^ 2 * cos θ ^ 2

/-- The Kerr line element, as a bilinear form in two vectors `(t, r, θ, φ)`:
`-(Δ/Σ)(dt - a sin²θ dφ)² + (Σ/Δ)dr² + Σ dθ² + (sin²θ/Σ)((r²+a²)dφ - a dt)²`. -/
noncomputable def kerr (a r θ : ℝ) (u v : Fin 4 → ℝ) : ℝ :=
  -(Delta a r / Sigma a r θ) * (u 0 - a * sin θ ^ 2 * u 3) * (v 0 - a * sin θ ^ 2 * v 3)
    + Sigma a r θ / Delta a r * u 1 * v 1
    + Sigma a r θ * u 2 * v 2
    + sin θ ^ 2 / Sigma a r θ * ((r ^ 2 + a ^ 2) * u 3 - a * u 0)
      * ((r ^ 2 + a ^ 2) * v 3 - a * v 0)

/-- The radial potential: `(Σ u^r)² = R(r)`. -/
def R (a E L Q r : ℝ) : ℝ :=
  (E * (r ^ 2 + a ^ 2) - a * L) ^ 2 - Delta a r * (r ^ 2 + (L - a * E) ^ 2 + Q)

/-- The polar potential: `(Σ u^θ)² = Θ(θ)`. -/
noncomputable def Theta (a E L Q θ : ℝ) : ℝ :=
  Q - cos θ ^ 2 * (a ^ 2 * (1 - E ^ 2) + L ^ 2 / sin θ ^ 2)

/-- The polar potential as a polynomial in `z = cos²θ`, `sin²θ · Θ`. -/
def Zpol (a E L Q z : ℝ) : ℝ :=
  Q - (Q + a ^ 2 * (1 - E ^ 2) + L ^ 2) * z + a ^ 2 * (1 - E ^ 2) * z ^ 2

/-- `dt/dλ = Σ u^t` -/
noncomputable def dtdlam (a E L r θ : ℝ) : ℝ :=
  (r ^ 2 + a ^ 2) / Delta a r * (E * (r ^ 2 + a ^ 2) - a * L) - a * (a * E * sin θ ^ 2 - L)

/-- `dφ/dλ = Σ u^φ` -/
noncomputable def dphidlam (a E L r θ : ℝ) : ℝ :=
  a / Delta a r * (E * (r ^ 2 + a ^ 2) - a * L) - (a * E - L / sin θ ^ 2)

end KGP.Spec
