import Mathlib.Analysis.Calculus.Deriv.Basic
import Mathlib.LinearAlgebra.Matrix.DotProduct

/-!
# Specification: geodesics of a metric in coordinates (second-order form)

The geodesic equation of a metric `g` in four coordinates is the Euler–Lagrange equation of
`½ g(Ẋ, Ẋ)`:  `d/dτ (g_{μν} U^ν) = ½ (∂_μ g_{αβ}) U^α U^β`  with  `U = dX/dτ`.
Nothing here refers to Kerr, to constants of motion or to the code.
-/

namespace KGP.Spec

open Matrix

/-- At parameter value `s`, the curve `X` with tangent `U` solves the geodesic equation of `g`, if the affine
parameter `τ` runs at the rate `dτ/ds = rate` (`rate = 1`: `s` itself is the affine parameter). -/
def GeodesicAt (g : (Fin 4 → ℝ) → Matrix (Fin 4) (Fin 4) ℝ) (X U : ℝ → Fin 4 → ℝ) (rate s : ℝ) : Prop :=
  (∀ μ, HasDerivAt (fun y => X y μ) (rate * U s μ) s) ∧
  ∀ μ, ∃ dg : Fin 4 → Fin 4 → ℝ,
    (∀ α β, HasDerivAt (fun y => g (Function.update (X s) μ y) α β) (dg α β) (X s μ)) ∧
    HasDerivAt (fun y => (g (X y) *ᵥ U y) μ) (rate * (1 / 2 * ∑ α, ∑ β, dg α β * U s α * U s β)) s

/-- `X`, parametrised by proper time on the whole line, is a timelike geodesic of the metric `g`
(of signature `-+++`, unit tangent `g(U, U) = -1`). -/
def TimelikeGeodesic (g : (Fin 4 → ℝ) → Matrix (Fin 4) (Fin 4) ℝ) (X U : ℝ → Fin 4 → ℝ) : Prop :=
  ∀ τ, GeodesicAt g X U 1 τ ∧ U τ ⬝ᵥ (g (X τ) *ᵥ U τ) = -1

/-- `X`, parametrised by proper time on the whole line, is *the* geodesic of `g` with position `x₀` and
velocity `u₀` at proper time `0`: it is a timelike geodesic with these initial data, and every solution of the
geodesic equation with these initial data, on any interval around `0`, is a piece of it. -/
def TheGeodesicFrom (g : (Fin 4 → ℝ) → Matrix (Fin 4) (Fin 4) ℝ) (x₀ u₀ : Fin 4 → ℝ) (X U : ℝ → Fin 4 → ℝ) :
    Prop :=
  TimelikeGeodesic g X U ∧ X 0 = x₀ ∧ U 0 = u₀ ∧
  ∀ s₁ s₂, s₁ < 0 → 0 < s₂ → ∀ Y W : ℝ → Fin 4 → ℝ,
    (∀ s, s₁ < s → s < s₂ → GeodesicAt g Y W 1 s) → Y 0 = x₀ → W 0 = u₀ →
    ∀ s, s₁ < s → s < s₂ → Y s = X s ∧ W s = U s

end KGP.Spec
