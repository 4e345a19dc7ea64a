import Verif.Model.Py
import Mathlib.MeasureTheory.Integral.IntervalIntegral.Basic
import Mathlib.Analysis.SpecialFunctions.Integrals.Basic

/-!
# scipy / numpy primitives used by kerrgeopy

These are *contracts of external libraries* (part of the trusted base): the functions of
`scipy.special` are given by the defining integrals in the scipy documentation, and
`scipy.optimize.root_scalar` by the contract of a bracketing root finder in exact arithmetic.
-/

namespace KGP

open MeasureTheory Real
open scoped Classical

/-- `scipy.special.ellipkinc(phi, m)` – used in initial_conditions.py:226,253,352,358. -/
noncomputable def ellipkinc (φ m : ℝ) : ℝ := ∫ t in (0:ℝ)..φ, 1 / √(1 - m * sin t ^ 2)

/-- `scipy.special.ellipk(m)` – imported in frequencies.py:6 and plunge.py:5. -/
noncomputable def ellipk (m : ℝ) : ℝ := ∫ t in (0:ℝ)..(π / 2), 1 / √(1 - m * sin t ^ 2)

/-- `scipy.special.ellipeinc(phi, m)` – imported in plunge.py:5. -/
noncomputable def ellipeinc (φ m : ℝ) : ℝ := ∫ t in (0:ℝ)..φ, √(1 - m * sin t ^ 2)

/-- `scipy.special.ellipe(m)` – imported in frequencies.py:6. -/
noncomputable def ellipe (m : ℝ) : ℝ := ∫ t in (0:ℝ)..(π / 2), √(1 - m * sin t ^ 2)

/-- `scipy.special.elliprf(x, y, z)` (Carlson symmetric integral) – imported in frequencies.py:6. -/
noncomputable def elliprf (x y z : ℝ) : ℝ :=
  1 / 2 * ∫ t in Set.Ioi (0:ℝ), 1 / √((t + x) * (t + y) * (t + z))

/-- `scipy.special.elliprd(x, y, z)` – imported in frequencies.py:6. -/
noncomputable def elliprd (x y z : ℝ) : ℝ :=
  3 / 2 * ∫ t in Set.Ioi (0:ℝ), 1 / ((t + z) * √((t + x) * (t + y) * (t + z)))

/-- `scipy.special.elliprj(x, y, z, p)` – imported in frequencies.py:6.  For `p < 0` scipy returns
the Cauchy principal value of the defining integral (scipy documentation); it is written here as
the limit of the integral over `t > 0` without the symmetric neighbourhood `(-p-ε, -p+ε)` of the
pole `t = -p`.  At `p = 0` the integral diverges and the value is unspecified. -/
noncomputable def elliprj (x y z p : ℝ) : ℝ :=
  3 / 2 * if 0 < p then ∫ t in Set.Ioi (0:ℝ), 1 / ((t + p) * √((t + x) * (t + y) * (t + z)))
    else Filter.limUnder (nhdsWithin (0:ℝ) (Set.Ioi 0)) fun ε =>
      (∫ t in Set.Ioc (0:ℝ) (-p - ε), 1 / ((t + p) * √((t + x) * (t + y) * (t + z))))
        + ∫ t in Set.Ioi (-p + ε), 1 / ((t + p) * √((t + x) * (t + y) * (t + z)))

/-- Jacobi amplitude: fourth component of `scipy.special.ellipj(u, m)`, the inverse function of
`ellipkinc · m` (for `m < 1`). -/
noncomputable def jacobiAm (u m : ℝ) : ℝ := Function.invFun (fun φ => ellipkinc φ m) u

/-- The tuple `(sn, cn, dn, ph)` returned by `scipy.special.ellipj(u, m)`. -/
structure EllipJ where
  sn : ℝ
  cn : ℝ
  dn : ℝ
  ph : ℝ

/-- `scipy.special.ellipj(u, m)` – used in stable.py:312,318,367,427,433,447 and plunge.py. -/
noncomputable def ellipj (u m : ℝ) : EllipJ where
  sn := sin (jacobiAm u m)
  cn := cos (jacobiAm u m)
  dn := √(1 - m * sin (jacobiAm u m) ^ 2)
  ph := jacobiAm u m

/-- Contract of `scipy.optimize.root_scalar(f, bracket=[lo, hi])` (Brent's method) in exact
arithmetic: it raises `ValueError` when the end values have the same strict sign, and returns some
zero of `f` in the bracket when `f` is continuous and the end values do not have the same sign. -/
structure RootScalar where
  solve : (ℝ → ℝ) → ℝ → ℝ → Py ℝ
  solve_err : ∀ f lo hi, 0 < f lo * f hi →
    solve f lo hi = .error (.valueError "f(a) and f(b) must have different signs")
  solve_ok : ∀ f lo hi, Continuous f → f lo * f hi ≤ 0 →
    ∃ r, solve f lo hi = .ok r ∧ r ∈ Set.uIcc lo hi ∧ f r = 0

end KGP
