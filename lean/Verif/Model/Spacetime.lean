import Verif.Model.Constants
import Mathlib.Data.Matrix.Mul
import Mathlib.Data.Fin.VecNotation
import Mathlib.LinearAlgebra.Matrix.Notation
import Mathlib.Analysis.SpecialFunctions.Trigonometric.Basic

/-!
# kerrgeopy/spacetime.py
-/

namespace KGP

open Classical Real Matrix

/-- The four initial phases `(q_t0, q_r0, q_theta0, q_phi0)`. -/
structure Phases where
  qt : ℝ
  qr : ℝ
  qtheta : ℝ
  qphi : ℝ

/-- A space-time point / a four-vector as the tuples of the Python API. -/
structure Vec4 where
  t : ℝ
  r : ℝ
  theta : ℝ
  phi : ℝ

/-- The array handed to `np.dot`. -/
def Vec4.toVec (v : Vec4) : Fin 4 → ℝ := ![v.t, v.r, v.theta, v.phi]

/-- Four functions of Mino time, e.g. a trajectory in natural units, or a four-velocity. -/
structure Traj where
  t : ℝ → ℝ
  r : ℝ → ℝ
  theta : ℝ → ℝ
  phi : ℝ → ℝ

/-- spacetime.py:32 (`KerrSpacetime.inner_horizon`) -/
noncomputable def innerHorizon (a : ℝ) : ℝ := 1 - √(1 - a ^ 2)
/-- spacetime.py:33 (`KerrSpacetime.outer_horizon`) -/
noncomputable def outerHorizon (a : ℝ) : ℝ := 1 + √(1 - a ^ 2)

/-- spacetime.py:69-98 (`t` and `phi` are not used) -/
noncomputable def metric (a _t r theta _phi : ℝ) : Matrix (Fin 4) (Fin 4) ℝ :=
  let sigma := r ^ 2 + a ^ 2 * cos theta ^ 2
  let delta := r ^ 2 - 2 * r + a ^ 2
  !![-(1 - 2 * r / sigma), 0, 0, -2 * a * r * sin theta ^ 2 / sigma;
     0, sigma / delta, 0, 0;
     0, 0, sigma, 0;
     -2 * a * r * sin theta ^ 2 / sigma, 0, 0,
       sin theta ^ 2 * (r ^ 2 + a ^ 2 + 2 * a ^ 2 * r * sin theta ^ 2 / sigma)]

/-- spacetime.py:101-123 -/
noncomputable def norm4 (a t r theta phi : ℝ) (v : Vec4) : ℝ :=
  v.toVec ⬝ᵥ (metric a t r theta phi *ᵥ v.toVec)

/-- spacetime.py:160-162 -/
def fvR (a E L Q r : ℝ) : ℝ :=
  (E * (r ^ 2 + a ^ 2) - a * L) ^ 2
    - (r ^ 2 - 2 * r + a ^ 2) * (r ^ 2 + (a * E - L) ^ 2 + Q)

/-- spacetime.py:164-168 -/
def fvZ (a E L Q z : ℝ) : ℝ :=
  Q - (Q + a ^ 2 * (1 - E ^ 2) + L ^ 2) * z ^ 2 + a ^ 2 * (1 - E ^ 2) * z ^ 4

/-- spacetime.py:125-210 -/
noncomputable def fourVelocity (a : ℝ) (x : Traj) (cs : Consts) (upsilonR upsilonTheta : ℝ)
    (q : Phases) : Traj :=
  let (E, L, Q) := cs
  { t := fun time =>
      let delta := x.r time ^ 2 - 2 * x.r time + a ^ 2
      let sigma := x.r time ^ 2 + a ^ 2 * cos (x.theta time) ^ 2
      1 / sigma * ((x.r time ^ 2 + a ^ 2) / delta * (E * (x.r time ^ 2 + a ^ 2) - a * L)
        - a ^ 2 * E * (1 - cos (x.theta time) ^ 2) + a * L)
    r := fun time =>
      let qr := upsilonR * time + q.qr
      let sigma := x.r time ^ 2 + a ^ 2 * cos (x.theta time) ^ 2
      copysign1 (sin qr) * √(|fvR a E L Q (x.r time)|) / sigma
    theta := fun time =>
      let qtheta := upsilonTheta * time + q.qtheta
      let sigma := x.r time ^ 2 + a ^ 2 * cos (x.theta time) ^ 2
      copysign1 (sin qtheta) * √(|fvZ a E L Q (cos (x.theta time))|)
        / (sigma * sin (x.theta time))
    phi := fun time =>
      let sigma := x.r time ^ 2 + a ^ 2 * cos (x.theta time) ^ 2
      let delta := x.r time ^ 2 - 2 * x.r time + a ^ 2
      1 / sigma * (a / delta * (E * (x.r time ^ 2 + a ^ 2) - a * L)
        + L / (1 - cos (x.theta time) ^ 2) - a * E) }

end KGP
