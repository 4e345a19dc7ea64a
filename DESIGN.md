# Formal model of KerrGeoPy in Lean 4 – design

## 1. Approach

`/repo/kerrgeopy` is numerical Python: closed formulas over floats, validation guards that
raise, root finding (`scipy.optimize.root_scalar`, `numpy.polynomial.Polynomial.roots`),
elliptic functions (`scipy.special`) and closures that are returned to the user.  The model is
a *shallow embedding*, function by function:

| Python | Lean |
|---|---|
| `float` | `ℝ` (exact arithmetic; rounding, overflow, ±inf, signed zero are **not** modelled) |
| `raise X(...)`, uncaught failures | `Except PyErr` (`Py α`) |
| returned closures | Lean functions `ℝ → ℝ` (or `ℝ → Py ℝ` where a call can raise) |
| `sqrt`, `/` | `Real.sqrt`, real division. Where numpy would give NaN/inf the theorems carry an explicit hypothesis or prove that the radicand / divisor is fine; where the code is known to hit NaN (`_theta_frequency_from_constants`) the model uses `npSqrt`, whose value on negative arguments is unspecified |
| `nan`, `inf` | `pyNan`, `pyInf`: unspecified reals, about which nothing can be proved |
| `root_scalar(f, bracket)` | a parameter `rs : RootScalar` with the contract: error iff the end values have the same strict sign, otherwise *some* zero inside the bracket. Theorems hold for every such `rs` |
| `Polynomial(c).roots()` | complex roots with multiplicity (Mathlib `Polynomial.roots`) sorted lexicographically |
| `scipy.special.ellipk, ellipe, ellipkinc, ellipeinc, elliprf, elliprd, elliprj` | their documented defining integrals (`elliprj` with negative last argument: the Cauchy principal value) |
| `scipy.special.ellipj` | `am` = inverse function of `ellipkinc · m`, `sn = sin am`, `cn = cos am`, `dn = √(1-m sn²)` |
| numpy arrays handed to the returned closures | `Val` (`Model/Array`): shape and row-major entries; functions act entrywise, `where` returns arrays, results of shape `()` become scalars, `np.array` of a nested list mixing numbers and arrays raises `ValueError` |
| `nan`, `inf`, `ZeroDivisionError` | one exceptional value `exc` (`Fl` in `Model/Finite`), produced by an operation outside its domain and passed on by every later operation; the other model files compute in `ℝ` with Lean's conventions `x/0 = 0`, `√x = 0` for `x < 0`, and C76, C77 and C78 show where the two agree |
| keyword arguments with default `None` | `Option` |
| `numpy.linalg.solve` (2×2) | Cramer's rule, error when the determinant is zero |

Layout (`lean/Verif/`):

* `Model/*.lean` – one file per Python module (`Py`, `Scipy`, `Numpy` are the run-time contracts);
  every definition cites file and lines.
* `Spec/*.lean` – small independent specification: Kerr metric functions, potentials, right-hand
  sides of the geodesic equations, turning points, bound geodesics, elliptic integrals. A few
  one-line specification predicates stand directly above the theorem that uses them
  (`Spec.BoundOrbit`, `Spec.StableOrbit`, `Spec.DivisorsNonzero`, `Spec.ClearOf`, `Spec.Visible`).
* `Lemmas/*.lean` – helper mathematics.
* `Props/*.lean` – the property theorems `Cnn_…` with non-vacuity `example`s beside them; `Props/Witnesses.lean` collects the
  concrete instances that need several theorems together (Kerr orbits, `Orbit` objects, plunges, Schwarzschild).

`tools/mkprops.py` writes `properties.jsonl`, `tools/mkmanifest.py` writes `MANIFEST.json` from the
theorem names; `seeded/LOG.jsonl` is the mutation log.

## 2. Properties: what is modelled, how it is proved

(full statements in `properties.jsonl`, theorem names in `MANIFEST.json`)

| | model | proof |
|---|---|---|
| C01–C03 | `metric`, `norm`, `four_velocity`, `constants_from_initial_conditions`, horizons | real algebra, determinant of a 4×4 matrix, Cramer's rule |
| C04 | `energy`, `angular_momentum`, `carter_constant`, `_coefficients` | Schmidt's elimination as algebra (`Lemmas/Schmidt*`): the code's nested radical solves both turning-point equations where its divisors do not vanish; the separatrix inequality of the accepted orbit excludes the other branch (`SepCert`, `SepInner`, `SchmidtInner`). Polynomial positivity by Bernstein certificates found outside Lean and checked by `nlinarith`/`linear_combination`/`positivity` in Lean |
| C05–C08 | closed forms, `stable_polar_roots`, `stable_radial_roots` | algebra, Vieta, sign of R at the horizons |
| C09 | `apex_from_constants` (numpy roots), `from_constants` | sorted root lists; uniqueness of the constants (`SchmidtUnique`, `StableConverse`) |
| C10–C13, C16, C28, C37 | all guards, defaults, `_standardize_params` | case analysis over all inputs |
| C14, C42 | the 494-term polynomial `_S`, `_S_polar`, `_S_equatorial` | `ring`; elimination identity |
| C15 | the three (five) brackets of `separatrix` | sign certificates at the bracket ends, uniqueness of the root in the bracket (`SepUnique`, `SepMono`, `SepCurve`); continuity from strict monotonicity of the sign function |
| C16 | `is_stable` | threshold, and exactness: the polynomial's root is the last p without a stable orbit (`StableConverse`, `Threshold`); e = 1 by an explicit parametrisation (`SepParabola`, `Parabolic`) |
| C17 | `_ellippi`, `_ellippiinc`, `_ellipeinc` | substitution in Carlson's integrals, induction on half periods; principal values via a difference quotient (`CarlsonPV`, `PiPV`) |
| C18, C19 | closures returned by the trajectory functions | algebra |
| C20–C25, C46 | `radial_solutions`, `polar_solutions`, `stable_trajectory`, frequencies, `gamma` | calculus of Jacobi functions (derivative of am, quasi-periodicity), chain rule, partial fractions; `C22_kerr` discharges all hypotheses from the parameters |
| C26, C27 | `units.py`, `scale_constants` | field arithmetic |
| C29, C38, C39, C40 | `is_visible`, `numerical_four_velocity`, `_numerical_four_velocity_norm`, `fast_separatrix` (table and interpolator), index arithmetic of `animate` | lists, Taylor with remainder, derivative limits, integer arithmetic |
| C30, C36, C48 | `plunging_radial_roots`, `is_stable` (initial conditions), `Orbit.__init__` | sorted root lists, sign of R at the horizons |
| C31, C32, C47 | `plunge.py` complex-root branch | calculus; horizon integrals as principal values |
| C50 | `plunge.py` real-root branch, `_*_from_constants` | the calculus of C20–C23 with principal-value integrals of the third kind (`PiPV`, `radial_dt_gen`) |
| C51 | `separatrix`, `constants_of_motion`, `fundamental_frequencies` on equatorial (circular) orbits | algebra from the double root of R; mean rates identified by boundedness (C25_secular); uniqueness of the separatrix (C15_unique) |
| C52 | `stable_trajectory`, `plunging_trajectory`, `mino_frequencies` | parity and quasi-periodicity of am, uniqueness of antiderivatives, injectivity of am |
| C33, C41, C43 | object construction, `trajectory_deltas`, negative spin | unfolding, derivative comparison |
| C34, C35, C44 | `stable_orbit_initial_phases`, `plunging_orbit_initial_phases` | inverse elliptic functions; round trip through C09 |
| C45 | `_coefficients_derivative` | derivatives of polynomials |
| C49 | `StableOrbit`, `PlungingOrbit`, plunging `Orbit` → `Orbit` | phases determined up to turns by position and direction, then uniqueness of antiderivatives |
| C53 | trajectories, `four_velocity`, `metric` | `Spec/Geodesic.lean` states the Euler–Lagrange form of the geodesic equation for an arbitrary metric; the separated first-order equations give the second-order ones also at turning points (`SecondOrder`: a continuous extension of the derivative through isolated turning points), then the partial derivatives of the metric entries by algebra (`KerrGeodesic`) |
| C54 | the same, plus the constructors | the geodesic equation as a C¹ first-order system in position and covariant velocity, local uniqueness (Picard–Lindelöf, Mathlib), connectedness of the interval (`GeodesicUnique`) |
| C55, C56 | `plot`, `animate` and `draw_frame` up to the data handed to matplotlib (`Model/Plot.lean`) | list induction for minima, maxima, slices; index arithmetic; visibility from C29 and r > r₊ from C20–C22 |
| C57 | `energy`, `angular_momentum`, `carter_constant` (`Model/Constants.lean`) | one closed form for all branches (`Lemmas/ConstantsForm.lean`), continuous because W, H do not vanish; a < 0 is left out: the sign convention makes L jump at a = 0 |
| C58 | `mino_frequencies`, `fundamental_frequencies`, `stable_trajectory` | elliptic integrals as parametric integrals, am as inverse of a jointly continuous monotone function (`Lemmas/EllipticContinuity.lean`); branch-free formulas for k_theta², a²√(z₊/ε₀); C57 for the constants |
| C59 | plunging trajectories at the horizons | intermediate value theorem between the turning points of C31/C50; t′ = (residue)/(λ-λ₀)+o near a crossing integrates to ∓log (`Lemmas/LogDivergence.lean`); derivative formulas of C47/C50 |
| C60 | `mino_frequencies`, `fundamental_frequencies` | Υ_r ≤ √(β(r1-r3)(r2-r4)), Υ_θ² ≥ √((S+B)²-4BQ) with Vieta; Υ_φ split into polar part (bounds of Π, `Lemmas/Precession.lean`) and radial part (mean of a(2Er-aL)/Δ ≥ a(1-E) because E(r²+a²)-aL ≥ Δ); `C22_far_prograde` shows prograde orbits meeting the hypotheses; sense of rotation: Π(n\|m) ≥ K(m)/√(1-n) (Chebyshev), L²/x² ≥ (11/5)², r2 ≥ 3 for x<0 (`Props/Retrograde.lean`) |
| C61 | `separatrix`, `mino_frequencies`, `fundamental_frequencies` | compactness: constants and roots of orbits with p ↓ s lie in a compact set, a limit point with r3 < r2 would be a stable orbit at p = s (contradicts C16), so r2-r3 → 0, k_r² → 1 and K(k_r²) ≥ log(1+π/(2√(1-k²))) → ∞; circular orbits directly; Υ_θ² ≥ 2x²; `Lemmas/ZoomWhirl.lean`; retrograde whirl from Υ_φ ≤ -1/10 (`Props/Retrograde.lean`) |
| C62 | `constants_of_motion`, `fundamental_frequencies` at large p | Vieta's formulas bound the inner roots (r3 ≤ 32) and give (1-E²)p → 1-e², (L²+Q)/p → 1; moduli → 0, so the elliptic integrals tend to elementary values; horizon terms are averages of 1/(r-r±) and vanish; `Lemmas/Kepler.lean` |
| C63 | `mino_frequencies` at large p | first-order expansion: r3, r4 → 1 ± √(1-a²(1-x²)), K(m) = π/2(1+m/4+O(m²)), the energy cancels from Υ_r/Υ_θ; Υ_φ by C60's bounds and dominated convergence of the radial average of (2Er-aL)/Δ; `Lemmas/PostNewton.lean` |
| C64 | `separatrix`, `is_stable` | for given a, e, p the polynomial vanishes for one x² only (a² = Af(ρ,q,r) is strictly monotone in the innermost root, e=1 separately), so the continuous function of C15 is injective, hence monotone; spin: the same with q=0, polar: N decreases in a²; `Lemmas/SepOrder.lean` |
| C65 | `constants_of_motion` | in the variables A=a², b=ax, E, Y (L=xY, Q=(1-x²)(a²(1-E²)+Y²)) prograde, polar and retrograde orbits are alike. The Jacobian of the two turning-point equations is positive at an orbit (closed form), so E, Y and Y²-a²E² increase to the right of every p; limits of orbits are orbits (compactness) and orbits are unique, so the constants are continuous in p, also where the code divides by zero; monotone by a connectedness argument. `Lemmas/EnergyMono`, `Lemmas/EnergyPath`, `Props/EnergyOrder` |
| C66 | `constants_of_motion` | the same with b instead of p; the path from x to x' stays in the accepted region by C64. `Props/EnergyOrder` |
| C67 | `separatrix`, `is_stable` | suppose the continuous function of C15 does not increase; at a maximum e* the marginal orbit (p, e*) is a limit of orbits (p, e'), e'↓e*. The exact difference equations at the new apoapsis, the old periapsis and the double root, divided by e'-e*, contradict an inequality between the Jacobians at a marginal orbit (closed form of the Jacobian, Vieta for the inner roots, Δ(s)(r-z)² ≤ Δ(r)(s-z)² for the innermost root z). `Lemmas/EccMono`, `Lemmas/EccLimit`, `Props/EccentricityOrder` |
| C68 | `constants_of_motion` | r₁ grows and r₂ shrinks, so the signs alone do not decide; Y²-a²E² grows because s²|q(s)|(Yα(r)-a²Eβ(r)) < r²|q(r)|(Yα(s)-a²Eβ(s)) at every orbit (a polynomial inequality in r+s, rs and the inner roots), and E, Y follow. Intermediate eccentricities are stable by C67; circular orbits by continuity. Same files |
| C69 | `separatrix`, `_S_equatorial`, `is_stable` | (3-e)²·S_equatorial is the product of four linear factors in a with u=√((3-e)s-2(1-e²)); the brackets of the code leave one of them; the right-hand side is strictly decreasing for s ≥ 1+e. `Props/SpinOrder` |
| C70 | `constants_of_motion` | with fixed turning points, the spin of an equatorial orbit is an explicit function of the third root, strictly decreasing by a polynomial certificate (`Lemmas/SpinCert`); for polar orbits the sum of the inner roots is an explicit function of the spin. `Lemmas/SpinOrder`, `Props/SpinOrder` |
| C71 | `fundamental_frequencies`, `mino_frequencies`, `constants_of_motion` | the actions (`Spec.radialAction`, `Spec.polarAction`) are integrals of the separated potentials only. With r = m-d cos χ the square-root endpoints disappear and the derivative passes under the integral up to an exact χ-derivative (`Lemmas/Actions`); the resulting integrals are time averages of dt/dλ and dφ/dλ along the trajectory, i.e. Γ and Υ_φ (C20–C23). `Props/FirstLaw` |
| C72 | `constants_of_motion` | the closed form of C57 (`Lemmas/ConstantsForm`) is analytic because its divisors and the arguments of its square roots do not vanish at an accepted orbit (T, Δ(r₁)Δ(r₂), Σ(r₁)Σ(r₂) > 0, E > 0 and 2r₁ > (1-E²)(r₁²+a²(1-x²)) by Vieta). `Props/ConstantsSmooth` |
| C73 | `fundamental_frequencies`, `stable_trajectory` | least periods in Mino time (C52) and the exact advance of t, φ over a common period; if the ratio is irrational the subgroup generated by the two periods is dense, so the phase pair comes near every target (`Resonance.hit`); which ratios occur by continuity (C58), the zoom–whirl limit (C61) and the far limit (C63). `Props/Resonance` |
| C74 | the functions returned by `trajectory`, `four_velocity`, `numerical_four_velocity`, `trajectory_deltas`; `_ellipeinc`, `_ellippiinc`, `_four_velocity_norm`, `metric` | `Model/Array`: values are numbers, arrays (shape, row-major entries) or an exception; numpy functions act entrywise, results of shape `()` become scalars, `where` returns arrays, `item`, `isscalar`. The closures are written again over these values and shown to be `ufunc1` of the number version by rewriting (`Lemmas/Array`, `Props/Vectorised`) |
| C75 | `Orbit.__init__` (checks, `is_stable`, `apex_from_constants`), `trajectory`, `_four_velocity_norm` | inversion of `mkOrbit` on `stable = True`: four real roots can be unpacked, so E² ≠ 1; with E² > 1 either z₋ < 0, so \|x\| > 1 is rejected, or Q ≤ 0 and every coefficient of R is ≥ 0 (no positive root); a = 0 from p < 4 (`C75_bound`). Vieta + C09/C42 identify the constants (`C75_parameters`), C22_kerr gives the motion (`C75_geodesic`); E > 0 from reverse Cauchy–Schwarz outside the ergosphere (`C75_energy`). Not claimed: plunging objects with E² > 1 (real-number √ of a negative differs from numpy nan). |
| C76 | `constants_of_motion` with the functions it calls, the roots, `mino_frequencies`, `fundamental_frequencies`, `radial_solutions`, `polar_solutions`, `stable_trajectory`, `_ellipeinc`, `_ellippi`, `_ellippiinc`, `four_velocity` | these functions are written a second time (`Model/Finite`) over `Fl` = number or `exc`, where division, square root, arcsin/arccos, K, E, Carlson's integrals and `ellipj` fail outside their domain and every operation passes `exc` on. Proved: each intermediate value is the number of the real model. The radicand in `energy` is a square because the turning points satisfy two quadratic relations (C45); the one in `angular_momentum` likewise; the roots by Vieta; moduli from r4 ≤ r3 < r2 ≤ r1, 0 ≤ z₋ < 1 < z₊ (`C76_trajectory`, `C76_frequencies`). `C76_constants` is exact (also x = 0 and e = 1); `C76_divisor_violation`, `C76_horizon_violation`: the exceptional cases occur and then the results are not numbers. Rounding and overflow are not modelled |
| C77 | `plunging_mino_frequencies`, `plunging_radial_integrals`, `plunging_radial_solutions_complex`, `plunging_polar_solutions`, `plunging_trajectory` (two complex roots), `four_velocity` | these functions are written a second time (`Model/FinitePlunge`) over `Fl`; the Legendre integral `Pi(phi,n,m)` of the code has `n = 1/D^2 >= 1`, so it meets `elliprj` at `p = 0` exactly at `sn^2 = D^2` and, for every phase, at `D^2 = 1`; these conditions are translated into radii. All other steps are shown to stay inside the domains. `C77_plunge` is an if-and-only-if (an `if … then number else exc`), `C77_four_velocity` likewise; `C77_geodesic` transfers C47 to the checked model. The radial roots themselves are numbers (numpy root finder contract). |
| C78 | `plunging_trajectory` (four real roots), `_mino_frequencies_from_constants` and the four functions it calls, `radial_solutions`, `polar_solutions`, `four_velocity` | over `Fl` (`Model/FiniteRealPlunge`, which reuses the `Fl` versions of `radial_solutions`, `polar_solutions` of C76: Python calls the same functions); `1 - h sin^2 am` vanishes exactly where `r` is the horizon (Moebius map `rOf`), `h = 1` exactly when the horizon is `r1`; a horizon that is a root of the radial potential is one of `r1`, `r2`, `r3` by the sign of R between the horizons; `gamma = inf` exactly when `r2 = 0` |
| C79 | `constants_of_motion`, `separatrix` | an orbit has at least the energy of the circular orbit with the same p, x (C68), this that of the equatorial prograde one (C66 argument; for a = 0 the two coincide), this decreases strictly to the ISCO (C65); its energy is the closed form of Bardeen, Press & Teukolsky, continuous down to the ISCO where, with the closed equation of C69, it equals √(1-2/(3s)). Sharp above by the Kepler limit C62, over all spins because every s in (1,6] is an ISCO |
| C80 | `separatrix`, `stable_trajectory` | at equal periapsis the marginally stable equatorial orbit with the smallest spin is the parabolic one (the difference of the two closed forms of C69 is a square), orbits of other inclination have a larger separatrix (C64); sharp since s(e) < s(1) (C67); r(λ) by C20 |
| C81 | `constants_of_motion`, `separatrix` | as C79 within one sense (C68, C65); the closed forms of E and L of circular orbits at the solution of the closed equation of C69, by continuity |
| C82 | `separatrix`, `is_stable`, acceptance by `StableOrbit` | a marginal orbit is a spherical orbit at its periapsis; with u = E(s²+a²) − axY, w = Y − axE the double-root conditions become s(Δw + axu)² = (s² − a² + a²x²)u², and Y ≥ 0 fixes the sign, so each radius carries one marginal orbit (`Lemmas/SphericalUnique`); injectivity and continuity (C15) make the periapsis monotone in e, and the equatorial closed form (C51, C69) with continuity in x fixes the direction |
| C83 | `constants_of_motion`, `energy`, `angular_momentum`, `carter_constant`, `separatrix`, `r_frequency` | the double-root conditions of C82 solved for E and L/x; the remaining factor of the radial potential at the orbit is minus the stability function, so C16 gives its sign and C15/C67's limits of orbits its zero; the limit at the separatrix along ultrafilters from compactness of the constants; the parabolic case by letting e → 1 along marginal orbits, whose 1 − E² is at most 2(1 − e); the radial frequency from the factorisation at a double root, K(0) = π/2 |
| C84 | `constants_of_motion`, `separatrix`, `Orbit.__init__` | C68 reduces an orbit to the spherical one of the same p, C65 makes the closed form of C83 strictly increasing beyond the separatrix and continuous up to it; surjectivity by the intermediate value theorem with bounds for wide orbits from Vieta's relations |
| C85 | `separatrix`, `constants_of_motion` | for e < e' the orbit of eccentricity e at separatrix(a, e', x) lies, by C65 and C68, above the marginal orbit of e and below all orbits of e', hence below their limit; C82 and continuity of the separatrix turn eccentricities into radii; levels of the energy by the intermediate value theorem along the continuous families of fixed eccentricity |

Properties that are false of the code are kept in `properties.jsonl` in the form "what the code does
instead", with a theorem that exhibits the deviation (suffix `_violated`, `_violation`, `_fail`,
`_slow_speed`): C04 (three isolated 0/0 points), C18 (equatorial real-root plunges: Γ = inf), C22 (r3 = r₊: 0/0), C26, C29, C33, C34 (a = 0;
equatorial real-root plunges), C40, C43, C44, C55 (points inside the horizon), C56 (float `tail_length`), C74 (`_four_velocity_norm` refuses arrays), C77, C78 (plunges started at a singular radius: nan at all times).

### Hypotheses that are not implied by acceptance

* `Spec.DivisorsNonzero` (C04, C09, C22, C34, C49; prograde orbits with p ≤ 4 only): the code divides by
  these quantities; `C04_ergosphere_violation`, `C04_photon_radius_violation` and `C04_marginal_violation` (e = 1) show they can vanish. `C04_divisors_finite`: for given a, e, x this excludes at most finitely many p, all ≤ 4.
* `E(r₊²+a²) ≠ aL` (C22, C34, C49; prograde only): otherwise r₊ is a root of R and `radial_solutions`
  evaluates 0/0. `C22_horizon_root_violation`: for every 0 < a ≤ 3/4 some accepted circular orbit meets this case.
* `Spec.ClearOf 1e-4` (C34, C35, C49): `stable_orbit_initial_phases` snaps positions within 1e-4 of a
  turning point to the turning point, so exact reproduction is only claimed elsewhere (C34 gives the 1e-4 bound
  in every case).
* C47 (and C59): the closed forms for t and φ of complex-root plunges have removable singularities at which the code
  divides by zero. C77 determines them exactly: if the particle starts at such a radius, or a horizon satisfies
  |r2-ρ|(r±-r1) = |r1-ρ|(r2-r±) (then `_ellippi` is called with n = 1), the code returns nan or inf at every Mino time, and the
  real-number statements do not describe it; `C77_geodesic` is the statement for the values the code returns.

* Real-root plunges (C18, C19, C34, C35, C50): `Q ≠ 0` for statements about t, because `_gamma_from_constants`
  returns inf when r2 = 0 (`C18_equatorial_violation`); `L ≠ 0` because `polar_solutions` divides by L. The
  statements about t and φ presuppose that the particle does not start exactly on a horizon (numpy: inf − inf);
  C78 determines exactly where t and φ are numbers.

## 3. Modelled / not modelled

Modelled: all functions of `constants.py`, `frequencies.py`, `spacetime.py`, `initial_conditions.py`,
`units.py`, `stable.py`, `plunge.py`; of `orbit.py` the constructor, `trajectory`, `trajectory_deltas`,
`constants_of_motion`, `four_velocity`, `_four_velocity_norm`, `numerical_four_velocity`, `_numerical_four_velocity_norm`, `is_visible`, and `plot`/`animate` up to the
arguments handed to matplotlib (points, masks, segments, widths, opacities, camera, axis limits).

Not modelled: floating-point rounding (including `np.isreal`/`np.iscomplex` on rounded roots), convergence and
tolerance of Brent's method, array arguments of the functions that return numbers (constants, frequencies, roots; they branch on their arguments and are meant for
numbers – the returned functions of Mino time are modelled on arrays in `Model/Array`), combining arrays of different shapes, dtypes,
what matplotlib, ffmpeg and tqdm do with the arguments that `plot` and `animate` hand them (and colours, grid, background, text box), the values of `RectBivariateSpline` between the grid points of
`fast_separatrix` (only that the spline passes through its data, `SplineLib`), IPython display, docstrings and tests.

## 4. Trusted base

* Lean 4.33.0 kernel. Axioms: every theorem named in `MANIFEST.json` depends on exactly
  `propext`, `Classical.choice`, `Quot.sound` (checked with `#print axioms` for all of them); no axioms of our own, no
  compiled evaluation.
* The reading of the Python source into `Model/*.lean` (comments cite the lines).
* The contracts of numpy/scipy in the table of section 1, `Model/Scipy.lean` and `Model/Numpy.lean`
  (definitions, plus the structures `RootScalar` and (C39) `SplineLib` which are parameters of the theorems and are
  inhabited, `exampleRS`, `exampleSpline`).
