{"id": "C01", "title": "Analytic four-velocity has norm -1", "statement": "For every spin a, point (r,theta) off the horizons and off the axis, and constants (E,L,Q) for which the radial and polar potentials are non-negative there, the four components returned by KerrSpacetime.four_velocity, fed to KerrSpacetime.norm, give exactly -1 (for any choice of phases, i.e. either sign of u^r and u^theta).", "quantifier": "all real a,E,L,Q, all r,theta with Delta!=0, Sigma!=0, sin(theta)!=0, R(r)>=0, Z(cos theta)>=0, all phases", "why_tests_cant": "a polynomial identity over an uncountable set of points; the unit test samples 10 times on a few orbits with a tolerance", "anchors": ["kerrgeopy/spacetime.py: KerrSpacetime.four_velocity, KerrSpacetime.norm, KerrSpacetime.metric"]}
{"id": "C02", "title": "constants_from_initial_conditions returns the conserved quantities", "statement": "The 2x2 solve never meets a singular matrix off the horizon/axis, and the returned E and L are minus the t-component and the phi-component of the covariant velocity (metric contracted with the velocity); Q is the Carter constant u_theta^2 + cos^2(theta)(a^2(1-E^2) + L^2/sin^2(theta)). Conversely, feeding the four-velocity built from (E,L,Q) back returns the same (E,L,Q); and if the velocity has norm -1 then (Sigma u^r)^2 = R(r).", "quantifier": "all positions off horizon and axis, all velocities; all constants with non-negative potentials", "why_tests_cant": "round-trip law over a continuum of velocities; tests/test_initial_conditions.py contains only `pass` bodies", "anchors": ["kerrgeopy/initial_conditions.py: constants_from_initial_conditions", "kerrgeopy/spacetime.py: four_velocity"]}
{"id": "C03", "title": "Metric is the Kerr metric", "statement": "KerrSpacetime.metric is symmetric, has determinant -Sigma^2 sin^2(theta) (so is invertible off the axis), and Delta vanishes exactly at inner_horizon and outer_horizon, with 0<=inner_horizon<=outer_horizon and strict inequality for |a|<1.", "quantifier": "all a with |a|<=1, all points with Sigma!=0, Delta!=0", "why_tests_cant": "identity over all points; tests never look at the metric directly", "anchors": ["kerrgeopy/spacetime.py: KerrSpacetime.metric, __init__"]}
{"id": "C04", "title": "Constants of motion put the turning points at p/(1-e) and p/(1+e)", "statement": "For every accepted eccentric or circular inclined orbit the (E,L,Q) returned by constants_of_motion make r_max=p/(1-e) and r_min=p/(1+e) roots of the radial potential R (a double root r=p when e=0), make 1-x^2 a root of the polar potential, and satisfy 0<E<1, Q>=0, sign(L)=sign(x): the right one of the two candidate branches is selected. R is positive strictly between the turning points and the other two roots lie below r_min. The only exceptions are isolated prograde orbits with p<=4 at which a divisor of the code's formulas vanishes; three theorems exhibit accepted orbits where the code does divide zero by zero. For e=1 the constants are (1,L,Q) with p/2 the largest root of R, the next root strictly below it and not inside the horizon, sign(L)=sign(x), Q>=0, 1-x^2 a root of the polar potential, and they are the only such constants.", "quantifier": "all a,p,e,x accepted by the function with 0<=e<=1, x!=0, either sign of a; for prograde orbits with p<=4, those at which the divisors (listed explicitly in Spec.DivisorsNonzero) are not zero", "why_tests_cant": "correctness of a nested-radical formula for a 4-parameter family; tests compare 6 digits at random samples", "anchors": ["kerrgeopy/constants.py: energy, angular_momentum, carter_constant, _coefficients, _coefficients_derivative"]}
{"id": "C05", "title": "Carter constant encodes the inclination", "statement": "Whenever constants_of_motion returns for x!=0, z=1-x^2 is a root of the polar potential Q - (Q + a^2(1-E^2) + L^2) z + a^2(1-E^2) z^2, and stable_polar_roots returns both roots of that polynomial (for a!=0, L!=0, E^2!=1).", "quantifier": "all a,p,e,x!=0 and all E,L", "why_tests_cant": "algebraic law for all inputs", "anchors": ["kerrgeopy/constants.py: carter_constant, stable_polar_roots"]}
{"id": "C06", "title": "Polar-orbit constants are exact", "statement": "For every accepted polar orbit (x=0) the closed-form E and Q returned by energy and carter_constant, with L=0, satisfy 0<E<1, Q>0 and make both p/(1-e) and p/(1+e) roots of the radial potential (a double root for e=0); for e=1 they are E=1 and a Q>0 for which p/2 is a root.", "quantifier": "all a,p,e accepted with x=0, 0<=e<=1, either sign of a", "why_tests_cant": "long rational expressions copied from Mathematica; a mistyped coefficient matters only on a measure-zero slice (x=0) that random tests never hit", "anchors": ["kerrgeopy/constants.py: energy (polar case), carter_constant (polar case), angular_momentum"]}
{"id": "C07", "title": "Schwarzschild limit", "statement": "For a=0 and p>6+2e, 0<=e<1, x!=0: E^2=((p-2)^2-4e^2)/(p(p-3-e^2)), L = sign(x)|x| p/sqrt(p-3-e^2), Q=(1-x^2)p^2/(p-3-e^2), 0<E<1, and separatrix = 6+2e; theta and phi Mino frequencies are p/sqrt(p-3-e^2) in absolute value, equal to sqrt(L^2+Q).", "quantifier": "all p,e,x with 0<=e<1, p>6+2e, 0<|x|<=1", "why_tests_cant": "closed form over a 3-parameter continuum", "anchors": ["kerrgeopy/constants.py: energy, angular_momentum, carter_constant, separatrix", "kerrgeopy/frequencies.py: theta_frequency, phi_frequency"]}
{"id": "C08", "title": "stable_radial_roots returns the four roots of R", "statement": "If r1=p/(1-e), r2=p/(1+e) are roots of the radial potential (a double root when e=0) then the four numbers returned factor it: R(r)=(1-E^2)(r1-r)(r-r2)(r-r3)(r-r4) for every r, and r1>=r2, r3>=r4 hold in the documented decreasing order.", "quantifier": "all a,p,e,E,L,Q with E^2<1 for which the discriminant is non-negative and r3!=0", "why_tests_cant": "holds for every r and every orbit", "anchors": ["kerrgeopy/constants.py: stable_radial_roots"]}
{"id": "C09", "title": "apex_from_constants inverts constants_of_motion", "statement": "constants_of_motion followed by apex_from_constants (the route StableOrbit.from_constants takes) returns the parameters (a,p,e,x) it started from, for every accepted orbit; conversely for constants (E,L,Q) whose radial roots are r4<=r3<r2<=r1 and which describe a bound geodesic, constants_of_motion of the recovered parameters returns the same (E,L,Q).", "quantifier": "all accepted a,p,e,x with 0<=e<1, x!=0; all bound stable constants (divisors non-zero for prograde p<=4)", "why_tests_cant": "round trip through a numerical root finder for all orbits; not covered by any test", "anchors": ["kerrgeopy/constants.py: apex_from_constants", "kerrgeopy/stable.py: StableOrbit.from_constants"]}
{"id": "C10", "title": "Simultaneous sign flip of a and x changes nothing", "statement": "energy, angular_momentum, carter_constant, constants_of_motion, r/theta/phi frequency, gamma, mino_frequencies, fundamental_frequencies and the whole StableOrbit object give identical results (value or error) for (a,p,e,x) and (-a,p,e,-x) with a!=0.", "quantifier": "all real a!=0,p,e,x, valid or not", "why_tests_cant": "symmetry quantified over all inputs including invalid ones", "anchors": ["kerrgeopy/constants.py: _standardize_params", "kerrgeopy/stable.py: StableOrbit.__init__", "kerrgeopy/frequencies.py"]}
{"id": "C11", "title": "Exact error contract of the constants API", "statement": "energy/angular_momentum/carter_constant/constants_of_motion/separatrix raise ValueError exactly when |a|=1, or |a|>1, or e outside [0,1], or |x|>1, or p<=separatrix; otherwise they return a value. separatrix itself (and is_stable) raises for a<0.", "quantifier": "all real a,p,e,x", "why_tests_cant": "if-and-only-if over all inputs and both sides of each boundary", "anchors": ["kerrgeopy/constants.py: energy, angular_momentum, carter_constant, separatrix, is_stable, valid_params"]}
{"id": "C12", "title": "Exact error contract of the frequency API", "statement": "r_frequency/theta_frequency/phi_frequency/gamma/mino_frequencies/fundamental_frequencies raise ValueError exactly when |a|>=1, or x=0, or e outside [0,1), or |x|>1 or p<=separatrix.", "quantifier": "all real a,p,e,x", "why_tests_cant": "if-and-only-if over all inputs", "anchors": ["kerrgeopy/frequencies.py: r_frequency, theta_frequency, phi_frequency, gamma, mino_frequencies, fundamental_frequencies"]}
{"id": "C13", "title": "Precomputed arguments never change a result", "statement": "Passing E (or E,L; or constants; or constants and the two frequencies) equal to what the function itself would compute gives the same result as omitting it, for angular_momentum, carter_constant, r/theta/phi frequency and gamma; in particular re-standardising already standardised parameters is harmless.", "quantifier": "all real a,p,e,x", "why_tests_cant": "equality of two call paths for all inputs", "anchors": ["kerrgeopy/constants.py", "kerrgeopy/frequencies.py"]}
{"id": "C14", "title": "Separatrix polynomials are mutually consistent", "statement": "The full separatrix polynomial at x=0 is the square of the polar polynomial, at x=+1 and x=-1 it is p^8 times the equatorial polynomial, at a=0 it is p^10 (p-6-2e)^2, and it is even in x; the equatorial one at a=0 is p^2(p-6-2e)^2.", "quantifier": "all real p,a,e,x", "why_tests_cant": "identity of 494-term polynomials", "anchors": ["kerrgeopy/constants.py: _S, _S_polar, _S_equatorial"]}
{"id": "C15", "title": "separatrix never raises for valid input and returns the only root", "statement": "For 0<a<1, 0<=e<=1 every bracket that separatrix hands to the bracketed root search has end values of opposite sign (or zero), so separatrix never raises for 0<=a<1, |x|<=1, and it returns a root of the corresponding polynomial inside the documented bracket. That root is the only one inside the bracket, so the answer does not depend on which root the search happens to find, and it is a continuous function of (a,e,x) on the whole accepted range, across the Schwarzschild, polar and equatorial boundaries between the branches of the code (which is what fast_separatrix relies on when it interpolates).", "quantifier": "all 0<=a<1, 0<=e<=1, |x|<=1 and every root finder meeting the scipy contract", "why_tests_cant": "sign condition over a 2-parameter continuum; a single failing (a,e) makes the API raise", "anchors": ["kerrgeopy/constants.py: separatrix"]}
{"id": "C16", "title": "is_stable is exactly the existence of a stable bound geodesic", "statement": "is_stable(a,p,e,x) is True exactly when p > separatrix(a,e,x), it is monotone in p and False at the separatrix; and for e<1 it is True exactly when there is a bound geodesic outside the horizon with turning points p/(1-e), p/(1+e), inclination x and a next root strictly below p/(1+e), and False exactly when there is none. For e=1 it is True exactly when there is a parabolic geodesic (E=1) with periapsis p/2 outside the horizon, inclination x and a next root strictly below p/2.", "quantifier": "all 0<=a<1, all real p,p', 0<=e<=1, |x|<=1", "why_tests_cant": "monotonicity over all pairs of p", "anchors": ["kerrgeopy/constants.py: is_stable", "kerrgeopy/spacetime.py: KerrSpacetime.is_stable"]}
{"id": "C17", "title": "Elliptic integrals are correct for every amplitude", "statement": "_ellippi(n,m), _ellippiinc(phi,n,m), _ellipeinc(phi,m) equal the integrals stated in their docstrings for every real phi (negative, beyond pi/2, any number of half periods), 0<=m<1 and n<1.", "quantifier": "all real phi, all m<1, n<1", "why_tests_cant": "the half-period bookkeeping has infinitely many branches", "anchors": ["kerrgeopy/frequencies.py: _ellippi, _ellippiinc, _ellipeinc"]}
{"id": "C18", "title": "Trajectory starts where the phases say", "statement": "For stable, real-root plunging and complex-root plunging trajectories, t(0)=q_t0 and phi(0)=q_phi0 (converted to the requested units) for every choice of the four initial phases. Exception: for an equatorial plunge with four real roots (smallest root r=0) the code takes the orbit for a marginally bound one and sets Gamma=inf, so that t is not a number at any Mino time.", "quantifier": "all orbits, all initial phases, all unit choices", "why_tests_cant": "all phases", "anchors": ["kerrgeopy/stable.py: stable_trajectory", "kerrgeopy/plunge.py: _complex_plunge_trajectory, _real_plunge_trajectory"]}
{"id": "C19", "title": "Time translation law", "statement": "The trajectory with phases q evaluated at lambda0+lambda equals the trajectory with phases (t(lambda0), q_r0+Upsilon_r lambda0, q_theta0+Upsilon_theta lambda0, phi(lambda0)) evaluated at lambda, in all four components. (For plunges: not for equatorial real-root ones, whose t is not a number.)", "quantifier": "all orbits, phases, lambda0, lambda", "why_tests_cant": "composition law for all pairs of times", "anchors": ["kerrgeopy/stable.py: stable_trajectory", "kerrgeopy/plunge.py: _complex_plunge_trajectory, _real_plunge_trajectory"]}
{"id": "C20", "title": "Radial and polar motion stay between turning points and are periodic", "statement": "For a stable orbit r(lambda) stays in [p/(1+e), p/(1-e)] for every lambda, reaches p/(1+e) at radial phase 0 and p/(1-e) at radial phase pi, and is periodic with period 2pi/Upsilon_r; theta(lambda) stays in [arccos(sqrt(z_-)), pi-arccos(sqrt(z_-))], starts at the minimum at phase 0 and is periodic with period 2pi/Upsilon_theta.", "quantifier": "all stable orbits, all lambda", "why_tests_cant": "unbounded time", "anchors": ["kerrgeopy/stable.py: radial_solutions, polar_solutions, stable_trajectory", "kerrgeopy/frequencies.py: r_frequency, theta_frequency"]}
{"id": "C21", "title": "Stable radial and polar solutions solve the geodesic equations", "statement": "dr/dlambda equals sign(sin q_r) sqrt(R(r)) and dtheta/dlambda equals sign(sin q_theta) sqrt(Z(cos theta))/sin(theta) at every lambda, i.e. Sigma times the u^r and u^theta returned by four_velocity.", "quantifier": "all stable orbits (roots in the documented order), all lambda, all phases", "why_tests_cant": "differential equation at every time for every orbit", "anchors": ["kerrgeopy/stable.py: radial_solutions, polar_solutions", "kerrgeopy/spacetime.py: four_velocity"]}
{"id": "C22", "title": "Stable t and phi solve the geodesic equations", "statement": "dt/dlambda and dphi/dlambda along a stable trajectory equal Sigma u^t and Sigma u^phi returned by four_velocity, at every lambda: the secular rates Gamma and Upsilon_phi are the right averages and the oscillating parts are the right integrals. From the parameters alone: stable_trajectory(a,p,e,x) returns, for every accepted orbit, a curve that solves all four geodesic equations with norm -1. (On isolated prograde orbits, one for every spin up to 3/4 among the circular ones, the third radial root is the horizon radius and the code computes 0/0.)", "quantifier": "all accepted a,p,e,x with 0<=a<1, 0<=e<1, x!=0 (prograde orbits: E(r_+^2+a^2) != aL, and for p<=4 the divisors non-zero), all lambda, all phases", "why_tests_cant": "differential equation at every time; tests use a 1e-3 tolerance finite difference on samples", "anchors": ["kerrgeopy/stable.py: radial_solutions, polar_solutions, stable_trajectory", "kerrgeopy/frequencies.py: gamma, phi_frequency"]}
{"id": "C23", "title": "Four-velocity norm is -1 along the whole stable orbit", "statement": "_four_velocity_norm()(lambda) = -1 for every Mino time for a stable orbit outside the horizon: the potentials are non-negative everywhere along the returned trajectory, so the abs() in four_velocity is never active.", "quantifier": "all stable orbits, all lambda, all phases", "why_tests_cant": "unbounded time", "anchors": ["kerrgeopy/orbit.py: Orbit._four_velocity_norm, four_velocity", "kerrgeopy/spacetime.py: four_velocity", "kerrgeopy/stable.py: stable_trajectory"]}
{"id": "C24", "title": "Trajectory deltas are periodic", "statement": "The functions returned by StableOrbit.trajectory_deltas are 2pi-periodic in their phase, and the radial deltas are odd about the point where the shifted phase is 0 (periapsis), for every choice of initial phases.", "quantifier": "all stable orbits, phases q", "why_tests_cant": "all real phases", "anchors": ["kerrgeopy/stable.py: StableOrbit.trajectory_deltas, radial_solutions, polar_solutions"]}
{"id": "C25", "title": "Frequencies: Boyer-Lindquist = Mino / Gamma, consistently in all units", "statement": "fundamental_frequencies = mino_frequencies / gamma component-wise; the object methods agree with the attributes; Gamma and Upsilon_phi are the mean Mino-time rates of t and phi (the deviation of t and phi from linear growth stays bounded); in physical units the relation Omega = Upsilon/Gamma still holds after conversion, mHz = 1000 Hz; Upsilon_theta>=0 always and Upsilon_r>0 for ordered roots.", "quantifier": "all orbits, all M>0, all unit strings", "why_tests_cant": "all masses and orbits", "anchors": ["kerrgeopy/frequencies.py: mino_frequencies, fundamental_frequencies", "kerrgeopy/stable.py: StableOrbit.mino_frequencies, fundamental_frequencies", "kerrgeopy/units.py"]}
{"id": "C26", "title": "Constants of motion in physical units", "statement": "Orbit.constants_of_motion(\"mks\") returns E = E mu c^2 with mu in kg, and \"cgs\" is 10^7 times (for Q 10^14 times) the mks result. For L and Q the code does not return the expected L G mu M/c and Q (G mu M/c)^2: it returns exactly one extra solar mass (in kg), resp. its square, times those, hence a wrong value for every orbit with L != 0.", "quantifier": "all orbits, all M,mu", "why_tests_cant": "law over all masses; no test covers unit conversion", "anchors": ["kerrgeopy/orbit.py: Orbit.constants_of_motion", "kerrgeopy/constants.py: scale_constants", "kerrgeopy/units.py"]}
{"id": "C27", "title": "Unit conversions are linear and mutually consistent", "statement": "Every conversion is linear in the quantity; cm=100 m, km=m/1000, day=86400 s, erg=1e7 J; distances and times are related by the speed of light; frequency*time is dimensionless; time2 is the square of the time conversion; angular momentum in cgs is 1e7 and Carter constant 1e14 times mks; conversions scale with the right power of M.", "quantifier": "all quantities, all masses", "why_tests_cant": "all real arguments", "anchors": ["kerrgeopy/units.py"]}
{"id": "C28", "title": "Unit selection errors", "statement": "Requesting physical units without M raises ValueError immediately; with natural units M is never needed; an unknown unit raises ValueError in the frequency/constants methods, while in the trajectory functions an unknown unit is only detected (KeyError) when the affected component is evaluated, and never affects the other components.", "quantifier": "all unit strings, M present or not", "why_tests_cant": "all strings", "anchors": ["kerrgeopy/stable.py: stable_trajectory, mino_frequencies, fundamental_frequencies", "kerrgeopy/plunge.py", "kerrgeopy/orbit.py: constants_of_motion"]}
{"id": "C29", "title": "is_visible: which points are shown", "statement": "A single point is reported visible exactly when it lies outside the event horizon and is in front of the viewing plane or projects outside the horizon disc; in any list of points the answer for a point outside the horizon is that one. For a point inside the horizon the answer depends on the other points: the code compares the norm of the whole array with the horizon, so a point inside the horizon and in front of the plane is reported invisible alone and visible as soon as a point outside the horizon is in the list.", "quantifier": "all point lists, all viewing angles", "why_tests_cant": "all lists; plotting is untested", "anchors": ["kerrgeopy/orbit.py: Orbit.is_visible"]}
{"id": "C30", "title": "plunging_radial_roots labels the roots correctly", "statement": "With four real roots the result is a permutation of the roots of R such that R>=0 between r2 and r1 (the motion range), (r1,r2) is the outer pair when the second smallest root is at or below the inner horizon radius and the inner pair otherwise; with two complex roots r1<r2 are the real ones and r3,r4 conjugate; with no real roots the call fails.", "quantifier": "all a,E,L,Q with E^2<1", "why_tests_cant": "all root configurations", "anchors": ["kerrgeopy/constants.py: plunging_radial_roots"]}
{"id": "C31", "title": "Complex-root plunge: r(lambda) solves the radial equation", "statement": "For a plunging orbit with two complex roots r(lambda) stays in [r1,r2], starts at r1 at phase 0 and satisfies (dr/dlambda)^2=R(r) at every lambda with the returned Upsilon_r; its period in phase is 2pi.", "quantifier": "all complex-root plunges, all lambda", "why_tests_cant": "differential equation at all times", "anchors": ["kerrgeopy/plunge.py: plunging_radial_solutions_complex", "kerrgeopy/frequencies.py: plunging_mino_frequencies"]}
{"id": "C32", "title": "Complex-root plunge: polar motion solves its equations", "statement": "cos(theta) stays in [-z1,z1], satisfies the polar equation, and t_theta, phi_theta are the exact integrals of a^2 E cos^2(theta) - ... and L/sin^2(theta) along it.", "quantifier": "all complex-root plunges with E^2<1,a!=0, all lambda", "why_tests_cant": "differential equation at all times", "anchors": ["kerrgeopy/plunge.py: plunging_polar_solutions", "kerrgeopy/frequencies.py: plunging_mino_frequencies"]}
{"id": "C33", "title": "When trajectory_deltas works for a plunging orbit", "statement": "trajectory_deltas returns four functions, the phase dependent parts of t and phi, for every stable orbit and every plunging orbit with two complex radial roots; for every plunging orbit with four real roots it raises ValueError, because the radial roots are passed where the polar roots are expected.", "quantifier": "all plunging orbits", "why_tests_cant": "the real-root branch is never exercised by tests of trajectory_deltas", "anchors": ["kerrgeopy/plunge.py: PlungingOrbit.trajectory_deltas", "kerrgeopy/orbit.py: Orbit.trajectory_deltas"]}
{"id": "C34", "title": "Orbit reproduces its initial position", "statement": "For an Orbit built from initial conditions of a bound geodesic with spin != 0, trajectory() at Mino time 0 equals initial_position in all four components; this includes real-root plunges off the equatorial plane (for equatorial ones the time is not a number, because Gamma is computed as inf). Every initial condition on a stable bound geodesic outside the horizon is accepted and classified as stable. For spin 0 every bound initial condition with L != 0 is accepted as stable, r is reproduced, and t, theta, phi are reproduced if the initial polar angle is within 1e-4 of a turning point (in particular for equatorial motion); otherwise it is violated: the polar phase is computed from sqrt(-4) (nan), because the radial roots are passed in ascending order.", "quantifier": "all initial conditions with four real radial roots, off the polar axis; spin 0 treated by the counterexample", "why_tests_cant": "inverse of an elliptic function for all initial data; test bodies are `pass`", "anchors": ["kerrgeopy/initial_conditions.py: stable_orbit_initial_phases", "kerrgeopy/stable.py: stable_trajectory", "kerrgeopy/orbit.py: Orbit.__init__, trajectory"]}
{"id": "C35", "title": "Orbit reproduces its initial velocity", "statement": "For the same orbits with velocity of norm exactly -1, four_velocity() at Mino time 0 equals initial_velocity in all four components (including the sign of u^r and u^theta); this includes real-root plunges off the equatorial plane.", "quantifier": "all stable initial conditions off the turning points with norm -1", "why_tests_cant": "all initial data", "anchors": ["kerrgeopy/initial_conditions.py: stable_orbit_initial_phases", "kerrgeopy/spacetime.py: four_velocity", "kerrgeopy/orbit.py"]}
{"id": "C36", "title": "Stability classification from initial conditions", "statement": "is_stable(a,position,velocity) returns False for two complex roots, raises for four complex roots, and for four real roots returns True exactly when r0 is (within tol) in [r2,r1] and r2 is above the inner horizon radius; every answer True implies r0 in the outer potential well, and the branches are mutually exclusive for separated roots.", "quantifier": "all root configurations and r0", "why_tests_cant": "decision table over a continuum", "anchors": ["kerrgeopy/initial_conditions.py: is_stable"]}
{"id": "C37", "title": "Orbit constructor validates the velocity", "statement": "Orbit raises ValueError exactly when the norm is >=0 or differs from -1 by more than 1e-6 (before anything else is computed); Schwarzschild plunges are rejected by both Orbit and PlungingOrbit.", "quantifier": "all a, positions, velocities", "why_tests_cant": "if-and-only-if over all velocities", "anchors": ["kerrgeopy/orbit.py: Orbit.__init__", "kerrgeopy/plunge.py: PlungingOrbit.__init__"]}
{"id": "C38", "title": "Numerical four-velocity is a consistent derivative", "statement": "The five-point formula in numerical_four_velocity is exact for every trajectory component that is a polynomial of degree <=4 in Mino time, for every step dx!=0; for every five times differentiable component its error is at most M dx^4/(18 Sigma), M bounding the fifth derivative; for every stable orbit object it tends to four_velocity() as dx->0 at every Mino time (turning points included) and _numerical_four_velocity_norm tends to -1.", "quantifier": "all trajectories, all lambda, all dx", "why_tests_cant": "limit statement", "anchors": ["kerrgeopy/orbit.py: Orbit.numerical_four_velocity"]}
{"id": "C39", "title": "fast_separatrix samples the grid it interpolates", "statement": "Entry (i,j) of the table handed to the interpolator is separatrix(a,e_i,x_j) for the very e_i, x_j handed to it, the table has the right shape, and the grid includes the end points 0,1 and -1,1. So fast_separatrix(a, grid_spacing) agrees with separatrix at every grid point, whatever interpolator passing through its data is used.", "quantifier": "all grid spacings <= 1/2", "why_tests_cant": "index bookkeeping for all grid sizes (meshgrid transposition)", "anchors": ["kerrgeopy/constants.py: fast_separatrix"]}
{"id": "C40", "title": "Animation frames index inside the sampled trajectory", "statement": "For speeds >= 1/8: for every frame the time index and the tail window are inside the sampled arrays, the tail window has at most tail_length*240 points, frames advance by a constant number of samples and the number of frames is the floor of points/step. For speeds in [0,1/8) the step is zero and animate raises ZeroDivisionError. The number of alpha values handed to the tail equals the number of tail points for every frame except frame 0, where the slice is the whole ramp.", "quantifier": "all lambda0<lambda1, speeds >= 1/8, tail lengths", "why_tests_cant": "all frame numbers", "anchors": ["kerrgeopy/orbit.py: Orbit.animate"]}
{"id": "C41", "title": "StableOrbit attributes are mutually consistent", "statement": "StableOrbit(a,p,e,x,phases): initial_position/initial_velocity are trajectory()(0)/four_velocity()(0), the constants and frequencies attributes are what the module functions return, a>=0 and trajectory(initial_phases=None) uses the stored phases.", "quantifier": "all valid parameters and phases", "why_tests_cant": "all inputs", "anchors": ["kerrgeopy/stable.py: StableOrbit.__init__"]}
{"id": "C42", "title": "Separatrix polynomial vanishes at the separatrix", "statement": "If the orbit with parameters (p,e,x) is marginal, i.e. R has roots p/(1-e) and a double root at p/(1+e) and z=1-x^2 is a polar root, then the full separatrix polynomial vanishes at p.", "quantifier": "all a!=0,p,e,x,E,L,Q", "why_tests_cant": "elimination identity for all orbits", "anchors": ["kerrgeopy/constants.py: _S"]}
{"id": "C43", "title": "Negative spin: what stable_trajectory returns", "statement": "stable_trajectory called directly with -1<a<0 is accepted whenever the standardised orbit is and returns the r and theta of that orbit, but its azimuth is wrong: at no Mino time is dphi/dlambda that of a geodesic of spin a with the returned constants, and for e>0 the curve is not a geodesic of spin |a| either. StableOrbit standardises first and is not affected.", "quantifier": "all accepted orbits with -1<a<0, x!=0, 0<=e<1 (x<0: exceptions as in C22), all phases", "why_tests_cant": "tests never use a<0 for trajectories", "anchors": ["kerrgeopy/stable.py: stable_trajectory", "kerrgeopy/orbit.py: Orbit.trajectory"]}
{"id": "C44", "title": "Complex-root plunge from initial conditions starts at r0, theta0", "statement": "For a complex-root plunging Orbit off the equator, trajectory()(0) reproduces the initial position and four_velocity()(0) the initial velocity; such initial conditions are accepted. The equatorial special case q_theta0=0 is overwritten by the following branch, so it never takes effect.", "quantifier": "all complex-root plunging initial conditions", "why_tests_cant": "all initial data", "anchors": ["kerrgeopy/initial_conditions.py: plunging_orbit_initial_phases", "kerrgeopy/plunge.py"]}
{"id": "C45", "title": "Derivative coefficients are the derivatives", "statement": "_coefficients_derivative(r,a,x) returns the r-derivatives of the functions returned by _coefficients(r,a,x), and with Carter substituted R(r) = f E^2 - 2 g E L - h L^2 - d.", "quantifier": "all r,a and x!=0", "why_tests_cant": "identity for all r", "anchors": ["kerrgeopy/constants.py: _coefficients, _coefficients_derivative"]}
{"id": "C46", "title": "Trajectories are future directed", "statement": "Along a stable orbit of positive energy dt/dlambda >= r^2 at every Mino time, so t is strictly increasing, Gamma >= r_min^2 > 0 and the Boyer-Lindquist frequencies Omega_r, Omega_theta are finite and positive.", "quantifier": "all stable orbits with E(r_min^2+a^2) > aL (in particular all with periapsis outside r=2), all lambda", "why_tests_cant": "inequality at every time for every orbit", "anchors": ["kerrgeopy/stable.py: stable_trajectory", "kerrgeopy/frequencies.py: gamma, fundamental_frequencies"]}
{"id": "C47", "title": "Complex-root plunges are geodesics in t and phi", "statement": "Along every complex-root plunging trajectory, at every Mino time where the orbit is not at the horizon radii or at the mirror points where the closed form has cancelling poles, dt/dlambda and dphi/dlambda are the Kerr geodesic right-hand sides, and the four-velocity is normalised to -1 with conserved E and L.", "quantifier": "all complex-root plunging constants off r1+r2=2u, all Mino times off the exceptional set", "why_tests_cant": "differential identity for all times", "anchors": ["kerrgeopy/plunge.py: _complex_plunge_trajectory, plunging_radial_integrals, plunging_radial_solutions_complex, plunging_polar_solutions"]}
{"id": "C48", "title": "The stable flag of Orbit is physically right", "statement": "For an Orbit of four-velocity norm -1 with |a|<1, E^2<1: stable=True only if the radial range containing r0 is the outer one and lies outside the outer horizon; stable=False only if the range containing r0 contains both horizons (so the orbit falls in). The roots labelled r1,r2 for a plunge bracket r0 and both horizons.", "quantifier": "all initial conditions with E(rh^2+a^2) != aL on the horizons and the two radial ranges separated by more than the 1e-4 tolerance", "why_tests_cant": "trichotomy over a continuum of root configurations", "anchors": ["kerrgeopy/initial_conditions.py: is_stable", "kerrgeopy/orbit.py: Orbit.__init__", "kerrgeopy/constants.py: plunging_radial_roots"]}
{"id": "C49", "title": "An orbit can be restarted from any of its own points", "statement": "Take a StableOrbit or PlungingOrbit (or an Orbit built from initial data that plunges), its trajectory and four-velocity at any Mino time lambda0, and build Orbit from that position and velocity: it is accepted, classified the same way, has the same constants and frequencies (and for stable orbits the same p,e,x), and its trajectory and four-velocity at every Mino time lambda are those of the original orbit at lambda0+lambda; for plunges also before, between and after the horizon crossings. So the constructors, four_velocity, constants_from_initial_conditions, apex_from_constants, the initial phases and Orbit.trajectory are mutually consistent.", "quantifier": "stable: all accepted a,p,e,x with 0<a<1, 0<=e<1, x!=0 (prograde: E(r_+^2+a^2)!=aL, and for p<=4 divisors non-zero), all lambda0 at which r and theta are at a turning point or 1e-4 away from it; plunges: all a!=0, |a|<1, E^2<1, Q>0 not reaching the axis, all lambda0 off the horizons and the ring (four real roots: turning-point tolerance as for stable orbits); all phases, all lambda", "why_tests_cant": "a composition of six numerical inversions, for every orbit and every time; tests/test_initial_conditions.py has only `pass` bodies", "anchors": ["kerrgeopy/stable.py: StableOrbit", "kerrgeopy/orbit.py: Orbit", "kerrgeopy/initial_conditions.py: constants_from_initial_conditions, stable_orbit_initial_phases, is_stable", "kerrgeopy/constants.py: apex_from_constants"]}
{"id": "C50", "title": "Real-root plunges are geodesics", "statement": "A plunging trajectory with four real radial roots stays between the two roots r2<r_-<r_+<r1 labelled by plunging_radial_roots, reaches both with Mino period 2 pi/Upsilon_r, satisfies the radial and polar geodesic equations with the signs of the phases at every Mino time, and the azimuth and (off the equatorial plane) time equations at every Mino time off the two horizons; there it is the integral curve of the four-velocity returned by four_velocity, with norm -1 and the constants (E,L,Q) it was built from.", "quantifier": "all a!=0 with |a|<1, E^2<1, L!=0, Q>=0 (time: Q>0) with four real radial roots whose two ranges do not touch and E(rh^2+a^2)!=aL at the horizons; all phases and Mino times off the horizons", "why_tests_cant": "differential identity through Cauchy principal values, for all orbits and times", "anchors": ["kerrgeopy/plunge.py: _real_plunge_trajectory, plunging_trajectory", "kerrgeopy/frequencies.py: _mino_frequencies_from_constants, _gamma_from_constants, _phi_frequency_from_constants", "kerrgeopy/stable.py: radial_solutions, polar_solutions", "kerrgeopy/constants.py: plunging_radial_roots"]}
{"id": "C51", "title": "Agreement with the classical closed forms for equatorial orbits", "statement": "separatrix(a,0,+-1) is the innermost stable circular orbit of Bardeen, Press and Teukolsky (cube-root formula) and separatrix(a,1,+-1) is twice their marginally bound radius. For accepted circular equatorial orbits constants_of_motion returns their E and L (and Q=0), and fundamental_frequencies returns the Kepler frequency +-1/(p^(3/2)+-a) as azimuthal frequency and the textbook epicyclic frequencies as radial and polar frequencies.", "quantifier": "all spins 0<=a<1, all accepted p, prograde and retrograde (prograde: except the two radii where the code divides by zero and, for the frequencies, E(r_+^2+a^2)=aL), whichever root finder is used", "why_tests_cant": "Tests compare a few radii; the code reaches these numbers through root searches, Schmidt determinants and elliptic integrals whose reduction to the closed forms must hold for every spin and radius.", "anchors": ["kerrgeopy/constants.py: separatrix, energy, angular_momentum, constants_of_motion", "kerrgeopy/frequencies.py: fundamental_frequencies"]}
{"id": "C52", "title": "Symmetries and least periods of trajectories", "statement": "Negating all four initial phases gives the time-reversed orbit (t and phi change sign, r and theta are retraced); adding pi to the polar phase reflects the orbit in the equatorial plane and leaves t, r, phi unchanged; whole turns of the radial or polar phase change nothing; the phases of t and phi only shift t and phi. All this for stable orbits and for both kinds of plunges. For stable orbits the Mino-time periods of r (e>0) are exactly the multiples of 2 pi/Upsilon_r, those of theta (x^2<1) exactly the multiples of 2 pi/Upsilon_theta; for e=0 r is constantly p and for x^2=1 theta is constantly pi/2.", "quantifier": "all accepted a,p,e,x with 0<=a<1, 0<=e<1, x!=0 (prograde: E(r_+^2+a^2)!=aL, and for p<=4 divisors non-zero), all phases, all Mino times, all candidate periods", "why_tests_cant": "exact functional identities for all times through floor-based branches of the elliptic integrals; that no smaller period exists is a universal negative statement", "anchors": ["kerrgeopy/stable.py: stable_trajectory, radial_solutions, polar_solutions", "kerrgeopy/frequencies.py: mino_frequencies, _ellippiinc, _ellipeinc"]}
{"id": "C53", "title": "Trajectories solve the second-order geodesic equation of the metric", "statement": "At every Mino time, turning points included, the curve returned by a stable or plunging orbit and the four-velocity returned by four_velocity satisfy the geodesic equation d/dtau(g_mu_nu u^nu) = 1/2 d_mu g_ab u^a u^b of the metric returned by KerrSpacetime.metric, with dtau/dlambda = Sigma. In proper time a stable orbit is a timelike geodesic defined for all proper times.", "quantifier": "all accepted stable orbits outside the horizon and all plunges off the horizons, all phases, all times", "why_tests_cant": "a differential equation at every time; the first-order equations do not determine the motion at turning points", "anchors": ["kerrgeopy/stable.py: stable_trajectory", "kerrgeopy/plunge.py: plunging_trajectory", "kerrgeopy/spacetime.py: metric, four_velocity"]}
{"id": "C54", "title": "An orbit is the solution of the initial value problem of the geodesic equation", "statement": "StableOrbit (either sign of the spin) in proper time is the only solution of the geodesic equation of the Kerr metric with its initial_position and initial_velocity; Orbit(a, initial_position, initial_velocity) of a bound geodesic is accepted and its trajectory is the only geodesic with exactly the given position and velocity. On intervals of Mino time without horizon crossing the same holds for plunges, both for PlungingOrbit and for Orbit built from plunging initial data (two complex or four real radial roots).", "quantifier": "all accepted orbits, all competing geodesics on all intervals around the initial time", "why_tests_cant": "quantifies over all solutions of a differential equation", "anchors": ["kerrgeopy/orbit.py: Orbit.__init__, trajectory, four_velocity", "kerrgeopy/stable.py: StableOrbit", "kerrgeopy/initial_conditions.py", "kerrgeopy/spacetime.py: metric"]}
{"id": "C55", "title": "What plot draws", "statement": "plot samples the orbit at N = floor((lambda1-lambda0)*point_density) equally spaced Mino times from lambda0 to lambda1, joins consecutive points, draws the small body at lambda1, gives each instant the width 0.1 + lw exp(-(lambda1-lambda)/tau), draws the black hole at radius r_+ and sets the axis limits to the exact range of curve and black hole. For a StableOrbit a sampled point is masked exactly if it is hidden behind the black hole from the given camera. A range with a negative number of points raises ValueError, an empty one IndexError. For plunging orbits points inside the horizon are drawn although they should be hidden.", "quantifier": "all orbits, all phases, time ranges, densities, cameras, widths and fading times", "why_tests_cant": "an index off by one, a wrong mask for one camera or one sample out of the axes shows up only for particular inputs and is invisible to tests that do not inspect the figure", "anchors": ["kerrgeopy/orbit.py: Orbit.plot, Orbit.is_visible"]}
{"id": "C56", "title": "What each frame of animate draws", "statement": "animate draws floor(N/step) frames, N = floor(240 (lambda1-lambda0)), step = floor(8 speed). Frame i shows the body at sample j = step*i, the camera angles, roll and axis limit given (or the given functions of the current Mino time), and as tail the up to 240*tail_length preceding samples, each masked exactly if hidden behind the black hole for the camera of that frame (StableOrbit), with opacity 0.1 + 0.9 exp(-age/tau), age counted from the newest tail point. The default axis limit is the largest absolute coordinate of all samples and the black hole. With a float tail_length (documented as double) animate raises TypeError as soon as the last frame is later than the tail is long.", "quantifier": "all orbits, phases, time ranges, speeds >= 1/8, cameras, pan functions, tail lengths, every frame", "why_tests_cant": "holds for every frame of every animation; rendering a frame needs ffmpeg and inspecting it needs eyes", "anchors": ["kerrgeopy/orbit.py: Orbit.animate, draw_frame"]}
{"id": "C57", "title": "Constants of motion depend continuously on the orbital parameters", "statement": "constants_of_motion(a,p,e,x) is a continuous function of the four parameters jointly: where the code switches formula (Schwarzschild a=0, polar x=0, circular e=0, parabolic e=1) the values of energy, angular momentum and Carter constant do not jump.", "quantifier": "all accepted a,p,e,x with 0<=a<1 (for p<=4 also e<1 and non-zero divisors), all limits of such parameters; the branch points included", "why_tests_cant": "a statement about limits through uncountably many parameter values; tests see each branch separately", "anchors": ["kerrgeopy/constants.py: energy, angular_momentum, carter_constant, constants_of_motion"]}
{"id": "C58", "title": "Frequencies and trajectories depend continuously on the orbital parameters", "statement": "mino_frequencies and fundamental_frequencies are continuous functions of (a,p,e,x), and the four coordinates of stable_trajectory(a,p,e,x,phases) at Mino time lambda are jointly continuous in (a,p,e,x), the four phases and lambda: the separate formulas for Schwarzschild, circular and equatorial orbits, the labelling of the roots and the case distinctions of the elliptic integrals (quarter periods, even and odd) cause no jump.", "quantifier": "all accepted a,p,e,x with 0<=a<1, 0<=e<1, x!=0 (prograde: E(r_+^2+a^2)!=aL, and for p<=4 divisors non-zero), all phases, all lambda, all limits of such", "why_tests_cant": "a statement about limits through uncountably many parameter values; tests compare single orbits", "anchors": ["kerrgeopy/frequencies.py: mino_frequencies, fundamental_frequencies, _ellipeinc, _ellippi, _ellippiinc", "kerrgeopy/stable.py: stable_trajectory, radial_solutions, polar_solutions"]}
{"id": "C59", "title": "Plunges cross both horizons; coordinate time and azimuth diverge there", "statement": "The trajectory returned for a plunging orbit (two complex or four real radial roots) passes through the outer and through the inner horizon inwards, each at a finite Mino time and with non-zero velocity. At every Mino time at which it is on a horizon the returned t tends to +infinity or -infinity from both sides, and phi likewise, with the sign fixed by the direction of motion, the horizon and the sign of E(r_h^2+a^2)-aL; in particular t tends to +infinity where a future-directed particle falls through the outer horizon.", "quantifier": "all a with 0<a^2<1, all E,L,Q with E^2<1, Q>=0 (Q>0 for four real roots) for which plunging_radial_roots succeeds and E(r_h^2+a^2)!=aL at both horizons, all initial phases, every crossing", "why_tests_cant": "a statement about limits at singular points of the returned functions, whose position depends on the constants and phases; a sample never hits one", "anchors": ["kerrgeopy/plunge.py: plunging_trajectory, plunging_radial_solutions_complex, plunging_radial_integrals", "kerrgeopy/stable.py: radial_solutions"]}
{"id": "C60", "title": "Order of the frequencies: periapsis advance and frame dragging", "statement": "For every accepted orbit the radial frequency returned by mino_frequencies is positive and strictly smaller than the polar one (the periapsis advances). Without spin |Upsilon_phi| equals Upsilon_theta with the sign of x; with spin the azimuthal frequency is strictly larger than the polar one on prograde orbits and strictly larger than minus the polar one on retrograde orbits (the nodes are dragged along with the hole). fundamental_frequencies are ordered in the same way. The azimuthal frequency always has the sign of x: frame dragging never turns a retrograde orbit round.", "quantifier": "all accepted a,p,e,x with 0<=a<1, 0<=e<1, x!=0 (prograde: E(r_+^2+a^2)!=aL, and for p<=4 divisors non-zero)", "why_tests_cant": "an inequality between combinations of elliptic integrals over a four-dimensional parameter space, up to its boundary where the two sides approach each other", "anchors": ["kerrgeopy/frequencies.py: mino_frequencies, fundamental_frequencies, r_frequency, theta_frequency, phi_frequency"]}
{"id": "C61", "title": "Zoom-whirl: at the separatrix the radial motion stops", "statement": "For every spin, eccentricity and inclination, as p decreases to the value returned by separatrix the radial frequency returned by mino_frequencies and by fundamental_frequencies tends to zero through positive values, while the polar Mino frequency stays above sqrt(2)|x|; the number of polar oscillations per radial one grows without bound, and so does the number of turns around the hole, forwards on prograde and backwards on retrograde orbits. So separatrix, mino_frequencies and constants_of_motion describe the same boundary.", "quantifier": "all 0<=a<1, 0<=e<1, 0<|x|<=1; the limit over all p above the separatrix", "why_tests_cant": "a limit statement through uncountably many orbits at a point where the functions themselves raise; a test samples finitely many p", "anchors": ["kerrgeopy/constants.py: separatrix, constants_of_motion, stable_radial_roots", "kerrgeopy/frequencies.py: mino_frequencies, fundamental_frequencies, r_frequency, theta_frequency, phi_frequency"]}
{"id": "C62", "title": "Kepler limit: wide orbits obey Newton and Kepler", "statement": "For every spin |a|<1, eccentricity 0<=e<1 and inclination x!=0, constants_of_motion and fundamental_frequencies return for all large p, and as p grows: the binding energy 1-E times the semi-major axis A=p/(1-e^2) tends to 1/2, L/sqrt(p) tends to the inclination relative to the spin, (L^2+Q)/p tends to 1, and each of the three frequencies in coordinate time times A^(3/2) tends to 1 up to the sense of rotation (Kepler's third law; the orbits close).", "quantifier": "all |a|<1, 0<=e<1, 0<|x|<=1; the limit p -> infinity", "why_tests_cant": "a limit over unboundedly many orbits; a test samples finitely many p with a tolerance", "anchors": ["kerrgeopy/constants.py: constants_of_motion, stable_radial_roots", "kerrgeopy/frequencies.py: fundamental_frequencies, r_frequency, theta_frequency, phi_frequency, gamma"]}
{"id": "C63", "title": "Perihelion and nodal precession", "statement": "For every |a|<1, 0<=e<1, x!=0, as p grows, the frequencies returned by mino_frequencies give a perihelion advance per radial period 2 pi (|Y_phi|/Y_r - 1) whose product with p tends to 6 pi (Einstein), and an advance of the node per polar period 2 pi (Y_phi/Y_theta -/+ 1) whose product with p^(3/2) tends to 4 pi |a| in the sense of the spin (Lense-Thirring), independently of eccentricity and inclination.", "quantifier": "all |a|<1, 0<=e<1, 0<|x|<=1; the limit p -> infinity", "why_tests_cant": "a limit of a difference of nearly equal numbers over unboundedly many orbits; in floating point the difference is lost to cancellation", "anchors": ["kerrgeopy/frequencies.py: mino_frequencies, r_frequency, theta_frequency, phi_frequency", "kerrgeopy/constants.py: constants_of_motion, stable_radial_roots"]}
{"id": "C64", "title": "Order of the separatrix in inclination and spin", "statement": "For every spin 0<a<1 and eccentricity 0<=e<=1 the value returned by separatrix strictly decreases as x grows from -1 to 1, so that every inclined separatrix lies between the two equatorial ones and is_stable can only change from False to True when an orbit is tilted towards prograde. For every eccentricity, raising the spin strictly lowers the separatrix of prograde equatorial and polar orbits and strictly raises that of retrograde equatorial ones.", "quantifier": "all 0<a<1, 0<=e<=1, -1<=x<x'<=1; all 0<=a<a'<1; every root finder", "why_tests_cant": "an inequality between the results of two root searches with different brackets and polynomials, for all pairs from a continuum", "anchors": ["kerrgeopy/constants.py: separatrix, is_stable, _S_polar, _S_equatorial, _S"]}
{"id": "C65", "title": "Wider orbits have larger constants of motion", "statement": "At fixed spin, eccentricity and inclination, if p is accepted then every larger p is, and constants_of_motion (hence energy, angular_momentum and carter_constant) returns at the larger p a strictly larger energy, a strictly larger |L| (unless the orbit is polar, where L=0) and a strictly larger Q (unless the orbit is equatorial, where Q=0). So along a circularising or inspiralling family energy and angular momentum decrease monotonically down to the separatrix. The constants of a stable orbit are unique.", "quantifier": "all |a|<1, 0<=e<1, |x|<=1, all pairs p<p' above the separatrix (prograde with p<=4: divisors non-zero at the two orbits compared)", "why_tests_cant": "an inequality between two evaluations for all pairs from a continuum, including orbits arbitrarily close to each other and to the separatrix, where rounding hides the order", "anchors": ["kerrgeopy/constants.py: constants_of_motion, energy, angular_momentum, carter_constant, _coefficients, separatrix"]}
{"id": "C66", "title": "More prograde orbits are more tightly bound", "statement": "Around a spinning hole, at fixed p and e, if an orbit is accepted then every more prograde one (larger x relative to the spin) is, and constants_of_motion returns for it a strictly smaller energy, from retrograde through polar (computed by a different formula) to prograde orbits.", "quantifier": "all 0<|a|<1, 0<=e<1, all pairs of inclinations and p above the separatrix (prograde with p<=4: divisors non-zero at the two orbits compared)", "why_tests_cant": "an inequality across the case distinctions of the code for all pairs from a continuum", "anchors": ["kerrgeopy/constants.py: constants_of_motion, energy, _standardize_params, separatrix"]}
{"id": "C67", "title": "The separatrix grows with the eccentricity", "statement": "At fixed spin and inclination, separatrix(a,e,x) is strictly increasing in e from circular (e=0, the ISCO/ISSO) to parabolic orbits (e=1). So is_stable accepting (a,p,e,x) implies that it accepts every smaller eccentricity at the same p, the constructors accept every rounder orbit with a given one, and for e<e' there are p for which only the rounder orbit is stable.", "quantifier": "all 0<=a<1, -1<=x<=1, 0<=e<e'<=1, all p; every root finder (objects: |a|<1)", "why_tests_cant": "an inequality between the results of two root searches for all pairs from a continuum, across the branches for Schwarzschild, polar, equatorial and generic orbits", "anchors": ["kerrgeopy/constants.py: separatrix, is_stable, _S_polar, _S_equatorial, _S", "kerrgeopy/stable.py: StableOrbit.__init__"]}
{"id": "C68", "title": "More eccentric orbits have larger constants of motion", "statement": "At fixed spin, semi-latus rectum and inclination, constants_of_motion returns for the more eccentric of two orbits a strictly larger energy, a strictly larger |L| (unless the orbit is polar) and a strictly larger Q (unless the orbit is equatorial); only the more eccentric orbit has to be accepted.", "quantifier": "all |a|<1, |x|<=1, 0<=e<e'<1 and p above the separatrix of e' (prograde with p<=4: divisors non-zero at the two orbits compared)", "why_tests_cant": "an inequality between two evaluations for all pairs from a continuum, including circular orbits (computed by the determinant formulas in another branch) and orbits arbitrarily close to the separatrix", "anchors": ["kerrgeopy/constants.py: constants_of_motion, energy, angular_momentum, carter_constant, _coefficients, separatrix"]}
{"id": "C69", "title": "Closed form of the equatorial separatrix at every eccentricity", "statement": "For x=1 and x=-1, separatrix(a,e,x) is the only number s >= 1+e with a*x = sqrt(s/(1+e))*(4 - sqrt((3-e)*s - 2*(1-e^2)))/(3-e) (for e=0 the classical relation a = sqrt(r)*(4-sqrt(3r-2))/3 of the ISCO), and is_stable(a,p,e,x) is True exactly when p >= 1+e and the right-hand side at p is smaller than a*x.", "quantifier": "all 0<=a<1, 0<=e<=1, x in {1,-1}, all p, every bracketing root finder", "why_tests_cant": "the code gets the number from a bracketing solver applied to a quartic with several real roots; that it is the solution of the closed equation for every spin and eccentricity is a statement about all inputs", "anchors": ["kerrgeopy/constants.py: separatrix, _S_equatorial", "kerrgeopy/constants.py: is_stable"]}
{"id": "C70", "title": "Spin dependence of the constants of equatorial and polar orbits", "statement": "At fixed p and e, when the signed spin a*x of an equatorial orbit (x=1 or x=-1) grows, from retrograde through the non-rotating hole to prograde, the orbit stays accepted and constants_of_motion returns a strictly smaller energy and a strictly smaller |L|; when |a| grows for a polar orbit (x=0), it stays accepted and constants_of_motion returns a strictly smaller energy and a strictly smaller Q.", "quantifier": "all pairs of spins |a|,|a'|<1 of either sign, 0<=e<1 and p above the separatrix of the first orbit (prograde with p<=4: divisors non-zero at the two orbits compared)", "why_tests_cant": "an inequality between two evaluations for all pairs from a continuum of spins, across four branches of the code (a=0, polar, equatorial prograde and retrograde)", "anchors": ["kerrgeopy/constants.py: constants_of_motion, energy, angular_momentum, carter_constant, separatrix"]}
{"id": "C71", "title": "The frequencies are the derivatives of the energy with respect to the actions", "statement": "With the actions J_r = (1/pi) int sqrt(R)/Delta dr and J_theta = (1/pi) int sqrt(Theta) dtheta between the turning points and J_phi = L, along every differentiable family of accepted orbits dE = Omega_r dJ_r + Omega_theta dJ_theta + Omega_phi dL, where E and L are what constants_of_motion returns and the Omegas what fundamental_frequencies returns (in Mino time Gamma dE = Upsilon_r dJ_r + Upsilon_theta dJ_theta + Upsilon_phi dL). In particular dE/dr = Omega_phi dL/dr for circular equatorial orbits.", "quantifier": "all 0<=a<1, all differentiable curves (p,e,x)(s) of accepted orbits with e<1, x!=0 (prograde with p<=4: divisors non-zero; E(r_+^2+a^2)!=aL for prograde orbits)", "why_tests_cant": "a relation between the derivatives of integrals over the whole orbit and closed-form elliptic expressions, for all directions in parameter space at all orbits; finite differences only approximate it", "anchors": ["kerrgeopy/frequencies.py: fundamental_frequencies, mino_frequencies", "kerrgeopy/constants.py: constants_of_motion"]}
{"id": "C72", "title": "The constants of motion are analytic in the orbital parameters", "statement": "There is one function F of (a,p,e,x), analytic (hence infinitely often differentiable) at every accepted point with e<1, whose values constants_of_motion returns, whichever branch (polar, circular, equatorial, Schwarzschild, generic) computes them. So along every differentiable family of accepted orbits the returned E, L and Q are differentiable, also with respect to the spin.", "quantifier": "all 0<=a<1, p above the separatrix, 0<=e<1, |x|<=1 (prograde with p<=4: divisors non-zero)", "why_tests_cant": "smoothness across the case distinctions of the code is a statement about limits at every point of a continuum", "anchors": ["kerrgeopy/constants.py: constants_of_motion, energy, angular_momentum, carter_constant, _coefficients, _coefficients_derivative"]}
{"id": "C73", "title": "Resonant orbits close, all others fill the region between their turning points", "statement": "For an eccentric inclined orbit the motion in (r, theta) returned by stable_trajectory is periodic exactly when the radial and polar frequencies returned by fundamental_frequencies are in the ratio of two positive integers, and the spatial orbit closes exactly when Omega_phi is in an integer ratio as well; over such a period t and phi advance by Gamma and Upsilon_phi times the period. When no such ratio exists, the trajectory comes arbitrarily close to every (r, theta) between the turning points, arbitrarily late. For retrograde orbits and for a=0 the ratio Omega_theta/Omega_r takes, at given e and x, exactly the values larger than 1.", "quantifier": "all 0<=a<1, accepted (p,e,x) with e<1, x!=0 (prograde with p<=4: divisors non-zero; E(r_+^2+a^2)!=aL for prograde orbits), all initial phases, all Mino times", "why_tests_cant": "statements about the whole infinite trajectory, about every integer multiple of the frequencies and about every target point; sampling cannot distinguish rational from irrational ratios", "anchors": ["kerrgeopy/frequencies.py: fundamental_frequencies, mino_frequencies", "kerrgeopy/stable.py: stable_trajectory"]}
{"id": "C74", "title": "The returned functions may be called with arrays", "statement": "The functions returned by trajectory, four_velocity, numerical_four_velocity and trajectory_deltas of every orbit (stable, complex-root and real-root plunge) in every unit system, called with a numpy array of Mino times (or phases) of any shape, return an array of the same shape whose entries are the values at the single times; called with a number (or a zero-dimensional array) they return a number; exceptions do not depend on whether arrays are used. The same holds for _ellipeinc and _ellippiinc, and the columns drawn by plot are the positions at the single times. The function returned by _four_velocity_norm is the exception: it raises ValueError for every array, because metric builds a nested list mixing numbers and arrays (numpy >= 1.24).", "quantifier": "all orbit objects, all initial phases, all unit strings, all array shapes and all entries", "why_tests_cant": "arrays of every shape and length and all entries; a test uses one shape and a few entries and the scalar/array switch (isscalar, item, where) has several branches", "anchors": ["kerrgeopy/frequencies.py: _ellipeinc, _ellippiinc", "kerrgeopy/stable.py: radial_solutions, polar_solutions, stable_trajectory", "kerrgeopy/plunge.py: plunging_radial_integrals, plunging_radial_solutions_complex, plunging_polar_solutions, plunging_trajectory", "kerrgeopy/spacetime.py: four_velocity, metric, norm", "kerrgeopy/orbit.py: trajectory, four_velocity, numerical_four_velocity, trajectory_deltas, _four_velocity_norm, plot", "kerrgeopy/units.py"]}
{"id": "C75", "title": "Orbit never presents an unbound geodesic as a stable orbit", "statement": "Whatever position and velocity are given, if Orbit(a, position, velocity) is constructed with stable=True (starting off the axis) then E^2<1; its (p,e,x) are accepted parameters whose turning points and inclination are those of the geodesic with its own constants (E,L,Q), constants_of_motion(a,p,e,x) returns exactly these (E,L,Q), and trajectory (any initial phases) satisfies the four geodesic equations with these constants, stays between the turning points and outside the horizon, runs into the future and has four-velocity norm -1. E>0 holds automatically when the initial velocity is future-directed and starts outside the ergosphere. is_stable itself answers True for a scattering geodesic at its periapsis: Orbit then raises.", "quantifier": "all a (E^2<1) resp. all a>0, all initial positions off the axis and all velocities (no normalisation beyond the checks of Orbit), all Mino times; E>0 and, for prograde p<=4, non-zero divisors and E(r_+^2+a^2)!=aL", "why_tests_cant": "all real initial data including those within the tolerance of is_stable; scattering data at a turning point form a measure-zero set no sampled test meets", "anchors": ["kerrgeopy/orbit.py: Orbit.__init__, trajectory, four_velocity, _four_velocity_norm", "kerrgeopy/initial_conditions.py: is_stable, constants_from_initial_conditions", "kerrgeopy/constants.py: apex_from_constants, stable_polar_roots, constants_of_motion"]}
{"id": "C76", "title": "No nan, inf or ZeroDivisionError on an accepted orbit", "statement": "For every orbit the library accepts, no step of constants_of_motion divides by zero or takes a root of a negative number, exactly when the two divisors of its formulas do not vanish (otherwise L is nan/inf or an exception). For every accepted orbit with e<1, x!=0 outside this case and the case that r_+ is a root of the radial potential, mino_frequencies, fundamental_frequencies, the functions returned by stable_trajectory and the components of four_velocity are finite real numbers at every Mino time; no elliptic integral is called outside its domain. Both exceptional cases are met by accepted orbits.", "quantifier": "all accepted (a,p,e,x) (constants, frequencies: either sign of a; trajectory: 0<=a<1), all initial phases, all Mino times", "why_tests_cant": "every intermediate division, square root, inverse function and elliptic integral for a continuum of inputs; the failures occur only on isolated parameter values which sampling does not meet", "anchors": ["kerrgeopy/constants.py: constants_of_motion, energy, angular_momentum, carter_constant, _coefficients, _coefficients_derivative, stable_radial_roots, stable_polar_roots", "kerrgeopy/frequencies.py: mino_frequencies, fundamental_frequencies, r_frequency, theta_frequency, phi_frequency, gamma, _ellipeinc, _ellippi, _ellippiinc", "kerrgeopy/stable.py: radial_solutions, polar_solutions, stable_trajectory", "kerrgeopy/spacetime.py: four_velocity"]}
{"id": "C77", "title": "Exactly where a plunge trajectory is a number", "statement": "For a plunge with two real and two complex radial roots, plunging_mino_frequencies and the functions r and theta returned by plunging_trajectory are finite numbers at every Mino time. phi is a finite number at a Mino time exactly when (i) no horizon is a root of the radial potential, (ii) no horizon divides the segment [r1,r2] in the ratio of the distances of r1 and r2 to the complex roots, and (iii) neither r there nor the initial r is a horizon or the mirror image of a horizon; t is one exactly when moreover r1+r2 is not twice the real part of the complex roots. In particular initial phases at such a radius make t and phi useless at all times. The analytic four-velocity is finite exactly off the horizons (t and phi components) and off the ring singularity (all).", "quantifier": "all 0<|a|<1, E^2<1, Q>=0 with L!=0 or Q<a^2(1-E^2), two complex roots, all initial phases, all Mino times", "why_tests_cant": "every intermediate division, logarithm, square root and elliptic integral for a continuum of inputs; the failures occur on isolated radii and constants which sampling does not meet", "anchors": ["kerrgeopy/plunge.py: plunging_radial_integrals, plunging_radial_solutions_complex, plunging_polar_solutions, plunging_trajectory", "kerrgeopy/frequencies.py: plunging_mino_frequencies, _ellippiinc", "kerrgeopy/spacetime.py: four_velocity"]}
{"id": "C78", "title": "Exactly where a plunge with four real roots is a number", "statement": "For a plunge with four real radial roots, plunging_mino_frequencies and the functions r and theta returned by plunging_trajectory are finite numbers at every Mino time. phi is a finite number at a Mino time exactly when no horizon is a root of the radial potential (E(r_h^2+a^2)!=aL) and neither r there nor the initial r is a horizon; t is one exactly when moreover the inner turning point is not r=0, which cannot happen for Q>0. In particular initial phases that start on a horizon make t and phi useless at all times. Where t is a number it is so in a neighbourhood and (Q>0) t and phi satisfy the geodesic equations there. The analytic four-velocity is finite exactly off the horizons (t and phi components) and off the ring singularity (all).", "quantifier": "all 0<|a|<1, E^2<1, L!=0, Q>=0, four real roots with the two intervals of motion separated, all initial phases, all Mino times", "why_tests_cant": "every intermediate division, square root and elliptic integral (third kind beyond its pole) for a continuum of inputs; the failures occur on isolated radii and constants which sampling does not meet", "anchors": ["kerrgeopy/plunge.py: plunging_trajectory, _real_plunge_trajectory", "kerrgeopy/stable.py: radial_solutions, polar_solutions", "kerrgeopy/frequencies.py: plunging_mino_frequencies, _mino_frequencies_from_constants, _r_frequency_from_constants, _theta_frequency_from_constants, _phi_frequency_from_constants, _gamma_from_constants, _ellippi, _ellippiinc", "kerrgeopy/spacetime.py: four_velocity"]}
{"id": "C79", "title": "Energies of bound orbits: the binding energy at the innermost stable circular orbit", "statement": "For every spin |a|<1, with s=separatrix(|a|,0,1) (the innermost stable circular orbit, 1<s<=6): the set of energies constants_of_motion returns for accepted orbits with e<1, of any p, e, x, has greatest lower bound sqrt(1-2/(3s)) and least upper bound 1, and attains neither; the energy of an Orbit built from any initial data and marked stable obeys the same bounds. Over all spins the greatest lower bound is 1/sqrt(3), not attained: no bound orbit has lost 42.3 % of its rest mass, and there are orbits as close to it as one likes.", "quantifier": "all |a|<1, all accepted (p,e,x) with e<1 (for prograde p<=4 off the zeros of the divisors of the formulas)", "why_tests_cant": "a sharp bound over a three-parameter family of orbits, approached only in limits (p to the separatrix, p to infinity, spin to one)", "anchors": ["kerrgeopy/constants.py: constants_of_motion, energy, separatrix"]}
{"id": "C80", "title": "How close a bound orbit can come", "statement": "Every orbit accepted as bound has its periapsis p/(1+e) strictly outside the marginally bound radius 2-|a|+2 sqrt(1-|a|), a retrograde equatorial one outside 2+|a|+2 sqrt(1+|a|); conversely every radius outside the former is the periapsis of an accepted orbit with e<1. Hence r(lambda) of stable_trajectory, and of the trajectory of an Orbit built from any initial data and marked stable, stays outside that radius at every Mino time.", "quantifier": "all |a|<1, all accepted (p,e,x) (trajectory: 0<=a, x!=0, e<1, the divisors and E(r_+^2+a^2)-aL not zero), all initial phases, all Mino times", "why_tests_cant": "a sharp bound over a three-parameter family of orbits and the whole infinite trajectory", "anchors": ["kerrgeopy/constants.py: separatrix, _S_equatorial", "kerrgeopy/stable.py: stable_trajectory, radial_solutions"]}
{"id": "C81", "title": "Energy and angular momentum of equatorial orbits at the innermost stable circular orbit", "statement": "For every |a|<1 and each sense of an equatorial orbit (x=1, x=-1), with s=separatrix(|a|,0,+-1) of that sense: every (E,L,Q) constants_of_motion returns for an accepted orbit with e<1 has sqrt(1-2/(3s)) < E < 1, |L| > 2(1+2 sqrt(3s-2))/(3 sqrt 3) and Q=0, and both lower bounds are greatest lower bounds. Over all spins |L| > 2/sqrt(3), and for retrograde orbits E > sqrt(8/9) and |L| > 2 sqrt(3).", "quantifier": "all |a|<1, x=1 or -1, all accepted (p,e) with e<1 (for prograde p<=4 off the zeros of the divisors of the formulas)", "why_tests_cant": "sharp bounds over a two-parameter family of orbits, approached only in the limit of p to the separatrix", "anchors": ["kerrgeopy/constants.py: constants_of_motion, energy, angular_momentum, separatrix"]}
{"id": "C82", "title": "At a given periapsis an eccentric orbit is more stable than a round one", "statement": "For every 0<=a<1, |x|<=1 and 0<=e<e2<=1 the values s=separatrix(a,e,x) and s2=separatrix(a,e2,x) satisfy s < s2 and s2/(1+e2) < s/(1+e): the periapsis of the marginal orbit shrinks with the eccentricity. Hence an orbit the library accepts (at any spin |a|<1) stays accepted when its eccentricity is raised at fixed periapsis p/(1+e). At each inclination the periapses of accepted orbits with e<1 are exactly the radii above half of the parabolic separatrix, and the radii above the circular separatrix are the periapses allowed at every eccentricity.", "quantifier": "all spins, inclinations, eccentricities (e=0 and e=1 included) and semi-latera recta", "why_tests_cant": "an order between roots of the separatrix polynomial over a three-parameter family; the differences tend to zero, so sampling cannot settle it", "anchors": ["kerrgeopy/constants.py: separatrix, is_stable", "kerrgeopy/stable.py: StableOrbit.__init__"]}
{"id": "C83", "title": "Closed form of the constants of spherical orbits at every inclination", "statement": "With Delta=p^2-2p+a^2, sigma=sqrt((p^2-a^2(1-x^2))/p)-a x and N=(p^2+a^2(1-x^2))(Delta-sigma^2), constants_of_motion(a,p,0,x) returns, for every accepted orbit with e=0 and any inclination, E=(Delta+a x sigma)/sqrt(N), L=x Y with Y=(sigma(p^2+a^2)+a x Delta)/sqrt(N) (x replaced by its sign-adjusted value for a<0), Q=(1-x^2)(a^2(1-E^2)+Y^2). separatrix(a,0,x) is the largest zero of the closed stability function 3p^2(1-E^2)-2p+a^2 Q/p^2, which is positive beyond it and, at an accepted orbit with x nonzero, is the square of r_frequency(a,p,0,x). As p decreases to separatrix(a,e,x) the constants of an orbit of eccentricity e<1 tend to this closed form at the radius separatrix(a,e,x)/(1+e). Half of separatrix(a,1,x) is a radius outside the horizon where the closed-form energy is one.", "quantifier": "all spins |a|<1 (the limits: 0<=a<1), inclinations |x|<=1 including polar and equatorial ones, eccentricities and radii (for prograde p<=4 off the zeros of the divisors of the formulas)", "why_tests_cant": "agreement of nested determinants with an independent closed form over a continuum, and limits at the boundary of the domain, where the code raises", "anchors": ["kerrgeopy/constants.py: constants_of_motion, energy, angular_momentum, carter_constant, separatrix", "kerrgeopy/frequencies.py: r_frequency"]}
{"id": "C84", "title": "The innermost stable spherical orbit has the least energy, angular momentum and Carter constant of its inclination", "statement": "With s=separatrix(a,0,x) (the innermost stable spherical orbit) and E0, Y0, Q0 the closed form of C83 at p=s: every accepted orbit of inclination x and e<1, of any size and eccentricity, has s < p, and constants_of_motion returns E0 < E < 1, |x| Y0 < |L| (unless polar) and Q0 < Q (unless equatorial); by C83 the bounds are approached as p decreases to s at e=0. Over all bound orbits of that inclination the energies fill exactly the interval (E0,1), |L| the ray above |x| Y0 and Q the ray above Q0. An Orbit built from any initial data and marked stable obeys the same bounds.", "quantifier": "all spins |a|<1 (a negative spin through the sign flip), inclinations, eccentricities below one and semi-latera recta; all initial data marked stable", "why_tests_cant": "a bound over an unbounded three-parameter family that is approached but not attained, and surjectivity onto an interval", "anchors": ["kerrgeopy/constants.py: constants_of_motion, separatrix", "kerrgeopy/orbit.py: Orbit.__init__"]}
{"id": "C85", "title": "The bound orbits of a given energy and the constants at the separatrix", "statement": "With E*(e), Y*(e), Q*(e) the closed form of C83 at the radius separatrix(a,e,x)/(1+e), to which constants_of_motion tends as p decreases to separatrix(a,e,x): an accepted orbit of eccentricity e<1 has E*(e) < E, |x| Y*(e) < |L| (unless polar) and Q*(e) < Q (unless equatorial), and E*, Y* (x nonzero) and Q* (|x|<1) increase strictly with e. So at each inclination the closed-form constants of spherical orbits fall strictly with the radius from separatrix(a,1,x)/2, where E=1, to their minimum at separatrix(a,0,x), and rise strictly beyond. For each energy v between E*(0) and 1 there is an eccentricity em with E*(em)=v such that a bound orbit of energy v, inclination x and eccentricity e<1 exists exactly for e < em, and is then unique; of two such orbits the more eccentric one has the smaller p and the smaller periapsis. For an accepted orbit of energy E there are exactly two radii from separatrix(a,1,x)/2 on where the closed-form energy of spherical orbits is E, one on each side of separatrix(a,0,x); the periapsis lies between them and equals the outer one only if e=0. An Orbit built from any initial data and marked stable obeys the same bounds.", "quantifier": "all spins |a|<1 (orders and levels: 0<=a<1, the others by the sign flip), inclinations, eccentricities, radii and energies", "why_tests_cant": "monotonicity along the boundary of the accepted domain, where the code raises, and existence and uniqueness over a continuum", "anchors": ["kerrgeopy/constants.py: separatrix, constants_of_motion, energy, angular_momentum, carter_constant, is_stable", "kerrgeopy/orbit.py: Orbit.__init__"]}
