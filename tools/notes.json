{
 "C04": {
  "note": "Every accepted orbit with 0<=e<1, x!=0 (C04_boundGeodesic, C04_energy); hypothesis Spec.DivisorsNonzero only for prograde p<=4. C04_ergosphere_violation and C04_photon_radius_violation show the exception is needed: the code divides zero by zero there. e=1: C04_marginal (with uniqueness), C04_marginal_violation for its exception."
 },
 "C22": {
  "note": "C22_kerr is from the parameters alone; the hypothesis E(r_+^2+a^2) != aL for prograde orbits is needed: there the code evaluates 0/0."
 },
 "C26": {
  "note": "The code violates the documented behaviour for L and Q; C26_extra_solar_mass gives the exact returned value and C26_violated the counterexample."
 },
 "C29": {
  "note": "C29_violated is the counterexample to the intended pointwise predicate."
 },
 "C33": {
  "note": "C33_real_roots_fail: real-root plunges always raise."
 },
 "C34": {
  "note": "Spin 0: C34_schwarzschild, C34_schwarzschild_violation. Everything else proved, including that stable bound geodesics are always accepted (C34_stable_accepted). Equatorial real-root plunges: C34_equatorial_violation."
 },
 "C43": {
  "note": "The code's result for a<0 is proved not to be a geodesic."
 },
 "C18": {
  "note": "Fails for equatorial real-root plunges: C18_equatorial_violation (Gamma=inf)."
 },
 "C50": {
  "note": "L=0 excluded because polar_solutions divides by L; the equatorial plane is excluded for t only (C18_equatorial_violation)."
 },
 "C51": {
  "note": "Independent oracle for C04, C15, C25: the formulas of Bardeen, Press & Teukolsky (1972), Okazaki et al. (1987), Kato (1990). The excluded prograde radii are the division-by-zero points of C04; E(r_+^2+a^2)=aL is bug 14."
 },
 "C52": {
  "note": "Hypotheses as for C22_kerr; C52_shift needs only that stable_trajectory returned."
 }
}