{
 "claims": [
  {
   "property": "C01",
   "status": "proved",
   "theorems": [
    "KGP.C01_components",
    "KGP.C01_norm"
   ],
   "note": ""
  },
  {
   "property": "C02",
   "status": "proved",
   "theorems": [
    "KGP.C02_conserved",
    "KGP.C02_roundtrip",
    "KGP.C02_roundtrip_four_velocity",
    "KGP.C02_radial_equation"
   ],
   "note": ""
  },
  {
   "property": "C03",
   "status": "proved",
   "theorems": [
    "KGP.C03_spacetime_object",
    "KGP.C03_metric_is_kerr",
    "KGP.C03_metric_symm",
    "KGP.C03_metric_det",
    "KGP.C03_horizons",
    "KGP.C03_horizons_order"
   ],
   "note": ""
  },
  {
   "property": "C04",
   "status": "proved",
   "theorems": [
    "KGP.C04_turning_points",
    "KGP.C04_retrograde",
    "KGP.C04_ergosphere_violation",
    "KGP.C04_photon_radius_violation",
    "KGP.C04_marginal",
    "KGP.C04_marginal_violation",
    "KGP.C04_boundGeodesic",
    "KGP.C04_energy",
    "KGP.C04_divisors_finite"
   ],
   "note": "Every accepted orbit with 0<=e<1, x!=0 (C04_boundGeodesic, C04_energy); hypothesis Spec.DivisorsNonzero only for prograde p<=4. C04_ergosphere_violation and C04_photon_radius_violation show the exception is needed: the code divides zero by zero there. e=1: C04_marginal (with uniqueness), C04_marginal_violation for its exception."
  },
  {
   "property": "C05",
   "status": "proved",
   "theorems": [
    "KGP.C05_inclination_root",
    "KGP.C05_polar_roots"
   ],
   "note": ""
  },
  {
   "property": "C06",
   "status": "proved",
   "theorems": [
    "KGP.C06_polar_exact",
    "KGP.C06_polar_marginal"
   ],
   "note": ""
  },
  {
   "property": "C07",
   "status": "proved",
   "theorems": [
    "KGP.C07_constants",
    "KGP.C07_turning",
    "KGP.C07_frequencies",
    "KGP.C07_separatrix"
   ],
   "note": ""
  },
  {
   "property": "C08",
   "status": "proved",
   "theorems": [
    "KGP.C08_factorisation",
    "KGP.C08_bound"
   ],
   "note": ""
  },
  {
   "property": "C09",
   "status": "proved",
   "theorems": [
    "KGP.C09_apex_inverse",
    "KGP.C09_from_constants",
    "KGP.C09_constants_inverse",
    "KGP.C09_constants_stable",
    "KGP.C09_roundtrip"
   ],
   "note": ""
  },
  {
   "property": "C10",
   "status": "proved",
   "theorems": [
    "KGP.C10_sign_flip",
    "KGP.C10_stable_orbit"
   ],
   "note": ""
  },
  {
   "property": "C11",
   "status": "proved",
   "theorems": [
    "KGP.C11_constants_contract",
    "KGP.C11_accepts_wide",
    "KGP.C11_accepts_prograde",
    "KGP.C11_separatrix_contract"
   ],
   "note": ""
  },
  {
   "property": "C12",
   "status": "proved",
   "theorems": [
    "KGP.C12_frequency_contract"
   ],
   "note": ""
  },
  {
   "property": "C13",
   "status": "proved",
   "theorems": [
    "KGP.C13_precomputed",
    "KGP.C13_constants_triple",
    "KGP.C13_standardised"
   ],
   "note": ""
  },
  {
   "property": "C14",
   "status": "proved",
   "theorems": [
    "KGP.C14_consistency"
   ],
   "note": ""
  },
  {
   "property": "C15",
   "status": "proved",
   "theorems": [
    "KGP.C15_continuous",
    "KGP.C15_separatrix_returns",
    "KGP.C15_unique",
    "KGP.C15_separatrix_outside"
   ],
   "note": ""
  },
  {
   "property": "C16",
   "status": "proved",
   "theorems": [
    "KGP.C16_marginal",
    "KGP.C16_threshold",
    "KGP.C16_contract",
    "KGP.C16_exact"
   ],
   "note": ""
  },
  {
   "property": "C17",
   "status": "proved",
   "theorems": [
    "KGP.C17_ellippi",
    "KGP.C17_ellippiinc",
    "KGP.C17_ellipeinc",
    "KGP.C17_ellippiinc_principal_deriv",
    "KGP.C17_ellippiinc_principal_zero",
    "KGP.C17_ellippiinc_principal_pole"
   ],
   "note": ""
  },
  {
   "property": "C18",
   "status": "proved",
   "theorems": [
    "KGP.C18_stable",
    "KGP.C18_plunging",
    "KGP.C18_object",
    "KGP.C18_equatorial_violation"
   ],
   "note": "Fails for equatorial real-root plunges: C18_equatorial_violation (Gamma=inf)."
  },
  {
   "property": "C19",
   "status": "proved",
   "theorems": [
    "KGP.C19_stable",
    "KGP.C19_plunging"
   ],
   "note": ""
  },
  {
   "property": "C20",
   "status": "proved",
   "theorems": [
    "KGP.C20_radial",
    "KGP.C20_polar"
   ],
   "note": ""
  },
  {
   "property": "C21",
   "status": "proved",
   "theorems": [
    "KGP.C21_radial_polar"
   ],
   "note": ""
  },
  {
   "property": "C22",
   "status": "proved",
   "theorems": [
    "KGP.C22_object",
    "KGP.C22_time_azimuth",
    "KGP.C22_four_velocity",
    "KGP.C22_horizon_root_violation",
    "KGP.C22_kerr",
    "KGP.C22_far_prograde"
   ],
   "note": "C22_kerr is from the parameters alone; the hypothesis E(r_+^2+a^2) != aL for prograde orbits is needed: there the code evaluates 0/0."
  },
  {
   "property": "C23",
   "status": "proved",
   "theorems": [
    "KGP.C23_object",
    "KGP.C23_norm"
   ],
   "note": ""
  },
  {
   "property": "C24",
   "status": "proved",
   "theorems": [
    "KGP.C24_deltas"
   ],
   "note": ""
  },
  {
   "property": "C25",
   "status": "proved",
   "theorems": [
    "KGP.C25_secular",
    "KGP.C25_fundamental",
    "KGP.C25_components",
    "KGP.C25_units"
   ],
   "note": ""
  },
  {
   "property": "C26",
   "status": "proved",
   "theorems": [
    "KGP.C26_energy",
    "KGP.C26_extra_solar_mass",
    "KGP.C26_violated"
   ],
   "note": "The code violates the documented behaviour for L and Q; C26_extra_solar_mass gives the exact returned value and C26_violated the counterexample."
  },
  {
   "property": "C27",
   "status": "proved",
   "theorems": [
    "KGP.C27_homogeneous",
    "KGP.C27_definition",
    "KGP.C27_ratios",
    "KGP.C27_consistent"
   ],
   "note": ""
  },
  {
   "property": "C28",
   "status": "proved",
   "theorems": [
    "KGP.C28_missing_mass",
    "KGP.C28_missing_mass_plunge",
    "KGP.C28_natural_needs_no_mass",
    "KGP.C28_unknown_unit",
    "KGP.C28_lazy_key_error"
   ],
   "note": ""
  },
  {
   "property": "C29",
   "status": "proved",
   "theorems": [
    "KGP.C29_single",
    "KGP.C29_outside",
    "KGP.C29_violated",
    "KGP.C29_cartesian"
   ],
   "note": "C29_violated is the counterexample to the intended pointwise predicate."
  },
  {
   "property": "C30",
   "status": "proved",
   "theorems": [
    "KGP.C30_real",
    "KGP.C30_complex",
    "KGP.C30_motion_range",
    "KGP.C30_none",
    "KGP.C30_parabolic",
    "KGP.C30_returns_iff",
    "KGP.C30_total"
   ],
   "note": ""
  },
  {
   "property": "C31",
   "status": "proved",
   "theorems": [
    "KGP.C31_returns",
    "KGP.C31_radial_equation",
    "KGP.C31_radial_squared",
    "KGP.C31_period",
    "KGP.C31_turning"
   ],
   "note": ""
  },
  {
   "property": "C32",
   "status": "proved",
   "theorems": [
    "KGP.C32_polar_equation",
    "KGP.C32_turning"
   ],
   "note": ""
  },
  {
   "property": "C33",
   "status": "proved",
   "theorems": [
    "KGP.C33_real_roots_fail",
    "KGP.C33_complex_roots_return",
    "KGP.C33_stable_return",
    "KGP.C33_plunging_orbit"
   ],
   "note": "C33_real_roots_fail: real-root plunges always raise."
  },
  {
   "property": "C34",
   "status": "proved",
   "theorems": [
    "KGP.C34_real_plunge",
    "KGP.C34_equatorial_violation",
    "KGP.C34_real_constructible",
    "KGP.C34_schwarzschild_violation",
    "KGP.C34_position",
    "KGP.C34_stable",
    "KGP.C34_stable_constructible",
    "KGP.C34_stable_accepted",
    "KGP.C34_schwarzschild"
   ],
   "note": "Spin 0: C34_schwarzschild, C34_schwarzschild_violation. Everything else proved, including that stable bound geodesics are always accepted (C34_stable_accepted). Equatorial real-root plunges: C34_equatorial_violation."
  },
  {
   "property": "C35",
   "status": "proved",
   "theorems": [
    "KGP.C35_real_plunge",
    "KGP.C35_velocity",
    "KGP.C35_stable"
   ],
   "note": ""
  },
  {
   "property": "C36",
   "status": "proved",
   "theorems": [
    "KGP.C36_true_iff",
    "KGP.C36_two_complex",
    "KGP.C36_four_complex",
    "KGP.C36_four_real"
   ],
   "note": ""
  },
  {
   "property": "C37",
   "status": "proved",
   "theorems": [
    "KGP.C37_validation",
    "KGP.C37_schwarzschild"
   ],
   "note": ""
  },
  {
   "property": "C38",
   "status": "proved",
   "theorems": [
    "KGP.C38_rate",
    "KGP.C38_stable",
    "KGP.C38_stable_orbit",
    "KGP.C38_exact",
    "KGP.C38_converges",
    "KGP.C38_object"
   ],
   "note": ""
  },
  {
   "property": "C39",
   "status": "proved",
   "theorems": [
    "KGP.C39_interpolates",
    "KGP.C39_table",
    "KGP.C39_grid"
   ],
   "note": ""
  },
  {
   "property": "C40",
   "status": "proved",
   "theorems": [
    "KGP.C40_frames",
    "KGP.C40_slow_speed",
    "KGP.C40_alpha"
   ],
   "note": ""
  },
  {
   "property": "C41",
   "status": "proved",
   "theorems": [
    "KGP.C41_constructible",
    "KGP.C41_attributes"
   ],
   "note": ""
  },
  {
   "property": "C42",
   "status": "proved",
   "theorems": [
    "KGP.C42_marginal_orbit_zero"
   ],
   "note": ""
  },
  {
   "property": "C43",
   "status": "proved",
   "theorems": [
    "KGP.C43_kerr",
    "KGP.C43_azimuth",
    "KGP.C43_not_geodesic",
    "KGP.C43_accepts"
   ],
   "note": "The code's result for a<0 is proved not to be a geodesic."
  },
  {
   "property": "C44",
   "status": "proved",
   "theorems": [
    "KGP.C44_constructible",
    "KGP.C44_equatorial_branch_dead",
    "KGP.C44_position",
    "KGP.C44_in_range",
    "KGP.C44_velocity"
   ],
   "note": ""
  },
  {
   "property": "C45",
   "status": "proved",
   "theorems": [
    "KGP.C45_derivatives",
    "KGP.C45_quadratic_form"
   ],
   "note": ""
  },
  {
   "property": "C46",
   "status": "proved",
   "theorems": [
    "KGP.C46_future",
    "KGP.C46_future_outside"
   ],
   "note": ""
  },
  {
   "property": "C47",
   "status": "proved",
   "theorems": [
    "KGP.C47_plunge_time_azimuth",
    "KGP.C47_four_velocity"
   ],
   "note": ""
  },
  {
   "property": "C48",
   "status": "proved",
   "theorems": [
    "KGP.C48_four_real",
    "KGP.C48_two_complex",
    "KGP.C48_plunge_labels"
   ],
   "note": ""
  },
  {
   "property": "C49",
   "status": "proved",
   "theorems": [
    "KGP.C49_plunge",
    "KGP.C49_plunge_again",
    "KGP.C49_restart"
   ],
   "note": ""
  },
  {
   "property": "C50",
   "status": "proved",
   "theorems": [
    "KGP.C50_horizons",
    "KGP.C50_range",
    "KGP.C50_radial_polar",
    "KGP.C50_time_azimuth",
    "KGP.C50_four_velocity",
    "KGP.C50_returns"
   ],
   "note": "L=0 excluded because polar_solutions divides by L; the equatorial plane is excluded for t only (C18_equatorial_violation)."
  },
  {
   "property": "C51",
   "status": "proved",
   "theorems": [
    "KGP.C51_isco",
    "KGP.C51_marginally_bound",
    "KGP.C51_circular_constants",
    "KGP.C51_circular_frequencies"
   ],
   "note": "Independent oracle for C04, C15, C25: the formulas of Bardeen, Press & Teukolsky (1972), Okazaki et al. (1987), Kato (1990). The excluded prograde radii are the division-by-zero points of C04; E(r_+^2+a^2)=aL is bug 14."
  },
  {
   "property": "C52",
   "status": "proved",
   "theorems": [
    "KGP.C52_turns",
    "KGP.C52_plunge_turns",
    "KGP.C52_plunge_shift",
    "KGP.C52_plunge_reflection",
    "KGP.C52_plunge_reversal",
    "KGP.C52_reversal",
    "KGP.C52_reflection",
    "KGP.C52_shift",
    "KGP.C52_least_period"
   ],
   "note": "Hypotheses as for C22_kerr; C52_shift needs only that stable_trajectory returned."
  },
  {
   "property": "C53",
   "status": "proved",
   "theorems": [
    "KGP.C53_geodesic_equation",
    "KGP.C53_proper_time",
    "KGP.C53_real_plunge",
    "KGP.C53_complex_plunge"
   ],
   "note": ""
  },
  {
   "property": "C54",
   "status": "proved",
   "theorems": [
    "KGP.C54_stable",
    "KGP.C54_stable_orbit",
    "KGP.C54_initial_conditions",
    "KGP.C54_real_plunge",
    "KGP.C54_complex_plunge",
    "KGP.C54_orbit_complex_plunge",
    "KGP.C54_orbit_real_plunge"
   ],
   "note": ""
  },
  {
   "property": "C55",
   "status": "proved",
   "theorems": [
    "KGP.C55_plot",
    "KGP.C55_widths",
    "KGP.C55_degenerate",
    "KGP.C55_inside_violated",
    "KGP.C55_stable_orbit",
    "KGP.C55_plunge_violated"
   ],
   "note": ""
  },
  {
   "property": "C56",
   "status": "proved",
   "theorems": [
    "KGP.C56_animate",
    "KGP.C56_float_tail_violated",
    "KGP.C56_stable_orbit"
   ],
   "note": ""
  },
  {
   "property": "C57",
   "status": "proved",
   "theorems": [
    "KGP.C57_constants_continuous"
   ],
   "note": ""
  },
  {
   "property": "C58",
   "status": "proved",
   "theorems": [
    "KGP.C58_mino_frequencies_continuous",
    "KGP.C58_fundamental_frequencies_continuous",
    "KGP.C58_trajectory_continuous"
   ],
   "note": ""
  },
  {
   "property": "C59",
   "status": "proved",
   "theorems": [
    "KGP.C59_crosses_complex",
    "KGP.C59_diverges_complex",
    "KGP.C59_infall_complex",
    "KGP.C59_crosses_real",
    "KGP.C59_diverges_real"
   ],
   "note": ""
  },
  {
   "property": "C60",
   "status": "proved",
   "theorems": [
    "KGP.C60_order",
    "KGP.C60_sense"
   ],
   "note": ""
  },
  {
   "property": "C61",
   "status": "proved",
   "theorems": [
    "KGP.C61_whirl_retrograde",
    "KGP.C61_zoom_whirl",
    "KGP.C61_whirl"
   ],
   "note": ""
  },
  {
   "property": "C62",
   "status": "proved",
   "theorems": [
    "KGP.C62_kepler"
   ],
   "note": ""
  },
  {
   "property": "C63",
   "status": "proved",
   "theorems": [
    "KGP.C63_precession"
   ],
   "note": ""
  },
  {
   "property": "C64",
   "status": "proved",
   "theorems": [
    "KGP.C64_inclination",
    "KGP.C64_spin"
   ],
   "note": ""
  },
  {
   "property": "C65",
   "status": "proved",
   "theorems": [
    "KGP.C65_wider",
    "KGP.C65_orbits"
   ],
   "note": ""
  },
  {
   "property": "C66",
   "status": "proved",
   "theorems": [
    "KGP.C66_more_prograde"
   ],
   "note": ""
  },
  {
   "property": "C67",
   "status": "proved",
   "theorems": [
    "KGP.C67_separatrix",
    "KGP.C67_bound"
   ],
   "note": ""
  },
  {
   "property": "C68",
   "status": "proved",
   "theorems": [
    "KGP.C68_more_eccentric",
    "KGP.C68_orbits"
   ],
   "note": ""
  },
  {
   "property": "C69",
   "status": "proved",
   "theorems": [
    "KGP.C69_equatorial"
   ],
   "note": ""
  },
  {
   "property": "C70",
   "status": "proved",
   "theorems": [
    "KGP.C70_orbits",
    "KGP.C70_equatorial",
    "KGP.C70_polar"
   ],
   "note": ""
  },
  {
   "property": "C71",
   "status": "proved",
   "theorems": [
    "KGP.C71_first_law",
    "KGP.C71_circular"
   ],
   "note": ""
  },
  {
   "property": "C72",
   "status": "proved",
   "theorems": [
    "KGP.C72_constants_analytic",
    "KGP.C72_constants_derivative"
   ],
   "note": ""
  },
  {
   "property": "C73",
   "status": "proved",
   "theorems": [
    "KGP.C73_closed",
    "KGP.C73_dense",
    "KGP.C73_ratios"
   ],
   "note": ""
  },
  {
   "property": "C74",
   "status": "proved",
   "theorems": [
    "KGP.C74_elliptic",
    "KGP.C74_trajectory",
    "KGP.C74_four_velocity",
    "KGP.C74_plot_columns",
    "KGP.C74_norm_scalar_only"
   ],
   "note": ""
  },
  {
   "property": "C75",
   "status": "proved",
   "theorems": [
    "KGP.C75_bound",
    "KGP.C75_parameters",
    "KGP.C75_geodesic",
    "KGP.C75_energy"
   ],
   "note": ""
  },
  {
   "property": "C76",
   "status": "proved",
   "theorems": [
    "KGP.C76_constants",
    "KGP.C76_trajectory",
    "KGP.C76_frequencies",
    "KGP.C76_horizon_violation",
    "KGP.C76_divisor_violation"
   ],
   "note": ""
  },
  {
   "property": "C77",
   "status": "proved",
   "theorems": [
    "KGP.C77_plunge",
    "KGP.C77_geodesic",
    "KGP.C77_four_velocity"
   ],
   "note": ""
  },
  {
   "property": "C78",
   "status": "proved",
   "theorems": [
    "KGP.C78_plunge",
    "KGP.C78_geodesic",
    "KGP.C78_four_velocity"
   ],
   "note": ""
  },
  {
   "property": "C79",
   "status": "proved",
   "theorems": [
    "KGP.C79_energy_bounds",
    "KGP.C79_efficiency",
    "KGP.C79_initial_data"
   ],
   "note": ""
  },
  {
   "property": "C80",
   "status": "proved",
   "theorems": [
    "KGP.C80_initial_data",
    "KGP.C80_periapsis",
    "KGP.C80_sharp",
    "KGP.C80_trajectory"
   ],
   "note": ""
  },
  {
   "property": "C81",
   "status": "proved",
   "theorems": [
    "KGP.C81_equatorial_bounds",
    "KGP.C81_all_spins"
   ],
   "note": ""
  },
  {
   "property": "C82",
   "status": "proved",
   "theorems": [
    "KGP.C82_separatrix",
    "KGP.C82_bound",
    "KGP.C82_periapsis"
   ],
   "note": ""
  },
  {
   "property": "C83",
   "status": "proved",
   "theorems": [
    "KGP.C83_spherical_constants",
    "KGP.C83_innermost",
    "KGP.C83_whirl",
    "KGP.C83_marginally_bound",
    "KGP.C83_radial_frequency"
   ],
   "note": ""
  },
  {
   "property": "C84",
   "status": "proved",
   "theorems": [
    "KGP.C84_values",
    "KGP.C84_bounds",
    "KGP.C84_initial_data"
   ],
   "note": ""
  },
  {
   "property": "C85",
   "status": "proved",
   "theorems": [
    "KGP.C85_marginal",
    "KGP.C85_radius",
    "KGP.C85_energy_level",
    "KGP.C85_bounds",
    "KGP.C85_level_order",
    "KGP.C85_initial_data",
    "KGP.C85_well"
   ],
   "note": ""
  }
 ]
}
