{
 "claims": [
  {
   "property": "C01",
   "status": "proved",
   "theorems": [
    "Dg1d.Props.C01_clock"
   ],
   "note": "any scheme, residual and limiter that keeps t and n"
  },
  {
   "property": "C02",
   "status": "proved",
   "theorems": [
    "Dg1d.Props.C02_terminates",
    "Dg1d.Props.C02_terminates_exists"
   ],
   "note": ""
  },
  {
   "property": "C03",
   "status": "partial",
   "theorems": [
    "Dg1d.Props.C03_outputs_partial",
    "Dg1d.Props.C03_outputs_general_partial",
    "Dg1d.Props.C03_outputs_skipped"
   ],
   "note": "false in general (witness C03_outputs_skipped); proved when no CFL step exceeds the output spacing"
  },
  {
   "property": "C04",
   "status": "proved",
   "theorems": [
    "Dg1d.Props.C04_numbering",
    "Dg1d.Props.C04_one_output",
    "Dg1d.Props.C04_final_output"
   ],
   "note": ""
  },
  {
   "property": "C05",
   "status": "proved",
   "theorems": [
    "Dg1d.Props.C05_low_storage",
    "Dg1d.Props.C05_low_storage_generic"
   ],
   "note": ""
  },
  {
   "property": "C06",
   "status": "proved",
   "theorems": [
    "Dg1d.Props.C06_textbook_step",
    "Dg1d.Props.C06_textbook_step_generic",
    "Dg1d.Props.C06_successful_step",
    "Dg1d.Props.C07_no_tiny_coefficient"
   ],
   "note": "the residual is any function of the array that leaves the discretisation data of its argument alone"
  },
  {
   "property": "C07",
   "status": "proved",
   "theorems": [
    "Dg1d.Props.C07_exact_tables",
    "Dg1d.Props.C07_rounded_tables",
    "Dg1d.Props.C07_no_tiny_coefficient"
   ],
   "note": "the tables are the exact decimals/fractions written in the source"
  },
  {
   "property": "C08",
   "status": "proved",
   "theorems": [
    "Dg1d.Props.C08_order",
    "Dg1d.Props.C08_order_rational",
    "Dg1d.Props.C08_order_rk6",
    "Dg1d.Props.C08_integrate_order"
   ],
   "note": "order conditions of all rooted trees"
  },
  {
   "property": "C09",
   "status": "proved",
   "theorems": [
    "Dg1d.Props.C09_truncated_exponential",
    "Dg1d.Props.C09_exact_rk3_rk4",
    "Dg1d.Props.C09_integrate_step",
    "Dg1d.Props.C09_integrate_series"
   ],
   "note": ""
  },
  {
   "property": "C10",
   "status": "proved",
   "theorems": [
    "Dg1d.Props.C10_stability_function",
    "Dg1d.Props.C10_same_table",
    "Dg1d.Props.C10_solver",
    "Dg1d.Props.C10_solver_deck"
   ],
   "note": ""
  },
  {
   "property": "C11",
   "status": "proved",
   "theorems": [
    "Dg1d.Props.C11_default",
    "Dg1d.Props.C11_residual_evaluations",
    "Dg1d.Props.C11_names_distinct"
   ],
   "note": ""
  },
  {
   "property": "C12",
   "status": "proved",
   "theorems": [
    "Dg1d.Props.C12_cfl_size",
    "Dg1d.Props.C12_abort"
   ],
   "note": ""
  },
  {
   "property": "C22",
   "status": "proved",
   "theorems": [
    "Dg1d.Props.C22_basis_tables",
    "Dg1d.Props.C22_numpy_routines"
   ],
   "note": "leggauss is a parameter"
  },
  {
   "property": "C23",
   "status": "proved",
   "theorems": [
    "Dg1d.Props.C23_mass_matrix",
    "Dg1d.Props.C23_mass_matrix_integral"
   ],
   "note": ""
  },
  {
   "property": "C24",
   "status": "proved",
   "theorems": [
    "Dg1d.Props.C24_projection",
    "Dg1d.Props.C24_projection_missing_component"
   ],
   "note": "legfit is any least-squares minimiser, leggauss any Gauss rule (exists for every order: exists_gauss)"
  },
  {
   "property": "C25",
   "status": "proved",
   "theorems": [
    "Dg1d.Props.C25_shift",
    "Dg1d.Props.C25_integrate_product"
   ],
   "note": "Legendre objects are modelled by the polynomials they denote"
  },
  {
   "property": "C13",
   "status": "proved",
   "theorems": [
    "Dg1d.Props.C13_weak_form",
    "Dg1d.Props.C13_residual_fails",
    "Dg1d.Props.C13_advection"
   ],
   "note": "for every flux and interface-wise Riemann solver"
  },
  {
   "property": "C14",
   "status": "proved",
   "theorems": [
    "Dg1d.Props.C14_conservation"
   ],
   "note": ""
  },
  {
   "property": "C17",
   "status": "proved",
   "theorems": [
    "Dg1d.Props.C17_stencil"
   ],
   "note": ""
  },
  {
   "property": "C19",
   "status": "proved",
   "theorems": [
    "Dg1d.Props.C19_energy"
   ],
   "note": ""
  },
  {
   "property": "C20",
   "status": "proved",
   "theorems": [
    "Dg1d.Props.C20_exact_derivative"
   ],
   "note": ""
  },
  {
   "property": "C27",
   "status": "proved",
   "theorems": [
    "Dg1d.Props.C27_apply_bc"
   ],
   "note": ""
  },
  {
   "property": "C15",
   "status": "proved",
   "theorems": [
    "Dg1d.Props.C15_limited",
    "Dg1d.Props.C15_conservation"
   ],
   "note": "C15_limited: solver, physics and limiter of the code"
  },
  {
   "property": "C16",
   "status": "proved",
   "theorems": [
    "Dg1d.Props.C16_limited",
    "Dg1d.Props.C16_uniform_residual",
    "Dg1d.Props.C16_uniform_flow"
   ],
   "note": "C16_limited: solver, physics, enhancement and limiter of the code; periodic or zero-gradient boundaries"
  },
  {
   "property": "C18",
   "status": "proved",
   "theorems": [
    "Dg1d.Props.C18_residual_shift",
    "Dg1d.Props.C18_run_shift",
    "Dg1d.Props.C18_run_code"
   ],
   "note": ""
  },
  {
   "property": "C21",
   "status": "partial",
   "theorems": [
    "Dg1d.Props.C21_residual_ghosts",
    "Dg1d.Props.C21_run_ghosts_partial",
    "Dg1d.Props.C21_run_code_partial",
    "Dg1d.Props.C21_first_step",
    "Dg1d.Props.C21_steps_partial",
    "Dg1d.Props.C21_stale_ghosts"
   ],
   "note": "a run needs filled ghost cells at its start (C21_first_step, C21_run_code_partial); second sentence is false: C21_stale_ghosts; it holds at the end of every step: C21_steps_partial"
  },
  {
   "property": "C37",
   "status": "proved",
   "theorems": [
    "Dg1d.Props.C37_interior_flux",
    "Dg1d.Props.C37_advection"
   ],
   "note": ""
  },
  {
   "property": "C38",
   "status": "proved",
   "theorems": [
    "Dg1d.Props.C38_consistent",
    "Dg1d.Props.C38_godunov",
    "Dg1d.Props.C38_advection"
   ],
   "note": "physical states"
  },
  {
   "property": "C39",
   "status": "proved",
   "theorems": [
    "Dg1d.Props.C39_rusanov",
    "Dg1d.Props.C39_roe",
    "Dg1d.Props.C39_roe_property"
   ],
   "note": ""
  },
  {
   "property": "C40",
   "status": "proved",
   "theorems": [
    "Dg1d.Props.C40_mirror",
    "Dg1d.Props.C40_godunov_mirror",
    "Dg1d.Props.C40_godunov_not_mirror"
   ],
   "note": "Godunov: true unless both states run into each other supersonically, with a witness for that case"
  },
  {
   "property": "C41",
   "status": "proved",
   "theorems": [
    "Dg1d.Props.C41_roe_supersonic",
    "Dg1d.Props.C41_godunov_left",
    "Dg1d.Props.C41_godunov_right"
   ],
   "note": ""
  },
  {
   "property": "C42",
   "status": "proved",
   "theorems": [
    "Dg1d.Props.C42_roe_contact",
    "Dg1d.Props.C42_godunov_contact",
    "Dg1d.Props.C42_rusanov_contact"
   ],
   "note": ""
  },
  {
   "property": "C43",
   "status": "proved",
   "theorems": [
    "Dg1d.Props.C43_entropy_fix"
   ],
   "note": ""
  },
  {
   "property": "C46",
   "status": "proved",
   "theorems": [
    "Dg1d.Props.C46_bound",
    "Dg1d.Props.C46_breakdown",
    "Dg1d.Props.C46_advection"
   ],
   "note": ""
  },
  {
   "property": "C47",
   "status": "proved",
   "theorems": [
    "Dg1d.Props.C47_local",
    "Dg1d.Props.C47_fails",
    "Dg1d.Props.C47_advection"
   ],
   "note": ""
  },
  {
   "property": "C44",
   "status": "proved",
   "theorems": [
    "Dg1d.Props.C44_iteration",
    "Dg1d.Props.C44_vacuum",
    "Dg1d.Props.C44_onset",
    "Dg1d.Props.C44_onset_witness"
   ],
   "note": "exact real arithmetic, physical states; at the onset of vacuum the claim about the sonic cases is false, with a witness"
  },
  {
   "property": "C45",
   "status": "proved",
   "theorems": [
    "Dg1d.Props.C45_velocity",
    "Dg1d.Props.C45_shock",
    "Dg1d.Props.C45_expansion",
    "Dg1d.Props.C45_sonic",
    "Dg1d.Props.C45_two_expansions",
    "Dg1d.Props.C44_iteration"
   ],
   "note": "C44_iteration ties the code to these formulas"
  },
  {
   "property": "C48",
   "status": "proved",
   "theorems": [
    "Dg1d.Props.C48_flags",
    "Dg1d.Props.C48_window",
    "Dg1d.Props.C48_none",
    "Dg1d.Props.C48_no_threshold"
   ],
   "note": ""
  },
  {
   "property": "C49",
   "status": "proved",
   "theorems": [
    "Dg1d.Props.C49_flags",
    "Dg1d.Props.C49_thresholds",
    "Dg1d.Props.C49_uniform",
    "Dg1d.Props.C49_contact"
   ],
   "note": "physical cell averages"
  },
  {
   "property": "C50",
   "status": "partial",
   "theorems": [
    "Dg1d.Props.C50_advection_partial",
    "Dg1d.Props.C50_advection_product_partial",
    "Dg1d.Props.C50_advection_fails",
    "Dg1d.Props.C50_advection_counterexample",
    "Dg1d.Props.C50_shock"
   ],
   "note": "advection: false in general; proved for jumps up to 1, and for pairs of jumps whose product is at most 1, which is exactly where it holds for all thresholds (C50_advection_fails gives a threshold for every other pair); Euler shock flag: proved"
  },
  {
   "property": "C51",
   "status": "partial",
   "theorems": [
    "Dg1d.Props.C51_contact_partial",
    "Dg1d.Props.C51_mirror_partial",
    "Dg1d.Props.C51_waves_partial",
    "Dg1d.Props.C51_counterexample"
   ],
   "note": "false in general (witness); proved for the discontinuity flag, for flows where the test on the characteristics and its mirror image agree, and for flows of single waves (gamma at most 5/3)"
  },
  {
   "property": "C52",
   "status": "proved",
   "theorems": [
    "Dg1d.Props.C52_averages",
    "Dg1d.Props.C52_hr"
   ],
   "note": ""
  },
  {
   "property": "C53",
   "status": "proved",
   "theorems": [
    "Dg1d.Props.C53_smooth"
   ],
   "note": "order >= 1 (order 0 raises, C60)"
  },
  {
   "property": "C54",
   "status": "proved",
   "theorems": [
    "Dg1d.Props.C54_minmod"
   ],
   "note": ""
  },
  {
   "property": "C55",
   "status": "proved",
   "theorems": [
    "Dg1d.Props.C55_extrema",
    "Dg1d.Props.C55_hr_twice",
    "Dg1d.Props.C55_twice",
    "Dg1d.Props.C55_advection",
    "Dg1d.Props.C55_euler"
   ],
   "note": ""
  },
  {
   "property": "C56",
   "status": "proved",
   "theorems": [
    "Dg1d.Props.C56_mirror",
    "Dg1d.Props.C56_constant",
    "Dg1d.Props.C56_scalar"
   ],
   "note": ""
  },
  {
   "property": "C57",
   "status": "proved",
   "theorems": [
    "Dg1d.Props.C57_limit",
    "Dg1d.Props.C57_disabled",
    "Dg1d.Props.C57_no_sensors"
   ],
   "note": ""
  },
  {
   "property": "C58",
   "status": "proved",
   "theorems": [
    "Dg1d.Props.C58_transforms"
   ],
   "note": "numpy.linalg.inv is modelled as the exact inverse"
  },
  {
   "property": "C59",
   "status": "proved",
   "theorems": [
    "Dg1d.Props.C59_integral",
    "Dg1d.Props.C59_bounds"
   ],
   "note": ""
  },
  {
   "property": "C60",
   "status": "partial",
   "theorems": [
    "Dg1d.Props.C60_init",
    "Dg1d.Props.C60_works_partial",
    "Dg1d.Props.C60_order_zero"
   ],
   "note": "false for order 0 (the limiter raises as soon as a cell is flagged); proved for every order >= 1"
  },
  {
   "property": "C66",
   "status": "proved",
   "theorems": [
    "Dg1d.Props.C66_reconstruction"
   ],
   "note": ""
  },
  {
   "property": "C61",
   "status": "proved",
   "theorems": [
    "Dg1d.Props.C61_faces_exact",
    "Dg1d.Props.C61_weights_exact"
   ],
   "note": "np.linalg.inv taken exact"
  },
  {
   "property": "C62",
   "status": "proved",
   "theorems": [
    "Dg1d.Props.C62_lengths",
    "Dg1d.Props.C62_excluded",
    "Dg1d.Props.C62_unique",
    "Dg1d.Props.C62_perm",
    "Dg1d.Props.C62_too_high",
    "Dg1d.Props.C62_bad_modes"
   ],
   "note": "placement stated as uniqueness of exact weights"
  },
  {
   "property": "C63",
   "status": "proved",
   "theorems": [
    "Dg1d.Props.C63_mirror"
   ],
   "note": ""
  },
  {
   "property": "C64",
   "status": "proved",
   "theorems": [
    "Dg1d.Props.C64_leading"
   ],
   "note": "over the reals, any m"
  },
  {
   "property": "C26",
   "status": "proved",
   "theorems": [
    "Dg1d.Props.C26_mesh"
   ],
   "note": ""
  },
  {
   "property": "C28",
   "status": "proved",
   "theorems": [
    "Dg1d.Props.C28_simplew",
    "Dg1d.Props.C28_simplew_covers",
    "Dg1d.Props.C28_entrpyw",
    "Dg1d.Props.C28_acsticw",
    "Dg1d.Props.C28_shuoshe",
    "Dg1d.Props.C28_scktube"
   ],
   "note": "exact real arithmetic"
  },
  {
   "property": "C29",
   "status": "partial",
   "theorems": [
    "Dg1d.Props.C29_independent_partial",
    "Dg1d.Props.C29_shared_gamma"
   ],
   "note": "false in general (witness); proved for histories that agree in using simplew, and for advection"
  },
  {
   "property": "C30",
   "status": "partial",
   "theorems": [
    "Dg1d.Props.C30_never_raises_partial",
    "Dg1d.Props.C30_unknown_name",
    "Dg1d.Props.C30_bad_count",
    "Dg1d.Props.C30_half_built",
    "Dg1d.Props.C30_shock_tube_exits",
    "Dg1d.Props.C30_blank_line_raises",
    "Dg1d.Props.C30_negative_cells"
   ],
   "note": "first sentence false (half-built solutions, exits); proved: which lines raise and which give an empty solution"
  },
  {
   "property": "C67",
   "status": "proved",
   "theorems": [
    "Dg1d.Props.C67_construct",
    "Dg1d.Props.C67_no_enhancement",
    "Dg1d.Props.C67_enhancement"
   ],
   "note": ""
  },
  {
   "property": "C31",
   "status": "proved",
   "theorems": [
    "Dg1d.Props.C31_names",
    "Dg1d.Props.C31_fields",
    "Dg1d.Props.C31_form"
   ],
   "note": "Names over any field names that do not end in a digit; the fields of both systems and the sensor file are shown to be such."
  },
  {
   "property": "C32",
   "status": "proved",
   "theorems": [
    "Dg1d.Props.C32_files"
   ],
   "note": "The whole text of every file, and no other file touched."
  },
  {
   "property": "C33",
   "status": "proved",
   "theorems": [
    "Dg1d.Props.C33_round_trip",
    "Dg1d.Props.C33_one_cell",
    "Dg1d.Props.C33_missing"
   ],
   "note": "Relative to a contract for number text (FloatText.Ok): printing with 19 digits and reading back gives the same number."
  },
  {
   "property": "C34",
   "status": "partial",
   "theorems": [
    "Dg1d.Props.C34_not_reapplied",
    "Dg1d.Props.C34_ghosts_lost",
    "Dg1d.Props.C34_literal_names_partial",
    "Dg1d.Props.C34_resume_euler",
    "Dg1d.Props.C34_resume_advection"
   ],
   "note": "False of the code; negation proved. With the names replaced by literals apply_bc restores the ghost cells. A resumed Euler run stops at its first time step (C34_resume_euler); resumed advection loses its inflow (C34_resume_advection)."
  },
  {
   "property": "C35",
   "status": "proved",
   "theorems": [
    "Dg1d.Props.C35_round_trip",
    "Dg1d.Props.C35_bad_value"
   ],
   "note": ""
  },
  {
   "property": "C36",
   "status": "proved",
   "theorems": [
    "Dg1d.Props.C36_entries",
    "Dg1d.Props.C36_keyword_last",
    "Dg1d.Props.C36_cover",
    "Dg1d.Props.C36_bad_value",
    "Dg1d.Props.C36_file"
   ],
   "note": ""
  },
  {
   "property": "C65",
   "status": "proved",
   "theorems": [
    "Dg1d.Props.C65_dg_cell",
    "Dg1d.Props.C65_dg",
    "Dg1d.Props.C65_icb_cell",
    "Dg1d.Props.C65_icb",
    "Dg1d.Props.C65_icb_defined"
   ],
   "note": "the sympy symbol T is a complex number, numerical quadrature and np.linalg.inv are exact"
  },
  {
   "property": "C68",
   "status": "proved",
   "theorems": [
    "Dg1d.Props.C68_energy",
    "Dg1d.Props.C68_spectrum"
   ],
   "note": ""
  },
  {
   "property": "C69",
   "status": "proved",
   "theorems": [
    "Dg1d.Props.C69_starts"
   ],
   "note": ""
  },
  {
   "property": "C70",
   "status": "proved",
   "theorems": [
    "Dg1d.Props.C70_files",
    "Dg1d.Props.C70_regression_decks"
   ],
   "note": ""
  },
  {
   "property": "C71",
   "status": "proved",
   "theorems": [
    "Dg1d.Props.C71_advection_finishes"
   ],
   "note": ""
  },
  {
   "property": "C72",
   "status": "proved",
   "theorems": [
    "Dg1d.Props.C72_conservation"
   ],
   "note": ""
  },
  {
   "property": "C73",
   "status": "proved",
   "theorems": [
    "Dg1d.Props.C73_constant_state"
   ],
   "note": ""
  },
  {
   "property": "C74",
   "status": "proved",
   "theorems": [
    "Dg1d.Props.C74_superposition"
   ],
   "note": ""
  },
  {
   "property": "C75",
   "status": "proved",
   "theorems": [
    "Dg1d.Props.C75_rk3_energy",
    "Dg1d.Props.C75_deck"
   ],
   "note": ""
  },
  {
   "property": "C76",
   "status": "proved",
   "theorems": [
    "Dg1d.Props.C76_local_error",
    "Dg1d.Props.C76_exact_solution",
    "Dg1d.Props.C76_smooth",
    "Dg1d.Props.C76_smooth_advection",
    "Dg1d.Props.C76_smooth_rusanov",
    "Dg1d.Props.C76_smooth_roe"
   ],
   "note": "exact arithmetic, schemes of order 3 to 6, limiter off; where the fluxes are not differentiable (ties of max and abs, entropy fix thresholds) no order is claimed; Godunov is not covered because its iteration stops after a data dependent number of steps"
  },
  {
   "property": "C77",
   "status": "proved",
   "theorems": [
    "Dg1d.Props.C77_convergence",
    "Dg1d.Props.C77_exact_solution",
    "Dg1d.Props.C77_advection_solution",
    "Dg1d.Props.C77_advection"
   ],
   "note": "exact arithmetic, convergence to the semi-discrete solution on a fixed mesh; in the nonlinear theorem the runs are assumed not to fail and to take steps up to H"
  },
  {
   "property": "C78",
   "status": "proved",
   "theorems": [
    "Dg1d.Props.C78_convergence",
    "Dg1d.Props.C78_solution",
    "Dg1d.Props.C78_deck",
    "Dg1d.Props.C78_order"
   ],
   "note": "Stability from C75, consistency by a projection exact at the outflow edge of each cell."
  },
  {
   "property": "C79",
   "status": "proved",
   "theorems": [
    "Dg1d.Props.C79_bounds",
    "Dg1d.Props.C79_comparison",
    "Dg1d.Props.C79_variation",
    "Dg1d.Props.C79_deck",
    "Dg1d.Props.C79_sharp"
   ],
   "note": "Comparison uses the superposition theorem C74."
  },
  {
   "property": "C80",
   "status": "proved",
   "theorems": [
    "Dg1d.Props.C80_run_mirror",
    "Dg1d.Props.C80_symmetric"
   ],
   "note": "Whole runs of the code with the limiter off, errors and NaN included. `IsMirror` compares the polynomials at every point, ghost cells included. Exact arithmetic."
  },
  {
   "property": "C81",
   "status": "proved",
   "theorems": [
    "Dg1d.Props.C81_refines",
    "Dg1d.Props.C81_outputs",
    "Dg1d.Props.C81_one_output"
   ],
   "note": "The clock with a rounding function after every operation; refinement to the program for rnd = id."
  },
  {
   "property": "C82",
   "status": "proved",
   "theorems": [
    "Dg1d.Props.C82_final_time",
    "Dg1d.Props.C82_final_time_near",
    "Dg1d.Props.C82_output_times",
    "Dg1d.Props.C82_final_time_missed"
   ],
   "note": "C82_final_time_missed shows that the step condition of C82_final_time is needed."
  },
  {
   "property": "C83",
   "status": "proved",
   "theorems": [
    "Dg1d.Props.C83_terminates",
    "Dg1d.Props.C83_stuck"
   ],
   "note": "C83_stuck: the loop that never ends above time 128."
  },
  {
   "property": "C84",
   "status": "proved",
   "theorems": [
    "Dg1d.Props.C84_final_set",
    "Dg1d.Props.C84_pass_iff",
    "Dg1d.Props.C84_reproduces",
    "Dg1d.Props.C84_other_files",
    "Dg1d.Props.C84_regression_suite"
   ],
   "note": "Numbers as read back from 19 digits; exact arithmetic in the run."
  },
  {
   "property": "C85",
   "status": "proved",
   "theorems": [
    "Dg1d.Props.C85_norms",
    "Dg1d.Props.C85_study",
    "Dg1d.Props.C85_rates"
   ],
   "note": "The step at the last output is exact because the CFL step is below the output interval (C03)."
  },
  {
   "property": "C86",
   "status": "proved",
   "theorems": [
    "Dg1d.Props.C86_exact_boundary",
    "Dg1d.Props.C86_gap",
    "Dg1d.Props.C86_schemes",
    "Dg1d.Props.C86_sampled",
    "Dg1d.Props.C86_eigenvalues"
   ],
   "note": "np.roots and nla.eigvals enter through their contracts (all roots with multiplicity); exact arithmetic."
  },
  {
   "property": "C87",
   "status": "proved",
   "theorems": [
    "Dg1d.Props.C87_advection",
    "Dg1d.Props.C87_euler",
    "Dg1d.Props.C87_air",
    "Dg1d.Props.C87_wrong_pressure",
    "Dg1d.Props.C87_sensors",
    "Dg1d.Props.C87_left_over",
    "Dg1d.Props.C87_tool",
    "Dg1d.Props.C87_missing",
    "Dg1d.Props.C87_averages"
   ],
   "note": "The claim includes the wrong pressure for gamma other than 1.4. Markers only; curves of exact solutions, colours and windows are not modelled. Exact arithmetic."
  },
  {
   "property": "C88",
   "status": "proved",
   "theorems": [
    "Dg1d.Props.C88_reading",
    "Dg1d.Props.C88_run",
    "Dg1d.Props.C88_time_bound",
    "Dg1d.Props.C88_godunov",
    "Dg1d.Props.C88_advection_sensor"
   ],
   "note": "The claim includes the three absolute constants: time step bound, Godunov tolerance, advection sensor. Exact arithmetic."
  },
  {
   "property": "C89",
   "status": "proved",
   "theorems": [
    "Dg1d.Props.C89_order_zero",
    "Dg1d.Props.C89_cfl",
    "Dg1d.Props.C89_averages",
    "Dg1d.Props.C89_trapezoid",
    "Dg1d.Props.C89_simpson",
    "Dg1d.Props.C89_roe_negative"
   ],
   "note": "About the state plus dt times the residual, the increment every scheme of the code is built from, not about a full Runge-Kutta step. The claim includes the failure of the Roe flux. Exact arithmetic."
  },
  {
   "property": "C90",
   "status": "proved",
   "theorems": [
    "Dg1d.Props.C90_near_order",
    "Dg1d.Props.C90_sharp",
    "Dg1d.Props.C90_local_error"
   ],
   "note": "The coefficients are the decimals of the source as exact rationals, not the nearest doubles. For rk12 and rk14, which the statement leaves out, C90_near_order_rk12_rk14_partial covers orders up to 10 and 9."
  },
  {
   "property": "C91",
   "status": "proved",
   "theorems": [
    "Dg1d.Props.C91_run",
    "Dg1d.Props.C91_separate",
    "Dg1d.Props.C91_frame",
    "Dg1d.Props.C91_program",
    "Dg1d.Props.C91_shared"
   ],
   "note": "The store after an exception is not described. Attributes that are never changed in place are values in the store model too."
  },
  {
   "property": "C92",
   "status": "proved",
   "theorems": [
    "Dg1d.Props.C92_committed",
    "Dg1d.Props.C92_as_committed",
    "Dg1d.Props.C92_run",
    "Dg1d.Props.C92_twice",
    "Dg1d.Props.C92_plot",
    "Dg1d.Props.C92_four",
    "Dg1d.Props.C92_theory"
   ],
   "note": "The committed scripts fail (C92_committed, C92_as_committed); the other theorems are about run.py with the full path of the program. Data directory modelled down to two levels; the shell splits at blanks only."
  },
  {
   "property": "C93",
   "status": "proved",
   "theorems": [
    "Dg1d.Props.C93_timer",
    "Dg1d.Props.C93_day"
   ],
   "note": "Any deck with a valid initial condition; without warnings of numpy. float is assumed to refuse texts with colons. C93_day is about the scripts of C92 with the full path of the program."
  },
  {
   "property": "C94",
   "status": "proved",
   "theorems": [
    "Dg1d.Props.C94_deck_name",
    "Dg1d.Props.C94_starts",
    "Dg1d.Props.C94_usage",
    "Dg1d.Props.C94_no_git",
    "Dg1d.Props.C94_launch",
    "Dg1d.Props.C94_not_started"
   ],
   "note": "Words with a leading dash other than -d and --deck are not modelled. The shell splits at blanks only."
  },
  {
   "property": "C95",
   "status": "proved",
   "theorems": [
    "Dg1d.Props.C95_figures",
    "Dg1d.Props.C95_no_figure"
   ],
   "note": "Coordinates of circles and lines and the names of the files; colours and labels are not modelled."
  },
  {
   "property": "C96",
   "status": "proved",
   "theorems": [
    "Dg1d.Props.C96_clock",
    "Dg1d.Props.C96_continue",
    "Dg1d.Props.C96_program"
   ],
   "note": "Continuation in memory; from the files see C34. Exact arithmetic."
  },
  {
   "property": "C97",
   "status": "proved",
   "theorems": [
    "Dg1d.Props.C97_limit",
    "Dg1d.Props.C97_run",
    "Dg1d.Props.C97_program",
    "Dg1d.Props.C97_sharp_advection",
    "Dg1d.Props.C97_sharp_euler"
   ],
   "note": "Exact arithmetic. The program statement is about the deck as parsed."
  },
  {
   "property": "C98",
   "status": "proved",
   "theorems": [
    "Dg1d.Props.C98_bounds",
    "Dg1d.Props.C98_variation",
    "Dg1d.Props.C98_monotone",
    "Dg1d.Props.C98_deck"
   ],
   "note": "Exact arithmetic. Left boundary zero gradient only: with periodic boundaries the ghost cells are stale inside a step, and the statement is not proved there. The CFL limits are sufficient, not claimed to be sharp."
  },
  {
   "property": "C99",
   "status": "proved",
   "theorems": [
    "Dg1d.Props.C99_flux",
    "Dg1d.Props.C99_run",
    "Dg1d.Props.C99_checked",
    "Dg1d.Props.C99_density",
    "Dg1d.Props.C99_reading"
   ],
   "note": "Exact arithmetic, limiter off. The run theorem is about the residual stopped at quadrature points of zero density (NaN in the code); C99_checked shows that its run is the run of the code until it stops."
  },
  {
   "property": "C100",
   "status": "proved",
   "theorems": [
    "Dg1d.Props.C100_solution",
    "Dg1d.Props.C100_convergence",
    "Dg1d.Props.C100_fine",
    "Dg1d.Props.C100_deck"
   ],
   "note": "Exact arithmetic. C100_convergence is about the residual stopped at inadmissible densities (NaN in the code); C100_fine and C100_deck show that on fine meshes this is the run of the code."
  },
  {
   "property": "C101",
   "status": "proved",
   "theorems": [
    "Dg1d.Props.C101_order",
    "Dg1d.Props.C101_solver"
   ],
   "note": "Exact arithmetic, unlimited unenhanced advection on a periodic domain."
  },
  {
   "property": "C102",
   "status": "proved",
   "theorems": [
    "Dg1d.Props.C102_flux",
    "Dg1d.Props.C102_rusanov",
    "Dg1d.Props.C102_expansion",
    "Dg1d.Props.C102_rest",
    "Dg1d.Props.C102_run",
    "Dg1d.Props.C102_blurred",
    "Dg1d.Props.C102_program"
   ],
   "note": "Exact arithmetic. C102_run and C102_program without enhancement."
  },
  {
   "property": "C103",
   "status": "proved",
   "theorems": [
    "Dg1d.Props.C103_averages",
    "Dg1d.Props.C103_start",
    "Dg1d.Props.C103_deck",
    "Dg1d.Props.C103_order",
    "Dg1d.Props.C103_study"
   ],
   "note": "Exact arithmetic. rk3, rk4, low_storage_rk4, rk5, rk6; the study itself uses rk12, whose decimal coefficients meet no order condition exactly."
  },
  {
   "property": "C104",
   "status": "proved",
   "theorems": [
    "Dg1d.Props.C104_refines",
    "Dg1d.Props.C104_program",
    "Dg1d.Props.C104_binary64",
    "Dg1d.Props.C104_step",
    "Dg1d.Props.C104_run",
    "Dg1d.Props.C104_error",
    "Dg1d.Props.C104_deck"
   ],
   "note": "Overflow excluded. Accuracy of the stored tables is a hypothesis. The steps are given (clock and outputs with rounding: C81-C83). Step bound for any table, run bounds for rk3."
  },
  {
   "property": "C105",
   "status": "proved",
   "theorems": [
    "Dg1d.Props.C105_linear_order",
    "Dg1d.Props.C105_linear_sharp",
    "Dg1d.Props.C105_moderate",
    "Dg1d.Props.C105_linear_step",
    "Dg1d.Props.C105_averages",
    "Dg1d.Props.C105_deck",
    "Dg1d.Props.C105_study"
   ],
   "note": "The conditions of trees that branch up to order 12 and 14 stay open for rk12 and rk14 (C90, partial); linear problems do not need them."
  },
  {
   "property": "C106",
   "status": "proved",
   "theorems": [
    "Dg1d.Props.C106_real",
    "Dg1d.Props.C106_stops",
    "Dg1d.Props.C106_outputs",
    "Dg1d.Props.C106_detect",
    "Dg1d.Props.C106_silent",
    "Dg1d.Props.C106_solvers",
    "Dg1d.Props.C106_deck",
    "Dg1d.Props.C106_wave"
   ],
   "note": "C106_silent shows that the converse reading, runs that end normally hold no NaN, is false. A product of zero and NaN in np.dot counts as NaN; infinities other than those that turn into NaN at once are not modelled."
  },
  {
   "property": "C107",
   "status": "proved",
   "theorems": [
    "Dg1d.Props.C107_face",
    "Dg1d.Props.C107_found",
    "Dg1d.Props.C107_flags",
    "Dg1d.Props.C107_missed"
   ],
   "note": "gamma is 1.4 in the code (dg1d/constants.py), so the bound 5/3 holds there."
  },
  {
   "property": "C108",
   "status": "proved",
   "theorems": [
    "Dg1d.Props.C108_upstream",
    "Dg1d.Props.C108_quiet",
    "Dg1d.Props.C108_enhanced"
   ],
   "note": "Exact arithmetic. With a periodic left boundary the first cell has the last one as neighbour, so the zero-gradient hypothesis is needed."
  },
  {
   "property": "C109",
   "status": "proved",
   "theorems": [
    "Dg1d.Props.C109_real",
    "Dg1d.Props.C109_own",
    "Dg1d.Props.C109_right",
    "Dg1d.Props.C109_left",
    "Dg1d.Props.C109_array",
    "Dg1d.Props.C109_kept",
    "Dg1d.Props.C109_average",
    "Dg1d.Props.C109_model"
   ],
   "note": "NaN is modelled as absorbing with all comparisons false; list.sort of three elements as in CPython up to 3.12. The flags are arbitrary; those of the Euler sensor are in C111."
  },
  {
   "property": "C110",
   "status": "proved",
   "theorems": [
    "Dg1d.Props.C110_barrier",
    "Dg1d.Props.C110_linear"
   ],
   "note": "The counterpart of C79. Euler and the limited runs are not covered."
  },
  {
   "property": "C111",
   "status": "proved",
   "theorems": [
    "Dg1d.Props.C111_total",
    "Dg1d.Props.C111_blind",
    "Dg1d.Props.C111_model",
    "Dg1d.Props.C111_real",
    "Dg1d.Props.C111_stops",
    "Dg1d.Props.C111_outputs",
    "Dg1d.Props.C111_detect",
    "Dg1d.Props.C111_deck",
    "Dg1d.Props.C111_silent"
   ],
   "note": "C111_deck covers decks whose initial limiting succeeds in the model (C69). Infinities are treated as in C106."
  },
  {
   "property": "C112",
   "status": "proved",
   "theorems": [
    "Dg1d.Props.C112_own",
    "Dg1d.Props.C112_off",
    "Dg1d.Props.C112_deck",
    "Dg1d.Props.C112_advection",
    "Dg1d.Props.C112_euler",
    "Dg1d.Props.C112_silent",
    "Dg1d.Props.C112_share"
   ],
   "note": "C112_euler speaks of outputs whose cell averages are physical states."
  },
  {
   "property": "C113",
   "status": "proved",
   "theorems": [
    "Dg1d.Props.C113_counts",
    "Dg1d.Props.C113_skips",
    "Dg1d.Props.C113_rest",
    "Dg1d.Props.C113_idle",
    "Dg1d.Props.C113_deck",
    "Dg1d.Props.C113_wasted"
   ],
   "note": "Finding: when the output interval is a multiple of the CFL step the code makes one step of length zero per output. Exact arithmetic; C81-C83 treat the clock with rounding."
  },
  {
   "property": "C114",
   "status": "proved",
   "theorems": [
    "Dg1d.Props.C114_steady",
    "Dg1d.Props.C114_step",
    "Dg1d.Props.C114_deck",
    "Dg1d.Props.C114_limit",
    "Dg1d.Props.C114_damped",
    "Dg1d.Props.C114_rk4",
    "Dg1d.Props.C114_rk4_limit"
   ],
   "note": "Exact arithmetic. The factor rho is shown to exist, not computed. C114_step, C114_deck and C114_limit are for rk3, C114_rk4 and C114_rk4_limit for rk4 and low_storage_rk4."
  },
  {
   "property": "C115",
   "status": "proved",
   "theorems": [
    "Dg1d.Props.C115_steps",
    "Dg1d.Props.C115_outputs",
    "Dg1d.Props.C115_deck",
    "Dg1d.Props.C115_gain",
    "Dg1d.Props.C115_single"
   ],
   "note": "Companion of C75 (rk3) for the fourth order schemes. The CFL bound is a sixth of that of C75."
  },
  {
   "property": "C116",
   "status": "proved",
   "theorems": [
    "Dg1d.Props.C116_rk3",
    "Dg1d.Props.C116_rk4",
    "Dg1d.Props.C116_rk4_outputs",
    "Dg1d.Props.C116_converge",
    "Dg1d.Props.C116_converge_rk3"
   ],
   "note": "Sensitivity to the initial data; the difference of two runs is a run (C74), to which C75, C114 and C115 apply."
  },
  {
   "property": "C117",
   "status": "proved",
   "theorems": [
    "Dg1d.Props.C117_drawn",
    "Dg1d.Props.C117_time",
    "Dg1d.Props.C117_between",
    "Dg1d.Props.C117_other",
    "Dg1d.Props.C117_outputs",
    "Dg1d.Props.C117_apart"
   ],
   "note": "The curve is independent of the time of the output, which is right for runs of whole periods such as the default deck (final time 1) and the convergence study (final time 8)."
  },
  {
   "property": "C118",
   "status": "proved",
   "theorems": [
    "Dg1d.Props.C118_made",
    "Dg1d.Props.C118_exists",
    "Dg1d.Props.C118_fails",
    "Dg1d.Props.C118_twice"
   ],
   "note": "os.path.exists, os.mkdir and os.makedirs of the Python library are modelled by hand after the source of Python 3.11 (os.py): no links, permissions, races, absolute paths, or . and .. as names. makedir is called nowhere in the repository."
  }
 ]
}